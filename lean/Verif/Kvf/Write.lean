import Verif.Kvf.Log
/-! # What programs and erases do to a bank, with errors and power failures -/
namespace Wolf.Kvf

/-- A power failure leaves a header quadword either as it was (erased) or completely written; other quadwords may be
left with any value. -/
def Atomic (f : Qw → Qw) : Prop := ∀ q, (q.take 4 = [82, 69, 67, 49] ∨ q.take 4 = [66, 78, 75, 49]) → f q = q ∨ f q = ers

/-- Outcomes in which headers are not torn. -/
def Good (o : List Out) : Prop := ∀ x ∈ o, ∀ f m, x = .cut f m → Atomic f

theorem Good.tail {o : List Out} (h : Good o) : Good o.tail := fun x hx => h x (List.mem_of_mem_tail hx)

theorem Good.head {o : List Out} (h : Good o) (f : Qw → Qw) (m : Nat → Bool) (hd : o.headD .ok = .cut f m) : Atomic f := by
  cases o with
  | nil => cases hd
  | cons x o => exact h x (by simp) f m hd

theorem get_put_same (f : Fl) (x : Bool) (k : Bank) : (f.put x k).get x = k := by cases x <;> rfl
theorem get_put_other (f : Fl) (x : Bool) (k : Bank) : (f.put x k).get (!x) = f.get (!x) := by cases x <;> rfl
theorem put_get (f : Fl) (x : Bool) : f.put x (f.get x) = f := by cases x <;> rfl

theorem fl_ext (f g : Fl) (x : Bool) (h1 : f.get x = g.get x) (h2 : f.get (!x) = g.get (!x)) : f = g := by
  cases f; cases g; cases x <;> simp [Fl.get] at h1 h2 <;> simp [h1, h2]

/-- The cases of one program. -/
theorem prog_cases (f : Fl) (x : Bool) (i : Nat) (q : Qw) (o : List Out) (ho : Good o) :
    (prog f x i q o).1.get (!x) = f.get (!x) ∧ Good (prog f x i q o).2.2 ∧
    (((prog f x i q o).2.1 = .ok ∧ (f.get x)[i]? = some ers ∧ (prog f x i q o).1.get x = (f.get x).set i q) ∨
     ((prog f x i q o).2.1 = .err ∧ (prog f x i q o).1.get x = f.get x) ∨
     ((prog f x i q o).2.1 = .crash ∧ (prog f x i q o).1.get x = f.get x) ∨
     ((prog f x i q o).2.1 = .crash ∧ (f.get x)[i]? = some ers ∧ ∃ g, Atomic g ∧ (prog f x i q o).1.get x = (f.get x).set i (g q))) := by
  unfold prog
  cases hd : o.headD .ok with
  | ok =>
    dsimp only
    by_cases he : (f.get x)[i]? = some ers
    · rw [if_pos he]; exact ⟨get_put_other _ _ _, ho.tail, Or.inl ⟨rfl, he, get_put_same _ _ _⟩⟩
    · rw [if_neg he]; exact ⟨rfl, ho.tail, Or.inr (Or.inl ⟨rfl, rfl⟩)⟩
  | bad m => exact ⟨rfl, ho.tail, Or.inr (Or.inl ⟨rfl, rfl⟩)⟩
  | cut g m =>
    dsimp only
    by_cases he : (f.get x)[i]? = some ers
    · rw [if_pos he]
      exact ⟨get_put_other _ _ _, ho.tail, Or.inr (Or.inr (Or.inr ⟨rfl, he, g, ho.head g m hd, get_put_same _ _ _⟩))⟩
    · rw [if_neg he]; exact ⟨rfl, ho.tail, Or.inr (Or.inr (Or.inl ⟨rfl, rfl⟩))⟩

theorem progs_append (f : Fl) (x : Bool) (l1 l2 : List (Nat × Qw)) : ∀ o, progs f x (l1 ++ l2) o =
    if (progs f x l1 o).2.1 = .ok then progs (progs f x l1 o).1 x l2 (progs f x l1 o).2.2 else progs f x l1 o := by
  induction l1 generalizing f with
  | nil => intro o; rw [List.nil_append, progs]; rw [if_pos (by rfl)]
  | cons p l1 ih =>
    intro o
    obtain ⟨i, q⟩ := p
    rw [List.cons_append, progs, progs]
    by_cases h : (prog f x i q o).2.1 = .ok
    · rw [if_pos h, if_pos h]; exact ih _ _
    · rw [if_neg h, if_neg h, if_neg h]

theorem set_mid {α : Type} (pre : List α) (a b : α) (post : List α) : (pre ++ a :: post).set pre.length b = pre ++ b :: post := by
  rw [List.set_append_right _ _ (Nat.le_refl _), Nat.sub_self, List.set_cons_zero]

/-- Programming consecutive erased quadwords. -/
theorem progs_run (x : Bool) (l : List Qw) : ∀ (f : Fl) (pre post : Bank) (o : List Out), Good o → f.get x = pre ++ List.replicate l.length ers ++ post →
    ∃ w : List Qw, w.length = l.length ∧ (progs f x ((l.zipIdx pre.length).map (fun p => (p.2, p.1))) o).1.get x = pre ++ w ++ post ∧
      (progs f x ((l.zipIdx pre.length).map (fun p => (p.2, p.1))) o).1.get (!x) = f.get (!x) ∧
      Good (progs f x ((l.zipIdx pre.length).map (fun p => (p.2, p.1))) o).2.2 ∧
      (progs f x ((l.zipIdx pre.length).map (fun p => (p.2, p.1))) o).2.1 ≠ .full ∧
      ((progs f x ((l.zipIdx pre.length).map (fun p => (p.2, p.1))) o).2.1 = .ok → w = l) := by
  induction l with
  | nil => intro f pre post o ho hf; exact ⟨[], rfl, hf, rfl, ho, (by intro c; cases c), fun _ => rfl⟩
  | cons q l ih =>
    intro f pre post o ho hf
    rw [List.zipIdx_cons, List.map_cons, progs]
    dsimp only
    obtain ⟨a1, a2, a3⟩ := prog_cases f x pre.length q o ho
    have hf' : f.get x = pre ++ ers :: (List.replicate l.length ers ++ post) := by
      rw [hf, List.length_cons, List.replicate_succ]; simp
    rcases a3 with ⟨b1, b2, b3⟩ | ⟨b1, b2⟩ | ⟨b1, b2⟩ | ⟨b1, b2, g, b3, b4⟩
    · rw [if_pos b1]
      rw [hf', set_mid] at b3
      have hl : (pre ++ [q]).length = pre.length + 1 := by simp
      obtain ⟨w, c1, c2, c3, c4, c5, c6⟩ := ih (prog f x pre.length q o).1 (pre ++ [q]) post (prog f x pre.length q o).2.2 a2 (by rw [b3]; simp)
      rw [hl] at c2 c3 c4 c5 c6
      refine ⟨q :: w, by simp [c1], by rw [c2]; simp, by rw [c3, a1], c4, c5, fun h => by rw [c6 h]⟩
    · rw [if_neg (by rw [b1]; intro c; cases c)]
      exact ⟨List.replicate (l.length + 1) ers, by simp, by rw [b2, hf, List.length_cons], a1, a2, (by rw [b1]; intro c; cases c), (by rw [b1]; intro c; cases c)⟩
    · rw [if_neg (by rw [b1]; intro c; cases c)]
      exact ⟨List.replicate (l.length + 1) ers, by simp, by rw [b2, hf, List.length_cons], a1, a2, (by rw [b1]; intro c; cases c), (by rw [b1]; intro c; cases c)⟩
    · rw [if_neg (by rw [b1]; intro c; cases c)]
      rw [hf', set_mid] at b4
      exact ⟨g q :: List.replicate l.length ers, by simp, by rw [b4]; simp, a1, a2, (by rw [b1]; intro c; cases c), (by rw [b1]; intro c; cases c)⟩

theorem chunks_length (n : Nat) : ∀ l : List Nat, (chunks n l).length = n := by
  induction n with
  | zero => intro l; rfl
  | succ n ih => intro l; rw [chunks, List.length_cons, ih]

theorem chunks_flatten (n : Nat) : ∀ l : List Nat, l.length = 16 * n → (chunks n l).flatten = l := by
  induction n with
  | zero => intro l h; rw [chunks]; simp at h; simp [h]
  | succ n ih =>
    intro l h
    rw [chunks, List.flatten_cons, ih _ (by rw [List.length_drop]; omega), List.take_append_drop]

theorem stage_length (key blob : List Nat) : (stage key blob).length = 16 * padq key.length blob.length := by
  have : key.length + blob.length ≤ 16 * padq key.length blob.length := by rw [padq]; omega
  rw [stage, List.length_append, List.length_append, List.length_replicate]; omega

/-- The record `append` writes. -/
def fresh (ns : Nat) (key blob : List Nat) : Slot :=
  ⟨ns, key.length, blob.length, commitQw, chunks (padq key.length blob.length) (stage key blob), ers⟩

theorem fresh_key (ns : Nat) (key blob : List Nat) : (fresh ns key blob).key = key := by
  rw [Slot.key, fresh]
  dsimp only
  rw [chunks_flatten _ _ (stage_length key blob), stage, List.append_assoc, List.take_left' rfl]

theorem fresh_blob (ns : Nat) (key blob : List Nat) : (fresh ns key blob).blob = blob := by
  rw [Slot.blob, fresh]
  dsimp only
  rw [chunks_flatten _ _ (stage_length key blob), stage, List.append_assoc, List.drop_left' rfl, List.take_left' rfl]

theorem fresh_ok (P : Par) (ns : Nat) (key blob : List Nat) (h0 : key.length ≠ 0) (h1 : key.length ≤ 256) (h2 : blob.length ≤ P.maxBlob) :
    (fresh ns key blob).Ok P := by
  refine ⟨Nat.pos_of_ne_zero h0, h1, h2, chunks_length _ _, ?_⟩
  intro _
  rw [fresh]
  dsimp only
  rw [chunks_flatten _ _ (stage_length key blob), stage_length, padq]
  omega

theorem rep_add (a b : Nat) (x : Qw) : List.replicate (a + b) x = List.replicate a x ++ List.replicate b x := List.replicate_append_replicate.symm

/-- What a torn or failed append leaves: nothing, or a record that is not committed, or (power failure while the commit
quadword was written) the complete record with some commit quadword. -/
inductive Trace (ns : Nat) (key blob : List Nat) : R → List Slot → Prop
  | done : Trace ns key blob .ok [fresh ns key blob]
  | none (r : R) (h : r = .err ∨ r = .crash) : Trace ns key blob r []
  | torn (r : R) (h : r = .err ∨ r = .crash) (w : List Qw) (hw : w.length = padq key.length blob.length) :
      Trace ns key blob r [⟨ns, key.length, blob.length, ers, w, ers⟩]
  | cut (c : Qw) : Trace ns key blob .crash [{ fresh ns key blob with commit := c }]

theorem append_trace (P : Par) (f : Fl) (x : Bool) (pre : Bank) (ns : Nat) (key blob : List Nat) (m : Nat) (o : List Out) (ho : Good o)
    (hf : f.get x = pre ++ List.replicate m ers) (hm : 3 + padq key.length blob.length ≤ m) :
    (append f x pre.length ns key blob o).1.get (!x) = f.get (!x) ∧ Good (append f x pre.length ns key blob o).2.2 ∧
    ∃ (t : List Slot) (m' : Nat), Trace ns key blob (append f x pre.length ns key blob o).2.1 t ∧ size t + m' = m ∧
      (append f x pre.length ns key blob o).1.get x = pre ++ encs t ++ List.replicate m' ers := by
  rw [append, recProgs, List.cons_append, progs]
  generalize hn : padq key.length blob.length = n at hm
  have hm' : m = n + (m - n - 3) + 3 := by omega
  generalize m - n - 3 = m0 at hm'
  have e1 : f.get x = pre ++ ers :: (ers :: (List.replicate n ers ++ (ers :: List.replicate m0 ers))) := by
    rw [hf, hm', show n + m0 + 3 = 1 + (1 + (n + (1 + m0))) by omega]
    rw [rep_add, rep_add, rep_add, rep_add]; rfl
  obtain ⟨a1, a2, a3⟩ := prog_cases f x pre.length (recHdr ns key.length blob.length) o ho
  have nothing : ∀ r : R, r = .err ∨ r = .crash → ∀ k : Bank, k = f.get x →
      ∃ (t : List Slot) (m' : Nat), Trace ns key blob r t ∧ size t + m' = m ∧ k = pre ++ encs t ++ List.replicate m' ers := by
    intro r hr k hk
    refine ⟨[], m, Trace.none r hr, ?_, ?_⟩
    · simp [size]
    · rw [hk, hf]; simp [encs]
  have tornOf : ∀ r : R, r = .err ∨ r = .crash → ∀ w : List Qw, w.length = n → ∀ k : Bank,
      k = pre ++ recHdr ns key.length blob.length :: ers :: (w ++ (ers :: List.replicate m0 ers)) →
      ∃ (t : List Slot) (m' : Nat), Trace ns key blob r t ∧ size t + m' = m ∧ k = pre ++ encs t ++ List.replicate m' ers := by
    intro r hr w hw k hk
    refine ⟨_, m0, Trace.torn r hr w (by rw [hn]; exact hw), ?_, ?_⟩
    · simp only [size, List.map_cons, List.map_nil, List.sum_cons, List.sum_nil, Slot.stride, hn]; omega
    · rw [hk]; simp [encs, Slot.enc]
  rcases a3 with ⟨b1, b2, b3⟩ | ⟨b1, b2⟩ | ⟨b1, b2⟩ | ⟨b1, b2, g, b3, b4⟩
  · rw [if_pos b1]
    rw [e1, set_mid] at b3
    generalize prog f x pre.length (recHdr ns key.length blob.length) o = r1 at a1 a2 b1 b3 ⊢
    have hc : (chunks n (stage key blob)).length = n := chunks_length _ _
    have e2 : r1.1.get x = (pre ++ [recHdr ns key.length blob.length, ers]) ++ List.replicate (chunks n (stage key blob)).length ers ++ (ers :: List.replicate m0 ers) := by
      rw [b3, hc]; simp
    have hl : (pre ++ [recHdr ns key.length blob.length, ers]).length = pre.length + 2 := by simp
    obtain ⟨w, c1, c2, c3, c4, c5, c6⟩ := progs_run x (chunks n (stage key blob)) r1.1 _ _ r1.2.2 a2 e2
    rw [hl] at c2 c3 c4 c5 c6
    rw [progs_append]
    generalize progs r1.1 x (((chunks n (stage key blob)).zipIdx (pre.length + 2)).map (fun p => (p.2, p.1))) r1.2.2 = r2 at c2 c3 c4 c5 c6 ⊢
    by_cases hk : r2.2.1 = .ok
    · rw [if_pos hk, progs]
      have hw := c6 hk
      rw [hw] at c2
      have e3 : r2.1.get x = (pre ++ [recHdr ns key.length blob.length]) ++ ers :: (chunks n (stage key blob) ++ (ers :: List.replicate m0 ers)) := by
        rw [c2]; simp
      have hl1 : (pre ++ [recHdr ns key.length blob.length]).length = pre.length + 1 := by simp
      obtain ⟨d1, d2, d3⟩ := prog_cases r2.1 x (pre.length + 1) commitQw r2.2.2 c4
      have fin : ∀ (r : R) (c : Qw), (Trace ns key blob r [{ fresh ns key blob with commit := c }]) → ∀ k : Bank,
          k = (pre ++ [recHdr ns key.length blob.length]) ++ c :: (chunks n (stage key blob) ++ (ers :: List.replicate m0 ers)) →
          ∃ (t : List Slot) (m' : Nat), Trace ns key blob r t ∧ size t + m' = m ∧ k = pre ++ encs t ++ List.replicate m' ers := by
        intro r c ht k hk
        refine ⟨_, m0, ht, ?_, ?_⟩
        · simp only [size, List.map_cons, List.map_nil, List.sum_cons, List.sum_nil, Slot.stride, fresh, hn]; omega
        · rw [hk]; simp [encs, Slot.enc, fresh, hn]
      rcases d3 with ⟨q1, q2, q3⟩ | ⟨q1, q2⟩ | ⟨q1, q2⟩ | ⟨q1, q2, g, q3, q4⟩
      · rw [if_pos q1]
        dsimp only [progs]
        rw [e3, ← hl1, set_mid] at q3
        rw [hl1] at q3
        exact ⟨by rw [d1, c3, a1], d2, fin .ok commitQw Trace.done _ q3⟩
      · rw [if_neg (by rw [q1]; intro c; cases c)]
        refine ⟨by rw [d1, c3, a1], d2, ?_⟩
        rw [q1]
        exact tornOf .err (Or.inl rfl) (chunks n (stage key blob)) hc _ (by rw [q2, e3]; simp)
      · rw [if_neg (by rw [q1]; intro c; cases c)]
        refine ⟨by rw [d1, c3, a1], d2, ?_⟩
        rw [q1]
        exact tornOf .crash (Or.inr rfl) (chunks n (stage key blob)) hc _ (by rw [q2, e3]; simp)
      · rw [if_neg (by rw [q1]; intro c; cases c)]
        refine ⟨by rw [d1, c3, a1], d2, ?_⟩
        rw [q1]
        rw [e3, ← hl1, set_mid] at q4
        rw [hl1] at q4
        exact fin .crash (g commitQw) (Trace.cut _) _ q4
    · rw [if_neg hk]
      refine ⟨by rw [c3, a1], c4, ?_⟩
      have hr : r2.2.1 = .err ∨ r2.2.1 = .crash := by
        cases hx : r2.2.1 with
        | ok => exact absurd hx hk
        | err => exact Or.inl rfl
        | crash => exact Or.inr rfl
        | full => exact absurd hx c5
      exact tornOf r2.2.1 hr w (by rw [c1, hc]) _ (by rw [c2]; simp)
  · rw [if_neg (by rw [b1]; intro c; cases c)]
    exact ⟨a1, a2, nothing _ (Or.inl b1) _ b2⟩
  · rw [if_neg (by rw [b1]; intro c; cases c)]
    exact ⟨a1, a2, nothing _ (Or.inr b1) _ b2⟩
  · rw [if_neg (by rw [b1]; intro c; cases c)]
    refine ⟨a1, a2, ?_⟩
    rcases b3 (recHdr ns key.length blob.length) (Or.inl rfl) with h | h
    · rw [h, e1, set_mid] at b4
      exact tornOf _ (Or.inr b1) (List.replicate n ers) (by simp) _ (by rw [b4])
    · rw [h, e1, set_mid, ← e1] at b4
      exact nothing _ (Or.inr b1) _ b4

/-- Appending where a record already stands fails and changes nothing. -/
theorem append_stuck (f : Fl) (x : Bool) (i ns : Nat) (key blob : List Nat) (o : List Out) (ho : Good o) (hf : (f.get x)[i]? ≠ some ers) :
    (append f x i ns key blob o).1 = f ∧ ((append f x i ns key blob o).2.1 = .err ∨ (append f x i ns key blob o).2.1 = .crash) ∧
    Good (append f x i ns key blob o).2.2 := by
  rw [append, recProgs, List.cons_append, progs]
  obtain ⟨a1, a2, a3⟩ := prog_cases f x i (recHdr ns key.length blob.length) o ho
  rcases a3 with ⟨b1, b2, b3⟩ | ⟨b1, b2⟩ | ⟨b1, b2⟩ | ⟨b1, b2, g, b3, b4⟩
  · exact absurd b2 hf
  · rw [if_neg (by rw [b1]; intro c; cases c)]; exact ⟨fl_ext _ _ x b2 a1, Or.inl b1, a2⟩
  · rw [if_neg (by rw [b1]; intro c; cases c)]; exact ⟨fl_ext _ _ x b2 a1, Or.inr b1, a2⟩
  · exact absurd b2 hf

/-! ## Erasing -/

theorem wipe_length (k : Bank) (lo n : Nat) (m : Nat → Bool) : (wipe k lo n m).length = k.length := by simp [wipe]

theorem bankGen_wipe (k : Bank) (lo n : Nat) (m : Nat → Bool) (g : Nat) (h : bankGen (wipe k lo n m) = some g) : bankGen k = some g := by
  cases k with
  | nil => simpa [wipe] using h
  | cons q k =>
    have e : (wipe (q :: k) lo n m).getD 0 [] = if lo ≤ 0 ∧ 0 < lo + n ∧ m (0 - lo) = true then ers else q := by
      rw [wipe, List.mapIdx_cons]; rfl
    rw [bankGen, e] at h
    by_cases hc : lo ≤ 0 ∧ 0 < lo + n ∧ m (0 - lo) = true
    · rw [if_pos hc] at h
      rw [if_neg (by decide)] at h; cases h
    · rw [if_neg hc] at h
      exact h

theorem eraseSec_cases (P : Par) (f : Fl) (x : Bool) (lo : Nat) (o : List Out) (ho : Good o) :
    (eraseSec P f x lo o).1.get (!x) = f.get (!x) ∧ Good (eraseSec P f x lo o).2.2 ∧ (eraseSec P f x lo o).2.1 ≠ .full ∧
    ∃ m, (eraseSec P f x lo o).1.get x = wipe (f.get x) lo P.sec m ∧ ((eraseSec P f x lo o).2.1 = .ok → m = fun _ => true) := by
  unfold eraseSec
  cases hd : o.headD .ok with
  | ok => exact ⟨get_put_other _ _ _, ho.tail, (by intro c; cases c), _, get_put_same _ _ _, fun _ => rfl⟩
  | bad m => exact ⟨get_put_other _ _ _, ho.tail, (by intro c; cases c), m, get_put_same _ _ _, (by intro c; cases c)⟩
  | cut g m => exact ⟨get_put_other _ _ _, ho.tail, (by intro c; cases c), m, get_put_same _ _ _, (by intro c; cases c)⟩

theorem wipe_all (P : Par) (k : Bank) (h : k.length = P.n) : wipe (wipe k 0 P.sec (fun _ => true)) P.sec P.sec (fun _ => true) = List.replicate P.n ers := by
  apply List.ext_getElem?
  intro i
  rw [wipe, wipe, List.getElem?_mapIdx, List.getElem?_mapIdx, List.getElem?_replicate]
  have hn : P.n = 2 * P.sec := rfl
  by_cases hi : i < P.n
  · rw [if_pos hi, List.getElem?_eq_getElem (by omega)]
    simp only [Option.map_some, Option.some.injEq]
    split
    · rfl
    · rw [if_pos]
      refine ⟨by omega, ?_, trivial⟩
      rename_i hc
      simp only [and_true, not_and] at hc
      omega
  · rw [if_neg hi, List.getElem?_eq_none (by omega)]; rfl

theorem eraseBank_cases (P : Par) (f : Fl) (x : Bool) (o : List Out) (ho : Good o) :
    (eraseBank P f x o).1.get (!x) = f.get (!x) ∧ Good (eraseBank P f x o).2.2 ∧ (eraseBank P f x o).2.1 ≠ .full ∧
    ((eraseBank P f x o).1.get x).length = (f.get x).length ∧ (∀ g, bankGen ((eraseBank P f x o).1.get x) = some g → bankGen (f.get x) = some g) ∧
    ((eraseBank P f x o).2.1 = .ok → (f.get x).length = P.n → (eraseBank P f x o).1.get x = List.replicate P.n ers) := by
  rw [eraseBank]
  obtain ⟨a1, a2, a3, m1, a4, a5⟩ := eraseSec_cases P f x 0 o ho
  by_cases h : (eraseSec P f x 0 o).2.1 = .ok
  · rw [if_pos h]
    obtain ⟨b1, b2, b3, m2, b4, b5⟩ := eraseSec_cases P (eraseSec P f x 0 o).1 x P.sec (eraseSec P f x 0 o).2.2 a2
    refine ⟨by rw [b1, a1], b2, b3, by rw [b4, wipe_length, a4, wipe_length], ?_, ?_⟩
    · intro g hg
      rw [b4] at hg
      have := bankGen_wipe _ _ _ _ _ hg
      rw [a4] at this
      exact bankGen_wipe _ _ _ _ _ this
    · intro hk hl
      rw [b4, b5 hk, a4, a5 h]
      exact wipe_all P _ hl
  · rw [if_neg h]
    refine ⟨a1, a2, a3, by rw [a4, wipe_length], ?_, fun c => absurd c h⟩
    intro g hg
    rw [a4] at hg
    exact bankGen_wipe _ _ _ _ _ hg

end Wolf.Kvf
