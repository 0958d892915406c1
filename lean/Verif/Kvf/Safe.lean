import Verif.Kvf.Step
/-!
# C92: the flash store survives power failures

`store_crash_safe_partial`: whatever the flash commands do (succeed, report an error, lose power with any partial erase
and any torn payload, commit or tombstone quadword), the results of all calls are those of one map that only successful
calls change, and that an interrupted call changed completely or not at all. The restriction, hence `_partial`: a power
failure leaves *header* quadwords erased or whole. `torn_header_loses_everything` shows the code needs it.
-/
namespace Wolf.Kvf

/-- The outcomes an operation meets. -/
def Op.outs : Op → List Out
  | .put _ _ _ o => o
  | .del _ _ o => o
  | .boot o => o
  | .get _ _ => []
  | .iter _ => []

theorem step_spec (P : Par) (s : St) (M : KV) (G : Nat) (op : Op) (h : Inv P s M G) (hG : G + 1 < 4294967296) (h1 : 1 ≤ G) (ho : Good op.outs) :
    ∃ M', Next ⟨M, s.rdy⟩ op (step P s op).2 ⟨M', (step P s op).1.rdy⟩ ∧ Inv P (step P s op).1 M' (G + 1) := by
  have up : ∀ (s : St) (M : KV), Inv P s M G → Inv P s M (G + 1) := by
    intro s M hi
    rcases hi with hi | ⟨x, gen, l, h1, h2, h3⟩
    · exact Or.inl hi
    · exact Or.inr ⟨x, gen, l, h1, by omega, h3⟩
  cases op with
  | put ns key blob o => exact put_spec P s M G ns key blob o h hG ho
  | del ns key o =>
    obtain ⟨M', a, b⟩ := del_spec P s M G ns key o h ho
    exact ⟨M', a, up _ _ b⟩
  | boot o =>
    obtain ⟨M', a, b⟩ := boot_spec P s M G o h (by omega) h1 ho
    exact ⟨M', a, up _ _ b⟩
  | get ns key => exact ⟨M, (read_spec P s M G h).1 ns key, up _ _ h⟩
  | iter ns => exact ⟨M, (read_spec P s M G h).2 ns, up _ _ h⟩

theorem run_spec (P : Par) (ops : List Op) : ∀ (s : St) (M : KV) (G : Nat), Inv P s M G → G + ops.length < 4294967296 → 1 ≤ G → (∀ op ∈ ops, Good op.outs) →
    ∃ M', Explains ⟨M, s.rdy⟩ ops (run P s ops).2 ⟨M', (run P s ops).1.rdy⟩ ∧ Inv P (run P s ops).1 M' (G + ops.length) := by
  induction ops with
  | nil => intro s M G h _ _ _; exact ⟨M, Explains.nil _, h⟩
  | cons op ops ih =>
    intro s M G h hG h1 ho
    rw [List.length_cons] at hG
    obtain ⟨M1, a1, a2⟩ := step_spec P s M G op h (by omega) h1 (ho op (by simp))
    obtain ⟨M2, b1, b2⟩ := ih _ M1 (G + 1) a2 (by omega) (by omega) (fun q hq => ho q (by simp [hq]))
    rw [run]
    refine ⟨M2, Explains.cons a1 b1, ?_⟩
    dsimp only
    rw [List.length_cons, show G + (ops.length + 1) = G + 1 + ops.length by omega]; exact b2

/-- A region no store has been formatted in: no bank header. -/
def Unformatted (P : Par) (f : Fl) : Prop := f.a.length = P.n ∧ f.b.length = P.n ∧ bankGen f.a = none ∧ bankGen f.b = none

/-- C92. From an unformatted region, for every history of calls, errors and power failures. -/
theorem store_crash_safe_partial (P : Par) (f : Fl) (hf : Unformatted P f) (ops : List Op) (hlen : ops.length + 1 < 4294967296) (ho : ∀ op ∈ ops, Good op.outs) :
    ∃ v, Explains ⟨fun _ _ => none, false⟩ ops (run P ⟨f, none⟩ ops).2 v := by
  have hB : Blank P f := ⟨fun x => by cases x; exact hf.1; exact hf.2.1, fun x => by cases x; exact hf.2.2.1; exact hf.2.2.2⟩
  obtain ⟨M', a, _⟩ := run_spec P ops ⟨f, none⟩ (fun _ _ => none) 1 (Or.inl ⟨hB, rfl, rfl⟩) (by omega) (Nat.le_refl 1) ho
  exact ⟨_, a⟩

/-! ## A put succeeds when there is room -/

theorem progs_ok (x : Bool) (l : List (Nat × Qw)) : ∀ f : Fl, (∀ p ∈ l, (f.get x)[p.1]? = some ers) → l.Pairwise (fun p q => p.1 ≠ q.1) →
    (progs f x l []).2 = (.ok, []) := by
  induction l with
  | nil => intro f _ _; rfl
  | cons p l ih =>
    intro f h hp
    obtain ⟨i, q⟩ := p
    obtain ⟨h1, h2⟩ := List.pairwise_cons.mp hp
    have e : prog f x i q [] = (f.put x ((f.get x).set i q), .ok, []) := by
      rw [prog]
      dsimp only [List.headD, List.head?]
      rw [if_pos (h (i, q) (by simp))]; rfl
    rw [progs, e]
    dsimp only
    rw [if_pos (by rfl)]
    apply ih
    · intro p' hp'
      rw [get_put_same, List.getElem?_set_ne (h1 p' hp')]
      exact h p' (by simp [hp'])
    · exact h2

theorem append_ok (f : Fl) (x : Bool) (pre : Bank) (ns : Nat) (key blob : List Nat) (m : Nat) (hf : f.get x = pre ++ List.replicate m ers)
    (hm : 3 + padq key.length blob.length ≤ m) : (append f x pre.length ns key blob []).2 = (.ok, []) := by
  have at' : ∀ i, pre.length ≤ i → i < pre.length + m → (f.get x)[i]? = some ers := by
    intro i h1 h2
    rw [hf, List.getElem?_append_right h1, List.getElem?_replicate, if_pos (by omega)]
  have hz : ∀ p ∈ ((chunks (padq key.length blob.length) (stage key blob)).zipIdx (pre.length + 2)).map (fun p => (p.2, p.1)),
      pre.length + 2 ≤ p.1 ∧ p.1 < pre.length + 2 + padq key.length blob.length := by
    intro p hp
    obtain ⟨q, hq, rfl⟩ := List.mem_map.mp hp
    have := List.mem_zipIdx hq
    rw [chunks_length] at this
    exact ⟨this.1, this.2.1⟩
  rw [append]
  apply progs_ok
  · intro p hp
    rw [recProgs] at hp
    rcases List.mem_append.mp hp with h | h
    · rcases List.mem_cons.mp h with h | h
      · rw [h]; exact at' _ (Nat.le_refl _) (by dsimp only; omega)
      · have := hz p h; exact at' _ (by omega) (by omega)
    · rw [List.mem_singleton.mp h]; exact at' _ (by dsimp only; omega) (by dsimp only; omega)
  · rw [recProgs, List.pairwise_append]
    refine ⟨?_, List.pairwise_singleton _ _, ?_⟩
    · rw [List.pairwise_cons]
      refine ⟨fun p hp => by have := hz p hp; dsimp only; omega, ?_⟩
      rw [List.pairwise_map, List.pairwise_iff_getElem]
      intro i j hi hj hij
      rw [List.getElem_zipIdx, List.getElem_zipIdx]; dsimp only; omega
    · intro a ha b hb
      rw [List.mem_singleton.mp hb]
      rcases List.mem_cons.mp ha with h | h
      · rw [h]; dsimp only; omega
      · have := hz a h; dsimp only; omega

theorem good_nil : Good [] := by intro x hx; cases hx

theorem copy_ok (P : Par) (x : Bool) (rs : List Rec) : ∀ (f : Fl) (done : List Slot) (m : Nat), f.get x = bankOf ers done m →
    (f.get x).length = P.n → (∀ s ∈ done, s.Ok P) →
    (∀ r ∈ rs, r.stride = 3 + padq r.key.length r.blob.length ∧ (fresh r.ns r.key r.blob).Ok P ∧ r.key.length ≠ 0 ∧ r.key.length ≤ 256 ∧ r.blob.length ≤ P.maxBlob) →
    1 + size done + (rs.map (fun r => r.stride)).sum ≤ P.n → (copy P f x rs (1 + size done) []).2.1 = .ok ∧ (copy P f x rs (1 + size done) []).2.2.1 = [] := by
  induction rs with
  | nil => intro f done m _ _ _ _ _; exact ⟨rfl, rfl⟩
  | cons r rs ih =>
    intro f done m hf hlen hok hrs hfit
    rw [List.map_cons, List.sum_cons] at hfit
    obtain ⟨s1, s2, k0, k1, b1⟩ := hrs r (by simp)
    rw [copy, if_neg (by omega)]
    dsimp only
    have hl : 1 + size done + m = P.n := by rw [← hlen, hf, bankOf_length P _ _ _ hok]
    have hpl : (ers :: encs done).length = 1 + size done := by rw [List.length_cons, encs_length P done hok]; omega
    obtain ⟨a1, a2, t, m', a3, a4, a5⟩ := append_trace P f x (ers :: encs done) r.ns r.key r.blob m [] good_nil
      (by rw [hf]; rfl) (by omega)
    have hap := append_ok f x (ers :: encs done) r.ns r.key r.blob m (by rw [hf]; rfl) (by omega)
    rw [hpl] at a1 a2 a3 a5 hap
    have htok := trace_ok P _ _ _ _ _ a3 k0 k1 b1
    have a5' : (append f x (1 + size done) r.ns r.key r.blob []).1.get x = bankOf ers (done ++ t) m' := by
      rw [a5, bankOf, encs_append]; simp
    have hokt : ∀ s ∈ done ++ t, s.Ok P := by
      intro s hs; rcases List.mem_append.mp hs with h | h
      · exact hok s h
      · exact htok s h
    have hlen' : ((append f x (1 + size done) r.ns r.key r.blob []).1.get x).length = P.n := by
      rw [a5', bankOf_length P _ _ _ hokt, size_append]; omega
    have hk : (append f x (1 + size done) r.ns r.key r.blob []).2.1 = .ok := by rw [hap]
    have ho : (append f x (1 + size done) r.ns r.key r.blob []).2.2 = [] := by rw [hap]
    rw [if_pos hk, ho]
    rw [hk] at a3
    have ht : t = [fresh r.ns r.key r.blob] := by
      cases a3 with
      | done => rfl
      | none _ h => rcases h with h | h <;> cases h
      | torn _ h w hw => rcases h with h | h <;> cases h
    subst ht
    have hsz : 1 + size (done ++ [fresh r.ns r.key r.blob]) = 1 + size done + r.stride := by
      rw [size_append, s1]; simp only [size, List.map_cons, List.map_nil, List.sum_cons, List.sum_nil, Slot.stride, fresh]; omega
    have := ih (append f x (1 + size done) r.ns r.key r.blob []).1 (done ++ [fresh r.ns r.key r.blob]) m' a5' hlen' hokt
      (fun r' h' => hrs r' (by simp [h'])) (by omega)
    rw [hsz] at this
    exact this

theorem compact_ok (P : Par) (f : Fl) (c : Ctx) (x : Bool) (gen : Nat) (l : List Slot) (h : Live P f x gen l) (ha : c.act = x)
    (hfit : 1 + size ((liveS l).map redo) ≤ P.n) : (compact P f c []).2.2.1 = .ok ∧ (compact P f c []).2.2.2 = [] := by
  subst ha
  unfold compact
  obtain ⟨a1, a2, a3, a4, a5, a6⟩ := eraseBank_cases P f (!c.act) [] good_nil
  rw [Bool.not_not] at a1
  dsimp only
  have he' : (eraseBank P f (!c.act) []).2.1 = .ok := rfl
  have ho' : (eraseBank P f (!c.act) []).2.2 = [] := rfl
  generalize eraseBank P f (!c.act) [] = e at a1 a2 a3 a4 a5 a6 he' ho' ⊢
  rw [if_neg (by rw [he']; simp), ho']
  have hers := a6 he' h.len'
  have hers' : e.1.get (!c.act) = bankOf ers [] (P.n - 1) := by
    rw [hers]
    have : P.n = P.n - 1 + 1 := by have := n_pos P; omega
    rw [this, List.replicate_succ]; rfl
  have hL : Live P e.1 c.act gen l := ⟨h.oks, by rw [a1]; exact h.bank, by rw [a1]; exact h.len, by rw [a4]; exact h.len', fun g hg' => h.other g (a5 g hg')⟩
  obtain ⟨l1, l2⟩ := live_recs P e.1 c.act gen l hL
  have hsum : ((live P (e.1.get c.act)).map (fun r => r.stride)).sum = size ((liveS l).map redo) := by
    rw [← l1, size, List.map_map]
    congr 1
    apply List.map_congr_left
    intro r hr
    exact (l2 r hr).1
  have hsp := copy_spec P (!c.act) (live P (e.1.get c.act)) e.1 [] (P.n - 1) [] good_nil hers' (by rw [a4]; exact h.len') (by simp) l2
  have hok := copy_ok P (!c.act) (live P (e.1.get c.act)) e.1 [] (P.n - 1) hers' (by rw [a4]; exact h.len') (by simp) l2
    (by rw [hsum]; exact hfit)
  rw [show 1 + size ([] : List Slot) = 1 from rfl] at hsp hok
  generalize copy P e.1 (!c.act) (live P (e.1.get c.act)) 1 [] = y at hsp hok ⊢
  obtain ⟨b1, b2, b3, b4, b5⟩ := hsp
  rw [if_neg (by rw [hok.1]; simp), hok.2]
  have hy0 : (y.1.get (!c.act))[0]? = some ers := by
    have := b3
    cases hy : y.1.get (!c.act) with
    | nil => rw [hy] at this; have := n_pos P; simp at *; omega
    | cons q k => rw [hy] at b4; rw [List.getElem?_cons_zero]; exact congrArg some b4
  have hp : prog y.1 (!c.act) 0 (bankHdr ((c.gen + 1) % 4294967296)) [] =
      (y.1.put (!c.act) ((y.1.get (!c.act)).set 0 (bankHdr ((c.gen + 1) % 4294967296))), .ok, []) := by
    rw [prog]
    dsimp only [List.headD, List.head?]
    rw [if_pos hy0]; rfl
  rw [hp]
  dsimp only
  rw [if_neg (by simp)]
  exact ⟨rfl, rfl⟩

/-- Liveness: after a restart, if the values in the store and the new one fit in a bank, a put with working flash
succeeds. -/
theorem put_succeeds (P : Par) (f : Fl) (hf : Unformatted P f) (ops : List Op) (hlen : ops.length + 2 < 4294967296) (ho : ∀ op ∈ ops, Good op.outs) (s : St)
    (hs : s = (boot P (run P ⟨f, none⟩ ops).1.fl []).1) (ns : Nat) (key blob : List Nat) (h0 : key.length ≠ 0) (h1 : key.length ≤ 256)
    (h2 : blob.length ≤ P.maxBlob)
    (hfit : ∀ L : List (Nat × List Nat × List Nat), (L.map (fun e => (e.1, e.2.1))).Nodup → (∀ e ∈ L, get P s e.1 e.2.1 = .got (some e.2.2)) →
      1 + (L.map (fun e => 3 + padq e.2.1.length e.2.2.length)).sum + (3 + padq key.length blob.length) ≤ P.n) :
    (put P s ns key blob []).2 = .ok := by
  have hB : Blank P f := ⟨fun x => by cases x; exact hf.1; exact hf.2.1, fun x => by cases x; exact hf.2.2.1; exact hf.2.2.2⟩
  obtain ⟨M0, _, b⟩ := run_spec P ops ⟨f, none⟩ (fun _ _ => none) 1 (Or.inl ⟨hB, rfl, rfl⟩) (by omega) (Nat.le_refl 1) ho
  have key3 : ∃ x gen l, Live P s.fl x gen l ∧ s.ctx = some ⟨x, 1 + size l, gen⟩ ∧ gen < 4294967295 := by
    rw [hs]
    unfold boot
    rcases b with ⟨hB, hc, hM⟩ | ⟨x, gen, l, hL, hg, hM, hC⟩
    · have ha : bankGen (run P ⟨f, none⟩ ops).1.fl.a = none := hB.gens false
      have hb : bankGen (run P ⟨f, none⟩ ops).1.fl.b = none := hB.gens true
      rw [ha, hb]
      dsimp only [pick]
      generalize (run P ⟨f, none⟩ ops).1.fl = f1 at hB
      unfold format
      obtain ⟨a1, a2, a3, a4, a5, a6⟩ := eraseBank_cases P f1 false [] good_nil
      dsimp only
      have he' : (eraseBank P f1 false []).2.1 = .ok := rfl
      have ho' : (eraseBank P f1 false []).2.2 = [] := rfl
      generalize eraseBank P f1 false [] = e at a1 a2 a3 a4 a5 a6 he' ho' ⊢
      rw [if_pos he', ho']
      have hers := a6 he' (hB.len false)
      have hers' : e.1.get false = bankOf ers [] (P.n - 1) := by
        rw [hers]
        have : P.n = P.n - 1 + 1 := by have := n_pos P; omega
        rw [this, List.replicate_succ]; rfl
      have hp : prog e.1 false 0 (bankHdr 1) [] = (e.1.put false ((e.1.get false).set 0 (bankHdr 1)), .ok, []) := by
        rw [prog]
        dsimp only [List.headD, List.head?]
        rw [if_pos (by rw [hers']; rfl)]; rfl
      rw [hp]
      refine ⟨false, 1, [], ⟨by simp, ⟨P.n - 1, ?_⟩, ?_, ?_, ?_⟩, rfl, by omega⟩
      · dsimp only; rw [get_put_same, hers']; rfl
      · dsimp only; rw [get_put_same, List.length_set, a4]; exact hB.len false
      · dsimp only; rw [get_put_other, a1]; exact hB.len true
      · dsimp only; rw [get_put_other, a1, hB.gens]; intro g c; cases c
    · rw [pick_live P _ x gen l hL (by omega)]
      dsimp only
      obtain ⟨m, hb⟩ := hL.bank
      have hln := hL.len
      rw [hb] at hln
      have hw : (walk P (P.n + 1) ((run P ⟨f, none⟩ ops).1.fl.get x) 1).2 = .at (1 + size l) := by rw [hb, bankOf_recs P _ l m hL.oks hln]
      rw [hw]
      exact ⟨x, gen, l, hL, rfl, by omega⟩
  clear hs b
  obtain ⟨x, gen, l, hL, hctx, hgen⟩ := key3
  have hI : Inv P s (mapOf l) gen := Or.inr ⟨x, gen, l, hL, Nat.le_refl _, rfl, fun c hc => by rw [hctx] at hc; cases Option.some.inj hc; exact ⟨rfl, rfl, Or.inl rfl⟩⟩
  have hget : ∀ n k, get P s n k = .got (mapOf l n k) := by
    intro n k
    have := ((read_spec P s (mapOf l) gen hI).1 n k).2
    rw [this]
    have hr : s.rdy = true := by rw [St.rdy, hctx]; rfl
    dsimp only
    rw [hr]; rfl
  have hroom : 1 + size ((liveS l).map redo) + (3 + padq key.length blob.length) ≤ P.n := by
    have := hfit ((liveS l).map (fun s => (s.ns, s.key, s.blob))) ?_ ?_
    · rw [List.map_map] at this
      rw [size, List.map_map]; exact this
    · rw [List.map_map, List.nodup_iff_pairwise_ne, List.pairwise_map]
      refine List.Pairwise.imp ?_ (liveS_distinct l)
      intro a b hab e
      injection e with e1 e2
      exact hab ⟨e1.symm, e2.symm⟩
    · intro e he
      obtain ⟨t, ht, rfl⟩ := List.mem_map.mp he
      dsimp only
      rw [hget, (mapOf_some_iff l t.ns t.key t.blob).mpr ⟨t, ht, rfl, rfl, rfl⟩]
  have fin : ∀ (f : Fl) (x : Bool) (gen : Nat) (l' : List Slot), Live P f x gen l' → 1 + size l' + (3 + padq key.length blob.length) ≤ P.n →
      (putAt f ⟨x, 1 + size l', gen⟩ ns key blob []).2 = .ok := by
    intro f x gen l' hL hr
    obtain ⟨m, hb⟩ := hL.bank
    have hl : 1 + size l' + m = P.n := by rw [← hL.len, hb, bankOf_length P _ _ _ hL.oks]
    have hpl : (bankHdr gen :: encs l').length = 1 + size l' := by rw [List.length_cons, encs_length P l' hL.oks]; omega
    have hap := append_ok f x (bankHdr gen :: encs l') ns key blob m (by rw [hb]; rfl) (by omega)
    rw [hpl] at hap
    unfold putAt
    dsimp only
    rw [hap]; rfl
  unfold put
  rw [hctx]
  dsimp only
  rw [if_neg (by omega)]
  by_cases hx : 16 * (1 + size l) + strideB key.length blob.length > 16 * P.n
  · rw [if_pos hx]
    obtain ⟨c1, c2⟩ := compact_ok P s.fl ⟨x, 1 + size l, gen⟩ x gen l hL rfl (by omega)
    obtain ⟨q1, q2⟩ := compact_spec P s.fl ⟨x, 1 + size l, gen⟩ x gen l [] hL rfl rfl (by omega) good_nil
    generalize compact P s.fl ⟨x, 1 + size l, gen⟩ [] = k at c1 c2 q1 q2 ⊢
    rcases q2 with ⟨r1, _⟩ | ⟨_, r2, r3⟩
    · exact absurd c1 r1
    · rw [if_neg (by rw [c1]; simp), r2 c1, c2, if_neg (by dsimp only; rw [strideB]; omega)]
      exact fin _ _ _ _ r3 hroom
  · rw [if_neg hx]
    exact fin _ _ _ _ hL (by rw [strideB] at hx; omega)

/-! ## What is not so -/

/-- A small store: 22 quadwords in a bank, blobs of at most one byte. -/
def exP : Par := ⟨11, 1, by decide, by decide⟩

def exBlank : Fl := ⟨List.replicate 22 ers, List.replicate 22 ers⟩

theorem exBlank_unformatted : Unformatted exP exBlank := ⟨rfl, rfl, by decide +kernel, by decide +kernel⟩

/-- A power failure that leaves `b` in a quadword that is not a header. -/
def tear (b : Qw) (q : Qw) : Qw := if q.take 4 = [82, 69, 67, 49] ∨ q.take 4 = [66, 78, 75, 49] then ers else b

theorem tear_atomic (b : Qw) : Atomic (tear b) := by intro q hq; rw [tear, if_pos hq]; exact Or.inr rfl

/-- Non-vacuous: puts that overwrite each other and need compactions, a power failure in the middle of a compaction's
copy, one while a commit quadword is written that leaves it readable as committed, an erase error. -/
def exOps : List Op :=
  [.boot [], .put 1 [7] [1] [], .put 1 [8] [2] [], .put 2 [7] [3] [], .put 1 [7] [4] [], .put 1 [7] [5] [],
   .del 1 [8] [], .put 1 [7] [6] [.ok, .ok, .ok, .cut (tear [1]) (fun _ => true)],
   .boot [], .get 1 [7], .put 1 [9] [8] [.ok, .ok, .cut (tear [197]) (fun _ => true)],
   .boot [], .put 1 [9] [9] [.bad (fun _ => true)], .iter 1, .get 2 [7], .get 1 [8]]

theorem exOps_good : ∀ op ∈ exOps, Good op.outs := by
  intro op h
  simp only [exOps, List.mem_cons, List.not_mem_nil, or_false] at h
  intro x hx f m e
  rcases h with h | h | h | h | h | h | h | h | h | h | h | h | h | h | h | h <;> subst h <;>
    simp only [Op.outs, List.mem_cons, List.not_mem_nil, or_false] at hx
  · rcases hx with hx | hx | hx | hx <;> subst hx <;> cases e
    exact tear_atomic _
  · rcases hx with hx | hx | hx <;> subst hx <;> cases e
    exact tear_atomic _
  · subst hx; cases e

example : ∃ v, Explains ⟨fun _ _ => none, false⟩ exOps (run exP ⟨exBlank, none⟩ exOps).2 v :=
  store_crash_safe_partial exP exBlank exBlank_unformatted exOps (by decide) exOps_good

example : (run exP ⟨exBlank, none⟩ exOps).2 =
    [.ok, .ok, .ok, .ok, .ok, .ok, .ok, .crash, .ok, .got (some [5]), .crash, .ok, .err, .pairs [([7], [5])], .got (some [3]), .got none] := by
  decide +kernel

/-- Non-vacuous for `put_succeeds`: four puts of one key leave no room for a fifth record without compaction. -/
def exFull : List Op := [.boot [], .put 1 [7] [1] [], .put 1 [7] [2] [], .put 1 [7] [3] [], .put 1 [7] [4] [], .put 1 [7] [5] []]

def exFullSt : St := (boot exP (run exP ⟨exBlank, none⟩ exFull).1.fl []).1

example : exFullSt.ctx.map (fun c => (c.act, c.app, c.gen)) = some (false, 21, 1) := by decide +kernel

theorem exFull_get (n : Nat) (k v : List Nat) (h : get exP exFullSt n k = .got (some v)) : (n, k) = (1, [7]) ∧ v = [5] := by
  have hc : exFullSt.ctx.map (fun c => c.act) = some false := by decide +kernel
  have hr : (recs exP (exFullSt.fl.get false) 1).map (fun r => (r.ns, r.key, r.blob)) = [(1, [7], [1]), (1, [7], [2]), (1, [7], [3]), (1, [7], [4]), (1, [7], [5])] := by
    decide +kernel
  cases hx : exFullSt.ctx with
  | none => rw [hx] at hc; cases hc
  | some c =>
    rw [hx] at hc
    have ha : c.act = false := Option.some.inj hc
    rw [get, hx] at h
    dsimp only at h
    rw [ha] at h
    cases hl : lookup exP (exFullSt.fl.get false) n k with
    | none => rw [hl] at h; cases h
    | some r =>
      rw [hl] at h
      dsimp only at h
      rw [lookup] at hl
      have hm := List.mem_filter.mp (List.mem_of_getLast? hl)
      have hk := hm.2
      simp only [keyEq, Bool.and_eq_true, beq_iff_eq] at hk
      have hin : (r.ns, r.key, r.blob) ∈ (recs exP (exFullSt.fl.get false) 1).map (fun r => (r.ns, r.key, r.blob)) := List.mem_map.mpr ⟨r, hm.1, rfl⟩
      rw [hr] at hin
      rw [← hk.2.1, ← hk.2.2]
      have hlast : (lookup exP (exFullSt.fl.get false) 1 [7]).map (fun r => r.blob) = some [5] := by decide +kernel
      simp only [List.mem_cons, List.not_mem_nil, or_false, Prod.mk.injEq] at hin
      have hn : r.ns = 1 ∧ r.key = [7] := by rcases hin with h | h | h | h | h <;> exact ⟨h.1, h.2.1⟩
      refine ⟨by rw [hn.1, hn.2], ?_⟩
      have hkk : k = [7] := by rw [← hk.2.2]; exact hn.2
      have hnn : n = 1 := by rw [← hk.2.1]; exact hn.1
      rw [hnn, hkk] at hl
      rw [lookup, hl] at hlast
      have hb : r.blob = [5] := Option.some.inj hlast
      by_cases ht : r.tomb = true
      · rw [if_pos ht] at h; cases h
      · rw [if_neg ht, hb] at h; cases h; rfl

example : (put exP exFullSt 3 [1, 2] [9] []).2 = .ok := by
  refine put_succeeds exP exBlank exBlank_unformatted exFull (by decide) ?_ exFullSt rfl 3 [1, 2] [9] (by decide) (by decide) (by decide) ?_
  · intro op h x hx
    simp only [exFull, List.mem_cons, List.not_mem_nil, or_false] at h
    rcases h with h | h | h | h | h | h <;> subst h <;> cases hx
  · intro L hn hg
    match L, hn, hg with
    | [], _, _ => decide
    | [e], _, hg =>
      obtain ⟨h1, h2⟩ := exFull_get _ _ _ (hg e (by simp))
      injection h1 with _ h1
      simp only [List.map_cons, List.map_nil, List.sum_cons, List.sum_nil]
      rw [h1, h2]; decide
    | e :: e' :: L, hn, hg =>
      have h1 := (exFull_get _ _ _ (hg e (by simp))).1
      have h2 := (exFull_get _ _ _ (hg e' (by simp))).1
      rw [List.map_cons, List.map_cons, h1, h2] at hn
      simp at hn

/-- A power failure that tears a record header: everything in the store is gone, although both values were stored
successfully and never deleted. -/
def exTorn : List Op :=
  [.boot [], .put 1 [7] [1] [], .put 2 [7] [3] [], .put 1 [8] [4] [.cut (fun _ => [1]) (fun _ => true)], .boot [], .get 1 [7], .get 2 [7]]

theorem torn_header_loses_everything : (run exP ⟨exBlank, none⟩ exTorn).2 = [.ok, .ok, .ok, .crash, .ok, .got none, .got none] := by decide +kernel

theorem torn_header_unexplained : ¬ ∃ v, Explains ⟨fun _ _ => none, false⟩ exTorn (run exP ⟨exBlank, none⟩ exTorn).2 v := by
  rw [torn_header_loses_everything]
  rintro ⟨v, h⟩
  cases h with | cons h1 h =>
  cases h with | cons h2 h =>
  cases h with | cons h3 h =>
  cases h with | cons h4 h =>
  cases h with | cons h5 h =>
  cases h with | cons h6 h =>
  simp only [Next, reduceCtorEq, false_and, or_false, false_or, true_and, and_true, or_self] at h1 h2 h3 h4 h5 h6
  subst h1
  simp only [Bool.true_eq_false, false_implies, true_implies, true_and] at h2
  subst h2
  simp only [Bool.true_eq_false, false_implies, true_implies, true_and] at h3
  subst h3
  simp only [Bool.true_eq_false, false_implies, true_implies, true_and] at h4
  subst h5
  obtain ⟨_, h6⟩ := h6
  rw [if_pos rfl] at h6
  rcases h4 with h4 | h4 <;> subst h4 <;> simp [upd] at h6

/-- One failed program after the header: every later put fails, although the flash works again, until a restart. -/
def exStuck : List Op :=
  [.boot [], .put 1 [7] [1] [.ok, .bad (fun _ => true)], .put 1 [7] [1] [], .put 1 [8] [1] [], .get 1 [7], .boot [], .put 1 [7] [1] []]

theorem error_blocks_puts : (run exP ⟨exBlank, none⟩ exStuck).2 = [.ok, .err, .err, .err, .got none, .ok, .ok] := by decide +kernel

/-- A torn tombstone: the key cannot be deleted any more, even after restarts and with working flash. -/
def exTomb : List Op :=
  [.boot [], .put 1 [7] [1] [], .del 1 [7] [.cut (tear [1]) (fun _ => true)], .boot [], .get 1 [7], .del 1 [7] [], .boot [], .del 1 [7] [], .get 1 [7]]

theorem torn_tombstone_undeletable : (run exP ⟨exBlank, none⟩ exTomb).2 =
    [.ok, .ok, .crash, .ok, .got (some [1]), .err, .ok, .err, .got (some [1])] := by decide +kernel

end Wolf.Kvf
