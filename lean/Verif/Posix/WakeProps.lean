import Verif.Posix.Wake
/-! # C111, C112: proofs -/
namespace Wolf.Posix

def Ev.has (e : Ev) : Want → Bool
  | .r => e.r
  | .w => e.w

/-- A call waiting for `k` will be woken: the byte is there, or the event is waiting to be dispatched. -/
def Due (s : S) (k : Want) : Prop := tokOf k ∈ s.pipe ∨ .h ∈ s.pipe ∨ (s.cb = true ∧ (s.ev.has k = true ∨ s.ev.c = true))

structure Waits (s : S) (k : Want) : Prop where
  armIn : s.armIn = decide (k = .r)
  armOut : s.armOut = decide (k = .w)
  cb : s.cb = true ∨ tokOf k ∈ s.pipe ∨ .h ∈ s.pipe
  due : s.sock.ag k = false → Due s k

structure Inv (s : S) : Prop where
  pend : ∀ c, s.pend c = true ↔ c ∈ s.pipe
  nd : s.pipe.Nodup
  bl : ∀ k, s.pc = .blocked k → Waits s k
  ac : s.pc = .accepting → Waits s .r
  po : ∀ i o, s.pc = .polling i o → s.armIn = i ∧ s.armOut = o ∧
    (.r ∈ s.pipe → s.seen.r = true) ∧ (.w ∈ s.pipe → s.seen.w = true) ∧ (.h ∈ s.pipe → s.seen.c = true) ∧
    (i = true → o = false → s.seen.r = true → .r ∈ s.pipe) ∧ (s.seen.c = true → s.pipe ≠ []) ∧
    (i = true → s.seen.r = true → s.pipe ≠ [])

theorem consume_all (p : Tok → Bool) : ∀ (l : List Tok) (c : Tok), consume p l c = true ↔ p c = true ∧ c ∉ l := by
  intro l
  induction l generalizing p with
  | nil => intro c; simp [consume]
  | cons d l ih =>
    intro c
    have := ih (setb p d false) c
    rw [show consume p (d :: l) = consume (setb p d false) l from rfl, this]
    unfold setb
    by_cases h : c = d
    · subst h; simp
    · simp [h]

theorem drain_pend {s : S} (h : Inv s) (c : Tok) : s.drain.pend c = true ↔ c ∈ s.drain.pipe := by
  show consume s.pend s.pipe c = true ↔ c ∈ []
  rw [consume_all, h.pend]
  simp

/-- Fewer than four bytes fit a list without repetition. -/
theorem nodup_short {l : List Tok} (h : l.Nodup) : l.length ≤ 3 := by
  match l, h with
  | [], _ => simp
  | [_], _ => simp
  | [_, _], _ => simp
  | [_, _, _], _ => simp
  | a :: b :: c :: d :: l, h =>
    exfalso
    rw [List.nodup_cons, List.nodup_cons, List.nodup_cons] at h
    simp only [List.mem_cons, not_or] at h
    obtain ⟨⟨h1, h2, h3, -⟩, ⟨h4, h5, -⟩, ⟨h6, -⟩, -⟩ := h
    cases a <;> cases b <;> cases c <;> cases d <;> simp_all

/-- The callback in a state where the bits tell the truth: the token is in the pipe afterwards, nothing is lost. -/
theorem poller_spec {cap : Nat} (hc : 3 ≤ cap) {s : S} (hp : ∀ c, s.pend c = true ↔ c ∈ s.pipe) (hn : s.pipe.Nodup) (e : Ev) :
    poller cap s e = { s with pipe := (poller cap s e).pipe, pend := (poller cap s e).pend } ∧
    (∀ c, (poller cap s e).pend c = true ↔ c ∈ (poller cap s e).pipe) ∧ (poller cap s e).pipe.Nodup ∧
    (∀ c, c ∈ (poller cap s e).pipe ↔ c ∈ s.pipe ∨ token s e = some c) := by
  unfold poller
  cases ht : token s e with
  | none => exact ⟨rfl, hp, hn, fun c => by simp⟩
  | some t =>
    dsimp only
    split
    · rename_i hpt
      refine ⟨rfl, hp, hn, fun c => ⟨Or.inl, fun h => h.elim id fun h => ?_⟩⟩
      cases h
      exact (hp t).mp hpt
    · rename_i hpt
      have hm : t ∉ s.pipe := fun h => hpt ((hp t).mpr h)
      split
      · refine ⟨rfl, fun c => ?_, ?_, fun c => ?_⟩
        · dsimp only
          unfold setb
          by_cases h : c = t
          · subst h; simp
          · simp [h, hp c]
        · dsimp only
          rw [List.nodup_append]
          refine ⟨hn, by simp, fun a ha b hb => ?_⟩
          rw [List.mem_singleton] at hb
          rintro rfl
          rw [hb] at ha
          exact hm ha
        · dsimp only
          rw [List.mem_append, List.mem_singleton]
          constructor
          · exact fun h => h.imp id fun h => by rw [h]
          · exact fun h => h.imp id fun h => (Option.some.inj h).symm
      · rename_i hlen
        exfalso
        have h4 : (t :: s.pipe).Nodup := List.nodup_cons.mpr ⟨hm, hn⟩
        have := nodup_short h4
        rw [List.length_cons] at this
        omega

theorem arm_inv {s : S} {i o : Bool} (hp : ∀ c, s.pend c = true ↔ c ∈ s.pipe) (hn : s.pipe.Nodup) (pc : Pc)
    (hb : ∀ k, pc = .blocked k → Waits { s.arm i o with pc := pc } k) (ha : pc = .accepting → Waits { s.arm i o with pc := pc } .r)
    (hq : ∀ i o, pc ≠ .polling i o) : Inv { s.arm i o with pc := pc } :=
  ⟨hp, hn, hb, ha, fun i o h => absurd h (hq i o)⟩

theorem out_inv {s : S} (hp : ∀ c, s.pend c = true ↔ c ∈ s.pipe) (hn : s.pipe.Nodup) (r : Res) : Inv { s with pc := .out r } :=
  ⟨hp, hn, (fun k h => by cases h), (fun h => by cases h), fun i o h => by cases h⟩

theorem call_inv {s : S} (hp : ∀ c, s.pend c = true ↔ c ∈ s.pipe) (hn : s.pipe.Nodup) (k : Want) : Inv (call k s) := by
  unfold call
  cases hps : pass k s with
  | none => exact out_inv (s := s.arm _ _) hp hn _
  | some s' =>
    dsimp only
    unfold pass at hps
    split at hps
    · cases hps
      exact out_inv hp hn _
    · rename_i hag
      dsimp only at hps
      split at hps
      · cases hps
        exact out_inv (s := s.arm _ _) hp hn _
      · cases hps
      · cases hps
        refine arm_inv hp hn _ (fun k' e => ?_) (fun e => by cases e) (fun i o e => by cases e)
        cases e
        exact ⟨rfl, rfl, Or.inl rfl, fun h => absurd h hag⟩

theorem accept_inv {s : S} (hp : ∀ c, s.pend c = true ↔ c ∈ s.pipe) (hn : s.pipe.Nodup) : Inv (accept s) := by
  unfold accept
  split
  · exact out_inv hp hn _
  · rename_i hag
    refine arm_inv hp hn _ (fun k' e => by cases e) (fun _ => ?_) (fun i o e => by cases e)
    exact ⟨rfl, rfl, Or.inl rfl, fun h => absurd h hag⟩

theorem woken_inv {s : S} (h : Inv s) {k : Want} (hk : s.pc = .blocked k) : Inv (woken k s) := by
  have hp := drain_pend h
  have hn : s.drain.pipe.Nodup := List.nodup_nil
  have hw := h.bl k hk
  unfold woken
  dsimp only
  split
  · exact call_inv hp hn k
  · rename_i hwake
    have hno : tokOf k ∉ s.pipe ∧ .h ∉ s.pipe := by
      constructor
      · intro hm
        apply hwake
        rw [List.any_eq_true]
        exact ⟨_, hm, by simp⟩
      · intro hm
        apply hwake
        rw [List.any_eq_true]
        exact ⟨_, hm, by simp⟩
    split
    · exact out_inv hp hn _
    · exact call_inv hp hn k
    · refine ⟨hp, hn, fun k' e => ?_, (fun e => by cases e), fun i o e => by cases e⟩
      cases e
      have hcb : s.cb = true := hw.cb.elim id fun h => h.elim (fun h => absurd h hno.1) (fun h => absurd h hno.2)
      refine ⟨hw.armIn, hw.armOut, Or.inl hcb, fun hag => ?_⟩
      rcases hw.due hag with hd | hd | hd
      · exact absurd hd hno.1
      · exact absurd hd hno.2
      · exact Or.inr (Or.inr hd)

theorem has_or (a b : Ev) (k : Want) : (a.or b).has k = (a.has k || b.has k) := by cases k <;> rfl

theorem raise_waits {s : S} {k : Want} (hw : Waits s k) {q : Sock} {e : Ev} (ha : Announced s.sock q e) :
    Waits { s with sock := q, ev := s.ev.or e } k := by
  refine ⟨hw.armIn, hw.armOut, hw.cb, fun hag => ?_⟩
  have hag : q.ag k = false := hag
  show _ ∈ s.pipe ∨ _ ∈ s.pipe ∨ (s.cb = true ∧ ((s.ev.or e).has k = true ∨ (s.ev.or e).c = true))
  cases hold : s.sock.ag k with
  | false =>
    rcases hw.due hold with hd | hd | ⟨hd1, hd2⟩
    · exact Or.inl hd
    · exact Or.inr (Or.inl hd)
    · refine Or.inr (Or.inr ⟨hd1, hd2.imp (fun h => ?_) fun h => ?_⟩)
      · rw [has_or, h]; rfl
      · show (s.ev.c || e.c) = true
        rw [h]; rfl
  | true =>
    have hev : e.has k = true ∨ e.c = true := by
      cases k
      · exact ha.1 hold hag
      · exact ha.2 hold hag
    rcases hw.cb with hcb | hcb | hcb
    · refine Or.inr (Or.inr ⟨hcb, hev.imp (fun h => ?_) fun h => ?_⟩)
      · rw [has_or, h, Bool.or_true]
      · show (s.ev.c || e.c) = true
        rw [h, Bool.or_true]
    · exact Or.inl hcb
    · exact Or.inr (Or.inl hcb)

/-- The token chosen while a call waits for `k`: the byte of `k` if its event is there, else `'h'` if CLOSED is. -/
theorem token_waits {s : S} {k : Want} (hi : s.armIn = decide (k = .r)) (ho : s.armOut = decide (k = .w)) (e : Ev) :
    (e.has k = true → token s e = some (tokOf k)) ∧ (e.has k = false → e.c = true → token s e = some .h) := by
  unfold token
  rw [hi, ho]
  cases k <;> simp [Ev.has, tokOf] <;> intros <;> simp_all

theorem dispatch_waits {cap : Nat} (hc : 3 ≤ cap) {s : S} (h : Inv s) {k : Want} (hw : Waits s k) (reap : Bool) :
    Waits (dispatch cap reap s) k := by
  unfold dispatch
  split
  · exact hw
  · rename_i hcond
    have hcb : s.cb = true := by
      cases hh : s.cb with
      | true => rfl
      | false => exact absurd (Or.inl hh) hcond
    dsimp only
    obtain ⟨h1, h2, h3, h4⟩ := poller_spec hc (s := { s with ev := .none, seen := s.seen.or s.ev }) h.pend h.nd s.ev
    obtain ⟨t1, t2⟩ := token_waits (s := { s with ev := .none, seen := s.seen.or s.ev }) hw.armIn hw.armOut s.ev
    generalize hs' : poller cap { s with ev := .none, seen := s.seen.or s.ev } s.ev = s' at *
    have e1 : s'.armIn = s.armIn := by rw [h1]
    have e2 : s'.armOut = s.armOut := by rw [h1]
    have e3 : s'.cb = s.cb := by rw [h1]
    have e4 : s'.sock = s.sock := by rw [h1]
    have keep : ∀ c, c ∈ s.pipe → c ∈ s'.pipe := fun c hm => (h4 c).mpr (Or.inl hm)
    have hdue : (s.ev.has k = true ∨ s.ev.c = true) → tokOf k ∈ s'.pipe ∨ .h ∈ s'.pipe := by
      intro hev
      by_cases hk : s.ev.has k = true
      · exact Or.inl ((h4 _).mpr (Or.inr (t1 hk)))
      · have hk : s.ev.has k = false := by simpa using hk
        refine Or.inr ((h4 _).mpr (Or.inr (t2 hk (hev.elim (fun h => ?_) id))))
        rw [hk] at h; cases h
    have fin : s.sock.ag k = false → tokOf k ∈ s'.pipe ∨ .h ∈ s'.pipe := fun hag => by
      rcases hw.due hag with hd | hd | ⟨-, hd⟩
      · exact Or.inl (keep _ hd)
      · exact Or.inr (keep _ hd)
      · exact hdue hd
    split
    · rename_i hr
      have hc' : s.ev.c = true := by
        cases hh : s.ev.c with
        | true => rfl
        | false => rw [hh, Bool.and_false] at hr; cases hr
      refine ⟨e1.trans hw.armIn, e2.trans hw.armOut, Or.inr (hdue (Or.inr hc')), fun hag => ?_⟩
      have hag : s'.sock.ag k = false := hag
      rw [e4] at hag
      exact (fin hag).elim Or.inl fun h => Or.inr (Or.inl h)
    · refine ⟨e1.trans hw.armIn, e2.trans hw.armOut, Or.inl (e3.trans hcb), fun hag => ?_⟩
      rw [e4] at hag
      exact (fin hag).elim Or.inl fun h => Or.inr (Or.inl h)

theorem poll_inv {s : S} (h : Inv s) (i o : Bool) : Inv (poll i o s) := by
  refine ⟨drain_pend h, List.nodup_nil, (fun k e => by cases e), (fun e => by cases e), fun i' o' e => ?_⟩
  cases e
  refine ⟨rfl, rfl, ?_, ?_, ?_, ?_, ?_, ?_⟩ <;> simp [poll, S.drain, S.arm, Ev.none]

theorem select_inv {s : S} (h : Inv s) (i o x : Bool) : Inv (select i o x s) := by
  unfold select
  split
  · exact ⟨drain_pend h, List.nodup_nil, (fun k e => by cases e), (fun e => by cases e), fun i' o' e => by cases e⟩
  · exact ⟨h.pend, h.nd, (fun k e => by cases e), (fun e => by cases e), fun i' o' e => by cases e⟩

theorem dispatch_pc (cap : Nat) (reap : Bool) (s : S) : (dispatch cap reap s).pc = s.pc := by
  unfold dispatch
  split
  · rfl
  · dsimp only
    have : ∀ (s : S) e, (poller cap s e).pc = s.pc := fun s e => by
      unfold poller
      repeat' split
      all_goals rfl
    split
    · exact this _ _
    · exact this _ _

theorem dispatch_inv {cap : Nat} (hc : 3 ≤ cap) {s : S} (h : Inv s) (reap : Bool) : Inv (dispatch cap reap s) := by
  have hpc := dispatch_pc cap reap s
  refine ⟨?_, ?_, fun k e => dispatch_waits hc h (h.bl k (hpc ▸ e)) reap, fun e => dispatch_waits hc h (h.ac (hpc ▸ e)) reap, fun i o e => ?_⟩
  · unfold dispatch
    split
    · exact h.pend
    · dsimp only
      have := (poller_spec hc (s := { s with ev := .none, seen := s.seen.or s.ev }) h.pend h.nd s.ev).2.1
      split <;> exact this
  · unfold dispatch
    split
    · exact h.nd
    · dsimp only
      have := (poller_spec hc (s := { s with ev := .none, seen := s.seen.or s.ev }) h.pend h.nd s.ev).2.2.1
      split <;> exact this
  · rw [hpc] at e
    have hpo := h.po i o e
    unfold dispatch
    split
    · exact hpo
    · dsimp only
      obtain ⟨h1, h2, h3, h4⟩ := poller_spec hc (s := { s with ev := .none, seen := s.seen.or s.ev }) h.pend h.nd s.ev
      have tk : token { s with ev := .none, seen := s.seen.or s.ev } s.ev =
          if s.ev.w && o then some .w else if s.ev.r && i then some .r else if s.ev.c then some .h else none := by
        unfold token
        dsimp only
        rw [hpo.1, hpo.2.1]
      rw [tk] at h4
      obtain ⟨p1, p2, p3, p4, p5, p6, p7, p8⟩ := hpo
      have key : ∀ s' : S, s'.pipe = (poller cap { s with ev := .none, seen := s.seen.or s.ev } s.ev).pipe → s'.armIn = s.armIn →
          s'.armOut = s.armOut → s'.seen = s.seen.or s.ev → (s'.armIn = i ∧ s'.armOut = o ∧
          (.r ∈ s'.pipe → s'.seen.r = true) ∧ (.w ∈ s'.pipe → s'.seen.w = true) ∧ (.h ∈ s'.pipe → s'.seen.c = true) ∧
          (i = true → o = false → s'.seen.r = true → .r ∈ s'.pipe) ∧ (s'.seen.c = true → s'.pipe ≠ []) ∧
          (i = true → s'.seen.r = true → s'.pipe ≠ [])) := by
        intro s' q1 q2 q3 q4
        rw [← q1] at h4
        have er : s'.seen.r = (s.seen.r || s.ev.r) := by rw [q4]; rfl
        have ew : s'.seen.w = (s.seen.w || s.ev.w) := by rw [q4]; rfl
        have ec : s'.seen.c = (s.seen.c || s.ev.c) := by rw [q4]; rfl
        have ne : ∀ c, c ∈ s'.pipe → s'.pipe ≠ [] := fun c hm => List.ne_nil_of_mem hm
        have old : s.pipe ≠ [] → s'.pipe ≠ [] := fun hne => by
          obtain ⟨c, hm⟩ := List.exists_mem_of_ne_nil _ hne
          exact ne c ((h4 c).mpr (Or.inl hm))
        refine ⟨q2.trans p1, q3.trans p2, ?_, ?_, ?_, ?_, ?_, ?_⟩
        · intro hm
          rw [er]
          rcases (h4 _).mp hm with hm | hm
          · rw [p3 hm]; rfl
          · cases hr : s.ev.r with
            | true => exact Bool.or_true _
            | false => rw [hr] at hm; revert hm; cases s.ev.w <;> cases o <;> cases s.ev.c <;> simp
        · intro hm
          rw [ew]
          rcases (h4 _).mp hm with hm | hm
          · rw [p4 hm]; rfl
          · cases hr : s.ev.w with
            | true => exact Bool.or_true _
            | false => rw [hr] at hm; revert hm; cases s.ev.r <;> cases i <;> cases s.ev.c <;> simp
        · intro hm
          rw [ec]
          rcases (h4 _).mp hm with hm | hm
          · rw [p5 hm]; rfl
          · cases hr : s.ev.c with
            | true => exact Bool.or_true _
            | false => rw [hr] at hm; revert hm; cases s.ev.r <;> cases i <;> cases s.ev.w <;> cases o <;> simp
        · intro hi ho hs
          rw [er] at hs
          cases hold : s.seen.r with
          | true => exact (h4 _).mpr (Or.inl (p6 hi ho hold))
          | false =>
            rw [hold, Bool.false_or] at hs
            refine (h4 _).mpr (Or.inr ?_)
            rw [hs, hi, ho]
            simp
        · intro hs
          rw [ec] at hs
          cases hold : s.seen.c with
          | true => exact old (p7 hold)
          | false =>
            rw [hold, Bool.false_or] at hs
            rw [hs] at h4
            by_cases a : (s.ev.w && o) = true
            · exact ne .w ((h4 _).mpr (Or.inr (by rw [if_pos a])))
            · by_cases b : (s.ev.r && i) = true
              · exact ne .r ((h4 _).mpr (Or.inr (by rw [if_neg a, if_pos b])))
              · exact ne .h ((h4 _).mpr (Or.inr (by rw [if_neg a, if_neg b]; simp)))
        · intro hi hs
          rw [er] at hs
          cases hold : s.seen.r with
          | true => exact old (p8 hi hold)
          | false =>
            rw [hold, Bool.false_or] at hs
            rw [hs, hi] at h4
            by_cases a : (s.ev.w && o) = true
            · exact ne .w ((h4 _).mpr (Or.inr (by rw [if_pos a])))
            · exact ne .r ((h4 _).mpr (Or.inr (by rw [if_neg a]; simp)))
      split
      · exact key _ rfl (by rw [h1]) (by rw [h1]) (by rw [h1])
      · exact key _ rfl (by rw [h1]) (by rw [h1]) (by rw [h1])

theorem step_inv {cap : Nat} (hc : 3 ≤ cap) {s : S} (h : Inv s) (a : Act) (ha : ∀ k e, a = .raise k e → Announced s.sock k e) :
    Inv (step cap s a) := by
  cases a with
  | call k =>
    show Inv (if _ then _ else _)
    split
    · exact h
    · split
      · exact call_inv h.pend h.nd k
      · exact h
  | accept =>
    show Inv (if _ then _ else _)
    split
    · exact h
    · split
      · exact accept_inv h.pend h.nd
      · exact h
  | poll i o =>
    show Inv (if _ then _ else _)
    split
    · exact h
    · split
      · exact poll_inv h i o
      · exact h
  | select i o x =>
    show Inv (if _ then _ else _)
    split
    · exact h
    · split
      · exact select_inv h i o x
      · exact h
  | wake =>
    show Inv (if _ then _ else _)
    split
    · split
      · exact h
      · rename_i k hk
        exact woken_inv h hk
      · exact accept_inv (drain_pend h) List.nodup_nil
      · exact out_inv (s := s.drain) (drain_pend h) List.nodup_nil _
      · exact out_inv (s := s.drain) (drain_pend h) List.nodup_nil _
    · exact h
  | raise k e =>
    show Inv (if _ then _ else _)
    split
    · exact h
    · have ha := ha k e rfl
      exact ⟨h.pend, h.nd, fun k' e' => raise_waits (h.bl k' e') ha, fun e' => raise_waits (h.ac e') ha, h.po⟩
  | dispatch reap =>
    show Inv (if _ then _ else _)
    split
    · exact h
    · exact dispatch_inv hc h reap

theorem start_inv (k : Sock) : Inv (S.start k) := by
  refine ⟨fun c => ?_, List.nodup_nil, (fun k e => by cases e), (fun e => by cases e), fun i o e => by cases e⟩
  simp [S.start]

theorem run_inv {cap : Nat} (hc : 3 ≤ cap) : ∀ (l : List Act) {s : S}, Inv s → Fair cap s l → Inv (run cap s l) := by
  intro l
  induction l with
  | nil => intro s h _; exact h
  | cons a l ih => intro s h hf; exact ih (step_inv hc h a hf.1) hf.2

/-! ## The theorems -/

/-- A state the two threads can reach on a pipe of at least three bytes. -/
def Reach (cap : Nat) (s : S) : Prop := 3 ≤ cap ∧ ∃ k l, Fair cap (S.start k) l ∧ s = run cap (S.start k) l

theorem reach_inv {cap : Nat} {s : S} (h : Reach cap s) : Inv s := by
  obtain ⟨hc, k, l, hf, rfl⟩ := h
  exact run_inv hc l (start_inv k) hf

/-- **C111, the pipe.** The token bits always tell exactly which bytes are in the pipe, each at most once: the pipe never
fills up, and no notification is dropped or thought to be there when it is not. -/
theorem tokens_exact {cap : Nat} {s : S} (h : Reach cap s) :
    (∀ c, s.pend c = true ↔ c ∈ s.pipe) ∧ s.pipe.Nodup ∧ s.pipe.length ≤ 3 :=
  ⟨(reach_inv h).pend, (reach_inv h).nd, nodup_short (reach_inv h).nd⟩

/-- **C111, no lost wake-up.** In every interleaving: when the application is blocked in `recv`, `read`, `recvfrom`, `recvmsg`,
`send`, `write`, `sendto`, `sendmsg` or `connect` and the socket call would now succeed (or fail), the wake-up is in the pipe or its
event is about to be dispatched; and once the stack has dispatched, the blocked call returns. -/
theorem blocked_call_returns {cap : Nat} {s : S} (h : Reach cap s) (k : Want) (hk : s.pc = .blocked k)
    (hag : s.sock.ag k = false) (reap : Bool) :
    Due s k ∧ (step cap (step cap s (.dispatch reap)) .wake).pc = .out .ok := by
  have hi := reach_inv h
  have hw := hi.bl k hk
  refine ⟨hw.due hag, ?_⟩
  have hi' := dispatch_inv h.1 hi reap
  have hpc : (dispatch cap reap s).pc = .blocked k := (dispatch_pc cap reap s).trans hk
  have hw' := hi'.bl k hpc
  have hd : step cap s (.dispatch reap) = dispatch cap reap s := by
    show (if _ then _ else _) = _
    rw [if_neg (by rw [hk]; intro e; cases e)]
  rw [hd]
  have hsock : (dispatch cap reap s).sock = s.sock := by
    unfold dispatch
    split
    · rfl
    · dsimp only
      have : ∀ (s : S) e, (poller cap s e).sock = s.sock := fun s e => by
        unfold poller
        repeat' split
        all_goals rfl
      split <;> exact this _ _
  have hev : (dispatch cap reap s).ev = .none ∨ (dispatch cap reap s).cb = false := by
    unfold dispatch
    split
    · rename_i hc
      rcases hc with hc | hc
      · exact Or.inr hc
      · exact Or.inl hc
    · dsimp only
      have : ∀ (s : S) e, (poller cap s e).ev = s.ev := fun s e => by
        unfold poller
        repeat' split
        all_goals rfl
      split
      · exact Or.inr rfl
      · exact Or.inl (this _ _)
  generalize hs' : dispatch cap reap s = s' at *
  have hin : tokOf k ∈ s'.pipe ∨ .h ∈ s'.pipe := by
    rcases hw'.due (by rw [hsock]; exact hag) with hd | hd | ⟨hd1, hd2⟩
    · exact Or.inl hd
    · exact Or.inr hd
    · rcases hev with he | he
      · rw [he] at hd2
        rcases hd2 with hd2 | hd2
        · cases k <;> cases hd2
        · cases hd2
      · rw [he] at hd1; cases hd1
  have hne : s'.pipe ≠ [] := hin.elim List.ne_nil_of_mem List.ne_nil_of_mem
  show (if hostReady s' then _ else _ : S).pc = _
  have hr : hostReady s' = true := by
    unfold hostReady
    rw [hpc]
    simpa using hne
  rw [if_pos hr, hpc]
  dsimp only
  unfold woken
  dsimp only
  rw [if_pos]
  · unfold call pass
    rw [if_pos (show s'.drain.sock.ag k = false by show s'.sock.ag k = false; rw [hsock]; exact hag)]
  · rw [List.any_eq_true]
    rcases hin with hm | hm
    · exact ⟨_, hm, by simp⟩
    · exact ⟨_, hm, by simp⟩

/-- **C111, `accept`.** The same for a blocked `accept`. -/
theorem blocked_accept_returns {cap : Nat} {s : S} (h : Reach cap s) (hk : s.pc = .accepting) (hag : s.sock.agR = false) (reap : Bool) :
    Due s .r ∧ (step cap (step cap s (.dispatch reap)) .wake).pc = .out .ok := by
  have hi := reach_inv h
  have hw := hi.ac hk
  refine ⟨hw.due hag, ?_⟩
  have hi' := dispatch_inv h.1 hi reap
  have hpc : (dispatch cap reap s).pc = .accepting := (dispatch_pc cap reap s).trans hk
  have hw' := hi'.ac hpc
  have hd : step cap s (.dispatch reap) = dispatch cap reap s := by
    show (if _ then _ else _) = _
    rw [if_neg (by rw [hk]; intro e; cases e)]
  rw [hd]
  have hsock : (dispatch cap reap s).sock = s.sock := by
    unfold dispatch
    split
    · rfl
    · dsimp only
      have : ∀ (s : S) e, (poller cap s e).sock = s.sock := fun s e => by
        unfold poller
        repeat' split
        all_goals rfl
      split <;> exact this _ _
  have hev : (dispatch cap reap s).ev = .none ∨ (dispatch cap reap s).cb = false := by
    unfold dispatch
    split
    · rename_i hc
      rcases hc with hc | hc
      · exact Or.inr hc
      · exact Or.inl hc
    · dsimp only
      have : ∀ (s : S) e, (poller cap s e).ev = s.ev := fun s e => by
        unfold poller
        repeat' split
        all_goals rfl
      split
      · exact Or.inr rfl
      · exact Or.inl (this _ _)
  generalize hs' : dispatch cap reap s = s' at *
  have hne : s'.pipe ≠ [] := by
    rcases hw'.due (by rw [hsock]; exact hag) with hd | hd | ⟨hd1, hd2⟩
    · exact List.ne_nil_of_mem hd
    · exact List.ne_nil_of_mem hd
    · rcases hev with he | he
      · rw [he] at hd2
        rcases hd2 with hd2 | hd2 <;> cases hd2
      · rw [he] at hd1; cases hd1
  show (if hostReady s' then _ else _ : S).pc = _
  have hr : hostReady s' = true := by
    unfold hostReady
    rw [hpc]
    simpa using hne
  rw [if_pos hr, hpc]
  dsimp only
  unfold accept
  rw [if_pos (show s'.drain.sock.agR = false by show s'.sock.agR = false; rw [hsock]; exact hag)]

/-- **C111, when a blocking call gives up its turn.** A blocking call on a socket that answers −EAGAIN lets the stack run
(waits without the mutex) exactly when `can_read`/`can_write` answers 0. -/
theorem call_waits (k : Want) (s : S) (hag : s.sock.ag k = true) :
    (call k s).pc = (match s.sock.can k with | .no => .blocked k | .yes => .out .spin | .err => .out .err) := by
  unfold call pass
  rw [if_neg (by rw [hag]; intro e; cases e)]
  dsimp only
  rw [show (s.arm (decide (k = .r)) (decide (k = .w))).sock = s.sock from rfl]
  cases s.sock.can k <;> rfl

/-- **Finding** (`eagain_spin`): if the call answers −EAGAIN while `can_write` answers 1, as happens with a full transmit buffer in
CLOSE_WAIT (C85), the call goes round its loop for ever without releasing the mutex, so the stack never runs again and
nothing changes any more. -/
theorem eagain_spin (cap : Nat) (k : Want) (s : S) (r : Res) (hpc : s.pc = .out r) (hr : r ≠ .spin) (hag : s.sock.ag k = true) (hcan : s.sock.can k = .yes) :
    (∀ n, passes k n s = none) ∧ (∀ l, (run cap (step cap s (.call k)) l).pc = .out .spin) := by
  constructor
  · intro n
    induction n generalizing s with
    | zero => rfl
    | succ n ih =>
      have h0 : pass k s = none := by
        unfold pass
        rw [if_neg (by rw [hag]; intro e; cases e)]
        dsimp only
        rw [show (s.arm (decide (k = .r)) (decide (k = .w))).sock = s.sock from rfl, hcan]
      show (pass k s).or _ = none
      rw [h0]
      exact ih (s.arm _ _) hpc hag hcan
  · have hs : (step cap s (.call k)).pc = .out .spin := by
      show (if _ then _ else _ : S).pc = _
      rw [if_neg (by rw [hpc]; intro e; cases e; exact hr rfl), hpc]
      dsimp only
      rw [call_waits k s hag, hcan]
    have stay : ∀ (a : Act) (s : S), s.pc = .out .spin → step cap s a = s := by
      intro a s h
      cases a with
      | wake =>
        show (if hostReady s then _ else _) = _
        rw [if_neg (by unfold hostReady; rw [h]; simp)]
      | _ => exact if_pos h
    generalize step cap s (.call k) = s' at hs
    intro l
    induction l with
    | nil => exact hs
    | cons a l ih =>
      show (run cap (step cap s' a) l).pc = _
      rw [stay a s' hs]
      exact ih

/-! ### `poll` and `select` -/

/-- **C112, what `poll` reports is true**: a result bit means that the stack raised that event since the call began. -/
theorem poll_sound {cap : Nat} {s : S} (h : Reach cap s) (i o : Bool) (hk : s.pc = .polling i o) (bi bo bh : Bool)
    (hres : (step cap s .wake).pc = .out (.polled bi bo bh)) :
    (bi = true → i = true ∧ s.seen.r = true) ∧ (bo = true → o = true ∧ s.seen.w = true) ∧ (bh = true → s.seen.c = true) := by
  obtain ⟨p1, p2, p3, p4, p5, -⟩ := (reach_inv h).po i o hk
  have hw : (if hostReady s then polled s else s).pc = .out (.polled bi bo bh) := by
    have : step cap s .wake = if hostReady s then polled s else s := by
      show (if hostReady s then _ else _) = _
      rw [hk]
    rw [← this]; exact hres
  split at hw
  · unfold polled at hw
    dsimp only at hw
    cases hw
    rw [show s.drain.armIn = s.armIn from rfl, show s.drain.armOut = s.armOut from rfl, p1, p2]
    refine ⟨fun hb => ?_, fun hb => ?_, fun hb => ?_⟩
    · rw [Bool.and_eq_true, decide_eq_true_eq] at hb
      exact ⟨hb.2, p3 hb.1⟩
    · rw [Bool.and_eq_true, decide_eq_true_eq] at hb
      exact ⟨hb.2, p4 hb.1⟩
    · exact p5 (decide_eq_true_eq.mp hb)
  · rw [hk] at hw; cases hw

/-- **C112, partial.** `poll` for POLLIN alone reports every READABLE event dispatched during the call, and returns after a
CLOSED event. Missing: readiness that was already there when it was called, and POLLOUT (`poll_forgets`, `poll_not_level`,
`poll_out_deaf`, `write_hides_read`). -/
theorem poll_reports_partial {cap : Nat} {s : S} (h : Reach cap s) (hk : s.pc = .polling true false) :
    (s.seen.r = true → ∃ bh, (step cap s .wake).pc = .out (.polled true false bh)) ∧
    (s.seen.c = true → ∃ bi bh, (step cap s .wake).pc = .out (.polled bi false bh)) := by
  obtain ⟨p1, p2, p3, p4, p5, p6, p7, p8⟩ := (reach_inv h).po true false hk
  have hw : step cap s .wake = if hostReady s then polled s else s := by
    show (if hostReady s then _ else _) = _
    rw [hk]
  have hres : s.pipe ≠ [] → (step cap s .wake).pc = .out (.polled (decide (.r ∈ s.pipe)) false (decide (.h ∈ s.pipe))) := by
    intro hne
    rw [hw, if_pos (by unfold hostReady; rw [hk]; simpa using hne)]
    unfold polled
    dsimp only
    rw [show s.drain.armIn = s.armIn from rfl, show s.drain.armOut = s.armOut from rfl, p1, p2, Bool.and_true, Bool.and_false]
  constructor
  · intro hs
    refine ⟨decide (.h ∈ s.pipe), (hres (p8 rfl hs)).trans ?_⟩
    rw [decide_eq_true (p6 rfl rfl hs)]
  · intro hs
    exact ⟨_, _, hres (p7 hs)⟩

/-- **Finding** (`poll_out_deaf`): a `poll` for POLLOUT alone never returns, whatever the stack does: the descriptor is the read end of a
pipe, and the host is asked for POLLOUT on it. -/
theorem poll_out_deaf (cap : Nat) (s : S) (o : Bool) (hk : s.pc = .polling false o) : ∀ l, (run cap s l).pc = .polling false o := by
  intro l
  induction l generalizing s with
  | nil => exact hk
  | cons a l ih =>
    refine ih (step cap s a) ?_
    cases a with
    | wake =>
      show (if hostReady s then _ else _ : S).pc = _
      rw [if_neg (by unfold hostReady; rw [hk]; simp)]
      exact hk
    | raise k e =>
      show (if _ then _ else _ : S).pc = _
      rw [if_neg (by rw [hk]; intro e; cases e)]
      exact hk
    | dispatch reap =>
      show (if _ then _ else _ : S).pc = _
      rw [if_neg (by rw [hk]; intro e; cases e), dispatch_pc]
      exact hk
    | _ =>
      show (if _ then _ else _ : S).pc = _
      rw [if_neg (by rw [hk]; intro e; cases e), hk]
      exact hk

/-- **Finding** (`select_out_deaf`): a `select` with the socket in the write or exception set alone never returns because of it. -/
theorem select_out_deaf (cap : Nat) (s : S) (o x : Bool) (hk : s.pc = .selecting false o x) :
    ∀ l, (run cap s l).pc = .selecting false o x := by
  intro l
  induction l generalizing s with
  | nil => exact hk
  | cons a l ih =>
    refine ih (step cap s a) ?_
    cases a with
    | wake =>
      show (if hostReady s then _ else _ : S).pc = _
      rw [if_neg (by unfold hostReady; rw [hk]; simp)]
      exact hk
    | raise k e =>
      show (if _ then _ else _ : S).pc = _
      rw [if_neg (by rw [hk]; intro e; cases e)]
      exact hk
    | dispatch reap =>
      show (if _ then _ else _ : S).pc = _
      rw [if_neg (by rw [hk]; intro e; cases e), dispatch_pc]
      exact hk
    | _ =>
      show (if _ then _ else _ : S).pc = _
      rw [if_neg (by rw [hk]; intro e; cases e), hk]
      exact hk

/-- While no event is raised, a `poll` with an empty pipe stays where it is. -/
theorem poll_stuck (cap : Nat) (s : S) (i o : Bool) (hk : s.pc = .polling i o) (hp : s.pipe = []) (he : s.ev = .none) :
    ∀ l, (∀ k e, .raise k e ∉ l) → (run cap s l).pc = .polling i o := by
  intro l
  induction l with
  | nil => intro _; exact hk
  | cons a l ih =>
    intro hn
    have hs : step cap s a = s := by
      cases a with
      | wake =>
        show (if hostReady s then _ else _) = _
        rw [if_neg (by unfold hostReady; rw [hk, hp]; simp)]
      | raise k e => exact absurd (List.mem_cons_self) (hn k e)
      | dispatch reap =>
        show (if _ then _ else _) = _
        rw [if_neg (by rw [hk]; intro e; cases e)]
        unfold dispatch
        rw [if_pos (Or.inr he)]
      | _ =>
        show (if _ then _ else _) = _
        rw [if_neg (by rw [hk]; intro e; cases e), hk]
    show (run cap (step cap s a) l).pc = _
    rw [hs]
    exact ih fun k e hm => hn k e (List.mem_cons_of_mem _ hm)

/-- A connection with nothing to read, and one with something. -/
def quiet : Sock := ⟨true, false, .no, .yes⟩
def loud : Sock := ⟨false, false, .yes, .yes⟩

def readable : Ev := ⟨true, false, false⟩

/-- **Finding** (`poll_forgets`): the application polls, reads everything there is, and more data arrives before it polls again:
the second `poll` discards the notification and blocks although there is data, until some other event. -/
theorem poll_forgets (cap : Nat) (hc : 3 ≤ cap) :
    let s := run cap (S.start quiet) [.poll true false, .raise loud readable, .dispatch false, .wake, .call .r, .raise quiet .none,
      .raise loud readable, .dispatch false, .poll true false]
    s.sock.agR = false ∧ ∀ l, (∀ k e, .raise k e ∉ l) → (run cap s l).pc = .polling true false := by
  have hc0 : 0 < cap := by omega
  intro s
  have e : s = { S.start loud with pc := .polling true false, armIn := true, cb := true, pend := consume (setb (consume (setb (fun _ => false) .r true) [.r]) .r true) [.r] } := by
    simp [s, run, step, poll, polled, S.drain, S.arm, dispatch, poller, token, S.start, quiet, loud, readable, Ev.none, Ev.or, hostReady, call, pass, Sock.ag, consume, setb, hc0]
  rw [e]
  exact ⟨rfl, poll_stuck cap _ true false rfl rfl rfl⟩

/-- **Finding** (`poll_not_level`): the application reads part of the data and polls again: it blocks although there is more. -/
theorem poll_not_level (cap : Nat) (hc : 3 ≤ cap) :
    let s := run cap (S.start quiet) [.poll true false, .raise loud readable, .dispatch false, .wake, .call .r, .poll true false]
    s.sock.agR = false ∧ ∀ l, (∀ k e, .raise k e ∉ l) → (run cap s l).pc = .polling true false := by
  have hc0 : 0 < cap := by omega
  intro s
  have e : s = { S.start loud with pc := .polling true false, armIn := true, cb := true, pend := consume (setb (fun _ => false) .r true) [.r] } := by
    simp [s, run, step, poll, polled, S.drain, S.arm, dispatch, poller, token, S.start, quiet, loud, readable, Ev.none, Ev.or, hostReady, call, pass, Sock.ag, consume, setb, hc0]
  rw [e]
  exact ⟨rfl, poll_stuck cap _ true false rfl rfl rfl⟩

/-- **Finding** (`write_hides_read`): a `poll` for both directions during which data and room are announced together reports POLLOUT only;
the next `poll` for POLLIN blocks although there is data. -/
theorem write_hides_read (cap : Nat) (hc : 3 ≤ cap) :
    let s := run cap (S.start ⟨true, true, .no, .no⟩) [.poll true true, .raise loud ⟨true, true, false⟩, .dispatch false, .wake]
    s.pc = .out (.polled false true false) ∧ s.sock.agR = false ∧
    ∀ l, (∀ k e, .raise k e ∉ l) → (run cap (step cap s (.poll true false)) l).pc = .polling true false := by
  have hc0 : 0 < cap := by omega
  intro s
  have e : s = { S.start loud with pc := .out (.polled false true false), armIn := true, armOut := true, cb := true, pend := consume (setb (fun _ => false) .w true) [.w], seen := ⟨true, true, false⟩ } := by
    simp [s, run, step, poll, polled, S.drain, S.arm, dispatch, poller, token, S.start, loud, Ev.none, Ev.or, hostReady, consume, setb, hc0]
  rw [e]
  refine ⟨rfl, rfl, poll_stuck cap _ true false rfl rfl rfl⟩

/-- **Finding** (`select_drops_close`): a `select` for reading during which the connection is reset returns with no bit set, the
notification is used up, and the next `select` blocks although a read would tell. -/
theorem select_drops_close (cap : Nat) (hc : 3 ≤ cap) :
    let s := run cap (S.start quiet) [.select true false false, .raise loud ⟨false, false, true⟩, .dispatch true, .wake]
    s.pc = .out (.polled false false false) ∧ s.sock.agR = false ∧
    ∀ l, (∀ k e, .raise k e ∉ l) → (run cap (step cap s (.select true false false)) l).pc = .selecting true false false := by
  have hc0 : 0 < cap := by omega
  intro s
  have e : s = { S.start loud with pc := .out (.polled false false false), armIn := true, cb := false, pend := consume (setb (fun _ => false) .h true) [.h], seen := ⟨false, false, true⟩ } := by
    simp [s, run, step, select, selected, S.drain, S.arm, dispatch, poller, token, S.start, quiet, loud, Ev.none, Ev.or, hostReady, consume, setb, hc0]
  rw [e]
  refine ⟨rfl, rfl, ?_⟩
  generalize hs2 : step cap _ (.select true false false) = s2
  have hk : s2.pc = .selecting true false false ∧ s2.pipe = [] ∧ s2.ev = .none := by rw [← hs2]; exact ⟨rfl, rfl, rfl⟩
  intro l
  induction l with
  | nil => intro _; exact hk.1
  | cons a l ih =>
    intro hn
    have hs : step cap s2 a = s2 := by
      cases a with
      | wake =>
        show (if hostReady s2 then _ else _) = _
        rw [if_neg (by unfold hostReady; rw [hk.1, hk.2.1]; simp)]
      | raise k e => exact absurd (List.mem_cons_self) (hn k e)
      | dispatch reap =>
        show (if _ then _ else _) = _
        rw [if_neg (by rw [hk.1]; intro e; cases e)]
        unfold dispatch
        rw [if_pos (Or.inr hk.2.2)]
      | _ =>
        show (if _ then _ else _) = _
        rw [if_neg (by rw [hk.1]; intro e; cases e), hk.1]
    show (run cap (step cap s2 a) l).pc = _
    rw [hs]
    exact ih fun k e hm => hn k e (List.mem_cons_of_mem _ hm)

/-- A `recv` that blocks; room is announced (of no interest), then data: the state in which `blocked_call_returns` applies. -/
example : ∃ s : S, Reach 65536 s ∧ s.pc = .blocked .r ∧ s.sock.ag .r = false ∧ s.pipe = [] :=
  ⟨run 65536 (S.start quiet) [.call .r, .raise quiet ⟨false, true, false⟩, .dispatch false, .raise loud readable],
    ⟨by decide, quiet, [.call .r, .raise quiet ⟨false, true, false⟩, .dispatch false, .raise loud readable], ⟨(by intro _ _ h; cases h), (by intro k e h; cases h; exact ⟨by decide, by decide⟩), (by intro _ _ h; cases h),
      (by intro k e h; cases h; exact ⟨by decide, by decide⟩), trivial⟩, rfl⟩, by decide, by decide, by decide⟩

/-- The same for `accept`, and for a `poll` during which data is announced. -/
example : ∃ s : S, Reach 65536 s ∧ s.pc = .accepting ∧ s.sock.agR = false :=
  ⟨run 65536 (S.start quiet) [.accept, .raise loud readable],
    ⟨by decide, quiet, [.accept, .raise loud readable], ⟨(by intro _ _ h; cases h), (by intro k e h; cases h; exact ⟨by decide, by decide⟩), trivial⟩, rfl⟩, by decide, by decide⟩

example : ∃ s : S, Reach 65536 s ∧ s.pc = .polling true false ∧ s.seen.r = true :=
  ⟨run 65536 (S.start quiet) [.poll true false, .raise loud readable, .dispatch false],
    ⟨by decide, quiet, [.poll true false, .raise loud readable, .dispatch false], ⟨(by intro _ _ h; cases h), (by intro k e h; cases h; exact ⟨by decide, by decide⟩), (by intro _ _ h; cases h), trivial⟩, rfl⟩,
    by decide +kernel, by decide +kernel⟩

end Wolf.Posix
