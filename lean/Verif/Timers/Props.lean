import Verif.Timers.Proof
/-!
# C11: timers

Specification: the live timers are a plain list.  Arming appends (refused only when 12 timers are
live), cancelling removes the timer with that id, firing removes a due timer with the least
deadline, or does nothing when no timer is due.
-/
namespace Wolf.Timers

/-- Abstract effect of one operation on the list of live timers. -/
inductive SpecStep : List Timer → Op → Out → List Timer → Prop
  | arm {L e a id} : L.length < 12 → id ≠ 0 → (∀ t ∈ L, t.id ≠ id) →
      SpecStep L (.arm e a) (.armed id) (L ++ [⟨id, e, a⟩])
  | armFull {L e a} : L.length = 12 → SpecStep L (.arm e a) (.armed 0) L
  | cancel {L id} : SpecStep L (.cancel id) .cancelled (L.filter (fun t => t.id ≠ id))
  | idle {L now} : (∀ t ∈ L, now < t.exp) → SpecStep L (.fire now) (.fired none) L
  | fire {L now t} : t ∈ L → t.exp ≤ now → (∀ u ∈ L, t.exp ≤ u.exp) →
      SpecStep L (.fire now) (.fired (some t)) (L.filter (fun u => u.id ≠ t.id))

/-- A specification history. -/
inductive SpecRun : List Timer → List Op → List Out → List Timer → Prop
  | nil {L} : SpecRun L [] [] L
  | cons {L L' L'' op out ops outs} : SpecStep L op out L' → SpecRun L' ops outs L'' →
      SpecRun L (op :: ops) (out :: outs) L''

/-- Number of arm operations in a history. -/
def arms : List Op → Nat
  | [] => 0
  | .arm _ _ :: ops => arms ops + 1
  | _ :: ops => arms ops

/-- Every deadline is positive (deadlines are "now plus a delay"; 0 is the tombstone value). -/
def PosDeadlines : List Op → Prop
  | [] => True
  | .arm e _ :: ops => 0 < e ∧ PosDeadlines ops
  | _ :: ops => PosDeadlines ops

/-- Representation: the heap array is a heap and holds exactly the live timers. -/
structure Rep (s : St) (L : List Timer) : Prop where
  perm : s.heap.Perm L
  heap : IsHeap s.heap
  pos : ∀ t ∈ L, 0 < t.exp
  ids : (L.map Timer.id).Nodup
  lt : ∀ t ∈ L, 0 < t.id ∧ t.id < s.next
  le : L.length ≤ 12
  nextPos : 0 < s.next

theorem filter_of_perm_cons {L H : List Timer} {t : Timer} (hp : (t :: H).Perm L)
    (hn : (L.map Timer.id).Nodup) : H.Perm (L.filter (fun u => u.id ≠ t.id)) := by
  have h1 := hp.filter (fun u => decide (u.id ≠ t.id))
  have h2 : ((t :: H).map Timer.id).Nodup := (hp.map Timer.id).nodup_iff.2 hn
  rw [List.map_cons, List.nodup_cons] at h2
  have h3 : (t :: H).filter (fun u => decide (u.id ≠ t.id)) = H := by
    rw [List.filter_cons_of_neg (by simp), List.filter_eq_self]
    intro u hu
    simp only [ne_eq, decide_eq_true_eq]
    intro e
    exact h2.1 (e ▸ List.mem_map_of_mem hu)
  rw [h3] at h1
  exact h1

theorem Rep.remove {s : St} {L H : List Timer} {t : Timer} (h : Rep s L) (hp : (t :: H).Perm s.heap)
    (hh : IsHeap H) : Rep { s with heap := H } (L.filter (fun u => u.id ≠ t.id)) := by
  refine ⟨filter_of_perm_cons (hp.trans h.perm) h.ids, hh, ?_, ?_, ?_, ?_, h.nextPos⟩
  · intro u hu; exact h.pos u ((List.mem_filter.1 hu).1)
  · exact h.ids.sublist (List.filter_sublist.map _)
  · intro u hu; exact h.lt u ((List.mem_filter.1 hu).1)
  · exact Nat.le_trans (List.length_filter_le _ _) h.le

theorem step_refines {s : St} {L : List Timer} (op : Op) (h : Rep s L) (hn : s.next < 4294967295)
    (hpos : PosDeadlines [op]) :
    ∃ L', SpecStep L op (step s op).2 L' ∧ Rep (step s op).1 L' ∧
      (step s op).1.next ≤ s.next + arms [op] := by
  have hhp : ∀ t ∈ s.heap, 0 < t.exp := fun t ht => h.pos t (h.perm.mem_iff.1 ht)
  cases op with
  | arm e a =>
    have hnx := h.nextPos
    have hlen := h.perm.length_eq
    simp only [step, insert, drain_id hhp]
    rw [if_neg (by omega : ¬ s.next = 0)]
    by_cases hfull : s.heap.length ≥ MAX_TIMERS
    · rw [if_pos hfull]
      have hle := h.le
      refine ⟨L, .armFull (by simp only [MAX_TIMERS] at hfull; omega), ?_, by simp only; omega⟩
      exact ⟨h.perm, h.heap, h.pos, h.ids, h.lt, h.le, h.nextPos⟩
    · rw [if_neg hfull]
      simp only [MAX_TIMERS, ge_iff_le, Nat.not_le] at hfull
      have hup : HoleUp (s.heap ++ [⟨s.next, e, a⟩]) s.heap.length := by
        have hg : ∀ k, k < s.heap.length → key (s.heap ++ [⟨s.next, e, a⟩]) k = key s.heap k := by
          intro k hk
          unfold key get
          rw [List.getD_eq_getElem?_getD, List.getD_eq_getElem?_getD, List.getElem?_append_left hk]
        constructor
        · intro k k0 kl ki
          simp only [List.length_append, List.length_cons, List.length_nil] at kl
          rw [hg _ (by omega), hg _ (by omega)]
          exact h.heap k k0 (by omega)
        · intro i0 k k0 kl kp
          simp only [List.length_append, List.length_cons, List.length_nil] at kl
          omega
      obtain ⟨a1, a2⟩ := siftUp_spec s.heap.length _ s.heap.length (by simp) (Nat.le_refl _) hup
      have hnew : ∀ t ∈ L, t.id ≠ s.next := fun t ht => by have := h.lt t ht; omega
      refine ⟨L ++ [⟨s.next, e, a⟩], .arm (by omega) (by omega) hnew, ?_, ?_⟩
      · refine ⟨a1.trans (h.perm.append_right _), a2, ?_, ?_, ?_, ?_, ?_⟩
        · intro t ht
          rw [List.mem_append] at ht
          rcases ht with ht | ht
          · exact h.pos t ht
          · simp only [List.mem_singleton] at ht; subst ht; exact hpos.1
        · rw [List.map_append, List.nodup_append]
          refine ⟨h.ids, by simp, ?_⟩
          intro x hx y hy
          simp only [List.map_cons, List.map_nil, List.mem_singleton] at hy
          subst hy
          obtain ⟨t, ht, e⟩ := List.mem_map.1 hx
          subst e; exact hnew t ht
        · intro t ht
          simp only
          rw [Nat.mod_eq_of_lt (by omega)]
          rw [List.mem_append] at ht
          rcases ht with ht | ht
          · have := h.lt t ht; omega
          · simp only [List.mem_singleton] at ht; subst ht; simp only; omega
        · simp only [List.length_append, List.length_cons, List.length_nil]; omega
        · simp only; rw [Nat.mod_eq_of_lt (by omega)]; omega
      · simp only [arms]; rw [Nat.mod_eq_of_lt (by omega)]; omega
  | cancel id =>
    simp only [step, arms]
    rcases cancel_spec h.heap id with ⟨e, hno⟩ | ⟨t, ht, hid, hp, hh⟩
    · rw [e]
      refine ⟨_, .cancel, ?_, by omega⟩
      have : L.filter (fun t => t.id ≠ id) = L := by
        rw [List.filter_eq_self]
        intro t ht
        simpa using hno t (h.perm.mem_iff.2 ht)
      rw [this]; exact h
    · refine ⟨_, .cancel, ?_, by omega⟩
      rw [← hid] at hp hh ⊢
      exact h.remove hp hh
  | fire now =>
    simp only [step, fire, arms, drain_id hhp]
    by_cases h0 : s.heap.length = 0
    · rw [if_pos h0]
      refine ⟨L, .idle ?_, h, by omega⟩
      have : L = [] := List.eq_nil_of_length_eq_zero (by rw [← h.perm.length_eq]; exact h0)
      subst this; simp
    · rw [if_neg h0]
      obtain ⟨p1, p2, p3, p4⟩ := pop_spec h.heap (by omega)
      by_cases hk : key s.heap 0 ≤ now
      · rw [if_pos hk]
        simp only [p3]
        refine ⟨_, .fire ?_ hk ?_, h.remove p1 p2, by omega⟩
        · rw [get_eq (by omega)]; exact h.perm.mem_iff.1 (List.getElem_mem _)
        · intro u hu; exact p4 u (h.perm.mem_iff.2 hu)
      · rw [if_neg hk]
        refine ⟨L, .idle ?_, h, by omega⟩
        intro t ht
        have := p4 t (h.perm.mem_iff.2 ht)
        unfold key at hk; omega

theorem run_refines : ∀ (ops : List Op) (s : St) (L : List Timer), Rep s L →
    s.next + arms ops < 4294967295 → PosDeadlines ops →
    ∃ L', SpecRun L ops (run s ops).2 L' ∧ Rep (run s ops).1 L' := by
  intro ops
  induction ops with
  | nil => intro s L h _ _; exact ⟨L, .nil, h⟩
  | cons op ops ih =>
    intro s L h hn hp
    have hp1 : PosDeadlines [op] := by cases op <;> simp_all [PosDeadlines]
    have hp2 : PosDeadlines ops := by cases op <;> simp_all [PosDeadlines]
    have harms : arms (op :: ops) = arms [op] + arms ops := by cases op <;> simp [arms] <;> omega
    obtain ⟨L1, a1, a2, a3⟩ := step_refines op h (by omega) hp1
    obtain ⟨L2, b1, b2⟩ := ih _ L1 a2 (by omega) hp2
    exact ⟨L2, .cons a1 b1, b2⟩

/-- **C11.** Every history of arming, cancelling and firing, however interleaved, behaves like the
plain list of live timers: arming is refused only when 12 timers are live, cancelling removes
exactly the named timer, each firing removes one due timer of least deadline, and nothing fires
only if nothing is due.  (Bound: fewer than 2^32 − 1 arm operations, after which the 32-bit ids
wrap around.) -/
theorem timers_refine_list (ops : List Op) (hn : arms ops < 4294967294) (hp : PosDeadlines ops) :
    ∃ L, SpecRun [] ops (run init ops).2 L := by
  obtain ⟨L, h, _⟩ := run_refines ops init [] ⟨List.Perm.refl _, by
    intro k _ kl; simp [init] at kl, by simp, by simp, by simp, by simp, by simp [init]⟩
    (by simp only [init]; omega) hp
  exact ⟨L, h⟩

/-- The reachable states are represented by a list of live timers. -/
theorem reachable_rep (ops : List Op) (hn : arms ops < 4294967294) (hp : PosDeadlines ops) :
    ∃ L, SpecRun [] ops (run init ops).2 L ∧ Rep (run init ops).1 L := by
  obtain ⟨L, h, r⟩ := run_refines ops init [] ⟨List.Perm.refl _, by
    intro k _ kl; simp [init] at kl, by simp, by simp, by simp, by simp, by simp [init]⟩
    (by simp only [init]; omega) hp
  exact ⟨L, h, r⟩

theorem pollLoop_spec : ∀ f (s : St) (L : List Timer) (now : Nat), Rep s L → L.length ≤ f →
    ∃ L', Rep { s with heap := (pollLoop (f + 1) s.heap now).1 } L' ∧
      (∀ t ∈ L', now < t.exp) ∧
      ((pollLoop (f + 1) s.heap now).2 ++ L').Perm L ∧
      (pollLoop (f + 1) s.heap now).2.Pairwise (fun a b => a.exp ≤ b.exp) ∧
      ∀ t ∈ (pollLoop (f + 1) s.heap now).2, t.exp ≤ now := by
  intro f
  induction f with
  | zero =>
    intro s L now h hl
    have hL : L = [] := List.eq_nil_of_length_eq_zero (by omega)
    subst hL
    have hs : s.heap = [] := List.eq_nil_of_length_eq_zero (by rw [h.perm.length_eq]; rfl)
    have e2 : pollLoop 1 s.heap now = ([], []) := by rw [hs]; rfl
    simp only [Nat.zero_add]
    rw [e2]
    refine ⟨[], ?_, by simp, by simp, by simp, by simp⟩
    cases s; simp only at hs; subst hs; exact h
  | succ f ih =>
    intro s L now h hl
    have hhp : ∀ t ∈ s.heap, 0 < t.exp := fun t ht => h.pos t (h.perm.mem_iff.1 ht)
    have idle : fire s.heap now = (s.heap, none) → (∀ t ∈ L, now < t.exp) →
        ∃ L', Rep { s with heap := (pollLoop (f + 2) s.heap now).1 } L' ∧
        (∀ t ∈ L', now < t.exp) ∧
        ((pollLoop (f + 2) s.heap now).2 ++ L').Perm L ∧
        (pollLoop (f + 2) s.heap now).2.Pairwise (fun a b => a.exp ≤ b.exp) ∧
        ∀ t ∈ (pollLoop (f + 2) s.heap now).2, t.exp ≤ now := by
      intro e hlt
      have e2 : pollLoop (f + 2) s.heap now = (s.heap, []) := by simp only [pollLoop, e]
      rw [e2]
      exact ⟨L, h, hlt, List.Perm.refl _, List.Pairwise.nil, by simp⟩
    by_cases h0 : s.heap.length = 0
    · have hL : L = [] := List.eq_nil_of_length_eq_zero (by rw [← h.perm.length_eq]; exact h0)
      apply idle
      · simp only [fire, drain_id hhp]; rw [if_pos h0]
      · subst hL; simp
    · obtain ⟨p1, p2, p3, p4⟩ := pop_spec h.heap (by omega)
      by_cases hk : key s.heap 0 ≤ now
      · have e : fire s.heap now = ((pop s.heap).2, some (get s.heap 0)) := by
          simp only [fire, drain_id hhp]; rw [if_neg h0, if_pos hk, p3]
        have hr := h.remove p1 p2
        have hperm : (get s.heap 0 :: (pop s.heap).2).Perm L := p1.trans h.perm
        have hlen : (L.filter (fun u => u.id ≠ (get s.heap 0).id)).length ≤ f := by
          have := hperm.length_eq
          have h2 := hr.perm.length_eq
          simp only [List.length_cons] at this
          simp only at h2
          omega
        obtain ⟨L', a1, a2, a3, a4, a5⟩ := ih { s with heap := (pop s.heap).2 } _ now hr hlen
        have e2 : pollLoop (f + 2) s.heap now =
            ((pollLoop (f + 1) (pop s.heap).2 now).1, get s.heap 0 :: (pollLoop (f + 1) (pop s.heap).2 now).2) := by
          rw [pollLoop, e]
        rw [e2]
        simp only at a1 a2 a3 a4 a5
        refine ⟨L', a1, a2, ?_, ?_, ?_⟩
        · refine List.Perm.trans ?_ hperm
          rw [List.cons_append]
          exact (a3.trans hr.perm.symm).cons _
        · rw [List.pairwise_cons]
          refine ⟨?_, a4⟩
          intro u hu
          have : u ∈ L := by
            have := (a3.mem_iff (a := u)).1 (by simp [hu])
            exact (List.mem_filter.1 this).1
          exact p4 u (h.perm.mem_iff.2 this)
        · intro t ht
          simp only [List.mem_cons] at ht
          rcases ht with ht | ht
          · subst ht; exact hk
          · exact a5 t ht
      · apply idle
        · simp only [fire, drain_id hhp]; rw [if_neg h0, if_neg hk]
        · intro t ht
          have := p4 t (h.perm.mem_iff.2 ht)
          unfold key at hk; omega

/-- **C11, poll.** In every reachable state one poll at time `now` (callbacks not touching the
timers) fires exactly the live timers whose deadline has come — each once, in nondecreasing deadline
order, none early — and keeps exactly the others. -/
theorem poll_fires_exactly_due (ops : List Op) (hn : arms ops < 4294967294) (hp : PosDeadlines ops)
    (now : Nat) :
    ∃ L rest, SpecRun [] ops (run init ops).2 L ∧
      let s := (run init ops).1
      let fired := (pollLoop 13 s.heap now).2
      (fired ++ rest).Perm L ∧ (∀ t ∈ fired, t.exp ≤ now) ∧ (∀ t ∈ rest, now < t.exp) ∧
      fired.Pairwise (fun a b => a.exp ≤ b.exp) ∧
      Rep { s with heap := (pollLoop 13 s.heap now).1 } rest := by
  obtain ⟨L, h, r⟩ := reachable_rep ops hn hp
  obtain ⟨L', a1, a2, a3, a4, a5⟩ := pollLoop_spec 12 _ L now r r.le
  exact ⟨L, L', h, a3, a5, a2, a4, a1⟩

/-- A concrete history meeting the hypotheses: 3 armed out of order, one cancelled, two fired. -/
def exOps : List Op := [.arm 30 1, .arm 10 2, .arm 20 3, .cancel 2, .fire 5, .fire 20, .fire 20, .fire 40]

example : arms exOps < 4294967294 ∧ PosDeadlines exOps ∧
    (run init exOps).2.map (fun o => match o with | .fired (some t) => t.arg | .armed i => 100 + i | _ => 0)
      = [101, 102, 103, 0, 0, 3, 0, 1] := by
  refine ⟨by decide, by simp [exOps, PosDeadlines], by decide⟩

end Wolf.Timers
