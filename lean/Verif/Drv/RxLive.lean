import Verif.Drv.RxProps

/-!
# C105: the receive ring does not go deaf (EQOS drivers)

Here the tail pointer is taken at its word (`strict`): the controller does not fetch the descriptor the tail pointer
names. The driver has frames to hand up or the controller can take the next one, in every schedule in which the
controller reports `RBU` between the polls only (`eqos_rx_live_partial`); with reports during the polls the recovery code of
`eth_poll` can leave the tail pointer on the descriptor the controller waits for, and nothing ever moves it again
(`eqos_rx_deaf`).
-/
namespace Wolf.Drv

/-- The controller reports `RBU` only while no poll is running. -/
def Polite (n len : Nat) : Rx → List Act → Prop
  | _, [] => True
  | s, a :: l => (a = .dma .stall → s.pc = .idle) ∧ Polite n len (s.step .eqos true n len a) l

instance Polite.dec (n len : Nat) : ∀ (s : Rx) (l : List Act), Decidable (Polite n len s l)
  | _, [] => isTrue trivial
  | s, a :: l =>
    have := Polite.dec n len (s.step .eqos true n len a) l
    inferInstanceAs (Decidable ((a = .dma .stall → s.pc = .idle) ∧ Polite n len (s.step .eqos true n len a) l))

structure Live (n len : Nat) (s : Rx) : Prop where
  inv : Inv .eqos n len s
  busy : s.pc ≠ .idle → s.rbu = false
  full : s.rbu = true → s.out.length + n - 1 ≤ s.done.length
  tl : s.pc = .idle ∨ s.pc = .next → s.tailp = (s.out.length + n - 1) % n
  tl' : s.pc = .look → s.tailp = (s.out.length + n - 1) % n ∨ s.out.length < s.done.length
  kick : s.pc = .kick → s.out.length < s.done.length

theorem live_dma {n len : Nat} (hn : 2 ≤ n) {s : Rx} (h : Live n len s) (a : Dma) (ha : a = .stall → s.pc = .idle) :
    Live n len (dma .eqos true n s a) := by
  have hi := dma_inv (strict := true) h.inv a (fun hk => by cases hk)
  cases a with
  | fetch =>
    have : (dma .eqos true n s .fetch).pc = s.pc ∧ (dma .eqos true n s .fetch).rbu = s.rbu ∧
        (dma .eqos true n s .fetch).out = s.out ∧ (dma .eqos true n s .fetch).done = s.done ∧
        (dma .eqos true n s .fetch).tailp = s.tailp := by
      unfold dma
      dsimp only
      repeat' split
      all_goals exact ⟨rfl, rfl, rfl, rfl, rfl⟩
    obtain ⟨e1, e2, e3, e4, e5⟩ := this
    exact ⟨hi, by rw [e1, e2]; exact h.busy, by rw [e2, e3, e4]; exact h.full, by rw [e1, e3, e5]; exact h.tl,
      by rw [e1, e3, e4, e5]; exact h.tl', by rw [e1, e3, e4]; exact h.kick⟩
  | write j v =>
    have : (dma .eqos true n s (.write j v)).pc = s.pc ∧ (dma .eqos true n s (.write j v)).rbu = s.rbu ∧
        (dma .eqos true n s (.write j v)).out = s.out ∧ (dma .eqos true n s (.write j v)).done = s.done ∧
        (dma .eqos true n s (.write j v)).tailp = s.tailp := by
      unfold dma
      dsimp only
      repeat' split
      all_goals exact ⟨rfl, rfl, rfl, rfl, rfl⟩
    obtain ⟨e1, e2, e3, e4, e5⟩ := this
    exact ⟨hi, by rw [e1, e2]; exact h.busy, by rw [e2, e3, e4]; exact h.full, by rw [e1, e3, e5]; exact h.tl,
      by rw [e1, e3, e4, e5]; exact h.tl', by rw [e1, e3, e4]; exact h.kick⟩
  | complete st =>
    have : (dma .eqos true n s (.complete st)).pc = s.pc ∧ (dma .eqos true n s (.complete st)).rbu = s.rbu ∧
        (dma .eqos true n s (.complete st)).out = s.out ∧ s.done.length ≤ (dma .eqos true n s (.complete st)).done.length ∧
        (dma .eqos true n s (.complete st)).tailp = s.tailp := by
      unfold dma
      dsimp only
      split
      · refine ⟨rfl, rfl, rfl, ?_, rfl⟩
        dsimp only
        rw [List.length_append]
        exact Nat.le_add_right _ _
      · exact ⟨rfl, rfl, rfl, Nat.le_refl _, rfl⟩
    obtain ⟨e1, e2, e3, e4, e5⟩ := this
    refine ⟨hi, by rw [e1, e2]; exact h.busy, ?_, by rw [e1, e3, e5]; exact h.tl, ?_, ?_⟩
    · rw [e2, e3]
      exact fun e => Nat.le_trans (h.full e) e4
    · rw [e1, e3, e5]
      exact fun e => (h.tl' e).imp id fun g => Nat.lt_of_lt_of_le g e4
    · rw [e1, e3]
      exact fun e => Nat.lt_of_lt_of_le (h.kick e) e4
  | stall =>
    have hpc := ha rfl
    have htl := h.tl (Or.inl hpc)
    unfold dma at hi ⊢
    dsimp only at hi ⊢
    split at hi
    · rename_i hc
      rw [if_pos hc]
      refine ⟨hi, fun e => absurd hpc e, fun _ => ?_, h.tl, h.tl', h.kick⟩
      dsimp only
      rcases hc.2 with e | ⟨-, e⟩
      · refine Nat.le_of_not_lt fun hlt => ?_
        have := (h.inv.free s.done.length (Nat.le_refl _) (by omega)).1
        rw [← h.inv.cur, e] at this
        cases this
      · refine Nat.le_of_not_lt fun hlt => ?_
        rw [htl, h.inv.cur] at e
        have hle := h.inv.le
        exact mod_ne (n := n) hlt (by omega) e
    · rename_i hc
      rw [if_neg hc]
      exact h

theorem live_cpu {n len : Nat} (hn : 2 ≤ n) {s : Rx} (h : Live n len s) : Live n len (cpu .eqos n len s) := by
  have hi := cpu_inv h.inv
  cases hp : s.pc with
  | idle =>
    have ht := h.tl (Or.inl hp)
    unfold cpu at hi ⊢
    rw [hp] at hi ⊢
    dsimp only at hi ⊢
    split at hi
    · rename_i hc
      rw [if_pos hc]
      have := h.full hc.2
      exact ⟨hi, fun _ => rfl, (fun e => by cases e), (fun e => by rcases e with e | e <;> cases e),
        (fun e => by cases e), fun _ => by dsimp only; omega⟩
    · rename_i hc
      rw [if_neg hc]
      have hr : s.rbu = false := by
        cases hr : s.rbu with
        | false => rfl
        | true => exact absurd ⟨rfl, hr⟩ hc
      exact ⟨hi, fun _ => hr, h.full, (fun e => by rcases e with e | e <;> cases e), fun _ => Or.inl ht,
        (fun e => by cases e)⟩
  | kick =>
    have hb := h.busy (by rw [hp]; intro e; cases e)
    have hk := h.kick hp
    unfold cpu at hi ⊢
    rw [hp] at hi ⊢
    exact ⟨hi, fun _ => hb, h.full, (fun e => by rcases e with e | e <;> cases e), fun _ => Or.inr hk,
        (fun e => by cases e)⟩
  | look =>
    have hb := h.busy (by rw [hp]; intro e; cases e)
    have hl := h.tl' hp
    have hidx := h.inv.idx (by rw [hp]; rfl)
    unfold cpu at hi ⊢
    rw [hp] at hi ⊢
    dsimp only at hi ⊢
    split at hi
    · rename_i ho
      rw [if_pos ho]
      refine ⟨hi, fun e => absurd rfl e, h.full, fun _ => ?_, (fun e => by cases e), (fun e => by cases e)⟩
      rcases hl with hl | hl
      · exact hl
      · have := (h.inv.full s.out.length _ (Nat.le_refl _) (List.getElem?_eq_getElem hl)).1
        rw [← hidx, ho] at this
        cases this
    · rename_i ho
      rw [if_neg ho]
      exact ⟨hi, fun _ => hb, h.full, (fun e => by rcases e with e | e <;> cases e), (fun e => by cases e),
        (fun e => by cases e)⟩
  | take =>
    have hb := h.busy (by rw [hp]; intro e; cases e)
    unfold cpu at hi ⊢
    rw [hp] at hi ⊢
    dsimp only at hi ⊢
    split at hi <;> rename_i ho <;> (first | rw [if_pos ho] | rw [if_neg ho]) <;>
    exact ⟨hi, fun _ => hb, h.full, (fun e => by rcases e with e | e <;> cases e), (fun e => by cases e),
        (fun e => by cases e)⟩
  | copy w acc =>
    have hb := h.busy (by rw [hp]; intro e; cases e)
    unfold cpu at hi ⊢
    rw [hp] at hi ⊢
    dsimp only at hi ⊢
    split at hi <;> rename_i ho <;> (first | rw [if_pos ho] | rw [if_neg ho]) <;>
    exact ⟨hi, fun _ => hb, h.full, (fun e => by rcases e with e | e <;> cases e), (fun e => by cases e),
        (fun e => by cases e)⟩
  | addr acc =>
    have hb := h.busy (by rw [hp]; intro e; cases e)
    unfold cpu at hi ⊢
    rw [hp] at hi ⊢
    exact ⟨hi, fun _ => hb, h.full, (fun e => by rcases e with e | e <;> cases e), (fun e => by cases e),
        (fun e => by cases e)⟩
  | own acc =>
    have hb := h.busy (by rw [hp]; intro e; cases e)
    unfold cpu at hi ⊢
    rw [hp] at hi ⊢
    exact ⟨hi, fun _ => hb, (fun e => by rw [show _ = s.rbu from rfl, hb] at e; cases e),
      (fun e => by rcases e with e | e <;> cases e), (fun e => by cases e), (fun e => by cases e)⟩
  | size => exact absurd hp (h.inv.kinds.1 rfl).1
  | rer => exact absurd hp (h.inv.kinds.1 rfl).2
  | tail =>
    have hb := h.busy (by rw [hp]; intro e; cases e)
    obtain ⟨k, hk1, hk2⟩ := h.inv.idx' (by rw [hp]; rfl)
    unfold cpu at hi ⊢
    rw [hp] at hi ⊢
    refine ⟨hi, fun _ => hb, h.full, fun _ => ?_, (fun e => by cases e), (fun e => by cases e)⟩
    dsimp only
    rw [hk1, hk2, show k + 1 + n - 1 = k + n by omega, Nat.add_mod_right]
  | next =>
    have hb := h.busy (by rw [hp]; intro e; cases e)
    have ht := h.tl (Or.inr hp)
    unfold cpu at hi ⊢
    rw [hp] at hi ⊢
    exact ⟨hi, fun _ => hb, h.full, fun _ => ht, (fun e => by cases e), (fun e => by cases e)⟩

theorem live_run {n len : Nat} (hn : 2 ≤ n) : ∀ (l : List Act) {s : Rx}, Live n len s → Polite n len s l →
    Live n len (s.run .eqos true n len l) := by
  intro l
  induction l with
  | nil => intro s h _; exact h
  | cons a l ih =>
    intro s h hc
    show Live n len ((s.step .eqos true n len a).run .eqos true n len l)
    refine ih ?_ hc.2
    cases a with
    | cpu => exact live_cpu hn h
    | dma a => exact live_dma hn h a fun e => hc.1 (by rw [e])

theorem live_start {n : Nat} (hn : 2 ≤ n) (len : Nat) (b : Nat → Nat → Nat) : Live n len (Rx.start n b) where
  inv := start_inv _ (by omega) _ _
  busy := fun _ => rfl
  full := fun h => by cases h
  tl := fun _ => by
    show n - 1 = (0 + n - 1) % n
    rw [Nat.mod_eq_of_lt (by omega)]
    omega
  tl' := fun h => by cases h
  kick := fun h => by cases h

/-- **C105, partial.** Between two polls, in every schedule in which `RBU` is raised between polls only: a completed
frame waits for the driver, or the controller has a frame under way, or it can fetch the next descriptor. -/
theorem eqos_rx_live_partial {n : Nat} (hn : 2 ≤ n) (len : Nat) (b : Nat → Nat → Nat) (l : List Act)
    (hpol : Polite n len (Rx.start n b) l) (s : Rx) (hs : s = (Rx.start n b).run .eqos true n len l)
    (hidle : s.pc = .idle) :
    s.out.length < s.done.length ∨ s.fill ≠ none ∨ (dma .eqos true n s .fetch).fill ≠ none := by
  have h := live_run hn l (live_start hn len b) hpol
  rw [← hs] at h
  by_cases e1 : s.out.length < s.done.length
  · exact Or.inl e1
  · refine Or.inr ?_
    by_cases e2 : s.fill = none
    · refine Or.inr ?_
      have hle := h.inv.le
      have hfree := h.inv.free s.done.length (Nat.le_refl _) (by omega)
      rw [← h.inv.cur] at hfree
      have hne : s.cur ≠ s.tailp := by
        rw [h.tl (Or.inl hidle), h.inv.cur, show s.done.length = s.out.length by omega]
        exact mod_ne (by omega) (by omega)
      unfold dma
      dsimp only
      rw [if_pos ⟨e2, h.inv.tame, hfree.1, fun hh => hne hh.2.2⟩, hfree.2]
      intro e; cases e
    · exact Or.inl e2

/-- The recovery works: the ring runs full, `RBU` is raised, and the next poll gets things going again. -/
example : Polite 4 1536 (Rx.start 4 fun _ _ => 0)
    (recv [1] ++ recv [2] ++ recv [3] ++ [.dma .stall] ++ List.replicate 10 .cpu ++ recv [4]) ∧
    ((Rx.start 4 fun _ _ => 0).run .eqos true 4 1536
      (recv [1] ++ recv [2] ++ recv [3] ++ [.dma .stall] ++ List.replicate 10 .cpu ++ recv [4])).done.length = 4 := by
  decide

/-! ## The schedule that ends in deafness -/

/-- A poll that consumes a one-octet frame, during which `RBU` is raised again after it was cleared. -/
def pollRbu : List Act := [.cpu, .cpu, .dma .stall] ++ List.replicate 8 .cpu

/-- Three frames come, then one more arrives in each of the next polls while there is no descriptor for it. -/
def deafSchedule : List Act :=
  recv [1] ++ recv [2] ++ recv [3] ++ [.dma .stall] ++ pollRbu ++ pollRbu ++ pollRbu ++ [.cpu, .cpu]

/-- Everything is armed, nothing is pending, and the tail pointer names the descriptor both sides wait for. -/
structure Deaf (s : Rx) (done : List (Stat × (Nat → Nat))) : Prop where
  armed : (s.desc 3).own = true
  idx : s.idx = 3
  cur : s.cur = 3
  tailp : s.tailp = 3
  fill : s.fill = none
  pc : s.pc = .idle ∨ s.pc = .kick ∨ s.pc = .look
  done : s.done = done

theorem deaf_step {s : Rx} {d : List (Stat × (Nat → Nat))} (h : Deaf s d) (len : Nat) (a : Act) :
    Deaf (s.step .eqos true 4 len a) d := by
  cases a with
  | cpu =>
    show Deaf (cpu .eqos 4 len s) d
    unfold cpu
    rcases h.pc with hp | hp | hp <;> rw [hp] <;> dsimp only
    · split
      · exact { h with pc := Or.inr (Or.inl rfl) }
      · exact { h with pc := Or.inr (Or.inr rfl) }
    · exact { h with tailp := rfl, pc := Or.inr (Or.inr rfl) }
    · rw [if_pos (by rw [h.idx]; exact h.armed)]
      exact { h with pc := Or.inl rfl }
  | dma a =>
    show Deaf (dma .eqos true 4 s a) d
    unfold dma
    cases a with
    | fetch =>
      dsimp only
      rw [if_neg (fun hc => hc.2.2.2 ⟨rfl, rfl, by rw [h.cur, h.tailp]⟩)]
      exact h
    | write j v => dsimp only; rw [h.fill]; exact h
    | complete st => dsimp only; rw [h.fill]; exact h
    | stall =>
      dsimp only
      split
      · exact { h with }
      · exact h

/-- **Finding** (`eqos_rx_deaf`): with four descriptors as in `stm32_eth.c`, after `deafSchedule` the three frames
have been handed up, every descriptor is armed, and from there on no schedule whatever lets the controller receive
another frame. -/
theorem eqos_rx_deaf :
    ((Rx.start 4 fun _ _ => 0).run .eqos true 4 1536 deafSchedule).out.length = 3 ∧
    ∀ l, ((Rx.start 4 fun _ _ => 0).run .eqos true 4 1536 (deafSchedule ++ l)).done =
      ((Rx.start 4 fun _ _ => 0).run .eqos true 4 1536 deafSchedule).done := by
  refine ⟨by decide +kernel, fun l => ?_⟩
  have h0 : Deaf ((Rx.start 4 fun _ _ => 0).run .eqos true 4 1536 deafSchedule)
      ((Rx.start 4 fun _ _ => 0).run .eqos true 4 1536 deafSchedule).done :=
    ⟨by decide +kernel, by decide +kernel, by decide +kernel, by decide +kernel, by decide +kernel, by decide +kernel, rfl⟩
  rw [Rx.run, List.foldl_append]
  generalize hd : ((Rx.start 4 fun _ _ => 0).run .eqos true 4 1536 deafSchedule).done = d at h0 ⊢
  change (List.foldl _ ((Rx.start 4 fun _ _ => 0).run .eqos true 4 1536 deafSchedule) l).done = d
  generalize (Rx.start 4 fun _ _ => 0).run .eqos true 4 1536 deafSchedule = s at h0
  clear hd
  induction l generalizing s with
  | nil => exact h0.done
  | cons a l ih => exact ih _ (deaf_step h0 1536 a)

end Wolf.Drv
