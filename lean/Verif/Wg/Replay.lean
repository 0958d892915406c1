/-
WireGuard transport-message replay protection (C45).
Models src/wolfguard/wg_packet.c lines 50-92 (`wg_counter_validate`) and the
fields of `struct wg_keypair` it uses (src/wolfguard/wolfguard.h 236-240).
-/
namespace Wolf.Wg

/-- `WOLFGUARD_COUNTER_WINDOW`, src/wolfguard/wolfguard.h 54. -/
abbrev window : Nat := 1024

/-- `WG_REJECT_AFTER_MESSAGES` = UINT64_MAX - WINDOW - 1, wolfguard.h 144. -/
def rejectAfter : Nat := (2 ^ 64 - 1) - window - 1

/-- The replay fields of `struct wg_keypair` (wolfguard.h 236-240): the highest
counter and the bitmap, an array of WINDOW/32 words of 32 bits. -/
structure Replay where
  max : Nat
  bitmap : List (BitVec 32)
deriving Repr, DecidableEq

/-- A fresh keypair: `memset(kp, 0, ...)` (wg_noise.c, `wg_noise_begin_session`). -/
def Replay.init : Replay := { max := 0, bitmap := List.replicate (window / 32) 0#32 }

/-- `bitmap[word] &= ~(1U << bit)` with word = idx / 32, bit = idx % 32 (wg_packet.c 71-74). -/
def clearBit (bm : List (BitVec 32)) (c : Nat) : List (BitVec 32) :=
  let idx := c % window
  let word := idx / 32
  let bit := idx % 32
  bm.set word (bm.getD word 0#32 &&& ~~~(1#32 <<< bit))

/-- `bitmap[word] |= (1U << bit)` (wg_packet.c 90). -/
def setBit (bm : List (BitVec 32)) (c : Nat) : List (BitVec 32) :=
  let idx := c % window
  let word := idx / 32
  let bit := idx % 32
  bm.set word (bm.getD word 0#32 ||| (1#32 <<< bit))

/-- `bitmap[word] & (1U << bit)` is nonzero (wg_packet.c 87). -/
def testBit (bm : List (BitVec 32)) (c : Nat) : Bool :=
  let idx := c % window
  let word := idx / 32
  let bit := idx % 32
  (bm.getD word 0#32 &&& (1#32 <<< bit)) != 0#32

/-- The loop `for (i = from; i <= counter; i++)` clearing bits, as `n` iterations
starting at `from` (wg_packet.c 70-75). -/
def clearRange (bm : List (BitVec 32)) (start : Nat) : Nat → List (BitVec 32)
  | 0 => bm
  | n + 1 => clearRange (clearBit bm start) (start + 1) n

/-- `wg_counter_validate` (wg_packet.c 50-92).  Returns the new state and whether
the counter is accepted.  The 64-bit addition `counter + WINDOW` wraps as in C. -/
def validate (kp : Replay) (counter : Nat) : Replay × Bool :=
  if counter ≥ rejectAfter then (kp, false)
  else if counter > kp.max then
    let diff := counter - kp.max
    let bm := if diff ≥ window then List.replicate (window / 32) 0#32
              else clearRange kp.bitmap (kp.max + 1) diff
    if testBit bm counter then ({ max := counter, bitmap := bm }, false)
    else ({ max := counter, bitmap := setBit bm counter }, true)
  else if (counter + window) % 2 ^ 64 ≤ kp.max then (kp, false)
  else if testBit kp.bitmap counter then (kp, false)
  else ({ kp with bitmap := setBit kp.bitmap counter }, true)

/-! ## Specification -/

/-- What the property says: with `accepted` the counters accepted so far in this
session, `c` is accepted iff it is below the message limit, was not accepted
before, and no accepted counter is a full window (1024) or more above it. -/
def ShouldAccept (accepted : List Nat) (c : Nat) : Prop :=
  c < rejectAfter ∧ c ∉ accepted ∧ ∀ h ∈ accepted, h < c + window

/-- Run a session over a list of (authenticated) counters, collecting the accepted
ones, newest first. -/
def run : Replay → List Nat → List Nat → Replay × List Nat
  | kp, acc, [] => (kp, acc)
  | kp, acc, c :: cs =>
    let r := validate kp c
    run r.1 (if r.2 then c :: acc else acc) cs

/-! ## Bitmap lemmas -/

theorem and_shift_ne_zero (x : BitVec 32) (b : Nat) (hb : b < 32) :
    ((x &&& (1#32 <<< b)) != 0#32) = x.getLsbD b := by
  cases hx : x.getLsbD b
  · have : x &&& (1#32 <<< b) = 0#32 := by
      apply BitVec.eq_of_getLsbD_eq
      intro i hi
      simp [BitVec.getLsbD_shiftLeft]
      intro h1 h2 h3 h4
      by_cases hib : i = b
      · subst hib; simp_all
      · omega
    simp [this]
  · have : x &&& (1#32 <<< b) ≠ 0#32 := by
      intro h
      have h2 := congrArg (fun v => BitVec.getLsbD v b) h
      rw [BitVec.getLsbD_eq_getElem hb] at hx
      simp [hx, hb] at h2
    simpa using this

theorem getLsbD_clear (x : BitVec 32) (b i : Nat) (hb : b < 32) (hi : i < 32) :
    (x &&& ~~~(1#32 <<< b)).getLsbD i = (x.getLsbD i && !(i == b)) := by
  by_cases h : i = b
  · subst h; simp [BitVec.getLsbD_shiftLeft, hi]
  · simp only [BitVec.getLsbD_and, BitVec.getLsbD_not, BitVec.getLsbD_shiftLeft, hi]
    by_cases h2 : i < b
    · simp [h2, h]
    · have : i - b ≠ 0 := by omega
      simp [h2, h, this]

theorem getLsbD_set (x : BitVec 32) (b i : Nat) (hb : b < 32) (hi : i < 32) :
    (x ||| (1#32 <<< b)).getLsbD i = (x.getLsbD i || (i == b)) := by
  by_cases h : i = b
  · subst h; simp [BitVec.getLsbD_shiftLeft, hi]
  · simp only [BitVec.getLsbD_or, BitVec.getLsbD_shiftLeft, hi]
    by_cases h2 : i < b
    · simp [h2, h]
    · have : i - b ≠ 0 := by omega
      simp [h2, h, this]

/-- Bit `i` (0 ≤ i < 1024) of the bitmap. -/
def bitAt (bm : List (BitVec 32)) (i : Nat) : Bool := (bm.getD (i / 32) 0#32).getLsbD (i % 32)

theorem testBit_eq (bm : List (BitVec 32)) (c : Nat) : testBit bm c = bitAt bm (c % window) := by
  simp only [testBit, bitAt]
  exact and_shift_ne_zero _ _ (Nat.mod_lt _ (by omega))

theorem bitAt_clear (bm : List (BitVec 32)) (hl : bm.length = 32) (c i : Nat) (hi : i < window) :
    bitAt (clearBit bm c) i = (bitAt bm i && !(i == c % window)) := by
  have hc : c % window < window := Nat.mod_lt _ (by decide)
  simp only [bitAt, clearBit]
  generalize c % window = k at *
  simp only [window] at *
  by_cases h : i / 32 = k / 32
  · have hk : k / 32 < bm.length := by omega
    rw [h, List.getD_eq_getElem?_getD, List.getElem?_set_self hk]
    simp only [Option.getD_some]
    rw [getLsbD_clear _ _ _ (Nat.mod_lt _ (by omega)) (Nat.mod_lt _ (by omega))]
    have : (i % 32 == k % 32) = (i == k) := by
      rw [Bool.eq_iff_iff]; simp; omega
    rw [this]
  · rw [List.getD_eq_getElem?_getD, List.getElem?_set_ne (fun e => h e.symm),
      List.getD_eq_getElem?_getD]
    have : (i == k) = false := by simp; intro e; subst e; exact h rfl
    simp [this]

theorem bitAt_set (bm : List (BitVec 32)) (hl : bm.length = 32) (c i : Nat) (hi : i < window) :
    bitAt (setBit bm c) i = (bitAt bm i || (i == c % window)) := by
  have hc : c % window < window := Nat.mod_lt _ (by decide)
  simp only [bitAt, setBit]
  generalize c % window = k at *
  simp only [window] at *
  by_cases h : i / 32 = k / 32
  · have hk : k / 32 < bm.length := by omega
    rw [h, List.getD_eq_getElem?_getD, List.getElem?_set_self hk]
    simp only [Option.getD_some]
    rw [getLsbD_set _ _ _ (Nat.mod_lt _ (by omega)) (Nat.mod_lt _ (by omega))]
    have : (i % 32 == k % 32) = (i == k) := by
      rw [Bool.eq_iff_iff]; simp; omega
    rw [this]
  · rw [List.getD_eq_getElem?_getD, List.getElem?_set_ne (fun e => h e.symm),
      List.getD_eq_getElem?_getD]
    have : (i == k) = false := by simp; intro e; subst e; exact h rfl
    simp [this]

theorem clearBit_length (bm : List (BitVec 32)) (c : Nat) : (clearBit bm c).length = bm.length := by
  simp [clearBit]

theorem setBit_length (bm : List (BitVec 32)) (c : Nat) : (setBit bm c).length = bm.length := by
  simp [setBit]

theorem clearRange_length (n : Nat) : ∀ (bm : List (BitVec 32)) (s : Nat),
    (clearRange bm s n).length = bm.length := by
  induction n with
  | zero => intro bm s; rfl
  | succ n ih => intro bm s; rw [clearRange, ih, clearBit_length]

theorem bitAt_clearRange (n : Nat) : ∀ (bm : List (BitVec 32)) (s i : Nat), bm.length = 32 →
    i < window →
    (bitAt (clearRange bm s n) i = true ↔
      bitAt bm i = true ∧ ∀ k, s ≤ k → k < s + n → k % window ≠ i) := by
  induction n with
  | zero => intro bm s i hl hi; simp [clearRange]; intro _ k h1 h2; omega
  | succ n ih =>
    intro bm s i hl hi
    rw [clearRange, ih _ _ _ (by rw [clearBit_length]; exact hl) hi, bitAt_clear _ hl _ _ hi]
    simp only [Bool.and_eq_true, Bool.not_eq_true', beq_eq_false_iff_ne]
    constructor
    · rintro ⟨⟨h1, h2⟩, h3⟩
      refine ⟨h1, fun k hk1 hk2 => ?_⟩
      by_cases hks : k = s
      · subst hks; exact fun e => h2 e.symm
      · exact h3 k (by omega) (by omega)
    · rintro ⟨h1, h2⟩
      exact ⟨⟨h1, fun e => h2 s (Nat.le_refl _) (by omega) e.symm⟩,
        fun k hk1 hk2 => h2 k (by omega) (by omega)⟩

/-! ## Invariant -/

/-- The state faithfully records the accepted counters. -/
structure Good (kp : Replay) (acc : List Nat) : Prop where
  len : kp.bitmap.length = 32
  lim : kp.max < 2 ^ 64
  le : ∀ h ∈ acc, h ≤ kp.max
  attained : acc = [] ∧ kp.max = 0 ∨ kp.max ∈ acc
  bits : ∀ c, c ≤ kp.max → kp.max < c + window → (bitAt kp.bitmap (c % window) = true ↔ c ∈ acc)

theorem good_init : Good Replay.init [] := by
  refine ⟨by decide, by decide, by simp, Or.inl ⟨rfl, rfl⟩, ?_⟩
  intro c hc _
  have : c = 0 := Nat.le_zero.mp hc
  subst this
  decide

theorem rejectAfter_val : rejectAfter = 18446744073709550590 := by decide

theorem bitAt_zero (i : Nat) : bitAt (List.replicate (window / 32) 0#32) i = false := by
  simp only [bitAt, List.getD_eq_getElem?_getD, List.getElem?_replicate]
  split <;> simp

/-- The outcome and the preserved invariant of one call. -/
theorem validate_good (kp : Replay) (acc : List Nat) (hg : Good kp acc) (c : Nat) :
    ((validate kp c).2 = true ↔ ShouldAccept acc c) ∧
    Good (validate kp c).1 (if (validate kp c).2 then c :: acc else acc) := by
  have hR := rejectAfter_val
  have hlim := hg.lim
  have hlen := hg.len
  simp only [validate]
  split
  · rename_i h
    refine ⟨by simp [ShouldAccept]; intro h2; omega, by simpa using hg⟩
  rename_i hrej
  split
  · -- above the highest accepted counter
    rename_i hgt
    have hclr : ∀ bm, (if c - kp.max ≥ window then List.replicate (window / 32) 0#32
              else clearRange kp.bitmap (kp.max + 1) (c - kp.max)) = bm →
        bm.length = 32 ∧
        (∀ x, x ≤ c → c < x + window → (bitAt bm (x % window) = true ↔ x ∈ acc)) := by
      intro bm hbm
      subst hbm
      split
      · rename_i hd
        refine ⟨by decide, fun x hx1 hx2 => ?_⟩
        rw [bitAt_zero]
        simp only [Bool.false_eq_true, false_iff]
        intro hx
        have := hg.le x hx
        simp only [window] at *
        omega
      · rename_i hd
        refine ⟨by rw [clearRange_length]; exact hlen, fun x hx1 hx2 => ?_⟩
        rw [bitAt_clearRange _ _ _ _ hlen (Nat.mod_lt _ (by decide))]
        by_cases hxm : x ≤ kp.max
        · have hw : kp.max < x + window := by simp only [window] at *; omega
          rw [hg.bits x hxm hw]
          refine ⟨fun h => h.1, fun h => ⟨h, fun k hk1 hk2 => ?_⟩⟩
          simp only [window] at *
          omega
        · constructor
          · rintro ⟨_, h⟩
            exact absurd rfl (h x (by omega) (by omega))
          · intro hx
            exact absurd (hg.le x hx) hxm
    have key := hclr _ rfl
    generalize (if c - kp.max ≥ window then List.replicate (window / 32) 0#32
              else clearRange kp.bitmap (kp.max + 1) (c - kp.max)) = bm at *
    clear hclr
    obtain ⟨kl, kb⟩ := key
    have hnot : c ∉ acc := fun h => absurd (hg.le c h) (by omega)
    have htb : testBit bm c = false := by
      rw [testBit_eq]
      cases hb : bitAt bm (c % window)
      · rfl
      · exact absurd ((kb c (Nat.le_refl _) (by simp only [window]; omega)).mp hb) hnot
    rw [htb]
    simp only [Bool.false_eq_true, ↓reduceIte, true_iff]
    refine ⟨⟨by omega, hnot, fun h hh => ?_⟩, ?_⟩
    · have := hg.le h hh
      omega
    · refine ⟨by rw [setBit_length]; exact kl, by simp only; omega, ?_, Or.inr (by simp), ?_⟩
      · intro h hh
        rcases List.mem_cons.mp hh with rfl | hh
        · exact Nat.le_refl _
        · have := hg.le h hh
          simp only
          omega
      · intro x hx1 hx2
        simp only at hx1 hx2
        rw [bitAt_set _ kl _ _ (Nat.mod_lt _ (by decide))]
        simp only [Bool.or_eq_true, beq_iff_eq, List.mem_cons]
        rw [kb x hx1 hx2]
        constructor
        · rintro (h | h)
          · exact Or.inr h
          · left
            simp only [window] at *
            omega
        · rintro (h | h)
          · subst h; exact Or.inr rfl
          · exact Or.inl h
  · rename_i hle
    have hmod : (c + window) % 2 ^ 64 = c + window := by
      apply Nat.mod_eq_of_lt
      simp only [window]
      omega
    rw [hmod]
    split
    · rename_i hold
      refine ⟨?_, by simpa using hg⟩
      simp only [Bool.false_eq_true, ShouldAccept, false_iff]
      rintro ⟨_, h2, h3⟩
      rcases hg.attained with ⟨_, h0⟩ | hm
      · simp only [window] at *; omega
      · have := h3 _ hm
        omega
    · rename_i hnew
      have hb := hg.bits c (by omega) (by omega)
      rw [testBit_eq]
      split
      · rename_i ht
        refine ⟨?_, by simpa using hg⟩
        simp only [Bool.false_eq_true, ShouldAccept, false_iff]
        rintro ⟨_, h2, _⟩
        exact h2 (hb.mp ht)
      · rename_i ht
        have hnot : c ∉ acc := fun h => ht (hb.mpr h)
        simp only [ShouldAccept, ↓reduceIte, true_iff]
        refine ⟨⟨by omega, hnot, fun h hh => ?_⟩, ?_⟩
        · have := hg.le h hh
          omega
        · refine ⟨by simp only [setBit_length]; exact hlen, hlim, ?_, ?_, ?_⟩
          · intro h hh
            rcases List.mem_cons.mp hh with rfl | hh
            · simp only; omega
            · exact hg.le h hh
          · right
            rcases hg.attained with ⟨_, h0⟩ | hm
            · simp only
              have : c = kp.max := by omega
              rw [this]; simp
            · simp [hm]
          · intro x hx1 hx2
            simp only at hx1 hx2
            rw [bitAt_set _ hlen _ _ (Nat.mod_lt _ (by decide))]
            simp only [Bool.or_eq_true, beq_iff_eq, List.mem_cons]
            rw [hg.bits x hx1 hx2]
            constructor
            · rintro (h | h)
              · exact Or.inr h
              · left
                simp only [window] at *
                omega
            · rintro (h | h)
              · subst h; exact Or.inr rfl
              · exact Or.inl h

theorem run_good (cs : List Nat) : ∀ (kp : Replay) (acc : List Nat), Good kp acc →
    Good (run kp acc cs).1 (run kp acc cs).2 := by
  induction cs with
  | nil => intro kp acc h; exact h
  | cons c cs ih => intro kp acc h; exact ih _ _ (validate_good kp acc h c).2

theorem run_nodup (cs : List Nat) : ∀ (kp : Replay) (acc : List Nat), Good kp acc → acc.Nodup →
    (run kp acc cs).2.Nodup := by
  induction cs with
  | nil => intro kp acc _ h; exact h
  | cons c cs ih =>
    intro kp acc hg hn
    have hv := validate_good kp acc hg c
    apply ih _ _ hv.2
    split
    · rename_i h
      exact List.nodup_cons.mpr ⟨(hv.1.mp h).2.1, hn⟩
    · exact hn

/-! ## C45 -/

/-- **C45, exactness.** After any history `cs` of counters presented on a fresh
session, the next counter is accepted exactly when the property says so: it is
below the message limit, was not accepted before, and lies above or within the
1024-wide window below the highest counter accepted. -/
theorem wg_replay_exact (cs : List Nat) (c : Nat) :
    (validate (run Replay.init [] cs).1 c).2 = true ↔
      ShouldAccept (run Replay.init [] cs).2 c :=
  (validate_good _ _ (run_good cs _ _ good_init) c).1

/-- **C45, at most once.** No counter is ever accepted twice in a session. -/
theorem wg_replay_at_most_once (cs : List Nat) : (run Replay.init [] cs).2.Nodup :=
  run_nodup cs _ _ good_init List.nodup_nil

/-- **C45, in-order traffic is never refused.** Counters 0,1,2,…,n-1 presented in
order (n up to the message limit) are all accepted. -/
theorem wg_in_order_accepted (n : Nat) (hn : n ≤ rejectAfter) :
    (run Replay.init [] (List.range n)).2 = (List.range n).reverse := by
  have app : ∀ (cs ds : List Nat) (kp : Replay) (acc : List Nat),
      run kp acc (cs ++ ds) = run (run kp acc cs).1 (run kp acc cs).2 ds := by
    intro cs
    induction cs with
    | nil => intro ds kp acc; rfl
    | cons c cs ih => intro ds kp acc; simp only [List.cons_append, run]; exact ih _ _ _
  induction n with
  | zero => rfl
  | succ n ih =>
    have ih := ih (by omega)
    rw [List.range_succ, app, List.reverse_append]
    have h := (wg_replay_exact (List.range n) n).mpr (by
      rw [ih]
      refine ⟨by omega, by simp, ?_⟩
      intro h hh
      simp at hh
      omega)
    simp only [run, h, ↓reduceIte, ih]
    rfl

/-- A concrete history exercising every branch: out-of-order arrival, a replay, a
big jump, an old packet and one just inside the window. -/
example : (run Replay.init [] [0, 5, 3, 5, 2000, 976, 977, 977, 1999, rejectAfter]).2
    = [1999, 977, 2000, 3, 5, 0] := by decide +kernel

end Wolf.Wg
