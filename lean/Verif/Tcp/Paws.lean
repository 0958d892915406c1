import Verif.Tcp.Seq
/-
C09: TCP timestamps - `tcp_process_ts` (src/wolfip.c 4823-4863) and
`tcp_paws_check` (4870-4889).
-/
namespace Wolf.Tcp.Paws

/-- `ee32` on a little-endian host: byte swap of a 32-bit value (wolfip.h ~545-556). -/
def ee32 (x : Nat) : Nat :=
  (x % 256) * 16777216 + (x / 256 % 256) * 65536 + (x / 65536 % 256) * 256 + x / 16777216 % 256

/-- Timestamp-related socket fields: `ts_enabled`, `ts_recent_valid`, `last_ts`
(kept in *network* order by the code), and `ack` (RCV.NXT). -/
structure St where
  enabled : Bool
  valid : Bool
  lastTs : Nat
  ack : Nat
deriving Repr, DecidableEq

/-- Option content of a segment that matters here: TSopt found with host-order
value `val`; sequence number; RST flag. (`tcp_parse_options` is C08.) -/
structure Seg where
  ts : Option Nat
  seq : Nat
  rst : Bool

inductive Verdict where | ok | drop | ackDrop
deriving DecidableEq, Repr

/-- `tcp_paws_check`, src/wolfip.c 4870-4889. -/
def pawsCheck (t : St) (g : Seg) : Verdict :=
  if !t.enabled || g.rst then .ok
  else match g.ts with
    | none => .drop
    | some v => if t.valid && seqLt v (ee32 t.lastTs) then .ackDrop else .ok

/-- The TS.Recent part of `tcp_process_ts`, src/wolfip.c 4849-4855: the
comparison is made on *byte-swapped* values, exactly as written in the source.
The RTT sample part is `Rto.sample` (C10). -/
def processTs (t : St) (g : Seg) : St :=
  match g.ts with
  | none => t
  | some v =>
      if !t.valid || (!seqLt (ee32 v) t.lastTs && seqLeq g.seq t.ack)
      then { t with lastTs := ee32 v, valid := true } else t

/-- The value echoed to the peer: the option field gets `last_ts` verbatim and
the peer reads it in network order (src/wolfip.c 3497-3503, 6689). -/
def echoed (t : St) : Nat := ee32 t.lastTs

/-! ### Specification -/

/-- Circular distance from `a` forward to `b`. -/
def fwd (a b : Nat) : Nat := (b + 4294967296 - a) % 4294967296

/-- `a` is strictly older than `b` (RFC 7323: less than half the space behind). -/
def Older (a b : Nat) : Prop := 0 < fwd a b ∧ fwd a b < 2147483648

/-! ### Lemmas -/

theorem ee32_lt (x : Nat) : ee32 x < 4294967296 := by unfold ee32; omega

theorem ee32_ee32 (x : Nat) (h : x < 4294967296) : ee32 (ee32 x) = x := by
  unfold ee32
  have d : ∀ a b c e : Nat, a < 256 → b < 256 → c < 256 → e < 256 →
      let y := a * 16777216 + b * 65536 + c * 256 + e
      y % 256 = e ∧ y / 256 % 256 = c ∧ y / 65536 % 256 = b ∧ y / 16777216 % 256 = a := by
    intro a b c e _ _ _ _; refine ⟨?_, ?_, ?_, ?_⟩ <;> omega
  obtain ⟨h1, h2, h3, h4⟩ := d (x % 256) (x / 256 % 256) (x / 65536 % 256) (x / 16777216 % 256)
    (by omega) (by omega) (by omega) (by omega)
  rw [h1, h2, h3, h4]
  clear h1 h2 h3 h4 d
  have a1 : x / 256 = x / 65536 * 256 + x / 256 % 256 := by omega
  have a2 : x / 65536 = x / 16777216 * 256 + x / 65536 % 256 := by omega
  have a3 : x = x / 256 * 256 + x % 256 := by omega
  omega

theorem seqLt_iff (a b : Nat) (ha : a < 4294967296) (hb : b < 4294967296)
    (hd : fwd a b ≠ 2147483648) : seqLt a b = true ↔ Older a b := by
  unfold Older fwd at *
  unfold seqLt seqLeq
  simp only [Bool.and_eq_true, bne_iff_ne, ne_eq]
  split <;> simp only [decide_eq_true_eq] <;> omega

/-! ### Theorems -/

/-- A RST is never rejected for its timestamp (RFC 7323 5.2), nor is anything before timestamps were
negotiated. -/
theorem paws_exempt (t : St) (g : Seg) (h : g.rst = true ∨ t.enabled = false) : pawsCheck t g = .ok := by
  rcases h with h | h <;> simp [pawsCheck, h]

/-- **C09, PAWS half**: with timestamps negotiated, a non-RST segment is
rejected as stale exactly when its timestamp is older than the value the stack
echoes, is silently dropped exactly when it carries none, and accepted
otherwise. -/
theorem paws_rejects_exactly_older (t : St) (g : Seg) (hen : t.enabled = true)
    (hr : g.rst = false) :
    (g.ts = none → pawsCheck t g = .drop) ∧
    (∀ v, g.ts = some v → v < 4294967296 → fwd v (echoed t) ≠ 2147483648 →
      (pawsCheck t g = .ackDrop ↔ t.valid = true ∧ Older v (echoed t)) ∧
      (pawsCheck t g ≠ .drop)) := by
  constructor
  · intro h; simp [pawsCheck, hen, hr, h]
  · intro v h hv hd
    have := seqLt_iff v (echoed t) hv (ee32_lt _) hd
    unfold echoed at *
    simp only [pawsCheck, hen, hr, h]
    rw [← this]
    cases hval : t.valid <;> cases hlt : seqLt v (ee32 t.lastTs) <;> simp

/-- **C09, echo half (what holds)**: the stored value is always one that was
received (never mangled by the byte order handling); the first timestamp seeds
it; a segment above RCV.NXT never changes it; if it changes it changes to
exactly the segment's value. -/
theorem ts_recent_update_partial (t : St) (g : Seg) (v : Nat) (hg : g.ts = some v)
    (hv : v < 4294967296) :
    (t.valid = false → echoed (processTs t g) = v ∧ (processTs t g).valid = true) ∧
    (t.valid = true → seqLeq g.seq t.ack = false → processTs t g = t) ∧
    (echoed (processTs t g) = v ∨ processTs t g = t) := by
  have e := ee32_ee32 v hv
  unfold echoed
  refine ⟨?_, ?_, ?_⟩
  · intro h; simp [processTs, hg, h, e]
  · intro h h2; simp [processTs, hg, h, h2]
  · simp only [processTs, hg]; split
    · left; simpa using e
    · right; rfl

/-- **C09, monotonicity (what holds)**: a segment that passes PAWS never moves
the remembered timestamp backwards. -/
theorem ts_recent_never_backwards_partial (t : St) (g : Seg) (v : Nat) (hg : g.ts = some v)
    (hv : v < 4294967296) (hen : t.enabled = true) (hr : g.rst = false) (hval : t.valid = true)
    (hp : pawsCheck t g = .ok) (hd : fwd v (echoed t) ≠ 2147483648) :
    ¬ Older (echoed (processTs t g)) (echoed t) := by
  have h2 := (paws_rejects_exactly_older t g hen hr).2 v hg hv hd
  rcases (ts_recent_update_partial t g v hg hv).2.2 with h | h
  · rw [h]; intro ho
    have := h2.1.2 ⟨hval, ho⟩
    rw [hp] at this; cases this
  · rw [h]; unfold Older fwd; omega

/-- **C09 is violated**: an in-order segment with a strictly newer timestamp
(0x120 after 0x40) passes PAWS but is *not* remembered, because the comparison
in `tcp_process_ts` is made on byte-swapped values.  The stack goes on echoing
the old value. -/
theorem ts_newer_in_order_not_remembered :
    ∃ (t : St) (g : Seg) (v : Nat), g.ts = some v ∧ v < 4294967296 ∧ t.enabled = true ∧
      t.valid = true ∧ g.rst = false ∧ g.seq = t.ack ∧ pawsCheck t g = .ok ∧
      Older (echoed t) v ∧ echoed (processTs t g) = echoed t ∧ echoed t ≠ v := by
  refine ⟨⟨true, true, ee32 0x40, 1000⟩, ⟨some 0x120, 1000, false⟩, 0x120, rfl, by decide, rfl, rfl,
    rfl, rfl, ?_, ?_, ?_, ?_⟩
  · unfold pawsCheck; unfold seqLt seqLeq; decide
  · unfold Older fwd echoed; decide
  · unfold processTs; unfold seqLt seqLeq; decide
  · decide

/-- For values whose three low bytes coincide (only the top byte differs, at
most by 127 counting *after* the swap it is the lowest byte) the byte-swapped
comparison agrees with the intended one. The general statement
`newer ∧ in order → remembered` is what `ts_newer_in_order_not_remembered` refutes. -/
theorem ts_newer_remembered_partial (t : St) (g : Seg) (lo a b : Nat) (hlo : lo < 16777216)
    (hb : b < 256) (hab : a ≤ b) (ht : t.lastTs = ee32 (a * 16777216 + lo))
    (hg : g.ts = some (b * 16777216 + lo)) (hs : seqLeq g.seq t.ack = true) :
    echoed (processTs t g) = b * 16777216 + lo := by
  have e1 : ∀ c, c < 256 → ee32 (c * 16777216 + lo) = ee32 lo + c := by
    intro c hc; unfold ee32; omega
  have hl : ee32 lo % 256 = 0 := by
    have : lo / 16777216 = 0 := by omega
    unfold ee32; rw [this]; omega
  have hl2 : ee32 lo < 4294967296 := ee32_lt _
  have hno : seqLt (ee32 (b * 16777216 + lo)) t.lastTs = false := by
    rw [ht, e1 a (by omega), e1 b hb]
    generalize ee32 lo = z at *
    unfold seqLt seqLeq
    simp only [Bool.and_eq_false_iff, bne_eq_false_iff_eq]
    split <;> simp only [decide_eq_false_iff_not] <;> omega
  simp only [processTs, hg, hno, hs]
  simpa [echoed] using ee32_ee32 (b * 16777216 + lo) (by omega)

/-- The hypotheses of the positive theorems are met by a live connection. -/
example : pawsCheck ⟨true, true, ee32 500, 7⟩ ⟨some 499, 7, false⟩ = .ackDrop ∧
    pawsCheck ⟨true, true, ee32 500, 7⟩ ⟨some 500, 7, false⟩ = .ok ∧
    echoed (processTs ⟨true, true, ee32 500, 7⟩ ⟨some 501, 7, false⟩) = 501 := by
  unfold pawsCheck processTs; unfold seqLt seqLeq; decide

end Wolf.Tcp.Paws
