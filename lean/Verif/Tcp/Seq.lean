/-!
# TCP sequence number arithmetic, `src/wolfip.c` 598–601, 4294–4299, 4937–4951

`uint32_t` values are naturals below `2^32`; all operations keep them there.
-/
namespace Wolf.Tcp

/-- 2^32, the modulus of sequence space. -/
abbrev M32 : Nat := 4294967296

/-- `tcp_seq_inc`, written as in the code with its explicit wrap test. src/wolfip.c 4294–4299. -/
def seqInc (seq n : Nat) : Nat :=
  if n > 4294967295 - seq then n - (4294967295 - seq) - 1 else seq + n

/-- `tcp_seq_diff`: `(int32_t)(a - b)` with unsigned wrap-around. src/wolfip.c 598–601. -/
def seqDiff (a b : Nat) : Int :=
  let d := (a + M32 - b) % M32
  if d ≥ 2147483648 then (d : Int) - 4294967296 else (d : Int)

/-- `tcp_seq_leq`. src/wolfip.c 4937–4943. -/
def seqLeq (a b : Nat) : Bool :=
  if a ≤ b then decide (b - a ≤ 2147483648) else decide (a - b ≥ 2147483648)

/-- `tcp_seq_lt`. src/wolfip.c 4945–4948. -/
def seqLt (a b : Nat) : Bool := (a != b) && seqLeq a b

/-- Sequence number of stream position `x` on a connection whose first byte is numbered `i`
(specification, not code). -/
def sq (i x : Nat) : Nat := (i + x) % 4294967296

theorem sq_lt (i x : Nat) : sq i x < 4294967296 := Nat.mod_lt _ (by decide)

/-- **C07.** Positions less than 2^31 apart are ordered by the comparison exactly as stream
positions, wherever the 32-bit number wraps. -/
theorem seq_order_sound (i x y : Nat) (h1 : x < y + 2147483648) (h2 : y < x + 2147483648) :
    (seqLt (sq i x) (sq i y) = true ↔ x < y) ∧ (seqLeq (sq i x) (sq i y) = true ↔ x ≤ y) ∧
    (sq i x = sq i y ↔ x = y) := by
  unfold seqLt seqLeq sq
  simp only [Bool.and_eq_true, bne_iff_ne, ne_eq]
  refine ⟨?_, ?_, by omega⟩
  · split <;> simp only [decide_eq_true_eq] <;> omega
  · split <;> simp only [decide_eq_true_eq] <;> omega

/-- **C07, trichotomy** for raw 32-bit values: unless they are exactly 2^31 apart, exactly one of
`a < b`, `a = b`, `b < a` holds. -/
theorem seq_trichotomy (a b : Nat) (ha : a < 4294967296) (hb : b < 4294967296)
    (h : a ≠ b + 2147483648) (h' : b ≠ a + 2147483648) :
    (seqLt a b = true ∧ a ≠ b ∧ seqLt b a = false) ∨
    (seqLt a b = false ∧ a = b ∧ seqLt b a = false) ∨
    (seqLt a b = false ∧ a ≠ b ∧ seqLt b a = true) := by
  unfold seqLt seqLeq
  simp only [Bool.and_eq_true, Bool.and_eq_false_iff, bne_iff_ne, ne_eq, bne_eq_false_iff_eq]
  repeat' split
  all_goals simp only [decide_eq_true_eq, decide_eq_false_iff_not]
  all_goals omega

/-- At distance exactly 2^31 the comparison is ambiguous (both directions hold); C07 therefore
cannot be extended to that distance. -/
theorem seq_ambiguous_at_half : seqLt 0 2147483648 = true ∧ seqLt 2147483648 0 = true := by decide

/-- `tcp_seq_inc` advances the stream position. -/
theorem seq_inc_sound (i x n : Nat) (h : n < 4294967296) : seqInc (sq i x) n = sq i (x + n) := by
  unfold seqInc sq; split <;> omega

/-- `tcp_seq_diff` is the signed distance of stream positions less than 2^31 apart. -/
theorem seq_diff_sound (i x y : Nat) (h1 : x < y + 2147483648) (h2 : y ≤ x + 2147483648) :
    seqDiff (sq i x) (sq i y) = (x : Int) - (y : Int) := by
  unfold seqDiff sq M32; simp only; split <;> omega

/-- The hypotheses are met across the wrap point. -/
example : seqLt (sq 4294967290 3) (sq 4294967290 10) = true ∧ sq 4294967290 3 = 4294967293 ∧
    sq 4294967290 10 = 4 := by decide

-- keep the big literals out of definitional unfolding in the clients
attribute [irreducible] sq seqDiff seqInc seqLeq seqLt

end Wolf.Tcp
