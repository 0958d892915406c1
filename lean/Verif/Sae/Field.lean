import Verif.Sae.Model
import Mathlib.NumberTheory.LegendreSymbol.Basic
import Mathlib.Tactic.Ring
import Mathlib.Tactic.FieldSimp
import Mathlib.Tactic.LinearCombination

/-!
# The modular arithmetic of the model is the arithmetic of the field

`ZMod p` is Mathlib's integers modulo `p`.  Each operation of the model is
cast into it; square roots and the (blinded) residue test are then read off
Euler's criterion.
-/

namespace Wolf.Sae

theorem cast_addmod (a b p : Nat) : ((addmod a b p : Nat) : ZMod p) = a + b := by
  simp [addmod]

theorem cast_mulmod (a b p : Nat) : ((mulmod a b p : Nat) : ZMod p) = a * b := by
  simp [mulmod]

theorem cast_sqrmod (a p : Nat) : ((sqrmod a p : Nat) : ZMod p) = (a : ZMod p) ^ 2 := by
  simp [sqrmod, pow_two]

theorem cast_exptmod (a e p : Nat) : ((exptmod a e p : Nat) : ZMod p) = (a : ZMod p) ^ e := by
  simp [exptmod]

theorem cast_submod (a b p : Nat) (hp : 0 < p) : ((submod a b p : Nat) : ZMod p) = a - b := by
  have hlt : b % p < p := Nat.mod_lt _ hp
  have h1 : ((p - b % p : Nat) : ZMod p) = -(b : ZMod p) := by
    rw [Nat.cast_sub (Nat.le_of_lt hlt)]
    simp
  simp only [submod, ZMod.natCast_mod, Nat.cast_add, h1]
  ring

theorem addmod_lt {a b p : Nat} (hp : 0 < p) : addmod a b p < p := Nat.mod_lt _ hp
theorem submod_lt {a b p : Nat} (hp : 0 < p) : submod a b p < p := Nat.mod_lt _ hp
theorem mulmod_lt {a b p : Nat} (hp : 0 < p) : mulmod a b p < p := Nat.mod_lt _ hp
theorem sqrmod_lt {a p : Nat} (hp : 0 < p) : sqrmod a p < p := Nat.mod_lt _ hp
theorem exptmod_lt {a e p : Nat} (hp : 0 < p) : exptmod a e p < p := Nat.mod_lt _ hp
theorem curveRhs_lt {x a b p : Nat} (hp : 0 < p) : curveRhs x a b p < p := Nat.mod_lt _ hp

/-- Residues are equal when their classes are. -/
theorem cast_inj {p x y : Nat} (hx : x < p) (hy : y < p) (h : (x : ZMod p) = y) : x = y := by
  have := (ZMod.natCast_eq_natCast_iff x y p).1 h
  rw [Nat.ModEq, Nat.mod_eq_of_lt hx, Nat.mod_eq_of_lt hy] at this
  exact this

theorem cast_zero_iff {p x : Nat} (hx : x < p) : (x : ZMod p) = 0 ↔ x = 0 := by
  constructor
  · intro h
    exact cast_inj hx (by omega) (by rw [h]; simp)
  · intro h; rw [h]; simp

theorem cast_curveRhs (x a b p : Nat) :
    ((curveRhs x a b p : Nat) : ZMod p) = (x : ZMod p) ^ 3 + a * x + b := by
  simp only [curveRhs, cast_addmod, cast_mulmod, cast_sqrmod]
  ring

/-- `mp_invmod` succeeds exactly on the invertible residues, with the inverse. -/
theorem invmod_some {p x : Nat} [Fact p.Prime] (h : (x : ZMod p) ≠ 0) :
    ∃ y, invmod x p = some y ∧ y < p ∧ (y : ZMod p) = (x : ZMod p)⁻¹ := by
  have hp : p.Prime := Fact.out
  have hval : (((x : ZMod p)⁻¹.val : Nat) : ZMod p) = (x : ZMod p)⁻¹ := ZMod.natCast_zmod_val _
  have hlt : (x : ZMod p)⁻¹.val < p := ZMod.val_lt _
  have hone : x * (x : ZMod p)⁻¹.val % p = 1 := by
    have : ((x * (x : ZMod p)⁻¹.val % p : Nat) : ZMod p) = ((1 : Nat) : ZMod p) := by
      simp [hval, h]
    exact cast_inj (Nat.mod_lt _ hp.pos) hp.one_lt this
  have hex : ((List.range p).find? (fun y => x * y % p == 1)).isSome := by
    rw [List.find?_isSome]
    exact ⟨_, List.mem_range.2 hlt, by simp [hone]⟩
  obtain ⟨y, hy⟩ := Option.isSome_iff_exists.1 hex
  have h1 := List.find?_some hy
  have h2 := List.mem_range.1 (List.mem_of_find?_eq_some hy)
  refine ⟨y, hy, h2, ?_⟩
  have h3 : x * y % p = 1 := by simpa using h1
  have h4 : (x : ZMod p) * y = 1 := by
    have : ((x * y % p : Nat) : ZMod p) = ((1 : Nat) : ZMod p) := by rw [h3]
    simpa using this
  exact eq_inv_of_mul_eq_one_right h4

/-! ## Square roots -/

section
variable {p : Nat} [Fact p.Prime]

theorem half_eq (hp4 : p % 4 = 3) : (p - 1) / 2 = p / 2 := by omega

/-- Euler's criterion for the value the code computes. -/
theorem euler_eq {v : ZMod p} (hv : v ≠ 0) (h : ¬ IsSquare v) : v ^ (p / 2) = -1 := by
  rcases ZMod.pow_div_two_eq_neg_one_or_one p hv with h1 | h1
  · exact absurd ((ZMod.euler_criterion p hv).2 h1) h
  · exact h1

theorem one_ne_neg_one (hp4 : p % 4 = 3) : (1 : ZMod p) ≠ -1 := by
  have : Fact (2 < p) := ⟨by omega⟩
  exact (ZMod.neg_one_ne_one).symm

theorem exptmod_eq_one {v e : Nat} (hp1 : 1 < p) :
    exptmod v e p = 1 ↔ (v : ZMod p) ^ e = 1 := by
  constructor
  · intro h
    have := cast_exptmod v e p
    rw [h] at this
    simpa using this.symm
  · intro h
    refine cast_inj (exptmod_lt (by omega)) hp1 ?_
    rw [cast_exptmod, h]; simp

/-- The plain residue test. -/
theorem isQr_iff {v : Nat} (hp4 : p % 4 = 3) (hv : (v : ZMod p) ≠ 0) :
    isQr v p = true ↔ IsSquare (v : ZMod p) := by
  have hp : p.Prime := Fact.out
  simp only [isQr, beq_iff_eq]
  rw [exptmod_eq_one hp.one_lt, half_eq hp4, ZMod.euler_criterion p hv]

/-- The square-root routine succeeds on every square and returns a root. -/
theorem sqrtModP_some {v : Nat} (hp4 : p % 4 = 3) (hlt : v < p) (h : IsSquare (v : ZMod p)) :
    ∃ y, sqrtModP v p = some y ∧ y < p ∧ (y : ZMod p) ^ 2 = v := by
  have hp : p.Prime := Fact.out
  have hy : ((exptmod v ((p + 1) / 4) p : Nat) : ZMod p) ^ 2 = v := by
    rw [cast_exptmod, ← pow_mul]
    by_cases hv : (v : ZMod p) = 0
    · rw [hv, zero_pow (by omega)]
    · have he : (p + 1) / 4 * 2 = p / 2 + 1 := by omega
      rw [he, pow_succ, (ZMod.euler_criterion p hv).1 h, one_mul]
  have hsq : sqrmod (exptmod v ((p + 1) / 4) p) p = v :=
    cast_inj (sqrmod_lt hp.pos) hlt (by rw [cast_sqrmod]; exact hy)
  refine ⟨exptmod v ((p + 1) / 4) p, ?_, exptmod_lt hp.pos, hy⟩
  simp only [sqrtModP]
  rw [if_neg (by simpa using hsq)]

/-- … and never returns anything that is not a root. -/
theorem sqrtModP_sound {v y : Nat} (h : sqrtModP v p = some y) : y < p ∧ (y : ZMod p) ^ 2 = v := by
  have hp : p.Prime := Fact.out
  simp only [sqrtModP] at h
  split at h
  · exact absurd h (by simp)
  · rename_i hne
    have e := Option.some.inj h
    subst e
    refine ⟨exptmod_lt hp.pos, ?_⟩
    rw [← cast_sqrmod]
    exact congrArg _ (Classical.not_not.1 hne)

/-- The residue search returns a non-residue below `p`. -/
theorem findQnr_sound {n : Nat} (hp4 : p % 4 = 3) (h : findQnr p = some n) (hn : n < p) :
    ¬ IsSquare (n : ZMod p) := by
  have h1 := List.find?_some h
  have h2 := List.mem_range'_1.1 (List.mem_of_find?_eq_some h)
  have hne : (n : ZMod p) ≠ 0 := fun c => by
    rw [cast_zero_iff hn] at c
    omega
  intro hs
  have := (isQr_iff hp4 hne).2 hs
  simp [this] at h1

/-- The blinded residue test gives the residue class of `v` whatever the
blinding values are, for every `v` that is not zero. -/
theorem qrBlind_eq {v qnr r : Nat} {bit : UInt8} (hp4 : p % 4 = 3)
    (hv : (v : ZMod p) ≠ 0) (hr : (r : ZMod p) ≠ 0) (hq : (qnr : ZMod p) ≠ 0)
    (hqn : ¬ IsSquare (qnr : ZMod p)) :
    qrBlind v p qnr r bit = 1 ∧ IsSquare (v : ZMod p) ∨
    qrBlind v p qnr r bit = 0 ∧ ¬ IsSquare (v : ZMod p) := by
  have hp : p.Prime := Fact.out
  have hr2 : ((r : ZMod p) ^ 2) ^ (p / 2) = 1 := by
    exact (ZMod.euler_criterion p (pow_ne_zero 2 hr)).1 ⟨r, pow_two _⟩
  have hqe := euler_eq hq hqn
  have hone := one_ne_neg_one (p := p) hp4
  have hvv : (v : ZMod p) ^ (p / 2) = 1 ∧ IsSquare (v : ZMod p) ∨
      (v : ZMod p) ^ (p / 2) = -1 ∧ ¬ IsSquare (v : ZMod p) := by
    by_cases hs : IsSquare (v : ZMod p)
    · exact Or.inl ⟨(ZMod.euler_criterion p hv).1 hs, hs⟩
    · exact Or.inr ⟨euler_eq hv hs, hs⟩
  simp only [qrBlind]
  by_cases hb : bit &&& 1 = 0
  · simp only [hb, ne_eq, not_true_eq_false, if_false, exptmod_eq_one hp.one_lt, half_eq hp4,
      cast_mulmod, cast_sqrmod, mul_pow, hr2, mul_one]
    rcases hvv with ⟨h1, h2⟩ | ⟨h1, h2⟩
    · left; simp [h1, h2]
    · right; refine ⟨?_, h2⟩; rw [h1]; simp [Ne.symm hone]
  · simp only [hb, ne_eq, not_false_eq_true, if_true, exptmod_eq_one hp.one_lt, half_eq hp4,
      cast_mulmod, cast_sqrmod, mul_pow, hr2, mul_one, hqe]
    rcases hvv with ⟨h1, h2⟩ | ⟨h1, h2⟩
    · left; refine ⟨?_, h2⟩; rw [h1]; simp [Ne.symm hone]
    · right; refine ⟨?_, h2⟩; rw [h1]; simp

end

end Wolf.Sae
