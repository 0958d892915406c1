import Verif.Sae.Field
import Mathlib.AlgebraicGeometry.EllipticCurve.Affine.Point

/-!
# The point arithmetic of the model is the group law of the curve

The specification is Mathlib's elliptic curve: `WeierstrassCurve.Affine.Point`
with its commutative group structure.  `Rep` says that the three numbers in an
`ecc_point` stand for a point of that group.
-/

namespace Wolf.Sae

open WeierstrassCurve

/-- The curve `y² = x³ + a·x + b` over the integers modulo `p`. -/
abbrev Curve.W (cv : Curve) : Affine (ZMod cv.p) :=
  { a₁ := 0, a₂ := 0, a₃ := 0, a₄ := (cv.a : ZMod cv.p), a₆ := (cv.b : ZMod cv.p) }

/-- What a curve has to satisfy: the field is prime, of the residue class for
which the square-root formula of the code is right, and the cubic has no
double root.  (True of P-256, P-384 and P-521.) -/
structure Curve.Good (cv : Curve) : Prop where
  prime : cv.p.Prime
  mod4 : cv.p % 4 = 3
  big : 3 < cv.p
  smooth : 4 * (cv.a : ZMod cv.p) ^ 3 + 27 * (cv.b : ZMod cv.p) ^ 2 ≠ 0

section
variable (cv : Curve)

theorem disc_eq : cv.W.Δ = -16 * (4 * (cv.a : ZMod cv.p) ^ 3 + 27 * (cv.b : ZMod cv.p) ^ 2) := by
  simp only [WeierstrassCurve.Δ, WeierstrassCurve.b₂, WeierstrassCurve.b₄, WeierstrassCurve.b₆,
    WeierstrassCurve.b₈]
  ring

theorem eqn_iff (x y : ZMod cv.p) :
    cv.W.Equation x y ↔ y ^ 2 = x ^ 3 + cv.a * x + cv.b := by
  rw [Affine.equation_iff]
  constructor <;> intro h
  · linear_combination h
  · linear_combination h

end

section
variable {cv : Curve} [Fact cv.p.Prime]

theorem two_ne (hg : cv.Good) : (2 : ZMod cv.p) ≠ 0 := by
  have h3 := hg.big
  have : ((2 : Nat) : ZMod cv.p) ≠ 0 := fun c => by
    rw [cast_zero_iff (by omega)] at c
    omega
  simpa using this

theorem disc_ne (hg : cv.Good) : cv.W.Δ ≠ 0 := by
  have h2 := two_ne hg
  rw [disc_eq]
  refine mul_ne_zero ?_ hg.smooth
  have : (-16 : ZMod cv.p) = -(2 ^ 4) := by norm_num
  rw [this]
  exact neg_ne_zero.2 (pow_ne_zero 4 h2)

theorem nonsing_iff (hg : cv.Good) (x y : ZMod cv.p) :
    cv.W.Nonsingular x y ↔ y ^ 2 = x ^ 3 + cv.a * x + cv.b := by
  rw [← Affine.equation_iff_nonsingular_of_Δ_ne_zero (disc_ne hg), eqn_iff]

/-- The numbers of an `ecc_point` stand for a point of the curve group. -/
def Rep (P : Pt) (A : cv.W.Point) : Prop :=
  (P.z = 0 ∧ A = 0) ∨
  (P.z = 1 ∧ P.x < cv.p ∧ P.y < cv.p ∧
    ∃ h : cv.W.Nonsingular (P.x : ZMod cv.p) (P.y : ZMod cv.p), A = .some _ _ h)

theorem rep_ident : Rep (cv := cv) ident 0 := Or.inl ⟨rfl, rfl⟩

theorem rep_isId {P : Pt} {A : cv.W.Point} (h : Rep P A) : P.isId = true ↔ A = 0 := by
  rcases h with ⟨hz, hA⟩ | ⟨hz, _, _, hn, hA⟩
  · simp [Pt.isId, hz, hA]
  · simp [Pt.isId, hz, hA]

theorem rep_affine {x y : Nat} (hx : x < cv.p) (hy : y < cv.p)
    (h : cv.W.Nonsingular (x : ZMod cv.p) (y : ZMod cv.p)) :
    Rep (affine x y) (.some _ _ h : cv.W.Point) :=
  Or.inr ⟨rfl, hx, hy, h, rfl⟩

/-- Only one pair of residues stands for a given point. -/
theorem rep_unique {P Q : Pt} {A : cv.W.Point} (hA : A ≠ 0) (hP : Rep P A) (hQ : Rep Q A) :
    P = Q := by
  rcases hP with ⟨_, c⟩ | ⟨hz, hx, hy, hn, e⟩
  · exact absurd c hA
  rcases hQ with ⟨_, c⟩ | ⟨hz', hx', hy', hn', e'⟩
  · exact absurd c hA
  rw [e] at e'
  injection e' with e1 e2
  obtain ⟨x, y, z⟩ := P
  obtain ⟨x', y', z'⟩ := Q
  simp only at *
  rw [cast_inj hx hx' e1, cast_inj hy hy' e2, hz, hz']

/-- Different points have different numbers. -/
theorem rep_inj {P : Pt} {A B : cv.W.Point} (hA : Rep P A) (hB : Rep P B) : A = B := by
  rcases hA with ⟨hz, c⟩ | ⟨hz, hx, hy, hn, e⟩
  · rcases hB with ⟨_, c'⟩ | ⟨hz', _⟩
    · rw [c, c']
    · omega
  · rcases hB with ⟨hz', _⟩ | ⟨_, _, _, hn', e'⟩
    · omega
    · rw [e, e']

theorem negY_eq (x y : ZMod cv.p) : cv.W.negY x y = -y := by
  simp [Affine.negY]

/-- Negation. -/
theorem rep_neg (hg : cv.Good) {P : Pt} {A : cv.W.Point} (h : Rep P A) :
    Rep (ecNeg P cv.p) (-A) := by
  rcases h with ⟨hz, hA⟩ | ⟨hz, hx, hy, hn, hA⟩
  · left
    refine ⟨?_, by rw [hA]; simp⟩
    simp only [ecNeg]
    split <;> exact hz
  · right
    have hn' := hn
    rw [nonsing_iff hg] at hn'
    by_cases h0 : P.y = 0
    · have he : ecNeg P cv.p = P := by simp [ecNeg, h0]
      rw [he]
      refine ⟨hz, hx, hy, hn, ?_⟩
      rw [hA, Affine.Point.neg_some]
      congr 1
      rw [negY_eq, h0]; simp
    · have he : ecNeg P cv.p = { P with y := cv.p - P.y } := by simp [ecNeg, h0]
      rw [he]
      have hc : ((cv.p - P.y : Nat) : ZMod cv.p) = -(P.y : ZMod cv.p) := by
        rw [Nat.cast_sub (Nat.le_of_lt hy)]; simp
      have hn2 : cv.W.Nonsingular (P.x : ZMod cv.p) ((cv.p - P.y : Nat) : ZMod cv.p) := by
        rw [nonsing_iff hg, hc, ← hn']; ring
      refine ⟨hz, hx, by dsimp only; omega, hn2, ?_⟩
      rw [hA, Affine.Point.neg_some]
      congr 1
      rw [negY_eq, ← hc]

/-- Two coordinates equal to those of a point make the same point. -/
theorem point_eq {X Y x y : ZMod cv.p} (h : cv.W.Nonsingular x y) (hX : X = x) (hY : Y = y) :
    ∃ h' : cv.W.Nonsingular X Y, (.some x y h : cv.W.Point) = .some X Y h' := by
  subst hX; subst hY; exact ⟨h, rfl⟩

/-- Doubling a point whose ordinate is not zero. -/
theorem rep_dbl (hg : cv.Good) {P : Pt} {A : cv.W.Point} (h : Rep P A) :
    ∃ R, ecDbl P cv.a cv.p = some R ∧ Rep R (A + A) := by
  have hpos : 0 < cv.p := by have := hg.big; omega
  rcases h with ⟨hz, hA⟩ | ⟨hz, hx, hy, hn, hA⟩
  · refine ⟨ident, ?_, ?_⟩
    · simp [ecDbl, Pt.isId, hz]
    · rw [hA]; simpa using rep_ident
  by_cases h0 : P.y = 0
  · refine ⟨ident, ?_, ?_⟩
    · simp [ecDbl, h0]
    · rw [hA, Affine.Point.add_self_of_Y_eq (by rw [negY_eq, h0]; simp)]
      exact rep_ident
  have h2 := two_ne hg
  have hyne : (P.y : ZMod cv.p) ≠ 0 := fun c => h0 ((cast_zero_iff hy).1 c)
  have hYne : (P.y : ZMod cv.p) ≠ cv.W.negY (P.x : ZMod cv.p) (P.y : ZMod cv.p) := by
    rw [negY_eq]
    intro c
    have : (2 : ZMod cv.p) * P.y = 0 := by linear_combination c
    exact (mul_ne_zero h2 hyne) this
  have hinv : ((addmod P.y P.y cv.p : Nat) : ZMod cv.p) ≠ 0 := by
    rw [cast_addmod]
    have : (P.y : ZMod cv.p) + P.y = 2 * P.y := by ring
    rw [this]
    exact mul_ne_zero h2 hyne
  obtain ⟨iv, hiv, hivlt, hivc⟩ := invmod_some hinv
  rw [cast_addmod] at hivc
  have hsl := Affine.slope_of_Y_ne (W := cv.W) (x₁ := (P.x : ZMod cv.p)) (x₂ := P.x)
    (y₁ := P.y) (y₂ := P.y) rfl hYne
  rw [hA, Affine.Point.add_self_of_Y_ne hYne]
  refine ⟨_, by simp only [ecDbl, Pt.isId, hz]; rw [if_neg (by simp [h0]), hiv], ?_⟩
  have hyy : (P.y : ZMod cv.p) - -(P.y : ZMod cv.p) = P.y + P.y := by ring
  have hslope : cv.W.slope (P.x : ZMod cv.p) P.x P.y P.y
      = ((P.x : ZMod cv.p) ^ 2 + (P.x : ZMod cv.p) ^ 2 + (P.x : ZMod cv.p) ^ 2 + cv.a)
        * ((P.y : ZMod cv.p) + P.y)⁻¹ := by
    rw [hsl, negY_eq, hyy, div_eq_mul_inv]
    congr 1
    simp only []
    ring
  right
  refine ⟨rfl, submod_lt hpos, submod_lt hpos, point_eq _ ?_ ?_⟩
  · simp only [cast_submod _ _ _ hpos, cast_mulmod, cast_sqrmod, cast_addmod, hivc,
      Affine.addX, hslope]
    ring
  · simp only [cast_submod _ _ _ hpos, cast_mulmod, cast_sqrmod, cast_addmod, hivc,
      Affine.addX, Affine.addY, Affine.negAddY, Affine.negY, hslope]
    ring

/-- Addition. -/
theorem rep_add (hg : cv.Good) {P Q : Pt} {A B : cv.W.Point} (hP : Rep P A) (hQ : Rep Q B) :
    ∃ R, ecAdd P Q cv.a cv.p = some R ∧ Rep R (A + B) := by
  have hpos : 0 < cv.p := by have := hg.big; omega
  have hP0 := hP
  rcases hP with ⟨hz, hA⟩ | ⟨hz, hx, hy, hn, hA⟩
  · refine ⟨Q, by simp [ecAdd, Pt.isId, hz], ?_⟩
    rw [hA, zero_add]; exact hQ
  rcases hQ with ⟨hz', hB⟩ | ⟨hz', hx', hy', hn', hB⟩
  · refine ⟨P, by simp [ecAdd, Pt.isId, hz, hz'], ?_⟩
    rw [hB, add_zero]; exact hP0
  have hstep : ecAdd P Q cv.a cv.p = if P.x = Q.x then
      if P.y = Q.y then ecDbl P cv.a cv.p
      else if addmod P.y Q.y cv.p = 0 then some ident
      else none
    else
      (invmod (submod Q.x P.x cv.p) cv.p).bind fun t2 =>
        let slope := mulmod (submod Q.y P.y cv.p) t2 cv.p
        let x3 := submod (submod (sqrmod slope cv.p) P.x cv.p) Q.x cv.p
        some ⟨x3, submod (mulmod slope (submod P.x x3 cv.p) cv.p) P.y cv.p, 1⟩ := by
    simp only [ecAdd, Pt.isId, hz, hz']
    simp only [beq_iff_eq, one_ne_zero, if_false]
    split
    · rfl
    · cases invmod (submod Q.x P.x cv.p) cv.p <;> rfl
  rw [hstep]
  by_cases hxe : P.x = Q.x
  · rw [if_pos hxe]
    have e1 := (nonsing_iff hg _ _).1 hn
    have e2 := (nonsing_iff hg _ _).1 hn'
    have hsq : ((P.y : ZMod cv.p) - Q.y) * ((P.y : ZMod cv.p) + Q.y) = 0 := by
      have e3 : (P.y : ZMod cv.p) ^ 2 = (Q.y : ZMod cv.p) ^ 2 := by rw [e1, e2, hxe]
      linear_combination e3
    by_cases hye : P.y = Q.y
    · rw [if_pos hye]
      have hPQ : B = A := by
        rw [hA, hB]
        congr 1
        · rw [hxe]
        · rw [hye]
      rw [hPQ]
      exact rep_dbl hg hP0
    · rw [if_neg hye]
      have hsum : (P.y : ZMod cv.p) + Q.y = 0 := by
        rcases mul_eq_zero.1 hsq with c | c
        · exact absurd (cast_inj hy hy' (sub_eq_zero.1 c)) hye
        · exact c
      have : addmod P.y Q.y cv.p = 0 := by
        rw [← cast_zero_iff (addmod_lt hpos), cast_addmod]; exact hsum
      rw [if_pos this]
      refine ⟨ident, rfl, ?_⟩
      rw [hA, hB, Affine.Point.add_of_Y_eq (by rw [hxe]) (by rw [negY_eq]; linear_combination hsum)]
      exact rep_ident
  · rw [if_neg hxe]
    have hxne : (P.x : ZMod cv.p) ≠ Q.x := fun c => hxe (cast_inj hx hx' c)
    have hinv : ((submod Q.x P.x cv.p : Nat) : ZMod cv.p) ≠ 0 := by
      rw [cast_submod _ _ _ hpos]
      exact sub_ne_zero.2 (Ne.symm hxne)
    obtain ⟨iv, hiv, hivlt, hivc⟩ := invmod_some hinv
    rw [cast_submod _ _ _ hpos] at hivc
    rw [hiv, hA, hB, Affine.Point.add_of_X_ne hxne]
    refine ⟨_, rfl, ?_⟩
    have hslope : cv.W.slope (P.x : ZMod cv.p) Q.x P.y Q.y
        = ((Q.y : ZMod cv.p) - P.y) * ((Q.x : ZMod cv.p) - P.x)⁻¹ := by
      rw [Affine.slope_of_X_ne hxne, ← neg_sub (Q.y : ZMod cv.p), ← neg_sub (Q.x : ZMod cv.p),
        neg_div_neg_eq, div_eq_mul_inv]
    right
    refine ⟨rfl, submod_lt hpos, submod_lt hpos, point_eq _ ?_ ?_⟩
    · simp only [cast_submod _ _ _ hpos, cast_mulmod, cast_sqrmod, hivc, Affine.addX, hslope]
      ring
    · simp only [cast_submod _ _ _ hpos, cast_mulmod, cast_sqrmod, hivc,
        Affine.addX, Affine.addY, Affine.negAddY, Affine.negY, hslope]
      ring

/-- Scalar multiplication. -/
theorem rep_mul (hg : cv.Good) {P : Pt} {A : cv.W.Point} (hP : Rep P A) :
    ∀ n, ∃ R, ecMul n P cv.a cv.p = some R ∧ Rep R (n • A)
  | 0 => ⟨ident, rfl, by rw [zero_nsmul]; exact rep_ident⟩
  | n + 1 => by
    obtain ⟨R, hR, hrep⟩ := rep_mul hg hP n
    obtain ⟨S, hS, hrep'⟩ := rep_add hg hrep hP
    exact ⟨S, by simp only [ecMul, hR]; exact hS, by rw [succ_nsmul]; exact hrep'⟩

end

end Wolf.Sae
