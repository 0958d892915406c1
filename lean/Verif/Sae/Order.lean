import Verif.Sae.Commit
import Mathlib.GroupTheory.Perm.Cycle.Type

/-!
# The order of the curve group

To instantiate `Setup` for a concrete curve one has to know that the order of
every point divides `q`.  It is enough to exhibit one point of prime order `q`,
to know that the cubic has no root, and `3·q > 2·p + 1`: the group has at most
`2·p + 1` elements, an odd number of them, and `q` divides that number.
-/

namespace Wolf.Sae

open WeierstrassCurve

section
variable {cv : Curve} [Fact cv.p.Prime]

/-- A point is determined by its abscissa and the parity of its ordinate. -/
noncomputable def encode : cv.W.Point → Option (ZMod cv.p × Bool)
  | .zero => none
  | .some x y _ => some (x, y.val % 2 == 1)

theorem encode_inj (hg : cv.Good) (hroot : ∀ x : ZMod cv.p, x ^ 3 + cv.a * x + cv.b ≠ 0) :
    Function.Injective (encode (cv := cv)) := by
  intro A B h
  cases A with
  | zero => cases B with
    | zero => rfl
    | some x y hn => simp [encode] at h
  | some x y hn => cases B with
    | zero => simp [encode] at h
    | some x' y' hn' =>
      simp only [encode, Option.some.injEq, Prod.mk.injEq] at h
      obtain ⟨hx, hpar⟩ := h
      subst hx
      have e1 := (nonsing_iff hg x y).1 hn
      have e2 := (nonsing_iff hg x y').1 hn'
      have h3 : (y - y') * (y + y') = 0 := by
        have : y ^ 2 = y' ^ 2 := by rw [e1, e2]
        linear_combination this
      rcases mul_eq_zero.1 h3 with h4 | h4
      · rw [sub_eq_zero] at h4; subst h4; rfl
      · exfalso
        have hy0 : y ≠ 0 := by
          intro c; rw [c] at e1; exact hroot x (by rw [← e1]; ring)
        have hyv : y.val ≠ 0 := fun c => hy0 ((ZMod.val_eq_zero y).1 c)
        have h5 : ((y.val + y'.val : Nat) : ZMod cv.p) = 0 := by
          push_cast
          rw [ZMod.natCast_zmod_val, ZMod.natCast_zmod_val]
          exact h4
        obtain ⟨t, ht⟩ := (ZMod.natCast_eq_zero_iff _ _).1 h5
        have l1 := ZMod.val_lt y
        have l2 := ZMod.val_lt y'
        have hm4 := hg.mod4
        have ht2 : t < 2 := by
          rcases Nat.lt_or_ge t 2 with c0 | c0
          · exact c0
          · have := Nat.mul_le_mul_left cv.p c0
            omega
        have hpp : y.val % 2 = y'.val % 2 := by
          have a1 : y.val % 2 = 0 ∨ y.val % 2 = 1 := by omega
          have a2 : y'.val % 2 = 0 ∨ y'.val % 2 = 1 := by omega
          rcases a1 with a1 | a1 <;> rcases a2 with a2 | a2 <;> rw [a1, a2] at hpar <;>
            simp at hpar <;> omega
        have ht3 : t = 0 ∨ t = 1 := by omega
        rcases ht3 with rfl | rfl
        · omega
        · omega

/-- The order of every point divides `q`. -/
theorem order_of_point (hg : cv.Good) (hroot : ∀ x : ZMod cv.p, x ^ 3 + cv.a * x + cv.b ≠ 0)
    (hq : cv.q.Prime) (hbig : 2 * cv.p + 1 < 3 * cv.q) {G : cv.W.Point} (hG : G ≠ 0)
    (hord : cv.q • G = 0) (A : cv.W.Point) : cv.q • A = 0 := by
  have hinj := encode_inj hg hroot
  haveI : Finite cv.W.Point := Finite.of_injective _ hinj
  have hle : Nat.card cv.W.Point ≤ 2 * cv.p + 1 := by
    have h1 := Nat.card_le_card_of_injective _ hinj
    have h2 : Nat.card (Option (ZMod cv.p × Bool)) = 2 * cv.p + 1 := by
      rw [Finite.card_option, Nat.card_prod, Nat.card_zmod]
      simp [Nat.mul_comm]
    omega
  have hordG : addOrderOf G = cv.q := by
    rcases (Nat.dvd_prime hq).1 (addOrderOf_dvd_of_nsmul_eq_zero hord) with h1 | h1
    · exact absurd (AddMonoid.addOrderOf_eq_one_iff.1 h1) hG
    · exact h1
  have hdvd : cv.q ∣ Nat.card cv.W.Point := hordG ▸ addOrderOf_dvd_natCard G
  have hodd : ¬ 2 ∣ Nat.card cv.W.Point := by
    intro h2
    haveI : Fact (Nat.Prime 2) := ⟨Nat.prime_two⟩
    obtain ⟨B, hB⟩ := exists_prime_addOrderOf_dvd_card' 2 h2
    have hB2 : 2 • B = 0 := by rw [← hB]; exact addOrderOf_nsmul_eq_zero B
    have hB0 : B ≠ 0 := by
      intro c; rw [c, addOrderOf_zero] at hB; omega
    cases B with
    | zero => exact hB0 rfl
    | some x y hn =>
      have e1 := (nonsing_iff hg x y).1 hn
      by_cases hy : y = cv.W.negY x y
      · rw [negY_eq] at hy
        have h3 : (2 : ZMod cv.p) * y = 0 := by linear_combination hy
        rcases mul_eq_zero.1 h3 with h4 | h4
        · exact two_ne hg h4
        · rw [h4] at e1
          exact hroot x (by rw [← e1]; ring)
      · rw [two_nsmul, Affine.Point.add_self_of_Y_ne hy] at hB2
        exact Affine.Point.some_ne_zero _ hB2
  obtain ⟨m, hm⟩ := hdvd
  have hpos : 0 < Nat.card cv.W.Point := Nat.card_pos
  have hm1 : m = 1 := by
    have hm3 : m < 3 := by
      rcases Nat.lt_or_ge m 3 with c0 | c0
      · exact c0
      · have := Nat.mul_le_mul_left cv.q c0
        omega
    have : m = 0 ∨ m = 1 ∨ m = 2 := by omega
    rcases this with rfl | rfl | rfl
    · rw [hm] at hpos; simp at hpos
    · rfl
    · exact absurd (by rw [hm]; exact Nat.dvd_mul_left 2 cv.q) hodd
  have hcard : Nat.card cv.W.Point = cv.q := by rw [hm, hm1, Nat.mul_one]
  rw [← hcard]
  exact card_nsmul_eq_zero'

end

end Wolf.Sae
