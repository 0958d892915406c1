import Verif.Sae.Hnp

/-!
# Hash to element: the simplified SWU map and the password element (C96)
-/

namespace Wolf.Sae

open WeierstrassCurve

section
variable {p : Nat}

/-- The cubic. -/
def gx (a b x : ZMod p) : ZMod p := x ^ 3 + a * x + b

variable [Fact p.Prime]

open Classical in
/-- `x1` of RFC 9380 6.6.2. -/
noncomputable def sswuX1Spec (a b z u : ZMod p) : ZMod p :=
  if z ^ 2 * u ^ 4 + z * u ^ 2 = 0 then b / (z * a)
  else (-b / a) * (1 + (z ^ 2 * u ^ 4 + z * u ^ 2)⁻¹)

/-- `(x, y)` is the image of `u` (RFC 9380 6.6.2). -/
def IsSswu (a b z u x y : ZMod p) : Prop :=
  (IsSquare (gx a b (sswuX1Spec a b z u)) → x = sswuX1Spec a b z u) ∧
  (¬ IsSquare (gx a b (sswuX1Spec a b z u)) → x = z * u ^ 2 * sswuX1Spec a b z u) ∧
  y ^ 2 = gx a b x ∧ y.val % 2 = u.val % 2

/-- The identity behind the map: `g(Z u² x1) = Z³ u⁶ g(x1)`. -/
theorem sswu_identity {a b z u : ZMod p} (ha : a ≠ 0) (hd : z ^ 2 * u ^ 4 + z * u ^ 2 ≠ 0) :
    gx a b (z * u ^ 2 * sswuX1Spec a b z u) = (z * u ^ 2) ^ 3 * gx a b (sswuX1Spec a b z u) := by
  have hx : sswuX1Spec a b z u = (-b / a) * (1 + (z ^ 2 * u ^ 4 + z * u ^ 2)⁻¹) := by
    unfold sswuX1Spec; rw [if_neg hd]
  have hax : a * (z ^ 2 * u ^ 4 + z * u ^ 2) * sswuX1Spec a b z u
      = -b * (z ^ 2 * u ^ 4 + z * u ^ 2 + 1) := by
    rw [hx]
    generalize z ^ 2 * u ^ 4 + z * u ^ 2 = D at hd
    field_simp
  have htt : z ^ 2 * u ^ 4 + z * u ^ 2 = z * u ^ 2 * (z * u ^ 2 + 1) := by ring
  rw [htt] at hax
  unfold gx
  generalize sswuX1Spec a b z u = x at *
  generalize z * u ^ 2 = t at *
  linear_combination (1 - t) * hax

/-- One of the two candidates is an abscissa. -/
theorem sswu_square {a b z u : ZMod p} (ha : a ≠ 0) (hz : ¬ IsSquare z)
    (hroot : ∀ x : ZMod p, gx a b x ≠ 0) (hexc : IsSquare (gx a b (b / (z * a))))
    (hn : ¬ IsSquare (gx a b (sswuX1Spec a b z u))) :
    IsSquare (gx a b (z * u ^ 2 * sswuX1Spec a b z u)) := by
  have hz0 : z ≠ 0 := fun c => hz (by rw [c]; exact ⟨0, by simp⟩)
  by_cases hd : z ^ 2 * u ^ 4 + z * u ^ 2 = 0
  · exfalso
    apply hn
    unfold sswuX1Spec
    rw [if_pos hd]
    exact hexc
  · rw [sswu_identity ha hd]
    have hu : u ≠ 0 := by
      intro c; apply hd; rw [c]; simp
    have hg0 := hroot (sswuX1Spec a b z u)
    generalize gx a b (sswuX1Spec a b z u) = v at *
    have h1 : (z * v) ^ (p / 2) = 1 := by
      rw [mul_pow, euler_eq hz0 hz, euler_eq hg0 hn]; ring
    obtain ⟨w, hw⟩ := (ZMod.euler_criterion p (mul_ne_zero hz0 hg0)).2 h1
    refine ⟨z * u ^ 3 * w, ?_⟩
    linear_combination (z ^ 2 * u ^ 6) * hw

end

/-- What RFC 9380 8.2 asks of the constant `Z` of a suite, and the shape of
the curve: `a ≠ 0`, `Z` is not a square, and `B / (Z·A)` is an abscissa. -/
structure SswuOk (cv : Curve) [Fact cv.p.Prime] (z : Nat) : Prop where
  alt : cv.a < cv.p
  blt : cv.b < cv.p
  zlt : z < cv.p
  a0 : (cv.a : ZMod cv.p) ≠ 0
  zns : ¬ IsSquare (z : ZMod cv.p)
  exc : IsSquare (gx (cv.a : ZMod cv.p) cv.b ((cv.b : ZMod cv.p) / ((z : ZMod cv.p) * cv.a)))

section
variable {g : Grp} {cv : Curve} [Fact cv.p.Prime]

theorem sswuX1_eq {z : Nat} (hk : SswuOk cv z) {u : Nat} :
    ∃ x1, sswuX1 u cv.a cv.b cv.p z = some x1 ∧ x1 < cv.p ∧
      (x1 : ZMod cv.p) = sswuX1Spec (cv.a : ZMod cv.p) cv.b z u := by
  have hp : cv.p.Prime := Fact.out
  have hz0 : (z : ZMod cv.p) ≠ 0 := fun c => hk.zns (by rw [c]; exact ⟨0, by simp⟩)
  have hden : ((addmod (sqrmod (mulmod (sqrmod u cv.p) z cv.p) cv.p)
      (mulmod (sqrmod u cv.p) z cv.p) cv.p : Nat) : ZMod cv.p)
      = (z : ZMod cv.p) ^ 2 * (u : ZMod cv.p) ^ 4 + z * (u : ZMod cv.p) ^ 2 := by
    simp only [cast_addmod, cast_sqrmod, cast_mulmod]
    ring
  have hdlt : addmod (sqrmod (mulmod (sqrmod u cv.p) z cv.p) cv.p)
      (mulmod (sqrmod u cv.p) z cv.p) cv.p < cv.p := addmod_lt hp.pos
  obtain ⟨ai, hai, _, haic⟩ := invmod_some hk.a0
  have hnb : ((cv.p - cv.b : Nat) : ZMod cv.p) = -(cv.b : ZMod cv.p) :=
    neg_cast (Nat.le_of_lt hk.blt)
  unfold sswuX1
  dsimp only
  generalize addmod (sqrmod (mulmod (sqrmod u cv.p) z cv.p) cv.p)
      (mulmod (sqrmod u cv.p) z cv.p) cv.p = dn at *
  unfold sswuX1Spec
  rw [← hden]
  by_cases h0 : dn = 0
  · have hza : ((mulmod z cv.a cv.p : Nat) : ZMod cv.p) ≠ 0 := by
      rw [cast_mulmod]; exact mul_ne_zero hz0 hk.a0
    obtain ⟨zi, hzi, _, hzic⟩ := invmod_some hza
    unfold inv0
    rw [if_pos h0, hai, hzi]
    simp only [Option.bind_some, Option.map_some, h0, if_true]
    refine ⟨_, rfl, mulmod_lt hp.pos, ?_⟩
    rw [cast_mulmod, hzic, cast_mulmod]
    simp [div_eq_mul_inv]
  · have hdne : (dn : ZMod cv.p) ≠ 0 := fun c => h0 ((cast_zero_iff hdlt).1 c)
    obtain ⟨di, hdi, _, hdic⟩ := invmod_some hdne
    unfold inv0
    rw [if_neg h0, hdi, hai]
    simp only [Option.bind_some, h0, if_false, hdne]
    refine ⟨_, rfl, mulmod_lt hp.pos, ?_⟩
    rw [cast_mulmod, cast_mulmod, hnb, haic]
    have : (((di + 1) % cv.p : Nat) : ZMod cv.p) = 1 + (dn : ZMod cv.p)⁻¹ := by
      simp [hdic, add_comm]
    rw [this, div_eq_mul_inv]

/-- C96.  **The SSWU map is total and is the RFC's**: every field element is
mapped to a reduced point of the curve, the one RFC 9380 6.6.2 prescribes. -/
theorem sswu_total (hs : Setup g cv) {z : Nat} (hk : SswuOk cv z) {u : Nat} (hu : u < cv.p) :
    ∃ x y, sswuMap u cv.a cv.b cv.p z = some (x, y) ∧ x < cv.p ∧ y < cv.p ∧
      IsSswu (cv.a : ZMod cv.p) cv.b z u x y := by
  have hp : cv.p.Prime := Fact.out
  have h4 := hs.good.mod4
  obtain ⟨x1, hx1, hx1lt, hx1c⟩ := sswuX1_eq hk (u := u)
  have hroot : ∀ x : ZMod cv.p, gx (cv.a : ZMod cv.p) cv.b x ≠ 0 := hs.noRoot
  have hgx1 : ((curveRhs x1 cv.a cv.b cv.p : Nat) : ZMod cv.p)
      = gx (cv.a : ZMod cv.p) cv.b (sswuX1Spec (cv.a : ZMod cv.p) cv.b z u) := by
    rw [cast_curveRhs, hx1c]; rfl
  have hqr := isQr_iff (v := curveRhs x1 cv.a cv.b cv.p) h4 (by rw [hgx1]; exact hroot _)
  rw [hgx1] at hqr
  -- the chosen abscissa
  have hx : ∃ x, (if isQr (curveRhs x1 cv.a cv.b cv.p) cv.p = true then x1
        else mulmod (mulmod (sqrmod u cv.p) z cv.p) x1 cv.p) = x ∧ x < cv.p ∧
      (IsSquare (gx (cv.a : ZMod cv.p) cv.b (sswuX1Spec (cv.a : ZMod cv.p) cv.b z u)) →
        (x : ZMod cv.p) = sswuX1Spec (cv.a : ZMod cv.p) cv.b z u) ∧
      (¬ IsSquare (gx (cv.a : ZMod cv.p) cv.b (sswuX1Spec (cv.a : ZMod cv.p) cv.b z u)) →
        (x : ZMod cv.p) = z * (u : ZMod cv.p) ^ 2 * sswuX1Spec (cv.a : ZMod cv.p) cv.b z u) ∧
      IsSquare (gx (cv.a : ZMod cv.p) cv.b (x : ZMod cv.p)) := by
    by_cases hq : isQr (curveRhs x1 cv.a cv.b cv.p) cv.p = true
    · rw [if_pos hq]
      exact ⟨x1, rfl, hx1lt, fun _ => hx1c, fun c => absurd (hqr.1 hq) c, by
        rw [hx1c]; exact hqr.1 hq⟩
    · rw [if_neg hq]
      have hn := fun c => hq (hqr.2 c)
      have hc : ((mulmod (mulmod (sqrmod u cv.p) z cv.p) x1 cv.p : Nat) : ZMod cv.p)
          = z * (u : ZMod cv.p) ^ 2 * sswuX1Spec (cv.a : ZMod cv.p) cv.b z u := by
        simp only [cast_mulmod, cast_sqrmod, hx1c]; ring
      refine ⟨_, rfl, mulmod_lt hp.pos, fun c => absurd c hn, fun _ => hc, ?_⟩
      rw [hc]
      exact sswu_square hk.a0 hk.zns hroot hk.exc hn
  obtain ⟨x, hxe, hxlt, hxa, hxb, hsq⟩ := hx
  have hsq' : IsSquare ((curveRhs x cv.a cv.b cv.p : Nat) : ZMod cv.p) := by
    rw [cast_curveRhs]; exact hsq
  obtain ⟨y, hy, hylt, hyy⟩ := sqrtModP_some h4 (curveRhs_lt hp.pos) hsq'
  rw [cast_curveRhs] at hyy
  have hy0 : y ≠ 0 := by
    intro e
    rw [e] at hyy
    exact hs.noRoot (x : ZMod cv.p) (by rw [← hyy]; simp)
  have hval : ∀ n : Nat, n < cv.p → ((n : ZMod cv.p)).val = n := fun n hn => ZMod.val_cast_of_lt hn
  unfold sswuMap
  rw [hx1]
  simp only [Option.bind_some]
  rw [hxe, hy]
  simp only [Option.map_some]
  by_cases hpar : u % 2 = y % 2
  · rw [if_neg (fun k => k hpar)]
    refine ⟨x, y, rfl, hxlt, hylt, hxa, hxb, hyy, ?_⟩
    rw [hval y hylt, hval u hu, hpar]
  · rw [if_pos hpar]
    refine ⟨x, cv.p - y, rfl, hxlt, by omega, hxa, hxb, ?_, ?_⟩
    · rw [neg_cast (by omega)]
      have : (-(y : ZMod cv.p)) ^ 2 = (y : ZMod cv.p) ^ 2 := by ring
      rw [this, hyy]; rfl
    · rw [hval _ (by omega), hval u hu]
      omega

/-! ## The password element -/

/-- The two field elements the password is hashed to. -/
def h2eU (h : Prims) (g : Grp) (cv : Curve) (pw id ssid label : Bytes) : Nat :=
  be (h.expand g.hashType (h.extract g.hashType ssid (pw ++ id)) label g.fieldLen) % cv.p

/-- `A` is the image of the field element `u`. -/
def ImageOf (cv : Curve) [Fact cv.p.Prime] (z u : Nat) (A : cv.W.Point) : Prop :=
  ∃ (x y : Nat) (hn : cv.W.Nonsingular (x : ZMod cv.p) (y : ZMod cv.p)),
    x < cv.p ∧ y < cv.p ∧ IsSswu (cv.a : ZMod cv.p) cv.b z u x y ∧ A = .some _ _ hn

/-- The secret element of a password and network (12.4.4.3.2): the sum of the
two images. -/
def IsPt (h : Prims) (g : Grp) (cv : Curve) [Fact cv.p.Prime] (z : Nat) (pw id ssid : Bytes)
    (A : cv.W.Point) : Prop :=
  ∃ P1 P2, ImageOf cv z (h2eU h g cv pw id ssid u1Label) P1 ∧
    ImageOf cv z (h2eU h g cv pw id ssid u2Label) P2 ∧ A = P1 + P2

theorem imageOf_unique (hs : Setup g cv) {z u : Nat} {A B : cv.W.Point} (hA : ImageOf cv z u A)
    (hB : ImageOf cv z u B) : A = B := by
  obtain ⟨x, y, hn, hx, hy, ⟨a1, a2, a3, a4⟩, rfl⟩ := hA
  obtain ⟨x', y', hn', hx', hy', ⟨b1, b2, b3, b4⟩, rfl⟩ := hB
  have exy : (x : ZMod cv.p) = x' := by
    by_cases hq : IsSquare (gx (cv.a : ZMod cv.p) cv.b (sswuX1Spec (cv.a : ZMod cv.p) cv.b z u))
    · rw [a1 hq, b1 hq]
    · rw [a2 hq, b2 hq]
  have hxx := cast_inj hx hx' exy
  subst hxx
  have hyy : y = y' := by
    rw [ZMod.val_cast_of_lt hy] at a4
    rw [ZMod.val_cast_of_lt hy'] at b4
    have h3 : ((y : ZMod cv.p) - y') * (y + y') = 0 := by
      have : (y : ZMod cv.p) ^ 2 = (y' : ZMod cv.p) ^ 2 := by rw [a3, b3]
      linear_combination this
    rcases mul_eq_zero.1 h3 with h4 | h4
    · exact cast_inj hy hy' (sub_eq_zero.1 h4)
    · exfalso
      have h5 : ((y + y' : Nat) : ZMod cv.p) = 0 := by push_cast; exact h4
      have h6 := (ZMod.natCast_eq_zero_iff _ _).1 h5
      have hm4 := hs.good.mod4
      obtain ⟨t, ht⟩ := h6
      have ht2 : t < 2 := by
        rcases Nat.lt_or_ge t 2 with c0 | c0
        · exact c0
        · have := Nat.mul_le_mul_left cv.p c0
          omega
      have ht3 : t = 0 ∨ t = 1 := by omega
      rcases ht3 with rfl | rfl
      · have : y = 0 := by omega
        rw [this] at a3
        exact hs.noRoot (x : ZMod cv.p) (by
          change gx _ _ _ = 0
          rw [← a3]; simp)
      · omega
  subst hyy
  rfl

/-- What the H2E functions check of the group table. -/
structure H2eOk (g : Grp) (cv : Curve) [Fact cv.p.Prime] (z : Nat) : Prop where
  zgrp : sswuZ g.groupId cv.p = some z
  ok : SswuOk cv z
  flo : g.fieldLen ≠ 0
  fhi : g.fieldLen ≤ 128

/-- C96.  **The secret element is the standard's**: computing it fails only
when the two images cancel (or the password and identifier are longer than 128
octets together); otherwise the context holds the sum of the two images. -/
theorem pt_computed {h : Prims} (hs : Setup g cv) {z : Nat} (hk : H2eOk g cv z) {c : Ctx}
    (hg : c.grp = g) (hc : c.cv = cv) {pw : Bytes} {id : Option Bytes} {ssid : Bytes}
    (hlen : pw.length + (id.getD []).length ≤ 128) :
    ∃ A, IsPt h g cv z pw (id.getD []) ssid A ∧
      (A = 0 → computePt h c pw id ssid = none) ∧
      (A ≠ 0 → ∃ x y, Rep (affine x y) A ∧
        computePt h c pw id ssid = some { c with ptX := x, ptY := y, havePt := true }) := by
  have hp : cv.p.Prime := Fact.out
  obtain ⟨x1, y1, e1, l1, l1', i1⟩ := sswu_total hs hk.ok
    (u := h2eU h g cv pw (id.getD []) ssid u1Label) (Nat.mod_lt _ hp.pos)
  obtain ⟨x2, y2, e2, l2, l2', i2⟩ := sswu_total hs hk.ok
    (u := h2eU h g cv pw (id.getD []) ssid u2Label) (Nat.mod_lt _ hp.pos)
  have n1 := (nonsing_iff hs.good (x1 : ZMod cv.p) y1).2 i1.2.2.1
  have n2 := (nonsing_iff hs.good (x2 : ZMod cv.p) y2).2 i2.2.2.1
  obtain ⟨R, hR, rR⟩ := rep_add hs.good (rep_affine l1 l1' n1) (rep_affine l2 l2' n2)
  have hrun : computePt h c pw id ssid = if R.isId then none
      else some { c with ptX := R.x, ptY := R.y, havePt := true } := by
    unfold computePt
    dsimp only
    rw [if_neg (by omega), hg, hc, if_neg (by rw [hs.hash]; exact hs.hashPos),
      if_neg (by have := hk.flo; have := hk.fhi; omega), hk.zgrp]
    simp only [Option.bind_some]
    unfold h2eU at e1 e2
    rw [e1]
    simp only [Option.bind_some]
    rw [e2]
    simp only [Option.bind_some]
    rw [hR]
    rfl
  refine ⟨_, ⟨_, _, ⟨x1, y1, n1, l1, l1', i1, rfl⟩, ⟨x2, y2, n2, l2, l2', i2, rfl⟩, rfl⟩, ?_, ?_⟩
  · intro h0
    rw [hrun, if_pos ((rep_isId rR).2 h0)]
  · intro h0
    have hf : R.isId = false := by
      cases hb : R.isId with
      | false => rfl
      | true => exact absurd ((rep_isId rR).1 hb) h0
    refine ⟨R.x, R.y, ?_, by rw [hrun, hf]; rfl⟩
    rcases rR with ⟨_, c0⟩ | ⟨hz, hx, hy, hn, he⟩
    · exact absurd c0 h0
    · exact Or.inr ⟨rfl, hx, hy, hn, he⟩

/-- The multiplier of 12.4.4.3.3. -/
def h2eValSpec (h : Prims) (g : Grp) (cv : Curve) (macA macB : Bytes) : Nat :=
  be (h.hmac g.hashType (List.replicate g.hashLen 0) (macConcat macA macB)) % (cv.q - 1) + 1

/-- C96.  **The password element is `val · PT`**, never the identity, and the
same on both ends. -/
theorem h2e_pwe_computed {h : Prims} (hs : Setup g cv) {c : Ctx} (hg : c.grp = g) (hc : c.cv = cv)
    (hpt : c.havePt = true) {A : cv.W.Point} (hA : Rep (affine c.ptX c.ptY) A) (h0 : A ≠ 0)
    (macA macB : Bytes) :
    ∃ x y, computePweH2e h c macA macB = some { c with pweX := x, pweY := y, havePwe := true } ∧
      HasPwe g cv { c with pweX := x, pweY := y, havePwe := true }
        (h2eValSpec h g cv macA macB • A) := by
  have hb := hs.orderBig
  have hv : h2eVal h c macA macB = h2eValSpec h g cv macA macB := by
    unfold h2eVal h2eValSpec; rw [hg, hc, hs.hash]
  have hlt : h2eValSpec h g cv macA macB < cv.q ∧ 0 < h2eValSpec h g cv macA macB := by
    unfold h2eValSpec
    have := Nat.mod_lt (be (h.hmac g.hashType (List.replicate g.hashLen 0) (macConcat macA macB)))
      (show 0 < cv.q - 1 by omega)
    omega
  obtain ⟨R, hR, rR⟩ := rep_mul hs.good hA (h2eValSpec h g cv macA macB)
  have hne : h2eValSpec h g cv macA macB • A ≠ 0 := smul_ne_zero_of hs h0 (by
    intro hd
    have := Nat.le_of_dvd hlt.2 hd
    omega)
  refine ⟨R.x, R.y, ?_, hg, hc, rfl, ?_, hne⟩
  · unfold computePweH2e
    rw [hpt, hv, hc, hR, if_neg (by simp), if_neg (by rw [hg, hs.hash]; exact hs.hashPos)]
    rfl
  · rcases rR with ⟨_, c0⟩ | ⟨hz, hx, hy, hn, he⟩
    · exact absurd c0 hne
    · exact Or.inr ⟨rfl, hx, hy, hn, he⟩

theorem h2eVal_comm (h : Prims) {macA macB : Bytes} (hlen : macA.length = macB.length) :
    h2eValSpec h g cv macA macB = h2eValSpec h g cv macB macA := by
  unfold h2eValSpec; rw [macConcat_comm hlen]

end

end Wolf.Sae
