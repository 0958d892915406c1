import Verif.Sae.Kernel

/-!
# Checking a concrete curve: the order of the base point, the roots of the
# cubic, the constants

The programs here compute with residues in Jacobian coordinates (no inversions)
and with polynomials modulo the cubic; each is proved sound against Mathlib's
curve group, and `CurveOk` collects what the kernel has to evaluate.
-/

namespace Wolf.Sae

open WeierstrassCurve

/-! ## Multiples of the base point -/

/-- Jacobian coordinates of a multiple of the base point. -/
structure J where
  X : Nat
  Y : Nat
  Z : Nat

/-- Doubling; nothing if the ordinate vanishes. -/
noncomputable def jdbl (p a : Nat) (P : J) : Option J :=
  if P.Y % p = 0 then none else
  force (sqrmod P.Y p) fun yy =>
  force (mulmod (4 * P.X) yy p) fun s =>
  force (sqrmod P.Z p) fun zz =>
  force (addmod (3 * sqrmod P.X p) (a * sqrmod zz p) p) fun m =>
  force (submod (sqrmod m p) (2 * s) p) fun x3 =>
  force (submod (mulmod m (submod s x3 p) p) (8 * sqrmod yy p) p) fun y3 =>
  force (mulmod (2 * P.Y) P.Z p) fun z3 => some ⟨x3, y3, z3⟩

/-- Adding the affine point `(u, v)`; nothing if the abscissae agree. -/
noncomputable def jadd (p u v : Nat) (P : J) : Option J :=
  force (sqrmod P.Z p) fun zz =>
  force (submod (u * zz) P.X p) fun h =>
  force (submod (v * mulmod zz P.Z p) P.Y p) fun r =>
  if h = 0 then none else
  force (sqrmod h p) fun hh =>
  force (mulmod hh h p) fun hhh =>
  force (mulmod P.X hh p) fun w =>
  force (submod (submod (sqrmod r p) hhh p) (2 * w) p) fun x3 =>
  force (submod (mulmod r (submod w x3 p) p) (P.Y * hhh) p) fun y3 =>
  force (mulmod P.Z h p) fun z3 => some ⟨x3, y3, z3⟩

/-- `e` times the point `(u, v)`, for `0 < e < 2 ^ f`. -/
noncomputable def jmul (p a u v f : Nat) : Nat → Option J :=
  Nat.rec (fun _ => none)
    (fun _ ih e => if e = 1 then some ⟨u, v, 1⟩
      else (ih (e / 2)).bind fun P => (jdbl p a P).bind fun Q =>
        if e % 2 = 1 then jadd p u v Q else some Q) f

section
variable {cv : Curve} [Fact cv.p.Prime]

/-- The coordinates stand for a point other than the identity. -/
def JRep (P : J) (A : cv.W.Point) : Prop :=
  (P.Z : ZMod cv.p) ≠ 0 ∧ ∃ x y : ZMod cv.p, ∃ h : cv.W.Nonsingular x y, A = .some _ _ h ∧
    x * (P.Z : ZMod cv.p) ^ 2 = P.X ∧ y * (P.Z : ZMod cv.p) ^ 3 = P.Y

theorem mod_ne {p n : Nat} (h : ¬ n % p = 0) : (n : ZMod p) ≠ 0 := by
  intro c
  exact h (Nat.dvd_iff_mod_eq_zero.1 ((ZMod.natCast_eq_zero_iff _ _).1 c))

theorem jdbl_rep (hg : cv.Good) {P Q : J} {A : cv.W.Point} (hP : JRep P A)
    (h : jdbl cv.p cv.a P = some Q) : JRep Q (A + A) := by
  have hpos : 0 < cv.p := by have := hg.big; omega
  simp only [jdbl, force_eq] at h
  split at h
  · exact absurd h (by simp)
  rename_i hy0
  have hY := mod_ne hy0
  obtain ⟨hZ, x, y, hn, rfl, ex, ey⟩ := hP
  have e := Option.some.inj h
  subst e
  have h2 := two_ne hg
  have hy : y ≠ 0 := by
    rintro rfl
    rw [zero_mul] at ey
    exact hY ey.symm
  have hYne : y ≠ cv.W.negY x y := by
    rw [negY_eq]
    intro c
    have : (2 : ZMod cv.p) * y = 0 := by linear_combination c
    exact (mul_ne_zero h2 hy) this
  have hyy : y - -y = 2 * y := by ring
  have hsl : cv.W.slope x x y y * (2 * y) = 3 * x ^ 2 + cv.a := by
    rw [Affine.slope_of_Y_ne rfl hYne, negY_eq, hyy, div_mul_cancel₀ _ (mul_ne_zero h2 hy)]
    simp
  rw [Affine.Point.add_self_of_Y_ne hYne]
  obtain ⟨l, hl⟩ : ∃ l, cv.W.slope x x y y = l := ⟨_, rfl⟩
  rw [hl] at hsl
  refine ⟨?_, _, _, _, rfl, ?_, ?_⟩
  · simp only [cast_mulmod, Nat.cast_mul, Nat.cast_ofNat]
    exact mul_ne_zero (mul_ne_zero h2 hY) hZ
  · simp only [cast_submod _ _ _ hpos, cast_mulmod, cast_sqrmod, cast_addmod, Nat.cast_mul,
      Nat.cast_ofNat, Affine.addX, hl]
    rw [← ex, ← ey]
    generalize (P.Z : ZMod cv.p) = Z
    linear_combination (l * 2 * y + 3 * x ^ 2 + cv.a) * Z ^ 8 * hsl
  · simp only [cast_submod _ _ _ hpos, cast_mulmod, cast_sqrmod, cast_addmod, Nat.cast_mul,
      Nat.cast_ofNat, Affine.addX, Affine.addY, Affine.negAddY, Affine.negY, hl]
    rw [← ex, ← ey]
    generalize (P.Z : ZMod cv.p) = Z
    have hm : (3 * x ^ 2 + (cv.a : ZMod cv.p)) = l * (2 * y) := hsl.symm
    have e1 : (3 * (x * Z ^ 2) ^ 2 + (cv.a : ZMod cv.p) * (Z ^ 2) ^ 2) = l * (2 * y) * Z ^ 4 := by
      linear_combination Z ^ 4 * hm
    rw [e1]
    ring

theorem jadd_rep (hg : cv.Good) {P Q : J} {A : cv.W.Point} {u v : Nat}
    (hn' : cv.W.Nonsingular (u : ZMod cv.p) (v : ZMod cv.p)) (hP : JRep P A)
    (h : jadd cv.p u v P = some Q) : JRep Q (A + .some _ _ hn') := by
  have hpos : 0 < cv.p := by have := hg.big; omega
  simp only [jadd, force_eq] at h
  split at h
  · exact absurd h (by simp)
  rename_i hh0
  have hH : ((submod (u * sqrmod P.Z cv.p) P.X cv.p : Nat) : ZMod cv.p) ≠ 0 := by
    rw [Ne, cast_zero_iff (submod_lt hpos)]; exact hh0
  obtain ⟨hZ, x, y, hn, rfl, ex, ey⟩ := hP
  have e := Option.some.inj h
  subst e
  have hx : x ≠ (u : ZMod cv.p) := by
    rintro rfl
    apply hH
    rw [cast_submod _ _ _ hpos, Nat.cast_mul, cast_sqrmod, ex, sub_self]
  have hsl : cv.W.slope x u y v * (x - u) = y - v := by
    rw [Affine.slope_of_X_ne hx, div_mul_cancel₀ _ (sub_ne_zero.2 hx)]
  rw [Affine.Point.add_of_X_ne hx]
  obtain ⟨l, hl⟩ : ∃ l, cv.W.slope x u y v = l := ⟨_, rfl⟩
  rw [hl] at hsl
  have e1 : (v : ZMod cv.p) = y - l * (x - u) := by rw [hsl]; ring
  refine ⟨?_, _, _, _, rfl, ?_, ?_⟩
  · simp only [cast_mulmod]
    exact mul_ne_zero hZ hH
  · simp only [cast_submod _ _ _ hpos, cast_mulmod, cast_sqrmod, cast_addmod, Nat.cast_mul,
      Nat.cast_ofNat, Affine.addX, hl]
    rw [← ex, ← ey, e1]
    ring
  · simp only [cast_submod _ _ _ hpos, cast_mulmod, cast_sqrmod, cast_addmod, Nat.cast_mul,
      Nat.cast_ofNat, Affine.addX, Affine.addY, Affine.negAddY, Affine.negY, hl]
    rw [← ex, ← ey, e1]
    ring

theorem jmul_rep (hg : cv.Good) {u v : Nat}
    (hn : cv.W.Nonsingular (u : ZMod cv.p) (v : ZMod cv.p)) :
    ∀ f e Q, 0 < e → jmul cv.p cv.a u v f e = some Q → JRep Q (e • (.some _ _ hn : cv.W.Point))
  | 0, e, Q, _, h => by simp [jmul] at h
  | f + 1, e, Q, he, h => by
    have hs : jmul cv.p cv.a u v (f + 1) e = if e = 1 then some ⟨u, v, 1⟩
      else (jmul cv.p cv.a u v f (e / 2)).bind fun P => (jdbl cv.p cv.a P).bind fun Q =>
        if e % 2 = 1 then jadd cv.p u v Q else some Q := rfl
    rw [hs] at h
    split at h
    · rename_i h1
      subst h1
      have := Option.some.inj h
      subst this
      rw [one_nsmul]
      have : (1 : ZMod cv.p) ≠ 0 := one_ne_zero
      exact ⟨by simpa using this, _, _, hn, rfl, by simp, by simp⟩
    · obtain ⟨P, hP, h⟩ := Option.bind_eq_some_iff.1 h
      obtain ⟨D, hD, h⟩ := Option.bind_eq_some_iff.1 h
      have rP := jmul_rep hg hn f (e / 2) P (by omega) hP
      have rD := jdbl_rep hg rP hD
      rw [← two_nsmul, ← mul_nsmul'] at rD
      split at h
      · rename_i ho
        have := jadd_rep hg hn rD h
        rw [← succ_nsmul] at this
        rwa [show 2 * (e / 2) + 1 = e by omega] at this
      · have := Option.some.inj h
        subst this
        rwa [show 2 * (e / 2) = e by omega] at rD

/-- `(q - 1)` times the point is its negative. -/
noncomputable def orderCheck (p q a u v : Nat) : Bool :=
  (jmul p a u v 528 (q - 1)).any fun P =>
    force (sqrmod P.Z p) fun zz =>
    (P.X == mulmod u zz p) && (addmod P.Y (v * mulmod zz P.Z p) p == 0) && decide (P.X < p)

theorem orderCheck_sound (hg : cv.Good) {u v : Nat}
    (hn : cv.W.Nonsingular (u : ZMod cv.p) (v : ZMod cv.p)) (hq : 1 < cv.q)
    (h : orderCheck cv.p cv.q cv.a u v = true) : cv.q • (.some _ _ hn : cv.W.Point) = 0 := by
  have hpos : 0 < cv.p := by have := hg.big; omega
  simp only [orderCheck, force_eq, Option.any_eq_true, Bool.and_eq_true, beq_iff_eq] at h
  obtain ⟨P, hP, ⟨h1, h2⟩, h3⟩ := h
  obtain ⟨hZ, x, y, hn', hA, ex, ey⟩ := jmul_rep hg hn _ _ _ (by omega) hP
  have hx : x = u := by
    rw [h1, cast_mulmod, cast_sqrmod] at ex
    exact mul_right_cancel₀ (pow_ne_zero 2 hZ) ex
  have hy : y = -(v : ZMod cv.p) := by
    have h4 := congrArg (Nat.cast (R := ZMod cv.p)) h2
    rw [cast_addmod, Nat.cast_mul, cast_mulmod, cast_sqrmod, ← ey] at h4
    refine mul_right_cancel₀ (pow_ne_zero 3 hZ) ?_
    rw [Nat.cast_zero] at h4
    linear_combination h4
  subst hx
  subst hy
  have hneg : (.some _ _ hn' : cv.W.Point) = -(.some _ _ hn : cv.W.Point) := by
    rw [Affine.Point.neg_some]
    congr 1
    rw [negY_eq]
  rw [show cv.q = (cv.q - 1) + 1 by omega, succ_nsmul, hA, hneg, neg_add_cancel]

/-! ## The cubic has no root -/

/-- `c0 + c1·x + c2·x²`. -/
structure Q3 where
  c0 : Nat
  c1 : Nat
  c2 : Nat

noncomputable def q3sq (p a b : Nat) (c : Q3) : Q3 :=
  force (mulmod c.c1 c.c2 p) fun m =>
  force (sqrmod c.c2 p) fun s =>
  force (submod (sqrmod c.c0 p) (2 * b * m) p) fun d0 =>
  force (submod (2 * c.c0 * c.c1) (2 * a * m + b * s) p) fun d1 =>
  force (submod (2 * c.c0 * c.c2 + sqrmod c.c1 p) (a * s) p) fun d2 => ⟨d0, d1, d2⟩

noncomputable def q3x (p a b : Nat) (c : Q3) : Q3 :=
  force (submod 0 (b * c.c2) p) fun d0 =>
  force (submod c.c0 (a * c.c2) p) fun d1 => ⟨d0, d1, c.c1⟩

/-- `x ^ e` modulo `x³ + a·x + b`, for `e < 2 ^ f`. -/
noncomputable def q3pow (p a b f : Nat) : Nat → Q3 :=
  Nat.rec (fun _ => ⟨1, 0, 0⟩)
    (fun _ ih e => if e = 0 then ⟨1, 0, 0⟩ else
      if e % 2 = 1 then q3x p a b (q3sq p a b (ih (e / 2))) else q3sq p a b (ih (e / 2))) f

noncomputable def q3ev (c : Q3) (r : ZMod cv.p) : ZMod cv.p := c.c0 + c.c1 * r + c.c2 * r ^ 2

theorem q3sq_ev (hpos : 0 < cv.p) {c : Q3} {r : ZMod cv.p} (hr : r ^ 3 + cv.a * r + cv.b = 0) :
    q3ev (q3sq cv.p cv.a cv.b c) r = q3ev c r ^ 2 := by
  simp only [q3ev, q3sq, force_eq, cast_submod _ _ _ hpos, cast_mulmod, cast_sqrmod, Nat.cast_mul,
    Nat.cast_add, Nat.cast_ofNat]
  linear_combination (-(2 * c.c1 * c.c2) - c.c2 ^ 2 * r : ZMod cv.p) * hr

theorem q3x_ev (hpos : 0 < cv.p) {c : Q3} {r : ZMod cv.p} (hr : r ^ 3 + cv.a * r + cv.b = 0) :
    q3ev (q3x cv.p cv.a cv.b c) r = r * q3ev c r := by
  simp only [q3ev, q3x, force_eq, cast_submod _ _ _ hpos, Nat.cast_mul, Nat.cast_zero]
  linear_combination (-c.c2 : ZMod cv.p) * hr

theorem q3pow_ev (hpos : 0 < cv.p) {r : ZMod cv.p} (hr : r ^ 3 + cv.a * r + cv.b = 0) :
    ∀ f e, e < 2 ^ f → q3ev (q3pow cv.p cv.a cv.b f e) r = r ^ e
  | 0, e, h => by
    have : e = 0 := by simpa using h
    subst this
    simp [q3pow, q3ev]
  | f + 1, e, h => by
    have hs : q3pow cv.p cv.a cv.b (f + 1) e = if e = 0 then ⟨1, 0, 0⟩ else
      if e % 2 = 1 then q3x cv.p cv.a cv.b (q3sq cv.p cv.a cv.b (q3pow cv.p cv.a cv.b f (e / 2)))
      else q3sq cv.p cv.a cv.b (q3pow cv.p cv.a cv.b f (e / 2)) := rfl
    rw [hs]
    have h2 : e / 2 < 2 ^ f := by rw [Nat.pow_succ] at h; omega
    split
    · rename_i h0
      subst h0
      simp [q3ev]
    · split
      · rename_i ho
        rw [q3x_ev hpos hr, q3sq_ev hpos hr, q3pow_ev hpos hr f _ h2, ← pow_mul, mul_comm, ← pow_succ,
          show e / 2 * 2 + 1 = e by omega]
      · rw [q3sq_ev hpos hr, q3pow_ev hpos hr f _ h2, ← pow_mul, show e / 2 * 2 = e by omega]

/-- The determinant of `h`, `x·h`, `x²·h` modulo the cubic, for
`h = x ^ p - x`. -/
noncomputable def rootDet (p a b : Nat) : Nat :=
  let t := q3pow p a b 528 p
  force t.c0 fun h0 => force (submod t.c1 1 p) fun h1 => force t.c2 fun h2 =>
  let i := q3x p a b ⟨h0, h1, h2⟩
  let k := q3x p a b i
  submod (h0 * (i.c1 * k.c2) + h1 * (i.c2 * k.c0) + h2 * (i.c0 * k.c1))
    (h0 * (i.c2 * k.c1) + h1 * (i.c0 * k.c2) + h2 * (i.c1 * k.c0)) p

theorem rootDet_sound (hpos : 0 < cv.p) (hlt : cv.p < 2 ^ 528) (h : rootDet cv.p cv.a cv.b ≠ 0)
    (r : ZMod cv.p) : r ^ 3 + cv.a * r + cv.b ≠ 0 := by
  intro hr
  have h1 := q3pow_ev hpos hr 528 cv.p hlt
  rw [ZMod.pow_card] at h1
  apply h
  rw [← cast_zero_iff (p := cv.p) (by rw [rootDet]; simp only [force_eq]; exact submod_lt hpos)]
  rw [rootDet]
  simp only [force_eq]
  generalize q3pow cv.p cv.a cv.b 528 cv.p = t at h1
  have h2 : q3ev (cv := cv) ⟨t.c0, submod t.c1 1 cv.p, t.c2⟩ r = 0 := by
    rw [q3ev] at h1
    simp only [q3ev, cast_submod _ _ _ hpos, Nat.cast_one]
    linear_combination h1
  generalize submod t.c1 1 cv.p = w at h2
  have h3 := q3x_ev hpos (c := ⟨t.c0, w, t.c2⟩) hr
  rw [h2, mul_zero] at h3
  generalize q3x cv.p cv.a cv.b ⟨t.c0, w, t.c2⟩ = i at h3
  have h4 := q3x_ev hpos (c := i) hr
  rw [h3, mul_zero] at h4
  generalize q3x cv.p cv.a cv.b i = k at h4
  rw [cast_submod _ _ _ hpos]
  simp only [q3ev] at h2 h3 h4
  push_cast
  linear_combination ((i.c1 : ZMod cv.p) * k.c2 - i.c2 * k.c1) * h2
    + ((t.c2 : ZMod cv.p) * k.c1 - w * k.c2) * h3 + ((w : ZMod cv.p) * i.c2 - t.c2 * i.c1) * h4

/-! ## What is left to evaluate for a curve -/

theorem isQr_powm {v p : Nat} (hp : p < 2 ^ 528) : isQr v p = (powm v ((p - 1) / 2) p == 1) := by
  rw [isQr, exptmod, powm_eq (by omega)]

/-- The first non-residue: everything from 2 below `n` is a square. -/
theorem findQnr_first {p n : Nat} (hp : p < 2 ^ 528) (hn : 2 ≤ n) (hn' : n < 1000)
    (h2 : (List.range' 2 (n - 2)).all (fun i => powm i ((p - 1) / 2) p == 1) = true)
    (h3 : powm n ((p - 1) / 2) p ≠ 1) : findQnr p = some n := by
  have hsplit : List.range' 2 998 = List.range' 2 (n - 2) ++ n :: List.range' (n + 1) (999 - n) := by
    rw [show (998 : Nat) = (n - 2) + (998 - (n - 2)) by omega, List.range'_append_1.symm,
      show 998 - (n - 2) = (999 - n) + 1 by omega, List.range'_succ, show 2 + (n - 2) = n by omega]
  rw [findQnr, hsplit, List.find?_append, List.find?_eq_none.2, Option.none_or, List.find?_cons,
    isQr_powm hp, beq_eq_false_iff_ne.2 h3]
  · rfl
  · intro i hi
    rw [List.all_eq_true] at h2
    rw [isQr_powm hp, h2 i hi]
    simp

/-- The evaluations for a group: `(u, v)` is the base point, `z` the SWU
constant, `t` is `b / (z·a)`, `w` a square root of the cubic at `t` and `n` the
first non-residue. -/
structure CurveOk (g : Grp) (cv : Curve) (u v z t w n : Nat) : Prop where
  pp : cv.p.Prime
  qp : cv.q.Prime
  lt : cv.p < 2 ^ 528
  mod4 : cv.p % 4 = 3
  big : 3 < cv.p
  qbig : 3 < cv.q
  alt : cv.a < cv.p
  blt : cv.b < cv.p
  zlt : z < cv.p
  a0 : cv.a ≠ 0
  z0 : z ≠ 0
  disc : (4 * cv.a ^ 3 + 27 * cv.b ^ 2) % cv.p ≠ 0
  on : sqrmod v cv.p = curveRhs u cv.a cv.b cv.p
  order : orderCheck cv.p cv.q cv.a u v = true
  card : 2 * cv.p + 1 < 3 * cv.q
  root : rootDet cv.p cv.a cv.b ≠ 0
  n2 : 2 ≤ n
  n1000 : n < 1000
  nlt : n < cv.p
  below : (List.range' 2 (n - 2)).all (fun i => powm i ((cv.p - 1) / 2) cv.p == 1) = true
  nqr : powm n ((cv.p - 1) / 2) cv.p ≠ 1
  zgrp : sswuZ g.groupId cv.p = some z
  zns : powm z ((cv.p - 1) / 2) cv.p ≠ 1
  quot : mulmod t (z * cv.a) cv.p = cv.b
  exc : sqrmod w cv.p = curveRhs t cv.a cv.b cv.p
  fitP : cv.p ≤ 256 ^ g.primeLen
  fitQ : cv.q ≤ 256 ^ g.primeLen
  bits : (countBits cv.p + 7) / 8 = g.primeLen
  pl : g.primeLen ≤ 66
  gid : g.groupId < 65536
  hash : hashLen g.hashType = g.hashLen
  hashPos : g.hashLen ≠ 0
  flo : g.fieldLen ≠ 0
  fhi : g.fieldLen ≤ 128

variable {g : Grp} {u v z t w n : Nat}

theorem CurveOk.good (h : CurveOk g cv u v z t w n) : cv.Good := by
  refine ⟨h.pp, h.mod4, h.big, ?_⟩
  have := mod_ne h.disc
  push_cast at this
  exact this

theorem CurveOk.setup (h : CurveOk g cv u v z t w n) : Setup g cv := by
  have hg := h.good
  have hn : cv.W.Nonsingular (u : ZMod cv.p) (v : ZMod cv.p) := by
    rw [nonsing_iff hg, ← cast_sqrmod, h.on, cast_curveRhs]
  exact ⟨hg, h.qp, h.qbig,
    order_of_point hg (rootDet_sound h.pp.pos h.lt h.root) h.qp h.card
      (Affine.Point.some_ne_zero hn) (orderCheck_sound hg hn h.qp.one_lt h.order),
    h.fitP, h.fitQ, h.gid, h.hash, h.hashPos⟩

omit [Fact cv.p.Prime] in
theorem CurveOk.hunt (h : CurveOk g cv u v z t w n) : HuntOk g cv := by
  have h1 := h.pl
  exact ⟨h.bits, by omega, n, findQnr_first h.lt h.n2 h.n1000 h.below h.nqr, h.nlt⟩

theorem CurveOk.h2e (h : CurveOk g cv u v z t w n) : H2eOk g cv z := by
  have hp : cv.p.Prime := Fact.out
  have ha : (cv.a : ZMod cv.p) ≠ 0 := fun c => h.a0 ((cast_zero_iff h.alt).1 c)
  have hz : (z : ZMod cv.p) ≠ 0 := fun c => h.z0 ((cast_zero_iff h.zlt).1 c)
  refine ⟨h.zgrp, ⟨h.alt, h.blt, h.zlt, ha, ?_, ?_⟩, h.flo, h.fhi⟩
  · intro hs
    have h1 := (isQr_iff h.mod4 hz).2 hs
    rw [isQr_powm h.lt, beq_iff_eq] at h1
    exact h.zns h1
  · have e : (cv.b : ZMod cv.p) / ((z : ZMod cv.p) * cv.a) = t := by
      rw [div_eq_iff (mul_ne_zero hz ha)]
      have := congrArg (Nat.cast (R := ZMod cv.p)) h.quot
      rw [cast_mulmod, Nat.cast_mul] at this
      exact this.symm
    rw [e]
    refine ⟨w, ?_⟩
    have := congrArg (Nat.cast (R := ZMod cv.p)) h.exc
    rw [cast_sqrmod, cast_curveRhs, pow_two] at this
    rw [this, gx]

end

end Wolf.Sae
