import Verif.Sae.Agree

/-!
# Hunting and pecking finds the standard's password element (C95)
-/

namespace Wolf.Sae

open WeierstrassCurve

/-- What hunting and pecking needs beyond `Setup`: the KDF fills the field
exactly and a small non-residue exists. -/
structure HuntOk (g : Grp) (cv : Curve) : Prop where
  bits : (countBits cv.p + 7) / 8 = g.primeLen
  small : g.primeLen < 65535
  qnr : ∃ n, findQnr cv.p = some n ∧ n < cv.p

/-- The standard's `pwd-seed` for a counter (IEEE 802.11-2020 12.4.4.2.2). -/
def seedSpec (h : Prims) (salt pw : Bytes) (k : Nat) : Bytes :=
  h.extract sha256 salt (pw ++ [UInt8.ofNat k])

/-- The standard's `pwd-value`: the first `bits` bits of the KDF output. -/
def candidate (h : Prims) (cv : Curve) (pl : Nat) (salt pw : Bytes) (k : Nat) : Nat :=
  be (kdfSpec h sha256 (seedSpec h salt pw k) hnpLabel (beRaw pl cv.p) (countBits cv.p))
    / 2 ^ ((8 - countBits cv.p % 8) % 8)

/-- A counter whose candidate is the abscissa of a point of the curve. -/
def ValidAt (h : Prims) (cv : Curve) (pl : Nat) (salt pw : Bytes) (k : Nat) : Prop :=
  candidate h cv pl salt pw k < cv.p ∧
  IsSquare ((candidate h cv pl salt pw k : ZMod cv.p) ^ 3
    + cv.a * candidate h cv pl salt pw k + cv.b)

/-- `(x, y)` is the standard's password element: the first counter from 1 to
40 whose candidate is an abscissa gives `x`, and `y` is the square root whose
parity is that of the last octet of the seed. -/
def IsPwe (h : Prims) (cv : Curve) (pl : Nat) (salt pw : Bytes) (x y : Nat) : Prop :=
  ∃ k, 1 ≤ k ∧ k ≤ 40 ∧ ValidAt h cv pl salt pw k ∧
    (∀ j, 1 ≤ j → j < k → ¬ ValidAt h cv pl salt pw j) ∧
    x = candidate h cv pl salt pw k ∧ y < cv.p ∧
    (y : ZMod cv.p) ^ 2 = (x : ZMod cv.p) ^ 3 + cv.a * x + cv.b ∧
    y % 2 = ((seedSpec h salt pw k).getD 31 0).toNat % 2

section
variable {g : Grp} {cv : Curve} [Fact cv.p.Prime]

theorem pwdValue_eq {h : Prims} (hh : h.Good) (ho : HuntOk g cv) (salt pw : Bytes) (k : Nat) :
    ∃ v, pwdValue h cv g.primeLen (beRaw g.primeLen cv.p) (pwdSeed h salt pw k) = some v ∧
      v.length = g.primeLen ∧ be v = candidate h cv g.primeLen salt pw k := by
  have hb := ho.bits
  have hsm := ho.small
  have h0 : hashLen sha256 ≠ 0 := by decide
  have hl := kdfSpec_length hh h0 (pwdSeed h salt pw k) hnpLabel (beRaw g.primeLen cv.p)
    (countBits cv.p)
  unfold pwdValue
  rw [ieeeKdf_eq hh h0 _ _ _ (by omega)]
  refine ⟨_, rfl, ?_⟩
  rw [hb] at hl
  dsimp only
  rw [List.take_of_length_le (by omega)]
  unfold candidate seedSpec
  unfold pwdSeed at *
  by_cases hr : countBits cv.p % 8 = 0
  · rw [if_neg (fun k => k hr), hr]
    exact ⟨hl, by simp⟩
  · rw [if_pos hr]
    have := bufShiftRight_be (s := 8 - countBits cv.p % 8) (by omega)
      (kdfSpec h sha256 (h.extract sha256 salt (pw ++ [UInt8.ofNat k])) hnpLabel
        (beRaw g.primeLen cv.p) (countBits cv.p))
    have e : (8 - countBits cv.p % 8) % 8 = 8 - countBits cv.p % 8 := by omega
    rw [e]
    exact ⟨by rw [this.1, hl], this.2⟩

open Classical in
/-- One round: the state becomes the candidate's if it is the first valid one. -/
theorem hnpRound_eq {h : Prims} (hh : h.Good) (hs : Setup g cv) (ho : HuntOk g cv)
    {qnr : Nat} (hq : findQnr cv.p = some qnr) (hq2 : qnr < cv.p) (salt pw : Bytes) (k r : Nat)
    (bit : UInt8) (hr : r % cv.p ≠ 0) (s : Hunt) (hf : s.found = 0 ∨ s.found = 1)
    (hp0 : s.found = 0 → s.parity = 0) (hl : s.saveX.length = g.primeLen) :
    hnpRound h cv g.primeLen qnr salt pw (beRaw g.primeLen cv.p) k r bit s = some
      (if s.found = 0 ∧ ValidAt h cv g.primeLen salt pw k then
        ⟨1, beRaw g.primeLen (candidate h cv g.primeLen salt pw k),
          (seedSpec h salt pw k).getD 31 0 &&& 1⟩
      else ⟨s.found, s.saveX, s.parity⟩) := by
  have hp : cv.p.Prime := Fact.out
  obtain ⟨v, hv, hvl, hvb⟩ := pwdValue_eq hh ho salt pw k
  have hfit : candidate h cv g.primeLen salt pw k < 256 ^ g.primeLen := by
    rw [← hvb, ← hvl]; exact be_lt v
  have hqn := findQnr_sound hs.good.mod4 hq hq2
  have hq0 : (qnr : ZMod cv.p) ≠ 0 := by
    intro c0; rw [c0] at hqn; exact hqn ⟨0, by simp⟩
  have hr0 : (r : ZMod cv.p) ≠ 0 := by
    intro c0
    have h1 : ((r % cv.p : Nat) : ZMod cv.p) = 0 := by simpa using c0
    exact hr ((cast_zero_iff (Nat.mod_lt _ hp.pos)).1 h1)
  unfold hnpRound
  dsimp only
  rw [hv]
  dsimp only
  rw [hvb, toBE_some hfit]
  dsimp only
  generalize hx : candidate h cv g.primeLen salt pw k = x at *
  have hcast : ((curveRhs (x % cv.p) cv.a cv.b cv.p : Nat) : ZMod cv.p)
      = (x : ZMod cv.p) ^ 3 + cv.a * x + cv.b := by
    rw [cast_curveRhs]; simp
  have hne : ((curveRhs (x % cv.p) cv.a cv.b cv.p : Nat) : ZMod cv.p) ≠ 0 := by
    rw [hcast]; exact hs.noRoot _
  have hbl := qrBlind_eq (bit := bit) hs.good.mod4 hne hr0 hq0 hqn
  rw [hcast] at hbl
  have hval : ValidAt h cv g.primeLen salt pw k ↔ x < cv.p ∧
      IsSquare ((x : ZMod cv.p) ^ 3 + cv.a * x + cv.b) := by
    unfold ValidAt; rw [hx]
  rw [hval]
  generalize qrBlind (curveRhs (x % cv.p) cv.a cv.b cv.p) cv.p qnr r bit = qb at hbl
  have z0 : (0 : UInt8) - UInt8.ofNat 0 = 0 := by decide
  have z1 : (0 : UInt8) - UInt8.ofNat 1 = 255 := by decide
  have hbx : s.saveX.length = (beRaw g.primeLen x).length := by rw [hl, beRaw_length]
  have m0 : (0 : UInt8) &&& 1 = 0 := by decide
  have m1 : (255 : UInt8) &&& 1 = 1 := by decide
  have par1 : ∀ a b : UInt8, (a &&& 1 = a) → (a &&& ~~~(1 : UInt8)) ||| (b &&& 1 &&& 1) = b &&& 1 := by
    intro a b ha
    have e1 : a &&& ~~~(1 : UInt8) = 0 := by
      rw [← ha, UInt8.and_assoc]
      have : (1 : UInt8) &&& ~~~1 = 0 := by decide
      rw [this]; simp
    rw [e1, UInt8.and_assoc]
    have : (1 : UInt8) &&& 1 = 1 := by decide
    rw [this]; simp
  by_cases hlt : x < cv.p
  · rw [if_pos hlt]
    rcases hbl with ⟨h1, h2⟩ | ⟨h1, h2⟩
    · rcases hf with hf | hf
      · rw [if_pos ⟨hf, hlt, h2⟩, h1, hf]
        have e1 : (1 : Nat) &&& 1 &&& (0 ^^^ 1) = 1 := by decide
        have e2 : (0 : Nat) ||| (1 &&& 1) = 1 := by decide
        rw [e1, e2, z1, ctSelect_ones hbx, m1, hp0 hf, par1 0 _ (by decide)]
        rfl
      · rw [if_neg (by omega), h1, hf]
        have e1 : (1 : Nat) &&& 1 &&& (1 ^^^ 1) = 0 := by decide
        have e2 : (1 : Nat) ||| (1 &&& 1) = 1 := by decide
        rw [e1, e2, z0, ctSelect_zero hbx, m0, sel_zero]
    · rw [if_neg (by rintro ⟨_, _, c0⟩; exact h2 c0), h1]
      have e1 : (1 : Nat) &&& 0 &&& (s.found ^^^ 1) = 0 := by simp
      have e2 : s.found ||| ((1 : Nat) &&& 0) = s.found := by simp
      rw [e1, e2, z0, ctSelect_zero hbx, m0, sel_zero]
  · rw [if_neg hlt, if_neg (by rintro ⟨_, c0, _⟩; exact hlt c0)]
    have e1 : (0 : Nat) &&& qb &&& (s.found ^^^ 1) = 0 := by simp
    have e2 : s.found ||| ((0 : Nat) &&& qb) = s.found := by simp
    rw [e1, e2, z0, ctSelect_zero hbx, m0, sel_zero]

/-- What the loop has found after a list of counters. -/
def Hunted (h : Prims) (cv : Curve) (pl : Nat) (salt pw : Bytes) (done : List Nat) (s : Hunt) : Prop :=
  s.saveX.length = pl ∧
  ((s.found = 0 ∧ s.parity = 0 ∧ ∀ j ∈ done, ¬ ValidAt h cv pl salt pw j) ∨
   (s.found = 1 ∧ ∃ pre k post, done = pre ++ k :: post ∧ ValidAt h cv pl salt pw k ∧
      (∀ j ∈ pre, ¬ ValidAt h cv pl salt pw j) ∧
      s.saveX = beRaw pl (candidate h cv pl salt pw k) ∧
      s.parity = (seedSpec h salt pw k).getD 31 0 &&& 1))

theorem hnpLoop_spec {h : Prims} (hh : h.Good) (hs : Setup g cv) (ho : HuntOk g cv)
    {qnr : Nat} (hq : findQnr cv.p = some qnr) (hq2 : qnr < cv.p) (salt pw : Bytes)
    {rng : Nat → Option (Nat × UInt8)} :
    ∀ (ks done : List Nat) (s : Hunt),
      (∀ k ∈ ks, ∃ r bit, rng k = some (r, bit) ∧ r % cv.p ≠ 0) →
      Hunted h cv g.primeLen salt pw done s →
      ∃ s', hnpLoop h cv g.primeLen qnr salt pw (beRaw g.primeLen cv.p) rng ks s = some s' ∧
        Hunted h cv g.primeLen salt pw (done ++ ks) s'
  | [], done, s, _, hi => ⟨s, rfl, by rw [List.append_nil]; exact hi⟩
  | k :: ks, done, s, hr, hi => by
    obtain ⟨r, bit, hrk, hr0⟩ := hr k List.mem_cons_self
    have hrest : ∀ k' ∈ ks, ∃ r bit, rng k' = some (r, bit) ∧ r % cv.p ≠ 0 :=
      fun k' hk' => hr k' (List.mem_cons_of_mem _ hk')
    have hf : s.found = 0 ∨ s.found = 1 := by
      rcases hi.2 with c0 | c0
      · exact Or.inl c0.1
      · exact Or.inr c0.1
    have hp0 : s.found = 0 → s.parity = 0 := by
      intro e
      rcases hi.2 with c0 | c0
      · exact c0.2.1
      · rw [c0.1] at e; exact absurd e (by omega)
    have hstep := hnpRound_eq hh hs ho hq hq2 salt pw k r bit hr0 s hf hp0 hi.1
    rw [hnpLoop, hrk]
    dsimp only
    rw [hstep]
    dsimp only
    have happ : done ++ k :: ks = (done ++ [k]) ++ ks := by simp
    rw [happ]
    refine hnpLoop_spec hh hs ho hq hq2 salt pw ks (done ++ [k]) _ hrest ?_
    by_cases hc : s.found = 0 ∧ ValidAt h cv g.primeLen salt pw k
    · rw [if_pos hc]
      refine ⟨beRaw_length _ _, Or.inr ⟨rfl, done, k, [], rfl, hc.2, ?_, rfl, rfl⟩⟩
      rcases hi.2 with c0 | c0
      · exact c0.2.2
      · have := hc.1; rw [c0.1] at this; exact absurd this (by omega)
    · rw [if_neg hc]
      refine ⟨hi.1, ?_⟩
      rcases hi.2 with ⟨c0, c1, c2⟩ | ⟨c0, pre, k0, post, c1, c2, c3, c4, c5⟩
      · refine Or.inl ⟨c0, c1, fun j hj => ?_⟩
        rcases List.mem_append.1 hj with hj | hj
        · exact c2 j hj
        · rw [List.mem_singleton.1 hj]
          exact fun hv => hc ⟨c0, hv⟩
      · exact Or.inr ⟨c0, pre, k0, post ++ [k], by rw [c1]; simp, c2, c3, c4, c5⟩

theorem neg_cast {p y : Nat} (hy : y ≤ p) : ((p - y : Nat) : ZMod p) = -(y : ZMod p) := by
  rw [Nat.cast_sub hy]; simp

theorem parity_toNat (b : UInt8) : ((b &&& 1) &&& 1).toNat = b.toNat % 2 := by
  have e : (b &&& 1) &&& 1 = b &&& 1 := by
    rw [UInt8.and_assoc]
    have : (1 : UInt8) &&& 1 = 1 := by decide
    rw [this]
  rw [e, UInt8.toNat_and]
  exact Nat.and_one_is_mod _

/-- The square root of the right parity. -/
theorem hnpPoint_spec (hs : Setup g cv) {x : Nat} (hx : x < cv.p)
    (hfit : cv.p ≤ 256 ^ g.primeLen) (hsq : IsSquare ((x : ZMod cv.p) ^ 3 + cv.a * x + cv.b))
    (b : UInt8) :
    ∃ y, hnpPoint cv (beRaw g.primeLen x) (b &&& 1) = some (x, y) ∧ y < cv.p ∧
      (y : ZMod cv.p) ^ 2 = (x : ZMod cv.p) ^ 3 + cv.a * x + cv.b ∧ y % 2 = b.toNat % 2 := by
  have hp : cv.p.Prime := Fact.out
  have hbe : be (beRaw g.primeLen x) = x := by rw [be_beRaw, Nat.mod_eq_of_lt (by omega)]
  have hsq' : IsSquare ((curveRhs x cv.a cv.b cv.p : Nat) : ZMod cv.p) := by
    rw [cast_curveRhs]; exact hsq
  obtain ⟨y, hy, hylt, hyy⟩ := sqrtModP_some hs.good.mod4 (curveRhs_lt hp.pos) hsq'
  rw [cast_curveRhs] at hyy
  have hy0 : y ≠ 0 := by
    intro e
    rw [e] at hyy
    exact hs.noRoot (x : ZMod cv.p) (by rw [← hyy]; simp)
  unfold hnpPoint
  dsimp only
  rw [hbe, hy]
  dsimp only
  rw [parity_toNat]
  have h4 := hs.good.mod4
  by_cases hpar : b.toNat % 2 = y % 2
  · rw [if_neg (fun k => k hpar)]
    exact ⟨y, rfl, hylt, hyy, hpar.symm⟩
  · rw [if_pos hpar]
    refine ⟨cv.p - y, rfl, by omega, ?_, by omega⟩
    rw [neg_cast (by omega), ← hyy]; ring

/-- Every non-empty password of at most 64 octets. -/
def PwOk (pw : Bytes) : Prop := pw.length ≠ 0 ∧ pw.length ≤ 64

/-- C95.  **Hunting and pecking computes the standard's password element.**
For every password, every pair of addresses and every outcome of the random
generator (which only has to work), `sae_compute_pwe_hnp` succeeds exactly when
one of the counters 1 to 40 gives an abscissa, and then the context holds the
standard's element and is otherwise unchanged. -/
theorem hnp_computes_pwe {h : Prims} (hh : h.Good) (hs : Setup g cv) (ho : HuntOk g cv)
    {c : Ctx} (hg : c.grp = g) (hc : c.cv = cv) {pw : Bytes} (hpw : PwOk pw) (macA macB : Bytes)
    {rng : Nat → Option (Nat × UInt8)}
    (hr : ∀ k, 1 ≤ k → k ≤ 40 → ∃ r bit, rng k = some (r, bit) ∧ r % cv.p ≠ 0) :
    ((∃ k, 1 ≤ k ∧ k ≤ 40 ∧ ValidAt h cv g.primeLen (macConcat macA macB) pw k) →
      ∃ x y, computePweHnp h c pw macA macB rng =
          some { c with pweX := x, pweY := y, havePwe := true } ∧
        IsPwe h cv g.primeLen (macConcat macA macB) pw x y) ∧
    ((∀ k, 1 ≤ k → k ≤ 40 → ¬ ValidAt h cv g.primeLen (macConcat macA macB) pw k) →
      computePweHnp h c pw macA macB rng = none) := by
  obtain ⟨qnr, hq, hq2⟩ := ho.qnr
  have hfit := hs.fitP
  have hpl : cv.p < 256 ^ g.primeLen := by
    rcases Nat.lt_or_eq_of_le hfit with h1 | h1
    · exact h1
    · exfalso
      have h4 := hs.good.mod4
      have h3 := hs.good.big
      cases hpz : g.primeLen with
      | zero => rw [hpz] at h1; simp at h1; omega
      | succ n => rw [hpz, Nat.pow_succ] at h1; omega
  obtain ⟨s, hl, hi⟩ := hnpLoop_spec hh hs ho hq hq2 (macConcat macA macB) pw (rng := rng)
    (List.range' 1 hnpIters) [] ⟨0, List.replicate g.primeLen 0, 0⟩
    (fun k hk => by
      have := List.mem_range'_1.1 hk
      exact hr k this.1 (by unfold hnpIters at this; omega))
    ⟨by simp, Or.inl ⟨rfl, rfl, by simp⟩⟩
  rw [List.nil_append] at hi
  have hrun : computePweHnp h c pw macA macB rng = if s.found = 0 then none else
      match hnpPoint cv s.saveX s.parity with
      | none => none
      | some (x, y) => some { c with pweX := x, pweY := y, havePwe := true } := by
    unfold computePweHnp
    rw [if_neg (by have := hpw.1; have := hpw.2; omega), hg, hc]
    dsimp only
    rw [toBE_some hpl]
    dsimp only
    rw [hq]
    dsimp only
    rw [hl]
    rfl
  have hmem : ∀ k, k ∈ List.range' 1 hnpIters ↔ 1 ≤ k ∧ k ≤ 40 := by
    intro k; rw [List.mem_range'_1]; unfold hnpIters; omega
  obtain ⟨_, hi⟩ := hi
  rcases hi with ⟨h0, _, hno⟩ | ⟨h1, pre, k, post, hsplit, hv, hpre, hsx, hpar⟩
  · constructor
    · rintro ⟨k, hk1, hk2, hv⟩
      exact absurd hv (hno k ((hmem k).2 ⟨hk1, hk2⟩))
    · intro _
      rw [hrun, if_pos h0]
  · have hk : 1 ≤ k ∧ k ≤ 40 := (hmem k).1 (by rw [hsplit]; simp)
    constructor
    · intro _
      obtain ⟨y, hy, hylt, hyy, hyp⟩ := hnpPoint_spec hs (g := g) hv.1 hfit hv.2
        ((seedSpec h (macConcat macA macB) pw k).getD 31 0)
      refine ⟨_, y, ?_, k, hk.1, hk.2, hv, ?_, rfl, hylt, hyy, hyp⟩
      · rw [hrun, if_neg (by omega), hsx, hpar, hy]
      · intro j hj1 hj2
        apply hpre
        have hlen : pre.length < hnpIters := by
          have := congrArg List.length hsplit
          simp at this; omega
        have hkv : k = 1 + pre.length := by
          have e1 := congrArg (fun l => l[pre.length]?) hsplit
          simp only [List.getElem?_append_right (Nat.le_refl _), Nat.sub_self,
            List.getElem?_cons_zero] at e1
          rw [List.getElem?_range' hlen] at e1
          have := Option.some.inj e1
          omega
        have e2 := congrArg (fun l => l[j - 1]?) hsplit
        rw [List.getElem?_range' (by omega), List.getElem?_append_left (by omega)] at e2
        have e3 := List.mem_of_getElem? e2.symm
        have : 1 + 1 * (j - 1) = j := by omega
        rw [this] at e3
        exact e3
    · intro hno
      exact absurd hv (hno k hk.1 hk.2)

/-- The standard's element is unique. -/
theorem isPwe_unique {h : Prims} (hs : Setup g cv) {salt pw : Bytes} {x y x' y' : Nat}
    (h1 : IsPwe h cv g.primeLen salt pw x y) (h2 : IsPwe h cv g.primeLen salt pw x' y') :
    x = x' ∧ y = y' := by
  obtain ⟨k, a1, a2, a3, a4, a5, a6, a7, a8⟩ := h1
  obtain ⟨k', b1, b2, b3, b4, b5, b6, b7, b8⟩ := h2
  have hk : k = k' := by
    rcases Nat.lt_trichotomy k k' with c0 | c0 | c0
    · exact absurd a3 (b4 k a1 c0)
    · exact c0
    · exact absurd b3 (a4 k' b1 c0)
  subst hk
  have hx : x = x' := by rw [a5, b5]
  subst hx
  refine ⟨rfl, ?_⟩
  have h3 : ((y : ZMod cv.p) - y') * (y + y') = 0 := by
    have : (y : ZMod cv.p) ^ 2 = (y' : ZMod cv.p) ^ 2 := by rw [a7, b7]
    linear_combination this
  rcases mul_eq_zero.1 h3 with h4 | h4
  · exact cast_inj a6 b6 (sub_eq_zero.1 h4)
  · exfalso
    have h5 : ((y + y' : Nat) : ZMod cv.p) = 0 := by push_cast; exact h4
    have h6 := (ZMod.natCast_eq_zero_iff _ _).1 h5
    have hm4 := hs.good.mod4
    obtain ⟨t, ht⟩ := h6
    have hpar : y % 2 = y' % 2 := by rw [a8, b8]
    have ht2 : t < 2 := by
      rcases Nat.lt_or_ge t 2 with c0 | c0
      · exact c0
      · have := Nat.mul_le_mul_left cv.p c0
        omega
    have ht3 : t = 0 ∨ t = 1 := by omega
    rcases ht3 with rfl | rfl
    · have : y = 0 := by omega
      rw [this] at a7
      exact hs.noRoot (x : ZMod cv.p) (by rw [← a7]; simp)
    · omega

/-- C95.  **The element is a function of the password and the two addresses
alone**: not of the random values used for blinding, and not of which side
computes it. -/
theorem hnp_symmetric {h : Prims} (hh : h.Good) (hs : Setup g cv) (ho : HuntOk g cv)
    {c d : Ctx} (hg : c.grp = g) (hc : c.cv = cv) (hg' : d.grp = g) (hc' : d.cv = cv)
    {pw : Bytes} (hpw : PwOk pw) {macA macB : Bytes} (hlen : macA.length = macB.length)
    {rng rng' : Nat → Option (Nat × UInt8)}
    (hr : ∀ k, 1 ≤ k → k ≤ 40 → ∃ r bit, rng k = some (r, bit) ∧ r % cv.p ≠ 0)
    (hr' : ∀ k, 1 ≤ k → k ≤ 40 → ∃ r bit, rng' k = some (r, bit) ∧ r % cv.p ≠ 0) :
    (computePweHnp h c pw macA macB rng).map (fun e => (e.pweX, e.pweY)) =
      (computePweHnp h d pw macB macA rng').map (fun e => (e.pweX, e.pweY)) := by
  obtain ⟨s1, n1⟩ := hnp_computes_pwe hh hs ho hg hc hpw macA macB hr
  obtain ⟨s2, n2⟩ := hnp_computes_pwe hh hs ho hg' hc' hpw macB macA hr'
  rw [macConcat_comm hlen.symm] at s2 n2
  by_cases hv : ∃ k, 1 ≤ k ∧ k ≤ 40 ∧ ValidAt h cv g.primeLen (macConcat macA macB) pw k
  · obtain ⟨x, y, e1, i1⟩ := s1 hv
    obtain ⟨x', y', e2, i2⟩ := s2 hv
    obtain ⟨rfl, rfl⟩ := isPwe_unique hs i1 i2
    rw [e1, e2]; rfl
  · rw [n1 (fun k h1 h2 h3 => hv ⟨k, h1, h2, h3⟩), n2 (fun k h1 h2 h3 => hv ⟨k, h1, h2, h3⟩)]

/-- The element found is a point of the curve other than the identity. -/
theorem hnp_hasPwe {h : Prims} (hs : Setup g cv) {c : Ctx} (hg : c.grp = g) (hc : c.cv = cv)
    {salt pw : Bytes} {x y : Nat} (hi : IsPwe h cv g.primeLen salt pw x y) :
    ∃ A, HasPwe g cv { c with pweX := x, pweY := y, havePwe := true } A := by
  obtain ⟨k, _, _, hv, _, hx, hy, hyy, _⟩ := hi
  have hxl : x < cv.p := by rw [hx]; exact hv.1
  have hn := (nonsing_iff hs.good (x : ZMod cv.p) y).2 hyy
  refine ⟨.some _ _ hn, hg, hc, rfl, ?_, Affine.Point.some_ne_zero hn⟩
  exact rep_affine hxl hy hn

end

end Wolf.Sae
