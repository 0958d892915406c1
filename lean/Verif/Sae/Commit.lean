import Verif.Sae.Codec
import Verif.Sae.Curve

/-!
# Commit messages: what is sent, what is accepted
-/

namespace Wolf.Sae

/-- What the wolfCrypt curve table and the group table provide: a smooth curve
over a prime field, a prime group order larger than 3, and fields wide enough
for both.  `card` says that the order of the group is (a divisor of) `q`. -/
structure Setup (g : Grp) (cv : Curve) [Fact cv.p.Prime] : Prop where
  good : cv.Good
  order : cv.q.Prime
  orderBig : 3 < cv.q
  card : ∀ A : cv.W.Point, cv.q • A = 0
  fitP : cv.p ≤ 256 ^ g.primeLen
  fitQ : cv.q ≤ 256 ^ g.primeLen
  gid : g.groupId < 65536
  hash : hashLen g.hashType = g.hashLen
  hashPos : g.hashLen ≠ 0

section
variable {g : Grp} {cv : Curve} [Fact cv.p.Prime]

/-- In a group of odd prime order no point has ordinate zero: the cubic has no
root. -/
theorem Setup.noRoot (hs : Setup g cv) (x : ZMod cv.p) : x ^ 3 + cv.a * x + cv.b ≠ 0 := by
  intro h0
  have hn : cv.W.Nonsingular x 0 := by
    rw [nonsing_iff hs.good, h0]; ring
  have h2 : (2 : Nat) • (.some x 0 hn : cv.W.Point) = 0 := by
    rw [two_nsmul]
    exact WeierstrassCurve.Affine.Point.add_self_of_Y_eq (by rw [negY_eq]; simp)
  have hq := hs.card (.some x 0 hn)
  have hodd : ∃ k, cv.q = 2 * k + 1 := by
    rcases hs.order.eq_two_or_odd with h | h
    · have := hs.orderBig; omega
    · exact ⟨cv.q / 2, by omega⟩
  obtain ⟨k, hk⟩ := hodd
  rw [hk, add_nsmul, one_nsmul, mul_comm, mul_nsmul, nsmul_zero_of_two h2, zero_add] at hq
  exact WeierstrassCurve.Affine.Point.some_ne_zero hn hq
where
  nsmul_zero_of_two {A : cv.W.Point} {k : Nat} (h : (2 : Nat) • A = 0) : (2 : Nat) • (k • A) = 0 := by
    rw [← mul_nsmul, mul_comm, mul_nsmul, h, nsmul_zero]

/-- A multiple of a point that is not the identity is not the identity, as
long as the factor is not a multiple of the order. -/
theorem smul_ne_zero_of (hs : Setup g cv) {A : cv.W.Point} (hA : A ≠ 0) {n : Nat}
    (hn : ¬ cv.q ∣ n) : n • A ≠ 0 := by
  intro h
  have h1 : addOrderOf A ∣ n := addOrderOf_dvd_of_nsmul_eq_zero h
  have h2 : addOrderOf A ∣ cv.q := addOrderOf_dvd_of_nsmul_eq_zero (hs.card A)
  rcases (Nat.dvd_prime hs.order).1 h2 with h3 | h3
  · exact hA (AddMonoid.addOrderOf_eq_one_iff.1 h3)
  · rw [h3] at h1; exact hn h1

theorem smul_mod (hs : Setup g cv) (A : cv.W.Point) (n : Nat) : (n % cv.q) • A = n • A := by
  conv => rhs; rw [← Nat.div_add_mod n cv.q, add_nsmul, mul_nsmul, hs.card, nsmul_zero, zero_add]

end

/-! ## The random scalars -/

/-- Every value the generator accepts lies in `[2, q-1]`. -/
theorem randInRange_range {q : Nat} : ∀ {fuel : Nat} {bl : List Bytes} {n : Nat},
    randInRange q fuel bl = some n → 1 < n ∧ n < q
  | 0, _, _, h => by simp [randInRange] at h
  | fuel + 1, [], _, h => by simp [randInRange] at h
  | fuel + 1, buf :: rest, n, h => by
    simp only [randInRange] at h
    generalize be (if countBits q % 8 ≠ 0 then clearHigh (countBits q % 8) buf else buf) = k at h
    split at h
    · rename_i hc
      have e := Option.some.inj h
      subst e
      exact ⟨hc.2, hc.1⟩
    · exact randInRange_range h

/-! ## Generating -/

/-- The result of a successful `sae_generate_commit`. -/
theorem generate_spec {c d : Ctx} {rs ms : List Bytes} (h : generateCommit c rs ms = (d, true)) :
    c.havePwe = true ∧ 1 < d.rand ∧ d.rand < c.cv.q ∧ 1 < d.mask ∧ d.mask < c.cv.q ∧
    d.myScalar = (d.rand + d.mask) % c.cv.q ∧ 1 < d.myScalar ∧
    (∃ e, ecMul d.mask (affine c.pweX c.pweY) c.cv.a c.cv.p = some e ∧
      d.myElem = ecNeg e c.cv.p) ∧
    d.haveCommit = true ∧
    d = { c with rand := d.rand, mask := d.mask, myScalar := d.myScalar, myElem := d.myElem
                 haveCommit := true } := by
  unfold generateCommit at h
  cases hp : c.havePwe with
  | false => rw [hp] at h; simp at h
  | true =>
    rw [hp] at h
    simp only [Bool.not_true, Bool.false_eq_true, if_false] at h
    cases hr : randInRange c.cv.q 64 rs with
    | none => rw [hr] at h; simp at h
    | some r =>
      rw [hr] at h
      dsimp only at h
      cases hm : randInRange c.cv.q 64 ms with
      | none => rw [hm] at h; simp at h
      | some m =>
        rw [hm] at h
        dsimp only at h
        obtain ⟨hr1, hr2⟩ := randInRange_range hr
        obtain ⟨hm1, hm2⟩ := randInRange_range hm
        split at h
        · simp at h
        · rename_i hgt
          cases he : ecMul m (affine c.pweX c.pweY) c.cv.a c.cv.p with
          | none => rw [he] at h; simp at h
          | some e =>
            rw [he] at h
            dsimp only at h
            have e1 := (Prod.mk.inj h).1
            subst e1
            exact ⟨rfl, hr1, hr2, hm1, hm2, rfl, by dsimp only at hgt ⊢; omega, ⟨e, he, rfl⟩, rfl,
              by rw [← hp]⟩

/-! ## Parsing -/

/-- The three big-endian fields of a commit and its group. -/
def commitGroup (m : Bytes) : Nat := (m.getD 0 0).toNat + 256 * (m.getD 1 0).toNat
def commitScalar (pl : Nat) (m : Bytes) : Nat := be ((m.drop 2).take pl)
def commitX (pl : Nat) (m : Bytes) : Nat := be ((m.drop (2 + pl)).take pl)
def commitY (pl : Nat) (m : Bytes) : Nat := be ((m.drop (2 + 2 * pl)).take pl)

/-- The standard's conditions on a received commit (IEEE 802.11-2020 12.4.5.4):
long enough, of the agreed group, scalar in `[2, q-1]`, an element with reduced
coordinates that lies on the curve, and not our own commit sent back. -/
structure Acceptable (c : Ctx) (m : Bytes) : Prop where
  len : 2 + 3 * c.grp.primeLen ≤ m.length
  group : commitGroup m = c.grp.groupId
  scalarLo : 1 < commitScalar c.grp.primeLen m
  scalarHi : commitScalar c.grp.primeLen m < c.cv.q
  xlt : commitX c.grp.primeLen m < c.cv.p
  ylt : commitY c.grp.primeLen m < c.cv.p
  onCurve : (commitY c.grp.primeLen m : ZMod c.cv.p) ^ 2 =
    (commitX c.grp.primeLen m : ZMod c.cv.p) ^ 3 + c.cv.a * commitX c.grp.primeLen m + c.cv.b
  fresh : ¬ (c.haveCommit = true ∧ commitScalar c.grp.primeLen m = c.myScalar ∧
    commitX c.grp.primeLen m = c.myElem.x ∧ commitY c.grp.primeLen m = c.myElem.y)

theorem sqr_eq_iff {x y a b p : Nat} (hp : 0 < p) :
    sqrmod y p = curveRhs x a b p ↔ (y : ZMod p) ^ 2 = (x : ZMod p) ^ 3 + a * x + b := by
  constructor
  · intro h
    rw [← cast_sqrmod, ← cast_curveRhs, h]
  · intro h
    exact cast_inj (sqrmod_lt hp) (curveRhs_lt hp) (by rw [cast_sqrmod, cast_curveRhs, h])

theorem parse_eq (c : Ctx) (m : Bytes) : parsePeerCommit c m =
    if m.length < 2 + 3 * c.grp.primeLen then (c, false)
    else if (m.getD 0 0).toNat + 256 * (m.getD 1 0).toNat ≠ c.grp.groupId then (c, false)
    else if ¬ commitScalar c.grp.primeLen m > 1 ∨ ¬ commitScalar c.grp.primeLen m < c.cv.q then
      ({ c with peerScalar := commitScalar c.grp.primeLen m }, false)
    else if ¬ commitX c.grp.primeLen m < c.cv.p ∨ ¬ commitY c.grp.primeLen m < c.cv.p then
      ({ c with peerScalar := commitScalar c.grp.primeLen m }, false)
    else if sqrmod (commitY c.grp.primeLen m) c.cv.p
        ≠ curveRhs (commitX c.grp.primeLen m) c.cv.a c.cv.b c.cv.p then
      ({ c with peerScalar := commitScalar c.grp.primeLen m }, false)
    else if c.haveCommit = true ∧ commitScalar c.grp.primeLen m = c.myScalar ∧
        commitX c.grp.primeLen m = c.myElem.x ∧ commitY c.grp.primeLen m = c.myElem.y then
      ({ c with peerScalar := commitScalar c.grp.primeLen m
                peerElem := affine (commitX c.grp.primeLen m) (commitY c.grp.primeLen m) }, false)
    else
      ({ c with peerScalar := commitScalar c.grp.primeLen m
                peerElem := affine (commitX c.grp.primeLen m) (commitY c.grp.primeLen m) }, true) :=
  rfl

/-- A commit is accepted exactly when it meets the standard's conditions, and
then the context holds the peer's scalar and element. -/
theorem parse_exact (c : Ctx) (m : Bytes) (hp : 0 < c.cv.p) :
    ((parsePeerCommit c m).2 = true ↔ Acceptable c m) ∧
    ((parsePeerCommit c m).2 = true → (parsePeerCommit c m).1 =
      { c with peerScalar := commitScalar c.grp.primeLen m
               peerElem := affine (commitX c.grp.primeLen m) (commitY c.grp.primeLen m) }) := by
  by_cases hlen : m.length < 2 + 3 * c.grp.primeLen
  · have e : parsePeerCommit c m = (c, false) := by
      rw [parse_eq, if_pos hlen]
    rw [e]
    exact ⟨⟨(by intro k; cases k), fun k => absurd k.len (by omega)⟩, (by intro k; cases k)⟩
  by_cases hg : (m.getD 0 0).toNat + 256 * (m.getD 1 0).toNat = c.grp.groupId
  swap
  · have e : parsePeerCommit c m = (c, false) := by
      rw [parse_eq, if_neg hlen, if_pos hg]
    rw [e]
    exact ⟨⟨(by intro k; cases k), fun k => absurd k.group hg⟩, (by intro k; cases k)⟩
  have hg' : ¬ ((m.getD 0 0).toNat + 256 * (m.getD 1 0).toNat ≠ c.grp.groupId) := fun k => k hg
  by_cases hsc : ¬ commitScalar c.grp.primeLen m > 1 ∨ ¬ commitScalar c.grp.primeLen m < c.cv.q
  · have e : (parsePeerCommit c m).2 = false := by
      rw [parse_eq, if_neg hlen, if_neg hg', if_pos hsc]
    rw [e]
    exact ⟨⟨(by intro k; cases k), fun k => by
      have := k.scalarLo; have := k.scalarHi; omega⟩, (by intro k; cases k)⟩
  by_cases hxy : ¬ commitX c.grp.primeLen m < c.cv.p ∨ ¬ commitY c.grp.primeLen m < c.cv.p
  · have e : (parsePeerCommit c m).2 = false := by
      rw [parse_eq, if_neg hlen, if_neg hg', if_neg hsc, if_pos hxy]
    rw [e]
    exact ⟨⟨(by intro k; cases k), fun k => by
      have := k.xlt; have := k.ylt; omega⟩, (by intro k; cases k)⟩
  by_cases hcv : sqrmod (commitY c.grp.primeLen m) c.cv.p
      = curveRhs (commitX c.grp.primeLen m) c.cv.a c.cv.b c.cv.p
  swap
  · have e : (parsePeerCommit c m).2 = false := by
      rw [parse_eq, if_neg hlen, if_neg hg', if_neg hsc, if_neg hxy, if_pos hcv]
    rw [e]
    exact ⟨⟨(by intro k; cases k), fun k => absurd ((sqr_eq_iff hp).2 k.onCurve) hcv⟩,
      (by intro k; cases k)⟩
  have hcv' : ¬ (sqrmod (commitY c.grp.primeLen m) c.cv.p
      ≠ curveRhs (commitX c.grp.primeLen m) c.cv.a c.cv.b c.cv.p) := fun k => k hcv
  by_cases hfr : c.haveCommit = true ∧ commitScalar c.grp.primeLen m = c.myScalar ∧
    commitX c.grp.primeLen m = c.myElem.x ∧ commitY c.grp.primeLen m = c.myElem.y
  · have e : (parsePeerCommit c m).2 = false := by
      rw [parse_eq, if_neg hlen, if_neg hg', if_neg hsc, if_neg hxy, if_neg hcv', if_pos hfr]
    rw [e]
    exact ⟨⟨(by intro k; cases k), fun k => absurd hfr k.fresh⟩, (by intro k; cases k)⟩
  · have e : parsePeerCommit c m =
        ({ c with peerScalar := commitScalar c.grp.primeLen m
                  peerElem := affine (commitX c.grp.primeLen m) (commitY c.grp.primeLen m) },
          true) := by
      rw [parse_eq, if_neg hlen, if_neg hg', if_neg hsc, if_neg hxy, if_neg hcv', if_neg hfr]
    rw [e]
    refine ⟨⟨fun _ => ⟨by omega, hg, by omega, by omega, by omega, by omega,
      (sqr_eq_iff hp).1 hcv, hfr⟩, fun _ => rfl⟩, fun _ => rfl⟩

/-! ## Round trip -/

theorem group_le16 {n : Nat} (hn : n < 65536) (rest : Bytes) :
    commitGroup (le16 n ++ rest) = n := by
  simp [commitGroup, le16]
  omega

/-- What the receiver reads from a serialized commit (whatever follows it). -/
theorem fields_serialize {pl gid s x y : Nat} {rest : Bytes} (hg : gid < 65536)
    (hs : s < 256 ^ pl) (hx : x < 256 ^ pl) (hy : y < 256 ^ pl) :
    commitGroup (le16 gid ++ beRaw pl s ++ beRaw pl x ++ beRaw pl y ++ rest) = gid ∧
    commitScalar pl (le16 gid ++ beRaw pl s ++ beRaw pl x ++ beRaw pl y ++ rest) = s ∧
    commitX pl (le16 gid ++ beRaw pl s ++ beRaw pl x ++ beRaw pl y ++ rest) = x ∧
    commitY pl (le16 gid ++ beRaw pl s ++ beRaw pl x ++ beRaw pl y ++ rest) = y := by
  have hS := beRaw_length pl s
  have hX := beRaw_length pl x
  have hY := beRaw_length pl y
  have vS : be (beRaw pl s) = s := by rw [be_beRaw, Nat.mod_eq_of_lt hs]
  have vX : be (beRaw pl x) = x := by rw [be_beRaw, Nat.mod_eq_of_lt hx]
  have vY : be (beRaw pl y) = y := by rw [be_beRaw, Nat.mod_eq_of_lt hy]
  generalize beRaw pl s = S at *
  generalize beRaw pl x = X at *
  generalize beRaw pl y = Y at *
  simp only [List.append_assoc]
  refine ⟨group_le16 hg _, ?_, ?_, ?_⟩
  · unfold commitScalar
    rw [List.drop_left' (le16_length gid), List.take_left' hS]
    exact vS
  · unfold commitX
    rw [← List.append_assoc, List.drop_left' (by simp [le16_length, hS]), List.take_left' hX]
    exact vX
  · unfold commitY
    rw [← List.append_assoc, ← List.append_assoc,
      List.drop_left' (by simp [le16_length, hS, hX]; omega), List.take_left' hY]
    exact vY

end Wolf.Sae
