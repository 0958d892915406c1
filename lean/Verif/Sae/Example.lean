import Verif.Sae.Session
import Verif.Sae.Order
import Mathlib.Tactic.NormNum.Prime

/-!
# A small curve on which the whole exchange can be run

`y² = x³ + x + 3` over the integers modulo 31 has 41 points.  With the group
number 19 the SWU constant is `31 - 10 = 21`.  The field has 5 bits, so the
shift of the candidate (8 - 5 bits) is exercised, as for P-521.
-/

namespace Wolf.Sae

def toyCv : Curve := ⟨31, 41, 1, 3⟩
def toyGrp : Grp := ⟨19, sha256, 1, 32, 3⟩

instance : Fact toyCv.p.Prime := ⟨by change Nat.Prime 31; norm_num⟩

theorem toy_good : toyCv.Good :=
  ⟨by change Nat.Prime 31; norm_num, by decide, by decide, by
    have : (4 * ((1 : Nat) : ZMod 31) ^ 3 + 27 * ((3 : Nat) : ZMod 31) ^ 2) ≠ 0 := by
      decide +kernel
    exact this⟩

theorem toy_noRoot (x : ZMod toyCv.p) : x ^ 3 + toyCv.a * x + toyCv.b ≠ 0 := by
  have : ∀ x : ZMod 31, x ^ 3 + ((1 : Nat) : ZMod 31) * x + ((3 : Nat) : ZMod 31) ≠ 0 := by
    decide +kernel
  exact this x

theorem toy_on : toyCv.W.Nonsingular ((1 : Nat) : ZMod toyCv.p) ((6 : Nat) : ZMod toyCv.p) := by
  rw [nonsing_iff toy_good]
  have : ((6 : Nat) : ZMod 31) ^ 2 = ((1 : Nat) : ZMod 31) ^ 3
      + ((1 : Nat) : ZMod 31) * ((1 : Nat) : ZMod 31) + ((3 : Nat) : ZMod 31) := by decide +kernel
  exact this

theorem toy_order : toyCv.q • (WeierstrassCurve.Affine.Point.some _ _ toy_on : toyCv.W.Point) = 0 := by
  obtain ⟨R, hR, rR⟩ := rep_mul toy_good (rep_affine (cv := toyCv) (by decide) (by decide) toy_on)
    toyCv.q
  have : ecMul toyCv.q (affine 1 6) toyCv.a toyCv.p = some ident := by decide +kernel
  rw [this] at hR
  have := Option.some.inj hR
  subst this
  exact (rep_isId rR).1 rfl

theorem toy_setup : Setup toyGrp toyCv where
  good := toy_good
  order := by change Nat.Prime 41; norm_num
  orderBig := by decide
  card := order_of_point toy_good toy_noRoot (by change Nat.Prime 41; norm_num) (by decide)
    (WeierstrassCurve.Affine.Point.some_ne_zero toy_on) toy_order
  fitP := by decide
  fitQ := by decide
  gid := by decide
  hash := by decide
  hashPos := by decide

theorem toy_hunt : HuntOk toyGrp toyCv :=
  ⟨by decide +kernel, by decide, ⟨3, by decide +kernel, by decide⟩⟩

theorem toy_h2e : H2eOk toyGrp toyCv 21 := by
  refine ⟨by decide, ⟨by decide, by decide, by decide, ?_, ?_, ?_⟩, by decide, by decide⟩
  · change ((1 : Nat) : ZMod 31) ≠ 0
    decide +kernel
  · change ¬ IsSquare ((21 : Nat) : ZMod 31)
    have : ∀ r : ZMod 31, ((21 : Nat) : ZMod 31) ≠ r * r := by decide +kernel
    rintro ⟨r, hr⟩
    exact this r hr
  · have e : ((toyCv.b : ZMod toyCv.p) / (((21 : Nat) : ZMod toyCv.p) * toyCv.a)) = 9 := by
      rw [div_eq_iff]
      · change ((3 : Nat) : ZMod 31) = 9 * (((21 : Nat) : ZMod 31) * ((1 : Nat) : ZMod 31))
        decide +kernel
      · change (((21 : Nat) : ZMod 31) * ((1 : Nat) : ZMod 31)) ≠ 0
        decide +kernel
    rw [e]
    have : IsSquare ((9 : ZMod 31) ^ 3 + ((1 : Nat) : ZMod 31) * 9 + ((3 : Nat) : ZMod 31)) :=
      ⟨11, by decide +kernel⟩
    exact this


/-! ## Runs -/

/-- A toy hash: octet `i` depends on every octet of the key and the message. -/
def toyMix (n : Nat) (k m : Bytes) : Bytes :=
  (List.range n).map fun i =>
    UInt8.ofNat ((k ++ 0 :: m).foldl (fun a b => (a * 131 + b.toNat + i * 7 + 3) % 65521) 17)

def toyPrims : Prims := ⟨fun t k m => toyMix (hashLen t) k m, fun t s m => toyMix (hashLen t) s m,
  fun _ k i L => toyMix L k i⟩

theorem toy_prims : toyPrims.Good :=
  ⟨fun _ _ _ _ => by simp [toyPrims, toyMix], fun _ _ _ _ => by simp [toyPrims, toyMix],
   fun _ _ _ _ => by simp [toyPrims, toyMix]⟩

def toyRng (k : Nat) : Option (Nat × UInt8) := some (k % 30 + 1, UInt8.ofNat k)

theorem toyRng_ok (k : Nat) (_ : 1 ≤ k) (_ : k ≤ 40) :
    ∃ r bit, toyRng k = some (r, bit) ∧ r % toyCv.p ≠ 0 :=
  ⟨_, _, rfl, by change (k % 30 + 1) % 31 ≠ 0; omega⟩

/-- One end: initialised and kicked. -/
def toyEnd (h2e : Bool) (pw m1 m2 : Bytes) (r m : UInt8) : Option (Sess × Bytes) :=
  (suppInit toyPrims toyGrp toyCv h2e pw [1, 2, 3] m1 m2 toyRng).bind fun c =>
    let k := kick ⟨.idle, h2e, c, []⟩ [[r]] [[m]] true
    k.2.2.map fun f => (k.1, f)

/-- Two ends exchange commits and confirms. -/
def toyRun (h2e : Bool) (pw pw' : Bytes) : Option (SSt × SSt × Bool × Nat) :=
  (toyEnd h2e pw [1, 1, 1, 1, 1, 1] [2, 2, 2, 2, 2, 2] 5 9).bind fun s =>
  (toyEnd h2e pw' [2, 2, 2, 2, 2, 2] [1, 1, 1, 1, 1, 1] 11 8).bind fun t =>
  let s2 := rxAuth toyPrims s.1 t.2 true
  let t2 := rxAuth toyPrims t.1 s.2 true
  s2.2.2.bind fun q =>
  t2.2.2.map fun q' =>
  let s3 := (rxAuth toyPrims s2.1 q' true).1
  let t3 := (rxAuth toyPrims t2.1 q true).1
  (s3.st, t3.st, decide (s3.pmk = t3.pmk), s3.pmk.length)

/-- The exchange of `sae_sessions_agree`, run with both ways of computing the
password element; and with different passwords, where it fails. -/
example : toyRun false [112, 119] [112, 119] = some (.m1Wait, .m1Wait, true, 32) := by decide +kernel
example : toyRun true [112, 1] [112, 1] = some (.m1Wait, .m1Wait, true, 32) := by decide +kernel
example : toyRun false [112, 119] [112, 120] = some (.failed, .failed, true, 0) := by decide +kernel

/-- The hypotheses of `sae_sessions_agree` hold for the toy curve: its
conclusion, for every password and network name. -/
example (pw ssid : Bytes) {c d : Ctx} {s1 t1 : Sess} {f f' : Bytes}
    (hc : suppInit toyPrims toyGrp toyCv false pw ssid [1, 1] [2, 2] toyRng = some c)
    (hd : suppInit toyPrims toyGrp toyCv false pw ssid [2, 2] [1, 1] toyRng = some d)
    (ks : kick ⟨.idle, false, c, []⟩ [[5]] [[9]] true = (s1, true, some f))
    (kt : kick ⟨.idle, false, d, []⟩ [[11]] [[8]] true = (t1, true, some f')) (hne : f ≠ f') :
    ∃ s2 t2 s3 t3 q q',
      rxAuth toyPrims s1 f' true = (s2, true, some q) ∧
      rxAuth toyPrims t1 f true = (t2, true, some q') ∧
      (∀ b, rxAuth toyPrims s2 q' b = (s3, true, none)) ∧
      (∀ b, rxAuth toyPrims t2 q b = (t3, true, none)) ∧
      s3.st = .m1Wait ∧ t3.st = .m1Wait ∧ s3.pmk = t3.pmk ∧ s3.pmk.length = 32 :=
  sae_sessions_agree toy_prims toy_setup (by decide) (fun _ => toy_hunt) (z := 21) (rng := toyRng) (rng' := toyRng)
    (fun h => by cases h) (by rfl) toyRng_ok toyRng_ok hc hd ks kt hne

/-- A commit that a context accepts, so `Acceptable` is inhabited; the same
octets sent back are refused. -/
example : ((toyEnd true [112, 1] [1] [2] 5 9).bind fun s =>
    (toyEnd true [112, 1] [2] [1] 11 8).map fun t =>
      ((parsePeerCommit s.1.c (t.2.drop 6)).2, (parsePeerCommit s.1.c (s.2.drop 6)).2)) =
    some (true, false) := by decide +kernel

/-- A refused commit still replaces the stored peer scalar. -/
theorem refused_commit_overwrites :
    let c : Ctx := { ctxInit toyGrp toyCv with peerScalar := 7 }
    parsePeerCommit c [19, 0, 200, 0, 0] = ({ c with peerScalar := 200 }, false) := rfl

/-- Why `hnp_computes_pwe` needs a curve of prime order: on an abscissa where
the cubic vanishes the blinded test answers with the random bit. -/
theorem blind_test_zero_is_random :
    qrBlind 0 31 3 5 0 = 0 ∧ qrBlind 0 31 3 5 1 = 1 := by decide +kernel

end Wolf.Sae
