import Verif.Sae.Commit

/-!
# Two honest peers agree (C93), and what an accepted confirm proves (C94)
-/

namespace Wolf.Sae

open WeierstrassCurve

section
variable {g : Grp} {cv : Curve} [Fact cv.p.Prime]

/-- A context of the given group and curve whose password element is the point
`A` (which is not the identity). -/
structure HasPwe (g : Grp) (cv : Curve) [Fact cv.p.Prime] (c : Ctx) (A : cv.W.Point) : Prop where
  grp : c.grp = g
  crv : c.cv = cv
  pwe : c.havePwe = true
  rep : Rep (affine c.pweX c.pweY) A
  ne : A ≠ 0

theorem pwe_ne (h : Rep (cv := cv) (affine x y) A) : A ≠ 0 := by
  intro c
  have := (rep_isId h).2 c
  simp [affine, Pt.isId] at this

theorem not_dvd_of_lt {q n : Nat} (h1 : 1 < n) (h2 : n < q) : ¬ q ∣ n := by
  intro h
  have := Nat.le_of_dvd (by omega) h
  omega

/-- After generating a commit: what the two numbers stand for. -/
structure Committed (g : Grp) (cv : Curve) [Fact cv.p.Prime] (c : Ctx) (A : cv.W.Point) : Prop where
  base : HasPwe g cv c A
  have_ : c.haveCommit = true
  rlo : 1 < c.rand
  rhi : c.rand < cv.q
  scalar : c.myScalar = (c.rand + c.mask) % cv.q
  slo : 1 < c.myScalar
  elem : Rep c.myElem (-(c.mask • A))
  elemz : c.myElem.z = 1

theorem committed_of (hs : Setup g cv) {c d : Ctx} {A : cv.W.Point} (hc : HasPwe g cv c A)
    {rs ms : List Bytes} (h : generateCommit c rs ms = (d, true)) : Committed g cv d A := by
  obtain ⟨hp, h1, h2, h3, h4, h5, h6, ⟨e, he, hel⟩, h7, h8⟩ := generate_spec h
  have hcv := hc.crv
  rw [hcv] at h2 h4 h5 he hel
  obtain ⟨R, hR, hrep⟩ := rep_mul hs.good hc.rep d.mask
  rw [he] at hR
  have e1 := Option.some.inj hR
  subst e1
  have hne : d.mask • A ≠ 0 := smul_ne_zero_of hs hc.ne (not_dvd_of_lt h3 h4)
  have hel' := rep_neg hs.good hrep
  rw [← hel] at hel'
  refine ⟨?_, h7, h1, h2, h5, h6, hel', ?_⟩
  · rw [h8]
    exact ⟨hc.grp, hc.crv, hp, hc.rep, hc.ne⟩
  · rcases hel' with ⟨_, c0⟩ | ⟨hz, _⟩
    · exact absurd (neg_eq_zero.1 c0) hne
    · exact hz

theorem Committed.bounds {c : Ctx} {A : cv.W.Point} (hs : Setup g cv) (h : Committed g cv c A) :
    c.myScalar < cv.q ∧ c.myElem.x < cv.p ∧ c.myElem.y < cv.p ∧
    (c.myElem.y : ZMod cv.p) ^ 2 = (c.myElem.x : ZMod cv.p) ^ 3 + cv.a * c.myElem.x + cv.b := by
  refine ⟨by rw [h.scalar]; exact Nat.mod_lt _ (by have := hs.orderBig; omega), ?_⟩
  rcases h.elem with ⟨hz, _⟩ | ⟨_, hx, hy, hn, _⟩
  · have := h.elemz; omega
  · exact ⟨hx, hy, (nonsing_iff hs.good _ _).1 hn⟩

/-- The commit on the wire. -/
def wireCommit (c : Ctx) : Bytes :=
  le16 c.grp.groupId ++ beRaw c.grp.primeLen c.myScalar ++ beRaw c.grp.primeLen c.myElem.x
    ++ beRaw c.grp.primeLen c.myElem.y

theorem serialize_some {c : Ctx} {A : cv.W.Point} (hs : Setup g cv) (h : Committed g cv c A)
    {cap : Nat} (hcap : 2 + 3 * g.primeLen ≤ cap) :
    serializeCommit c cap = some (wireCommit c) := by
  obtain ⟨b1, b2, b3, _⟩ := h.bounds hs
  have hg := h.base.grp
  have f1 := hs.fitP
  have f2 := hs.fitQ
  unfold serializeCommit wireCommit
  rw [h.have_, hg]
  simp only [Bool.not_true, Bool.false_eq_true, if_false]
  rw [if_neg (by omega), toBE_some (by omega), toBE_some (by omega), toBE_some (by omega)]
  rfl

/-- The receiver of an honest commit reads the sender's numbers. -/
theorem parse_honest {c d : Ctx} {A B : cv.W.Point} (hs : Setup g cv) (hc : Committed g cv c A)
    (hd : Committed g cv d B) (rest : Bytes) (hne : wireCommit c ≠ wireCommit d) :
    parsePeerCommit d (wireCommit c ++ rest) =
      ({ d with peerScalar := c.myScalar, peerElem := c.myElem }, true) := by
  obtain ⟨b1, b2, b3, b4⟩ := hc.bounds hs
  have f1 := hs.fitP
  have f2 := hs.fitQ
  have hcg := hc.base.grp
  have hdg := hd.base.grp
  have hdc := hd.base.crv
  have hgid := hs.gid
  have hfl := fields_serialize (pl := g.primeLen) (gid := g.groupId) (s := c.myScalar)
    (x := c.myElem.x) (y := c.myElem.y) (rest := rest) hgid (by omega) (by omega) (by omega)
  have hw : wireCommit c = le16 g.groupId ++ beRaw g.primeLen c.myScalar
      ++ beRaw g.primeLen c.myElem.x ++ beRaw g.primeLen c.myElem.y := by
    unfold wireCommit; rw [hcg]
  rw [← hw] at hfl
  obtain ⟨g1, g2, g3, g4⟩ := hfl
  have hpos : 0 < d.cv.p := by rw [hdc]; have := hs.good.big; omega
  have hex := parse_exact d (wireCommit c ++ rest) hpos
  have hacc : Acceptable d (wireCommit c ++ rest) := by
    constructor
    · rw [hdg, hw]
      simp [le16_length, beRaw_length]
      omega
    · rw [hdg]; exact g1
    · rw [hdg, g2]; exact hc.slo
    · rw [hdg, hdc, g2]; exact b1
    · rw [hdg, hdc, g3]; exact b2
    · rw [hdg, hdc, g4]; exact b3
    · rw [hdg, hdc, g3, g4]; exact b4
    · rw [hdg, g2, g3, g4]
      rintro ⟨_, e1, e2, e3⟩
      apply hne
      unfold wireCommit
      rw [hcg, hdg, e1, e2, e3]
  have h2 := hex.1.2 hacc
  have h1 := hex.2 h2
  rw [hdg, g2, g3, g4] at h1
  have hel : affine c.myElem.x c.myElem.y = c.myElem := by
    have hz := hc.elemz
    generalize c.myElem = E at hz
    obtain ⟨x, y, z⟩ := E
    simp only at hz
    subst hz; rfl
  rw [hel, ← hdg] at h1
  exact Prod.ext h1 h2

/-- The point a context derives its keys from, when the peer is honest. -/
theorem shared_honest {c d : Ctx} {A : cv.W.Point} (hs : Setup g cv) (hc : Committed g cv c A)
    (hd : Committed g cv d A) {e : Ctx} (he : e = { d with
      peerScalar := c.myScalar, peerElem := c.myElem, kckLen := e.kckLen, macHash := e.macHash }) :
    ∃ K, sharedPoint e = some K ∧ K.z = 1 ∧ Rep K ((c.rand * d.rand) • A) := by
  have hpx : e.pweX = d.pweX := by rw [he]
  have hpy : e.pweY = d.pweY := by rw [he]
  have hps : e.peerScalar = c.myScalar := by rw [he]
  have hpe : e.peerElem = c.myElem := by rw [he]
  have hr : e.rand = d.rand := by rw [he]
  have hcv : e.cv = cv := by rw [he]; exact hd.base.crv
  unfold sharedPoint
  rw [hpx, hpy, hps, hpe, hr, hcv]
  obtain ⟨P, hP, rP⟩ := rep_mul hs.good hd.base.rep c.myScalar
  obtain ⟨Q, hQ, rQ⟩ := rep_add hs.good rP hc.elem
  have hsum : c.myScalar • A + -(c.mask • A) = c.rand • A := by
    rw [hc.scalar, smul_mod hs, add_nsmul]
    abel
  rw [hsum] at rQ
  have hne1 : c.rand • A ≠ 0 := smul_ne_zero_of hs hd.base.ne (not_dvd_of_lt hc.rlo hc.rhi)
  have hq1 : Q.isId = false := by
    cases hb : Q.isId with
    | false => rfl
    | true => exact absurd ((rep_isId rQ).1 hb) hne1
  obtain ⟨K, hK, rK⟩ := rep_mul hs.good rQ d.rand
  have hne2 : d.rand • (c.rand • A) ≠ 0 :=
    smul_ne_zero_of hs hne1 (not_dvd_of_lt hd.rlo hd.rhi)
  have hk1 : K.isId = false := by
    cases hb : K.isId with
    | false => rfl
    | true => exact absurd ((rep_isId rK).1 hb) hne2
  refine ⟨K, ?_, ?_, ?_⟩
  · rw [hP]
    simp only [Option.bind_some]
    rw [hQ]
    simp only [Option.bind_some, hq1, Bool.false_eq_true, if_false]
    rw [hK]
    simp only [Option.bind_some, hk1, Bool.false_eq_true, if_false]
  · rcases rK with ⟨_, c0⟩ | ⟨hz, _⟩
    · exact absurd c0 hne2
    · exact hz
  · rw [mul_nsmul]; exact rK

/-- The keys as the standard defines them from the shared abscissa `k` and the
two scalars: `keyseed = HMAC(0, k)`, `KCK || PMK = KDF(keyseed, label, s)`,
where `s` is the sum of the scalars. -/
def keysSpec (h : Prims) (ht hl pl k s : Nat) : Bytes :=
  kdfSpec h ht (h.hmac ht (List.replicate hl 0) (beRaw pl k)) kckLabel (beRaw pl s) ((hl + 32) * 8)

/-- The hash function and key length of a context's mode. -/
def modeHash (c : Ctx) : Nat := if c.h2e then c.grp.hashType else sha256
def modeLen (c : Ctx) : Nat := if c.h2e then c.grp.hashLen else 32

theorem modeLen_eq (hs : Setup g cv) {c : Ctx} (hg : c.grp = g) :
    hashLen (modeHash c) = modeLen c ∧ modeLen c ≠ 0 ∧ modeLen c ≤ 64 := by
  have h1 := hs.hash
  have h2 := hs.hashPos
  unfold modeHash modeLen
  rw [hg]
  cases c.h2e
  · simp only [Bool.false_eq_true, if_false]
    decide
  · refine ⟨h1, h2, ?_⟩
    simp only [if_true]
    rw [← h1]
    unfold hashLen
    split
    · omega
    · split
      · omega
      · split <;> omega

theorem derive_honest {h : Prims} (hh : h.Good) {c d : Ctx} {A : cv.W.Point} (hs : Setup g cv)
    (hc : Committed g cv c A) (hd : Committed g cv d A) :
    ∃ K, Rep K ((c.rand * d.rand) • A) ∧ K.z = 1 ∧
      deriveKeys h { d with peerScalar := c.myScalar, peerElem := c.myElem } =
        some { d with
          peerScalar := c.myScalar, peerElem := c.myElem
          kckLen := modeLen d, macHash := modeHash d, kX := K.x
          pmkid := (beRaw g.primeLen ((d.myScalar + c.myScalar) % cv.q)).take 16
          kck := (keysSpec h (modeHash d) (modeLen d) g.primeLen K.x
            ((d.myScalar + c.myScalar) % cv.q)).take (modeLen d)
          pmk := ((keysSpec h (modeHash d) (modeLen d) g.primeLen K.x
            ((d.myScalar + c.myScalar) % cv.q)).drop (modeLen d)).take 32
          haveKeys := true } := by
  obtain ⟨K, hK, hz, rK⟩ := shared_honest hs hc hd
    (e := { d with peerScalar := c.myScalar, peerElem := c.myElem
                   kckLen := modeLen d, macHash := modeHash d }) rfl
  refine ⟨K, rK, hz, ?_⟩
  have hgd := hd.base.grp
  have hcd := hd.base.crv
  obtain ⟨hm1, hm2, hm3⟩ := modeLen_eq hs hgd
  have f1 := hs.fitP
  have f2 := hs.fitQ
  have hKx : K.x < cv.p := by
    rcases rK with ⟨hz', _⟩ | ⟨_, hx, _⟩
    · omega
    · exact hx
  have hsum : (d.myScalar + c.myScalar) % cv.q < cv.q :=
    Nat.mod_lt _ (by have := hs.orderBig; omega)
  unfold deriveKeys
  dsimp only
  rw [if_neg (by rw [hd.base.pwe, hd.have_]; simp)]
  rw [show (if d.h2e = true then d.grp.hashLen else 32) = modeLen d from rfl,
    show (if d.h2e = true then d.grp.hashType else sha256) = modeHash d from rfl, hK]
  simp only [Option.bind_some]
  rw [hgd, hcd, toBE_some (by omega)]
  simp only [Option.bind_some]
  rw [show addmod d.myScalar c.myScalar cv.q = (d.myScalar + c.myScalar) % cv.q from rfl,
    toBE_some (by omega)]
  simp only [Option.bind_some]
  have hkl : (h.hmac (modeHash d) (List.replicate (modeLen d) 0)
      (beRaw g.primeLen K.x)).take (modeLen d)
      = h.hmac (modeHash d) (List.replicate (modeLen d) 0) (beRaw g.primeLen K.x) := by
    rw [List.take_of_length_le]
    rw [hh.hmac_len _ _ _ (by omega), hm1]
  rw [hkl, ieeeKdf_eq hh (by omega) _ _ _ (by omega)]
  rfl

/-! ## Confirm -/

/-- One side's three numbers as they enter the confirm hash. -/
def side (pl s : Nat) (P : Pt) : Bytes := beRaw pl s ++ beRaw pl P.x ++ beRaw pl P.y

theorem confirmInput_some {c : Ctx} {n : Nat} {b : Bool}
    (h1 : c.myScalar < 256 ^ c.grp.primeLen) (h2 : c.myElem.x < 256 ^ c.grp.primeLen)
    (h3 : c.myElem.y < 256 ^ c.grp.primeLen) (h4 : c.peerScalar < 256 ^ c.grp.primeLen)
    (h5 : c.peerElem.x < 256 ^ c.grp.primeLen) (h6 : c.peerElem.y < 256 ^ c.grp.primeLen) :
    confirmInput c n b = some (le16 n ++
      (if b then side c.grp.primeLen c.peerScalar c.peerElem ++
        side c.grp.primeLen c.myScalar c.myElem
      else side c.grp.primeLen c.myScalar c.myElem ++
        side c.grp.primeLen c.peerScalar c.peerElem)) := by
  unfold confirmInput side
  dsimp only
  rw [toBE_some h1, toBE_some h2, toBE_some h3, toBE_some h4, toBE_some h5, toBE_some h6]
  simp only [Option.bind_some]
  cases b <;> simp [List.append_assoc]

/-- The numbers of both sides fit their fields. -/
structure Fits (c : Ctx) : Prop where
  ms : c.myScalar < 256 ^ c.grp.primeLen
  mx : c.myElem.x < 256 ^ c.grp.primeLen
  my : c.myElem.y < 256 ^ c.grp.primeLen
  ps : c.peerScalar < 256 ^ c.grp.primeLen
  px : c.peerElem.x < 256 ^ c.grp.primeLen
  py : c.peerElem.y < 256 ^ c.grp.primeLen

/-- What the other side hashes for confirm number `n`: its numbers first. -/
def peerTranscript (c : Ctx) (n : Nat) : Bytes :=
  le16 n ++ (side c.grp.primeLen c.peerScalar c.peerElem ++ side c.grp.primeLen c.myScalar c.myElem)

/-- What this side hashes for confirm number `n`. -/
def ownTranscript (c : Ctx) (n : Nat) : Bytes :=
  le16 n ++ (side c.grp.primeLen c.myScalar c.myElem ++ side c.grp.primeLen c.peerScalar c.peerElem)

theorem compute_exact {h : Prims} {c : Ctx} (hf : Fits c) (n cap : Nat) (mac : Bytes) :
    computeConfirm h c n cap = some mac ↔ c.haveKeys = true ∧ c.kckLen ≤ cap ∧
      mac = (h.hmac c.macHash (c.kck.take c.kckLen) (ownTranscript c n)).take c.kckLen := by
  unfold computeConfirm
  rw [confirmInput_some hf.ms hf.mx hf.my hf.ps hf.px hf.py]
  cases c.haveKeys with
  | false => simp
  | true =>
    simp only [Bool.not_true, Bool.false_eq_true, if_false, true_and]
    by_cases hcap : cap < c.kckLen
    · rw [if_pos hcap]; simp; omega
    · rw [if_neg hcap, Option.map_some, Option.some.injEq]
      constructor
      · intro e; exact ⟨by omega, e.symm⟩
      · rintro ⟨_, e⟩; exact e.symm

theorem verify_exact {h : Prims} (hh : h.Good) {c : Ctx} (hf : Fits c)
    (hl : c.kckLen ≤ hashLen c.macHash) (h0 : hashLen c.macHash ≠ 0) (n : Nat) (mac : Bytes) :
    verifyConfirm h c n mac = true ↔ c.haveKeys = true ∧
      mac = (h.hmac c.macHash (c.kck.take c.kckLen) (peerTranscript c n)).take c.kckLen := by
  have hlen : ((h.hmac c.macHash (c.kck.take c.kckLen) (peerTranscript c n)).take c.kckLen).length
      = c.kckLen := by
    rw [List.length_take, hh.hmac_len _ _ _ h0]; omega
  unfold verifyConfirm
  rw [confirmInput_some hf.ms hf.mx hf.my hf.ps hf.px hf.py]
  cases c.haveKeys with
  | false => simp
  | true =>
    simp only [Bool.not_true, Bool.false_eq_true, if_false, true_and, if_true]
    by_cases hm : mac.length = c.kckLen
    · rw [if_neg (fun k => k hm), beq_iff_eq]
      change ctDiff ((h.hmac c.macHash (c.kck.take c.kckLen) (peerTranscript c n)).take c.kckLen) mac
        = 0 ↔ _
      rw [ctDiff_zero (by rw [hlen, hm])]
      exact ⟨Eq.symm, Eq.symm⟩
    · rw [if_pos hm]
      constructor
      · intro k; cases k
      · intro k; rw [k] at hm; exact absurd hlen hm

/-- Mirrored contexts with the same key accept each other's confirm. -/
theorem confirm_mirror {h : Prims} (hh : h.Good) {c d : Ctx} (hc : Fits c) (hd : Fits d)
    (hg : c.grp = d.grp) (e1 : c.peerScalar = d.myScalar) (e2 : c.peerElem = d.myElem)
    (e3 : d.peerScalar = c.myScalar) (e4 : d.peerElem = c.myElem)
    (k1 : c.kck = d.kck) (k2 : c.kckLen = d.kckLen) (k3 : c.macHash = d.macHash)
    (hl : d.kckLen ≤ hashLen d.macHash) (h0 : hashLen d.macHash ≠ 0)
    (hk : c.haveKeys = true) (hk' : d.haveKeys = true) {cap : Nat} (hcap : c.kckLen ≤ cap) (n : Nat) :
    ∃ mac, computeConfirm h c n cap = some mac ∧ verifyConfirm h d n mac = true := by
  refine ⟨_, (compute_exact hc n cap _).2 ⟨hk, hcap, rfl⟩, (verify_exact hh hd hl h0 n _).2 ⟨hk', ?_⟩⟩
  have : ownTranscript c n = peerTranscript d n := by
    unfold ownTranscript peerTranscript
    rw [hg, e1, e2, e3, e4]
  rw [this, k1, k2, k3]

/-- C93.  **Two honest peers agree.**  Two contexts of the same group with the
same password element (a point other than the identity), each of which
generated a commit with its own randomness: both commits serialize; unless the
two messages are identical each side accepts the other's (whatever follows it
in the frame) and both derive keys.  The keys agree - confirmation key, master
key and identifier - the master key has 32 octets, and each side accepts the
confirm the other computes, for every confirm counter. -/
theorem sae_agreement {h : Prims} (hh : h.Good) (hs : Setup g cv) {c d c1 d1 : Ctx}
    {A : cv.W.Point} (hc : HasPwe g cv c A) (hd : HasPwe g cv d A) (hm : c.h2e = d.h2e)
    {r1 m1 r2 m2 : List Bytes}
    (gc : generateCommit c r1 m1 = (c1, true)) (gd : generateCommit d r2 m2 = (d1, true))
    {cap : Nat} (hcap : 2 + 3 * g.primeLen ≤ cap) :
    ∃ mc md, serializeCommit c1 cap = some mc ∧ serializeCommit d1 cap = some md ∧
      (mc ≠ md → ∀ rest rest', ∃ c2 d2 c3 d3,
        parsePeerCommit c1 (md ++ rest) = (c2, true) ∧
        parsePeerCommit d1 (mc ++ rest') = (d2, true) ∧
        deriveKeys h c2 = some c3 ∧ deriveKeys h d2 = some d3 ∧
        c3.kck = d3.kck ∧ c3.pmk = d3.pmk ∧ c3.pmkid = d3.pmkid ∧ c3.pmk.length = 32 ∧
        (∀ n, ∃ mac, computeConfirm h c3 n 64 = some mac ∧ verifyConfirm h d3 n mac = true) ∧
        (∀ n, ∃ mac, computeConfirm h d3 n 64 = some mac ∧ verifyConfirm h c3 n mac = true)) := by
  have kc := committed_of hs hc gc
  have kd := committed_of hs hd gd
  refine ⟨_, _, serialize_some hs kc hcap, serialize_some hs kd hcap, fun hne rest rest' => ?_⟩
  have pc := parse_honest hs kd kc rest (Ne.symm hne)
  have pd := parse_honest hs kc kd rest' hne
  obtain ⟨K, rK, zK, dK⟩ := derive_honest hh hs kd kc
  obtain ⟨L, rL, zL, dL⟩ := derive_honest hh hs kc kd
  have hKL : K = L := by
    have hne2 : (d1.rand * c1.rand) • A ≠ 0 := by
      intro c0
      have := (rep_isId rK).2 c0
      rw [Pt.isId, zK] at this
      simp at this
    rw [Nat.mul_comm c1.rand d1.rand] at rL
    exact rep_unique hne2 rK rL
  subst hKL
  have hgc := kc.base.grp
  have hgd := kd.base.grp
  obtain ⟨_, _, _, _, _, _, _, _, _, ec⟩ := generate_spec gc
  obtain ⟨_, _, _, _, _, _, _, _, _, ed⟩ := generate_spec gd
  have hm1 : c1.h2e = d1.h2e := by rw [ec, ed]; exact hm
  have hmh : modeHash c1 = modeHash d1 := by unfold modeHash; rw [hm1, hgc, hgd]
  have hml : modeLen c1 = modeLen d1 := by unfold modeLen; rw [hm1, hgc, hgd]
  have hcomm : c1.myScalar + d1.myScalar = d1.myScalar + c1.myScalar := Nat.add_comm _ _
  obtain ⟨hq1, hq2, hq3⟩ := modeLen_eq hs hgd
  have hkl : (keysSpec h (modeHash d1) (modeLen d1) g.primeLen K.x
      ((d1.myScalar + c1.myScalar) % cv.q)).length = modeLen d1 + 32 := by
    unfold keysSpec
    rw [kdfSpec_length hh (by omega)]
    omega
  obtain ⟨b1, b2, b3, _⟩ := kc.bounds hs
  obtain ⟨b4, b5, b6, _⟩ := kd.bounds hs
  have f1 := hs.fitP
  have f2 := hs.fitQ
  refine ⟨_, _, _, _, pc, pd, dK, dL, ?_, ?_, ?_, ?_, fun n => ?_, fun n => ?_⟩
  · dsimp only; rw [hmh, hml, hcomm]
  · dsimp only; rw [hmh, hml, hcomm]
  · dsimp only; rw [hcomm]
  · dsimp only
    rw [hmh, hml, hcomm, List.length_take, List.length_drop, hkl]
    omega
  · refine confirm_mirror hh ?_ ?_ (by rw [hgc, hgd]) rfl rfl rfl rfl ?_ hml hmh ?_ ?_ rfl rfl ?_ n
    · constructor <;> dsimp only <;> rw [hgc] <;> omega
    · constructor <;> dsimp only <;> rw [hgd] <;> omega
    · dsimp only; rw [hmh, hml, hcomm]
    · dsimp only; omega
    · dsimp only; omega
    · dsimp only; rw [hml]; omega
  · refine confirm_mirror hh ?_ ?_ (by rw [hgc, hgd]) rfl rfl rfl rfl ?_ hml.symm hmh.symm ?_ ?_
      rfl rfl ?_ n
    · constructor <;> dsimp only <;> rw [hgd] <;> omega
    · constructor <;> dsimp only <;> rw [hgc] <;> omega
    · dsimp only; rw [hmh, hml, hcomm]
    · dsimp only; rw [hmh, hml]; omega
    · dsimp only; rw [hmh]; omega
    · dsimp only; omega

/-! ## What an accepted confirm proves -/

theorem side_length (pl s : Nat) (P : Pt) : (side pl s P).length = pl + pl + pl := by
  simp [side, beRaw_length, Nat.add_assoc]

theorem side_inj {pl s t : Nat} {P Q : Pt} (h1 : s < 256 ^ pl) (h2 : P.x < 256 ^ pl)
    (h3 : P.y < 256 ^ pl) (h4 : t < 256 ^ pl) (h5 : Q.x < 256 ^ pl) (h6 : Q.y < 256 ^ pl)
    (h : side pl s P = side pl t Q) : s = t ∧ P.x = Q.x ∧ P.y = Q.y := by
  unfold side at h
  obtain ⟨ha, hb⟩ := List.append_inj h (by simp [beRaw_length])
  obtain ⟨hc, hd⟩ := List.append_inj ha (by simp [beRaw_length])
  exact ⟨beRaw_inj h1 h4 hc, beRaw_inj h2 h5 hd, beRaw_inj h3 h6 hb⟩

theorem transcript_inj {c d : Ctx} {n n' : Nat} (hc : Fits c) (hd : Fits d) (hg : c.grp = d.grp)
    (h : peerTranscript c n = ownTranscript d n') :
    le16 n = le16 n' ∧ c.peerScalar = d.myScalar ∧ c.peerElem.x = d.myElem.x ∧
    c.peerElem.y = d.myElem.y ∧ c.myScalar = d.peerScalar ∧ c.myElem.x = d.peerElem.x ∧
    c.myElem.y = d.peerElem.y := by
  unfold peerTranscript ownTranscript at h
  rw [← hg] at h
  obtain ⟨h0, h1⟩ := List.append_inj h (by simp [le16_length])
  obtain ⟨h2, h3⟩ := List.append_inj h1 (by simp [side_length])
  obtain ⟨a1, a2, a3⟩ := side_inj hc.ps hc.px hc.py (hg ▸ hd.ms) (hg ▸ hd.mx) (hg ▸ hd.my) h2
  obtain ⟨b1, b2, b3⟩ := side_inj hc.ms hc.mx hc.my (hg ▸ hd.ps) (hg ▸ hd.px) (hg ▸ hd.py) h3
  exact ⟨h0, a1, a2, a3, b1, b2, b3⟩

theorem toBE_lt {k n : Nat} {bs : Bytes} (h : toBE k n = some bs) : n < 256 ^ k := by
  unfold toBE at h
  split at h
  · assumption
  · exact absurd h (by simp)

theorem fits_of {c : Ctx} {n : Nat} {b : Bool} {m : Bytes} (h : confirmInput c n b = some m) :
    Fits c := by
  unfold confirmInput at h
  dsimp only at h
  simp only [Option.bind_eq_some_iff] at h
  obtain ⟨_, h1, _, h2, _, h3, _, h4, _, h5, _, h6, _⟩ := h
  exact ⟨toBE_lt h1, toBE_lt h2, toBE_lt h3, toBE_lt h4, toBE_lt h5, toBE_lt h6⟩

theorem fits_of_compute {h : Prims} {c : Ctx} {n cap : Nat} {mac : Bytes}
    (hc : computeConfirm h c n cap = some mac) : Fits c := by
  unfold computeConfirm at hc
  split at hc
  · exact absurd hc (by simp)
  split at hc
  · exact absurd hc (by simp)
  obtain ⟨m, hm, _⟩ := Option.map_eq_some_iff.1 hc
  exact fits_of hm

theorem fits_of_verify {h : Prims} {c : Ctx} {n : Nat} {mac : Bytes}
    (hv : verifyConfirm h c n mac = true) : Fits c := by
  unfold verifyConfirm at hv
  split at hv
  · exact absurd hv (by simp)
  split at hv
  · exact absurd hv (by simp)
  cases hm : confirmInput c n true with
  | none => rw [hm] at hv; exact absurd hv (by simp)
  | some m => exact fits_of hm

/-- The group table gives every group its own hash's length. -/
def HashOk (g : Grp) : Prop := hashLen g.hashType = g.hashLen ∧ g.hashLen ≠ 0

theorem table_hashOk : ∀ g ∈ saeGroups, HashOk g := by
  intro g hg
  simp only [saeGroups, List.mem_cons, List.not_mem_nil, or_false] at hg
  rcases hg with rfl | rfl | rfl <;> exact ⟨by decide, by decide⟩

/-- What key derivation leaves alone, and the lengths it sets. -/
theorem derive_keep {h : Prims} (hh : h.Good) {c d : Ctx} (hk : HashOk c.grp)
    (hd : deriveKeys h c = some d) :
    d.grp = c.grp ∧ d.myScalar = c.myScalar ∧ d.myElem = c.myElem ∧
    d.peerScalar = c.peerScalar ∧ d.peerElem = c.peerElem ∧ d.haveKeys = true ∧
    d.kckLen = hashLen d.macHash ∧ d.kckLen ≠ 0 ∧ d.kckLen ≤ 64 ∧ d.kck.length = d.kckLen ∧
    d.pmk.length = 32 ∧ c.haveCommit = true := by
  obtain ⟨k1, k2⟩ := hk
  have hm : hashLen (modeHash c) = modeLen c ∧ modeLen c ≠ 0 := by
    unfold modeHash modeLen
    cases c.h2e
    · simp only [Bool.false_eq_true, if_false]; decide
    · exact ⟨k1, k2⟩
  have hle : ∀ t, hashLen t ≤ 64 := by
    intro t; unfold hashLen; (repeat' split) <;> omega
  unfold deriveKeys at hd
  split at hd
  · exact absurd hd (by simp)
  rename_i hpc
  dsimp only at hd
  rw [show (if c.h2e = true then c.grp.hashLen else 32) = modeLen c from rfl,
    show (if c.h2e = true then c.grp.hashType else sha256) = modeHash c from rfl] at hd
  simp only [Option.bind_eq_some_iff] at hd
  obtain ⟨K, _, kb, _, ctx, _, keys, hkeys, he⟩ := hd
  have := hle (modeHash c)
  rw [ieeeKdf_eq hh (by omega) _ _ _ (by omega)] at hkeys
  have hlen := congrArg List.length (Option.some.inj hkeys)
  rw [kdfSpec_length hh (by omega)] at hlen
  have e := Option.some.inj he
  subst e
  dsimp only
  refine ⟨rfl, rfl, rfl, rfl, rfl, rfl, hm.1.symm, hm.2, by omega, ?_, ?_, ?_⟩
  · rw [List.length_take]; omega
  · rw [List.length_take, List.length_drop]; omega
  · cases hc : c.haveCommit with
    | true => rfl
    | false => rw [hc] at hpc; simp at hpc

/-- C94.  **An accepted confirm binds both commits and the key.**  If a context
accepts a confirm that some context of the same group computed, both after
deriving keys, then - unless those very two HMAC computations collide - the two
hold the same confirmation key and the same view of the exchange: what one
received as the peer's scalar and element is what the other sent, in both
directions, and the confirm counters agree. -/
theorem confirm_binds {h : Prims} (hh : h.Good) {c0 c d0 d : Ctx} (hk : HashOk c0.grp)
    (hg : c0.grp = d0.grp) (dc : deriveKeys h c0 = some c) (dd : deriveKeys h d0 = some d)
    {n n' cap : Nat} (hn : n < 65536) (hn' : n' < 65536) {mac : Bytes}
    (hv : verifyConfirm h c n mac = true) (hcmp : computeConfirm h d n' cap = some mac)
    (nocoll : h.hmac c.macHash c.kck (peerTranscript c n) = h.hmac d.macHash d.kck (ownTranscript d n')
      → c.kck = d.kck ∧ peerTranscript c n = ownTranscript d n') :
    c.kck = d.kck ∧ n = n' ∧
    c.peerScalar = d.myScalar ∧ c.peerElem.x = d.myElem.x ∧ c.peerElem.y = d.myElem.y ∧
    d.peerScalar = c.myScalar ∧ d.peerElem.x = c.myElem.x ∧ d.peerElem.y = c.myElem.y := by
  obtain ⟨gc, _, _, _, _, _, lc, zc, _, kc, _⟩ := derive_keep hh hk dc
  obtain ⟨gd, _, _, _, _, _, ld, zd, _, kd, _⟩ := derive_keep hh (hg ▸ hk) dd
  have hc := fits_of_verify hv
  have hd := fits_of_compute hcmp
  obtain ⟨_, e1⟩ := (verify_exact hh hc (by omega) (by omega) n mac).1 hv
  obtain ⟨_, _, e2⟩ := (compute_exact hd n' cap mac).1 hcmp
  have e3 := e1.symm.trans e2
  rw [List.take_of_length_le (l := c.kck) (by omega), List.take_of_length_le (l := d.kck) (by omega),
    List.take_of_length_le (by rw [hh.hmac_len _ _ _ (by omega)]; omega),
    List.take_of_length_le (by rw [hh.hmac_len _ _ _ (by omega)]; omega)] at e3
  obtain ⟨hkk, ht⟩ := nocoll e3
  obtain ⟨a0, a1, a2, a3, b1, b2, b3⟩ := transcript_inj hc hd (by rw [gc, gd, hg]) ht
  exact ⟨hkk, le16_inj hn hn' a0, a1, a2, a3, b1.symm, b2.symm, b3.symm⟩

/-- C94.  **Our own confirm is not accepted back.**  A context that accepted a
peer commit after generating its own and then derived keys refuses a confirm
it computed itself, for any pair of counters - unless HMAC under the
confirmation key collides on two different messages, which the theorem names. -/
theorem own_confirm_refused {h : Prims} (hh : h.Good) {c c2 c3 : Ctx} {m : Bytes}
    (hk : HashOk c.grp) (hp : 0 < c.cv.p)
    (hparse : parsePeerCommit c m = (c2, true)) (hder : deriveKeys h c2 = some c3)
    {n n' cap : Nat} {mac : Bytes} (hcmp : computeConfirm h c3 n' cap = some mac)
    (nocoll : h.hmac c3.macHash c3.kck (peerTranscript c3 n)
      = h.hmac c3.macHash c3.kck (ownTranscript c3 n') → peerTranscript c3 n = ownTranscript c3 n') :
    verifyConfirm h c3 n mac = false := by
  obtain ⟨hx, hy⟩ := parse_exact c m hp
  rw [hparse] at hx hy
  have hacc := hx.1 rfl
  have h2 := hy rfl
  dsimp only at h2
  obtain ⟨k1, k2, k3, k4, k5, _, hl, hz, _, hkl, _, hcm⟩ :=
    derive_keep hh (c := c2) (by rw [h2]; exact hk) hder
  have hf := fits_of_compute hcmp
  cases hv : verifyConfirm h c3 n mac with
  | false => rfl
  | true =>
    exfalso
    obtain ⟨_, e1⟩ := (verify_exact hh hf (by omega) (by omega) n mac).1 hv
    obtain ⟨_, _, e2⟩ := (compute_exact hf n' cap mac).1 hcmp
    have e3 := e1.symm.trans e2
    rw [List.take_of_length_le (l := c3.kck) (by omega),
      List.take_of_length_le (by rw [hh.hmac_len _ _ _ (by omega)]; omega),
      List.take_of_length_le (by rw [hh.hmac_len _ _ _ (by omega)]; omega)] at e3
    obtain ⟨_, a1, a2, a3, _⟩ := transcript_inj hf hf rfl (nocoll e3)
    rw [k2, k4] at a1
    rw [k3, k5] at a2 a3
    rw [h2] at a1 a2 a3 hcm
    exact hacc.fresh ⟨hcm, a1, a2, a3⟩

end

end Wolf.Sae
