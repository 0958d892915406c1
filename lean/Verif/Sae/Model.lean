/-!
# Model of the WPA3-SAE code: src/supplicant/sae_crypto.c

Everything in `sae_crypto.c` that is not a call into wolfCrypt is modelled
line by line.  The wolfCrypt calls are modelled by what they are documented to
compute:

* `mp_int` is a natural number of any size (no allocation failure, no digit
  overflow).  `mp_addmod`, `mp_submod`, `mp_mulmod`, `mp_sqrmod`,
  `mp_exptmod`, `mp_mod` are the operations on residues; `mp_invmod` is the
  least inverse in `[0, p)` and an error when there is none.
* `wc_ecc_mulmod` with `map = 1` is the `n`-fold sum of the point, computed by
  the same affine addition `ec_pt_add` the file itself implements.
* HMAC, HKDF-Extract and HKDF-Expand are arbitrary functions (`Prims`); the
  theorems say which of their properties (only the output length, or being
  free of collisions) they use.
* the random generator is an arbitrary stream of octet strings.

A non-zero return is `none` (or `false` next to the state that the C function
leaves behind, where the function writes to the context before failing).
-/

namespace Wolf.Sae

abbrev Bytes := List UInt8

/-! ## Modular arithmetic (wolfCrypt `mp_*`, used throughout the file) -/

/-- `mp_addmod(a, b, p)`. -/
def addmod (a b p : Nat) : Nat := (a + b) % p

/-- `mp_submod(a, b, p)`: the residue of `a - b` in `[0, p)`. -/
def submod (a b p : Nat) : Nat := (a + (p - b % p)) % p

/-- `mp_mulmod(a, b, p)`. -/
def mulmod (a b p : Nat) : Nat := a * b % p

/-- `mp_sqrmod(a, p)`. -/
def sqrmod (a p : Nat) : Nat := a * a % p

/-- `mp_exptmod(g, e, p)`. -/
def exptmod (g e p : Nat) : Nat := g ^ e % p

/-- `mp_invmod(a, p)`: the inverse in `[0, p)`, an error if there is none. -/
def invmod (a p : Nat) : Option Nat :=
  (List.range p).find? (fun y => a * y % p == 1)

/-- `mp_count_bits(p)`. -/
def countBits (p : Nat) : Nat := if p = 0 then 0 else Nat.log2 p + 1

/-! ## Octet strings -/

/-- `mp_read_unsigned_bin`: big-endian octets to a number. -/
def be (bs : Bytes) : Nat := bs.foldl (fun a b => a * 256 + b.toNat) 0

/-- `len` big-endian octets of `n` (the low ones, if `n` does not fit). -/
def beRaw : Nat → Nat → Bytes
  | 0, _ => []
  | k + 1, n => beRaw k (n / 256) ++ [UInt8.ofNat n]

/-- `mp_to_unsigned_bin_len`: exactly `len` big-endian octets, left-padded
with zeros, an error if the number does not fit. -/
def toBE (len n : Nat) : Option Bytes :=
  if n < 256 ^ len then some (beRaw len n) else none

/-- A little-endian 16-bit field as written at sae_crypto.c:817-818, 929-930,
934-935 and 1081-1082. -/
def le16 (n : Nat) : Bytes := [UInt8.ofNat n, UInt8.ofNat (n / 256)]

/-- `memcmp(a, b, 6) >= 0` (sae_crypto.c:71-72): lexicographic order of octet
strings of equal length. -/
def memGe : Bytes → Bytes → Bool
  | [], _ => true
  | _ :: _, [] => true
  | x :: xs, y :: ys => if x = y then memGe xs ys else decide (y.toNat < x.toNat)

/-- `mac_concat_max_min` (sae_crypto.c:68-80). -/
def macConcat (a b : Bytes) : Bytes :=
  if memGe a b then a ++ b else b ++ a

/-! ## Field helpers -/

/-- `curve_rhs` (sae_crypto.c:83-111). -/
def curveRhs (x a b p : Nat) : Nat :=
  let t1 := sqrmod x p
  let t1 := mulmod t1 x p
  let t2 := mulmod a x p
  let v := addmod t1 t2 p
  addmod v b p

/-- `sqrt_mod_p` (sae_crypto.c:117-144). -/
def sqrtModP (v p : Nat) : Option Nat :=
  let y := exptmod v ((p + 1) / 4) p
  if sqrmod y p ≠ v then none else some y

/-- `is_quadratic_residue` (sae_crypto.c:148-168). -/
def isQr (v p : Nat) : Bool := exptmod v ((p - 1) / 2) p == 1

/-- `sae_find_qnr` (sae_crypto.c:276-296): probes `i = 2 … 999`. -/
def findQnr (p : Nat) : Option Nat :=
  (List.range' 2 998).find? (fun i => !isQr i p)

/-- `sae_qr_blind` (sae_crypto.c:304-357).  `r` is the non-zero residue with
which the rejection loop (318-325) ends and `bit` the random octet of line
335; the result is `*is_qr`. -/
def qrBlind (v p qnr r : Nat) (bit : UInt8) : Nat :=
  let num := sqrmod r p
  let num := mulmod v num p
  let bit := bit &&& 1
  let num := if bit ≠ 0 then mulmod num qnr p else num
  let res := exptmod num ((p - 1) / 2) p
  let legOne := if res = 1 then 1 else 0
  if bit ≠ 0 then (if legOne ≠ 0 then 0 else 1) else (if legOne ≠ 0 then 1 else 0)

/-! ## Affine points (sae_crypto.c:574-716) -/

/-- `ecc_point`: affine, the identity is `z = 0`. -/
structure Pt where
  x : Nat
  y : Nat
  z : Nat
deriving DecidableEq, Repr

/-- `ec_pt_is_identity` (576-579). -/
def Pt.isId (P : Pt) : Bool := P.z == 0

/-- `ec_pt_set_identity` (581-587). -/
def ident : Pt := ⟨0, 0, 0⟩

/-- `ec_pt_set_affine` (589-597). -/
def affine (x y : Nat) : Pt := ⟨x, y, 1⟩

/-- `ec_pt_neg` (599-610). -/
def ecNeg (P : Pt) (p : Nat) : Pt :=
  if P.y = 0 then P else { P with y := p - P.y }

/-- `ec_pt_dbl` (613-654). -/
def ecDbl (P : Pt) (a p : Nat) : Option Pt :=
  if P.isId || P.y == 0 then some ident
  else
    let t1 := sqrmod P.x p
    let t2 := addmod t1 t1 p
    let t1 := addmod t2 t1 p
    let t1 := addmod t1 a p
    let t2 := addmod P.y P.y p
    match invmod t2 p with
    | none => none
    | some t2 =>
      let slope := mulmod t1 t2 p
      let x3 := sqrmod slope p
      let x3 := submod x3 P.x p
      let x3 := submod x3 P.x p
      let t1 := submod P.x x3 p
      let t1 := mulmod slope t1 p
      let t2 := submod t1 P.y p
      some ⟨x3, t2, 1⟩

/-- `ec_pt_add` (657-716). -/
def ecAdd (P Q : Pt) (a p : Nat) : Option Pt :=
  if P.isId then some Q
  else if Q.isId then some P
  else if P.x = Q.x then
    if P.y = Q.y then ecDbl P a p
    else if addmod P.y Q.y p = 0 then some ident
    else none
  else
    let t1 := submod Q.y P.y p
    let t2 := submod Q.x P.x p
    match invmod t2 p with
    | none => none
    | some t2 =>
      let slope := mulmod t1 t2 p
      let x3 := sqrmod slope p
      let x3 := submod x3 P.x p
      let x3 := submod x3 Q.x p
      let t1 := submod P.x x3 p
      let t1 := mulmod slope t1 p
      let t2 := submod t1 P.y p
      some ⟨x3, t2, 1⟩

/-- `wc_ecc_mulmod(n, P, R, a, p, 1)` (wolfCrypt): the `n`-fold sum. -/
def ecMul : Nat → Pt → Nat → Nat → Option Pt
  | 0, _, _, _ => some ident
  | n + 1, P, a, p => (ecMul n P a p).bind (fun R => ecAdd R P a p)

/-! ## Groups, primitives and the context -/

/-- `struct sae_group_info` (sae_crypto.h:67-76) without the wolfCrypt curve
index. -/
structure Grp where
  groupId : Nat
  hashType : Nat
  primeLen : Nat
  hashLen : Nat
  fieldLen : Nat
deriving DecidableEq, Repr

/-- `WC_SHA256`, `WC_SHA384`, `WC_SHA512`: three different numbers. -/
def sha256 : Nat := 6
def sha384 : Nat := 7
def sha512 : Nat := 8

/-- `SAE_GROUPS` (sae_crypto.c:35-42). -/
def saeGroups : List Grp :=
  [⟨19, sha256, 32, 32, 48⟩, ⟨20, sha384, 48, 48, 72⟩, ⟨21, sha512, 66, 64, 99⟩]

/-- `sae_group` (sae_crypto.c:44-53). -/
def saeGroup (id : Nat) : Option Grp := saeGroups.find? (fun g => g.groupId == id)

/-- `sae_hash_len` (sae_crypto.c:1314-1322). -/
def hashLen (ht : Nat) : Nat :=
  if ht = sha256 then 32 else if ht = sha384 then 48 else if ht = sha512 then 64 else 0

/-- The wolfCrypt primitives: HMAC (hash, key, message), HKDF-Extract (hash,
salt, input) and HKDF-Expand (hash, key, info, length). -/
structure Prims where
  hmac : Nat → Bytes → Bytes → Bytes
  extract : Nat → Bytes → Bytes → Bytes
  expand : Nat → Bytes → Bytes → Nat → Bytes

/-- The curve parameters `sae_ctx_init` copies from wolfCrypt (196-199). -/
structure Curve where
  p : Nat
  q : Nat
  a : Nat
  b : Nat
deriving DecidableEq, Repr

/-- `struct sae_ctx` (sae_crypto.h:79-131). -/
structure Ctx where
  grp : Grp
  cv : Curve
  pweX : Nat := 0
  pweY : Nat := 0
  ptX : Nat := 0
  ptY : Nat := 0
  havePt : Bool := false
  rand : Nat := 0
  mask : Nat := 0
  myScalar : Nat := 0
  myElem : Pt := ident
  peerScalar : Nat := 0
  peerElem : Pt := ident
  kX : Nat := 0
  kck : Bytes := []
  pmk : Bytes := []
  pmkid : Bytes := []
  kckLen : Nat := 0
  havePwe : Bool := false
  haveCommit : Bool := false
  haveKeys : Bool := false
  h2e : Bool := false
  macHash : Nat := 0

/-- `sae_ctx_init` (sae_crypto.c:172-217), for a group of the table and the
curve parameters wolfCrypt has for it. -/
def ctxInit (g : Grp) (cv : Curve) : Ctx :=
  { grp := g, cv := cv, kckLen := g.hashLen }

/-! ## The IEEE 802.11 KDF (sae_crypto.c:904-958) -/

/-- One block: `HMAC(key, i_LE16 || label || context || L_LE16)` (937-946). -/
def kdfBlock (h : Prims) (ht : Nat) (key label ctx : Bytes) (bits i : Nat) : Bytes :=
  h.hmac ht key (le16 i ++ label ++ ctx ++ le16 bits)

/-- The loop of `ieee80211_kdf` (932-955); `counter` is a `uint16_t`.  Each
round appends at least one octet, so `fuel = bytes_out` rounds are enough. -/
def kdfLoop (h : Prims) (ht : Nat) (key label ctx : Bytes) (bits bytesOut blockLen : Nat) :
    Nat → Nat → Bytes → Bytes
  | 0, _, out => out
  | fuel + 1, counter, out =>
    if out.length < bytesOut then
      let take := bytesOut - out.length
      let take := if take > blockLen then blockLen else take
      let digest := kdfBlock h ht key label ctx bits counter
      kdfLoop h ht key label ctx bits bytesOut blockLen fuel ((counter + 1) % 65536)
        (out ++ digest.take take)
    else out

/-- `ieee80211_kdf` (910-958). -/
def ieeeKdf (h : Prims) (ht : Nat) (key label ctx : Bytes) (bits : Nat) : Option Bytes :=
  if hashLen ht = 0 then none
  else some (kdfLoop h ht key label ctx bits ((bits + 7) / 8) (hashLen ht)
    ((bits + 7) / 8) 1 [])

/-- The octets of an ASCII label. -/
def ascii (s : String) : Bytes := s.toList.map (fun c => UInt8.ofNat c.toNat)

/-! ## Hunting and pecking (sae_crypto.c:254-530) -/

/-- The body of the shift loop of `sae_buf_shift_right` (267-269): octet `i`
takes its own high bits and the low bits of its left neighbour `prev`. -/
def shiftFrom (bits : Nat) : UInt8 → Bytes → Bytes
  | _, [] => []
  | prev, b :: bs =>
    UInt8.ofNat ((b.toNat >>> bits) ||| (prev.toNat <<< (8 - bits))) :: shiftFrom bits b bs

/-- `sae_buf_shift_right` (261-271).  The C loop runs from the last octet to
the first so that each octet still sees its left neighbour unshifted. -/
def bufShiftRight (buf : Bytes) (bits : Nat) : Bytes :=
  match buf with
  | [] => []
  | b :: bs =>
    if bits = 0 then b :: bs
    else UInt8.ofNat (b.toNat >>> bits) :: shiftFrom bits b bs

/-- The per-round constant-time selection (479-483): octet-wise
`(save & ~mask) | (x & mask)`. -/
def ctSelect (mask : UInt8) (save x : Bytes) : Bytes :=
  List.zipWith (fun s v => (s &&& ~~~mask) ||| (v &&& mask)) save x

/-- What one round of the loop carries over. -/
structure Hunt where
  found : Nat
  saveX : Bytes
  parity : UInt8

def hnpLabel : Bytes := ascii "SAE Hunting and Pecking"

/-- `pwd_seed` of round `counter` (431-440). -/
def pwdSeed (h : Prims) (salt pw : Bytes) (counter : Nat) : Bytes :=
  h.extract sha256 salt (pw ++ [UInt8.ofNat counter])

/-- `pwd_value` of a round, right-aligned (441-452). -/
def pwdValue (h : Prims) (cv : Curve) (primeLen : Nat) (primeBe seed : Bytes) : Option Bytes :=
  (ieeeKdf h sha256 seed hnpLabel primeBe (countBits cv.p)).map (fun v =>
    let rem := countBits cv.p % 8
    if rem ≠ 0 then bufShiftRight (v.take primeLen) (8 - rem) else v.take primeLen)

/-- One round of the loop (424-491).  `r` and `bit` are the randomness
`sae_qr_blind` draws in this round. -/
def hnpRound (h : Prims) (cv : Curve) (primeLen qnr : Nat) (salt pw primeBe : Bytes)
    (counter r : Nat) (bit : UInt8) (s : Hunt) : Option Hunt :=
  let seed := pwdSeed h salt pw counter
  match pwdValue h cv primeLen primeBe seed with
  | none => none
  | some value =>
    let x := be value
    let inRange := if x < cv.p then 1 else 0
    let v := curveRhs (x % cv.p) cv.a cv.b cv.p
    let isQr := qrBlind v cv.p qnr r bit
    let valid := inRange &&& isQr
    let isFirst := valid &&& (s.found ^^^ 1)
    match toBE primeLen x with
    | none => none
    | some xb =>
      let mask : UInt8 := 0 - UInt8.ofNat isFirst
      let pbit := (seed.getD 31 0) &&& 1
      let mbit := mask &&& 1
      some { found := s.found ||| valid
             saveX := ctSelect mask s.saveX xb
             parity := (s.parity &&& ~~~mbit) ||| (pbit &&& mbit) }

/-- `SAE_MIN_HNP_ITERS` (sae_crypto.h:65). -/
def hnpIters : Nat := 40

/-- The loop over the counters (424-491); `rng k` is the randomness of the
round with counter `k`, `none` when the generator fails. -/
def hnpLoop (h : Prims) (cv : Curve) (primeLen qnr : Nat) (salt pw primeBe : Bytes)
    (rng : Nat → Option (Nat × UInt8)) : List Nat → Hunt → Option Hunt
  | [], s => some s
  | k :: ks, s =>
    match rng k with
    | none => none
    | some (r, bit) =>
      match hnpRound h cv primeLen qnr salt pw primeBe k r bit s with
      | none => none
      | some s' => hnpLoop h cv primeLen qnr salt pw primeBe rng ks s'

/-- Recovering the point from the selected abscissa and parity (494-510). -/
def hnpPoint (cv : Curve) (saveX : Bytes) (parity : UInt8) : Option (Nat × Nat) :=
  let x := be saveX
  let v := curveRhs x cv.a cv.b cv.p
  match sqrtModP v cv.p with
  | none => none
  | some y =>
    if (parity &&& 1).toNat ≠ y % 2 then some (x, cv.p - y) else some (x, y)

/-- `sae_compute_pwe_hnp` (359-530); `none` is a non-zero return, after which
the context is unchanged. -/
def computePweHnp (h : Prims) (c : Ctx) (pw macA macB : Bytes)
    (rng : Nat → Option (Nat × UInt8)) : Option Ctx :=
  if pw.length = 0 ∨ pw.length > 64 then none
  else
    let pl := c.grp.primeLen
    let salt := macConcat macA macB
    match toBE pl c.cv.p with
    | none => none
    | some primeBe =>
      match findQnr c.cv.p with
      | none => none
      | some qnr =>
        match hnpLoop h c.cv pl qnr salt pw primeBe rng (List.range' 1 hnpIters)
            ⟨0, List.replicate pl 0, 0⟩ with
        | none => none
        | some s =>
          if s.found = 0 then none
          else
            match hnpPoint c.cv s.saveX s.parity with
            | none => none
            | some (x, y) => some { c with pweX := x, pweY := y, havePwe := true }

/-! ## The commit (sae_crypto.c:722-900) -/

/-- Clearing the surplus high bits of the first octet (742-744). -/
def clearHigh (rem : Nat) : Bytes → Bytes
  | [] => []
  | b :: bs => (b &&& UInt8.ofNat (255 >>> (8 - rem))) :: bs

/-- `rand_mpz_in_range` (722-756) over the stream of random blocks: at most 64
tries, the surplus high bits of the first octet cleared. -/
def randInRange (q : Nat) : Nat → List Bytes → Option Nat
  | 0, _ => none
  | _ + 1, [] => none
  | fuel + 1, buf :: rest =>
    let rem := countBits q % 8
    let n := be (if rem ≠ 0 then clearHigh rem buf else buf)
    if n < q ∧ n > 1 then some n else randInRange q fuel rest

/-- `sae_generate_commit` (758-799).  On failure the context keeps what was
written before the failing step. -/
def generateCommit (c : Ctx) (rs ms : List Bytes) : Ctx × Bool :=
  if !c.havePwe then (c, false)
  else
    match randInRange c.cv.q 64 rs with
    | none => (c, false)
    | some r =>
      let c := { c with rand := r }
      match randInRange c.cv.q 64 ms with
      | none => (c, false)
      | some m =>
        let c := { c with mask := m }
        let c := { c with myScalar := addmod c.rand c.mask c.cv.q }
        if ¬ c.myScalar > 1 then (c, false)
        else
          match ecMul c.mask (affine c.pweX c.pweY) c.cv.a c.cv.p with
          | none => (c, false)
          | some e => ({ c with myElem := ecNeg e c.cv.p, haveCommit := true }, true)

/-- `sae_serialize_commit` (803-834), writing into a buffer of `cap` octets. -/
def serializeCommit (c : Ctx) (cap : Nat) : Option Bytes :=
  if !c.haveCommit then none
  else
    let pl := c.grp.primeLen
    if 2 + pl + 2 * pl > cap then none
    else
      (toBE pl c.myScalar).bind fun s =>
      (toBE pl c.myElem.x).bind fun x =>
      (toBE pl c.myElem.y).bind fun y =>
      some (le16 c.grp.groupId ++ s ++ x ++ y)

/-- `sae_parse_peer_commit` (836-900).  `peer_scalar` is written before it is
checked (852) and `peer_element` before the reflection check (880). -/
def parsePeerCommit (c : Ctx) (inp : Bytes) : Ctx × Bool :=
  let pl := c.grp.primeLen
  if inp.length < 2 + 3 * pl then (c, false)
  else if (inp.getD 0 0).toNat + 256 * (inp.getD 1 0).toNat ≠ c.grp.groupId then (c, false)
  else
    let c := { c with peerScalar := be ((inp.drop 2).take pl) }
    if ¬ c.peerScalar > 1 ∨ ¬ c.peerScalar < c.cv.q then (c, false)
    else
      let ex := be ((inp.drop (2 + pl)).take pl)
      let ey := be ((inp.drop (2 + 2 * pl)).take pl)
      if ¬ ex < c.cv.p ∨ ¬ ey < c.cv.p then (c, false)
      else if sqrmod ey c.cv.p ≠ curveRhs ex c.cv.a c.cv.b c.cv.p then (c, false)
      else
        let c := { c with peerElem := affine ex ey }
        if c.haveCommit ∧ c.peerScalar = c.myScalar ∧ ex = c.myElem.x ∧ ey = c.myElem.y
        then (c, false)
        else (c, true)

/-! ## Keys and confirm (sae_crypto.c:960-1166) -/

def kckLabel : Bytes := ascii "SAE KCK and PMK"

/-- The shared point (1004-1018): `rand * (peer_scalar * PWE + peer_element)`,
an error when an intermediate result is the identity. -/
def sharedPoint (c : Ctx) : Option Pt :=
  (ecMul c.peerScalar (affine c.pweX c.pweY) c.cv.a c.cv.p).bind fun tmpP =>
  (ecAdd tmpP c.peerElem c.cv.a c.cv.p).bind fun tmpQ =>
  if tmpQ.isId then none
  else
    (ecMul c.rand tmpQ c.cv.a c.cv.p).bind fun K =>
    if K.isId then none else some K

/-- `sae_derive_k_and_pmk` (960-1065). -/
def deriveKeys (h : Prims) (c : Ctx) : Option Ctx :=
  if !c.havePwe || !c.haveCommit then none
  else
    let pl := c.grp.primeLen
    let hl := if c.h2e then c.grp.hashLen else 32
    let c := { c with kckLen := hl, macHash := if c.h2e then c.grp.hashType else sha256 }
    (sharedPoint c).bind fun K =>
    (toBE pl K.x).bind fun kBytes =>
    let keyseed := h.hmac c.macHash (List.replicate hl 0) kBytes
    (toBE pl (addmod c.myScalar c.peerScalar c.cv.q)).bind fun ctx =>
    (ieeeKdf h c.macHash (keyseed.take hl) kckLabel ctx ((c.kckLen + 32) * 8)).bind fun keys =>
    some { c with kX := K.x, pmkid := ctx.take 16, kck := keys.take c.kckLen
                  pmk := (keys.drop c.kckLen).take 32, haveKeys := true }

/-- `build_confirm_input` (1068-1113): what is fed to the HMAC. -/
def confirmInput (c : Ctx) (sendConfirm : Nat) (peerFirst : Bool) : Option Bytes :=
  let pl := c.grp.primeLen
  (toBE pl c.myScalar).bind fun ms =>
  (toBE pl c.myElem.x).bind fun mx =>
  (toBE pl c.myElem.y).bind fun my =>
  (toBE pl c.peerScalar).bind fun ps =>
  (toBE pl c.peerElem.x).bind fun px =>
  (toBE pl c.peerElem.y).bind fun py =>
  if peerFirst then some (le16 sendConfirm ++ ps ++ px ++ py ++ ms ++ mx ++ my)
  else some (le16 sendConfirm ++ ms ++ mx ++ my ++ ps ++ px ++ py)

/-- `sae_compute_confirm` (1115-1139), with an output buffer of `cap` octets. -/
def computeConfirm (h : Prims) (c : Ctx) (sendConfirm cap : Nat) : Option Bytes :=
  if !c.haveKeys then none
  else if cap < c.kckLen then none
  else (confirmInput c sendConfirm false).map fun m =>
    (h.hmac c.macHash (c.kck.take c.kckLen) m).take c.kckLen

/-- The comparison loop (1161-1163): the OR of all octet differences. -/
def ctDiff (d m : Bytes) : UInt8 :=
  (List.zipWith (fun x y => x ^^^ y) d m).foldl (fun a b => a ||| b) 0

/-- `sae_verify_peer_confirm` (1141-1166): is 0 returned? -/
def verifyConfirm (h : Prims) (c : Ctx) (recvConfirm : Nat) (mac : Bytes) : Bool :=
  if !c.haveKeys then false
  else if mac.length ≠ c.kckLen then false
  else
    match confirmInput c recvConfirm true with
    | none => false
    | some m => ctDiff ((h.hmac c.macHash (c.kck.take c.kckLen) m).take c.kckLen) mac == 0

/-! ## Hash to element (sae_crypto.c:1168-1559) -/

/-- `sswu_inv0` (1186-1193). -/
def inv0 (x p : Nat) : Option Nat := if x = 0 then some 0 else invmod x p

/-- `sswu_z_for_group` (1196-1213). -/
def sswuZ (groupId p : Nat) : Option Nat :=
  if groupId = 19 then some (p - 10)
  else if groupId = 20 then some (p - 12)
  else if groupId = 21 then some (p - 4)
  else none

/-- `x1` of `sswu_map` (1243-1274). -/
def sswuX1 (u a b p z : Nat) : Option Nat :=
  let u2 := sqrmod u p
  let zu2 := mulmod u2 z p
  let z2u4 := sqrmod zu2 p
  let denom := addmod z2u4 zu2 p
  (inv0 denom p).bind fun denomInv =>
  let negB := p - b
  (invmod a p).bind fun aInv =>
  let negBoverA := mulmod negB aInv p
  let onePlusInv := (denomInv + 1) % p
  let x1 := mulmod negBoverA onePlusInv p
  if denom = 0 then (invmod (mulmod z a p) p).map fun zaInv => mulmod b zaInv p
  else some x1

/-- `sswu_map` (1226-1311). -/
def sswuMap (u a b p z : Nat) : Option (Nat × Nat) :=
  (sswuX1 u a b p z).bind fun x1 =>
  let zu2 := mulmod (sqrmod u p) z p
  let gx1 := curveRhs x1 a b p
  let x := if isQr gx1 p then x1 else mulmod zu2 x1 p
  (sqrtModP (curveRhs x a b p) p).map fun y =>
  if u % 2 ≠ y % 2 then (x, p - y) else (x, y)

def u1Label : Bytes := ascii "SAE Hash to Element u1 P1"
def u2Label : Bytes := ascii "SAE Hash to Element u2 P2"

/-- `sae_h2e_compute_pt` (1375-1475).  The identifier is `none` for a NULL
pointer, in which case it is not appended (1408-1411). -/
def computePt (h : Prims) (c : Ctx) (pw : Bytes) (ident : Option Bytes) (ssid : Bytes) :
    Option Ctx :=
  let id := ident.getD []
  if pw.length + id.length > 128 then none
  else
    let ht := c.grp.hashType
    if hashLen ht = 0 then none
    else if c.grp.fieldLen = 0 ∨ c.grp.fieldLen > 128 then none
    else
      let prk := h.extract ht ssid (pw ++ id)
      let u1 := be (h.expand ht prk u1Label c.grp.fieldLen) % c.cv.p
      let u2 := be (h.expand ht prk u2Label c.grp.fieldLen) % c.cv.p
      (sswuZ c.grp.groupId c.cv.p).bind fun z =>
      (sswuMap u1 c.cv.a c.cv.b c.cv.p z).bind fun P1 =>
      (sswuMap u2 c.cv.a c.cv.b c.cv.p z).bind fun P2 =>
      (ecAdd (affine P1.1 P1.2) (affine P2.1 P2.2) c.cv.a c.cv.p).bind fun pt =>
      if pt.isId then none
      else some { c with ptX := pt.x, ptY := pt.y, havePt := true }

/-- `val` of `sae_compute_pwe_h2e` (1514-1532). -/
def h2eVal (h : Prims) (c : Ctx) (macA macB : Bytes) : Nat :=
  be (h.hmac c.grp.hashType (List.replicate (hashLen c.grp.hashType) 0) (macConcat macA macB))
    % (c.cv.q - 1) + 1

/-- `sae_compute_pwe_h2e` (1493-1559). -/
def computePweH2e (h : Prims) (c : Ctx) (macA macB : Bytes) : Option Ctx :=
  if !c.havePt then none
  else if hashLen c.grp.hashType = 0 then none
  else
    (ecMul (h2eVal h c macA macB) (affine c.ptX c.ptY) c.cv.a c.cv.p).map fun P =>
    { c with pweX := P.x, pweY := P.y, havePwe := true }

end Wolf.Sae
