import Verif.Supp.Steps

/-!
# The WPA key-derivation and integrity primitives (C97)

Model of `src/supplicant/wpa_crypto.c`.  The wolfCrypt calls (`Wc`) are
arbitrary functions that may fail; what the file builds from them (the 802.11
PRF and KDF, the ordering of the addresses and nonces, the split of the PTK,
AES-CMAC from single-block AES, the comparison of the MIC) is modelled line by
line and related to the formulas of IEEE 802.11-2020 and RFC 4493.
-/

namespace Wolf.Supp

/-- The wolfCrypt calls of wpa_crypto.c; `none` is an error return. -/
structure Wc where
  /-- `hmac_oneshot` (86-107) with `WC_SHA` (`false`) or `WC_SHA256` (`true`): the HMAC of the
  concatenated segments. -/
  hmac : Bool → Bytes → Bytes → Option Bytes
  /-- `wpa_aes_ecb_block` (382-391): AES-128 of one block (CBC with a zero IV). -/
  aes : Bytes → Bytes → Option Bytes
  /-- `wc_AesKeyUnWrap`. -/
  unwrap : Bytes → Bytes → Option Bytes
  /-- `wc_PBKDF2` with 4096 iterations of HMAC-SHA1 and 32 bytes of output. -/
  pbkdf2 : Bytes → Bytes → Option Bytes
  /-- `wc_Sha256Hash`. -/
  sha256 : Bytes → Option Bytes

/-- The digest sizes, `WC_SHA_DIGEST_SIZE` and `WC_SHA256_DIGEST_SIZE`. -/
def digestLen (h256 : Bool) : Nat := if h256 then 32 else 20

/-- What the theorems use of wolfCrypt: the output sizes, and that outputs are octets. -/
structure Wc.Good (w : Wc) : Prop where
  hmac_len : ∀ b k m d, w.hmac b k m = some d → d.length = digestLen b
  aes_len : ∀ k x y, w.aes k x = some y → y.length = 16
  aes_oct : ∀ k x y, w.aes k x = some y → ∀ o ∈ y, o < 256
  unwrap_len : ∀ k d p, w.unwrap k d = some p → p.length + 8 = d.length

/-! ## The model -/

/-- `wpa_const_compare`, wpa_crypto.c 40-48. -/
def constCompare (a b : Bytes) (n : Nat) : Nat :=
  (List.range n).foldl (fun d i => d ||| (a.getD i 0 ^^^ b.getD i 0)) 0

/-- `bytes_min_max`, wpa_crypto.c 58-70: `memcmp(a, b) < 0` is `memGt b a`. -/
def minMax (a b : Bytes) : Bytes × Bytes := if memGt b a then (a, b) else (b, a)

/-- The octets of `WPA_PTK_LABEL`, wpa_crypto.c 51. -/
def ptkLabel : Bytes := "Pairwise key expansion".toList.map (fun c => c.toNat)

/-- The loop of `wpa_prf_sha1`, wpa_crypto.c 163-196; `counter` is a `uint8_t`.  Every round
appends at least one octet, so `fuel = out_len` rounds are enough. -/
def prfLoop (w : Wc) (key label data : Bytes) (outLen : Nat) : Nat → Nat → Bytes → Option Bytes
  | 0, _, out => some out
  | fuel + 1, counter, out =>
    if out.length < outLen then
      match w.hmac false key (label ++ [0] ++ data ++ [counter]) with
      | none => none
      | some digest =>
        let copyLen := outLen - out.length
        let copyLen := if copyLen > 20 then 20 else copyLen
        prfLoop w key label data outLen fuel ((counter + 1) % 256) (out ++ digest.take copyLen)
    else some out

/-- `wpa_prf_sha1`, wpa_crypto.c 132-200. -/
def prfSha1 (w : Wc) (key label data : Bytes) (outLen : Nat) : Option Bytes :=
  if outLen = 0 then some []
  else if outLen > 256 * 20 then none
  else prfLoop w key label data outLen outLen 0 []

/-- The loop of `wpa_kdf_sha256`, wpa_crypto.c 264-292; `counter` is a `uint16_t`. -/
def kdfLoop (w : Wc) (key label data : Bytes) (bits outLen : Nat) :
    Nat → Nat → Bytes → Option Bytes
  | 0, _, out => some out
  | fuel + 1, counter, out =>
    if out.length < outLen then
      match w.hmac true key ([counter % 256, counter / 256 % 256] ++ label ++ data ++
          [bits % 256, bits / 256 % 256]) with
      | none => none
      | some digest =>
        let take := outLen - out.length
        let take := if take > 32 then 32 else take
        kdfLoop w key label data bits outLen fuel ((counter + 1) % 65536) (out ++ digest.take take)
    else some out

/-- `wpa_kdf_sha256`, wpa_crypto.c 247-295. -/
def kdfSha256 (w : Wc) (key label data : Bytes) (bits : Nat) : Option Bytes :=
  kdfLoop w key label data bits ((bits + 7) / 8) ((bits + 7) / 8) 1 []

/-- The PRF input, wpa_crypto.c 217-220 and 312-315. -/
def ptkData (aa sa anonce snonce : Bytes) : Bytes :=
  let m := minMax aa sa
  let n := minMax anonce snonce
  m.1 ++ m.2 ++ n.1 ++ n.2

/-- The three keys, wpa_crypto.c 232-234 and 326-328. -/
def splitPtk (b : Bytes) : Ptk := ⟨b.take 16, (b.drop 16).take 16, (b.drop 32).take 16⟩

/-- `wpa_ptk_derive` (202-239) and `wpa_ptk_derive_sha256` (297-333). -/
def ptkDerive (w : Wc) (h256 : Bool) (pmk aa sa anonce snonce : Bytes) : Option Ptk :=
  if h256 then
    (kdfSha256 w pmk ptkLabel (ptkData aa sa anonce snonce) (48 * 8)).map splitPtk
  else (prfSha1 w pmk ptkLabel (ptkData aa sa anonce snonce) 48).map splitPtk

/-- `wpa_eapol_mic`, wpa_crypto.c 335-361. -/
def micSha1 (w : Wc) (kck frame : Bytes) : Option Bytes :=
  (w.hmac false kck frame).map (fun d => d.take 16)

/-- `wpa_cmac_lshift`, wpa_crypto.c 393-403: the loop runs from the last octet to the first,
handing the carry on; the result is the carry out of the first octet and the shifted block. -/
def lshiftGo : Bytes → Nat × Bytes
  | [] => (0, [])
  | b :: r =>
    let (carry, out) := lshiftGo r
    ((b / 128) % 2, (b * 2 % 256 ||| carry) :: out)

def lshift (b : Bytes) : Bytes := (lshiftGo b).2

/-- `wpa_cmac_xor16`, wpa_crypto.c 405-413, on two 16-octet blocks. -/
def xor16 (a b : Bytes) : Bytes := List.zipWith (fun x y => x ^^^ y) a b

/-- `Rb`, wpa_crypto.c 424-425. -/
def rb : Bytes := zeros 15 ++ [0x87]

/-- A subkey from the previous value, wpa_crypto.c 446-449. -/
def subkey (l : Bytes) : Bytes :=
  if (l.getD 0 0).testBit 7 then xor16 (lshift l) rb else lshift l

/-- The last block, wpa_crypto.c 452-475.  The reads of the frame are checked. -/
def lastBlock (k1 k2 frame : Bytes) (n : Nat) (complete : Bool) : M Bytes :=
  if complete then do
    let b ← sl frame (16 * (n - 1)) 16
    return xor16 b k1
  else do
    let rem := frame.length - 16 * (n - 1)
    let b ← sl frame (16 * (n - 1)) rem
    if rem < 16 then return xor16 (b ++ 0x80 :: zeros (15 - rem)) k2
    else .error .oob

/-- An error return of wolfCrypt. -/
def wc {α : Type} : Option α → M α
  | some a => .ok a
  | none => .error .reject

/-- The CBC-MAC loop, wpa_crypto.c 479-483, over the block numbers `is`. -/
def cmacLoop (w : Wc) (kck frame : Bytes) : List Nat → Bytes → M Bytes
  | [], x => .ok x
  | i :: is, x => do
    let b ← sl frame (16 * i) 16
    let x ← wc (w.aes kck (xor16 x b))
    cmacLoop w kck frame is x

/-- `wpa_eapol_mic_aes_cmac`, wpa_crypto.c 415-503. -/
def micCmac (w : Wc) (kck frame : Bytes) : M Bytes := do
  let l ← wc (w.aes kck (zeros 16))
  let k1 := subkey l
  let k2 := subkey k1
  let n := if frame.length = 0 then 1 else (frame.length + 15) / 16
  let complete := if frame.length = 0 then false else decide (frame.length % 16 = 0)
  let last ← lastBlock k1 k2 frame n complete
  let x ← cmacLoop w kck frame (List.range (n - 1)) (zeros 16)
  let x ← wc (w.aes kck (xor16 x last))
  return x.take 16

/-- The two MIC functions as `supp_mic` selects them (supplicant.c 113-120). -/
def micOf (w : Wc) (cmac : Bool) (kck frame : Bytes) : M Bytes :=
  if cmac then micCmac w kck frame else wc (micSha1 w kck frame)

/-- `wpa_eapol_mic_verify` (363-380) and `wpa_eapol_mic_aes_cmac_verify` (505-523): is 0
returned? -/
def micVerify (w : Wc) (cmac : Bool) (kck frame expected : Bytes) : Bool :=
  match micOf w cmac kck frame with
  | .ok m => constCompare m expected 16 == 0
  | .error _ => false

/-- `wpa_aes_keyunwrap`, wpa_crypto.c 547-568. -/
def keyUnwrap (w : Wc) (kek d : Bytes) : Option Bytes :=
  if d.length % 8 ≠ 0 ∨ d.length < 24 then none else w.unwrap kek d

/-- `wpa_pmk_from_passphrase`, wpa_crypto.c 109-130. -/
def pmkFromPass (w : Wc) (p ssid : Bytes) : Option Bytes :=
  if p.length < 8 ∨ p.length > 63 then none
  else if ssid.length < 1 ∨ ssid.length > 32 then none
  else w.pbkdf2 p ssid

/-! ## The specification -/

/-- IEEE 802.11-2020 12.7.1.2: `PRF-Length(K, A, B)`, for a whole number of octets. -/
def prfSpec (f : Bytes → Bytes → Bytes) (k a b : Bytes) (len : Nat) : Bytes :=
  ((List.range ((len + 19) / 20)).flatMap (fun i => f k (a ++ [0] ++ b ++ [i]))).take len

/-- IEEE 802.11-2020 12.7.1.6.2: `KDF-Hash-Length(key, label, context)` with 32-octet digests, the
counter and the length as 16-bit little-endian fields, for a whole number of octets. -/
def kdfSpec256 (f : Bytes → Bytes → Bytes) (k label ctx : Bytes) (bits : Nat) : Bytes :=
  ((List.range ((bits / 8 + 31) / 32)).flatMap (fun i =>
    f k ([(i + 1) % 256, (i + 1) / 256] ++ label ++ ctx ++ [bits % 256, bits / 256]))).take (bits / 8)

/-- The smaller and the larger of two octet strings of equal length, as numbers. -/
def lo (a b : Bytes) : Bytes := if be a ≤ be b then a else b
def hi (a b : Bytes) : Bytes := if be a ≤ be b then b else a

/-- 12.7.1.3: the context of the pairwise key expansion. -/
def ptkContext (aa spa anonce snonce : Bytes) : Bytes :=
  lo aa spa ++ hi aa spa ++ lo anonce snonce ++ hi anonce snonce

/-- Doubling in GF(2^128) (RFC 4493 2.3): shift left and reduce. -/
def gdbl (n : Nat) : Nat := (2 * n % 2 ^ 128) ^^^ (if 2 ^ 127 ≤ n then 0x87 else 0)

/-- RFC 4493 2.4 on a message, with the block cipher `e` and the two subkeys: the last block (of at
most 16 octets) is masked, the others are chained. -/
def cmacSpec (e : Bytes → Bytes) (k1 k2 : Bytes) (x m : Bytes) : Bytes :=
  if m.length < 16 then
    e (xor16 x (xor16 (m ++ 0x80 :: zeros (15 - m.length)) k2))
  else if m.length = 16 then e (xor16 x (xor16 m k1))
  else cmacSpec e k1 k2 (e (xor16 x (m.take 16))) (m.drop 16)
termination_by m.length
decreasing_by rw [List.length_drop]; omega

/-- `Oct n b`: `n` octets. -/
def Oct (n : Nat) (b : Bytes) : Prop := b.length = n ∧ ∀ x ∈ b, x < 256

end Wolf.Supp
