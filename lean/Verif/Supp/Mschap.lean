import Verif.Supp.Frame

/-!
# MSCHAPv2 messages and computations (C90)

Model of `src/supplicant/eap_peap.c` (the messages inside the PEAP tunnel) and of
`src/supplicant/mschapv2.c` (the NT response, the authenticator response and the keys).  The hash
functions and the block cipher are parameters; a failing SHA-1 or DES call is `none`.  Reads are
bounds-checked (`ld`, `sl`), so a result that is never `oob` is memory safety.
-/

namespace Wolf.Supp

/-- The primitives used by mschapv2.c, with the lengths of what they return. -/
structure Prims where
  /-- `wc_InitSha` / `wc_ShaUpdate` / `wc_ShaFinal` over the concatenation -/
  sha : Bytes → Option Bytes
  /-- `wc_InitMd4` / `wc_Md4Update` / `wc_Md4Final` (void in wolfSSL) -/
  md4 : Bytes → Bytes
  /-- one block of DES under an 8-byte key -/
  des : Bytes → Bytes → Option Bytes
  sha_len : ∀ m d, sha m = some d → d.length = 20
  sha_bytes : ∀ m d, sha m = some d → ∀ x ∈ d, x < 256
  md4_len : ∀ m, (md4 m).length = 16
  md4_bytes : ∀ m, ∀ x ∈ md4 m, x < 256
  des_len : ∀ k b c, des k b = some c → c.length = 8

/-! ## Messages -/

/-- `struct mschapv2_challenge_view`, eap_peap.h 38-44. -/
structure Chal where
  id : Nat
  msLen : Nat
  auth : Bytes
  server : Bytes
  deriving DecidableEq, Repr

/-- `eap_peap_parse_mschapv2_challenge`, eap_peap.c 33-60.  `PEAP_MS_CHALLENGE_MIN_LEN` is 22,
`EAP_TYPE_MSCHAPV2` is 26, `MSCHAPV2_OP_CHALLENGE` is 1. -/
def parseChal (b : Bytes) : M Chal := do
  need (22 ≤ b.length)
  let t ← ld b 0
  need (t = 26)
  let op ← ld b 1
  need (op = 1)
  let id ← ld b 2
  let ms ← rd16 b 3
  need (ms ≤ b.length - 1)
  let vs ← ld b 5
  need (vs = 16)
  let ch ← sl b 6 16
  let name ← sl b 22 (b.length - 22)
  return ⟨id, ms, ch, name⟩

/-- `eap_peap_build_mschapv2_response`, eap_peap.c 65-103, into a buffer of `cap` bytes. -/
def buildResp (cap id : Nat) (peer nt user : Bytes) : Option Bytes :=
  let total := 55 + user.length
  if total > cap ∨ total > 65535 then none
  else some ([26, 2, id] ++ wr16 (total - 1) ++ [49] ++ peer ++ List.replicate 8 0 ++ nt ++ [0] ++
    user)

/-- `eap_peap_build_mschapv2_ack`, eap_peap.c 106-116. -/
def buildAck (cap : Nat) : Option Bytes := if cap < 2 then none else some [26, 3]

/-- The scan loop of `eap_peap_extract_authresp`, eap_peap.c 127-132; `n` bounds the iterations. -/
def scanAuth (b : Bytes) : Nat → Nat → M Bytes
  | 0, _ => .error .reject
  | n + 1, i =>
    if i + 42 ≤ b.length then do
      let x ← ld b i
      if x = 83 then do
        let y ← ld b (i + 1)
        if y = 61 then sl b i 42 else scanAuth b n (i + 1)
      else scanAuth b n (i + 1)
    else .error .reject

/-- `eap_peap_extract_authresp`, eap_peap.c 120-134.  `MSCHAPV2_OP_SUCCESS` is 3. -/
def extractAuth (b : Bytes) : M Bytes := do
  need (6 ≤ b.length)
  let t ← ld b 0
  let op ← ld b 1
  need (t = 26 ∧ op = 3)
  scanAuth b b.length 5

/-! ## Computations -/

/-- `password_to_utf16le`, mschapv2.c 115-126 (the 256-byte buffer is never too small for a password
`mschapv2_nt_password_hash` admits). -/
def utf16 : Bytes → Bytes
  | [] => []
  | c :: cs => c :: 0 :: utf16 cs

/-- `mschapv2_nt_password_hash`, mschapv2.c 128-146. -/
def ntHash (P : Prims) (pw : Bytes) : Option Bytes :=
  if pw.length = 0 ∨ pw.length > 127 then none
  else if pw.length * 2 > 256 ∨ pw.length * 2 = 0 then none
  else some (P.md4 (utf16 pw))

/-- `challenge_hash`, mschapv2.c 149-173. -/
def chalHash (P : Prims) (peer auth user : Bytes) : Option Bytes :=
  match P.sha (peer ++ auth ++ user) with
  | none => none
  | some d => some (d.take 8)

/-- `des_key_setup_parity`, mschapv2.c 84-96; a byte past the end reads as 0 (the callers pass seven
bytes). -/
def desKey (k : Bytes) : Bytes :=
  let g i := k.getD i 0
  [g 0 &&& 254,
   ((g 0 <<< 7) ||| (g 1 >>> 1)) &&& 254,
   ((g 1 <<< 6) ||| (g 2 >>> 2)) &&& 254,
   ((g 2 <<< 5) ||| (g 3 >>> 3)) &&& 254,
   ((g 3 <<< 4) ||| (g 4 >>> 4)) &&& 254,
   ((g 4 <<< 3) ||| (g 5 >>> 5)) &&& 254,
   ((g 5 <<< 2) ||| (g 6 >>> 6)) &&& 254,
   (g 6 <<< 1) &&& 254]

/-- The loop of `challenge_response`, mschapv2.c 189-199: `n` sub-keys from number `i` on. -/
def desLoop (P : Prims) (chal z : Bytes) : Nat → Nat → Option Bytes
  | 0, _ => some []
  | n + 1, i =>
    match P.des (desKey ((z.drop (i * 7)).take 7)) chal with
    | none => none
    | some c =>
      match desLoop P chal z n (i + 1) with
      | none => none
      | some r => some (c ++ r)

/-- `challenge_response`, mschapv2.c 178-203. -/
def chalResp (P : Prims) (chal nt : Bytes) : Option Bytes :=
  desLoop P chal (nt ++ List.replicate 5 0) 3 0

/-- `mschapv2_generate_nt_response`, mschapv2.c 205-227. -/
def genNt (P : Prims) (auth peer user pw : Bytes) : Option Bytes :=
  match chalHash P peer auth user with
  | none => none
  | some chal =>
    match ntHash P pw with
    | none => none
    | some h => chalResp P chal h

/-- `MAGIC1`, mschapv2.c 27-32. -/
def magic1 : Bytes := [
  0x4D, 0x61, 0x67, 0x69, 0x63, 0x20, 0x73, 0x65, 0x72, 0x76, 0x65, 0x72, 0x20, 0x74, 0x6F, 0x20,
  0x63, 0x6C, 0x69, 0x65, 0x6E, 0x74, 0x20, 0x73, 0x69, 0x67, 0x6E, 0x69, 0x6E, 0x67, 0x20, 0x63,
  0x6F, 0x6E, 0x73, 0x74, 0x61, 0x6E, 0x74]

/-- `MAGIC2`, mschapv2.c 33-38. -/
def magic2 : Bytes := [
  0x50, 0x61, 0x64, 0x20, 0x74, 0x6F, 0x20, 0x6D, 0x61, 0x6B, 0x65, 0x20, 0x69, 0x74, 0x20, 0x64,
  0x6F, 0x20, 0x6D, 0x6F, 0x72, 0x65, 0x20, 0x74, 0x68, 0x61, 0x6E, 0x20, 0x6F, 0x6E, 0x65, 0x20,
  0x69, 0x74, 0x65, 0x72, 0x61, 0x74, 0x69, 0x6F, 0x6E]

/-- `MAGIC_MASTER_KEY`, mschapv2.c 40-44. -/
def magicKey : Bytes := [
  0x54, 0x68, 0x69, 0x73, 0x20, 0x69, 0x73, 0x20, 0x74, 0x68, 0x65, 0x20, 0x4D, 0x50, 0x50, 0x45,
  0x20, 0x4D, 0x61, 0x73, 0x74, 0x65, 0x72, 0x20, 0x4B, 0x65, 0x79]

/-- `MAGIC_CLIENT_SEND`, mschapv2.c 47-55. -/
def magicSend : Bytes := [
  0x4F, 0x6E, 0x20, 0x74, 0x68, 0x65, 0x20, 0x63, 0x6C, 0x69, 0x65, 0x6E, 0x74, 0x20, 0x73, 0x69,
  0x64, 0x65, 0x2C, 0x20, 0x74, 0x68, 0x69, 0x73, 0x20, 0x69, 0x73, 0x20, 0x74, 0x68, 0x65, 0x20,
  0x73, 0x65, 0x6E, 0x64, 0x20, 0x6B, 0x65, 0x79, 0x3B, 0x20, 0x6F, 0x6E, 0x20, 0x74, 0x68, 0x65,
  0x20, 0x73, 0x65, 0x72, 0x76, 0x65, 0x72, 0x20, 0x73, 0x69, 0x64, 0x65, 0x2C, 0x20, 0x69, 0x74,
  0x20, 0x69, 0x73, 0x20, 0x74, 0x68, 0x65, 0x20, 0x72, 0x65, 0x63, 0x65, 0x69, 0x76, 0x65, 0x20,
  0x6B, 0x65, 0x79, 0x2E]

/-- `MAGIC_CLIENT_RECV`, mschapv2.c 56-64. -/
def magicRecv : Bytes := [
  0x4F, 0x6E, 0x20, 0x74, 0x68, 0x65, 0x20, 0x63, 0x6C, 0x69, 0x65, 0x6E, 0x74, 0x20, 0x73, 0x69,
  0x64, 0x65, 0x2C, 0x20, 0x74, 0x68, 0x69, 0x73, 0x20, 0x69, 0x73, 0x20, 0x74, 0x68, 0x65, 0x20,
  0x72, 0x65, 0x63, 0x65, 0x69, 0x76, 0x65, 0x20, 0x6B, 0x65, 0x79, 0x3B, 0x20, 0x6F, 0x6E, 0x20,
  0x74, 0x68, 0x65, 0x20, 0x73, 0x65, 0x72, 0x76, 0x65, 0x72, 0x20, 0x73, 0x69, 0x64, 0x65, 0x2C,
  0x20, 0x69, 0x74, 0x20, 0x69, 0x73, 0x20, 0x74, 0x68, 0x65, 0x20, 0x73, 0x65, 0x6E, 0x64, 0x20,
  0x6B, 0x65, 0x79, 0x2E]

/-- `hex[n]`, mschapv2.c 249. -/
def hexDigit (n : Nat) : Nat := if n < 10 then 48 + n else 55 + n

/-- mschapv2.c 293-296: two digits per digest byte. -/
def hexLoop : Bytes → Bytes
  | [] => []
  | d :: ds => hexDigit ((d >>> 4) &&& 15) :: hexDigit (d &&& 15) :: hexLoop ds

/-- mschapv2.c 310-313: the accumulated difference of `n` bytes from position `i`. -/
def diffLoop (a b : Bytes) : Nat → Nat → Nat → Nat
  | 0, _, acc => acc
  | n + 1, i, acc => diffLoop a b n (i + 1) (acc ||| (a.getD i 0 ^^^ b.getD i 0))

/-- The expected response, mschapv2.c 262-297. -/
def expected (P : Prims) (pw nt peer auth user : Bytes) : Option Bytes :=
  match ntHash P pw with
  | none => none
  | some h =>
    match P.sha (P.md4 h ++ nt ++ magic1) with
    | none => none
    | some d =>
      match chalHash P peer auth user with
      | none => none
      | some chal =>
        match P.sha (d ++ chal ++ magic2) with
        | none => none
        | some d2 => some (83 :: 61 :: hexLoop d2)

/-- `mschapv2_verify_authenticator_response`, mschapv2.c 232-329. -/
def verify (P : Prims) (pw nt peer auth user resp : Bytes) : Bool :=
  if resp.length < 42 then false
  else match expected P pw nt peer auth user with
    | none => false
    | some e => decide (diffLoop resp e 42 0 0 = 0)

/-- `SHS_PAD1`, `SHS_PAD2` and `get_asymmetric_start_key`, mschapv2.c 66-79, 333-356. -/
def startKey (P : Prims) (master magic : Bytes) : Option Bytes :=
  match P.sha (master ++ List.replicate 40 0 ++ magic ++ List.replicate 40 0xF2) with
  | none => none
  | some d => some (d.take 16)

/-- `mschapv2_derive_msk`, mschapv2.c 360-415. -/
def deriveMsk (P : Prims) (pw nt : Bytes) : Option Bytes :=
  match ntHash P pw with
  | none => none
  | some h =>
    match P.sha (P.md4 h ++ nt ++ magicKey) with
    | none => none
    | some d =>
      match startKey P (d.take 16) magicSend with
      | none => none
      | some snd =>
        match startKey P (d.take 16) magicRecv with
        | none => none
        | some rcv => some (rcv ++ snd ++ List.replicate 32 0)

/-! ## Specification: RFC 2759 and RFC 3079 -/

/-- The codes of a text. -/
def ascii (s : String) : Bytes := s.toList.map Char.toNat

/-- A well-formed MSCHAPv2 challenge: type, op-code, identifier, length, value-size 16, the
challenge, the server's name; the length field does not exceed what follows the type byte. -/
def ChalMsg (b : Bytes) (c : Chal) : Prop :=
  ∃ hi lo, b = [26, 1, c.id, hi, lo, 16] ++ c.auth ++ c.server ∧ c.auth.length = 16 ∧
    c.msLen = hi * 256 + lo ∧ c.msLen ≤ 5 + 16 + c.server.length

/-- How a server reads a response: identifier, peer challenge, NT response, user name. -/
def readResp (b : Bytes) : Option (Nat × Bytes × Bytes × Bytes) :=
  match b with
  | t :: op :: id :: hi :: lo :: vs :: r =>
    if t = 26 ∧ op = 2 ∧ vs = 49 ∧ hi * 256 + lo = 5 + r.length ∧ 49 ≤ r.length ∧ r.getD 48 0 = 0 ∧
        (r.drop 16).take 8 = List.replicate 8 0 then
      some (id, r.take 16, (r.drop 24).take 24, r.drop 49)
    else none
  | _ => none

/-- UTF-16LE of a text of characters below 256, as RFC 2759 hashes a password. -/
def utf16le (pw : Bytes) : Bytes := pw.flatMap (fun c => [c, 0])

/-- The 56 bits of seven bytes as a number. -/
def bits56 (k : Bytes) : Nat := k.foldl (fun a x => a * 256 + x) 0

/-- The eight-byte DES key of 56 bits: seven bits per byte, most significant first, above a zero
parity bit. -/
def spread56 (v : Nat) : Bytes := (List.range 8).map (fun i => 2 * (v / 2 ^ (49 - 7 * i) % 128))

/-- RFC 2759 8.2, ChallengeHash. -/
def ChallengeHash (P : Prims) (peer auth user : Bytes) : Option Bytes :=
  (P.sha (peer ++ auth ++ user)).map (·.take 8)

/-- RFC 2759 8.3, NtPasswordHash. -/
def NtPasswordHash (P : Prims) (pw : Bytes) : Bytes := P.md4 (utf16le pw)

/-- RFC 2759 8.5, ChallengeResponse: the hash padded with zeros to 21 bytes gives three keys. -/
def ChallengeResponse (P : Prims) (chal h : Bytes) : Option Bytes :=
  let z := h ++ List.replicate 5 0
  (P.des (spread56 (bits56 (z.take 7))) chal).bind fun a =>
  (P.des (spread56 (bits56 ((z.drop 7).take 7))) chal).bind fun b =>
  (P.des (spread56 (bits56 (z.drop 14))) chal).map fun c => a ++ b ++ c

/-- RFC 2759 8.1, GenerateNTResponse. -/
def GenerateNTResponse (P : Prims) (auth peer user pw : Bytes) : Option Bytes :=
  (ChallengeHash P peer auth user).bind fun c => ChallengeResponse P c (NtPasswordHash P pw)

/-- A byte in two upper-case hexadecimal digits. -/
def hex2 (x : Nat) : Bytes :=
  [(ascii "0123456789ABCDEF").getD (x / 16) 0, (ascii "0123456789ABCDEF").getD (x % 16) 0]

/-- RFC 2759 8.7, GenerateAuthenticatorResponse. -/
def GenerateAuthenticatorResponse (P : Prims) (pw nt peer auth user : Bytes) : Option Bytes :=
  (P.sha (P.md4 (NtPasswordHash P pw) ++ nt ++
      ascii "Magic server to client signing constant")).bind fun d =>
  (ChallengeHash P peer auth user).bind fun c =>
  (P.sha (d ++ c ++ ascii "Pad to make it do more than one iteration")).map fun d2 =>
    ascii "S=" ++ d2.flatMap hex2

/-- RFC 3079 3.4: the start key for one direction. -/
def StartKey (P : Prims) (master magic : Bytes) : Option Bytes :=
  (P.sha (master ++ List.replicate 40 0 ++ magic ++ List.replicate 40 242)).map (·.take 16)

/-- RFC 3079 and the EAP binding: the client's receive key, its send key, 32 zeros. -/
def Msk (P : Prims) (pw nt : Bytes) : Option Bytes :=
  (P.sha (P.md4 (NtPasswordHash P pw) ++ nt ++ ascii "This is the MPPE Master Key")).bind fun d =>
  (StartKey P (d.take 16) (ascii
    "On the client side, this is the send key; on the server side, it is the receive key.")).bind
    fun s =>
  (StartKey P (d.take 16) (ascii
    "On the client side, this is the receive key; on the server side, it is the send key.")).map
    fun r => r ++ s ++ List.replicate 32 0

end Wolf.Supp
