/-!
# WireGuard: the Noise handshake and the transport messages

Model of `src/wolfguard/wg_noise.c` (with the key material, which `Wg/Device` leaves out), of
`src/wolfguard/wg_crypto.c` (nonce, KDF, time stamp, comparison) and of the message formats of
`src/wolfguard/wg_packet.c`.  SHA-256, HMAC, AES-GCM and ECDH are arbitrary functions; every call of
one of them may also fail.
-/

namespace Wolf.Wg.Noise

abbrev Bytes := List Nat

/-- The wolfCrypt primitives. -/
structure Prim where
  /-- `wg_hash` / `wg_hash2` (of the concatenation), wg_crypto.c 297-347. -/
  hash : Bytes → Bytes
  /-- `wg_hmac`, wg_crypto.c 372-398: key, input. -/
  hmac : Bytes → Bytes → Bytes
  /-- AES-256-GCM: key, IV, plaintext, additional data; ciphertext followed by the tag. -/
  enc : Bytes → Bytes → Bytes → Bytes → Bytes
  /-- `none`: the tag does not verify. -/
  dec : Bytes → Bytes → Bytes → Bytes → Option Bytes
  /-- `wg_dh`, wg_crypto.c 54-100: private, public; `none` if the public key is not a point. -/
  dh : Bytes → Bytes → Option Bytes
  /-- The public key of a private key (`wg_dh_generate`, `wg_pubkey_from_private`). -/
  pub : Bytes → Bytes

/-- What the theorems use of them: the sizes, that decryption inverts encryption and accepts nothing
else, and that the two ends of a Diffie-Hellman exchange agree. -/
structure Prim.Good (P : Prim) : Prop where
  hash_len : ∀ x, (P.hash x).length = 32
  hmac_len : ∀ k x, (P.hmac k x).length = 32
  enc_len : ∀ k n p a, (P.enc k n p a).length = p.length + 16
  dec_enc : ∀ k n p a, P.dec k n (P.enc k n p a) a = some p
  dec_only : ∀ k n c a p, P.dec k n c a = some p → c = P.enc k n p a
  dh_comm : ∀ a b, P.dh a (P.pub b) = P.dh b (P.pub a)

/-- A call of a primitive: it may fail.  `ok n` says whether the `n`-th call of the function
succeeds. -/
def call {α : Type} (ok : Nat → Bool) (n : Nat) (x : α) : Option α := if ok n then some x else none

/-! ## wg_crypto.c -/

/-- `wg_aead_make_nonce`, wg_crypto.c 148-160. -/
def mkNonce (c : Nat) : Bytes :=
  [0, 0, 0, 0, c % 256, c / 2 ^ 8 % 256, c / 2 ^ 16 % 256, c / 2 ^ 24 % 256, c / 2 ^ 32 % 256,
    c / 2 ^ 40 % 256, c / 2 ^ 48 % 256, c / 2 ^ 56 % 256, 0, 0, 0, 0]

/-- `wg_aead_decrypt`, wg_crypto.c 192-224: too short a message is refused. -/
def aeadDec (P : Prim) (k : Bytes) (ctr : Nat) (c aad : Bytes) : Option Bytes :=
  if c.length < 16 then none else P.dec k (mkNonce ctr) c aad

/-- `wg_aead_encrypt`, wg_crypto.c 162-190. -/
def aeadEnc (P : Prim) (k : Bytes) (ctr : Nat) (p aad : Bytes) : Bytes := P.enc k (mkNonce ctr) p aad

/-- `wg_kdf1`, wg_crypto.c 410-428. -/
def kdf1 (P : Prim) (key input : Bytes) : Bytes :=
  let prk := P.hmac key input
  P.hmac prk [1]

/-- `wg_kdf2`, wg_crypto.c 430-459. -/
def kdf2 (P : Prim) (key input : Bytes) : Bytes × Bytes :=
  let prk := P.hmac key input
  let t1 := P.hmac prk [1]
  let t2 := P.hmac prk (t1 ++ [2])
  (t1, t2)

/-- `wg_kdf3`, wg_crypto.c 461-497. -/
def kdf3 (P : Prim) (key input : Bytes) : Bytes × Bytes × Bytes :=
  let prk := P.hmac key input
  let t1 := P.hmac prk [1]
  let t2 := P.hmac prk (t1 ++ [2])
  let t3 := P.hmac prk (t2 ++ [3])
  (t1, t2, t3)

/-- `wg_timestamp_now`, wg_crypto.c 514-536; `nowMs` is a `uint64_t`. -/
def timestamp (nowMs : Nat) : Bytes :=
  let secs := nowMs / 1000
  let nsec := nowMs % 1000 * 1000000 % 2 ^ 32
  let tai := (0x400000000000000a + secs) % 2 ^ 64
  [tai / 2 ^ 56 % 256, tai / 2 ^ 48 % 256, tai / 2 ^ 40 % 256, tai / 2 ^ 32 % 256,
    tai / 2 ^ 24 % 256, tai / 2 ^ 16 % 256, tai / 2 ^ 8 % 256, tai % 256,
    nsec / 2 ^ 24 % 256, nsec / 2 ^ 16 % 256, nsec / 2 ^ 8 % 256, nsec % 256]

/-- `wg_memcmp`, wg_crypto.c 547-556: 0 if the first `n` octets are equal. -/
def differs (a b : Bytes) (n : Nat) : Bool :=
  (List.range n).foldl (fun d i => d ||| (a.getD i 0 ^^^ b.getD i 0)) 0 != 0

/-- `memcmp(a, b) <= 0` for two buffers of the same length. -/
def memLe : Bytes → Bytes → Bool
  | a :: as, b :: bs => decide (a < b) || (decide (a = b) && memLe as bs)
  | _, _ => true

/-! ## wg_noise.c -/

/-- The octets of `WG_CONSTRUCTION` and `WG_IDENTIFIER`, wolfguard.h 155-156. -/
def construction : Bytes := "Noise_IKpsk2_SECP256R1_AesGcm_SHA256".toList.map (fun c => c.toNat)
def identifier : Bytes := "WolfGuard v1 info@wolfssl.com".toList.map (fun c => c.toNat)

/-- `enum wg_handshake_state`, wolfguard.h 206-212. -/
inductive St where
  | zeroed | createdInit | consumedInit | createdResp | consumedResp
  deriving DecidableEq, Repr

/-- `struct wg_handshake`, wolfguard.h 214-225. -/
structure Hs where
  st : St
  ephPriv : Bytes
  remStatic : Bytes
  remEph : Bytes
  ss : Bytes
  psk : Bytes
  hash : Bytes
  ck : Bytes
  remIdx : Nat
  locIdx : Nat
  deriving DecidableEq, Repr

def zeros (n : Nat) : Bytes := List.replicate n 0

/-- `memset(hs, 0)`. -/
def Hs.zero : Hs := ⟨.zeroed, zeros 32, zeros 65, zeros 65, zeros 32, zeros 32, zeros 32, zeros 32, 0, 0⟩

/-- The part of `struct wg_peer` the handshake uses. -/
structure Peer where
  pubKey : Bytes
  hs : Hs
  latest : Bytes
  lastInit : Nat
  active : Bool
  deriving DecidableEq, Repr

/-- The part of `struct wg_device` the handshake uses. -/
structure Dev where
  priv : Bytes
  pubKey : Bytes
  peers : List Peer
  now : Nat
  deriving DecidableEq, Repr

/-- `struct wg_msg_initiation` without the MACs (`Wg/Cookie`). -/
structure Msg1 where
  sender : Nat
  eph : Bytes
  static : Bytes
  ts : Bytes
  deriving DecidableEq, Repr

/-- `struct wg_msg_response` without the MACs. -/
structure Msg2 where
  sender : Nat
  receiver : Nat
  eph : Bytes
  empty : Bytes
  deriving DecidableEq, Repr

/-- Random choices of one call: the ephemeral private key and the index; `none` is a failure. -/
structure Rnd where
  eph : Option Bytes
  idx : Option Nat

/-- `wg_noise_handshake_init`, wg_noise.c 62-87. -/
def hsInit (P : Prim) (ok : Bool) (priv remPub : Bytes) (psk : Option Bytes) : Hs :=
  match (if ok then P.dh priv remPub else none) with
  | none => .zero
  | some d => { Hs.zero with remStatic := remPub, psk := psk.getD (zeros 32), ss := d }

/-- `wg_new_index`, wg_noise.c 21-34: a non-zero index, or 0 on failure. -/
def newIndex (r : Rnd) : Nat := r.idx.getD 0

/-- `wg_noise_create_initiation`, wg_noise.c 108-217.  The fields of the handshake are updated as the
computation proceeds, also when it fails later.  Simplified: a failing KDF leaves its outputs as
they were (the code may have stored the first output already). -/
def createInit (P : Prim) (ok : Nat → Bool) (d : Dev) (hs : Hs) (r : Rnd) : Hs × Option Msg1 :=
  match call ok 0 (P.hash construction) with
  | none => (hs, none)
  | some c =>
  let hs := { hs with ck := c }
  match call ok 1 (P.hash (hs.ck ++ identifier)) with
  | none => (hs, none)
  | some h =>
  let hs := { hs with hash := h }
  match call ok 2 (P.hash (hs.hash ++ hs.remStatic)) with
  | none => (hs, none)
  | some h =>
  let hs := { hs with hash := h }
  match r.eph with
  | none => (hs, none)
  | some e =>
  let hs := { hs with ephPriv := e }
  let ephPub := P.pub e
  match call ok 3 (kdf1 P hs.ck ephPub) with
  | none => (hs, none)
  | some c =>
  let hs := { hs with ck := c }
  match call ok 4 (P.hash (hs.hash ++ ephPub)) with
  | none => (hs, none)
  | some h =>
  let hs := { hs with hash := h }
  match (if ok 5 then P.dh hs.ephPriv hs.remStatic else none) with
  | none => (hs, none)
  | some es =>
  match call ok 6 (kdf2 P hs.ck es) with
  | none => (hs, none)
  | some k =>
  let hs := { hs with ck := k.1 }
  match call ok 7 (aeadEnc P k.2 0 d.pubKey hs.hash) with
  | none => (hs, none)
  | some encStatic =>
  match call ok 8 (P.hash (hs.hash ++ encStatic)) with
  | none => (hs, none)
  | some h =>
  let hs := { hs with hash := h }
  match call ok 9 (kdf2 P hs.ck hs.ss) with
  | none => (hs, none)
  | some k =>
  let hs := { hs with ck := k.1 }
  match call ok 10 (aeadEnc P k.2 0 (timestamp d.now) hs.hash) with
  | none => (hs, none)
  | some encTs =>
  match call ok 11 (P.hash (hs.hash ++ encTs)) with
  | none => (hs, none)
  | some h =>
  let hs := { hs with hash := h, locIdx := newIndex r }
  if hs.locIdx = 0 then (hs, none)
  else ({ hs with st := .createdInit }, some ⟨hs.locIdx, ephPub, encStatic, encTs⟩)

/-- The `for` loop of wg_noise.c 288-295. -/
def findPeer (peers : List Peer) (key : Bytes) : Option Nat :=
  peers.findIdx? (fun p => p.active && !differs p.pubKey key 65)

/-- 64-bit subtraction. -/
def sub64 (a b : Nat) : Nat := (a + 2 ^ 64 - b) % 2 ^ 64

/-- `wg_noise_consume_initiation`, wg_noise.c 225-376: the peer's index and its new contents. -/
def consumeInit (P : Prim) (ok : Nat → Bool) (d : Dev) (m : Msg1) : Option (Nat × Peer) :=
  match call ok 0 (P.hash construction) with
  | none => none
  | some ck =>
  match call ok 1 (P.hash (ck ++ identifier)) with
  | none => none
  | some h =>
  match call ok 2 (P.hash (h ++ d.pubKey)) with
  | none => none
  | some h =>
  match call ok 3 (kdf1 P ck m.eph) with
  | none => none
  | some ck =>
  match call ok 4 (P.hash (h ++ m.eph)) with
  | none => none
  | some h =>
  match (if ok 5 then P.dh d.priv m.eph else none) with
  | none => none
  | some es =>
  match call ok 6 (kdf2 P ck es) with
  | none => none
  | some k =>
  let ck := k.1
  match (if ok 7 then aeadDec P k.2 0 m.static h else none) with
  | none => none
  | some static =>
  match call ok 8 (P.hash (h ++ m.static)) with
  | none => none
  | some h =>
  match findPeer d.peers static with
  | none => none
  | some i =>
  match d.peers[i]? with
  | none => none
  | some p =>
  if p.lastInit > 0 ∧ sub64 d.now p.lastInit < 5000 then none else
  match call ok 9 (kdf2 P ck p.hs.ss) with
  | none => none
  | some k =>
  let ck := k.1
  match (if ok 10 then aeadDec P k.2 0 m.ts h else none) with
  | none => none
  | some ts =>
  match call ok 11 (P.hash (h ++ m.ts)) with
  | none => none
  | some h =>
  if memLe ts p.latest then none
  else some (i, { p with
    hs := { p.hs with hash := h, ck := ck, remEph := m.eph, remIdx := m.sender, st := .consumedInit },
    latest := ts, lastInit := d.now })

/-- `wg_noise_create_response`, wg_noise.c 394-478. -/
def createResp (P : Prim) (ok : Nat → Bool) (hs : Hs) (r : Rnd) : Hs × Option Msg2 :=
  if hs.st ≠ .consumedInit then (hs, none) else
  match r.eph with
  | none => (hs, none)
  | some e =>
  let hs := { hs with ephPriv := e }
  let ephPub := P.pub e
  match call ok 0 (kdf1 P hs.ck ephPub) with
  | none => (hs, none)
  | some c =>
  let hs := { hs with ck := c }
  match call ok 1 (P.hash (hs.hash ++ ephPub)) with
  | none => (hs, none)
  | some h =>
  let hs := { hs with hash := h }
  match (if ok 2 then P.dh hs.ephPriv hs.remEph else none) with
  | none => (hs, none)
  | some ee =>
  match call ok 3 (kdf1 P hs.ck ee) with
  | none => (hs, none)
  | some c =>
  let hs := { hs with ck := c }
  match (if ok 4 then P.dh hs.ephPriv hs.remStatic else none) with
  | none => (hs, none)
  | some se =>
  match call ok 5 (kdf1 P hs.ck se) with
  | none => (hs, none)
  | some c =>
  let hs := { hs with ck := c }
  match call ok 6 (kdf3 P hs.ck hs.psk) with
  | none => (hs, none)
  | some k =>
  let hs := { hs with ck := k.1 }
  match call ok 7 (P.hash (hs.hash ++ k.2.1)) with
  | none => (hs, none)
  | some h =>
  let hs := { hs with hash := h }
  match call ok 8 (aeadEnc P k.2.2 0 [] hs.hash) with
  | none => (hs, none)
  | some empty =>
  match call ok 9 (P.hash (hs.hash ++ empty)) with
  | none => (hs, none)
  | some h =>
  let hs := { hs with hash := h, locIdx := newIndex r }
  if hs.locIdx = 0 then (hs, none)
  else ({ hs with st := .createdResp }, some ⟨hs.locIdx, hs.remIdx, ephPub, empty⟩)

/-- `wg_noise_consume_response`, wg_noise.c 484-578. -/
def consumeResp (P : Prim) (ok : Nat → Bool) (priv : Bytes) (hs : Hs) (m : Msg2) : Option Hs :=
  if hs.st ≠ .createdInit then none else
  match call ok 0 (kdf1 P hs.ck m.eph) with
  | none => none
  | some ck =>
  match call ok 1 (P.hash (hs.hash ++ m.eph)) with
  | none => none
  | some h =>
  match (if ok 2 then P.dh hs.ephPriv m.eph else none) with
  | none => none
  | some ee =>
  match call ok 3 (kdf1 P ck ee) with
  | none => none
  | some ck =>
  match (if ok 4 then P.dh priv m.eph else none) with
  | none => none
  | some se =>
  match call ok 5 (kdf1 P ck se) with
  | none => none
  | some ck =>
  match call ok 6 (kdf3 P ck hs.psk) with
  | none => none
  | some k =>
  match call ok 7 (P.hash (h ++ k.2.1)) with
  | none => none
  | some h =>
  match (if ok 8 then aeadDec P k.2.2 0 m.empty h else none) with
  | none => none
  | some _ =>
  match call ok 9 (P.hash (h ++ m.empty)) with
  | none => none
  | some h' => some { hs with ck := k.1, hash := h', remIdx := m.sender, st := .consumedResp }

/-- The keys of a new session, wg_noise.c 655-675: sending and receiving key, indices, role. -/
structure Session where
  send : Bytes
  recv : Bytes
  locIdx : Nat
  remIdx : Nat
  initiator : Bool
  deriving DecidableEq, Repr

/-- `wg_noise_begin_session`, wg_noise.c 589-685, without the keypair slots (`Wg/Device`). -/
def beginSession (P : Prim) (ok : Bool) (hs : Hs) : Hs × Option Session :=
  if hs.st ≠ .consumedResp ∧ hs.st ≠ .createdResp then (hs, none)
  else
    let ini := decide (hs.st = .consumedResp)
    match (if ok then some (kdf2 P hs.ck []) else none) with
    | none => (hs, none)
    | some (t1, t2) =>
      ({ hs with ephPriv := zeros 32, ck := zeros 32, hash := zeros 32, st := .zeroed },
        some ⟨if ini then t1 else t2, if ini then t2 else t1, hs.locIdx, hs.remIdx, ini⟩)

/-! ## wg_packet.c: transport messages -/

/-- Little-endian. -/
def le (n v : Nat) : Bytes := (List.range n).map (fun i => v / 256 ^ i % 256)
def unle : Bytes → Nat
  | [] => 0
  | b :: r => b + 256 * unle r

/-- `wg_pad_len`, wg_packet.c 99-105. -/
def padLen (n : Nat) : Nat := if n % 16 ≠ 0 then n + (16 - n % 16) else n

/-- The data message of `wg_packet_send`, wg_packet.c 223-251; `none` if the packet is too long for
the 1536-octet buffer.  The message buffer holds 1600 octets: a longer message is an overrun. -/
def sendData (P : Prim) (key : Bytes) (remIdx ctr : Nat) (packet : Bytes) : Option (Except Unit Bytes) :=
  let padded := padLen packet.length
  if padded > 1536 then none
  else
    let msg := le 4 4 ++ le 4 remIdx ++ le 8 ctr ++
      aeadEnc P key ctr (packet ++ zeros (padded - packet.length)) []
    if msg.length > 1600 then some (.error ()) else some (.ok msg)

/-- The keepalive of `wg_packet_send_keepalive`, wg_packet.c 343-352. -/
def sendKeepalive (P : Prim) (key : Bytes) (remIdx ctr : Nat) : Bytes :=
  le 4 4 ++ le 4 remIdx ++ le 8 ctr ++ aeadEnc P key ctr [] []

/-- The header of a data message, wg_packet.c 677-681, 382-386: type, receiver index, counter. -/
def dataHdr (data : Bytes) : Nat × Nat × Nat :=
  (unle (data.take 4), unle ((data.drop 4).take 4), unle ((data.drop 8).take 8))

/-- The decryption in `wg_handle_data`, wg_packet.c 379-411, under the receiving key of the session
found by the index; the plaintext buffer holds 1536 octets. -/
def openData (P : Prim) (ok : Bool) (key : Bytes) (data : Bytes) : Option Bytes :=
  if data.length < 16 + 16 then none
  else
    let enc := data.drop 16
    if enc.length - 16 > 1536 then none
    else if ok then aeadDec P key (dataHdr data).2.2 enc [] else none

/-- The checks before injection, wg_packet.c 439-447: is the plaintext handed to the stack (the
source address check is `Wg/Routing`)? -/
def innerOk (p : Bytes) : Bool :=
  decide (¬ p.length = 0) && decide (¬ p.length < 20) && decide (p.getD 0 0 / 16 = 4) &&
  decide (¬ (p.getD 2 0 * 256 + p.getD 3 0 > p.length))

end Wolf.Wg.Noise
