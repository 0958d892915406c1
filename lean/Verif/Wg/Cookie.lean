/-!
# WireGuard: MACs, cookies and the load gate

Model of `src/wolfguard/wg_cookie.c` (all of it), of the MAC/cookie parts of
`wg_handle_initiation`, `wg_handle_response` and `wg_handle_cookie`
(`src/wolfguard/wg_packet.c` 462–508, 550–593, 637–665) and of the load estimate in
`wolfguard_poll` (`src/wolfguard/wolfguard.c` 301–307).

The cryptographic primitives are arbitrary functions that may also fail.  What the Noise
handshake does with a message that passed the gate is not part of this model: it shows up as
further events of the history (`send`, `index`), in any order, so the histories quantified over
include those of the code.
-/

namespace Wolf.Wg.Cookie

abbrev Bytes := List Nat

/-- WG_COOKIE_LEN, `wolfguard.h` 67. -/
notation "ckLen" => (32 : Nat)
/-- WG_COOKIE_SECRET_MAX_AGE in milliseconds, `wolfguard.h` 151. -/
notation "maxAge" => (120000 : Nat)
/-- WOLFGUARD_MAX_PEERS, `wolfguard.h`. -/
notation "maxPeers" => (8 : Nat)

/-- The primitives: `wg_mac`, `Hash("mac1----" || pub)`, `Hash("cookie--" || pub)`,
`wg_xaead_encrypt`, `wg_xaead_decrypt`.  `none` is a failure of the primitive (for decryption:
also of the authentication). -/
structure Crypto where
  mac : Bytes → Bytes → Option Bytes
  mac1Key : Bytes → Bytes
  cookieKey : Bytes → Bytes
  enc : Bytes → Bytes → Bytes → Bytes → Option Bytes
  dec : Bytes → Bytes → Bytes → Bytes → Option Bytes

/-- Subtraction of `uint64_t`. -/
def sub64 (a b : Nat) : Nat := (a + 2 ^ 64 - b % 2 ^ 64) % 2 ^ 64

/-- `struct wg_cookie_checker`. -/
structure Checker where
  secret : Bytes
  birth : Nat
  mac1Key : Bytes
  encKey : Bytes
  deriving DecidableEq

/-- `struct wg_cookie` of a peer. -/
structure Jar where
  mac1Key : Bytes
  decKey : Bytes
  cookie : Bytes
  valid : Bool
  birth : Nat
  last : Bytes
  sent : Bool
  deriving DecidableEq

/-- `wg_cookie_checker_init`, 23–38. -/
def checkerInit (c : Crypto) (pub : Bytes) : Checker :=
  { secret := List.replicate ckLen 0, birth := 2 ^ 64 - 1 - maxAge - 1,
    mac1Key := c.mac1Key pub, encKey := c.cookieKey pub }

/-- `wg_cookie_init`, 45–57. -/
def jarInit (c : Crypto) (pub : Bytes) : Jar :=
  { mac1Key := c.mac1Key pub, decKey := c.cookieKey pub, cookie := List.replicate ckLen 0,
    valid := false, birth := 0, last := List.replicate ckLen 0, sent := false }

/-- `wg_cookie_add_macs`, 65–100, on a message whose last two fields are the MACs and which was
zeroed before (`wg_noise.c` 118, 395).  The callers send the message whatever the return value.
Simplified: a failing MAC primitive leaves its field zero. -/
def addMacs (c : Crypto) (j : Jar) (body : Bytes) (now : Nat) : Jar × Bytes :=
  match c.mac j.mac1Key body with
  | none => (j, body ++ List.replicate ckLen 0 ++ List.replicate ckLen 0)
  | some m1 =>
    let j' := { j with last := m1, sent := true }
    if j.valid = true ∧ sub64 now j.birth ≤ maxAge then
      match c.mac j.cookie (body ++ m1) with
      | none => (j', body ++ m1 ++ List.replicate ckLen 0)
      | some m2 => (j', body ++ m1 ++ m2)
    else (j', body ++ m1 ++ List.replicate ckLen 0)

/-- `enum wg_cookie_mac_state`. -/
inductive MacState where
  | invalid | valid | withCookie
  deriving DecidableEq, Repr

/-- The first MAC of a message whose MACs start at `off`. -/
def mac1 (data : Bytes) (off : Nat) : Bytes := (data.drop off).take ckLen
/-- The second one. -/
def mac2 (data : Bytes) (off : Nat) : Bytes := (data.drop (off + ckLen)).take ckLen

/-- `src_data`: address and port of the sender, 136–141, 180–182. -/
def srcData (ip port : Nat) : Bytes :=
  [ip % 256, ip / 256 % 256, ip / 65536 % 256, ip / 16777216 % 256, port % 256, port / 256 % 256]

/-- `wg_cookie_validate`, 105–160. -/
def validate (c : Crypto) (k : Checker) (data : Bytes) (off ip port now : Nat) : MacState :=
  if off + 2 * ckLen > data.length then .invalid
  else match c.mac k.mac1Key (data.take off) with
    | none => .invalid
    | some m1 =>
      if m1 ≠ mac1 data off then .invalid
      else if mac2 data off = List.replicate ckLen 0 then .valid
      else if sub64 now k.birth > maxAge then .valid
      else match c.mac k.secret (srcData ip port) with
        | none => .valid
        | some ck =>
          match c.mac ck (data.take (off + ckLen)) with
          | none => .valid
          | some m2 => if m2 = mac2 data off then .withCookie else .valid

/-- A cookie reply on the wire: receiver index (4 bytes), nonce, encrypted cookie. -/
structure Reply where
  idx : Bytes
  nonce : Bytes
  ct : Bytes
  deriving DecidableEq

/-- What the random generator leaves in the buffer and whether it reported success. -/
structure Rng where
  bytes : Bytes
  ok : Bool
  deriving DecidableEq

/-- Things an observer of the device can see. -/
inductive Out where
  /-- the message passed the gate and goes to the Noise handshake -/
  | processed (now : Nat) (data : Bytes) (off ip port : Nat)
  /-- a new cookie secret was drawn -/
  | rotated (now : Nat) (secret : Bytes)
  /-- a cookie reply was sent to an address -/
  | reply (now ip port : Nat) (r : Reply)
  /-- a handshake message was sent to a peer -/
  | sent (now : Nat) (i : Nat) (msg : Bytes) (off : Nat)
  /-- a cookie from a peer was accepted -/
  | took (now : Nat) (i : Nat) (cookie : Bytes)
  /-- a peer entry was (re)created -/
  | fresh (i : Nat)
  deriving DecidableEq

/-- A peer as far as it matters here: `is_active`, `handshake.local_index`, `cookie`. -/
structure Peer where
  active : Bool
  index : Nat
  jar : Jar
  deriving DecidableEq

/-- The device. -/
structure Dev where
  checker : Checker
  underLoad : Bool := false
  perCycle : Nat := 0
  now : Nat := 0
  peers : List Peer := []
  deriving DecidableEq

/-- `wg_cookie_create_reply`, 165–222, once it is known whether the secret is too old. -/
def replyWith (c : Crypto) (k : Checker) (stale : Bool) (now : Nat) (data : Bytes)
    (off ip port : Nat) (r1 r2 : Rng) : Checker × List Out :=
  if stale = true ∧ r1.ok = false then ({ k with secret := r1.bytes }, [])
  else
    let k' := if stale then { k with secret := r1.bytes, birth := now } else k
    let rot := if stale then [Out.rotated now r1.bytes] else []
    match c.mac k'.secret (srcData ip port) with
    | none => (k', rot)
    | some ck =>
      if r2.ok = false then (k', rot)
      else match c.enc k'.encKey r2.bytes ck (mac1 data off) with
        | none => (k', rot)
        | some ct => (k', rot ++ [.reply now ip port ⟨(data.drop 4).take 4, r2.bytes, ct⟩])

/-- `wg_cookie_create_reply`, 165–222. -/
def createReply (c : Crypto) (k : Checker) (now : Nat) (data : Bytes) (off ip port : Nat)
    (r1 r2 : Rng) : Checker × List Out :=
  replyWith c k (decide (sub64 now k.birth > maxAge)) now data off ip port r1 r2

/-- A handshake message arrives: `wg_handle_initiation` 476–508 and `wg_handle_response`
562–593; `off` is the offset of the MACs (they end the structure). -/
def onHs (c : Crypto) (d : Dev) (data : Bytes) (off ip port : Nat) (r1 r2 : Rng) :
    Dev × List Out :=
  if data.length < off + 2 * ckLen then (d, [])
  else
    let st := validate c d.checker data off ip port d.now
    if st = .invalid then (d, [])
    else if d.underLoad = true ∧ st ≠ .withCookie then
      let x := createReply c d.checker d.now data off ip port r1 r2
      ({ d with checker := x.1 }, x.2)
    else ({ d with perCycle := (d.perCycle + 1) % 65536 }, [.processed d.now data off ip port])

/-- Little-endian 32-bit number. -/
def le32 (b : Bytes) : Nat := b.getD 0 0 + b.getD 1 0 * 256 + b.getD 2 0 * 65536 + b.getD 3 0 * 16777216

/-- `wg_cookie_consume_reply`, 227–258. -/
def consume (c : Crypto) (j : Jar) (r : Reply) (now : Nat) : Option Jar :=
  if j.sent = false then none
  else match c.dec j.decKey r.nonce r.ct j.last with
    | none => none
    | some ck => some { j with cookie := ck, valid := true, birth := now, sent := false }

/-- The peer a cookie reply is for, `wg_packet.c` 652–660. -/
def target (peers : List Peer) (idx : Nat) : Option Nat :=
  peers.findIdx? (fun p => p.active && p.jar.sent && p.index == idx)

/-- Replace the jar of one peer. -/
def putJar (d : Dev) (i : Nat) (p : Peer) (j : Jar) : Dev :=
  { d with peers := d.peers.set i { p with jar := j } }

/-- `wg_handle_cookie`, `wg_packet.c` 637–665. -/
def onCookie (c : Crypto) (d : Dev) (r : Reply) : Dev × List Out :=
  match target d.peers (le32 r.idx) with
  | none => (d, [])
  | some i =>
    match d.peers[i]? with
    | none => (d, [])
    | some p =>
      match consume c p.jar r d.now with
      | none => (d, [])
      | some j => (putJar d i p j, [.took d.now i j.cookie])

/-- What can happen to the device. -/
inductive Ev where
  /-- `wolfguard_poll` -/
  | poll (now : Nat)
  /-- a handshake message arrives; `r1`, `r2` are what the random generator would deliver -/
  | hs (data : Bytes) (off ip port : Nat) (r1 r2 : Rng)
  /-- a cookie reply arrives -/
  | cookie (r : Reply)
  /-- the device sends a handshake message to peer `i` -/
  | send (i : Nat) (body : Bytes)
  /-- the handshake code gives peer `i` a new local index -/
  | index (i : Nat) (idx : Nat)
  /-- `wolfguard_add_peer` in slot `i` (`wolfguard.c` 225–250) -/
  | addPeer (i : Nat) (pub : Bytes)

/-- One event. -/
def step (c : Crypto) (d : Dev) : Ev → Dev × List Out
  | .poll now =>
    ({ d with now := now, underLoad := decide (d.perCycle ≥ maxPeers), perCycle := 0 }, [])
  | .hs data off ip port r1 r2 => onHs c d data off ip port r1 r2
  | .cookie r => onCookie c d r
  | .send i body =>
    match d.peers[i]? with
    | none => (d, [])
    | some p =>
      let x := addMacs c p.jar body d.now
      (putJar d i p x.1, [.sent d.now i x.2 body.length])
  | .index i idx =>
    match d.peers[i]? with
    | none => (d, [])
    | some p => ({ d with peers := d.peers.set i { p with index := idx } }, [])
  | .addPeer i pub =>
    match d.peers[i]? with
    | none => (d, [])
    | some p => ({ d with peers := d.peers.set i { p with active := true, jar := jarInit c pub } }, [.fresh i])

/-- A history. -/
def run (c : Crypto) (d : Dev) : List Ev → Dev × List Out
  | [] => (d, [])
  | e :: es => ((run c (step c d e).1 es).1, (step c d e).2 ++ (run c (step c d e).1 es).2)

theorem run_append (c : Crypto) (d : Dev) (es fs : List Ev) :
    run c d (es ++ fs) = ((run c (run c d es).1 fs).1, (run c d es).2 ++ (run c (run c d es).1 fs).2) := by
  induction es generalizing d with
  | nil => rfl
  | cons e es ih =>
    rw [List.cons_append, run, ih]
    simp [run, List.append_assoc]

end Wolf.Wg.Cookie
