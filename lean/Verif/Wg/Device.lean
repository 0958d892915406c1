import Verif.Wg.Replay

/-!
# The WireGuard device

Model of `src/wolfguard/wg_packet.c`, `wg_noise.c` (session bookkeeping), `wg_timers.c`,
`wg_allowedips.c` and `wolfguard.c`.

Simplifications.
* Cryptography is not modelled.  A session key is named by its `internal_id`
  (`wg_noise.c` 668); what an incoming message decrypts to, and whether it authenticates,
  is an arbitrary function supplied with the message.  The outcomes of local crypto and
  random-number calls are drawn from an arbitrary stream of `coins`, one stream per peer
  (0 = the call fails; otherwise the random index).
* Addresses are host-order numbers (the code keeps them in network order throughout; `&`
  and `==` commute with the byte swap).
* Cookies: `wg_cookie_validate` is an oracle (invalid / valid / valid with cookie).
* Re-entry of `wolfguard_output` from the injected packet happens after all of
  `wg_handle_data`'s own updates, so it is the same as a following `output`.
-/

namespace Wolf.Wg

abbrev Bytes := List Nat

/-- `LINK_MTU` (config.h). -/
notation "linkMtu" => (1536 : Nat)
/-- `WOLFGUARD_STAGED_PACKETS`, wolfguard.h 53. -/
notation "stagedMax" => (16 : Nat)
/-- `WG_REKEY_AFTER_MESSAGES`, wolfguard.h 132. -/
def rekeyMsgs : Nat := 2 ^ 60
/-- `WG_REJECT_AFTER_TIME * 1000`, wolfguard.h 146. -/
notation "rejectMs" => (180000 : Nat)
/-- `WG_REKEY_AFTER_TIME * 1000`, wolfguard.h 145. -/
notation "rekeyMs" => (120000 : Nat)
/-- `WG_REKEY_TIMEOUT * 1000`, wolfguard.h 148. -/
notation "rekeyTimeoutMs" => (5000 : Nat)
/-- `WG_KEEPALIVE_TIMEOUT * 1000`, wolfguard.h 149. -/
notation "keepaliveMs" => (10000 : Nat)
/-- `WG_MAX_HANDSHAKE_ATTEMPTS`, wolfguard.h 150. -/
notation "maxAttempts" => (18 : Nat)

/-- 64-bit subtraction. -/
def sub64 (a b : Nat) : Nat := (a + 2 ^ 64 - b) % 2 ^ 64

/-- `enum wg_handshake_state`, wolfguard.h 206-212. -/
inductive Hs where
  | zeroed | createdInit | consumedInit | createdResp | consumedResp
  deriving DecidableEq, Repr

/-- `struct wg_keypair`, wolfguard.h 234-244.  `sid` is `internal_id` and stands for both
keys of the session. -/
structure KP where
  sid : Nat
  sValid : Bool
  rValid : Bool
  sBirth : Nat
  rBirth : Nat
  sCtr : Nat
  replay : Replay
  lIdx : Nat
  rIdx : Nat
  isInit : Bool
  deriving Repr, DecidableEq

/-- A zeroed slot. -/
def KP.zero : KP := ⟨0, false, false, 0, 0, 0, Replay.init, 0, 0, false⟩

/-- `struct wg_peer` with its `wg_handshake` and `wg_keypairs`, wolfguard.h 214-302; slots of
`keypair_slots` are named by index. -/
structure Peer where
  active : Bool
  hs : Hs
  hsLocal : Nat
  hsRemote : Nat
  cur : Option Nat
  prev : Option Nat
  next : Option Nat
  slots : List KP
  staged : List Bytes          -- 16 slots; contents beyond `nStaged` are scratch
  nStaged : Nat
  epIp : Nat
  epPort : Nat
  latestTs : Nat
  lastInitConsumed : Nat
  tInitiated : Nat
  tDataSent : Nat
  tDataRecv : Nat
  tKeepalive : Nat
  attempts : Nat
  jitter : Nat
  interval : Nat
  ptr : Nat                    -- position in the stream of crypto outcomes
  deriving Repr, DecidableEq

/-- `memset(peer, 0, …)`. -/
def Peer.zero : Peer :=
  { active := false, hs := .zeroed, hsLocal := 0, hsRemote := 0, cur := none, prev := none,
    next := none, slots := List.replicate 3 KP.zero, staged := List.replicate stagedMax [],
    nStaged := 0, epIp := 0, epPort := 0, latestTs := 0, lastInitConsumed := 0,
    tInitiated := 0, tDataSent := 0, tDataRecv := 0, tKeepalive := 0, attempts := 0,
    jitter := 0, interval := 0, ptr := 0 }

/-- Observable effects concerning one peer. -/
inductive Ev where
  /-- a transport message encrypted with the sending key of session `sid` and nonce `ctr`
  is handed to UDP for `ip:port`; the plaintext is `payload` -/
  | enc (sid ctr : Nat) (payload : Bytes) (ip port : Nat)
  /-- a handshake initiation is sent -/
  | init
  /-- a handshake response is sent -/
  | resp
  /-- a session is derived; `isInit`: as initiator -/
  | session (sid : Nat) (isInit : Bool)
  /-- a transport message authenticated by session `sid` with nonce `ctr` is accepted -/
  | accept (sid ctr : Nat)
  /-- a decrypted packet is handed to the IP stack -/
  | inject (pkt : Bytes)
  /-- a handshake initiation with this timestamp is accepted -/
  | consumed (ts : Nat)
  /-- a cookie reply is sent (not about a peer) -/
  | cookieReply
  deriving DecidableEq, Repr

/-- Contents of slot `i`. -/
def Peer.kp (p : Peer) (i : Nat) : KP := p.slots.getD i KP.zero

/-- The current keypair. -/
def Peer.curKP (p : Peer) : Option KP := p.cur.map p.kp

/-- Write slot `i`. -/
def Peer.setKP (p : Peer) (i : Nat) (k : KP) : Peer := { p with slots := p.slots.set i k }

/-- `wg_pad_len`, wg_packet.c 97-103. -/
def padLen (n : Nat) : Nat := if n % 16 ≠ 0 then n + (16 - n % 16) else n

/-- wg_packet.c 222-226: zero padding. -/
def pad (pkt : Bytes) : Bytes := pkt ++ List.replicate (padLen pkt.length - pkt.length) 0

/-- `wg_stage_packet`, wg_packet.c 152-164. -/
def stage (p : Peer) (pkt : Bytes) : Peer :=
  if p.nStaged ≥ stagedMax then p
  else { p with staged := p.staged.set p.nStaged (pkt.take linkMtu), nStaged := p.nStaged + 1 }

/-- `wg_noise_create_initiation`, wg_noise.c 108-217: succeeds with a random nonzero index, or
fails leaving the handshake state as it was. -/
def createInit (co : Nat → Nat) (p : Peer) : Peer × Bool :=
  if co p.ptr = 0 then ({ p with ptr := p.ptr + 1 }, false)
  else ({ p with ptr := p.ptr + 1, hs := .createdInit, hsLocal := co p.ptr }, true)

/-- Create and send an initiation, then `wg_timers_handshake_initiated`: the sequence of
wg_packet.c 189-203 and 259-273. -/
def sendInit (co : Nat → Nat) (now : Nat) (p : Peer) : Peer × List Ev :=
  let (p, ok) := createInit co p
  if ok then ({ p with tInitiated := now, attempts := (p.attempts + 1) % 256 }, [.init])
  else (p, [])

/-- `wg_packet_send`, wg_packet.c 169-279. -/
def packetSend (co : Nat → Nat) (now : Nat) (p : Peer) (pkt : Bytes) : Peer × List Ev :=
  match p.cur with
  | none =>
    let p := stage p pkt
    if p.hs = .zeroed then sendInit co now p else (p, [])
  | some i =>
    let k := p.kp i
    if k.sValid = false then
      let p := stage p pkt
      if p.hs = .zeroed then sendInit co now p else (p, [])
    else if k.sCtr ≥ rekeyMsgs ∨ sub64 now k.sBirth ≥ rejectMs then
      (stage (p.setKP i { k with sValid := false }) pkt, [])
    else if padLen pkt.length > linkMtu then (p, [])
    else if co p.ptr = 0 then ({ p with ptr := p.ptr + 1 }, [])
    else
      let p := { p with ptr := p.ptr + 1 }
      let p := p.setKP i { k with sCtr := k.sCtr + 1 }
      let e : Ev := .enc k.sid k.sCtr (pad pkt) p.epIp p.epPort
      let p := { p with tDataSent := now }
      if (k.sCtr + 1 ≥ rekeyMsgs ∨ sub64 now k.sBirth ≥ rekeyMs) ∧ k.isInit = true then
        let (p, es) := sendInit co now p
        (p, e :: es)
      else (p, [e])

/-- The loop of `wg_packet_send_staged`, wg_packet.c 291-309, for `i, i+1, …, i+n-1`. -/
def drain (co : Nat → Nat) (now : Nat) : Nat → Nat → Peer → Peer × List Ev
  | _, 0, p => (p, [])
  | i, n + 1, p =>
    let pkt := p.staged.getD i []
    let p := { p with staged := p.staged.set i [] }
    let (p, es) := packetSend co now p pkt
    let (p, es') := drain co now (i + 1) n p
    (p, es ++ es')

/-- `wg_packet_send_staged`, wg_packet.c 284-312. -/
def sendStaged (co : Nat → Nat) (now : Nat) (p : Peer) : Peer × List Ev :=
  drain co now 0 p.nStaged { p with nStaged := 0 }

/-- `wg_packet_send_keepalive`, wg_packet.c 317-369. -/
def sendKeepalive (co : Nat → Nat) (now : Nat) (p : Peer) : Peer × List Ev :=
  match p.cur with
  | none => (p, [])
  | some i =>
    let k := p.kp i
    if k.sValid = false then (p, [])
    else if k.sCtr ≥ rejectAfter then (p, [])
    else if sub64 now k.sBirth ≥ rejectMs then (p, [])
    else if co p.ptr = 0 then ({ p with ptr := p.ptr + 1 }, [])
    else
      (({ p with ptr := p.ptr + 1 } : Peer).setKP i { k with sCtr := k.sCtr + 1 },
        [.enc k.sid k.sCtr [] p.epIp p.epPort])

/-- First slot that is neither `current` nor `previous`, wg_noise.c 626-645 (with its
fallback). -/
def pickSlot (p : Peer) : Nat :=
  if p.cur ≠ some 0 ∧ p.prev ≠ some 0 then 0
  else if p.cur ≠ some 1 ∧ p.prev ≠ some 1 then 1
  else if p.cur ≠ some 2 ∧ p.prev ≠ some 2 then 2
  else match p.prev with
    | some i => i
    | none => 0

/-- `wg_noise_begin_session`, wg_noise.c 589-685.  `sid` is the new `internal_id`.  The
fallback of the slot search (which would also drop `previous`) cannot be reached with three
slots and two pointers; it is modelled by `pickSlot` alone. -/
def beginSession (co : Nat → Nat) (now sid : Nat) (p : Peer) : Peer × List Ev × Bool :=
  if p.hs ≠ .consumedResp ∧ p.hs ≠ .createdResp then (p, [], false)
  else if co p.ptr = 0 then ({ p with ptr := p.ptr + 1 }, [], false)
  else
    let isInit := p.hs = .consumedResp
    let p := { p with ptr := p.ptr + 1 }
    let p := match p.next with
      | some i => { (p.setKP i KP.zero) with next := none }
      | none => p
    let s := pickSlot p
    let p := p.setKP s
      { sid := sid, sValid := true, rValid := true, sBirth := now, rBirth := now, sCtr := 0,
        replay := Replay.init, lIdx := p.hsLocal, rIdx := p.hsRemote, isInit := isInit }
    let p := if isInit then { p with prev := p.cur, cur := some s } else { p with next := some s }
    ({ p with hs := .zeroed }, [.session sid isInit], true)

/-- `wg_timers_handshake_complete`, wg_timers.c 56-60. -/
def hsComplete (p : Peer) : Peer := { p with attempts := 0 }

/-- `wg_reset_handshake`, wg_timers.c 70-75 (long-term keys are not modelled). -/
def resetHs (p : Peer) : Peer := { p with hs := .zeroed, hsLocal := 0, hsRemote := 0 }

/-- `wg_send_handshake_initiation`, wg_timers.c 82-106. -/
def sendHsInit (co : Nat → Nat) (now : Nat) (p : Peer) : Peer × List Ev :=
  sendInit co now (resetHs p)

/-- `wg_regenerate_jitter`, wg_timers.c 28-33 (a failing generator leaves 0). -/
def newJitter (co : Nat → Nat) (p : Peer) : Peer :=
  { p with jitter := co p.ptr % 65536 % 1666, ptr := p.ptr + 1 }

/-- `wg_timer_handshake_retransmit`, wg_timers.c 124-141. -/
def tmRetransmit (co : Nat → Nat) (now : Nat) (p : Peer) : Peer × List Ev :=
  if p.hs ≠ .createdInit ∨ p.tInitiated = 0 then (p, [])
  else if p.attempts ≥ maxAttempts then
    ({ resetHs p with attempts := 0, tInitiated := 0 }, [])
  else if sub64 now p.tInitiated ≥ rekeyTimeoutMs then sendHsInit co now p
  else (p, [])

/-- `wg_timer_passive_keepalive`, wg_timers.c 147-171. -/
def tmPassive (co : Nat → Nat) (now : Nat) (p : Peer) : Peer × List Ev :=
  match p.curKP with
  | none => (p, [])
  | some k =>
    if k.sValid = false then (p, [])
    else if p.tDataRecv = 0 ∨ sub64 now p.tDataRecv ≥ keepaliveMs then (p, [])
    else if p.tDataSent ≠ 0 ∧ sub64 now p.tDataSent < keepaliveMs then (p, [])
    else if p.tKeepalive ≠ 0 ∧ sub64 now p.tKeepalive < keepaliveMs then (p, [])
    else
      let (p, es) := sendKeepalive co now p
      ({ p with tKeepalive := now }, es)

/-- `wg_timer_rekey_after_time`, wg_timers.c 178-194. -/
def tmRekey (co : Nat → Nat) (now : Nat) (p : Peer) : Peer × List Ev :=
  match p.curKP with
  | none => (p, [])
  | some k =>
    if k.sValid = false ∨ k.isInit = false ∨ p.hs ≠ .zeroed then (p, [])
    else if sub64 now k.sBirth < rekeyMs + p.jitter then (p, [])
    else sendHsInit co now (newJitter co p)

/-- `wg_timer_initiate_after_stale`, wg_timers.c 200-224. -/
def tmStale (co : Nat → Nat) (now : Nat) (p : Peer) : Peer × List Ev :=
  if p.cur = none ∨ p.hs ≠ .zeroed ∨ p.tDataSent = 0 ∨
      sub64 now p.tDataSent ≥ keepaliveMs + rekeyTimeoutMs then (p, [])
  else if p.tDataRecv ≠ 0 ∧ p.tDataSent ≤ p.tDataRecv then (p, [])
  else if p.tInitiated ≠ 0 ∧ sub64 now p.tInitiated < rekeyTimeoutMs + p.jitter then (p, [])
  else sendHsInit co now (newJitter co p)

/-- `wg_timer_zero_expired_keys`, wg_timers.c 230-247. -/
def tmZero (now : Nat) (p : Peer) : Peer :=
  match p.curKP with
  | none => p
  | some k =>
    if sub64 now k.sBirth < rejectMs * 3 then p
    else resetHs { p with slots := List.replicate 3 KP.zero, cur := none, prev := none,
                          next := none }

/-- `wg_timer_persistent_keepalive`, wg_timers.c 253-269. -/
def tmPersistent (co : Nat → Nat) (now : Nat) (p : Peer) : Peer × List Ev :=
  match p.curKP with
  | none => (p, [])
  | some k =>
    if p.interval = 0 ∨ k.sValid = false then (p, [])
    else if p.tDataSent ≠ 0 ∧ sub64 now p.tDataSent < p.interval * 1000 then (p, [])
    else
      let (p, es) := sendKeepalive co now p
      ({ p with tKeepalive := now }, es)

/-- The body of the loop in `wg_timers_tick`, wg_timers.c 277-293. -/
def tick (co : Nat → Nat) (now : Nat) (p : Peer) : Peer × List Ev :=
  if p.active = false then (p, [])
  else
    let (p, e1) := tmRetransmit co now p
    let (p, e2) := tmPassive co now p
    let (p, e3) := tmRekey co now p
    let (p, e4) := tmStale co now p
    let p := tmZero now p
    let (p, e6) := tmPersistent co now p
    (p, e1 ++ e2 ++ e3 ++ e4 ++ e6)

/-- `wg_handle_initiation` from the authenticated static key on: `wg_noise_consume_initiation`
(wg_noise.c 303-365), response, session, drain (wg_packet.c 505-538).  `ts` is the decrypted
timestamp, `none` if it does not authenticate. -/
def peerInitiation (co : Nat → Nat) (now sid : Nat) (p : Peer) (ts : Option Nat)
    (sender ip port : Nat) : Peer × List Ev × Bool :=
  if p.lastInitConsumed > 0 ∧ sub64 now p.lastInitConsumed < rekeyTimeoutMs then (p, [], false)
  else match ts with
    | none => (p, [], false)
    | some t =>
      if t ≤ p.latestTs then (p, [], false)
      else
        let p := { p with latestTs := t, hsRemote := sender, hs := .consumedInit,
                          lastInitConsumed := now, epIp := ip, epPort := port }
        -- wg_noise_create_response, wg_noise.c 384-478
        if co p.ptr = 0 then ({ p with ptr := p.ptr + 1 }, [.consumed t], false)
        else
          let p := { p with ptr := p.ptr + 1, hsLocal := co p.ptr, hs := .createdResp }
          let (p, e1, ok) := beginSession co now sid p
          if ok then
            let (p, e2) := sendStaged co now (hsComplete p)
            (p, .consumed t :: .resp :: e1 ++ e2, true)
          else (p, .consumed t :: .resp :: e1, false)

/-- The end of `wg_handle_response`: drain, and a keepalive if nothing was drained,
wg_packet.c 620-633; `b` is the outcome of `wg_noise_begin_session`. -/
def afterResponse (co : Nat → Nat) (now : Nat) :
    Peer × List Ev × Bool → Peer × List Ev × Bool
  | (p, e1, false) => (p, e1, false)
  | (p, e1, true) =>
    let r := sendStaged co now (hsComplete p)
    if r.1.curKP.map (·.sCtr) = some 0 then
      ((sendKeepalive co now r.1).1, e1 ++ r.2 ++ (sendKeepalive co now r.1).2, true)
    else (r.1, e1 ++ r.2, true)

/-- `wg_handle_response` once the peer is found: wg_packet.c 608-634.  `auth`: whether the
response authenticates. -/
def peerResponse (co : Nat → Nat) (now sid : Nat) (p : Peer) (auth : Bool)
    (sender ip port : Nat) : Peer × List Ev × Bool :=
  if auth = false then (p, [], false)
  else afterResponse co now (beginSession co now sid
    { p with hsRemote := sender, hs := .consumedResp, epIp := ip, epPort := port })

/-- Which of a peer's keypairs has this local index: wg_packet.c 124-137. -/
def findKP (p : Peer) (idx : Nat) : Option Nat :=
  match p.cur with
  | some i => if (p.kp i).lIdx = idx then some i else findPrev p idx
  | none => findPrev p idx
where
  findPrev (p : Peer) (idx : Nat) : Option Nat :=
    match p.prev with
    | some i => if (p.kp i).lIdx = idx then some i else findNext p idx
    | none => findNext p idx
  findNext (p : Peer) (idx : Nat) : Option Nat :=
    match p.next with
    | some i => if (p.kp i).lIdx = idx then some i else none
    | none => none

/-- wg_packet.c 431-438: data on the unconfirmed session confirms it. -/
def promote (p : Peer) (i : Nat) : Peer :=
  if p.next = some i then
    let p := match p.prev with
      | some j => p.setKP j KP.zero
      | none => p
    { p with prev := p.cur, cur := some i, next := none }
  else p

/-- `wg_handle_data` for keypair slot `i` of this peer, up to the endpoint update:
wg_packet.c 400-446.  Returns the accepted plaintext. -/
def peerData (now : Nat) (p : Peer) (i ctr ip port : Nat) (dec : Nat → Option Bytes) :
    Peer × List Ev × Option Bytes :=
  let k := p.kp i
  if k.rValid = false then (p, [], none)
  else if sub64 now k.rBirth ≥ rejectMs then (p, [], none)
  else match dec k.sid with
    | none => (p, [], none)
    | some pt =>
      if pt.length > linkMtu then (p, [], none)
      else
        let (r, ok) := validate k.replay ctr
        let p := p.setKP i { k with replay := r }
        if ok = false then (p, [], none)
        else
          let p := promote p i
          let p := { p with epIp := ip, epPort := port, tDataRecv := now }
          (p, [.accept k.sid ctr], some pt)

/-! ## Allowed IPs -/

/-- `struct wg_allowed_ip`, wolfguard.h 268-273; a free entry is `none`. -/
structure Allowed where
  ip : Nat
  cidr : Nat
  peer : Nat
  deriving DecidableEq, Repr

/-- `cidr_to_mask`, wg_allowedips.c 19-26, in host order. -/
def cidrMask (c : Nat) : Nat :=
  if c = 0 then 0 else if c ≥ 32 then 0xFFFFFFFF else (2 ^ 32 - 1) ^^^ (2 ^ (32 - c) - 1)

/-- `wg_allowedips_insert`, wg_allowedips.c 31-62. -/
def allowInsert (t : List (Option Allowed)) (ip cidr peer : Nat) :
    List (Option Allowed) × Bool :=
  let m := ip &&& cidrMask cidr
  match t.findIdx? (fun e => match e with
      | some a => a.ip == m && a.cidr == cidr
      | none => false) with
  | some i => (t.set i (some ⟨m, cidr, peer⟩), true)
  | none =>
    match t.findIdx? (fun e => e.isNone) with
    | some i => (t.set i (some ⟨m, cidr, peer⟩), true)
    | none => (t, false)

/-- One step of the loop of `wg_allowedips_lookup`: state is (best peer, best length). -/
def lookupStep (ip : Nat) (best : Option Nat × Nat) (e : Option Allowed) : Option Nat × Nat :=
  match e with
  | none => best
  | some a =>
    if ip &&& cidrMask a.cidr = a.ip then
      if best.1 = none ∨ a.cidr > best.2 then (some a.peer, a.cidr) else best
    else best

/-- `wg_allowedips_lookup`, wg_allowedips.c 69-90. -/
def allowLookup (t : List (Option Allowed)) (ip : Nat) : Option Nat :=
  (t.foldl (lookupStep ip) (none, 0)).1

/-- `wg_allowedips_remove_by_peer`, wg_allowedips.c 95-105. -/
def allowRemove (t : List (Option Allowed)) (peer : Nat) : List (Option Allowed) :=
  t.map (fun e => match e with
    | some a => if a.peer = peer then none else some a
    | none => none)

/-! ## Device -/

/-- `struct wg_device`, wolfguard.h 306-338. -/
structure Dev where
  peers : List Peer
  allowed : List (Option Allowed)
  now : Nat
  kpCtr : Nat
  underLoad : Bool
  hsCycle : Nat
  deriving Repr, DecidableEq

/-- `wolfguard_init`: `WOLFGUARD_MAX_PEERS` 8, `WOLFGUARD_MAX_ALLOWED_IPS` 32. -/
def Dev.init : Dev :=
  { peers := List.replicate 8 Peer.zero, allowed := List.replicate 32 none, now := 0,
    kpCtr := 0, underLoad := false, hsCycle := 0 }

/-- Result of `wg_cookie_validate`. -/
inductive Mac where
  | invalid | valid | withCookie
  deriving DecidableEq, Repr

/-- What happens to the device. -/
inductive Op where
  /-- `wolfguard_poll` -/
  | poll (now : Nat)
  /-- `wolfguard_add_peer` -/
  | addPeer (ip port interval : Nat)
  /-- `wolfguard_add_allowed_ip` -/
  | addAllowed (peer : Nat) (ip cidr : Nat)
  /-- `wg_allowedips_remove_by_peer` -/
  | removeAllowed (peer : Nat)
  /-- `wolfguard_set_private_key` -/
  | setKey
  /-- `wolfguard_output` -/
  | output (pkt : Bytes)
  /-- a handshake initiation arrives; `who` is the peer whose static key it authenticates -/
  | initiation (mac : Mac) (who : Option Nat) (ts : Option Nat) (sender ip port : Nat)
  /-- a handshake response arrives -/
  | response (mac : Mac) (recv : Nat) (auth : Bool) (sender ip port : Nat)
  /-- a transport message arrives; `dec sid` is what it decrypts to under session `sid` -/
  | data (recv ctr : Nat) (dec : Nat → Option Bytes) (ip port : Nat)

/-- Read byte `i`. -/
def byteAt (b : Bytes) (i : Nat) : Nat := b.getD i 0

/-- The four bytes at `i` as a big-endian number. -/
def be32 (b : Bytes) (i : Nat) : Nat :=
  byteAt b i * 2 ^ 24 + byteAt b (i + 1) * 2 ^ 16 + byteAt b (i + 2) * 2 ^ 8 + byteAt b (i + 3)

/-- Replace peer `i`. -/
def Dev.setPeer (d : Dev) (i : Nat) (p : Peer) : Dev := { d with peers := d.peers.set i p }

/-- Tag events with the peer they concern. -/
def tag (i : Nat) (es : List Ev) : List (Nat × Ev) := es.map (fun e => (i, e))

/-- `wg_find_peer_by_index`, wg_packet.c 110-141: the first active peer that has a keypair with
this index. -/
def findPeer (ps : List Peer) (idx : Nat) : Option Nat :=
  ps.findIdx? (fun p => p.active && (findKP p idx).isSome)

/-- wg_packet.c 450-466: inner packet checks and injection. -/
def innerOk (d : Dev) (i : Nat) (pt : Bytes) : Bool :=
  decide (pt.length ≥ 20) && byteAt pt 0 / 16 == 4 &&
    decide (byteAt pt 2 * 256 + byteAt pt 3 ≤ pt.length) &&
    (allowLookup d.allowed (be32 pt 12) == some i)

/-- Clear sessions and staged packets of an active peer: wolfguard.c 178-206. -/
def dropSessions (p : Peer) : Peer :=
  if p.active = false then p
  else resetHs { p with slots := List.replicate 3 KP.zero, cur := none, prev := none,
                        next := none, staged := List.replicate stagedMax [], nStaged := 0 }

/-- The per-peer loop of `wg_timers_tick`, wg_timers.c 277-293. -/
def tickAll (co : Nat → Nat → Nat) (now : Nat) : Nat → List Peer → List Peer × List (Nat × Ev)
  | _, [] => ([], [])
  | i, p :: ps =>
    let (p', es) := tick (co i) now p
    let (ps', es') := tickAll co now (i + 1) ps
    (p' :: ps', tag i es ++ es')

/-- One operation: new device and what it emitted.  `co i` is peer `i`'s stream of crypto
outcomes. -/
def step (co : Nat → Nat → Nat) (d : Dev) : Op → Dev × List (Nat × Ev)
  | .poll now =>
    -- wolfguard.c 300-306
    let (ps, es) := tickAll co now 0 d.peers
    ({ d with now := now, underLoad := decide (d.hsCycle ≥ 8), hsCycle := 0, peers := ps }, es)
  | .addPeer ip port interval =>
    -- wolfguard.c 211-248; the stream position is kept: it is not part of the program
    match d.peers.findIdx? (fun p => !p.active) with
    | none => (d, [])
    | some i =>
      (d.setPeer i { Peer.zero with active := true, epIp := ip, epPort := port,
                                    interval := interval,
                                    ptr := (d.peers.getD i Peer.zero).ptr }, [])
  | .addAllowed peer ip cidr =>
    -- wolfguard.c 250-260
    match d.peers[peer]? with
    | none => (d, [])
    | some p =>
      if p.active = false then (d, [])
      else ({ d with allowed := (allowInsert d.allowed ip cidr peer).1 }, [])
  | .removeAllowed peer => ({ d with allowed := allowRemove d.allowed peer }, [])
  | .setKey => ({ d with peers := d.peers.map dropSessions }, [])
  | .output pkt =>
    -- wolfguard.c 269-294
    if pkt.length < 20 then (d, [])
    else if byteAt pkt 0 / 16 ≠ 4 then (d, [])
    else match allowLookup d.allowed (be32 pkt 16) with
      | none => (d, [])
      | some i =>
        match d.peers[i]? with
        | none => (d, [])
        | some p =>
          if p.active = false then (d, [])
          else
            let (p', es) := packetSend (co i) d.now p pkt
            (d.setPeer i p', tag i es)
  | .initiation mac who ts sender ip port =>
    if mac = .invalid then (d, [])
    else if d.underLoad = true ∧ mac ≠ .withCookie then (d, [(0, .cookieReply)])
    else
      let d := { d with hsCycle := (d.hsCycle + 1) % 65536 }
      match who with
      | none => (d, [])
      | some i =>
        match d.peers[i]? with
        | none => (d, [])
        | some p =>
          if p.active = false then (d, [])
          else
            let (p', es, ok) := peerInitiation (co i) d.now (d.kpCtr + 1) p ts sender ip port
            ({ d.setPeer i p' with kpCtr := if ok then d.kpCtr + 1 else d.kpCtr }, tag i es)
  | .response mac recv auth sender ip port =>
    if mac = .invalid then (d, [])
    else if d.underLoad = true ∧ mac ≠ .withCookie then (d, [(0, .cookieReply)])
    else
      let d := { d with hsCycle := (d.hsCycle + 1) % 65536 }
      match d.peers.findIdx? (fun p => p.active && p.hs == .createdInit && p.hsLocal == recv) with
      | none => (d, [])
      | some i =>
        let p := d.peers.getD i Peer.zero
        let (p', es, ok) := peerResponse (co i) d.now (d.kpCtr + 1) p auth sender ip port
        ({ d.setPeer i p' with kpCtr := if ok then d.kpCtr + 1 else d.kpCtr }, tag i es)
  | .data recv ctr dec ip port =>
    match findPeer d.peers recv with
    | none => (d, [])
    | some i =>
      let p := d.peers.getD i Peer.zero
      match findKP p recv with
      | none => (d, [])
      | some s =>
        let (p', es, pt) := peerData d.now p s ctr ip port dec
        match pt with
        | none => (d.setPeer i p', tag i es)
        | some pt =>
          (d.setPeer i p', tag i (es ++ if innerOk d i pt then [.inject pt] else []))

/-- A history: the device after it, and everything emitted, oldest first, each effect with the
device clock at that moment. -/
def drun (co : Nat → Nat → Nat) (d : Dev) : List Op → Dev × List (Nat × Nat × Ev)
  | [] => (d, [])
  | o :: os =>
    let r := step co d o
    let rest := drun co r.1 os
    (rest.1, r.2.map (fun e => (r.1.now, e)) ++ rest.2)

end Wolf.Wg
