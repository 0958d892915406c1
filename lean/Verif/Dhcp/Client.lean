import Verif.Dhcp.Opts
/-!
# C31–C33: the DHCP client

Model of the DHCP client of `src/wolfip.c` (8327–8592, 8789–9455, and the duplicate-address hook
9789–9797): replies, timers, retransmissions, and the interface configuration they write.

Addresses, masks and lease values are 32-bit naturals; times are natural numbers of milliseconds (the
`uint64_t` clock does not wrap in the model). Randomness, the success of a send, the success of an ARP
probe and room in the timer heap are inputs of each event (`Env`). The timer heap is represented by the
entries that belong to this client; that arming, cancelling and firing behave like a list is C11.
-/
namespace Wolf.Dhcp

/-- `enum dhcp_state`. src/wolfip.c 1142–1150. -/
inductive Ph where
  | off | disc | req | bound | renew | rebind | dad
deriving DecidableEq, Repr

/-- What the environment answers during one event. -/
structure Env where
  sendOk : Bool
  probeOk : Bool
  room : Bool
  rnd : Nat

/-- The client's part of `struct wolfIP` and the primary interface's address.
src/wolfip.c 1440–1460. `heap` is the client's entries in the timer heap (id, deadline); `sent` records
the types of the messages handed to the socket, oldest first (ghost). -/
structure Cli where
  ph : Ph
  xid : Nat
  server : Nat
  offIp : Nat
  offMask : Nat
  ip : Nat
  mask : Nat
  gw : Nat
  dns : Nat
  pinned : Bool
  heap : List (Nat × Nat)
  timer : Nat
  nextId : Nat
  count : Nat
  renewAt : Nat
  rebindAt : Nat
  expires : Nat
  probes : Nat
  tick : Nat
  sent : List Nat
deriving DecidableEq

/-- `dhcp_schedule_timer_at`. With a full heap the insertion returns `NO_TIMER`.
src/wolfip.c 8327–8337, 2536–2558. -/
def sched (d : Cli) (e : Env) (w : Nat) : Cli :=
  if e.room then
    { d with heap := d.heap ++ [(d.nextId, if w > d.tick then w else d.tick + 1)], timer := d.nextId, nextId := d.nextId + 1 }
  else { d with timer := 0 }

/-- Remove the entry `timer` from the heap. -/
def heapCancel (d : Cli) : Cli :=
  if d.timer = 0 then d else { d with heap := d.heap.filter (fun x => x.1 ≠ d.timer), timer := 0 }

/-- `dhcp_cancel_timer`. src/wolfip.c 8573–8583. -/
def cancelTimer (d : Cli) : Cli :=
  { heapCancel d with count := 0, renewAt := 0, rebindAt := 0, expires := 0 }

/-- `dhcp_deconfigure_lease`. src/wolfip.c 8585–8592. -/
def deconfigure (d : Cli) : Cli :=
  { d with ip := 0, mask := 0, gw := 0, offIp := 0, server := 0, dns := if d.pinned then d.dns else 0 }

/-- `dhcp_backoff_delay`. src/wolfip.c 8344–8355. -/
def backoff (count base : Nat) : Nat :=
  if base * 2 ^ (if count > 16 then 16 else count) > 64000 then 64000 else base * 2 ^ (if count > 16 then 16 else count)

/-- `dhcp_discover_retry_delay`. src/wolfip.c 8361–8370. -/
def discoverDelay (count rnd : Nat) : Nat :=
  (if backoff count 4000 > 1000 then backoff count 4000 - 1000 else 0) + rnd % 2001

/-- `dhcp_renew_rebind_delay_ms`. src/wolfip.c 8390–8399. -/
def renewDelay (remaining : Nat) : Nat :=
  let a := remaining / 2
  let b := if a < 60000 then 60000 else a
  let c := if b > remaining then remaining else b
  if c = 0 then 1 else c

/-- `dhcp_schedule_renew_rebind_retry`. src/wolfip.c 8401–8410. -/
def schedRenew (d : Cli) (e : Env) (deadline : Nat) : Cli :=
  if deadline = 0 then d
  else sched d e (d.tick + renewDelay (if deadline > d.tick then deadline - d.tick else 0))

/-- The three lease times `dhcp_schedule_lease_timer` settles on, in seconds. src/wolfip.c 8431–8455. -/
def leaseTimes (l t1 t2 : Nat) : Nat × Nat :=
  let bad := t1 = 0 ∨ t2 = 0 ∨ t1 ≥ l ∨ t2 ≥ l ∨ t2 ≤ t1
  let a := if bad then l / 2 else t1
  let b := if bad then l * 7 / 8 else t2
  let a := if a = 0 then 1 else a
  let b := if b ≤ a then a + 1 else b
  let b := if b > l then l else b
  (a, b)

/-- `dhcp_schedule_lease_timer`. src/wolfip.c 8427–8466. -/
def schedLease (d : Cli) (e : Env) (l t1 t2 : Nat) : Cli :=
  if l = 0 then d
  else
    sched { d with renewAt := d.tick + (leaseTimes l t1 t2).1 * 1000,
                   rebindAt := d.tick + (leaseTimes l t1 t2).2 * 1000,
                   expires := d.tick + l * 1000 } e (d.tick + (leaseTimes l t1 t2).1 * 1000)

/-- `dhcp_send_request`; the flag tells whether the request was queued. The message itself is
`mkRequest` (Wire). src/wolfip.c 9146–9254. -/
def sendRequest (d : Cli) (e : Env) : Cli × Bool :=
  let d1 := if d.ph = .renew ∨ d.ph = .rebind then d else { d with ph := .req }
  if e.sendOk then
    let d2 := { d1 with sent := d1.sent ++ [3] }
    (if d1.ph = .renew then schedRenew d2 e d2.rebindAt
     else if d1.ph = .rebind then schedRenew d2 e d2.expires
     else sched d2 e (d2.tick + backoff d2.count 2000 + e.rnd % 200), true)
  else (sched d1 e (d1.tick + 1), false)

/-- `dhcp_send_discover`. src/wolfip.c 9266–9333. -/
def sendDiscover (d : Cli) (e : Env) : Cli × Bool :=
  if e.sendOk then
    ({ sched { d with sent := d.sent ++ [1] } e (d.tick + discoverDelay d.count e.rnd) with ph := .disc }, true)
  else (sched { d with ph := .disc } e (d.tick + 1), false)

/-- Drop the lease and start over: the sequence at 8497–8501, 8537–8541, 9124–9128. -/
def restart (d : Cli) (e : Env) : Cli := (sendDiscover { deconfigure (cancelTimer d) with ph := .off } e).1

/-- Count the retransmission if it went out. -/
def bump (r : Cli × Bool) : Cli := if r.2 then { r.1 with count := r.1.count + 1 } else r.1

/-- `dhcp_timer_cb`. src/wolfip.c 8468–8571. -/
def timerCb (d0 : Cli) (e : Env) : Cli :=
  let d := { d0 with timer := 0 }
  match d.ph with
  | .disc => if d.count < 3 then bump (sendDiscover d e) else { d with ph := .off }
  | .req => if d.count < 3 then bump (sendRequest d e) else { deconfigure d with ph := .off }
  | .bound =>
    if d.expires ≠ 0 ∧ d.tick ≥ d.expires then restart d e
    else if d.renewAt ≠ 0 ∧ d.tick < d.renewAt then d
    else bump (sendRequest { d with ph := .renew, count := 0, xid := e.rnd } e)
  | .renew =>
    if d.rebindAt ≠ 0 ∧ d.tick ≥ d.rebindAt then bump (sendRequest { d with ph := .rebind, count := 0 } e)
    else bump (sendRequest d e)
  | .rebind =>
    if d.expires ≠ 0 ∧ d.tick ≥ d.expires then restart d e
    else bump (sendRequest d e)
  | .dad =>
    if d.probes < 3 then
      if e.probeOk then sched { d with probes := d.probes + 1 } e (d.tick + 1000)
      else sched d e (d.tick + 1)
    else sched { d with probes := 0, ph := .bound } e d.renewAt
  | .off => d

/-- A received message: the fields the client looks at. `len` is the received length; `mine` says that
`hlen` is 6 and `chaddr` is the interface's MAC (src/wolfip.c 9111–9116). -/
structure Msg where
  len : Nat
  mine : Bool
  op : Nat
  magic : Nat
  mxid : Nat
  yiaddr : Nat
  regs : Regions

/-- `DHCP_OPT_data_to_u32`. src/wolfip.c 8594–8598. -/
def u32 (p : List Nat) : Nat := p.getD 0 0 * 16777216 + p.getD 1 0 * 65536 + p.getD 2 0 * 256 + p.getD 3 0

/-- `dhcp_lease_ip_sane`. src/wolfip.c 8792–8802, `wolfIP_ip_is_multicast`. -/
def sane (ip mask : Nat) : Bool :=
  if ip = 0 ∨ ip = 4294967295 then false
  else if ip / 268435456 = 14 then false
  else if mask ≠ 0 ∧ ip ||| mask = 4294967295 then false
  else true

/-- The header checks shared by the three parsers. src/wolfip.c 8810–8817, 8895–8903, 8948–8955. -/
def header (d : Cli) (m : Msg) : Bool :=
  decide (¬ m.len < 240 ∧ m.op = 2 ∧ m.magic = 0x63825363 ∧ m.mxid = d.xid)

/-- The inner loop of `dhcp_parse_offer`: `none` is a short option; else the server id, whether one was
seen, and the mask. src/wolfip.c 8842–8866. -/
def offerOpts : List (Nat × List Nat) → Nat × Bool × Nat → (Nat × Bool × Nat) × Bool
  | [], a => (a, true)
  | (c, p) :: t, (srv, saw, mask) =>
    if c = 54 then
      if p.length < 4 then ((srv, saw, mask), false) else offerOpts t (u32 p, true, mask)
    else if c = 1 then
      if p.length < 4 then ((srv, saw, mask), false) else offerOpts t (srv, saw, u32 p)
    else offerOpts t (srv, saw, mask)

/-- The outer loop of `dhcp_parse_offer` and `dhcp_parse_ack`: skip to the options behind an option 53.
`ack` makes the first option 53 final (the `break` at 9091); an offer scan goes on looking. -/
inductive Found where
  | bad
  | no
  | rest (l : List (Nat × List Nat))

def findType (ty : Nat) (first : Bool) : List (Nat × List Nat) → Found
  | [] => .no
  | (c, p) :: t =>
    if c = 53 then
      if p.length ≠ 1 then .bad
      else if p.getD 0 0 = ty then .rest t
      else if first then .bad
      else findType ty first t
    else findType ty first t

/-- `dhcp_parse_offer`. The server id is written while scanning, even if the offer is then rejected.
src/wolfip.c 8804–8883. -/
def parseOffer (d : Cli) (m : Msg) : Cli × Bool :=
  if header d m = false then (d, false)
  else match options m.regs true with
  | .done items f =>
    match findType 2 false items with
    | .bad => (d, false)
    | .no =>
      if f ≠ .sawEnd then (d, false)
      else if d.server ≠ 0 ∧ d.offIp ≠ 0 then ({ d with ph := .req }, true)
      else (d, false)
    | .rest l =>
      let r := offerOpts l (d.server, false, 4294967040)
      let d' := { d with server := r.1.1 }
      if r.2 = false ∨ f ≠ .sawEnd ∨ r.1.2.1 = false then (d', false)
      else if sane m.yiaddr r.1.2.2 then
        ({ cancelTimer { d' with offIp := m.yiaddr, offMask := r.1.2.2 } with ph := .req }, true)
      else (d', false)
  | _ => (d, false)

/-- The scan of `dhcp_msg_type`: the last message type and the last server id.
src/wolfip.c 8905–8913. -/
def typeScan : List (Nat × List Nat) → Option Nat × Option Nat → Option Nat × Option Nat
  | [], a => a
  | (c, p) :: t, (ty, srv) =>
    if c = 53 ∧ p.length = 1 then typeScan t (some (p.getD 0 0), srv)
    else if c = 54 ∧ p.length ≥ 4 then typeScan t (ty, some (u32 p))
    else typeScan t (ty, srv)

/-- `dhcp_msg_type`. src/wolfip.c 8885–8920. -/
def msgType (d : Cli) (m : Msg) : Option Nat :=
  if header d m = false then none
  else match options m.regs false with
  | .done items _ =>
    let r := typeScan items (none, none)
    if d.server ≠ 0 ∧ r.2 ≠ some d.server then none else r.1
  | _ => none

/-- Values collected from an acknowledgement. src/wolfip.c 8929–8946. -/
structure Cand where
  ip : Option Nat
  mask : Option Nat
  gw : Option Nat
  dns : Nat
  srv : Option Nat
  lease : Nat
  t1 : Nat
  t2 : Nat

def Cand.init : Cand := { ip := none, mask := none, gw := none, dns := 0, srv := none, lease := 0, t1 := 0, t2 := 0 }

/-- The inner loop of `dhcp_parse_ack`; `none` rejects the message. `server` and `dns` are the client's
current values. src/wolfip.c 8975–9029. -/
def ackOpts (server dns : Nat) : List (Nat × List Nat) → Cand → Option Cand
  | [], a => some a
  | (c, p) :: t, a =>
    if c = 54 then
      if p.length < 4 then none
      else if server ≠ 0 ∧ u32 p ≠ server then none
      else ackOpts server dns t { a with srv := some (u32 p) }
    else if c = 50 then
      if p.length < 4 then none else ackOpts server dns t { a with ip := some (u32 p) }
    else if c = 1 then
      if p.length < 4 then none else ackOpts server dns t { a with mask := some (u32 p) }
    else if c = 3 then
      if p.length < 4 then none else ackOpts server dns t { a with gw := some (u32 p) }
    else if c = 6 ∧ dns = 0 then
      if p.length < 4 then none else ackOpts server dns t { a with dns := if a.dns = 0 then u32 p else a.dns }
    else if c = 51 then
      if p.length < 4 then none else ackOpts server dns t { a with lease := u32 p }
    else if c = 58 then
      if p.length < 4 then none else ackOpts server dns t { a with t1 := u32 p }
    else if c = 59 then
      if p.length < 4 then none else ackOpts server dns t { a with t2 := u32 p }
    else ackOpts server dns t a

/-- The commit of `dhcp_parse_ack`. src/wolfip.c 9053–9087. -/
def commit (d : Cli) (e : Env) (a : Cand) (srv ip mask : Nat) : Cli :=
  let d1 := cancelTimer { d with server := srv, ip := ip, mask := mask, gw := a.gw.getD d.gw,
                                 dns := if d.dns = 0 ∧ a.dns ≠ 0 then a.dns else d.dns }
  let d2 := heapCancel (schedLease { d1 with offIp := ip, ph := .dad, probes := 0 } e a.lease a.t1 a.t2)
  sched (if e.probeOk then { d2 with probes := 1 } else d2) e (d2.tick + 1000)

/-- `dhcp_parse_ack`, with `ETHERNET` defined and a primary interface present. The timer heap cannot be
full at the second insertion when it had room for the first, which is cancelled in between.
src/wolfip.c 8922–9096. -/
def parseAck (d : Cli) (e : Env) (m : Msg) : Cli :=
  if header d m = false then d
  else match options m.regs true with
  | .done items f =>
    match findType 5 true items with
    | .rest l =>
      match ackOpts d.server d.dns l Cand.init with
      | none => d
      | some a =>
        if f ≠ .sawEnd then d
        else
          match a.srv with
          | none => d
          | some srv =>
            let ip := a.ip.getD m.yiaddr
            let mask := a.mask.getD (if d.mask ≠ 0 then d.mask else d.offMask)
            if a.lease ≠ 0 ∧ mask ≠ 0 ∧ sane ip mask = true then commit d e a srv ip mask else d
    | _ => d
  | _ => d

/-- `dhcp_poll`. src/wolfip.c 9098–9144. -/
def poll (d : Cli) (e : Env) (m : Msg) : Cli :=
  if m.mine = false then d
  else if d.ph = .disc then
    (if (parseOffer d m).2 then (sendRequest (parseOffer d m).1 e).1 else (parseOffer d m).1)
  else if d.ph = .req ∨ d.ph = .renew ∨ d.ph = .rebind then
    (if msgType d m = some 6 then restart d e else parseAck d e m)
  else d

/-- `dhcp_dad_conflict`, called from the ARP input when the address under test is claimed.
src/wolfip.c 9444–9455, 9793–9796. -/
def conflict (d : Cli) (e : Env) : Cli :=
  if d.ph = .dad then
    (sendDiscover { deconfigure (cancelTimer { d with probes := 0 }) with ph := .off, count := 0 } e).1
  else d

/-- `dhcp_client_init`; `sockOk` says that the socket could be created and bound.
src/wolfip.c 9350–9386. -/
def clientInit (d : Cli) (e : Env) (sockOk : Bool) (xid : Nat) : Cli :=
  if d.ph ≠ .off then d
  else if sockOk then (sendDiscover { d with xid := xid } e).1
  else { d with xid := xid }

/-- What can happen to the client. -/
inductive Ev where
  | init (e : Env) (sockOk : Bool) (xid : Nat)
  /-- the clock advances: `wolfIP_poll(s, now)` stores the time -/
  | advance (now : Nat)
  /-- a due entry of the heap fires -/
  | fire (id : Nat) (e : Env)
  | recv (e : Env) (m : Msg)
  | claim (e : Env)

/-- One event. Firing takes the entry out of the heap before the callback. src/wolfip.c 11678–11716. -/
def Cli.step (d : Cli) : Ev → Cli
  | .init e ok x => clientInit d e ok x
  | .advance now => if now ≥ d.tick then { d with tick := now } else d
  | .fire id e =>
    match d.heap.find? (fun x => x.1 = id) with
    | some x => if x.2 ≤ d.tick then timerCb { d with heap := d.heap.filter (fun y => y.1 ≠ id) } e else d
    | none => d
  | .recv e m => poll d e m
  | .claim e => conflict d e

/-- A client that has not been started, on an interface with the given configuration. -/
def Cli.start (ip mask gw dns : Nat) (pinned : Bool) (tick : Nat) : Cli :=
  { ph := .off, xid := 0, server := 0, offIp := 0, offMask := 0, ip, mask, gw, dns, pinned, heap := [], timer := 0,
    nextId := 1, count := 0, renewAt := 0, rebindAt := 0, expires := 0, probes := 0, tick, sent := [] }

def Cli.run (d : Cli) (l : List Ev) : Cli := l.foldl Cli.step d

end Wolf.Dhcp
