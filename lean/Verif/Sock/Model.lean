import Verif.Route.Model
import Verif.Tcp.Seq
/-!
# The TCP socket table: API calls, segment input, timers, ICMP errors and event dispatch

Models `src/wolfip.c` 3065–3126 (`tcp_new_socket`), 2864–2952 (`icmp_try_deliver_tcp_error`), 3652–3740
(`tcp_send_reset_reply`), 3905–4066 (control timers, revert to LISTEN), 5106–5150 (the state part of `tcp_ack`),
5335–5369, 5371–5866 (`tcp_input`), 5868–6040 (`tcp_rto_cb`), 6138–6176 (`close_socket`), 6302–6495 (`connect`, TCP
arm), 6497–6616 (`accept`), 7662–7735 (`close`, TCP arm), 7917–8010 (`bind`, TCP arm), 8148–8170 (`listen`) and
11215–11263 (`handle_socket_callbacks`, TCP part).

What is abstracted (each is an arbitrary input of the operation, so the theorems hold for every value):
* the byte queues: whether a control segment could be queued, the free space of the receive ring, RCV.NXT after
  `tcp_recv` (the receive path itself is `Verif.Tcp.Recv`), whether FIN_WAIT_1 is drained, whether the data
  retransmission limit is reached (the send path is `Verif.Tcp.Snd`);
* the PAWS verdict (`Verif.Tcp.Paws`), the peer's MSS option, random numbers and the filter's verdicts;
* timers: `rto k` may happen at any time, also when no timer is armed (more behaviours than the code has);
* checksum and length checks before socket lookup (`Verif.Csum`); window scale, congestion and RTT variables, the
  interface index and the TTL of the last packet are left out.
A callback is application code: it runs between `cbBegin` and `cbEnd` and may make any API call.
-/
namespace Wolf.Sock
open Wolf.Tcp (seqInc seqLt seqLeq)
open Wolf.Route (Ip)

/-- `enum tcp_state`, src/wolfip.c 1174–1186. -/
inductive TS | closed | listen | synSent | synRcvd | est | fw1 | fw2 | closing | timeWait | closeWait | lastAck
deriving DecidableEq, Repr

/-- `state > TCP_LISTEN`. -/
def TS.conn : TS → Bool
  | .closed => false
  | .listen => false
  | _ => true

/-- A slot of `tcpsockets`: the fields of `struct tsocket`/`struct tcpsocket` (src/wolfip.c 1188–1266) that the
state machine reads. `used` is `proto != 0`, `lip`/`rip`/`blip` are local_ip, remote_ip, bound_local_ip, `una` is
snd_una, `evR/evW/evC` the three event bits, `pend` close_notify_pending, `ctrl`, `fw2t`, `preT` the three
`*_active` flags of the shared timer, `retries` ctrl_rto_retries, `mss` peer_mss. -/
structure Sock where
  used : Bool := false
  st : TS := .closed
  isL : Bool := false
  sport : Nat := 0
  dport : Nat := 0
  lip : Ip := 0
  rip : Ip := 0
  blip : Ip := 0
  seq : Nat := 0
  una : Nat := 0
  ack : Nat := 0
  last : Nat := 0
  mss : Nat := 0
  cb : Option Nat := none
  evR : Bool := false
  evW : Bool := false
  evC : Bool := false
  pend : Bool := false
  ctrl : Bool := false
  fw2t : Bool := false
  preT : Bool := false
  retries : Nat := 0
deriving DecidableEq, Repr

/-- The stack: interface configuration and routes, the TCP slots, and the slot whose callback is running. -/
structure St where
  net : Route.St
  socks : List Sock
  inCb : Option Nat := none

/-- `wolfIP_init`: all slots zero. -/
def init (n : Nat) (net : Route.St) : St := { net := net, socks := List.replicate n {} }

/-- `wolfIP_ip_is_multicast`, src/wolfip.c 1863–1866. -/
def isMcast (a : Ip) : Bool := (a &&& 0xF0000000#32) == 0xE0000000#32

/-- `wolfIP_if_for_local_ip`, found flag. src/wolfip.c 2226–2248. -/
def isLocal (net : Route.St) (a : Ip) : Bool := a != 0#32 && net.confs.any (fun c => c.ip == a)

/-- The address a wildcard bind records: that of the primary interface. src/wolfip.c 2235–2236, 7992–8002. -/
def anyAddr (net : Route.St) : Ip := (net.confs.getD (Route.primaryIf net) ⟨0, 0, 0⟩).ip

/-- The address an unbound connect uses: that of the outgoing interface, else the primary one. src/wolfip.c
6449–6461. -/
def connAddr (net : Route.St) (r : Ip) : Ip :=
  let i := match Route.lookup net r with | some (i, _) => i | none => 0
  let c := (net.confs.getD i ⟨0, 0, 0⟩).ip
  if c ≠ 0 then c else anyAddr net

/-- An incoming segment after the checksum test: ports, addresses, numbers, flags (`oth`: any bit besides SYN, ACK,
RST, FIN), the data offset in bytes and the IP total length. -/
structure Seg where
  sport : Nat
  dport : Nat
  src : Ip
  dst : Ip
  seq : Nat
  ack : Nat
  syn : Bool := false
  ackF : Bool := false
  rst : Bool := false
  fin : Bool := false
  oth : Bool := false
  off : Nat := 20
  iplen : Nat := 40
deriving DecidableEq, Repr

/-- Payload length. -/
def Seg.len (g : Seg) : Nat := g.iplen - (20 + g.off)

/-- The header length tests. src/wolfip.c 3671–3675, 5443–5449. -/
def Seg.bad (g : Seg) : Prop := g.off < 20 ∨ g.iplen < 20 + g.off

instance (g : Seg) : Decidable g.bad := inferInstanceAs (Decidable (_ ∨ _))

/-- A reset sent without a connection: `tcp_send_reset_reply`. -/
structure Rst where
  sport : Nat
  dport : Nat
  src : Ip
  dst : Ip
  seq : Nat
  ack : Nat
  ackF : Bool
deriving DecidableEq, Repr

/-- What the stack does that others can see: a pure ACK, a SYN or SYN-ACK with its sequence number, a FIN (all as
handed to the transmit queue), a reset reply, payload handed to
the socket's receive buffer, a callback `cb` invoked for slot `k` (`closed`: with CB_EVENT_CLOSED). -/
inductive Ev
  | ack (k : Nat)
  | syn (k seq : Nat)
  | fin (k : Nat)
  | rst (r : Rst)
  | data (k : Nat)
  | call (k cb : Nat) (closed : Bool)
deriving DecidableEq, Repr

/-- `tcp_send_reset_reply`: never for a RST, nor for a malformed header; the timestamp option is left out.
src/wolfip.c 3652–3740. -/
def resetReply (g : Seg) : List Ev :=
  if g.rst then []
  else if g.bad then []
  else if g.ackF then [.rst ⟨g.dport, g.sport, g.dst, g.src, g.ack, 0, false⟩]
  else
    let a := seqInc g.seq g.len
    let a := if g.syn then seqInc a 1 else a
    let a := if g.fin then seqInc a 1 else a
    [.rst ⟨g.dport, g.sport, g.dst, g.src, 0, a, true⟩]

/-- `close_socket` for a TCP slot: zeroed; with a callback armed it is kept, reserved for the final event.
src/wolfip.c 6138–6176. -/
def closeSock (t : Sock) : Sock :=
  if t.used ∧ t.cb ≠ none then { used := true, cb := t.cb, evC := true, pend := true } else {}

/-- `tcp_listener_revert_to_listen`, src/wolfip.c 4014–4066. -/
def revert (t : Sock) (rnd : Nat) : Sock :=
  { used := t.used, st := .listen, isL := true, sport := t.sport, dport := 0, rip := 0, blip := t.blip,
    lip := if t.blip ≠ 0 then t.blip else t.lip, seq := rnd, mss := 536, cb := t.cb, pend := t.pend }

/-- What the abstracted parts answer for one socket: PAWS verdict, receive space, RCV.NXT after `tcp_recv`, fresh
random number, peer MSS option value, whether the peer window grew, whether there is room to send. -/
structure Orc where
  pawsOk : Bool := true
  pawsAck : Bool := false
  space : Nat := 0
  rcvNxt : Nat := 0
  rnd : Nat := 0
  mss : Nat := 536
  winUp : Bool := false
  txRoom : Bool := true

/-- `tcp_segment_acceptable`, src/wolfip.c 3136–3162. -/
def acceptable (nxt wnd : Nat) (g : Seg) : Bool :=
  let n := g.len + (if g.syn then 1 else 0) + (if g.fin then 1 else 0)
  if n = 0 then
    if wnd = 0 then g.seq == nxt else seqLeq nxt g.seq && seqLt g.seq (seqInc nxt wnd)
  else if wnd = 0 then false
  else (seqLeq nxt g.seq && seqLt g.seq (seqInc nxt wnd)) ||
    (seqLeq nxt (seqInc g.seq (n - 1)) && seqLt (seqInc g.seq (n - 1)) (seqInc nxt wnd))

/-- `tcp_listen_ack_matches_child_socket`: another slot holds the connection this segment belongs to.
src/wolfip.c 5342–5368. -/
def childOf (socks : List Sock) (i : Nat) (g : Seg) : Bool :=
  socks.zipIdx.any (fun (t, k) => k != i && t.used && t.st.conn && t.sport == g.dport && t.dport == g.sport && t.lip == g.dst && t.rip == g.src)

/-- Another slot already has this connection (the loop in the LISTEN arm). src/wolfip.c 5605–5620. -/
def dupOf (socks : List Sock) (i : Nat) (t : Sock) (g : Seg) : Bool :=
  socks.zipIdx.any (fun (u, k) => k != i && u.st.conn && u.sport == t.sport && u.dport == g.sport && u.rip == g.src && u.lip == g.dst)

/-- Whether the segment belongs to the slot. src/wolfip.c 5410–5438. -/
def hit (t : Sock) (g : Seg) : Prop :=
  t.used = true ∧ ¬ (t.st = .closed ∧ t.evC = true) ∧ t.sport = g.dport ∧
  (t.st.conn = true → t.dport = g.sport ∧ t.rip = g.src ∧ (t.lip = 0 ∨ t.lip = g.dst))

instance (t : Sock) (g : Seg) : Decidable (hit t g) := inferInstanceAs (Decidable (_ ∧ _ ∧ _ ∧ _))

/-- An acknowledgment of exactly our SYN. src/wolfip.c 5549–5551, 5584–5588. -/
def synAckOk (t : Sock) (a : Nat) : Bool := seqLt t.una a && !seqLt (seqInc t.seq 1) a

/-- The RST arm. src/wolfip.c 5502–5571. -/
def rstIn (i : Nat) (t : Sock) (g : Seg) (o : Orc) : Sock × List Ev :=
  match t.st with
  | .listen => (t, [])
  | .synRcvd =>
    if g.seq ≠ t.ack then (t, [])
    else if t.isL then ({ t with st := .listen, evR := false, rip := 0, dport := 0, ack := 0 }, [])
    else if t.cb ≠ none then ({ t with st := .closed, evC := true }, [])
    else (closeSock { t with st := .closed }, [])
  | .synSent =>
    if g.ackF = false then (t, [])
    else if synAckOk t g.ack then (closeSock t, []) else (t, [])
  | _ =>
    if g.seq ≠ t.ack then
      if o.space ≠ 0 ∧ seqLeq t.ack g.seq = true ∧ seqLt g.seq (seqInc t.ack o.space) = true then (t, [.ack i]) else (t, [])
    else (closeSock t, [])

/-- A SYN (without RST or ACK) on a listening slot. `true`: the loop stops here. src/wolfip.c 5592–5643. -/
def listenSyn (s : St) (i : Nat) (t : Sock) (g : Seg) (o : Orc) : Sock × List Ev × Bool :=
  if g.dst = 0 then (t, [], false)
  else if t.blip ≠ 0 ∧ t.blip ≠ g.dst then (t, [], false)
  else if dupOf s.socks i t g then (t, [], false)
  else if isLocal s.net g.dst = false then (t, [], false)
  else ({ t with lip := g.dst, st := .synRcvd, ack := seqInc g.seq 1, seq := o.rnd, una := o.rnd, dport := g.sport, rip := g.src,
                 evR := true, ctrl := true, retries := 0, fw2t := false }, [.syn i o.rnd], true)

/-- The state part of `tcp_ack`, with SND.UNA. src/wolfip.c 5106–5150, 5174–5188. -/
def ackIn (t : Sock) (a : Nat) : Sock :=
  let finAcked := seqLeq (seqInc t.last 1) a
  if t.st = .lastAck ∧ finAcked = true then
    if t.cb ≠ none then { t with st := .closed, evC := true, ctrl := false, retries := 0 } else closeSock { t with st := .closed }
  else
    let t := if t.st = .fw1 ∧ finAcked = true then { t with st := .fw2, ctrl := false, retries := 0, fw2t := true }
      else if t.st = .closing ∧ finAcked = true then { t with st := .timeWait, ctrl := false, retries := 0 } else t
    if t.una ≠ a ∧ seqLeq t.una a = true ∧ seqLeq a t.seq = true then { t with una := a } else t

/-- States in which `tcp_recv` takes data. src/wolfip.c 4311–4316. -/
def canRecv : TS → Bool
  | .est | .closeWait | .fw1 | .fw2 => true
  | _ => false

/-- `tcp_recv`: RCV.NXT becomes what the receive path says (it always acknowledges). src/wolfip.c 4302–4350. -/
def recvIn (i : Nat) (t : Sock) (o : Orc) : Sock × List Ev :=
  if canRecv t.st then ({ t with ack := o.rcvNxt, evR := t.evR || decide (o.rcvNxt ≠ t.ack) }, [.data i, .ack i]) else (t, [])

/-- The FIN part of the synchronized states. src/wolfip.c 5813–5857. -/
def finIn (i : Nat) (t : Sock) (g : Seg) : Sock × List Ev :=
  if (g.len = 0 ∧ t.ack ≠ g.seq) ∨ (g.len > 0 ∧ t.ack ≠ seqInc g.seq g.len) then (t, [.ack i])
  else
    let st := match t.st with | .est => .closeWait | .fw1 => .closing | .fw2 => .timeWait | x => x
    let a := if g.len > 0 then seqInc (seqInc g.seq g.len) 1 else seqInc g.seq 1
    ({ t with st := st, ack := a, evC := true, evR := true, fw2t := if t.st = .fw2 then false else t.fw2t }, [.ack i])

/-- ESTABLISHED, CLOSE_WAIT, FIN_WAIT_1, FIN_WAIT_2, CLOSING. `true`: return. src/wolfip.c 5772–5858. -/
def syncIn (i : Nat) (t : Sock) (g : Seg) (o : Orc) : Sock × List Ev × Bool :=
  if o.pawsOk = false then (t, if o.pawsAck then [.ack i] else [], false)
  else if acceptable t.ack o.space g = false then (t, [.ack i], false)
  else if g.syn then (t, [.ack i], false)
  else if g.ackF = false then (t, [], false)
  else
    let t1 := ackIn t g.ack
    if t1.st = .closed then (t1, [], false)
    else if g.len > 0 ∧ (t1.st = .lastAck ∨ t1.st = .closing ∨ t1.st = .closed) then (t1, [], true)
    else
      let r := if g.len > 0 then recvIn i t1 o else (t1, [])
      if g.fin then
        let f := finIn i r.1 g
        (f.1, r.2 ++ f.2, false)
      else (r.1, r.2, false)

/-- SYN_RCVD. src/wolfip.c 5665–5728. -/
def rcvdIn (i : Nat) (t : Sock) (g : Seg) (o : Orc) : Sock × List Ev :=
  if g.syn = true ∧ g.ackF = false ∧ seqInc g.seq 1 = t.ack then (t, [.syn i t.seq])
  else if g.ackF then
    if acceptable t.ack o.space g = false then (t, [.ack i])
    else if g.ack ≠ seqInc t.una 1 then (t, resetReply g)
    else
      let t1 := { t with st := .est, ctrl := false, retries := 0, preT := t.preT || t.isL, seq := g.ack, una := g.ack, evW := t.evW || o.txRoom }
      let r := if g.len > 0 then recvIn i t1 o else (t1, [])
      if g.fin then
        if r.1.ack = seqInc g.seq g.len then
          ({ r.1 with st := .closeWait, ack := seqInc (seqInc g.seq g.len) 1, evR := true }, r.2 ++ [.ack i])
        else (r.1, r.2 ++ [.ack i])
      else r
  else (t, [])

/-- LAST_ACK. src/wolfip.c 5740–5771. -/
def lastAckIn (i : Nat) (t : Sock) (g : Seg) (o : Orc) : Sock × List Ev :=
  if o.pawsOk = false then (t, if o.pawsAck then [.ack i] else [])
  else if acceptable t.ack o.space g = false then (t, [.ack i])
  else if g.syn then (t, [.ack i])
  else if g.ackF then (ackIn t g.ack, []) else (t, [])

/-- The last part of the loop body, by state. src/wolfip.c 5664–5858. -/
def bodyIn (i : Nat) (t : Sock) (g : Seg) (o : Orc) : Sock × List Ev × Bool :=
  match t.st with
  | .synRcvd => let r := rcvdIn i t g o; (r.1, r.2, false)
  | .timeWait => (t, if o.pawsOk = false ∧ o.pawsAck = false then [] else [.ack i], false)
  | .lastAck => let r := lastAckIn i t g o; (r.1, r.2, false)
  | .est | .closeWait | .fw1 | .fw2 | .closing => syncIn i t g o
  | _ => (t, [], false)

/-- The body of the loop of `tcp_input` for slot `i` once the segment is known to belong to it; `true`: the loop
stops. src/wolfip.c 5439–5861. -/
def sockIn (s : St) (i : Nat) (t : Sock) (g : Seg) (o : Orc) : Sock × List Ev × Bool :=
  if g.bad then (t, [], true)
  else if t.st = .listen ∧ g.rst = true then (t, [], false)
  else if t.st = .listen ∧ g.ackF = true then (t, if childOf s.socks i g then [] else resetReply g, false)
  else
    let t := if g.syn = true ∧ (t.st = .listen ∨ t.st = .synSent) then { t with mss := o.mss } else t
    let t := if g.rst = false ∧ o.winUp = true then { t with evW := true } else t
    if g.rst then let r := rstIn i t g o; (r.1, r.2, false)
    else if t.st = .synSent ∧ g.ackF = true ∧ synAckOk t g.ack = false then (t, resetReply g, false)
    else if g.syn = true ∧ t.st = .listen then listenSyn s i t g o
    else if t.st = .synSent ∧ g.syn = true ∧ g.ackF = true ∧ g.fin = false ∧ g.oth = false then
      let t := { t with st := .est, ctrl := false, retries := 0, ack := seqInc g.seq 1, seq := g.ack, una := g.ack, evW := t.evW || o.txRoom }
      let r := bodyIn i t g o
      (r.1, .ack i :: r.2.1, r.2.2)
    else bodyIn i t g o

/-- The loop over the slots from `i`, `n` left; the last component: some slot matched. src/wolfip.c 5406–5862. -/
def inputFrom (g : Seg) (o : Nat → Orc) : Nat → Nat → St → List Ev × St × Bool
  | _, 0, s => ([], s, false)
  | i, n + 1, s =>
    match s.socks[i]? with
    | none => ([], s, false)
    | some t =>
      if hit t g then
        let r := sockIn s i t g (o i)
        let s' := { s with socks := s.socks.set i r.1 }
        if r.2.2 then (r.2.1, s', true)
        else let q := inputFrom g o (i + 1) n s'; (r.2.1 ++ q.1, q.2.1, true)
      else inputFrom g o (i + 1) n s

/-- `tcp_input` after validation: the loop, then the reset for a segment nobody claims. src/wolfip.c 5406–5878. -/
def input (s : St) (g : Seg) (o : Nat → Orc) : List Ev × St :=
  let r := inputFrom g o 0 s.socks.length s
  if r.2.2 then (r.1, r.2.1)
  else if g.dst ≠ 0 ∧ Route.isBroadcast s.net g.dst = false ∧ isMcast g.dst = false ∧ isLocal s.net g.dst = true then (r.1 ++ resetReply g, r.2.1)
  else (r.1, r.2.1)

/-- What the abstracted parts answer in a timer callback: FIN_WAIT_1 drained, control segment queued, data
retransmissions exhausted, random number. -/
structure TOrc where
  drained : Bool := false
  sendOk : Bool := true
  giveUp : Bool := false
  winUp : Bool := false
  rnd : Nat := 0

notation "ctrlMax" => (8 : Nat)

/-- `tcp_ctrl_state_needs_rto`, src/wolfip.c 3888–3904. -/
def needsRto (t : Sock) (o : TOrc) : Prop := t.st = .synSent ∨ t.st = .synRcvd ∨ t.st = .lastAck ∨ (t.st = .fw1 ∧ o.drained = true)

instance (t : Sock) (o : TOrc) : Decidable (needsRto t o) := inferInstanceAs (Decidable (_ ∨ _ ∨ _ ∨ _))

/-- The retransmission of a control segment. src/wolfip.c 5927–5946. -/
def ctrlResend (k : Nat) (t : Sock) (o : TOrc) : Sock × List Ev :=
  let t := { t with retries := if o.sendOk then t.retries + 1 else t.retries, ctrl := true, fw2t := false }
  if t.st = .synSent ∨ t.st = .synRcvd then (t, if o.sendOk then [.syn k t.seq] else [])
  else (if o.sendOk then { t with last := t.seq } else t, if o.sendOk then [.fin k] else [])

/-- `tcp_rto_cb` on slot `k`. src/wolfip.c 5868–6057. -/
def rtoIn (k : Nat) (t : Sock) (o : TOrc) : Sock × List Ev :=
  if t.used = false then (t, [])
  else if t.fw2t then
    if t.st ≠ .fw2 then ({ t with fw2t := false }, []) else (closeSock { t with st := .closed }, [])
  else if t.preT then
    if t.st ≠ .est ∨ t.isL = false then ({ t with preT := false }, []) else (revert t o.rnd, [])
  else if needsRto t o then
    if t.retries ≥ ctrlMax then
      if t.isL = true ∧ t.st = .synRcvd then (revert t o.rnd, []) else (closeSock { t with st := .closed }, [])
    else ctrlResend k t o
  else if t.ctrl then ({ t with ctrl := false, retries := 0 }, [])
  else if t.st ≠ .est ∧ t.st ≠ .fw1 then (t, [])
  else if o.giveUp then (closeSock { t with st := .closed }, [])
  else ({ t with evW := t.evW || o.winUp }, [])

/-- An ICMP error about a TCP segment of ours: type 3 (`unreach`) with code and next-hop MTU, or type 11; the
quoted addresses, ports and sequence number. -/
structure Icmp where
  unreach : Bool
  code : Nat
  mtu : Nat
  src : Ip
  dst : Ip
  sport : Nat
  dport : Nat
  seq : Nat

/-- The socket an ICMP error is about. src/wolfip.c 2903–2912. -/
def icmpHit (e : Icmp) (t : Sock) : Bool :=
  t.used && t.st.conn && t.lip == e.src && t.rip == e.dst && t.sport == e.sport && t.dport == e.dport

/-- What it does to that socket. src/wolfip.c 2914–2948. -/
def icmpSock (e : Icmp) (t : Sock) : Sock :=
  if e.unreach = false then t
  else if e.code = 4 then
    if e.mtu ≥ 576 ∧ (t.mss = 0 ∨ e.mtu - 40 < t.mss) then { t with mss := e.mtu - 40 } else t
  else if e.code = 2 ∨ e.code = 3 then
    if (t.st = .synSent ∨ t.st = .synRcvd) ∧ seqLeq t.una e.seq = true ∧ seqLt e.seq (seqInc t.una 1) = true then closeSock t else t
  else t

/-- `icmp_try_deliver_tcp_error` after parsing: the first matching socket. src/wolfip.c 2900–2951. -/
def icmpIn (s : St) (e : Icmp) : St :=
  match s.socks.findIdx? (icmpHit e) with
  | none => s
  | some k => { s with socks := s.socks.set k (icmpSock e (s.socks.getD k {})) }

/-- Result of an API call. -/
inductive Res | ok | again | err | fd (k : Nat)
deriving DecidableEq, Repr

/-- `tcp_new_socket` on a slot: what it sets (the other fields keep their values; a closed slot has them zero).
src/wolfip.c 3065–3121. -/
def fresh (t : Sock) : Sock :=
  { t with used := true, st := .closed, una := t.seq, mss := 536, ctrl := false, retries := 0 }

/-- The first slot `tcp_new_socket` finds. -/
def freeSlot (s : St) : Option Nat := s.socks.findIdx? (fun t => !t.used)

def setSock (s : St) (k : Nat) (t : Sock) : St := { s with socks := s.socks.set k t }

/-- `wolfIP_sock_socket(AF_INET, SOCK_STREAM)`. src/wolfip.c 6254–6258. -/
def socketOp (s : St) : St × Res :=
  match freeSlot s with
  | none => (s, .err)
  | some k => (setSock s k (fresh (s.socks.getD k {})), .fd k)

/-- `bind_port_in_use`. src/wolfip.c 7917–7936. -/
def portInUse (socks : List Sock) (k : Nat) (ip : Ip) (port : Nat) : Bool :=
  port != 0 && socks.zipIdx.any (fun (t, j) => j != k && t.sport == port && (t.lip == 0 || ip == 0 || t.lip == ip))

/-- The address `bind` gives the socket. src/wolfip.c 7989–8002. -/
def bindAddr (net : Route.St) (ip : Ip) : Ip := if ip ≠ 0 then ip else anyAddr net

/-- `wolfIP_sock_bind` on TCP slot `k`; `fam`: the address family is AF_INET (lengths are checked before),
`veto`: the filter refuses. src/wolfip.c 7938–8025. -/
def bindOp (s : St) (k : Nat) (ip : Ip) (port : Nat) (fam veto : Bool) : St × Res :=
  match s.socks[k]? with
  | none => (s, .err)
  | some t =>
    if ip ≠ 0 ∧ isLocal s.net ip = false then (s, .err)
    else if t.st ≠ .closed then (s, .err)
    else if fam = false then (s, .err)
    else if portInUse s.socks k (bindAddr s.net ip) port then (s, .err)
    else if veto then (s, .err)
    else (setSock s k { t with lip := bindAddr s.net ip, sport := port, blip := ip }, .ok)

/-- `wolfIP_sock_listen`. src/wolfip.c 8148–8170. -/
def listenOp (s : St) (k : Nat) (veto : Bool) : St × Res :=
  match s.socks[k]? with
  | none => (s, .err)
  | some t =>
    if t.st ≠ .closed then (s, .err)
    else if veto then (setSock s k { t with isL := true }, .err)
    else (setSock s k { t with st := .listen, isL := true }, .ok)

/-- The local port `connect` uses. src/wolfip.c 6473–6476. -/
def connPort (p rnd : Nat) : Nat :=
  let p := if p = 0 then rnd % 65536 else p
  if p < 1024 then p + 1024 else p

/-- The socket fields `connect` fills in before anything can still fail. src/wolfip.c 6469–6479. -/
def connSock (net : Route.St) (t : Sock) (ip : Ip) (port rnd iss : Nat) : Sock :=
  { t with rip := ip, lip := if t.blip ≠ 0 then t.blip else connAddr net ip, sport := connPort t.sport rnd, dport := port, seq := iss, una := iss }

/-- `wolfIP_sock_connect`, TCP arm. src/wolfip.c 6417–6495. -/
def connectOp (s : St) (k : Nat) (ip : Ip) (port : Nat) (fam veto sendOk : Bool) (rnd iss : Nat) : St × Res × List Ev :=
  match s.socks[k]? with
  | none => (s, .err, [])
  | some t =>
    if t.st = .est then (s, .ok, [])
    else if t.st = .synSent then (s, .again, [])
    else if fam = false then (s, .err, [])
    else if t.st ≠ .closed then (s, .err, [])
    else if Route.isBroadcast s.net ip = true ∨ isMcast ip = true then (s, .err, [])
    else if t.blip ≠ 0 ∧ isLocal s.net t.blip = false then (s, .err, [])
    else
      let t := connSock s.net t ip port rnd iss
      if veto then (setSock s k t, .err, [])
      else if sendOk = false then (setSock s k { t with retries := 0 }, .again, [])
      else (setSock s k { t with st := .synSent, retries := 0, ctrl := true, fw2t := false }, .again, [.syn k iss])

/-- The connection `accept` clones from listener `t` into the new slot. src/wolfip.c 6532–6564. -/
def child (t u : Sock) : Sock :=
  { u with evW := false, cb := t.cb, lip := t.lip, blip := if t.blip ≠ 0 then t.blip else t.lip, rip := t.rip, sport := t.sport, dport := t.dport,
           ack := t.ack, seq := t.seq, una := t.seq, mss := t.mss, st := .synRcvd }

/-- `wolfIP_sock_accept`. src/wolfip.c 6497–6616. -/
def acceptOp (s : St) (k : Nat) (veto sendOk : Bool) (rnd : Nat) : St × Res × List Ev :=
  match s.socks[k]? with
  | none => (s, .err, [])
  | some t =>
    if t.st = .est ∧ t.isL = true then (setSock s k (revert t rnd), .err, [])
    else if t.st = .listen then (s, .again, [])
    else if t.st ≠ .synRcvd then (s, .err, [])
    else
      match freeSlot s with
      | none => (s, .err, [])
      | some j =>
        let u := child t (fresh (s.socks.getD j {}))
        if sendOk = false then (setSock s j (closeSock u), .again, [])
        else
          let u := { u with retries := 0, ctrl := true, fw2t := false }
          let t' := { t with evR := false, st := .listen, ctrl := false, retries := 0, seq := rnd, lip := if t.blip ≠ 0 then t.blip else t.lip }
          if veto then (setSock (setSock s k t') j (closeSock u), .err, [.syn j u.seq])
          else (setSock (setSock s k t') j u, .fd j, [.syn j u.seq])

/-- `wolfIP_sock_close`, TCP arm. src/wolfip.c 7662–7732. -/
def closeOp (s : St) (k : Nat) (sendOk : Bool) : St × Res × List Ev :=
  match s.socks[k]? with
  | none => (s, .err, [])
  | some t =>
    match t.st with
    | .est =>
      if sendOk = false then (s, .again, [])
      else (setSock s k { t with st := .fw1, last := t.seq, retries := 0, ctrl := true, fw2t := false, cb := none }, .again, [.fin k])
    | .closeWait =>
      if sendOk = false then (s, .again, [])
      else (setSock s k { t with st := .lastAck, last := t.seq, retries := 0, ctrl := true, fw2t := false, cb := none }, .again, [.fin k])
    | .closing | .fw1 | .fw2 => (s, .again, [])
    | _ => (setSock s k (closeSock { t with cb := none }), .ok, [])

/-- First half of the dispatch of slot `k`: the callback is invoked (the slot is zeroed first if it was only
reserved for this event). src/wolfip.c 11219–11251. -/
def cbBegin (s : St) (k : Nat) : St × List Ev :=
  match s.socks[k]? with
  | none => (s, [])
  | some t =>
    if t.pend then
      (setSock s k {}, match t.cb with | some c => [.call k c t.evC] | none => [])
    else
      match t.cb with
      | none => (s, [])
      | some c =>
        if t.evR = false ∧ t.evW = false ∧ t.evC = false then (s, [])
        else if t.st = .closed ∧ t.evC = false then (s, [])
        else ({ setSock s k { t with evR := false, evW := false, evC := false } with inCb := some k }, [.call k c t.evC])

/-- Second half, after the callback returned: a socket that is now CLOSED is reaped. src/wolfip.c 11258–11262. -/
def cbEnd (s : St) : St :=
  match s.inCb with
  | none => s
  | some k =>
    match s.socks[k]? with
    | none => { s with inCb := none }
    | some t => if t.st = .closed then { setSock s k (closeSock { t with cb := none }) with inCb := none } else { s with inCb := none }

/-- Everything that can happen. -/
inductive Op
  | socket
  | bind (k : Nat) (ip : Ip) (port : Nat) (fam veto : Bool)
  | listen (k : Nat) (veto : Bool)
  | connect (k : Nat) (ip : Ip) (port : Nat) (fam veto sendOk : Bool) (rnd iss : Nat)
  | accept (k : Nat) (veto sendOk : Bool) (rnd : Nat)
  | close (k : Nat) (sendOk : Bool)
  | register (k : Nat) (cb : Option Nat)
  | send (k n : Nat)
  | reconf (net : Route.St)
  | segment (g : Seg) (o : Nat → Orc)
  | rto (k : Nat) (o : TOrc)
  | icmp (e : Icmp)
  | cbBegin (k : Nat)
  | cbEnd

/-- One step: new state, result of the call, visible events. `register` is `wolfIP_register_callback`
(src/wolfip.c), `send` the advance of SND.NXT by accepted payload (6643–), `reconf` any change of addresses. -/
def step (s : St) : Op → St × Res × List Ev
  | .socket => let r := socketOp s; (r.1, r.2, [])
  | .bind k ip port fam veto => let r := bindOp s k ip port fam veto; (r.1, r.2, [])
  | .listen k veto => let r := listenOp s k veto; (r.1, r.2, [])
  | .connect k ip port fam veto sendOk rnd iss => connectOp s k ip port fam veto sendOk rnd iss
  | .accept k veto sendOk rnd => acceptOp s k veto sendOk rnd
  | .close k sendOk => closeOp s k sendOk
  | .register k cb => (match s.socks[k]? with | none => s | some t => setSock s k { t with cb := cb }, .ok, [])
  | .send k n => (match s.socks[k]? with | none => s | some t => if t.st = .est ∨ t.st = .closeWait then setSock s k { t with seq := seqInc t.seq n } else s, .ok, [])
  | .reconf net => ({ s with net := net }, .ok, [])
  | .segment g o => let r := input s g o; (r.2, .ok, r.1)
  | .rto k o => match s.socks[k]? with | none => (s, .ok, []) | some t => let r := rtoIn k t o; (setSock s k r.1, .ok, r.2)
  | .icmp e => (icmpIn s e, .ok, [])
  | .cbBegin k => let r := cbBegin s k; (r.1, .ok, r.2)
  | .cbEnd => (cbEnd s, .ok, [])

end Wolf.Sock
