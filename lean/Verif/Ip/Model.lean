import Verif.Csum.Checksum
import Verif.Route.Model
/-!
# IPv4 input: validation, forwarding, dispatch

Models `ip_recv` (src/wolfip.c 10131–10440, built with WOLFIP_ENABLE_FORWARDING and ETHERNET, without WOLFIP_ESP,
which is `Verif.Esp`), `wolfIP_forward_interface` (1984–2003), `wolfIP_forward_prepare` (4666–4700),
`wolfIP_forward_packet` (4702–4762), `arp_queue_packet` and `arp_flush_pending` (9462–9533),
`wolfIP_send_ttl_exceeded` (2266–2363), `wolfIP_send_port_unreachable` (2375–2452) and `icmp_input` (8213–8323).

A frame is the list of the bytes received, Ethernet header first; its length is the `len` argument. Bytes 0–33 are
read only after the length check; option bytes are read with a bounds check whose failure is the outcome `oob`
(proved impossible). Verdicts of the filter callback and the answer of `arp_lookup` are arbitrary inputs. The copy
to raw sockets (`raw_try_recv`) is left out.
-/
namespace Wolf.IpIn
open Wolf.Route (Ip Conf)
open Wolf.Csum (put16 ipSet ipVerify icmpChecksum)

/-- `LINK_MTU`, config.h. -/
notation "linkMtu" => (1536 : Nat)

/-- The parts of `struct wolfIP` that IP input reads. `nonEth` is `wolfIP_ll_is_non_ethernet` and `mtu`
`wolfIP_frame_mtu` of an interface, `dhcp` is `DHCP_IS_RUNNING` (src/wolfip.c 1152). -/
structure Net where
  rt : Route.St
  dhcp : Bool := false
  nonEth : List Bool := []
  mtu : List Nat := []
deriving DecidableEq, Repr

def u8 (f : List Nat) (k : Nat) : Nat := f.getD k 0
def u16 (f : List Nat) (k : Nat) : Nat := u8 f k * 256 + u8 f (k + 1)
/-- `ee32` of a network-order field. -/
def ipAt (f : List Nat) (k : Nat) : Ip :=
  BitVec.ofNat 32 (u8 f k * 16777216 + u8 f (k + 1) * 65536 + u8 f (k + 2) * 256 + u8 f (k + 3))

/-- Header length in bytes. -/
def hlen (f : List Nat) : Nat := u8 f 14 % 16 * 4
/-- Total length field. -/
def tot (f : List Nat) : Nat := u16 f 16
def src (f : List Nat) : Ip := ipAt f 26
def dst (f : List Nat) : Ip := ipAt f 30
def ttl (f : List Nat) : Nat := u8 f 22
def proto (f : List Nat) : Nat := u8 f 23

/-- `wolfIP_ip_is_multicast`, src/wolfip.c 1863–1866. -/
def isMcast (a : Ip) : Bool := (a &&& 0xF0000000#32) == 0xE0000000#32

/-- 127/8 test, src/wolfip.c 43–44, 10176–10185. -/
def isLoopNet (a : Ip) : Bool := (a &&& 0xFF000000#32) == (0x7F000001#32 &&& 0xFF000000#32)

def isNonEth (n : Net) (i : Nat) : Bool := n.nonEth.getD i false

/-- Result of the option walk. -/
inductive Walk | ok | bad | oob | running
deriving DecidableEq, Repr

/-- The loop over the IP options, src/wolfip.c 10208–10227. `k` is `opt`, `e` is `opt_end`. -/
def optWalk (f : List Nat) (e : Nat) : Nat → Nat → Walk
  | 0, _ => .running
  | fuel + 1, k =>
    if k ≥ e then .ok
    else match f[k]? with
      | none => .oob
      | some t =>
        if t = 0 then .ok
        else if t = 1 then optWalk f e fuel (k + 1)
        else if t = 0x83 ∨ t = 0x89 then .bad
        else if k + 1 ≥ e then .bad
        else match f[k + 1]? with
          | none => .oob
          | some l =>
            if l < 2 then .bad
            else if l > (e - k) % 256 then .bad
            else optWalk f e fuel (k + l)

/-- The option walk of a frame: skipped without options. src/wolfip.c 10204–10228. -/
def walkOf (f : List Nat) : Walk := if hlen f > 20 then optWalk f (14 + hlen f) 64 34 else Walk.ok

/-- The checks before the filter, src/wolfip.c 10140–10186. `true` = keep. -/
def headOk (n : Net) (i : Nat) (f : List Nat) : Bool :=
  if f.length < 34 then false
  else if u8 f 14 / 16 ≠ 4 ∨ hlen f < 20 then false
  else if f.length < 14 + hlen f then false
  else if tot f < hlen f then false
  else if tot f > f.length - 14 then false
  else if ipVerify (f.drop 14) = false then false
  else if u16 f 20 % 16384 ≠ 0 then false
  else if Route.isBroadcast n.rt (src f) = true ∨ isMcast (src f) = true then false
  else if src f = 0 ∧ n.dhcp = false then false
  else if Route.isLoop n.rt i = false ∧ (isLoopNet (dst f) = true ∨ isLoopNet (src f) = true) then false
  else true

/-- `is_local` of the forwarding block, src/wolfip.c 10246–10260. -/
def forUs (n : Net) (d : Ip) : Bool :=
  d == 0#32 || Route.isBroadcast n.rt d || n.rt.confs.any (fun c => c.ip != 0#32 && c.ip == d)

/-- The strict RPF loop, src/wolfip.c 10298–10310. -/
def rpfScan (inIf : Nat) (a : Ip) : List Conf → Nat → Bool
  | [], _ => false
  | c :: cs, j =>
    if j = inIf then rpfScan inIf a cs (j + 1)
    else if c.ip = 0 then rpfScan inIf a cs (j + 1)
    else if Route.isLocalConf c a then true
    else rpfScan inIf a cs (j + 1)

/-- `rpf_drop`, src/wolfip.c 10262–10311. -/
def rpfDrop (n : Net) (i : Nat) (a : Ip) : Bool :=
  (isLoopNet a && !Route.isLoop n.rt i) || (a &&& 0xFFFF0000#32) == 0xA9FE0000#32 ||
  n.rt.confs.any (fun c => c.ip != 0#32 && c.ip == a) || rpfScan i a n.rt.confs 0

/-- The loop of `wolfIP_forward_interface`, src/wolfip.c 1989–2001. -/
def fwdScan (inIf : Nat) (d : Ip) : List Conf → Nat → Option Nat
  | [], _ => none
  | c :: cs, j =>
    if j = inIf then fwdScan inIf d cs (j + 1)
    else if c.ip = 0 then fwdScan inIf d cs (j + 1)
    else if d = c.ip then none
    else if Route.isLocalConf c d then some j
    else fwdScan inIf d cs (j + 1)

/-- `wolfIP_forward_interface`, src/wolfip.c 1984–2003. -/
def forwardIf (n : Net) (inIf : Nat) (d : Ip) : Option Nat :=
  if n.rt.confs.length < 2 then none else fwdScan inIf d n.rt.confs 0

/-- Egress interface and next hop of a forwarded datagram, src/wolfip.c 10316–10347. The static-route loop is the one
of the route lookup started empty. -/
def egress (n : Net) (inIf : Nat) (d : Ip) : Option (Nat × Ip) :=
  match forwardIf n inIf d with
  | some o => some (o, d)
  | none =>
    match Route.statScan d n.rt.routes none with
    | none => none
    | some b => if b.ifIdx = inIf then none else some (b.ifIdx, b.nexthop)

/-- `ip->ttl--; iphdr_set_checksum(ip)` on the datagram at its declared length, without the Ethernet header.
src/wolfip.c 10361–10365, 9519–9523. -/
def relay (ip : List Nat) : List Nat := ipSet (ip.set 8 ((ip.getD 8 0 + 255) % 256))

/-- The datagram at its declared length, from `ver_ihl` on (`fwd_len`, src/wolfip.c 10320). -/
def dgram (f : List Nat) : List Nat := (f.drop 14).take (tot f)

/-- Removal of the IP options before dispatch, src/wolfip.c 10382–10401. -/
def strip (f : List Nat) : List Nat :=
  let g := f.take 34 ++ f.drop (14 + hlen f)
  let g := g.set 14 (u8 g 14 / 16 * 16 + 5)
  let g := put16 g 16 (tot f - (hlen f - 20))
  f.take 14 ++ ipSet (g.drop 14)

/-- What `ip_recv` does with a frame. `deliver p g`: the frame `g` goes to the handler of protocol `p` (6 `tcp_input`,
17 `udp_try_recv`, 1 `icmp_input`, 2 `igmp_input`). -/
inductive Out where
  | drop
  | oob
  | ttlExceeded
  | park (out : Nat) (nh : Ip) (ip : List Nat)
  | forward (out : Nat) (ip : List Nat)
  | deliver (p : Nat) (g : List Nat)
deriving DecidableEq, Repr

/-- The dispatch at the end of `ip_recv`, src/wolfip.c 10377–10440. -/
def dispatch (f : List Nat) : Out :=
  if hlen f > 20 ∧ f.length > linkMtu then .drop
  else
    let g := if hlen f > 20 then strip f else f
    if proto g = 6 then .deliver 6 g
    else if proto g = 17 then
      if g.length < 42 then .drop
      else if u16 g 38 < 8 then .drop
      else if u16 g 38 > g.length - 34 then .drop
      else .deliver 17 g
    else if proto g = 1 then .deliver 1 g
    else if proto g = 2 then .deliver 2 g
    else .drop

/-- `wolfIP_forward_prepare`: can the datagram leave now? `arp` is the answer of `arp_lookup`. src/wolfip.c
4666–4700. -/
def resolved (n : Net) (out : Nat) (nh : Ip) (arp : Bool) : Bool :=
  isNonEth n out || Route.isLoop n.rt out || Route.isBroadcast n.rt nh || arp

/-- The forwarding block, src/wolfip.c 10231–10371. `none` = go on to dispatch. -/
def forwardBlock (n : Net) (i : Nat) (f : List Nat) (arp : Bool) : Option Out :=
  if forUs n (dst f) = true then none
  else if rpfDrop n i (src f) = true then some .drop
  else if isNonEth n i = false ∧ u8 f 0 % 2 = 1 then none
  else match egress n i (dst f) with
    | none => none
    | some (out, nh) =>
      if ttl f ≤ 1 then some .ttlExceeded
      else if resolved n out nh arp = false then some (.park out nh (dgram f))
      else some (.forward out (relay (dgram f)))

/-- `ip_recv`, src/wolfip.c 10131–10440. `veto` is the filter's answer for the datagram. -/
def ipRecv (n : Net) (i : Nat) (f : List Nat) (veto arp : Bool) : Out :=
  if headOk n i f = false then .drop
  else if veto then .drop
  else
    match walkOf f with
    | .bad => .drop
    | .oob => .oob
    | .running => .oob
    | .ok =>
      match forwardBlock n i f arp with
      | some r => r
      | none => dispatch f

/-! ## Parked datagrams -/

/-- `struct arp_pending_entry` in use (src/wolfip.c 1392–1397). `id` is a ghost: which arrival it came from. -/
structure Pend where
  dest : Ip
  ifIdx : Nat
  ip : List Nat
  id : Nat
deriving DecidableEq, Repr

/-- Slot choice of `arp_queue_packet`: the entry with the same key, else the first free one. src/wolfip.c
9472–9480. -/
def pendSlot (dest : Ip) (i : Nat) (l : List (Option Pend)) : Option Nat :=
  match l.findIdx? (fun e => match e with | some p => p.dest == dest && p.ifIdx == i | none => false) with
  | some k => some k
  | none => l.findIdx? (fun e => e.isNone)

/-- `arp_queue_packet`, src/wolfip.c 9462–9487. -/
def queuePkt (n : Net) (l : List (Option Pend)) (p : Pend) : List (Option Pend) :=
  if p.ip.length + 14 > n.mtu.getD p.ifIdx 0 then l
  else match pendSlot p.dest p.ifIdx l with
    | none => l
    | some k => l.set k (some p)

/-- One iteration of `arp_flush_pending` on an entry with the right key: what is sent. An entry in use never has
length 0 (`arp_queue_packet` refuses it). src/wolfip.c 9503–9529. -/
def flushOne (n : Net) (p : Pend) : List (Nat × List Nat × Nat) :=
  if p.ip.length + 14 > n.mtu.getD p.ifIdx 0 then []
  else if p.ip.getD 8 0 ≤ 1 then []
  else [(p.ifIdx, relay p.ip, p.id)]

/-- Does the entry wait for `a` on interface `i`? -/
def waits (a : Ip) (i : Nat) : Option Pend → Bool
  | some p => p.dest == a && p.ifIdx == i
  | none => false

/-- Everything `arp_flush_pending` sends. src/wolfip.c 9489–9533. -/
def flushOut (n : Net) (a : Ip) (i : Nat) (l : List (Option Pend)) : List (Nat × List Nat × Nat) :=
  l.flatMap (fun e => match e with | some p => if waits a i (some p) then flushOne n p else [] | none => [])

/-- The queue after `arp_flush_pending`. -/
def flushRest (a : Ip) (i : Nat) (l : List (Option Pend)) : List (Option Pend) :=
  l.map (fun e => if waits a i e then none else e)

/-- The router: configuration, parked datagrams, number of frames received so far (ghost). -/
structure St where
  net : Net
  pend : List (Option Pend)
  seen : Nat := 0
deriving DecidableEq, Repr

/-- What can happen: a frame arrives, a neighbour becomes resolved, an interface is removed (its parked datagrams are
forgotten, src/wolfip.c 10014–10026), the configuration changes. -/
inductive Op where
  | frame (i : Nat) (f : List Nat) (veto arp : Bool)
  | learned (i : Nat) (a : Ip)
  | ifGone (i : Nat)
  | reconf (n : Net)
deriving DecidableEq, Repr

/-- A datagram handed to the link layer by the forwarder: interface, bytes from `ver_ihl` on, and (ghost) which
arrival it is. -/
abbrev Sent := Nat × List Nat × Nat

def step (s : St) : Op → St × List Sent
  | .frame i f veto arp =>
    let s' := { s with seen := s.seen + 1 }
    match ipRecv s.net i f veto arp with
    | .forward out ip => (s', [(out, ip, s.seen)])
    | .park out nh ip => ({ s' with pend := queuePkt s.net s.pend ⟨nh, out, ip, s.seen⟩ }, [])
    | _ => (s', [])
  | .learned i a => ({ s with pend := flushRest a i s.pend }, flushOut s.net a i s.pend)
  | .ifGone i => ({ s with pend := s.pend.map (fun e => match e with | some p => if p.ifIdx = i then none else e | none => none) }, [])
  | .reconf n => ({ s with net := n }, [])

def run (s : St) : List Op → St × List Sent
  | [] => (s, [])
  | op :: ops => ((run (step s op).1 ops).1, (step s op).2 ++ (run (step s op).1 ops).2)

def init (n : Net) (slots : Nat) : St := { net := n, pend := List.replicate slots none }

/-! ## ICMP messages the stack originates -/

/-- The 20-byte header of an ICMP error, before its checksum: version, TOS of the offending datagram, length, id, DF,
TTL 64, protocol 1. src/wolfip.c 2322–2335, 2410–2423. -/
def errHdr (tos len id : Nat) (s d : List Nat) : List Nat :=
  [0x45, tos, len / 256 % 256, len % 256, id / 256 % 256, id % 256, 0x40, 0, 64, 1, 0, 0] ++ s ++ d

/-- The ICMP part of an error: type, code, checksum, 4 zero bytes, the quoted bytes. -/
def errBody (ty code : Nat) (quote : List Nat) : List Nat :=
  let b := [ty, code, 0, 0, 0, 0, 0, 0] ++ quote
  put16 b 2 (icmpChecksum b b.length)

/-- The four bytes of an address. -/
def ipBytes (a : Ip) : List Nat := [a.toNat / 16777216, a.toNat / 65536 % 256, a.toNat / 256 % 256, a.toNat % 256]

/-- How many bytes `wolfIP_send_ttl_exceeded` quotes, src/wolfip.c 2310–2319. -/
def quoteLen (f : List Nat) : Nat :=
  let t := if tot f < hlen f then hlen f else tot f
  let c := if hlen f + 8 > t then t else hlen f + 8
  if c > 68 then 68 else c

/-- `wolfIP_send_ttl_exceeded`: the datagram sent back through interface `i`, or `none`. `up` = the interface can
send, `id` the next IP id. src/wolfip.c 2266–2363. -/
def ttlReply (n : Net) (i : Nat) (f : List Nat) (up : Bool) (id : Nat) : Option (List Nat) :=
  if up = false then none
  else
    let ty := u8 f (14 + hlen f)
    if proto f = 1 ∧ tot f > hlen f ∧ (ty = 3 ∨ ty = 4 ∨ ty = 5 ∨ ty = 11 ∨ ty = 12) then none
    else
      let q := (f.drop 14).take (quoteLen f)
      some (ipSet (errHdr (u8 f 15) (20 + (8 + q.length)) id (ipBytes ((n.rt.confs[i]?.map Conf.ip).getD 0)) ((f.drop 26).take 4)) ++ errBody 11 0 q)

/-- `wolfIP_send_port_unreachable`, src/wolfip.c 2375–2452. -/
def portReply (n : Net) (i : Nat) (f : List Nat) (up : Bool) (id : Nat) : Option (List Nat) :=
  if up = false then none
  else
    let q := (f.drop 14).take (if hlen f + 8 > 68 then 68 else hlen f + 8)
    some (ipSet (errHdr (u8 f 15) (20 + (8 + q.length)) id (ipBytes ((n.rt.confs[i]?.map Conf.ip).getD 0)) ((f.drop 26).take 4)) ++ errBody 3 3 q)

/-- `wolfIP_if_for_local_ip`, the found flag, src/wolfip.c 2226–2248. -/
def isLocal (n : Net) (a : Ip) : Bool := a != 0#32 && n.rt.confs.any (fun c => c.ip == a)

/-- The condition under which `udp_try_recv` answers an unmatched datagram, src/wolfip.c 2748–2761. -/
def answersUnmatched (n : Net) (f : List Nat) : Bool :=
  dst f != 0#32 && src f != 0#32 && !Route.isBroadcast n.rt (dst f) && !Route.isBroadcast n.rt (src f) &&
  !isMcast (dst f) && !isMcast (src f) && isLocal n (dst f)

/-! ## ICMP input -/

/-- What `icmp_input` does. -/
inductive IcmpOut where
  | drop
  | reply (f : List Nat)
  | toSockets
  | errorThenSockets
deriving DecidableEq, Repr

/-- The echo reply built in place, src/wolfip.c 8272–8286 (the Ethernet header is rewritten separately). -/
def echoReply (f : List Nat) (id : Nat) : List Nat :=
  let m := ((f.drop 34).set 0 0).set 1 0
  let m := put16 m 2 0
  let m := put16 m 2 (icmpChecksum m (tot f - 20))
  let h := (f.drop 14).take 12 ++ ((f.drop 30).take 4 ++ (f.drop 26).take 4)
  let h := h.set 8 64
  let h := put16 h 4 (id % 65536)
  let h := put16 h 6 0x4000
  f.take 14 ++ ipSet h ++ m

/-- `icmp_input`, src/wolfip.c 8213–8323. `vetoIn`/`vetoOut` are the filter's answers, `id` the next IP id. -/
def icmpIn (n : Net) (f : List Nat) (vetoIn vetoOut : Bool) (id : Nat) : IcmpOut :=
  if f.length < 42 then .drop
  else if tot f < 28 then .drop
  else if f.length < 14 + tot f then .drop
  else if icmpChecksum (f.drop 34) (tot f - 20) ≠ 0 then .drop
  else if vetoIn then .drop
  else if u8 f 34 = 0 then
    if Route.isBroadcast n.rt (dst f) = true ∨ isMcast (dst f) = true then .drop
    else if isLocal n (dst f) = false then .drop
    else .toSockets
  else if n.dhcp = false ∧ u8 f 34 = 8 then
    if Route.isBroadcast n.rt (dst f) = true ∨ isMcast (dst f) = true then .drop
    else if isLocal n (dst f) = false then .drop
    else if vetoOut then .drop
    else .reply (echoReply f id)
  else .errorThenSockets

end Wolf.IpIn
