import Verif.Dgram.Tap
import Verif.Ip.Model
import Verif.Link.Model
import Verif.Sock.Model
/-!
# ICMP, raw and packet sockets

Models `icmp_new_socket`, `raw_new_socket`, `packet_new_socket` (src/wolfip.c 2765–2833), `icmp_try_recv` (2836–2862),
`raw_try_recv` (2954–2993), `packet_try_recv` (2996–3040), `raw_route_for_ip` (2161–2184), the ICMP, raw and packet arms of
`connect` (6360–6415), `sendto` (6783–6998), `recvfrom` (7122–7243), `close` (7742–7770), `bind` (7964–8140) and
`setsockopt` (7378–7397), the receive path `wolfIP_recv_on` as far as it decides which frames they see (10446–10560), and
`flush_datagram_tx` (11450–11560, also for UDP), `flush_raw_tx` (11565–11630), `flush_packet_tx` (11633–11665).

The three kinds of socket never look at each other's tables, so each is its own machine. Simplifications: buffers are
lists, room in them is an input (`Verif.Fifo`, C01); the filter's verdicts, ARP answers, random numbers, IP ids, the type
of service and whether the driver takes a frame are inputs; address family and length arguments are correct; interface
numbers are below 256; event bits and TTLs are left out. A flush writes the Ethernet header into the queued frame; here it
is written into what is handed to the driver.
-/
namespace Wolf.Dgram
open Wolf.Route (Ip Conf)
open Wolf.IpIn (Net u8 u16 ipAt tot src dst isMcast ipBytes)
open Wolf.Csum (ipSet icmpFill udpFill put16)

/-- What the code reads about the stack: addresses and routes, and the interfaces. -/
structure Env where
  net : Net
  devs : List Link.Dev

/-- `wolfIP_if_for_local_ip`. src/wolfip.c 2226–2248. -/
def ifForLocal (n : Route.St) (a : Ip) : Nat :=
  if a = 0 then Route.primaryIf n else (n.confs.findIdx? (fun c => c.ip == a)).getD (Route.primaryIf n)

/-- `wolfIP_route_for_ip`. src/wolfip.c 2129–2136. -/
def routeFor (n : Route.St) (a : Ip) : Nat := match Route.lookup n a with | some (i, _) => i | none => 0

/-- The address of interface `i`, else that of the primary one, else what was there. src/wolfip.c 6380–6388, 8086–8095. -/
def addrFor (n : Route.St) (i : Nat) (old : Ip) : Ip :=
  if (n.confs.getD i ⟨0, 0, 0⟩).ip ≠ 0 then (n.confs.getD i ⟨0, 0, 0⟩).ip
  else if Sock.anyAddr n ≠ 0 then Sock.anyAddr n else old

/-! ## Which frames reach a socket -/

/-- Inputs of one reception: the filter's vetoes (Ethernet, after VLAN demultiplexing, IP, ICMP in and out), the groups
joined, the ARP answer for forwarding, the IP id, room in the buffers. -/
structure Rx where
  vetoEth : Bool := false
  vetoSub : Bool := false
  vetoIp : Bool := false
  vetoIcmp : Bool := false
  joined : Nat → Ip → Bool := fun _ _ => false
  arp : Bool := false
  id : Nat := 0
  room : Nat → Bool := fun _ => true
  room2 : Nat → Bool := fun _ => true

/-- EtherType of a frame. -/
def etype (g : List Nat) : Nat := u16 g 12

/-- Without the 4-byte VLAN tag. src/wolfip.c 10508–10511. -/
def untag (g : List Nat) : List Nat := g.take 12 ++ g.drop 16

/-- The sub-interface of `i` with the VLAN id of the frame. src/wolfip.c 10485–10497. -/
def subOf (devs : List Link.Dev) (i : Nat) (g : List Nat) : Option Nat := devs.findIdx? (Link.isSub i (u16 g 14 % 4096))

/-- The copies offered to packet sockets: interface, frame, and whether wildcard sockets take part. src/wolfip.c
10465–10524. -/
def taps (devs : List Link.Dev) (i : Nat) (g : List Nat) (o : Rx) : List (Nat × List Nat × Bool) :=
  match devs[i]? with
  | none => []
  | some d =>
    if d.nonEth then []
    else if g.length < 14 then []
    else if o.vetoEth then []
    else if etype g = 0x8100 then
      if g.length < 18 then []
      else match subOf devs i g with
        | none => []
        | some j => if o.vetoSub then [(i, g, true)] else [(i, g, true), (j, untag g, false)]
    else [(i, g, true)]

/-- The MAC test of the IPv4 branch. src/wolfip.c 10538–10556. -/
def macOk (d : Link.Dev) (i : Nat) (g : List Nat) (joined : Nat → Ip → Bool) : Bool :=
  if g.take 6 ≠ d.mac ∧ g.take 6 ≠ [255, 255, 255, 255, 255, 255] then
    if g.length < 34 then false
    else !(!(u8 g 0 == 1 && u8 g 1 == 0 && u8 g 2 == 0x5e && u8 g 3 / 128 == 0) || !isMcast (dst g) ||
      (!joined i (dst g) && dst g != 0xE0000016#32 && dst g != 0xE0000001#32))
  else true

/-- The frame given to `ip_recv` and its interface. src/wolfip.c 10459–10557. -/
def ipFrame (devs : List Link.Dev) (i : Nat) (g : List Nat) (o : Rx) : Option (Nat × List Nat) :=
  match devs[i]? with
  | none => none
  | some d =>
    if d.nonEth then some (i, g)
    else if o.vetoEth then none
    else match Link.demux devs i g with
      | none => none
      | some (j, h) =>
        if etype g = 0x8100 ∧ o.vetoSub = true then none
        else if etype h ≠ 0x0800 then none
        else match devs[j]? with
          | none => none
          | some e => if macOk e j h o.joined then some (j, h) else none

/-- The datagram offered to raw sockets: after the header checks and the filter, before the options and forwarding.
src/wolfip.c 10140–10197, 2956–2972. -/
def rawTap (e : Env) (i : Nat) (g : List Nat) (o : Rx) : Option (Nat × List Nat) :=
  match ipFrame e.devs i g o with
  | none => none
  | some (j, f) =>
    if IpIn.headOk e.net j f = false then none
    else if o.vetoIp then none
    else if f.length ≤ 14 then none
    else if f.length - 14 < 20 then none
    else if tot f < 20 then none
    else if tot f > f.length - 14 then none
    else some (j, f)

/-- The frame offered to ICMP sockets. src/wolfip.c 8213–8323 reached from `ip_recv`. -/
def icmpTap (e : Env) (i : Nat) (g : List Nat) (o : Rx) : Option (List Nat) :=
  match ipFrame e.devs i g o with
  | none => none
  | some (j, f) =>
    match IpIn.ipRecv e.net j f o.vetoIp o.arp with
    | .deliver 1 h =>
      match IpIn.icmpIn e.net h o.vetoIcmp false o.id with
      | .toSockets => some h
      | .errorThenSockets => some h
      | .drop => none
      | .reply _ => none
    | _ => none

/-! ## Results -/

/-- What a call returns. `gotLl`: a packet socket's frame, protocol, interface and source MAC; `gotIp`: a payload and the
sender. -/
inductive Res where
  | err
  | again
  | ok
  | fd (k : Nat)
  | sent (n : Nat)
  | gotLl (p : List Nat) (ty i : Nat) (mac : List Nat)
  | gotIp (p : List Nat) (a : Ip)
deriving DecidableEq, Repr

/-- Inputs of a flush: the filter's veto and the driver's answer for the `n`-th attempt on socket `k`, and the ARP
cache. -/
structure Tx where
  veto : Nat → Nat → Bool := fun _ _ => false
  link : Nat → Nat → Bool := fun _ _ => true
  mac : Nat → Ip → Option (List Nat) := fun _ _ => none

/-! ## Packet sockets -/

/-- `protocol`, `bind_addr.sll_ifindex`, `if_idx`. -/
structure Pk where
  proto : Nat := 0
  bind : Int := 0
  ifIdx : Nat := 0
deriving DecidableEq, Repr

/-- The tests of `packet_try_recv`. src/wolfip.c 3013–3033. -/
def pkTakes (i : Nat) (g : List Nat) (wild : Bool) (c : Pk) : Bool :=
  if c.proto ≠ 0 ∧ c.proto ≠ etype g then false
  else if wild then !(decide (c.bind ≥ 0 ∧ c.bind ≠ (i : Int) ∧ c.bind ≠ 0))
  else !(decide (c.bind < 0 ∨ c.bind ≠ (i : Int)))

abbrev PkTab := Tab Pk (Nat × List Nat)

/-- `packet_try_recv`. src/wolfip.c 2996–3040. -/
def pkTry (room : Nat → Bool) (x : Nat × List Nat × Bool) (t : PkTab) : PkTab × List (Ev (Nat × List Nat)) :=
  if x.2.1.length > 1536 ∨ x.2.1.length = 0 then (t, [])
  else deliver (pkTakes x.1 x.2.1 x.2.2) room (x.1, x.2.1) t

/-- The packet-socket part of a reception: the first tap with `room`, the second with `room2`. -/
def pkFrame (devs : List Link.Dev) (i : Nat) (g : List Nat) (o : Rx) (t : PkTab) : PkTab × List (Ev (Nat × List Nat)) :=
  match taps devs i g o with
  | [] => (t, [])
  | [x] => pkTry o.room x t
  | x :: y :: _ => ((pkTry o.room2 y (pkTry o.room x t).1).1, (pkTry o.room x t).2 ++ (pkTry o.room2 y (pkTry o.room x t).1).2)

/-- `struct wolfIP_sockaddr_ll` as `sendto` reads it. -/
structure Ll where
  ifindex : Int
  halen : Nat
  addr : List Nat
  proto : Nat
deriving DecidableEq, Repr

/-- The interface a send uses. src/wolfip.c 6971, 6974–6975, 6981–6982. -/
def pkIf (n : Nat) (c : Pk) (to : Option Ll) : Nat :=
  let i := match to with
    | some a => if 0 ≤ a.ifindex ∧ a.ifindex < (n : Int) then a.ifindex.toNat else c.ifIdx
    | none => c.ifIdx
  if i ≥ n then 0 else i

/-- Destination MAC of the frame queued. src/wolfip.c 6976–6977. -/
def pkDst (to : Option Ll) (buf : List Nat) : List Nat :=
  match to with
  | some a => if a.halen ≥ 6 then a.addr else buf.take 6
  | none => buf.take 6

/-- Source MAC: that of interface `i`. src/wolfip.c 6983–6985. -/
def pkSrc (devs : List Link.Dev) (i : Nat) (buf : List Nat) : List Nat :=
  match devs[i]? with
  | some e => e.mac
  | none => (buf.drop 6).take 6

/-- The protocol. src/wolfip.c 6972, 6978–6979. -/
def pkPr (c : Pk) (to : Option Ll) : Nat :=
  match to with
  | some a => if a.proto ≠ 0 then a.proto else c.proto
  | none => c.proto

/-- The EtherType field. src/wolfip.c 6986–6988. -/
def pkType (p : Nat) (buf : List Nat) : List Nat := if p ≠ 0 then [p / 256, p % 256] else (buf.drop 12).take 2

/-- The frame queued: the caller's, with the destination from the address, the interface's source MAC and the protocol.
src/wolfip.c 6968–6990. -/
def pkBuild (devs : List Link.Dev) (c : Pk) (to : Option Ll) (buf : List Nat) : List Nat :=
  pkDst to buf ++ pkSrc devs (pkIf devs.length c to) buf ++ pkType (pkPr c to) buf ++ buf.drop 14

structure PkSt where
  devs : List Link.Dev
  tab : PkTab

inductive PkOp where
  | frame (i : Nat) (g : List Nat) (o : Rx)
  | socket (proto : Nat)
  | bind (k : Nat) (ifindex : Int) (proto : Nat)
  | send (k : Nat) (to : Option Ll) (buf : List Nat) (room : Bool)
  | recv (k len : Nat)
  | close (k : Nat)
  | flush (o : Tx)
  | reconf (devs : List Link.Dev)

/-- `bind`, packet arm. src/wolfip.c 7964–7983. -/
def pkBindOp (s : PkSt) (k : Nat) (ifindex : Int) (proto : Nat) : PkSt × Res × List (Ev (Nat × List Nat)) :=
  match s.tab[k]? with
  | none => (s, .err, [])
  | some t =>
    if t.used = false then (s, .err, [])
    else if ifindex < 0 ∨ ifindex ≥ (s.devs.length : Int) then (s, .err, [])
    else ({ s with tab := setCfg k ⟨proto, ifindex, ifindex.toNat⟩ s.tab }, .ok, [])

/-- `sendto`, packet arm. src/wolfip.c 6955–6998. -/
def pkSendOp (s : PkSt) (k : Nat) (to : Option Ll) (buf : List Nat) (room : Bool) : PkSt × Res × List (Ev (Nat × List Nat)) :=
  match s.tab[k]? with
  | none => (s, .err, [])
  | some t =>
    if t.used = false then (s, .err, [])
    else if buf.length < 14 ∨ buf.length > 1536 then (s, .err, [])
    else if room = false then ({ s with tab := setCfg k { t.cfg with ifIdx := pkIf s.devs.length t.cfg to } s.tab }, .again, [])
    else
      ({ s with tab := (pushTx k { t.cfg with ifIdx := pkIf s.devs.length t.cfg to } (some (pkBuild s.devs t.cfg to buf)) s.tab).1 },
       .sent buf.length, (pushTx k { t.cfg with ifIdx := pkIf s.devs.length t.cfg to } (some (pkBuild s.devs t.cfg to buf)) s.tab).2)

/-- What `recvfrom` returns for a queued frame, packet arm. src/wolfip.c 7213–7242. -/
def pkRes (len : Nat) (x : Nat × List Nat) : Res :=
  if x.2.length > len then .err else .gotLl x.2 (etype x.2) x.1 ((x.2.drop 6).take 6)

/-- `recvfrom`, packet arm. src/wolfip.c 7198–7243. -/
def pkRecvOp (s : PkSt) (k len : Nat) : PkSt × Res × List (Ev (Nat × List Nat)) :=
  match s.tab[k]? with
  | none => (s, .err, [])
  | some t =>
    if t.used = false then (s, .err, [])
    else match (popRx k s.tab).2.1 with
      | none => (s, .again, [])
      | some x => ({ s with tab := (popRx k s.tab).1 }, pkRes len x, (popRx k s.tab).2.2)

/-- `close`, packet arm. src/wolfip.c 7763–7770. -/
def pkCloseOp (s : PkSt) (k : Nat) : PkSt × Res × List (Ev (Nat × List Nat)) :=
  match s.tab[k]? with
  | none => (s, .err, [])
  | some t => if t.used = false then (s, .err, []) else ({ s with tab := (closeSlot {} k s.tab).1 }, .ok, (closeSlot {} k s.tab).2)

/-- `packet_new_socket`. src/wolfip.c 2811–2833. -/
def pkSocketOp (s : PkSt) (proto : Nat) : PkSt × Res × List (Ev (Nat × List Nat)) :=
  ({ s with tab := (openSlot (fun _ => ⟨proto % 65536, 0, 0⟩) s.tab).1 },
   (match (openSlot (fun _ => (⟨proto % 65536, 0, 0⟩ : Pk)) s.tab).2.1 with | some k => .fd k | none => .err),
   (openSlot (fun _ => (⟨proto % 65536, 0, 0⟩ : Pk)) s.tab).2.2)

/-- One attempt of `flush_packet_tx`. src/wolfip.c 11644–11662. -/
def pkDec (devs : List Link.Dev) (o : Tx) (k n : Nat) (c : Pk) (g : List Nat) : Pk × Act :=
  (c, if o.veto k n then .skip
      else if o.link k n then .send (if c.ifIdx ≥ devs.length then 0 else c.ifIdx) g else .skip)

def pkStep (s : PkSt) : PkOp → PkSt × Res × List (Ev (Nat × List Nat))
  | .frame i g o => ({ s with tab := (pkFrame s.devs i g o s.tab).1 }, .ok, (pkFrame s.devs i g o s.tab).2)
  | .socket proto => pkSocketOp s proto
  | .bind k i proto => pkBindOp s k i proto
  | .send k to buf room => pkSendOp s k to buf room
  | .recv k len => pkRecvOp s k len
  | .close k => pkCloseOp s k
  | .flush o => ({ s with tab := (flushTab (pkDec s.devs o) s.tab).1 }, .ok, (flushTab (pkDec s.devs o) s.tab).2)
  | .reconf devs => ({ s with devs := devs }, .ok, [])

def pkRun (s : PkSt) : List PkOp → PkSt × List (Ev (Nat × List Nat))
  | [] => (s, [])
  | op :: ops => ((pkRun (pkStep s op).1 ops).1, (pkStep s op).2.2 ++ (pkRun (pkStep s op).1 ops).2)

def pkInit (devs : List Link.Dev) (n : Nat) : PkSt := { devs := devs, tab := List.replicate n ⟨false, {}, [], []⟩ }

/-! ## Raw sockets -/

/-- `protocol`, `ipheader_include`, `bound_local_ip`, `local_ip`, `remote_ip`, `if_idx`, `dontroute`. -/
structure Rw where
  proto : Nat := 0
  hdr : Bool := false
  blip : Ip := 0
  lip : Ip := 0
  rip : Ip := 0
  ifIdx : Nat := 0
  dontroute : Bool := false
deriving DecidableEq, Repr

/-- `raw_route_for_ip`. src/wolfip.c 2161–2184. -/
def rawRoute (n : Net) (c : Rw) (d : Ip) (dontroute : Bool) : Nat :=
  if c.blip ≠ 0 ∧ IpIn.isLocal n c.blip = true then ifForLocal n.rt c.blip
  else if dontroute then
    match n.rt.confs.findIdx? (fun f => f.ip != 0#32 && Route.isLocalConf f d) with
    | some i => i
    | none => routeFor n.rt d
  else routeFor n.rt d

/-- The tests of `raw_try_recv`. src/wolfip.c 2975–2987. -/
def rwTakes (i : Nat) (f : List Nat) (c : Rw) : Bool :=
  if c.proto ≠ 0 ∧ c.proto ≠ u8 f 23 then false
  else if c.blip ≠ 0 ∧ c.blip ≠ dst f then false
  else !(decide (c.ifIdx ≠ 0 ∧ c.ifIdx ≠ i))

abbrev RwTab := Tab Rw (List Nat)

/-- The raw-socket part of a reception. -/
def rwFrame (e : Env) (i : Nat) (g : List Nat) (o : Rx) (t : RwTab) : RwTab × List (Ev (List Nat)) :=
  match rawTap e i g o with
  | none => (t, [])
  | some (j, f) => deliver (rwTakes j f) o.room (IpIn.dgram f) t

structure RwSt where
  env : Env
  tab : RwTab

inductive RwOp where
  | frame (i : Nat) (g : List Nat) (o : Rx)
  | socket (proto : Nat) (hdr : Bool)
  | opt (k : Nat) (hdr dontroute : Bool)
  | bind (k : Nat) (a : Ip)
  | connect (k : Nat) (a : Ip)
  | send (k : Nat) (to : Option Ip) (buf : List Nat) (flagDr : Bool) (id : Nat) (room : Bool)
  | recv (k len : Nat)
  | close (k : Nat)
  | flush (o : Tx)
  | reconf (e : Env)

def rwSocketOp (s : RwSt) (proto : Nat) (hdr : Bool) : RwSt × Res × List (Ev (List Nat)) :=
  ({ s with tab := (openSlot (fun _ => { proto := proto % 65536, hdr := hdr }) s.tab).1 },
   (match (openSlot (fun _ => ({ proto := proto % 65536, hdr := hdr } : Rw)) s.tab).2.1 with | some k => .fd k | none => .err),
   (openSlot (fun _ => ({ proto := proto % 65536, hdr := hdr } : Rw)) s.tab).2.2)

/-- `setsockopt`: IP_HDRINCL and SO_DONTROUTE. src/wolfip.c 7378–7397. -/
def rwOptOp (s : RwSt) (k : Nat) (hdr dontroute : Bool) : RwSt × Res × List (Ev (List Nat)) :=
  match s.tab[k]? with
  | none => (s, .err, [])
  | some t =>
    if t.used = false then (s, .err, [])
    else ({ s with tab := setCfg k { t.cfg with hdr := hdr, dontroute := dontroute } s.tab }, .ok, [])

/-- `bind`, raw arm. src/wolfip.c 7986–7993, 8120–8140. -/
def rwBindOp (s : RwSt) (k : Nat) (a : Ip) : RwSt × Res × List (Ev (List Nat)) :=
  match s.tab[k]? with
  | none => (s, .err, [])
  | some t =>
    if a ≠ 0 ∧ IpIn.isLocal s.env.net a = false then (s, .err, [])
    else if t.used = false then (s, .err, [])
    else
      ({ s with tab := setCfg k { t.cfg with ifIdx := ifForLocal s.env.net.rt a, blip := a, lip := if a ≠ 0 then a else addrFor s.env.net.rt (ifForLocal s.env.net.rt a) t.cfg.lip } s.tab },
       .ok, [])

/-- The configuration after `connect`, raw arm. src/wolfip.c 6399–6413. -/
def rwConn (n : Net) (c : Rw) (a : Ip) : Rw :=
  { c with rip := a, ifIdx := rawRoute n c a c.dontroute, lip := if c.hdr then c.lip else if c.blip ≠ 0 then c.blip else addrFor n.rt (rawRoute n c a c.dontroute) c.lip }

/-- `connect`, raw arm. src/wolfip.c 6391–6415. -/
def rwConnectOp (s : RwSt) (k : Nat) (a : Ip) : RwSt × Res × List (Ev (List Nat)) :=
  match s.tab[k]? with
  | none => (s, .err, [])
  | some t => if t.used = false then (s, .err, []) else ({ s with tab := setCfg k (rwConn s.env.net t.cfg a) s.tab }, .ok, [])

/-- The IPv4 header `sendto` builds, with its checksum. src/wolfip.c 6927–6940. -/
def rwHdr (c : Rw) (sip d : Ip) (len id : Nat) : List Nat :=
  ipSet ([0x45, 0, (len + 20) / 256 % 256, (len + 20) % 256, id / 256 % 256, id % 256, 0, 0, 64, c.proto % 256, 0, 0] ++ ipBytes sip ++ ipBytes d)

/-- The caller's datagram (IP_HDRINCL) in a frame, with the destination replaced and the checksum redone if the call or
the socket names one. src/wolfip.c 6890–6905. -/
def rwOwn (d : Ip) (buf : List Nat) : List Nat :=
  if d = 0 then List.replicate 14 0 ++ buf else List.replicate 14 0 ++ ipSet (buf.take 16 ++ ipBytes d ++ buf.drop 20)

/-- Frame size against LINK_MTU. src/wolfip.c 6873–6882. -/
def rwBig (hdr : Bool) (len : Nat) : Bool := decide (14 + len + (if hdr then 0 else 20) > 1536)

/-- `sendto`, raw arm: the new configuration, the result and the frame queued. src/wolfip.c 6850–6952. -/
def rwSend (n : Net) (c : Rw) (to : Option Ip) (buf : List Nat) (flagDr : Bool) (id : Nat) (room : Bool) : Rw × Res × Option (List Nat) :=
  if buf.length = 0 then (c, .err, none)
  else
    let d := to.getD c.rip
    let c1 := { c with rip := d }
    let dr := c.dontroute || flagDr
    if rwBig c.hdr buf.length then (c1, .err, none)
    else if c.hdr then
      if buf.length < 20 then (c1, .err, none)
      else
        let g := rwOwn d buf
        let d1 := if d = 0 then dst g else d
        let c2 := { c1 with rip := d1, lip := src g }
        if d1 = 0 then (c2, .err, none)
        else
          let c3 := { c2 with ifIdx := rawRoute n c2 d1 dr }
          if room = false then (c3, .again, none) else (c3, .sent buf.length, some g)
    else
      if d = 0 then (c1, .err, none)
      else
        let i := rawRoute n c1 d dr
        let sip := if c.blip ≠ 0 then c.blip else addrFor n.rt i c.lip
        let c2 := { c1 with ifIdx := i, lip := sip }
        if room = false then (c2, .again, none)
        else (c2, .sent buf.length, some (List.replicate 14 0 ++ rwHdr c sip d buf.length id ++ buf))

def rwSendOp (s : RwSt) (k : Nat) (to : Option Ip) (buf : List Nat) (flagDr : Bool) (id : Nat) (room : Bool) : RwSt × Res × List (Ev (List Nat)) :=
  match s.tab[k]? with
  | none => (s, .err, [])
  | some t =>
    if t.used = false then (s, .err, [])
    else
      ({ s with tab := (pushTx k (rwSend s.env.net t.cfg to buf flagDr id room).1 (rwSend s.env.net t.cfg to buf flagDr id room).2.2 s.tab).1 },
       (rwSend s.env.net t.cfg to buf flagDr id room).2.1,
       (pushTx k (rwSend s.env.net t.cfg to buf flagDr id room).1 (rwSend s.env.net t.cfg to buf flagDr id room).2.2 s.tab).2)

/-- What `recvfrom` returns for a queued datagram, raw arm: the datagram with its IP header. src/wolfip.c 7170–7194. -/
def rwRes (len : Nat) (x : List Nat) : Res :=
  if x.length < 20 then .err else if x.length > len then .err else .gotIp x (ipAt x 12)

/-- `recvfrom`, raw arm. src/wolfip.c 7156–7196. -/
def rwRecvOp (s : RwSt) (k len : Nat) : RwSt × Res × List (Ev (List Nat)) :=
  match s.tab[k]? with
  | none => (s, .err, [])
  | some t =>
    if t.used = false then (s, .err, [])
    else match (popRx k s.tab).2.1 with
      | none => (s, .again, [])
      | some x => ({ s with tab := (popRx k s.tab).1 }, rwRes len x, (popRx k s.tab).2.2)

def rwCloseOp (s : RwSt) (k : Nat) : RwSt × Res × List (Ev (List Nat)) :=
  match s.tab[k]? with
  | none => (s, .err, [])
  | some t => if t.used = false then (s, .err, []) else ({ s with tab := (closeSlot {} k s.tab).1 }, .ok, (closeSlot {} k s.tab).2)

/-- The MAC of interface `i`. -/
def macOf (devs : List Link.Dev) (i : Nat) : List Nat := (devs.getD i {}).mac

/-- `eth_output_add_header` with type IPv4. src/wolfip.c 4452–4469. -/
def withEth (devs : List Link.Dev) (i : Nat) (m g : List Nat) : List Nat := m ++ macOf devs i ++ [8, 0] ++ g.drop 14

/-- Interface and next hop of a queued raw datagram. src/wolfip.c 11589–11597. -/
def rwHop (e : Env) (c : Rw) (d : Ip) : Nat × Ip :=
  let i := if c.ifIdx ≥ e.devs.length then rawRoute e.net c d c.dontroute else c.ifIdx
  if c.dontroute then (i, d)
  else match Route.lookup e.net.rt d with
    | some p => p
    | none => (i, d)

/-- Destination MAC of a raw datagram. src/wolfip.c 11598–11606. -/
def rwMac (e : Env) (o : Tx) (p : Nat × Ip) : Option (List Nat) :=
  if Route.isLoop e.net.rt p.1 then some (macOf e.devs p.1)
  else if p.2 = 0xFFFFFFFF#32 then some [255, 255, 255, 255, 255, 255]
  else o.mac p.1 p.2

/-- One attempt of `flush_raw_tx`. src/wolfip.c 11575–11627. -/
def rwDec (e : Env) (o : Tx) (k n : Nat) (c : Rw) (g : List Nat) : Rw × Act :=
  if dst g = 0 then (c, .skip)
  else
    ({ c with ifIdx := (rwHop e c (dst g)).1 },
     match rwMac e o (rwHop e c (dst g)) with
     | none => .stop (some (rwHop e c (dst g)))
     | some m =>
       if o.veto k n then .stop none
       else if o.link k n then
         .send (rwHop e c (dst g)).1 (withEth e.devs (rwHop e c (dst g)).1 m (if c.hdr then g else g.take 14 ++ ipSet (g.drop 14)))
       else .skip)

def rwStep (s : RwSt) : RwOp → RwSt × Res × List (Ev (List Nat))
  | .frame i g o => ({ s with tab := (rwFrame s.env i g o s.tab).1 }, .ok, (rwFrame s.env i g o s.tab).2)
  | .socket proto hdr => rwSocketOp s proto hdr
  | .opt k hdr dr => rwOptOp s k hdr dr
  | .bind k a => rwBindOp s k a
  | .connect k a => rwConnectOp s k a
  | .send k to buf fl id room => rwSendOp s k to buf fl id room
  | .recv k len => rwRecvOp s k len
  | .close k => rwCloseOp s k
  | .flush o => ({ s with tab := (flushTab (rwDec s.env o) s.tab).1 }, .ok, (flushTab (rwDec s.env o) s.tab).2)
  | .reconf e => ({ s with env := e }, .ok, [])

def rwRun (s : RwSt) : List RwOp → RwSt × List (Ev (List Nat))
  | [] => (s, [])
  | op :: ops => ((rwRun (rwStep s op).1 ops).1, (rwStep s op).2.2 ++ (rwRun (rwStep s op).1 ops).2)

def rwInit (e : Env) (n : Nat) : RwSt := { env := e, tab := List.replicate n ⟨false, {}, [], []⟩ }

/-! ## ICMP sockets -/

/-- `local_ip`, `src_port` (the echo id), `remote_ip`, `bound_local_ip`, `if_idx`. -/
structure Ic where
  lip : Ip := 0
  id : Nat := 0
  rip : Ip := 0
  blip : Ip := 0
  ifIdx : Nat := 0
deriving DecidableEq, Repr

/-- The tests of `icmp_try_recv`. src/wolfip.c 2849–2856. -/
def icTakes (g : List Nat) (c : Ic) : Bool :=
  if c.lip ≠ 0 ∧ c.lip ≠ dst g then false
  else if c.id ≠ 0 ∧ c.id ≠ u16 g 38 then false
  else if c.rip ≠ 0 ∧ c.rip ≠ src g then false
  else !(decide (g.length < tot g + 14))

abbrev IcTab := Tab Ic (List Nat)

/-- The ICMP-socket part of a reception. -/
def icFrame (e : Env) (i : Nat) (g : List Nat) (o : Rx) (t : IcTab) : IcTab × List (Ev (List Nat)) :=
  match icmpTap e i g o with
  | none => (t, [])
  | some h => deliver (icTakes h) o.room h t

structure IcSt where
  env : Env
  tab : IcTab

inductive IcOp where
  | frame (i : Nat) (g : List Nat) (o : Rx)
  | socket
  | bind (k : Nat) (a : Ip) (id : Nat) (veto : Bool)
  | connect (k : Nat) (a : Ip)
  | send (k : Nat) (to : Option Ip) (buf : List Nat) (rnd tos id : Nat) (room : Bool)
  | recv (k len : Nat)
  | close (k : Nat)
  | flush (o : Tx)
  | reconf (e : Env)

/-- `icmp_new_socket`: addresses and id are left as they are. src/wolfip.c 2766–2784. -/
def icSocketOp (s : IcSt) : IcSt × Res × List (Ev (List Nat)) :=
  ({ s with tab := (openSlot (fun c => { c with ifIdx := 0 }) s.tab).1 },
   (match (openSlot (fun c : Ic => { c with ifIdx := 0 }) s.tab).2.1 with | some k => .fd k | none => .err),
   (openSlot (fun c : Ic => { c with ifIdx := 0 }) s.tab).2.2)

/-- `bind_port_in_use` on the ICMP table. src/wolfip.c 7917–7936. -/
def idInUse (t : IcTab) (k : Nat) (a : Ip) (id : Nat) : Bool :=
  id != 0 && t.zipIdx.any (fun (s, j) => j != k && s.cfg.id == id && (s.cfg.lip == 0#32 || a == 0#32 || s.cfg.lip == a))

/-- `bind`, ICMP arm. src/wolfip.c 7986–7993, 8079–8118. -/
def icBindOp (s : IcSt) (k : Nat) (a : Ip) (id : Nat) (veto : Bool) : IcSt × Res × List (Ev (List Nat)) :=
  match s.tab[k]? with
  | none => (s, .err, [])
  | some t =>
    if a ≠ 0 ∧ IpIn.isLocal s.env.net a = false then (s, .err, [])
    else if t.cfg.id ≠ 0 then (s, .err, [])
    else
      let i := ifForLocal s.env.net.rt a
      let l := if a ≠ 0 then a else addrFor s.env.net.rt i t.cfg.lip
      if idInUse s.tab k l id then ({ s with tab := setCfg k { t.cfg with ifIdx := i } s.tab }, .err, [])
      else if veto then ({ s with tab := setCfg k { t.cfg with ifIdx := i } s.tab }, .err, [])
      else ({ s with tab := setCfg k { t.cfg with ifIdx := i, lip := l, id := id, blip := a } s.tab }, .ok, [])

/-- Interface and local address of a socket that talks to its `rip`; `none`: the address it is bound to is gone.
src/wolfip.c 6369–6388, 6798–6818. -/
def icRoute (n : Net) (c : Ic) : Option Ic :=
  if c.blip ≠ 0 then
    if IpIn.isLocal n c.blip = false then none
    else some { c with ifIdx := ifForLocal n.rt c.blip, lip := c.blip }
  else some { c with ifIdx := routeFor n.rt c.rip, lip := if c.lip = 0 then addrFor n.rt (routeFor n.rt c.rip) 0 else c.lip }

/-- `connect`, ICMP arm. src/wolfip.c 6360–6390. -/
def icConnectOp (s : IcSt) (k : Nat) (a : Ip) : IcSt × Res × List (Ev (List Nat)) :=
  match s.tab[k]? with
  | none => (s, .err, [])
  | some t =>
    match icRoute s.env.net { t.cfg with rip := a } with
    | none => ({ s with tab := setCfg k { t.cfg with rip := a } s.tab }, .err, [])
    | some c => ({ s with tab := setCfg k c s.tab }, .ok, [])

/-- The IPv4 header of `ip_output_add_header` for ICMP. src/wolfip.c 4770–4791. -/
def icHdr (sip d : Ip) (tos len id : Nat) : List Nat :=
  ipSet ([0x45, tos % 256, len / 256 % 256, len % 256, id / 256 % 256, id % 256, 0, 0, 64, 1, 0, 0] ++ ipBytes sip ++ ipBytes d)

/-- The ICMP message queued: the caller's with the socket's id in an echo request, and the checksum. src/wolfip.c
6832–6834, 4810–4814. -/
def icBody (sid : Nat) (buf : List Nat) : List Nat :=
  icmpFill (if u8 buf 0 = 8 then put16 buf 4 sid else buf) buf.length

/-- `sendto`, ICMP arm. src/wolfip.c 6783–6847. -/
def icSend (e : Env) (used : Bool) (c : Ic) (to : Option Ip) (buf : List Nat) (rnd tos id : Nat) (room : Bool) : Ic × Res × Option (List Nat) :=
  let c0 := { c with rip := to.getD c.rip }
  if c0.rip = 0 then (c0, .err, none)
  else
    let c1 := { c0 with id := if c.id = 0 then (if rnd % 65536 = 0 then 1 else rnd % 65536) else c.id }
    match icRoute e.net c1 with
    | none => (c1, .err, none)
    | some c2 =>
      let mtu := if used then Link.ipMtu e.devs (if c2.ifIdx ≥ e.devs.length then 0 else c2.ifIdx) else 0
      if mtu ≤ 20 ∨ buf.length < 8 ∨ buf.length > mtu - 20 then (c2, .err, none)
      else if room = false then (c2, .again, none)
      else (c2, .sent buf.length, some (List.replicate 14 0 ++ icHdr c2.lip c2.rip tos (20 + buf.length) id ++ icBody c2.id buf))

def icSendOp (s : IcSt) (k : Nat) (to : Option Ip) (buf : List Nat) (rnd tos id : Nat) (room : Bool) : IcSt × Res × List (Ev (List Nat)) :=
  match s.tab[k]? with
  | none => (s, .err, [])
  | some t =>
    ({ s with tab := (pushTx k (icSend s.env t.used t.cfg to buf rnd tos id room).1 (icSend s.env t.used t.cfg to buf rnd tos id room).2.2 s.tab).1 },
     (icSend s.env t.used t.cfg to buf rnd tos id room).2.1,
     (pushTx k (icSend s.env t.used t.cfg to buf rnd tos id room).1 (icSend s.env t.used t.cfg to buf rnd tos id room).2.2 s.tab).2)

/-- What `recvfrom` returns for a queued frame, ICMP arm: the ICMP message. src/wolfip.c 7134–7154. -/
def icRes (len : Nat) (g : List Nat) : Res :=
  if tot g - 20 > len then .err else .gotIp ((g.drop 34).take (tot g - 20)) (src g)

def icRecvOp (s : IcSt) (k len : Nat) : IcSt × Res × List (Ev (List Nat)) :=
  match s.tab[k]? with
  | none => (s, .err, [])
  | some _ =>
    match (popRx k s.tab).2.1 with
    | none => (s, .again, [])
    | some x => ({ s with tab := (popRx k s.tab).1 }, icRes len x, (popRx k s.tab).2.2)

def icCloseOp (s : IcSt) (k : Nat) : IcSt × Res × List (Ev (List Nat)) :=
  match s.tab[k]? with
  | none => (s, .err, [])
  | some _ => ({ s with tab := (closeSlot {} k s.tab).1 }, .ok, (closeSlot {} k s.tab).2)

/-- Interface and next hop of a queued UDP or ICMP datagram; `i` is the socket's interface, `pin` the interface set with
IP_MULTICAST_IF. src/wolfip.c 11462–11482. -/
def dgHop (e : Env) (udp : Bool) (i : Nat) (pin : Option Nat) (d : Ip) : Nat × Ip :=
  match pin, udp && isMcast d with
  | some j, true => (j, d)
  | _, _ =>
    match Route.lookup e.net.rt d with
    | some p => p
    | none => (if i ≥ e.devs.length then 0 else i, d)

/-- `mcast_ip_to_eth`. src/wolfip.c 1904–1914. -/
def mcMac (d : Ip) : List Nat := [1, 0, 0x5e, d.toNat / 65536 % 128, d.toNat / 256 % 256, d.toNat % 256]

/-- Destination MAC of a UDP or ICMP datagram (not asked on a non-Ethernet interface). src/wolfip.c 11483–11503. -/
def dgMac (e : Env) (o : Tx) (udp : Bool) (d : Ip) (p : Nat × Ip) : Option (List Nat) :=
  if Route.isLoop e.net.rt p.1 then some (macOf e.devs p.1)
  else if (e.devs.getD p.1 {}).nonEth then some []
  else if Route.isBroadcast e.net.rt p.2 then some [255, 255, 255, 255, 255, 255]
  else if udp && isMcast d then some (mcMac d)
  else o.mac p.1 p.2

/-- One attempt of `flush_datagram_tx`. src/wolfip.c 11456–11550. -/
def dgDec {C : Type} (e : Env) (o : Tx) (udp : Bool) (ifOf : C → Nat) (pin : C → Option Nat) (k n : Nat) (c : C) (g : List Nat) : C × Act :=
  (c,
   match dgMac e o udp (dst g) (dgHop e udp (ifOf c) (pin c) (dst g)) with
   | none => .stop (some (dgHop e udp (ifOf c) (pin c) (dst g)))
   | some m =>
     if o.veto k n then .stop none
     else if o.link k n then
       .send (dgHop e udp (ifOf c) (pin c) (dst g)).1
         (if (e.devs.getD (dgHop e udp (ifOf c) (pin c) (dst g)).1 {}).nonEth then g
          else withEth e.devs (dgHop e udp (ifOf c) (pin c) (dst g)).1 m g)
     else .stop none)

def icDec (e : Env) (o : Tx) : Nat → Nat → Ic → List Nat → Ic × Act := dgDec e o false Ic.ifIdx (fun _ => none)

def icStep (s : IcSt) : IcOp → IcSt × Res × List (Ev (List Nat))
  | .frame i g o => ({ s with tab := (icFrame s.env i g o s.tab).1 }, .ok, (icFrame s.env i g o s.tab).2)
  | .socket => icSocketOp s
  | .bind k a id veto => icBindOp s k a id veto
  | .connect k a => icConnectOp s k a
  | .send k to buf rnd tos id room => icSendOp s k to buf rnd tos id room
  | .recv k len => icRecvOp s k len
  | .close k => icCloseOp s k
  | .flush o => ({ s with tab := (flushTab (icDec s.env o) s.tab).1 }, .ok, (flushTab (icDec s.env o) s.tab).2)
  | .reconf e => ({ s with env := e }, .ok, [])

def icRun (s : IcSt) : List IcOp → IcSt × List (Ev (List Nat))
  | [] => (s, [])
  | op :: ops => ((icRun (icStep s op).1 ops).1, (icStep s op).2.2 ++ (icRun (icStep s op).1 ops).2)

def icInit (e : Env) (n : Nat) : IcSt := { env := e, tab := List.replicate n ⟨false, {}, [], []⟩ }

end Wolf.Dgram
