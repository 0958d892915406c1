import Verif.Ip.Model
import Verif.Sock.Model
/-!
# UDP sockets

Models `udp_new_socket` (src/wolfip.c 2632–2655), `udp_try_recv` (2657–2763), the UDP arms of `connect` (6315–6362),
`sendto` (6718–6783), `recvfrom` (7080–7115), `close` (7731–7741) and `bind` (8026–8076), and `bind_port_in_use`
(7917–7936).

Simplifications. The receive buffer is a list of frames (the packet FIFO is `Verif.Fifo`, C01); whether it has room
is an arbitrary input. Group memberships are set by an arbitrary operation (`Verif.Mcast` has the real one). The
filter's verdicts, random numbers, whether the datagram fits the MTU and whether the transmit buffer has room are
inputs. Event bits, the interface index of the socket and the TTL of the last packet are left out.
-/
namespace Wolf.Udp
open Wolf.Route (Ip)
open Wolf.IpIn (Net u8 u16 tot src dst isMcast)

/-- A slot of `udpsockets`. `used` is `proto != 0`; `groups` the (interface, group) memberships; `rx` the frames
waiting, oldest first. -/
structure Sock where
  used : Bool := false
  sport : Nat := 0
  dport : Nat := 0
  lip : Ip := 0
  rip : Ip := 0
  blip : Ip := 0
  conn : Bool := false
  groups : List (Nat × Ip) := []
  rx : List (List Nat) := []
deriving DecidableEq, Repr

structure St where
  net : Net
  socks : List Sock

/-- A zeroed stack with `n` UDP slots. -/
def init (net : Net) (n : Nat) : St := { net := net, socks := List.replicate n {} }

/-- Source port of the datagram in frame `g` (without IP options). -/
def sportOf (g : List Nat) : Nat := u16 g 34
def dportOf (g : List Nat) : Nat := u16 g 36
/-- The UDP length field. -/
def ulen (g : List Nat) : Nat := u16 g 38
/-- The pseudo header. src/wolfip.c 2693–2698. -/
def pseudo (g : List Nat) : List Nat := (g.drop 26).take 8 ++ [0, 17] ++ (g.drop 38).take 2

/-- The checks of `udp_try_recv` before the filter. src/wolfip.c 2666–2701. -/
def udpOk (g : List Nat) : Bool :=
  if g.length < 42 then false
  else if g.length < 14 + tot g then false
  else if ulen g < 8 then false
  else if ulen g > g.length - 34 then false
  else if tot g < 20 ∨ ulen g > tot g - 20 then false
  else if u16 g 40 ≠ 0 ∧ Csum.transportVerify (pseudo g) (g.drop 34) = false then false
  else true

/-- `peer_match`. src/wolfip.c 2716–2718. -/
def peerMatch (t : Sock) (g : List Nat) : Bool :=
  !t.conn || ((t.dport == 0 || t.dport == sportOf g) && (t.rip == 0#32 || t.rip == src g))

/-- `addr_match`. src/wolfip.c 2719–2729. -/
def addrMatch (n : Net) (i : Nat) (t : Sock) (g : List Nat) : Bool :=
  if isMcast (dst g) then
    t.groups.contains (i, dst g) && (!t.conn || t.rip == 0#32 || t.rip == src g || t.rip == dst g)
  else (t.lip == 0#32 && n.dhcp) || (t.lip == dst g && peerMatch t g)

/-- The condition under which slot `t` takes the datagram. src/wolfip.c 2731. -/
def takes (n : Net) (i : Nat) (t : Sock) (g : List Nat) : Bool := t.sport == dportOf g && addrMatch n i t g

/-- One iteration of the delivery loop; `room` = the FIFO accepts the frame. src/wolfip.c 2704–2746. -/
def accept1 (n : Net) (i : Nat) (g : List Nat) (room : Bool) (t : Sock) : Sock :=
  if takes n i t g && room then { t with rx := t.rx ++ [g] } else t

/-- What others can see. `queued k i g`: the frame `g` from interface `i` is put in the receive buffer of socket `k`.
`read k g`: recvfrom on `k` takes the frame `g` out. `reset k`: the buffer of `k` is cleared (socket or close).
`unreachable i g`: a port unreachable about `g` is handed to interface `i`. `sent k`: a datagram with these source
address, source port, destination, port and payload is put in the transmit buffer. -/
inductive Ev where
  | queued (k i : Nat) (g : List Nat)
  | read (k : Nat) (g : List Nat)
  | reset (k : Nat)
  | unreachable (i : Nat) (g : List Nat)
  | sent (k : Nat) (sip : Ip) (sp : Nat) (dip : Ip) (dp : Nat) (p : List Nat)
deriving DecidableEq, Repr

/-- The events of the delivery loop. -/
def queuedEvs (n : Net) (i : Nat) (g : List Nat) (room : Nat → Bool) (socks : List Sock) : List Ev :=
  socks.zipIdx.flatMap (fun (t, k) => if takes n i t g && room k then [Ev.queued k i g] else [])

/-- `udp_try_recv`. src/wolfip.c 2657–2763. -/
def tryRecv (s : St) (i : Nat) (g : List Nat) (veto : Bool) (room : Nat → Bool) : St × List Ev :=
  if udpOk g = false then (s, [])
  else if veto then (s, [])
  else
    ({ s with socks := s.socks.zipIdx.map (fun (t, k) => accept1 s.net i g (room k) t) },
     queuedEvs s.net i g room s.socks ++
       (if s.socks.any (fun t => takes s.net i t g) then []
        else if IpIn.answersUnmatched s.net g then [Ev.unreachable i g] else []))

/-- What a call returns: an error, 0, a descriptor, a byte count, or what `recvfrom` gives: the payload and the
sender's address and port. -/
inductive Res where
  | err
  | again
  | ok
  | fd (k : Nat)
  | sent (n : Nat)
  | got (p : List Nat) (ip : Ip) (port : Nat)
deriving DecidableEq, Repr

def setSock (s : St) (k : Nat) (t : Sock) : St := { s with socks := s.socks.set k t }

/-- `udp_new_socket`: first slot with proto 0; ports, addresses and memberships are left as they are. src/wolfip.c
2632–2655. -/
def socketOp (s : St) : St × Res × List Ev :=
  match s.socks.findIdx? (fun t => !t.used) with
  | none => (s, .err, [])
  | some k => (setSock s k { s.socks.getD k {} with used := true, rx := [] }, .fd k, [.reset k])

/-- `bind_port_in_use`. src/wolfip.c 7917–7936. -/
def portInUse (socks : List Sock) (k : Nat) (ip : Ip) (port : Nat) : Bool :=
  port != 0 && socks.zipIdx.any (fun (t, j) => j != k && t.sport == port && (t.lip == 0 || ip == 0 || t.lip == ip))

/-- `bind`, UDP arm. src/wolfip.c 7983–7990, 8026–8076. -/
def bindOp (s : St) (k : Nat) (ip : Ip) (port : Nat) (veto : Bool) : St × Res × List Ev :=
  match s.socks[k]? with
  | none => (s, .err, [])
  | some t =>
    if ip ≠ 0 ∧ IpIn.isLocal s.net ip = false then (s, .err, [])
    else if t.sport ≠ 0 then (s, .err, [])
    else if portInUse s.socks k (Sock.bindAddr s.net.rt ip) port then (s, .err, [])
    else if veto then (s, .err, [])
    else (setSock s k { t with lip := Sock.bindAddr s.net.rt ip, sport := port, blip := ip }, .ok, [])

/-- `connect`, UDP arm. src/wolfip.c 6315–6362. -/
def connectOp (s : St) (k : Nat) (ip : Ip) (port : Nat) : St × Res × List Ev :=
  match s.socks[k]? with
  | none => (s, .err, [])
  | some t =>
    if t.blip ≠ 0 ∧ IpIn.isLocal s.net t.blip = false then (s, .err, [])
    else (setSock s k { t with dport := port, rip := ip, lip := if t.blip ≠ 0 then t.blip else Sock.connAddr s.net.rt ip, conn := true }, .ok, [])

/-- The socket after `sendto` has taken the address, src/wolfip.c 6731–6736. -/
def dstOf (t : Sock) : Option (Ip × Nat) → Sock
  | none => t
  | some (ip, port) => { t with dport := port, rip := ip }

/-- Source port and local address chosen when unset, src/wolfip.c 6739–6758. -/
def srcOf (net : Net) (rnd : Nat) (t : Sock) : Sock :=
  { t with
    sport := if t.sport = 0 then (if rnd % 65536 < 1024 then rnd % 65536 + 1024 else rnd % 65536) else t.sport
    lip := if t.lip = 0 then Sock.connAddr net.rt t.rip else t.lip }

/-- `sendto`, UDP arm. `fits`: the datagram fits the MTU, `room`: the transmit buffer accepts it. src/wolfip.c
6718–6783. -/
def sendOp (s : St) (k : Nat) (to : Option (Ip × Nat)) (p : List Nat) (rnd : Nat) (fits room : Bool) : St × Res × List Ev :=
  match s.socks[k]? with
  | none => (s, .err, [])
  | some t =>
    if t.dport = 0 ∧ to = none then (s, .err, [])
    else
      let t1 := dstOf t to
      if t1.dport = 0 ∨ t1.rip = 0 then (setSock s k t1, .err, [])
      else
        let t2 := srcOf s.net rnd t1
        if fits = false then (setSock s k t2, .err, [])
        else if room = false then (setSock s k t2, .again, [])
        else (setSock s k t2, .sent p.length, [.sent k t2.lip t2.sport t2.rip t2.dport p])

/-- The payload of the datagram in frame `g`. -/
def payload (g : List Nat) : List Nat := (g.drop 42).take (ulen g - 8)

/-- `recvfrom`, UDP arm, into a buffer of `len` bytes. src/wolfip.c 7080–7115. -/
def recvOp (s : St) (k : Nat) (len : Nat) : St × Res × List Ev :=
  match s.socks[k]? with
  | none => (s, .err, [])
  | some t =>
    match t.rx with
    | [] => (s, .again, [])
    | g :: rest =>
      if ulen g < 8 then (setSock s k { t with rx := rest }, .err, [.read k g])
      else
        let t1 := { t with rx := rest, rip := if t.rip = 0 ∧ src g ≠ t.lip then src g else t.rip }
        if ulen g - 8 > len then (setSock s k t1, .err, [.read k g])
        else (setSock s k t1, .got (payload g) (src g) (sportOf g), [.read k g])

/-- `close`, UDP arm. src/wolfip.c 7731–7741, 6138–6175. -/
def closeOp (s : St) (k : Nat) : St × Res × List Ev :=
  match s.socks[k]? with
  | none => (s, .err, [])
  | some _ => (setSock s k {}, .ok, [.reset k])

/-- What can happen. -/
inductive Op where
  | frame (i : Nat) (g : List Nat) (veto : Bool) (room : Nat → Bool)
  | socket
  | bind (k : Nat) (ip : Ip) (port : Nat) (veto : Bool)
  | connect (k : Nat) (ip : Ip) (port : Nat)
  | send (k : Nat) (to : Option (Ip × Nat)) (p : List Nat) (rnd : Nat) (fits room : Bool)
  | recv (k : Nat) (len : Nat)
  | close (k : Nat)
  | groups (k : Nat) (gs : List (Nat × Ip))
  | reconf (n : Net)

/-- Set the memberships of a socket (`Verif.Mcast`). -/
def groupsOp (s : St) (k : Nat) (gs : List (Nat × Ip)) : St × Res × List Ev :=
  match s.socks[k]? with
  | none => (s, .err, [])
  | some t => (setSock s k { t with groups := gs }, .ok, [])

def step (s : St) : Op → St × Res × List Ev
  | .frame i g veto room => ((tryRecv s i g veto room).1, .ok, (tryRecv s i g veto room).2)
  | .socket => socketOp s
  | .bind k ip port veto => bindOp s k ip port veto
  | .connect k ip port => connectOp s k ip port
  | .send k to p rnd fits room => sendOp s k to p rnd fits room
  | .recv k len => recvOp s k len
  | .close k => closeOp s k
  | .groups k gs => groupsOp s k gs
  | .reconf n => ({ s with net := n }, .ok, [])

/-- State and events of a history. -/
def run (s : St) : List Op → St × List Ev
  | [] => (s, [])
  | op :: ops => ((run (step s op).1 ops).1, (step s op).2.2 ++ (run (step s op).1 ops).2)

end Wolf.Udp
