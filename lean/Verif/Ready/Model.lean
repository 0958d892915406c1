/-!
# Readiness events of UDP, ICMP, raw and packet sockets

Models the event bits (`events`) of one datagram socket: where they are raised (src/wolfip.c 2650, 2744–2747, 2780,
2802, 2827, 2857–2860, 2988–2990, 3034–3035, 1649–1656, 11558–11563), cleared (7139–7143, 7151–7153, 7176–7180, 7192–7194,
7217–7221, 7240–7242) and dispatched (`dispatch_events` 11203–11214 and the raw and packet loops of
`handle_socket_callbacks` 11268–11286), with `recvfrom`, `sendto`, `wolfIP_sock_can_read` (7840–7875),
`wolfIP_sock_can_write` (7877–7914), `wolfIP_register_callback` (2464–2505), `socket` and `close`. Which datagrams match a socket is `Verif.Udp`, `Verif.Dgram`;
whether a buffer has room is an input here (`Verif.Fifo`). A callback is application code: the operations
between `fire` and `fireEnd` are what it does.
-/
namespace Wolf.Ready

inductive Kind | udp | icmp | raw | packet
deriving DecidableEq, Repr

/-- Raw and packet sockets: their loop clears the events after the callback. -/
def Kind.late : Kind → Bool
  | .udp => false
  | .icmp => false
  | .raw => true
  | .packet => true

/-- One socket: in use, callback registered, the READABLE and WRITABLE bits, the lengths of the queued datagrams, the
number of frames waiting to be sent, and how many runs of its callback are active (raw and packet). -/
structure Sk where
  used : Bool := false
  cb : Bool := false
  r : Bool := false
  w : Bool := false
  rx : List Nat := []
  tx : Nat := 0
  busy : Nat := 0
deriving DecidableEq, Repr

/-- `arrive n room`: a datagram of `n` bytes that matches; `send room`; `flush n space`: `n` frames leave the transmit
buffer, and then there is (`space`) room for a small datagram; `loop space`: a frame left the loopback queue and the
socket's interface is the loopback one. -/
inductive Op where
  | socket
  | close
  | register (on : Bool)
  | arrive (n : Nat) (room : Bool)
  | recv (len : Nat)
  | send (room : Bool)
  | flush (n : Nat) (space : Bool)
  | loop (space : Bool)
  | fire
  | fireEnd
deriving DecidableEq, Repr

inductive Out where
  | none
  | fd
  | data (n : Nat)
  | again
  | err
  | sent
  | event (r w : Bool)
deriving DecidableEq, Repr

/-- Is the READABLE bit kept by a receive call that leaves `rest` in the buffer? -/
def keepR (k : Kind) (r : Bool) (rest : List Nat) : Bool :=
  match k with
  | .udp => r
  | .icmp => r && !rest.isEmpty
  | .raw => r && !rest.isEmpty
  | .packet => r && !rest.isEmpty

/-- `recvfrom`. A raw datagram shorter than an IP header is dropped without touching the events (7172–7175). -/
def recvOp (k : Kind) (s : Sk) (len : Nat) : Sk × Out :=
  match s.rx with
  | [] => (s, .again)
  | n :: rest =>
    if k = .raw ∧ n < 20 then ({ s with rx := rest }, .err)
    else ({ s with rx := rest, r := keepR k s.r rest }, if n > len then .err else .data n)

/-- A new socket: UDP and ICMP sockets keep what the slot held (2632–2655, 2766–2784), raw and packet sockets are zeroed. -/
def socketOp (k : Kind) (s : Sk) : Sk × Out :=
  if s.used then (s, .err)
  else if k.late then ({ used := true, w := true, busy := s.busy }, .fd)
  else ({ s with used := true, w := true, rx := [], tx := 0 }, .fd)

/-- The dispatch loops. -/
def fireOp (k : Kind) (s : Sk) : Sk × Out :=
  if k.late then
    if s.used && s.cb && (s.r || s.w) then ({ s with busy := s.busy + 1 }, .event s.r s.w) else (s, .none)
  else
    if s.cb && (s.r || s.w) then ({ s with r := false, w := false }, .event s.r s.w) else (s, .none)

def step (k : Kind) (s : Sk) : Op → Sk × Out
  | .socket => socketOp k s
  | .close => ({ busy := s.busy }, .none)
  | .register on => ({ s with cb := on }, .none)
  | .arrive n room => (if s.used && room then { s with rx := s.rx ++ [n], r := true } else s, .none)
  | .recv len => if k.late && !s.used then (s, .err) else recvOp k s len
  | .send room => if s.used = false then (s, .err) else if room then ({ s with tx := s.tx + 1 }, .sent) else (s, .again)
  | .flush n space =>
    ({ s with tx := s.tx - n, w := s.w || (decide (k = .udp) && decide (0 < n) && decide (0 < s.tx) && space) }, .none)
  | .loop space => ({ s with w := s.w || (s.used && !k.late && space) }, .none)
  | .fire => fireOp k s
  | .fireEnd => (if s.busy = 0 then s else { s with busy := s.busy - 1, r := false, w := false }, .none)

/-- A history and what it shows. -/
def run (k : Kind) (s : Sk) : List Op → Sk × List (Op × Out)
  | [] => (s, [])
  | op :: ops => ((run k (step k s op).1 ops).1, (op, (step k s op).2) :: (run k (step k s op).1 ops).2)

/-- `wolfIP_sock_can_read`, datagram arms. src/wolfip.c 7853–7873. -/
def canRead (s : Sk) : Bool := !s.rx.isEmpty

end Wolf.Ready
