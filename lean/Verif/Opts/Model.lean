/-!
# C141: socket options

Model of `wolfIP_sock_setsockopt` (src/wolfip.c 7373–7517) and `wolfIP_sock_getsockopt` (7544–7661) on one open socket,
of the defaults (2632–2655, 2788–2799) and of what the options do to an outgoing IP header (4779–4786), built with
IP_MULTICAST, raw and packet sockets, on a little-endian machine with 4-octet int. Whether a number is a descriptor is
C110–C112 (Fd); memberships are C59 (Mcast): here their outcome is an input. The caller's buffer is a list of octets;
what the code copies out of it is a prefix.
-/
namespace Wolf.Opts

inductive Kind where
  | tcp | udp | icmp | raw | packet
deriving DecidableEq, Repr

/-- The options of a slot. wolfip.c 1237–1240, 1258–1261, 1282–1285. `mif`: `mcast_if_idx` when `mcast_if_set`. -/
structure Opt where
  recvTtl : Bool := false
  tos : Nat := 0
  mttl : Nat := 1
  mloop : Bool := true
  mif : Option Nat := none
  hdr : Bool := false
  dontroute : Bool := false
deriving DecidableEq, Repr

/-- What the calls ask of the rest of the stack: `mcast_if_from_addr` for an address, the outcome of a membership
change, the IP address (as the octets of `s_addr`) of an interface, and `wolfIP_socket_if_idx`. -/
structure Env where
  ifOf : List Nat → Option Nat := fun _ => none
  member : List Nat → Bool := fun _ => true
  ipOf : Nat → List Nat := fun _ => [0, 0, 0, 0]
  own : Nat := 0

/-- A `memcpy` into an `int`. -/
def i32 (b : List Nat) : Nat := b.getD 0 0 + 256 * b.getD 1 0 + 65536 * b.getD 2 0 + 16777216 * b.getD 3 0

/-- A `memcpy` from an `int` with a value below 256. -/
def enc (v : Nat) : List Nat := [v, 0, 0, 0]

notation "SOL_IP" => (0 : Nat)
notation "SOL_SOCKET" => (1 : Nat)
notation "IP_TOS" => (1 : Nat)
notation "IP_HDRINCL" => (3 : Nat)
notation "SO_DONTROUTE" => (5 : Nat)
notation "IP_RECVTTL" => (12 : Nat)
notation "IP_MULTICAST_IF" => (32 : Nat)
notation "IP_MULTICAST_TTL" => (33 : Nat)
notation "IP_MULTICAST_LOOP" => (34 : Nat)
notation "IP_ADD_MEMBERSHIP" => (35 : Nat)
notation "IP_DROP_MEMBERSHIP" => (36 : Nat)

/-- `wolfIP_sock_setsockopt`; the Boolean is "returned 0". `val` is the caller's buffer (`none`: null).
src/wolfip.c 7373–7517. -/
def setOpt (e : Env) (k : Kind) (o : Opt) (level name : Nat) (val : Option (List Nat)) (len : Nat) : Opt × Bool :=
  match k with
  | .packet => (o, false)
  | .raw =>
    match val with
    | none => (o, false)
    | some b =>
      if len < 4 then (o, false)
      else if level = SOL_IP ∧ name = IP_RECVTTL then ({ o with recvTtl := decide (i32 b ≠ 0) }, true)
      else if level = SOL_IP ∧ name = IP_HDRINCL then ({ o with hdr := decide (i32 b ≠ 0) }, true)
      else if level = SOL_SOCKET ∧ name = SO_DONTROUTE then ({ o with dontroute := decide (i32 b ≠ 0) }, true)
      else (o, false)
  | _ =>
    if level = SOL_IP ∧ name = IP_RECVTTL then
      match val with
      | none => (o, false)
      | some b => if len < 4 then (o, false) else ({ o with recvTtl := decide (i32 b ≠ 0) }, true)
    else if level = SOL_IP ∧ name = IP_TOS then
      match val with
      | none => (o, false)
      | some b => if len < 4 then (o, false) else if i32 b > 255 then (o, false) else ({ o with tos := i32 b }, true)
    else if level = SOL_IP ∧ k = .udp then
      if name = IP_ADD_MEMBERSHIP ∨ name = IP_DROP_MEMBERSHIP then
        match val with
        | none => (o, false)
        | some b => if len < 8 then (o, false) else (o, e.member (b.take 8))
      else if name = IP_MULTICAST_IF then
        match val with
        | none => (o, false)
        | some b =>
          if len < 4 then (o, false)
          else if i32 b = 0 then ({ o with mif := none }, true)
          else match e.ifOf (b.take 4) with
            | none => (o, false)
            | some i => ({ o with mif := some i }, true)
      else if name = IP_MULTICAST_TTL then
        match val with
        | none => (o, false)
        | some b =>
          if len = 0 then (o, false)
          else if len ≥ 4 then (if i32 b > 255 then (o, false) else ({ o with mttl := i32 b }, true))
          else ({ o with mttl := b.getD 0 0 }, true)
      else if name = IP_MULTICAST_LOOP then
        match val with
        | none => (o, false)
        | some b =>
          if len = 0 then (o, false)
          else if len ≥ 4 then ({ o with mloop := decide (i32 b ≠ 0) }, true)
          else ({ o with mloop := decide (b.getD 0 0 ≠ 0) }, true)
      else (o, true)
    else (o, true)

/-- `wolfIP_sock_getsockopt`: `none` is an error, `some w` is 0 with the octets `w` written and their number put in
`*optlen`, except that `some []` leaves `*optlen` and the buffer alone. `room`: `*optlen`, `none` if either pointer is null.
src/wolfip.c 7544–7661. -/
def getOpt (e : Env) (k : Kind) (o : Opt) (level name : Nat) (room : Option Nat) : Option (List Nat) :=
  if level = SOL_IP ∧ name = IP_RECVTTL then
    match room with
    | none => none
    | some r => if r < 4 then none else if k = .packet then none else some (enc (if o.recvTtl then 1 else 0))
  else if level = SOL_IP ∧ name = IP_TOS then
    match room with
    | none => none
    | some r => if r < 4 then none else if k = .packet ∨ k = .raw then none else some (enc o.tos)
  else if level = SOL_IP ∧ k = .udp then
    if name = IP_MULTICAST_TTL ∨ name = IP_MULTICAST_LOOP then
      match room with
      | none => none
      | some r =>
        let v := if name = IP_MULTICAST_TTL then o.mttl else (if o.mloop then 1 else 0)
        if r < 1 then none else if r ≥ 4 then some (enc v) else some [v]
    else if name = IP_MULTICAST_IF then
      match room with
      | none => none
      | some r => if r < 4 then none else some (e.ipOf (match o.mif with | some i => i | none => e.own))
    else some []
  else some []

/-- Type of service and time to live of what a TCP, UDP or ICMP socket sends. src/wolfip.c 4779–4786. -/
def outTos (o : Opt) : Nat := o.tos
def outTtl (k : Kind) (o : Opt) (mcastDst : Bool) : Nat := if k = .udp ∧ mcastDst then o.mttl else 64

end Wolf.Opts
