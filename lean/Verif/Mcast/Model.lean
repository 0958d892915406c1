import Verif.Csum.Checksum
/-!
# Multicast membership (C42) and IGMP query answers (C43)

Model of the IP_MULTICAST parts of `src/wolfip.c`: memberships of UDP sockets (805–820, 1922–1955, 7259–7371),
the socket calls that lead to them (2632–2655, 6138–6175, 7430–7456, 7730–7741), the deferred report
(4554–4583) and `igmp_input` (4585–4658).

Simplifications. The timer heap is the list of pending IGMP timers (C11 proves the heap equivalent to such a
list); whether an insertion finds room, and which due timer fires, is chosen by the environment. `route_for_ip`
is a value supplied with the call (C26 is about it). Interface indices are not truncated to 8 bits (there are
fewer than 256 interfaces). A report is recorded when `igmp_send_report` hands it to the link.
-/
namespace Wolf.Mcast

/-! ## Model -/

/-- `struct wolfIP_mcast_membership`: `tmr` = 0 is NO_TIMER. src/wolfip.c 810–820. -/
structure Mem where
  group : Nat := 0
  ifi : Nat := 0
  refs : Nat := 0
  tmr : Nat := 0
deriving DecidableEq, Repr

/-- A UDP socket slot: whether it is in use (`proto` ≠ 0) and its memberships (`group`, `if_idx`), group 0
for a free entry. src/wolfip.c 805–808, 1237. -/
structure Sock where
  used : Bool := false
  mc : List (Nat × Nat)
deriving DecidableEq, Repr

/-- A pending report timer: id, deadline, index of the membership. -/
structure Tm where
  id : Nat
  exp : Nat
  slot : Nat
deriving DecidableEq, Repr

structure St where
  mem : List Mem
  socks : List Sock
  ips : List Nat
  tms : List Tm := []
  nextId : Nat := 1
deriving DecidableEq

/-- WOLFIP_UDP_MCAST_MEMBERSHIPS. -/
notation "perSock" => (4 : Nat)

/-- A zeroed stack with `n` UDP sockets and the given interface addresses (WOLFIP_MCAST_MEMBERSHIPS is
n * perSock, src/wolfip.c 163). -/
def init (n : Nat) (ips : List Nat) : St :=
  { mem := List.replicate (n * perSock) {}, socks := List.replicate n { mc := List.replicate perSock (0, 0) }, ips := ips }

/-- `wolfIP_ip_is_multicast`. src/wolfip.c 1863–1866. -/
def isMcast (a : Nat) : Bool := a / 268435456 == 14

/-- IGMPv3 report: interface, group, and leaving (CHANGE_TO_INCLUDE) or member (MODE_IS_EXCLUDE). -/
structure Report where
  ifi : Nat
  group : Nat
  leave : Bool
deriving DecidableEq, Repr

/-- `igmp_send_report`: refused without an address on the interface. src/wolfip.c 4474–4548. -/
def report (s : St) (ifi group : Nat) (leave : Bool) : List Report :=
  match s.ips[ifi]? with
  | none => []
  | some ip => if isMcast group = false then [] else if ip = 0 then [] else [⟨ifi, group, leave⟩]

/-- The test of `mcast_membership_find`. -/
def isKey (ifi group : Nat) (m : Mem) : Bool := m.group == group && m.ifi == ifi && m.refs != 0

/-- `mcast_membership_find`: index of the membership. src/wolfip.c 1922–1936. -/
def find (s : St) (ifi group : Nat) : Option Nat := s.mem.findIdx? (isKey ifi group)

/-- `mcast_is_joined`. src/wolfip.c 1938–1941. -/
def isJoined (s : St) (ifi group : Nat) : Bool := (find s ifi group).isSome

/-- `udp_socket_has_mcast`. src/wolfip.c 1943–1955. -/
def hasMcast (t : Sock) (ifi group : Nat) : Bool := t.mc.any (fun e => e == (group, ifi))

/-- `wolfIP_if_for_local_ip` with a nonzero address: the interface found. src/wolfip.c 2226–2247. -/
def ifForLocal (s : St) (a : Nat) : Option Nat := s.ips.findIdx? (fun x => x == a)

/-- `mcast_if_from_addr`; `route` is what `wolfIP_route_for_ip` answers. src/wolfip.c 7260–7280. -/
def ifFromAddr (s : St) (ifAddr group route : Nat) : Option Nat :=
  if isMcast group = false then none
  else if ifAddr = 0 then
    match s.ips[route]? with
    | none => none
    | some ip => if ip ≠ 0 then some route else none
  else ifForLocal s ifAddr

inductive Res where
  | ok
  | einval
  | enomem
deriving DecidableEq, Repr

/-- Replace socket `k`. -/
def setSock (s : St) (k : Nat) (t : Sock) : St := { s with socks := s.socks.set k t }
/-- Replace membership `j`. -/
def setMem (s : St) (j : Nat) (m : Mem) : St := { s with mem := s.mem.set j m }

/-- The tail of `udp_mcast_join` once the membership `j` (`m`) is found: fill the socket's entry `i`, report if
it is new, count. src/wolfip.c 7316–7322. -/
def joinAt (s : St) (k : Nat) (t : Sock) (i : Nat) (ifi group : Nat) (j : Nat) (m : Mem) : St × List Report :=
  (setMem (setSock s k { t with mc := t.mc.set i (group, ifi) }) j { m with refs := if m.refs ≠ 255 then m.refs + 1 else m.refs },
   if m.refs = 0 then report s ifi group false else [])

/-- `udp_mcast_join`. src/wolfip.c 7282–7323. -/
def join (s : St) (k : Nat) (t : Sock) (group ifi : Nat) : St × Res × List Report :=
  if isMcast group = false ∨ ifi ≥ s.ips.length then (s, .einval, [])
  else if hasMcast t ifi group then (s, .einval, [])
  else
    match t.mc.findIdx? (fun e => e.1 == 0) with
    | none => (s, .enomem, [])
    | some i =>
      match find s ifi group with
      | some j =>
        let r := joinAt s k t i ifi group j (s.mem.getD j {})
        (r.1, .ok, r.2)
      | none =>
        match s.mem.findIdx? (fun m => m.refs == 0) with
        | none => (s, .enomem, [])
        | some j =>
          let r := joinAt s k t i ifi group j { (s.mem.getD j {}) with group := group, ifi := ifi, tmr := 0 }
          (r.1, .ok, r.2)

/-- Cancel a timer by id. -/
def cancel (s : St) (id : Nat) : St := { s with tms := s.tms.filter (fun t => t.id != id) }

/-- Count the membership `j` (`m`) down; the last reference cancels its pending report, says so and frees the
slot. src/wolfip.c 7344–7355. -/
def releaseAt (s : St) (j : Nat) (m : Mem) (group ifi : Nat) : St × List Report :=
  if m.refs > 0 then
    if m.refs - 1 = 0 then
      (setMem (if m.tmr ≠ 0 then cancel s m.tmr else s) j {}, report s ifi group true)
    else (setMem s j { m with refs := m.refs - 1 }, [])
  else (s, [])

/-- The membership half of `udp_mcast_drop`. src/wolfip.c 7343–7355. -/
def release (s : St) (group ifi : Nat) : St × List Report :=
  match find s ifi group with
  | none => (s, [])
  | some j => releaseAt s j (s.mem.getD j {}) group ifi

/-- `udp_mcast_drop`. src/wolfip.c 7325–7357. -/
def drop (s : St) (k : Nat) (t : Sock) (group ifi : Nat) : St × Res × List Report :=
  if isMcast group = false ∨ ifi ≥ s.ips.length then (s, .einval, [])
  else
    match t.mc.findIdx? (fun e => e == (group, ifi)) with
    | none => (s, .einval, [])
    | some i =>
      let r := release (setSock s k { t with mc := t.mc.set i (0, 0) }) group ifi
      (r.1, .ok, r.2)

/-- One iteration of `udp_mcast_drop_all`. src/wolfip.c 7365–7370. -/
def dropOne (s : St) (k i : Nat) : St × List Report :=
  match s.socks[k]? with
  | none => (s, [])
  | some t =>
    let e := t.mc.getD i (0, 0)
    if e.1 ≠ 0 then
      let r := drop s k t e.1 e.2
      (r.1, r.2.2)
    else (s, [])

/-- `udp_mcast_drop_all`, the entries from `i` on (`n` of them). src/wolfip.c 7359–7371. -/
def dropFrom (s : St) (k : Nat) : Nat → Nat → St × List Report
  | _, 0 => (s, [])
  | i, n + 1 =>
    let r := dropOne s k i
    let r2 := dropFrom r.1 k (i + 1) n
    (r2.1, r.2 ++ r2.2)

/-- `close_socket` of a UDP slot: memberships are dropped only if the slot is in use; then it is zeroed.
src/wolfip.c 6138–6165, 7730–7741. -/
def close (s : St) (k : Nat) : St × Res × List Report :=
  match s.socks[k]? with
  | none => (s, .einval, [])
  | some t =>
    let r := if t.used then dropFrom s k 0 perSock else (s, [])
    (setSock r.1 k { mc := List.replicate perSock (0, 0) }, .ok, r.2)

/-- `wolfIP_sock_setsockopt` with IP_ADD_MEMBERSHIP / IP_DROP_MEMBERSHIP on UDP descriptor `k`. The slot need
not be in use. src/wolfip.c 7411–7413, 7430–7456. -/
def setsockopt (s : St) (k : Nat) (add : Bool) (group ifAddr route : Nat) : St × Res × List Report :=
  match s.socks[k]? with
  | none => (s, .einval, [])
  | some t =>
    match ifFromAddr s ifAddr group route with
    | none => (s, .einval, [])
    | some ifi => if add then join s k t group ifi else drop s k t group ifi

/-- `udp_new_socket`: the first free slot; its memberships are left as they are. src/wolfip.c 2632–2655. -/
def open_ (s : St) : St × Option Nat :=
  match s.socks.findIdx? (fun t => !t.used) with
  | none => (s, none)
  | some k => (setSock s k { (s.socks.getD k ⟨false, []⟩) with used := true }, some k)

/-- `igmp_max_resp_ms`. src/wolfip.c 4554–4567. -/
def maxRespMs (code : Nat) : Nat :=
  (if code < 128 then code else ((code % 16) ||| 16) <<< ((code / 16) % 8 + 3)) * 100

/-- What `igmp_input` reads of a datagram: TTL, destination, and the IGMP message (the bytes after the IP
header). -/
structure Query where
  ttl : Nat
  dst : Nat
  msg : List Nat

def be32 (p : List Nat) (o : Nat) : Nat := p.getD o 0 * 16777216 + p.getD (o + 1) 0 * 65536 + p.getD (o + 2) 0 * 256 + p.getD (o + 3) 0

/-- The checks of `igmp_input`: the queried group and the response time, if it is answered at all.
src/wolfip.c 4594–4634. -/
def validate (q : Query) : Option (Nat × Nat) :=
  if q.msg.length < 8 then none
  else if Csum.inv16 (Csum.fold (Csum.sum32 q.msg 0)) ≠ 0 then none
  else if q.msg.getD 0 0 ≠ 0x11 then none
  else if q.ttl ≠ 1 then none
  else
    let group := be32 q.msg 4
    if group ≠ 0 ∧ isMcast group = false then none
    else if q.dst ≠ 0xE0000001 ∧ q.dst ≠ group then none
    else some (group, maxRespMs (q.msg.getD 1 0))

/-- One iteration of the scheduling loop, for membership `j`, at time `tick`, with the random number `rnd`;
`room`: the timer heap has room. src/wolfip.c 4636–4656. -/
def schedule (s : St) (ifi group maxMs tick : Nat) (rnd : Nat) (room : Bool) (j : Nat) : St :=
  match s.mem[j]? with
  | none => s
  | some m =>
    if m.refs = 0 ∨ m.ifi ≠ ifi then s
    else if group ≠ 0 ∧ group ≠ m.group then s
    else if m.tmr ≠ 0 then s
    else if room then
      { (setMem s j { m with tmr := s.nextId }) with
        tms := s.tms ++ [⟨s.nextId, tick + (if maxMs ≠ 0 then rnd % maxMs + 1 else 1), j⟩], nextId := s.nextId + 1 }
    else setMem s j { m with tmr := 0 }

/-- The loop over memberships `j, j+1, …` (`n` of them). -/
def scheduleFrom (ifi group maxMs tick : Nat) (rnd : Nat → Nat) (room : Nat → Bool) : Nat → Nat → St → St
  | _, 0, s => s
  | j, n + 1, s => scheduleFrom ifi group maxMs tick rnd room (j + 1) n (schedule s ifi group maxMs tick (rnd j) (room j) j)

/-- `igmp_input`. src/wolfip.c 4585–4658. -/
def input (s : St) (ifi : Nat) (q : Query) (tick : Nat) (rnd : Nat → Nat) (room : Nat → Bool) : St :=
  match validate q with
  | none => s
  | some (group, maxMs) => scheduleFrom ifi group maxMs tick rnd room 0 s.mem.length s

/-- The timer service fires pending timer number `n`, if it is due: `igmp_report_timer_cb`.
src/wolfip.c 4569–4583. -/
def fire (s : St) (n now : Nat) : St × List Report :=
  match s.tms[n]? with
  | none => (s, [])
  | some t =>
    if t.exp > now then (s, [])
    else
      let s1 := { s with tms := s.tms.eraseIdx n }
      match s1.mem[t.slot]? with
      | none => (s1, [])
      | some m =>
        let s2 := setMem s1 t.slot { m with tmr := 0 }
        (s2, if m.refs = 0 then [] else report s2 m.ifi m.group false)

/-! ## Specification -/

inductive Op where
  | socket
  | join (k group ifAddr route : Nat)
  | leave (k group ifAddr route : Nat)
  | close (k : Nat)
  | setIp (ifi ip : Nat)
  | query (ifi : Nat) (q : Query) (tick : Nat) (rnd : Nat → Nat) (room : Nat → Bool)
  | fire (n now : Nat)

/-- What happened at a step: the answer (for the socket calls) and the reports handed to the link. -/
structure Out where
  res : Res := .ok
  reports : List Report := []

def step (s : St) : Op → St × Out
  | .socket => ((open_ s).1, {})
  | .join k g a r => let x := setsockopt s k true g a r; (x.1, ⟨x.2.1, x.2.2⟩)
  | .leave k g a r => let x := setsockopt s k false g a r; (x.1, ⟨x.2.1, x.2.2⟩)
  | .close k => let x := close s k; (x.1, ⟨x.2.1, x.2.2⟩)
  | .setIp i ip => ({ s with ips := s.ips.set i ip }, {})
  | .query i q t rnd room => (input s i q t rnd room, {})
  | .fire n now => let x := fire s n now; (x.1, { reports := x.2 })

/-- What the application knows from the answers alone: which socket has joined which group on which interface.
The interface is the one the address in the call names. -/
def know (J : Nat → Nat → Nat → Bool) (s : St) (o : Op) (r : Res) : Nat → Nat → Nat → Bool :=
  match o, r with
  | .join k g a rt, .ok => fun k' i' g' => if k' = k ∧ g' = g ∧ ifFromAddr s a g rt = some i' then true else J k' i' g'
  | .leave k g a rt, .ok => fun k' i' g' => if k' = k ∧ g' = g ∧ ifFromAddr s a g rt = some i' then false else J k' i' g'
  | .close k, _ => fun k' i' g' => if k' = k then false else J k' i' g'
  | _, _ => J

/-- A use of the API in which groups are joined only on open sockets. -/
def Proper (s : St) : Op → Prop
  | .join k _ _ _ => ∀ t, s.socks[k]? = some t → t.used = true
  | _ => True

/-- The states reachable from start-up with `n` sockets, with what the application knows. -/
inductive Reach (n : Nat) (ips : List Nat) : St → (Nat → Nat → Nat → Bool) → Prop
  | start : Reach n ips (init n ips) (fun _ _ _ => false)
  | step (s J o) : Reach n ips s J → Proper s o → Reach n ips (step s o).1 (know J s o (step s o).2.res)

end Wolf.Mcast
