/-!
# ARP cache, pending requests and request rate limit

Model of `arp_store_neighbor`, `arp_neighbor_index`, `arp_pending_match_and_clear`,
`arp_pending_record`, `arp_request`, `arp_recv`, `arp_lookup`, the clock handling of `wolfIP_poll` and
the cache part of `wolfIP_vlan_delete` (`src/wolfip.c` 9532–9831, 11678–11697, 10004–10013).

Simplifications: addresses are naturals, `IPADDR_ANY` is 0; ticks are naturals (no 64-bit wrap of
`last_tick + 1000`); the interface index is below 256 so its storage in one byte is exact (the theorems
carry that hypothesis where it matters); whether an address is broadcast or multicast on this node is a
parameter of the received packet's context, so the theorems hold for every interface configuration, and
for every filter (`veto`). Flushing of parked forwarded packets (`arp_flush_pending`) is the subject of
C25; it performs a lookup at the same tick, which changes nothing here (`store` has just set the
timestamp).
-/
namespace Wolf.Arp

/-- `struct arp_neighbor`. src/wolfip.c 1470–1476. -/
structure Nbr where
  ip : Nat
  ifc : Nat
  mac : List Nat
  ts : Nat
deriving DecidableEq, Repr, Inhabited

/-- `struct arp_pending_req`. src/wolfip.c 1478–1483. -/
structure Pend where
  ip : Nat
  ifc : Nat
  ts : Nat
deriving DecidableEq, Repr, Inhabited

/-- ARP state of the stack. src/wolfip.c 1484–1491. -/
structure St where
  nbr : List Nbr
  pend : List Pend
  lastArp : Nat → Nat
  tick : Nat

/-- `MAX_NEIGHBORS` = 16 (config.h), `WOLFIP_ARP_PENDING_MAX` = 4 (1389); all zero at start. -/
def St.init : St :=
  { nbr := List.replicate 16 ⟨0, 0, [0, 0, 0, 0, 0, 0], 0⟩, pend := List.replicate 4 ⟨0, 0, 0⟩,
    lastArp := fun _ => 0, tick := 0 }

/-- The eviction scan: index of the first entry with the least timestamp. src/wolfip.c 9551–9559. -/
def lruGo : List Nbr → Nat → Nat → Nat → Nat
  | [], _, slot, _ => slot
  | n :: ns, i, slot, oldest =>
    if n.ts < oldest then lruGo ns (i + 1) i n.ts else lruGo ns (i + 1) slot oldest

def lru : List Nbr → Nat
  | [] => 0
  | n :: ns => lruGo ns 1 0 n.ts

/-- Slot choice of `arp_store_neighbor`: the matching entry, else the first empty one, else the least
recently used. (The C loop finds the first two in one pass.) src/wolfip.c 9539–9559. -/
def storeSlot (l : List Nbr) (i ip : Nat) : Nat :=
  match l.findIdx? (fun n => n.ip == ip && n.ifc == i) with
  | some k => k
  | none =>
    match l.findIdx? (fun n => n.ip == 0) with
    | some k => k
    | none => lru l

/-- `arp_store_neighbor`. src/wolfip.c 9532–9567. -/
def store (s : St) (i ip : Nat) (mac : List Nat) : St :=
  { s with nbr := s.nbr.set (storeSlot s.nbr i ip) ⟨ip, i, mac, s.tick⟩ }

/-- `ARP_AGING_TIMEOUT_MS`. src/wolfip.c 1378. -/
abbrev AGING : Nat := 120000
/-- `ARP_PENDING_TTL_MS`. src/wolfip.c 1373. -/
abbrev TTL : Nat := 5000

/-- The age test of `arp_neighbor_index`. src/wolfip.c 9582–9583. -/
def aged (tick ts : Nat) : Bool := decide (tick ≥ ts ∧ tick - ts > AGING)

/-- `arp_neighbor_index` followed by reading the entry: the new table and the hardware address found.
The first matching entry decides. src/wolfip.c 9574–9595. -/
def nbrIndex (tick i ip : Nat) : List Nbr → List Nbr × Option (List Nat)
  | [] => ([], none)
  | n :: ns =>
    if n.ip = ip ∧ n.ifc = i then
      if aged tick n.ts then (⟨0, 0, [0, 0, 0, 0, 0, 0], 0⟩ :: ns, none)
      else ({ n with ts := tick } :: ns, some n.mac)
    else
      let r := nbrIndex tick i ip ns
      (n :: r.1, r.2)

/-- `arp_lookup` / `wolfIP_arp_lookup_ex`. src/wolfip.c 9814–9831. -/
def lookup (s : St) (i ip : Nat) : St × Option (List Nat) :=
  ({ s with nbr := (nbrIndex s.tick i ip s.nbr).1 }, (nbrIndex s.tick i ip s.nbr).2)

/-- `arp_pending_match_and_clear`. src/wolfip.c 9601–9625. -/
def pendMatch (now i ip : Nat) : List Pend → List Pend × Bool
  | [] => ([], false)
  | p :: ps =>
    if p.ip = 0 then let r := pendMatch now i ip ps; (p :: r.1, r.2)
    else if now ≥ p.ts ∧ now - p.ts > TTL then
      let r := pendMatch now i ip ps; ({ p with ip := 0, ts := 0 } :: r.1, r.2)
    else if p.ip = ip ∧ p.ifc = i then ({ p with ip := 0, ts := 0 } :: ps, true)
    else let r := pendMatch now i ip ps; (p :: r.1, r.2)

/-- Scan for the oldest used pending entry. src/wolfip.c 9646–9649. -/
def oldGo : List Pend → Nat → Nat → Nat → Nat
  | [], _, slot, _ => slot
  | p :: ps, i, slot, oldest =>
    if p.ip ≠ 0 ∧ p.ts < oldest then oldGo ps (i + 1) i p.ts else oldGo ps (i + 1) slot oldest

/-- Slot choice of `arp_pending_record`. src/wolfip.c 9637–9653. -/
def recSlot (l : List Pend) (i ip : Nat) : Nat :=
  match l.findIdx? (fun p => p.ip == ip && p.ifc == i) with
  | some k => k
  | none =>
    match l.findIdx? (fun p => p.ip == 0) with
    | some k => k
    | none => oldGo l 0 0 18446744073709551615

/-- `arp_pending_record`. A matching entry only gets a new timestamp, which is the same as writing all
three fields. src/wolfip.c 9627–9657. -/
def record (s : St) (i ip : Nat) : St :=
  { s with pend := s.pend.set (recSlot s.pend i ip) ⟨ip, i, s.tick⟩ }

/-- The rate limit test of `arp_request`. src/wolfip.c 9674–9677. -/
def limited (s : St) (i : Nat) : Bool := decide (s.lastArp i ≠ 0 ∧ s.lastArp i + 1000 > s.tick)

/-- `arp_request` on an Ethernet interface with a configuration; the result says whether the request
was issued (it is then handed to the filter and the driver). src/wolfip.c 9659–9696. -/
def request (s : St) (i ip : Nat) : St × Bool :=
  if limited s i then (s, false)
  else (record { s with lastArp := fun j => if j = i then s.tick + 1 else s.lastArp j } i ip, true)

/-- Fields of a received ARP packet (addresses in host order) and what `arp_recv` reads besides the
packet: the interface's configured address and hardware address, whether DAD is running, and the
broadcast/multicast test. -/
structure Pkt where
  len : Nat
  htype : Nat
  ptype : Nat
  hlen : Nat
  plen : Nat
  opcode : Nat
  sma : List Nat
  sip : Nat
  tip : Nat

structure Ctx where
  ether : Bool
  ownIp : Nat
  ownMac : List Nat
  dad : Bool
  group : Nat → Bool

/-- What `arp_recv` sends: a reply with the given sender address and target; or it reports an address
conflict to DHCP. -/
inductive Act where
  | none
  | reply (toMac : List Nat) (toIp : Nat) (fromMac : List Nat) (fromIp : Nat)
  | conflict
deriving DecidableEq, Repr

/-- Length, type and sender checks at the start of `arp_recv`. src/wolfip.c 9740–9758. -/
def pktOk (c : Ctx) (p : Pkt) : Bool :=
  decide (p.len ≥ 42) && c.ether && p.htype == 1 && p.ptype == 0x0800 && p.hlen == 6 && p.plen == 4 &&
    decide ((p.sma.headD 0) % 2 = 0)

/-- Sender address checks. src/wolfip.c 9772–9774, 9801–9804. -/
def sipOk (c : Ctx) (p : Pkt) : Bool := p.sip != 0 && p.sip != c.ownIp && !c.group p.sip

/-- `arp_recv`. src/wolfip.c 9731–9812. The comparison of hardware addresses at 9777 is inside the
model's `nbrIndex` call: the timestamp has already been refreshed there, so it has no effect. -/
def recv (s : St) (i : Nat) (c : Ctx) (p : Pkt) : St × Act :=
  if !pktOk c p then (s, .none)
  else if p.opcode = 1 ∧ p.tip = c.ownIp then
    (if sipOk c p then (lookup s i p.sip).1 else s, .reply p.sma p.sip c.ownMac c.ownIp)
  else if p.opcode = 2 then
    if c.dad ∧ p.sip = c.ownIp then (s, if p.sma ≠ c.ownMac then .conflict else .none)
    else if !sipOk c p then (s, .none)
    else if (pendMatch s.tick i p.sip s.pend).2 then
      (store { s with pend := (pendMatch s.tick i p.sip s.pend).1 } i p.sip p.sma, .none)
    else ({ s with pend := (pendMatch s.tick i p.sip s.pend).1 }, .none)
  else (s, .none)

/-- Start of `wolfIP_poll`: a clock running backwards resets the rate limiter of every interface.
src/wolfip.c 11684–11697. -/
def poll (s : St) (ifCount now : Nat) : St :=
  { s with lastArp := fun j => if now < s.tick ∧ j < ifCount then 0 else s.lastArp j, tick := now }

/-- Cache part of `wolfIP_vlan_delete`. src/wolfip.c 10004–10013. -/
def flushIf (s : St) (i : Nat) : St :=
  { s with nbr := s.nbr.map (fun n => if n.ifc = i then ⟨0, 0, [0, 0, 0, 0, 0, 0], 0⟩ else n) }

/-! ## Histories -/

/-- Everything that can happen to the ARP state. -/
inductive Ev where
  | poll (ifCount now : Nat)
  | request (i ip : Nat)
  | recv (i : Nat) (c : Ctx) (p : Pkt)
  | lookup (i ip : Nat)
  | flushIf (i : Nat)

/-- Observable result of an event. -/
inductive Out where
  | unit
  | issued (b : Bool)
  | act (a : Act)
  | found (m : Option (List Nat))

def step (s : St) : Ev → St × Out
  | .poll n now => (poll s n now, .unit)
  | .request i ip => ((request s i ip).1, .issued (request s i ip).2)
  | .recv i c p => ((recv s i c p).1, .act (recv s i c p).2)
  | .lookup i ip => ((lookup s i ip).1, .found (lookup s i ip).2)
  | .flushIf i => (flushIf s i, .unit)

/-- One line of history: the clock when it happened, the event and its result. -/
abbrev Log := List (Nat × Ev × Out)

/-- Run a history, oldest event first; the clock recorded with an event is the one before it. -/
def run (s : St) : List Ev → St × Log
  | [] => (s, [])
  | e :: es =>
    let r := step s e
    let q := run r.1 es
    (q.1, (s.tick, e, r.2) :: q.2)

end Wolf.Arp
