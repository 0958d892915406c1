/-!
# C110: descriptors of the POSIX port

Model of the descriptor table of `src/port/posix/bsd_socket.c`: `wolfip_entry_from_internal` (256–296), `wolfip_entry_from_public`
(298–305), attach and detach (307–363), `wolfip_fd_alloc` (365–415), `wolfip_fd_release` (417–431), and the parts of `socket` (1403–1434),
`wolfip_accept_common` (1516–1592), `close` (1491–1512) and of all other calls (`conditional_steal_call`, 541–562, and its like) that use it.

The host's descriptor table is a map from numbers to open objects (files, host sockets and the ends of the wake-up pipes), each with an identity; which numbers the host
gives out is up to it. The stack's sockets are slots that hold an identity. `in_the_stack` (50) is a thread-local variable with the initial
value 1 that only the thread running the constructor (2026–2138) sets to 0: calls of the other threads go to the host (`xuse`, `xclose`). The calls of the
stack's own thread are calls of the host as well.
-/
namespace Wolf.Posix.Fds

/-- A slot of the stack: of the family (TCP, UDP, ICMP, raw, packet) number `fam`, the `ix`-th (`MARK_*` and `SOCKET_UNMARK`). -/
structure Slot where
  fam : Nat
  ix : Nat
deriving DecidableEq, Repr

/-- `struct wolfip_fd_entry` (137–149) of an entry in use: internal descriptor, write end of the pipe. The read end is the entry's own number. -/
structure Ent where
  slot : Slot
  w : Nat
deriving DecidableEq, Repr

/-- `WOLFIP_MAX_PUBLIC_FDS` -/
notation "maxPublic" => (256 : Nat)

structure W where
  /-- which socket lives in a slot of the stack -/
  who : Slot → Option Nat
  /-- how many slots a family has -/
  cap : Nat → Nat
  /-- the host's table -/
  host : Nat → Option Nat
  /-- `wolfip_fd_entries`, those in use -/
  tab : Nat → Option Ent
  /-- `tcp_entry_for_slot`, `udp_entry_for_slot`, … -/
  back : Slot → Option Nat
  /-- identities given out so far -/
  next : Nat

def start (cap : Nat → Nat) : W :=
  { who := fun _ => none, cap := cap, host := fun _ => none, tab := fun _ => none, back := fun _ => none, next := 0 }

def put {α β : Type} [DecidableEq α] (f : α → β) (a : α) (b : β) : α → β := fun x => if x = a then b else f x

/-- The first free slot of a family (`tcp_new_socket` and its like). -/
def freeSlot (w : W) (fam : Nat) : Option Slot :=
  ((List.range (w.cap fam)).find? (fun i => (w.who ⟨fam, i⟩).isNone)).map (fun i => ⟨fam, i⟩)

/-- `wolfip_entry_from_public`, 298–305. -/
def entry (w : W) (p : Nat) : Option Ent := if p < maxPublic then w.tab p else none

inductive Op where
  /-- `pipe`: the numbers the host gives to the ends of the pipe (`none`: it has none left) -/
  | socket (fam : Nat) (pipe : Option (Nat × Nat))
  | accept (p : Nat) (pipe : Option (Nat × Nat))
  /-- any other call on a descriptor: `bind`, `listen`, `connect`, `send`, `recv`, the options … -/
  | use (p : Nat)
  /-- `gone`: the stack frees the slot at once (it does not for a TCP connection that has yet to send its FIN) -/
  | close (p : Nat) (gone : Bool)
  /-- `open`, `dup`, … : the host opens something and gives it the number `p` -/
  | open (p : Nat)
  /-- the stack frees a slot on its own (reset, timeout, end of a close) -/
  | die (s : Slot)
  /-- the stack calls `poller_callback` for a slot -/
  | event (s : Slot)
  /-- a call on a descriptor by another thread of the application -/
  | xuse (p : Nat)
  | xclose (p : Nat)
deriving DecidableEq, Repr

inductive Out where
  /-- a new descriptor for the new socket `id` -/
  | fd (p id : Nat)
  | opened (id : Nat)
  | fail
  /-- the call acted on the socket in a slot -/
  | sock (id : Option Nat)
  /-- the call was handed to the host, which acted on this object -/
  | host (id : Option Nat)
  /-- the callback found this descriptor to wake -/
  | wakes (p : Option Nat)
  | none
deriving DecidableEq, Repr

/-- `wolfIP_sock_socket` or `wolfIP_sock_accept`, then `wolfip_fd_alloc`; if that fails the new socket is closed again. -/
def create (w : W) (fam : Nat) (pipe : Option (Nat × Nat)) : W × Out :=
  match freeSlot w fam with
  | none => (w, .fail)
  | some s =>
    match pipe with
    | none => ({ w with next := w.next + 3 }, .fail)
    | some (r, x) =>
      if r ≥ maxPublic ∨ (w.tab r).isSome then ({ w with next := w.next + 3 }, .fail)
      else
        ({ w with who := put w.who s (some w.next), host := put (put w.host r (some (w.next + 1))) x (some (w.next + 2)),
                  tab := put w.tab r (some ⟨s, x⟩), back := put w.back s (some r), next := w.next + 3 }, .fd r w.next)

def step (w : W) : Op → W × Out
  | .socket fam pipe => create w fam pipe
  | .accept p pipe => match entry w p with | none => (w, .host (w.host p)) | some e => create w e.slot.fam pipe
  | .use p => match entry w p with | none => (w, .host (w.host p)) | some e => (w, .sock (w.who e.slot))
  | .close p gone =>
    match entry w p with
    | none => ({ w with host := put w.host p none }, .host (w.host p))
    | some e =>
      ({ w with host := put (put w.host p none) e.w none, back := put w.back e.slot none, tab := put w.tab p none,
                who := if gone then put w.who e.slot none else w.who }, .sock (w.who e.slot))
  | .open p => ({ w with host := put w.host p (some w.next), next := w.next + 1 }, .opened w.next)
  | .die s => ({ w with who := put w.who s none }, .none)
  | .event s => (w, .wakes (match w.back s with | none => none | some p => if (entry w p).isSome then some p else none))
  | .xuse p => (w, .host (w.host p))
  | .xclose p => ({ w with host := put w.host p none }, .host (w.host p))

def run (w : W) : List Op → W × List (Op × Out)
  | [] => (w, [])
  | op :: ops => ((run (step w op).1 ops).1, (op, (step w op).2) :: (run (step w op).1 ops).2)

/-! ## Specification -/

/-- What a number stands for in the eyes of the application. -/
inductive Thing where
  | sock (id : Nat)
  | file (id : Nat)
deriving DecidableEq, Repr

/-- What each number stands for, from the calls and their results alone: what was created last under it, until it is closed. -/
def ownStep (own : Nat → Option Thing) : Op × Out → (Nat → Option Thing)
  | (.socket _ _, .fd p id) => put own p (some (.sock id))
  | (.accept _ _, .fd p id) => put own p (some (.sock id))
  | (.open p, .opened id) => put own p (some (.file id))
  | (.close p _, _) => put own p none
  | (.xclose p, _) => put own p none
  | _ => own

def own (es : List (Op × Out)) : Nat → Option Thing := es.foldl ownStep (fun _ => none)

/-- The host gives out numbers that are free, and the application uses numbers it was given. -/
def Legal (w : W) (o : Nat → Option Thing) : Op → Prop
  | .socket _ pipe => ∀ r x, pipe = some (r, x) → r ≠ x ∧ w.host r = none ∧ w.host x = none
  | .accept p pipe => o p ≠ none ∧ ∀ r x, pipe = some (r, x) → r ≠ x ∧ w.host r = none ∧ w.host x = none
  | .use p => o p ≠ none
  | .close p _ => o p ≠ none
  | .open p => w.host p = none
  | .die _ => True
  | .event _ => True
  | .xuse p => o p ≠ none
  | .xclose p => o p ≠ none

/-- The stack frees no slot a descriptor refers to, and other threads keep their hands off the sockets. -/
def Apart (w : W) (o : Nat → Option Thing) : Op → Prop
  | .die s => ∀ p e, w.tab p = some e → e.slot ≠ s
  | .xuse p => ∃ id, o p = some (.file id)
  | .xclose p => ∃ id, o p = some (.file id)
  | _ => True

def All (P : W → (Nat → Option Thing) → Op → Prop) (w : W) (o : Nat → Option Thing) : List Op → Prop
  | [] => True
  | op :: ops => P w o op ∧ All P (step w op).1 (ownStep o (op, (step w op).2)) ops

end Wolf.Posix.Fds
