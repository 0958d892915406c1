/-!
# Socket descriptors

Model of how the stack hands out integer socket descriptors and how every API entry
point turns one back into a socket slot.  Sources: `wolfip.h` 284-336, `src/wolfip.c`
2463-2505 (`wolfIP_register_callback`), 2632-2834 and 3060 (slot allocators), 6196-6241
(`wolfIP_socket_from_fd` and the raw/packet variants), 6243-6300 (`wolfIP_sock_socket`),
6497-6616 (`wolfIP_sock_accept`), 7662-7775 (`wolfIP_sock_close`).

Simplifications.  What a call does *inside* the slot it reaches is an arbitrary function
on the slot's contents, so the results hold whatever the call does there.  Whether a
close frees a TCP slot at once or later is an oracle bit.
-/

namespace Wolf.Fd

/-- The five kinds of sockets (`wolfip.h` 284-288). -/
inductive Kind where
  | tcp | udp | icmp | raw | packet
  deriving DecidableEq, Repr

/-- `MARK_TCP_SOCKET` … `MARK_PACKET_SOCKET`, `wolfip.h` 284-288. -/
def mark : Kind → Nat
  | .tcp => 0x100
  | .udp => 0x200
  | .icmp => 0x400
  | .raw => 0x800
  | .packet => 0x1000

/-- `IS_SOCKET_TCP(fd)` and its siblings, `wolfip.h` 290-294. -/
def isSocket (k : Kind) (fd : Nat) : Bool := fd &&& mark k == mark k

/-- `SOCKET_UNMARK(fd)`, `wolfip.h` 295. -/
def unmark (fd : Nat) : Nat := fd &&& 0xFF

/-- `(ts - s->tcpsockets) | MARK_TCP_SOCKET` and siblings, `src/wolfip.c` 6257, 6263, 6268,
6284, 6296, and 6607 for `accept`. -/
def fdOf (k : Kind) (i : Nat) : Nat := i ||| mark k

/-- One slot: `used` is `proto != 0` for TCP/UDP/ICMP and `used` for raw/packet;
`body` stands for everything else in it. -/
structure Slot where
  used : Bool
  body : Nat
  deriving DecidableEq, Repr

/-- The five socket arrays of `struct wolfIP`. -/
structure Tabs where
  tcp : List Slot
  udp : List Slot
  icmp : List Slot
  raw : List Slot
  packet : List Slot
  deriving DecidableEq, Repr

/-- The array of one kind. -/
def Tabs.get (t : Tabs) : Kind → List Slot
  | .tcp => t.tcp
  | .udp => t.udp
  | .icmp => t.icmp
  | .raw => t.raw
  | .packet => t.packet

/-- Replace the array of one kind. -/
def Tabs.put (t : Tabs) (k : Kind) (l : List Slot) : Tabs :=
  match k with
  | .tcp => { t with tcp := l }
  | .udp => { t with udp := l }
  | .icmp => { t with icmp := l }
  | .raw => { t with raw := l }
  | .packet => { t with packet := l }

/-- Compile-time limits: `wolfip.h` 314-336. -/
def Tabs.wf (t : Tabs) : Prop := ∀ k, (t.get k).length ≤ 255

/-- An entry point is an `if … else if` chain over marks, in an order that differs from
call to call; `strict` says whether raw/packet slots must also be in use
(`wolfIP_rawsocket_from_fd`, 6216-6239) or not (`wolfIP_register_callback`, 2491-2504). -/
structure Entry where
  order : List Kind
  strict : Bool

/-- The chains as written. -/
def eRegister : Entry := ⟨[.tcp, .udp, .icmp, .raw, .packet], false⟩   -- 2463-2505
def eConnect : Entry := ⟨[.udp, .icmp, .raw, .tcp], true⟩              -- 6302-6430
def eAccept : Entry := ⟨[.tcp], true⟩                                 -- 6497-6616
def eSendto : Entry := ⟨[.tcp, .udp, .icmp, .raw, .packet], true⟩      -- 6618-7010
def eRecvfrom : Entry := ⟨[.tcp, .udp, .icmp, .raw, .packet], true⟩    -- 7012-7230
def eSetsockopt : Entry := ⟨[.raw, .packet, .tcp, .udp, .icmp], true⟩  -- 7374-7517
def eGetsockopt : Entry := ⟨[.raw, .packet, .tcp, .udp, .icmp], true⟩  -- 7541-7660
def eClose : Entry := ⟨[.tcp, .udp, .icmp, .raw, .packet], true⟩       -- 7662-7775
def eGetsockname : Entry := ⟨[.tcp, .udp, .icmp, .raw, .packet], true⟩ -- 7777-7838
def eBind : Entry := ⟨[.packet, .tcp, .udp, .icmp, .raw], true⟩        -- 7934-8140
def eListen : Entry := ⟨[.tcp], true⟩                                 -- 8142-8171
def eGetpeername : Entry := ⟨[.tcp, .raw], true⟩                       -- 8173-8205

/-- Walk the chain: the first matching mark decides; its index is then checked against
the array, and no later arm is tried. -/
def resolveNat (t : Tabs) (strict : Bool) (fd : Nat) : List Kind → Option (Kind × Nat)
  | [] => none
  | k :: ks =>
    if isSocket k fd then
      match (t.get k)[unmark fd]? with
      | none => none
      | some s =>
        if strict && (k == .raw || k == .packet) && !s.used then none
        else some (k, unmark fd)
    else resolveNat t strict fd ks

/-- Negative descriptors are refused first. -/
def resolve (t : Tabs) (e : Entry) : Int → Option (Kind × Nat)
  | .ofNat fd => resolveNat t e.strict fd e.order
  | .negSucc _ => none

/-- Change the contents of one slot. -/
def touch (t : Tabs) (k : Kind) (i : Nat) (f : Slot → Slot) : Tabs :=
  match (t.get k)[i]? with
  | none => t
  | some s => t.put k ((t.get k).set i (f s))

/-- First free slot: the `for` loops of the allocators. -/
def alloc (t : Tabs) (k : Kind) (body : Nat) : Tabs × Int :=
  match (t.get k).findIdx? (fun s => !s.used) with
  | none => (t, -1)
  | some i => (t.put k ((t.get k).set i ⟨true, body⟩), (fdOf k i : Nat))

/-- Calls the application can make. -/
inductive Op where
  /-- `wolfIP_sock_socket`; the kind is decided by its domain/type/protocol -/
  | socket (k : Kind) (body : Nat)
  /-- any call that works inside the slot it resolves to -/
  | use (e : Entry) (fd : Int) (f : Nat → Nat)
  /-- `wolfIP_sock_accept` that succeeds if there is a free slot and the listener `ok`s -/
  | accept (fd : Int) (ok : Bool) (f : Nat → Nat) (body : Nat)
  /-- `wolfIP_sock_close`; `now` says whether the slot is released by this call -/
  | close (fd : Int) (now : Bool) (f : Nat → Nat)
  /-- the stack itself releases or updates a TCP slot (peer reset, retry limit, …) -/
  | internal (i : Nat) (release : Bool) (f : Nat → Nat)

/-- One call: new tables and the returned descriptor (for `socket`/`accept`; −1 otherwise). -/
def step (t : Tabs) : Op → Tabs × Int
  | .socket k b => alloc t k b
  | .use e fd f =>
    match resolve t e fd with
    | none => (t, -1)
    | some (k, i) => (touch t k i (fun s => { s with body := f s.body }), -1)
  | .accept fd ok f b =>
    match resolve t eAccept fd with
    | none => (t, -1)
    | some (k, i) =>
      if ok then alloc (touch t k i (fun s => { s with body := f s.body })) .tcp b
      else (touch t k i (fun s => { s with body := f s.body }), -1)
  | .close fd now f =>
    match resolve t eClose fd with
    | none => (t, -1)
    | some (k, i) =>
      if now || k != .tcp then (touch t k i (fun _ => ⟨false, 0⟩), -1)
      else (touch t k i (fun s => { s with body := f s.body }), -1)
  | .internal i release f =>
    if release then (touch t .tcp i (fun _ => ⟨false, 0⟩), -1)
    else (touch t .tcp i (fun s => { s with body := f s.body }), -1)

/-- Slot lookup. -/
def Tabs.slot (t : Tabs) (k : Kind) (i : Nat) : Option Slot := (t.get k)[i]?

end Wolf.Fd
