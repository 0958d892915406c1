/-!
# C107, C108: sessions of wolfSSL and wolfSSH on wolfIP sockets

Model of `src/port/wolfssl_io.c` (whole file) and `src/port/wolfssh_io.c` (whole file): the table of contexts, the pool of
I/O descriptors, and the receive and send callbacks. Sessions, contexts and stacks are numbers (the C code
compares pointers); a session is a `WOLFSSL` or `WOLFSSH` object, whose I/O context pointers point into the pool
or are null. A new session is taken to have null pointers. What `wolfIP_sock_recv` and `wolfIP_sock_send` do is a
parameter.
-/
namespace Wolf.Glue

/-- Which library. -/
inductive Lib where
  | ssl | ssh
deriving DecidableEq

/-- An entry of `io_descs` (wolfssl_io.c 37–40, wolfssh_io.c 31–35). -/
structure Slot where
  stack : Option Nat
  fd : Int
  /-- wolfssh_io.c only -/
  inUse : Bool
deriving DecidableEq

/-- `MAX_WOLFIP_CTX` 8 (wolfssl_io.c 29), `MAX_WOLFSSH_CTX` 4 (wolfssh_io.c 27). -/
def Lib.max : Lib → Nat
  | .ssl => 8
  | .ssh => 4

structure St where
  /-- `ctx_map`, wolfssl_io.c 42 -/
  ctxs : List (Option (Nat × Nat))
  slots : List Slot
  /-- `wolfSSL_GetIOReadCtx`, `wolfSSL_GetIOWriteCtx` of a session -/
  rctx : Nat → Option Nat
  wctx : Nat → Option Nat

def upd {α : Type} (f : Nat → α) (i : Nat) (v : α) : Nat → α := fun x => if x = i then v else f x

def St.start (lib : Lib) : St :=
  { ctxs := List.replicate 8 none, slots := List.replicate lib.max ⟨none, 0, false⟩, rctx := fun _ => none,
    wctx := fun _ => none }

/-- `wolfIP_lookup_stack`, wolfssl_io.c 45–52 (never called with a null context). -/
def lookup : List (Option (Nat × Nat)) → Nat → Option Nat
  | [], _ => none
  | none :: l, c => lookup l c
  | some (c', st) :: l, c => if c' = c then some st else lookup l c

/-- `wolfIP_register_stack`, wolfssl_io.c 54–63. -/
def register : List (Option (Nat × Nat)) → Nat → Nat → List (Option (Nat × Nat))
  | [], _, _ => []
  | none :: l, c, st => some (c, st) :: l
  | some (c', st') :: l, c, st => if c' = c then some (c, st) :: l else some (c', st') :: register l c st

/-- Is the descriptor free (wolfssl_io.c 134, wolfssh_io.c 43)? -/
def Slot.free (lib : Lib) (s : Slot) : Bool :=
  match lib with
  | .ssl => s.stack == none
  | .ssh => !s.inUse

/-- The loop of wolfssl_io.c 133–141 and of `io_desc_alloc`, wolfssh_io.c 40–49: the first free descriptor. -/
def firstFree (lib : Lib) : List Slot → Option Nat
  | [] => none
  | s :: l => if s.free lib then some 0 else (firstFree lib l).map (· + 1)

/-- Results of the set-up functions. -/
inductive Res where
  | ok | badArg | general | noSlot
deriving DecidableEq

/-- Take descriptor `i` for session `x` (wolfssl_io.c 135–139; wolfssh_io.c 44, 138–142). -/
def St.take (s : St) (x i st : Nat) (fd : Int) : St :=
  { s with slots := s.slots.set i ⟨some st, fd, true⟩, rctx := upd s.rctx x (some i), wctx := upd s.wctx x (some i) }

/-- `wolfSSL_SetIO_wolfIP(ssl, fd)`, wolfssl_io.c 115–143, for a session whose context is `c` (`none`: no context). -/
def sslSetIO (s : St) (x : Nat) (c : Option Nat) (fd : Int) : St × Res :=
  match c with
  | none => (s, .badArg)
  | some c =>
    let st := lookup s.ctxs c
    if fd < 0 then (s, .badArg)
    else match st with
      | none => (s, .general)
      | some st =>
        match firstFree .ssl s.slots with
        | some i => (s.take x i st fd, .ok)
        | none => (s, .noSlot)

/-- `wolfSSH_SetIO_wolfIP(ssh, stack, fd)`, wolfssh_io.c 127–147. -/
def sshSetIO (s : St) (x : Nat) (st : Option Nat) (fd : Int) : St × Res :=
  match st with
  | none => (s, .badArg)
  | some st =>
    if fd < 0 then (s, .badArg)
    else match firstFree .ssh s.slots with
      | some i => (s.take x i st fd, .ok)
      | none => (s, .noSlot)

/-- `wolfSSL_CleanupIO_wolfIP`, wolfssl_io.c 149–167, and `wolfSSH_CleanupIO_wolfIP`, wolfssh_io.c 150–164. -/
def cleanup (lib : Lib) (s : St) (x : Nat) : St :=
  match s.rctx x with
  | none => s
  | some i =>
    match lib with
    | .ssl =>
      { s with rctx := upd s.rctx x none, wctx := upd s.wctx x none,
               slots := s.slots.modify i fun d => { d with fd := 0, stack := none } }
    | .ssh => { s with slots := s.slots.modify i fun _ => ⟨none, -1, false⟩ }

/-- What the callback does with the result of the socket call. -/
inductive Io where
  | data (n : Int) | wantRead | wantWrite | connClose | general
deriving DecidableEq

notation "wolfipEagain" => (11 : Int)

/-- The socket the callbacks work on: `desc->stack` and `desc->fd` if both are set (wolfssl_io.c 71, 96; wolfssh_io.c
70, 99). -/
def target (lib : Lib) (slots : List Slot) (p : Option Nat) : Option (Nat × Int) :=
  match p with
  | none => none
  | some i =>
    match slots[i]? with
    | none => none
    | some d =>
      match d.stack with
      | none => none
      | some st => if lib = .ssh ∧ d.fd < 0 then none else some (st, d.fd)

/-- How a result of the socket is reported (wolfssl_io.c 80–84, 103–107; wolfssh_io.c 80–89, 108–117). -/
def report (lib : Lib) (want : Io) (ret : Int) : Io :=
  match lib with
  | .ssl => if ret = -wolfipEagain then want else if ret ≤ 0 then .connClose else .data ret
  | .ssh =>
    if ret = -wolfipEagain then want
    else if ret = 0 ∨ ret = -1 then .connClose
    else if ret < 0 then .general
    else .data ret

/-- `wolfIP_io_recv` (wolfssl_io.c 65–85), `wolfssh_io_recv` (64–90). `sock` is `wolfIP_sock_recv`. -/
def ioRecv (lib : Lib) (s : St) (x : Nat) (sock : Nat → Int → Int) : Io :=
  match target lib s.slots (s.rctx x) with
  | none => .general
  | some (st, fd) => report lib .wantRead (sock st fd)

/-- `wolfIP_io_send` (wolfssl_io.c 87–108), `wolfssh_io_send` (93–118). `sock` is `wolfIP_sock_send`. -/
def ioSend (lib : Lib) (s : St) (x : Nat) (sock : Nat → Int → Int) : Io :=
  match target lib s.slots (s.wctx x) with
  | none => .general
  | some (st, fd) => report lib .wantWrite (sock st fd)

/-! ## Histories -/

inductive Op where
  /-- `wolfSSL_SetIO_wolfIP_CTX` -/
  | regCtx (c st : Nat)
  /-- `wolfSSL_SetIO_wolfIP` of a session of context `c` -/
  | sslIO (x : Nat) (c : Option Nat) (fd : Int)
  /-- `wolfSSH_SetIO_wolfIP` -/
  | sshIO (x : Nat) (st : Option Nat) (fd : Int)
  /-- clean-up of the session's I/O -/
  | clean (x : Nat)
  /-- the session object is freed; a later session may have the same address -/
  | free (x : Nat)
deriving DecidableEq

/-- One call and, for the set-up calls, its result (`.ok` for the others). -/
def step (lib : Lib) (s : St) : Op → St × Res
  | .regCtx c st => ({ s with ctxs := register s.ctxs c st }, .ok)
  | .sslIO x c fd => if lib = .ssl then sslSetIO s x c fd else (s, .badArg)
  | .sshIO x st fd => if lib = .ssh then sshSetIO s x st fd else (s, .badArg)
  | .clean x => (cleanup lib s x, .ok)
  | .free x => ({ s with rctx := upd s.rctx x none, wctx := upd s.wctx x none }, .ok)

/-- The state after a history, and the log of its calls with their results; both most recent call first. -/
def exec (lib : Lib) : List Op → St × List (Op × Res)
  | [] => (St.start lib, [])
  | o :: l =>
    let p := exec lib l
    let r := step lib p.1 o
    (r.1, (o, r.2) :: p.2)

/-! ## Specification -/

/-- The stack a context was last registered with (log with the most recent call first). -/
def stackOf : List (Op × Res) → Nat → Option Nat
  | [], _ => none
  | (.regCtx c' st, _) :: l, c => if c' = c then some st else stackOf l c
  | _ :: l, c => stackOf l c

/-- The socket a session is bound to: by its last successful set-up, unless it was cleaned up or freed since. The
stack is the one given (wolfSSH) or the one its context was registered with at that time (wolfSSL). -/
def bound (x : Nat) : List (Op × Res) → Option (Nat × Int)
  | [] => none
  | (.sslIO y (some c) fd, .ok) :: l => if y = x then (stackOf l c).map (·, fd) else bound x l
  | (.sshIO y (some st) fd, .ok) :: l => if y = x then some (st, fd) else bound x l
  | (.clean y, _) :: l => if y = x then none else bound x l
  | (.free y, _) :: l => if y = x then none else bound x l
  | _ :: l => bound x l

end Wolf.Glue
