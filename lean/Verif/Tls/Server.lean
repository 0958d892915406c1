import Verif.Glue.Props
/-! # C129: the TLS server of the STM32H563 port

Model of `src/port/stm32h563/tls_server.c` 199–389 (the server after `tls_server_init`): the connection slots, the two
callbacks and the clean-up, over the glue model of C107 and C108, which other users share. Environment:
`wolfIP_sock_accept` and the wolfSSL calls answer anything; the stack may call the client callback at any time for any
descriptor and slot, also after the connection is gone. Not modelled: `tls_server_init` (91–197) up to the state it
leaves, `wolfSSL_shutdown` (it sends, through the glue), debug output. -/
namespace Wolf.Tls.Srv
open Wolf.Glue

/-! ## Model -/

/-- `tls_client_state_t`. tls_server.c 45–52. -/
inductive CPh where
  | free | handshake | connected
deriving DecidableEq, Repr

/-- `tls_client_t`. tls_server.c 54–59. -/
structure Conn where
  st : CPh := .free
  fd : Int := -1
  ssl : Option Nat := none
deriving DecidableEq

/-- What the server did to the world besides the glue. -/
inductive Act where
  | accepted (fd : Int)
  | closed (fd : Int)
  | made (x : Nat)
  | freed (x : Nat)
  /-- `wolfSSL_read` of session `x` gave `d` -/
  | read (x : Nat) (d : List Nat)
  /-- `wolfSSL_write` of session `x` took `d` -/
  | wrote (x : Nat) (d : List Nat)
deriving DecidableEq

structure W where
  conns : List Conn
  /-- calls into the glue, by anyone, most recent first -/
  ops : List Op
  /-- most recent first -/
  acts : List Act := []

/-- Result of `wolfSSL_accept`. -/
inductive Hs where
  | ok | want | fail
deriving DecidableEq

/-- Result of `wolfSSL_read`. -/
inductive Rd where
  | data (d : List Nat) | zeroReturn | wantRead | other
deriving DecidableEq

/-- Result of `wolfSSL_write`: took the first `n` bytes, WANT_WRITE, or another error. -/
inductive Wr where
  | took (n : Nat) | want | fail
deriving DecidableEq

/-- The outside during one client callback. -/
structure CbEnv where
  readable : Bool := false
  writable : Bool := false
  closed : Bool := false
  pending : Bool := false
  hs : Hs := .want
  rd : Rd := .wantRead
  wr : Wr := .want

/-- `tls_client_alloc`: the first free slot. tls_server.c 226–235. -/
def alloc (l : List Conn) : Option Nat := l.findIdx? fun c => c.st == .free

/-- `tls_client_free` of slot `i`. tls_server.c 237–250. -/
def release (w : W) (i : Nat) : W :=
  match w.conns[i]? with
  | none => w
  | some c =>
    let w1 : W := match c.ssl with
      | none => w
      | some x => { w with ops := .free x :: .clean x :: w.ops, acts := .freed x :: w.acts }
    { w1 with
      conns := w.conns.set i { st := .free, ssl := none, fd := if 0 ≤ c.fd then -1 else c.fd }
      acts := if 0 ≤ c.fd then .closed c.fd :: w1.acts else w1.acts }

/-- `tls_client_handle_data` of slot `i`, session `x`. tls_server.c 252–282. -/
def handleData (w : W) (i x : Nat) (e : CbEnv) : W :=
  if e.readable = false ∧ e.pending = false then w
  else match e.rd with
    | .data d =>
      let w := { w with acts := .read x d :: w.acts }
      match e.wr with
      | .took n => { w with acts := .wrote x (d.take n) :: w.acts }
      | .want => w
      | .fail => release w i
    | .zeroReturn => release w i
    | .wantRead => w
    | .other => release w i

/-- `tls_listen_cb` for the listener's own descriptor with a readable event: `fd` is what `accept` gave, `new` the
session `wolfSSL_new` made. tls_server.c 284–338. -/
def listenCb (ctx : Nat) (w : W) (fd : Int) (new : Option Nat) : W :=
  if fd < 0 then w
  else
    let w := { w with acts := .accepted fd :: w.acts }
    match alloc w.conns with
    | none => { w with acts := .closed fd :: w.acts }
    | some i =>
      match new with
      | none => { w with acts := .closed fd :: w.acts }
      | some x =>
        let o : Op := .sslIO x (some ctx) fd
        let r := (step .ssl (exec .ssl w.ops).1 o).2
        let w := { w with ops := o :: w.ops, acts := .made x :: w.acts }
        if r ≠ .ok then { w with ops := .free x :: w.ops, acts := .closed fd :: .freed x :: w.acts }
        else { w with conns := w.conns.set i { st := .handshake, fd := fd, ssl := some x } }

/-- `tls_client_cb` for descriptor `fd` with slot `i` as its argument. tls_server.c 340–389. -/
def clientCb (w : W) (fd : Int) (i : Nat) (e : CbEnv) : W :=
  match w.conns[i]? with
  | none => w
  | some c =>
    if c.fd ≠ fd then w
    else if e.closed then release w i
    else match c.st, c.ssl with
      | .handshake, some x =>
        if e.readable = false ∧ e.writable = false then w
        else match e.hs with
          | .ok => handleData { w with conns := w.conns.set i { c with st := .connected } } i x e
          | .want => w
          | .fail => release w i
      | .connected, some x => handleData w i x e
      | _, _ => w

/-- The loop of `tls_server_cleanup` over the `n` slots from `i`. tls_server.c 204–208. -/
def releaseFrom (w : W) (i : Nat) : Nat → W
  | 0 => w
  | n + 1 => releaseFrom (match w.conns[i]? with
      | none => w
      | some c => if c.st ≠ .free then release w i else w) (i + 1) n

inductive Ev where
  | listen (fd : Int) (new : Option Nat)
  | client (fd : Int) (i : Nat) (e : CbEnv)
  | cleanup
  /-- another user of the glue -/
  | other (o : Op)

def step (ctx : Nat) (w : W) : Ev → W
  | .listen fd new => listenCb ctx w fd new
  | .client fd i e => clientCb w fd i e
  | .cleanup => releaseFrom w 0 w.conns.length
  | .other o => { w with ops := o :: w.ops }

/-- After `tls_server_init` with `n` slots (TLS_MAX_CLIENTS). -/
def start (n ctx st : Nat) : W := { conns := List.replicate n {}, ops := [.regCtx ctx st] }

def run (ctx : Nat) (w : W) : List Ev → W
  | [] => w
  | e :: es => run ctx (step ctx w e) es

/-! ## Specification -/

/-- The sockets accepted and not closed since. -/
def isOpen (fd : Int) : List Act → Bool
  | [] => false
  | .accepted f :: l => if f = fd then true else isOpen fd l
  | .closed f :: l => if f = fd then false else isOpen fd l
  | _ :: l => isOpen fd l

/-- The sessions made and not freed since. -/
def isLive (x : Nat) : List Act → Bool
  | [] => false
  | .made y :: l => if y = x then true else isLive x l
  | .freed y :: l => if y = x then false else isLive x l
  | _ :: l => isLive x l

/-- What a session read since it was made, oldest first. -/
def hasRead (x : Nat) : List Act → List Nat
  | [] => []
  | .read y d :: l => if y = x then hasRead x l ++ d else hasRead x l
  | .made y :: l => if y = x then [] else hasRead x l
  | _ :: l => hasRead x l

/-- What it wrote. -/
def hasWritten (x : Nat) : List Act → List Nat
  | [] => []
  | .wrote y d :: l => if y = x then hasWritten x l ++ d else hasWritten x l
  | .made y :: l => if y = x then [] else hasWritten x l
  | _ :: l => hasWritten x l

/-- What may happen: accept gives a socket that is not open, `wolfSSL_new` a session that is not set up; other users of
the glue keep to its discipline, on their own sessions and contexts; callbacks are for descriptors, which are not negative; there are at most the contexts in `L`. -/
def Fair (ctx : Nat) (L : List Nat) (w : W) : Ev → Prop
  | .listen fd new => (0 ≤ fd → isOpen fd w.acts = false) ∧ ∀ x, new = some x → bound x (exec .ssl w.ops).2 = none
  | .other o => Tidy .ssl (o :: w.ops) ∧
      match o with
      | .regCtx c _ => c ≠ ctx ∧ c ∈ L
      | .sslIO x _ _ => isLive x w.acts = false
      | .sshIO x _ _ => isLive x w.acts = false
      | .clean x => isLive x w.acts = false
      | .free x => isLive x w.acts = false
  | .client fd _ _ => 0 ≤ fd
  | .cleanup => True

def FairAll (ctx : Nat) (L : List Nat) (w : W) : List Ev → Prop
  | [] => True
  | e :: es => Fair ctx L w e ∧ FairAll ctx L (step ctx w e) es

end Wolf.Tls.Srv
