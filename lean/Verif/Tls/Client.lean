import Verif.Glue.Props
/-! # C128: the TLS client of the ports

Model of `src/port/tls_client.c` (357–590, the client of most boards, `generic`) and of `src/port/rtl8735b/tls_client.c`
(86–389, `rtl`), which differ in what they release and when they give up. The I/O glue below them is the model of C107
and C108 (`Glue`), shared with other users. Environment: `wolfIP_sock_socket`, `wolfIP_sock_connect` and the wolfSSL
calls answer anything. Not modelled: initialisation up to the registration of the context, SNI, the DHUK key, debug
output, and `wolfSSL_shutdown` (it sends, through the glue, and changes nothing here). A socket is released when
`wolfIP_sock_close` is called on it (C76 is about what happens then). -/
namespace Wolf.Tls
open Wolf.Glue

/-! ## Model -/

/-- `tls_client_state_t`. tls_client.c 89–97 (DNS_LOOKUP is never entered). -/
inductive Phase where
  | idle | connecting | handshake | connected | done | error
deriving DecidableEq, Repr

/-- The two clients. -/
inductive Variant where
  | generic | rtl
deriving DecidableEq

/-- `client`. tls_client.c 100–115; rtl8735b/tls_client.c 45–62. -/
structure Cl where
  ph : Phase := .idle
  fd : Int := -1
  ssl : Option Nat := none
  got : Bool := false
  ready : Nat := 0
  wait : Nat := 0
deriving DecidableEq

/-- What the client did to the world besides the I/O glue. -/
inductive Act where
  | opened (fd : Int)
  | closed (fd : Int)
  | made (x : Nat)
  | freed (x : Nat)
  | deliver (d : List Nat)
deriving DecidableEq

structure W where
  cl : Cl := {}
  /-- calls into the glue, by anyone, most recent first -/
  ops : List Op
  /-- most recent first -/
  acts : List Act := []

/-- Result of `wolfSSL_connect`. -/
inductive Hs where
  | ok | want | fail
deriving DecidableEq

/-- Result of `wolfSSL_read`. -/
inductive Rd where
  | data (d : List Nat) | zeroReturn | wantRead | other
deriving DecidableEq

/-- What the outside answers during one poll. -/
structure PollEnv where
  conn : Int := 0
  new : Option Nat := none
  hs : Hs := .want
  rd : Rd := .wantRead

/-- -WOLFIP_EAGAIN -/
notation "eagain" => (-11 : Int)
/-- TLS_CLIENT_SETTLE_POLLS (tls_client.c 85), the literal 10 of rtl8735b/tls_client.c 259. -/
notation "settlePolls" => (10 : Nat)
/-- TLS_CONNECT_MAX_POLLS, rtl8735b/tls_client.c 72. -/
notation "maxPolls" => (2000 : Nat)

/-- `tls_client_teardown` (rtl 86–93); the generic client's `tls_client_close` frees without the clean-up (573–577). -/
def teardown (v : Variant) (w : W) : W :=
  match w.cl.ssl with
  | none => w
  | some x =>
    { cl := { w.cl with ssl := none }
      ops := match v with
        | .rtl => .free x :: .clean x :: w.ops
        | .generic => .free x :: w.ops
      acts := .freed x :: w.acts }

/-- `if (client.fd >= 0 && client.stack) close`. rtl 102–105, 376–379; generic 578–581. -/
def closeFd (w : W) : W :=
  if 0 ≤ w.cl.fd then { w with cl := { w.cl with fd := -1 }, acts := .closed w.cl.fd :: w.acts } else w

/-- Set the state. -/
def setPh (w : W) (p : Phase) : W := { w with cl := { w.cl with ph := p } }

/-- Enter a final state: `tls_client_finish` (rtl 99–107); a bare assignment in the generic client (454, 471, 485, 505,
529, 537). -/
def finish (v : Variant) (w : W) (p : Phase) : W :=
  match v with
  | .rtl => setPh (closeFd (teardown .rtl w)) p
  | .generic => setPh w p

/-- `tls_client_connect`. generic 357–405; rtl 161–214. `ip` is the parsed address (0: not an address). -/
def connect (w : W) (ip : Nat) (sock conn : Int) : W × Int :=
  if w.cl.ph ≠ .idle then (w, -1)
  else if ip = 0 then (w, -1)
  else if sock < 0 then ({ w with cl := { w.cl with fd := sock } }, -1)
  else
    let w := { w with cl := { w.cl with fd := sock }, acts := .opened sock :: w.acts }
    if conn < 0 ∧ conn ≠ eagain then ({ w with cl := { w.cl with fd := -1 }, acts := .closed sock :: w.acts }, -1)
    else (setPh w .connecting, 0)

/-- Case HANDSHAKE of `tls_client_poll`. generic 491–508; rtl 290–307. -/
def handshake (v : Variant) (w : W) (h : Hs) : W × Int :=
  match h with
  | .ok => (setPh w .connected, 0)
  | .want => (w, 0)
  | .fail => (finish v w .error, -1)

/-- From `wolfSSL_new` to the handshake. generic 464–488; rtl 265–288. -/
def setup (v : Variant) (ctx : Nat) (w : W) (e : PollEnv) : W × Int :=
  match e.new with
  | none => (finish v w .error, -1)
  | some x =>
    let o : Op := .sslIO x (some ctx) w.cl.fd
    let r := (step .ssl (exec .ssl w.ops).1 o).2
    let w := { cl := { w.cl with ssl := some x }, ops := o :: w.ops, acts := .made x :: w.acts }
    if r ≠ .ok then (finish v w .error, -1)
    else handshake v (setPh w .handshake) e.hs

/-- Case CONNECTING of `tls_client_poll`. generic 436–463; rtl 228–264. -/
def connecting (v : Variant) (ctx : Nat) (w : W) (e : PollEnv) : W × Int :=
  if e.conn = eagain then
    match v with
    | .generic => ({ w with cl := { w.cl with ready := 0 } }, 0)
    | .rtl =>
      let w := { w with cl := { w.cl with ready := 0, wait := w.cl.wait + 1 } }
      if w.cl.wait > maxPolls then (finish v w .error, -1) else (w, 0)
  else if e.conn < 0 then (finish v w .error, -1)
  else
    let wt := match v with
      | .rtl => 0
      | .generic => w.cl.wait
    let w := { w with cl := { w.cl with ready := w.cl.ready + 1, wait := wt } }
    if w.cl.ready < settlePolls then (w, 0)
    else setup v ctx { w with cl := { w.cl with ready := 0 } } e

/-- Case CONNECTED of `tls_client_poll`. generic 510–540; rtl 309–340. -/
def connected (v : Variant) (w : W) (r : Rd) : W :=
  match r with
  | .data d => { w with cl := { w.cl with got := true }, acts := .deliver d :: w.acts }
  | .zeroReturn => finish v w .done
  | .wantRead => w
  | .other => finish v w (if w.cl.got then .done else .error)

/-- `tls_client_poll`. -/
def poll (v : Variant) (ctx : Nat) (w : W) (e : PollEnv) : W × Int :=
  match w.cl.ph with
  | .connecting => connecting v ctx w e
  | .handshake => handshake v w e.hs
  | .connected => (connected v w e.rd, 0)
  | _ => (w, 0)

/-- `tls_client_close`. generic 571–585; rtl 370–384. -/
def close (v : Variant) (w : W) : W :=
  let w := closeFd (teardown v w)
  { w with cl := { w.cl with got := false, ready := 0, wait := 0, ph := .idle } }

/-- `tls_client_send`: `n` is what `wolfSSL_write` returned, `want` that its error is WANT_WRITE. generic 550–569, rtl 349–368. -/
def send (w : W) (n : Int) (want : Bool) : Int :=
  if w.cl.ph ≠ .connected then -1
  else if n ≤ 0 then (if want then n else -1)
  else n

inductive Ev where
  | connect (ip : Nat) (sock conn : Int)
  | poll (e : PollEnv)
  | close
  /-- another user of the glue -/
  | other (o : Op)

def step (v : Variant) (ctx : Nat) (w : W) : Ev → W
  | .connect ip s c => (connect w ip s c).1
  | .poll e => (poll v ctx w e).1
  | .close => close v w
  | .other o => { w with ops := o :: w.ops }

/-- After `tls_client_init`: the context is registered. -/
def start (ctx st : Nat) : W := { ops := [.regCtx ctx st] }

def run (v : Variant) (ctx : Nat) (w : W) : List Ev → W
  | [] => w
  | e :: es => run v ctx (step v ctx w e) es

/-! ## Specification -/

/-- The sockets the client opened and did not close since (acts with the most recent first). -/
def isOpen (fd : Int) : List Act → Bool
  | [] => false
  | .opened f :: l => if f = fd then true else isOpen fd l
  | .closed f :: l => if f = fd then false else isOpen fd l
  | _ :: l => isOpen fd l

/-- The sessions the client made and did not free since. -/
def isLive (x : Nat) : List Act → Bool
  | [] => false
  | .made y :: l => if y = x then true else isLive x l
  | .freed y :: l => if y = x then false else isLive x l
  | _ :: l => isLive x l

/-- What may happen: a new session object is not one that is set up; other users of the glue keep to its discipline
(C108), work on their own sessions and contexts, and there are at most eight contexts, those in `L`. -/
def Fair (ctx : Nat) (L : List Nat) (w : W) : Ev → Prop
  | .poll e => ∀ x, e.new = some x → bound x (exec .ssl w.ops).2 = none
  | .other o => Tidy .ssl (o :: w.ops) ∧
      match o with
      | .regCtx c _ => c ≠ ctx ∧ c ∈ L
      | .sslIO x _ _ => w.cl.ssl ≠ some x
      | .sshIO x _ _ => w.cl.ssl ≠ some x
      | .clean x => w.cl.ssl ≠ some x
      | .free x => w.cl.ssl ≠ some x
  | _ => True

def FairAll (v : Variant) (ctx : Nat) (L : List Nat) (w : W) : List Ev → Prop
  | [] => True
  | e :: es => Fair ctx L w e ∧ FairAll v ctx L (step v ctx w e) es

/-- What the client may hold in a state. -/
def Holds (w : W) : Prop :=
  (∀ fd, isOpen fd w.acts = true ↔ 0 ≤ fd ∧ w.cl.fd = fd) ∧ (∀ x, isLive x w.acts = true ↔ w.cl.ssl = some x)

end Wolf.Tls
