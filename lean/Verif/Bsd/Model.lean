import Verif.Ready.Tcp
/-!
# The blocking socket calls of the FreeRTOS port, on one TCP connection

Models `src/port/freeRTOS/bsd_socket.c`: `wolfip_bsd_socket_cb` (155–175), `wolfip_bsd_prepare_wait_locked` (177–184),
`wolfip_bsd_wait_unlocked` (186–192), the retry rules (194–217) and the loops of `connect` (371–399), `send` (401–442; `sendto`
444–486 is the same), `recv` (488–526; `recvfrom` 528–567 is the same) and `close` (644–687), over the connection of
`Verif.Ready.Tcp`. Every pass of a loop holds the global lock from the stack call to the registration of the callback, so it is one
step here; `wolfIP_poll` runs under the same lock. One task uses the descriptor (the table of descriptors is
`Verif.Bsd.Fds`); the log line and `g_last_error` are left out.
-/
namespace Wolf.Bsd
open Wolf.ReadyT (Tk St)

/-- The call a task can block in. -/
inductive Call where
  | recv (len : Nat)
  | send
  | connect
  | close
deriving DecidableEq, Repr

/-- What the call returned. -/
inductive Ret where
  | val (n : Nat)
  | err
deriving DecidableEq, Repr

/-- The connection, the entry of the descriptor (`ready_sem`, `wait_events` as three bits, is the slot's callback this
entry's), and the task: the call it is blocked in, with whether its one retry after a bare −1 is used up. -/
structure W where
  k : Tk
  sem : Bool := false
  wr : Bool := false
  ww : Bool := false
  wc : Bool := false
  mine : Bool := false
  task : Option (Call × Bool) := none
deriving DecidableEq, Repr

/-- `wolfip_bsd_prepare_wait_locked`, then the task sleeps on the semaphore. -/
def block (w : W) (c : Call) (used r wr : Bool) : W :=
  { k := { w.k with cb := true }, sem := false, wr := r, ww := wr, wc := true, mine := true, task := some (c, used) }

/-- The call returns. -/
def done (w : W) : W := { w with task := none }

/-- `wolfIP_sock_connect` on a connection that is already under way or over: a slot without buffers (freed, or reserved for its last
event) cannot queue a SYN and says "again". src/wolfip.c 6423–6495. -/
def connectOp (s : Tk) : ReadyT.Out :=
  match s.st with
  | .est => .ok
  | .synSent => .again
  | .closed => .again
  | .free => .again
  | .synRcvd => .err
  | .closeWait => .err
  | .fw1 => .err
  | .fw2 => .err
  | .closing => .err
  | .timeWait => .err
  | .lastAck => .err

/-- One pass of `recv`. -/
def recvTry (w : W) (len : Nat) (used : Bool) : W × Option Ret :=
  match ReadyT.recvOp w.k len with
  | (k, .data n) => (done { w with k := k }, some (.val n))
  | (k, .again) => (block { w with k := k } (.recv len) used true false, none)
  | (k, _) => if ReadyT.canRead k then (done { w with k := k }, some .err) else (block { w with k := k } (.recv len) used true true, none)

/-- One pass of `send`; `x` bytes fit. -/
def sendTry (w : W) (x : Nat) (used : Bool) : W × Option Ret :=
  match ReadyT.sendOp w.k x with
  | (k, .data n) => (done { w with k := k }, some (.val n))
  | (k, .again) => (block { w with k := k } .send used false true, none)
  | (k, _) => if used then (done { w with k := k }, some .err) else (block { w with k := k } .send true true true, none)

/-- One pass of `connect`. -/
def connectTry (w : W) (used : Bool) : W × Option Ret :=
  match connectOp w.k with
  | .ok => (done w, some (.val 0))
  | .again => (block w .connect used false true, none)
  | _ => (done w, some .err)

/-- One pass of `close`; `x > 0`: there is room for the FIN. -/
def closeTry (w : W) (x : Nat) (used : Bool) : W × Option Ret :=
  match ReadyT.closeOp w.k (decide (0 < x)) with
  | (k, .ok) => (done { w with k := { k with cb := false }, mine := false }, some (.val 0))
  | (k, .again) => (block { w with k := k } .close used false false, none)
  | (k, _) => (done { w with k := k }, some .err)

def attempt (w : W) (c : Call) (used : Bool) (x : Nat) : W × Option Ret :=
  match c with
  | .recv len => recvTry w len used
  | .send => sendTry w x used
  | .connect => connectTry w used
  | .close => closeTry w x used

/-- `wolfip_bsd_socket_cb`. -/
def callback (w : W) (r wr c : Bool) : W :=
  if w.mine then { w with sem := w.sem || (r && w.wr) || (wr && w.ww) || (c && w.wc) } else w

/-- What can happen: a segment or timeout, a dispatch of the connection's events by the poll task, the task makes a call or, its
semaphore given, goes on with the one it is blocked in. -/
inductive Op where
  | net (o : ReadyT.Op)
  | dispatch
  | call (c : Call) (x : Nat)
  | resume (x : Nat)
deriving DecidableEq, Repr

/-- The events of the network and of timers. -/
def isNet : ReadyT.Op → Bool
  | .establish _ _ _ => true
  | .data _ => true
  | .fin => true
  | .ack _ _ _ => true
  | .grow => true
  | .stuck _ => true
  | .finAck => true
  | .abort => true
  | .register _ => false
  | .recv _ => false
  | .send _ => false
  | .close _ => false
  | .fire => false
  | .fireEnd => false

/-- The dispatch: the callback runs, and returns, under the lock. -/
def dispatchOp (w : W) : W :=
  match ReadyT.fireOp w.k with
  | (k, .event r wr c) => callback { w with k := ReadyT.fireEndOp k } r wr c
  | (k, _) => { w with k := k }

def step (w : W) : Op → W × Option Ret
  | .net o => (if isNet o then { w with k := (ReadyT.step w.k o).1 } else w, none)
  | .dispatch => (dispatchOp w, none)
  | .call c x => match w.task with | none => attempt w c false x | some _ => (w, none)
  | .resume x =>
    match w.task with
    | none => (w, none)
    | some (c, used) => if w.sem then attempt { w with sem := false } c used x else (w, none)

def run (w : W) : List Op → W
  | [] => w
  | op :: ops => run (step w op).1 ops

/-- A connection `accept` just returned: the callback it inherited, if any, belongs to the listening descriptor. -/
def accepted (cb : Bool) : W := { k := ReadyT.accepted cb }

/-- A connection whose `connect` just sent the SYN and blocks. -/
def connecting : W := block { k := ReadyT.connecting false } .connect false false true

end Wolf.Bsd
