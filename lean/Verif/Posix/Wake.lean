/-!
# C111, C112: waiting in the POSIX port

Model of the waiting machinery of `src/port/posix/bsd_socket.c` for one socket: the wake-up pipe with its token bits
(137–181), `poller_callback` (1094–1143), `wolfip_wait_for_event_locked` (456–523), the blocking calls
(`conditional_steal_blocking_call`, 564–610, and the same loop in `recvfrom`, `sendto`, `send`, `write`),
`wolfip_accept_common` (1516–1592), `wolfIP_sock_poll` (1145–1194) and `wolfIP_sock_select` (1196–1266).

Two threads are interleaved: the application thread, which holds `wolfIP_mutex` except while it is inside the host's
`poll` or `select`, and the stack's thread (`wolfIP_sock_posix_ip_loop`, 1983–1996), which runs only with the mutex.
The stack is abstract: at any time it may change what the socket calls and `can_read`/`can_write` answer and raise
events; `dispatch` is `handle_socket_callbacks` (src/wolfip.c 11216–11285) for this socket. `poll` and `select` are called with this socket
alone. The host's pipe: a read end is readable if the pipe holds bytes and is never writable. All other descriptors, time
limits (`snd_timeout_ms` and `rcv_timeout_ms` are −1 for ever: nothing in the file sets them) and interruption by signals
are left out.
-/
namespace Wolf.Posix

/-- The bytes of the wake-up pipe: `'r'`, `'w'`, `'h'`. No code writes an `'e'`. -/
inductive Tok where
  | r | w | h
deriving DecidableEq, Repr

/-- `CB_EVENT_READABLE`, `CB_EVENT_WRITABLE`, `CB_EVENT_CLOSED`. -/
structure Ev where
  r : Bool
  w : Bool
  c : Bool
deriving DecidableEq, Repr

def Ev.none : Ev := ⟨false, false, false⟩

def Ev.or (a b : Ev) : Ev := ⟨a.r || b.r, a.w || b.w, a.c || b.c⟩

/-- What a blocking call waits for: `POLLIN` or `POLLOUT`. -/
inductive Want where
  | r | w
deriving DecidableEq, Repr

/-- `want`, 469: the byte that wakes a wait of kind `k`. -/
def tokOf : Want → Tok
  | .r => .r
  | .w => .w

/-- Answer of `wolfIP_sock_can_read` or `wolfIP_sock_can_write`: 0, 1, negative. -/
inductive Can where
  | no | yes | err
deriving DecidableEq, Repr

/-- What the stack answers now. `ag k`: the socket call of kind `k` returns −EAGAIN. -/
structure Sock where
  agR : Bool
  agW : Bool
  canR : Can
  canW : Can
deriving DecidableEq, Repr

def Sock.ag (k : Sock) : Want → Bool
  | .r => k.agR
  | .w => k.agW

def Sock.can (k : Sock) : Want → Can
  | .r => k.canR
  | .w => k.canW

/-- How the last call came out. `spin`: it is still running, and keeps the mutex. -/
inductive Res where
  | start
  /-- the socket call did not answer −EAGAIN; that answer is returned -/
  | ok
  | err
  | spin
  /-- `poll` or `select` returned 1 with these result bits -/
  | polled (i o h : Bool)
deriving DecidableEq, Repr

/-- Where the application thread is. -/
inductive Pc where
  /-- outside, after a call that came out like this -/
  | out (res : Res)
  /-- in the host's `poll` in `wolfip_wait_for_event_locked` -/
  | blocked (k : Want)
  /-- in the host's `poll` in `wolfip_accept_common` -/
  | accepting
  /-- in the host's `poll` in `wolfIP_sock_poll`, asked for `POLLIN`, `POLLOUT` -/
  | polling (i o : Bool)
  /-- in the host's `select` in `wolfIP_sock_select`, with the socket in these sets -/
  | selecting (i o x : Bool)
deriving DecidableEq, Repr

structure S where
  pipe : List Tok
  /-- `pending_tokens` -/
  pend : Tok → Bool
  /-- `entry->events`: POLLIN, POLLOUT -/
  armIn : Bool
  armOut : Bool
  /-- is `poller_callback` registered? -/
  cb : Bool
  /-- events raised and not yet dispatched -/
  ev : Ev
  sock : Sock
  pc : Pc
  /-- ghost: events handed to `poller_callback` since the last call of `poll` or `select` began -/
  seen : Ev

/-- A new descriptor (`wolfip_fd_alloc`, 365–415) for a socket that answers like this. -/
def S.start (k : Sock) : S :=
  { pipe := [], pend := fun _ => false, armIn := false, armOut := false, cb := false, ev := .none, sock := k, pc := .out .start,
    seen := .none }

def setb (p : Tok → Bool) (c : Tok) (b : Bool) : Tok → Bool := fun d => if d = c then b else p d

/-- `wolfip_consume_token_locked`, 167–172, for all the bytes read. -/
def consume (p : Tok → Bool) (l : List Tok) : Tok → Bool := l.foldl (fun p c => setb p c false) p

/-- `wolfip_drain_pipe_locked`, 174–181, and the read loops 513–517, 1173–1183, 1242–1250: all bytes are read. -/
def S.drain (s : S) : S := { s with pipe := [], pend := consume s.pend s.pipe }

/-- The byte `poller_callback` chooses, 1104–1112. -/
def token (s : S) (e : Ev) : Option Tok :=
  if e.w && s.armOut then some .w
  else if e.r && s.armIn then some .r
  else if e.c then some .h
  else none

/-- `poller_callback`, 1094–1143; the pipe holds `cap` bytes. -/
def poller (cap : Nat) (s : S) (e : Ev) : S :=
  match token s e with
  | none => s
  | some c =>
    if s.pend c then s
    else if s.pipe.length < cap then { s with pipe := s.pipe ++ [c], pend := setb s.pend c true }
    else
      match s.pipe with
      | [] => s
      | d :: l => { s with pipe := l ++ [c], pend := setb (setb s.pend d false) c true }

/-- `entry->events = …; wolfIP_register_callback(…)`: 470–471, 1548–1549, 1155–1158, 1210–1220. -/
def S.arm (s : S) (i o : Bool) : S := { s with armIn := i, armOut := o, cb := true }

/-- One pass of the loop of a blocking call up to where it ends, waits in the host's `poll`, or starts all over again (`none`)
with the mutex held all along: the socket call, then the beginning of `wolfip_wait_for_event_locked`. -/
def pass (k : Want) (s : S) : Option S :=
  if s.sock.ag k = false then some { s with pc := .out .ok }
  else
    let s := s.arm (k = .r) (k = .w)
    match s.sock.can k with
    | .err => some { s with pc := .out .err }
    | .yes => none
    | .no => some { s with pc := .blocked k }

/-- The loop, run for `n` passes; `none`: it is still in the loop, and has not released the mutex. While the mutex is held
nothing changes what `pass` looks at, so a pass without result is followed by the same pass (564–610). -/
def passes (k : Want) : Nat → S → Option S
  | 0, _ => none
  | n + 1, s => (pass k s).or (passes k n (s.arm (k = .r) (k = .w)))

/-- A blocking call of a socket in blocking mode. -/
def call (k : Want) (s : S) : S :=
  match pass k s with
  | some s' => s'
  | none => { s.arm (k = .r) (k = .w) with pc := .out .spin }

/-- Back from the host's `poll` in `wolfip_wait_for_event_locked` with bytes to read: 513–519 and, if nothing read is
reason to wake up, the test of readiness 481–489. -/
def woken (k : Want) (s : S) : S :=
  let wake := s.pipe.any fun c => c = tokOf k ∨ c = .h
  let s := s.drain
  if wake then call k s
  else
    match s.sock.can k with
    | .err => { s with pc := .out .err }
    | .yes => call k s
    | .no => { s with pc := .blocked k }

/-- `wolfip_accept_common` on a blocking socket: 1540–1554. -/
def accept (s : S) : S :=
  if s.sock.agR = false then { s with pc := .out .ok }
  else { s.arm true false with pc := .accepting }

/-- `wolfIP_sock_poll`, 1151–1162. -/
def poll (i o : Bool) (s : S) : S := { s.drain.arm i o with pc := .polling i o, seen := .none }

/-- `wolfIP_sock_poll`, 1164–1193: the bytes become result bits, cut to what was asked for. -/
def polled (s : S) : S :=
  let l := s.pipe
  let s := s.drain
  { s with pc := .out (.polled (decide (.r ∈ l) && s.armIn) (decide (.w ∈ l) && s.armOut) (decide (.h ∈ l))) }

/-- `wolfIP_sock_select`, 1205–1224; a socket in no set is not touched (and `select` waits for others). -/
def select (i o x : Bool) (s : S) : S :=
  if i || o || x then { s.drain.arm i o with pc := .selecting i o x, seen := .none }
  else { s with armIn := false, armOut := false, pc := .selecting i o x, seen := .none }

/-- `wolfIP_sock_select`, 1227–1263, when the host's `select` reported the read end readable (and so cleared it in the
other sets): it stays in the read set if an `'r'` was read. -/
def selected (s : S) : S :=
  let l := s.pipe
  let s := s.drain
  { s with pc := .out (.polled (decide (.r ∈ l)) false false) }

inductive Act where
  /-- application thread -/
  | call (k : Want) | accept | poll (i o : Bool) | select (i o x : Bool)
  /-- the host's `poll` or `select` returns because it has something to report -/
  | wake
  /-- stack: the socket now answers like this, and these events are raised -/
  | raise (k : Sock) (e : Ev)
  /-- stack: dispatch to the callback; `reap`: and the slot is cleared (a TCP socket that was closed, 11228–11237 and
  11259–11263) -/
  | dispatch (reap : Bool)
deriving DecidableEq, Repr

/-- The stack dispatches: `handle_socket_callbacks`. -/
def dispatch (cap : Nat) (reap : Bool) (s : S) : S :=
  if s.cb = false ∨ s.ev = .none then s
  else
    let s' := poller cap { s with ev := .none, seen := s.seen.or s.ev } s.ev
    if reap && s.ev.c then { s' with cb := false } else s'

/-- Is there something for the host's `poll` or `select` to report? -/
def hostReady (s : S) : Bool :=
  match s.pc with
  | .out _ => false
  | .blocked _ => s.pipe ≠ []
  | .accepting => s.pipe ≠ []
  | .polling i _ => i && s.pipe ≠ []
  | .selecting i _ _ => i && s.pipe ≠ []

/-- One step; a step that is not possible changes nothing. With `spin` the mutex is never free again. -/
def step (cap : Nat) (s : S) : Act → S
  | .call k => if s.pc = .out .spin then s else match s.pc with | .out _ => call k s | _ => s
  | .accept => if s.pc = .out .spin then s else match s.pc with | .out _ => accept s | _ => s
  | .poll i o => if s.pc = .out .spin then s else match s.pc with | .out _ => poll i o s | _ => s
  | .select i o x => if s.pc = .out .spin then s else match s.pc with | .out _ => select i o x s | _ => s
  | .wake =>
    if hostReady s then
      match s.pc with
      | .out _ => s
      | .blocked k => woken k s
      | .accepting => accept s.drain
      | .polling _ _ => polled s
      | .selecting _ _ _ => selected s
    else s
  | .raise k e => if s.pc = .out .spin then s else { s with sock := k, ev := s.ev.or e }
  | .dispatch reap => if s.pc = .out .spin then s else dispatch cap reap s

def run (cap : Nat) (s : S) (l : List Act) : S := l.foldl (step cap) s

/-- What is asked of the stack: a call that answered −EAGAIN and no longer does was announced, by the event of its kind or
by CLOSED. -/
def Announced (k k' : Sock) (e : Ev) : Prop :=
  (k.agR = true → k'.agR = false → e.r = true ∨ e.c = true) ∧ (k.agW = true → k'.agW = false → e.w = true ∨ e.c = true)

def Fair (cap : Nat) : S → List Act → Prop
  | _, [] => True
  | s, a :: l => (∀ k e, a = .raise k e → Announced s.sock k e) ∧ Fair cap (step cap s a) l

end Wolf.Posix
