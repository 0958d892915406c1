import Verif.Ready.Model

/-!
# C138: blocking datagram calls of the FreeRTOS port

Model of `recvfrom` (532–574; `recv` 491–531 is the same) and `sendto` (446–489; `send` 402–444 is the same) of
`src/port/freeRTOS/bsd_socket.c` on UDP, ICMP, raw and packet sockets, with the callback (155–175),
`wolfip_bsd_prepare_wait_locked` (177–185) and the wait (187–195), over the socket and its events of `Ready/Model`.
The TCP branches do not apply (199–214 test for TCP).  Every pass of a loop holds the global lock from the stack call to
the registration, so it is one step; `wolfIP_poll` runs under the same lock, so the callback and what its loop clears
after it are one step.  One task uses the descriptor; `g_last_error`, `seen_events` and the log are left out.
Whether a buffer has room for the datagram is an input, as in `Ready/Model`.
-/
namespace Wolf.BsdD

open Wolf.Ready (Kind Sk Op Out)

/-- The call a task sleeps in. -/
inductive Call where
  | recv (len : Nat)
  | send
  deriving DecidableEq

/-- What a call returned: octets received, sent, or -1. -/
inductive Ret where
  | data (n : Nat)
  | sent
  | err
  deriving DecidableEq

/-- The socket, the entry of the descriptor (`ready_sem`, `wait_events` as two bits), the task, and (ghosts) the results
of the calls, the lengths of the datagrams queued and of those taken. -/
structure W where
  s : Sk
  sem : Bool := false
  wr : Bool := false
  ww : Bool := false
  task : Option Call := none
  rets : List Ret := []
  queued : List Nat := []
  taken : List Nat := []
  deriving DecidableEq

/-- `wolfip_bsd_prepare_wait_locked`, then the task sleeps. -/
def block (w : W) (c : Call) (r wr : Bool) : W :=
  { w with s := { w.s with cb := true }, sem := false, wr := r, ww := wr, task := some c }

/-- The call returns. -/
def done (w : W) (r : Ret) : W := { w with task := none, rets := w.rets ++ [r] }

/-- One pass of the loop of `recvfrom`. -/
def passRecv (k : Kind) (w : W) (len : Nat) : W :=
  let o := Ready.step k w.s (.recv len)
  let v := { w with s := o.1, taken := w.taken ++ w.s.rx.take (w.s.rx.length - o.1.rx.length) }
  match o.2 with
  | .data n => done v (.data n)
  | .again => block v (.recv len) true false
  | _ => done v .err

/-- One pass of the loop of `sendto`; `room`: the transmit buffer takes the datagram. -/
def passSend (k : Kind) (w : W) (room : Bool) : W :=
  let o := Ready.step k w.s (.send room)
  let v := { w with s := o.1 }
  match o.2 with
  | .sent => done v .sent
  | .again => block v .send false true
  | _ => done v .err

/-- `wolfip_bsd_socket_cb` for the events `(r, w)`. -/
def callback (w : W) (r wb : Bool) : W := { w with sem := w.sem || (r && w.wr) || (wb && w.ww) }

/-- The dispatch at the end of `wolfIP_poll`; the callback, if one is registered, is this entry's. -/
def fire (k : Kind) (w : W) : W :=
  let o := Ready.step k w.s .fire
  let v := { w with s := (Ready.step k o.1 .fireEnd).1 }
  match o.2 with
  | .event r wb => callback v r wb
  | _ => v

inductive Act where
  /-- the task calls; only while it is not asleep -/
  | recv (len : Nat)
  | send (room : Bool)
  /-- the semaphore is taken and the loop goes round -/
  | wake (room : Bool)
  /-- a datagram of this length comes in, with room for it or not -/
  | arrive (n : Nat) (room : Bool)
  | flush (n : Nat) (space : Bool)
  | loop (space : Bool)
  | fire
  deriving DecidableEq

def step (k : Kind) (w : W) : Act → W
  | .recv len => if w.task = none then passRecv k w len else w
  | .send room => if w.task = none then passSend k w room else w
  | .wake room =>
    if w.sem = true then
      match w.task with
      | some (.recv len) => passRecv k { w with sem := false } len
      | some .send => passSend k { w with sem := false } room
      | none => w
    else w
  | .arrive n room =>
    { w with s := (Ready.step k w.s (.arrive n room)).1,
             queued := if w.s.used && room then w.queued ++ [n] else w.queued }
  | .flush n space => { w with s := (Ready.step k w.s (.flush n space)).1 }
  | .loop space => { w with s := (Ready.step k w.s (.loop space)).1 }
  | .fire => fire k w

def run (k : Kind) (w : W) (l : List Act) : W := l.foldl (step k) w

/-- An open socket with nothing in its buffers, whatever events are set. -/
def start (r wb : Bool) : W := { s := { used := true, r := r, w := wb } }

/-! ## The invariant -/

structure Inv (w : W) : Prop where
  used : w.s.used = true
  busy : w.s.busy = 0
  cb : w.task ≠ none → w.s.cb = true
  recv : ∀ len, w.task = some (.recv len) → w.wr = true ∧ (w.s.rx ≠ [] → w.sem = true ∨ w.s.r = true)
  send : w.task = some .send → w.ww = true
  order : w.taken ++ w.s.rx = w.queued

theorem start_inv (r wb : Bool) : Inv (start r wb) where
  used := rfl
  busy := rfl
  cb := fun h => absurd rfl h
  recv := fun _ h => by cases h
  send := fun h => by cases h
  order := rfl

theorem passRecv_inv {k : Kind} {w : W} (h : Inv w) (len : Nat) : Inv (passRecv k w len) := by
  obtain ⟨⟨u, c, r, wb, rx, tx, b⟩, sem, wr, ww, t, rets, q, tk⟩ := w
  obtain ⟨h1, h2, h3, h4, h5, h6⟩ := h
  dsimp only at h1 h2 h6
  subst h1 h2 h6
  unfold passRecv Ready.step Ready.recvOp
  cases rx with
  | nil => simp only [Bool.not_true, Bool.and_false]; constructor <;> simp [block]
  | cons n rest =>
    simp only [Bool.not_true, Bool.and_false]
    by_cases c1 : k = .raw ∧ n < 20
    · simp [c1, done]
      constructor <;> simp
    · by_cases c2 : n > len
      · simp [c1, c2, done]
        constructor <;> simp
      · simp [c1, c2, done]
        constructor <;> simp

theorem passSend_inv {k : Kind} {w : W} (h : Inv w) (room : Bool) : Inv (passSend k w room) := by
  obtain ⟨⟨u, c, r, wb, rx, tx, b⟩, sem, wr, ww, t, rets, q, tk⟩ := w
  obtain ⟨h1, h2, h3, h4, h5, h6⟩ := h
  dsimp only at h1 h2 h6
  subst h1 h2 h6
  unfold passSend Ready.step
  cases room <;> simp [done, block] <;> constructor <;> simp

theorem fire_inv {k : Kind} {w : W} (h : Inv w) : Inv (fire k w) := by
  obtain ⟨⟨u, c, r, wb, rx, tx, b⟩, sem, wr, ww, t, rets, q, tk⟩ := w
  obtain ⟨h1, h2, h3, h4, h5, h6⟩ := h
  dsimp only at h1 h2 h3 h4 h5 h6
  subst h1 h2
  have key : ∀ len, t = some (.recv len) → c = true ∧ wr = true ∧ (rx ≠ [] → sem = true ∨ r = true) := fun len e =>
    ⟨h3 (by rw [e]; nofun), h4 len e⟩
  unfold fire Ready.step Ready.fireOp
  cases k <;> cases c <;> cases r <;> cases wb <;> simp [Kind.late, callback] <;> constructor <;> simp_all

theorem passRecv_inv' {k : Kind} {w : W} (h : Inv w) (len : Nat) : Inv (passRecv k { w with sem := false } len) := by
  have e : passRecv k { w with sem := false } len = passRecv k { w with sem := false, task := none } len := by
    unfold passRecv done block
    dsimp only
  rw [e]
  exact passRecv_inv (w := { w with sem := false, task := none })
    { used := h.used, busy := h.busy, cb := fun c => absurd rfl c, recv := (fun _ c => by cases c),
      send := (fun c => by cases c), order := h.order } len

theorem passSend_inv' {k : Kind} {w : W} (h : Inv w) (room : Bool) : Inv (passSend k { w with sem := false } room) := by
  have e : passSend k { w with sem := false } room = passSend k { w with sem := false, task := none } room := by
    unfold passSend done block
    dsimp only
  rw [e]
  exact passSend_inv (w := { w with sem := false, task := none })
    { used := h.used, busy := h.busy, cb := fun c => absurd rfl c, recv := (fun _ c => by cases c),
      send := (fun c => by cases c), order := h.order } room

theorem step_inv {k : Kind} {w : W} (h : Inv w) (a : Act) : Inv (step k w a) := by
  cases a with
  | recv len =>
    show Inv (if w.task = none then _ else w)
    split
    · exact passRecv_inv h len
    · exact h
  | send room =>
    show Inv (if w.task = none then _ else w)
    split
    · exact passSend_inv h room
    · exact h
  | wake room =>
    unfold step
    dsimp only
    split
    · split
      · exact passRecv_inv' h _
      · exact passSend_inv' h room
      · exact h
    · exact h
  | arrive n room =>
    have hu := h.used
    unfold step Ready.step
    dsimp only
    cases room
    · simp only [Bool.and_false, Bool.false_eq_true, if_false]
      exact { h with }
    · simp only [hu, Bool.and_true, if_true]
      exact { used := rfl, busy := h.busy, cb := h.cb,
              recv := fun len e => ⟨(h.recv len e).1, fun _ => .inr rfl⟩, send := h.send,
              order := by show w.taken ++ (w.s.rx ++ [n]) = w.queued ++ [n]; rw [← List.append_assoc, h.order] }
  | flush n space => exact { used := h.used, busy := h.busy, cb := h.cb, recv := h.recv, send := h.send, order := h.order }
  | loop space => exact { used := h.used, busy := h.busy, cb := h.cb, recv := h.recv, send := h.send, order := h.order }
  | fire => exact fire_inv h

theorem run_inv {k : Kind} : ∀ (l : List Act) {w : W}, Inv w → Inv (run k w l)
  | [], _, h => h
  | a :: l, w, h => run_inv l (step_inv h a)

/-! ## The theorems -/

/-- **C138, order.**  In every history the datagrams taken, followed by those still waiting, are the datagrams queued, in
order: none is lost or given twice, however often the task slept. -/
theorem dgram_order (k : Kind) (r wb : Bool) (l : List Act) :
    (run k (start r wb) l).taken ++ (run k (start r wb) l).s.rx = (run k (start r wb) l).queued :=
  (run_inv l (start_inv r wb)).order

/-- **C138, receive.**  A task asleep in `recvfrom` while a datagram waits is woken by the next poll at the latest, and
then returns that datagram's length, or -1 if the buffer is too small (or a raw datagram has no whole header), having
taken it. -/
theorem dgram_recv_wakes (k : Kind) (r wb : Bool) (l : List Act) (w : W) (hw : w = run k (start r wb) l) (len n : Nat)
    (rest : List Nat) (ht : w.task = some (.recv len)) (hr : w.s.rx = n :: rest) (b : Bool) :
    let v := run k w [.fire, .wake b]
    v.task = none ∧ v.s.rx = rest ∧ v.taken = w.taken ++ [n] ∧
      v.rets = w.rets ++ [if n > len ∨ (k = .raw ∧ n < 20) then .err else .data n] := by
  have h := run_inv (k := k) l (start_inv r wb)
  rw [← hw] at h
  obtain ⟨h1, h2⟩ := h.recv len ht
  have h2 := h2 (by rw [hr]; nofun)
  have hc := h.cb (by rw [ht]; nofun)
  have hu := h.used
  have hb := h.busy
  obtain ⟨⟨u, c, r', wb', rx, tx, b'⟩, sem, wr, ww, t, rets, q, tk⟩ := w
  dsimp only at h1 h2 hc hu hb ht hr
  subst h1 hc hu hb ht hr
  have f : ∃ r2 w2, fire k ⟨⟨true, true, r', wb', n :: rest, tx, 0⟩, sem, true, ww, some (.recv len), rets, q, tk⟩ =
      ⟨⟨true, true, r2, w2, n :: rest, tx, 0⟩, true, true, ww, some (.recv len), rets, q, tk⟩ := by
    unfold fire Ready.step Ready.fireOp
    cases k <;> cases r' <;> cases wb' <;> cases sem <;> simp_all [Kind.late, callback]
  obtain ⟨r2, w2, f⟩ := f
  have f2 : run k ⟨⟨true, true, r', wb', n :: rest, tx, 0⟩, sem, true, ww, some (.recv len), rets, q, tk⟩
      [.fire, .wake b] = step k (fire k ⟨⟨true, true, r', wb', n :: rest, tx, 0⟩, sem, true, ww, some (.recv len), rets, q, tk⟩)
        (.wake b) := rfl
  rw [f2, f]
  unfold step passRecv Ready.step Ready.recvOp
  by_cases c1 : k = .raw ∧ n < 20
  · simp [c1, done]
  · by_cases c2 : n > len
    · simp [c1, c2, done]
    · simp [c1, c2, done]

/-- A `recvfrom` that finds a datagram returns at once. -/
theorem dgram_recv_now (k : Kind) (r wb : Bool) (l : List Act) (w : W) (hw : w = run k (start r wb) l) (len : Nat)
    (ht : w.task = none) (hr : w.s.rx ≠ []) : (step k w (.recv len)).task = none := by
  have h := run_inv (k := k) l (start_inv r wb)
  rw [← hw] at h
  have hu := h.used
  unfold step
  dsimp only
  rw [if_pos ht]
  obtain ⟨⟨u, c, r', wb', rx, tx, b'⟩, sem, wr, ww, t, rets, q, tk⟩ := w
  dsimp only at hu hr
  subst hu
  cases rx with
  | nil => exact absurd rfl hr
  | cons n rest =>
    unfold passRecv Ready.step Ready.recvOp
    by_cases c1 : k = .raw ∧ n < 20
    · simp [c1, done]
    · by_cases c2 : n > len
      · simp [c1, c2, done]
      · simp [c1, c2, done]

/-- **C138, send on UDP.**  A task asleep in `sendto` on a UDP socket is woken by the poll in which frames leave the
buffer and leave space, and then its datagram is queued if it fits. -/
theorem dgram_udp_send_wakes (r wb : Bool) (l : List Act) (w : W) (hw : w = run .udp (start r wb) l)
    (ht : w.task = some .send) (n : Nat) (hn : 0 < n) (htx : 0 < w.s.tx) :
    let v := run .udp w [.flush n true, .fire, .wake true]
    v.task = none ∧ v.rets = w.rets ++ [.sent] ∧ v.s.tx = w.s.tx - n + 1 := by
  have h := run_inv (k := .udp) l (start_inv r wb)
  rw [← hw] at h
  have h1 := h.send ht
  have hc := h.cb (by rw [ht]; nofun)
  have hu := h.used
  have hb := h.busy
  obtain ⟨⟨u, c, r', wb', rx, tx, b'⟩, sem, wr, ww, t, rets, q, tk⟩ := w
  dsimp only at h1 hc hu hb ht htx
  subst h1 hc hu hb ht
  simp [run, step, fire, Ready.step, Ready.fireOp, Kind.late, callback, passSend, done, hn, htx]

/-- **What is wrong: on every other kind of socket a full buffer is for ever.**  On an ICMP, raw or packet socket
nothing that leaves the transmit buffer raises the event `sendto` sleeps for: once it has slept through the events set
before, the call never returns, whatever arrives, is sent or polled (the loopback interface aside). -/
theorem dgram_send_hangs (k : Kind) (hk : k ≠ .udp) : ∀ (l : List Act) (w : W), w.task = some .send → w.sem = false →
    w.s.w = false → w.wr = false → (∀ b, Act.loop b ∉ l) →
    (run k w l).task = some .send ∧ (run k w l).rets = w.rets := by
  intro l
  induction l with
  | nil => intro w ht _ _ _ _; exact ⟨ht, rfl⟩
  | cons a l ih =>
    intro w ht hs hw hr hl
    have go : (step k w a).task = some .send ∧ (step k w a).sem = false ∧ (step k w a).s.w = false ∧
        (step k w a).wr = false ∧ (step k w a).rets = w.rets := by
      obtain ⟨⟨u, c, r', wb', rx, tx, b'⟩, sem, wr, ww, t, rets, q, tk⟩ := w
      dsimp only at ht hs hw hr
      subst ht hs hw hr
      cases a with
      | recv len => simp [step]
      | send room => simp [step]
      | wake room => simp [step]
      | arrive n room =>
        unfold step Ready.step
        dsimp only
        split <;> exact ⟨rfl, rfl, rfl, rfl, rfl⟩
      | flush n space => simp [step, Ready.step, hk]
      | loop b => exact absurd List.mem_cons_self (hl b)
      | fire =>
        unfold step fire Ready.step Ready.fireOp
        cases k <;> cases u <;> cases c <;> cases r' <;> simp [Kind.late, callback] at hk ⊢ <;>
          (try (split <;> simp))
    obtain ⟨g1, g2, g3, g4, g5⟩ := go
    have := ih (step k w a) g1 g2 g3 g4 fun b hb => hl b (List.mem_cons_of_mem _ hb)
    exact ⟨this.1, by rw [← g5]; exact this.2⟩

/-- A history into that sleep: a ping socket whose buffer is full because the peer's address is not yet known; then the
address is learnt, everything is sent, and ten polls later the task still sleeps. -/
theorem dgram_send_hang_reached :
    let w := run .icmp (start false true) [.send true, .send false, .fire, .wake false]
    w.task = some .send ∧ w.sem = false ∧ w.s.w = false ∧ w.wr = false ∧
    (run .icmp w (.flush 1 true :: List.replicate 10 .fire)).s.tx = 0 ∧
    (run .icmp w (.flush 1 true :: List.replicate 10 .fire)).task = some .send := by decide

/-! ## Concrete runs -/

/-- A UDP task sleeps, is woken, gets its datagram, then sleeps in `sendto` and is woken. -/
example : (run .udp (start false true) [.recv 100, .fire, .arrive 7 true, .fire, .wake true, .send true, .send false,
      .flush 1 true, .fire, .wake true]).rets = [.data 7, .sent, .sent] ∧
    (run .udp (start false true) [.recv 100]).task = some (.recv 100) := by decide

end Wolf.BsdD
