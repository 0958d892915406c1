import Verif.Ready.Model
/-!
# C84, stream part: readiness events of one TCP connection

Models the event bits of one connection from its SYN on: raised by `tcp_recv` (src/wolfip.c 4338), by the segment that completes the handshake
(5656, 5706–5720), by an accepted FIN (5824–5845), by `tcp_ack` (5214, 5291), by a grown window (5499), by a refused frame
(11400), by `recvfrom` when bytes remain (7049–7068); cleared and delivered by `handle_socket_callbacks` (11219–11262);
with `recvfrom` (7038–7082), `sendto` (6643–6716), `close` (7662–7720), `close_socket` (6135–6176), `wolfIP_sock_can_read`
(7844–7851) and `wolfIP_sock_can_write` (7881–7888). Which bytes are acceptable is `Verif.Tcp`; here a segment counts by the
number of bytes it makes readable, a send by the number of bytes that fit. Retransmission markers, which can raise WRITABLE once more
(5087, 5092, 6011, 6018), are left out.
-/
namespace Wolf.ReadyT

/-- `free`: the slot is empty (all zero: the code cannot tell it from CLOSED except by `proto`). -/
inductive St | synSent | synRcvd | est | closeWait | fw1 | fw2 | closing | timeWait | lastAck | closed | free
deriving DecidableEq, Repr

/-- Readable bytes, bytes sent or queued and not yet acknowledged, the READABLE, WRITABLE and CLOSED bits, callback registered,
final notification pending, and how many runs of its callback are active. -/
structure Tk where
  st : St
  q : Nat := 0
  tx : Nat := 0
  r : Bool := false
  w : Bool := false
  c : Bool := false
  cb : Bool := false
  last : Bool := false
  busy : Nat := 0
deriving DecidableEq, Repr

/-- `establish`: the segment completing the handshake, with `n` readable bytes, perhaps a FIN, and room in the transmit
buffer; `data n`: a segment that makes `n` more bytes readable; `fin`: a FIN accepted in order; `ack n fell space`: `n` bytes
are acknowledged, the number of bytes in flight fell, and there is room for a segment; `grow`: the peer's window grew;
`stuck`: the device was busy; `finAck`: the peer acknowledges our FIN; `abort`: the connection is torn down by a reset or
a timeout; `send k`: `k` bytes fit (none: refused). -/
inductive Op where
  | establish (n : Nat) (fin space : Bool)
  | data (n : Nat)
  | fin
  | ack (n : Nat) (fell space : Bool)
  | grow
  | stuck (space : Bool)
  | finAck
  | abort
  | register (on : Bool)
  | recv (len : Nat)
  | send (k : Nat)
  | close (room : Bool)
  | fire
  | fireEnd
deriving DecidableEq, Repr

inductive Out where
  | none
  | data (n : Nat)
  | again
  | err
  | ok
  | event (r w c : Bool)
deriving DecidableEq, Repr

/-- The states in which `tcp_recv` takes data and `recvfrom` gives it. 4308–4313, 7042–7061. -/
def St.open? : St → Bool
  | .synSent => false
  | .synRcvd => false
  | .est => true
  | .closeWait => true
  | .fw1 => true
  | .fw2 => true
  | .closing => false
  | .timeWait => false
  | .lastAck => false
  | .closed => false
  | .free => false

/-- The states in which segments and timers reach the connection: not a free slot, nor one reserved for its last event. 5410–5419. -/
def St.live : St → Bool
  | .closed => false
  | .free => false
  | .synSent => true
  | .synRcvd => true
  | .est => true
  | .closeWait => true
  | .fw1 => true
  | .fw2 => true
  | .closing => true
  | .timeWait => true
  | .lastAck => true

/-- `tcp_recv`, as far as events go. -/
def arrive (s : Tk) (n : Nat) : Tk :=
  if s.st.open? && decide (0 < n) then { s with q := s.q + n, r := true } else s

/-- The handshake completes. 5640–5660 (active), 5690–5730 (passive: data and FIN may ride along). -/
def establishOp (s : Tk) (n : Nat) (fin space : Bool) : Tk :=
  if s.st = .synSent then { s with st := .est, w := s.w || space }
  else if s.st = .synRcvd then
    let s1 := arrive { s with st := .est, w := s.w || space } n
    if fin then { s1 with st := .closeWait, r := true } else s1
  else s

/-- A FIN is accepted. 5824–5845. -/
def finOp (s : Tk) : Tk :=
  match s.st with
  | .est => { s with st := .closeWait, c := true, r := true }
  | .fw1 => { s with st := .closing, c := true, r := true }
  | .fw2 => { s with st := .timeWait, c := true, r := true }
  | .closeWait => { s with c := true, r := true }
  | .closing => { s with c := true, r := true }
  | .timeWait => { s with c := true, r := true }
  | .lastAck => { s with c := true, r := true }
  | .synSent => s
  | .synRcvd => s
  | .closed => s
  | .free => s

/-- `close_socket`: the slot is zeroed; with a callback, one last CLOSED event is left. 6135–6176. -/
def teardown (s : Tk) : Tk :=
  if s.cb then { st := .closed, c := true, cb := true, last := true, busy := s.busy } else { st := .free, busy := s.busy }

/-- The peer acknowledges our FIN. 5122–5150. -/
def finAckOp (s : Tk) : Tk :=
  match s.st with
  | .fw1 => { s with st := .fw2 }
  | .closing => { s with st := .timeWait }
  | .lastAck => if s.cb then { s with st := .closed, c := true } else teardown s
  | .synSent => s
  | .synRcvd => s
  | .est => s
  | .closeWait => s
  | .fw2 => s
  | .timeWait => s
  | .closed => s
  | .free => s

/-- `queue_pop` (653–673) and the event for what remains (7049–7068). -/
def pop (s : Tk) (len : Nat) : Tk × Out :=
  if s.q = 0 then (s, .again)
  else if min len s.q = 0 then (s, .data 0)
  else ({ s with q := s.q - min len s.q, r := s.r || decide (0 < s.q - min len s.q) }, .data (min len s.q))

/-- `recvfrom`. 7038–7082. -/
def recvOp (s : Tk) (len : Nat) : Tk × Out :=
  match s.st with
  | .closeWait => if s.q = 0 then (s, .data 0) else pop s len
  | .est => pop s len
  | .fw1 => pop s len
  | .fw2 => pop s len
  | .closed => if s.q = 0 then (s, .data 0) else ({ s with q := s.q - min len s.q }, .data (min len s.q))
  | .free => (s, .data 0)
  | .synSent => (s, .err)
  | .synRcvd => (s, .err)
  | .closing => (s, .err)
  | .timeWait => (s, .err)
  | .lastAck => (s, .err)

/-- `sendto`. 6643–6716. -/
def sendOp (s : Tk) (k : Nat) : Tk × Out :=
  if s.st = .est ∨ s.st = .closeWait then
    if k = 0 then (s, .again) else ({ s with tx := s.tx + k }, .data k)
  else (s, .err)

/-- `wolfIP_sock_close` on a connection. 7672–7720. -/
def closeOp (s : Tk) (room : Bool) : Tk × Out :=
  match s.st with
  | .est => if room then ({ s with st := .fw1, cb := false }, .again) else (s, .again)
  | .closeWait => if room then ({ s with st := .lastAck, cb := false }, .again) else (s, .again)
  | .closing => (s, .again)
  | .fw1 => (s, .again)
  | .fw2 => (s, .again)
  | .synSent => ({ st := .free, busy := s.busy }, .ok)
  | .synRcvd => ({ st := .free, busy := s.busy }, .ok)
  | .timeWait => ({ st := .free, busy := s.busy }, .ok)
  | .lastAck => ({ st := .free, busy := s.busy }, .ok)
  | .closed => ({ st := .free, busy := s.busy }, .ok)
  | .free => ({ st := .free, busy := s.busy }, .ok)

/-- The dispatch loop up to the callback. 11219–11252. -/
def fireOp (s : Tk) : Tk × Out :=
  if s.last then ({ st := .free, busy := s.busy }, if s.cb then .event s.r s.w s.c else .none)
  else if !s.cb || !(s.r || s.w || s.c) then (s, .none)
  else if decide (s.st = .closed) && !s.c then (s, .none)
  else ({ s with r := false, w := false, c := false, busy := s.busy + 1 }, .event s.r s.w s.c)

/-- After the callback. 11253–11262. -/
def fireEndOp (s : Tk) : Tk :=
  if s.busy = 0 then s
  else if s.st = .closed then { st := .free, busy := s.busy - 1 }
  else { s with busy := s.busy - 1 }

def step (s : Tk) : Op → Tk × Out
  | .establish n fin space => (establishOp s n fin space, .none)
  | .data n => (arrive s n, .none)
  | .fin => (finOp s, .none)
  | .ack n fell space => (if s.st.live then { s with tx := s.tx - n, w := s.w || (decide (0 < n) && (fell || space)) } else s, .none)
  | .grow => (if s.st.live then { s with w := true } else s, .none)
  | .stuck space => (if s.st.live then { s with w := s.w || space } else s, .none)
  | .finAck => (finAckOp s, .none)
  | .abort => (if s.st.live then teardown s else s, .none)
  | .register on => ({ s with cb := on }, .none)
  | .recv len => recvOp s len
  | .send k => sendOp s k
  | .close room => closeOp s room
  | .fire => fireOp s
  | .fireEnd => (fireEndOp s, .none)

def run (s : Tk) : List Op → Tk × List (Op × Out)
  | [] => (s, [])
  | op :: ops => ((run (step s op).1 ops).1, (op, (step s op).2) :: (run (step s op).1 ops).2)

/-- `wolfIP_sock_can_read`, TCP arm. -/
def canRead (s : Tk) : Bool := decide (0 < s.q) || decide (s.st = .closeWait) || decide (s.st = .closed) || decide (s.st = .free)

/-- `wolfIP_sock_can_write`, TCP arm; `space` is `tx_has_writable_space`. -/
def canWrite (s : Tk) (space : Bool) : Bool :=
  if s.st = .synSent then false else if s.st ≠ .est then true else space

/-- A connection that `accept` just returned (it inherits the listener's callback, and its events are clear), and one `connect` just
started. -/
def accepted (cb : Bool) : Tk := { st := .synRcvd, cb := cb }
def connecting (cb : Bool) : Tk := { st := .synSent, cb := cb }

/-! ## Specification -/

/-- Was a READABLE event delivered with no successful read of one byte or more since? One read per event is enough. -/
def mustReadStep (b : Bool) : Op × Out → Bool
  | (.recv _, .data n) => if n = 0 then b else false
  | (.fire, .event true _ _) => true
  | _ => b

def mustRead (h : List (Op × Out)) : Bool := h.foldl mustReadStep false

/-- Was a READABLE event delivered? -/
def toldStep (b : Bool) : Op × Out → Bool
  | (.fire, .event true _ _) => true
  | _ => b

def told (h : List (Op × Out)) : Bool := h.foldl toldStep false

/-- Was a send refused with "again", and neither a WRITABLE event delivered nor a send accepted since? -/
def waitsStep (b : Bool) : Op × Out → Bool
  | (.send _, .again) => true
  | (.send _, .data _) => false
  | (.fire, .event _ true _) => false
  | _ => b

def waits (h : List (Op × Out)) : Bool := h.foldl waitsStep false

/-- No send is refused when nothing is unacknowledged, and when everything is acknowledged there is room. -/
def EmptyHasRoom : Tk → List Op → Prop
  | _, [] => True
  | s, op :: ops => (s.tx = 0 → op ≠ .send 0) ∧ (∀ n f, op = .ack n f false → n < s.tx ∨ s.tx = 0 ∨ f = true) ∧ EmptyHasRoom (step s op).1 ops

/-! ## Reading -/

/-- Nothing is readable before the connection is open; what is readable is announced; and the end of the stream is. -/
def Inv (s : Tk) (b : Bool) : Prop :=
  (s.st = .synSent ∨ s.st = .synRcvd → s.q = 0) ∧ (s.st.open? = true → b = false → 0 < s.q → s.r = true) ∧ (s.last = true → s.st.open? = false ∧ s.st ≠ .synSent ∧ s.st ≠ .synRcvd)

theorem inv_dead (s : Tk) (b : Bool) (h1 : s.st.open? = false) (h2 : s.st ≠ .synSent) (h3 : s.st ≠ .synRcvd) : Inv s b :=
  ⟨fun h => (h.elim (fun h => absurd h h2) (fun h => absurd h h3)), (by intro c; rw [h1] at c; cases c), fun _ => ⟨h1, h2, h3⟩⟩

theorem inv_r (s : Tk) (b : Bool) (h1 : s.st.open? = true) (h2 : s.r = true) (h3 : s.last = false) : Inv s b := by
  refine ⟨?_, fun _ _ _ => h2, (by intro c; rw [h3] at c; cases c)⟩
  intro h
  rcases h with h | h <;> (rw [h] at h1; cases h1)

theorem inv_arrive (s : Tk) (b : Bool) (n : Nat) (h : Inv s b) : Inv (arrive s n) b := by
  unfold arrive
  by_cases hc : (s.st.open? && decide (0 < n)) = true
  · rw [if_pos hc]
    have ho : s.st.open? = true := by cases hx : s.st.open? <;> simp_all
    refine inv_r _ _ ho rfl ?_
    cases hl : s.last with
    | false => rfl
    | true => have := (h.2.2 hl).1; rw [ho] at this; cases this
  · rw [if_neg hc]; exact h

theorem last_open (s : Tk) (b : Bool) (h : Inv s b) (ho : s.st.open? = true) : s.last = false := by
  cases hl : s.last with
  | false => rfl
  | true => have := (h.2.2 hl).1; rw [ho] at this; cases this

theorem inv_pop (s : Tk) (b : Bool) (len : Nat) (ho : s.st.open? = true) (h : Inv s b) :
    Inv (pop s len).1 (mustReadStep b (.recv len, (pop s len).2)) := by
  unfold pop
  by_cases h0 : s.q = 0
  · rw [if_pos h0]; exact h
  · rw [if_neg h0]
    by_cases h1 : min len s.q = 0
    · rw [if_pos h1]; exact h
    · rw [if_neg h1]
      refine ⟨?_, ?_, ?_⟩
      · intro hs
        rcases hs with hs | hs <;> (dsimp only at hs; rw [hs] at ho; cases ho)
      · intro _ _ hq
        dsimp only at hq ⊢
        rw [decide_eq_true hq]
        cases s.r <;> rfl
      · intro hl
        dsimp only at hl
        rw [last_open s b h ho] at hl; cases hl

theorem inv_step (s : Tk) (b : Bool) (op : Op) (h : Inv s b) : Inv (step s op).1 (mustReadStep b (op, (step s op).2)) := by
  cases op with
  | establish n fin space =>
    show Inv (establishOp s n fin space) b
    unfold establishOp
    by_cases h1 : s.st = .synSent
    · rw [if_pos h1]
      refine ⟨?_, ?_, ?_⟩
      · intro c; rcases c with c | c <;> cases c
      · intro _ _ hq; have := h.1 (Or.inl h1); dsimp only at hq; omega
      · intro hl; exact absurd h1 (h.2.2 hl).2.1
    · rw [if_neg h1]
      by_cases h2 : s.st = .synRcvd
      · rw [if_pos h2]
        have hl : s.last = false := by
          cases hl : s.last with
          | false => rfl
          | true => exact absurd h2 (h.2.2 hl).2.2
        have hi : Inv { s with st := .est, w := s.w || space } b := by
          refine ⟨?_, ?_, ?_⟩
          · intro c; rcases c with c | c <;> cases c
          · intro _ _ hq; have := h.1 (Or.inr h2); dsimp only at hq; omega
          · intro hl'; dsimp only at hl'; rw [hl] at hl'; cases hl'
        have ha := inv_arrive _ b n hi
        have hal : (arrive { s with st := .est, w := s.w || space } n).last = false := by
          unfold arrive; split
          · exact hl
          · exact hl
        cases fin with
        | false => exact ha
        | true => exact inv_r _ _ rfl rfl hal
      · rw [if_neg h2]; exact h
  | data n => exact inv_arrive s b n h
  | fin =>
    show Inv (finOp s) b
    unfold finOp
    cases hs : s.st with
    | est => exact inv_r _ _ rfl rfl (last_open s b h (by rw [hs]; rfl))
    | closeWait => exact inv_r _ _ rfl rfl (last_open s b h (by rw [hs]; rfl))
    | fw1 => exact inv_dead _ _ rfl (by intro c; cases c) (by intro c; cases c)
    | fw2 => exact inv_dead _ _ rfl (by intro c; cases c) (by intro c; cases c)
    | closing => exact inv_dead _ _ rfl (by intro c; cases c) (by intro c; cases c)
    | timeWait => exact inv_dead _ _ rfl (by intro c; cases c) (by intro c; cases c)
    | lastAck => exact inv_dead _ _ rfl (by intro c; cases c) (by intro c; cases c)
    | synSent => exact h
    | synRcvd => exact h
    | closed => exact h
    | free => exact h
  | ack n fell space =>
    simp only [step]
    split
    · exact h
    · exact h
  | grow =>
    simp only [step]
    split
    · exact h
    · exact h
  | stuck space =>
    simp only [step]
    split
    · exact h
    · exact h
  | finAck =>
    show Inv (finAckOp s) b
    unfold finAckOp
    cases hs : s.st with
    | fw1 =>
      have ho : s.st.open? = true := by rw [hs]; rfl
      refine ⟨?_, fun _ => h.2.1 ho, ?_⟩
      · intro c; rcases c with c | c <;> cases c
      · intro hl; dsimp only at hl; rw [last_open s b h ho] at hl; cases hl
    | closing => exact inv_dead _ _ rfl (by intro c; cases c) (by intro c; cases c)
    | lastAck =>
      dsimp only
      by_cases hc : s.cb = true
      · rw [if_pos hc]; exact inv_dead _ _ rfl (by intro c; cases c) (by intro c; cases c)
      · rw [if_neg hc]; unfold teardown; rw [if_neg hc]; exact inv_dead _ _ rfl (by intro c; cases c) (by intro c; cases c)
    | synSent => exact h
    | synRcvd => exact h
    | est => exact h
    | closeWait => exact h
    | fw2 => exact h
    | timeWait => exact h
    | closed => exact h
    | free => exact h
  | abort =>
    simp only [step]
    split
    · unfold teardown
      split <;> exact inv_dead _ _ rfl (by intro c; cases c) (by intro c; cases c)
    · exact h
  | register on => exact h
  | recv len =>
    show Inv (recvOp s len).1 (mustReadStep b (.recv len, (recvOp s len).2))
    unfold recvOp
    cases hs : s.st with
    | closeWait =>
      dsimp only
      by_cases h0 : s.q = 0
      · rw [if_pos h0]; exact h
      · rw [if_neg h0]; exact inv_pop s b len (by rw [hs]; rfl) h
    | est => exact inv_pop s b len (by rw [hs]; rfl) h
    | fw1 => exact inv_pop s b len (by rw [hs]; rfl) h
    | fw2 => exact inv_pop s b len (by rw [hs]; rfl) h
    | closed =>
      dsimp only
      by_cases h0 : s.q = 0
      · rw [if_pos h0]; exact h
      · rw [if_neg h0]; exact inv_dead _ _ rfl (by intro c; cases c) (by intro c; cases c)
    | synSent => exact h
    | synRcvd => exact h
    | closing => exact h
    | timeWait => exact h
    | lastAck => exact h
    | free => exact h
  | send k =>
    show Inv (sendOp s k).1 (mustReadStep b (.send k, (sendOp s k).2))
    unfold sendOp
    split
    · split <;> exact h
    · exact h
  | close room =>
    show Inv (closeOp s room).1 b
    unfold closeOp
    cases hs : s.st with
    | est =>
      dsimp only
      have ho : s.st.open? = true := by rw [hs]; rfl
      cases room with
      | false => exact h
      | true =>
        refine ⟨?_, fun _ => h.2.1 ho, ?_⟩
        · intro c; rcases c with c | c <;> cases c
        · intro hl; exact absurd ((show s.last = true from hl).symm.trans (last_open s b h ho)) (by intro c; cases c)
    | closeWait =>
      cases room with
      | false => exact h
      | true => exact inv_dead _ _ rfl (by intro c; cases c) (by intro c; cases c)
    | closing => exact h
    | fw1 => exact h
    | fw2 => exact h
    | synSent => exact inv_dead _ _ rfl (by intro c; cases c) (by intro c; cases c)
    | synRcvd => exact inv_dead _ _ rfl (by intro c; cases c) (by intro c; cases c)
    | timeWait => exact inv_dead _ _ rfl (by intro c; cases c) (by intro c; cases c)
    | lastAck => exact inv_dead _ _ rfl (by intro c; cases c) (by intro c; cases c)
    | closed => exact inv_dead _ _ rfl (by intro c; cases c) (by intro c; cases c)
    | free => exact inv_dead _ _ rfl (by intro c; cases c) (by intro c; cases c)
  | fire =>
    show Inv (fireOp s).1 (mustReadStep b (.fire, (fireOp s).2))
    unfold fireOp
    by_cases hl : s.last = true
    · rw [if_pos hl]; exact inv_dead _ _ rfl (by intro c; cases c) (by intro c; cases c)
    · rw [if_neg hl]
      split
      · exact h
      · split
        · exact h
        · refine ⟨h.1, ?_, fun hl' => absurd hl' hl⟩
          intro ho hb hq
          exfalso
          cases hr : s.r with
          | true => rw [hr] at hb; cases hb
          | false =>
            rw [hr] at hb
            have := h.2.1 ho hb hq
            rw [hr] at this; cases this
  | fireEnd =>
    show Inv (fireEndOp s) b
    unfold fireEndOp
    split
    · exact h
    · split
      · exact inv_dead _ _ rfl (by intro c; cases c) (by intro c; cases c)
      · exact h

theorem inv_run (ops : List Op) : ∀ (s : Tk) (b : Bool), Inv s b → Inv (run s ops).1 ((run s ops).2.foldl mustReadStep b) := by
  induction ops with
  | nil => intro s b h; exact h
  | cons op ops ih => intro s b h; exact ih _ _ (inv_step s b op h)

/-- **No byte waits unannounced.** Whatever happens to a connection — segments, acknowledgements, timeouts, calls, polls, callback
runs, in any order — if every READABLE event delivered was followed by one read of at least one byte, bytes that can be read have
READABLE pending. -/
theorem tcp_readable_announced (s0 : Tk) (h0 : (∃ cb, s0 = accepted cb) ∨ ∃ cb, s0 = connecting cb) (ops : List Op)
    (h : mustRead (run s0 ops).2 = false) (ho : (run s0 ops).1.st.open? = true) (hq : 0 < (run s0 ops).1.q) : (run s0 ops).1.r = true := by
  refine (inv_run ops s0 false ?_).2.1 ho h hq
  rcases h0 with ⟨cb, rfl⟩ | ⟨cb, rfl⟩
  · exact ⟨fun _ => rfl, (by intro c; cases c), (by intro c; cases c)⟩
  · exact ⟨fun _ => rfl, (by intro c; cases c), (by intro c; cases c)⟩

/-- The end of the stream: from the moment the peer's FIN is accepted on an open connection, the application has been told READABLE since,
or will be. -/
theorem eof_step (s : Tk) (b : Bool) (op : Op) (h : s.st = .closeWait → s.r = true ∨ b = true) (hl : s.last = true → s.st = .closed) :
    ((step s op).1.st = .closeWait → (step s op).1.r = true ∨ toldStep b (op, (step s op).2) = true) ∧
    ((step s op).1.last = true → (step s op).1.st = .closed) := by
  obtain ⟨st, q, tx, r, w, c, cb, last, busy⟩ := s
  dsimp only at h hl
  cases op with
  | establish n fin space =>
    cases st <;> cases fin <;> simp_all [step, establishOp, arrive, toldStep] <;> (repeat' split) <;> simp_all
  | data n =>
    simp only [step, arrive]
    split
    · exact ⟨fun _ => Or.inl rfl, hl⟩
    · exact ⟨h, hl⟩
  | fin => cases st <;> simp_all [step, finOp, toldStep]
  | ack n fell space =>
    simp only [step]
    split <;> exact ⟨h, hl⟩
  | grow =>
    simp only [step]
    split <;> exact ⟨h, hl⟩
  | stuck space =>
    simp only [step]
    split <;> exact ⟨h, hl⟩
  | finAck => cases st <;> cases cb <;> simp_all [step, finAckOp, teardown, toldStep]
  | abort =>
    simp only [step]
    split
    · cases cb <;> simp [teardown]
    · exact ⟨h, hl⟩
  | register on => exact ⟨h, hl⟩
  | recv len =>
    simp only [step, recvOp, pop]
    cases st <;> dsimp only <;> (repeat' split) <;> simp_all [toldStep] <;> (rcases h with h | h <;> simp [h])
  | send k =>
    simp only [step, sendOp]
    (repeat' split) <;> exact ⟨h, hl⟩
  | close room => cases st <;> cases room <;> simp_all [step, closeOp, toldStep]
  | fire =>
    simp only [step, fireOp]
    cases hl' : last with
    | true => exact ⟨(by intro e; cases e), (by intro e; cases e)⟩
    | false =>
      rw [if_neg (by intro e; cases e)]
      by_cases h1 : (!cb || !(r || w || c)) = true
      · rw [if_pos h1]; exact ⟨h, (by intro e; cases e)⟩
      · rw [if_neg h1]
        by_cases h2 : (decide (st = .closed) && !c) = true
        · rw [if_pos h2]; exact ⟨h, (by intro e; cases e)⟩
        · rw [if_neg h2]
          refine ⟨fun hs => Or.inr ?_, (by intro e; cases e)⟩
          cases hr : r with
          | true => rfl
          | false => exact (h hs).elim (fun e => by rw [hr] at e; cases e) id
  | fireEnd =>
    simp only [step, fireEndOp]
    (repeat' split)
    · exact ⟨h, hl⟩
    · exact ⟨(by intro e; cases e), (by intro e; cases e)⟩
    · exact ⟨h, hl⟩

theorem eof_run (ops : List Op) : ∀ (s : Tk) (b : Bool), (s.st = .closeWait → s.r = true ∨ b = true) → (s.last = true → s.st = .closed) →
    ((run s ops).1.st = .closeWait → (run s ops).1.r = true ∨ (run s ops).2.foldl toldStep b = true) ∧ ((run s ops).1.last = true → (run s ops).1.st = .closed) := by
  induction ops with
  | nil => intro s b h hl; exact ⟨h, hl⟩
  | cons op ops ih =>
    intro s b h hl
    have := eof_step s b op h hl
    exact ih _ _ this.1 this.2

/-- **The end of the stream is announced.** Take any moment at which the peer has not yet finished, and any continuation: if the
connection is then half-closed by the peer, READABLE is pending or was delivered since. -/
theorem tcp_eof_announced (s0 : Tk) (h0 : (∃ cb, s0 = accepted cb) ∨ ∃ cb, s0 = connecting cb) (pre ops : List Op) (s : Tk) (hp : s = (run s0 pre).1)
    (hs : s.st ≠ .closeWait) (he : (run s ops).1.st = .closeWait) : (run s ops).1.r = true ∨ told (run s ops).2 = true := by
  have h1 : (s0.st = .closeWait → s0.r = true ∨ false = true) ∧ (s0.last = true → s0.st = .closed) := by
    rcases h0 with ⟨cb, rfl⟩ | ⟨cb, rfl⟩ <;> exact ⟨(by intro c; cases c), (by intro c; cases c)⟩
  have h2 := (eof_run pre s0 false h1.1 h1.2).2
  rw [← hp] at h2
  exact (eof_run ops s false (fun h => absurd h hs) h2).1 he

/-! ## Delivery -/

/-- **A pending event is delivered** at the next dispatch, with exactly the pending bits, and is then no longer pending; without a
callback it stays. -/
theorem tcp_event_delivered (s : Tk) (hl : s.last = false) (hs : s.st ≠ .closed) :
    (s.cb = true → (s.r = true ∨ s.w = true ∨ s.c = true) →
      (step s .fire).2 = .event s.r s.w s.c ∧ (step (step s .fire).1 .fire).2 = .none) ∧
    (s.cb = false → step s .fire = (s, .none)) := by
  constructor
  · intro hc he
    have hev : (s.r || s.w || s.c) = true := by
      rcases he with h | h | h <;> rw [h] <;> simp
    have hf : step s .fire = ({ s with r := false, w := false, c := false, busy := s.busy + 1 }, .event s.r s.w s.c) := by
      simp only [step, fireOp]
      rw [if_neg (by rw [hl]; intro c; cases c), if_neg (by rw [hc, hev]; intro c; cases c), if_neg (by rw [decide_eq_false hs]; intro c; cases c)]
    rw [hf]
    refine ⟨rfl, ?_⟩
    simp only [step, fireOp]
    rw [if_neg (by rw [hl]; intro c; cases c), if_pos (by simp)]
  · intro hc
    simp only [step, fireOp]
    rw [if_neg (by rw [hl]; intro c; cases c), if_pos (by rw [hc]; rfl)]

/-- **Teardown is told once.** A connection with a callback that a reset or a timeout ends gets exactly one more event, CLOSED alone, at the next
dispatch, and the slot is then free; without a callback the slot is free at once. -/
theorem tcp_abort_told (s : Tk) (hs : s.st.live = true) :
    (s.cb = true → (step (step s .abort).1 .fire).2 = .event false false true ∧ (step (step s .abort).1 .fire).1 = { st := .free, busy := s.busy } ∧
      (step (step (step s .abort).1 .fire).1 .fire).2 = .none) ∧
    (s.cb = false → (step s .abort).1 = { st := .free, busy := s.busy }) := by
  constructor
  · intro h; simp [step, teardown, h, hs, fireOp]
  · intro h; simp [step, teardown, h, hs]

/-- **So is the end of a close.** A connection in LAST_ACK whose owner armed a callback gets, when the peer acknowledges the FIN, one event
with CLOSED, and the slot is free after the callback. -/
theorem tcp_last_ack_told (s : Tk) (hs : s.st = .lastAck) (hl : s.last = false) (hc : s.cb = true) :
    (step (step s .finAck).1 .fire).2 = .event s.r s.w true ∧
    (step (step (step s .finAck).1 .fire).1 .fireEnd).1 = { st := .free, busy := s.busy } := by
  obtain ⟨st, q, tx, r, w, c, cb, last, busy⟩ := s
  dsimp only at hs hl hc
  subst hs hl hc
  simp [step, finAckOp, fireOp, fireEndOp]

/-- `wolfIP_sock_can_read` says yes exactly when a read of one byte would not say "again" — on an open connection and on one that has been torn
down. -/
theorem tcp_can_read_exact (s : Tk) (len : Nat) (hs : s.st.open? = true ∨ s.st = .closed ∨ s.st = .free) : canRead s = true ↔ (step s (.recv len)).2 ≠ .again := by
  obtain ⟨st, q, tx, r, w, c, cb, last, busy⟩ := s
  dsimp only at hs
  simp only [step, recvOp, pop, canRead]
  cases st <;> simp_all [St.open?] <;> (repeat' split) <;> simp_all <;> omega

/-- What a positive answer promises: bytes, or the end of the stream. -/
theorem tcp_read_result (s : Tk) (len : Nat) (hs : s.st.open? = true ∨ s.st = .closed) (hc : canRead s = true) :
    (step s (.recv len)).2 = .data (min len s.q) := by
  obtain ⟨st, q, tx, r, w, c, cb, last, busy⟩ := s
  dsimp only at hs
  simp only [step, recvOp, pop, canRead] at hc ⊢
  cases st <;> simp_all [St.open?] <;> (repeat' split) <;> simp_all <;> omega

/-! ## Writing -/

theorem waits_step (s : Tk) (b : Bool) (op : Op) (h : b = true → s.tx ≠ 0 ∨ s.w = true ∨ s.last = true ∨ s.st = .free) (hl : s.last = true → s.st = .closed)
    (h1 : s.tx = 0 → op ≠ .send 0) (h2 : ∀ n f, op = .ack n f false → n < s.tx ∨ s.tx = 0 ∨ f = true) :
    (waitsStep b (op, (step s op).2) = true → (step s op).1.tx ≠ 0 ∨ (step s op).1.w = true ∨ (step s op).1.last = true ∨ (step s op).1.st = .free) ∧
    ((step s op).1.last = true → (step s op).1.st = .closed) := by
  obtain ⟨st, q, tx, r, w, c, cb, last, busy⟩ := s
  dsimp only at h hl h1 h2
  cases op with
  | establish n fin space =>
    cases st <;> cases fin <;> simp_all [step, establishOp, arrive, waitsStep] <;> (repeat' split) <;> (try simp_all) <;> (intro hb; rcases h hb with h | h <;> simp_all)
  | data n =>
    simp only [step, arrive]
    split
    · exact ⟨h, hl⟩
    · exact ⟨h, hl⟩
  | fin =>
    cases st <;> simp_all [step, finOp, waitsStep]
  | ack n fell space =>
    simp only [step]
    split
    case isFalse => exact ⟨h, hl⟩
    refine ⟨fun hb => ?_, hl⟩
    dsimp only
    rcases h hb with ht | hw | h3 | h4
    · by_cases hn : tx - n = 0
      · right; left
        have : (fell || space) = true := by
          cases space with
          | true => cases fell <;> rfl
          | false => rcases h2 n fell rfl with h | h | h
                     · omega
                     · omega
                     · rw [h]; rfl
        rw [this, decide_eq_true (show 0 < n by omega)]
        cases w <;> rfl
      · exact Or.inl hn
    · right; left; rw [hw]; rfl
    · exact Or.inr (Or.inr (Or.inl h3))
    · exact Or.inr (Or.inr (Or.inr h4))
  | grow =>
    simp only [step]
    split
    · exact ⟨fun _ => Or.inr (Or.inl rfl), hl⟩
    · exact ⟨h, hl⟩
  | stuck space =>
    simp only [step]
    split
    case isFalse => exact ⟨h, hl⟩
    refine ⟨fun hb => ?_, hl⟩
    dsimp only
    rcases h hb with ht | hw | h3
    · exact Or.inl ht
    · right; left; rw [hw]; rfl
    · exact Or.inr (Or.inr h3)
  | finAck => cases st <;> cases cb <;> simp_all [step, finAckOp, teardown, waitsStep]
  | abort =>
    simp only [step]
    split
    · cases cb <;> simp [teardown]
    · exact ⟨h, hl⟩
  | register on => exact ⟨h, hl⟩
  | recv len =>
    simp only [step, recvOp, pop]
    cases st <;> dsimp only <;> (repeat' split) <;> first | exact ⟨h, hl⟩ | simp_all [waitsStep]
  | send k =>
    simp only [step, sendOp]
    by_cases hc : st = .est ∨ st = .closeWait
    · rw [if_pos hc]
      by_cases hk : k = 0
      · rw [if_pos hk]
        refine ⟨fun _ => Or.inl (fun e => ?_), hl⟩
        dsimp only at e
        exact h1 e (by rw [hk])
      · rw [if_neg hk]; exact ⟨(by intro e; cases e), hl⟩
    · rw [if_neg hc]; exact ⟨h, hl⟩
  | close room => cases st <;> cases room <;> simp_all [step, closeOp, waitsStep]
  | fire =>
    simp only [step, fireOp]
    cases hl' : last with
    | true => exact ⟨fun _ => Or.inr (Or.inr (Or.inr rfl)), (by intro e; cases e)⟩
    | false =>
      rw [if_neg (by intro e; cases e)]
      rw [hl'] at h
      by_cases h1 : (!cb || !(r || w || c)) = true
      · rw [if_pos h1]; exact ⟨h, (by intro e; cases e)⟩
      · rw [if_neg h1]
        by_cases h2 : (decide (st = .closed) && !c) = true
        · rw [if_pos h2]; exact ⟨h, (by intro e; cases e)⟩
        · rw [if_neg h2]
          refine ⟨?_, (by intro e; cases e)⟩
          cases hw : w with
          | true => intro e; cases hr : r <;> cases hcc : c <;> (rw [hr, hcc] at e; cases e)
          | false =>
            intro hb
            have hb' : b = true := by cases hr : r <;> cases hcc : c <;> (rw [hr, hcc] at hb; exact hb)
            rcases h hb' with h | h | h | h
            · exact Or.inl h
            · rw [hw] at h; cases h
            · cases h
            · exact Or.inr (Or.inr (Or.inr h))
  | fireEnd =>
    simp only [step, fireEndOp]
    (repeat' split)
    · exact ⟨h, hl⟩
    · exact ⟨fun _ => Or.inr (Or.inr (Or.inr rfl)), (by intro e; cases e)⟩
    · exact ⟨h, hl⟩

theorem waits_run (ops : List Op) : ∀ (s : Tk) (b : Bool), (b = true → s.tx ≠ 0 ∨ s.w = true ∨ s.last = true ∨ s.st = .free) → (s.last = true → s.st = .closed) → EmptyHasRoom s ops →
    ((run s ops).2.foldl waitsStep b = true → (run s ops).1.tx ≠ 0 ∨ (run s ops).1.w = true ∨ (run s ops).1.last = true ∨ (run s ops).1.st = .free) := by
  induction ops with
  | nil => intro s b h _ _; exact h
  | cons op ops ih =>
    intro s b h hl he
    have := waits_step s b op h hl he.1 he.2.1
    exact ih _ _ this.1 this.2 he.2.2

/-- **A blocked sender is woken.** If a send was refused with "again" and neither a WRITABLE event was delivered nor a send accepted
since, then unacknowledged bytes remain (whose acknowledgement will announce room, `tcp_ack_announces`), or WRITABLE is pending, or the
connection is over (and said so, `tcp_abort_told`). -/
theorem tcp_writable_announced (s0 : Tk) (h0 : (∃ cb, s0 = accepted cb) ∨ ∃ cb, s0 = connecting cb) (ops : List Op) (he : EmptyHasRoom s0 ops)
    (h : waits (run s0 ops).2 = true) :
    (run s0 ops).1.tx ≠ 0 ∨ (run s0 ops).1.w = true ∨ (run s0 ops).1.last = true ∨ (run s0 ops).1.st = .free := by
  refine waits_run ops s0 false (by intro c; cases c) ?_ he h
  rcases h0 with ⟨cb, rfl⟩ | ⟨cb, rfl⟩ <;> (intro c; cases c)

/-- An acknowledgement of new data that lowers the bytes in flight, or leaves room, and a grown window raise WRITABLE. -/
theorem tcp_ack_announces (s : Tk) (hs : s.st.live = true) (n : Nat) (fell space : Bool) (hn : 0 < n) (h : fell = true ∨ space = true) :
    (step s (.ack n fell space)).1.w = true ∧ (step s .grow).1.w = true := by
  refine ⟨?_, by simp only [step]; rw [if_pos hs]⟩
  simp only [step]
  rw [if_pos hs]
  dsimp only
  rw [decide_eq_true hn]
  rcases h with h | h <;> rw [h] <;> cases s.w <;> cases fell <;> rfl

/-! ## Concrete cases and limits -/

/-- An accepted connection: data rides on the handshake; one event, two partial reads, each announced; then the end. -/
theorem tcp_ready_example :
    (run (accepted true) [.establish 10 false true, .fire, .recv 4, .fireEnd, .fire, .recv 100, .fireEnd, .fin, .fire, .recv 100, .fireEnd, .fire]).2.map Prod.snd =
      [.none, .event true true false, .data 4, .none, .event true false false, .data 6, .none, .none, .event true false true, .data 0, .none, .none] := by decide

theorem tcp_ready_hyps : mustRead (run (accepted true) [.establish 10 false true, .fire, .recv 4]).2 = false ∧
    (run (accepted true) [.establish 10 false true, .fire, .recv 4]).1.st.open? = true ∧ 0 < (run (accepted true) [.establish 10 false true, .fire, .recv 4]).1.q := by decide

theorem tcp_write_example : EmptyHasRoom (connecting true) [.establish 0 false true, .send 500, .send 0, .fire, .send 0, .ack 500 true true, .fire] ∧
    (run (connecting true) [.establish 0 false true, .send 500, .send 0, .fire, .send 0, .ack 500 true true, .fire]).2.map Prod.snd =
      [.none, .data 500, .again, .event false true false, .again, .none, .event false true false] := by
  refine ⟨?_, by decide⟩
  simp [EmptyHasRoom, step, establishOp, connecting, sendOp, fireOp]

/-- **Limit.** When the peer's FIN arrives after we closed, bytes that arrived before it become unreadable: `can_read` says yes, the read
fails. -/
theorem unread_lost : let s := (run (connecting true) [.establish 0 false true, .close true, .finAck, .data 7, .fin]).1
    s.q = 7 ∧ canRead s = true ∧ (step s (.recv 100)).2 = .err := by decide

/-- **Limit.** In the half-closed state `can_write` says yes although a send would be refused. -/
theorem can_write_false : let s := (run (accepted true) [.establish 0 true true]).1
    canWrite s false = true ∧ (step s (.send 0)).2 = .again := by decide

/-- **Limit.** The last bytes of a connection that ended in LAST_ACK with a callback armed again: a partial read is not announced
any more, and the rest is gone after the callback. -/
theorem closed_rest_lost :
    (run (accepted true) [.establish 5 true true, .close true, .register true, .finAck, .fire, .recv 2, .fireEnd, .fire, .recv 2]).2.map Prod.snd =
      [.none, .again, .none, .none, .event true true true, .data 2, .none, .none, .data 0] := by decide

end Wolf.ReadyT
