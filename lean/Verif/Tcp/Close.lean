import Verif.Tcp.Snd

/-!
# C75: closing a connection with two wolfIP ends

The control part of `tcp_input`, `tcp_ack` and `wolfIP_sock_close` for segments without payload, at
two ends joined by a network that loses nothing.  Both applications close; the property wanted is
that both connections end.  It does not hold: a FIN does not advance SND.NXT
(`tcp_send_finack`, src/wolfip.c 3791-3797; the only assignments to `tcp.seq` are at 4027, 5632, 5649,
5703, 6478, 6546, 6595 and 6701), so the last ACK of the closing handshake carries the sequence number
of the FIN, one below what the other end expects, and is refused there by the acceptability test.

Simplification: no timers here (`Verif/Tcp/SndLive` has them); segments carry no payload, SYN or RST,
pass PAWS, and are transmitted as soon as queued.
-/
namespace Wolf.Tcp.Close
open Wolf.Tcp Wolf.Tcp.Snd

/-- One end: `tcp.seq`, `tcp.ack`, `tcp.last` and the free receive buffer. -/
structure End where
  st : Snd.State
  nxt : Nat
  ack : Nat
  last : Nat := 0
  wnd : Nat
deriving DecidableEq

/-- An empty segment. -/
structure Pkt where
  seq : Nat
  ack : Nat
  fin : Bool := false
deriving DecidableEq

/-- `tcp_send_ack` / `tcp_send_finack`: numbers of the segment, src/wolfip.c 3607-3637, 3791-3797. -/
def ctl (e : End) (fin : Bool) : Pkt := ⟨e.nxt, e.ack, fin⟩

/-- `wolfIP_sock_close`, src/wolfip.c 7671-7700. -/
def close (e : End) : End × List Pkt :=
  match e.st with
  | .established => ({ e with st := .finWait1, last := e.nxt }, [ctl e true])
  | .closeWait => ({ e with st := .lastAck, last := e.nxt }, [ctl e true])
  | _ => (e, [])

/-- The state changes of `tcp_ack`, src/wolfip.c 5123-5149. -/
def ackSt (e : End) (ack : Nat) : Snd.State :=
  match e.st with
  | .lastAck => if seqLeq (seqInc e.last 1) ack then .closed else .lastAck
  | .finWait1 => if seqLeq (seqInc e.last 1) ack then .finWait2 else .finWait1
  | .closing => if seqLeq (seqInc e.last 1) ack then .timeWait else .closing
  | s => s

/-- State after a FIN in order, src/wolfip.c 5828-5840. -/
def finSt : Snd.State → Snd.State
  | .established => .closeWait
  | .finWait1 => .closing
  | .finWait2 => .timeWait
  | s => s

/-- FIN handling, src/wolfip.c 5817-5848 (no payload). -/
def finStep (e : End) (p : Pkt) : End × List Pkt :=
  if !p.fin then (e, [])
  else if e.ack ≠ p.seq then (e, [ctl e false])
  else
    let e' := { e with st := finSt e.st, ack := seqInc p.seq 1 }
    (e', [ctl e' false])

/-- `tcp_input` for such a segment, src/wolfip.c 5730-5848. -/
def input (e : End) (p : Pkt) : End × List Pkt :=
  match e.st with
  | .timeWait => (e, [ctl e false])
  | .lastAck =>
      if !acceptable e.ack e.wnd { seq := p.seq, data := [], fin := p.fin } then (e, [ctl e false])
      else ({ e with st := ackSt e p.ack }, [])
  | .established | .closeWait | .finWait1 | .finWait2 | .closing =>
      if !acceptable e.ack e.wnd { seq := p.seq, data := [], fin := p.fin } then (e, [ctl e false])
      else finStep { e with st := ackSt e p.ack } p
  | _ => (e, [])

/-- Two ends and the segments under way in each direction, oldest first. -/
structure Net where
  a : End
  b : End
  ab : List Pkt
  ba : List Pkt
deriving DecidableEq

inductive Step where
  | closeA | closeB | toA | toB
deriving DecidableEq

def step (n : Net) : Step → Net
  | .closeA => { n with a := (close n.a).1, ab := n.ab ++ (close n.a).2 }
  | .closeB => { n with b := (close n.b).1, ba := n.ba ++ (close n.b).2 }
  | .toB => match n.ab with
      | [] => n
      | p :: ps => { n with b := (input n.b p).1, ab := ps, ba := n.ba ++ (input n.b p).2 }
  | .toA => match n.ba with
      | [] => n
      | p :: ps => { n with a := (input n.a p).1, ba := ps, ab := n.ab ++ (input n.a p).2 }

def run (n : Net) (ss : List Step) : Net := ss.foldl step n

/-- Both ends established and in step, nothing under way; A has sent `x`, B `y` bytes from ISN 0
(any numbers), with any receive windows. -/
def synced (x y wa wb : Nat) : Net where
  a := { st := .established, nxt := sq 0 x, ack := sq 0 y, wnd := wa }
  b := { st := .established, nxt := sq 0 y, ack := sq 0 x, wnd := wb }
  ab := []
  ba := []

/-- The segment expected next is acceptable. -/
theorem acc_next (r w : Nat) (hw : 0 < w) (hw2 : w < 2147483648) (fin : Bool) :
    acceptable (sq 0 r) w { seq := sq 0 r, data := [], fin := fin } = true := by
  have h1 : seqLeq (sq 0 r) (sq 0 r) = true := (seq_order_sound 0 r r (by omega) (by omega)).2.1.2 (by omega)
  have h2 : seqLt (sq 0 r) (seqInc (sq 0 r) w) = true := by
    rw [seq_inc_sound 0 r w (by omega)]
    exact (seq_order_sound 0 r (r + w) (by omega) (by omega)).1.2 (by omega)
  unfold acceptable
  cases fin
  · simp only [List.length_nil, Bool.false_eq_true, if_false]
    rw [if_pos trivial, if_neg (by omega), h1, h2]; rfl
  · simp only [List.length_nil, Bool.false_eq_true, if_false, if_true]
    rw [if_neg (by omega), if_neg (by omega), h1, h2]; rfl

/-- An empty segment one below the expected number is refused, whatever the window. -/
theorem old_refused (r w : Nat) (hw2 : w < 2147483648) :
    acceptable (sq 0 (r + 1)) w { seq := sq 0 r, data := [] } = false := by
  have h1 : seqLeq (sq 0 (r + 1)) (sq 0 r) = false := by
    have := (seq_order_sound 0 (r + 1) r (by omega) (by omega)).2.1
    cases h : seqLeq (sq 0 (r + 1)) (sq 0 r) with
    | false => rfl
    | true => have := this.1 h; omega
  have h3 : (sq 0 r == sq 0 (r + 1)) = false := by
    have := (seq_order_sound 0 r (r + 1) (by omega) (by omega)).2.2
    rw [beq_eq_false_iff_ne]
    intro e
    have := this.1 e
    omega
  unfold acceptable
  simp only [List.length_nil, Bool.false_eq_true, if_false, h1, h3, Bool.false_and, if_true, ite_self]

/-- The passive closer waits in LAST_ACK, the active one sits in TIME_WAIT, and every segment under
way towards the passive closer carries the number of A's FIN. -/
structure Stuck (x : Nat) (n : Net) : Prop where
  ast : n.a.st = .timeWait
  anxt : n.a.nxt = sq 0 x
  bst : n.b.st = .lastAck
  back : n.b.ack = sq 0 (x + 1)
  bw : n.b.wnd < 2147483648
  ab : ∀ p ∈ n.ab, p.seq = sq 0 x ∧ p.fin = false
  ping : 0 < n.ab.length + n.ba.length

theorem stuck_step {x : Nat} {n : Net} (s : Step) (h : Stuck x n) :
    Stuck x (step n s) ∧ (step n s).ab.length + (step n s).ba.length = n.ab.length + n.ba.length := by
  cases s with
  | closeA =>
    have hc : close n.a = (n.a, []) := by unfold close; rw [h.ast]
    have hs : step n .closeA = n := by
      show { n with a := (close n.a).1, ab := n.ab ++ (close n.a).2 } = n
      rw [hc, List.append_nil]
    rw [hs]; exact ⟨h, rfl⟩
  | closeB =>
    have hc : close n.b = (n.b, []) := by unfold close; rw [h.bst]
    have hs : step n .closeB = n := by
      show { n with b := (close n.b).1, ba := n.ba ++ (close n.b).2 } = n
      rw [hc, List.append_nil]
    rw [hs]; exact ⟨h, rfl⟩
  | toB =>
    cases hab : n.ab with
    | nil =>
      have hs : step n .toB = n := by unfold step; simp only [hab]
      rw [hs, hab]; exact ⟨h, rfl⟩
    | cons p ps =>
      obtain ⟨hp1, hp2⟩ := h.ab p (by rw [hab]; exact List.mem_cons_self)
      have hi : input n.b p = (n.b, [ctl n.b false]) := by
        unfold input
        rw [h.bst]
        simp only
        rw [h.back, hp1, hp2, old_refused x n.b.wnd h.bw]
        rfl
      have hs : step n .toB = { n with ab := ps, ba := n.ba ++ [ctl n.b false] } := by
        unfold step; simp only [hab, hi]
      rw [hs]
      refine ⟨⟨h.ast, h.anxt, h.bst, h.back, h.bw, fun q hq => h.ab q (by rw [hab]; exact List.mem_cons_of_mem _ hq), ?_⟩, ?_⟩
      · simp only [List.length_append, List.length_cons, List.length_nil]; omega
      · simp only [List.length_append, List.length_cons, List.length_nil]; omega
  | toA =>
    cases hba : n.ba with
    | nil =>
      have hs : step n .toA = n := by unfold step; simp only [hba]
      rw [hs, hba]; exact ⟨h, rfl⟩
    | cons p ps =>
      have hi : input n.a p = (n.a, [ctl n.a false]) := by
        unfold input
        rw [h.ast]
      have hs : step n .toA = { n with ba := ps, ab := n.ab ++ [ctl n.a false] } := by
        unfold step; simp only [hba, hi]
      rw [hs]
      refine ⟨⟨h.ast, h.anxt, h.bst, h.back, h.bw, ?_, ?_⟩, ?_⟩
      · intro q hq
        rcases List.mem_append.1 hq with hq | hq
        · exact h.ab q hq
        · simp only [List.mem_singleton] at hq
          subst hq
          exact ⟨h.anxt, rfl⟩
      · simp only [List.length_append, List.length_cons, List.length_nil]; omega
      · simp only [List.length_append, List.length_cons, List.length_nil]; omega

theorem stuck_run {x : Nat} : ∀ (ss : List Step) (n : Net), Stuck x n →
    Stuck x (run n ss) ∧ (run n ss).ab.length + (run n ss).ba.length = n.ab.length + n.ba.length
  | [], n, h => ⟨h, rfl⟩
  | s :: ss, n, h => by
      obtain ⟨a, b⟩ := stuck_step s h
      obtain ⟨c, d⟩ := stuck_run ss (step n s) a
      exact ⟨c, d.trans b⟩

/-- The end counts its own FIN as acknowledged. -/
def finDone : Snd.State → Bool
  | .finWait2 | .timeWait | .closed => true
  | _ => false

/-- A segment moves an end that sent its FIN to a state in which that FIN counts as acknowledged only if
the segment's acknowledgment number lies past the FIN. -/
theorem fin_done_needs_ack (e : End) (p : Pkt) (h : e.st = .finWait1 ∨ e.st = .closing ∨ e.st = .lastAck)
    (hd : finDone (input e p).1.st = true) : seqLeq (seqInc e.last 1) p.ack = true := by
  cases hc : seqLeq (seqInc e.last 1) p.ack with
  | true => rfl
  | false =>
    exfalso
    have key : ackSt e p.ack = e.st := by
      unfold ackSt
      rcases h with h | h | h <;> rw [h] <;> simp [hc]
    have hin : ∀ s, (s = e.st ∨ s = finSt e.st) → finDone s = true → False := by
      intro s hs hd
      rcases hs with hs | hs <;> rcases h with h | h | h <;> rw [hs, h] at hd <;> simp [finDone, finSt] at hd
    refine hin _ ?_ hd
    unfold input
    rcases h with h | h | h <;> rw [h] <;> dsimp only <;> split
    all_goals first
      | exact Or.inl h
      | (rw [key]; exact Or.inl h)
      | (unfold finStep; split
         · rw [key]; exact Or.inl h
         · split
           · rw [key]; exact Or.inl h
           · rw [key, h]; exact Or.inr rfl)

/-- The prescribed exchange: A closes, its FIN arrives, B's ACK arrives, B closes, its FIN arrives. -/
def handshake : List Step := [.closeA, .toB, .toA, .closeB, .toA]

theorem after_handshake (x y wa wb : Nat) (ha : 0 < wa) (ha2 : wa < 2147483648) (hb : 0 < wb)
    (hb2 : wb < 2147483648) :
    run (synced x y wa wb) handshake =
      { a := { st := .timeWait, nxt := sq 0 x, ack := sq 0 (y + 1), last := sq 0 x, wnd := wa },
        b := { st := .lastAck, nxt := sq 0 y, ack := sq 0 (x + 1), last := sq 0 y, wnd := wb },
        ab := [⟨sq 0 x, sq 0 (y + 1), false⟩], ba := [] } := by
  have i1 : ∀ k, seqInc (sq 0 k) 1 = sq 0 (k + 1) := fun k => seq_inc_sound 0 k 1 (by omega)
  have leqr : ∀ k, seqLeq (sq 0 k) (sq 0 k) = true := fun k =>
    (seq_order_sound 0 k k (by omega) (by omega)).2.1.2 (by omega)
  -- A closes, FIN arrives at B
  have s1 : run (synced x y wa wb) [.closeA, .toB] =
      { a := { st := .finWait1, nxt := sq 0 x, ack := sq 0 y, last := sq 0 x, wnd := wa },
        b := { st := .closeWait, nxt := sq 0 y, ack := sq 0 (x + 1), wnd := wb },
        ab := [], ba := [⟨sq 0 y, sq 0 (x + 1), false⟩] } := by
    simp only [run, List.foldl_cons, List.foldl_nil, step, synced, close, ctl, List.nil_append, input,
      acc_next x wb hb hb2, Bool.not_true, Bool.false_eq_true, if_false, ackSt, finStep, ne_eq,
      not_true_eq_false, finSt, i1]
  have s2 : run
      { a := { st := .finWait1, nxt := sq 0 x, ack := sq 0 y, last := sq 0 x, wnd := wa },
        b := { st := .closeWait, nxt := sq 0 y, ack := sq 0 (x + 1), wnd := wb },
        ab := [], ba := [⟨sq 0 y, sq 0 (x + 1), false⟩] } [.toA, .closeB] =
      { a := { st := .finWait2, nxt := sq 0 x, ack := sq 0 y, last := sq 0 x, wnd := wa },
        b := { st := .lastAck, nxt := sq 0 y, ack := sq 0 (x + 1), last := sq 0 y, wnd := wb },
        ab := [], ba := [⟨sq 0 y, sq 0 (x + 1), true⟩] } := by
    simp only [run, List.foldl_cons, List.foldl_nil, step, close, ctl, List.nil_append, input,
      acc_next y wa ha ha2, Bool.not_true, Bool.false_eq_true, if_false, ackSt, finStep, i1, leqr,
      Bool.not_false, if_true, List.append_nil]
  have s3 : run
      { a := { st := .finWait2, nxt := sq 0 x, ack := sq 0 y, last := sq 0 x, wnd := wa },
        b := { st := .lastAck, nxt := sq 0 y, ack := sq 0 (x + 1), last := sq 0 y, wnd := wb },
        ab := [], ba := [⟨sq 0 y, sq 0 (x + 1), true⟩] } [.toA] =
      { a := { st := .timeWait, nxt := sq 0 x, ack := sq 0 (y + 1), last := sq 0 x, wnd := wa },
        b := { st := .lastAck, nxt := sq 0 y, ack := sq 0 (x + 1), last := sq 0 y, wnd := wb },
        ab := [⟨sq 0 x, sq 0 (y + 1), false⟩], ba := [] } := by
    simp only [run, List.foldl_cons, List.foldl_nil, step, ctl, List.nil_append, input,
      acc_next y wa ha ha2, Bool.not_true, Bool.false_eq_true, if_false, ackSt, finStep, ne_eq,
      not_true_eq_false, finSt, i1]
  have : handshake = [.closeA, .toB] ++ ([.toA, .closeB] ++ [.toA]) := rfl
  rw [this]
  unfold run at *
  rw [List.foldl_append, s1, List.foldl_append, s2, s3]

/-- **C75 is false of the code**: between two wolfIP ends over a perfect network, whatever numbers
and windows, after both applications have closed and both FINs have been exchanged the passive
closer never leaves LAST_ACK, however many further segments are delivered, and the two ends go on
answering each other's ACKs without end (the number of segments under way never falls). -/
theorem close_never_completes (x y wa wb : Nat) (ha : 0 < wa) (ha2 : wa < 2147483648) (hb : 0 < wb)
    (hb2 : wb < 2147483648) (ss : List Step) :
    (run (run (synced x y wa wb) handshake) ss).b.st = .lastAck ∧
    (run (run (synced x y wa wb) handshake) ss).ab.length +
      (run (run (synced x y wa wb) handshake) ss).ba.length = 1 := by
  rw [after_handshake x y wa wb ha ha2 hb hb2]
  generalize hn : ({ a := _, b := _, ab := _, ba := _ } : Net) = n
  have hst : Stuck x n := by
    rw [← hn]
    refine ⟨rfl, rfl, rfl, rfl, hb2, ?_, Nat.one_pos⟩
    intro p hp
    rw [List.eq_of_mem_singleton hp]
    exact ⟨rfl, rfl⟩
  obtain ⟨a, b⟩ := stuck_run ss n hst
  rw [b, ← hn]
  exact ⟨by rw [hn]; exact a.bst, rfl⟩

/-- **C75, the part that holds.** The exchange does take the active closer to TIME_WAIT with the
peer's FIN acknowledged, and the passive closer to LAST_ACK with A's FIN acknowledged; and a passive
closer in LAST_ACK ends as soon as it receives an ACK of its FIN under the number RFC 9293 prescribes
(one past the peer's FIN). Missing: that the ACK a wolfIP peer sends is one of those. -/
theorem close_exchange_partial (x y wa wb : Nat) (ha : 0 < wa) (ha2 : wa < 2147483648) (hb : 0 < wb)
    (hb2 : wb < 2147483648) :
    (run (synced x y wa wb) handshake).a.st = .timeWait ∧
    (run (synced x y wa wb) handshake).a.ack = sq 0 (y + 1) ∧
    (run (synced x y wa wb) handshake).b.st = .lastAck ∧
    (run (synced x y wa wb) handshake).b.ack = sq 0 (x + 1) ∧
    (input (run (synced x y wa wb) handshake).b ⟨sq 0 (x + 1), sq 0 (y + 1), false⟩).1.st = .closed := by
  rw [after_handshake x y wa wb ha ha2 hb hb2]
  refine ⟨rfl, rfl, rfl, rfl, ?_⟩
  have i1 : seqInc (sq 0 y) 1 = sq 0 (y + 1) := seq_inc_sound 0 y 1 (by omega)
  have leqr : seqLeq (sq 0 (y + 1)) (sq 0 (y + 1)) = true :=
    (seq_order_sound 0 (y + 1) (y + 1) (by omega) (by omega)).2.1.2 (by omega)
  simp only [input, acc_next (x + 1) wb hb hb2, Bool.not_true, Bool.false_eq_true, if_false, ackSt, i1, leqr,
    if_true]

/-- A concrete run across the 32-bit wrap. -/
example : (run (synced 4294967295 7 20479 1000) handshake).b.ack = 0 ∧
    (run (run (synced 4294967295 7 20479 1000) handshake) [.toB, .toA, .toB, .toA, .toB]).ba.length = 1 := by
  decide +kernel

end Wolf.Tcp.Close
