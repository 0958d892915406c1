import Verif.Tcp.SndEmit

/-!
# C74: a whole connection

Two wolfIP endpoints and the network between them: `A` sends (`Snd`), `B` receives (`Rx`).  The
network keeps every segment `A` ever transmitted and hands any of them to `B` at any time, any number
of times, in any order, or never; it also hands `B` forged empty segments, and `A` any acknowledgments
at all (genuine, delayed, duplicated or forged).  Both applications and all timers act at any time.
-/
namespace Wolf.Tcp.E2E
open Wolf.Tcp Wolf.Tcp.Snd

/-- A transmitted segment, with the number of bytes `send()` had accepted when it left. -/
structure Sent where
  seq : Nat
  data : List UInt8
  fin : Bool
  at_ : Nat

/-- The two endpoints, the network and what the receiving application has read. -/
structure Sys where
  a : Conn
  wire : List Sent
  r : Rx
  out : List UInt8

inductive SysEv where
  /-- anything at A: `send()`, `close()`, an arriving acknowledgment, a timer, a transmission turn -/
  | a (e : Ev)
  /-- A's persist timer fires -/
  | probe
  /-- the network hands B the `n`-th segment A transmitted; `ts` = outcome of B's PAWS test -/
  | deliver (n : Nat) (ts : Bool)
  /-- the network hands B an empty segment with any numbers and flags but FIN -/
  | forged (seq : Nat) (syn ackFlag ts : Bool)
  /-- B's application reads up to `n` bytes -/
  | read (n : Nat)
  /-- B's application closes -/
  | closeB
  /-- B's FIN is acknowledged -/
  | finAckedB

/-- What A transmits on an event. -/
def sends (x : Sys) : SysEv → List Sent
  | .a e => (emits x.a e).map fun d => ⟨d.seq, d.data, d.fin, x.a.acc.length⟩
  | .probe => match probe x.a.s with
      | some p => [⟨p.1, p.2, false, x.a.acc.length⟩]
      | none => []
  | _ => []

/-- What B sees on an event. -/
def seen (x : Sys) : SysEv → Option REv
  | .deliver n ts => (x.wire[n]?).map fun w => .seg { seq := w.seq, data := w.data, fin := w.fin, pawsOk := ts }
  | .forged seq syn ackFlag ts => some (.seg { seq := seq, data := [], syn := syn, ackFlag := ackFlag, pawsOk := ts })
  | .read n => some (.read n)
  | .closeB => some .close
  | .finAckedB => some .finAcked
  | _ => none

/-- What A does on an event. -/
def connStep (c : Conn) : SysEv → Conn
  | .a e => step c e
  | _ => c

def sysStep (x : Sys) (e : SysEv) : Sys :=
  { a := connStep x.a e
    wire := x.wire ++ sends x e
    r := match seen x e with | some v => (rxStep x.r v).1 | none => x.r
    out := match seen x e with | some v => x.out ++ (rxStep x.r v).2 | none => x.out }

def sysRun (x : Sys) (es : List SysEv) : Sys := es.foldl sysStep x

/-- TCP's standing assumption: between a segment's transmission and its delivery the two ends do not
move apart by half the sequence space. -/
def Timely (x : Sys) : SysEv → Prop
  | .deliver n _ => ∀ w, x.wire[n]? = some w →
      w.at_ + 1 < accepted x.r x.out + 2147483648 ∧ accepted x.r x.out + 32769 < w.at_ + 2147483648
  | _ => True

def TimelyRun : Sys → List SysEv → Prop
  | _, [] => True
  | x, e :: es => Timely x e ∧ TimelyRun (sysStep x e) es

/-- Right after the handshake: A numbers its first byte `i`, B expects it; nothing sent, nothing
received. -/
def Init (i size : Nat) (x : Sys) : Prop :=
  Start x.a ∧ x.a.iss = i ∧ x.wire = [] ∧ x.r = rxInit size i ∧ x.out = []

/-! ### Invariant -/

/-- A segment on the wire is a piece of the stream. -/
def WireOk (c : Conn) (w : Sent) : Prop :=
  (w.data = [] ∨ ∃ k, w.seq = sq c.iss k ∧ Piece c.acc k w.data ∧ w.at_ ≤ k + 32768 ∧
    k + w.data.length ≤ w.at_) ∧
  (w.fin = true → w.data = [] ∧ w.seq = sq c.iss c.acc.length ∧ openSt c.s.st = false ∧ w.at_ = c.acc.length)

/-- Stream `F` extends the present one, and is the present one once A cannot send any more. -/
def Future (c : Conn) (F : List UInt8) : Prop := c.acc <+: F ∧ (openSt c.s.st = false → F = c.acc)

structure Inv (i size : Nat) (x : Sys) : Prop where
  a : EInv x.a
  iss : x.a.iss = i
  wire : ∀ w ∈ x.wire, WireOk x.a w
  rx : ∀ F, Future x.a F → ∃ A, RInv F i size x.out x.r A

theorem piece_prefix {S F d : List UInt8} {k : Nat} (h : S <+: F) (hp : Piece S k d) : Piece F k d := by
  obtain ⟨m, rfl⟩ := h
  exact piece_append hp

/-- How one event changes the stream and the ability to extend it. -/
structure Grows (c c' : Conn) : Prop where
  iss : c'.iss = c.iss
  acc : c.acc <+: c'.acc
  shut : openSt c.s.st = false → openSt c'.s.st = false ∧ c'.acc = c.acc

theorem Grows.refl (c : Conn) : Grows c c := ⟨rfl, List.prefix_refl _, fun h => ⟨h, rfl⟩⟩

theorem Grows.trans {a b c : Conn} (h1 : Grows a b) (h2 : Grows b c) : Grows a c := by
  refine ⟨h2.iss.trans h1.iss, h1.acc.trans h2.acc, fun h => ?_⟩
  obtain ⟨p, q⟩ := h1.shut h
  obtain ⟨p', q'⟩ := h2.shut p
  exact ⟨p', q'.trans q⟩

theorem grows_sub {c : Conn} {s' : Snd} {hi : Nat} (h : Sub c.s s') : Grows c { c with s := s', hi := hi } := by
  refine ⟨rfl, List.prefix_refl _, fun ho => ⟨?_, rfl⟩⟩
  show openSt s'.st = false
  cases hc : openSt s'.st with
  | false => rfl
  | true => rw [h.st hc] at ho; cases ho

theorem grows_sendOne (c : Conn) (chunk : List UInt8) : Grows c (sendOne c chunk) := by
  unfold sendOne sendChunk
  by_cases hc : (c.s.st = .established ∨ c.s.st = .closeWait) ∧ chunk ≠ [] ∧ queued c.s.q + chunk.length ≤ TXBUF
  · rw [if_pos hc]
    refine ⟨rfl, List.prefix_append _ _, fun ho => ?_⟩
    rcases hc.1 with e | e <;> rw [e] at ho <;> cases ho
  · rw [if_neg hc]
    exact Grows.refl c

theorem grows_step (c : Conn) (e : Ev) : Grows c (step c e) := by
  cases e with
  | send chunks =>
    show Grows c (chunks.foldl sendOne c)
    induction chunks generalizing c with
    | nil => exact Grows.refl c
    | cons x xs ih => exact (grows_sendOne c x).trans (ih (sendOne c x))
  | queueEmpty => exact grows_sub (sub_push c.s)
  | ack pos win blocks d now => exact grows_sub (sub_tcpAck _ _)
  | peerFin => exact grows_sub (sub_peerFin _)
  | close now => exact grows_sub (sub_appClose _ _)
  | fire now qd => exact grows_sub (sub_fire _ _ _)
  | flush now fuel ok => exact grows_sub ((frame_resync _ _).sub.trans (from_flushLoop _ _ _ _ _).1)
  | window w => exact grows_sub (Frame.sub ⟨rfl, rfl, rfl⟩)

theorem grows_conn (c : Conn) (e : SysEv) : Grows c (connStep c e) := by
  cases e with
  | a e => exact grows_step c e
  | _ => exact Grows.refl c

theorem wireOk_grows {c c' : Conn} (h : Grows c c') {w : Sent} (hw : WireOk c w) : WireOk c' w := by
  constructor
  · rcases hw.1 with e | ⟨k, k1, k2, k3⟩
    · exact Or.inl e
    · exact Or.inr ⟨k, by rw [h.iss]; exact k1, piece_prefix h.acc k2, k3⟩
  · intro hf
    obtain ⟨a, b, e, f⟩ := hw.2 hf
    obtain ⟨p, q⟩ := h.shut e
    exact ⟨a, by rw [h.iss, q]; exact b, p, by rw [q]; exact f⟩

theorem future_grows {c c' : Conn} (h : Grows c c') {F : List UInt8} (hF : Future c' F) : Future c F := by
  refine ⟨h.acc.trans hF.1, fun ho => ?_⟩
  obtain ⟨p, q⟩ := h.shut ho
  rw [hF.2 p, q]

theorem wireOk_of_seg {c : Conn} {seq : Nat} {data : List UInt8} {fin : Bool}
    (h : SegOk c.iss c.acc (!openSt c.s.st) seq data fin) : WireOk c ⟨seq, data, fin, c.acc.length⟩ := by
  constructor
  · rcases h.1 with e | ⟨k, k1, k2, k3⟩
    · exact Or.inl e
    · exact Or.inr ⟨k, k1, k2, k3, k2.1⟩
  · intro hf
    obtain ⟨a, b, e⟩ := h.2 hf
    refine ⟨a, b, ?_, rfl⟩
    cases ho : openSt c.s.st with
    | false => rfl
    | true => rw [ho] at e; cases e

theorem sends_ok {x : Sys} (h : EInv x.a) (e : SysEv) : ∀ w ∈ sends x e, WireOk x.a w := by
  intro w hw
  cases e with
  | a e =>
    obtain ⟨d, hd, rfl⟩ := List.mem_map.1 hw
    exact wireOk_of_seg (emits_ok h e d hd)
  | probe =>
    unfold sends at hw
    simp only at hw
    split at hw
    · next p hp =>
      simp only [List.mem_singleton] at hw
      subst hw
      obtain ⟨k, k1, k2, k3, k4⟩ := (probe_ok h).1 p hp
      exact ⟨Or.inr ⟨k, k1, k2, k4, k2.1⟩, fun hf => by cases hf⟩
    · cases hw
  | _ => cases hw

/-- A delivered segment is one the receiver's theorem speaks about. -/
theorem fromPeer_wire {c : Conn} {F : List UInt8} {A : Nat} {w : Sent} (ts : Bool) (hw : WireOk c w)
    (hF : Future c F) (hcap : c.acc.length ≤ F.length)
    (h1 : w.at_ + 1 < A + 2147483648) (h2 : A + 32769 < w.at_ + 2147483648) :
    FromPeer F c.iss A { seq := w.seq, data := w.data, fin := w.fin, pawsOk := ts } := by
  cases hf : w.fin with
  | false =>
    rcases hw.1 with e | ⟨k, k1, k2, k3, k4⟩
    · exact Or.inl ⟨e, rfl⟩
    · refine Or.inr ⟨k, k1, piece_prefix hF.1 k2, (fun e => by cases e), by omega, ?_, ?_⟩
      · show k + w.data.length + 1 < _
        omega
      · show w.data.length < _
        omega
  | true =>
    obtain ⟨e1, e2, e3, e4⟩ := hw.2 hf
    have hFc := hF.2 e3
    refine Or.inr ⟨c.acc.length, e2, ?_, ?_, by omega, ?_, ?_⟩
    · rw [show ({ seq := w.seq, data := w.data, fin := true, pawsOk := ts } : Seg).data = [] from e1]
      exact ⟨by simpa using hcap, fun j hj => by cases hj⟩
    · intro _
      show c.acc.length + w.data.length = F.length
      rw [e1, hFc]; rfl
    · show c.acc.length + w.data.length + 1 < _
      rw [e1, List.length_nil]; omega
    · show w.data.length < 65536
      rw [e1]; exact (by decide)

theorem inv_step {i size : Nat} {x : Sys} (e : SysEv) (h : Inv i size x) (ht : Timely x e) :
    Inv i size (sysStep x e) := by
  have hg := grows_conn x.a e
  have ha : EInv (sysStep x e).a := by
    cases e with
    | a e => exact einv_step e h.a
    | _ => exact h.a
  refine ⟨ha, hg.iss.trans h.iss, ?_, ?_⟩
  · intro w hw
    rcases List.mem_append.1 hw with hw | hw
    · exact wireOk_grows hg (h.wire w hw)
    · exact wireOk_grows hg (sends_ok h.a e w hw)
  · intro F hF
    have hF0 : Future x.a F := future_grows hg hF
    obtain ⟨A, hA⟩ := h.rx F hF0
    have hev : ∀ v, seen x e = some v → EvOk F i x.r x.out v := by
      intro v hv
      cases e with
      | a e => cases hv
      | probe => cases hv
      | deliver n ts =>
        unfold seen at hv
        simp only [Option.map_eq_some_iff] at hv
        obtain ⟨w, hw, rfl⟩ := hv
        obtain ⟨t1, t2⟩ := ht w hw
        have := fromPeer_wire ts (h.wire w (List.mem_of_getElem? hw)) hF0 hF0.1.length_le t1 t2
        rw [h.iss] at this
        exact this
      | forged seq syn ackFlag ts =>
        cases hv
        exact Or.inl ⟨rfl, rfl⟩
      | read n => cases hv; trivial
      | closeB => cases hv; trivial
      | finAckedB => cases hv; trivial
    show ∃ A, RInv F i size
      (match seen x e with | some v => x.out ++ (rxStep x.r v).2 | none => x.out)
      (match seen x e with | some v => (rxStep x.r v).1 | none => x.r) A
    cases hs : seen x e with
    | none => exact ⟨A, hA⟩
    | some v =>
      obtain ⟨A', _, hA'⟩ := rxStep_inv v hA (hev v hs)
      exact ⟨A', hA'⟩

theorem inv_run {i size : Nat} : ∀ (es : List SysEv) (x : Sys), Inv i size x → TimelyRun x es →
    Inv i size (sysRun x es)
  | [], _, h, _ => h
  | e :: es, x, h, ht => inv_run es (sysStep x e) (inv_step e h ht.1) ht.2

theorem inv_init {i size : Nat} {x : Sys} (h1 : 1 < size) (h2 : size < 2147483648) (h : Init i size x) :
    Inv i size x := by
  obtain ⟨ha, hi, hw, hr, ho⟩ := h
  refine ⟨einv_start ha, hi, ?_, ?_⟩
  · rw [hw]; intro w hw; cases hw
  · intro F _
    rw [hr, ho]
    exact ⟨0, rinv_init F i size h1 h2⟩

/-! ### The theorems -/

/-- **C74, end to end.** Two wolfIP endpoints with any network between them: at every moment, what
the receiving application has read, followed by what it could read now, is a prefix of what the
sending application's `send()` has accepted. -/
theorem tcp_end_to_end (i size : Nat) (h1 : 1 < size) (h2 : size < 2147483648) (x : Sys)
    (h : Init i size x) (es : List SysEv) (ht : TimelyRun x es) :
    (sysRun x es).out ++ unread (sysRun x es).r <+: (sysRun x es).a.acc := by
  have hi := inv_run es x (inv_init h1 h2 h) ht
  obtain ⟨A, hA⟩ := hi.rx (sysRun x es).a.acc ⟨List.prefix_refl _, fun _ => rfl⟩
  rw [unread_spec hA]
  exact List.take_prefix _ _

/-- **C74, end of stream.** If the receiver has taken a FIN (its state says the peer has closed), the
sending application had closed (it can send nothing more) and every byte it ever handed to `send()`
has arrived. -/
theorem tcp_end_of_stream (i size : Nat) (h1 : 1 < size) (h2 : size < 2147483648) (x : Sys)
    (h : Init i size x) (es : List SysEv) (ht : TimelyRun x es)
    (hfin : openState (sysRun x es).r.st = false) :
    openSt (sysRun x es).a.s.st = false ∧
    (sysRun x es).out ++ unread (sysRun x es).r = (sysRun x es).a.acc := by
  have hi := inv_run es x (inv_init h1 h2 h) ht
  have hsh : openSt (sysRun x es).a.s.st = false := by
    cases ho : openSt (sysRun x es).a.s.st with
    | false => rfl
    | true =>
      exfalso
      -- the stream could still be extended in two ways, but the receiver's position is its length
      obtain ⟨A, hA⟩ := hi.rx (sysRun x es).a.acc ⟨List.prefix_refl _, fun _ => rfl⟩
      obtain ⟨B, hB⟩ := hi.rx ((sysRun x es).a.acc ++ [0])
        ⟨List.prefix_append _ _, fun c => (by rw [ho] at c; cases c)⟩
      have eA := hA.acc
      have eB := hB.acc
      rcases hA.ack with ⟨_, k⟩ | ⟨_, kA, _⟩
      · rw [hfin] at k; cases k
      · rcases hB.ack with ⟨_, k⟩ | ⟨_, kB, _⟩
        · rw [hfin] at k; cases k
        · rw [List.length_append, List.length_singleton] at kB
          omega
  refine ⟨hsh, ?_⟩
  obtain ⟨A, hA⟩ := hi.rx (sysRun x es).a.acc ⟨List.prefix_refl _, fun _ => rfl⟩
  rw [unread_spec hA]
  rcases hA.ack with ⟨_, k⟩ | ⟨_, kA, _⟩
  · rw [hfin] at k; cases k
  · rw [kA]; exact List.take_length

/-- **C74, on the wire.** Whatever acknowledgments arrive, every segment transmitted with payload
carries the bytes `send()` accepted at the position its sequence number names, and a segment with FIN
is empty, numbered right behind the last byte, of a connection that accepts no more `send()`. -/
theorem tcp_wire_honest (i size : Nat) (h1 : 1 < size) (h2 : size < 2147483648) (x : Sys)
    (h : Init i size x) (es : List SysEv) (ht : TimelyRun x es) :
    ∀ w ∈ (sysRun x es).wire,
      (w.data ≠ [] → ∃ k, w.seq = sq i k ∧ w.data = ((sysRun x es).a.acc.drop k).take w.data.length) ∧
      (w.fin = true → w.data = [] ∧ w.seq = sq i (sysRun x es).a.acc.length ∧
        openSt (sysRun x es).a.s.st = false) := by
  have hi := inv_run es x (inv_init h1 h2 h) ht
  intro w hw
  have hk := hi.wire w hw
  constructor
  · intro hne
    obtain ⟨k, k1, ⟨k2, k3⟩, _⟩ := hk.1.resolve_left hne
    refine ⟨k, by rw [k1, hi.iss], ?_⟩
    apply List.ext_getElem?
    intro j
    rw [List.getElem?_take, List.getElem?_drop]
    split
    · next hj => rw [k3 j hj, List.getElem?_eq_getElem hj]
    · next hj => rw [List.getElem?_eq_none (by omega)]
  · intro hf
    obtain ⟨a, b, c, _⟩ := hk.2 hf
    exact ⟨a, by rw [b, hi.iss], c⟩

/-- **C74, no send after close.** Once the connection accepts no more data (the application closed, or
the connection ended) `send()` accepts nothing, whatever happens. -/
theorem tcp_no_send_after_close (c : Conn) (es : List Ev) (h : openSt c.s.st = false) :
    (run c es).acc = c.acc ∧ openSt (run c es).s.st = false := by
  induction es generalizing c with
  | nil => exact ⟨rfl, h⟩
  | cons e es ih =>
    obtain ⟨p, q⟩ := (grows_step c e).shut h
    obtain ⟨a, b⟩ := ih (step c e) p
    exact ⟨a.trans q, b⟩

/-- `close()` on a connection that can send makes it one that cannot. -/
theorem tcp_close_closes (c : Conn) (now : Nat) : openSt (step c (.close now)).s.st = false := by
  show openSt (appClose c.s now).st = false
  unfold appClose
  split
  · rw [(frame_ctrlStart _ _).st]; rfl
  · rw [(frame_ctrlStart _ _).st]; rfl
  · next h1 h2 =>
    cases hs : c.s.st <;> first | rfl | exact absurd hs h1 | exact absurd hs h2

/-! ### The hypotheses are met -/

/-- A fresh connection across the 32-bit wrap. -/
def exSys : Sys where
  a := { s := { st := .established, q := [], seq := sq 4294967293 0, sndUna := sq 4294967293 0, last := 0,
                inflight := 0, cwnd := 5840, ssthresh := 65535, peerRwnd := 64, smss := 1460 }
         iss := 4294967293, acc := [], hi := 0 }
  wire := []
  r := rxInit 64 4294967293
  out := []

/-- Two `send()`s, the first segment is lost, the second and a forged segment arrive, the first is
retransmitted after a timeout and arrives twice, `close()`, the FIN arrives, everything is read. -/
def exEvs : List SysEv :=
  [ .a (.send [[65, 66], [67, 68, 69]]), .a (.flush 0 10 10), .deliver 1 true,
    .forged 77 false true true, .read 10,
    .a (.fire 5000 true), .a (.flush 5000 10 10), .deliver 2 true, .deliver 0 true, .read 3,
    .a (.ack 5 64 [] false 5001), .a (.close 5002), .a (.flush 5002 10 10), .deliver 3 true, .read 10 ]

theorem exEvs_ok : Init 4294967293 64 exSys ∧ TimelyRun exSys exEvs := by
  refine ⟨⟨⟨⟨rfl, rfl, rfl, rfl⟩, rfl⟩, rfl, rfl, rfl, rfl⟩, ?_⟩
  have t : ∀ (x : Sys) (n : Nat) (ts : Bool),
      ((x.wire.map fun w => decide (w.at_ ≤ 1000)).all id = true ∧ accepted x.r x.out ≤ 1000) →
      Timely x (.deliver n ts) := by
    intro x n ts ⟨h, h'⟩ w hw
    rw [List.all_eq_true] at h
    have := h _ (List.mem_map_of_mem (List.mem_of_getElem? hw))
    simp only [id, decide_eq_true_eq] at this
    omega
  refine ⟨trivial, trivial, t _ _ _ ?_, trivial, trivial, trivial, trivial, t _ _ _ ?_, t _ _ _ ?_,
    trivial, trivial, trivial, trivial, t _ _ _ ?_, trivial, trivial⟩
  all_goals decide +kernel

example : (sysRun exSys exEvs).out = [65, 66, 67, 68, 69] ∧
    (sysRun exSys exEvs).wire.length = 4 ∧ (sysRun exSys exEvs).r.st = .closeWait ∧
    (sysRun exSys (exEvs.take 5)).out = [] := by decide +kernel

end Wolf.Tcp.E2E
