import Verif.Tcp.SndProps
/-
C13: the sender's window variables.
-/
namespace Wolf.Tcp.Snd
open Wolf.Tcp

/-- The fields C13 is about. -/
def cc (s : Snd) : Nat × Nat × Bool × Nat × Nat × Nat :=
  (s.cwnd, s.ssthresh, s.fastRec, s.smss, s.sndUna, s.seq)

theorem cc_cancel (s : Snd) : cc (cancelTmr s) = cc s := by unfold cancelTmr; split <;> rfl
theorem cc_ctrlStop (s : Snd) : cc (ctrlStop s) = cc s := cc_cancel s
theorem cc_fw2Start (s : Snd) (n : Nat) : cc (fw2Start s n) = cc s := cc_cancel s
theorem cc_fw2Stop (s : Snd) : cc (fw2Stop s) = cc s := cc_cancel s
theorem cc_preacceptStop (s : Snd) : cc (preacceptStop s) = cc s := cc_cancel s
theorem cc_ctrlStart (s : Snd) (n : Nat) : cc (ctrlStart s n) = cc s :=
  (cc_cancel { s with fw2 := false })
theorem cc_closeSocket (s : Snd) : cc (closeSocket s) = cc s := cc_cancel s
theorem cc_revert (s : Snd) : cc (revertListen s) = cc s := cc_cancel s
theorem cc_pushEmpty (s : Snd) (f : Bool) : cc (pushEmpty s f) = cc s := rfl

theorem cc_mark (s : Snd) (a : Nat) : cc (markUnsacked s a).1 = cc s := by
  unfold markUnsacked
  cases scanUnsacked s.peerSack a s.q 0 with
  | mark i => rfl
  | pending => rfl
  | none c =>
    simp only
    split
    · rfl
    · cases scanUnsacked [] a s.q 0 <;> rfl

theorem cc_processSack (s : Snd) (b : List (Nat × Nat)) : cc (processSack s b) = cc s := by
  unfold processSack; split <;> rfl

theorem cc_ackFinWait1 (s : Snd) (a : AckSeg) : cc (ackFinWait1 s a) = cc s := by
  unfold ackFinWait1; split
  · exact (cc_fw2Start _ _).trans (cc_ctrlStop _)
  · rfl

theorem cc_ackClosing (s : Snd) (a : AckSeg) : cc (ackClosing s a) = cc s := by
  unfold ackClosing; split
  · exact cc_ctrlStop _
  · rfl

theorem cc_ackFront (s : Snd) (a : AckSeg) : cc (ackFront s a).1 = cc s :=
  (cc_processSack _ _).trans ((cc_ackClosing _ _).trans (cc_ackFinWait1 { s with lastPeerWin := a.win } a))

theorem cc_rearm (s : Snd) (n : Nat) : cc (rearm s n) = cc s := by
  unfold rearm
  split
  · rfl
  split
  · exact cc_cancel s
  · exact cc_cancel s

theorem cc_early (s : Snd) (a : Nat) : cc (tryEarly s a).1 = cc s := by
  unfold tryEarly; split
  · exact cc_mark _ _
  · rfl

/-! ### SND.UNA -/

/-- Where SND.UNA goes in the forward-ACK block. -/
theorem una_advance (s : Snd) (a : AckSeg) :
    (ackAdvance s a).1.sndUna = (if isForward s a.ack then a.ack else s.sndUna) := by
  unfold ackAdvance
  split
  · have h1 : (advanceUna s a (ackDelta a.ack s.sndUna)).sndUna = a.ack := by
      have := congrArg (·.2.2.2.2.1) (cc_rearm (advanceFields s a.ack (ackDelta a.ack s.sndUna)) a.now)
      simpa [cc, advanceFields, advanceUna] using this
    unfold ccAdvance
    split
    · split
      · rename_i h _
        have := congrArg (·.2.2.2.2.1) (cc_mark { (advanceUna s a (ackDelta a.ack s.sndUna)) with
          dupAcks := 3, cwnd := partialCwnd (advanceUna s a (ackDelta a.ack s.sndUna)) (ackDelta a.ack s.sndUna), cwndCount := 0 } a.ack)
        simp only [cc] at this; rw [this]; exact h1
      · exact h1
    · exact h1
  · rfl

theorem una_dup (s : Snd) (a : AckSeg) (n : Nat) (w : Bool) : (dupAck s a n w).sndUna = s.sndUna := by
  have h : ∀ x : Snd, (onDup x a.ack n).sndUna = x.sndUna := by
    intro x
    have he := congrArg (·.2.2.2.2.1) (cc_early x a.ack); simp only [cc] at he
    unfold onDup
    split
    · exact he
    split
    · exact he
    split
    · unfold enterRecovery
      have := congrArg (·.2.2.2.2.1) (cc_mark { (tryEarly x a.ack).1 with
        ssthresh := lossThresh n (tryEarly x a.ack).1.smss,
        cwnd := (lossThresh n (tryEarly x a.ack).1.smss + 3 * (tryEarly x a.ack).1.smss) % 4294967296,
        cwndCount := 0, fastRec := true, recPt := (tryEarly x a.ack).1.seq } a.ack)
      simp only [cc] at this; rw [this]; exact he
    · exact he
  unfold dupAck
  split
  · rfl
  split
  · rfl
  split
  · rfl
  split
  · rfl
  · rw [h]; rfl

theorem una_grow (s : Snd) (n : Nat) : (grow s n).sndUna = s.sndUna := by
  unfold grow
  split
  · split
    · rfl
    · split <;> rfl
  · rfl

theorem una_tcpAck (s : Snd) (a : AckSeg) :
    (tcpAck s a).sndUna = s.sndUna ∨ ((tcpAck s a).sndUna = a.ack ∧ isForward s a.ack = true) := by
  have hf := cc_ackFront s a
  have hu : (ackFront s a).1.sndUna = s.sndUna := by
    have := congrArg (·.2.2.2.2.1) hf; simpa [cc] using this
  have hs : (ackFront s a).1.seq = s.seq := by
    have := congrArg (·.2.2.2.2.2) hf; simpa [cc] using this
  have hfw : isForward (ackFront s a).1 a.ack = isForward s a.ack := by
    unfold isForward; rw [hu, hs]
  have key : (ackAdvance (ackFront s a).1 a).1.sndUna = s.sndUna ∨
      ((ackAdvance (ackFront s a).1 a).1.sndUna = a.ack ∧ isForward s a.ack = true) := by
    rw [una_advance, hfw, hu]
    split
    · right; exact ⟨rfl, by assumption⟩
    · left; rfl
  unfold tcpAck
  split
  · left
    have := congrArg (·.2.2.2.2.1) ((cc_closeSocket _).trans (cc_ctrlStop { s with lastPeerWin := a.win }))
    simpa [cc] using this
  · simp only
    split
    · split
      · rw [una_grow]; exact key
      · exact key
    · rw [una_dup]; exact key

/-- **C13, SND.UNA.** Whatever acknowledgment arrives (any number, window, SACK
blocks), the oldest-unacknowledged mark stays or moves forward to the
acknowledged number, by less than or equal to the number of bytes outstanding
(when fewer than 2^31 bytes are outstanding): it never moves backwards and
never passes the next sequence number to be sent. The full statement fails for
one acknowledgment number, see `snd_una_can_jump_half`: it is excluded here. -/
theorem snd_una_only_forward_partial (s : Snd) (a : AckSeg) (h1 : s.sndUna < 4294967296)
    (h2 : a.ack < 4294967296) (h3 : s.seq < 4294967296)
    (hout : (s.seq + 4294967296 - s.sndUna) % 4294967296 < 2147483648)
    (hex : ¬ (s.seq = s.sndUna ∧ a.ack = (s.sndUna + 2147483648) % 4294967296)) :
    ∃ k, k ≤ (s.seq + 4294967296 - s.sndUna) % 4294967296 ∧
      (tcpAck s a).sndUna = (s.sndUna + k) % 4294967296 ∧
      (k ≠ 0 → (tcpAck s a).sndUna = a.ack) := by
  rcases una_tcpAck s a with h | ⟨h, hf⟩
  · exact ⟨0, Nat.zero_le _, by rw [h]; omega, fun h => absurd rfl h⟩
  · refine ⟨(a.ack + 4294967296 - s.sndUna) % 4294967296, ?_, by rw [h]; omega, fun _ => h⟩
    unfold isForward seqLeq at hf
    simp only [Bool.and_eq_true, bne_iff_ne, ne_eq] at hf
    obtain ⟨⟨ha, hb⟩, hc⟩ := hf
    split at hb <;> split at hc <;> simp only [decide_eq_true_eq] at hb hc <;> omega

/-- No event other than an acknowledgment moves SND.UNA. -/
theorem snd_una_only_by_ack (c : Conn) (e : Ev) (h : ∀ p w b d n, e ≠ .ack p w b d n) :
    (step c e).s.sndUna = c.s.sndUna := by
  have una_of {x y : Snd} (h : cc x = cc y) : x.sndUna = y.sndUna := by
    have := congrArg (·.2.2.2.2.1) h; simpa [cc] using this
  cases e with
  | ack p w b d n => exact absurd rfl (h p w b d n)
  | send chunks =>
    simp only [step]
    clear h
    induction chunks generalizing c with
    | nil => rfl
    | cons x xs ih =>
      simp only [List.foldl]
      rw [ih]; unfold sendOne sendChunk; simp only; split <;> rfl
  | queueEmpty => rfl
  | window w => rfl
  | peerFin => simp only [step]; unfold Snd.peerFin; split <;> rfl
  | close now =>
    simp only [step]; unfold appClose
    split
    · exact una_of ((cc_ctrlStart _ _).trans rfl)
    · exact una_of ((cc_ctrlStart _ _).trans rfl)
    · rfl
  | flush now fuel ok =>
    simp only [step, Snd.flush]
    have hr : (resync c.s now).sndUna = c.s.sndUna := by
      unfold resync
      split
      · rfl
      split
      · rfl
      split
      · rfl
      split
      · exact una_of (cc_cancel _)
      · rfl
    rw [← hr]
    generalize resync c.s now = t
    have : ∀ (f ok : Nat) (t : Snd) (i : Nat), (flushLoop f ok t i now).sndUna = t.sndUna := by
      intro f
      induction f with
      | zero => intro ok t i; rfl
      | succ f ih =>
        intro ok t i
        unfold flushLoop
        cases t.q[i]? with
        | none => rfl
        | some d =>
          simp only
          split
          · exact ih _ _ _
          split
          · cases ok with
            | zero => rfl
            | succ ok =>
              simp only
              split
              · rw [ih]
              · rw [ih]; exact una_of (cc_cancel { t with q := t.q.set i d.markSent, inflight := if d.retrans then t.inflight else t.inflight + d.len })
          · cases findRetrans t.q i with
            | none => rfl
            | some j => simp only; split
                        · exact ih _ _ _
                        · rfl
    exact this _ _ _ _
  | fire now qd =>
    simp only [step]
    unfold Snd.fire
    split
    · rfl
    split
    · generalize hx : ({ c.s with armed := none } : Snd) = x
      have hxu : x.sndUna = c.s.sndUna := by rw [← hx]
      rw [← hxu]; clear hxu hx
      unfold rtoCb
      split
      · split
        · exact una_of (cc_fw2Stop _)
        · exact una_of ((cc_closeSocket _).trans (cc_fw2Stop _))
      split
      · split
        · exact una_of (cc_preacceptStop _)
        · exact una_of (cc_revert _)
      split
      · unfold ctrlCb
        split
        · exact una_of (cc_ctrlStop _)
        split
        · split
          · exact una_of ((cc_revert _).trans (cc_ctrlStop _))
          · exact una_of ((cc_closeSocket _).trans (cc_ctrlStop _))
        · unfold ctrlResend
          split
          · split
            · exact una_of ((cc_ctrlStart _ _).trans rfl)
            · exact una_of ((cc_ctrlStart _ _).trans rfl)
          · exact una_of (cc_ctrlStart _ _)
      split
      · rfl
      · unfold rtoData
        split
        · simp only
          split
          · exact una_of ((cc_closeSocket _).trans ((cc_cancel _).trans rfl))
          · simp only [rtoLoss, armTmr]; exact una_of ((cc_cancel _).trans rfl)
        · simp only; exact una_of ((cc_cancel _).trans rfl)
    · rfl

/-- **C13 is violated by one forged ACK**: with nothing outstanding, the
acknowledgment number exactly 2^31 ahead passes both circular comparisons and
moves SND.UNA 2^31 bytes beyond anything ever sent. -/
theorem snd_una_can_jump_half (s : Snd) (a : AckSeg) (hst : s.st = .established)
    (hq : s.q = []) (h1 : s.sndUna < 4294967296) (h3 : s.seq = s.sndUna)
    (ha : a.ack = (s.sndUna + 2147483648) % 4294967296) :
    (tcpAck s a).sndUna = (s.sndUna + 2147483648) % 4294967296 ∧
    (tcpAck s a).sndUna ≠ s.seq := by
  have hf : isForward s a.ack = true := by
    unfold isForward seqLeq
    simp only [Bool.and_eq_true, bne_iff_ne, ne_eq]
    refine ⟨⟨by omega, ?_⟩, ?_⟩ <;> split <;> simp only [decide_eq_true_eq] <;> omega
  have hc := cc_ackFront s a
  have hu : (ackFront s a).1.sndUna = s.sndUna := by
    have := congrArg (·.2.2.2.2.1) hc; simpa [cc] using this
  have hs : (ackFront s a).1.seq = s.seq := by
    have := congrArg (·.2.2.2.2.2) hc; simpa [cc] using this
  have hfw : isForward (ackFront s a).1 a.ack = true := by
    unfold isForward at hf ⊢; rw [hu, hs]; exact hf
  have hl : ackEndsLastAck s a = false := by unfold ackEndsLastAck; simp [hst]
  have hres : (tcpAck s a).sndUna = a.ack := by
    unfold tcpAck
    rw [hl]
    simp only [Bool.false_eq_true, if_false]
    have hadv : (ackAdvance (ackFront s a).1 a).1.sndUna = a.ack := by
      rw [una_advance, hfw]; rfl
    split
    · split
      · rw [una_grow]; exact hadv
      · exact hadv
    · rw [una_dup]; exact hadv
  rw [hres]; omega

/-! ### Congestion window and slow-start threshold -/

/-- Specification: at least one segment may always be in flight; in fast
recovery the threshold is at least two segments. -/
def WindowOk (s : Snd) : Prop :=
  s.smss ≤ s.cwnd ∧ (s.fastRec = true → 2 * s.smss ≤ s.ssthresh)

/-- The 32-bit counters are not about to overflow. -/
def Room (s : Snd) : Prop := s.cwnd < 2147483648 ∧ s.ssthresh < 2147483648 ∧ s.inflight < 2147483648

/-- A sane segment size. -/
def SmssOk (s : Snd) : Prop := 0 < s.smss ∧ s.smss ≤ 65535

theorem cc_fields {x y : Snd} (h : cc x = cc y) :
    x.cwnd = y.cwnd ∧ x.ssthresh = y.ssthresh ∧ x.fastRec = y.fastRec ∧ x.smss = y.smss := by
  unfold cc at h
  simp only [Prod.mk.injEq] at h
  exact ⟨h.1, h.2.1, h.2.2.1, h.2.2.2.1⟩

theorem windowOk_of_cc {x y : Snd} (h : cc x = cc y) (w : WindowOk y) : WindowOk x := by
  obtain ⟨a, b, c, d⟩ := cc_fields h
  unfold WindowOk; rw [a, b, c, d]; exact w

/-- `cwnd`, `ssthresh` below `b`. -/
def Below (b : Nat) (s : Snd) : Prop := s.cwnd ≤ b ∧ s.ssthresh ≤ b

theorem below_of_cc {x y : Snd} {b : Nat} (h : cc x = cc y) (w : Below b y) : Below b x := by
  obtain ⟨a, c, _, _⟩ := cc_fields h
  unfold Below; rw [a, c]; exact w

theorem lossThresh_ge (n m : Nat) (h : m ≤ 65535) : 2 * m ≤ lossThresh n m := by
  unfold lossThresh; split <;> omega

theorem lossThresh_le (n m : Nat) (h : m ≤ 65535) (hn : n < 2147483648) :
    lossThresh n m ≤ 2147483648 := by
  unfold lossThresh; split <;> omega

theorem ok_ccAdvance (s : Snd) (a : AckSeg) (d : Nat) (hm : s.smss ≤ 65535) (w : WindowOk s)
    (b : Below 2147483648 s) :
    WindowOk (ccAdvance s a d).1 ∧ Below 2147700000 (ccAdvance s a d).1 ∧
    (ccAdvance s a d).1.smss = s.smss := by
  unfold WindowOk Below at *
  unfold ccAdvance
  split
  · rename_i hf
    have w2 := w.2 hf
    split
    · have h := cc_fields (cc_mark { s with dupAcks := 3, cwnd := partialCwnd s d, cwndCount := 0 } a.ack)
      rw [h.1, h.2.1, h.2.2.1, h.2.2.2]
      simp only
      have hp : s.smss ≤ partialCwnd s d ∧ partialCwnd s d ≤ 2147700000 := by
        unfold partialCwnd; simp only
        obtain ⟨b1, b2⟩ := b
        split <;> split <;> omega
      exact ⟨⟨hp.1, fun _ => w2⟩, ⟨hp.2, by omega⟩, trivial⟩
    · simp only
      refine ⟨⟨by omega, fun h => by simp at h⟩, ⟨by omega, by omega⟩, trivial⟩
  · exact ⟨w, ⟨Nat.le_trans b.1 (by decide), Nat.le_trans b.2 (by decide)⟩, rfl⟩

theorem ok_grow (s : Snd) (n : Nat) (hm : s.smss ≤ 65535) (w : WindowOk s)
    (b : Below 2147700000 s) : WindowOk (grow s n) := by
  unfold WindowOk Below at *
  unfold grow
  split
  · split
    · simp only; refine ⟨by omega, w.2⟩
    · split
      · simp only; refine ⟨by omega, w.2⟩
      · exact w
  · exact w

theorem ok_onDup (s : Snd) (ack n : Nat) (hm : s.smss ≤ 65535) (hn : n < 2147483648)
    (w : WindowOk s) (b : Below 2147700000 s) : WindowOk (onDup s ack n) := by
  have he := cc_fields (cc_early s ack)
  have w' := windowOk_of_cc (cc_early s ack) w
  have b' := below_of_cc (cc_early s ack) b
  unfold onDup
  split
  · exact w'
  split
  · exact w'
  split
  · unfold enterRecovery
    refine windowOk_of_cc (cc_mark _ _) ?_
    unfold WindowOk
    simp only
    have h1 := lossThresh_ge n (tryEarly s ack).1.smss (by omega)
    have h2 := lossThresh_le n (tryEarly s ack).1.smss (by omega) hn
    have h3 : (tryEarly s ack).1.smss ≤ 65535 := by omega
    generalize lossThresh n (tryEarly s ack).1.smss = L at *
    generalize (tryEarly s ack).1.smss = m at *
    rw [Nat.mod_eq_of_lt (by omega)]
    exact ⟨by omega, fun _ => h1⟩
  · unfold WindowOk Below at *
    simp only
    refine ⟨?_, w'.2⟩
    have := w'.1
    have := b'.1
    omega

theorem ok_tcpAck (s : Snd) (a : AckSeg) (hm : SmssOk s) (hr : Room s) (w : WindowOk s) :
    WindowOk (tcpAck s a) := by
  have hf := cc_fields (cc_ackFront s a)
  have wf := windowOk_of_cc (cc_ackFront s a) w
  have bf : Below 2147483648 (ackFront s a).1 :=
    below_of_cc (cc_ackFront s a) ⟨by unfold Room at hr; omega, by unfold Room at hr; omega⟩
  have hmf : (ackFront s a).1.smss ≤ 65535 := by rw [hf.2.2.2]; exact hm.2
  have hadv : WindowOk (ackAdvance (ackFront s a).1 a).1 ∧
      Below 2147700000 (ackAdvance (ackFront s a).1 a).1 ∧
      (ackAdvance (ackFront s a).1 a).1.smss = s.smss := by
    unfold ackAdvance
    split
    · have hc : ∀ d, (advanceUna (ackFront s a).1 a d).cwnd = (ackFront s a).1.cwnd ∧
          (advanceUna (ackFront s a).1 a d).ssthresh = (ackFront s a).1.ssthresh ∧
          (advanceUna (ackFront s a).1 a d).fastRec = (ackFront s a).1.fastRec ∧
          (advanceUna (ackFront s a).1 a d).smss = (ackFront s a).1.smss := by
        intro d
        have := cc_fields (cc_rearm (advanceFields (ackFront s a).1 a.ack d) a.now)
        exact this
      obtain ⟨c1, c2, c3, c4⟩ := hc (ackDelta a.ack (ackFront s a).1.sndUna)
      have := ok_ccAdvance (advanceUna (ackFront s a).1 a (ackDelta a.ack (ackFront s a).1.sndUna)) a
        (ackDelta a.ack (ackFront s a).1.sndUna) (by rw [c4]; exact hmf)
        (by unfold WindowOk at *; rw [c1, c2, c3, c4]; exact wf)
        (by unfold Below at *; rw [c1, c2]; exact bf)
      exact ⟨this.1, this.2.1, by rw [this.2.2, c4, hf.2.2.2]⟩
    · refine ⟨wf, ?_, hf.2.2.2⟩
      unfold Below at *; simp only; omega
  have hm' : (ackAdvance (ackFront s a).1 a).1.smss ≤ 65535 := by rw [hadv.2.2]; exact hm.2
  unfold tcpAck
  split
  · exact windowOk_of_cc ((cc_closeSocket _).trans (cc_ctrlStop { s with lastPeerWin := a.win })) w
  · simp only
    split
    · split
      · exact ok_grow _ _ hm' hadv.1 hadv.2.1
      · exact hadv.1
    · unfold dupAck
      split
      · exact hadv.1
      split
      · exact hadv.1
      split
      · exact hadv.1
      split
      · exact hadv.1
      · exact ok_onDup _ _ _ hm' hr.2.2 hadv.1 hadv.2.1

theorem ok_rtoData (s : Snd) (now : Nat) (hm : SmssOk s) (w : WindowOk s) :
    WindowOk (rtoData s now) := by
  unfold rtoData
  split
  · simp only
    split
    · exact windowOk_of_cc ((cc_closeSocket _).trans ((cc_cancel _).trans rfl)) w
    · unfold rtoLoss armTmr WindowOk
      simp only
      exact ⟨Nat.le_refl _, fun h => by simp at h⟩
  · exact windowOk_of_cc (cc_cancel { s with peerSack := [], inflight := 0 }) w

theorem ok_rtoCb (s : Snd) (now : Nat) (qd : Bool) (hm : SmssOk s) (w : WindowOk s) :
    WindowOk (rtoCb s now qd) := by
  unfold rtoCb
  split
  · split
    · exact windowOk_of_cc (cc_fw2Stop _) w
    · exact windowOk_of_cc ((cc_closeSocket _).trans (cc_fw2Stop _)) w
  split
  · split
    · exact windowOk_of_cc (cc_preacceptStop _) w
    · exact windowOk_of_cc (cc_revert _) w
  split
  · unfold ctrlCb
    split
    · exact windowOk_of_cc (cc_ctrlStop _) w
    split
    · split
      · exact windowOk_of_cc ((cc_revert _).trans (cc_ctrlStop _)) w
      · exact windowOk_of_cc ((cc_closeSocket _).trans (cc_ctrlStop _)) w
    · unfold ctrlResend
      split
      · split
        · exact windowOk_of_cc ((cc_ctrlStart _ _).trans rfl) w
        · exact windowOk_of_cc ((cc_ctrlStart _ _).trans rfl) w
      · exact windowOk_of_cc (cc_ctrlStart _ _) w
  split
  · exact w
  · exact ok_rtoData s now hm w

/-- Events that do not touch the congestion variables. -/
theorem cc_quiet (s : Snd) (now : Nat) : cc (resync s now) = cc s := by
  unfold resync
  split
  · rfl
  split
  · rfl
  split
  · rfl
  split
  · exact (cc_cancel _).trans rfl
  · rfl

theorem cc_flushLoop : ∀ (f ok : Nat) (t : Snd) (i now : Nat), cc (flushLoop f ok t i now) = cc t
  | 0, _, _, _, _ => rfl
  | f + 1, ok, t, i, now => by
      unfold flushLoop
      cases t.q[i]? with
      | none => rfl
      | some d =>
        simp only
        split
        · exact cc_flushLoop f _ _ _ _
        split
        · cases ok with
          | zero => rfl
          | succ ok =>
            simp only
            split
            · exact (cc_flushLoop f _ _ _ _).trans rfl
            · exact (cc_flushLoop f _ _ _ _).trans (cc_cancel { t with q := t.q.set i d.markSent, inflight := if d.retrans then t.inflight else t.inflight + d.len })
        · cases findRetrans t.q i with
          | none => rfl
          | some j => simp only; split
                      · exact cc_flushLoop f _ _ _ _
                      · rfl

theorem ok_step (c : Conn) (e : Ev) (hm : SmssOk c.s) (hr : Room c.s) (w : WindowOk c.s) :
    WindowOk (step c e).s := by
  cases e with
  | ack p win b d n => exact ok_tcpAck _ _ hm hr w
  | send chunks =>
    simp only [step]
    clear hm hr
    induction chunks generalizing c with
    | nil => exact w
    | cons x xs ih =>
      simp only [List.foldl]
      apply ih
      unfold sendOne sendChunk; simp only; split
      · exact w
      · exact w
  | queueEmpty => exact w
  | window w' => exact w
  | peerFin => simp only [step]; unfold Snd.peerFin; split <;> exact w
  | close now =>
    simp only [step]; unfold appClose
    split
    · exact windowOk_of_cc ((cc_ctrlStart _ _).trans rfl) w
    · exact windowOk_of_cc ((cc_ctrlStart _ _).trans rfl) w
    · exact w
  | flush now fuel ok =>
    exact windowOk_of_cc ((cc_flushLoop _ _ _ _ _).trans (cc_quiet _ _)) w
  | fire now qd =>
    simp only [step]; unfold Snd.fire
    split
    · exact w
    split
    · exact ok_rtoCb { c.s with armed := none } now qd hm w
    · exact w

theorem smss_markUnsacked (s : Snd) (a : Nat) : (markUnsacked s a).1.smss = s.smss :=
  (cc_fields (cc_mark s a)).2.2.2

theorem smss_step (c : Conn) (e : Ev) : (step c e).s.smss = c.s.smss := by
  have sm {x y : Snd} (h : cc x = cc y) : x.smss = y.smss := (cc_fields h).2.2.2
  cases e with
  | ack p win b d n =>
    simp only [step]
    generalize ha : (⟨sq c.iss p, win, b, d, n⟩ : AckSeg) = a
    generalize c.s = s
    have hadv : (ackAdvance (ackFront s a).1 a).1.smss = s.smss := by
      rw [← sm (cc_ackFront s a)]
      generalize (ackFront s a).1 = f
      unfold ackAdvance
      split
      · have hx : (advanceUna f a (ackDelta a.ack f.sndUna)).smss = f.smss :=
          sm (y := advanceFields f a.ack (ackDelta a.ack f.sndUna))
            (cc_rearm (advanceFields f a.ack (ackDelta a.ack f.sndUna)) a.now)
        unfold ccAdvance
        split
        · split
          · rw [smss_markUnsacked]; exact hx
          · exact hx
        · exact hx
      · rfl
    unfold tcpAck
    split
    · exact sm ((cc_closeSocket _).trans (cc_ctrlStop { s with lastPeerWin := a.win }))
    · simp only
      split
      · split
        · unfold grow
          split
          · split
            · exact hadv
            · split <;> exact hadv
          · exact hadv
        · exact hadv
      · unfold dupAck
        split
        · exact hadv
        split
        · exact hadv
        split
        · exact hadv
        split
        · exact hadv
        · have he := (cc_fields (cc_early (bumpDup (ackAdvance (ackFront s a).1 a).1) a.ack)).2.2.2
          have he : (tryEarly (bumpDup (ackAdvance (ackFront s a).1 a).1) a.ack).1.smss = s.smss :=
            he.trans hadv
          unfold onDup
          split
          · exact he
          split
          · exact he
          split
          · unfold enterRecovery; rw [smss_markUnsacked]; exact he
          · exact he
  | send chunks =>
    simp only [step]
    induction chunks generalizing c with
    | nil => rfl
    | cons x xs ih =>
      simp only [List.foldl]
      rw [ih]; unfold sendOne sendChunk; simp only; split <;> rfl
  | queueEmpty => rfl
  | window w' => rfl
  | peerFin => simp only [step]; unfold Snd.peerFin; split <;> rfl
  | close now =>
    simp only [step]; unfold appClose
    split
    · exact sm ((cc_ctrlStart _ _).trans rfl)
    · exact sm ((cc_ctrlStart _ _).trans rfl)
    · rfl
  | flush now fuel ok => exact sm ((cc_flushLoop _ _ _ _ _).trans (cc_quiet _ _))
  | fire now qd =>
    simp only [step]; unfold Snd.fire
    split
    · rfl
    split
    · generalize hx : ({ c.s with armed := none } : Snd) = x
      have hxu : x.smss = c.s.smss := by rw [← hx]
      rw [← hxu]; clear hxu hx
      unfold rtoCb
      split
      · split
        · exact sm (cc_fw2Stop _)
        · exact sm ((cc_closeSocket _).trans (cc_fw2Stop _))
      split
      · split
        · exact sm (cc_preacceptStop _)
        · exact sm (cc_revert _)
      split
      · unfold ctrlCb
        split
        · exact sm (cc_ctrlStop _)
        split
        · split
          · exact sm ((cc_revert _).trans (cc_ctrlStop _))
          · exact sm ((cc_closeSocket _).trans (cc_ctrlStop _))
        · unfold ctrlResend
          split
          · split
            · exact sm ((cc_ctrlStart _ _).trans rfl)
            · exact sm ((cc_ctrlStart _ _).trans rfl)
          · exact sm (cc_ctrlStart _ _)
      split
      · rfl
      · unfold rtoData
        split
        · simp only
          split
          · exact sm ((cc_closeSocket _).trans ((cc_cancel _).trans rfl))
          · simp only [rtoLoss, armTmr]; exact sm ((cc_cancel _).trans rfl)
        · simp only; exact sm ((cc_cancel _).trans rfl)
    · rfl

/-- Along a run, no visited state is about to overflow a 32-bit counter. -/
def RoomRun : Conn → List Ev → Prop
  | _, [] => True
  | c, e :: es => Room c.s ∧ RoomRun (step c e) es

/-- `tcp_initial_cwnd`, src/wolfip.c 3040-3054 (32-bit unsigned arithmetic). -/
def initialCwnd (peerRwnd smss : Nat) : Nat :=
  let iw10 := (smss * 10) % 4294967296
  let cap := if peerRwnd / 2 < (smss * 2) % 4294967296 then (smss * 2) % 4294967296 else peerRwnd / 2
  if cap < iw10 then cap else iw10

/-- `tcp_initial_ssthresh`, src/wolfip.c 3056-3059. -/
def initialSsthresh (peerRwnd : Nat) : Nat := if peerRwnd < TXBUF then peerRwnd else TXBUF

/-- **C13, initial window**: between two and ten segments, and never more than
half the peer's window unless that is below two segments. -/
theorem initial_cwnd_bounds (w m : Nat) (hm : m ≤ 65535) :
    2 * m ≤ initialCwnd w m ∧ initialCwnd w m ≤ 10 * m ∧
    (initialCwnd w m ≤ w / 2 ∨ initialCwnd w m = 2 * m) := by
  unfold initialCwnd; simp only
  rw [Nat.mod_eq_of_lt (by omega : m * 10 < 4294967296),
    Nat.mod_eq_of_lt (by omega : m * 2 < 4294967296)]
  split <;> split <;> omega

/-- **C13, window.** From connection establishment, after every history of
sends, ACKs, duplicate ACKs, timeouts, closes and transmissions in which no
32-bit counter is about to overflow, the congestion window is at least one
segment, and in fast recovery the threshold at least two. -/
theorem cwnd_at_least_one_segment (c : Conn) (es : List Ev) (hm : SmssOk c.s)
    (h0 : c.s.cwnd = initialCwnd c.s.peerRwnd c.s.smss) (hf : c.s.fastRec = false)
    (hr : RoomRun c es) :
    c.s.smss ≤ (run c es).s.cwnd ∧
    ((run c es).s.fastRec = true → 2 * c.s.smss ≤ (run c es).s.ssthresh) := by
  have : ∀ (es : List Ev) (c : Conn), SmssOk c.s → WindowOk c.s → RoomRun c es →
      WindowOk (run c es).s ∧ (run c es).s.smss = c.s.smss := by
    intro es
    induction es with
    | nil => intro c _ w _; exact ⟨w, rfl⟩
    | cons e es ih =>
      intro c hm w hr
      have hs := smss_step c e
      have := ih (step c e) (by unfold SmssOk at *; rw [hs]; exact hm) (ok_step c e hm hr.1 w) hr.2
      exact ⟨this.1, this.2.trans hs⟩
  have hw : WindowOk c.s := by
    refine ⟨?_, fun h => by rw [hf] at h; simp at h⟩
    rw [h0]; have := (initial_cwnd_bounds c.s.peerRwnd c.s.smss hm.2).1; omega
  obtain ⟨h1, h2⟩ := this es c hm hw hr
  unfold WindowOk at h1; rw [h2] at h1; exact h1

/-- **C13, loss by timeout**: a retransmission timeout that finds something to
retransmit (and does not give up) sets the window to exactly one segment and
the threshold to at least two and at most half the flight (or two segments). -/
theorem timeout_window (s : Snd) (now i : Nat) (hm : s.smss ≤ 65535) (ht : rtoTarget s = some i)
    (hb : s.rtoBackoff < 15) :
    (rtoData s now).cwnd = s.smss ∧ 2 * s.smss ≤ (rtoData s now).ssthresh ∧
    ((rtoData s now).ssthresh = s.inflight / 2 ∨ (rtoData s now).ssthresh = 2 * s.smss) ∧
    (rtoData s now).fastRec = false := by
  unfold rtoData
  rw [ht]
  simp only
  rw [if_neg (by omega)]
  have h := cc_fields (cc_cancel { s with peerSack := [], q := setAt s.q i Desc.markRetrans, inflight := 0 })
  simp only [rtoLoss, armTmr]
  refine ⟨h.2.2.2, ?_, ?_, trivial⟩
  · rw [h.2.2.2]; exact lossThresh_ge _ _ hm
  · rw [h.2.2.2]; simp only; unfold lossThresh; split <;> omega

/-- **C13, loss by duplicate ACKs**: the third duplicate (without a SACK-driven
early retransmission), covering no queued segment, sets threshold and window
from the flight size. -/
theorem recovery_entry_window (s : Snd) (a : AckSeg) (hm : s.smss ≤ 65535)
    (hst : s.st = .established)
    (hq : ∀ d, s.q[0]? = some d → d.data ≠ [] ∧ seqLeq ((d.seq + d.data.length) % 4294967296) a.ack = false)
    (hu : a.ack = s.sndUna) (hd : a.hasData = false)
    (hw : a.win = s.lastPeerWin) (h2 : s.dupAcks = 2) (hi : 0 < s.inflight)
    (hi2 : s.inflight < 2147483648) (hs : s.sackPermitted = false) :
    (tcpAck s a).fastRec = true ∧ 2 * s.smss ≤ (tcpAck s a).ssthresh ∧
    (tcpAck s a).ssthresh = max (s.inflight / 2) (2 * s.smss) ∧
    (tcpAck s a).cwnd = (tcpAck s a).ssthresh + 3 * s.smss := by
  have h1 : ackFinWait1 { s with lastPeerWin := a.win } a = { s with lastPeerWin := a.win } := by
    unfold ackFinWait1; simp [hst]
  have h1' : ackClosing { s with lastPeerWin := a.win } a = { s with lastPeerWin := a.win } := by
    unfold ackClosing; simp [hst]
  have hfr : ackFront s a = ({ s with lastPeerWin := a.win, peerSack := [] }, 0) := by
    unfold ackFront
    rw [h1, h1']
    have : processSack { s with lastPeerWin := a.win } a.blocks =
        { s with lastPeerWin := a.win, peerSack := [] } := by
      unfold processSack; simp [hs]
    rw [this]
    have hmk : ackMark (ackFuel s.q) s.q 0 a.ack 0 = (s.q, 0) := by
      unfold ackFuel
      rw [show (s.q.length + 1) * (s.q.length + 1) = (s.q.length * s.q.length + s.q.length + s.q.length) + 1 by
        rw [Nat.mul_add, Nat.add_mul]; omega]
      unfold ackMark
      cases hd0 : s.q[0]? with
      | none => rfl
      | some d =>
        obtain ⟨n1, n2⟩ := hq d hd0
        have n1 : d.data.isEmpty = false := by cases hx : d.data with
          | nil => exact absurd hx n1
          | cons => rfl
        simp only [Desc.len, n1, n2]
        split <;> rfl
    simp only [hmk]
  have hadv : ackAdvance { s with lastPeerWin := a.win, peerSack := [] } a =
      ({ s with lastPeerWin := a.win, peerSack := [] }, false) := by
    unfold ackAdvance isForward; simp [hu]
  have hres : tcpAck s a = onDup (bumpDup { s with lastPeerWin := a.win, peerSack := [] }) a.ack s.inflight := by
    unfold tcpAck
    have : ackEndsLastAck s a = false := by unfold ackEndsLastAck; simp [hst]
    rw [this, hfr]
    simp only [hadv]
    unfold dupAck
    simp [hu, hd, hw, Nat.ne_of_gt hi]
  have hE : tryEarly (bumpDup { s with lastPeerWin := a.win, peerSack := [] }) a.ack =
      (bumpDup { s with lastPeerWin := a.win, peerSack := [] }, false) := by
    unfold tryEarly wantEarly bumpDup; simp
  have hfin : tcpAck s a = enterRecovery (bumpDup { s with lastPeerWin := a.win, peerSack := [] }) a.ack s.inflight := by
    rw [hres]; unfold onDup; rw [hE]; simp [bumpDup, h2]
  rw [hfin]; unfold enterRecovery
  generalize hX : ({ bumpDup { s with lastPeerWin := a.win, peerSack := [] } with
    ssthresh := lossThresh s.inflight (bumpDup { s with lastPeerWin := a.win, peerSack := [] }).smss,
    cwnd := (lossThresh s.inflight (bumpDup { s with lastPeerWin := a.win, peerSack := [] }).smss +
      3 * (bumpDup { s with lastPeerWin := a.win, peerSack := [] }).smss) % 4294967296,
    cwndCount := 0, fastRec := true, recPt := (bumpDup { s with lastPeerWin := a.win, peerSack := [] }).seq } : Snd) = X
  have hc := cc_fields (cc_mark X a.ack)
  rw [hc.1, hc.2.1, hc.2.2.1, ← hX]
  simp only [bumpDup]
  have e1 := lossThresh_ge s.inflight s.smss hm
  have e2 := lossThresh_le s.inflight s.smss hm hi2
  have e3 : lossThresh s.inflight s.smss = max (s.inflight / 2) (2 * s.smss) := by
    unfold lossThresh; split <;> omega
  exact ⟨trivial, e1, e3, by omega⟩

theorem bump_ge (x : Snd) (h : 3 ≤ x.dupAcks) : 3 ≤ (bumpDup x).dupAcks := by
  unfold bumpDup; simp only; split <;> omega

/-- **C13**: each further duplicate inflates the window by one segment, without
any cap: after `n` more, the 32-bit window is `cwnd + n * smss` modulo 2^32 (the
code relies on the peer not sending that many). -/
theorem duplicate_inflation (s : Snd) (ack n k : Nat) (hs : s.peerSack = [])
    (h3 : 3 ≤ s.dupAcks) (hc : s.cwnd < 4294967296) :
    (Nat.repeat (fun x => onDup (bumpDup x) ack n) k s).cwnd = (s.cwnd + k * s.smss) % 4294967296 := by
  have hE : ∀ x : Snd, x.peerSack = [] → tryEarly x ack = (x, false) := by
    intro x hx; unfold tryEarly wantEarly; simp [hx]
  have one : ∀ x : Snd, x.peerSack = [] → 3 ≤ x.dupAcks →
      onDup (bumpDup x) ack n = { bumpDup x with cwnd := (x.cwnd + x.smss) % 4294967296 } := by
    intro x hx hd
    unfold onDup
    rw [hE (bumpDup x) hx]
    have : 3 < (bumpDup x).dupAcks := by unfold bumpDup; simp only; split <;> omega
    simp only [Bool.false_eq_true, if_false]
    rw [if_neg (by omega), if_neg (by omega)]
    rfl
  have gen : ∀ k, (Nat.repeat (fun x => onDup (bumpDup x) ack n) k s).peerSack = [] ∧
      3 ≤ (Nat.repeat (fun x => onDup (bumpDup x) ack n) k s).dupAcks ∧
      (Nat.repeat (fun x => onDup (bumpDup x) ack n) k s).smss = s.smss ∧
      (Nat.repeat (fun x => onDup (bumpDup x) ack n) k s).cwnd = (s.cwnd + k * s.smss) % 4294967296 := by
    intro k
    induction k with
    | zero => exact ⟨hs, h3, rfl, by simp [Nat.repeat]; omega⟩
    | succ k ih =>
      obtain ⟨i1, i2, i3, i4⟩ := ih
      simp only [Nat.repeat]
      rw [one _ i1 i2]
      refine ⟨i1, ?_, i3, ?_⟩
      · exact bump_ge _ i2
      · simp only; rw [i4, i3, Nat.succ_mul]; omega
  exact (gen k).2.2.2

/-- Non-vacuity of `cwnd_at_least_one_segment`: a run with sends, loss, timeout. -/
example : ∃ c es, SmssOk c.s ∧ c.s.cwnd = initialCwnd c.s.peerRwnd c.s.smss ∧ c.s.fastRec = false ∧
    RoomRun c es ∧ (run c es).s.cwnd = 2920 ∧ c.s.smss = 1460 ∧ es.length = 5 := by
  refine ⟨exConn, [.send [[1, 2, 3], [4, 5, 6]], .flush 10 99 99, .fire 2000 true,
    .flush 2001 99 99, .ack 3 100 [] false 2100], ?_, ?_, ?_, ?_, ?_, ?_, ?_⟩
  · unfold SmssOk; decide
  · decide
  · decide
  · simp only [RoomRun, Room]; decide +kernel
  all_goals decide +kernel

end Wolf.Tcp.Snd
