import Verif.Tcp.FastRtx

/-!
# C76: a closed connection is kept until its data and FIN are acknowledged

After `close()` the connection leaves the states in which it retransmits only when an acknowledgment
covers every byte `send()` accepted and the FIN, or when a timer gives up.
-/
namespace Wolf.Tcp.Snd
open Wolf.Tcp

/-- Waiting for our FIN to be acknowledged. -/
def finPending (st : State) : Bool := st == .finWait1 || st == .closing || st == .lastAck

/-- The fields this file is about. -/
def lx (s : Snd) : Nat × Nat × State := (s.last, s.seq, s.st)

theorem lx_cancel (s : Snd) : lx (cancelTmr s) = lx s := by unfold cancelTmr; split <;> rfl

theorem lx_mark (s : Snd) (a : Nat) : lx (markUnsacked s a).1 = lx s := by
  unfold markUnsacked
  cases scanUnsacked s.peerSack a s.q 0 with
  | mark i => rfl
  | pending => rfl
  | none c =>
    simp only
    split
    · rfl
    · cases scanUnsacked [] a s.q 0 <;> rfl

theorem lx_rearm (s : Snd) (n : Nat) : lx (rearm s n) = lx s := by
  unfold rearm
  split
  · rfl
  split
  · exact lx_cancel s
  · exact lx_cancel s

theorem lx_early (s : Snd) (a : Nat) : lx (tryEarly s a).1 = lx s := by
  unfold tryEarly; split
  · exact lx_mark _ _
  · rfl

theorem lx_onDup (s : Snd) (a n : Nat) : lx (onDup s a n) = lx s := by
  unfold onDup
  split
  · exact lx_early s a
  split
  · exact lx_early s a
  split
  · exact (lx_mark _ _).trans (lx_early s a)
  · exact lx_early s a

theorem lx_dupAck (s : Snd) (a : AckSeg) (n : Nat) (w : Bool) : lx (dupAck s a n w) = lx s := by
  unfold dupAck
  split
  · rfl
  split
  · rfl
  split
  · rfl
  split
  · rfl
  · exact lx_onDup _ _ _

theorem lx_grow (s : Snd) (n : Nat) : lx (grow s n) = lx s := by
  unfold grow
  split
  · split
    · rfl
    · split <;> rfl
  · rfl

theorem lx_advance (s : Snd) (a : AckSeg) : lx (ackAdvance s a).1 = lx s := by
  unfold ackAdvance
  split
  · have h : lx (advanceUna s a (ackDelta a.ack s.sndUna)) = lx s := lx_rearm _ _
    unfold ccAdvance
    split
    · split
      · exact (lx_mark _ _).trans h
      · exact h
    · exact h
  · rfl

/-- The state an acknowledgment leads to, as the code decides it. -/
theorem tcpAck_state (s : Snd) (a : AckSeg) :
    (tcpAck s a).seq = s.seq ∧ (tcpAck s a).last = s.last ∧
    ((tcpAck s a).st = s.st ∨ (finPending s.st = true ∧ seqLeq (seqInc s.last 1) a.ack = true ∧
      finPending (tcpAck s a).st = false)) := by
  unfold tcpAck
  split
  · next h =>
    unfold ackEndsLastAck at h
    simp only [Bool.and_eq_true, decide_eq_true_eq] at h
    have hl := (lx_cancel (ctrlStop { s with lastPeerWin := a.win })).trans
      (show lx (ctrlStop { s with lastPeerWin := a.win }) = lx s from lx_cancel { s with lastPeerWin := a.win })
    unfold lx at hl
    simp only [Prod.mk.injEq] at hl
    refine ⟨hl.2.1, hl.1, Or.inr ⟨by rw [h.1]; rfl, h.2, rfl⟩⟩
  · have hrest : lx (if (ackFront s a).2 > 0 then
        if decide ((popAcked (ackAdvance (ackFront s a).1 a).1.q).length < (ackAdvance (ackFront s a).1 a).1.q.length) &&
            isForward (ackFront s a).1 a.ack && !(ackAdvance (ackFront s a).1 a).2
        then grow { (ackAdvance (ackFront s a).1 a).1 with q := popAcked (ackAdvance (ackFront s a).1 a).1.q } s.inflight
        else { (ackAdvance (ackFront s a).1 a).1 with q := popAcked (ackAdvance (ackFront s a).1 a).1.q }
      else dupAck (ackAdvance (ackFront s a).1 a).1 a s.inflight (a.win != s.lastPeerWin)) = lx (ackFront s a).1 := by
      split
      · split
        · exact (lx_grow _ _).trans (lx_advance _ _)
        · exact lx_advance _ _
      · exact (lx_dupAck _ _ _ _).trans (lx_advance _ _)
    simp only
    unfold lx at hrest
    simp only [Prod.mk.injEq] at hrest
    obtain ⟨r1, r2, r3⟩ := hrest
    rw [r1, r2, r3]
    -- the front half
    have hp : ∀ t : Snd, lx (processSack t a.blocks) = lx t := by
      intro t; unfold processSack; split <;> rfl
    have hfront : (ackFront s a).1.seq = (ackClosing (ackFinWait1 { s with lastPeerWin := a.win } a) a).seq ∧
        (ackFront s a).1.last = (ackClosing (ackFinWait1 { s with lastPeerWin := a.win } a) a).last ∧
        (ackFront s a).1.st = (ackClosing (ackFinWait1 { s with lastPeerWin := a.win } a) a).st := by
      have := hp (ackClosing (ackFinWait1 { s with lastPeerWin := a.win } a) a)
      unfold lx at this
      simp only [Prod.mk.injEq] at this
      exact ⟨this.2.1, this.1, this.2.2⟩
    rw [hfront.1, hfront.2.1, hfront.2.2]
    by_cases h1 : s.st = .finWait1 ∧ seqLeq (seqInc s.last 1) a.ack = true
    · have e1 : lx (ackFinWait1 { s with lastPeerWin := a.win } a) = (s.last, s.seq, .finWait2) := by
        unfold ackFinWait1
        rw [if_pos (by exact h1)]
        exact (lx_cancel _).trans (lx_cancel _)
      generalize ackFinWait1 { s with lastPeerWin := a.win } a = y at e1
      unfold lx at e1
      simp only [Prod.mk.injEq] at e1
      have e2 : ackClosing y a = y := by
        unfold ackClosing; rw [if_neg (by rw [e1.2.2]; rintro ⟨c, _⟩; cases c)]
      rw [e2, e1.1, e1.2.1, e1.2.2]
      exact ⟨rfl, rfl, Or.inr ⟨by rw [h1.1]; rfl, h1.2, rfl⟩⟩
    · have e1 : ackFinWait1 { s with lastPeerWin := a.win } a = { s with lastPeerWin := a.win } := by
        unfold ackFinWait1; rw [if_neg (by exact h1)]
      rw [e1]
      by_cases h2 : s.st = .closing ∧ seqLeq (seqInc s.last 1) a.ack = true
      · have e2 : lx (ackClosing { s with lastPeerWin := a.win } a) = (s.last, s.seq, .timeWait) := by
          unfold ackClosing
          rw [if_pos (by exact h2)]
          exact lx_cancel _
        unfold lx at e2
        simp only [Prod.mk.injEq] at e2
        rw [e2.1, e2.2.1, e2.2.2]
        exact ⟨rfl, rfl, Or.inr ⟨by rw [h2.1]; rfl, h2.2, rfl⟩⟩
      · have e2 : ackClosing { s with lastPeerWin := a.win } a = { s with lastPeerWin := a.win } := by
          unfold ackClosing; rw [if_neg (by exact h2)]
        rw [e2]
        exact ⟨rfl, rfl, Or.inl rfl⟩

/-- While the FIN is unacknowledged, `last` is the number right behind the data. -/
def LInv (s : Snd) : Prop := finPending s.st = true → s.last = s.seq

theorem linv_lx {s s' : Snd} (h : lx s' = lx s) (i : LInv s) : LInv s' := by
  unfold lx at h
  simp only [Prod.mk.injEq] at h
  unfold LInv at *
  rw [h.1, h.2.1, h.2.2]; exact i

theorem linv_off {s : Snd} (h : finPending s.st = false) : LInv s := fun c => by rw [h] at c; cases c

theorem linv_ctrlStart {s : Snd} (now : Nat) (i : LInv s) : LInv (ctrlStart s now) :=
  linv_lx (lx_cancel { s with fw2 := false }) i

theorem linv_fire {s : Snd} (now : Nat) (qd : Bool) (i : LInv s) : LInv (fire s now qd) := by
  unfold fire
  split
  · exact i
  split
  · generalize hs0 : ({ s with armed := none } : Snd) = s0
    have i0 : LInv s0 := by rw [← hs0]; exact i
    have hstop : lx (ctrlStop s0) = lx s0 := lx_cancel s0
    unfold rtoCb
    split
    · split
      · exact linv_lx (lx_cancel s0) i0
      · exact linv_off rfl
    split
    · split
      · exact linv_lx (lx_cancel s0) i0
      · exact linv_off rfl
    split
    · unfold ctrlCb
      split
      · exact linv_lx hstop i0
      split
      · split
        · exact linv_off rfl
        · exact linv_off rfl
      · unfold ctrlResend
        split
        · split
          · exact linv_ctrlStart now (s := { pushEmpty s0 true with ctrlRetries := s0.ctrlRetries + 1, last := s0.seq })
              (fun _ => rfl)
          · exact linv_ctrlStart now (s := { pushEmpty s0 with ctrlRetries := s0.ctrlRetries + 1 }) i0
        · exact linv_ctrlStart now i0
    split
    · exact i0
    · unfold rtoData
      split
      · simp only
        split
        · exact linv_off rfl
        · exact linv_lx ((lx_cancel _)) i0
      · exact linv_lx (lx_cancel _) i0
  · exact i

theorem flushLoop_lx : ∀ (f ok : Nat) (s : Snd) (i now : Nat), lx (flushLoop f ok s i now) = lx s
  | 0, _, _, _, _ => rfl
  | f + 1, ok, s, i, now => by
      unfold flushLoop
      split
      · rfl
      split
      · exact flushLoop_lx f ok s (i + 1) now
      split
      · split
        · rfl
        · split
          · exact flushLoop_lx f _ _ 0 now
          · exact (flushLoop_lx f _ _ _ now).trans (lx_cancel _)
      · split
        · split
          · exact flushLoop_lx f ok s _ now
          · rfl
        · rfl

theorem lx_resync (s : Snd) (now : Nat) : lx (resync s now) = lx s := by
  unfold resync
  split
  · rfl
  split
  · rfl
  split
  · rfl
  split
  · exact lx_cancel _
  · rfl

theorem finPending_open {st : State} (h : openSt st = true) : finPending st = false := by
  cases st <;> first | rfl | cases h

theorem linv_step (c : Conn) (e : Ev) (i : LInv c.s) : LInv (step c e).s := by
  cases e with
  | send chunks =>
    show LInv (chunks.foldl sendOne c).s
    induction chunks generalizing c with
    | nil => exact i
    | cons x xs ih =>
      refine ih (sendOne c x) ?_
      show LInv (sendChunk c.s x).1
      unfold sendChunk
      split
      · next h =>
        refine linv_off ?_
        rcases h.1 with h | h <;> (show finPending c.s.st = false) <;> rw [h] <;> rfl
      · exact i
  | queueEmpty => exact i
  | ack pos win blocks d now =>
    obtain ⟨h1, h2, h3⟩ := tcpAck_state c.s ⟨sq c.iss pos, win, blocks, d, now⟩
    show LInv (tcpAck c.s _)
    rcases h3 with h3 | ⟨_, _, h3⟩
    · unfold LInv at *; rw [h1, h2, h3]; exact i
    · exact linv_off h3
  | peerFin =>
    show LInv (Snd.peerFin c.s)
    unfold Snd.peerFin
    split
    · exact linv_off rfl
    · next h => exact fun _ => i (by rw [h]; rfl)
    · exact i
  | close now =>
    show LInv (appClose c.s now)
    unfold appClose
    split
    · exact linv_ctrlStart now (fun _ => rfl)
    · exact linv_ctrlStart now (fun _ => rfl)
    · exact i
  | fire now qd => exact linv_fire now qd i
  | flush now fuel ok => exact linv_lx ((flushLoop_lx _ _ _ _ _).trans (lx_resync _ _)) i
  | window w => exact i

theorem linv_run : ∀ (es : List Ev) (c : Conn), LInv c.s → LInv (run c es).s
  | [], _, h => h
  | e :: es, c, h => linv_run es (step c e) (linv_step c e h)

/-- **C76, nothing is given up early.** On a connection with any history since establishment, if an
acknowledgment of stream position `pos` (less than half the sequence space from the end of the data) takes
the connection out of a state in which its FIN is unacknowledged - FIN_WAIT_1, CLOSING or LAST_ACK - then it
acknowledges the FIN and hence every byte `send()` ever accepted. -/
theorem closed_only_when_acknowledged (c : Conn) (es : List Ev) (h0 : Start c) (hst : c.s.st = .established) (pos win now : Nat)
    (blocks : List (Nat × Nat)) (d : Bool) (hp : finPending (run c es).s.st = true)
    (hout : (step (run c es) (.ack pos win blocks d now)).s.st ≠ (run c es).s.st)
    (hr1 : pos < (run c es).acc.length + 2147483648) (hr2 : (run c es).acc.length < pos + 2147483647) :
    (run c es).acc.length < pos := by
  have hE := einv_run es (einv_start h0)
  have hL : LInv (run c es).s := by
    refine linv_run es c (linv_off ?_)
    rw [hst]; rfl
  have hl := hL hp
  rcases (tcpAck_state (run c es).s ⟨sq (run c es).iss pos, win, blocks, d, now⟩).2.2 with h | ⟨_, h, _⟩
  · exact absurd h hout
  · rw [hl, hE.seq, seq_inc_sound _ _ _ (by omega)] at h
    have := ((seq_order_sound (run c es).iss ((run c es).acc.length + 1) pos (by omega) (by omega)).2.1).1 h
    omega

/-- **C76, who ends it.** Only an acknowledgment or a timer takes a connection whose FIN is unacknowledged
to another state, apart from the peer's own FIN (FIN_WAIT_1 to CLOSING): transmissions, application calls and
window updates do not. -/
theorem pending_close_kept (c : Conn) (e : Ev) (hp : finPending c.s.st = true)
    (ha : ∀ p w b d n, e ≠ .ack p w b d n) (hf : ∀ n q, e ≠ .fire n q) :
    finPending (step c e).s.st = true := by
  have hno : openSt c.s.st = false := by
    cases hst : c.s.st <;> rw [hst] at hp <;> first | rfl | cases hp
  cases e with
  | send chunks =>
    rw [show (step c (.send chunks)).s.st = c.s.st from ?_]
    · exact hp
    · show (chunks.foldl sendOne c).s.st = c.s.st
      induction chunks generalizing c with
      | nil => rfl
      | cons x xs ih =>
        have h1 : (sendOne c x).s.st = c.s.st := by
          show (sendChunk c.s x).1.st = _
          unfold sendChunk; split <;> rfl
        exact (ih (sendOne c x) (by rw [h1]; exact hp) (by rw [h1]; exact hno) (fun _ _ _ _ _ k => by cases k)
          (fun _ _ k => by cases k)).trans h1
  | queueEmpty => exact hp
  | ack p w b d n => exact absurd rfl (ha p w b d n)
  | peerFin =>
    show finPending (Snd.peerFin c.s).st = true
    unfold Snd.peerFin
    split
    · next h => rw [h] at hp; cases hp
    · rfl
    · exact hp
  | close now =>
    show finPending (appClose c.s now).st = true
    unfold appClose
    split
    · next h => rw [h] at hp; cases hp
    · next h => rw [h] at hp; cases hp
    · exact hp
  | fire now qd => exact absurd rfl (hf now qd)
  | flush now fuel ok =>
    have h := (flushLoop_lx fuel ok (resync c.s now) 0 now).trans (lx_resync c.s now)
    unfold lx at h
    simp only [Prod.mk.injEq] at h
    show finPending (flushLoop fuel ok (resync c.s now) 0 now).st = true
    rw [h.2.2]; exact hp
  | window w => exact hp

/-- **C76, giving up.** A timer ends a connection whose FIN is unacknowledged only after the control segment
has been sent again eight times, or the data segment has timed out fifteen times. -/
theorem close_given_up_only_after_retries (s : Snd) (now : Nat) (qd : Bool) (hp : finPending s.st = true)
    (hfw : s.fw2 = false) (hpre : s.preaccept = false)
    (hout : finPending (fire s now qd).st = false) :
    (fire s now qd).st = .closed ∧ (8 ≤ s.ctrlRetries ∨ 15 ≤ s.rtoBackoff) := by
  unfold fire at hout ⊢
  split
  · next h => rw [h] at hout; rw [hp] at hout; cases hout
  · next dl h =>
    rw [h] at hout
    simp only at hout
    split
    · next hd =>
      rw [if_pos hd] at hout
      generalize hs0 : ({ s with armed := none } : Snd) = s0 at hout ⊢
      have e1 : s0.st = s.st := by rw [← hs0]
      have e2 : s0.fw2 = false := by rw [← hs0]; exact hfw
      have e3 : s0.preaccept = false := by rw [← hs0]; exact hpre
      have e4 : s0.ctrlRetries = s.ctrlRetries := by rw [← hs0]
      have e5 : s0.rtoBackoff = s.rtoBackoff := by rw [← hs0]
      rw [← e4, ← e5]
      rw [← e1] at hp
      clear hs0 e1 e4 e5
      have keep : ∀ t : Snd, t.st = s0.st → finPending t.st = false → False := by
        intro t h1 h2; rw [h1, hp] at h2; cases h2
      have hcs : ∀ t : Snd, (ctrlStart t now).st = t.st := fun t => congrArg (·.2.2) (lx_cancel { t with fw2 := false })
      have hcp : ∀ t : Snd, (ctrlStop t).st = t.st := fun t => congrArg (·.2.2) (lx_cancel t)
      have hcc : ∀ t : Snd, (cancelTmr t).st = t.st := fun t => congrArg (·.2.2) (lx_cancel t)
      unfold rtoCb at hout ⊢
      rw [if_neg (by rw [e2]; decide), if_neg (by rw [e3]; decide)] at hout ⊢
      by_cases hc : (needsCtrl s0 || s0.ctrlActive) = true
      · rw [if_pos hc] at hout ⊢
        unfold ctrlCb at hout ⊢
        by_cases h1 : (!needsCtrl s0) = true
        · rw [if_pos h1] at hout
          exact (keep _ (hcp s0) hout).elim
        · rw [if_neg h1] at hout ⊢
          by_cases h2 : s0.ctrlRetries ≥ 8
          · rw [if_pos h2] at hout ⊢
            by_cases h3 : s0.isListener = true ∧ s0.st = .synRcvd
            · rw [h3.2] at hp; cases hp
            · rw [if_neg h3]
              exact ⟨rfl, Or.inl h2⟩
          · rw [if_neg h2] at hout
            refine (keep _ ?_ hout).elim
            unfold ctrlResend
            split
            · split
              · exact hcs _
              · exact hcs _
            · exact hcs _
      · rw [if_neg hc] at hout ⊢
        by_cases h1 : s0.st ≠ .established ∧ s0.st ≠ .finWait1
        · rw [if_pos h1] at hout
          exact (keep _ rfl hout).elim
        · rw [if_neg h1] at hout ⊢
          unfold rtoData at hout ⊢
          split
          · next i hi =>
            rw [hi] at hout
            simp only at hout ⊢
            by_cases hb : s0.rtoBackoff ≥ 15
            · rw [if_pos hb]; exact ⟨rfl, Or.inr hb⟩
            · rw [if_neg hb] at hout
              refine (keep _ ?_ hout).elim
              exact hcc { s0 with peerSack := [], q := setAt s0.q i Desc.markRetrans, inflight := 0 }
          · next hi =>
            rw [hi] at hout
            refine (keep _ ?_ hout).elim
            exact hcc { s0 with peerSack := [], inflight := 0 }
    · next hd =>
      rw [if_neg hd, hp] at hout; cases hout

/-- A concrete close: three bytes, FIN, and the ACK that takes LAST_ACK down acknowledges position 4. -/
example : let c := run exWin [.send [[1, 2, 3]], .flush 5 9 9, .peerFin, .close 6, .flush 7 9 9]
    finPending c.s.st = true ∧ c.acc.length = 3 ∧
    (step c (.ack 3 3000 [] false 9)).s.st = .lastAck ∧ (step c (.ack 4 3000 [] false 9)).s.st = .closed := by
  refine ⟨?_, ?_, ?_, ?_⟩ <;> decide +kernel

end Wolf.Tcp.Snd
