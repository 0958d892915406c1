import Verif.Tcp.SndWindow

/-!
# C73: reaction of the sender to duplicate acknowledgments

Only an acknowledgment that repeats SND.UNA, carries no data, repeats the window and arrives while
data is outstanding is a duplicate; anything else that acknowledges nothing new changes nothing.
The third duplicate puts the segment holding the first unacknowledged byte on the wire again, ahead
of the retransmission timer and whatever the windows are.
-/
namespace Wolf.Tcp.Snd
open Wolf.Tcp

/-! ### Specification -/

/-- RFC 5681 duplicate acknowledgment, as seen by a sender in state `s`. -/
def TrueDup (s : Snd) (a : AckSeg) : Prop :=
  a.ack = s.sndUna ∧ a.hasData = false ∧ a.win = s.lastPeerWin ∧ 0 < s.inflight

/-- The acknowledgment moves SND.UNA forward, within what was sent. -/
def NewAck (s : Snd) (a : AckSeg) : Prop :=
  s.sndUna ≠ a.ack ∧ seqLeq s.sndUna a.ack = true ∧ seqLeq a.ack s.seq = true

/-- Segment `d` carries stream position `pos`. -/
def Holds (iss pos : Nat) (d : Desc) : Prop :=
  ∃ x, d.seq = sq iss x ∧ x ≤ pos ∧ pos < x + d.data.length

/-- What the sender's congestion control remembers. -/
structure CC where
  cwnd : Nat
  ssthresh : Nat
  fastRec : Bool
  count : Nat
  dups : Nat
deriving DecidableEq

def ccOf (s : Snd) : CC := ⟨s.cwnd, s.ssthresh, s.fastRec, s.cwndCount, s.dupAcks⟩

/-! ### Frames -/

def cx (s : Snd) : CC × Nat × Nat × Nat := (ccOf s, s.smss, s.sndUna, s.seq)

theorem cx_cancel (s : Snd) : cx (cancelTmr s) = cx s := by unfold cancelTmr; split <;> rfl
theorem cancel_inflight (s : Snd) : (cancelTmr s).inflight = s.inflight := by unfold cancelTmr; split <;> rfl
theorem cx_mark (s : Snd) (a : Nat) : cx (markUnsacked s a).1 = cx s := by
  unfold markUnsacked
  cases scanUnsacked s.peerSack a s.q 0 with
  | mark i => rfl
  | pending => rfl
  | none c =>
    simp only
    split
    · rfl
    · cases scanUnsacked [] a s.q 0 <;> rfl

theorem cx_ackFront (s : Snd) (a : AckSeg) : cx (ackFront s a).1 = cx s ∧ (ackFront s a).1.inflight = s.inflight := by
  have h1 : ∀ s : Snd, cx (ackFinWait1 s a) = cx s ∧ (ackFinWait1 s a).inflight = s.inflight := by
    intro s; unfold ackFinWait1; split
    · exact ⟨(cx_cancel _).trans (cx_cancel _), (cancel_inflight _).trans (cancel_inflight _)⟩
    · exact ⟨rfl, rfl⟩
  have h2 : ∀ s : Snd, cx (ackClosing s a) = cx s ∧ (ackClosing s a).inflight = s.inflight := by
    intro s; unfold ackClosing; split
    · exact ⟨cx_cancel _, cancel_inflight _⟩
    · exact ⟨rfl, rfl⟩
  have h3 : ∀ s : Snd, cx (processSack s a.blocks) = cx s ∧ (processSack s a.blocks).inflight = s.inflight := by
    intro s; unfold processSack; split <;> exact ⟨rfl, rfl⟩
  have h0 : cx { s with lastPeerWin := a.win } = cx s := rfl
  refine ⟨(h3 _).1.trans ((h2 _).1.trans ((h1 _).1.trans h0)), (h3 _).2.trans ((h2 _).2.trans (h1 _).2)⟩

theorem cx_early (s : Snd) (a : Nat) : cx (tryEarly s a).1 = cx s := by
  unfold tryEarly; split
  · exact cx_mark _ _
  · rfl

theorem cx_rearm (s : Snd) (n : Nat) : cx (rearm s n) = cx s := by
  unfold rearm
  split
  · rfl
  split
  · exact cx_cancel s
  · exact cx_cancel s

/-! ### Classification of the responses -/

theorem isForward_iff (s : Snd) (a : AckSeg) : isForward s a.ack = true ↔ NewAck s a := by
  unfold isForward NewAck
  simp only [Bool.and_eq_true, bne_iff_ne, ne_eq]
  exact ⟨fun h => ⟨h.1.1, h.1.2, h.2⟩, fun h => ⟨⟨h.1, h.2.1⟩, h.2.2⟩⟩

theorem newAck_cx {s s' : Snd} (a : AckSeg) (h : cx s' = cx s) : NewAck s' a ↔ NewAck s a := by
  unfold cx at h
  simp only [Prod.mk.injEq] at h
  unfold NewAck
  rw [h.2.2.1, h.2.2.2]

theorem preMark_q (s : Snd) (a : AckSeg) : (preMark s a).q = s.q := by
  have p1 : ∀ s : Snd, (ackFinWait1 s a).q = s.q := by
    intro s; unfold ackFinWait1; split
    · exact (cancel_q _).trans (cancel_q _)
    · rfl
  have p2 : ∀ s : Snd, (ackClosing s a).q = s.q := by
    intro s; unfold ackClosing; split
    · exact cancel_q _
    · rfl
  have p3 : ∀ s : Snd, (processSack s a.blocks).q = s.q := by
    intro s; unfold processSack; split <;> rfl
  exact (p3 _).trans ((p2 _).trans (p1 _))

/-- **C73, nothing but a duplicate is treated as one.** An acknowledgment that neither moves SND.UNA
forward nor is a duplicate (it repeats an old number, carries data, changes the window, or nothing is
outstanding) leaves the congestion window, the threshold, the duplicate count and the recovery state
alone and schedules no retransmission. -/
theorem non_duplicate_ignored (s : Snd) (a : AckSeg) (hn : ¬ NewAck s a) (hd : ¬ TrueDup s a) :
    ccOf (tcpAck s a) = ccOf s ∧ ∀ d ∈ (tcpAck s a).q, d.retrans = true → d ∈ s.q := by
  have hmark : ∀ (f : Nat) (q : List Desc) (i c : Nat), ∀ d ∈ (ackMark f q i a.ack c).1, d.retrans = true → d ∈ q := by
    intro f
    induction f with
    | zero => intro q i c d hd _; exact hd
    | succ f ih =>
      intro q i c d hd hr
      unfold ackMark at hd
      split at hd
      · exact hd
      · split at hd
        · exact hd
        · split at hd
          · exact List.mem_of_mem_tail (ih _ _ _ d hd hr)
          · split at hd
            · rcases List.mem_or_eq_of_mem_set (ih _ _ _ d hd hr) with h | h
              · exact h
              · rw [h] at hr; cases hr
            · exact hd
  have hcx := (cx_ackFront s a).1
  have hq : ∀ d ∈ (ackFront s a).1.q, d.retrans = true → d ∈ s.q := by
    intro d hd hr
    rw [ackFront_eq] at hd
    have := hmark _ _ _ _ d hd hr
    have hp := preMark_q s a
    rw [hp] at this; exact this
  unfold tcpAck
  split
  · refine ⟨?_, ?_⟩
    · have h : cx (closeSocket (ctrlStop { s with lastPeerWin := a.win })) = cx s :=
        (cx_cancel _).trans (cx_cancel { s with lastPeerWin := a.win })
      exact congrArg (·.1) h
    · intro d hd; cases hd
  · have hfw : isForward (ackFront s a).1 a.ack = false := by
      cases h : isForward (ackFront s a).1 a.ack with
      | false => rfl
      | true => exact absurd ((newAck_cx a hcx).1 ((isForward_iff _ _).1 h)) hn
    have hadv : ackAdvance (ackFront s a).1 a = ((ackFront s a).1, false) := by
      unfold ackAdvance; rw [hfw]; rfl
    simp only [hadv, hfw, Bool.and_false, Bool.false_and, Bool.false_eq_true, if_false]
    split
    · refine ⟨congrArg (·.1) hcx, ?_⟩
      intro d hd
      exact hq d ((List.dropWhile_suffix (p := (·.acked)) (l := (ackFront s a).1.q)).mem hd)
    · have hu : (ackFront s a).1.sndUna = s.sndUna := congrArg (·.2.2.1) hcx
      have hdup : dupAck (ackFront s a).1 a s.inflight (a.win != s.lastPeerWin) = (ackFront s a).1 := by
        unfold dupAck
        split
        · rfl
        split
        · rfl
        split
        · rfl
        split
        · rfl
        · next h1 h2 h3 h4 =>
          refine absurd ⟨?_, ?_, ?_, ?_⟩ hd
          · rw [← hu]; exact Classical.not_not.1 h1
          · simpa using h3
          · simpa using h4
          · omega
      rw [hdup]
      exact ⟨congrArg (·.1) hcx, hq⟩

/-! ### The window moves by at most one segment per acknowledgment -/

theorem mod_le' (a : Nat) : a % 4294967296 ≤ a := Nat.mod_le _ _

/-- Slow start or congestion avoidance step, specification side: what one acknowledgment of new data
may do outside recovery. -/
def Growth (s s' : Snd) : Prop :=
  (s'.cwnd = s.cwnd ∧ (s'.cwndCount = s.cwndCount ∨ (s.ssthresh ≤ s.cwnd ∧ s'.cwndCount = s.cwndCount + s.smss))) ∨
  (s.cwnd < s.ssthresh ∧ s'.cwnd = s.cwnd + s.smss ∧ s'.cwndCount = s.cwndCount) ∨
  (s.ssthresh ≤ s.cwnd ∧ s.cwnd ≤ s.cwndCount + s.smss ∧ s'.cwnd = s.cwnd + s.smss ∧
    s'.cwndCount + s.cwnd = s.cwndCount + s.smss)

/-- No 32-bit counter is about to wrap. -/
def CCRoom (s : Snd) : Prop :=
  s.cwnd < 2147483648 ∧ s.ssthresh < 2147483648 ∧ s.inflight < 2147483648 ∧ s.cwndCount < 2147483648 ∧ s.smss ≤ 65535

/-- **C73, congestion response.** Outside fast recovery, an acknowledgment is answered in one of four
ways: slow start or congestion avoidance growth on new data (`Growth`; at most one segment, the threshold
untouched), recovery entry on the third duplicate, inflation by one segment on a duplicate beyond the
third, or nothing. -/
theorem ack_response (s : Snd) (a : AckSeg) (hr : CCRoom s) (hf : s.fastRec = false) :
    ((tcpAck s a).fastRec = false ∧ (tcpAck s a).ssthresh = s.ssthresh ∧ Growth s (tcpAck s a) ∧
      (ccOf (tcpAck s a) = ccOf s ∨ NewAck s a ∨ (TrueDup s a ∧ (tcpAck s a).cwnd = s.cwnd))) ∨
    (TrueDup s a ∧ s.dupAcks = 2 ∧ (tcpAck s a).fastRec = true ∧
      (tcpAck s a).ssthresh = max (s.inflight / 2) (2 * s.smss) ∧
      (tcpAck s a).cwnd = max (s.inflight / 2) (2 * s.smss) + 3 * s.smss) ∨
    (TrueDup s a ∧ 3 ≤ s.dupAcks ∧ (tcpAck s a).fastRec = false ∧ (tcpAck s a).ssthresh = s.ssthresh ∧
      (tcpAck s a).cwnd = s.cwnd + s.smss) := by
  by_cases hnd : ¬ NewAck s a ∧ ¬ TrueDup s a
  · left
    have h := (non_duplicate_ignored s a hnd.1 hnd.2).1
    refine ⟨(congrArg CC.fastRec h).trans hf, congrArg CC.ssthresh h, ?_, Or.inl h⟩
    exact Or.inl ⟨congrArg CC.cwnd h, Or.inl (congrArg CC.count h)⟩
  have hcx := (cx_ackFront s a).1
  have hfi := (cx_ackFront s a).2
  have hcf : ∀ x : Snd, cx x = cx s → x.cwnd = s.cwnd ∧ x.ssthresh = s.ssthresh ∧ x.fastRec = s.fastRec ∧
      x.cwndCount = s.cwndCount ∧ x.dupAcks = s.dupAcks ∧ x.smss = s.smss ∧ x.sndUna = s.sndUna := by
    intro x h
    unfold cx ccOf at h
    simp only [Prod.mk.injEq, CC.mk.injEq] at h
    exact ⟨h.1.1, h.1.2.1, h.1.2.2.1, h.1.2.2.2.1, h.1.2.2.2.2, h.2.1, h.2.2.1⟩
  by_cases hend : ackEndsLastAck s a = true
  · left
    have h : cx (tcpAck s a) = cx s := by
      unfold tcpAck
      rw [if_pos hend]
      exact (cx_cancel _).trans (cx_cancel { s with lastPeerWin := a.win })
    obtain ⟨h1, h2, h3, h4, h5, _, _⟩ := hcf _ h
    exact ⟨h3.trans hf, h2, Or.inl ⟨h1, Or.inl h4⟩, Or.inl (congrArg (·.1) h)⟩
  by_cases hfw : NewAck s a
  · -- new data acknowledged
    left
    have hfw' : isForward (ackFront s a).1 a.ack = true := (isForward_iff _ _).2 ((newAck_cx a hcx).2 hfw)
    obtain ⟨f1, f2, f3, f4, f5, f6, f7⟩ := hcf _ hcx
    -- after the forward block
    have hadv : ∃ x : Snd, ackAdvance (ackFront s a).1 a = (x, false) ∧ x.cwnd = s.cwnd ∧ x.ssthresh = s.ssthresh ∧
        x.fastRec = false ∧ x.cwndCount = s.cwndCount ∧ x.dupAcks = 0 ∧ x.smss = s.smss := by
      unfold ackAdvance
      rw [if_pos hfw']
      have hc := cx_rearm (advanceFields (ackFront s a).1 a.ack (ackDelta a.ack (ackFront s a).1.sndUna)) a.now
      unfold advanceUna
      generalize rearm (advanceFields (ackFront s a).1 a.ack (ackDelta a.ack (ackFront s a).1.sndUna)) a.now = y at hc ⊢
      unfold cx ccOf advanceFields at hc
      simp only [Prod.mk.injEq, CC.mk.injEq] at hc
      obtain ⟨⟨c1, c2, c3, c4, c5⟩, c6, _, _⟩ := hc
      unfold ccAdvance
      rw [if_neg (by rw [c3, f3, hf]; decide)]
      exact ⟨_, rfl, c1.trans f1, c2.trans f2, c3.trans (f3.trans hf), c4.trans f4, rfl, c6.trans f6⟩
    obtain ⟨x, hx, x1, x2, x3, x4, x5, x6⟩ := hadv
    unfold tcpAck
    rw [if_neg hend]
    simp only [hx]
    unfold CCRoom at hr
    split
    · split
      · -- growth
        unfold grow
        simp only [x1, x2, x4, x6]
        split
        · split
          · next hlt =>
            refine ⟨x3, rfl, Or.inr (Or.inl ⟨hlt, by simp only; omega, rfl⟩), Or.inr (Or.inl hfw)⟩
          · next hlt =>
            split
            · next hge =>
              refine ⟨x3, rfl, Or.inr (Or.inr ⟨by omega, by omega, by simp only; omega, by simp only; omega⟩), Or.inr (Or.inl hfw)⟩
            · next hge =>
              refine ⟨x3, rfl, Or.inl ⟨rfl, Or.inr ⟨by omega, ?_⟩⟩, Or.inr (Or.inl hfw)⟩
              simp only; omega
        · exact ⟨x3, rfl, Or.inl ⟨rfl, Or.inl rfl⟩, Or.inr (Or.inl hfw)⟩
      · exact ⟨x3, x2, Or.inl ⟨x1, Or.inl x4⟩, Or.inr (Or.inl hfw)⟩
    · -- acknowledged part of a segment: counted as a first duplicate, without effect on the windows
      have hb : ∀ n w, (dupAck x a n w).fastRec = false ∧ (dupAck x a n w).ssthresh = s.ssthresh ∧
          (dupAck x a n w).cwnd = s.cwnd ∧ (dupAck x a n w).cwndCount = s.cwndCount := by
        intro n w
        unfold dupAck
        split
        · exact ⟨x3, x2, x1, x4⟩
        split
        · exact ⟨x3, x2, x1, x4⟩
        split
        · exact ⟨x3, x2, x1, x4⟩
        split
        · exact ⟨x3, x2, x1, x4⟩
        · have hE : tryEarly (bumpDup x) a.ack = (bumpDup x, false) := by
            unfold tryEarly wantEarly bumpDup; simp [x5]
          unfold onDup
          rw [hE]
          simp only [Bool.false_eq_true, if_false]
          rw [if_pos (by unfold bumpDup; simp [x5])]
          exact ⟨x3, x2, x1, x4⟩
      obtain ⟨b1, b2, b3, b4⟩ := hb s.inflight (a.win != s.lastPeerWin)
      exact ⟨b1, b2, Or.inl ⟨b3, Or.inl b4⟩, Or.inr (Or.inl hfw)⟩
  · -- a duplicate
    have hdup : TrueDup s a := Classical.byContradiction fun h => hnd ⟨hfw, h⟩
    have hfw' : isForward (ackFront s a).1 a.ack = false := by
      cases h : isForward (ackFront s a).1 a.ack with
      | false => rfl
      | true => exact absurd ((newAck_cx a hcx).1 ((isForward_iff _ _).1 h)) hfw
    have hadv : ackAdvance (ackFront s a).1 a = ((ackFront s a).1, false) := by
      unfold ackAdvance; rw [hfw']; rfl
    obtain ⟨f1, f2, f3, f4, f5, f6, f7⟩ := hcf _ hcx
    obtain ⟨d1, d2, d3, d4⟩ := hdup
    unfold tcpAck
    rw [if_neg hend]
    simp only [hadv, hfw', Bool.and_false, Bool.false_and, Bool.false_eq_true, if_false]
    split
    · left
      exact ⟨f3.trans hf, f2, Or.inl ⟨f1, Or.inl f4⟩, Or.inl (congrArg (·.1) hcx)⟩
    · have hres : dupAck (ackFront s a).1 a s.inflight (a.win != s.lastPeerWin) =
          onDup (bumpDup (ackFront s a).1) a.ack s.inflight := by
        unfold dupAck
        rw [if_neg (by rw [f7]; exact fun h => h d1), if_neg (by omega), if_neg (by rw [d2]; decide),
          if_neg (by rw [d3]; simp)]
      rw [hres]
      have hbc : (bumpDup (ackFront s a).1).cwnd = s.cwnd ∧ (bumpDup (ackFront s a).1).ssthresh = s.ssthresh ∧
          (bumpDup (ackFront s a).1).fastRec = false ∧ (bumpDup (ackFront s a).1).cwndCount = s.cwndCount ∧
          (bumpDup (ackFront s a).1).smss = s.smss ∧
          (bumpDup (ackFront s a).1).dupAcks = (if s.dupAcks < 255 then s.dupAcks + 1 else s.dupAcks) :=
        ⟨f1, f2, f3.trans hf, f4, f6, by unfold bumpDup; simp only; rw [f5]⟩
      generalize bumpDup (ackFront s a).1 = y at hbc
      obtain ⟨b1, b2, b3, b4, b5, b6⟩ := hbc
      have he := cx_early y a.ack
      unfold cx ccOf at he
      simp only [Prod.mk.injEq, CC.mk.injEq] at he
      obtain ⟨⟨e1, e2, e3, e4, e5⟩, e6, _, _⟩ := he
      have hTD : TrueDup s a := ⟨d1, d2, d3, d4⟩
      unfold CCRoom at hr
      unfold onDup
      split
      · left
        exact ⟨e3.trans b3, e2.trans b2, Or.inl ⟨e1.trans b1, Or.inl (e4.trans b4)⟩, Or.inr (Or.inr ⟨hTD, e1.trans b1⟩)⟩
      split
      · left
        exact ⟨e3.trans b3, e2.trans b2, Or.inl ⟨e1.trans b1, Or.inl (e4.trans b4)⟩, Or.inr (Or.inr ⟨hTD, e1.trans b1⟩)⟩
      split
      · next h3 =>
        right; left
        rw [e5, b6] at h3
        have h2 : s.dupAcks = 2 := by split at h3 <;> omega
        unfold enterRecovery
        generalize hX : ({ (tryEarly y a.ack).1 with
          ssthresh := lossThresh s.inflight (tryEarly y a.ack).1.smss,
          cwnd := (lossThresh s.inflight (tryEarly y a.ack).1.smss + 3 * (tryEarly y a.ack).1.smss) % 4294967296,
          cwndCount := 0, fastRec := true, recPt := (tryEarly y a.ack).1.seq } : Snd) = X
        have hc := cc_fields (cc_mark X a.ack)
        rw [hc.1, hc.2.1, hc.2.2.1, ← hX]
        simp only
        rw [e6, b5]
        have q1 := lossThresh_le s.inflight s.smss hr.2.2.2.2 hr.2.2.1
        have q2 : lossThresh s.inflight s.smss = max (s.inflight / 2) (2 * s.smss) := by
          have := hr.2.2.2.2
          unfold lossThresh; split <;> omega
        rw [q2] at q1 ⊢
        refine ⟨hTD, h2, trivial, rfl, ?_⟩
        rw [Nat.mod_eq_of_lt]
        have := hr.2.2.1
        have := hr.2.2.2.2
        omega
      · next h3 h4 =>
        right; right
        rw [e5, b6] at h3 h4
        refine ⟨hTD, ?_, e3.trans b3, e2.trans b2, ?_⟩
        · split at h3 <;> split at h4 <;> omega
        · simp only
          rw [e1, e6, b1, b5]
          omega

theorem smss_tcpAck (s : Snd) (a : AckSeg) : (tcpAck s a).smss = s.smss := by
  have sm {x y : Snd} (h : cx x = cx y) : x.smss = y.smss := congrArg (·.2.1) h
  have hadv : (ackAdvance (ackFront s a).1 a).1.smss = s.smss := by
    rw [← sm (cx_ackFront s a).1]
    generalize (ackFront s a).1 = f
    unfold ackAdvance
    split
    · have hx : (advanceUna f a (ackDelta a.ack f.sndUna)).smss = f.smss :=
        sm (y := advanceFields f a.ack (ackDelta a.ack f.sndUna))
          (cx_rearm (advanceFields f a.ack (ackDelta a.ack f.sndUna)) a.now)
      unfold ccAdvance
      split
      · split
        · rw [smss_markUnsacked]; exact hx
        · exact hx
      · exact hx
    · rfl
  unfold tcpAck
  split
  · exact sm ((cx_cancel _).trans (cx_cancel { s with lastPeerWin := a.win }))
  · simp only
    split
    · split
      · unfold grow
        split
        · split
          · exact hadv
          · split <;> exact hadv
        · exact hadv
      · exact hadv
    · unfold dupAck
      split
      · exact hadv
      split
      · exact hadv
      split
      · exact hadv
      split
      · exact hadv
      · have he : (tryEarly (bumpDup (ackAdvance (ackFront s a).1 a).1) a.ack).1.smss = s.smss :=
          (sm (cx_early _ _)).trans hadv
        unfold onDup
        split
        · exact he
        split
        · exact he
        split
        · unfold enterRecovery
          rw [smss_markUnsacked]; exact he
        · exact he

/-- **C73, additive increase.** During congestion avoidance (window at or above the threshold, no
duplicates), `k` acknowledgments whatever they are can have grown the window `n` times only if
`n` windows' worth of segments fit in `k` segments plus what was already counted: at most about one
segment per window of acknowledgments. -/
theorem additive_increase : ∀ (as : List AckSeg) (s : Snd), s.fastRec = false → s.ssthresh ≤ s.cwnd →
    s.cwnd + as.length * s.smss < 2147483648 → s.cwndCount + as.length * s.smss < 2147483648 → s.smss ≤ 65535 →
    s.ssthresh < 2147483648 →
    (∀ k, k < as.length → ∀ x, as[k]? = some x → ¬ TrueDup ((as.take k).foldl tcpAck s) x ∧
      ((as.take k).foldl tcpAck s).inflight < 2147483648) →
    ∃ n, (as.foldl tcpAck s).cwnd = s.cwnd + n * s.smss ∧ (as.foldl tcpAck s).ssthresh = s.ssthresh ∧
      n * s.cwnd + (as.foldl tcpAck s).cwndCount ≤ s.cwndCount + as.length * s.smss
  | [], s, _, _, _, _, _, _, _ => ⟨0, by simp, rfl, by simp⟩
  | a :: as, s, hf, hge, hc, hcc, hm, hth, hnd => by
      have h0 := hnd 0 (by simp) a rfl
      simp only [List.take_zero, List.foldl_nil] at h0
      have hlen : (as.length + 1) * s.smss = as.length * s.smss + s.smss := Nat.succ_mul _ _
      simp only [List.length_cons] at hc hcc
      rw [hlen] at hc hcc
      have hroom : CCRoom s := ⟨by omega, hth, h0.2, by omega, hm⟩
      rcases ack_response s a hroom hf with ⟨r1, r2, r3, _⟩ | ⟨t, _⟩ | ⟨t, _⟩
      · have hsm : (tcpAck s a).smss = s.smss := smss_tcpAck s a
        have hg : ((tcpAck s a).cwnd = s.cwnd ∧ (tcpAck s a).cwndCount ≤ s.cwndCount + s.smss) ∨
            ((tcpAck s a).cwnd = s.cwnd + s.smss ∧ (tcpAck s a).cwndCount + s.cwnd = s.cwndCount + s.smss) := by
          rcases r3 with ⟨g1, g2 | g2⟩ | ⟨g1, _⟩ | ⟨_, _, g3, g4⟩
          · exact Or.inl ⟨g1, by omega⟩
          · exact Or.inl ⟨g1, by omega⟩
          · omega
          · exact Or.inr ⟨g3, g4⟩
        have ih := additive_increase as (tcpAck s a) r1 (by omega) (by rw [hsm]; omega) (by rw [hsm]; omega)
          (by rw [hsm]; exact hm) (by omega)
          (by
            intro k hk x hx
            have := hnd (k + 1) (by simp; omega) x (by simpa using hx)
            simpa using this)
        obtain ⟨n, i1, i2, i3⟩ := ih
        rw [hsm] at i1 i3
        simp only [List.foldl_cons, List.length_cons]
        rw [hlen]
        rcases hg with ⟨g1, g2⟩ | ⟨g1, g2⟩
        · exact ⟨n, by rw [i1, g1], by rw [i2, r2], by rw [g1] at i3; omega⟩
        · refine ⟨n + 1, by rw [i1, g1, Nat.succ_mul]; omega, by rw [i2, r2], ?_⟩
          rw [Nat.succ_mul]
          have : n * s.cwnd ≤ n * (tcpAck s a).cwnd := Nat.mul_le_mul_left _ (by omega)
          omega
      · exact absurd t h0.1
      · exact absurd t h0.1

/-- **C73, accounting.** An acknowledgment moving SND.UNA from stream position `x` to `y` outside recovery
takes exactly the `y - x` newly acknowledged bytes off the count of bytes in flight, also across the wrap of the
32-bit numbers. -/
theorem new_ack_accounting (s : Snd) (a : AckSeg) (iss x y : Nat) (hu : s.sndUna = sq iss x) (ha : a.ack = sq iss y)
    (hxy : x < y) (hd : y < x + 2147483648) (hfwd : seqLeq a.ack s.seq = true) (hf : s.fastRec = false)
    (hl : s.st ≠ .lastAck) : (tcpAck s a).inflight = s.inflight - (y - x) := by
  have hcx := (cx_ackFront s a).1
  have hfi := (cx_ackFront s a).2
  have hnew : NewAck s a := by
    refine ⟨?_, ?_, hfwd⟩
    · rw [hu, ha]; unfold sq; omega
    · rw [hu, ha]; exact ((seq_order_sound iss x y (by omega) (by omega)).2.1).2 (by omega)
  have hfw' : isForward (ackFront s a).1 a.ack = true := (isForward_iff _ _).2 ((newAck_cx a hcx).2 hnew)
  have hdelta : ackDelta a.ack (ackFront s a).1.sndUna = y - x := by
    have : (ackFront s a).1.sndUna = s.sndUna := congrArg (·.2.2.1) hcx
    rw [this, hu, ha]; unfold ackDelta sq; split <;> omega
  have hfr : (ackFront s a).1.fastRec = false := (congrArg (fun t => t.1.fastRec) hcx).trans hf
  have hadv : ∃ z : Snd, ackAdvance (ackFront s a).1 a = (z, false) ∧ z.dupAcks = 0 ∧ z.inflight = s.inflight - (y - x) := by
    unfold ackAdvance
    rw [if_pos hfw', hdelta]
    have hi : ∀ t : Snd, ∀ n, (rearm t n).inflight = t.inflight := by
      intro t n; unfold rearm
      split
      · rfl
      · split
        · exact cancel_inflight t
        · exact cancel_inflight t
    have hc := cx_rearm (advanceFields (ackFront s a).1 a.ack (y - x)) a.now
    have hrf : (advanceUna (ackFront s a).1 a (y - x)).fastRec = false :=
      (congrArg (fun t => t.1.fastRec) hc).trans hfr
    unfold ccAdvance
    rw [if_neg (by rw [hrf]; decide)]
    refine ⟨_, rfl, rfl, ?_⟩
    show (rearm _ _).inflight = _
    rw [hi]
    unfold advanceFields
    simp only [hfi]
    split <;> omega
  obtain ⟨z, hz, z1, z2⟩ := hadv
  unfold tcpAck
  have hne : ackEndsLastAck s a = false := by
    unfold ackEndsLastAck
    cases hst : s.st <;> first | rfl | exact absurd hst hl
  rw [hne]
  simp only [Bool.false_eq_true, if_false, hz]
  split
  · split
    · unfold grow
      split
      · split
        · exact z2
        · split <;> exact z2
      · exact z2
    · exact z2
  · unfold dupAck
    split
    · exact z2
    split
    · exact z2
    split
    · exact z2
    split
    · exact z2
    · have hE : tryEarly (bumpDup z) a.ack = (bumpDup z, false) := by
        unfold tryEarly wantEarly bumpDup; simp [z1]
      unfold onDup
      rw [hE]
      simp only [Bool.false_eq_true, if_false]
      rw [if_pos (by unfold bumpDup; simp [z1])]
      exact z2

/-! ### The third duplicate retransmits -/

/-- Where the first unacknowledged byte is: the first segment with payload. -/
theorem scan_first {iss pos : Nat} (sack : List (Nat × Nat)) : ∀ (q : List Desc) (k i : Nat) (d : Desc),
    q[k]? = some d → d.data ≠ [] → (∀ j e, j < k → q[j]? = some e → e.data = []) →
    seqLeq (seqInc d.seq d.len) (sq iss pos) = false → seqLeq d.seq (sq iss pos) = true →
    seqLt (sq iss pos) (seqInc d.seq d.len) = true →
    scanUnsacked sack (sq iss pos) q i =
      if isSacked sack d.seq (seqInc d.seq d.len) then scanUnsacked sack (sq iss pos) (q.drop (k + 1)) (i + k + 1)
      else if d.sent then .mark (i + k) else .pending
  | [], k, i, d, h, _, _, _, _, _ => by simp at h
  | e :: es, 0, i, d, h, hne, hb, h1, h2, h3 => by
      simp only [List.getElem?_cons_zero, Option.some.injEq] at h
      subst h
      have hemp : e.data.isEmpty = false := by
        cases hx : e.data with
        | nil => exact absurd hx hne
        | cons => rfl
      rw [scanUnsacked]
      simp only [hemp, h1, h2, h3, Bool.false_eq_true, if_false, Bool.and_true, if_true, List.drop_succ_cons, List.drop_zero, Nat.add_zero]
      cases e.sent <;> rfl
  | e :: es, k + 1, i, d, h, hne, hb, h1, h2, h3 => by
      simp only [List.getElem?_cons_succ] at h
      have h0 := hb 0 e (by omega) rfl
      rw [scanUnsacked]
      rw [if_pos (by rw [h0]; rfl)]
      rw [scan_first sack es k (i + 1) d h hne (fun j x hj hx => hb (j + 1) x (by omega) (by simpa using hx)) h1 h2 h3]
      rw [List.drop_succ_cons, show i + 1 + k = i + (k + 1) by omega]

/-- Past the segment holding the byte, the scan finds nothing. -/
theorem scan_past {iss pos : Nat} (sack : List (Nat × Nat)) : ∀ (q : List Desc) (i : Nat),
    (∀ e ∈ q, e.data ≠ [] → seqLeq e.seq (sq iss pos) = false) →
    ∃ b, scanUnsacked sack (sq iss pos) q i = .none b
  | [], i, _ => ⟨false, rfl⟩
  | e :: es, i, h => by
      have ih := scan_past sack es (i + 1) (fun x hx => h x (List.mem_cons_of_mem _ hx))
      rw [scanUnsacked]
      split
      · exact ih
      · next hne =>
        have h0 := h e (List.mem_cons_self ..) (fun c => hne (by rw [c]; rfl))
        simp only [h0, Bool.false_and, Bool.false_eq_true, if_false]
        split
        · exact ih
        split
        · exact ih
        · exact ih

/-- `tcp_mark_unsacked_for_retransmit` always reaches the segment holding the first unacknowledged
byte, whatever the SACK scoreboard says. -/
theorem mark_first {iss pos : Nat} (s : Snd) (k : Nat) (d : Desc)
    (hk : s.q[k]? = some d) (hne : d.data ≠ []) (hb : ∀ j e, j < k → s.q[j]? = some e → e.data = [])
    (h1 : seqLeq (seqInc d.seq d.len) (sq iss pos) = false) (h2 : seqLeq d.seq (sq iss pos) = true)
    (h3 : seqLt (sq iss pos) (seqInc d.seq d.len) = true)
    (hp : ∀ e ∈ s.q.drop (k + 1), e.data ≠ [] → seqLeq e.seq (sq iss pos) = false) :
    (markUnsacked s (sq iss pos)).2 = true ∧
    (markUnsacked s (sq iss pos)).1.q = if d.sent then s.q.set k d.markRetrans else s.q := by
  have e1 := scan_first s.peerSack s.q k 0 d hk hne hb h1 h2 h3
  have e2 := scan_first [] s.q k 0 d hk hne hb h1 h2 h3
  have hs : isSacked [] d.seq (seqInc d.seq d.len) = false := rfl
  rw [hs] at e2
  simp only [Bool.false_eq_true, if_false, Nat.zero_add] at e1 e2
  have hset : setAt s.q k Desc.markRetrans = s.q.set k d.markRetrans := by unfold setAt; rw [hk]
  unfold markUnsacked
  rw [e1]
  by_cases hsk : isSacked s.peerSack d.seq (seqInc d.seq d.len) = true
  · obtain ⟨b, hn⟩ := scan_past s.peerSack (s.q.drop (k + 1)) (k + 1) hp
    rw [if_pos hsk, hn]
    simp only
    have hne' : s.peerSack.isEmpty = false := by
      cases hx : s.peerSack with
      | nil => rw [hx] at hsk; cases hsk
      | cons => rfl
    rw [hne']
    simp only [Bool.false_eq_true, if_false]
    rw [e2]
    cases d.sent
    · exact ⟨rfl, rfl⟩
    · exact ⟨rfl, hset⟩
  · rw [if_neg hsk]
    cases d.sent
    · exact ⟨rfl, rfl⟩
    · exact ⟨rfl, hset⟩

/-- With nothing to acknowledge, the marking loop only discards leading empty segments. -/
theorem ackMark_idle : ∀ (f : Nat) (q : List Desc) (ack c : Nat),
    (∀ d ∈ q, d.data ≠ [] → seqLeq ((d.seq + d.len) % 4294967296) ack = false) →
    (ackMark f q 0 ack c).2 = c ∧ ∃ n, (ackMark f q 0 ack c).1 = q.drop n ∧
      ∀ j e, j < n → q[j]? = some e → e.data = []
  | 0, q, ack, c, _ => ⟨rfl, 0, rfl, fun j e hj => by omega⟩
  | f + 1, [], ack, c, _ => ⟨rfl, 0, rfl, fun j e hj => by omega⟩
  | f + 1, d :: ds, ack, c, h => by
      rw [ackMark]
      simp only [List.getElem?_cons_zero]
      split
      · exact ⟨rfl, 0, rfl, fun j e hj => by omega⟩
      split
      · next hemp =>
        have ih := ackMark_idle f ds ack c (fun e he => h e (List.mem_cons_of_mem _ he))
        obtain ⟨i1, n, i2, i3⟩ := ih
        refine ⟨i1, n + 1, i2, ?_⟩
        intro j e hj he
        cases j with
        | zero =>
          simp only [List.getElem?_cons_zero, Option.some.injEq] at he
          subst he
          exact List.isEmpty_iff.1 hemp
        | succ j => exact i3 j e (by omega) (by simpa using he)
      · next hemp =>
        rw [h d (List.mem_cons_self ..) (fun c => hemp (by rw [c]; rfl))]
        exact ⟨rfl, 0, rfl, fun j e hj => by omega⟩

/-- A segment queued for retransmission behind empty ones only is transmitted, whatever the windows. -/
theorem flush_retransmits (d : Desc) (hr : d.retrans = true) (hu : d.sent = false) (hne : d.data ≠ []) (now : Nat) :
    ∀ (m k : Nat) (s : Snd) (i fuel ok : Nat), s.q[k]? = some d → i ≤ k → k ≤ m → m < fuel →
    (k + 1) * (m + 2) ≤ fuel + i → k < ok →
    (∀ j e, j < k → s.q[j]? = some e → e.data = []) → d ∈ flushOut fuel ok s i now
  | m, k, s, i, 0, ok, _, _, _, h, _, _, _ => by omega
  | m, k, s, i, fuel + 1, ok, hk, hi, hm, hf, hfi, hok, hb => by
      have hlt := (List.getElem?_eq_some_iff.1 hk).1
      rw [flushOut]
      by_cases hik : i = k
      · subst hik
        rw [hk]
        simp only
        rw [if_neg (by rw [hu]; decide), if_pos (by unfold mayTx; rw [hr]; rfl)]
        cases ok with
        | zero => omega
        | succ ok =>
          simp only
          split
          · next hc => exact absurd (List.isEmpty_iff.1 hc) hne
          · exact List.mem_cons_self ..
      · obtain ⟨e, he⟩ : ∃ e, s.q[i]? = some e := ⟨s.q[i], List.getElem?_eq_getElem (by omega)⟩
        have hee := hb i e (by omega) he
        rw [he]
        simp only
        have hmul : (k + 1) * (m + 2) = k * (m + 2) + (m + 2) := Nat.succ_mul _ _
        have hmul' : k ≤ k * (m + 2) := Nat.le_mul_of_pos_right _ (by omega)
        split
        · refine flush_retransmits d hr hu hne now m k s (i + 1) fuel ok hk (by omega) hm ?_ (by omega) hok hb
          omega
        · rw [if_pos (by unfold mayTx; rw [hee]; simp)]
          cases ok with
          | zero => omega
          | succ ok =>
            simp only
            rw [if_pos (by rw [hee]; rfl)]
            refine List.mem_cons_of_mem _ ?_
            obtain ⟨k, rfl⟩ : ∃ k', k = k' + 1 := ⟨k - 1, by omega⟩
            have hmul2 : (k + 1 + 1) * (m + 2) = (k + 1) * (m + 2) + (m + 2) := Nat.succ_mul _ _
            refine flush_retransmits d hr hu hne now m k { s with q := (s.q.set i e.markSent).tail } 0 fuel ok ?_ (by omega)
              (by omega) ?_ (by omega) (by omega) ?_
            · show (s.q.set i e.markSent).tail[k]? = some d
              rw [List.getElem?_tail, List.getElem?_set_ne (by omega)]
              exact hk
            · have : m + 2 ≤ (k + 1) * (m + 2) := Nat.le_mul_of_pos_left _ (by omega)
              omega
            · intro j x hj hx
              have hx : (s.q.set i e.markSent).tail[j]? = some x := hx
              rw [List.getElem?_tail, List.getElem?_set] at hx
              split at hx
              · split at hx
                · simp only [Option.some.injEq] at hx
                  subst hx; exact hee
                · cases hx
              · exact hb (j + 1) x (by omega) hx

/-- First data segment of a chain. -/
theorem chain_first {iss : Nat} {acc : List UInt8} {hi : Nat} : ∀ {q : List Desc} {p : Nat}, Chain iss acc hi p q →
    p < acc.length → ∃ k d, q[k]? = some d ∧ d.data ≠ [] ∧ d.seq = sq iss p ∧ Piece acc p d.data ∧
      (∀ j e, j < k → q[j]? = some e → e.data = []) ∧
      ∀ e ∈ q.drop (k + 1), e.data ≠ [] → ∃ x, p + d.data.length ≤ x ∧ x < acc.length ∧ e.seq = sq iss x
  | [], p, h, hp => by simp only [Chain] at h; omega
  | d :: ds, p, h, hp => by
      simp only [Chain] at h
      rcases h with ⟨a, b⟩ | ⟨a, b, c, d', e', f⟩
      · obtain ⟨k, x, h1, h2, h3, h6, h4, h5⟩ := chain_first b hp
        refine ⟨k + 1, x, by simpa using h1, h2, h3, h6, ?_, by simpa using h5⟩
        intro j e hj he
        cases j with
        | zero =>
          simp only [List.getElem?_cons_zero, Option.some.injEq] at he
          subst he; exact a
        | succ j => exact h4 j e (by omega) (by simpa using he)
      · refine ⟨0, d, rfl, a, b, ⟨c, ?_⟩, fun j e hj => by omega, ?_⟩
        · intro j hj
          rw [← List.getElem?_drop, ← List.getElem?_take_of_lt hj, d', List.getElem?_eq_getElem hj]
        intro e he hne
        simp only [List.drop_succ_cons, List.drop_zero] at he
        obtain ⟨i, hi⟩ := List.getElem?_of_mem he
        obtain ⟨x, x1, x2, x3, _⟩ := chain_at f hi hne
        have : 0 < e.data.length := List.length_pos_iff.2 hne
        exact ⟨x, x1, by omega, x2⟩

/-- **C73, fast retransmit.** On an open connection with any legitimate history, let a third duplicate
acknowledgment of position `pos` arrive, `pos` being the first unacknowledged byte, held by a segment that
has been transmitted (every queued segment reaches beyond `pos`, i.e. what earlier acknowledgments covered
has left the queue). Then the next transmission turn puts a segment holding that byte on the wire, with its
true content, whatever the peer's window, the congestion window and the SACK blocks are, without waiting for the
retransmission timer. -/
theorem third_duplicate_retransmits (c : Conn) (es : List Ev) (h0 : Fresh c) (hl : LegitRun c es)
    (hopen : openSt (run c es).s.st = true) (pos win now : Nat) (blocks : List (Nat × Nat))
    (hpos : (run c es).hi ≤ pos) (hlt : pos < (run c es).acc.length)
    (hdup : TrueDup (run c es).s ⟨sq (run c es).iss pos, win, blocks, false, now⟩)
    (h2 : (run c es).s.dupAcks = 2)
    (hq : ∀ d ∈ (run c es).s.q, d.data ≠ [] → seqLeq (seqInc d.seq d.len) (sq (run c es).iss pos) = false)
    (hsent : ∀ d ∈ (run c es).s.q, Holds (run c es).iss pos d → d.sent = true ∨ d.retrans = true)
    (now' fuel ok : Nat)
    (hok : (run c es).s.q.length < ok)
    (hfuel : ((run c es).s.q.length + 1) * ((run c es).s.q.length + 2) ≤ fuel) :
    ∃ d ∈ emits (step (run c es) (.ack pos win blocks false now)) (.flush now' fuel ok),
      d.retrans = true ∧ Holds (run c es).iss pos d ∧
      ∃ x, d.seq = sq (run c es).iss x ∧ Piece (run c es).acc x d.data := by
  have hi0 : Inv c.iss c.acc c.hi c.s := by
    obtain ⟨a, b, cc, d⟩ := h0
    refine Or.inr ⟨0, by omega, by omega, by simp [b], ?_, by rw [b, d]; rfl⟩
    rw [a, b]; rfl
  have hinv := inv_run es c hl hi0
  generalize run c es = c' at *
  obtain ⟨p, hg⟩ : ∃ p, Good c'.iss c'.acc c'.hi c'.s p := by
    rcases hinv with g | g
    · rcases g with g | g <;> rw [g] at hopen <;> cases hopen
    · exact g
  have hple : p ≤ pos := Nat.le_trans hg.le hpos
  have hcap := hg.cap
  obtain ⟨k, d, k1, k2, k3, hpiece, k4, k5⟩ := chain_first hg.chain (by omega)
  have hmem := List.mem_of_getElem? k1
  have hend : seqInc d.seq d.len = sq c'.iss (p + d.data.length) := by
    obtain ⟨x, x1, x2, x3, _⟩ := chain_at hg.chain k1 k2
    rw [k3]; exact seq_inc_sound _ _ _ (by unfold Desc.len; omega)
  have hdl : p + d.data.length ≤ c'.acc.length := by
    have := chain_sum hg.chain
    have h4 : d.len ≤ queued c'.s.q := mem_le_sum (List.mem_map_of_mem hmem)
    unfold Desc.len at h4
    omega
  have hdpos : 0 < d.data.length := List.length_pos_iff.2 k2
  have q1 := hq d hmem k2
  have hcov : pos < p + d.data.length := by
    rw [hend] at q1
    have := ((seq_order_sound c'.iss (p + d.data.length) pos (by omega) (by omega)).2.1)
    apply Nat.lt_of_not_le
    intro hc
    rw [this.2 hc] at q1; cases q1
  have q2 : seqLeq d.seq (sq c'.iss pos) = true := by
    rw [k3]
    exact ((seq_order_sound c'.iss p pos (by omega) (by omega)).2.1).2 hple
  have q3 : seqLt (sq c'.iss pos) (seqInc d.seq d.len) = true := by
    rw [hend]
    exact ((seq_order_sound c'.iss pos (p + d.data.length) (by omega) (by omega)).1).2 hcov
  have hholds : Holds c'.iss pos d := ⟨p, k3, hple, hcov⟩
  have hpast : ∀ e ∈ c'.s.q.drop (k + 1), e.data ≠ [] → seqLeq e.seq (sq c'.iss pos) = false := by
    intro e he hne
    obtain ⟨x, x1, x2, x3⟩ := k5 e he hne
    rw [x3]
    cases hc : seqLeq (sq c'.iss x) (sq c'.iss pos) with
    | false => rfl
    | true =>
      have := ((seq_order_sound c'.iss x pos (by omega) (by omega)).2.1).1 hc
      omega
  obtain ⟨d1, d2, d3, d4⟩ := hdup
  simp only [emits, step]
  generalize hA : (⟨sq c'.iss pos, win, blocks, false, now⟩ : AckSeg) = a at d1 d2 d3 ⊢
  have haa : a.ack = sq c'.iss pos := by rw [← hA]
  -- the front half discards leading empty segments only
  have hcx := (cx_ackFront c'.s a).1
  have hpq : (preMark c'.s a).q = c'.s.q := preMark_q c'.s a
  obtain ⟨m1, n, m2, m3⟩ := ackMark_idle (ackFuel c'.s.q) c'.s.q a.ack 0 (by
    intro e he hne
    have := hq e he hne
    have hee : seqInc e.seq e.len = (e.seq + e.len) % 4294967296 := by
      obtain ⟨i, hi⟩ := List.getElem?_of_mem he
      obtain ⟨x, x1, x2, x3, _⟩ := chain_at hg.chain hi hne
      rw [x2, seq_inc_sound _ _ _ (by unfold Desc.len; omega)]
      unfold sq Desc.len; omega
    rw [haa, ← hee]; exact this)
  have hfq : (ackFront c'.s a).1.q = c'.s.q.drop n := by rw [ackFront_eq, hpq]; exact m2
  have hf0 : (ackFront c'.s a).2 = 0 := by rw [ackFront_eq, hpq]; exact m1
  have hnk : n ≤ k := by
    apply Nat.le_of_not_lt
    intro hc
    exact k2 (m3 k d hc k1)
  have hfw : isForward (ackFront c'.s a).1 a.ack = false := by
    cases h : isForward (ackFront c'.s a).1 a.ack with
    | false => rfl
    | true =>
      have := ((newAck_cx a hcx).1 ((isForward_iff _ _).1 h)).1
      exact absurd d1.symm this
  have hadv : ackAdvance (ackFront c'.s a).1 a = ((ackFront c'.s a).1, false) := by
    unfold ackAdvance; rw [hfw]; rfl
  have hu : (ackFront c'.s a).1.sndUna = c'.s.sndUna := congrArg (·.2.2.1) hcx
  have hda : (ackFront c'.s a).1.dupAcks = 2 := (congrArg (fun t => t.1.dups) hcx).trans h2
  have hres : tcpAck c'.s a = onDup (bumpDup (ackFront c'.s a).1) a.ack c'.s.inflight := by
    unfold tcpAck
    have : ackEndsLastAck c'.s a = false := by
      unfold ackEndsLastAck
      unfold openSt at hopen
      simp only [Bool.or_eq_true, beq_iff_eq] at hopen
      rcases hopen with e | e <;> rw [e] <;> rfl
    rw [this]
    simp only [Bool.false_eq_true, if_false, hadv, hf0]
    rw [if_neg (by omega)]
    unfold dupAck
    rw [if_neg (by rw [hu]; exact fun h => h d1), if_neg (by omega), if_neg (by rw [d2]; decide),
      if_neg (by rw [d3]; simp)]
  -- the segment in the shortened queue
  have g1 : (c'.s.q.drop n)[k - n]? = some d := by
    rw [List.getElem?_drop, show n + (k - n) = k by omega]; exact k1
  have g2 : ∀ j e, j < k - n → (c'.s.q.drop n)[j]? = some e → e.data = [] := by
    intro j e hj he
    rw [List.getElem?_drop] at he
    exact k4 _ e (by omega) he
  have g3 : ∀ e ∈ (c'.s.q.drop n).drop (k - n + 1), e.data ≠ [] → seqLeq e.seq (sq c'.iss pos) = false := by
    rw [List.drop_drop, show n + (k - n + 1) = k + 1 by omega]; exact hpast
  have hmk : ∀ s : Snd, s.q = c'.s.q.drop n → (markUnsacked s a.ack).2 = true ∧
      (markUnsacked s a.ack).1.q = if d.sent then (c'.s.q.drop n).set (k - n) d.markRetrans else c'.s.q.drop n := by
    intro s hs
    rw [haa]
    have := mark_first (iss := c'.iss) (pos := pos) s (k - n) d (by rw [hs]; exact g1) k2 (by rw [hs]; exact g2) q1 q2 q3
      (by rw [hs]; exact g3)
    rw [hs] at this
    exact this
  have hq' : (tcpAck c'.s a).q = if d.sent then (c'.s.q.drop n).set (k - n) d.markRetrans else c'.s.q.drop n := by
    rw [hres]
    have hbq : (bumpDup (ackFront c'.s a).1).q = c'.s.q.drop n := hfq
    have hbd : (bumpDup (ackFront c'.s a).1).dupAcks = 3 := by unfold bumpDup; simp only; rw [hda]; decide
    generalize bumpDup (ackFront c'.s a).1 = y at hbq hbd
    by_cases hw : wantEarly y a.ack = true
    · have hE : tryEarly y a.ack = markUnsacked y a.ack := by unfold tryEarly; rw [if_pos hw]
      unfold onDup
      rw [hE, if_pos (hmk y hbq).1]
      exact (hmk y hbq).2
    · have hE : tryEarly y a.ack = (y, false) := by unfold tryEarly; rw [if_neg hw]
      unfold onDup
      rw [hE]
      simp only [Bool.false_eq_true, if_false]
      rw [if_neg (by omega), if_pos hbd]
      unfold enterRecovery
      exact (hmk _ (by exact hbq)).2
  -- transmission
  have hnlen : k < c'.s.q.length := (List.getElem?_eq_some_iff.1 k1).1
  have hfu : (k - n + 1) * (c'.s.q.length + 2) ≤ fuel := by
    refine Nat.le_trans (Nat.mul_le_mul_right _ ?_) hfuel
    omega
  have hfm : c'.s.q.length < fuel := by
    have : c'.s.q.length + 2 ≤ (c'.s.q.length + 1) * (c'.s.q.length + 2) := Nat.le_mul_of_pos_left _ (by omega)
    omega
  have fin : ∀ d' : Desc, (tcpAck c'.s a).q[k - n]? = some d' → d'.retrans = true → d'.sent = false → d'.data = d.data →
      d'.seq = d.seq → (∀ j e, j < k - n → (tcpAck c'.s a).q[j]? = some e → e.data = []) →
      ∃ d ∈ flushOut fuel ok (resync (tcpAck c'.s a) now') 0 now', d.retrans = true ∧ Holds c'.iss pos d ∧
        ∃ x, d.seq = sq c'.iss x ∧ Piece c'.acc x d.data := by
    intro d' e1 e2 e3 e4 e5 e6
    refine ⟨d', ?_, e2, ⟨p, by rw [e5, k3], hple, by rw [e4]; exact hcov⟩, p, by rw [e5, k3], by rw [e4]; exact hpiece⟩
    refine flush_retransmits d' e2 e3 (by rw [e4]; exact k2) now' c'.s.q.length (k - n) _ 0 fuel ok ?_ (by omega)
      (by omega) hfm (by omega) (by omega) ?_
    · rw [resync_q]; exact e1
    · rw [resync_q]; exact e6
  cases hds : d.sent with
  | true =>
    rw [hds] at hq'
    simp only [if_true] at hq'
    refine fin d.markRetrans ?_ rfl rfl rfl rfl ?_
    · rw [hq', List.getElem?_set_self (by rw [List.length_drop]; omega)]
    · intro j e hj he
      rw [hq', List.getElem?_set_ne (by omega)] at he
      exact g2 j e hj he
  | false =>
    rw [hds] at hq'
    simp only [Bool.false_eq_true, if_false] at hq'
    have hr : d.retrans = true := by
      rcases hsent d hmem hholds with h | h
      · rw [hds] at h; cases h
      · exact h
    refine fin d ?_ hr hds rfl rfl ?_
    · rw [hq']; exact g1
    · rw [hq']; exact g2

/-- The hypotheses of `third_duplicate_retransmits` are met by a real exchange: three segments, two of
them sent, and three duplicates of the initial acknowledgment (state before the third). -/
def exDupEvs : List Ev :=
  [.send [List.replicate 1460 7, List.replicate 1460 8, List.replicate 1460 9], .flush 10 99 99,
   .ack 0 3000 [] false 20, .ack 0 3000 [] false 21]

example : let c := run exWin exDupEvs
    openSt c.s.st = true ∧ c.s.dupAcks = 2 ∧ c.hi = 0 ∧ 0 < c.acc.length ∧
    (c.s.q.map (fun d => (d.seq, d.len, d.sent))) = [(1000, 1460, true), (2460, 1460, true), (3920, 1460, false)] ∧
    sq c.iss 0 = c.s.sndUna ∧ c.s.lastPeerWin = 3000 ∧ 0 < c.s.inflight := by
  refine ⟨?_, ?_, ?_, ?_, ?_, ?_, ?_, ?_⟩ <;> decide +kernel

/-- **C73 is not quite what the code does**: if the first SACK block arrives with the third duplicate, the
segment is retransmitted but recovery is never entered: the threshold is not reduced, and every further
duplicate inflates the window of a connection that is not in recovery (so nothing deflates it). -/
theorem recovery_skipped_with_late_sack :
    let c := run { exWin with s := { exWinSock with sackPermitted := true } }
      [.send [List.replicate 1460 7, List.replicate 1460 8], .flush 10 99 99,
       .ack 0 3000 [] false 20, .ack 0 3000 [] false 21, .ack 0 3000 [(2460, 3920)] false 22,
       .ack 0 3000 [(2460, 3920)] false 23, .ack 0 3000 [(2460, 3920)] false 24]
    c.s.fastRec = false ∧ c.s.ssthresh = 65535 ∧ c.s.cwnd = 5840 + 2 * 1460 := by
  refine ⟨?_, ?_, ?_⟩ <;> decide +kernel

end Wolf.Tcp.Snd
