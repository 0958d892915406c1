import Verif.Tcp.SndCC
/-
C14: unacknowledged data keeps being retransmitted.
-/
namespace Wolf.Tcp.Snd
open Wolf.Tcp

/-- Specification: some data has been sent and not acknowledged. -/
def Outstanding (s : Snd) : Prop := ∃ d ∈ s.q, d.sent = true ∧ d.data ≠ []

theorem hasSent_iff (s : Snd) : hasSent s.q = true ↔ Outstanding s := by
  unfold hasSent Outstanding
  rw [List.any_eq_true]
  constructor
  · rintro ⟨d, hd, h⟩
    simp only [Bool.and_eq_true, Bool.not_eq_true', List.isEmpty_eq_false_iff] at h
    exact ⟨d, hd, h.1, h.2⟩
  · rintro ⟨d, hd, h1, h2⟩
    refine ⟨d, hd, ?_⟩
    simp only [Bool.and_eq_true, Bool.not_eq_true', List.isEmpty_eq_false_iff]
    exact ⟨h1, h2⟩

/-- An established connection in plain data transfer whose timer handle is
consistent (a handle is held exactly while a timer is in the heap). -/
structure Plain (s : Snd) : Prop where
  st : s.st = .established
  tmr : s.tmrId = s.armed.isSome
  fw2 : s.fw2 = false
  pre : s.preaccept = false
  ctrl : s.ctrlActive = false

/-- The plain-transfer fields. -/
def pl (s : Snd) : State × Bool × Bool × Bool := (s.st, s.fw2, s.preaccept, s.ctrlActive)

theorem plain_of {s s' : Snd} (h : pl s' = pl s) (ht : s'.tmrId = s'.armed.isSome) (p : Plain s) :
    Plain s' := by
  unfold pl at h; simp only [Prod.mk.injEq] at h
  exact ⟨h.1.trans p.st, ht, h.2.1.trans p.fw2, h.2.2.1.trans p.pre, h.2.2.2.trans p.ctrl⟩

theorem tmr_cancel (s : Snd) (h : s.tmrId = s.armed.isSome) :
    (cancelTmr s).tmrId = (cancelTmr s).armed.isSome ∧ (cancelTmr s).armed = none := by
  unfold cancelTmr
  split
  · exact ⟨rfl, rfl⟩
  · rename_i h1
    refine ⟨h, ?_⟩
    cases ha : s.armed with
    | none => rfl
    | some d => rw [ha] at h; exact absurd h h1

theorem pl_cancel (s : Snd) : pl (cancelTmr s) = pl s := by unfold cancelTmr; split <;> rfl

theorem plain_cancel {s : Snd} (p : Plain s) : Plain (cancelTmr s) :=
  plain_of (pl_cancel s) (tmr_cancel s p.tmr).1 p

theorem plain_arm {s : Snd} (d : Nat) (p : Plain s) : Plain (armTmr s d) :=
  plain_of (s := s) rfl rfl p

theorem pl_mark (s : Snd) (a : Nat) : pl (markUnsacked s a).1 = pl s ∧
    (markUnsacked s a).1.tmrId = s.tmrId ∧ (markUnsacked s a).1.armed = s.armed := by
  unfold markUnsacked
  cases scanUnsacked s.peerSack a s.q 0 with
  | mark i => exact ⟨rfl, rfl, rfl⟩
  | pending => exact ⟨rfl, rfl, rfl⟩
  | none c =>
    simp only
    split
    · exact ⟨rfl, rfl, rfl⟩
    · cases scanUnsacked [] a s.q 0 <;> exact ⟨rfl, rfl, rfl⟩

theorem plain_mark {s : Snd} (a : Nat) (p : Plain s) : Plain (markUnsacked s a).1 := by
  obtain ⟨h1, h2, h3⟩ := pl_mark s a
  exact plain_of h1 (by rw [h2, h3]; exact p.tmr) p

theorem plain_needsCtrl {s : Snd} (p : Plain s) : (needsCtrl s || s.ctrlActive) = false := by
  unfold needsCtrl; rw [p.st, p.ctrl]; rfl

theorem plain_same {s s' : Snd} (p : Plain s) (h : pl s' = pl s) (h1 : s'.tmrId = s.tmrId)
    (h2 : s'.armed = s.armed) : Plain s' := plain_of h (by rw [h1, h2]; exact p.tmr) p

theorem plain_ackFront {s : Snd} (a : AckSeg) (p : Plain s) : Plain (ackFront s a).1 := by
  have h1 : ackFinWait1 { s with lastPeerWin := a.win } a = { s with lastPeerWin := a.win } := by
    unfold ackFinWait1; simp [p.st]
  have h2 : ackClosing { s with lastPeerWin := a.win } a = { s with lastPeerWin := a.win } := by
    unfold ackClosing; simp [p.st]
  unfold ackFront
  rw [h1, h2]
  unfold processSack
  simp only
  split
  · exact plain_same p rfl rfl rfl
  · exact plain_same p rfl rfl rfl

theorem plain_ackAdvance {s : Snd} (a : AckSeg) (p : Plain s) : Plain (ackAdvance s a).1 := by
  unfold ackAdvance
  split
  · generalize ackDelta a.ack s.sndUna = δ
    have p1 : Plain (advanceFields s a.ack δ) := plain_same p rfl rfl rfl
    have p2 : Plain (advanceUna s a δ) := by
      unfold advanceUna rearm
      split
      · exact p1
      split
      · exact plain_arm _ (plain_cancel p1)
      · exact plain_cancel p1
    unfold ccAdvance
    split
    · split
      · exact plain_mark _ (plain_same p2 rfl rfl rfl)
      · exact plain_same p2 rfl rfl rfl
    · exact plain_same p2 rfl rfl rfl
  · exact p

theorem plain_tcpAck {s : Snd} (a : AckSeg) (p : Plain s) : Plain (tcpAck s a) := by
  have hl : ackEndsLastAck s a = false := by unfold ackEndsLastAck; simp [p.st]
  have pa := plain_ackAdvance a (plain_ackFront a p)
  unfold tcpAck
  rw [hl]
  simp only [Bool.false_eq_true, if_false]
  split
  · split
    · unfold grow
      split
      · split
        · exact plain_same pa rfl rfl rfl
        · split <;> exact plain_same pa rfl rfl rfl
      · exact plain_same pa rfl rfl rfl
    · exact plain_same pa rfl rfl rfl
  · unfold dupAck
    split
    · exact pa
    split
    · exact pa
    split
    · exact pa
    split
    · exact pa
    · have pb : Plain (bumpDup (ackAdvance (ackFront s a).1 a).1) := plain_same pa rfl rfl rfl
      have pe : Plain (tryEarly (bumpDup (ackAdvance (ackFront s a).1 a).1) a.ack).1 := by
        unfold tryEarly; split
        · exact plain_mark _ pb
        · exact pb
      unfold onDup
      split
      · exact plain_same pe rfl rfl rfl
      split
      · exact pe
      split
      · exact plain_mark _ (plain_same pe rfl rfl rfl)
      · exact plain_same pe rfl rfl rfl

theorem plain_resync {s : Snd} (now : Nat) (p : Plain s) : Plain (resync s now) := by
  unfold resync
  rw [plain_needsCtrl p]
  simp only [Bool.false_eq_true, if_false]
  split
  · exact plain_same p rfl rfl rfl
  split
  · exact plain_arm _ (plain_same p rfl rfl rfl)
  split
  · exact plain_cancel (s := { s with inflight := sentBytes s.q }) (plain_same p rfl rfl rfl)
  · exact plain_same p rfl rfl rfl

/-- After the resynchronisation step of a transmission, outstanding data has an
armed timer. -/
theorem resync_armed {s : Snd} (now : Nat) (p : Plain s) :
    hasSent (resync s now).q = true → (resync s now).armed.isSome = true := by
  rw [resync_q]
  intro hs
  unfold resync
  rw [plain_needsCtrl p]
  simp only [Bool.false_eq_true, if_false, p.pre, hs, Bool.true_and, Bool.not_true, Bool.false_and]
  split
  · rfl
  · rename_i h
    simp only
    rw [← p.tmr]
    simpa using h

theorem plain_txData {s : Snd} (i : Nat) (d : Desc) (now : Nat) (p : Plain s) :
    Plain (txData s i d now) :=
  plain_arm _ (plain_cancel (s := { s with q := s.q.set i d.markSent, inflight := if d.retrans then s.inflight else s.inflight + d.len }) (plain_same p rfl rfl rfl))

theorem any_tail {α : Type} (p : α → Bool) (l : List α) (h : l.tail.any p = true) : l.any p = true := by
  cases l with
  | nil => exact h
  | cons a l => simp only [List.any_cons]; simp only [List.tail_cons] at h; rw [h]; simp

theorem hasSent_set_empty (q : List Desc) (i : Nat) (d : Desc) (hd : d.data.isEmpty = true) :
    hasSent (q.set i d.markSent) = true → hasSent q = true := by
  unfold hasSent
  rw [List.any_eq_true, List.any_eq_true]
  rintro ⟨x, hx, h⟩
  rcases List.mem_or_eq_of_mem_set hx with hx | hx
  · exact ⟨x, hx, h⟩
  · subst hx; simp [Desc.markSent, hd] at h

theorem flushLoop_armed : ∀ (f ok : Nat) (s : Snd) (i now : Nat), Plain s →
    (hasSent s.q = true → s.armed.isSome = true) →
    Plain (flushLoop f ok s i now) ∧
    (hasSent (flushLoop f ok s i now).q = true → (flushLoop f ok s i now).armed.isSome = true)
  | 0, _, _, _, _, p, h => ⟨p, h⟩
  | f + 1, ok, s, i, now, p, h => by
      unfold flushLoop
      cases hd : s.q[i]? with
      | none => exact ⟨p, h⟩
      | some d =>
        simp only
        split
        · exact flushLoop_armed f ok s _ now p h
        split
        · cases ok with
          | zero => exact ⟨p, h⟩
          | succ ok =>
            simp only
            split
            · rename_i hemp
              refine flushLoop_armed f ok _ _ now (plain_same p rfl rfl rfl) ?_
              intro hh
              exact h (hasSent_set_empty _ _ _ hemp (any_tail _ _ hh))
            · exact flushLoop_armed f ok _ _ now (plain_txData i d now p) (fun _ => rfl)
        · cases findRetrans s.q i with
          | none => exact ⟨p, h⟩
          | some j =>
            simp only
            split
            · exact flushLoop_armed f ok s _ now p h
            · exact ⟨p, h⟩

/-- Every timeout in plain transfer leaves a consistent connection or closes it. -/
theorem plain_rtoData {s : Snd} (now : Nat) (p : Plain { s with armed := s.armed }) :
    Plain (rtoData { s with armed := none } now) ∨ (rtoData { s with armed := none } now).st = .closed := by
  have key : ∀ x : Snd, pl x = pl s → x.armed = none → pl (cancelTmr x) = pl s ∧
      (cancelTmr x).armed = none := by
    intro x h1 h2
    refine ⟨(pl_cancel x).trans h1, ?_⟩
    unfold cancelTmr; split <;> simp [h2]
  have hts : ∀ x : Snd, (cancelTmr x).tmrId = false := by
    intro x; unfold cancelTmr; split
    · rfl
    · rename_i h; simpa using h
  unfold rtoData
  split
  · simp only
    split
    · right; rfl
    · left
      unfold rtoLoss
      apply plain_arm
      rename_i i _ _
      obtain ⟨k1, k2⟩ := key { s with armed := none, peerSack := [], q := setAt s.q i Desc.markRetrans, inflight := 0 } rfl rfl
      exact plain_of (s := s) k1 (by show (cancelTmr _).tmrId = (cancelTmr _).armed.isSome; rw [hts, k2]; rfl) p
  · left
    obtain ⟨k1, k2⟩ := key { s with armed := none, peerSack := [], inflight := 0 } rfl rfl
    exact plain_of (s := s) k1 (by show (cancelTmr _).tmrId = (cancelTmr _).armed.isSome; rw [hts, k2]; rfl) p

/-- Events of plain data transfer (no FIN, no close). -/
def DataEv : Ev → Prop
  | .peerFin => False
  | .close _ => False
  | _ => True

theorem fire_plain_eq (s : Snd) (now d : Nat) (qd : Bool) (p : Plain s) (ha : s.armed = some d)
    (hd : d ≤ now) : fire s now qd = rtoData { s with armed := none } now := by
  unfold fire
  rw [ha]; simp only [hd, if_true]
  unfold rtoCb
  have hn : needsCtrl { s with armed := none } = false := by unfold needsCtrl; simp [p.st]
  rw [hn]
  simp only [p.fw2, p.pre, p.ctrl, p.st]
  simp

theorem plain_step (c : Conn) (e : Ev) (he : DataEv e) (p : Plain c.s) :
    Plain (step c e).s ∨ (step c e).s.st = .closed := by
  cases e with
  | peerFin => exact absurd he id
  | close _ => exact absurd he id
  | ack pos win b d n => exact Or.inl (plain_tcpAck _ p)
  | queueEmpty => exact Or.inl (plain_same p rfl rfl rfl)
  | window w => exact Or.inl (plain_same p rfl rfl rfl)
  | send chunks =>
    left
    simp only [step]
    clear he
    induction chunks generalizing c with
    | nil => exact p
    | cons x xs ih =>
      simp only [List.foldl]
      apply ih
      unfold sendOne sendChunk; simp only; split <;> exact plain_same p rfl rfl rfl
  | flush now fuel ok =>
    exact Or.inl (flushLoop_armed fuel ok _ 0 now (plain_resync now p) (resync_armed now p)).1
  | fire now qd =>
    simp only [step]
    cases ha : c.s.armed with
    | none => left; unfold Snd.fire; rw [ha]; exact p
    | some d =>
      by_cases hd : d ≤ now
      · rw [fire_plain_eq _ _ _ _ p ha hd]; exact plain_rtoData now p
      · left; unfold Snd.fire; rw [ha]; simp only [hd, if_false]; exact p

theorem closed_stays (c : Conn) (e : Ev) (he : DataEv e) (h : c.s.st = .closed) :
    (step c e).s.st = .closed := by
  have hg : Gone c.s := Or.inl h
  cases e with
  | peerFin => exact absurd he id
  | close _ => exact absurd he id
  | ack pos win b d n =>
    have : ackEndsLastAck c.s ⟨sq c.iss pos, win, b, d, n⟩ = false := by
      unfold ackEndsLastAck; simp [h]
    have f1 : ackFinWait1 { c.s with lastPeerWin := win } ⟨sq c.iss pos, win, b, d, n⟩ = { c.s with lastPeerWin := win } := by
      unfold ackFinWait1; simp [h]
    have f2 : ackClosing { c.s with lastPeerWin := win } ⟨sq c.iss pos, win, b, d, n⟩ = { c.s with lastPeerWin := win } := by
      unfold ackClosing; simp [h]
    simp only [step]
    have hfr : (ackFront c.s ⟨sq c.iss pos, win, b, d, n⟩).1.st = .closed := by
      unfold ackFront; rw [f1, f2]
      exact (frame_processSack { c.s with lastPeerWin := win } b).st.trans h
    have hadv := (frame_ackAdvance (ackFront c.s ⟨sq c.iss pos, win, b, d, n⟩).1 ⟨sq c.iss pos, win, b, d, n⟩).st
    rw [hfr] at hadv
    unfold tcpAck
    rw [this]
    simp only [Bool.false_eq_true, if_false]
    split
    · split
      · rw [(frame_grow _ _).st]; exact hadv
      · exact hadv
    · rw [(frame_dup _ _ _ _).st]; exact hadv
  | queueEmpty => exact h
  | window w => exact h
  | send chunks =>
    simp only [step]
    clear hg he
    induction chunks generalizing c with
    | nil => exact h
    | cons x xs ih =>
      simp only [List.foldl]
      apply ih
      unfold sendOne sendChunk; simp only; split <;> exact h
  | flush now fuel ok =>
    simp only [step, Snd.flush]
    have hr := (frame_resync c.s now).st
    rw [h] at hr
    generalize resync c.s now = t at hr
    have : ∀ (f ok : Nat) (t : Snd) (i : Nat), t.st = .closed → (flushLoop f ok t i now).st = .closed := by
      intro f
      induction f with
      | zero => intro ok t i h; exact h
      | succ f ih =>
        intro ok t i h
        unfold flushLoop
        cases hd : t.q[i]? with
        | none => exact h
        | some d =>
          simp only
          split
          · exact ih _ _ _ h
          split
          · cases ok with
            | zero => exact h
            | succ ok =>
              simp only
              split
              · exact ih _ _ _ h
              · exact ih _ _ _ ((frame_txData t i d now hd).st.trans h)
          · cases findRetrans t.q i with
            | none => exact h
            | some j => simp only; split
                        · exact ih _ _ _ h
                        · exact h
    exact this _ _ _ _ hr
  | fire now qd =>
    simp only [step]
    unfold Snd.fire
    split
    · exact h
    split
    · generalize hx : ({ c.s with armed := none } : Snd) = x
      have hxs : x.st = .closed := by rw [← hx]; exact h
      unfold rtoCb
      split
      · split
        · exact (frame_cancel x).st.trans hxs
        · rfl
      split
      · split
        · exact (frame_cancel x).st.trans hxs
        · rename_i h1; simp [hxs] at h1
      split
      · unfold ctrlCb
        have : needsCtrl x = false := by unfold needsCtrl; simp [hxs]
        rw [this]; exact (frame_cancel x).st.trans hxs
      · simp [hxs]
    · exact h

/-- **C14 (partial), a timer is armed.** From any plain established connection,
after every history of data-transfer events, every transmission pass ends with
a retransmission timer armed if any sent data is unacknowledged (unless the
connection was closed after too many timeouts).
Missing: CLOSE_WAIT, LAST_ACK and FIN_WAIT_1, where the property fails
(`close_wait_data_never_retransmitted`, `last_ack_data_not_retransmitted`,
`fin_wait_1_fin_never_retransmitted`). -/
theorem outstanding_data_has_timer_partial (c : Conn) (es : List Ev) (hp : Plain c.s)
    (he : ∀ e ∈ es, DataEv e) (now fuel ok : Nat)
    (hopen : (step (run c es) (.flush now fuel ok)).s.st ≠ .closed) :
    Outstanding (step (run c es) (.flush now fuel ok)).s →
    ∃ deadline, (step (run c es) (.flush now fuel ok)).s.armed = some deadline := by
  have key : Plain (run c es).s ∨ (run c es).s.st = .closed := by
    induction es generalizing c with
    | nil => exact Or.inl hp
    | cons e es ih =>
      rcases plain_step c e (he e (by simp)) hp with h | h
      · exact ih (step c e) h (fun e' h' => he e' (by simp [h'])) hopen
      · right
        have : ∀ (es : List Ev) (c : Conn), (∀ e ∈ es, DataEv e) → c.s.st = .closed → (run c es).s.st = .closed := by
          intro es
          induction es with
          | nil => intro c _ h; exact h
          | cons e es ih =>
            intro c he h
            exact ih (step c e) (fun e' h' => he e' (by simp [h'])) (closed_stays c e (he e (by simp)) h)
        exact this es _ (fun e' h' => he e' (by simp [h'])) h
  rcases key with p | h
  · intro hO
    rw [← hasSent_iff] at hO
    have := (flushLoop_armed fuel ok _ 0 now (plain_resync now p) (resync_armed now p)).2 hO
    exact Option.isSome_iff_exists.1 this
  · exact absurd (closed_stays _ (.flush now fuel ok) trivial h) hopen

/-! ### What the timeout does -/

/-- Result of the scan: if nothing is selected, no data segment is outstanding or an
unsent segment covering SND.UNA is already queued. -/
theorem rtoScan_spec (una : Nat) : ∀ (ds : List Desc) (i : Nat) (first : Option (Nat × Nat)),
    let r := rtoScan una ds i first
    (∀ j, r.1 = some j → ∃ k d, j = i + k ∧ ds[k]? = some d ∧ d.sent = true ∧ d.data ≠ [] ∧
      seqLeq d.seq una = true ∧ seqLt una (seqInc d.seq d.data.length) = true) ∧
    (r.1 = none → r.2 = none → first = none ∧
      ((∀ d ∈ ds, d.sent = true → d.data = []) ∨
       (∃ d ∈ ds, d.sent = false ∧ d.data ≠ [] ∧ seqLeq d.seq una = true ∧
          seqLt una (seqInc d.seq d.data.length) = true))) ∧
    (∀ j q, r.2 = some (j, q) → first = some (j, q) ∨
      ∃ k d, j = i + k ∧ ds[k]? = some d ∧ d.sent = true ∧ d.data ≠ [] ∧ q = d.seq)
  | [], i, first => by
      refine ⟨fun j h => by simp [rtoScan] at h, fun _ h => ⟨by simpa [rtoScan] using h, Or.inl (by simp)⟩, ?_⟩
      intro j q h; left; simpa [rtoScan] using h
  | d :: ds, i, first => by
      have ih := rtoScan_spec una ds (i + 1)
      have cov : ∀ b : Bool, ((!d.data.isEmpty && seqLeq d.seq una && b) = true) →
          d.data ≠ [] ∧ seqLeq d.seq una = true ∧ b = true := by
        intro b h
        simp only [Bool.and_eq_true, Bool.not_eq_true', List.isEmpty_eq_false_iff] at h
        exact ⟨h.1.1, h.1.2, h.2⟩
      simp only
      unfold rtoScan
      simp only
      split
      · rename_i hs
        generalize hf : (if (!d.data.isEmpty && (match first with
            | none => true | some f => seqLt d.seq f.2)) = true then some (i, d.seq) else first) = first'
        have hff : ∀ j q, first' = some (j, q) → first = some (j, q) ∨ (j = i ∧ q = d.seq ∧ d.data ≠ []) := by
          intro j q h
          rw [← hf] at h
          generalize (match first with | none => true | some f => seqLt d.seq f.2) = m at h
          by_cases hc : (!d.data.isEmpty && m) = true
          · rw [if_pos hc] at h
            right
            simp only [Option.some.injEq, Prod.mk.injEq] at h
            simp only [Bool.and_eq_true, Bool.not_eq_true', List.isEmpty_eq_false_iff] at hc
            exact ⟨h.1.symm, h.2.symm, hc.1⟩
          · rw [if_neg hc] at h
            left; exact h
        have hfn : first' = none → first = none ∧ d.data = [] := by
          intro h
          rw [← hf] at h
          cases first with
          | none =>
            refine ⟨rfl, ?_⟩
            cases hdd : d.data with
            | nil => rfl
            | cons x xs => simp [hdd] at h
          | some f =>
            exfalso
            simp only at h
            split at h <;> simp at h
        split
        · rename_i hc
          obtain ⟨c1, c2, c3⟩ := cov _ hc
          refine ⟨?_, ?_, ?_⟩
          · intro j h
            simp only [Option.some.injEq] at h
            exact ⟨0, d, by omega, rfl, hs, c1, c2, c3⟩
          · intro h; simp at h
          · intro j q h
            rcases hff j q h with h | ⟨h1, h2, h3⟩
            · exact Or.inl h
            · exact Or.inr ⟨0, d, by omega, rfl, hs, h3, h2⟩
        · obtain ⟨i1, i2, i3⟩ := ih first'
          refine ⟨?_, ?_, ?_⟩
          · intro j h
            obtain ⟨k, e, h1, h2⟩ := i1 j h
            exact ⟨k + 1, e, by omega, by simpa using h2⟩
          · intro h1 h2
            obtain ⟨j1, j2⟩ := i2 h1 h2
            obtain ⟨k1, k2⟩ := hfn j1
            refine ⟨k1, ?_⟩
            rcases j2 with j2 | ⟨e, he, j2⟩
            · left
              intro x hx hxs
              rcases List.mem_cons.1 hx with rfl | hx
              · exact k2
              · exact j2 x hx hxs
            · right; exact ⟨e, by simp [he], j2⟩
          · intro j q h
            rcases i3 j q h with h | ⟨k, e, h1, h2⟩
            · rcases hff j q h with h | ⟨h1, h2, h3⟩
              · exact Or.inl h
              · exact Or.inr ⟨0, d, by omega, rfl, hs, h3, h2⟩
            · exact Or.inr ⟨k + 1, e, by omega, by simpa using h2⟩
      · rename_i hs
        have hs : d.sent = false := by simpa using hs
        split
        · rename_i hc
          obtain ⟨c1, c2, c3⟩ := cov _ hc
          refine ⟨fun j h => by simp at h, ?_, fun j q h => Or.inl h⟩
          intro _ h
          exact ⟨h, Or.inr ⟨d, by simp, hs, c1, c2, c3⟩⟩
        · obtain ⟨i1, i2, i3⟩ := ih first
          refine ⟨?_, ?_, ?_⟩
          · intro j h
            obtain ⟨k, e, h1, h2⟩ := i1 j h
            exact ⟨k + 1, e, by omega, by simpa using h2⟩
          · intro h1 h2
            obtain ⟨j1, j2⟩ := i2 h1 h2
            refine ⟨j1, ?_⟩
            rcases j2 with j2 | ⟨e, he, j2⟩
            · left
              intro x hx hxs
              rcases List.mem_cons.1 hx with rfl | hx
              · rw [hs] at hxs; simp at hxs
              · exact j2 x hx hxs
            · right; exact ⟨e, by simp [he], j2⟩
          · intro j q h
            rcases i3 j q h with h | ⟨k, e, h1, h2⟩
            · exact Or.inl h
            · exact Or.inr ⟨k + 1, e, by omega, by simpa using h2⟩

/-- **C14 (partial), what a timeout does**: when the timer of a plain established
connection with outstanding data expires, then either the connection is closed,
or an unsent data segment covering the oldest unacknowledged byte is already
queued, or a previously sent data segment is now queued for retransmission with
its payload and number intact and the timer is armed again with the backed-off
timeout. -/
theorem timeout_requeues_partial (s : Snd) (now d : Nat) (qd : Bool) (hp : Plain s)
    (ha : s.armed = some d) (hd : d ≤ now) (ho : Outstanding s) :
    (fire s now qd).st = .closed ∨
    (∃ x : Desc, x ∈ (fire s now qd).q ∧ x.sent = false ∧ x.data ≠ [] ∧
      seqLeq x.seq s.sndUna = true ∧ seqLt s.sndUna (seqInc x.seq x.data.length) = true) ∨
    (∃ (i : Nat) (x : Desc), s.q[i]? = some x ∧ x.sent = true ∧ x.data ≠ [] ∧
      (fire s now qd).q[i]? = some { x with sent := false, retrans := true } ∧
      (fire s now qd).armed = some (now + Rto.backoff s.rto (s.rtoBackoff + 1)) ∧
      (fire s now qd).rtoBackoff = s.rtoBackoff + 1) := by
  rw [fire_plain_eq s now d qd hp ha hd]
  have hcq : ∀ x : Snd, (cancelTmr x).rto = x.rto ∧ (cancelTmr x).rtoBackoff = x.rtoBackoff := by
    intro x; unfold cancelTmr; split <;> exact ⟨rfl, rfl⟩
  obtain ⟨s1, s2, s3⟩ := rtoScan_spec s.sndUna s.q 0 none
  have hmark : ∀ (i : Nat) (x : Desc), s.q[i]? = some x →
      rtoTarget { s with armed := none } = some i →
      (rtoData { s with armed := none } now).st = .closed ∨
      ((rtoData { s with armed := none } now).q[i]? = some { x with sent := false, retrans := true } ∧
      (rtoData { s with armed := none } now).armed = some (now + Rto.backoff s.rto (s.rtoBackoff + 1)) ∧
      (rtoData { s with armed := none } now).rtoBackoff = s.rtoBackoff + 1) := by
    intro i x hx ht
    unfold rtoData
    rw [ht]
    simp only
    split
    · left; rfl
    · right
      obtain ⟨r1, r2⟩ := hcq { s with armed := none, peerSack := [], q := setAt s.q i Desc.markRetrans, inflight := 0 }
      refine ⟨?_, ?_, ?_⟩
      · unfold rtoLoss armTmr
        simp only
        rw [cancel_q]
        simp only
        unfold setAt
        rw [hx]
        simp only
        rw [List.getElem?_set_self (List.getElem?_eq_some_iff.1 hx).1]
        rfl
      · unfold rtoLoss armTmr; simp only [r1, r2]
      · unfold rtoLoss armTmr; simp only [r2]
  cases h1 : (rtoScan s.sndUna s.q 0 none).1 with
  | some j =>
    obtain ⟨k, x, hk, hx, hs, hne, _⟩ := s1 j h1
    have ht : rtoTarget { s with armed := none } = some k := by
      unfold rtoTarget; simp only [h1]; rw [hk]; simp
    exact (hmark k x hx ht).imp id (fun h => Or.inr ⟨k, x, hx, hs, hne, h⟩)
  | none =>
    cases h2 : (rtoScan s.sndUna s.q 0 none).2 with
    | some jq =>
      obtain ⟨j, qq⟩ := jq
      rcases s3 j qq h2 with h | ⟨k, x, hk, hx, hs, hne, _⟩
      · simp at h
      · have ht : rtoTarget { s with armed := none } = some k := by
          unfold rtoTarget; simp only [h1, h2]; rw [hk]; simp
        exact (hmark k x hx ht).imp id (fun h => Or.inr ⟨k, x, hx, hs, hne, h⟩)
    | none =>
      rcases (s2 h1 h2).2 with h | ⟨x, hx, hs, hne, c1, c2⟩
      · obtain ⟨x, hx, hs, hne⟩ := ho
        exact absurd (h x hx hs) hne
      · right; left
        have ht : rtoTarget { s with armed := none } = none := by
          unfold rtoTarget; simp only [h1, h2]; rfl
        refine ⟨x, ?_, hs, hne, c1, c2⟩
        unfold rtoData; rw [ht]
        simp only; rw [cancel_q]; exact hx

/-! ### Violations -/

/-- **C14 is violated in CLOSE_WAIT**: once the peer has closed its side, the
first retransmission timeout does nothing and is not re-armed, and from then on
no passage of time, however many polls, transmits any of the outstanding
segments again or arms a timer: the data is never retransmitted. -/
theorem close_wait_data_never_retransmitted (s : Snd) (d now : Nat) (qd : Bool)
    (hst : s.st = .closeWait) (ha : s.armed = some d) (hd : d ≤ now) (hid : s.tmrId = true)
    (hf : s.fw2 = false) (hp : s.preaccept = false) (hc : s.ctrlActive = false)
    (ho : Outstanding s) (hall : ∀ x ∈ s.q, x.sent = true)
    (polls : List (Nat × Nat × Nat)) :
    let s1 := fire s now qd
    let s2 := polls.foldl (fun x p => flush (fire x p.1 qd) p.1 p.2.1 p.2.2) s1
    s2.q = s.q ∧ s2.armed = none := by
  have hn : ∀ x : Snd, x.st = .closeWait → needsCtrl x = false := by
    intro x hx; unfold needsCtrl; simp [hx]
  have h1 : fire s now qd = { s with armed := none } := by
    unfold fire
    rw [ha]; simp only [hd, if_true]
    unfold rtoCb
    rw [hn { s with armed := none } hst]
    simp only [hf, hp, hc, hst]
    simp
  rw [h1]
  have inv : ∀ (polls : List (Nat × Nat × Nat)) (x : Snd), x.st = .closeWait → x.armed = none →
      x.tmrId = true → x.preaccept = false → x.ctrlActive = false → x.q = s.q →
      let y := polls.foldl (fun x p => flush (fire x p.1 qd) p.1 p.2.1 p.2.2) x
      y.q = s.q ∧ y.armed = none := by
    intro polls
    induction polls with
    | nil => intro x _ h2 _ _ _ h6; exact ⟨h6, h2⟩
    | cons p ps ih =>
      intro x h1 h2 h3 h4 h5 h6
      simp only [List.foldl_cons]
      have e1 : fire x p.1 qd = x := by unfold fire; rw [h2]
      rw [e1]
      have hs : hasSent x.q = true := by
        rw [h6]; exact (hasSent_iff s).2 ho
      have e2 : resync x p.1 = { x with inflight := sentBytes x.q } := by
        unfold resync
        rw [hn x h1]
        simp [h5, h4, hs, h3]
      have e3 : ∀ (f ok i : Nat) (y : Snd), y.q = s.q → flushLoop f ok y i p.1 = y := by
        intro f
        induction f with
        | zero => intro ok i y _; rfl
        | succ f ihf =>
          intro ok i y hy
          unfold flushLoop
          cases hd : y.q[i]? with
          | none => rfl
          | some d =>
            have := hall d (by rw [← hy]; exact List.mem_of_getElem? hd)
            simp only [this, if_true]
            exact ihf ok (i + 1) y hy
      have e4 : flush x p.1 p.2.1 p.2.2 = { x with inflight := sentBytes x.q } := by
        unfold flush; rw [e2]; exact e3 _ _ _ _ h6
      rw [e4]
      exact ih _ h1 h2 h3 h4 h5 h6
  exact inv polls _ hst rfl hid hp hc rfl

/-- **C14 is violated in LAST_ACK**: with data still outstanding at close, each
timeout queues another FIN but leaves every data segment as it was: none is
queued for retransmission. -/
theorem last_ack_data_not_retransmitted (s : Snd) (d now : Nat) (qd : Bool)
    (hst : s.st = .lastAck) (ha : s.armed = some d) (hd : d ≤ now)
    (hf : s.fw2 = false) (hp : s.preaccept = false) (hr : s.ctrlRetries < 8) :
    ∃ l, (fire s now qd).q = s.q ++ l ∧ ∀ x ∈ l, x.data = [] := by
  have hn : needsCtrl { s with armed := none } = true := by unfold needsCtrl; simp [hst]
  have hq : ∀ (x : Snd) (n : Nat), (ctrlStart x n).q = x.q := by
    intro x n; exact cancel_q { x with fw2 := false }
  have h1 : fire s now qd = ctrlResend { s with armed := none } now qd := by
    unfold fire
    rw [ha]; simp only [hd, if_true]
    unfold rtoCb ctrlCb
    rw [hn]
    simp only [hf, hp]
    simp [Nat.not_le.2 hr]
  rw [h1]
  unfold ctrlResend
  split
  · split
    · exact ⟨[{ seq := s.seq, data := [], fin := true }], by rw [hq]; rfl, by simp⟩
    · exact ⟨[{ seq := s.seq, data := [] }], by rw [hq]; rfl, by simp⟩
  · exact ⟨[], by rw [hq]; simp, by simp⟩

/-- **C14 is violated for the FIN**: after `close()` on a connection with data in
flight, the acknowledgment of that data (but not of the FIN) cancels the timer
and nothing arms one again: if the FIN was lost it is never retransmitted and
the socket stays in FIN_WAIT_1 for good. (`send`, transmit, `close`, transmit,
ACK of the data, then any number of polls.) -/
theorem fin_wait_1_fin_never_retransmitted (polls : List (Nat × Nat × Nat)) :
    let c := run exConn [.send [[1, 2]], .flush 10 99 99, .close 20, .ack 2 100 [] false 30,
      .flush 40 99 99]
    let s := polls.foldl (fun x p => flush (fire x p.1 true) p.1 p.2.1 p.2.2) c.s
    s.st = .finWait1 ∧ s.armed = none ∧ s.q = [] := by
  have inv : ∀ (polls : List (Nat × Nat × Nat)) (x : Snd), x.st = .finWait1 → x.armed = none →
      x.ctrlActive = true → x.q = [] →
      let y := polls.foldl (fun x p => flush (fire x p.1 true) p.1 p.2.1 p.2.2) x
      y.st = .finWait1 ∧ y.armed = none ∧ y.q = [] := by
    intro polls
    induction polls with
    | nil => intro x h1 h2 _ h4; exact ⟨h1, h2, h4⟩
    | cons p ps ih =>
      intro x h1 h2 h3 h4
      simp only [List.foldl_cons]
      have e1 : fire x p.1 true = x := by unfold fire; rw [h2]
      have e2 : resync x p.1 = x := by unfold resync; simp [h3]
      have e3 : flush x p.1 p.2.1 p.2.2 = x := by
        unfold flush; rw [e2]
        cases p.2.1 with
        | zero => rfl
        | succ f => unfold flushLoop; simp [h4]
      rw [e1, e3]
      exact ih x h1 h2 h3 h4
  exact inv polls _ (by decide +kernel) (by decide +kernel) (by decide +kernel) (by decide +kernel)

/-- The hypotheses of `close_wait_data_never_retransmitted` are reached by
`send`, transmit, peer's FIN: here with two outstanding segments. -/
example : ∃ es, let s := (run exConn es).s
    s.st = .closeWait ∧ s.armed = some 1010 ∧ s.tmrId = true ∧ s.fw2 = false ∧
    s.preaccept = false ∧ s.ctrlActive = false ∧ hasSent s.q = true ∧ s.q.all (·.sent) = true := by
  refine ⟨[.send [[1, 2, 3], [4]], .flush 10 99 99, .peerFin, .flush 11 99 99], ?_⟩
  simp only
  decide +kernel

/-- `exConn` satisfies `Plain`, and a run to an outstanding state exists. -/
example : Plain exConn.s ∧
    Outstanding (step (run exConn [.send [[1, 2, 3], [4, 5]]]) (.flush 10 99 99)).s := by
  refine ⟨⟨rfl, rfl, rfl, rfl, rfl⟩, ?_⟩
  rw [← hasSent_iff]; decide +kernel

end Wolf.Tcp.Snd
