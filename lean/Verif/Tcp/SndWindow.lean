import Verif.Tcp.SndEmit

/-!
# C72: the sender keeps to the window

New data is transmitted only up to the highest acknowledged position plus the smaller of the peer's
advertised window and the congestion window.  The code holds to this except that bytes it retransmits
are not counted as outstanding (`flush_tcp_tx`, src/wolfip.c 11413-11416), so after a retransmission it
may run over by at most the bytes retransmitted in the same turn.
-/
namespace Wolf.Tcp.Snd
open Wolf.Tcp

/-- Payload bytes waiting to be retransmitted. -/
def retransBytes (q : List Desc) : Nat :=
  (q.map (fun d => if d.retrans && !d.sent then d.len else 0)).sum

/-- Transmitted once already (and perhaps to be transmitted again), or acknowledged. -/
def touched (d : Desc) : Bool := d.sent || d.retrans || d.acked

/-- No data segment that was transmitted stands behind one that was not. -/
def Ordered (q : List Desc) : Prop :=
  ∀ (i j : Nat) (d e : Desc), i < j → q[i]? = some d → q[j]? = some e → d.data ≠ [] → e.data ≠ [] →
    touched e = true → touched d = true

def NoAcked (q : List Desc) : Prop := ∀ d ∈ q, d.acked = false

/-- Window discipline invariant of the queue. -/
def WInv (s : Snd) : Prop := Ordered s.q ∧ NoAcked s.q ∧ (openSt s.st = true → s.ctrlActive = false)

/-! ### The queue operations keep the order -/

theorem ordered_tail {q : List Desc} (h : Ordered q) : Ordered q.tail := by
  cases q with
  | nil => exact h
  | cons a as =>
    intro i j d e hij hi hj
    exact h (i + 1) (j + 1) d e (by omega) (by simpa using hi) (by simpa using hj)

theorem ordered_dropWhile (p : Desc → Bool) : ∀ {q : List Desc}, Ordered q → Ordered (q.dropWhile p)
  | [], h => h
  | d :: ds, h => by
      rw [List.dropWhile_cons]
      split
      · exact ordered_dropWhile p (ordered_tail h)
      · exact h

theorem ordered_nil : Ordered [] := by intro i j d e _ h; simp at h

/-- Changing flags of a segment that stays touched. -/
theorem ordered_set_touched {q : List Desc} {i : Nat} {d e : Desc} (h : Ordered q) (hd : q[i]? = some d)
    (hdata : e.data = d.data) (ht : touched d = true) (ht' : touched e = true) : Ordered (q.set i e) := by
  have hlt := (List.getElem?_eq_some_iff.1 hd).1
  intro j k x y hjk hx hy hxd hyd hty
  rw [List.getElem?_set] at hx hy
  split at hx
  · subst_vars
    simp only [Option.some.injEq] at hx
    subst hx; exact ht'
  · split at hy
    · subst_vars
      simp only [Option.some.injEq] at hy
      subst hy
      exact h j _ x d hjk hx hd hxd (by rw [← hdata]; exact hyd) ht
    · exact h j k x y hjk hx hy hxd hyd hty

/-- Touching a segment with nothing but touched data in front of it. -/
theorem ordered_set_new {q : List Desc} {i : Nat} {d e : Desc} (h : Ordered q) (hd : q[i]? = some d)
    (hdata : e.data = d.data) (ht' : touched e = true)
    (hpre : ∀ j x, j < i → q[j]? = some x → x.data ≠ [] → touched x = true) : Ordered (q.set i e) := by
  have hlt := (List.getElem?_eq_some_iff.1 hd).1
  intro j k x y hjk hx hy hxd hyd hty
  rw [List.getElem?_set] at hx hy
  split at hx
  · subst_vars
    simp only [Option.some.injEq] at hx
    subst hx; exact ht'
  · split at hy
    · subst_vars
      exact hpre j x hjk hx hxd
    · exact h j k x y hjk hx hy hxd hyd hty

/-- An empty segment's flags do not matter. -/
theorem ordered_set_empty {q : List Desc} {i : Nat} {e : Desc} (h : Ordered q) (hdata : e.data = []) :
    Ordered (q.set i e) := by
  intro j k x y hjk hx hy hxd hyd hty
  rw [List.getElem?_set] at hx hy
  split at hx
  · split at hx
    · simp only [Option.some.injEq] at hx; subst hx; exact absurd hdata hxd
    · cases hx
  · split at hy
    · split at hy
      · simp only [Option.some.injEq] at hy; subst hy; exact absurd hdata hyd
      · cases hy
    · exact h j k x y hjk hx hy hxd hyd hty

theorem ordered_append {q : List Desc} {e : Desc} (h : Ordered q) (he : e.data = [] ∨ touched e = false) :
    Ordered (q ++ [e]) := by
  intro j k x y hjk hx hy hxd hyd hty
  have hk : k < q.length ∨ k = q.length := by
    have := (List.getElem?_eq_some_iff.1 hy).1
    rw [List.length_append, List.length_singleton] at this
    omega
  rcases hk with hk | hk
  · rw [List.getElem?_append_left hk] at hy
    rw [List.getElem?_append_left (by omega)] at hx
    exact h j k x y hjk hx hy hxd hyd hty
  · subst hk
    rw [List.getElem?_append_right (Nat.le_refl _), Nat.sub_self] at hy
    have hy : e = y := by simpa using hy
    subst hy
    rcases he with he | he
    · exact absurd he hyd
    · rw [he] at hty; cases hty

theorem noAcked_tail {q : List Desc} (h : NoAcked q) : NoAcked q.tail :=
  fun d hd => h d (List.mem_of_mem_tail hd)

theorem noAcked_set {q : List Desc} {i : Nat} {e : Desc} (h : NoAcked q) (he : e.acked = false) :
    NoAcked (q.set i e) := by
  intro d hd
  rcases List.mem_or_eq_of_mem_set hd with hd | rfl
  · exact h d hd
  · exact he

theorem noAcked_append {q : List Desc} {e : Desc} (h : NoAcked q) (he : e.acked = false) :
    NoAcked (q ++ [e]) := by
  intro d hd
  rcases List.mem_append.1 hd with hd | hd
  · exact h d hd
  · simp only [List.mem_singleton] at hd; subst hd; exact he

/-! ### Acknowledgments -/

/-- First `i` entries acknowledged, the others not. -/
def AckedTo (q : List Desc) (i : Nat) : Prop :=
  ∀ j d, q[j]? = some d → (j < i → d.acked = true ∧ d.sent = false) ∧ (i ≤ j → d.acked = false)

theorem ackedTo_pop : ∀ {q : List Desc} {i : Nat}, AckedTo q i → NoAcked (popAcked q)
  | [], _, _ => fun d hd => by cases hd
  | d :: ds, i, h => by
      unfold popAcked
      rw [List.dropWhile_cons]
      split
      · next ha =>
        have hi : 0 < i := by
          apply Nat.pos_of_ne_zero
          intro h0
          have := (h 0 d rfl).2 (by omega)
          rw [this] at ha; cases ha
        refine ackedTo_pop (i := i - 1) ?_
        intro j e he
        have := h (j + 1) e (by simpa using he)
        exact ⟨fun c => this.1 (by omega), fun c => this.2 (by omega)⟩
      · next ha =>
        have hi : i = 0 := by
          apply Nat.eq_zero_of_not_pos
          intro h0
          exact ha ((h 0 d rfl).1 h0).1
        subst hi
        intro e he
        obtain ⟨j, hj⟩ := List.getElem?_of_mem he
        exact (h j e hj).2 (Nat.zero_le _)

/-- The marking loop: order kept, acknowledged ones in front; none if the count is zero. -/
theorem ackMark_order : ∀ (f : Nat) (q : List Desc) (i ack c : Nat), Ordered q → AckedTo q i →
    i ≤ q.length →
    Ordered (ackMark f q i ack c).1 ∧ (∃ k, AckedTo (ackMark f q i ack c).1 k) ∧ c ≤ (ackMark f q i ack c).2 ∧
    ((ackMark f q i ack c).2 = c → i = 0 → NoAcked (ackMark f q i ack c).1)
  | 0, q, i, ack, c, ho, ha, _ => by
      refine ⟨ho, ⟨i, ha⟩, Nat.le_refl _, ?_⟩
      intro _ hi d hd
      obtain ⟨j, hj⟩ := List.getElem?_of_mem hd
      exact (ha j d hj).2 (by omega)
  | f + 1, q, i, ack, c, ho, ha, hl => by
      have hstop : Ordered q ∧ (∃ k, AckedTo q k) ∧ c ≤ c ∧ (c = c → i = 0 → NoAcked q) := by
        refine ⟨ho, ⟨i, ha⟩, Nat.le_refl _, ?_⟩
        intro _ hi d hd
        obtain ⟨j, hj⟩ := List.getElem?_of_mem hd
        exact (ha j d hj).2 (by omega)
      unfold ackMark
      cases hd : q[i]? with
      | none => exact hstop
      | some d =>
        simp only
        split
        · exact hstop
        · next hsent =>
          have hsent : d.sent = true := by simpa using hsent
          split
          · -- the oldest is popped, the walk restarts
            have ha' : AckedTo q.tail (i - 1) := by
              intro j e he
              rw [List.getElem?_tail] at he
              have := ha (j + 1) e he
              exact ⟨fun c => this.1 (by omega), fun c => this.2 (by omega)⟩
            by_cases h1 : i - 1 = 0
            · rw [h1] at ha'
              obtain ⟨r1, r2, r3, r4⟩ := ackMark_order f q.tail 0 ack c (ordered_tail ho) ha' (Nat.zero_le _)
              exact ⟨r1, r2, r3, fun hc _ => r4 hc rfl⟩
            · -- the new oldest is acknowledged, hence not SENT: the walk ends
              have hst : ackMark f q.tail 0 ack c = (q.tail, c) := by
                cases f with
                | zero => rfl
                | succ f =>
                  unfold ackMark
                  cases hq0 : q.tail[0]? with
                  | none => rfl
                  | some e =>
                    simp only
                    rw [if_pos (by rw [((ha' 0 e hq0).1 (by omega)).2]; rfl)]
              rw [hst]
              exact ⟨ordered_tail ho, ⟨_, ha'⟩, Nat.le_refl _, fun _ hi => by omega⟩
          · split
            · have h2 : Ordered (q.set i { d with acked := true, sent := false, retrans := false }) :=
                ordered_set_touched ho hd rfl (by unfold touched; rw [hsent]; rfl) (by unfold touched; simp)
              have h3 : AckedTo (q.set i { d with acked := true, sent := false, retrans := false }) (i + 1) := by
                intro j e he
                rw [List.getElem?_set] at he
                split at he
                · next hij =>
                  subst hij
                  split at he
                  · simp only [Option.some.injEq] at he; subst he
                    exact ⟨fun _ => ⟨rfl, rfl⟩, fun c => by omega⟩
                  · cases he
                · have := ha j e he
                  exact ⟨fun c => this.1 (by omega), fun c => this.2 (by omega)⟩
              have hlt := (List.getElem?_eq_some_iff.1 hd).1
              obtain ⟨r1, r2, r3, r4⟩ := ackMark_order f _ (i + 1) ack (c + 1) h2 h3 (by rw [List.length_set]; omega)
              refine ⟨r1, r2, by omega, ?_⟩
              intro hc; omega
            · exact hstop

/-! ### Every event keeps the invariant -/

/-- Flag changes that keep the order and the ACKED flags. -/
structure Calm (s s' : Snd) : Prop where
  q : Ordered s.q → Ordered s'.q
  acked : s'.q.map (·.acked) = s.q.map (·.acked)
  ctrl : (openSt s.st = true → s.ctrlActive = false) → (openSt s'.st = true → s'.ctrlActive = false)

theorem noAcked_map {q q' : List Desc} (h : q'.map (·.acked) = q.map (·.acked)) (hn : NoAcked q) : NoAcked q' := by
  intro d hd
  have : d.acked ∈ q'.map (·.acked) := List.mem_map_of_mem hd
  rw [h] at this
  obtain ⟨e, he, h'⟩ := List.mem_map.1 this
  rw [← h']; exact hn e he

theorem Calm.winv {s s' : Snd} (h : Calm s s') (w : WInv s) : WInv s' :=
  ⟨h.q w.1, noAcked_map h.acked w.2.1, h.ctrl w.2.2⟩

theorem Calm.trans {a b c : Snd} (h1 : Calm a b) (h2 : Calm b c) : Calm a c :=
  ⟨fun x => h2.q (h1.q x), h2.acked.trans h1.acked, fun x => h2.ctrl (h1.ctrl x)⟩

theorem Calm.same {s s' : Snd} (hq : s'.q = s.q) (hs : s'.st = s.st) (hc : s'.ctrlActive = s.ctrlActive) :
    Calm s s' := ⟨fun a => (by rw [hq]; exact a), by rw [hq], fun a => (by rw [hs, hc]; exact a)⟩

theorem Calm.refl (s : Snd) : Calm s s := Calm.same rfl rfl rfl

/-- A state in which nothing can be sent. -/
theorem Calm.shut {s s' : Snd} (hq : s'.q = s.q) (hs : openSt s'.st = false) : Calm s s' :=
  ⟨fun a => (by rw [hq]; exact a), by rw [hq], fun _ c => (by rw [hs] at c; cases c)⟩

theorem winv_nil {s' : Snd} (hs : openSt s'.st = false) (hq : s'.q = []) : WInv s' :=
  ⟨by rw [hq]; exact ordered_nil, by rw [hq]; exact fun d hd => (by cases hd), fun c => by rw [hs] at c; cases c⟩

theorem cancel_st (s : Snd) : (cancelTmr s).st = s.st := by unfold cancelTmr; split <;> rfl
theorem cancel_ctrl (s : Snd) : (cancelTmr s).ctrlActive = s.ctrlActive := by unfold cancelTmr; split <;> rfl

theorem calm_cancel (s : Snd) : Calm s (cancelTmr s) := Calm.same (cancel_q s) (cancel_st s) (cancel_ctrl s)

theorem calm_ctrlStop (s : Snd) : Calm s (ctrlStop s) := by
  have hq : (ctrlStop s).q = s.q := cancel_q s
  exact ⟨fun a => (by rw [hq]; exact a), by rw [hq], fun _ _ => rfl⟩

theorem calm_markRetrans (s : Snd) (i : Nat) (d : Desc) (hd : s.q[i]? = some d) (hs : d.sent = true) (n : Nat) :
    Calm s { s with q := setAt s.q i Desc.markRetrans, inflight := n } := by
  have hset : setAt s.q i Desc.markRetrans = s.q.set i d.markRetrans := by unfold setAt; rw [hd]
  refine ⟨fun a => ?_, ?_, fun a => a⟩
  · show Ordered (setAt s.q i Desc.markRetrans)
    rw [hset]
    exact ordered_set_touched a hd rfl (by unfold touched; rw [hs]; rfl) (by unfold touched Desc.markRetrans; simp)
  · show (setAt s.q i Desc.markRetrans).map (·.acked) = _
    have : ∀ l : List Desc, l.map (·.acked) = (l.map key).map (fun k => k.2.2.1) := by
      intro l; rw [List.map_map]; rfl
    rw [this, this, keys_setAt s.q i Desc.markRetrans (fun _ => rfl)]

theorem scan_mark_sent (sack : List (Nat × Nat)) (ack : Nat) : ∀ (q : List Desc) (i k : Nat),
    scanUnsacked sack ack q i = .mark k → ∃ d, i ≤ k ∧ q[k - i]? = some d ∧ d.sent = true
  | [], i, k, h => by simp [scanUnsacked] at h
  | d :: ds, i, k, h => by
      have hrec : scanUnsacked sack ack ds (i + 1) = .mark k → ∃ d', i ≤ k ∧ (d :: ds)[k - i]? = some d' ∧ d'.sent = true := by
        intro h
        obtain ⟨d', h1, h2, h3⟩ := scan_mark_sent sack ack ds (i + 1) k h
        refine ⟨d', by omega, ?_, h3⟩
        rw [show k - i = (k - (i + 1)) + 1 by omega, List.getElem?_cons_succ]
        exact h2
      unfold scanUnsacked at h
      simp only at h
      split at h
      · exact hrec h
      split at h
      · exact hrec h
      split at h
      · exact hrec h
      split at h
      · split at h
        · cases h
        · next hns =>
          cases h
          exact ⟨d, Nat.le_refl _, by rw [Nat.sub_self]; rfl, by simpa using hns⟩
      · exact hrec h

theorem calm_mark (s : Snd) (ack : Nat) : Calm s (markUnsacked s ack).1 := by
  unfold markUnsacked
  cases h : scanUnsacked s.peerSack ack s.q 0 with
  | mark i =>
    obtain ⟨d, _, h2, h3⟩ := scan_mark_sent _ _ _ _ _ h
    exact calm_markRetrans s i d h2 h3 _
  | pending => exact Calm.refl s
  | none c =>
    simp only
    split
    · exact Calm.refl s
    · cases h' : scanUnsacked [] ack s.q 0 with
      | mark i =>
        obtain ⟨d, _, h2, h3⟩ := scan_mark_sent _ _ _ _ _ h'
        exact Calm.trans (b := { s with peerSack := [] }) (Calm.same rfl rfl rfl)
          (calm_markRetrans { s with peerSack := [] } i d h2 h3 _)
      | pending => exact Calm.same rfl rfl rfl
      | none c => exact Calm.same rfl rfl rfl

theorem calm_rearm (s : Snd) (now : Nat) : Calm s (rearm s now) := by
  unfold rearm
  split
  · exact Calm.refl s
  · split
    · exact (calm_cancel s).trans (Calm.same rfl rfl rfl)
    · exact calm_cancel s

theorem calm_cc (s : Snd) (a : AckSeg) (d : Nat) : Calm s (ccAdvance s a d).1 := by
  unfold ccAdvance
  split
  · split
    · exact Calm.trans (b := { s with dupAcks := 3, cwnd := partialCwnd s d, cwndCount := 0 })
        (Calm.same rfl rfl rfl) (calm_mark _ _)
    · exact Calm.same rfl rfl rfl
  · exact Calm.same rfl rfl rfl

theorem calm_advance (s : Snd) (a : AckSeg) : Calm s (ackAdvance s a).1 := by
  unfold ackAdvance
  split
  · refine Calm.trans (b := advanceUna s a (ackDelta a.ack s.sndUna)) ?_ (calm_cc _ _ _)
    exact Calm.trans (b := advanceFields s a.ack (ackDelta a.ack s.sndUna)) (Calm.same rfl rfl rfl) (calm_rearm _ _)
  · exact Calm.refl s

theorem calm_grow (s : Snd) (n : Nat) : Calm s (grow s n) := by
  unfold grow
  split
  · split
    · exact Calm.same rfl rfl rfl
    · split <;> exact Calm.same rfl rfl rfl
  · exact Calm.refl s

theorem calm_early (s : Snd) (a : Nat) : Calm s (tryEarly s a).1 := by
  unfold tryEarly; split
  · exact calm_mark _ _
  · exact Calm.refl s

theorem calm_onDup (s : Snd) (a n : Nat) : Calm s (onDup s a n) := by
  unfold onDup
  split
  · exact (calm_early s a).trans (Calm.same rfl rfl rfl)
  · split
    · exact calm_early s a
    · split
      · refine (calm_early s a).trans ?_
        exact Calm.trans (b := { (tryEarly s a).1 with
          ssthresh := lossThresh n (tryEarly s a).1.smss,
          cwnd := (lossThresh n (tryEarly s a).1.smss + 3 * (tryEarly s a).1.smss) % 4294967296,
          cwndCount := 0, fastRec := true, recPt := (tryEarly s a).1.seq }) (Calm.same rfl rfl rfl) (calm_mark _ _)
      · exact (calm_early s a).trans (Calm.same rfl rfl rfl)

theorem calm_dup (s : Snd) (a : AckSeg) (n : Nat) (w : Bool) : Calm s (dupAck s a n w) := by
  unfold dupAck
  split
  · exact Calm.refl s
  split
  · exact Calm.refl s
  split
  · exact Calm.refl s
  split
  · exact Calm.refl s
  exact Calm.trans (b := bumpDup s) (Calm.same rfl rfl rfl) (calm_onDup _ _ _)

theorem calm_preMark (s : Snd) (a : AckSeg) : Calm s (preMark s a) := by
  unfold preMark
  refine Calm.trans (b := { s with lastPeerWin := a.win }) (Calm.same rfl rfl rfl) ?_
  generalize ({ s with lastPeerWin := a.win } : Snd) = s
  have h1 : Calm s (ackFinWait1 s a) := by
    unfold ackFinWait1
    split
    · refine Calm.trans (b := { s with st := .finWait2 }) (Calm.shut rfl rfl) ?_
      refine (calm_ctrlStop _).trans ?_
      refine (calm_cancel _).trans (Calm.same rfl rfl rfl)
    · exact Calm.refl s
  refine h1.trans ?_
  generalize ackFinWait1 s a = s
  have h2 : Calm s (ackClosing s a) := by
    unfold ackClosing
    split
    · exact Calm.trans (b := { s with st := .timeWait }) (Calm.shut rfl rfl) (calm_ctrlStop _)
    · exact Calm.refl s
  refine h2.trans ?_
  unfold processSack
  split <;> exact Calm.same rfl rfl rfl

/-- Same, on the flags alone. -/
theorem popAcked_map : ∀ {q q' : List Desc}, q'.map (·.acked) = q.map (·.acked) → NoAcked (popAcked q) →
    NoAcked (popAcked q')
  | [], [], _, _ => fun d hd => by cases hd
  | [], _ :: _, h, _ => by simp at h
  | _ :: _, [], h, _ => by simp at h
  | d :: ds, e :: es, h, hn => by
      simp only [List.map_cons, List.cons.injEq] at h
      unfold popAcked at hn ⊢
      rw [List.dropWhile_cons] at hn ⊢
      rw [h.1]
      split
      · next ha =>
        rw [if_pos ha] at hn
        exact popAcked_map h.2 hn
      · next ha =>
        rw [if_neg ha] at hn
        exact noAcked_map (q := d :: ds) (by simp only [List.map_cons]; rw [h.1, h.2]) hn

theorem winv_tcpAck {s : Snd} (a : AckSeg) (w : WInv s) : WInv (tcpAck s a) := by
  unfold tcpAck
  split
  · exact winv_nil rfl rfl
  · have w1 := (calm_preMark s a).winv w
    have h0 : AckedTo (preMark s a).q 0 := by
      intro j d hd
      exact ⟨fun c => by omega, fun _ => w1.2.1 d (List.mem_of_getElem? hd)⟩
    obtain ⟨r1, ⟨k, r2⟩, _, r4⟩ := ackMark_order (ackFuel (preMark s a).q) (preMark s a).q 0 a.ack 0 w1.1 h0 (Nat.zero_le _)
    have hadv := calm_advance (ackFront s a).1 a
    have hctrl : openSt (ackFront s a).1.st = true → (ackFront s a).1.ctrlActive = false := w1.2.2
    have hO : Ordered (ackAdvance (ackFront s a).1 a).1.q := hadv.q r1
    simp only
    split
    · have hN : NoAcked (popAcked (ackAdvance (ackFront s a).1 a).1.q) :=
        popAcked_map hadv.acked (ackedTo_pop r2)
      have hw : WInv { (ackAdvance (ackFront s a).1 a).1 with q := popAcked (ackAdvance (ackFront s a).1 a).1.q } :=
        ⟨ordered_dropWhile _ hO, hN, hadv.ctrl hctrl⟩
      split
      · exact (calm_grow _ _).winv hw
      · exact hw
    · next hc =>
      have hz : (ackFront s a).2 = 0 := by omega
      refine (calm_dup _ _ _ _).winv ⟨hO, noAcked_map hadv.acked (r4 hz rfl), hadv.ctrl hctrl⟩

theorem winv_push {s : Snd} (f : Bool) (w : WInv s) : WInv (pushEmpty s f) :=
  ⟨ordered_append w.1 (Or.inl rfl), noAcked_append w.2.1 rfl, w.2.2⟩

theorem ctrlStart_q (s : Snd) (now : Nat) : (ctrlStart s now).q = s.q := cancel_q { s with fw2 := false }
theorem ctrlStart_st (s : Snd) (now : Nat) : (ctrlStart s now).st = s.st := cancel_st { s with fw2 := false }

theorem rtoTarget_sent (s : Snd) (i : Nat) (h : rtoTarget s = some i) : ∃ d, s.q[i]? = some d ∧ d.sent = true := by
  obtain ⟨r1, _, r3⟩ := rtoScan_spec s.sndUna s.q 0 none
  unfold rtoTarget at h
  split at h
  · next j hj =>
    cases h
    obtain ⟨k, d, e, h1, h2, _⟩ := r1 _ hj
    rw [Nat.zero_add] at e; subst e
    exact ⟨d, h1, h2⟩
  · rw [Option.map_eq_some_iff] at h
    obtain ⟨f, hf, rfl⟩ := h
    rcases r3 f.1 f.2 hf with e | ⟨k, d, e, h1, h2, _⟩
    · cases e
    · rw [Nat.zero_add] at e
      rw [e]
      exact ⟨d, h1, h2⟩

theorem winv_fire {s : Snd} (now : Nat) (qd : Bool) (w : WInv s) : WInv (fire s now qd) := by
  unfold fire
  split
  · exact w
  split
  · have w0 : WInv { s with armed := none } := w
    generalize ({ s with armed := none } : Snd) = s at w0
    unfold rtoCb
    split
    · split
      · exact (Calm.trans (calm_cancel s) (Calm.same rfl rfl rfl)).winv w0
      · exact winv_nil rfl rfl
    split
    · split
      · exact (Calm.trans (calm_cancel s) (Calm.same rfl rfl rfl)).winv w0
      · exact winv_nil rfl rfl
    split
    · unfold ctrlCb
      split
      · exact (calm_ctrlStop s).winv w0
      · next hneed =>
        split
        · split
          · exact winv_nil rfl rfl
          · exact winv_nil rfl rfl
        · -- a control segment is resent only in states that cannot send data
          have hsh : openSt s.st = false := by
            cases hs : s.st <;> first | rfl | (exfalso; apply hneed; unfold needsCtrl; rw [hs]; rfl)
          have hctl : ∀ t : Snd, t.st = s.st → WInv t → WInv (ctrlStart t now) := by
            intro t ht wt
            refine ⟨by rw [ctrlStart_q]; exact wt.1, by rw [ctrlStart_q]; exact wt.2.1, ?_⟩
            rw [ctrlStart_st, ht, hsh]
            exact fun c => by cases c
          unfold ctrlResend
          split
          · split
            · exact hctl _ rfl (winv_push true w0)
            · exact hctl _ rfl (winv_push false w0)
          · exact hctl s rfl w0
    split
    · exact w0
    · unfold rtoData
      split
      · next i hi =>
        obtain ⟨d, hd, hs⟩ := rtoTarget_sent s i hi
        have c1 : Calm s (cancelTmr { s with peerSack := [], q := setAt s.q i Desc.markRetrans, inflight := 0 }) :=
          Calm.trans (b := { s with peerSack := [], q := setAt s.q i Desc.markRetrans, inflight := 0 })
            ((calm_markRetrans s i d hd hs 0).trans (Calm.same rfl rfl rfl)) (calm_cancel _)
        simp only
        split
        · exact winv_nil rfl rfl
        · exact (c1.trans (Calm.same rfl rfl rfl)).winv w0
      · refine (Calm.trans (b := cancelTmr { s with peerSack := [], inflight := 0 }) ?_ (Calm.same rfl rfl rfl)).winv w0
        exact Calm.trans (b := { s with peerSack := [], inflight := 0 }) (Calm.same rfl rfl rfl) (calm_cancel _)
  · exact w

/-! ### Transmission -/

theorem sum_set (g : Desc → Nat) : ∀ (q : List Desc) (i : Nat) (d e : Desc), q[i]? = some d →
    ((q.set i e).map g).sum + g d = (q.map g).sum + g e
  | [], _, _, _, h => by simp at h
  | x :: xs, 0, d, e, h => by
      simp only [List.getElem?_cons_zero, Option.some.injEq] at h
      subst h
      simp only [List.set_cons_zero, List.map_cons, List.sum_cons]
      omega
  | x :: xs, i + 1, d, e, h => by
      simp only [List.getElem?_cons_succ] at h
      have := sum_set g xs i d e h
      simp only [List.set_cons_succ, List.map_cons, List.sum_cons]
      omega

theorem sum_tail (g : Desc → Nat) (q : List Desc) : (q.tail.map g).sum ≤ (q.map g).sum := by
  cases q with
  | nil => exact Nat.le_refl _
  | cons a as => simp only [List.tail_cons, List.map_cons, List.sum_cons]; omega

theorem mem_le_sum {l : List Nat} {n : Nat} (h : n ∈ l) : n ≤ l.sum := by
  induction l with
  | nil => cases h
  | cons a as ih =>
    rw [List.sum_cons]
    rcases List.mem_cons.1 h with rfl | h
    · omega
    · have := ih h; omega

/-- Position of a segment: everything queued before it has been counted. -/
theorem chain_pos {iss : Nat} {acc : List UInt8} {hi : Nat} (g : Desc → Nat) : ∀ (q : List Desc) (p i : Nat) (d : Desc),
    Chain iss acc hi p q → q[i]? = some d → d.data ≠ [] →
    (∀ j e, j < i → q[j]? = some e → e.len ≤ g e) →
    ∃ x, d.seq = sq iss x ∧ Piece acc x d.data ∧ x ≤ p + (q.map g).sum - g d
  | [], _, _, _, _, h, _, _ => by simp at h
  | y :: ys, p, 0, d, hch, hd, hne, _ => by
      simp only [List.getElem?_cons_zero, Option.some.injEq] at hd
      subst hd
      simp only [Chain] at hch
      rcases hch with ⟨a, _⟩ | ⟨a, b, c, d', _, _⟩
      · exact absurd a hne
      · refine ⟨p, b, ⟨c, ?_⟩, ?_⟩
        · intro j hj
          rw [← List.getElem?_drop, ← List.getElem?_take_of_lt hj, d', List.getElem?_eq_getElem hj]
        · simp only [List.map_cons, List.sum_cons]; omega
  | y :: ys, p, i + 1, d, hch, hd, hne, hpre => by
      simp only [List.getElem?_cons_succ] at hd
      have hsub : g d ≤ (ys.map g).sum := by
        have hm : g d ∈ ys.map g := List.mem_map_of_mem (List.mem_of_getElem? hd)
        exact mem_le_sum hm
      have hy := hpre 0 y (by omega) rfl
      have hrest : ∀ j e, j < i → ys[j]? = some e → e.len ≤ g e :=
        fun j e hj he => hpre (j + 1) e (by omega) (by simpa using he)
      simp only [Chain] at hch
      rcases hch with ⟨a, b⟩ | ⟨a, b, c, d', _, f⟩
      · obtain ⟨x, h1, h2, h3⟩ := chain_pos g ys p i d b hd hne hrest
        refine ⟨x, h1, h2, ?_⟩
        simp only [List.map_cons, List.sum_cons]; omega
      · obtain ⟨x, h1, h2, h3⟩ := chain_pos g ys _ i d f hd hne hrest
        refine ⟨x, h1, h2, ?_⟩
        unfold Desc.len at hy
        simp only [List.map_cons, List.sum_cons]; omega

/-- Bytes of a segment that were transmitted before: outstanding, or waiting to be sent again. -/
def outBytes (d : Desc) : Nat := (if d.sent then d.len else 0) + (if d.retrans && !d.sent then d.len else 0)

theorem out_sum (q : List Desc) : (q.map outBytes).sum = sentBytes q + retransBytes q := by
  unfold sentBytes retransBytes
  induction q with
  | nil => rfl
  | cons d ds ih =>
    simp only [List.map_cons, List.sum_cons, ih]
    unfold outBytes
    omega

theorem txData_fields (s : Snd) (i : Nat) (d : Desc) (now : Nat) :
    (txData s i d now).peerRwnd = s.peerRwnd ∧ (txData s i d now).cwnd = s.cwnd ∧
    (txData s i d now).inflight = (if d.retrans then s.inflight else s.inflight + d.len) := by
  unfold txData armTmr cancelTmr
  simp only
  split <;> exact ⟨rfl, rfl, rfl⟩

theorem flush_window {iss : Nat} {acc : List UInt8} {hi R : Nat} : ∀ (f ok : Nat) (s : Snd) (i now : Nat),
    NoOvertake s.q → Inv iss acc hi s → ¬ Gone s → Ordered s.q → NoAcked s.q →
    (∀ j d, j < i → s.q[j]? = some d → d.data ≠ [] → d.sent = true) →
    (s.q.map outBytes).sum ≤ s.inflight + R →
    ∀ d ∈ flushOut f ok s i now, d.data ≠ [] → d.retrans = false →
      ∃ x, d.seq = sq iss x ∧ Piece acc x d.data ∧ x + d.data.length ≤ hi + min s.peerRwnd s.cwnd + R
  | 0, _, _, _, _, _, _, _, _, _, _, _ => fun d hd => by cases hd
  | f + 1, ok, s, i, now, hno, hinv, hg, hord, hna, hpre, hcnt => by
      intro x hx hxd hxr
      unfold flushOut at hx
      cases hd : s.q[i]? with
      | none => rw [hd] at hx; cases hx
      | some d =>
        rw [hd] at hx
        simp only at hx
        split at hx
        · next hs =>
          refine flush_window f ok s (i + 1) now hno hinv hg hord hna ?_ hcnt x hx hxd hxr
          intro j e hj he hed
          by_cases hji : j = i
          · subst hji
            rw [hd] at he
            cases he; exact hs
          · exact hpre j e (by omega) he hed
        · next hs =>
          have hs : d.sent = false := by simpa using hs
          split at hx
          · next hmay =>
            cases ok with
            | zero => cases hx
            | succ ok =>
              simp only at hx
              have hno' : NoOvertake (s.q.set i d.markSent) := noOvertake_set hno hd rfl rfl
              split at hx
              · next hemp =>
                have hemp : d.data = [] := List.isEmpty_iff.1 hemp
                rcases List.mem_cons.1 hx with rfl | hx
                · exact absurd hemp hxd
                · refine flush_window f ok { s with q := (s.q.set i d.markSent).tail } 0 now (noOvertake_tail hno')
                    (inv_txEmpty hno hd hs hemp hinv) hg (ordered_tail (ordered_set_empty hord hemp))
                    (noAcked_tail (noAcked_set hna (hna d (List.mem_of_getElem? hd)))) (fun j e hj => by omega) ?_ x hx hxd hxr
                  refine Nat.le_trans (sum_tail outBytes _) ?_
                  have h0 := sum_set outBytes s.q i d d.markSent hd
                  have hl : d.len = 0 := by unfold Desc.len; rw [hemp]; rfl
                  have h1 : outBytes d.markSent = 0 := by
                    unfold outBytes Desc.markSent Desc.len; rw [hemp]; rfl
                  show ((s.q.set i d.markSent).map outBytes).sum ≤ s.inflight + R
                  omega
              · next hemp =>
                have hemp : d.data ≠ [] := fun h => hemp (by simp [h])
                rcases List.mem_cons.1 hx with rfl | hx
                · -- new data leaves
                  rcases hinv with hgone | ⟨p, hgood⟩
                  · exact absurd hgone hg
                  · obtain ⟨y, y1, y2, y3⟩ := chain_pos outBytes s.q p i x hgood.chain hd hemp (by
                      intro j e hj he
                      cases he0 : e.data with
                      | nil => unfold Desc.len; rw [he0]; exact Nat.zero_le _
                      | cons b bs =>
                        have := hpre j e hj he (by rw [he0]; exact List.cons_ne_nil _ _)
                        unfold outBytes; rw [this]; simp)
                    have hle := hgood.le
                    have hob : outBytes x = 0 := by unfold outBytes; rw [hs, hxr]; rfl
                    unfold mayTx at hmay
                    rw [hxr, show x.data.isEmpty = false by simpa using hxd] at hmay
                    simp only [Bool.false_or, Bool.and_eq_true, decide_eq_true_eq] at hmay
                    obtain ⟨m1, m2⟩ := hmay
                    refine ⟨y, y1, y2, ?_⟩
                    unfold Desc.len at m2
                    omega
                · obtain ⟨t1, t2, t3⟩ := txData_fields s i d now
                  have hord' : Ordered (s.q.set i d.markSent) := by
                    refine ordered_set_new hord hd rfl rfl ?_
                    intro j e hj he hed
                    unfold touched
                    rw [hpre j e hj he hed]; rfl
                  have hcnt' : ((s.q.set i d.markSent).map outBytes).sum ≤ (txData s i d now).inflight + R := by
                    have h0 := sum_set outBytes s.q i d d.markSent hd
                    have h1 : outBytes d.markSent = d.len := by
                      unfold outBytes Desc.markSent Desc.len; simp
                    rw [t3]
                    cases hr : d.retrans with
                    | true =>
                      have h2 : outBytes d = d.len := by unfold outBytes; rw [hs, hr]; simp
                      simp only [if_true]; omega
                    | false =>
                      simp only [Bool.false_eq_true, if_false]; omega
                  have hrec := flush_window f ok (txData s i d now) (i + 1) now (by rw [txData_q]; exact hno')
                    (inv_frame (frame_txData s i d now hd) hinv)
                    (fun g => hg (by unfold Gone at *; rw [(frame_txData s i d now hd).st] at g; exact g))
                    (by rw [txData_q]; exact hord')
                    (by rw [txData_q]; exact noAcked_set hna (hna d (List.mem_of_getElem? hd)))
                    (by
                      rw [txData_q]
                      intro j e hj he hed
                      rw [List.getElem?_set] at he
                      split at he
                      · split at he
                        · simp only [Option.some.injEq] at he; subst he; rfl
                        · cases he
                      · exact hpre j e (by omega) he hed)
                    (by rw [txData_q]; exact hcnt') x hx hxd hxr
                  rw [t1, t2] at hrec
                  exact hrec
          · next hmay =>
            -- a refused segment is new data; no retransmission can be waiting behind it
            have hmay : mayTx s d = false := by simpa using hmay
            unfold mayTx at hmay
            simp only [Bool.or_eq_false_iff] at hmay
            obtain ⟨⟨hr, he⟩, _⟩ := hmay
            have hdn : d.data ≠ [] := by simpa using he
            split at hx
            · next j hj =>
              split at hx
              · next hji =>
                exfalso
                unfold findRetrans at hj
                rw [Option.map_eq_some_iff] at hj
                obtain ⟨k, hk, rfl⟩ := hj
                rw [List.findIdx?_eq_some_iff_getElem] at hk
                obtain ⟨hk1, hk2, _⟩ := hk
                have hge : s.q[k + i]? = some ((s.q.drop i)[k]) := by
                  rw [← List.getElem?_eq_getElem hk1, List.getElem?_drop, Nat.add_comm]
                simp only [Bool.and_eq_true, Bool.not_eq_true'] at hk2
                have := hord i (k + i) d _ (by omega) hd hge hdn (by simpa using hk2.2)
                  (by unfold touched; rw [hk2.1.1]; simp)
                unfold touched at this
                rw [hs, hr, hna d (List.mem_of_getElem? hd)] at this
                cases this
              · cases hx
            · cases hx

theorem resync_fields (s : Snd) (now : Nat) : (resync s now).peerRwnd = s.peerRwnd ∧
    (resync s now).cwnd = s.cwnd ∧ (resync s now).st = s.st := by
  unfold resync cancelTmr armTmr
  simp only
  repeat' split
  all_goals exact ⟨rfl, rfl, rfl⟩

theorem resync_inflight (s : Snd) (now : Nat) (h : (needsCtrl s || s.ctrlActive) = false) :
    (resync s now).inflight = sentBytes s.q := by
  unfold resync cancelTmr armTmr
  rw [if_neg (by rw [h]; exact Bool.false_ne_true)]
  simp only
  repeat' split
  all_goals rfl

theorem flushLoop_winv : ∀ (f ok : Nat) (s : Snd) (i now : Nat), WInv s →
    (∀ j d, j < i → s.q[j]? = some d → d.data ≠ [] → d.sent = true) → WInv (flushLoop f ok s i now)
  | 0, _, _, _, _, w, _ => w
  | f + 1, ok, s, i, now, w, hpre => by
      unfold flushLoop
      cases hd : s.q[i]? with
      | none => exact w
      | some d =>
        simp only
        split
        · next hs =>
          refine flushLoop_winv f ok s (i + 1) now w ?_
          intro j e hj he hed
          by_cases hji : j = i
          · subst hji; rw [hd] at he; cases he; exact hs
          · exact hpre j e (by omega) he hed
        · next hs =>
          have hs : d.sent = false := by simpa using hs
          have hda : d.acked = false := w.2.1 d (List.mem_of_getElem? hd)
          split
          · cases ok with
            | zero => exact w
            | succ ok =>
              simp only
              split
              · next hemp =>
                have hemp : d.data = [] := List.isEmpty_iff.1 hemp
                exact flushLoop_winv f ok _ 0 now
                  ⟨ordered_tail (ordered_set_empty w.1 hemp), noAcked_tail (noAcked_set w.2.1 hda), w.2.2⟩
                  (fun j e hj => by omega)
              · have hw : WInv (txData s i d now) := by
                  refine ⟨?_, ?_, ?_⟩
                  · rw [txData_q]
                    refine ordered_set_new w.1 hd rfl rfl ?_
                    intro j e hj he hed
                    unfold touched
                    rw [hpre j e hj he hed]; rfl
                  · rw [txData_q]; exact noAcked_set w.2.1 hda
                  · have h1 := (frame_txData s i d now hd).st
                    have h2 : (txData s i d now).ctrlActive = s.ctrlActive := by
                      unfold txData armTmr; exact cancel_ctrl _
                    rw [h1, h2]; exact w.2.2
                refine flushLoop_winv f ok _ (i + 1) now hw ?_
                rw [txData_q]
                intro j e hj he hed
                rw [List.getElem?_set] at he
                split at he
                · split at he
                  · simp only [Option.some.injEq] at he; subst he; rfl
                  · cases he
                · exact hpre j e (by omega) he hed
          · next hmay =>
            have hmay : mayTx s d = false := by simpa using hmay
            unfold mayTx at hmay
            simp only [Bool.or_eq_false_iff] at hmay
            obtain ⟨⟨hr, he⟩, _⟩ := hmay
            have hdn : d.data ≠ [] := by simpa using he
            split
            · next j hj =>
              split
              · next hji =>
                exfalso
                unfold findRetrans at hj
                rw [Option.map_eq_some_iff] at hj
                obtain ⟨k, hk, rfl⟩ := hj
                rw [List.findIdx?_eq_some_iff_getElem] at hk
                obtain ⟨hk1, hk2, _⟩ := hk
                have hge : s.q[k + i]? = some ((s.q.drop i)[k]) := by
                  rw [← List.getElem?_eq_getElem hk1, List.getElem?_drop, Nat.add_comm]
                simp only [Bool.and_eq_true, Bool.not_eq_true'] at hk2
                have := w.1 i (k + i) d _ (by omega) hd hge hdn (by simpa using hk2.2)
                  (by unfold touched; rw [hk2.1.1]; simp)
                unfold touched at this
                rw [hs, hr, hda] at this
                cases this
              · exact w
            · exact w

theorem winv_sendOne {c : Conn} (chunk : List UInt8) (w : WInv c.s) : WInv (sendOne c chunk).s := by
  unfold sendOne sendChunk
  by_cases hc : (c.s.st = .established ∨ c.s.st = .closeWait) ∧ chunk ≠ [] ∧ queued c.s.q + chunk.length ≤ TXBUF
  · rw [if_pos hc]
    exact ⟨ordered_append w.1 (Or.inr rfl), noAcked_append w.2.1 rfl, w.2.2⟩
  · rw [if_neg hc]
    exact w

theorem winv_step {c : Conn} (e : Ev) (w : WInv c.s) : WInv (step c e).s := by
  cases e with
  | send chunks =>
    show WInv (chunks.foldl sendOne c).s
    induction chunks generalizing c with
    | nil => exact w
    | cons x xs ih => exact ih (winv_sendOne x w)
  | queueEmpty => exact winv_push false w
  | ack pos win blocks d now => exact winv_tcpAck _ w
  | peerFin =>
    show WInv (Snd.peerFin c.s)
    unfold Snd.peerFin
    split
    · next h =>
      refine winv_push false ⟨w.1, w.2.1, fun _ => w.2.2 (by rw [h]; rfl)⟩
    · exact winv_push false ⟨w.1, w.2.1, fun c => (by cases c)⟩
    · exact w
  | close now =>
    show WInv (appClose c.s now)
    have hctl : ∀ t : Snd, openSt t.st = false → WInv t → WInv (ctrlStart t now) := by
      intro t ht wt
      refine ⟨by rw [ctrlStart_q]; exact wt.1, by rw [ctrlStart_q]; exact wt.2.1, ?_⟩
      rw [ctrlStart_st, ht]
      exact fun c => by cases c
    have wp := winv_push true w
    unfold appClose
    split
    · exact hctl _ rfl ⟨wp.1, wp.2.1, fun c => (by cases c)⟩
    · exact hctl _ rfl ⟨wp.1, wp.2.1, fun c => (by cases c)⟩
    · exact w
  | fire now qd => exact winv_fire now qd w
  | flush now fuel ok =>
    refine flushLoop_winv fuel ok (resync c.s now) 0 now ?_ (fun j d hj => by omega)
    have hc : (resync c.s now).ctrlActive = c.s.ctrlActive := by
      unfold resync cancelTmr armTmr
      simp only
      repeat' split
      all_goals rfl
    refine ⟨by rw [resync_q]; exact w.1, by rw [resync_q]; exact w.2.1, ?_⟩
    rw [hc, (resync_fields c.s now).2.2]; exact w.2.2
  | window v => exact w

theorem winv_run : ∀ (es : List Ev) (c : Conn), WInv c.s → WInv (run c es).s
  | [], _, w => w
  | e :: es, c, w => winv_run es (step c e) (winv_step e w)

/-- **C72 (partial): windows.** On a connection whose application has not closed, after any history
of sends, acknowledgments, timers and transmissions, the new data a transmission turn puts on the wire
ends at or before the highest acknowledged position plus the smaller of the peer's advertised window
and the congestion window, plus the bytes retransmitted in the same turn (none if no segment was
marked for retransmission).

Missing from the full property: the last summand should not be there; it really is needed, see
`window_exceeded_after_fast_retransmit`. As in C12, acknowledgments of data never sent and the
transmission of an empty segment queued behind data are excluded. -/
theorem send_window_partial (c : Conn) (es : List Ev) (h0 : Fresh c) (hc : c.s.ctrlActive = false)
    (hl : LegitRun c es) (hopen : openSt (run c es).s.st = true) (now fuel ok : Nat)
    (hno : NoOvertake (run c es).s.q) :
    ∀ d ∈ emits (run c es) (.flush now fuel ok), d.data ≠ [] → d.retrans = false →
      ∃ x, d.seq = sq (run c es).iss x ∧ Piece (run c es).acc x d.data ∧
        x + d.data.length ≤ (run c es).hi + min (run c es).s.peerRwnd (run c es).s.cwnd +
          retransBytes (run c es).s.q := by
  have hi0 : Inv c.iss c.acc c.hi c.s := by
    obtain ⟨a, b, cc, d⟩ := h0
    refine Or.inr ⟨0, by omega, by omega, by simp [b], ?_, by rw [b, d]; rfl⟩
    rw [a, b]; rfl
  have w0 : WInv c.s := by
    refine ⟨by rw [h0.1]; exact ordered_nil, by rw [h0.1]; exact fun d hd => (by cases hd), fun _ => hc⟩
  have hinv := inv_run es c hl hi0
  have w := winv_run es c w0
  generalize run c es = c' at *
  have hg : ¬ Gone c'.s := by
    rintro (g | g) <;> rw [g] at hopen <;> cases hopen
  have hctrl : (needsCtrl c'.s || c'.s.ctrlActive) = false := by
    rw [w.2.2 hopen, Bool.or_false]
    unfold needsCtrl
    unfold openSt at hopen
    simp only [Bool.or_eq_true, beq_iff_eq] at hopen
    rcases hopen with e | e <;> rw [e] <;> rfl
  obtain ⟨r1, r2, r3⟩ := resync_fields c'.s now
  have h := flush_window (R := retransBytes c'.s.q) fuel ok (resync c'.s now) 0 now
    (by rw [resync_q]; exact hno) (inv_frame (frame_resync _ _) hinv)
    (by unfold Gone at *; rw [r3]; exact hg) (by rw [resync_q]; exact w.1) (by rw [resync_q]; exact w.2.1)
    (fun j d hj => by omega) (by rw [resync_q, resync_inflight _ _ hctrl, out_sum]; exact Nat.le_refl _)
  rw [r1, r2] at h
  exact h

/-- A connection that has just been established with a receiver offering 3000 bytes. -/
def exWinSock : Snd where
  st := .established
  q := []
  seq := 1000
  sndUna := 1000
  last := 0
  inflight := 0
  cwnd := 5840
  ssthresh := 65535
  peerRwnd := 3000
  smss := 1460
  lastPeerWin := 3000

def exWin : Conn where
  s := exWinSock
  iss := 1000
  acc := []
  hi := 0

/-- **C72 is exceeded by the code**: with an advertised window of 3000 bytes and two 1460-byte segments
outstanding, three duplicate ACKs make the first one be retransmitted and, in the same turn, a third
segment of 1460 bytes be sent: its end is at 4380, beyond the 3000 bytes the receiver has room for. -/
theorem window_exceeded_after_fast_retransmit :
    let seg := List.replicate 1460 (7 : UInt8)
    let c := run exWin [.send [seg, seg, seg], .flush 10 99 99, .ack 0 3000 [] false 20, .ack 0 3000 [] false 21,
      .ack 0 3000 [] false 22]
    c.hi = 0 ∧ c.s.peerRwnd = 3000 ∧
    (emits (run exWin [.send [seg, seg, seg]]) (.flush 10 99 99)).map (fun d => (d.seq, d.len)) = [(1000, 1460), (2460, 1460)] ∧
    (emits c (.flush 30 99 99)).map (fun d => (d.seq, d.len, d.retrans)) = [(1000, 1460, true), (3920, 1460, false)] := by
  refine ⟨?_, ?_, ?_, ?_⟩ <;> decide +kernel

end Wolf.Tcp.Snd
