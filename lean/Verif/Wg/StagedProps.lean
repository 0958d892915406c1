import Verif.Wg.Staged

/-!
# C49: what happens to staged packets
-/

namespace Wolf.Wg

/-- The transport messages among some effects. -/
def encsOf (es : List Ev) : List Ev :=
  es.filter (fun e => match e with | .enc .. => true | _ => false)

/-- The plaintexts of the transport messages among some effects. -/
def paysOf (es : List Ev) : List Bytes :=
  es.filterMap (fun e => match e with | .enc _ _ pl _ _ => some pl | _ => none)

theorem paysOf_append (a b : List Ev) : paysOf (a ++ b) = paysOf a ++ paysOf b := by
  unfold paysOf; rw [List.filterMap_append]

theorem encsOf_append (a b : List Ev) : encsOf (a ++ b) = encsOf a ++ encsOf b := by
  unfold encsOf; rw [List.filter_append]

theorem paysOf_quiet {es : List Ev} (h : ∀ e ∈ es, Ev.own e) : paysOf es = [] := by
  unfold paysOf
  rw [List.filterMap_eq_nil_iff]
  intro e he
  have := h e he
  cases e <;> first | rfl | exact absurd this id

theorem encsOf_quiet {es : List Ev} (h : ∀ e ∈ es, Ev.own e) : encsOf es = [] := by
  unfold encsOf
  rw [List.filter_eq_nil_iff]
  intro e he
  have := h e he
  cases e <;> first | (intro c; cases c; done) | exact absurd this id

theorem noSession_core {now : Nat} {p q : Peer} (h : q.core = p.core) :
    noSession now q = noSession now p := by
  have h1 : q.cur = p.cur := congrArg Core.cur h
  have h2 : q.slots = p.slots := congrArg Core.slots h
  unfold noSession Peer.curKP Peer.kp
  rw [h1, h2]

/-- No transport message goes out and the packet is staged while there is no usable session, and
the attempt does not make one usable. -/
theorem packetSend_none (co : Nat → Nat) (now : Nat) (p : Peer) (pkt : Bytes)
    (h : noSession now p = true) :
    encsOf (packetSend co now p pkt).2 = [] ∧ noSession now (packetSend co now p pkt).1 = true := by
  have hi := sendInit_core co now (stage p pkt)
  have hs := core_stage p pkt
  unfold packetSend
  split
  · dsimp only
    split
    · exact ⟨encsOf_quiet hi.2, by rw [noSession_core (hi.1.trans hs)]; exact h⟩
    · exact ⟨rfl, by rw [noSession_core hs]; exact h⟩
  · next i hc =>
    dsimp only
    split
    · split
      · exact ⟨encsOf_quiet hi.2, by rw [noSession_core (hi.1.trans hs)]; exact h⟩
      · exact ⟨rfl, by rw [noSession_core hs]; exact h⟩
    · next hv =>
      have hx : (p.kp i).sCtr ≥ rekeyMsgs ∨ sub64 now (p.kp i).sBirth ≥ rejectMs := by
        unfold noSession Peer.curKP at h
        rw [hc] at h
        simp only [Option.map_some, Bool.or_eq_true, beq_iff_eq, decide_eq_true_eq] at h
        exact h.resolve_left hv
      rw [if_pos hx]
      refine ⟨rfl, ?_⟩
      rw [noSession_core (core_stage _ pkt)]
      have hil : i < p.slots.length := by
        have hkv : (p.kp i).sValid = true := by
          cases hh : (p.kp i).sValid
          · exact absurd hh hv
          · rfl
        have := kp_get (p := p) (i := i) (Or.inl hkv)
        exact (List.getElem?_eq_some_iff.mp this).1
      unfold noSession Peer.curKP
      rw [show (p.setKP i _).cur = some i from hc]
      simp only [Option.map_some]
      rw [kp_set, if_pos ⟨rfl, hil⟩]
      rfl

theorem sendAll_none (co : Nat → Nat) (now : Nat) (l : List Bytes) : ∀ (p : Peer), QWf p →
    noSession now p = true →
    encsOf (sendAll co now l p).2 = [] ∧ noSession now (sendAll co now l p).1 = true ∧
    (sendAll co now l p).1.queue = l.foldl enqueue p.queue := by
  induction l with
  | nil => intro p _ h; exact ⟨rfl, h, rfl⟩
  | cons pkt l ih =>
    intro p hw h
    obtain ⟨h1, h2⟩ := packetSend_none co now p pkt h
    obtain ⟨h3, h4, h5⟩ := ih _ (packetSend_wf co now hw pkt) h2
    refine ⟨?_, h4, ?_⟩
    · show encsOf (_ ++ _) = []
      rw [encsOf_append, h1, h3]; rfl
    · show (sendAll co now l (packetSend co now p pkt).1).1.queue = _
      rw [h5, packetSend_queue co now hw, h]
      rfl

theorem enqueue_all (l : List Bytes) : ∀ (q : List Bytes), q.length + l.length ≤ 16 →
    (∀ x ∈ l, x.length ≤ linkMtu) → l.foldl enqueue q = q ++ l := by
  induction l with
  | nil => intro q _ _; simp
  | cons x l ih =>
    intro q hl hs
    rw [List.length_cons] at hl
    have he : enqueue q x = q ++ [x] := by
      unfold enqueue
      rw [if_pos (by omega), List.take_of_length_le (hs x List.mem_cons_self)]
    rw [List.foldl_cons, he, ih _ (by rw [List.length_append, List.length_singleton]; omega)
      (fun y hy => hs y (List.mem_cons_of_mem _ hy))]
    simp

theorem QWf.queue_small {p : Peer} (h : QWf p) : ∀ x ∈ p.queue, x.length ≤ linkMtu :=
  fun x hx => h.small x (List.mem_of_mem_take hx)

/-- **C49, nothing is lost without a session.**  If there is no usable session, draining leaves
the staged packets exactly as they were and sends none. -/
theorem drain_without_session (co : Nat → Nat) (now : Nat) {p : Peer} (hw : QWf p)
    (h : noSession now p = true) :
    (sendStaged co now p).1.queue = p.queue ∧ encsOf (sendStaged co now p).2 = [] := by
  obtain ⟨h1, h2⟩ := sendStaged_sendAll co now hw
  have hw0 : QWf ({ p with nStaged := 0 } : Peer) := ⟨hw.len, Nat.zero_le _, hw.small⟩
  obtain ⟨h3, _, h5⟩ := sendAll_none co now p.queue { p with nStaged := 0 } hw0 h
  rw [h1.queue, h2]
  refine ⟨?_, h3⟩
  rw [h5]
  have : ({ p with nStaged := 0 } : Peer).queue = [] := by unfold Peer.queue; simp
  rw [this, enqueue_all]
  · simp
  · rw [hw.qlen, List.length_nil]; have := hw.le; omega
  · exact hw.queue_small

/-! ### With a session -/

/-- The current session can send `n` more packets. -/
structure CanSend (now : Nat) (p : Peer) (k : KP) (n : Nat) : Prop where
  cur : p.curKP = some k
  slot : ∃ i, p.cur = some i ∧ i < p.slots.length
  valid : k.sValid = true
  room : k.sCtr + n ≤ rekeyMsgs
  young : sub64 now k.sBirth < rejectMs

theorem padLen_small {n : Nat} (h : n ≤ linkMtu) : padLen n ≤ linkMtu := by
  unfold padLen
  split <;> omega

/-- The transport messages for packets `l` from nonce `c` on. -/
def msgs (sid ip port : Nat) : Nat → List Bytes → List Ev
  | _, [] => []
  | c, x :: l => .enc sid c (pad x) ip port :: msgs sid ip port (c + 1) l

theorem sendInit_ep (co : Nat → Nat) (now : Nat) (p : Peer) :
    (sendInit co now p).1.epIp = p.epIp ∧ (sendInit co now p).1.epPort = p.epPort := by
  unfold sendInit createInit
  by_cases h : co p.ptr = 0 <;> simp [h]

theorem packetSend_some (co : Nat → Nat) (hco : ∀ n, co n ≠ 0) (now : Nat) (p : Peer) (k : KP)
    (n : Nat) (h : CanSend now p k (n + 1)) (x : Bytes) (hx : x.length ≤ linkMtu) :
    encsOf (packetSend co now p x).2 = [.enc k.sid k.sCtr (pad x) p.epIp p.epPort] ∧
    CanSend now (packetSend co now p x).1 { k with sCtr := k.sCtr + 1 } n ∧
    (packetSend co now p x).1.epIp = p.epIp ∧ (packetSend co now p x).1.epPort = p.epPort := by
  obtain ⟨i, hc, hil⟩ := h.slot
  have hk : p.kp i = k := by
    have := h.cur
    unfold Peer.curKP at this
    rw [hc] at this
    exact Option.some.inj this
  have hroom := h.room
  have hyoung := h.young
  have hv := h.valid
  subst hk
  have can : ∀ q : Peer, q.core = (p.setKP i { p.kp i with sCtr := (p.kp i).sCtr + 1 }).core →
      CanSend now q { p.kp i with sCtr := (p.kp i).sCtr + 1 } n := by
    intro q hq
    have h1 : q.cur = some i := (congrArg Core.cur hq).trans hc
    have h2 : q.slots = p.slots.set i { p.kp i with sCtr := (p.kp i).sCtr + 1 } :=
      congrArg Core.slots hq
    refine ⟨?_, ⟨i, h1, by rw [h2, List.length_set]; exact hil⟩, hv, by dsimp only; omega, hyoung⟩
    unfold Peer.curKP Peer.kp
    rw [h1, Option.map_some, List.getD_eq_getElem?_getD, h2, List.getElem?_set_self hil]
    rfl
  unfold packetSend
  split
  · next hn => rw [hc] at hn; cases hn
  · next j hj =>
    have hij : i = j := Option.some.inj (hc.symm.trans hj)
    subst hij
    dsimp only
    rw [if_neg (by rw [hv]; simp), if_neg (by omega),
      if_neg (by have := padLen_small hx; omega), if_neg (hco _)]
    split
    · have hi := sendInit_core co now ({ (({ p with ptr := p.ptr + 1 } : Peer).setKP i
        { p.kp i with sCtr := (p.kp i).sCtr + 1 }) with tDataSent := now } : Peer)
      have he := sendInit_ep co now ({ (({ p with ptr := p.ptr + 1 } : Peer).setKP i
        { p.kp i with sCtr := (p.kp i).sCtr + 1 }) with tDataSent := now } : Peer)
      refine ⟨?_, can _ hi.1, he.1, he.2⟩
      show encsOf ([_] ++ _) = _
      rw [encsOf_append, encsOf_quiet hi.2]
      rfl
    · exact ⟨rfl, can _ rfl, rfl, rfl⟩

theorem CanSend.session {now : Nat} {p : Peer} {k : KP} {n : Nat} (h : CanSend now p k (n + 1)) :
    noSession now p = false := by
  unfold noSession
  rw [h.cur]
  have h1 := h.room
  have h2 := h.young
  have h3 : ¬ (k.sCtr ≥ rekeyMsgs ∨ sub64 now k.sBirth ≥ rejectMs) := by omega
  simp [h.valid, h3]

theorem sendAll_some (co : Nat → Nat) (hco : ∀ n, co n ≠ 0) (now : Nat) (l : List Bytes) :
    ∀ (p : Peer) (k : KP), QWf p → CanSend now p k l.length → (∀ x ∈ l, x.length ≤ linkMtu) →
    encsOf (sendAll co now l p).2 = msgs k.sid p.epIp p.epPort k.sCtr l ∧
    (sendAll co now l p).1.queue = p.queue := by
  induction l with
  | nil => intro p k _ _ _; exact ⟨rfl, rfl⟩
  | cons x l ih =>
    intro p k hw h hs
    obtain ⟨h1, h2, h3, h4⟩ := packetSend_some co hco now p k l.length h x (hs x List.mem_cons_self)
    obtain ⟨h5, h6⟩ := ih _ _ (packetSend_wf co now hw x) h2
      (fun y hy => hs y (List.mem_cons_of_mem _ hy))
    refine ⟨?_, ?_⟩
    · show encsOf (_ ++ _) = _
      rw [encsOf_append, h1, h5, h3, h4]
      rfl
    · show (sendAll co now l (packetSend co now p x).1).1.queue = _
      rw [h6, packetSend_queue co now hw, h.session]
      rfl

/-- **C49, the drain.**  If the current session is usable for all the staged packets and no
crypto call fails, draining sends each staged packet exactly once, in order, with consecutive
nonces, to the peer's endpoint, and leaves nothing staged. -/
theorem drain_with_session (co : Nat → Nat) (hco : ∀ n, co n ≠ 0) (now : Nat) {p : Peer} {k : KP}
    (hw : QWf p) (h : CanSend now p k p.queue.length) :
    encsOf (sendStaged co now p).2 = msgs k.sid p.epIp p.epPort k.sCtr p.queue ∧
    (sendStaged co now p).1.queue = [] := by
  obtain ⟨h1, h2⟩ := sendStaged_sendAll co now hw
  have hw0 : QWf ({ p with nStaged := 0 } : Peer) := ⟨hw.len, Nat.zero_le _, hw.small⟩
  obtain ⟨h3, h4⟩ := sendAll_some co hco now p.queue { p with nStaged := 0 } k hw0
    ⟨h.cur, h.slot, h.valid, h.room, h.young⟩ hw.queue_small
  rw [h1.queue, h2]
  refine ⟨h3, ?_⟩
  rw [h4]
  unfold Peer.queue
  simp

/-! ### In general -/

theorem packetSend_pays (co : Nat → Nat) (now : Nat) (p : Peer) (x : Bytes)
    (h : noSession now p = false) :
    paysOf (packetSend co now p x).2 = [] ∨
    (paysOf (packetSend co now p x).2 = [pad x] ∧ x.length ≤ linkMtu) := by
  unfold packetSend
  split
  · next hn => unfold noSession Peer.curKP at h; rw [hn] at h; cases h
  · next i hc =>
    unfold noSession Peer.curKP at h
    rw [hc] at h
    simp only [Option.map_some, Bool.or_eq_false_iff, beq_eq_false_iff_ne,
      decide_eq_false_iff_not] at h
    dsimp only
    rw [if_neg h.1, if_neg h.2]
    split
    · exact Or.inl rfl
    · next hl =>
      split
      · exact Or.inl rfl
      · have hx : x.length ≤ linkMtu := by
          unfold padLen at hl
          split at hl <;> omega
        right
        split
        · have hi := sendInit_core co now ({ (({ p with ptr := p.ptr + 1 } : Peer).setKP i
            { p.kp i with sCtr := (p.kp i).sCtr + 1 }) with tDataSent := now } : Peer)
          refine ⟨?_, hx⟩
          show paysOf ([_] ++ _) = _
          rw [paysOf_append, paysOf_quiet hi.2]
          rfl
        · exact ⟨rfl, hx⟩

theorem paysOf_encsOf (es : List Ev) (h : encsOf es = []) : paysOf es = [] := by
  unfold encsOf at h
  rw [List.filter_eq_nil_iff] at h
  unfold paysOf
  rw [List.filterMap_eq_nil_iff]
  intro e he
  have := h e he
  cases e <;> first | rfl | exact absurd rfl this

theorem sendAll_sublist (co : Nat → Nat) (now : Nat) (l : List Bytes) : ∀ (p : Peer), QWf p →
    p.queue = [] → l.length ≤ 16 → (∀ x ∈ l, x.length ≤ linkMtu) →
    (paysOf (sendAll co now l p).2 ++ (sendAll co now l p).1.queue.map pad).Sublist
      (l.map pad) := by
  induction l with
  | nil =>
    intro p _ hq _ _
    show ([] ++ p.queue.map pad).Sublist _
    rw [hq]
    exact List.Sublist.refl _
  | cons x l ih =>
    intro p hw hq hl hs
    cases hn : noSession now p with
    | true =>
      obtain ⟨h1, _, h3⟩ := sendAll_none co now (x :: l) p hw hn
      rw [paysOf_encsOf _ h1, h3, enqueue_all _ _ (by rw [hq]; simpa using hl) hs, hq]
      exact List.Sublist.refl _
    | false =>
      have hq' := packetSend_queue co now hw x
      rw [hn] at hq'
      have ih' := ih _ (packetSend_wf co now hw x) (hq'.trans hq)
        (by rw [List.length_cons] at hl; omega) (fun y hy => hs y (List.mem_cons_of_mem _ hy))
      have e : paysOf (sendAll co now (x :: l) p).2 = paysOf (packetSend co now p x).2 ++
          paysOf (sendAll co now l (packetSend co now p x).1).2 := paysOf_append _ _
      rw [e]
      rcases packetSend_pays co now p x hn with hp | ⟨hp, _⟩
      · rw [hp]
        exact List.Sublist.cons _ ih'
      · rw [hp]
        exact List.Sublist.cons₂ _ ih'

/-- **C49, order and at-most-once in general.**  Whatever fails during a drain, the packets sent
followed by the packets staged again are a subsequence of the packets that were staged: none is
sent twice, none is both sent and kept, and the order is preserved. -/
theorem drain_subsequence (co : Nat → Nat) (now : Nat) {p : Peer} (hw : QWf p) :
    (paysOf (sendStaged co now p).2 ++ (sendStaged co now p).1.queue.map pad).Sublist
      (p.queue.map pad) := by
  obtain ⟨h1, h2⟩ := sendStaged_sendAll co now hw
  have hw0 : QWf ({ p with nStaged := 0 } : Peer) := ⟨hw.len, Nat.zero_le _, hw.small⟩
  rw [h1.queue, h2]
  refine sendAll_sublist co now p.queue _ hw0 (by unfold Peer.queue; simp) ?_ hw.queue_small
  rw [hw.qlen]
  exact hw.le

end Wolf.Wg
