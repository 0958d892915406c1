import Verif.Wg.StagedProps

/-!
# C46 and C49 over histories: every packet goes to its owner, at most once
-/

namespace Wolf.Wg

/-- From `p` to `q` with effects `es`: the packet `x` is not multiplied, `extra` copies of it
having come in. -/
structure Cnt (x : Bytes) (extra : Nat) (p q : Peer) (es : List Ev) : Prop where
  wf : QWf p → QWf q
  le : QWf p → (paysOf es).count x + (q.queue.map pad).count x ≤
    (p.queue.map pad).count x + extra

theorem Cnt.mk' {x : Bytes} {p q : Peer} {es : List Ev} (h1 : q.staged = p.staged)
    (h2 : q.nStaged = p.nStaged) (h3 : (paysOf es).count x = 0) : Cnt x 0 p q es :=
  ⟨fun h => wf_congr h1 h2 h, fun _ => by rw [queue_congr h1 h2, h3]; omega⟩

theorem Cnt.trans {x : Bytes} {a b : Nat} {p q r : Peer} {es es' : List Ev} (h : Cnt x a p q es)
    (h' : Cnt x b q r es') : Cnt x (a + b) p r (es ++ es') := by
  refine ⟨fun hw => h'.wf (h.wf hw), fun hw => ?_⟩
  have h1 := h.le hw
  have h2 := h'.le (h.wf hw)
  rw [paysOf_append, List.count_append]
  omega

theorem Cnt.trans0 {x : Bytes} {p q r : Peer} {es es' : List Ev} (h : Cnt x 0 p q es)
    (h' : Cnt x 0 q r es') : Cnt x 0 p r (es ++ es') := h.trans h'

theorem sendInit_cnt (x : Bytes) (co : Nat → Nat) (now : Nat) (p : Peer) :
    Cnt x 0 p (sendInit co now p).1 (sendInit co now p).2 := by
  obtain ⟨h1, h2, _⟩ := sendInit_staged co now p
  exact Cnt.mk' h1 h2 (by rw [paysOf_quiet (sendInit_core co now p).2]; rfl)

theorem packetSend_cnt (x : Bytes) (co : Nat → Nat) (now : Nat) (p : Peer) (pkt : Bytes) :
    Cnt x (if pad (pkt.take linkMtu) = x then 1 else 0) p (packetSend co now p pkt).1
      (packetSend co now p pkt).2 := by
  refine ⟨fun hw => packetSend_wf co now hw pkt, fun hw => ?_⟩
  rw [packetSend_queue co now hw]
  cases hn : noSession now p with
  | true =>
    rw [paysOf_encsOf _ (packetSend_none co now p pkt hn).1]
    simp only [if_true]
    unfold enqueue
    split
    · rw [List.map_append, List.count_append]
      simp only [List.map_cons, List.map_nil, List.count_nil]
      rw [List.count_singleton]
      simp only [beq_iff_eq]
      omega
    · simp
  | false =>
    simp only [Bool.false_eq_true, if_false]
    rcases packetSend_pays co now p pkt hn with hp | ⟨hp, hl⟩
    · rw [hp]; simp
    · rw [hp, List.take_of_length_le hl, List.count_singleton]
      simp only [beq_iff_eq]
      omega

theorem sendStaged_cnt (x : Bytes) (co : Nat → Nat) (now : Nat) (p : Peer) :
    Cnt x 0 p (sendStaged co now p).1 (sendStaged co now p).2 := by
  refine ⟨fun hw => (sendStaged_sendAll co now hw).1.wa, fun hw => ?_⟩
  have := (drain_subsequence co now hw).count_le x
  rw [List.count_append] at this
  exact this

theorem sendKeepalive_staged (co : Nat → Nat) (now : Nat) (p : Peer) :
    (sendKeepalive co now p).1.staged = p.staged ∧
    (sendKeepalive co now p).1.nStaged = p.nStaged := by
  unfold sendKeepalive
  split
  · exact ⟨rfl, rfl⟩
  · dsimp only
    split
    · exact ⟨rfl, rfl⟩
    · split
      · exact ⟨rfl, rfl⟩
      · split
        · exact ⟨rfl, rfl⟩
        · split <;> exact ⟨rfl, rfl⟩

theorem sendKeepalive_pays (co : Nat → Nat) (now : Nat) (p : Peer) :
    ∀ y ∈ paysOf (sendKeepalive co now p).2, y = [] := by
  unfold sendKeepalive
  split
  · intro y hy; cases hy
  · dsimp only
    split
    · intro y hy; cases hy
    · split
      · intro y hy; cases hy
      · split
        · intro y hy; cases hy
        · split
          · intro y hy; cases hy
          · intro y hy
            simp [paysOf] at hy
            exact hy

theorem sendKeepalive_cnt {x : Bytes} (hx : x ≠ []) (co : Nat → Nat) (now : Nat) (p : Peer) :
    Cnt x 0 p (sendKeepalive co now p).1 (sendKeepalive co now p).2 := by
  obtain ⟨h1, h2⟩ := sendKeepalive_staged co now p
  refine Cnt.mk' h1 h2 (List.count_eq_zero_of_not_mem ?_)
  intro hm
  exact hx (sendKeepalive_pays co now p x hm)

theorem Cnt.pre {x : Bytes} {p p' q : Peer} {es : List Ev} (h : Cnt x 0 p' q es)
    (h1 : p'.staged = p.staged) (h2 : p'.nStaged = p.nStaged) : Cnt x 0 p q es :=
  (Cnt.mk' h1 h2 rfl : Cnt x 0 p p' []).trans0 h

theorem Cnt.post {x : Bytes} {p q q' : Peer} {es : List Ev} (h : Cnt x 0 p q es)
    (h1 : q'.staged = q.staged) (h2 : q'.nStaged = q.nStaged) : Cnt x 0 p q' es := by
  have := h.trans0 (Cnt.mk' h1 h2 rfl : Cnt x 0 q q' [])
  rwa [List.append_nil] at this

theorem sendHsInit_cnt (x : Bytes) (co : Nat → Nat) (now : Nat) (p : Peer) :
    Cnt x 0 p (sendHsInit co now p).1 (sendHsInit co now p).2 :=
  Cnt.pre (sendInit_cnt x co now (resetHs p)) rfl rfl

theorem beginSession_staged (co : Nat → Nat) (now sid : Nat) (p : Peer) :
    (beginSession co now sid p).1.staged = p.staged ∧
    (beginSession co now sid p).1.nStaged = p.nStaged := by
  unfold beginSession
  split
  · exact ⟨rfl, rfl⟩
  · split
    · exact ⟨rfl, rfl⟩
    · rcases p with ⟨_, hs, _, _, cur, prev, next, slots, _⟩
      cases hs <;> cases next <;> exact ⟨rfl, rfl⟩

theorem beginSession_pays (co : Nat → Nat) (now sid : Nat) (p : Peer) :
    paysOf (beginSession co now sid p).2.1 = [] := by
  unfold beginSession
  split
  · rfl
  · split <;> rfl

theorem beginSession_cnt (x : Bytes) (co : Nat → Nat) (now sid : Nat) (p : Peer) :
    Cnt x 0 p (beginSession co now sid p).1 (beginSession co now sid p).2.1 := by
  obtain ⟨h1, h2⟩ := beginSession_staged co now sid p
  exact Cnt.mk' h1 h2 (by rw [beginSession_pays]; rfl)

theorem peerInitiation_cnt (x : Bytes) (co : Nat → Nat) (now sid : Nat) (p : Peer)
    (ts : Option Nat) (sender ip port : Nat) :
    Cnt x 0 p (peerInitiation co now sid p ts sender ip port).1
      (peerInitiation co now sid p ts sender ip port).2.1 := by
  unfold peerInitiation
  split
  · exact Cnt.mk' rfl rfl rfl
  · split
    · exact Cnt.mk' rfl rfl rfl
    · next t =>
      split
      · exact Cnt.mk' rfl rfl rfl
      · dsimp only
        split
        · exact Cnt.mk' rfl rfl rfl
        · generalize hq : ({ p with
              latestTs := t, hsRemote := sender, hs := Hs.createdResp,
              lastInitConsumed := now, epIp := ip, epPort := port,
              ptr := p.ptr + 1, hsLocal := co p.ptr } : Peer) = q
          have h0 : Cnt x 0 p q [.consumed t, .resp] := by
            subst hq; exact Cnt.mk' rfl rfl rfl
          have h1 := h0.trans0 (beginSession_cnt x co now sid q)
          split
          · have h2 := Cnt.post (q' := hsComplete (beginSession co now sid q).1) h1 rfl rfl
            exact h2.trans0 (sendStaged_cnt x co now _)
          · exact h1

theorem afterResponse_cnt {x : Bytes} (hx : x ≠ []) (co : Nat → Nat) (now : Nat) (p : Peer)
    (r : Peer × List Ev × Bool) (h : Cnt x 0 p r.1 r.2.1) :
    Cnt x 0 p (afterResponse co now r).1 (afterResponse co now r).2.1 := by
  rcases r with ⟨q, e, ok⟩
  cases ok with
  | false => exact h
  | true =>
    have h1 := (Cnt.post (q' := hsComplete q) h rfl rfl).trans0 (sendStaged_cnt x co now _)
    unfold afterResponse
    dsimp only
    split
    · exact h1.trans0 (sendKeepalive_cnt hx co now _)
    · exact h1

theorem peerResponse_cnt {x : Bytes} (hx : x ≠ []) (co : Nat → Nat) (now sid : Nat) (p : Peer)
    (auth : Bool) (sender ip port : Nat) :
    Cnt x 0 p (peerResponse co now sid p auth sender ip port).1
      (peerResponse co now sid p auth sender ip port).2.1 := by
  unfold peerResponse
  split
  · exact Cnt.mk' rfl rfl rfl
  · exact afterResponse_cnt hx co now p _ (Cnt.pre (beginSession_cnt x co now sid _) rfl rfl)

theorem promote_staged (p : Peer) (i : Nat) :
    (promote p i).staged = p.staged ∧ (promote p i).nStaged = p.nStaged := by
  rcases p with ⟨_, hs, _, _, cur, prev, next, slots, _⟩
  unfold promote
  split
  · cases prev <;> exact ⟨rfl, rfl⟩
  · exact ⟨rfl, rfl⟩

theorem peerData_cnt (x : Bytes) (now : Nat) (p : Peer) (i ctr ip port : Nat)
    (dec : Nat → Option Bytes) (rest : List Ev) (hr : paysOf rest = []) :
    Cnt x 0 p (peerData now p i ctr ip port dec).1
      ((peerData now p i ctr ip port dec).2.1 ++ rest) := by
  have key : (peerData now p i ctr ip port dec).1.staged = p.staged ∧
      (peerData now p i ctr ip port dec).1.nStaged = p.nStaged ∧
      paysOf (peerData now p i ctr ip port dec).2.1 = [] := by
    unfold peerData
    dsimp only
    split
    · exact ⟨rfl, rfl, rfl⟩
    · split
      · exact ⟨rfl, rfl, rfl⟩
      · split
        · exact ⟨rfl, rfl, rfl⟩
        · split
          · exact ⟨rfl, rfl, rfl⟩
          · split
            · exact ⟨rfl, rfl, rfl⟩
            · have := promote_staged (p.setKP i
                { p.kp i with replay := (validate (p.kp i).replay ctr).1 }) i
              exact ⟨this.1, this.2, rfl⟩
  refine Cnt.mk' key.1 key.2.1 ?_
  rw [paysOf_append, key.2.2, hr]
  rfl

theorem tmRetransmit_cnt (x : Bytes) (co : Nat → Nat) (now : Nat) (p : Peer) :
    Cnt x 0 p (tmRetransmit co now p).1 (tmRetransmit co now p).2 := by
  unfold tmRetransmit
  split
  · exact Cnt.mk' rfl rfl rfl
  · split
    · exact Cnt.mk' rfl rfl rfl
    · split
      · exact sendHsInit_cnt x co now p
      · exact Cnt.mk' rfl rfl rfl

theorem tmPassive_cnt {x : Bytes} (hx : x ≠ []) (co : Nat → Nat) (now : Nat) (p : Peer) :
    Cnt x 0 p (tmPassive co now p).1 (tmPassive co now p).2 := by
  unfold tmPassive
  split
  · exact Cnt.mk' rfl rfl rfl
  · skip
    split
    · exact Cnt.mk' rfl rfl rfl
    · skip
      split
      · exact Cnt.mk' rfl rfl rfl
      · skip
        split
        · exact Cnt.mk' rfl rfl rfl
        · skip
          split
          · exact Cnt.mk' rfl rfl rfl
          · skip
            exact Cnt.post (sendKeepalive_cnt hx co now p) rfl rfl

theorem tmRekey_cnt (x : Bytes) (co : Nat → Nat) (now : Nat) (p : Peer) :
    Cnt x 0 p (tmRekey co now p).1 (tmRekey co now p).2 := by
  unfold tmRekey
  split
  · exact Cnt.mk' rfl rfl rfl
  · skip
    split
    · exact Cnt.mk' rfl rfl rfl
    · skip
      split
      · exact Cnt.mk' rfl rfl rfl
      · skip
        exact Cnt.pre (sendHsInit_cnt x co now _) rfl rfl

theorem tmStale_cnt (x : Bytes) (co : Nat → Nat) (now : Nat) (p : Peer) :
    Cnt x 0 p (tmStale co now p).1 (tmStale co now p).2 := by
  unfold tmStale
  split
  · exact Cnt.mk' rfl rfl rfl
  · skip
    split
    · exact Cnt.mk' rfl rfl rfl
    · skip
      split
      · exact Cnt.mk' rfl rfl rfl
      · skip
        exact Cnt.pre (sendHsInit_cnt x co now _) rfl rfl

theorem tmZero_cnt (x : Bytes) (now : Nat) (p : Peer) : Cnt x 0 p (tmZero now p) [] := by
  unfold tmZero
  (repeat' split) <;> exact Cnt.mk' rfl rfl rfl

theorem tmPersistent_cnt {x : Bytes} (hx : x ≠ []) (co : Nat → Nat) (now : Nat) (p : Peer) :
    Cnt x 0 p (tmPersistent co now p).1 (tmPersistent co now p).2 := by
  unfold tmPersistent
  split
  · exact Cnt.mk' rfl rfl rfl
  · skip
    split
    · exact Cnt.mk' rfl rfl rfl
    · skip
      split
      · exact Cnt.mk' rfl rfl rfl
      · skip
        exact Cnt.post (sendKeepalive_cnt hx co now p) rfl rfl

theorem tick_cnt {x : Bytes} (hx : x ≠ []) (co : Nat → Nat) (now : Nat) (p : Peer) :
    Cnt x 0 p (tick co now p).1 (tick co now p).2 := by
  unfold tick
  split
  · exact Cnt.mk' rfl rfl rfl
  · have h1 := tmRetransmit_cnt x co now p
    have h2 := h1.trans0 (tmPassive_cnt hx co now _)
    have h3 := h2.trans0 (tmRekey_cnt x co now _)
    have h4 := h3.trans0 (tmStale_cnt x co now _)
    have h5 := h4.trans0 (tmZero_cnt x now _)
    rw [List.append_nil] at h5
    exact h5.trans0 (tmPersistent_cnt hx co now _)

theorem dropSessions_cnt (x : Bytes) (p : Peer) : Cnt x 0 p (dropSessions p) [] := by
  unfold dropSessions
  split
  · exact Cnt.mk' rfl rfl rfl
  · refine ⟨fun _ => ⟨by simp [resetHs], Nat.zero_le _, ?_⟩, fun _ => ?_⟩
    · intro y hy
      have : y ∈ List.replicate 16 ([] : Bytes) := hy
      rw [(List.mem_replicate.mp this).2]
      exact Nat.zero_le _
    · have : (resetHs { p with
          slots := List.replicate 3 KP.zero, cur := none, prev := none,
          next := none, staged := List.replicate stagedMax [], nStaged := 0 }).queue = [] := rfl
      rw [this]
      exact Nat.zero_le _

/-! ### The device -/

/-- The peer to which the device routes an outgoing packet: wolfguard.c 269-294. -/
def routeOf (d : Dev) (pkt : Bytes) : Option Nat :=
  if pkt.length < 20 ∨ byteAt pkt 0 / 16 ≠ 4 then none
  else match allowLookup d.allowed (be32 pkt 16) with
    | none => none
    | some i =>
      match d.peers[i]? with
      | none => none
      | some p => if p.active = false then none else some i

/-- The packet an operation hands to the device for peer `i`, if any. -/
def handedNow (d : Dev) (i : Nat) : Op → List Bytes
  | .output pkt => if routeOf d pkt = some i then [pkt] else []
  | _ => []

/-- The packets handed to the device during a history for which peer `i` was the owner of the
destination at that moment, in order. -/
def handed (co : Nat → Nat → Nat) (i : Nat) : Dev → List Op → List Bytes
  | _, [] => []
  | d, o :: os =>
    handedNow d i o ++ handed co i (step co d o).1 os

/-- The plaintexts sent to peer `i` among tagged effects. -/
def paysTo (i : Nat) (es : List (Nat × Ev)) : List Bytes :=
  paysOf ((es.filter (fun e => e.1 == i)).map (·.2))

theorem paysTo_append (i : Nat) (a b : List (Nat × Ev)) :
    paysTo i (a ++ b) = paysTo i a ++ paysTo i b := by
  unfold paysTo
  rw [List.filter_append, List.map_append, paysOf_append]

theorem paysTo_tag (i j : Nat) (es : List Ev) :
    paysTo i (tag j es) = if j = i then paysOf es else [] := by
  unfold paysTo tag
  by_cases h : j = i
  · rw [if_pos h]
    congr 1
    rw [List.filter_map]
    have : es.filter ((fun e : Nat × Ev => e.1 == i) ∘ fun e => (j, e)) = es := by
      rw [List.filter_eq_self]
      intro e _
      simp [h]
    rw [this, List.map_map]
    exact List.map_id es
  · rw [if_neg h]
    have : (es.map (fun e => (j, e))).filter (fun e => e.1 == i) = [] := by
      rw [List.filter_eq_nil_iff]
      intro e he
      obtain ⟨e', _, rfl⟩ := List.mem_map.mp he
      simp [h]
    rw [this]
    rfl

/-- The queue of peer `i`. -/
def queueOf (d : Dev) (i : Nat) : List Bytes := (d.peers.getD i Peer.zero).queue

/-- All staging arrays are well formed. -/
def AllQ (d : Dev) : Prop := ∀ p ∈ d.peers, QWf p

theorem zero_qwf : QWf Peer.zero := by
  refine ⟨by simp [Peer.zero], Nat.zero_le _, ?_⟩
  intro y hy
  have : y ∈ List.replicate 16 ([] : Bytes) := hy
  rw [(List.mem_replicate.mp this).2]
  exact Nat.zero_le _

theorem setPeer_queue (d : Dev) (i j : Nat) (p : Peer) :
    (d.setPeer i p).peers.getD j Peer.zero =
      if j = i ∧ i < d.peers.length then p else d.peers.getD j Peer.zero := by
  unfold Dev.setPeer
  rw [List.getD_eq_getElem?_getD, List.getD_eq_getElem?_getD]
  dsimp only
  rw [List.getElem?_set]
  by_cases h : i = j
  · subst h
    by_cases hl : i < d.peers.length
    · simp [hl]
    · simp [hl]
  · rw [if_neg h, if_neg (fun c => h c.1.symm)]

/-- The counting claim for one operation, for all peers. -/
structure DCnt (x : Bytes) (extra : Nat → Nat) (d d' : Dev) (es : List (Nat × Ev)) : Prop where
  wf : AllQ d'
  le : ∀ i, (paysTo i es).count x + ((queueOf d' i).map pad).count x ≤
    ((queueOf d i).map pad).count x + extra i

theorem DCnt.same {x : Bytes} {d d' : Dev} (h : AllQ d) (hp : d'.peers = d.peers) :
    DCnt x (fun _ => 0) d d' [] := by
  refine ⟨by unfold AllQ; rw [hp]; exact h, fun i => ?_⟩
  unfold queueOf
  rw [hp]
  simp [paysTo, paysOf]

theorem DCnt.set {x : Bytes} {d : Dev} (h : AllQ d) {j a : Nat} {p p' : Peer} {es : List Ev}
    (hp : d.peers[j]? = some p) (hc : Cnt x a p p' es) {d' : Dev}
    (hd : d'.peers = (d.setPeer j p').peers) :
    DCnt x (fun i => if i = j then a else 0) d d' (tag j es) := by
  have hl := (List.getElem?_eq_some_iff.mp hp).1
  have hw : QWf p := h p (List.mem_of_getElem? hp)
  refine ⟨?_, fun i => ?_⟩
  · intro q hq
    rw [hd] at hq
    rcases List.mem_or_eq_of_mem_set hq with hq | hq
    · exact h q hq
    · rw [hq]; exact hc.wf hw
  · have hq : queueOf d' i = if i = j then p'.queue else queueOf d i := by
      unfold queueOf
      rw [hd, setPeer_queue]
      by_cases hij : i = j
      · rw [if_pos ⟨hij, hl⟩, if_pos hij]
      · rw [if_neg (fun c => hij c.1), if_neg hij]
    rw [hq, paysTo_tag]
    by_cases hij : i = j
    · subst hij
      simp only [if_true]
      have hqd : queueOf d i = p.queue := by
        unfold queueOf
        rw [List.getD_eq_getElem?_getD, hp]
        rfl
      rw [hqd]
      exact hc.le hw
    · rw [if_neg hij, if_neg (Ne.symm hij), if_neg hij]
      simp

theorem tickAll_cnt {x : Bytes} (hx : x ≠ []) (co : Nat → Nat → Nat) (now : Nat) (ps : List Peer) :
    ∀ (j : Nat), (∀ p ∈ ps, QWf p) →
    (∀ p ∈ (tickAll co now j ps).1, QWf p) ∧
    (∀ i, i < j → paysTo i (tickAll co now j ps).2 = []) ∧
    ∀ i, (paysTo (j + i) (tickAll co now j ps).2).count x +
        ((((tickAll co now j ps).1.getD i Peer.zero).queue).map pad).count x ≤
      (((ps.getD i Peer.zero).queue).map pad).count x := by
  induction ps with
  | nil =>
    intro j _
    refine ⟨?_, fun _ _ => rfl, fun i => ?_⟩
    · intro p hp; cases hp
    · show (0 : Nat) + _ ≤ _
      rw [Nat.zero_add]
      exact Nat.le_refl _
  | cons p ps ih =>
    intro j hw
    obtain ⟨h1, h2, h3⟩ := ih (j + 1) (fun q hq => hw q (List.mem_cons_of_mem _ hq))
    have hc := tick_cnt hx (co j) now p
    have hwp := hw p List.mem_cons_self
    have e : tickAll co now j (p :: ps) =
      ((tick (co j) now p).1 :: (tickAll co now (j + 1) ps).1,
        tag j (tick (co j) now p).2 ++ (tickAll co now (j + 1) ps).2) := rfl
    rw [e]
    dsimp only
    refine ⟨?_, ?_, ?_⟩
    · intro q hq
      rcases List.mem_cons.mp hq with hq | hq
      · rw [hq]; exact hc.wf hwp
      · exact h1 q hq
    · intro i hi
      rw [paysTo_append, paysTo_tag, if_neg (by omega), h2 i (by omega)]
      rfl
    · intro i
      rw [paysTo_append, paysTo_tag]
      cases i with
      | zero =>
        rw [if_pos (show j = j + 0 from rfl), h2 (j + 0) (by omega), List.append_nil]
        have := hc.le hwp
        simpa using this
      | succ i =>
        rw [if_neg (by omega), List.nil_append, show j + (i + 1) = j + 1 + i by omega]
        have := h3 i
        simpa using this

theorem step_output (co : Nat → Nat → Nat) (d : Dev) (pkt : Bytes) :
    (routeOf d pkt = none → step co d (.output pkt) = (d, [])) ∧
    ∀ j, routeOf d pkt = some j → ∃ p, d.peers[j]? = some p ∧
      step co d (.output pkt) = (d.setPeer j (packetSend (co j) d.now p pkt).1,
        tag j (packetSend (co j) d.now p pkt).2) := by
  unfold routeOf
  simp only [step]
  by_cases h1 : pkt.length < 20
  · rw [if_pos (Or.inl h1), if_pos h1]
    exact ⟨fun _ => rfl, fun j h => by cases h⟩
  by_cases h2 : byteAt pkt 0 / 16 ≠ 4
  · rw [if_pos (Or.inr h2), if_neg h1, if_pos h2]
    exact ⟨fun _ => rfl, fun j h => by cases h⟩
  rw [if_neg h1, if_neg h2, if_neg (fun c => c.elim h1 h2)]
  split
  · next hi => exact ⟨fun _ => by simp only [hi], fun j h => by cases h⟩
  · next i hi =>
    split
    · next hp => exact ⟨fun _ => by simp only [hi, hp], fun j h => by cases h⟩
    · next p hp =>
      split
      · next ha => exact ⟨fun _ => by simp only [hi, hp, ha, if_true], fun j h => by cases h⟩
      · next ha =>
        refine ⟨fun h => (by cases h), fun j h => ?_⟩
        cases h
        exact ⟨p, hp, by simp only [hi, hp, if_neg ha]⟩

theorem step_cnt {x : Bytes} (hx : x ≠ []) (co : Nat → Nat → Nat) (d : Dev) (h : AllQ d) (o : Op) :
    ∃ extra, DCnt x extra d (step co d o).1 (step co d o).2 ∧
      ∀ i, extra i = ((handedNow d i o).map (fun q => pad (q.take linkMtu))).count x := by
  cases o with
  | poll now =>
    obtain ⟨h1, _, h3⟩ := tickAll_cnt hx co now d.peers 0 h
    refine ⟨fun _ => 0, ⟨h1, fun i => ?_⟩, fun i => rfl⟩
    have := h3 i
    rw [Nat.zero_add] at this
    exact this
  | addPeer ip port interval =>
    refine ⟨fun _ => 0, ?_, fun i => rfl⟩
    simp only [step]
    split
    · exact DCnt.same h rfl
    · next j hj =>
      rw [List.findIdx?_eq_some_iff_getElem] at hj
      obtain ⟨hl, _, _⟩ := hj
      have hp : d.peers[j]? = some d.peers[j] := List.getElem?_eq_getElem hl
      have hc : Cnt x 0 d.peers[j] { Peer.zero with
          active := true, epIp := ip, epPort := port, interval := interval,
          ptr := (d.peers.getD j Peer.zero).ptr } [] := by
        refine ⟨fun _ => ⟨zero_qwf.len, zero_qwf.le, zero_qwf.small⟩, fun _ => ?_⟩
        have : ({ Peer.zero with
          active := true, epIp := ip, epPort := port, interval := interval,
          ptr := (d.peers.getD j Peer.zero).ptr } : Peer).queue = [] := rfl
        rw [this]
        exact Nat.zero_le _
      have := DCnt.set (d' := d.setPeer j _) h hp hc rfl
      have e : (fun i => if i = j then 0 else 0) = fun _ : Nat => 0 := by funext i; split <;> rfl
      rw [e] at this
      exact this
  | addAllowed peer ip cidr =>
    refine ⟨fun _ => 0, ?_, fun i => rfl⟩
    simp only [step]
    split
    · exact DCnt.same h rfl
    · split <;> exact DCnt.same h rfl
  | removeAllowed peer => exact ⟨fun _ => 0, DCnt.same h rfl, fun i => rfl⟩
  | setKey =>
    refine ⟨fun _ => 0, ⟨?_, fun i => ?_⟩, fun i => rfl⟩
    · intro q hq
      obtain ⟨p, hp, rfl⟩ := List.mem_map.mp hq
      exact (dropSessions_cnt x p).wf (h p hp)
    · have e : queueOf (step co d .setKey).1 i = (dropSessions (d.peers.getD i Peer.zero)).queue := by
        unfold queueOf
        show ((d.peers.map dropSessions).getD i Peer.zero).queue = _
        rw [List.getD_eq_getElem?_getD, List.getD_eq_getElem?_getD, List.getElem?_map]
        cases d.peers[i]? with
        | none => rfl
        | some p => rfl
      rw [e]
      by_cases hi : i < d.peers.length
      · have hm : d.peers.getD i Peer.zero ∈ d.peers := by
          rw [List.getD_eq_getElem?_getD, List.getElem?_eq_getElem hi]
          exact List.getElem_mem hi
        exact (dropSessions_cnt x _).le (h _ hm)
      · exact (dropSessions_cnt x _).le (by
          rw [List.getD_eq_getElem?_getD, List.getElem?_eq_none (by omega)]
          exact zero_qwf)
  | output pkt =>
    unfold handedNow
    dsimp only
    cases hr : routeOf d pkt with
    | none =>
      refine ⟨fun _ => 0, ?_, fun i => by simp⟩
      rw [(step_output co d pkt).1 hr]
      exact DCnt.same h rfl
    | some j =>
      obtain ⟨p, hp, he⟩ := (step_output co d pkt).2 j hr
      rw [he]
      refine ⟨_, DCnt.set h hp (packetSend_cnt x (co j) d.now p pkt) rfl, fun i => ?_⟩
      by_cases hij : j = i
      · subst hij
        rw [if_pos rfl, if_pos rfl]
        simp only [List.map_cons, List.map_nil, List.count_singleton, beq_iff_eq]
      · rw [if_neg (Ne.symm hij), if_neg (by intro c; exact hij (Option.some.inj c))]
        simp
  | initiation mac who ts sender ip port =>
    refine ⟨fun _ => 0, ?_, fun i => rfl⟩
    simp only [step]
    split
    · exact DCnt.same h rfl
    · split
      · refine ⟨h, fun i => ?_⟩
        have : paysTo i [((0 : Nat), Ev.cookieReply)] = [] := by
          have := paysTo_tag i 0 [Ev.cookieReply]
          unfold tag at this
          rw [List.map_cons, List.map_nil] at this
          rw [this]
          split <;> rfl
        rw [this]
        simp
      · split
        · exact DCnt.same h rfl
        · next j =>
          split
          · exact DCnt.same h rfl
          · next p hp =>
            split
            · exact DCnt.same h rfl
            · have hp' : d.peers[j]? = some p := hp
              have := DCnt.set (d' := { ({ d with hsCycle := (d.hsCycle + 1) % 65536 } : Dev).setPeer j
                (peerInitiation (co j) d.now (d.kpCtr + 1) p ts sender ip port).1 with
                  kpCtr := if (peerInitiation (co j) d.now (d.kpCtr + 1) p ts sender ip port).2.2 = true
                    then d.kpCtr + 1 else d.kpCtr }) h hp'
                (peerInitiation_cnt x (co j) d.now (d.kpCtr + 1) p ts sender ip port) rfl
              have e : (fun i => if i = j then 0 else 0) = fun _ : Nat => 0 := by
                funext i; split <;> rfl
              rw [e] at this
              exact this
  | response mac recv auth sender ip port =>
    refine ⟨fun _ => 0, ?_, fun i => rfl⟩
    simp only [step]
    split
    · exact DCnt.same h rfl
    · split
      · refine ⟨h, fun i => ?_⟩
        have : paysTo i [((0 : Nat), Ev.cookieReply)] = [] := by
          have := paysTo_tag i 0 [Ev.cookieReply]
          unfold tag at this
          rw [List.map_cons, List.map_nil] at this
          rw [this]
          split <;> rfl
        rw [this]
        simp
      · split
        · exact DCnt.same h rfl
        · next j hj =>
          rw [List.findIdx?_eq_some_iff_getElem] at hj
          obtain ⟨hlt, _, _⟩ := hj
          have hp : d.peers[j]? = some (d.peers.getD j Peer.zero) := by
            rw [List.getD_eq_getElem?_getD, List.getElem?_eq_getElem hlt]; rfl
          have := DCnt.set (d' := { ({ d with hsCycle := (d.hsCycle + 1) % 65536 } : Dev).setPeer j
                (peerResponse (co j) d.now (d.kpCtr + 1) (d.peers.getD j Peer.zero) auth sender ip port).1 with
                  kpCtr := if (peerResponse (co j) d.now (d.kpCtr + 1) (d.peers.getD j Peer.zero) auth sender ip port).2.2 = true
                    then d.kpCtr + 1 else d.kpCtr }) h hp
                (peerResponse_cnt hx (co j) d.now (d.kpCtr + 1) (d.peers.getD j Peer.zero) auth sender ip port) rfl
          have e : (fun i => if i = j then 0 else 0) = fun _ : Nat => 0 := by
            funext i; split <;> rfl
          rw [e] at this
          exact this
  | data recv ctr dec ip port =>
    refine ⟨fun _ => 0, ?_, fun i => rfl⟩
    simp only [step]
    split
    · exact DCnt.same h rfl
    · next j hj =>
      unfold findPeer at hj
      rw [List.findIdx?_eq_some_iff_getElem] at hj
      obtain ⟨hlt, _, _⟩ := hj
      have hp : d.peers[j]? = some (d.peers.getD j Peer.zero) := by
        rw [List.getD_eq_getElem?_getD, List.getElem?_eq_getElem hlt]; rfl
      have e : (fun i => if i = j then 0 else 0) = fun _ : Nat => 0 := by
        funext i; split <;> rfl
      split
      · exact DCnt.same h rfl
      · next s hs =>
        split
        · have := DCnt.set (d' := d.setPeer j
            (peerData d.now (d.peers.getD j Peer.zero) s ctr ip port dec).1) h hp
            (peerData_cnt x d.now (d.peers.getD j Peer.zero) s ctr ip port dec [] rfl) rfl
          rw [e, List.append_nil] at this
          exact this
        · next pt hpt =>
          have := DCnt.set (d' := d.setPeer j
            (peerData d.now (d.peers.getD j Peer.zero) s ctr ip port dec).1) h hp
            (peerData_cnt x d.now (d.peers.getD j Peer.zero) s ctr ip port dec
              (if innerOk d j pt = true then [.inject pt] else []) (by split <;> rfl)) rfl
          rw [e] at this
          exact this

theorem init_allq : AllQ Dev.init := by
  intro p hp
  unfold Dev.init at hp
  rw [(List.mem_replicate.mp hp).2]
  exact zero_qwf

theorem drun_cnt {x : Bytes} (hx : x ≠ []) (co : Nat → Nat → Nat) (ops : List Op) :
    ∀ (d : Dev), AllQ d → AllQ (drun co d ops).1 ∧ ∀ i,
    (paysTo i ((drun co d ops).2.map (·.2))).count x +
      ((queueOf (drun co d ops).1 i).map pad).count x ≤
    ((queueOf d i).map pad).count x +
      ((handed co i d ops).map (fun q => pad (q.take linkMtu))).count x := by
  induction ops with
  | nil => intro d h; exact ⟨h, fun i => by simp [drun, handed, paysTo, paysOf]⟩
  | cons o os ih =>
    intro d h
    obtain ⟨extra, h1, h2⟩ := step_cnt hx co d h o
    obtain ⟨h3, h4⟩ := ih _ h1.wf
    refine ⟨h3, fun i => ?_⟩
    have e : (drun co d (o :: os)).2.map (·.2) =
        (step co d o).2 ++ (drun co (step co d o).1 os).2.map (·.2) := by
      show ((step co d o).2.map _ ++ _).map _ = _
      rw [List.map_append, List.map_map]
      congr 1
      have : ((fun x : Nat × Nat × Ev => x.2) ∘ fun e => ((step co d o).1.now, e)) = id := rfl
      rw [this, List.map_id]
    rw [e, paysTo_append, List.count_append]
    have h5 := h1.le i
    have h6 := h4 i
    have h7 : (handed co i d (o :: os)) = handedNow d i o ++ handed co i (step co d o).1 os := rfl
    rw [h7, List.map_append, List.count_append, ← h2 i]
    have e8 : (drun co d (o :: os)).1 = (drun co (step co d o).1 os).1 := rfl
    rw [e8]
    omega

theorem handed_mem (co : Nat → Nat → Nat) (i : Nat) (ops : List Op) : ∀ (d : Dev) (pkt : Bytes),
    pkt ∈ handed co i d ops → ∃ pre suf, ops = pre ++ .output pkt :: suf ∧
      routeOf (drun co d pre).1 pkt = some i := by
  induction ops with
  | nil => intro d pkt h; cases h
  | cons o os ih =>
    intro d pkt h
    have h7 : (handed co i d (o :: os)) = handedNow d i o ++ handed co i (step co d o).1 os := rfl
    rw [h7] at h
    rcases List.mem_append.mp h with h | h
    · cases o with
      | output q =>
        unfold handedNow at h
        dsimp only at h
        split at h
        · next hr =>
          rw [List.mem_singleton] at h
          subst h
          exact ⟨[], os, rfl, hr⟩
        · cases h
      | poll => cases h
      | addPeer => cases h
      | addAllowed => cases h
      | removeAllowed => cases h
      | setKey => cases h
      | initiation => cases h
      | response => cases h
      | data => cases h
    · obtain ⟨pre, suf, h1, h2⟩ := ih _ pkt h
      exact ⟨o :: pre, suf, by rw [h1]; rfl, h2⟩

/-- **C49, at most once.**  Over every history and for every peer, the number of transport
messages carrying a given packet, plus the number of copies of it still staged, is at most the
number of times the packet was handed to the device while that peer owned its destination. -/
theorem sent_at_most_once (co : Nat → Nat → Nat) (ops : List Op) (i : Nat) (x : Bytes)
    (hx : x ≠ []) :
    (paysTo i ((effects co ops).map (·.2))).count x +
      ((queueOf (after co ops) i).map pad).count x ≤
    ((handed co i Dev.init ops).map (fun q => pad (q.take 1536))).count x := by
  have := (drun_cnt hx co ops Dev.init init_allq).2 i
  have e : queueOf Dev.init i = [] := by
    unfold queueOf
    have : Dev.init.peers.getD i Peer.zero = Peer.zero := by
      rw [List.getD_eq_getElem?_getD]
      cases h : Dev.init.peers[i]? with
      | none => rfl
      | some p =>
        have hm := List.mem_of_getElem? h
        unfold Dev.init at hm
        rw [(List.mem_replicate.mp hm).2]
        rfl
    rw [this]
    rfl
  rw [e] at this
  simpa using this

/-- **C46, sending.**  Whenever a transport message with a non-empty plaintext is encrypted for a
peer, its plaintext is (the padding of) an IPv4 packet that was handed to the device earlier in
the history, at a moment when that peer owned the longest allowed-IP prefix containing the
packet's destination.  (A staged packet longer than 1536 bytes is cut to 1536.) -/
theorem encrypted_only_for_owner (co : Nat → Nat → Nat) (ops : List Op) (hops : ∀ o ∈ ops, o.ok)
    (hb : ∀ pkt, Op.output pkt ∈ ops → ∀ x ∈ pkt, x < 256)
    {t i sid c ip port : Nat} {pl : Bytes} (hpl : pl ≠ [])
    (h : (t, i, Ev.enc sid c pl ip port) ∈ effects co ops) :
    ∃ pkt pre suf, ops = pre ++ .output pkt :: suf ∧ pl = pad (pkt.take 1536) ∧
      20 ≤ pkt.length ∧ byteAt pkt 0 / 16 = 4 ∧
      OwnerIs (after co pre).allowed (be32 pkt 16) i := by
  have hc := sent_at_most_once co ops i pl hpl
  have hm : pl ∈ paysTo i ((effects co ops).map (·.2)) := by
    unfold paysTo paysOf
    rw [List.mem_filterMap]
    refine ⟨.enc sid c pl ip port, ?_, rfl⟩
    rw [List.mem_map]
    refine ⟨(i, .enc sid c pl ip port), ?_, rfl⟩
    rw [List.mem_filter]
    refine ⟨?_, by simp⟩
    rw [List.mem_map]
    exact ⟨_, h, rfl⟩
  have h1 := List.count_pos_iff.mpr hm
  have h2 : pl ∈ (handed co i Dev.init ops).map (fun q => pad (q.take 1536)) :=
    List.count_pos_iff.mp (by omega)
  obtain ⟨pkt, hp, rfl⟩ := List.mem_map.mp h2
  obtain ⟨pre, suf, he, hr⟩ := handed_mem co i ops Dev.init pkt hp
  refine ⟨pkt, pre, suf, he, rfl, ?_⟩
  have hbp : ∀ x ∈ pkt, x < 256 := hb pkt (by rw [he]; simp)
  have hw : TWf (after co pre).allowed :=
    after_twf co pre (fun o ho => hops o (by rw [he]; exact List.mem_append_left _ ho))
  have hr' : routeOf (after co pre) pkt = some i := hr
  unfold routeOf at hr'
  split at hr'
  · cases hr'
  · next hh =>
    split at hr'
    · cases hr'
    · next j hj =>
      split at hr'
      · cases hr'
      · split at hr'
        · cases hr'
        · cases hr'
          refine ⟨by omega, ?_, (lookup_is_longest _ hw _ _ (be32_lt pkt hbp 16)).mp hj⟩
          by_cases h4 : byteAt pkt 0 / 16 = 4
          · exact h4
          · exact absurd (Or.inr h4) hh

/-! ## Examples -/

/-- The demo history meets the hypotheses: a packet for 10.0.0.9 is encrypted for peer 0, the
owner of 10/8. -/
example : (∀ o ∈ demoOps, o.ok) ∧ pad (demoPkt 9) ≠ [] ∧
    (1000, 0, Ev.enc 1 0 (pad (demoPkt 9)) 77 51820) ∈ effects demoCoins demoOps ∧
    handed demoCoins 0 Dev.init demoOps = [demoPkt 9, demoPkt 8, demoPkt 7, demoPkt 6] := by
  refine ⟨?_, by decide, by rw [demo_effects]; simp, by decide +kernel⟩
  intro o ho
  simp only [demoOps, List.mem_cons, List.not_mem_nil, or_false] at ho
  rcases ho with rfl | rfl | rfl | rfl | rfl | rfl | rfl | rfl | rfl | rfl | rfl | rfl <;>
    first | trivial | (show (0x0A000000 : Nat) < 2 ^ 32; decide)

/-- Longest prefix: 10.1.0.0/16 belongs to peer 1 inside peer 0's 10/8. -/
example :
    let t := (allowInsert (allowInsert (List.replicate 32 none) 0x0A000000 8 0).1
      0x0A01FFFF 16 1).1
    allowLookup t 0x0A010203 = some 1 ∧ allowLookup t 0x0A020304 = some 0 ∧
      allowLookup t 0x0B000000 = none := by decide +kernel

/-- **Finding (C49).**  A responder does not send its staged packets when its session is
confirmed, so a newer packet overtakes an older one: `demoPkt 1` is handed in first and still
staged when `demoPkt 2` is sent. -/
theorem staged_overtaken : let ops : List Op :=
      [.poll 1000, .addPeer 77 51820 0, .addAllowed 0 0x0A000000 8, .output (demoPkt 1),
       .initiation .valid (some 0) (some 44) 6 78 51820,
       .data 2 0 (fun _ => some []) 78 51820, .output (demoPkt 2)]
    handed demoCoins 0 Dev.init ops = [demoPkt 1, demoPkt 2] ∧
    (1000, 0, Ev.enc 1 0 (pad (demoPkt 2)) 78 51820) ∈ effects demoCoins ops ∧
    queueOf (after demoCoins ops) 0 = [demoPkt 1] := by
  decide +kernel

/-- The drain theorems' hypotheses: a peer with two staged packets and a fresh session. -/
example : let p := (stage (stage { Peer.zero with
        active := true, cur := some 0,
        slots := [{ KP.zero with sid := 1, sValid := true, rValid := true }, KP.zero, KP.zero] }
      (demoPkt 1)) (demoPkt 2))
    p.queue = [demoPkt 1, demoPkt 2] ∧ noSession 0 p = false ∧
    encsOf (sendStaged (fun n => n + 1) 0 p).2 =
      [.enc 1 0 (pad (demoPkt 1)) 0 0, .enc 1 1 (pad (demoPkt 2)) 0 0] ∧
    noSession 180000 p = true ∧
    (sendStaged (fun n => n + 1) 180000 p).1.queue = [demoPkt 1, demoPkt 2] := by
  decide +kernel

end Wolf.Wg
