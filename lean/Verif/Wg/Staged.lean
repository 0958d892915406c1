import Verif.Wg.Routing

/-!
# C49 (and the sending half of C46): staged packets
-/

namespace Wolf.Wg

/-- The packets held for a peer, oldest first. -/
def Peer.queue (p : Peer) : List Bytes := p.staged.take p.nStaged

/-- Shape of the staging array. -/
structure QWf (p : Peer) : Prop where
  len : p.staged.length = 16
  le : p.nStaged ≤ 16
  small : ∀ x ∈ p.staged, x.length ≤ linkMtu

/-- The same peer with other contents of the staging array. -/
def Peer.withStaged (p : Peer) (s : List Bytes) : Peer := { p with staged := s }

/-- `wg_packet_send` has no usable session: the packet is staged. -/
def noSession (now : Nat) (p : Peer) : Bool :=
  match p.curKP with
  | none => true
  | some k => k.sValid == false || decide (k.sCtr ≥ rekeyMsgs ∨ sub64 now k.sBirth ≥ rejectMs)

theorem sendInit_staged (co : Nat → Nat) (now : Nat) (p : Peer) :
    (sendInit co now p).1.staged = p.staged ∧ (sendInit co now p).1.nStaged = p.nStaged ∧
    ∀ s, sendInit co now (p.withStaged s) =
      ((sendInit co now p).1.withStaged s, (sendInit co now p).2) := by
  unfold sendInit createInit
  by_cases h : co p.ptr = 0
  · have h' : ∀ s, co (p.withStaged s).ptr = 0 := fun _ => h
    simp [h, h', Peer.withStaged]
  · have h' : ∀ s, co (p.withStaged s).ptr ≠ 0 := fun _ => h
    simp [h, Peer.withStaged]

/-- What `packetSend` does to the staging array, and that nothing else depends on it. -/
theorem packetSend_staged (co : Nat → Nat) (now : Nat) (p : Peer) (pkt : Bytes) :
    (packetSend co now p pkt).1.staged =
      (if noSession now p then (stage p pkt).staged else p.staged) ∧
    (packetSend co now p pkt).1.nStaged =
      (if noSession now p then (stage p pkt).nStaged else p.nStaged) ∧
    ∀ s, packetSend co now (p.withStaged s) pkt =
      ((packetSend co now p pkt).1.withStaged
        (if noSession now p then (stage (p.withStaged s) pkt).staged else s),
       (packetSend co now p pkt).2) := by
  have hstage : ∀ s, stage (p.withStaged s) pkt =
      (stage p pkt).withStaged (stage (p.withStaged s) pkt).staged := by
    intro s
    unfold stage
    split
    · next h => rw [if_pos (show p.nStaged ≥ 16 from h)]; rfl
    · next h => rw [if_neg (show ¬ p.nStaged ≥ 16 from h)]; rfl
  have hshs : (stage p pkt).hs = p.hs := by unfold stage; split <;> rfl
  have hinit := sendInit_staged co now (stage p pkt)
  cases hc : p.cur with
  | none =>
    have hn : noSession now p = true := by unfold noSession Peer.curKP; rw [hc]; rfl
    rw [hn]
    simp only [if_true]
    have e : ∀ s, packetSend co now (p.withStaged s) pkt =
        (if (stage (p.withStaged s) pkt).hs = .zeroed then
          sendInit co now (stage (p.withStaged s) pkt) else (stage (p.withStaged s) pkt, [])) := by
      intro s
      unfold packetSend
      rw [show (p.withStaged s).cur = none from hc]
    have e0 : packetSend co now p pkt =
        (if (stage p pkt).hs = .zeroed then sendInit co now (stage p pkt)
          else (stage p pkt, [])) := by
      unfold packetSend; rw [hc]
    rw [e0]
    by_cases hz : (stage p pkt).hs = .zeroed
    · rw [if_pos hz]
      refine ⟨hinit.1, hinit.2.1, fun s => ?_⟩
      rw [e]
      have hs := hstage s
      generalize stage (p.withStaged s) pkt = q at hs ⊢
      have hq : q.hs = .zeroed := by rw [hs]; exact hz
      have h3 := hinit.2.2 q.staged
      rw [← hs] at h3
      rw [if_pos hq]
      exact h3
    · rw [if_neg hz]
      refine ⟨rfl, rfl, fun s => ?_⟩
      rw [e]
      have hs := hstage s
      generalize stage (p.withStaged s) pkt = q at hs ⊢
      have hq : ¬ q.hs = .zeroed := by rw [hs]; exact hz
      rw [if_neg hq]
      exact congrArg (fun x => (x, ([] : List Ev))) hs
  | some i =>
    by_cases hv : (p.kp i).sValid = false
    · have hn : noSession now p = true := by
        unfold noSession Peer.curKP; rw [hc]; simp [hv]
      rw [hn]
      simp only [if_true]
      have e : ∀ s, packetSend co now (p.withStaged s) pkt =
          (if (stage (p.withStaged s) pkt).hs = .zeroed then
            sendInit co now (stage (p.withStaged s) pkt)
            else (stage (p.withStaged s) pkt, [])) := by
        intro s
        unfold packetSend
        rw [show (p.withStaged s).cur = some i from hc]
        dsimp only
        rw [if_pos (show ((p.withStaged s).kp i).sValid = false from hv)]
      have e0 : packetSend co now p pkt =
          (if (stage p pkt).hs = .zeroed then sendInit co now (stage p pkt)
            else (stage p pkt, [])) := by
        unfold packetSend; rw [hc]; dsimp only; rw [if_pos hv]
      rw [e0]
      by_cases hz : (stage p pkt).hs = .zeroed
      · rw [if_pos hz]
        refine ⟨hinit.1, hinit.2.1, fun s => ?_⟩
        rw [e]
        have hs := hstage s
        generalize stage (p.withStaged s) pkt = q at hs ⊢
        have hq : q.hs = .zeroed := by rw [hs]; exact hz
        have h3 := hinit.2.2 q.staged
        rw [← hs] at h3
        rw [if_pos hq]
        exact h3
      · rw [if_neg hz]
        refine ⟨rfl, rfl, fun s => ?_⟩
        rw [e]
        have hs := hstage s
        generalize stage (p.withStaged s) pkt = q at hs ⊢
        have hq : ¬ q.hs = .zeroed := by rw [hs]; exact hz
        rw [if_neg hq]
        exact congrArg (fun x => (x, ([] : List Ev))) hs
    · by_cases hx : (p.kp i).sCtr ≥ rekeyMsgs ∨ sub64 now (p.kp i).sBirth ≥ rejectMs
      · have hn : noSession now p = true := by
          unfold noSession Peer.curKP; rw [hc]; simp [hx]
        rw [hn]
        simp only [if_true]
        have e : ∀ s, packetSend co now (p.withStaged s) pkt =
            (stage ((p.withStaged s).setKP i { p.kp i with sValid := false }) pkt, []) := by
          intro s
          unfold packetSend
          rw [show (p.withStaged s).cur = some i from hc]
          dsimp only
          rw [if_neg (show ¬ ((p.withStaged s).kp i).sValid = false from hv),
            if_pos (show ((p.withStaged s).kp i).sCtr ≥ rekeyMsgs ∨
              sub64 now ((p.withStaged s).kp i).sBirth ≥ rejectMs from hx)]
          rfl
        have e0 := e p.staged
        have ep : p.withStaged p.staged = p := rfl
        rw [ep] at e0
        rw [e0]
        have hs1 : (stage (p.setKP i { p.kp i with sValid := false }) pkt).staged =
            (stage p pkt).staged ∧
            (stage (p.setKP i { p.kp i with sValid := false }) pkt).nStaged =
            (stage p pkt).nStaged := by
          unfold stage
          by_cases h16 : p.nStaged ≥ 16
          · rw [if_pos h16, if_pos (show (p.setKP i _).nStaged ≥ 16 from h16)]
            exact ⟨rfl, rfl⟩
          · rw [if_neg h16, if_neg (show ¬ (p.setKP i _).nStaged ≥ 16 from h16)]
            exact ⟨rfl, rfl⟩
        refine ⟨hs1.1, hs1.2, fun s => ?_⟩
        rw [e]
        unfold stage
        by_cases h16 : p.nStaged ≥ 16
        · rw [if_pos (show ((p.withStaged s).setKP i _).nStaged ≥ 16 from h16),
            if_pos (show (p.setKP i _).nStaged ≥ 16 from h16),
            if_pos (show (p.withStaged s).nStaged ≥ 16 from h16)]
          rfl
        · rw [if_neg (show ¬ ((p.withStaged s).setKP i _).nStaged ≥ 16 from h16),
            if_neg (show ¬ (p.setKP i _).nStaged ≥ 16 from h16),
            if_neg (show ¬ (p.withStaged s).nStaged ≥ 16 from h16)]
          rfl
      · have hn : noSession now p = false := by
          unfold noSession Peer.curKP; rw [hc]
          simp only [Option.map_some]
          have : (p.kp i).sValid = true := by
            cases h : (p.kp i).sValid
            · exact absurd h hv
            · rfl
          simp [this, hx]
        rw [hn]
        simp only [Bool.false_eq_true, if_false]
        have hws : ∀ s, packetSend co now (p.withStaged s) pkt =
            (if padLen pkt.length > linkMtu then (p.withStaged s, [])
            else if co p.ptr = 0 then (({ p with ptr := p.ptr + 1 } : Peer).withStaged s, [])
            else if ((p.kp i).sCtr + 1 ≥ rekeyMsgs ∨ sub64 now (p.kp i).sBirth ≥ rekeyMs) ∧
                (p.kp i).isInit = true then
              ((sendInit co now ((({ p with ptr := p.ptr + 1, tDataSent := now } : Peer).setKP i
                { p.kp i with sCtr := (p.kp i).sCtr + 1 }).withStaged s)).1,
                .enc (p.kp i).sid (p.kp i).sCtr (pad pkt) p.epIp p.epPort ::
                (sendInit co now ((({ p with ptr := p.ptr + 1, tDataSent := now } : Peer).setKP i
                { p.kp i with sCtr := (p.kp i).sCtr + 1 }).withStaged s)).2)
            else ((({ p with ptr := p.ptr + 1, tDataSent := now } : Peer).setKP i
                { p.kp i with sCtr := (p.kp i).sCtr + 1 }).withStaged s,
                [.enc (p.kp i).sid (p.kp i).sCtr (pad pkt) p.epIp p.epPort])) := by
          intro s
          unfold packetSend
          split
          · next h => rw [show (p.withStaged s).cur = some i from hc] at h; cases h
          · next j h =>
            have hj : i = j := Option.some.inj (hc.symm.trans h)
            subst hj
            dsimp only
            rw [if_neg (show ¬ ((p.withStaged s).kp i).sValid = false from hv),
              if_neg (show ¬ (((p.withStaged s).kp i).sCtr ≥ rekeyMsgs ∨
                sub64 now ((p.withStaged s).kp i).sBirth ≥ rejectMs) from hx)]
            rfl
        have e0 := hws p.staged
        have ep : p.withStaged p.staged = p := rfl
        rw [ep] at e0
        rw [e0]
        have e1 := sendInit_staged co now (({ p with ptr := p.ptr + 1, tDataSent := now } : Peer).setKP i
                { p.kp i with sCtr := (p.kp i).sCtr + 1 })
        refine ⟨?_, ?_, fun s => ?_⟩
        · (repeat' split) <;> first | rfl | exact e1.1
        · (repeat' split) <;> first | rfl | exact e1.2.1
        · rw [hws]
          (repeat' split) <;> first | rfl | (rw [e1.2.2 s]; rfl)

/-! ### Queue view -/

/-- Appending to a queue that holds at most 16 packets; later ones are dropped. -/
def enqueue (q : List Bytes) (pkt : Bytes) : List Bytes :=
  if q.length < 16 then q ++ [pkt.take linkMtu] else q

theorem QWf.qlen {p : Peer} (h : QWf p) : p.queue.length = p.nStaged := by
  unfold Peer.queue
  rw [List.length_take, h.len]
  have := h.le
  omega

theorem stage_wf {p : Peer} (h : QWf p) (pkt : Bytes) : QWf (stage p pkt) := by
  unfold stage
  split
  · exact h
  · next hn =>
    refine ⟨by simp [h.len], by show p.nStaged + 1 ≤ 16; omega, ?_⟩
    intro x hx
    rcases List.mem_or_eq_of_mem_set hx with hx | hx
    · exact h.small x hx
    · rw [hx, List.length_take]; omega

theorem stage_queue {p : Peer} (h : QWf p) (pkt : Bytes) :
    (stage p pkt).queue = enqueue p.queue pkt := by
  unfold enqueue
  rw [h.qlen]
  unfold stage
  by_cases hn : p.nStaged ≥ 16
  · rw [if_pos hn, if_neg (by omega)]
  · rw [if_neg hn, if_pos (by omega)]
    unfold Peer.queue
    dsimp only
    rw [List.take_add_one, List.take_set_of_le (Nat.le_refl _),
      List.getElem?_set_self (by rw [h.len]; omega)]
    rfl

theorem queue_congr {p q : Peer} (h1 : p.staged = q.staged) (h2 : p.nStaged = q.nStaged) :
    p.queue = q.queue := by
  unfold Peer.queue; rw [h1, h2]

theorem wf_congr {p q : Peer} (h1 : p.staged = q.staged) (h2 : p.nStaged = q.nStaged)
    (h : QWf q) : QWf p := ⟨by rw [h1]; exact h.len, by rw [h2]; exact h.le, by
      rw [h1]; exact h.small⟩

theorem packetSend_wf (co : Nat → Nat) (now : Nat) {p : Peer} (h : QWf p) (pkt : Bytes) :
    QWf (packetSend co now p pkt).1 := by
  obtain ⟨h1, h2, _⟩ := packetSend_staged co now p pkt
  cases hn : noSession now p with
  | true => rw [hn] at h1 h2; exact wf_congr h1 h2 (stage_wf h pkt)
  | false => rw [hn] at h1 h2; exact wf_congr h1 h2 h

theorem packetSend_queue (co : Nat → Nat) (now : Nat) {p : Peer} (h : QWf p) (pkt : Bytes) :
    (packetSend co now p pkt).1.queue =
      if noSession now p then enqueue p.queue pkt else p.queue := by
  obtain ⟨h1, h2, _⟩ := packetSend_staged co now p pkt
  cases hn : noSession now p with
  | true => rw [hn] at h1 h2; rw [queue_congr h1 h2]; exact stage_queue h pkt
  | false => rw [hn] at h1 h2; exact queue_congr h1 h2

/-- Sending a list of packets one after the other. -/
def sendAll (co : Nat → Nat) (now : Nat) : List Bytes → Peer → Peer × List Ev
  | [], p => (p, [])
  | pkt :: l, p =>
    let r := packetSend co now p pkt
    let r' := sendAll co now l r.1
    (r'.1, r.2 ++ r'.2)

/-- Same peer, up to scratch contents of the staging array. -/
structure QEq (a b : Peer) : Prop where
  eq : a = b.withStaged a.staged
  queue : a.queue = b.queue
  wa : QWf a
  wb : QWf b

theorem QEq.refl {p : Peer} (h : QWf p) : QEq p p := ⟨rfl, rfl, h, h⟩

theorem packetSend_qeq (co : Nat → Nat) (now : Nat) {a b : Peer} (h : QEq a b) (pkt : Bytes) :
    QEq (packetSend co now a pkt).1 (packetSend co now b pkt).1 ∧
    (packetSend co now a pkt).2 = (packetSend co now b pkt).2 := by
  have e := (packetSend_staged co now b pkt).2.2 a.staged
  rw [← h.eq] at e
  have hwa := packetSend_wf co now h.wa pkt
  have hwb := packetSend_wf co now h.wb pkt
  refine ⟨⟨?_, ?_, hwa, hwb⟩, (by rw [e])⟩
  · have e1 := congrArg Prod.fst e
    have e2 := congrArg Peer.staged e1
    have e3 : (packetSend co now a pkt).1.staged =
      (if noSession now b = true then (stage a pkt).staged else a.staged) := e2
    rw [e3]
    exact e1
  · rw [packetSend_queue co now h.wa, packetSend_queue co now h.wb, h.queue]
    have : noSession now a = noSession now b := by rw [h.eq]; rfl
    rw [this]

theorem sendAll_qeq (co : Nat → Nat) (now : Nat) (l : List Bytes) : ∀ {a b : Peer}, QEq a b →
    QEq (sendAll co now l a).1 (sendAll co now l b).1 ∧
    (sendAll co now l a).2 = (sendAll co now l b).2 := by
  induction l with
  | nil => intro a b h; exact ⟨h, rfl⟩
  | cons pkt l ih =>
    intro a b h
    obtain ⟨h1, h2⟩ := packetSend_qeq co now h pkt
    obtain ⟨h3, h4⟩ := ih h1
    refine ⟨h3, ?_⟩
    show (packetSend co now a pkt).2 ++ _ = (packetSend co now b pkt).2 ++ _
    rw [h2, h4]

/-- Draining in place sends exactly the packets that were staged: no packet is overwritten by
another one being staged again. -/
theorem drain_sendAll (co : Nat → Nat) (now : Nat) (n : Nat) : ∀ (i : Nat) (p q : Peer),
    QEq p q → p.nStaged ≤ i → i + n ≤ 16 →
    QEq (drain co now i n p).1 (sendAll co now ((p.staged.drop i).take n) q).1 ∧
    (drain co now i n p).2 = (sendAll co now ((p.staged.drop i).take n) q).2 := by
  induction n with
  | zero => intro i p q h _ _; rw [List.take_zero]; exact ⟨h, rfl⟩
  | succ n ih =>
    intro i p q h hi hn
    have hlt : i < p.staged.length := by rw [h.wa.len]; omega
    have hd : (p.staged.drop i).take (n + 1) =
        p.staged[i] :: (p.staged.drop (i + 1)).take n := by
      rw [List.drop_eq_getElem_cons hlt, List.take_succ_cons]
    rw [hd]
    have hg : p.staged.getD i [] = p.staged[i] := by
      rw [List.getD_eq_getElem?_getD, List.getElem?_eq_getElem hlt]; rfl
    -- clearing the slot
    have hq1 : QEq ({ p with staged := p.staged.set i [] } : Peer) q := by
      refine ⟨?_, ?_, ⟨by simp [h.wa.len], h.wa.le, ?_⟩, h.wb⟩
      · show _ = q.withStaged (p.staged.set i [])
        conv => lhs; rw [h.eq]
        rfl
      · rw [← h.queue]
        unfold Peer.queue
        exact List.take_set_of_le hi
      · intro x hx
        rcases List.mem_or_eq_of_mem_set hx with hx | hx
        · exact h.wa.small x hx
        · rw [hx]; exact Nat.zero_le _
    obtain ⟨h1, h2⟩ := packetSend_qeq co now hq1 p.staged[i]
    have hs := packetSend_staged co now ({ p with staged := p.staged.set i [] } : Peer) p.staged[i]
    generalize hr : packetSend co now ({ p with staged := p.staged.set i [] } : Peer) p.staged[i] =
      r at *
    have hnle : r.1.nStaged ≤ i + 1 := by
      rw [hs.2.1]
      split
      · unfold stage
        split
        · show p.nStaged ≤ i + 1; omega
        · show p.nStaged + 1 ≤ i + 1; omega
      · show p.nStaged ≤ i + 1; omega
    have hdrop : r.1.staged.drop (i + 1) = p.staged.drop (i + 1) := by
      rw [hs.1]
      split
      · unfold stage
        split
        · show (p.staged.set i []).drop (i + 1) = _
          exact List.drop_set_of_lt (by omega)
        · show ((p.staged.set i []).set p.nStaged _).drop (i + 1) = _
          rw [List.drop_set_of_lt (by omega), List.drop_set_of_lt (by omega)]
      · show (p.staged.set i []).drop (i + 1) = _
        exact List.drop_set_of_lt (by omega)
    obtain ⟨h3, h4⟩ := ih (i + 1) r.1 (packetSend co now q p.staged[i]).1 h1 hnle (by omega)
    rw [hdrop] at h3 h4
    have he : drain co now i (n + 1) p =
        ((drain co now (i + 1) n r.1).1, r.2 ++ (drain co now (i + 1) n r.1).2) := by
      rw [← hr, ← hg]
      rfl
    rw [he]
    refine ⟨h3, ?_⟩
    show r.2 ++ _ = (packetSend co now q p.staged[i]).2 ++ _
    rw [h2, h4]

/-- **C49.**  Draining the staged packets is sending them one after the other, in the order in
which they were staged, to a peer whose queue has been emptied. -/
theorem sendStaged_sendAll (co : Nat → Nat) (now : Nat) {p : Peer} (h : QWf p) :
    QEq (sendStaged co now p).1 (sendAll co now p.queue { p with nStaged := 0 }).1 ∧
    (sendStaged co now p).2 = (sendAll co now p.queue { p with nStaged := 0 }).2 := by
  have hw : QWf ({ p with nStaged := 0 } : Peer) := ⟨h.len, Nat.zero_le _, h.small⟩
  have hd := drain_sendAll co now p.nStaged 0 { p with nStaged := 0 } { p with nStaged := 0 }
    (QEq.refl hw) (Nat.le_refl _) (by have := h.le; omega)
  exact hd

end Wolf.Wg
