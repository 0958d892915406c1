import Verif.Wg.PacingProps
/-! # WireGuard: answers, data and keepalives, peer by peer -/
namespace Wolf.Wg

/-- An operation of the device as one peer sees it (proof device). -/
inductive PStep (co : Nat → Nat → Nat) (d : Dev) (o : Op) (j : Nat) (p : Peer) : Peer → List Ev → Prop
  | none : PStep co d o j p p []
  | cookie : PStep co d o j p p [.cookieReply]
  | poll (now : Nat) (ho : o = .poll now) : PStep co d o j p (tick (co j) now p).1 (tick (co j) now p).2
  | fresh (ip port iv : Nat) (h0 : p.active = false) :
      PStep co d o j p { Peer.zero with active := true, epIp := ip, epPort := port, interval := iv, ptr := p.ptr } []
  | drop : PStep co d o j p (dropSessions p) []
  | send (pkt : Bytes) (ho : o = .output pkt) (ha : p.active = true) :
      PStep co d o j p (packetSend (co j) d.now p pkt).1 (packetSend (co j) d.now p pkt).2
  | initiation (mac : Mac) (who ts : Option Nat) (sender ip port : Nat) (ho : o = .initiation mac who ts sender ip port) :
      PStep co d o j p (peerInitiation (co j) d.now (d.kpCtr + 1) p ts sender ip port).1
        (peerInitiation (co j) d.now (d.kpCtr + 1) p ts sender ip port).2.1
  | response (mac : Mac) (recv : Nat) (auth : Bool) (sender ip port : Nat) (ho : o = .response mac recv auth sender ip port)
      (hm : mac ≠ .invalid) (ha : p.active = true) (hh : p.hs = .createdInit) (hl : p.hsLocal = recv) :
      PStep co d o j p (peerResponse (co j) d.now (d.kpCtr + 1) p auth sender ip port).1
        (peerResponse (co j) d.now (d.kpCtr + 1) p auth sender ip port).2.1
  | data (recv ctr ip port s : Nat) (dec : Nat → Option Bytes) (x : List Ev) (ho : o = .data recv ctr dec ip port)
      (ha : p.active = true) (hs : findKP p recv = some s) (hx : ∀ e ∈ x, ∃ q, e = .inject q) :
      PStep co d o j p (peerData d.now p s ctr ip port dec).1 ((peerData d.now p s ctr ip port dec).2.1 ++ x)

theorem PStep.nop {co : Nat → Nat → Nat} {d : Dev} {o : Op} {j : Nat} {d' : Dev}
    (h : d'.peers = d.peers) : PStep co d o j (peerOf d j) (peerOf d' j) (mineOf j []) := by
  unfold peerOf
  rw [h]
  exact PStep.none

theorem PStep.set {co : Nat → Nat → Nat} {d : Dev} {o : Op} {i : Nat} (j : Nat) {p p' : Peer}
    {es : List Ev} {d' : Dev} (h : PStep co d o i p p' es) (hp : d.peers[i]? = some p)
    (hd : d'.peers = (d.setPeer i p').peers) :
    PStep co d o j (peerOf d j) (peerOf d' j) (mineOf j (tag i es)) := by
  have e1 : peerOf d' j = peerOf (d.setPeer i p') j := by unfold peerOf; rw [hd]
  rw [e1, peerOf_set, mineOf_tag]
  by_cases hij : j = i
  · subst hij
    have hl := (List.getElem?_eq_some_iff.mp hp).1
    have e2 : peerOf d j = p := by
      unfold peerOf
      rw [List.getD_eq_getElem?_getD, hp]
      rfl
    rw [if_pos ⟨rfl, hl⟩, if_pos rfl, e2]
    exact h
  · rw [if_neg (fun c => hij c.1), if_neg (Ne.symm hij)]
    exact PStep.none

theorem mine_cookie (co : Nat → Nat → Nat) (d : Dev) (o : Op) (j : Nat) (p : Peer) :
    PStep co d o j p p (mineOf j [(0, Ev.cookieReply)]) := by
  have := mineOf_tag j 0 [Ev.cookieReply]
  by_cases h0 : 0 = j
  · rw [if_pos h0] at this
    rw [show mineOf j [(0, Ev.cookieReply)] = [Ev.cookieReply] from this]
    exact PStep.cookie
  · rw [if_neg h0] at this
    rw [show mineOf j [(0, Ev.cookieReply)] = [] from this]
    exact PStep.none

theorem step_peer (co : Nat → Nat → Nat) (d : Dev) (o : Op) (j : Nat) :
    PStep co d o j (peerOf d j) (peerOf (step co d o).1 j) (mineOf j (step co d o).2) := by
  cases o with
  | poll now =>
    have := tickAll_peer co now d.peers 0 j
    rw [Nat.zero_add] at this
    have h1 : peerOf (step co d (.poll now)).1 j = (tick (co j) now (peerOf d j)).1 := this.1
    have h2 : mineOf j (step co d (.poll now)).2 = (tick (co j) now (peerOf d j)).2 := this.2.1
    rw [h1, h2]
    exact PStep.poll now rfl
  | addPeer ip port interval =>
    simp only [step]
    split
    · exact PStep.nop rfl
    · next i hi =>
      rw [List.findIdx?_eq_some_iff_getElem] at hi
      obtain ⟨hlt, hna, _⟩ := hi
      rw [show (peerOf (d.setPeer i _) j) = _ from peerOf_set d i j _]
      split
      · next hji =>
        rw [← hji.1]
        refine PStep.fresh ip port interval ?_
        unfold peerOf
        rw [hji.1, List.getD_eq_getElem?_getD, List.getElem?_eq_getElem hlt]
        simpa using hna
      · exact PStep.none
  | addAllowed peer ip cidr =>
    simp only [step]
    split
    · exact PStep.nop rfl
    · split <;> exact PStep.nop rfl
  | removeAllowed peer => exact PStep.nop rfl
  | setKey =>
    have : peerOf (step co d .setKey).1 j = dropSessions (peerOf d j) := by
      unfold peerOf step
      dsimp only
      rw [List.getD_eq_getElem?_getD, List.getD_eq_getElem?_getD, List.getElem?_map]
      cases d.peers[j]? with
      | none => rfl
      | some p => rfl
    rw [this]
    exact PStep.drop
  | output pkt =>
    simp only [step]
    split
    · exact PStep.nop rfl
    · split
      · exact PStep.nop rfl
      · split
        · exact PStep.nop rfl
        · next i _ =>
          split
          · exact PStep.nop rfl
          · next p hp =>
            split
            · exact PStep.nop rfl
            · next hact =>
              exact PStep.set j (PStep.send pkt rfl (by simpa using hact)) hp rfl
  | initiation mac who ts sender ip port =>
    simp only [step]
    split
    · exact PStep.nop rfl
    · split
      · exact mine_cookie co d _ j _
      · split
        · exact PStep.nop rfl
        · next i =>
          split
          · exact PStep.nop rfl
          · next p hp =>
            split
            · exact PStep.nop rfl
            · next hact =>
              exact PStep.set j (PStep.initiation mac (some i) ts sender ip port rfl) hp rfl
  | response mac recv auth sender ip port =>
    simp only [step]
    split
    · exact PStep.nop rfl
    · next hm =>
      split
      · exact mine_cookie co d _ j _
      · split
        · exact PStep.nop rfl
        · next i hi =>
          rw [List.findIdx?_eq_some_iff_getElem] at hi
          obtain ⟨hlt, hc, _⟩ := hi
          have hp : d.peers[i]? = some (d.peers.getD i Peer.zero) := by
            rw [List.getD_eq_getElem?_getD, List.getElem?_eq_getElem hlt]; rfl
          have hg : d.peers.getD i Peer.zero = d.peers[i] := by
            rw [List.getD_eq_getElem?_getD, List.getElem?_eq_getElem hlt]; rfl
          rw [Bool.and_eq_true, Bool.and_eq_true, beq_iff_eq, beq_iff_eq] at hc
          exact PStep.set j (PStep.response mac recv auth sender ip port rfl hm (by rw [hg]; exact hc.1.1) (by rw [hg]; exact hc.1.2)
            (by rw [hg]; exact hc.2)) hp rfl
  | data recv ctr dec ip port =>
    simp only [step]
    split
    · exact PStep.nop rfl
    · next i hi =>
      unfold findPeer at hi
      rw [List.findIdx?_eq_some_iff_getElem] at hi
      obtain ⟨hlt, hc, _⟩ := hi
      have hp : d.peers[i]? = some (d.peers.getD i Peer.zero) := by
        rw [List.getD_eq_getElem?_getD, List.getElem?_eq_getElem hlt]; rfl
      have hg : d.peers.getD i Peer.zero = d.peers[i] := by
        rw [List.getD_eq_getElem?_getD, List.getElem?_eq_getElem hlt]; rfl
      rw [Bool.and_eq_true] at hc
      have ha : (d.peers.getD i Peer.zero).active = true := by rw [hg]; exact hc.1
      split
      · exact PStep.nop rfl
      · next s hs =>
        split
        · have := PStep.data (co := co) (d := d) (j := i) recv ctr ip port s dec [] rfl ha hs (fun e h => by cases h)
          rw [List.append_nil] at this
          exact PStep.set j this hp rfl
        · next pt hpt =>
          refine PStep.set j (PStep.data recv ctr ip port s dec _ rfl ha hs ?_) hp rfl
          intro e he
          split at he
          · rw [List.mem_singleton] at he; exact ⟨pt, he⟩
          · cases he

end Wolf.Wg
