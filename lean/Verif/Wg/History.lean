import Verif.Wg.Sessions

/-!
# C47, C48 (and C45 for whole histories)
-/

namespace Wolf.Wg

theorem validate_lim {r : Replay} {c : Nat} (h : (validate r c).2 = true) : c < rejectAfter := by
  unfold validate at h
  split at h
  · cases h
  · omega

theorem DInv.mic {cs : List Core} {n : Nat} {tr : List TEv} (h : DInv cs n tr) {t i : Nat}
    {c c' : Core} {e : Option Ev} (hc : cs[i]? = some c) (m : Mic t n c e c') :
    DInv (cs.set i c') (bump n e) (tr ++ e.toList.map (fun e => (t, i, e))) := by
  have hwf := h.wf i c hc
  have hw' := hwf.mic m
  have he : e.toList.map (fun e => (t, i, e)) = (e.map (fun e => (t, i, e))).toList := by
    cases e <;> rfl
  rw [he]
  cases m with
  | quiet e hq =>
    have hb : bump n (some e) = n := by cases e <;> first | rfl | exact absurd hq id
    rw [hb]
    have e1 : cs.set i c = cs := by
      apply List.ext_getElem?
      intro j
      rw [List.getElem?_set]
      by_cases hj : i = j
      · subst hj
        obtain ⟨h1, h2⟩ := List.getElem?_eq_some_iff.mp hc
        simp [h1, h2]
      · simp [hj]
    rw [e1]
    exact h.quiet t i e hq.quiet
  | invalidate s0 k hcur hk =>
    refine DInv.upd 0 h hc (Nat.le_refl _) hw' ?_ ?_ (by intro e1 he1; cases he1)
      (by intro e1 he1; cases he1)
    · intro s x hx
      rcases get_set hx with ⟨rfl, rfl⟩ | ⟨_, hx⟩
      · have hs := h.slot i c s k hc hk
        refine ⟨?_, fun _ => Or.inr ⟨k, hk, rfl⟩⟩
        rw [Option.map_none, Option.toList_none, List.append_nil]
        exact ⟨hs.le, fun h0 => ⟨rfl, (hs.zero h0).2⟩, hs.sess, hs.birth, hs.ctr, hs.good, hs.mem⟩
      · exact ⟨(h.slot i c s x hc hx).monoOpt _ (Nat.le_refl _) (by intro _ e1 he1; cases he1),
          fun _ => Or.inr ⟨x, hx, rfl⟩⟩
    · intro s k' hcu hk' h0 hi
      rw [Option.map_none, Option.toList_none, List.append_nil]
      rcases get_set hk' with ⟨rfl, rfl⟩ | ⟨_, hx⟩
      · exact h.conf i c s k hc hcur hk h0 hi
      · exact h.conf i c s k' hc hcu hx h0 hi
  | refuse s0 k ctr hk hf =>
    refine DInv.upd 0 h hc (Nat.le_refl _) hw' ?_ ?_ (by intro e1 he1; cases he1)
      (by intro e1 he1; cases he1)
    · intro s x hx
      rcases get_set hx with ⟨rfl, rfl⟩ | ⟨_, hx⟩
      · have hs := h.slot i c s k hc hk
        refine ⟨?_, fun _ => Or.inr ⟨k, hk, rfl⟩⟩
        rw [Option.map_none, Option.toList_none, List.append_nil]
        refine ⟨hs.le, hs.zero, hs.sess, hs.birth, hs.ctr, ?_, hs.mem⟩
        intro h0
        have := (validate_good k.replay _ (hs.good h0) ctr).2
        rw [hf, if_neg (by simp)] at this
        exact this
      · exact ⟨(h.slot i c s x hc hx).monoOpt _ (Nat.le_refl _) (by intro _ e1 he1; cases he1),
          fun _ => Or.inr ⟨x, hx, rfl⟩⟩
    · intro s k' hcu hk' h0 hi
      rw [Option.map_none, Option.toList_none, List.append_nil]
      rcases get_set hk' with ⟨rfl, rfl⟩ | ⟨_, hx⟩
      · exact h.conf i c s k hc hcu hk h0 hi
      · exact h.conf i c s k' hc hcu hx h0 hi
  | clear =>
    rw [Option.map_none, Option.toList_none, List.append_nil]
    exact h.fresh i
  | enc s0 k pl ip port hcur hk hv hl hl' ha =>
    have hs := h.slot i c s0 k hc hk
    have hk0 : k.sid ≠ 0 := by
      intro h0; have := (hs.zero h0).1; rw [hv] at this; cases this
    refine DInv.upd 0 h hc (Nat.le_refl _) hw' ?_ ?_ ?_ ?_
    · intro s x hx
      rcases get_set hx with ⟨rfl, rfl⟩ | ⟨hne, hx⟩
      · refine ⟨?_, fun _ => Or.inr ⟨k, hk, rfl⟩⟩
        refine ⟨hs.le, hs.zero, fun _ => List.mem_append_left _ (hs.sess hk0), hs.birth, ?_, ?_, ?_⟩
        · intro _ t1 i1 c1 pl1 ip1 pt1 hm
          rcases List.mem_append.mp hm with hm | hm
          · have := hs.ctr hk0 _ _ _ _ _ _ hm
            exact Nat.lt_succ_of_lt this
          · simp only [Option.map_some, Option.toList_some, List.mem_singleton] at hm
            injection hm with _ hm
            injection hm with _ hm
            injection hm with _ hm
            rw [hm]
            exact Nat.lt_succ_self _
        · intro _
          show Good k.replay (accs (tr ++ [_]) k.sid)
          rw [accs_snoc]
          · exact hs.good hk0
          · intro t' i' c'' hh
            injection hh with _ hh
            injection hh with _ hh
            cases hh
        · intro _ t1 i1 c1 hm
          rcases List.mem_append.mp hm with hm | hm
          · exact hs.mem hk0 _ _ _ hm
          · simp only [Option.map_some, Option.toList_some, List.mem_singleton] at hm
            injection hm with _ hm
            injection hm with _ hm
      · refine ⟨(h.slot i c s x hc hx).monoOpt _ (Nat.le_refl _) ?_, fun _ => Or.inr ⟨x, hx, rfl⟩⟩
        intro hx0 e1 he1 hh
        cases he1
        have hh' : k.sid = x.sid := Option.some.inj hh
        exact hne (h.dist i c s0 k i c s x hc hk hc hx hh' hk0).2.symm
    · intro s k' hcu hk' h0 hi
      rcases get_set hk' with ⟨rfl, rfl⟩ | ⟨_, hx⟩
      · obtain ⟨t1, c1, hm⟩ := h.conf i c s k hc hcur hk h0 hi
        exact ⟨t1, c1, List.mem_append_left _ hm⟩
      · obtain ⟨t1, c1, hm⟩ := h.conf i c s k' hc hcu hx h0 hi
        exact ⟨t1, c1, List.mem_append_left _ hm⟩
    · intro e1 he1 sid hsid
      cases he1
      have : k.sid = sid := Option.some.inj hsid
      subst this
      exact ⟨hk0, hs.le, Or.inl ⟨s0, k, hk, rfl⟩⟩
    · intro e1 he1
      cases he1
      refine ⟨⟨k.sBirth, k.isInit, hs.sess hk0, ha, ?_⟩, hl, hl', ?_⟩
      · intro hi
        exact h.conf i c s0 k hc hcur hk hk0 hi
      · intro t1 i1 c1 pl1 ip1 pt1 hm
        exact hs.ctr hk0 _ _ _ _ _ _ hm
  | accept s0 k ctr hp hk hv ha hf =>
    have hs := h.slot i c s0 k hc hk
    have hk0 : k.sid ≠ 0 := by
      intro h0; have := (hs.zero h0).2; rw [hv] at this; cases this
    have hg := validate_good k.replay _ (hs.good hk0) ctr
    refine DInv.upd 0 h hc (Nat.le_refl _) hw' ?_ ?_ ?_ ?_
    · intro s x hx
      rcases promote_slots hx with hz | hx
      · refine ⟨SlotInv.wiped _ _ _ hz, ?_⟩
        intro h0; rw [hz] at h0; exact absurd rfl h0
      rcases get_set hx with ⟨rfl, rfl⟩ | ⟨hne, hx⟩
      · refine ⟨?_, fun _ => Or.inr ⟨k, hk, rfl⟩⟩
        refine ⟨hs.le, hs.zero, fun _ => List.mem_append_left _ (hs.sess hk0), hs.birth, ?_, ?_, ?_⟩
        · intro _ t1 i1 c1 pl1 ip1 pt1 hm
          rcases List.mem_append.mp hm with hm | hm
          · exact hs.ctr hk0 _ _ _ _ _ _ hm
          · simp only [Option.map_some, Option.toList_some, List.mem_singleton] at hm
            injection hm with _ hm
            injection hm with _ hm
            cases hm
        · intro _
          show Good (validate k.replay ctr).1 (accs (tr ++ [(t, i, Ev.accept k.sid ctr)]) k.sid)
          rw [accs_snoc_accept]
          have := hg.2
          rw [if_pos hf] at this
          exact this
        · intro _ t1 i1 c1 hm
          rcases List.mem_append.mp hm with hm | hm
          · exact hs.mem hk0 _ _ _ hm
          · simp only [Option.map_some, Option.toList_some, List.mem_singleton] at hm
            injection hm with _ hm
            injection hm with hm _
      · refine ⟨(h.slot i c s x hc hx).monoOpt _ (Nat.le_refl _) ?_, fun _ => Or.inr ⟨x, hx, rfl⟩⟩
        intro hx0 e1 he1 hh
        cases he1
        have hh' : k.sid = x.sid := Option.some.inj hh
        exact hne (h.dist i c s0 k i c s x hc hk hc hx hh' hk0).2.symm
    · intro s k' hcu hk' h0 hi
      have hz : ¬ Wiped k' := by intro hz; rw [hz] at h0; exact h0 rfl
      have hk2 := (promote_slots hk').resolve_left hz
      rcases get_set hk2 with ⟨rfl, rfl⟩ | ⟨hne, hx⟩
      · exact ⟨t, ctr, List.mem_append_right _ (by simp)⟩
      · have hcu' : c.cur = some s := by
          unfold Core.promote at hcu
          split at hcu
          · exact absurd (Option.some.inj hcu).symm hne
          · exact hcu
        obtain ⟨t1, c1, hm⟩ := h.conf i c s k' hc hcu' hx h0 hi
        exact ⟨t1, c1, List.mem_append_left _ hm⟩
    · intro e1 he1 sid hsid
      cases he1
      have : k.sid = sid := Option.some.inj hsid
      subst this
      exact ⟨hk0, hs.le, Or.inl ⟨s0, k, hk, rfl⟩⟩
    · intro e1 he1
      cases he1
      refine ⟨⟨k.sBirth, k.isInit, hs.sess hk0, ?_⟩, validate_lim hf, ?_⟩
      · rw [← hs.birth hk0]; exact ha
      · intro t1 i1 hm
        exact (hg.1.mp hf).2.1 ((mem_accs _ _ _).mpr ⟨t1, i1, hm⟩)
  | session k hsd hb hr h0 hre =>
    have hk0 : k.sid ≠ 0 := by omega
    have fresh : ∀ e ∈ tr, evSid e ≠ some k.sid := by
      intro e he hh
      have := h.evs e he _ hh
      omega
    refine DInv.upd c.dropNext.pick h hc (n' := n + 1) (Nat.le_succ _) hw' ?_ ?_ ?_ ?_
    · intro s x hx
      rcases install_slots hx with ⟨rfl, rfl⟩ | hz | ⟨hne, hx⟩
      · refine ⟨?_, fun _ => Or.inl ⟨hsd, rfl⟩⟩
        refine ⟨by omega, fun c => absurd c hk0, fun _ => ?_, fun _ => by rw [hr, hb], ?_, ?_, ?_⟩
        · rw [hb]; exact List.mem_append_right _ (by simp)
        · intro _ t1 i1 c1 pl1 ip1 pt1 hm
          rcases List.mem_append.mp hm with hm | hm
          · exact absurd rfl (fresh _ hm)
          · simp only [Option.map_some, Option.toList_some, List.mem_singleton] at hm
            injection hm with _ hm
            injection hm with _ hm
            cases hm
        · intro _
          show Good x.replay (accs (tr ++ [_]) x.sid)
          rw [accs_snoc]
          · have : accs tr x.sid = [] := by
              apply List.eq_nil_iff_forall_not_mem.mpr
              intro a hm
              obtain ⟨t1, i1, hm⟩ := (mem_accs _ _ _).mp hm
              exact fresh _ hm rfl
            rw [this, hre]
            exact good_init
          · intro t' i' c'' hh
            injection hh with _ hh
            injection hh with _ hh
            cases hh
        · intro _ t1 i1 c1 hm
          rcases List.mem_append.mp hm with hm | hm
          · exact absurd rfl (fresh _ hm)
          · simp only [Option.map_some, Option.toList_some, List.mem_singleton] at hm
            injection hm with _ hm
            injection hm with _ hm
      · refine ⟨SlotInv.wiped _ _ _ hz, ?_⟩
        intro h0; rw [hz] at h0; exact absurd rfl h0
      · refine ⟨(h.slot i c s x hc hx).monoOpt _ (Nat.le_succ _) ?_, fun _ => Or.inr ⟨x, hx, rfl⟩⟩
        intro hx0 e1 he1 hh
        cases he1
        have hh' : k.sid = x.sid := Option.some.inj hh
        have := (h.slot i c s x hc hx).le
        omega
    · intro s k' hcu hk' h0 hi
      have hz : ¬ Wiped k' := by intro hz; rw [hz] at h0; exact h0 rfl
      have hd := hwf.dropNext
      obtain ⟨p1, p2, p3⟩ := pick_spec _ hd
      have hdc : c.dropNext.cur = c.cur := by unfold Core.dropNext; split <;> rfl
      rcases install_slots hk' with ⟨rfl, rfl⟩ | hz' | ⟨hne, hx⟩
      · -- the new session is current only for an initiator
        exfalso
        unfold Core.install at hcu
        dsimp only at hcu
        rw [hi, if_neg (by simp)] at hcu
        exact p2 hcu
      · exact absurd hz' hz
      · have hcu' : c.cur = some s := by
          unfold Core.install at hcu
          dsimp only at hcu
          split at hcu
          · exact absurd (Option.some.inj hcu).symm hne
          · rw [← hdc]; exact hcu
        obtain ⟨t1, c1, hm⟩ := h.conf i c s k' hc hcu' hx h0 hi
        exact ⟨t1, c1, List.mem_append_left _ hm⟩
    · intro e1 he1 sid hsid
      cases he1
      have : k.sid = sid := Option.some.inj hsid
      subst this
      exact ⟨hk0, by omega, Or.inr hsd⟩
    · intro e1 he1
      cases he1
      exact fresh

theorem DInv.ds {cs n tr0 tr cs' n'} (h : DInv cs n tr0) (r : DS cs n tr cs' n') :
    DInv cs' n' (tr0 ++ tr) := by
  induction r generalizing tr0 with
  | refl => rw [List.append_nil]; exact h
  | quiet t i e hq _ ih =>
    have := ih (h.quiet t i e hq)
    rwa [List.append_assoc] at this
  | fresh i _ ih => exact ih (h.fresh i)
  | cons t i c c' e hc hm _ ih =>
    have := ih (h.mic hc hm)
    rwa [List.append_assoc] at this

/-! ## The device performs micro-steps -/

/-- Session parts of all peers. -/
def cores (d : Dev) : List Core := d.peers.map Peer.core

theorem cores_get {d : Dev} {i : Nat} {p : Peer} (h : d.peers[i]? = some p) :
    (cores d)[i]? = some p.core := by
  unfold cores
  rw [List.getElem?_map, h]; rfl

theorem cores_setPeer (d : Dev) (i : Nat) (p : Peer) :
    cores (d.setPeer i p) = (cores d).set i p.core := by
  unfold cores Dev.setPeer
  rw [List.map_set]

theorem tag_map (t i : Nat) (es : List Ev) :
    (tag i es).map (fun e => (t, e)) = es.map (fun e => (t, i, e)) := by
  unfold tag
  rw [List.map_map]
  rfl

theorem tickAll_ds (co : Nat → Nat → Nat) (now n : Nat) (ps : List Peer) : ∀ (pre : List Peer),
    DS ((pre ++ ps).map Peer.core) n
      ((tickAll co now pre.length ps).2.map (fun e => (now, e)))
      ((pre ++ (tickAll co now pre.length ps).1).map Peer.core) n := by
  induction ps with
  | nil => intro pre; exact DS.refl _ _
  | cons p ps ih =>
    intro pre
    have h1 := tick_ms (co pre.length) now n p
    have h2 := DS.ofMS h1 pre.length ((pre ++ p :: ps).map Peer.core) (by simp)
    have h3 := ih (pre ++ [(tick (co pre.length) now p).1])
    have e1 : ((pre ++ p :: ps).map Peer.core).set pre.length (tick (co pre.length) now p).1.core =
        ((pre ++ [(tick (co pre.length) now p).1]) ++ ps).map Peer.core := by
      rw [← List.map_set]
      congr 1
      simp
    have e2 : (pre ++ [(tick (co pre.length) now p).1]).length = pre.length + 1 := by simp
    rw [e1] at h2
    rw [e2] at h3
    have h4 := DS.trans h2 h3
    have e3 : (pre ++ [(tick (co pre.length) now p).1]) ++
        (tickAll co now (pre.length + 1) ps).1 =
        pre ++ (tickAll co now pre.length (p :: ps)).1 := by
      rw [List.append_assoc]; rfl
    rw [e3] at h4
    have e4 : (tick (co pre.length) now p).2.map (fun e => (now, pre.length, e)) ++
        (tickAll co now (pre.length + 1) ps).2.map (fun e => (now, e)) =
        (tickAll co now pre.length (p :: ps)).2.map (fun e => (now, e)) := by
      rw [← tag_map, ← List.map_append]; rfl
    rw [e4] at h4
    exact h4

theorem dropAll_ds (n : Nat) (ps : List Peer) : ∀ (pre : List Peer),
    DS ((pre ++ ps).map Peer.core) n [] ((pre ++ ps.map dropSessions).map Peer.core) n := by
  induction ps with
  | nil => intro pre; exact DS.refl _ _
  | cons p ps ih =>
    intro pre
    have h2 := DS.ofMS (dropSessions_ms 0 n p) pre.length ((pre ++ p :: ps).map Peer.core) (by simp)
    have h3 := ih (pre ++ [dropSessions p])
    have e1 : ((pre ++ p :: ps).map Peer.core).set pre.length (dropSessions p).core =
        ((pre ++ [dropSessions p]) ++ ps).map Peer.core := by
      rw [← List.map_set]
      congr 1
      simp
    rw [e1] at h2
    have h4 := DS.trans h2 h3
    have e3 : (pre ++ [dropSessions p]) ++ ps.map dropSessions =
        pre ++ (p :: ps).map dropSessions := by
      rw [List.append_assoc]; rfl
    rw [e3] at h4
    exact h4

/-- **Refinement.**  Every operation of the device is a sequence of micro-steps. -/
theorem step_ds (co : Nat → Nat → Nat) (d : Dev) (o : Op) :
    DS (cores d) d.kpCtr ((step co d o).2.map (fun e => ((step co d o).1.now, e)))
      (cores (step co d o).1) (step co d o).1.kpCtr := by
  cases o with
  | poll now => exact tickAll_ds co now d.kpCtr d.peers []
  | addPeer ip port interval =>
    simp only [step]
    split
    · exact DS.refl _ _
    · next i hi =>
      rw [show cores (d.setPeer i _) = _ from cores_setPeer d i _]
      exact DS.fresh i (DS.refl _ _)
  | addAllowed peer ip cidr =>
    simp only [step]
    split
    · exact DS.refl _ _
    · split <;> exact DS.refl _ _
  | removeAllowed peer => exact DS.refl _ _
  | setKey => exact dropAll_ds d.kpCtr d.peers []
  | output pkt =>
    simp only [step]
    split
    · exact DS.refl _ _
    · split
      · exact DS.refl _ _
      · split
        · exact DS.refl _ _
        · next i _ =>
          split
          · exact DS.refl _ _
          · next p hp =>
            split
            · exact DS.refl _ _
            · rw [tag_map, cores_setPeer]
              exact DS.ofMS (packetSend_ms (co i) d.now d.kpCtr p pkt) i _ (cores_get hp)
  | initiation mac who ts sender ip port =>
    simp only [step]
    split
    · exact DS.refl _ _
    · split
      · exact DS.quiet _ 0 _ trivial (DS.refl _ _)
      · split
        · exact DS.refl _ _
        · next i =>
          split
          · exact DS.refl _ _
          · next p hp =>
            split
            · exact DS.refl _ _
            · have h := DS.ofMS (peerInitiation_ms (co i) d.now d.kpCtr p ts sender ip port) i
                (cores d) (cores_get hp)
              rw [← tag_map] at h
              have e := cores_setPeer { d with hsCycle := (d.hsCycle + 1) % 65536 } i
                (peerInitiation (co i) d.now (d.kpCtr + 1) p ts sender ip port).1
              have e' : cores ({ d with hsCycle := (d.hsCycle + 1) % 65536 } : Dev) = cores d := rfl
              rw [e'] at e
              rw [← e] at h
              exact h
  | response mac recv auth sender ip port =>
    simp only [step]
    split
    · exact DS.refl _ _
    · split
      · exact DS.quiet _ 0 _ trivial (DS.refl _ _)
      · split
        · exact DS.refl _ _
        · next i hi =>
          rw [List.findIdx?_eq_some_iff_getElem] at hi
          obtain ⟨hlt, _, _⟩ := hi
          have hp : d.peers[i]? = some (d.peers.getD i Peer.zero) := by
            rw [List.getD_eq_getElem?_getD, List.getElem?_eq_getElem hlt]; rfl
          have h := DS.ofMS (peerResponse_ms (co i) d.now d.kpCtr (d.peers.getD i Peer.zero) auth
            sender ip port) i (cores d) (cores_get hp)
          rw [← tag_map] at h
          have e := cores_setPeer { d with hsCycle := (d.hsCycle + 1) % 65536 } i
            (peerResponse (co i) d.now (d.kpCtr + 1) (d.peers.getD i Peer.zero) auth sender ip
              port).1
          have e' : cores ({ d with hsCycle := (d.hsCycle + 1) % 65536 } : Dev) = cores d := rfl
          rw [e'] at e
          rw [← e] at h
          exact h
  | data recv ctr dec ip port =>
    simp only [step]
    split
    · exact DS.refl _ _
    · next i hi =>
      unfold findPeer at hi
      rw [List.findIdx?_eq_some_iff_getElem] at hi
      obtain ⟨hlt, _, _⟩ := hi
      have hp : d.peers[i]? = some (d.peers.getD i Peer.zero) := by
        rw [List.getD_eq_getElem?_getD, List.getElem?_eq_getElem hlt]; rfl
      split
      · exact DS.refl _ _
      · next s hs =>
        have h := DS.ofMS (peerData_ms d.now d.kpCtr (d.peers.getD i Peer.zero) s recv ctr ip port
          dec hs) i (cores d) (cores_get hp)
        split
        · rw [tag_map, cores_setPeer]
          exact h
        · next pt hpt =>
          rw [tag_map, cores_setPeer, List.map_append]
          have hq : DS ((cores d).set i
              (peerData d.now (d.peers.getD i Peer.zero) s ctr ip port dec).1.core) d.kpCtr
              ((if innerOk d i pt = true then [Ev.inject pt] else []).map
                (fun e => (d.now, i, e)))
              ((cores d).set i
                (peerData d.now (d.peers.getD i Peer.zero) s ctr ip port dec).1.core) d.kpCtr := by
            split
            · exact DS.quiet _ _ _ trivial (DS.refl _ _)
            · exact DS.refl _ _
          exact DS.trans h hq

theorem drun_ds (co : Nat → Nat → Nat) (ops : List Op) : ∀ (d : Dev),
    DS (cores d) d.kpCtr (drun co d ops).2 (cores (drun co d ops).1) (drun co d ops).1.kpCtr := by
  induction ops with
  | nil => intro d; exact DS.refl _ _
  | cons o os ih => intro d; exact DS.trans (step_ds co d o) (ih (step co d o).1)

theorem init_inv : DInv (cores Dev.init) Dev.init.kpCtr [] := by
  have hcore : ∀ (i : Nat) (c : Core), (cores Dev.init)[i]? = some c → c = Core.empty := by
    intro i c hc
    have h1 := List.mem_of_getElem? hc
    unfold cores Dev.init at h1
    rw [List.map_replicate, List.mem_replicate] at h1
    exact h1.2
  have hslot : ∀ (c : Core) (s : Nat) (k : KP), c = Core.empty → c.slots[s]? = some k → Wiped k := by
    intro c s k hc hk
    subst hc
    have : k ∈ List.replicate 3 KP.zero := List.mem_of_getElem? hk
    exact (List.mem_replicate.mp this).2
  refine ⟨?_, ?_, ?_, ?_, ?_, Ok.nil⟩
  · intro i c hc; rw [hcore i c hc]; exact CWf.empty
  · intro i c s k hc hk; exact SlotInv.wiped _ _ _ (hslot c s k (hcore i c hc) hk)
  · intro i c s k hc _ hk h0
    rw [hslot c s k (hcore i c hc) hk] at h0
    exact absurd rfl h0
  · intro i c s k i' c' s' k' hc hk _ _ _ h0
    rw [hslot c s k (hcore i c hc) hk] at h0
    exact absurd rfl h0
  · intro e he; cases he

theorem run_inv (co : Nat → Nat → Nat) (ops : List Op) :
    DInv (cores (drun co Dev.init ops).1) (drun co Dev.init ops).1.kpCtr
      (drun co Dev.init ops).2 := by
  have := init_inv.ds (drun_ds co ops Dev.init)
  rwa [List.nil_append] at this

end Wolf.Wg
