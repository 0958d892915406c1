import Verif.Wg.PeerStep
/-! # WireGuard: sessions answer initiations, data goes by session index, keepalives answer data -/
namespace Wolf.Wg

/-! ## Specification -/

/-- Initiations among the effects about a peer. -/
def inits (es : List Ev) : Nat := es.countP fun e => match e with | .init => true | _ => false

/-- Sessions derived as initiator. -/
def initSessions (es : List Ev) : Nat := es.countP fun e => match e with | .session _ true => true | _ => false

/-- The effects about peer `j` in a history's effects. -/
def about (j : Nat) (es : List TEv) : List Ev := (es.filter (fun e => e.2.1 == j)).map (·.2.2)

/-! ## What every function does to a handshake of ours -/

/-- Is an initiation of ours unanswered? -/
def opn (p : Peer) : Nat := if p.hs = .createdInit then 1 else 0

/-- No session as initiator; the open handshake is accounted for; the time of the last data is kept. -/
structure QR (p : Peer) (es : List Ev) (p' : Peer) : Prop where
  noS : initSessions es = 0
  op : opn p' ≤ inits es + opn p
  dr : p'.tDataRecv = p.tDataRecv

theorem inits_append (a b : List Ev) : inits (a ++ b) = inits a + inits b := List.countP_append
theorem initSessions_append (a b : List Ev) : initSessions (a ++ b) = initSessions a + initSessions b := List.countP_append

theorem QR.refl (p : Peer) : QR p [] p := ⟨rfl, Nat.le_add_left .., rfl⟩

theorem QR.trans {p q r : Peer} {a b : List Ev} (h : QR p a q) (k : QR q b r) : QR p (a ++ b) r :=
  ⟨by rw [initSessions_append, h.noS, k.noS], by have := h.op; have := k.op; rw [inits_append]; omega, k.dr.trans h.dr⟩

theorem QR.quiet {p p' : Peer} {e : Ev} (he : initSessions [e] = 0) (h1 : p'.hs = p.hs) (h2 : p'.tDataRecv = p.tDataRecv) : QR p [e] p' :=
  ⟨he, by unfold opn; rw [h1]; omega, h2⟩

theorem QR.still {p p' : Peer} (h1 : p'.hs = p.hs) (h2 : p'.tDataRecv = p.tDataRecv) : QR p [] p' :=
  ⟨rfl, by unfold opn; rw [h1]; omega, h2⟩

theorem QR.closed {p p' : Peer} {es : List Ev} (hn : initSessions es = 0) (h1 : p'.hs ≠ .createdInit) (h2 : p'.tDataRecv = p.tDataRecv) : QR p es p' :=
  ⟨hn, by unfold opn; rw [if_neg h1]; omega, h2⟩

theorem sendInit_qr (co : Nat → Nat) (now : Nat) (p : Peer) : QR p (sendInit co now p).2 (sendInit co now p).1 := by
  unfold sendInit createInit
  by_cases h : co p.ptr = 0
  · rw [if_pos h]
    exact QR.still rfl rfl
  · rw [if_neg h]
    refine ⟨rfl, ?_, rfl⟩
    dsimp only [opn, inits]
    simp only [if_true]
    exact Nat.le_add_right ..

theorem sendInit_after (co : Nat → Nat) (now : Nat) {p q : Peer} {e : Ev} (he : initSessions [e] = 0) (h1 : q.hs = p.hs)
    (h2 : q.tDataRecv = p.tDataRecv) : QR p (e :: (sendInit co now q).2) (sendInit co now q).1 :=
  QR.trans (a := [e]) (QR.quiet he h1 h2) (sendInit_qr co now q)

theorem stage_qr (p : Peer) (pkt : Bytes) : QR p [] (stage p pkt) := by
  unfold stage
  split
  · exact QR.refl p
  · exact QR.still rfl rfl

theorem packetSend_qr (co : Nat → Nat) (now : Nat) (p : Peer) (pkt : Bytes) :
    QR p (packetSend co now p pkt).2 (packetSend co now p pkt).1 := by
  have tail : ∀ q : Peer, QR p [] q → QR p (if q.hs = .zeroed then sendInit co now q else (q, [])).2
      (if q.hs = .zeroed then sendInit co now q else (q, [])).1 := by
    intro q hq
    split
    · exact hq.trans (sendInit_qr co now q)
    · exact hq
  unfold packetSend
  split
  · exact tail _ (stage_qr p pkt)
  · dsimp only
    split
    · exact tail _ (stage_qr p pkt)
    split
    · next i k _ _ => 
      have h1 : QR p [] (p.setKP i { p.kp i with sValid := false }) := QR.still rfl rfl
      exact h1.trans (stage_qr _ pkt)
    split
    · exact QR.refl p
    split
    · exact QR.still rfl rfl
    split
    · exact sendInit_after co now rfl rfl rfl
    · exact QR.quiet rfl rfl rfl

theorem drain_qr (co : Nat → Nat) (now : Nat) : ∀ (n i : Nat) (p : Peer), QR p (drain co now i n p).2 (drain co now i n p).1
  | 0, _, p => QR.refl p
  | n + 1, i, p => by
    have h1 : QR p [] { p with staged := p.staged.set i [] } := QR.still rfl rfl
    have h2 := h1.trans (packetSend_qr co now { p with staged := p.staged.set i [] } (p.staged.getD i []))
    exact h2.trans (drain_qr co now n (i + 1) _)

theorem sendStaged_qr (co : Nat → Nat) (now : Nat) (p : Peer) : QR p (sendStaged co now p).2 (sendStaged co now p).1 := by
  have h1 : QR p [] { p with nStaged := 0 } := QR.still rfl rfl
  exact h1.trans (drain_qr co now p.nStaged 0 _)

theorem sendKeepalive_qr (co : Nat → Nat) (now : Nat) (p : Peer) : QR p (sendKeepalive co now p).2 (sendKeepalive co now p).1 := by
  unfold sendKeepalive
  split
  · exact QR.refl p
  dsimp only
  split
  · exact QR.refl p
  split
  · exact QR.refl p
  split
  · exact QR.refl p
  split
  · exact QR.still rfl rfl
  · exact QR.quiet rfl rfl rfl

theorem sendHsInit_qr (co : Nat → Nat) (now : Nat) (p : Peer) : QR p (sendHsInit co now p).2 (sendHsInit co now p).1 := by
  have h1 : QR p [] (resetHs p) := QR.closed rfl (show Hs.zeroed ≠ _ from nofun) rfl
  exact h1.trans (sendInit_qr co now _)

theorem tick_qr (co : Nat → Nat) (now : Nat) (p : Peer) : QR p (tick co now p).2 (tick co now p).1 := by
  have a1 : ∀ p, QR p (tmRetransmit co now p).2 (tmRetransmit co now p).1 := by
    intro p
    unfold tmRetransmit
    split
    · exact QR.refl p
    split
    · exact QR.closed rfl (show Hs.zeroed ≠ _ from nofun) rfl
    split
    · exact sendHsInit_qr co now p
    · exact QR.refl p
  have ka : ∀ p, QR p (sendKeepalive co now p).2 { (sendKeepalive co now p).1 with tKeepalive := now } := by
    intro p
    have h := sendKeepalive_qr co now p
    exact ⟨h.noS, h.op, h.dr⟩
  have a2 : ∀ p, QR p (tmPassive co now p).2 (tmPassive co now p).1 := by
    intro p
    unfold tmPassive
    split
    · exact QR.refl p
    split
    · exact QR.refl p
    split
    · exact QR.refl p
    split
    · exact QR.refl p
    split
    · exact QR.refl p
    exact ka p
  have nj : ∀ p, QR p [] (newJitter co p) := fun p => QR.still rfl rfl
  have a3 : ∀ p, QR p (tmRekey co now p).2 (tmRekey co now p).1 := by
    intro p
    unfold tmRekey
    split
    · exact QR.refl p
    split
    · exact QR.refl p
    split
    · exact QR.refl p
    · exact (nj p).trans (sendHsInit_qr co now _)
  have a4 : ∀ p, QR p (tmStale co now p).2 (tmStale co now p).1 := by
    intro p
    unfold tmStale
    split
    · exact QR.refl p
    split
    · exact QR.refl p
    split
    · exact QR.refl p
    · exact (nj p).trans (sendHsInit_qr co now _)
  have a5 : ∀ p, QR p [] (tmZero now p) := by
    intro p
    unfold tmZero
    split
    · exact QR.refl p
    split
    · exact QR.refl p
    · exact QR.closed rfl (show Hs.zeroed ≠ _ from nofun) rfl
  have a6 : ∀ p, QR p (tmPersistent co now p).2 (tmPersistent co now p).1 := by
    intro p
    unfold tmPersistent
    split
    · exact QR.refl p
    split
    · exact QR.refl p
    split
    · exact QR.refl p
    exact ka p
  unfold tick
  split
  · exact QR.refl p
  · have h := (((a1 p).trans (a2 _)).trans (a3 _)).trans (a4 _)
    have h5 := h.trans (a5 _)
    rw [List.append_nil] at h5
    exact h5.trans (a6 _)

/-- A session is begun in whatever role the handshake has; afterwards none is open. -/
theorem beginSession_qr (co : Nat → Nat) (now sid : Nat) (p : Peer) :
    (beginSession co now sid p).1.tDataRecv = p.tDataRecv ∧ (p.hs ≠ .createdInit → (beginSession co now sid p).1.hs ≠ .createdInit) ∧
    initSessions (beginSession co now sid p).2.1 ≤ (if p.hs = .consumedResp then 1 else 0) ∧ inits (beginSession co now sid p).2.1 = 0 ∧
    (beginSession co now sid p).2.1.length ≤ 1 := by
  unfold beginSession
  split
  · exact ⟨rfl, id, Nat.zero_le _, rfl, Nat.zero_le _⟩
  split
  · exact ⟨rfl, id, Nat.zero_le _, rfl, Nat.zero_le _⟩
  dsimp only
  refine ⟨?_, fun _ => nofun, ?_, rfl, Nat.le_refl _⟩
  · repeat' split
    all_goals rfl
  · by_cases h : p.hs = .consumedResp
    · rw [if_pos h]
      exact List.countP_le_length
    · rw [if_neg h]
      simp [initSessions, h]

theorem peerInitiation_qr (co : Nat → Nat) (now sid : Nat) (p : Peer) (ts : Option Nat) (sender ip port : Nat) :
    QR p (peerInitiation co now sid p ts sender ip port).2.1 (peerInitiation co now sid p ts sender ip port).1 := by
  unfold peerInitiation
  split
  · exact QR.refl p
  split
  · exact QR.refl p
  · next t =>
    split
    · exact QR.refl p
    dsimp only
    split
    · exact QR.closed rfl (show Hs.consumedInit ≠ _ from nofun) rfl
    · generalize hq : ({ p with
        latestTs := t, hsRemote := sender, lastInitConsumed := now, epIp := ip,
        epPort := port, ptr := p.ptr + 1, hsLocal := co p.ptr, hs := Hs.createdResp } : Peer) = q
      have q1 : q.hs = .createdResp := by rw [← hq]
      have q2 : q.tDataRecv = p.tDataRecv := by rw [← hq]
      obtain ⟨b1, b2, b3, b4, _⟩ := beginSession_qr co now sid q
      have b2 := b2 (by rw [q1]; nofun)
      rw [q1, if_neg (show ¬ (Hs.createdResp = .consumedResp) from nofun)] at b3
      generalize beginSession co now sid q = b at *
      have hb : QR p (.consumed t :: .resp :: b.2.1) b.1 :=
        QR.closed (by show initSessions ([.consumed t, .resp] ++ b.2.1) = 0; rw [initSessions_append]; show 0 + _ = 0; omega) b2 (b1.trans q2)
      split
      · have h1 : QR b.1 [] (hsComplete b.1) := QR.still rfl rfl
        exact hb.trans (h1.trans (sendStaged_qr co now (hsComplete b.1)))
      · exact hb

/-- With a response: at most one session as initiator, before anything else, and only while an initiation is open. -/
theorem peerResponse_qr (co : Nat → Nat) (now sid : Nat) (p : Peer) (auth : Bool) (sender ip port : Nat) (hp : p.hs = .createdInit) :
    ∃ a b, (peerResponse co now sid p auth sender ip port).2.1 = a ++ b ∧ a.length ≤ 1 ∧ initSessions b = 0 ∧
      opn (peerResponse co now sid p auth sender ip port).1 + initSessions a ≤ inits b + 1 ∧
      (peerResponse co now sid p auth sender ip port).1.tDataRecv = p.tDataRecv := by
  have h1 : opn p = 1 := if_pos hp
  unfold peerResponse
  split
  · exact ⟨[], [], rfl, Nat.zero_le _, rfl, by rw [h1]; exact Nat.le_refl _, rfl⟩
  · generalize hq : ({ p with hsRemote := sender, hs := .consumedResp, epIp := ip, epPort := port } : Peer) = q
    have q1 : q.hs = .consumedResp := by rw [← hq]
    have q2 : q.tDataRecv = p.tDataRecv := by rw [← hq]
    obtain ⟨b1, b2, b3, b4, b5⟩ := beginSession_qr co now sid q
    have b2 := b2 (by rw [q1]; nofun)
    rw [if_pos q1] at b3
    generalize beginSession co now sid q = b at *
    obtain ⟨x, e, ok⟩ := b
    dsimp only at *
    have ho : opn x = 0 := if_neg b2
    cases ok with
    | false => exact ⟨e, [], (List.append_nil _).symm, b5, rfl, by show opn x + _ ≤ _; rw [ho]; show 0 + _ ≤ 0 + 1; omega, b1.trans q2⟩
    | true =>
      have hs : QR x (sendStaged co now (hsComplete x)).2 (sendStaged co now (hsComplete x)).1 :=
        (QR.still rfl rfl : QR x [] (hsComplete x)).trans (sendStaged_qr co now _)
      unfold afterResponse
      dsimp only
      split
      · have hk := hs.trans (sendKeepalive_qr co now _)
        exact ⟨e, _, List.append_assoc .., b5, hk.noS, by have := hk.op; rw [ho] at this; dsimp only; omega, hk.dr.trans (b1.trans q2)⟩
      · exact ⟨e, _, rfl, b5, hs.noS, by have := hs.op; rw [ho] at this; dsimp only; omega, hs.dr.trans (b1.trans q2)⟩

theorem peerData_qr (now : Nat) (p : Peer) (i ctr ip port : Nat) (dec : Nat → Option Bytes) :
    (peerData now p i ctr ip port dec).1.hs = p.hs ∧
    (((peerData now p i ctr ip port dec).2.1 = [] ∧ (peerData now p i ctr ip port dec).1.tDataRecv = p.tDataRecv) ∨
     ((peerData now p i ctr ip port dec).2.1 = [.accept (p.kp i).sid ctr] ∧ (peerData now p i ctr ip port dec).1.tDataRecv = now ∧
       (p.kp i).rValid = true ∧ sub64 now (p.kp i).rBirth < rejectMs ∧ (dec (p.kp i).sid).isSome = true)) := by
  unfold peerData
  dsimp only
  split
  · exact ⟨rfl, .inl ⟨rfl, rfl⟩⟩
  next hv =>
  split
  · exact ⟨rfl, .inl ⟨rfl, rfl⟩⟩
  next ha =>
  split
  · exact ⟨rfl, .inl ⟨rfl, rfl⟩⟩
  next pt hd =>
  split
  · exact ⟨rfl, .inl ⟨rfl, rfl⟩⟩
  split
  · exact ⟨rfl, .inl ⟨rfl, rfl⟩⟩
  · refine ⟨?_, .inr ⟨rfl, rfl, by simpa using hv, by omega, by rw [hd]; rfl⟩⟩
    unfold promote
    dsimp only
    split
    · split <;> rfl
    · rfl

/-! ## Histories -/

/-- Sessions as initiator never exceed initiations, at any moment, and an open handshake is one initiation not used yet. -/
structure Cr (p : Peer) (es : List Ev) (p' : Peer) : Prop where
  pre : ∀ n, initSessions (es.take n) ≤ inits (es.take n) + opn p
  all : initSessions es + opn p' ≤ inits es + opn p

theorem Cr.of_qr {p p' : Peer} {es : List Ev} (h : initSessions es = 0) (ho : opn p' ≤ inits es + opn p) : Cr p es p' := by
  refine ⟨fun n => ?_, by omega⟩
  have h1 : initSessions (es.take n) + initSessions (es.drop n) = initSessions es := by rw [← initSessions_append, List.take_append_drop]
  omega

theorem inits_take_le (es : List Ev) (n : Nat) : inits (es.take n) ≤ inits es := by
  have : inits (es.take n) + inits (es.drop n) = inits es := by rw [← inits_append, List.take_append_drop]
  omega

theorem Cr.trans {p q r : Peer} {a b : List Ev} (h : Cr p a q) (k : Cr q b r) : Cr p (a ++ b) r := by
  refine ⟨fun n => ?_, ?_⟩
  · rw [List.take_append, initSessions_append, inits_append]
    by_cases hn : n ≤ a.length
    · rw [show n - a.length = 0 by omega]
      have := h.pre n
      rw [List.take_zero]
      show _ + 0 ≤ _ + 0 + _
      omega
    · rw [List.take_of_length_le (l := a) (by omega)]
      have := h.all
      have := k.pre (n - a.length)
      omega
  · rw [initSessions_append, inits_append]
    have := h.all
    have := k.all
    omega

theorem inj_none {x : List Ev} (hx : ∀ e ∈ x, ∃ q, e = Ev.inject q) : initSessions x = 0 ∧ inits x = 0 := by
  unfold initSessions inits
  rw [List.countP_eq_zero, List.countP_eq_zero]
  constructor <;> intro e he <;> obtain ⟨q, rfl⟩ := hx e he <;> simp

/-- When the time of the last data changes, that is because data was accepted then. -/
structure Dr (o : Op) (now : Nat) (p : Peer) (es : List Ev) (p' : Peer) : Prop where
  dr : p'.tDataRecv = p.tDataRecv ∨ p'.tDataRecv = 0 ∨ (p'.tDataRecv = now ∧ (∃ s c, Ev.accept s c ∈ es) ∧ ∀ t, o ≠ .poll t)

theorem pstep_cr {co : Nat → Nat → Nat} {d : Dev} {o : Op} {j : Nat} {p p' : Peer} {es : List Ev} (h : PStep co d o j p p' es) :
    Cr p es p' ∧ Dr o d.now p es p' := by
  have of : ∀ {es p'}, QR p es p' → Cr p es p' ∧ Dr o d.now p es p' := fun h => ⟨Cr.of_qr h.noS h.op, ⟨.inl h.dr⟩⟩
  cases h with
  | none => exact of (QR.refl p)
  | cookie => exact of (QR.quiet rfl rfl rfl)
  | poll now ho => exact of (tick_qr _ _ _)
  | fresh ip port iv h0 => exact ⟨Cr.of_qr rfl (Nat.zero_le _), ⟨.inr (.inl rfl)⟩⟩
  | drop =>
    unfold dropSessions
    split
    · exact of (QR.refl p)
    · exact of (QR.closed rfl (show Hs.zeroed ≠ _ from nofun) rfl)
  | send pkt ho ha => exact of (packetSend_qr _ _ _ _)
  | initiation mac who ts sender ip port ho => exact of (peerInitiation_qr _ _ _ _ _ _ _ _)
  | response mac recv auth sender ip port ho hm ha hh hl =>
    obtain ⟨a, b, e, l, nb, op, dr⟩ := peerResponse_qr (co j) d.now (d.kpCtr + 1) p auth sender ip port hh
    rw [e]
    have h1 : opn p = 1 := if_pos hh
    have la : initSessions a ≤ 1 := Nat.le_trans List.countP_le_length l
    refine ⟨⟨fun n => ?_, ?_⟩, ⟨.inl dr⟩⟩
    · rw [List.take_append, initSessions_append, inits_append, h1]
      have e1 : initSessions (a.take n) + initSessions (a.drop n) = initSessions a := by rw [← initSessions_append, List.take_append_drop]
      have e2 : initSessions (b.take (n - a.length)) + initSessions (b.drop (n - a.length)) = initSessions b := by
        rw [← initSessions_append, List.take_append_drop]
      omega
    · rw [initSessions_append, inits_append]
      omega
  | data recv ctr ip port s dec x ho ha hs hx =>
    obtain ⟨h1, h2⟩ := peerData_qr d.now p s ctr ip port dec
    obtain ⟨x1, x2⟩ := inj_none hx
    have hop : opn (peerData d.now p s ctr ip port dec).1 = opn p := by unfold opn; rw [h1]
    refine ⟨Cr.of_qr ?_ ?_, ?_⟩
    · rw [initSessions_append, x1]
      rcases h2 with ⟨e, _⟩ | ⟨e, _⟩ <;> rw [e] <;> rfl
    · rw [hop]; exact Nat.le_add_left ..
    · rcases h2 with ⟨_, e⟩ | ⟨e1, e2, _⟩
      · exact ⟨.inl e⟩
      · exact ⟨.inr (.inr ⟨e2, ⟨_, _, by rw [e1]; exact List.mem_append_left _ List.mem_cons_self⟩, fun t c => by rw [ho] at c; cases c⟩)⟩

theorem about_now (j now : Nat) (es : List (Nat × Ev)) : about j (es.map (fun e => (now, e))) = mineOf j es := by
  unfold about mineOf
  rw [List.filter_map, List.map_map]
  rfl

theorem about_append (j : Nat) (a b : List TEv) : about j (a ++ b) = about j a ++ about j b := by
  unfold about
  rw [List.filter_append, List.map_append]

theorem run_cr (co : Nat → Nat → Nat) (j : Nat) (ops : List Op) : ∀ (d : Dev),
    Cr (peerOf d j) (about j (drun co d ops).2) (peerOf (drun co d ops).1 j) := by
  induction ops with
  | nil => intro d; exact Cr.of_qr rfl (Nat.le_add_left ..)
  | cons o os ih =>
    intro d
    have h1 := (pstep_cr (step_peer co d o j)).1
    have h2 := ih (step co d o).1
    have e : about j (drun co d (o :: os)).2 = mineOf j (step co d o).2 ++ about j (drun co (step co d o).1 os).2 := by
      rw [← about_now j (step co d o).1.now, ← about_append]
      rfl
    rw [e]
    exact h1.trans h2

theorem peerOf_init (j : Nat) : peerOf Dev.init j = Peer.zero := by
  unfold peerOf
  rw [List.getD_eq_getElem?_getD]
  cases h : Dev.init.peers[j]? with
  | none => rfl
  | some p =>
    have hm := List.mem_of_getElem? h
    unfold Dev.init at hm
    rw [(List.mem_replicate.mp hm).2]
    rfl

/-- **C48, a session answers an initiation.** In every history and at every moment of it, a peer has been given no more
sessions as initiator than initiations were sent for it: a response is accepted once, and only in answer to an initiation. -/
theorem responses_answer (co : Nat → Nat → Nat) (ops : List Op) (j : Nat) (a b : List TEv) (h : effects co ops = a ++ b) :
    initSessions (about j a) ≤ inits (about j a) := by
  have h1 := (run_cr co j ops Dev.init).pre (about j a).length
  have e : (drun co Dev.init ops).2 = a ++ b := h
  rw [peerOf_init, e, about_append, List.take_left] at h1
  exact h1

/-- **C48, the session of a message.** A transport message is accepted only by a session of an active peer that has the index
in the message, whose key has not expired and under which the message decrypts. -/
theorem data_by_index (co : Nat → Nat → Nat) (d : Dev) (recv ctr ip port : Nat) (dec : Nat → Option Bytes) (j sid c : Nat)
    (h : (j, Ev.accept sid c) ∈ (step co d (.data recv ctr dec ip port)).2) :
    c = ctr ∧ (peerOf d j).active = true ∧ ∃ s, ((peerOf d j).cur = some s ∨ (peerOf d j).prev = some s ∨ (peerOf d j).next = some s) ∧
      ((peerOf d j).kp s).lIdx = recv ∧ ((peerOf d j).kp s).sid = sid ∧ ((peerOf d j).kp s).rValid = true ∧
      sub64 d.now ((peerOf d j).kp s).rBirth < 180000 ∧ (dec sid).isSome = true := by
  have hm : Ev.accept sid c ∈ mineOf j (step co d (.data recv ctr dec ip port)).2 := by
    unfold mineOf
    rw [List.mem_map]
    exact ⟨_, List.mem_filter.mpr ⟨h, by simp⟩, rfl⟩
  have hp := step_peer co d (.data recv ctr dec ip port) j
  generalize mineOf j (step co d (.data recv ctr dec ip port)).2 = es at hm hp
  generalize peerOf (step co d (.data recv ctr dec ip port)).1 j = p' at hp
  cases hp with
  | none => cases hm
  | cookie => rw [List.mem_singleton] at hm; cases hm
  | poll now ho => cases ho
  | fresh => cases hm
  | drop => cases hm
  | send pkt ho => cases ho
  | initiation mac who ts sender ip port ho => cases ho
  | response mac recv auth sender ip port ho => cases ho
  | data recv' ctr' ip' port' s dec' x ho ha hs hx =>
    cases ho
    rcases List.mem_append.mp hm with hm | hm
    · obtain ⟨_, h2⟩ := peerData_qr d.now (peerOf d j) s ctr ip port dec
      rcases h2 with ⟨e, _⟩ | ⟨e, _, e1, e2, e3⟩
      · rw [e] at hm; cases hm
      · rw [e, List.mem_singleton] at hm
        cases hm
        have hi : ((peerOf d j).kp s).lIdx = recv ∧ ((peerOf d j).cur = some s ∨ (peerOf d j).prev = some s ∨ (peerOf d j).next = some s) := by
          have nx : findKP.findNext (peerOf d j) recv = some s → ((peerOf d j).kp s).lIdx = recv ∧ (peerOf d j).next = some s := by
            intro h
            unfold findKP.findNext at h
            split at h
            · next i hn =>
              split at h
              · next hl => cases h; exact ⟨hl, hn⟩
              · cases h
            · cases h
          have pv : findKP.findPrev (peerOf d j) recv = some s → ((peerOf d j).kp s).lIdx = recv ∧ ((peerOf d j).prev = some s ∨ (peerOf d j).next = some s) := by
            intro h
            unfold findKP.findPrev at h
            split at h
            · next i hn =>
              split at h
              · next hl => cases h; exact ⟨hl, .inl hn⟩
              · exact ⟨(nx h).1, .inr (nx h).2⟩
            · exact ⟨(nx h).1, .inr (nx h).2⟩
          unfold findKP at hs
          split at hs
          · next i hn =>
            split at hs
            · next hl => cases hs; exact ⟨hl, .inl hn⟩
            · exact ⟨(pv hs).1, .inr (pv hs).2⟩
          · exact ⟨(pv hs).1, .inr (pv hs).2⟩
        exact ⟨rfl, ha, s, hi.2, hi.1, rfl, e1, e2, e3⟩
    · obtain ⟨q, e⟩ := hx _ hm
      cases e

theorem run_dr (co : Nat → Nat → Nat) (j : Nat) (ops : List Op) : ∀ (d : Dev),
    (peerOf (drun co d ops).1 j).tDataRecv = (peerOf d j).tDataRecv ∨ (peerOf (drun co d ops).1 j).tDataRecv = 0 ∨
    ∃ s c, ((peerOf (drun co d ops).1 j).tDataRecv, j, Ev.accept s c) ∈ (drun co d ops).2 := by
  induction ops with
  | nil => intro d; exact .inl rfl
  | cons o os ih =>
    intro d
    rcases ih (step co d o).1 with e | e | ⟨s, c, e⟩
    · have hps := step_peer co d o j
      rcases (pstep_cr hps).2.dr with k | k | ⟨k, ⟨s, c, m⟩, np⟩
      · exact .inl (e.trans k)
      · exact .inr (.inl (e.trans k))
      · refine .inr (.inr ⟨s, c, ?_⟩)
        show ((peerOf (drun co (step co d o).1 os).1 j).tDataRecv, j, _) ∈ _
        rw [e, k]
        refine List.mem_append_left _ ?_
        unfold mineOf at m
        rw [List.mem_map] at m
        obtain ⟨⟨i, ev⟩, m1, m2⟩ := m
        rw [List.mem_filter, beq_iff_eq] at m1
        have m3 : i = j := m1.2
        subst m3
        have m2 : ev = .accept s c := m2
        subst m2
        have hn : (step co d o).1.now = d.now := step_now co d o np
        rw [hn]
        exact List.mem_map.2 ⟨_, m1.1, rfl⟩
    · exact .inr (.inl e)
    · exact .inr (.inr ⟨s, c, List.mem_append_right _ e⟩)

/-! ## Keepalives -/

theorem tmPassive_answers (co : Nat → Nat) (now : Nat) (p : Peer) (h : HasKA (tmPassive co now p).2) :
    p.tDataRecv ≠ 0 ∧ sub64 now p.tDataRecv < keepaliveMs := by
  unfold tmPassive at h
  split at h
  · exact absurd h nil_noKA
  split at h
  · exact absurd h nil_noKA
  split at h
  · exact absurd h nil_noKA
  · next hc => exact ⟨fun c => hc (.inl c), by omega⟩

theorem tick_answers (co : Nat → Nat) (now : Nat) (p : Peer) (hi : p.interval = 0) (h : HasKA (tick co now p).2) :
    p.tDataRecv ≠ 0 ∧ sub64 now p.tDataRecv < keepaliveMs := by
  unfold tick at h
  split at h
  · exact absurd h nil_noKA
  dsimp only at h
  have k1 := tmRetransmit_keep co now p
  have hd : (tmRetransmit co now p).1.tDataRecv = p.tDataRecv := by
    unfold tmRetransmit
    split
    · rfl
    split
    · rfl
    split
    · exact (sendHsInit_qr co now p).dr
    · rfl
  have n1 := tmRetransmit_noKA co now p
  generalize tmRetransmit co now p = r1 at *
  have ha := tmPassive_answers co now r1.1
  obtain ⟨k2, _⟩ := tmPassive_spec co now r1.1
  generalize tmPassive co now r1.1 = r2 at *
  have k3 := tmRekey_keep co now r2.1
  have n3 := tmRekey_noKA co now r2.1
  generalize tmRekey co now r2.1 = r3 at *
  have k4 := tmStale_keep co now r3.1
  have n4 := tmStale_noKA co now r3.1
  generalize tmStale co now r3.1 = r4 at *
  have k5 := tmZero_keep now r4.1
  generalize tmZero now r4.1 = r5 at *
  have hi5 : r5.interval = 0 := by
    rw [k5.interval, k4.interval, k3.interval, k2.interval, k1.interval, hi]
  rw [tmPersistent_zero co now r5 hi5] at h
  dsimp only at h
  rw [List.append_nil] at h
  rw [← hd]
  rcases HasKA.append.mp h with c | c
  · rcases HasKA.append.mp c with c | c
    · rcases HasKA.append.mp c with c | c
      · exact absurd c n1
      · exact ha c
    · exact absurd c n3
  · exact absurd c n4

theorem times_le (co : Nat → Nat → Nat) (ops : List Op) : ∀ (d : Dev), d.now < 2 ^ 64 → ClockOk d.now ops →
    d.now ≤ (drun co d ops).1.now ∧ ∀ e ∈ (drun co d ops).2, e.1 ≤ (drun co d ops).1.now := by
  induction ops with
  | nil => intro d _ _; exact ⟨Nat.le_refl _, fun e h => by cases h⟩
  | cons o os ih =>
    intro d hb hc
    obtain ⟨t1, t2, t3, _⟩ := ClockOk.tail (co := co) hb hc
    obtain ⟨h1, h2⟩ := ih (step co d o).1 t2 t3
    refine ⟨Nat.le_trans t1 h1, fun e he => ?_⟩
    rcases List.mem_append.mp he with he | he
    · obtain ⟨x, _, rfl⟩ := List.mem_map.1 he
      exact h1
    · exact h2 e he

/-- **C50, what a keepalive answers.** A peer without a persistent interval gets a keepalive from the timers only when data
from it was accepted less than 10 s before. -/
theorem keepalive_answers_data_partial (co : Nat → Nat → Nat) (pre : List Op) (t j : Nat) (hc : ClockOk 0 (pre ++ [.poll t]))
    (hi : (peerOf (after co pre) j).interval = 0) (h : KeepaliveAt co pre t j) :
    ∃ t0 s c, (t0, j, Ev.accept s c) ∈ effects co pre ∧ t0 ≤ t ∧ t < t0 + 10000 := by
  obtain ⟨h1, h2⟩ := tick_answers (co j) t (peerOf (after co pre) j) hi (poll_ka h)
  have c1 := clock_append co pre _ Dev.init (by decide) hc
  rcases run_dr co j pre Dev.init with e | e | ⟨s, c, e⟩
  · rw [peerOf_init] at e; exact absurd e h1
  · exact absurd e h1
  · have ht := (times_le co pre Dev.init (by decide) c1.1).2 _ e
    have h22 := c1.2.1
    refine ⟨_, s, c, e, Nat.le_trans ht h22.1, ?_⟩
    have ht : (peerOf (drun co Dev.init pre).1 j).tDataRecv ≤ (drun co Dev.init pre).1.now := ht
    have h3 : (drun co Dev.init pre).1.now ≤ t := h22.1
    have h4 : t < 2 ^ 64 := h22.2.1
    have h2 : sub64 t (peerOf (drun co Dev.init pre).1 j).tDataRecv < 10000 := h2
    unfold sub64 at h2
    omega

/-! ## Padding -/

/-- **C102, padding.** A packet handed to the device is sent followed by fewer than 16 zeros, up to a multiple of 16 bytes. -/
theorem padded_to_sixteen (pkt : Bytes) : ∃ n, n < 16 ∧ pad pkt = pkt ++ List.replicate n 0 ∧ (pad pkt).length % 16 = 0 := by
  unfold pad padLen
  refine ⟨_, ?_, rfl, ?_⟩
  · split <;> omega
  · rw [List.length_append, List.length_replicate]
    split <;> omega

/-! ## Concrete cases -/

/-- The demo history has one initiation of ours and one session from it (and one as responder); data is accepted by index; a
keepalive follows data (the example at `keepalive_spacing_partial`). -/
example : inits (about 0 (effects demoCoins demoOps)) = 1 ∧ initSessions (about 0 (effects demoCoins demoOps)) = 1 ∧
    (0, Ev.accept 1 3) ∈ (step demoCoins (after demoCoins (demoOps.take 5)) (.data 1 3 (fun _ => some (demoReply 9)) 77 51820)).2 ∧
    (step demoCoins (after demoCoins (demoOps.take 5)) (.data 2 3 (fun _ => some (demoReply 9)) 77 51820)).2 = [] ∧
    (step demoCoins (after demoCoins (demoOps.take 5)) (.response .valid 1 true 5 77 51820)).2 = [] ∧
    (pad (List.replicate 20 1)).length = 32 := by
  decide +kernel

end Wolf.Wg
