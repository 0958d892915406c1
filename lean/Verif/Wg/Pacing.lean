import Verif.Wg.Once

/-!
# C50, C64, C65: keepalive pacing, handshake pacing, handshake replay
-/

namespace Wolf.Wg

/-- The peer's long-lived bookkeeping is untouched, and no initiation is accepted. -/
structure Keep (p q : Peer) (es : List Ev) : Prop where
  ts : q.latestTs = p.latestTs
  lastInit : q.lastInitConsumed = p.lastInitConsumed
  active : q.active = p.active
  interval : q.interval = p.interval
  noInit : ∀ e ∈ es, ∀ t, e ≠ Ev.consumed t

/-- … and neither is the keepalive clock. -/
structure KeepK (p q : Peer) (es : List Ev) : Prop extends Keep p q es where
  ka : q.tKeepalive = p.tKeepalive

theorem KeepK.refl (p : Peer) : KeepK p p [] :=
  { ts := rfl, lastInit := rfl, active := rfl, interval := rfl, ka := rfl,
    noInit := fun e h => by cases h }

theorem Keep.trans {p q r : Peer} {es es' : List Ev} (h : Keep p q es) (h' : Keep q r es') :
    Keep p r (es ++ es') :=
  ⟨h'.ts.trans h.ts, h'.lastInit.trans h.lastInit, h'.active.trans h.active,
    h'.interval.trans h.interval, fun e he => (List.mem_append.mp he).elim (h.noInit e) (h'.noInit e)⟩

theorem KeepK.trans {p q r : Peer} {es es' : List Ev} (h : KeepK p q es) (h' : KeepK q r es') :
    KeepK p r (es ++ es') :=
  { toKeep := h.toKeep.trans h'.toKeep, ka := h'.ka.trans h.ka }

/-- Changes that do not concern the bookkeeping. -/
theorem KeepK.of {p q : Peer} {es : List Ev} (h : q.latestTs = p.latestTs ∧
    q.lastInitConsumed = p.lastInitConsumed ∧ q.active = p.active ∧ q.interval = p.interval ∧
    q.tKeepalive = p.tKeepalive) (hn : ∀ e ∈ es, ∀ t, e ≠ Ev.consumed t) : KeepK p q es :=
  { ts := h.1, lastInit := h.2.1, active := h.2.2.1, interval := h.2.2.2.1, ka := h.2.2.2.2,
    noInit := hn }

theorem noInit_nil : ∀ e ∈ ([] : List Ev), ∀ t, e ≠ Ev.consumed t := fun e h => by cases h

theorem noInit_one {x : Ev} (h : ∀ t, x ≠ Ev.consumed t) : ∀ e ∈ [x], ∀ t, e ≠ Ev.consumed t := by
  intro e he
  rw [List.mem_singleton] at he
  rw [he]
  exact h

theorem sendInit_keep (co : Nat → Nat) (now : Nat) (p : Peer) :
    KeepK p (sendInit co now p).1 (sendInit co now p).2 := by
  unfold sendInit createInit
  by_cases h : co p.ptr = 0
  · simp only [h, if_true]
    exact KeepK.of ⟨rfl, rfl, rfl, rfl, rfl⟩ noInit_nil
  · simp only [h, if_false]
    exact KeepK.of ⟨rfl, rfl, rfl, rfl, rfl⟩ (noInit_one (fun t c => by cases c))

theorem stage_keep (p : Peer) (pkt : Bytes) : KeepK p (stage p pkt) [] := by
  unfold stage
  split
  · exact KeepK.refl p
  · exact KeepK.of ⟨rfl, rfl, rfl, rfl, rfl⟩ noInit_nil

theorem packetSend_keep (co : Nat → Nat) (now : Nat) (p : Peer) (pkt : Bytes) :
    KeepK p (packetSend co now p pkt).1 (packetSend co now p pkt).2 := by
  unfold packetSend
  split
  · dsimp only
    split
    · exact (stage_keep p pkt).trans (sendInit_keep co now _)
    · exact stage_keep p pkt
  · next i hi =>
    dsimp only
    split
    · split
      · exact (stage_keep p pkt).trans (sendInit_keep co now _)
      · exact stage_keep p pkt
    · split
      · have h0 : KeepK p (p.setKP i { p.kp i with sValid := false }) [] :=
          KeepK.of ⟨rfl, rfl, rfl, rfl, rfl⟩ noInit_nil
        exact h0.trans (stage_keep _ pkt)
      · split
        · exact KeepK.refl p
        · split
          · exact KeepK.of ⟨rfl, rfl, rfl, rfl, rfl⟩ noInit_nil
          · have h1 : KeepK p { ({ p with ptr := p.ptr + 1 } : Peer).setKP i
                { p.kp i with sCtr := (p.kp i).sCtr + 1 } with tDataSent := now }
                [.enc (p.kp i).sid (p.kp i).sCtr (pad pkt) p.epIp p.epPort] :=
              KeepK.of ⟨rfl, rfl, rfl, rfl, rfl⟩ (noInit_one (fun t c => by cases c))
            split
            · exact h1.trans (sendInit_keep co now _)
            · exact h1

theorem drain_keep (co : Nat → Nat) (now : Nat) (n : Nat) : ∀ (i : Nat) (p : Peer),
    KeepK p (drain co now i n p).1 (drain co now i n p).2 := by
  induction n with
  | zero => intro i p; exact KeepK.refl p
  | succ n ih =>
    intro i p
    exact (((KeepK.of ⟨rfl, rfl, rfl, rfl, rfl⟩ noInit_nil :
      KeepK p { p with staged := p.staged.set i [] } []).trans
      (packetSend_keep co now _ _)).trans (ih (i + 1) _))

theorem sendStaged_keep (co : Nat → Nat) (now : Nat) (p : Peer) :
    KeepK p (sendStaged co now p).1 (sendStaged co now p).2 :=
  (KeepK.of ⟨rfl, rfl, rfl, rfl, rfl⟩ noInit_nil : KeepK p { p with nStaged := 0 } []).trans
    (drain_keep co now _ 0 _)

theorem sendKeepalive_keep (co : Nat → Nat) (now : Nat) (p : Peer) :
    KeepK p (sendKeepalive co now p).1 (sendKeepalive co now p).2 := by
  unfold sendKeepalive
  split
  · exact KeepK.refl p
  · dsimp only
    split
    · exact KeepK.refl p
    · split
      · exact KeepK.refl p
      · split
        · exact KeepK.refl p
        · split
          · exact KeepK.of ⟨rfl, rfl, rfl, rfl, rfl⟩ noInit_nil
          · exact KeepK.of ⟨rfl, rfl, rfl, rfl, rfl⟩ (noInit_one (fun t c => by cases c))

theorem beginSession_keep (co : Nat → Nat) (now sid : Nat) (p : Peer) :
    KeepK p (beginSession co now sid p).1 (beginSession co now sid p).2.1 := by
  unfold beginSession
  split
  · exact KeepK.refl p
  · split
    · exact KeepK.of ⟨rfl, rfl, rfl, rfl, rfl⟩ noInit_nil
    · rcases p with ⟨_, hs, _, _, cur, prev, next, slots, _⟩
      cases hs <;> cases next <;>
        exact KeepK.of ⟨rfl, rfl, rfl, rfl, rfl⟩ (noInit_one (fun t c => by cases c))

theorem sendHsInit_keep (co : Nat → Nat) (now : Nat) (p : Peer) :
    KeepK p (sendHsInit co now p).1 (sendHsInit co now p).2 :=
  (KeepK.of ⟨rfl, rfl, rfl, rfl, rfl⟩ noInit_nil : KeepK p (resetHs p) []).trans
    (sendInit_keep co now (resetHs p))

theorem afterResponse_keep (co : Nat → Nat) (now : Nat) (p : Peer) (r : Peer × List Ev × Bool)
    (h : KeepK p r.1 r.2.1) : KeepK p (afterResponse co now r).1 (afterResponse co now r).2.1 := by
  rcases r with ⟨q, e, ok⟩
  cases ok with
  | false => exact h
  | true =>
    have h0 := h.trans (KeepK.of ⟨rfl, rfl, rfl, rfl, rfl⟩ noInit_nil : KeepK q (hsComplete q) [])
    rw [List.append_nil] at h0
    have h1 := h0.trans (sendStaged_keep co now _)
    unfold afterResponse
    dsimp only
    split
    · exact h1.trans (sendKeepalive_keep co now _)
    · exact h1

theorem peerResponse_keep (co : Nat → Nat) (now sid : Nat) (p : Peer) (auth : Bool)
    (sender ip port : Nat) :
    KeepK p (peerResponse co now sid p auth sender ip port).1
      (peerResponse co now sid p auth sender ip port).2.1 := by
  unfold peerResponse
  split
  · exact KeepK.refl p
  · apply afterResponse_keep
    generalize hq : ({ p with
      hsRemote := sender, hs := Hs.consumedResp, epIp := ip,
      epPort := port } : Peer) = q
    have h0 : KeepK p q [] := by subst hq; exact KeepK.of ⟨rfl, rfl, rfl, rfl, rfl⟩ noInit_nil
    exact h0.trans (beginSession_keep co now sid q)

theorem promote_keep (p : Peer) (i : Nat) : KeepK p (promote p i) [] := by
  rcases p with ⟨_, hs, _, _, cur, prev, next, slots, _⟩
  unfold promote
  split
  · cases prev <;> exact KeepK.of ⟨rfl, rfl, rfl, rfl, rfl⟩ noInit_nil
  · exact KeepK.of ⟨rfl, rfl, rfl, rfl, rfl⟩ noInit_nil

theorem peerData_keep (now : Nat) (p : Peer) (i ctr ip port : Nat) (dec : Nat → Option Bytes) :
    KeepK p (peerData now p i ctr ip port dec).1 (peerData now p i ctr ip port dec).2.1 := by
  unfold peerData
  dsimp only
  split
  · exact KeepK.refl p
  · split
    · exact KeepK.refl p
    · split
      · exact KeepK.refl p
      · split
        · exact KeepK.refl p
        · split
          · exact KeepK.of ⟨rfl, rfl, rfl, rfl, rfl⟩ noInit_nil
          · have h1 := promote_keep (p.setKP i
                { p.kp i with replay := (validate (p.kp i).replay ctr).1 }) i
            exact KeepK.of ⟨h1.ts, h1.lastInit, h1.active, h1.interval, h1.ka⟩
              (noInit_one (fun t c => by cases c))

theorem tmRetransmit_keep (co : Nat → Nat) (now : Nat) (p : Peer) :
    KeepK p (tmRetransmit co now p).1 (tmRetransmit co now p).2 := by
  unfold tmRetransmit
  split
  · exact KeepK.refl p
  · split
    · exact KeepK.of ⟨rfl, rfl, rfl, rfl, rfl⟩ noInit_nil
    · split
      · exact sendHsInit_keep co now p
      · exact KeepK.refl p

theorem newJitter_keep (co : Nat → Nat) (p : Peer) : KeepK p (newJitter co p) [] :=
  KeepK.of ⟨rfl, rfl, rfl, rfl, rfl⟩ noInit_nil

theorem tmRekey_keep (co : Nat → Nat) (now : Nat) (p : Peer) :
    KeepK p (tmRekey co now p).1 (tmRekey co now p).2 := by
  unfold tmRekey
  split
  · exact KeepK.refl p
  · split
    · exact KeepK.refl p
    · split
      · exact KeepK.refl p
      · exact (newJitter_keep co p).trans (sendHsInit_keep co now _)

theorem tmStale_keep (co : Nat → Nat) (now : Nat) (p : Peer) :
    KeepK p (tmStale co now p).1 (tmStale co now p).2 := by
  unfold tmStale
  split
  · exact KeepK.refl p
  · split
    · exact KeepK.refl p
    · split
      · exact KeepK.refl p
      · exact (newJitter_keep co p).trans (sendHsInit_keep co now _)

theorem tmZero_keep (now : Nat) (p : Peer) : KeepK p (tmZero now p) [] := by
  unfold tmZero
  split
  · exact KeepK.refl p
  · split
    · exact KeepK.refl p
    · exact KeepK.of ⟨rfl, rfl, rfl, rfl, rfl⟩ noInit_nil

theorem dropSessions_keep (p : Peer) : KeepK p (dropSessions p) [] := by
  unfold dropSessions
  split
  · exact KeepK.refl p
  · exact KeepK.of ⟨rfl, rfl, rfl, rfl, rfl⟩ noInit_nil

/-! ### Keepalives in one timer pass -/

/-- A keepalive among some effects. -/
def HasKA (es : List Ev) : Prop := ∃ sid c ip port, Ev.enc sid c [] ip port ∈ es

theorem HasKA.append {a b : List Ev} : HasKA (a ++ b) ↔ HasKA a ∨ HasKA b := by
  unfold HasKA
  constructor
  · rintro ⟨s, c, i, p, h⟩
    rcases List.mem_append.mp h with h | h
    · exact Or.inl ⟨s, c, i, p, h⟩
    · exact Or.inr ⟨s, c, i, p, h⟩
  · rintro (⟨s, c, i, p, h⟩ | ⟨s, c, i, p, h⟩)
    · exact ⟨s, c, i, p, List.mem_append_left _ h⟩
    · exact ⟨s, c, i, p, List.mem_append_right _ h⟩

theorem own_noKA {es : List Ev} (h : ∀ e ∈ es, Ev.own e) : ¬ HasKA es := by
  rintro ⟨s, c, i, p, hm⟩
  exact absurd (h _ hm) id

theorem sendHsInit_noKA (co : Nat → Nat) (now : Nat) (p : Peer) :
    ¬ HasKA (sendHsInit co now p).2 := own_noKA (sendInit_core co now (resetHs p)).2

theorem nil_noKA : ¬ HasKA [] := by rintro ⟨_, _, _, _, h⟩; cases h

theorem tmRetransmit_noKA (co : Nat → Nat) (now : Nat) (p : Peer) :
    ¬ HasKA (tmRetransmit co now p).2 := by
  unfold tmRetransmit
  split
  · exact nil_noKA
  · split
    · exact nil_noKA
    · split
      · exact sendHsInit_noKA co now p
      · exact nil_noKA

theorem tmRekey_noKA (co : Nat → Nat) (now : Nat) (p : Peer) : ¬ HasKA (tmRekey co now p).2 := by
  unfold tmRekey
  split
  · exact nil_noKA
  · split
    · exact nil_noKA
    · split
      · exact nil_noKA
      · exact sendHsInit_noKA co now _

theorem tmStale_noKA (co : Nat → Nat) (now : Nat) (p : Peer) : ¬ HasKA (tmStale co now p).2 := by
  unfold tmStale
  split
  · exact nil_noKA
  · split
    · exact nil_noKA
    · split
      · exact nil_noKA
      · exact sendHsInit_noKA co now _

/-- The passive keepalive: sent only when the previous timer keepalive is at least 10 s old, and
then the keepalive clock is set. -/
theorem tmPassive_spec (co : Nat → Nat) (now : Nat) (p : Peer) :
    Keep p (tmPassive co now p).1 (tmPassive co now p).2 ∧
    ((tmPassive co now p).1.tKeepalive = p.tKeepalive ∧ ¬ HasKA (tmPassive co now p).2 ∨
     (tmPassive co now p).1.tKeepalive = now ∧
      (p.tKeepalive = 0 ∨ keepaliveMs ≤ sub64 now p.tKeepalive)) := by
  unfold tmPassive
  split
  · exact ⟨(KeepK.refl p).toKeep, Or.inl ⟨rfl, nil_noKA⟩⟩
  · split
    · exact ⟨(KeepK.refl p).toKeep, Or.inl ⟨rfl, nil_noKA⟩⟩
    · split
      · exact ⟨(KeepK.refl p).toKeep, Or.inl ⟨rfl, nil_noKA⟩⟩
      · split
        · exact ⟨(KeepK.refl p).toKeep, Or.inl ⟨rfl, nil_noKA⟩⟩
        · split
          · exact ⟨(KeepK.refl p).toKeep, Or.inl ⟨rfl, nil_noKA⟩⟩
          · next hk =>
            have h := sendKeepalive_keep co now p
            refine ⟨⟨h.ts, h.lastInit, h.active, h.interval, h.noInit⟩, Or.inr ⟨rfl, ?_⟩⟩
            by_cases h0 : p.tKeepalive = 0
            · exact Or.inl h0
            · right
              have : ¬ sub64 now p.tKeepalive < keepaliveMs := fun c => hk ⟨h0, c⟩
              omega

theorem tmPersistent_zero (co : Nat → Nat) (now : Nat) (p : Peer) (h : p.interval = 0) :
    tmPersistent co now p = (p, []) := by
  unfold tmPersistent
  split
  · rfl
  · rw [if_pos (Or.inl h)]

theorem tmPersistent_keep (co : Nat → Nat) (now : Nat) (p : Peer) :
    Keep p (tmPersistent co now p).1 (tmPersistent co now p).2 := by
  unfold tmPersistent
  split
  · exact (KeepK.refl p).toKeep
  · split
    · exact (KeepK.refl p).toKeep
    · split
      · exact (KeepK.refl p).toKeep
      · have h := sendKeepalive_keep co now p
        exact ⟨h.ts, h.lastInit, h.active, h.interval, h.noInit⟩

theorem tick_keep (co : Nat → Nat) (now : Nat) (p : Peer) :
    Keep p (tick co now p).1 (tick co now p).2 := by
  unfold tick
  split
  · exact (KeepK.refl p).toKeep
  · have h1 := (tmRetransmit_keep co now p).toKeep
    have h2 := h1.trans (tmPassive_spec co now _).1
    have h3 := h2.trans (tmRekey_keep co now _).toKeep
    have h4 := h3.trans (tmStale_keep co now _).toKeep
    have h5 := h4.trans (tmZero_keep now _).toKeep
    rw [List.append_nil] at h5
    exact h5.trans (tmPersistent_keep co now _)

/-- One timer pass without a persistent keepalive interval. -/
theorem tick_spec (co : Nat → Nat) (now : Nat) (p : Peer) (hi : p.interval = 0) :
    (tick co now p).1.tKeepalive = p.tKeepalive ∧ ¬ HasKA (tick co now p).2 ∨
    (tick co now p).1.tKeepalive = now ∧
      (p.tKeepalive = 0 ∨ keepaliveMs ≤ sub64 now p.tKeepalive) := by
  unfold tick
  split
  · exact Or.inl ⟨rfl, nil_noKA⟩
  · dsimp only
    have k1 := tmRetransmit_keep co now p
    generalize hr1 : tmRetransmit co now p = r1 at *
    have n1 : ¬ HasKA r1.2 := by rw [← hr1]; exact tmRetransmit_noKA co now p
    obtain ⟨k2, s2⟩ := tmPassive_spec co now r1.1
    generalize tmPassive co now r1.1 = r2 at *
    have k3 := tmRekey_keep co now r2.1
    have n3 := tmRekey_noKA co now r2.1
    generalize tmRekey co now r2.1 = r3 at *
    have k4 := tmStale_keep co now r3.1
    have n4 := tmStale_noKA co now r3.1
    generalize tmStale co now r3.1 = r4 at *
    have k5 := tmZero_keep now r4.1
    generalize tmZero now r4.1 = r5 at *
    have hi5 : r5.interval = 0 := by
      rw [k5.interval, k4.interval, k3.interval, k2.interval, k1.interval, hi]
    rw [tmPersistent_zero co now r5 hi5]
    dsimp only
    have hk : r5.tKeepalive = r2.1.tKeepalive := by rw [k5.ka, k4.ka, k3.ka]
    rw [hk]
    rcases s2 with ⟨a, b⟩ | ⟨a, b⟩
    · left
      refine ⟨a.trans k1.ka, ?_⟩
      intro c
      rw [List.append_nil] at c
      rcases HasKA.append.mp c with c | c
      · rcases HasKA.append.mp c with c | c
        · rcases HasKA.append.mp c with c | c
          · exact n1 c
          · exact b c
        · exact n3 c
      · exact n4 c
    · right
      rw [k1.ka] at b
      exact ⟨a, b⟩

end Wolf.Wg
