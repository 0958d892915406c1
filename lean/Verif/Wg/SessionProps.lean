import Verif.Wg.History

/-!
# C45, C47, C48: WireGuard sessions over all histories

A history is any list of operations applied to a freshly initialised device, with any clock
values, any packets, any decryption results, any random numbers and any failing crypto calls.
`(drun co Dev.init ops).2` lists the effects of the history, oldest first; an effect is
`(clock, peer, effect)`.
-/

namespace Wolf.Wg

/-- The effects of a history. -/
abbrev effects (co : Nat → Nat → Nat) (ops : List Op) : List TEv := (drun co Dev.init ops).2

/-- The device after a history. -/
abbrev after (co : Nat → Nat → Nat) (ops : List Op) : Dev := (drun co Dev.init ops).1

theorem sub64_lt {t t0 m : Nat} (h : sub64 t t0 < m) (h0 : t0 ≤ t) (ht : t < 2 ^ 64) :
    t < t0 + m := by
  unfold sub64 at h
  omega

theorem effects_ok (co : Nat → Nat → Nat) (ops : List Op) : Ok (effects co ops) :=
  (run_inv co ops).ok

/-- **C47, nonces.**  In every history, whenever two transport messages are encrypted with the
same session key, the later one has a strictly larger nonce. -/
theorem nonce_strictly_increasing (co : Nat → Nat → Nat) (ops : List Op)
    {a m b : List TEv} {sid t t' i i' c c' ip port ip' port' : Nat} {pl pl' : Bytes}
    (h : effects co ops = a ++ (t, i, Ev.enc sid c pl ip port) :: m ++
      (t', i', Ev.enc sid c' pl' ip' port') :: b) : c < c' := by
  have := effects_ok co ops _ _ _ h
  exact this.2.2.2 t i c pl ip port (by simp)

/-- **C47, key age and message limits (sending).**  A message is only encrypted with a key that
was derived for that peer earlier in the history, less than 180 s ago; the nonce is below
2^64 - 1024 - 2, and below 2^60 unless the message is an empty keepalive. -/
theorem send_key_fresh (co : Nat → Nat → Nat) (ops : List Op)
    {a b : List TEv} {sid t i c ip port : Nat} {pl : Bytes}
    (h : effects co ops = a ++ (t, i, Ev.enc sid c pl ip port) :: b) :
    ∃ t0 r, (t0, i, Ev.session sid r) ∈ a ∧ (t0 ≤ t → t < 2 ^ 64 → t < t0 + 180000) ∧
      c < 2 ^ 64 - 1026 ∧ (pl ≠ [] → c < 2 ^ 60) := by
  obtain ⟨⟨t0, r, h1, h2, _⟩, h3, h4, _⟩ := effects_ok co ops _ _ _ h
  exact ⟨t0, r, h1, sub64_lt h2, h3, h4⟩

/-- **C47, key age and message limits (receiving).** -/
theorem recv_key_fresh (co : Nat → Nat → Nat) (ops : List Op)
    {a b : List TEv} {sid t i c : Nat}
    (h : effects co ops = a ++ (t, i, Ev.accept sid c) :: b) :
    ∃ t0 r, (t0, i, Ev.session sid r) ∈ a ∧ (t0 ≤ t → t < 2 ^ 64 → t < t0 + 180000) ∧
      c < 2 ^ 64 - 1026 := by
  obtain ⟨⟨t0, r, h1, h2⟩, h3, _⟩ := effects_ok co ops _ _ _ h
  exact ⟨t0, r, h1, sub64_lt h2, h3⟩

/-- **C47.**  A session key is derived once: no effect before its derivation mentions it. -/
theorem session_derived_once (co : Nat → Nat → Nat) (ops : List Op)
    {a b : List TEv} {sid t i : Nat} {r : Bool}
    (h : effects co ops = a ++ (t, i, Ev.session sid r) :: b) :
    (∀ t' i' r', (t', i', Ev.session sid r') ∉ a) ∧
    (∀ t' i' c pl ip port, (t', i', Ev.enc sid c pl ip port) ∉ a) ∧
    (∀ t' i' c, (t', i', Ev.accept sid c) ∉ a) := by
  have := effects_ok co ops _ _ _ h
  exact ⟨fun _ _ _ hm => this _ hm rfl, fun _ _ _ _ _ _ hm => this _ hm rfl,
    fun _ _ _ hm => this _ hm rfl⟩

/-- **C45 over histories.**  A transport message counter is accepted at most once per session,
whatever handshakes, rotations and replays happen in between. -/
theorem counter_accepted_once (co : Nat → Nat → Nat) (ops : List Op)
    {a b : List TEv} {sid t i c : Nat}
    (h : effects co ops = a ++ (t, i, Ev.accept sid c) :: b) :
    ∀ t' i', (t', i', Ev.accept sid c) ∉ a :=
  (effects_ok co ops _ _ _ h).2.2

/-- **C48, slots.**  After every history, each peer's current, previous and next sessions occupy
different key slots inside the three-slot array. -/
theorem slots_apart (co : Nat → Nat → Nat) (ops : List Op) {i : Nat} {p : Peer}
    (h : (after co ops).peers[i]? = some p) :
    p.slots.length = 3 ∧
    (∀ s, p.cur = some s → s < 3 ∧ p.prev ≠ some s ∧ p.next ≠ some s) ∧
    (∀ s, p.prev = some s → s < 3 ∧ p.next ≠ some s) ∧
    (∀ s, p.next = some s → s < 3) := by
  have w := (run_inv co ops).wf i p.core (cores_get h)
  exact ⟨w.len, fun s hs => ⟨w.cur3 s hs, w.cp s hs, w.cn s hs⟩,
    fun s hs => ⟨w.prev3 s hs, w.pn s hs⟩, w.next3⟩

/-- **C48, live sessions have different keys.**  No two key slots, of the same or of different
peers, hold the same session. -/
theorem sessions_apart (co : Nat → Nat → Nat) (ops : List Op) {i i' s s' : Nat} {p p' : Peer}
    {k k' : KP} (h : (after co ops).peers[i]? = some p) (hk : p.slots[s]? = some k)
    (h' : (after co ops).peers[i']? = some p') (hk' : p'.slots[s']? = some k')
    (hv : k.sValid = true ∨ k.rValid = true) (e : k.sid = k'.sid) : i = i' ∧ s = s' := by
  have hi := run_inv co ops
  refine hi.dist i p.core s k i' p'.core s' k' (cores_get h) hk (cores_get h') hk' e ?_
  intro h0
  have := (hi.slot i p.core s k (cores_get h) hk).zero h0
  rcases hv with hv | hv
  · rw [this.1] at hv; cases hv
  · rw [this.2] at hv; cases hv

/-- **C48, responder.**  If this side answered the handshake of a session, it encrypts with the
session only after having accepted a message on it from that peer. -/
theorem responder_waits (co : Nat → Nat → Nat) (ops : List Op)
    {a b : List TEv} {sid t i c ip port : Nat} {pl : Bytes}
    (h : effects co ops = a ++ (t, i, Ev.enc sid c pl ip port) :: b)
    {t0 i0 : Nat} (hr : (t0, i0, Ev.session sid false) ∈ effects co ops) :
    ∃ t1 c1, (t1, i, Ev.accept sid c1) ∈ a := by
  obtain ⟨⟨t2, r, h1, _, h2⟩, _⟩ := effects_ok co ops _ _ _ h
  cases r with
  | false => exact h2 rfl
  | true =>
    -- the session would have been derived twice
    exfalso
    obtain ⟨x, y, hxy⟩ := List.append_of_mem h1
    have e1 : effects co ops = x ++ (t2, i, Ev.session sid true) ::
        (y ++ (t, i, Ev.enc sid c pl ip port) :: b) := by
      rw [h, hxy]; simp
    obtain ⟨u, v, huv⟩ := List.append_of_mem hr
    have d1 := (session_derived_once co ops e1).1
    have d2 := (session_derived_once co ops huv).1
    rw [e1] at hr huv
    rcases List.mem_append.mp hr with hr | hr
    · exact d1 _ _ _ hr
    · rcases List.mem_cons.mp hr with hr | hr
      · injection hr with _ hr
        injection hr with _ hr
        injection hr with _ hr
        cases hr
      · obtain ⟨v1, v2, hv⟩ := List.append_of_mem hr
        have e2 : effects co ops = (x ++ (t2, i, Ev.session sid true) :: v1) ++
            (t0, i0, Ev.session sid false) :: v2 := by
          rw [e1, hv]; simp
        exact (session_derived_once co ops e2).1 t2 i true (by simp)

/-! ## C48: deriving a session keeps the current one -/

/-- `k'` is the session `k`: everything but the sending counter and the sending-valid flag. -/
def SameSession (k k' : KP) : Prop :=
  k' = { k with sCtr := k'.sCtr, sValid := k'.sValid }

theorem SameSession.refl (k : KP) : SameSession k k := rfl

theorem SameSession.trans {a b c : KP} (h : SameSession a b) (h' : SameSession b c) :
    SameSession a c := by
  unfold SameSession at *
  rw [h', h]

/-- Sending leaves the rotation alone. -/
structure Sends (p q : Peer) : Prop where
  cur : q.cur = p.cur
  prev : q.prev = p.prev
  next : q.next = p.next
  kp : ∀ s, SameSession (p.kp s) (q.kp s)

theorem Sends.refl (p : Peer) : Sends p p := ⟨rfl, rfl, rfl, fun _ => rfl⟩

theorem Sends.trans {a b c : Peer} (h : Sends a b) (h' : Sends b c) : Sends a c :=
  ⟨h'.cur.trans h.cur, h'.prev.trans h.prev, h'.next.trans h.next,
    fun s => (h.kp s).trans (h'.kp s)⟩

theorem Sends.ofCore {p q : Peer} (h : q.core = p.core) : Sends p q := by
  cases p; cases q
  simp only [Peer.core, Core.mk.injEq] at h
  obtain ⟨rfl, rfl, rfl, rfl⟩ := h
  exact ⟨rfl, rfl, rfl, fun _ => rfl⟩

theorem kp_set (p : Peer) (i s : Nat) (k : KP) :
    (p.setKP i k).kp s = if s = i ∧ i < p.slots.length then k else p.kp s := by
  unfold Peer.kp Peer.setKP
  rw [List.getD_eq_getElem?_getD, List.getD_eq_getElem?_getD, List.getElem?_set]
  by_cases h : i = s
  · subst h
    by_cases hl : i < p.slots.length
    · simp [hl]
    · simp [hl]
  · rw [if_neg h, if_neg (fun c => h c.1.symm)]

theorem Sends.set (p : Peer) (i : Nat) (k : KP) (h : SameSession (p.kp i) k) :
    Sends p (p.setKP i k) := by
  refine ⟨rfl, rfl, rfl, fun s => ?_⟩
  rw [kp_set]
  split
  · next hc => rw [hc.1]; exact h
  · exact rfl

theorem packetSend_sends (co : Nat → Nat) (now : Nat) (p : Peer) (pkt : Bytes) :
    Sends p (packetSend co now p pkt).1 := by
  unfold packetSend
  split
  · dsimp only
    split
    · exact Sends.ofCore ((sendInit_core co now _).1.trans (core_stage p pkt))
    · exact Sends.ofCore (core_stage p pkt)
  · next i hi =>
    dsimp only
    split
    · split
      · exact Sends.ofCore ((sendInit_core co now _).1.trans (core_stage p pkt))
      · exact Sends.ofCore (core_stage p pkt)
    · split
      · exact (Sends.set p i { p.kp i with sValid := false } rfl).trans
          (Sends.ofCore (core_stage _ pkt))
      · split
        · exact Sends.refl p
        · split
          · exact Sends.ofCore rfl
          · have h1 : Sends p { ({ p with ptr := p.ptr + 1 } : Peer).setKP i
                { p.kp i with sCtr := (p.kp i).sCtr + 1 } with tDataSent := now } :=
              (Sends.set p i { p.kp i with sCtr := (p.kp i).sCtr + 1 } rfl).trans
                (Sends.ofCore rfl)
            split
            · exact h1.trans (Sends.ofCore (sendInit_core co now _).1)
            · exact h1

theorem drain_sends (co : Nat → Nat) (now : Nat) (n : Nat) : ∀ (i : Nat) (p : Peer),
    Sends p (drain co now i n p).1 := by
  induction n with
  | zero => intro i p; exact Sends.refl p
  | succ n ih =>
    intro i p
    exact ((Sends.ofCore rfl : Sends p { p with staged := p.staged.set i [] }).trans
      (packetSend_sends co now _ _)).trans (ih (i + 1) _)

theorem sendStaged_sends (co : Nat → Nat) (now : Nat) (p : Peer) :
    Sends p (sendStaged co now p).1 :=
  (Sends.ofCore rfl : Sends p { p with nStaged := 0 }).trans (drain_sends co now _ 0 _)

theorem sendKeepalive_sends (co : Nat → Nat) (now : Nat) (p : Peer) :
    Sends p (sendKeepalive co now p).1 := by
  unfold sendKeepalive
  split
  · exact Sends.refl p
  · next i hi =>
    dsimp only
    split
    · exact Sends.refl p
    · split
      · exact Sends.refl p
      · split
        · exact Sends.refl p
        · split
          · exact Sends.ofCore rfl
          · exact (Sends.ofCore rfl : Sends p { p with ptr := p.ptr + 1 }).trans
              (Sends.set _ i _ rfl)

/-- The session that was in use is still held, as current or as previous. -/
def StillHeld (p q : Peer) : Prop :=
  ∀ s, p.cur = some s → ∃ s', (q.cur = some s' ∨ q.prev = some s') ∧
    SameSession (p.kp s) (q.kp s')

theorem StillHeld.of_sends {p q r : Peer} (h : StillHeld p q) (h' : Sends q r) :
    StillHeld p r := by
  intro s hs
  obtain ⟨s', h1, h2⟩ := h s hs
  refine ⟨s', ?_, h2.trans (h'.kp s')⟩
  rw [h'.cur, h'.prev]
  exact h1

theorem Sends.held {p q : Peer} (h : Sends p q) : StillHeld p q := by
  intro s hs
  exact ⟨s, Or.inl (h.cur.trans hs), h.kp s⟩

theorem beginSession_core (co : Nat → Nat) (now sid : Nat) (p : Peer) :
    (beginSession co now sid p).1.core = p.core ∨
    ∃ k, (beginSession co now sid p).1.core = p.core.install k := by
  by_cases hco : co p.ptr = 0
  · left
    unfold beginSession
    split
    · rfl
    · rfl
  · by_cases hh : p.hs ≠ .consumedResp ∧ p.hs ≠ .createdResp
    · left
      unfold beginSession
      rw [if_pos hh]
    · right
      refine ⟨⟨sid, true, true, now, now, 0, Replay.init, p.hsLocal, p.hsRemote,
        decide (p.hs = .consumedResp)⟩, ?_⟩
      unfold beginSession
      rw [if_neg hco]
      clear hco
      revert hh
      rcases p with ⟨_, hs, _, _, cur, prev, next, slots, _⟩
      cases hs <;> cases next <;> intro hh <;>
        first | rfl | exact absurd ⟨(by intro c; cases c), (by intro c; cases c)⟩ hh

theorem install_held (c : Core) (hw : CWf c) (k : KP) (s : Nat) (hs : c.cur = some s) :
    ((c.install k).cur = some s ∨ (c.install k).prev = some s) ∧
      (c.install k).slots[s]? = c.slots[s]? := by
  have hd := hw.dropNext
  obtain ⟨p1, p2, p3⟩ := pick_spec _ hd
  have hdc : c.dropNext.cur = some s := by
    rw [← hs]; unfold Core.dropNext; split <;> rfl
  have hne : c.dropNext.pick ≠ s := by
    intro e; rw [e] at p2; exact p2 hdc
  have hsl : c.dropNext.slots[s]? = c.slots[s]? := by
    unfold Core.dropNext
    split
    · next j hj =>
      have : j ≠ s := by intro e; subst e; exact hw.cn _ hs hj
      exact List.getElem?_set_ne this
    · rfl
  have hsl' : (c.dropNext.slots.set c.dropNext.pick k)[s]? = c.slots[s]? := by
    rw [List.getElem?_set_ne hne, hsl]
  unfold Core.install
  dsimp only
  split
  · exact ⟨Or.inr hdc, hsl'⟩
  · exact ⟨Or.inl hdc, hsl'⟩

theorem beginSession_held (co : Nat → Nat) (now sid : Nat) (p : Peer) (hw : CWf p.core) :
    StillHeld p (beginSession co now sid p).1 := by
  rcases beginSession_core co now sid p with h | ⟨k, h⟩
  · exact (Sends.ofCore h).held
  · intro s hs
    obtain ⟨h1, h2⟩ := install_held p.core hw k s hs
    rw [← h] at h1 h2
    refine ⟨s, h1, ?_⟩
    have : (beginSession co now sid p).1.kp s = p.kp s := by
      unfold Peer.kp
      rw [List.getD_eq_getElem?_getD, List.getD_eq_getElem?_getD]
      exact congrArg (fun o => o.getD KP.zero) h2
    rw [this]
    exact SameSession.refl _

theorem StillHeld.from {p p' q : Peer} (hc : p'.core = p.core) (h : StillHeld p' q) :
    StillHeld p q := by
  intro s hs
  have hcur : p'.cur = some s := (congrArg Core.cur hc).trans hs
  obtain ⟨s', h1, h2⟩ := h s hcur
  refine ⟨s', h1, ?_⟩
  have : p'.kp s = p.kp s := congrArg (fun l : List KP => l.getD s KP.zero) (congrArg Core.slots hc)
  rw [← this]
  exact h2

theorem peerInitiation_held (co : Nat → Nat) (now sid : Nat) (p : Peer) (hw : CWf p.core)
    (ts : Option Nat) (sender ip port : Nat) :
    StillHeld p (peerInitiation co now sid p ts sender ip port).1 := by
  unfold peerInitiation
  split
  · exact (Sends.refl p).held
  · split
    · exact (Sends.refl p).held
    · next t =>
      split
      · exact (Sends.refl p).held
      · dsimp only
        split
        · exact (Sends.ofCore rfl : Sends p _).held
        · generalize hq : ({ p with
              latestTs := t, hsRemote := sender, hs := Hs.createdResp,
              lastInitConsumed := now, epIp := ip, epPort := port,
              ptr := p.ptr + 1, hsLocal := co p.ptr } : Peer) = q
          have hqc : q.core = p.core := by rw [← hq]; rfl
          have h1 := (beginSession_held co now sid q (by rw [hqc]; exact hw)).from hqc
          split
          · exact (h1.of_sends (Sends.ofCore rfl : Sends (beginSession co now sid q).1
              (hsComplete (beginSession co now sid q).1))).of_sends
              (sendStaged_sends co now _)
          · exact h1

theorem afterResponse_held (co : Nat → Nat) (now : Nat) (p : Peer) (r : Peer × List Ev × Bool)
    (h : StillHeld p r.1) : StillHeld p (afterResponse co now r).1 := by
  rcases r with ⟨q, e, ok⟩
  cases ok with
  | false => exact h
  | true =>
    have h1 := (h.of_sends (Sends.ofCore rfl : Sends q (hsComplete q))).of_sends
      (sendStaged_sends co now _)
    unfold afterResponse
    dsimp only
    split
    · exact h1.of_sends (sendKeepalive_sends co now _)
    · exact h1

theorem peerResponse_held (co : Nat → Nat) (now sid : Nat) (p : Peer) (hw : CWf p.core)
    (auth : Bool) (sender ip port : Nat) :
    StillHeld p (peerResponse co now sid p auth sender ip port).1 := by
  unfold peerResponse
  split
  · exact (Sends.refl p).held
  · apply afterResponse_held
    generalize hq : ({ p with
      hsRemote := sender, hs := Hs.consumedResp, epIp := ip,
      epPort := port } : Peer) = q
    have hqc : q.core = p.core := by rw [← hq]; rfl
    exact (beginSession_held co now sid q (by rw [hqc]; exact hw)).from hqc

theorem setPeer_get {d : Dev} {i j : Nat} {p q : Peer}
    (h : (d.setPeer i p).peers[j]? = some q) :
    (j = i ∧ q = p) ∨ d.peers[j]? = some q := by
  unfold Dev.setPeer at h
  dsimp only at h
  rw [List.getElem?_set] at h
  by_cases hs : i = j
  · subst hs
    rw [if_pos rfl] at h
    split at h
    · exact Or.inl ⟨rfl, (Option.some.inj h).symm⟩
    · cases h
  · rw [if_neg hs] at h
    exact Or.inr h

/-- **C48, the current session survives a handshake.**  Whatever handshake message arrives after
any history, the session that was current before is still held afterwards, as the current or the
previous one, with its keys, birth time and replay window untouched (only its own sending may
have advanced the sending counter or closed it for sending). -/
theorem handshake_keeps_current (co : Nat → Nat → Nat) (ops : List Op) (o : Op)
    (ho : (∃ mac who ts sender ip port, o = .initiation mac who ts sender ip port) ∨
      (∃ mac recv auth sender ip port, o = .response mac recv auth sender ip port))
    {i : Nat} {p q : Peer} (hp : (after co ops).peers[i]? = some p)
    (hq : (step co (after co ops) o).1.peers[i]? = some q) : StillHeld p q := by
  have hwf : ∀ (i : Nat) (c : Core), (cores (after co ops))[i]? = some c → CWf c :=
    (run_inv co ops).wf
  generalize after co ops = d at *
  have same : d.peers[i]? = some q → StillHeld p q := by
    intro h
    rw [hp] at h
    rw [← Option.some.inj h]
    exact (Sends.refl p).held
  rcases ho with ⟨mac, who, ts, sender, ip, port, rfl⟩ | ⟨mac, recv, auth, sender, ip, port, rfl⟩
  · simp only [step] at hq
    split at hq
    · exact same hq
    · split at hq
      · exact same hq
      · split at hq
        · exact same hq
        · next j =>
          split at hq
          · exact same hq
          · next pj hpj =>
            split at hq
            · exact same hq
            · rcases setPeer_get hq with ⟨rfl, rfl⟩ | h
              · have e : pj = p := by
                  have : d.peers[i]? = some pj := hpj
                  rw [hp] at this; exact (Option.some.inj this).symm
                subst e
                exact peerInitiation_held _ _ _ pj (hwf i _ (cores_get hp)) _ _ _ _
              · exact same h
  · simp only [step] at hq
    split at hq
    · exact same hq
    · split at hq
      · exact same hq
      · split at hq
        · exact same hq
        · next j hj =>
          rcases setPeer_get hq with ⟨rfl, rfl⟩ | h
          · have e : d.peers.getD i Peer.zero = p := by
              rw [List.getD_eq_getElem?_getD, hp]; rfl
            rw [e]
            exact peerResponse_held _ _ _ p (hwf i _ (cores_get hp)) _ _ _ _
          · exact same h

/-! ## A concrete history

One peer owning 10.0.0.0/8.  We send to it (handshake, then the staged packet goes out), receive
on the session, then the peer starts a handshake and we move to its session once it is used. -/

/-- A 20-byte IPv4 packet from 192.168.0.1 to 10.0.0.`n`. -/
def demoPkt (n : Nat) : Bytes :=
  [0x45, 0, 0, 20, 0, 0, 0, 0, 64, 17, 0, 0, 192, 168, 0, 1, 10, 0, 0, n]

/-- A 20-byte IPv4 packet from 10.0.0.`n`. -/
def demoReply (n : Nat) : Bytes :=
  [0x45, 0, 0, 20, 0, 0, 0, 0, 64, 17, 0, 0, 10, 0, 0, n, 192, 168, 0, 1]

/-- Crypto calls always succeed; the `n`-th random index is `n + 1`. -/
def demoCoins : Nat → Nat → Nat := fun _ n => n + 1

/-- The history. -/
def demoOps : List Op :=
  [.poll 1000, .addPeer 77 51820 0, .addAllowed 0 0x0A000000 8, .output (demoPkt 9),
   .response .valid 1 true 5 77 51820, .data 1 3 (fun _ => some (demoReply 9)) 77 51820,
   .poll 7000, .output (demoPkt 8), .initiation .valid (some 0) (some 44) 6 78 51820,
   .output (demoPkt 7), .data 5 0 (fun _ => some []) 78 51820, .output (demoPkt 6)]

theorem demo_effects : effects demoCoins demoOps =
    [(1000, 0, .init), (1000, 0, .session 1 true),
     (1000, 0, .enc 1 0 (pad (demoPkt 9)) 77 51820), (1000, 0, .accept 1 3),
     (1000, 0, .inject (demoReply 9)), (7000, 0, .enc 1 1 (pad (demoPkt 8)) 77 51820),
     (7000, 0, .consumed 44), (7000, 0, .resp), (7000, 0, .session 2 false),
     (7000, 0, .enc 1 2 (pad (demoPkt 7)) 78 51820), (7000, 0, .accept 2 0),
     (7000, 0, .enc 2 0 (pad (demoPkt 6)) 78 51820)] := by
  decide +kernel

/-- The hypotheses of `nonce_strictly_increasing`, `send_key_fresh`, `recv_key_fresh`,
`session_derived_once`, `counter_accepted_once` and `responder_waits` are met in this history. -/
example : (∃ a m b, effects demoCoins demoOps =
      a ++ (1000, 0, Ev.enc 1 0 (pad (demoPkt 9)) 77 51820) :: m ++
        (7000, 0, Ev.enc 1 2 (pad (demoPkt 7)) 78 51820) :: b) ∧
    (∃ a b, effects demoCoins demoOps = a ++ (7000, 0, Ev.accept 2 0) :: b) ∧
    (∃ a b, effects demoCoins demoOps =
      a ++ (7000, 0, Ev.enc 2 0 (pad (demoPkt 6)) 78 51820) :: b) ∧
    (7000, 0, Ev.session 2 false) ∈ effects demoCoins demoOps := by
  rw [demo_effects]
  refine ⟨⟨[_, _], [_, _, _, _, _, _], [_, _], rfl⟩, ⟨[_, _, _, _, _, _, _, _, _, _], [_], rfl⟩,
    ⟨[_, _, _, _, _, _, _, _, _, _, _], [], rfl⟩, by simp⟩

/-- After this history the peer holds a current and a previous session, and before the handshake
message it had a current one. -/
example : ((after demoCoins demoOps).peers.head?.map (fun p => (p.cur, p.prev, p.next))) =
      some (some 1, some 0, none) ∧
    ((after demoCoins (demoOps.take 8)).peers.head?.map (fun p => (p.cur, p.prev, p.next))) =
      some (some 0, none, none) := by
  decide +kernel

end Wolf.Wg
