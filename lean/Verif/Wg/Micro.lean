import Verif.Wg.Device

/-!
# Session micro-steps

Proof device: everything any operation does to a peer's session keys is a sequence of the
micro-steps of `Mic`.  This file proves that; `Verif.Wg.Sessions` then proves the properties
by induction over micro-steps.
-/

namespace Wolf.Wg

/-- The part of a peer that holds session keys. -/
structure Core where
  cur : Option Nat
  prev : Option Nat
  next : Option Nat
  slots : List KP

/-- Session part of a peer. -/
def Peer.core (p : Peer) : Core := ⟨p.cur, p.prev, p.next, p.slots⟩

/-- No session. -/
def Core.empty : Core := ⟨none, none, none, List.replicate 3 KP.zero⟩

/-- Slot search on the session part. -/
def Core.pick (c : Core) : Nat :=
  if c.cur ≠ some 0 ∧ c.prev ≠ some 0 then 0
  else if c.cur ≠ some 1 ∧ c.prev ≠ some 1 then 1
  else if c.cur ≠ some 2 ∧ c.prev ≠ some 2 then 2
  else match c.prev with
    | some i => i
    | none => 0

/-- Discard the unconfirmed session. -/
def Core.dropNext (c : Core) : Core :=
  match c.next with
  | some i => { c with slots := c.slots.set i KP.zero, next := none }
  | none => c

/-- Install a new session. -/
def Core.install (c : Core) (k : KP) : Core :=
  let c := c.dropNext
  let s := c.pick
  let c := { c with slots := c.slots.set s k }
  if k.isInit = true then { c with prev := c.cur, cur := some s } else { c with next := some s }

/-- Confirm the session in slot `i` if it is the unconfirmed one. -/
def Core.promote (c : Core) (i : Nat) : Core :=
  if c.next = some i then
    let c := match c.prev with
      | some j => { c with slots := c.slots.set j KP.zero }
      | none => c
    { c with prev := c.cur, cur := some i, next := none }
  else c

/-- Effects that do not involve session keys. -/
def Ev.quiet : Ev → Prop
  | .init | .resp | .inject _ | .consumed _ | .cookieReply => True
  | _ => False

/-- Effects other than those involving session keys and the injection of packets. -/
def Ev.own : Ev → Prop
  | .init | .resp | .consumed _ | .cookieReply => True
  | _ => False

theorem Ev.own.quiet {e : Ev} (h : e.own) : e.quiet := by
  cases e <;> first | trivial | exact h

/-- Micro-steps at clock `now` when `n` sessions have been created so far. -/
inductive Mic (now n : Nat) : Core → Option Ev → Core → Prop
  | quiet (c e) (h : Ev.own e) : Mic now n c (some e) c
  | enc (c i k pl ip port) (hc : c.cur = some i) (hk : c.slots[i]? = some k)
      (hv : k.sValid = true) (hl : k.sCtr < rejectAfter)
      (hl' : pl ≠ [] → k.sCtr < rekeyMsgs) (ha : sub64 now k.sBirth < rejectMs) :
      Mic now n c (some (.enc k.sid k.sCtr pl ip port))
        { c with slots := c.slots.set i { k with sCtr := k.sCtr + 1 } }
  | invalidate (c i k) (hc : c.cur = some i) (hk : c.slots[i]? = some k) :
      Mic now n c none { c with slots := c.slots.set i { k with sValid := false } }
  | session (c k) (hs : k.sid = n + 1) (hb : k.sBirth = now) (hr : k.rBirth = now)
      (h0 : k.sCtr = 0) (hre : k.replay = Replay.init) :
      Mic now n c (some (.session k.sid k.isInit)) (c.install k)
  | clear (c) : Mic now n c none Core.empty
  | refuse (c i k ctr) (hk : c.slots[i]? = some k) (hf : (validate k.replay ctr).2 = false) :
      Mic now n c none
        { c with slots := c.slots.set i { k with replay := (validate k.replay ctr).1 } }
  | accept (c i k ctr) (hp : c.cur = some i ∨ c.prev = some i ∨ c.next = some i)
      (hk : c.slots[i]? = some k) (hv : k.rValid = true)
      (ha : sub64 now k.rBirth < rejectMs) (hf : (validate k.replay ctr).2 = true) :
      Mic now n c (some (.accept k.sid ctr))
        (({ c with slots := c.slots.set i { k with replay := (validate k.replay ctr).1 } } :
          Core).promote i)

/-- Number of sessions after an effect. -/
def bump (n : Nat) : Option Ev → Nat
  | some (.session _ _) => n + 1
  | _ => n

/-- Sequences of micro-steps of one peer. -/
inductive MS (now : Nat) : Core → Nat → List Ev → Core → Nat → Prop
  | refl (c n) : MS now c n [] c n
  | cons {c n e c' es c'' n''} (h : Mic now n c e c') (t : MS now c' (bump n e) es c'' n'') :
      MS now c n (e.toList ++ es) c'' n''

theorem MS.trans {now : Nat} {c n es c' n' es' c'' n''} (h : MS now c n es c' n')
    (h' : MS now c' n' es' c'' n'') : MS now c n (es ++ es') c'' n'' := by
  induction h with
  | refl => exact h'
  | cons hm _ ih => rw [List.append_assoc]; exact MS.cons hm (ih h')

theorem MS.one {now : Nat} {c n e c'} (h : Mic now n c e c') :
    MS now c n e.toList c' (bump n e) := by
  have := MS.cons h (MS.refl (now := now) c' (bump n e))
  rwa [List.append_nil] at this

/-- No micro-step hands a packet to the stack. -/
theorem MS.noInject {now : Nat} {c n es c' n'} (h : MS now c n es c' n') :
    ∀ e ∈ es, ∀ q, e ≠ Ev.inject q := by
  induction h with
  | refl => intro e he; cases he
  | cons hm _ ih =>
    intro e he q
    rcases List.mem_append.mp he with he | he
    · intro c
      subst c
      cases hm with
      | quiet ev ho =>
        simp only [Option.toList_some, List.mem_singleton] at he
        subst he
        exact ho
      | enc => simp at he
      | session => simp at he
      | accept => simp at he
      | invalidate => simp at he
      | clear => simp at he
      | refuse => simp at he
    · exact ih e he q

/-- Only the session part matters. -/
theorem MS.quiets {now : Nat} (c : Core) (n : Nat) (es : List Ev) (h : ∀ e ∈ es, Ev.own e) :
    MS now c n es c n := by
  induction es with
  | nil => exact MS.refl _ _
  | cons e es ih =>
    have h1 := h e List.mem_cons_self
    have hm : Mic now n c (some e) c := Mic.quiet c e h1
    have hb : bump n (some e) = n := by
      cases e <;> first | rfl | exact absurd h1 id
    have ih' := ih (fun e he => h e (List.mem_cons_of_mem _ he))
    exact MS.cons (c' := c) hm (by rw [hb]; exact ih')

/-! ## Peer functions as micro-steps -/

@[simp] theorem core_stage (p : Peer) (pkt : Bytes) : (stage p pkt).core = p.core := by
  unfold stage; split <;> rfl

theorem createInit_core (co : Nat → Nat) (p : Peer) : (createInit co p).1.core = p.core := by
  unfold createInit; split <;> rfl

theorem sendInit_core (co : Nat → Nat) (now : Nat) (p : Peer) :
    (sendInit co now p).1.core = p.core ∧ ∀ e ∈ (sendInit co now p).2, Ev.own e := by
  have h := createInit_core co p
  unfold sendInit
  split
  next q ok heq =>
    rw [heq] at h
    split
    · exact ⟨h, by intro e he; simp at he; subst he; trivial⟩
    · exact ⟨h, by intro e he; simp at he⟩

theorem sendInit_ms (co : Nat → Nat) (now n : Nat) (p : Peer) :
    MS now p.core n (sendInit co now p).2 (sendInit co now p).1.core n := by
  obtain ⟨h1, h2⟩ := sendInit_core co now p
  rw [h1]
  exact MS.quiets _ _ _ h2

theorem kp_get {p : Peer} {i : Nat} (h : (p.kp i).sValid = true ∨ (p.kp i).rValid = true) :
    p.slots[i]? = some (p.kp i) := by
  unfold Peer.kp at *
  rw [List.getD_eq_getElem?_getD] at *
  cases hs : p.slots[i]? with
  | none => rw [hs] at h; rcases h with h | h <;> cases h
  | some k => rfl

theorem rekey_lt : rekeyMsgs < rejectAfter := by decide

theorem packetSend_ms (co : Nat → Nat) (now n : Nat) (p : Peer) (pkt : Bytes) :
    MS now p.core n (packetSend co now p pkt).2 (packetSend co now p pkt).1.core n := by
  have idle : MS now p.core n
      (if (stage p pkt).hs = .zeroed then sendInit co now (stage p pkt) else (stage p pkt, [])).2
      (if (stage p pkt).hs = .zeroed then sendInit co now (stage p pkt)
        else (stage p pkt, [])).1.core n := by
    split
    · have := sendInit_ms co now n (stage p pkt)
      rwa [core_stage] at this
    · rw [core_stage]; exact MS.refl _ _
  unfold packetSend
  split
  · exact idle
  · next i hc =>
    dsimp only
    by_cases hv : (p.kp i).sValid = false
    · rw [if_pos hv]; exact idle
    · rw [if_neg hv]
      have hv' : (p.kp i).sValid = true := by simpa using hv
      have hg := kp_get (Or.inl hv')
      by_cases hl : (p.kp i).sCtr ≥ rekeyMsgs ∨ sub64 now (p.kp i).sBirth ≥ rejectMs
      · rw [if_pos hl, core_stage]
        exact MS.one (Mic.invalidate p.core i (p.kp i) hc hg)
      · rw [if_neg hl]
        have hl1 : (p.kp i).sCtr < rekeyMsgs := by omega
        have hl2 : sub64 now (p.kp i).sBirth < rejectMs := by omega
        split
        · exact MS.refl _ _
        · split
          · exact MS.refl _ _
          · have henc := Mic.enc (now := now) (n := n) p.core i (p.kp i) (pad pkt) p.epIp p.epPort
              hc hg hv' (by have := rekey_lt; omega) (fun _ => hl1) hl2
            split
            · have h2 := sendInit_ms co now n
                ({ ({ p with ptr := p.ptr + 1 } : Peer).setKP i
                  { p.kp i with sCtr := (p.kp i).sCtr + 1 } with tDataSent := now })
              exact MS.cons henc h2
            · exact MS.one henc

theorem drain_ms (co : Nat → Nat) (now m : Nat) (n : Nat) : ∀ (i : Nat) (p : Peer),
    MS now p.core m (drain co now i n p).2 (drain co now i n p).1.core m := by
  induction n with
  | zero => intro i p; exact MS.refl _ _
  | succ n ih =>
    intro i p
    have h1 := packetSend_ms co now m { p with staged := p.staged.set i [] } (p.staged.getD i [])
    have h2 := ih (i + 1)
      (packetSend co now { p with staged := p.staged.set i [] } (p.staged.getD i [])).1
    exact MS.trans h1 h2

theorem sendStaged_ms (co : Nat → Nat) (now n : Nat) (p : Peer) :
    MS now p.core n (sendStaged co now p).2 (sendStaged co now p).1.core n :=
  drain_ms co now n p.nStaged 0 { p with nStaged := 0 }

theorem sendKeepalive_ms (co : Nat → Nat) (now n : Nat) (p : Peer) :
    MS now p.core n (sendKeepalive co now p).2 (sendKeepalive co now p).1.core n := by
  unfold sendKeepalive
  split
  · exact MS.refl _ _
  · next i hc =>
    dsimp only
    by_cases hv : (p.kp i).sValid = false
    · rw [if_pos hv]; exact MS.refl _ _
    rw [if_neg hv]
    have hv' : (p.kp i).sValid = true := by simpa using hv
    have hg := kp_get (Or.inl hv')
    by_cases hl : (p.kp i).sCtr ≥ rejectAfter
    · rw [if_pos hl]; exact MS.refl _ _
    rw [if_neg hl]
    by_cases ha : sub64 now (p.kp i).sBirth ≥ rejectMs
    · rw [if_pos ha]; exact MS.refl _ _
    rw [if_neg ha]
    split
    · exact MS.refl _ _
    · exact MS.one (Mic.enc (now := now) (n := n) p.core i (p.kp i) [] p.epIp p.epPort hc hg hv'
        (by omega) (fun c => absurd rfl c) (by omega))

theorem pickSlot_core (p : Peer) : pickSlot p = p.core.pick := rfl

theorem beginSession_ms (co : Nat → Nat) (now n : Nat) (p : Peer) :
    MS now p.core n (beginSession co now (n + 1) p).2.1 (beginSession co now (n + 1) p).1.core
      (if (beginSession co now (n + 1) p).2.2 = true then n + 1 else n) := by
  have h := Mic.session (now := now) (n := n) p.core
    { sid := n + 1, sValid := true, rValid := true, sBirth := now, rBirth := now, sCtr := 0,
      replay := Replay.init, lIdx := p.hsLocal, rIdx := p.hsRemote,
      isInit := decide (p.hs = .consumedResp) } rfl rfl rfl rfl rfl
  have h' := MS.one h
  by_cases hco : co p.ptr = 0
  · unfold beginSession
    split
    · exact MS.refl _ _
    · exact MS.refl _ _
  · unfold beginSession
    rw [if_neg hco]
    clear h hco
    revert h'
    rcases p with ⟨_, hs, _, _, cur, prev, next, slots, _⟩
    cases hs <;> cases next <;> intro h' <;> first | exact MS.refl _ _ | exact h'

theorem peerInitiation_ms (co : Nat → Nat) (now n : Nat) (p : Peer) (ts : Option Nat)
    (sender ip port : Nat) :
    MS now p.core n (peerInitiation co now (n + 1) p ts sender ip port).2.1
      (peerInitiation co now (n + 1) p ts sender ip port).1.core
      (if (peerInitiation co now (n + 1) p ts sender ip port).2.2 = true then n + 1 else n) := by
  unfold peerInitiation
  split
  · exact MS.refl _ _
  · split
    · exact MS.refl _ _
    · next t =>
      split
      · exact MS.refl _ _
      · dsimp only
        split
        · exact MS.quiets _ _ _ (by intro e he; simp at he; subst he; trivial)
        · generalize hq : ({ p with
              latestTs := t, hsRemote := sender, hs := Hs.createdResp,
              lastInitConsumed := now, epIp := ip, epPort := port,
              ptr := p.ptr + 1, hsLocal := co p.ptr } : Peer) = q
          have hqc : q.core = p.core := by rw [← hq]; rfl
          have h1 := beginSession_ms co now n q
          rw [hqc] at h1
          have hquiet : MS now p.core n [.consumed t, .resp] p.core n :=
            MS.quiets _ _ _ (by intro e he; simp at he; rcases he with rfl | rfl <;> trivial)
          have h2 := MS.trans hquiet h1
          cases hok : (beginSession co now (n + 1) q).2.2 with
          | true =>
            rw [hok] at h2
            have h3 := sendStaged_ms co now (n + 1) (hsComplete (beginSession co now (n + 1) q).1)
            rw [if_pos rfl] at h2 ⊢
            exact MS.trans h2 h3
          | false =>
            rw [hok] at h2
            exact h2

theorem peerResponse_ms (co : Nat → Nat) (now n : Nat) (p : Peer) (auth : Bool)
    (sender ip port : Nat) :
    MS now p.core n (peerResponse co now (n + 1) p auth sender ip port).2.1
      (peerResponse co now (n + 1) p auth sender ip port).1.core
      (if (peerResponse co now (n + 1) p auth sender ip port).2.2 = true then n + 1 else n) := by
  unfold peerResponse
  split
  · exact MS.refl _ _
  · generalize hq : ({ p with
      hsRemote := sender, hs := Hs.consumedResp, epIp := ip,
      epPort := port } : Peer) = q
    have hqc : q.core = p.core := by rw [← hq]; rfl
    have h1 := beginSession_ms co now n q
    rw [hqc] at h1
    generalize beginSession co now (n + 1) q = b at *
    rcases b with ⟨bp, be, ok⟩
    cases ok with
    | false => exact h1
    | true =>
      have h3 := sendStaged_ms co now (n + 1) (hsComplete bp)
      have h4 := MS.trans h1 h3
      unfold afterResponse
      dsimp only
      split
      · rw [if_pos rfl]
        exact MS.trans h4 (sendKeepalive_ms co now (n + 1) _)
      · rw [if_pos rfl]
        exact h4

theorem findKP_ptr {p : Peer} {idx i : Nat} (h : findKP p idx = some i) :
    p.cur = some i ∨ p.prev = some i ∨ p.next = some i := by
  unfold findKP findKP.findPrev findKP.findNext at h
  cases hc : p.cur <;> cases hp : p.prev <;> cases hn : p.next <;> simp only [hc, hp, hn] at h <;>
    (repeat' split at h) <;> simp_all

theorem promote_core (p : Peer) (i : Nat) : (promote p i).core = p.core.promote i := by
  unfold promote Core.promote
  by_cases h : p.next = some i
  · have h' : p.core.next = some i := h
    rw [if_pos h, if_pos h']
    cases hp : p.prev with
    | none =>
      have hp' : p.core.prev = none := hp
      rw [hp']; rfl
    | some j =>
      have hp' : p.core.prev = some j := hp
      rw [hp']; rfl
  · have h' : ¬ p.core.next = some i := h
    rw [if_neg h, if_neg h']

theorem peerData_ms (now n : Nat) (p : Peer) (i idx ctr ip port : Nat) (dec : Nat → Option Bytes)
    (hf : findKP p idx = some i) :
    MS now p.core n (peerData now p i ctr ip port dec).2.1
      (peerData now p i ctr ip port dec).1.core n := by
  have hp := findKP_ptr hf
  unfold peerData
  dsimp only
  by_cases hv : (p.kp i).rValid = false
  · rw [if_pos hv]; exact MS.refl _ _
  rw [if_neg hv]
  have hv' : (p.kp i).rValid = true := by simpa using hv
  have hg := kp_get (Or.inr hv')
  by_cases ha : sub64 now (p.kp i).rBirth ≥ rejectMs
  · rw [if_pos ha]; exact MS.refl _ _
  rw [if_neg ha]
  cases hd : dec (p.kp i).sid with
  | none => exact MS.refl _ _
  | some pt =>
    dsimp only
    split
    · exact MS.refl _ _
    · by_cases hok : (validate (p.kp i).replay ctr).2 = false
      · rw [if_pos hok]
        exact MS.one (Mic.refuse p.core i (p.kp i) ctr hg hok)
      · rw [if_neg hok]
        have h := Mic.accept (now := now) (n := n) p.core i (p.kp i) ctr hp hg hv' (by omega)
          (by simpa using hok)
        have h2 := MS.one h
        have e := promote_core
          (p.setKP i { p.kp i with replay := (validate (p.kp i).replay ctr).1 }) i
        have e' : MS now p.core n [.accept (p.kp i).sid ctr]
            (promote (p.setKP i { p.kp i with replay := (validate (p.kp i).replay ctr).1 })
              i).core n := by
          rw [e]; exact h2
        exact e'

theorem resetHs_core (p : Peer) : (resetHs p).core = p.core := rfl

theorem sendHsInit_ms (co : Nat → Nat) (now n : Nat) (p : Peer) :
    MS now p.core n (sendHsInit co now p).2 (sendHsInit co now p).1.core n :=
  sendInit_ms co now n (resetHs p)

theorem tmRetransmit_ms (co : Nat → Nat) (now n : Nat) (p : Peer) :
    MS now p.core n (tmRetransmit co now p).2 (tmRetransmit co now p).1.core n := by
  unfold tmRetransmit
  split
  · exact MS.refl _ _
  · split
    · exact MS.refl _ _
    · split
      · exact sendHsInit_ms co now n p
      · exact MS.refl _ _

theorem tmPassive_ms (co : Nat → Nat) (now n : Nat) (p : Peer) :
    MS now p.core n (tmPassive co now p).2 (tmPassive co now p).1.core n := by
  unfold tmPassive
  split
  · exact MS.refl _ _
  · split
    · exact MS.refl _ _
    · split
      · exact MS.refl _ _
      · split
        · exact MS.refl _ _
        · split
          · exact MS.refl _ _
          · exact sendKeepalive_ms co now n p

theorem tmRekey_ms (co : Nat → Nat) (now n : Nat) (p : Peer) :
    MS now p.core n (tmRekey co now p).2 (tmRekey co now p).1.core n := by
  unfold tmRekey
  split
  · exact MS.refl _ _
  · split
    · exact MS.refl _ _
    · split
      · exact MS.refl _ _
      · exact sendHsInit_ms co now n (newJitter co p)

theorem tmStale_ms (co : Nat → Nat) (now n : Nat) (p : Peer) :
    MS now p.core n (tmStale co now p).2 (tmStale co now p).1.core n := by
  unfold tmStale
  split
  · exact MS.refl _ _
  · split
    · exact MS.refl _ _
    · split
      · exact MS.refl _ _
      · exact sendHsInit_ms co now n (newJitter co p)

theorem tmZero_ms (now n : Nat) (p : Peer) :
    MS now p.core n [] (tmZero now p).core n := by
  unfold tmZero
  split
  · exact MS.refl _ _
  · split
    · exact MS.refl _ _
    · exact MS.one (Mic.clear p.core)

theorem tmPersistent_ms (co : Nat → Nat) (now n : Nat) (p : Peer) :
    MS now p.core n (tmPersistent co now p).2 (tmPersistent co now p).1.core n := by
  unfold tmPersistent
  split
  · exact MS.refl _ _
  · split
    · exact MS.refl _ _
    · split
      · exact MS.refl _ _
      · exact sendKeepalive_ms co now n p

theorem tick_ms (co : Nat → Nat) (now n : Nat) (p : Peer) :
    MS now p.core n (tick co now p).2 (tick co now p).1.core n := by
  unfold tick
  split
  · exact MS.refl _ _
  · have h1 := tmRetransmit_ms co now n p
    generalize tmRetransmit co now p = r1 at *
    have h2 := tmPassive_ms co now n r1.1
    dsimp only
    generalize tmPassive co now r1.1 = r2 at *
    have h3 := tmRekey_ms co now n r2.1
    generalize tmRekey co now r2.1 = r3 at *
    have h4 := tmStale_ms co now n r3.1
    generalize tmStale co now r3.1 = r4 at *
    have h5 := tmZero_ms now n r4.1
    generalize tmZero now r4.1 = r5 at *
    have h6 := tmPersistent_ms co now n r5
    generalize tmPersistent co now r5 = r6 at *
    have := MS.trans (MS.trans (MS.trans (MS.trans (MS.trans h1 h2) h3) h4) h5) h6
    rw [List.append_nil] at this
    exact this

theorem dropSessions_ms (now n : Nat) (p : Peer) :
    MS now p.core n [] (dropSessions p).core n := by
  unfold dropSessions
  split
  · exact MS.refl _ _
  · exact MS.one (Mic.clear p.core)

end Wolf.Wg
