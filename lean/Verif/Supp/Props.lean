import Verif.Supp.Steps

/-!
# Key installation: authentic, fresh, once, in replay-counter order (C59)
-/

namespace Wolf.Supp

/-- The calls that begin a new association (or end one). -/
def Op.restarts : Op → Bool
  | .init _ _ => true
  | .deinit => true
  | .reconnect => true
  | .kick _ _ => false
  | .rx _ _ _ => false
  | .rxAuth _ _ => false
  | .tick _ _ => false
  | .installPmk _ => false
  | .clear => false

theorem hashPass_eq (C : Crypto) (s : S) (p : Bytes) :
    ∃ h b, hashPass C s p = { s with ppHash := h, havePpHash := b } := by
  unfold hashPass
  split
  · exact ⟨_, _, rfl⟩
  · exact ⟨s.ppHash, s.havePpHash, rfl⟩

/-- `init` only fills in key material. -/
theorem initPsk_eq {C : Crypto} {s t : S} {c : Cfg} {b : Bool} (h : initPsk C s c b = some t) :
    ∃ k hh hb, t = { s with pmk := k, ppHash := hh, havePpHash := hb } := by
  unfold initPsk at h
  split at h
  · next k _ => exact ⟨k, s.ppHash, s.havePpHash, (Option.some.inj h).symm⟩
  · cases h
  · next p _ _ =>
    obtain ⟨hh, hb, he⟩ := hashPass_eq C s p
    rw [he] at h
    unfold pickPmk at h
    split at h
    · exact ⟨_, hh, hb, (Option.some.inj h).symm⟩
    · rw [Option.map_eq_some_iff] at h
      obtain ⟨k, _, hk⟩ := h
      exact ⟨k, hh, hb, hk.symm⟩

theorem init_idle (C : Crypto) (s : S) (c : Cfg) (e : Env) :
    ((init C s c e).1 = s ∨ (init C s c e).1.st = .idle) ∧ (init C s c e).2.2 = [] := by
  unfold init
  split
  · exact ⟨Or.inl rfl, rfl⟩
  · dsimp only
    split
    · exact ⟨Or.inr rfl, rfl⟩
    · next s2 h =>
      refine ⟨Or.inr ?_, rfl⟩
      show s2.st = .idle
      split at h
      · obtain ⟨k, hh, hb, he⟩ := initPsk_eq h
        rw [he]
        rfl
      · unfold initOther at h
        split at h
        · rw [← Option.some.inj h]; rfl
        · cases h

theorem reconnect_idle (s : S) :
    ((reconnect s).1 = s ∨ (reconnect s).1.st = .idle) ∧ (reconnect s).2.2 = [] := by
  unfold reconnect
  split
  · exact ⟨Or.inl rfl, rfl⟩
  · split
    · exact ⟨Or.inl rfl, rfl⟩
    · split
      · exact ⟨Or.inl rfl, rfl⟩
      · exact ⟨Or.inr rfl, rfl⟩

/-- What one call can do. -/
inductive StepCase (C : Crypto) (s : S) (o : Op) : Prop where
  | rx (f : Bytes) (now : Nat) (e : Env) (ho : o = .rx f now e) (h : RxKey C s f e (step C s o))
  | passive (ho : o.restarts = false) (h : Passive s (step C s o))
  | clear (ho : o = .clear) (h1 : Same s (step C s o).1) (h2 : (step C s o).1.st = s.st)
      (h3 : (step C s o).2.2 = [])
  | restart (ho : o.restarts = true) (h : (step C s o).1 = s ∨ (step C s o).1.st = .idle)
      (h2 : (step C s o).2.2 = [])

theorem step_case (C : Crypto) (s : S) (o : Op) : StepCase C s o := by
  cases o with
  | init c e => exact .restart rfl (init_idle C s c e).1 (init_idle C s c e).2
  | deinit => exact .restart rfl (Or.inr rfl) rfl
  | kick now e => exact .passive rfl (kick_passive s now e)
  | rx f now e => exact .rx f now e rfl (rx_spec C s f now e)
  | rxAuth f e => exact .passive rfl (rxAuth_passive s f e)
  | tick now e => exact .passive rfl (tick_passive C s now e)
  | installPmk k => exact .passive rfl (installPmk_passive s k)
  | clear =>
    exact .clear rfl ⟨rfl, rfl, rfl, rfl, rfl, rfl, rfl, Or.inl rfl, rfl, rfl, ⟨rfl, rfl⟩, rfl⟩ rfl rfl
  | reconnect => exact .restart rfl (reconnect_idle s).1 (reconnect_idle s).2

theorem noInst_pair {es : List Ev} (h : NoInst es) {tk : Bytes} {ok : Bool} :
    Ev.pair tk ok ∉ es := fun c => by cases h _ c
theorem noInst_group {es : List Ev} (h : NoInst es) {i : Nat} {g : Bytes} {ok : Bool} :
    Ev.group i g ok ∉ es := fun c => by cases h _ c

/-- **C59, what installs a pairwise key.**  In every state and for every call: the pairwise key goes
to the driver only for a received frame that is a well-formed pairwise message 3 (Ack, MIC, Install),
whose replay counter is beyond the last one, whose nonce is that of message 1, whose MIC verifies
under the current KCK, and whose decrypted key data contain the AP's RSN element and a group key; the
key is the current TK, and after it the handshake is over (authenticated or failed). -/
theorem pairwise_install_checks (C : Crypto) (s : S) (o : Op) (tk : Bytes) (ok : Bool)
    (h : Ev.pair tk ok ∈ (step C s o).2.2) :
    ∃ f now e g, o = .rx f now e ∧ s.st = .m3Wait ∧ Good3 C s f g ∧ tk = s.ptk.tk ∧
      ((step C s o).1.st = .auth ∨ (step C s o).1.st = .failed) := by
  cases step_case C s o with
  | rx f now e ho hr =>
    cases hr with
    | passive hp => exact absurd h (noInst_pair hp.quiet)
    | m1Fail _ _ _ _ hq => exact absurd h (noInst_pair hq)
    | m1 _ hq => exact absurd h (noInst_pair hq)
    | m3 g hs hg hev hst hrest =>
      refine ⟨f, now, e, g, ho, hs, hg, ?_, ?_⟩
      · rcases (hev _ h rfl).2 with ⟨ok', he, _⟩ | ⟨ok', he, _⟩
        · cases he; rfl
        · cases he
      · rcases hst with hst | hst
        · exact Or.inl hst.1
        · exact Or.inr hst.1
    | group g hs hg hev hst => cases hev _ h rfl
    | groupFail g hs hg hev hst =>
      rw [hev, List.mem_singleton] at h
      cases h
  | passive _ hp => exact absurd h (noInst_pair hp.quiet)
  | clear _ _ _ h3 => rw [h3] at h; cases h
  | restart _ _ h3 => rw [h3] at h; cases h

/-- **C59, what installs a group key.**  Only a message 3 as above, or - once authenticated - a group
message 1 with Ack, MIC and Secure set, a replay counter beyond the last one, a MIC that verifies and
encrypted key data; the key installed is the one in the frame. -/
theorem group_install_checks (C : Crypto) (s : S) (o : Op) (i : Nat) (gtk : Bytes) (ok : Bool)
    (h : Ev.group i gtk ok ∈ (step C s o).2.2) :
    ∃ f now e, o = .rx f now e ∧
      ((s.st = .m3Wait ∧ Good3 C s f (i, gtk)) ∨ (s.st = .auth ∧ GoodG C s f (i, gtk))) := by
  cases step_case C s o with
  | rx f now e ho hr =>
    cases hr with
    | passive hp => exact absurd h (noInst_group hp.quiet)
    | m1Fail _ _ _ _ hq => exact absurd h (noInst_group hq)
    | m1 _ hq => exact absurd h (noInst_group hq)
    | m3 g hs hg hev hst hrest =>
      refine ⟨f, now, e, ho, Or.inl ⟨hs, ?_⟩⟩
      rcases (hev _ h rfl).2 with ⟨ok', he, _⟩ | ⟨ok', he, _⟩
      · cases he
      · cases he; exact hg
    | group g hs hg hev hst =>
      have := hev _ h rfl
      cases this
      exact ⟨f, now, e, ho, Or.inr ⟨hs, hg⟩⟩
    | groupFail g hs hg hev hst =>
      rw [hev, List.mem_singleton] at h
      cases h
      exact ⟨f, now, e, ho, Or.inr ⟨hs, hg⟩⟩
  | passive _ hp => exact absurd h (noInst_group hp.quiet)
  | clear _ _ _ h3 => rw [h3] at h; cases h
  | restart _ _ h3 => rw [h3] at h; cases h

/-- **C59, authenticated means installed.**  When a call completes the handshake, both keys of that
message 3 were accepted by the driver (if there is one). -/
theorem authenticated_means_installed (C : Crypto) (s : S) (o : Op) (h : s.st ≠ .auth)
    (h' : (step C s o).1.st = .auth) (hi : s.hasInstall = true) :
    ∃ f now e g, o = .rx f now e ∧ Good3 C s f g ∧
      Ev.pair s.ptk.tk true ∈ (step C s o).2.2 ∧ Ev.group g.1 g.2 true ∈ (step C s o).2.2 := by
  have hpas : Passive s (step C s o) → False := by
    intro hp
    rcases hp.st with h1 | h1 | h1
    · exact h (h1.symm.trans h')
    · rw [h'] at h1; cases h1
    · exact h1.2.2.1 h'
  cases step_case C s o with
  | rx f now e ho hr =>
    cases hr with
    | passive hp => exact (hpas hp).elim
    | m1Fail _ h1 _ _ _ => rw [h'] at h1; cases h1
    | m1 hd _ => rw [hd.to] at h'; cases h'
    | m3 g hs hg hev hst hrest =>
      rcases hst with hst | hst
      · exact ⟨f, now, e, g, ho, hg, hst.2.2.2.2 hi⟩
      · rw [hst.1] at h'; cases h'
    | group g hs hg hev hst => exact absurd hs h
    | groupFail g hs hg hev hst => exact absurd hs h
  | passive _ hp => exact (hpas hp).elim
  | clear _ _ h2 _ => rw [h2] at h'; exact absurd h' h
  | restart _ hr _ =>
    rcases hr with hr | hr
    · rw [hr] at h'; exact absurd h' h
    · rw [hr] at h'; cases h'

/-! ## Provenance of the pairwise key -/

/-- The context after further calls. -/
def runFrom (C : Crypto) (s : S) (ops : List Op) : S := ops.foldl (fun s o => (step C s o).1) s

theorem run_eq (C : Crypto) (ops : List Op) : run C ops = runFrom C S.zero ops := rfl

theorem runFrom_append (C : Crypto) (s : S) (a b : List Op) :
    runFrom C s (a ++ b) = runFrom C (runFrom C s a) b := by
  unfold runFrom; rw [List.foldl_append]

theorem runFrom_snoc (C : Crypto) (s : S) (a : List Op) (o : Op) :
    runFrom C s (a ++ [o]) = (step C (runFrom C s a) o).1 := by
  rw [runFrom_append]; rfl

/-- In `m3Wait` a call keeps the handshake data and installs nothing, or leaves `m3Wait`. -/
theorem m3_stay (C : Crypto) (s : S) (o : Op) (h : s.st = .m3Wait)
    (h' : (step C s o).1.st = .m3Wait) :
    Same s (step C s o).1 ∧ NoInst (step C s o).2.2 := by
  cases step_case C s o with
  | rx f now e ho hr =>
    cases hr with
    | passive hp => exact ⟨hp.same, hp.quiet⟩
    | m1Fail hs _ _ _ _ => rw [h] at hs; cases hs
    | m1 hd _ => have := hd.from_; rw [h] at this; cases this
    | m3 g hs hg hev hst hrest =>
      rcases hst with hst | hst
      · rw [hst.1] at h'; cases h'
      · rw [hst.1] at h'; cases h'
    | group g hs hg hev hst => rw [h] at hs; cases hs
    | groupFail g hs hg hev hst => rw [h] at hs; cases hs
  | passive _ hp => exact ⟨hp.same, hp.quiet⟩
  | clear _ h1 _ h3 => exact ⟨h1, by rw [h3]; exact noInst_nil⟩
  | restart _ hr h3 =>
    rcases hr with hr | hr
    · exact ⟨by rw [hr]; exact Same.rfl' s, by rw [h3]; exact noInst_nil⟩
    · rw [hr] at h'; cases h'

/-- `m3Wait` is entered only by answering an M1. -/
theorem m3_enter (C : Crypto) (s : S) (o : Op) (h : s.st ≠ .m3Wait)
    (h' : (step C s o).1.st = .m3Wait) :
    ∃ f now e, o = .rx f now e ∧ Derives C s f e (step C s o).1 := by
  have hpas : Passive s (step C s o) → False := by
    intro hp
    rcases hp.st with h1 | h1 | h1
    · exact h (h1.symm.trans h')
    · rw [h'] at h1; cases h1
    · exact h1.2.1 h'
  cases step_case C s o with
  | rx f now e ho hr =>
    cases hr with
    | passive hp => exact (hpas hp).elim
    | m1Fail hs h1 _ _ _ => rw [h'] at h1; cases h1
    | m1 hd _ => exact ⟨f, now, e, ho, hd⟩
    | m3 g hs hg hev hst hrest => exact absurd hs h
    | group g hs hg hev hst => rw [hst] at h'; exact absurd h' h
    | groupFail g hs hg hev hst => rw [hst] at h'; exact absurd h' h
  | passive _ hp => exact (hpas hp).elim
  | clear _ _ h2 _ => rw [h2] at h'; exact absurd h' h
  | restart _ hr _ =>
    rcases hr with hr | hr
    · rw [hr] at h'; exact absurd h' h
    · rw [hr] at h'; cases h'

theorem snoc_ind {α : Type} {P : List α → Prop} (h0 : P [])
    (h1 : ∀ l a, P l → P (l ++ [a])) (l : List α) : P l := by
  have : P l.reverse.reverse := by
    induction l.reverse with
    | nil => exact h0
    | cons a r ih => rw [List.reverse_cons]; exact h1 _ _ ih
  rwa [List.reverse_reverse] at this

/-- While waiting for message 3, the last M1 answered is in the history and nothing has been
installed since. -/
theorem last_m1 (C : Crypto) (s : S) (hs : s.st ≠ .m3Wait) (ops : List Op) :
    (runFrom C s ops).st = .m3Wait →
    ∃ a f now e b, ops = a ++ Op.rx f now e :: b ∧
      Derives C (runFrom C s a) f e (runFrom C s (a ++ [Op.rx f now e])) ∧
      Same (runFrom C s (a ++ [Op.rx f now e])) (runFrom C s ops) ∧
      ∀ x o y, b = x ++ o :: y →
        NoInst (step C (runFrom C s (a ++ Op.rx f now e :: x)) o).2.2 := by
  refine snoc_ind (P := fun ops => (runFrom C s ops).st = .m3Wait →
    ∃ a f now e b, ops = a ++ Op.rx f now e :: b ∧
      Derives C (runFrom C s a) f e (runFrom C s (a ++ [Op.rx f now e])) ∧
      Same (runFrom C s (a ++ [Op.rx f now e])) (runFrom C s ops) ∧
      ∀ x o y, b = x ++ o :: y →
        NoInst (step C (runFrom C s (a ++ Op.rx f now e :: x)) o).2.2) ?_ ?_ ops
  · intro h; exact absurd h hs
  · intro ops o ih h
    rw [runFrom_snoc] at h
    by_cases hb : (runFrom C s ops).st = .m3Wait
    · obtain ⟨a, f, now, e, b, h1, h2, h3, h4⟩ := ih hb
      obtain ⟨h5, h6⟩ := m3_stay C _ o hb h
      refine ⟨a, f, now, e, b ++ [o], by rw [h1, List.append_assoc]; rfl, h2, ?_, ?_⟩
      · rw [runFrom_snoc C s ops o]
        refine ⟨h5.ptk.trans h3.ptk, h5.have_.trans h3.have_, h5.anonce.trans h3.anonce,
          h5.replay.trans h3.replay, h5.haveReplay.trans h3.haveReplay, h5.apIe.trans h3.apIe,
          h5.mode.trans h3.mode, ?_, h5.ssid.trans h3.ssid, h5.apMac.trans h3.apMac,
          ⟨h5.pp.1.trans h3.pp.1, h5.pp.2.trans h3.pp.2⟩, h5.hasInst.trans h3.hasInst⟩
        rcases h5.start with h7 | h7
        · rcases h3.start with h8 | h8
          · exact Or.inl (h7.trans h8)
          · exact Or.inr h8
        · rw [hb] at h7; cases h7
      · intro x o' y hxy
        rcases List.eq_nil_or_concat y with rfl | ⟨y', w, rfl⟩
        · have := List.append_inj' hxy rfl
          obtain ⟨rfl, h9⟩ := this
          cases h9
          rw [← h1]
          exact h6
        · rw [List.concat_eq_append, ← List.cons_append, ← List.append_assoc] at hxy
          have := List.append_inj' hxy rfl
          exact h4 x o' y' this.1
    · obtain ⟨f, now, e, ho, hd⟩ := m3_enter C _ o hb h
      refine ⟨ops, f, now, e, [], by rw [ho], ?_, ?_, ?_⟩
      · rw [runFrom_snoc, ← ho]; exact hd
      · rw [ho]; exact Same.rfl' _
      · intro x o' y hxy
        cases x <;> cases hxy

/-- **C59, freshness.**  Whatever the history of calls: when the pairwise key is given to the driver,
an earlier message 1 in that history was answered with a fresh SNonce; the key installed is the TK of
the PTK derived from the PMK, the two addresses, that message's nonce and that SNonce; message 3
carries the same nonce and a strictly larger replay counter and its MIC verifies under that PTK; and
between the two no key whatsoever was installed.  So no PTK is ever installed twice. -/
theorem pairwise_key_provenance (C : Crypto) (ops : List Op) (o : Op) (tk : Bytes) (ok : Bool)
    (h : Ev.pair tk ok ∈ (step C (run C ops) o).2.2) :
    ∃ f3 now3 e3 g a f1 now1 e1 b sn p, o = .rx f3 now3 e3 ∧
      ops = a ++ Op.rx f1 now1 e1 :: b ∧
      (run C a).st = .m1Wait ∧ e1.rnd = some sn ∧
      C.ptk (run C a).cmac (run C a).pmk (run C a).apMac (run C a).staMac (frNonce f1) sn = some p ∧
      tk = p.tk ∧ frNonce f3 = frNonce f1 ∧ memGt (frReplay f3) (frReplay f1) = true ∧
      MicValid C (run C a).cmac p.kck f3 ∧
      Good3 C (run C ops) f3 g ∧
      ∀ x o' y, b = x ++ o' :: y →
        NoInst (step C (run C (a ++ Op.rx f1 now1 e1 :: x)) o').2.2 := by
  obtain ⟨f3, now3, e3, g, ho, hst, hg, htk, _⟩ := pairwise_install_checks C _ o tk ok h
  rw [run_eq] at hst
  obtain ⟨a, f1, now1, e1, b, h1, h2, h3, h4⟩ := last_m1 C S.zero (by intro c; cases c) ops hst
  obtain ⟨sn, hr, hp, hsn⟩ := h2.ptk
  have hptk : (run C ops).ptk = (runFrom C S.zero (a ++ [Op.rx f1 now1 e1])).ptk := h3.ptk
  have hcm : (run C ops).cmac = (run C a).cmac := by
    unfold S.cmac
    have e1 : (run C ops).mode = (run C a).mode := h3.mode.trans h2.rest.2.1
    rw [e1]
  refine ⟨f3, now3, e3, g, a, f1, now1, e1, b, sn, _, ho, h1, h2.from_, hr, hp, ?_, ?_, ?_, ?_, hg, h4⟩
  · rw [htk, hptk]
  · rw [hg.nonce]
    exact h3.anonce.trans h2.anonce
  · have := hg.replay (h3.haveReplay.trans h2.haveReplay)
    have e : (run C ops).lastReplay = frReplay f1 := h3.replay.trans h2.replay
    rw [e] at this
    exact this
  · have := hg.mic
    rw [hcm, hptk] at this
    exact this

/-! ## Replay counters within one association -/

/-- Received bytes are bytes. -/
def Op.bytesOk : Op → Prop
  | .rx f _ _ => ∀ x ∈ f, x < 256
  | .init _ _ => True
  | .deinit => True
  | .kick _ _ => True
  | .rxAuth _ _ => True
  | .tick _ _ => True
  | .installPmk _ => True
  | .clear => True
  | .reconnect => True

/-- The replay counter of the frame a call processes. -/
def Op.counter : Op → Nat
  | .rx f _ _ => be (frReplay f)
  | .init _ _ => 0
  | .deinit => 0
  | .kick _ _ => 0
  | .rxAuth _ _ => 0
  | .tick _ _ => 0
  | .installPmk _ => 0
  | .clear => 0
  | .reconnect => 0

/-- The call accepted its frame: it answered an M1, or a key went to the driver successfully. -/
def Accepted (C : Crypto) (s : S) (o : Op) : Prop :=
  (s.st = .m1Wait ∧ (step C s o).1.st = .m3Wait) ∨
  ∃ ev ∈ (step C s o).2.2, (∃ tk, ev = .pair tk true) ∨ ∃ i g, ev = .group i g true

/-- Further calls within the same association: none that resets the context. -/
inductive Within (C : Crypto) : S → S → Prop where
  | refl (s : S) : Within C s s
  | next {s t : S} (o : Op) (h : Within C s t)
      (hn : o.restarts = false ∨ (step C t o).1 = t) (hb : o.bytesOk) :
      Within C s (step C t o).1

/-- The last replay counter is a byte string of width 8. -/
def RepOk (s : S) : Prop := s.lastReplay.length = 8 ∧ ∀ x ∈ s.lastReplay, x < 256

instance (s : S) : Decidable (RepOk s) := by unfold RepOk; exact inferInstance

theorem frReplay_ok {f : Bytes} (hf : KeyFrame f) (hb : ∀ x ∈ f, x < 256) :
    (frReplay f).length = 8 ∧ ∀ x ∈ frReplay f, x < 256 := by
  unfold frReplay
  refine ⟨?_, ?_⟩
  · rw [List.length_take, List.length_drop]
    have := hf.len
    omega
  · intro x hx
    exact hb x (List.mem_of_mem_drop (List.mem_of_mem_take hx))

theorem initCtx_replay {C : Crypto} (s : S) (c : Cfg) (e : Env) (h : RepOk s) :
    RepOk (init C s c e).1 := by
  have hz : RepOk S.zero := by decide
  unfold init
  split
  · exact h
  · dsimp only
    split
    · exact hz
    · next s2 h2 =>
      have : s2.lastReplay = zeros 8 := by
        split at h2
        · obtain ⟨k, hh, hb, he⟩ := initPsk_eq h2
          rw [he]
          rfl
        · unfold initOther at h2
          split at h2
          · rw [← Option.some.inj h2]; rfl
          · cases h2
      unfold RepOk
      dsimp only
      rw [this]
      exact hz

theorem reconnect_replay (s : S) : (reconnect s).1.lastReplay = s.lastReplay := by
  unfold reconnect
  split
  · rfl
  · split
    · rfl
    · split
      · rfl
      · next t ht =>
        unfold addPmkid at ht
        split at ht
        · rw [← Option.some.inj ht]
        · split at ht
          · rw [← Option.some.inj ht]
          · cases ht

theorem handleM1_replay (C : Crypto) (s : S) (v : View) (now : Nat) (e : Env) :
    (failIf (handleM1 C s v now e)).1.lastReplay = s.lastReplay ∨
    (failIf (handleM1 C s v now e)).1.lastReplay = v.replay := by
  have key : ∀ r : S × Bool × List Ev, (failIf r).1.lastReplay = r.1.lastReplay := by
    intro r; unfold failIf; split <;> rfl
  rw [key]
  unfold handleM1
  split
  · exact Or.inl rfl
  · dsimp only
    split
    · exact Or.inl rfl
    · split
      · exact Or.inl rfl
      · split
        · exact Or.inr rfl
        · exact Or.inr rfl

/-- Whatever a received frame does, the stored counter is the old one or that of a key frame. -/
theorem rx_replay (C : Crypto) (s : S) (f : Bytes) (now : Nat) (e : Env) :
    (rx C s f now e).1.lastReplay = s.lastReplay ∨
    (KeyFrame f ∧ (rx C s f now e).1.lastReplay = frReplay f) := by
  have hfail : ∀ r : S × Bool × List Ev, (failIf r).1.lastReplay = r.1.lastReplay := by
    intro r; unfold failIf; split <;> rfl
  have hblame : ∀ x, (s.blame x).lastReplay = s.lastReplay := by
    intro x; cases x <;> rfl
  unfold rx
  split
  · exact Or.inl rfl
  · split
    · exact Or.inl (hblame _)
    · split
      · exact Or.inl (rxEap_passive s f e).same.replay
      · split
        · exact Or.inl rfl
        · unfold rxKey
          rcases key_parse_exact f with ⟨hf, hp, _⟩ | ⟨_, hp⟩
          · rw [hp]
            dsimp only
            split
            · exact Or.inl rfl
            · split
              · exact Or.inl rfl
              · split
                · exact Or.inl (hblame _)
                unfold dispatch
                split
                · rcases handleM1_replay C s
                    ⟨num16 f 2 + 4, num16 f 5, num16 f 7, (f.drop 9).take 8, (f.drop 17).take 32,
                      (f.drop 81).take 16, (f.drop 99).take (num16 f 97)⟩ now e with h | h
                  · exact Or.inl h
                  · exact Or.inr ⟨hf, h⟩
                · split
                  · next t es hm => exact Or.inl (m1Again_passive C s _ now e t es hm true).same.replay
                  · rw [hfail]
                    unfold handleM3
                    split
                    · exact Or.inl rfl
                    · split
                      · exact Or.inl rfl
                      · split
                        · exact Or.inl rfl
                        · split
                          · exact Or.inl rfl
                          · split
                            · exact Or.inl (hblame _)
                            · dsimp only
                              split
                              · exact Or.inl rfl
                              · split
                                · exact Or.inr ⟨hf, rfl⟩
                                · exact Or.inr ⟨hf, rfl⟩
                · split
                  · unfold handleGroup
                    split
                    · exact Or.inl rfl
                    · split
                      · exact Or.inl rfl
                      · split
                        · exact Or.inl rfl
                        · split
                          · exact Or.inl (hblame _)
                          · split
                            · exact Or.inl rfl
                            · exact Or.inr ⟨hf, rfl⟩
                  · exact Or.inl rfl
                all_goals exact Or.inl rfl
          · rw [hp]
            exact Or.inl (hblame _)

theorem step_repOk (C : Crypto) (s : S) (o : Op) (h : RepOk s) (hb : o.bytesOk) :
    RepOk (step C s o).1 := by
  have hpas : ∀ r, Passive s r → RepOk r.1 := by
    intro r hp
    unfold RepOk
    rw [hp.same.replay]
    exact h
  cases o with
  | init c e => exact initCtx_replay s c e h
  | deinit => exact (by decide : RepOk S.zero)
  | kick now e => exact hpas _ (kick_passive s now e)
  | rx f now e =>
    have hb' : ∀ x ∈ f, x < 256 := hb
    unfold RepOk
    show (rx C s f now e).1.lastReplay.length = 8 ∧ ∀ x ∈ (rx C s f now e).1.lastReplay, x < 256
    rcases rx_replay C s f now e with h1 | ⟨hf, h1⟩
    · rw [h1]; exact h
    · rw [h1]; exact frReplay_ok hf hb'
  | rxAuth f e => exact hpas _ (rxAuth_passive s f e)
  | tick now e => exact hpas _ (tick_passive C s now e)
  | installPmk k => exact hpas _ (installPmk_passive s k)
  | clear => exact h
  | reconnect =>
    unfold RepOk
    show (reconnect s).1.lastReplay.length = 8 ∧ ∀ x ∈ (reconnect s).1.lastReplay, x < 256
    rw [reconnect_replay]
    exact h

theorem runFrom_repOk (C : Crypto) (ops : List Op) : ∀ s, RepOk s → (∀ o ∈ ops, o.bytesOk) →
    RepOk (runFrom C s ops) := by
  induction ops with
  | nil => intro s h _; exact h
  | cons o os ih =>
    intro s h hb
    exact ih _ (step_repOk C s o h (hb o (List.mem_cons_self ..)))
      (fun x hx => hb x (List.mem_cons_of_mem _ hx))

/-- A counter `c` has been accepted: the handshake is over, or the stored counter is at least `c`. -/
def Past (c : Nat) (s : S) : Prop :=
  s.st = .failed ∨ ((s.st = .m3Wait ∨ s.st = .auth) ∧ s.haveReplay = true ∧ c ≤ be s.lastReplay)

theorem be_of_memGt {f : Bytes} {s : S} (hf : KeyFrame f) (hb : ∀ x ∈ f, x < 256) (hr : RepOk s)
    (h : memGt (frReplay f) s.lastReplay = true) : be s.lastReplay < be (frReplay f) := by
  obtain ⟨h1, h2⟩ := frReplay_ok hf hb
  exact (memGt_be (by rw [h1, hr.1]) h2 hr.2).mp h

theorem past_step (C : Crypto) (c : Nat) (s : S) (o : Op) (hp : Past c s) (hr : RepOk s)
    (hn : o.restarts = false ∨ (step C s o).1 = s) (hb : o.bytesOk) : Past c (step C s o).1 := by
  have hpas : ∀ r, Passive s r → Past c r.1 := by
    intro r h
    rcases hp with h1 | ⟨h1, h2, h3⟩
    · rcases h.st with h4 | h4 | h4
      · exact Or.inl (h4.trans h1)
      · exact Or.inl h4
      · rw [h1] at h4
        rcases h4.1 with h5 | h5 | h5 | h5 | h5 <;> cases h5
    · rcases h.st with h4 | h4 | h4
      · exact Or.inr ⟨by rw [h4]; exact h1, h.same.haveReplay.trans h2, by rw [h.same.replay]; exact h3⟩
      · exact Or.inl h4
      · rcases h1 with h1 | h1 <;> rw [h1] at h4 <;>
          (rcases h4.1 with h5 | h5 | h5 | h5 | h5 <;> cases h5)
  cases step_case C s o with
  | rx f now e ho h =>
    have hb' : ∀ x ∈ f, x < 256 := by rw [ho] at hb; exact hb
    cases h with
    | passive h => exact hpas _ h
    | m1Fail hs _ _ _ _ =>
      rcases hp with h1 | ⟨h1 | h1, _⟩ <;> rw [hs] at h1 <;> cases h1
    | m1 hd _ =>
      have hs := hd.from_
      rcases hp with h1 | ⟨h1 | h1, _⟩ <;> rw [hs] at h1 <;> cases h1
    | m3 g hs hg hev hst hrest =>
      rcases hp with h1 | ⟨_, h2, h3⟩
      · rw [hs] at h1; cases h1
      · rcases hst with hst | hst
        · refine Or.inr ⟨Or.inr hst.1, hst.2.2.1.trans h2, ?_⟩
          rw [hst.2.1]
          have := be_of_memGt hg.frame hb' hr (hg.replay h2)
          omega
        · exact Or.inl hst.1
    | group g hs hg hev hst =>
      rcases hp with h1 | ⟨_, h2, h3⟩
      · rw [hs] at h1; cases h1
      · rw [hst]
        refine Or.inr ⟨Or.inr hs, h2, ?_⟩
        have := be_of_memGt hg.frame hb' hr (hg.replay h2)
        show c ≤ be (frReplay f)
        omega
    | groupFail g hs hg hev hst => rw [hst]; exact hp
  | passive _ h => exact hpas _ h
  | clear _ h1 h2 h3 =>
    rcases hp with h4 | ⟨h4, h5, h6⟩
    · exact Or.inl (h2.trans h4)
    · exact Or.inr ⟨by rw [h2]; exact h4, h1.haveReplay.trans h5, by rw [h1.replay]; exact h6⟩
  | restart ho _ _ =>
    rcases hn with h | h
    · rw [ho] at h; cases h
    · rw [h]; exact hp

theorem past_accept (C : Crypto) (s : S) (o : Op) (hr : RepOk s) (hb : o.bytesOk)
    (hinv : s.st = .auth → s.haveReplay = true) (hinv3 : s.st = .m3Wait → s.haveReplay = true)
    (h : Accepted C s o) : Past o.counter (step C s o).1 := by
  have hno : ∀ es, es = (step C s o).2.2 → NoInst es → s.st ≠ .m1Wait ∨
      (step C s o).1.st ≠ .m3Wait → False := by
    intro es hes hq hs
    rcases h with ⟨h1, h2⟩ | ⟨ev, hev, h1⟩
    · rcases hs with hs | hs
      · exact hs h1
      · exact hs h2
    · rw [← hes] at hev
      rcases h1 with ⟨tk, rfl⟩ | ⟨i, g, rfl⟩
      · exact noInst_pair hq hev
      · exact noInst_group hq hev
  have hpas : Passive s (step C s o) → False := by
    intro hp
    refine hno _ rfl hp.quiet ?_
    by_cases h1 : s.st = .m1Wait
    · right
      intro h2
      rcases hp.st with h4 | h4 | h4
      · rw [h1, h2] at h4; cases h4
      · rw [h2] at h4; cases h4
      · exact h4.2.1 h2
    · exact Or.inl h1
  cases step_case C s o with
  | rx f now e ho h' =>
    have hc : o.counter = be (frReplay f) := by rw [ho]; rfl
    have hb' : ∀ x ∈ f, x < 256 := by rw [ho] at hb; exact hb
    rw [hc]
    cases h' with
    | passive hp => exact (hpas hp).elim
    | m1Fail hs h1 _ _ hq =>
      exact (hno _ rfl hq (Or.inr (by rw [h1]; intro c; cases c))).elim
    | m1 hd _ =>
      exact Or.inr ⟨Or.inl hd.to, hd.haveReplay, by rw [hd.replay]; exact Nat.le_refl _⟩
    | m3 g hs hg hev hst hrest =>
      rcases hst with hst | hst
      · refine Or.inr ⟨Or.inr hst.1, hst.2.2.1.trans (hinv3 hs), ?_⟩
        rw [hst.2.1]
        exact Nat.le_refl _
      · exact Or.inl hst.1
    | group g hs hg hev hst =>
      rw [hst]
      exact Or.inr ⟨Or.inr hs, hinv hs, Nat.le_refl _⟩
    | groupFail g hs hg hev hst =>
      rcases h with ⟨h1, _⟩ | ⟨ev, hm, h1⟩
      · rw [hs] at h1; cases h1
      · rw [hev, List.mem_singleton] at hm
        rcases h1 with ⟨tk, rfl⟩ | ⟨i, g, rfl⟩ <;> cases hm
  | passive _ hp => exact (hpas hp).elim
  | clear _ _ h2 h3 =>
    refine (hno _ rfl (by rw [h3]; exact noInst_nil) ?_).elim
    rw [h2]
    by_cases h1 : s.st = .m1Wait
    · right; rw [h1]; intro c; cases c
    · exact Or.inl h1
  | restart _ hr' h3 =>
    refine (hno _ rfl (by rw [h3]; exact noInst_nil) ?_).elim
    by_cases h1 : s.st = .m1Wait
    · right
      rcases hr' with h5 | h5
      · rw [h5, h1]; intro c; cases c
      · rw [h5]; intro c; cases c
    · exact Or.inl h1

/-- Past the first message, a replay counter is stored. -/
theorem haveReplay_inv (C : Crypto) (ops : List Op) :
    ((run C ops).st = .m3Wait ∨ (run C ops).st = .auth) → (run C ops).haveReplay = true := by
  rw [run_eq]
  have key : ∀ s : S, ((s.st = .m3Wait ∨ s.st = .auth) → s.haveReplay = true) → ∀ o,
      (((step C s o).1.st = .m3Wait ∨ (step C s o).1.st = .auth) →
        (step C s o).1.haveReplay = true) := by
    intro s hs o h
    have hpas : ∀ r, Passive s r → (r.1.st = .m3Wait ∨ r.1.st = .auth) → r.1.haveReplay = true := by
      intro r hp h
      rw [hp.same.haveReplay]
      rcases hp.st with h1 | h1 | h1
      · exact hs (by rw [← h1]; exact h)
      · rcases h with h | h <;> rw [h1] at h <;> cases h
      · rcases h with h | h
        · exact absurd h h1.2.1
        · exact absurd h h1.2.2.1
    cases step_case C s o with
    | rx f now e ho hr =>
      cases hr with
      | passive hp => exact hpas _ hp h
      | m1Fail _ h1 _ _ _ => rcases h with h | h <;> rw [h1] at h <;> cases h
      | m1 hd _ => exact hd.haveReplay
      | m3 g hs' hg hev hst hrest =>
        rcases hst with hst | hst
        · rw [hst.2.2.1]; exact hs (Or.inl hs')
        · rcases h with h | h <;> rw [hst.1] at h <;> cases h
      | group g hs' hg hev hst => rw [hst]; exact hs (Or.inr hs')
      | groupFail g hs' hg hev hst => rw [hst]; exact hs (Or.inr hs')
    | passive _ hp => exact hpas _ hp h
    | clear _ h1 h2 _ => rw [h1.haveReplay]; exact hs (by rw [← h2]; exact h)
    | restart _ hr _ =>
      rcases hr with hr | hr
      · rw [hr] at h ⊢; exact hs h
      · rcases h with h | h <;> rw [hr] at h <;> cases h
  have go : ∀ (ops : List Op) (s : S), ((s.st = .m3Wait ∨ s.st = .auth) → s.haveReplay = true) →
      ((runFrom C s ops).st = .m3Wait ∨ (runFrom C s ops).st = .auth) →
      (runFrom C s ops).haveReplay = true := by
    intro ops
    induction ops with
    | nil => intro s hs h; exact hs h
    | cons o os ih => intro s hs h; exact ih _ (key s hs o) h
  exact go ops S.zero (fun h => by rcases h with h | h <;> cases h)

/-- **C59, replay.**  Within one association, a key goes to the driver only for a frame whose replay
counter is strictly greater than that of every frame accepted before. -/
theorem replay_strictly_increases (C : Crypto) (ops : List Op) (o1 o2 : Op) (t : S)
    (hb : ∀ o ∈ ops, o.bytesOk) (hb1 : o1.bytesOk) (hb2 : o2.bytesOk)
    (h1 : Accepted C (run C ops) o1)
    (hw : Within C (step C (run C ops) o1).1 t)
    (h2 : ∃ ev ∈ (step C t o2).2.2, ev.isKey = true) : o1.counter < o2.counter := by
  have hz : RepOk S.zero := by decide
  have hr : RepOk (run C ops) := runFrom_repOk C ops _ hz hb
  have hr1 := step_repOk C _ o1 hr hb1
  have hp := past_accept C _ o1 hr hb1 (fun h => haveReplay_inv C ops (Or.inr h))
    (fun h => haveReplay_inv C ops (Or.inl h)) h1
  generalize (step C (run C ops) o1).1 = s at hw hr1 hp
  have hrt : RepOk t ∧ Past o1.counter t := by
    clear h2
    induction hw with
    | refl => exact ⟨hr1, hp⟩
    | next o hw hn hbo ih =>
      obtain ⟨i1, i2⟩ := ih
      exact ⟨step_repOk C _ o i1 hbo, past_step C _ _ o i2 i1 hn hbo⟩
  obtain ⟨hr2, hp2⟩ := hrt
  obtain ⟨ev, hev, hk⟩ := h2
  have hgood : ∃ f now e, o2 = .rx f now e ∧ KeyFrame f ∧ (t.st = .m3Wait ∨ t.st = .auth) ∧
      (t.haveReplay = true → memGt (frReplay f) t.lastReplay = true) := by
    cases ev with
    | key f => cases hk
    | other => cases hk
    | pair tk ok =>
      obtain ⟨f, now, e, g, ho, hs, hg, _⟩ := pairwise_install_checks C t o2 tk ok hev
      exact ⟨f, now, e, ho, hg.frame, Or.inl hs, hg.replay⟩
    | group i g ok =>
      obtain ⟨f, now, e, ho, ⟨hs, hg⟩ | ⟨hs, hg⟩⟩ := group_install_checks C t o2 i g ok hev
      · exact ⟨f, now, e, ho, hg.frame, Or.inl hs, hg.replay⟩
      · exact ⟨f, now, e, ho, hg.frame, Or.inr hs, hg.replay⟩
  obtain ⟨f, now, e, ho, hf, hs, hm⟩ := hgood
  have hc : o2.counter = be (frReplay f) := by rw [ho]; rfl
  have hb' : ∀ x ∈ f, x < 256 := by rw [ho] at hb2; exact hb2
  rcases hp2 with h3 | ⟨_, h4, h5⟩
  · rcases hs with hs | hs <;> rw [h3] at hs <;> cases hs
  · have := be_of_memGt hf hb' hr2 (hm h4)
    omega

end Wolf.Supp
