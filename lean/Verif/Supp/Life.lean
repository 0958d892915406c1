import Verif.Supp.Props

/-!
# Memory safety of the receive path, the PMKSA cache and the handshake deadline (C67, C69, C70)
-/

namespace Wolf.Supp

/-! ## No access outside a buffer -/

theorem blame_reject {s : S} {x : Fault} (h : x ≠ .oob) : (s.blame x).fault = s.fault := by
  cases x
  · rfl
  · exact absurd rfl h

theorem failIf_fault (r : S × Bool × List Ev) : (failIf r).1.fault = r.1.fault := by
  unfold failIf; split <;> rfl

theorem rxEap_fault (s : S) (f : Bytes) (e : Env) (h : 4 ≤ f.length) :
    (rxEap s f e).1.fault = s.fault := by
  unfold rxEap
  rw [rd16_num (show 2 + 1 < f.length by omega)]
  dsimp only
  split
  · rfl
  · split
    · next x hx =>
      exact blame_reject (fun c => (eap_parse_safe _).1 (by rw [hx, c]))
    · split
      · rw [failIf_fault]
        unfold eapRequest
        (repeat' split) <;> rfl
      · split
        · rw [failIf_fault]
          unfold eapSuccess
          (repeat' split) <;> rfl
        · split <;> rfl

theorem rx_fault (C : Crypto) (s : S) (f : Bytes) (now : Nat) (e : Env) :
    (rx C s f now e).1.fault = s.fault := by
  unfold rx
  split
  · rfl
  · next hl =>
    rw [ld_num (show 1 < f.length by omega)]
    dsimp only
    split
    · exact rxEap_fault s f e (by omega)
    · split
      · rfl
      · unfold rxKey
        rcases key_parse_exact f with ⟨hf, hp, _⟩ | ⟨_, hp⟩
        · rw [hp]
          dsimp only
          split
          · rfl
          · split
            · rfl
            · next hfl =>
              rw [fit_ok (by rw [List.length_take]; exact Nat.le_trans (Nat.min_le_left _ _) (Nat.not_lt.mp hfl))]
              dsimp only
              unfold dispatch
              split
              · rw [failIf_fault]
                unfold handleM1
                split
                · rfl
                · dsimp only
                  split
                  · rfl
                  · split
                    · rfl
                    · split <;> rfl
              · split
                · next t es hm =>
                  unfold m1Again at hm
                  split at hm
                  · cases hm
                  · split at hm
                    · split at hm <;> (cases hm; rfl)
                    · cases hm; rfl
                · rw [failIf_fault]
                  unfold handleM3
                  split
                  · rfl
                  · split
                    · rfl
                    · split
                      · rfl
                      · split
                        · rfl
                        · split
                          · next x hx =>
                            exact blame_reject (fun c => (key_data_exact C s _ true).1 (by rw [hx, c]))
                          · dsimp only
                            split
                            · rfl
                            · split <;> rfl
              · split
                · unfold handleGroup
                  split
                  · rfl
                  · split
                    · rfl
                    · split
                      · rfl
                      · split
                        · next x hx =>
                          exact blame_reject (fun c => (key_data_exact C s _ false).1 (by rw [hx, c]))
                        · split <;> rfl
                · rfl
              all_goals rfl
        · rw [hp]
          rfl

theorem step_fault (C : Crypto) (s : S) (o : Op) : (step C s o).1.fault = s.fault := by
  cases o with
  | init c e =>
    show (init C s c e).1.fault = s.fault
    unfold init
    split
    · rfl
    · dsimp only
      split
      · rfl
      · next s2 h =>
        show s2.fault = s.fault
        split at h
        · obtain ⟨k, hh, hb, he⟩ := initPsk_eq h
          rw [he]
        · unfold initOther at h
          split at h
          · rw [← Option.some.inj h]
          · cases h
  | deinit => rfl
  | kick now e =>
    show (kick s now e).1.fault = s.fault
    unfold kick
    split
    · rfl
    · dsimp only
      split
      · split <;> rfl
      · split <;> rfl
      · split
        · rfl
        · split <;> rfl
      · rfl
  | rx f now e => exact rx_fault C s f now e
  | rxAuth f e =>
    show (rxAuth s f e).1.fault = s.fault
    unfold rxAuth
    dsimp only
    generalize (if f.getD 2 0 + 256 * f.getD 3 0 = 1 ∧ s.saeH2e = true then 126 else 0) = ex
    (repeat' split) <;> rfl
  | tick now e =>
    show (tick C s now e).1.fault = s.fault
    unfold tick
    split
    · rfl
    · split
      · rfl
      · split
        · rfl
        · split
          · rfl
          · split
            · rfl
            · dsimp only
              split <;> rfl
  | installPmk k =>
    show (installPmk s k).1.fault = s.fault
    unfold installPmk
    (repeat' split) <;> rfl
  | clear => rfl
  | reconnect =>
    show (reconnect s).1.fault = s.fault
    unfold reconnect
    split
    · rfl
    · split
      · rfl
      · split
        · rfl
        · next t ht =>
          show t.fault = s.fault
          unfold addPmkid at ht
          split at ht
          · rw [← Option.some.inj ht]
          · split at ht
            · rw [← Option.some.inj ht]
            · cases ht

/-- **C67, memory safety.**  Whatever frames arrive, in whatever order with the other calls, no byte
outside a received frame, the scratch copy or the plaintext buffer is ever accessed. -/
theorem supplicant_memory_safe (C : Crypto) (ops : List Op) : (run C ops).fault = false := by
  rw [run_eq]
  have : ∀ (ops : List Op) (s : S), (runFrom C s ops).fault = s.fault := by
    intro ops
    induction ops with
    | nil => intro s; rfl
    | cons o os ih => intro s; exact (ih _).trans (step_fault C s o)
  exact this ops S.zero

/-! ## Frames sent -/

theorem split3 (f : Bytes) : f.take 81 ++ (f.drop 81).take 16 ++ f.drop 97 = f := by
  rw [← List.take_add, List.take_append_drop]

theorem putMic_zero {f m : Bytes} (hl : 97 ≤ f.length) (hm : m.length = 16)
    (hz : (f.drop 81).take 16 = zeros 16) :
    zeroMic (putMic f m) = f ∧ ((putMic f m).drop 81).take 16 = m ∧
    (putMic f m).length = f.length := by
  have h81 : (f.take 81).length = 81 := by rw [List.length_take]; omega
  have e1 : (putMic f m).take 81 = f.take 81 := by
    unfold putMic
    rw [List.append_assoc, List.take_left' h81]
  have e2 : (putMic f m).drop 97 = f.drop 97 := by
    unfold putMic
    rw [List.drop_left' (by rw [List.length_append, h81, hm])]
  have e3 : (putMic f m).drop 81 = m ++ f.drop 97 := by
    unfold putMic
    rw [List.append_assoc, List.drop_left' h81]
  refine ⟨?_, ?_, ?_⟩
  · unfold zeroMic
    rw [e1, e2, ← hz, split3]
  · rw [e3, List.take_left' hm]
  · unfold putMic
    rw [List.length_append, List.length_append, h81, hm, List.length_drop]
    omega

/-- **C67, frames sent.**  Every EAPOL-Key frame the supplicant builds (M2, M4, group M2) fits its
163-byte buffer, carries the given fields, and its MIC is the MIC, under the current KCK, of the frame
with the MIC field zeroed - what the authenticator verifies. -/
theorem sent_key_frame_valid (C : Crypto) (s : S) (info klen : Nat) (replay nonce kd f : Bytes)
    (hi : info < 65536) (hk : klen < 65536) (hr : replay.length = 8) (hn : nonce.length = 32)
    (h : mkKey C s info klen replay nonce kd = some f) :
    s.live = true ∧ f.length = 99 + kd.length ∧ f.length ≤ 163 ∧
    C.mic s.cmac s.ptk.kck (zeroMic f) = some (frMic f) ∧
    keyParse f = .ok ⟨f.length, info, klen, replay, nonce, frMic f, kd⟩ := by
  unfold mkKey at h
  split at h
  · cases h
  · split at h
    · cases h
    · next f0 hb =>
      split at h
      · cases h
      · next m hm =>
        split at h
        · next hlive =>
          have hf := (Option.some.inj h).symm
          obtain ⟨h1, h2, h3⟩ := key_build_parse 163 info klen replay nonce kd f0 [] hi hk hr hn hb
          rw [List.append_nil] at h3
          rcases key_parse_exact f0 with ⟨hk0, hp0, _⟩ | ⟨_, hp0⟩
          · rw [h3] at hp0
            have hv := Except.ok.inj hp0
            have v1 : f0.length = num16 f0 2 + 4 := congrArg View.frameLen hv
            have v2 : info = num16 f0 5 := congrArg View.keyInfo hv
            have v3 : klen = num16 f0 7 := congrArg View.keyLen hv
            have v4 : replay = (f0.drop 9).take 8 := congrArg View.replay hv
            have v5 : nonce = (f0.drop 17).take 32 := congrArg View.nonce hv
            have v6 : List.replicate 16 0 = (f0.drop 81).take 16 := congrArg View.mic hv
            have v7 : kd = (f0.drop 99).take (num16 f0 97) := congrArg View.keyData hv
            obtain ⟨p1, p2, p3⟩ := putMic_zero (by omega) (C.mic_len _ _ _ _ hm) v6.symm
            rw [← hf] at p1 p2 p3
            have hmic : frMic f = m := p2
            have e81 : f.take 81 = f0.take 81 := by
              have h81 : (f0.take 81).length = 81 := by rw [List.length_take]; omega
              rw [hf]; unfold putMic
              rw [List.append_assoc, List.take_left' h81]
            have e97 : f.drop 97 = f0.drop 97 := by
              rw [hf]; unfold putMic
              rw [List.drop_left' (by
                rw [List.length_append, List.length_take, C.mic_len _ _ _ _ hm]; omega)]
            have gl : ∀ i, i < 81 → f.getD i 0 = f0.getD i 0 := by
              intro i hi
              rw [List.getD_eq_getElem?_getD, List.getD_eq_getElem?_getD,
                ← List.getElem?_take_of_lt hi, e81, List.getElem?_take_of_lt hi]
            have gh : ∀ i, f.getD (97 + i) 0 = f0.getD (97 + i) 0 := by
              intro i
              rw [List.getD_eq_getElem?_getD, List.getD_eq_getElem?_getD, ← List.getElem?_drop, e97,
                List.getElem?_drop]
            have nl : ∀ i, i + 1 < 81 → num16 f i = num16 f0 i := by
              intro i hi
              unfold num16
              rw [gl i (by omega), gl (i + 1) hi]
            have nh : num16 f 97 = num16 f0 97 := by
              unfold num16
              rw [show (97 : Nat) = 97 + 0 from rfl, gh 0, show 97 + 0 + 1 = 97 + 1 from rfl, gh 1]
            have sl1 : ∀ a n, a + n ≤ 81 → (f.drop a).take n = (f0.drop a).take n := by
              intro a n han
              have : ∀ g : Bytes, (g.drop a).take n = ((g.take 81).drop a).take n := by
                intro g
                rw [List.drop_take, List.take_take, Nat.min_eq_left (by omega)]
              rw [this f, this f0, e81]
            have sl2 : f.drop 99 = f0.drop 99 := by
              have : ∀ g : Bytes, g.drop 99 = (g.drop 97).drop 2 := by
                intro g; rw [List.drop_drop]
              rw [this f, this f0, e97]
            refine ⟨hlive, by rw [p3]; exact h2, by rw [p3]; exact h1, ?_, ?_⟩
            · rw [p1, hmic]; exact hm
            · have hkf : KeyFrame f := by
                refine ⟨by omega, ?_, ?_, ?_, ?_, ?_, ?_⟩
                · rw [gl 0 (by omega)]; exact hk0.ver
                · rw [gl 1 (by omega)]; exact hk0.type
                · rw [nl 2 (by omega), p3]; exact hk0.body
                · rw [nl 2 (by omega)]; exact hk0.fixed
                · rw [gl 4 (by omega)]; exact hk0.desc
                · rw [nl 2 (by omega), nh]; exact hk0.data
              rcases key_parse_exact f with ⟨_, hp, _⟩ | ⟨hc, _⟩
              · rw [hp, nl 2 (by omega), nl 5 (by omega), nl 7 (by omega), sl1 9 8 (by omega),
                  sl1 17 32 (by omega), sl2, nh, ← v1, ← v2, ← v3, ← v4, ← v5, ← v7, p3]
                rfl
              · exact absurd hkf hc
          · rw [h3] at hp0; cases hp0
        · cases h

/-! ## The deadline -/

/-- Calls within one association, of any kind. -/
inductive Stays (C : Crypto) : S → S → Prop where
  | refl (s : S) : Stays C s s
  | next {s t : S} (o : Op) (h : Stays C s t)
      (hn : o.restarts = false ∨ (step C t o).1 = t) : Stays C s (step C t o).1

/-- A handshake that began at `t0` and is under way or over. -/
def Begun (t0 : Nat) (s : S) : Prop := s.st ≠ .idle ∧ s.hsStart = t0

theorem begun_step (C : Crypto) (t0 : Nat) (s : S) (o : Op) (h : Begun t0 s)
    (hn : o.restarts = false ∨ (step C s o).1 = s) : Begun t0 (step C s o).1 := by
  have hsame : ∀ t : S, Same s t → t.st ≠ .idle → Begun t0 t := by
    intro t hs ht
    refine ⟨ht, ?_⟩
    rcases hs.start with h1 | h1
    · exact h1.trans h.2
    · exact absurd h1 h.1
  have hpas : ∀ r, Passive s r → Begun t0 r.1 := by
    intro r hp
    refine hsame _ hp.same ?_
    rcases hp.st with h1 | h1 | h1
    · rw [h1]; exact h.1
    · rw [h1]; intro c; cases c
    · exact h1.2.2.2
  cases step_case C s o with
  | rx f now e ho hr =>
    cases hr with
    | passive hp => exact hpas _ hp
    | m1Fail hs h1 _ hr _ => exact ⟨(by rw [h1]; intro c; cases c), hr.2.2.2.1.trans h.2⟩
    | m1 hd _ => exact ⟨(by rw [hd.to]; intro c; cases c), hd.rest.2.2.1.trans h.2⟩
    | m3 g hs hg hev hst hrest =>
      refine ⟨?_, hrest.2.2.2.2.2.1.trans h.2⟩
      rcases hst with hst | hst
      · rw [hst.1]; intro c; cases c
      · rw [hst.1]; intro c; cases c
    | group g hs hg hev hst => rw [hst]; exact h
    | groupFail g hs hg hev hst => rw [hst]; exact h
  | passive _ hp => exact hpas _ hp
  | clear _ h1 h2 _ => exact hsame _ h1 (by rw [h2]; exact h.1)
  | restart ho _ _ =>
    rcases hn with h1 | h1
    · rw [ho] at h1; cases h1
    · rw [h1]; exact h

theorem kick_begun (s : S) (t0 : Nat) (e : Env) (h : (kick s t0 e).2.1 = true) :
    Begun t0 (kick s t0 e).1 := by
  unfold kick at h ⊢
  split at h
  · cases h
  · next hs =>
    rw [if_neg hs]
    dsimp only at h ⊢
    split at h
    · next hm =>
      split at h
      · next hc => rw [if_pos hc]; exact ⟨(by intro c; cases c), rfl⟩
      · cases h
    · next hm =>
      split at h
      · next hc => rw [if_pos hc]; exact ⟨(by intro c; cases c), rfl⟩
      · cases h
    · next hm =>
      split at h
      · next hc => rw [if_pos hc]; exact ⟨(by intro c; cases c), rfl⟩
      · next hn =>
        rw [if_neg hn]
        split at h
        · next hc => rw [if_pos hc]; exact ⟨(by intro c; cases c), rfl⟩
        · cases h
    · exact ⟨(by intro c; cases c), rfl⟩

/-- **C70, deadline.**  Whatever frames arrive or fail to arrive after the handshake is started at
time `t0`, a timer call at `t0 + 10 s` or later leaves it authenticated or failed: it never hangs. -/
theorem handshake_deadline (C : Crypto) (s t : S) (t0 now : Nat) (e e' : Env)
    (hk : (step C s (.kick t0 e)).2.1 = true) (hw : Stays C (step C s (.kick t0 e)).1 t)
    (hnow : t0 + 10000 ≤ now) :
    (step C t (.tick now e')).1.st = .auth ∨ (step C t (.tick now e')).1.st = .failed := by
  have hb : Begun t0 t := by
    have h0 : Begun t0 (step C s (.kick t0 e)).1 := kick_begun s t0 e hk
    generalize (step C s (.kick t0 e)).1 = u at hw h0
    induction hw with
    | refl => exact h0
    | next o hw hn ih => exact begun_step C t0 _ o ih hn
  obtain ⟨h1, h2⟩ := hb
  show (tick C t now e').1.st = .auth ∨ (tick C t now e').1.st = .failed
  unfold tick
  split
  · exact Or.inr rfl
  · next hc =>
    have h3 : t.st = .auth ∨ t.st = .failed := by
      by_cases ha : t.st = .auth
      · exact Or.inl ha
      · by_cases hf : t.st = .failed
        · exact Or.inr hf
        · exact absurd ⟨h1, ha, hf, by omega, by omega⟩ hc
    rw [if_pos (by rcases h3 with h3 | h3 <;> rw [h3] <;> (intro c; cases c))]
    exact h3

/-- The key frames among the effects. -/
def keyFrames (es : List Ev) : Nat := (es.filter (fun ev => match ev with
  | .key _ => true
  | .other => false
  | .pair _ _ => false
  | .group _ _ _ => false)).length

/-- The key frames sent over a sequence of timer calls. -/
def tickSends (C : Crypto) : S → List (Nat × Env) → Nat
  | _, [] => 0
  | s, (now, e) :: r =>
    keyFrames (step C s (.tick now e)).2.2 + tickSends C (step C s (.tick now e)).1 r

theorem sendKey_one (C : Crypto) (s : S) (e : Env) (i k : Nat) (r n d : Bytes) :
    keyFrames (sendKey C s e i k r n d).2 ≤ 1 := by
  unfold sendKey
  split
  · decide
  · exact Nat.le_refl 1

theorem tick_sends_le (C : Crypto) (l : List (Nat × Env)) : ∀ s : S, tickSends C s l ≤ s.retries := by
  induction l with
  | nil => intro s; exact Nat.zero_le _
  | cons x r ih =>
    intro s
    obtain ⟨now, e⟩ := x
    show keyFrames (tick C s now e).2.2 + tickSends C (tick C s now e).1 r ≤ s.retries
    have key : (keyFrames (tick C s now e).2.2 = 0 ∧ (tick C s now e).1.retries ≤ s.retries) ∨
        (keyFrames (tick C s now e).2.2 ≤ 1 ∧ (tick C s now e).1.retries + 1 ≤ s.retries) := by
      unfold tick
      split
      · exact Or.inl ⟨rfl, Nat.le_refl _⟩
      · split
        · exact Or.inl ⟨rfl, Nat.le_refl _⟩
        · split
          · exact Or.inl ⟨rfl, Nat.le_refl _⟩
          · split
            · exact Or.inl ⟨rfl, Nat.le_refl _⟩
            · split
              · exact Or.inl ⟨rfl, Nat.le_refl _⟩
              · next h0 =>
                right
                dsimp only
                have h1 := sendKey_one C { s with retries := s.retries - 1 } e (s.ver + 8 + 256) 16
                  s.lastReplay s.snonce s.ownIe
                have hd : sendM2 C { s with retries := s.retries - 1 } e =
                  sendKey C { s with retries := s.retries - 1 } e (s.ver + 8 + 256) 16
                  s.lastReplay s.snonce s.ownIe := rfl
                rw [← hd] at h1
                split
                · next es hes =>
                  rw [hes] at h1
                  exact ⟨h1, by dsimp only; omega⟩
                · next es hes =>
                  rw [hes] at h1
                  exact ⟨h1, by dsimp only; omega⟩
    have := ih (tick C s now e).1
    omega

theorem retries_le (C : Crypto) (ops : List Op) : (run C ops).retries ≤ 3 := by
  rw [run_eq]
  have hfail : ∀ r : S × Bool × List Ev, (failIf r).1.retries = r.1.retries := by
    intro r; unfold failIf; split <;> rfl
  have hblame : ∀ (s : S) x, (s.blame x).retries = s.retries := by
    intro s x; cases x <;> rfl
  have key : ∀ (s : S) (o : Op), s.retries ≤ 3 → (step C s o).1.retries ≤ 3 := by
    intro s o h
    cases o with
    | init c e =>
      show (init C s c e).1.retries ≤ 3
      unfold init
      split
      · exact h
      · dsimp only
        split
        · exact Nat.zero_le _
        · next s2 h2 =>
          show s2.retries ≤ 3
          split at h2
          · obtain ⟨k, hh, hb, he⟩ := initPsk_eq h2
            rw [he]
            exact Nat.zero_le _
          · unfold initOther at h2
            split at h2
            · rw [← Option.some.inj h2]; exact Nat.zero_le _
            · cases h2
    | deinit => exact Nat.zero_le _
    | kick now e =>
      show (kick s now e).1.retries ≤ 3
      unfold kick
      split
      · exact h
      · dsimp only
        split
        · split <;> exact Nat.le_refl 3
        · split <;> exact Nat.le_refl 3
        · split
          · exact Nat.le_refl 3
          · split <;> exact Nat.le_refl 3
        · exact Nat.le_refl 3
    | rx f now e =>
      show (rx C s f now e).1.retries ≤ 3
      unfold rx
      split
      · exact h
      · split
        · rw [hblame]; exact h
        · split
          · unfold rxEap
            split
            · rw [hblame]; exact h
            · split
              · exact h
              · split
                · rw [hblame]; exact h
                · split
                  · rw [hfail]; unfold eapRequest; (repeat' split) <;> exact h
                  · split
                    · rw [hfail]; unfold eapSuccess; (repeat' split) <;> exact h
                    · split <;> exact h
          · split
            · exact h
            · unfold rxKey
              split
              · rw [hblame]; exact h
              · split
                · exact h
                · split
                  · exact h
                  · split
                    · rw [hblame]; exact h
                    unfold dispatch
                    split
                    · rw [hfail]
                      unfold handleM1
                      split
                      · exact h
                      · dsimp only
                        split
                        · exact h
                        · split
                          · exact h
                          · split
                            · exact h
                            · exact Nat.le_refl 3
                    · split
                      · next t es hm =>
                        unfold m1Again at hm
                        split at hm
                        · cases hm
                        · split at hm
                          · split at hm
                            · cases hm; exact Nat.le_refl 3
                            · cases hm; exact h
                          · cases hm; exact h
                      · rw [hfail]
                        unfold handleM3
                        split
                        · exact h
                        · split
                          · exact h
                          · split
                            · exact h
                            · split
                              · exact h
                              · split
                                · rw [hblame]; exact h
                                · dsimp only
                                  split
                                  · exact h
                                  · split <;> exact h
                    · split
                      · unfold handleGroup
                        split
                        · exact h
                        · split
                          · exact h
                          · split
                            · exact h
                            · split
                              · rw [hblame]; exact h
                              · split <;> exact h
                      · exact h
                    all_goals exact h
    | rxAuth f e =>
      show (rxAuth s f e).1.retries ≤ 3
      unfold rxAuth
      dsimp only
      generalize (if f.getD 2 0 + 256 * f.getD 3 0 = 1 ∧ s.saeH2e = true then 126 else 0) = ex
      (repeat' split) <;> exact h
    | tick now e =>
      show (tick C s now e).1.retries ≤ 3
      unfold tick
      split
      · exact h
      · split
        · exact h
        · split
          · exact h
          · split
            · exact h
            · split
              · exact h
              · dsimp only
                split
                · show s.retries - 1 ≤ 3; omega
                · show s.retries - 1 ≤ 3; omega
    | installPmk k =>
      show (installPmk s k).1.retries ≤ 3
      unfold installPmk
      (repeat' split) <;> exact h
    | clear => exact h
    | reconnect =>
      show (reconnect s).1.retries ≤ 3
      unfold reconnect
      split
      · exact h
      · split
        · exact h
        · split
          · exact h
          · exact Nat.zero_le _
  have go : ∀ (ops : List Op) (s : S), s.retries ≤ 3 → (runFrom C s ops).retries ≤ 3 := by
    intro ops
    induction ops with
    | nil => intro s h; exact h
    | cons o os ih => intro s h; exact ih _ (key s o h)
  exact go ops S.zero (Nat.zero_le _)

/-- **C70, retransmissions.**  After any history, however long the AP stays silent and however often
the timer runs, at most three further copies of message 2 are sent. -/
theorem m2_retransmissions_bounded (C : Crypto) (ops : List Op) (l : List (Nat × Env)) :
    tickSends C (run C ops) l ≤ 3 :=
  Nat.le_trans (tick_sends_le C l _) (retries_le C ops)

/-- **C70, spacing.**  The timer sends message 2 only while message 3 is awaited, and at least a
second after the previous copy. -/
theorem m2_retry_spacing (C : Crypto) (s : S) (now : Nat) (e : Env)
    (h : 0 < keyFrames (step C s (.tick now e)).2.2) :
    s.st = .m3Wait ∧ s.m2Send + 1000 ≤ now ∧ now < s.hsStart + 10000 := by
  have h' : 0 < keyFrames (tick C s now e).2.2 := h
  clear h
  unfold tick at h'
  split at h'
  · cases h'
  · next h1 =>
    split at h'
    · cases h'
    · next h2 =>
      split at h'
      · cases h'
      · next h3 =>
        split at h'
        · cases h'
        · next h4 =>
          have h5 : s.st = .m3Wait := Classical.not_not.mp h2
          refine ⟨h5, by omega, ?_⟩
          rw [h5] at h1
          have h6 : ¬ (now > s.hsStart ∧ now - s.hsStart ≥ 10000) := fun c =>
            h1 ⟨(by intro c; cases c), (by intro c; cases c), (by intro c; cases c), c.1, c.2⟩
          omega

end Wolf.Supp
