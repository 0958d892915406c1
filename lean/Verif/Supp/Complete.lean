import Verif.Supp.Demo

/-!
# The four-way handshake completes (C98), and who can stop it (C99)
-/

namespace Wolf.Supp

/-! ## What the authenticator sends, and what it checks -/

/-- Message 1: a pairwise key frame with Ack and without MIC. -/
structure ApM1 (ver : Nat) (an r f : Bytes) : Prop where
  frame : KeyFrame f
  size : num16 f 2 + 4 ≤ 355
  version : frInfo f % 8 = ver
  bits : (frInfo f).testBit 3 = true ∧ (frInfo f).testBit 7 = true ∧ (frInfo f).testBit 8 = false
  nonce : frNonce f = an
  replay : frReplay f = r

/-- Message 3: pairwise, Install, Ack, MIC, encrypted key data; the MIC is right under the KCK and
the key data unwraps under the KEK to elements that contain the announced RSN element (and no other
one) and a group key. -/
structure ApM3 (C : Crypto) (cmac : Bool) (ver : Nat) (apIe : Bytes) (p : Ptk) (an r : Bytes)
    (g : Nat × Bytes) (f : Bytes) : Prop where
  frame : KeyFrame f
  size : num16 f 2 + 4 ≤ 355
  version : frInfo f % 8 = ver
  bits : (frInfo f).testBit 3 = true ∧ (frInfo f).testBit 6 = true ∧ (frInfo f).testBit 7 = true ∧
    (frInfo f).testBit 8 = true ∧ (frInfo f).testBit 12 = true
  nonce : frNonce f = an
  replay : frReplay f = r
  mic : MicValid C cmac p.kck f
  wrapped : 24 ≤ (frData f).length ∧ (frData f).length ≤ 264 ∧ (frData f).length % 8 = 0
  data : ∃ plain, C.unwrap p.kek (frData f) = some plain ∧ GoodKeyData true apIe plain g

/-- What the authenticator accepts as an answer. -/
structure Answer (C : Crypto) (cmac : Bool) (kck : Bytes) (info : Nat) (r nonce kd f : Bytes) : Prop where
  frame : KeyFrame f
  info : frInfo f = info
  replay : frReplay f = r
  nonce : frNonce f = nonce
  data : frData f = kd
  mic : MicValid C cmac kck f

/-- A frame the supplicant ignores: too short, not an EAP or key frame, or a key frame that is
malformed, of another descriptor version, or too long. -/
def Ignored (ver : Nat) (f : Bytes) : Prop :=
  f.length < 4 ∨ (f.getD 1 0 ≠ 0 ∧ (¬ KeyFrame f ∨ frInfo f % 8 ≠ ver ∨ 355 < num16 f 2 + 4))

/-- What may happen between messages 1 and 3: message 1 again (or another one), ignored frames, and
the timer; `hs` is when the handshake was kicked off, `t1` when message 1 came. -/
def Benign (ver hs t1 : Nat) : Op → Prop
  | .rx f now _ => t1 ≤ now ∧ ((∃ an r, ApM1 ver an r f) ∨ Ignored ver f)
  | .tick now e => e.send = true ∧ now < hs + 10000 ∧ now < t1 + 4000
  | .clear => True
  | .kick _ _ => True
  | .init _ _ | .deinit | .rxAuth _ _ | .installPmk _ | .reconnect => False

/-! ## Frames sent -/

theorem mkKey_some {C : Crypto} {s : S} {info klen : Nat} {replay nonce kd : Bytes}
    (hl : s.live = true) (hk : kd.length ≤ 64) (hm : ∀ f, (C.mic s.cmac s.ptk.kck f).isSome)
    (hi : info < 65536) (hkl : klen < 65536) (hr : replay.length = 8) (hn : nonce.length = 32) :
    ∃ f, mkKey C s info klen replay nonce kd = some f ∧
      Answer C s.cmac s.ptk.kck info replay nonce kd f := by
  have hb : ∃ f0, keyBuild 163 info klen replay nonce kd = some f0 := by
    unfold keyBuild
    rw [if_neg (by omega), if_neg (by omega)]
    exact ⟨_, rfl⟩
  obtain ⟨f0, hb⟩ := hb
  obtain ⟨m, hm0⟩ := Option.isSome_iff_exists.1 (hm f0)
  have hmk : mkKey C s info klen replay nonce kd = some (putMic f0 m) := by
    unfold mkKey
    rw [if_neg (by omega), hb]
    dsimp only
    rw [hm0]
    dsimp only
    rw [if_pos hl]
  refine ⟨_, hmk, ?_⟩
  obtain ⟨-, h2, -, h4, h5⟩ := sent_key_frame_valid C s info klen replay nonce kd _ hi hkl hr hn hmk
  generalize putMic f0 m = f at h2 h4 h5
  rcases key_parse_exact f with ⟨hk0, hp0, _⟩ | ⟨_, hp0⟩
  · rw [h5] at hp0
    have hv := Except.ok.inj hp0
    have v1 : f.length = num16 f 2 + 4 := congrArg View.frameLen hv
    refine ⟨hk0, (congrArg View.keyInfo hv).symm, (congrArg View.replay hv).symm,
      (congrArg View.nonce hv).symm, (congrArg View.keyData hv).symm, ?_⟩
    unfold MicValid frBody
    rw [← v1, List.take_length]
    exact h4
  · rw [h5] at hp0
    cases hp0

theorem sendKey_some {C : Crypto} {s : S} {e : Env} {info klen : Nat} {replay nonce kd f : Bytes}
    (h : mkKey C s info klen replay nonce kd = some f) :
    sendKey C s e info klen replay nonce kd = (e.send, [.key f]) := by
  unfold sendKey
  rw [h]

/-- A well-formed key frame of the right version reaches the dispatch. -/
theorem rx_key {C : Crypto} {s : S} {f : Bytes} {now : Nat} {e : Env} (hf : KeyFrame f)
    (hs : num16 f 2 + 4 ≤ 355) (hv : frInfo f % 8 = s.ver) :
    rx C s f now e = dispatch C s ⟨num16 f 2 + 4, frInfo f, num16 f 7, frReplay f, frNonce f, frMic f,
      frData f⟩ (frBody f) now e := by
  have hl := hf.len
  unfold rx
  rw [if_neg (by omega), ld_num (show 1 < f.length by omega)]
  dsimp only
  rw [if_neg (by rw [hf.type]; decide), if_neg (fun c => c hf.type)]
  unfold rxKey
  rcases key_parse_exact f with ⟨_, hp, _⟩ | ⟨hn, _⟩
  · rw [hp]
    dsimp only
    rw [if_neg (fun c => c hv), if_neg (by omega), fit_ok (by
      rw [List.length_take]; exact Nat.le_trans (Nat.min_le_left _ _) hs)]
    rfl
  · exact absurd hf hn

theorem rx_ignored {C : Crypto} {s : S} {f : Bytes} {now : Nat} {e : Env} (h : Ignored s.ver f) :
    rx C s f now e = (s, false, []) := by
  unfold rx
  by_cases h4 : f.length < 4
  · rw [if_pos h4]
  · rw [if_neg h4, ld_num (show 1 < f.length by omega)]
    dsimp only
    rcases h with h | ⟨h0, h⟩
    · exact absurd h h4
    · rw [if_neg h0]
      by_cases h3 : f.getD 1 0 ≠ 3
      · rw [if_pos h3]
      · rw [if_neg h3]
        unfold rxKey
        rcases key_parse_exact f with ⟨hk, hp, _⟩ | ⟨hn, hp⟩
        · rw [hp]
          dsimp only
          rcases h with h | h | h
          · exact absurd hk h
          · rw [if_pos (show num16 f 5 % 8 ≠ s.ver from h)]
          · by_cases hv : num16 f 5 % 8 ≠ s.ver
            · rw [if_pos hv]
            · rw [if_neg hv, if_pos h]
        · rw [hp]
          rfl

/-! ## Waiting for message 3 -/

/-- The supplicant answered message 1 at `t1` and waits. -/
structure Waiting (s0 : S) (p : Ptk) (an r sn : Bytes) (t1 : Nat) (s : S) : Prop where
  st : s.st = .m3Wait
  ptk : s.ptk = p
  havePtk : s.havePtk = true
  anonce : s.anonce = an
  snonce : s.snonce = sn
  replay : s.lastReplay = r
  haveReplay : s.haveReplay = true
  live : s.live = s0.live
  hasInstall : s.hasInstall = s0.hasInstall
  ownIe : s.ownIe = s0.ownIe
  apIe : s.apIe = s0.apIe
  mode : s.mode = s0.mode
  start : s.hsStart = s0.hsStart
  retries : s.retries ≤ 3
  time : t1 + 1000 * (3 - s.retries) ≤ s.m2Send

/-- What the supplicant needs for the handshake: a live context with room for its RSN element, and a
MIC function that does not fail under this key. -/
structure Able (C : Crypto) (s : S) (kck : Bytes) : Prop where
  live : s.live = true
  ie : s.ownIe.length ≤ 64
  mic : ∀ f, (C.mic s.cmac kck f).isSome

theorem cmac_eq {s t : S} (h : s.mode = t.mode) : s.cmac = t.cmac := by unfold S.cmac; rw [h]

theorem ver_eq {s t : S} (h : s.mode = t.mode) : s.ver = t.ver := by unfold S.ver; rw [cmac_eq h]

theorem ver_le (s : S) : s.ver ≤ 2 := by unfold S.ver; split <;> decide

theorem sendM2_ok {C : Crypto} {s0 : S} {p : Ptk} {s : S} {e : Env} (ha : Able C s0 p.kck)
    (hp : s.ptk = p) (hl : s.live = s0.live) (hie : s.ownIe = s0.ownIe) (hm : s.mode = s0.mode)
    (hr : s.lastReplay.length = 8) (hn : s.snonce.length = 32) :
    ∃ f, sendM2 C s e = (e.send, [.key f]) ∧
      Answer C s0.cmac p.kck (s0.ver + 8 + 256) s.lastReplay s.snonce s0.ownIe f := by
  have hv := ver_le s
  obtain ⟨f, hf, ans⟩ := mkKey_some (C := C) (s := s) (info := s.ver + 8 + 256) (klen := 16)
    (replay := s.lastReplay) (nonce := s.snonce) (kd := s.ownIe) (by rw [hl, ha.live])
    (by rw [hie]; exact ha.ie) (by rw [cmac_eq hm, hp]; exact ha.mic) (by omega) (by decide) hr hn
  refine ⟨f, ?_, ?_⟩
  · unfold sendM2
    exact sendKey_some hf
  · rw [cmac_eq hm, hp, ver_eq hm, hie] at ans
    exact ans

theorem frNonce_len {f : Bytes} (h : KeyFrame f) : (frNonce f).length = 32 := by
  have := h.len
  unfold frNonce
  rw [List.length_take, List.length_drop]
  omega

theorem frReplay_len {f : Bytes} (h : KeyFrame f) : (frReplay f).length = 8 := by
  have := h.len
  unfold frReplay
  rw [List.length_take, List.length_drop]
  omega

/-- Message 1 is answered. -/
theorem m1_answered {C : Crypto} {s : S} {p : Ptk} {an r sn f1 : Bytes} {t1 : Nat} {e : Env}
    (hst : s.st = .m1Wait) (ha : Able C s p.kck) (h1 : ApM1 s.ver an r f1) (hrnd : e.rnd = some sn)
    (hsn : sn.length = 32) (hp : C.ptk s.cmac s.pmk s.apMac s.staMac an sn = some p)
    (hsend : e.send = true) :
    ∃ f2, (rx C s f1 t1 e).2 = (true, [.key f2]) ∧
      Answer C s.cmac p.kck (s.ver + 8 + 256) r sn s.ownIe f2 ∧
      Waiting s p an r sn t1 (rx C s f1 t1 e).1 := by
  rw [rx_key h1.frame h1.size h1.version]
  unfold dispatch
  rw [hst]
  dsimp only
  unfold handleM1
  rw [if_neg (by
    rw [(has_bits _ _ _).2]
    · decide
    · obtain ⟨b3, b7, b8⟩ := h1.bits
      constructor
      · intro k hk
        rcases List.mem_cons.1 hk with rfl | hk
        · exact b3
        · rw [List.eq_of_mem_singleton hk]; exact b7
      · intro k hk
        rw [List.eq_of_mem_singleton hk]; exact b8)]
  dsimp only
  rw [hrnd]
  dsimp only
  rw [show C.ptk ({ s with anonce := frNonce f1, snonce := sn } : S).cmac s.pmk s.apMac s.staMac
    (frNonce f1) sn = some p from by rw [h1.nonce]; exact hp]
  dsimp only
  generalize hs1 : ({ s with anonce := frNonce f1, snonce := sn, ptk := p, havePtk := true, lastReplay := frReplay f1, haveReplay := true } : S) = s1
  have e1 : s1.ptk = p := by rw [← hs1]
  have e2 : s1.live = s.live := by rw [← hs1]
  have e3 : s1.ownIe = s.ownIe := by rw [← hs1]
  have e4 : s1.mode = s.mode := by rw [← hs1]
  have e5 : s1.lastReplay = r := by rw [← hs1]; exact h1.replay
  have e6 : s1.snonce = sn := by rw [← hs1]
  have hr8 : s1.lastReplay.length = 8 := by rw [e5, ← h1.replay]; exact frReplay_len h1.frame
  obtain ⟨f2, hf2, ans⟩ := sendM2_ok (e := e) ha e1 e2 e3 e4 hr8 (by rw [e6, hsn])
  rw [hsend] at hf2
  rw [hf2]
  dsimp only
  rw [e5, e6] at ans
  refine ⟨f2, rfl, ans, ?_⟩
  unfold failIf
  rw [if_pos rfl]
  exact ⟨rfl, rfl, rfl, h1.nonce, rfl, h1.replay, rfl, rfl, rfl, rfl, rfl, rfl, rfl, Nat.le_refl _, Nat.le_refl _⟩

/-- While waiting, benign events change nothing that matters. -/
theorem waiting_step {C : Crypto} {s0 s : S} {p : Ptk} {an r sn : Bytes} {t1 : Nat} {o : Op}
    (ha : Able C s0 p.kck) (hr : r.length = 8) (hsn : sn.length = 32)
    (hw : Waiting s0 p an r sn t1 s) (hb : Benign s0.ver s0.hsStart t1 o) :
    Waiting s0 p an r sn t1 (step C s o).1 := by
  have hm2 : ∀ (e : Env) (k : Nat), ∃ f, sendM2 C { s with retries := k } e = (e.send, [.key f]) := by
    intro e k
    obtain ⟨f, hf, -⟩ := sendM2_ok (s := { s with retries := k }) (e := e) ha hw.ptk hw.live hw.ownIe
      hw.mode (by rw [show ({ s with retries := k } : S).lastReplay = s.lastReplay from rfl, hw.replay, hr])
      (by rw [show ({ s with retries := k } : S).snonce = s.snonce from rfl, hw.snonce, hsn])
    exact ⟨f, hf⟩
  cases o with
  | rx f now e =>
    obtain ⟨ht, h | h⟩ := hb
    · obtain ⟨an', r', h1⟩ := h
      show Waiting _ _ _ _ _ _ (rx C s f now e).1
      rw [rx_key h1.frame h1.size (by rw [h1.version, ver_eq hw.mode])]
      unfold dispatch
      rw [hw.st]
      dsimp only
      unfold m1Again
      dsimp only
      rw [if_neg (by
        rw [(has_bits _ _ _).2]
        · decide
        · obtain ⟨b3, b7, b8⟩ := h1.bits
          constructor
          · intro k hk
            rcases List.mem_cons.1 hk with rfl | hk
            · exact b3
            · rw [List.eq_of_mem_singleton hk]; exact b7
          · intro k hk
            rw [List.eq_of_mem_singleton hk]; exact b8)]
      by_cases hc : s.havePtk = true ∧ frNonce f = s.anonce
      · rw [if_pos hc]
        obtain ⟨f2, hf2⟩ := hm2 e s.retries
        have hf2 : sendM2 C s e = (e.send, [.key f2]) := hf2
        rw [hf2]
        cases e.send with
        | true =>
          obtain ⟨a1, a2, a3, a4, a5, a6, a7, a8, a9, a10, a11, a12, a13, a14, a15⟩ := hw
          exact ⟨a1, a2, a3, a4, a5, a6, a7, a8, a9, a10, a11, a12, a13, Nat.le_refl _, ht⟩
        | false => exact hw
      · rw [if_neg hc]
        exact hw
    · show Waiting _ _ _ _ _ _ (rx C s f now e).1
      rw [rx_ignored (by rw [ver_eq hw.mode]; exact h)]
      exact hw
  | tick now e =>
    obtain ⟨hs, h10, h4⟩ := hb
    show Waiting _ _ _ _ _ _ (tick C s now e).1
    unfold tick
    rw [if_neg (by
      rintro ⟨-, -, -, -, c⟩
      rw [hw.start] at c
      omega), if_neg (by rw [hw.st]; exact fun c => c rfl)]
    split
    · exact hw
    · next g1 =>
      split
      · exact hw
      · next g2 =>
        have ht := hw.time
        have hrt := hw.retries
        rw [if_neg (by intro c; rw [c] at ht; omega)]
        dsimp only
        obtain ⟨f2, hf2⟩ := hm2 e (s.retries - 1)
        rw [hs] at hf2
        rw [hf2]
        dsimp only
        have hz : s.retries ≠ 0 := by intro c; rw [c] at ht; omega
        obtain ⟨a1, a2, a3, a4, a5, a6, a7, a8, a9, a10, a11, a12, a13, a14, a15⟩ := hw
        refine ⟨a1, a2, a3, a4, a5, a6, a7, a8, a9, a10, a11, a12, a13, ?_, ?_⟩
        · show s.retries - 1 ≤ 3
          omega
        · show t1 + 1000 * (3 - (s.retries - 1)) ≤ now
          omega
  | clear =>
    obtain ⟨a1, a2, a3, a4, a5, a6, a7, a8, a9, a10, a11, a12, a13, a14, a15⟩ := hw
    exact ⟨a1, a2, a3, a4, a5, a6, a7, a8, a9, a10, a11, a12, a13, a14, a15⟩
  | kick now e =>
    show Waiting _ _ _ _ _ _ (kick s now e).1
    unfold kick
    rw [if_pos (by rw [hw.st]; decide)]
    exact hw
  | init c e => exact absurd hb id
  | deinit => exact absurd hb id
  | rxAuth f e => exact absurd hb id
  | installPmk k => exact absurd hb id
  | reconnect => exact absurd hb id

theorem waiting_run {C : Crypto} {s0 : S} {p : Ptk} {an r sn : Bytes} {t1 : Nat}
    (ha : Able C s0 p.kck) (hr : r.length = 8) (hsn : sn.length = 32) : ∀ (ops : List Op) (s : S),
    Waiting s0 p an r sn t1 s → (∀ o ∈ ops, Benign s0.ver s0.hsStart t1 o) →
    Waiting s0 p an r sn t1 (runFrom C s ops)
  | [], _, h, _ => h
  | o :: ops, s, h, hb =>
    waiting_run ha hr hsn ops _ (waiting_step ha hr hsn h (hb o (List.mem_cons_self ..)))
      (fun x hx => hb x (List.mem_cons_of_mem _ hx))

/-- Message 3 is accepted. -/
theorem m3_accepted {C : Crypto} {s0 s : S} {p : Ptk} {an r r3 sn f3 : Bytes} {t1 t3 : Nat}
    {g : Nat × Bytes} {e : Env} (ha : Able C s0 p.kck) (hw : Waiting s0 p an r sn t1 s)
    (h3 : ApM3 C s0.cmac s0.ver s0.apIe p an r3 g f3) (hgt : memGt r3 r = true)
    (hsend : e.send = true) (hi1 : e.instPair = true) (hi2 : e.instGroup = true) :
    ∃ f4, (rx C s f3 t3 e).2 = (true, (if s0.hasInstall then [.pair p.tk true, .group g.1 g.2 true]
        else []) ++ [.key f4]) ∧ (rx C s f3 t3 e).1.st = .auth ∧
      Answer C s0.cmac p.kck (s0.ver + 8 + 256 + 512) r3 (zeros 32) [] f4 := by
  have hr3 : r3.length = 8 := by rw [← h3.replay]; exact frReplay_len h3.frame
  obtain ⟨b3, b6, b7, b8, b12⟩ := h3.bits
  rw [rx_key h3.frame h3.size (by rw [h3.version, ver_eq hw.mode])]
  have hcm := cmac_eq hw.mode
  generalize hv : (⟨num16 f3 2 + 4, frInfo f3, num16 f3 7, frReplay f3, frNonce f3, frMic f3,
    frData f3⟩ : View) = v
  have v1 : v.keyInfo = frInfo f3 := by rw [← hv]
  have v2 : v.replay = frReplay f3 := by rw [← hv]
  have v3 : v.nonce = frNonce f3 := by rw [← hv]
  have v4 : v.mic = frMic f3 := by rw [← hv]
  have v5 : v.keyData = frData f3 := by rw [← hv]
  have hm1 : m1Again C s v t3 e = none := by
    unfold m1Again
    rw [if_pos]
    apply Bool.eq_false_iff.2
    intro c
    have := ((has_bits _ _ _).1 c).2 8 (List.mem_cons_self ..)
    rw [v1, b8] at this
    cases this
  have hpk : parseKeyData C s v true = .ok g := by
    rw [(key_data_exact C s v true).2 g, v1, v5, hw.ptk, hw.apIe]
    exact ⟨h3.wrapped.1, h3.wrapped.2.1, h3.wrapped.2.2, b12, h3.data⟩
  have hgl := (group_key_size C s v true g hpk).1
  unfold dispatch
  rw [hw.st]
  dsimp only
  rw [hm1]
  dsimp only
  have hbits : has v.keyInfo [3, 7, 8, 6] [] = true := by
    rw [has_bits, v1]
    constructor
    · intro k hk
      simp only [List.mem_cons, List.not_mem_nil, or_false] at hk
      rcases hk with rfl | rfl | rfl | rfl <;> assumption
    · intro k hk
      cases hk
  have hmic : micOk C s v (frBody f3) = true := by
    unfold micOk
    rw [decide_eq_true_iff, v4, hw.ptk, hcm]
    exact h3.mic
  have hinst : installBoth s g.1 g.2 e =
      (true, if s0.hasInstall then [.pair p.tk true, .group g.1 g.2 true] else []) := by
    unfold installBoth
    rw [hw.hasInstall, hw.ptk, hi1, hi2]
    cases s0.hasInstall with
    | false => rfl
    | true =>
      rw [if_neg (by decide), if_neg (by decide), if_pos (by omega)]
      rfl
  obtain ⟨f4, hf4, ans⟩ := mkKey_some (C := C) (s := { s with lastReplay := r3 })
    (info := s.ver + 8 + 256 + 512) (klen := 16)
    (replay := r3) (nonce := zeros 32) (kd := []) (by rw [← ha.live]; exact hw.live)
    (by decide) (by
      show ∀ f, (C.mic s.cmac s.ptk.kck f).isSome
      rw [hcm, hw.ptk]; exact ha.mic) (by have := ver_le s; omega) (by decide) hr3 rfl
  have hres : handleM3 C s v (frBody f3) e = ({ ({ s with lastReplay := r3 } : S).remember with st := .auth }, true,
      (if s0.hasInstall then [.pair p.tk true, .group g.1 g.2 true] else []) ++ [.key f4]) := by
    unfold handleM3
    rw [if_neg (by rw [hbits]; decide), if_neg (by
      rintro ⟨-, c⟩
      rw [v2, h3.replay, hw.replay, hgt] at c
      cases c), if_neg (by rw [v3, h3.nonce, hw.anonce]; exact fun c => c rfl),
      if_neg (by rw [hmic]; decide), hpk]
    obtain ⟨idx, gtk⟩ := g
    dsimp only at hinst ⊢
    rw [hinst]
    dsimp only
    rw [if_neg (by decide), v2, h3.replay]
    have := sendKey_some (e := e) hf4
    rw [hsend] at this
    have this : sendKey C { s with lastReplay := r3 } e (({ s with lastReplay := r3 } : S).ver + 8 + 256 + 512) 16
      r3 (zeros 32) [] = (true, [.key f4]) := this
    rw [this]
    dsimp only
    rw [if_neg (by decide)]
  rw [hres]
  refine ⟨f4, ?_, ?_, ?_⟩
  · unfold failIf
    rw [if_pos rfl]
  · unfold failIf
    rw [if_pos rfl]
  · have ans : Answer C s.cmac s.ptk.kck (s.ver + 8 + 256 + 512) r3 (zeros 32) [] f4 := ans
    rw [hcm, hw.ptk, ver_eq hw.mode] at ans
    exact ans

/-- C98.  **The handshake completes.**  With an authenticator that knows the same PMK: message 1 is
answered by a message 2 that it accepts (the same replay counter, our nonce and RSN element, a MIC
under the KCK both derive); then, for four seconds and whatever happens among retransmitted messages
1, ignored frames and timer calls, message 3 with a larger replay counter is accepted: the pairwise
and the group key are installed, in this order, message 4 is one the authenticator accepts, and the
session is authenticated. -/
theorem handshake_completes {C : Crypto} {s : S} {p : Ptk} {an r1 r3 sn f1 f3 : Bytes} {t1 t3 : Nat}
    {e1 e3 : Env} {g : Nat × Bytes} {mid : List Op}
    (hst : s.st = .m1Wait) (ha : Able C s p.kck)
    (h1 : ApM1 s.ver an r1 f1) (hrnd : e1.rnd = some sn) (hsn : sn.length = 32)
    (hp : C.ptk s.cmac s.pmk s.apMac s.staMac an sn = some p) (hs1 : e1.send = true)
    (hmid : ∀ o ∈ mid, Benign s.ver s.hsStart t1 o)
    (h3 : ApM3 C s.cmac s.ver s.apIe p an r3 g f3)
    (o1 : ∀ x ∈ f1, x < 256) (o3 : ∀ x ∈ f3, x < 256) (hgt : be r1 < be r3)
    (hs3 : e3.send = true) (hi1 : e3.instPair = true) (hi2 : e3.instGroup = true) :
    ∃ f2 f4, (step C s (.rx f1 t1 e1)).2 = (true, [.key f2]) ∧
      Answer C s.cmac p.kck (s.ver + 8 + 256) r1 sn s.ownIe f2 ∧
      (step C (runFrom C s (.rx f1 t1 e1 :: mid)) (.rx f3 t3 e3)).2 =
        (true, (if s.hasInstall then [.pair p.tk true, .group g.1 g.2 true] else []) ++ [.key f4]) ∧
      (step C (runFrom C s (.rx f1 t1 e1 :: mid)) (.rx f3 t3 e3)).1.st = .auth ∧
      Answer C s.cmac p.kck (s.ver + 8 + 256 + 512) r3 (zeros 32) [] f4 := by
  obtain ⟨f2, hr, hans, hw⟩ := m1_answered (t1 := t1) hst ha h1 hrnd hsn hp hs1
  have hw' := waiting_run ha (by rw [← h1.replay]; exact frReplay_len h1.frame) hsn mid _ hw hmid
  have mem : ∀ {f : Bytes} (hf : ∀ x ∈ f, x < 256), ∀ x ∈ frReplay f, x < 256 := fun hf x hx =>
    hf x (List.mem_of_mem_drop (List.mem_of_mem_take hx))
  have hg : memGt r3 r1 = true := by
    rw [memGt_be]
    · exact hgt
    · rw [← h3.replay, ← h1.replay, frReplay_len h1.frame, frReplay_len h3.frame]
    · rw [← h3.replay]; exact mem o3
    · rw [← h1.replay]; exact mem o1
  obtain ⟨f4, ha1, ha2, ha3⟩ := m3_accepted (t3 := t3) ha hw' h3 hg hs3 hi1 hi2
  exact ⟨f2, f4, hr, hans, ha1, ha2, ha3⟩

/-! ## Who can stop it -/

/-- C99 (the part that holds).  In an authenticated session a key frame without a valid MIC changes
nothing and causes nothing. -/
theorem forged_key_frame_harmless_partial {C : Crypto} {s : S} {f : Bytes} (now : Nat) (e : Env)
    (hst : s.st = .auth) (hf : f.getD 1 0 ≠ 0) (hm : ¬ MicValid C s.cmac s.ptk.kck f) :
    rx C s f now e = (s, false, []) := by
  by_cases hi : Ignored s.ver f
  · exact rx_ignored hi
  · have h4 : ¬ f.length < 4 := fun c => hi (.inl c)
    have hk : KeyFrame f := Classical.byContradiction fun c => hi (.inr ⟨hf, .inl c⟩)
    have hv : frInfo f % 8 = s.ver := Classical.byContradiction fun c => hi (.inr ⟨hf, .inr (.inl c)⟩)
    have hs : num16 f 2 + 4 ≤ 355 := Classical.byContradiction fun c =>
      hi (.inr ⟨hf, .inr (.inr (by omega))⟩)
    rw [rx_key hk hs hv]
    unfold dispatch
    rw [hst]
    dsimp only
    split
    · unfold handleGroup
      split
      · rfl
      · split
        · rfl
        · rw [if_pos]
          unfold micOk
          rw [decide_eq_false_iff_not]
          exact hm
    · rfl

/-- The converse fails in two ways.  A key frame without a valid MIC that is not a message 1 ends a
handshake in progress ... -/
theorem forged_message3_aborts {C : Crypto} {s : S} {f : Bytes} (now : Nat) (e : Env)
    (hst : s.st = .m3Wait) (hk : KeyFrame f) (hs : num16 f 2 + 4 ≤ 355) (hv : frInfo f % 8 = s.ver)
    (hb : (frInfo f).testBit 8 = true) (hm : ¬ MicValid C s.cmac s.ptk.kck f) :
    (rx C s f now e).1.st = .failed := by
  rw [rx_key hk hs hv]
  generalize hv : (⟨num16 f 2 + 4, frInfo f, num16 f 7, frReplay f, frNonce f, frMic f,
    frData f⟩ : View) = v
  have v1 : v.keyInfo = frInfo f := by rw [← hv]
  have v4 : v.mic = frMic f := by rw [← hv]
  unfold dispatch
  rw [hst]
  dsimp only
  have hm1 : m1Again C s v now e = none := by
    unfold m1Again
    rw [if_pos]
    apply Bool.eq_false_iff.2
    intro c
    have := ((has_bits _ _ _).1 c).2 8 (List.mem_cons_self ..)
    rw [v1, hb] at this
    cases this
  rw [hm1]
  dsimp only
  have : (handleM3 C s v (frBody f) e).2.1 = false := by
    unfold handleM3
    split
    · rfl
    · split
      · rfl
      · split
        · rfl
        · rw [if_pos]
          unfold micOk
          rw [decide_eq_false_iff_not, v4]
          exact hm
  unfold failIf
  rw [if_neg (by rw [this]; decide)]

/-- ... and an eight-octet EAP-Failure, which nothing protects, ends any session, an authenticated
one included. -/
theorem forged_failure_aborts {C : Crypto} (s : S) (ver id now : Nat) (e : Env) :
    (rx C s [ver, 0, 0, 4, 4, id, 0, 4] now e).1.st = .failed := rfl

/-! ## A concrete case -/

/-- Every hypothesis of `handshake_completes` is met by the PSK association of `Supp/Demo`, with a
repeated message 1, an ignored frame and timer calls (one of which sends message 2 again). -/
def exS : S := run toy [.init pskCfg good, .kick 100 good]
def exP : Ptk := ⟨List.replicate 16 3, List.replicate 16 5, (List.replicate 8 65 ++ [104, 105] ++ zeros 32).take 16⟩
def exMid : List Op := [.tick 1120 good, .rx m1 1500 good, .rx [1, 2, 3] 1600 good, .tick 3000 good]

theorem exM1 : ApM1 exS.ver (List.replicate 32 3) [0, 0, 0, 0, 0, 0, 0, 1] m1 :=
  ⟨⟨by decide, by decide, by decide, by decide, by decide, by decide, by decide⟩, by decide,
    by decide +kernel, by decide +kernel, by decide, by decide⟩

example : ∃ f2 f4, (step toy exS (.rx m1 110 good)).2 = (true, [.key f2]) ∧
    Answer toy exS.cmac exP.kck (exS.ver + 8 + 256) [0, 0, 0, 0, 0, 0, 0, 1] (List.replicate 32 5) exS.ownIe f2 ∧
    (step toy (runFrom toy exS (.rx m1 110 good :: exMid)) (.rx m3 3100 good)).2 =
      (true, [.pair exP.tk true, .group 1 (List.replicate 16 6) true] ++ [.key f4]) ∧
    (step toy (runFrom toy exS (.rx m1 110 good :: exMid)) (.rx m3 3100 good)).1.st = .auth ∧
    Answer toy exS.cmac exP.kck (exS.ver + 8 + 256 + 512) [0, 0, 0, 0, 0, 0, 0, 2] (zeros 32) [] f4 := by
  have h := handshake_completes (C := toy) (s := exS) (p := exP) (an := List.replicate 32 3)
    (r1 := [0, 0, 0, 0, 0, 0, 0, 1]) (r3 := [0, 0, 0, 0, 0, 0, 0, 2]) (sn := List.replicate 32 5)
    (f1 := m1) (f3 := m3) (t1 := 110) (t3 := 3100) (e1 := good) (e3 := good)
    (g := (1, List.replicate 16 6)) (mid := exMid) (by decide +kernel)
    ⟨by decide +kernel, by decide +kernel, fun _ => rfl⟩ exM1 rfl rfl (by decide +kernel) rfl
    (by
      intro o ho
      simp only [exMid, List.mem_cons, List.not_mem_nil, or_false] at ho
      rcases ho with rfl | rfl | rfl | rfl
      · exact ⟨rfl, by decide +kernel, by decide⟩
      · exact ⟨by decide, .inl ⟨_, _, exM1⟩⟩
      · exact ⟨by decide, .inr (.inl (by decide))⟩
      · exact ⟨rfl, by decide +kernel, by decide⟩)
    ⟨⟨by decide +kernel, by decide +kernel, by decide +kernel, by decide +kernel, by decide +kernel, by decide +kernel, by decide +kernel⟩, by decide +kernel,
      by decide +kernel, by decide +kernel, by decide +kernel, by decide +kernel, (by unfold MicValid; decide +kernel),
      by decide +kernel, (m3Data 2).drop 8, by decide +kernel, by
        rw [← parse_iff]
        have : exS.apIe = ((m3Data 2).drop 8).take 22 := by decide +kernel
        rw [this]
        rfl⟩
    (by decide +kernel) (by decide +kernel) (by decide) rfl rfl rfl
  rw [show exS.hasInstall = true by decide +kernel] at h
  exact h

/-- The hypotheses of the two results on forged frames: message 3 with a wrong MIC. -/
example : (run toy pskCalls).st = .m3Wait ∧
    ¬ MicValid toy (run toy pskCalls).cmac (run toy pskCalls).ptk.kck
      (apFrame 5066 2 3 (List.replicate 16 4) (m3Data 2)) ∧
    (step toy (run toy pskCalls) (.rx (apFrame 5066 2 3 (List.replicate 16 4) (m3Data 2)) 120 good)).1.st
      = .failed ∧
    (run toy (pskCalls ++ [.rx m3 120 good])).st = .auth ∧
    ¬ MicValid toy (run toy pskCalls).cmac (run toy (pskCalls ++ [.rx m3 120 good])).ptk.kck
      (apFrame 4994 3 0 (List.replicate 16 4) []) := by
  unfold MicValid
  decide +kernel

end Wolf.Supp
