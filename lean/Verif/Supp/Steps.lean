import Verif.Supp.KeyData

/-!
# What each call of the supplicant can do to the handshake
-/

namespace Wolf.Supp

/-- A big-endian number. -/
def be (b : Bytes) : Nat := b.foldl (fun a x => a * 256 + x) 0

theorem be_foldl (b : Bytes) : ∀ a : Nat,
    b.foldl (fun a x => a * 256 + x) a = a * 256 ^ b.length + be b := by
  unfold be
  induction b with
  | nil => intro a; simp
  | cons x r ih =>
    intro a
    rw [List.foldl_cons, List.foldl_cons, ih, ih (0 * 256 + x), List.length_cons, Nat.pow_succ]
    rw [Nat.add_mul, Nat.mul_assoc, Nat.mul_comm 256, Nat.zero_mul, Nat.zero_add]
    omega

theorem be_cons (x : Nat) (r : Bytes) : be (x :: r) = x * 256 ^ r.length + be r := by
  show List.foldl _ (0 * 256 + x) r = _
  rw [be_foldl, Nat.zero_mul, Nat.zero_add]

theorem be_lt {b : Bytes} (h : ∀ x ∈ b, x < 256) : be b < 256 ^ b.length := by
  induction b with
  | nil => decide
  | cons x r ih =>
    rw [be_cons, List.length_cons, Nat.pow_succ]
    have h1 := h x (List.mem_cons_self ..)
    have h2 := ih (fun y hy => h y (List.mem_cons_of_mem _ hy))
    have : x * 256 ^ r.length ≤ 255 * 256 ^ r.length := Nat.mul_le_mul_right _ (by omega)
    omega

/-- `memcmp` orders two counters of the same width numerically. -/
theorem memGt_be {a b : Bytes} (hl : a.length = b.length) (ha : ∀ x ∈ a, x < 256)
    (hb : ∀ x ∈ b, x < 256) : memGt a b = true ↔ be b < be a := by
  induction a generalizing b with
  | nil =>
    cases b with
    | nil => simp [memGt, be]
    | cons y s => simp at hl
  | cons x r ih =>
    cases b with
    | nil => simp at hl
    | cons y s =>
      have hl' : r.length = s.length := by simpa using hl
      have hr := fun z hz => ha z (List.mem_cons_of_mem _ hz)
      have hs := fun z hz => hb z (List.mem_cons_of_mem _ hz)
      have h1 := be_lt hr
      have h2 := be_lt hs
      rw [be_cons, be_cons, hl']
      rw [hl'] at h1
      unfold memGt
      rcases Nat.lt_trichotomy x y with h | h | h
      · have : (x + 1) * 256 ^ s.length ≤ y * 256 ^ s.length := Nat.mul_le_mul_right _ h
        rw [Nat.add_mul, Nat.one_mul] at this
        have e1 : decide (x > y) = false := decide_eq_false (by omega)
        have e2 : decide (x = y) = false := decide_eq_false (by omega)
        rw [e1, e2]
        simp
        omega
      · subst h
        have e1 : decide (x > x) = false := decide_eq_false (by omega)
        rw [e1, decide_eq_true rfl, Bool.false_or, Bool.true_and, ih hl' hr hs]
        omega
      · have : (y + 1) * 256 ^ s.length ≤ x * 256 ^ s.length := Nat.mul_le_mul_right _ h
        rw [Nat.add_mul, Nat.one_mul] at this
        rw [decide_eq_true h, Bool.true_or]
        simp
        omega

/-- An installation of the pairwise key was attempted. -/
def Ev.isPair : Ev → Bool
  | .pair _ _ => true
  | .group _ _ _ => false
  | .key _ => false
  | .other => false

/-- A key was given to the driver. -/
def Ev.isKey : Ev → Bool
  | .pair _ _ => true
  | .group _ _ _ => true
  | .key _ => false
  | .other => false

/-- No key was given to the driver. -/
def NoInst (es : List Ev) : Prop := ∀ ev ∈ es, ev.isKey = false

/-- The handshake data are untouched. -/
structure Same (s t : S) : Prop where
  ptk : t.ptk = s.ptk
  have_ : t.havePtk = s.havePtk
  anonce : t.anonce = s.anonce
  replay : t.lastReplay = s.lastReplay
  haveReplay : t.haveReplay = s.haveReplay
  apIe : t.apIe = s.apIe
  mode : t.mode = s.mode
  start : t.hsStart = s.hsStart ∨ s.st = .idle
  ssid : t.ssid = s.ssid
  apMac : t.apMac = s.apMac
  pp : t.havePpHash = s.havePpHash ∧ t.ppHash = s.ppHash
  hasInst : t.hasInstall = s.hasInstall

theorem Same.rfl' (s : S) : Same s s :=
  ⟨rfl, rfl, rfl, rfl, rfl, rfl, rfl, Or.inl rfl, rfl, rfl, ⟨rfl, rfl⟩, rfl⟩

/-- States before the 4-way handshake. -/
def Early (t : St) : Prop :=
  t = .idle ∨ t = .identWait ∨ t = .tlsProg ∨ t = .saeCommit ∨ t = .saeConfirm

/-- A call that does not touch the handshake: it leaves the state, or fails the handshake, or moves
through the authentication phase before it. -/
structure Passive (s : S) (r : S × Bool × List Ev) : Prop where
  same : Same s r.1
  quiet : NoInst r.2.2
  st : r.1.st = s.st ∨ r.1.st = .failed ∨
    (Early s.st ∧ r.1.st ≠ .m3Wait ∧ r.1.st ≠ .auth ∧ r.1.st ≠ .idle)
  cache : r.1.cache = s.cache

theorem noInst_nil : NoInst [] := fun _ h => by cases h
theorem noInst_other : NoInst [.other] := fun ev h => by
  rw [List.mem_singleton] at h; rw [h]; rfl
theorem noInst_key (f : Bytes) : NoInst [.key f] := fun ev h => by
  rw [List.mem_singleton] at h; rw [h]; rfl

theorem Passive.same_ (s : S) (b : Bool) : Passive s (s, b, []) :=
  ⟨Same.rfl' s, noInst_nil, Or.inl rfl, rfl⟩

theorem Passive.fail_ (s : S) (b : Bool) : Passive s ({ s with st := .failed }, b, []) :=
  ⟨⟨rfl, rfl, rfl, rfl, rfl, rfl, rfl, Or.inl rfl, rfl, rfl, ⟨rfl, rfl⟩, rfl⟩, noInst_nil,
    Or.inr (Or.inl rfl), rfl⟩

theorem Passive.blame (s : S) (x : Fault) (b : Bool) : Passive s (s.blame x, b, []) := by
  cases x
  · exact Passive.same_ s b
  · exact ⟨⟨rfl, rfl, rfl, rfl, rfl, rfl, rfl, Or.inl rfl, rfl, rfl, ⟨rfl, rfl⟩, rfl⟩, noInst_nil,
      Or.inl rfl, rfl⟩

theorem Passive.failIf {s : S} {r : S × Bool × List Ev} (h : Passive s r) : Passive s (failIf r) := by
  unfold Supp.failIf
  split
  · exact h
  · exact ⟨⟨h.same.ptk, h.same.have_, h.same.anonce, h.same.replay, h.same.haveReplay, h.same.apIe,
      h.same.mode, h.same.start, h.same.ssid, h.same.apMac, h.same.pp, h.same.hasInst⟩, h.quiet,
      Or.inr (Or.inl rfl), h.cache⟩

theorem sendKey_quiet (C : Crypto) (s : S) (e : Env) (i k : Nat) (r n d : Bytes) :
    NoInst (sendKey C s e i k r n d).2 := by
  unfold sendKey
  split
  · exact noInst_nil
  · exact noInst_key _

theorem eapRequest_passive (s : S) (v : EapView) (e : Env) : Passive s (eapRequest s v e) := by
  unfold eapRequest
  split
  · split
    · next h =>
      split
      · refine ⟨⟨rfl, rfl, rfl, rfl, rfl, rfl, rfl, Or.inl rfl, rfl, rfl, ⟨rfl, rfl⟩, rfl⟩,
          noInst_other, Or.inr (Or.inr ⟨?_, (by intro c; cases c), (by intro c; cases c), (by intro c; cases c)⟩), rfl⟩
        rcases h with h | h
        · exact Or.inr (Or.inl h)
        · exact Or.inr (Or.inr (Or.inl h))
      · exact Passive.same_ s false
    · exact Passive.same_ s false
  · split
    · split
      · exact Passive.same_ s false
      · split
        · exact ⟨Same.rfl' s, noInst_other, Or.inl rfl, rfl⟩
        · exact Passive.same_ s false
    · exact Passive.same_ s false

theorem eapSuccess_passive (s : S) (e : Env) : Passive s (eapSuccess s e) := by
  unfold eapSuccess
  split
  · exact Passive.same_ s false
  · split
    · exact Passive.same_ s false
    · next h =>
      split
      · exact Passive.same_ s false
      · split
        · exact Passive.same_ s false
        · refine ⟨⟨rfl, rfl, rfl, rfl, rfl, rfl, rfl, Or.inl rfl, rfl, rfl, ⟨rfl, rfl⟩, rfl⟩,
            noInst_nil, Or.inr (Or.inr ⟨?_, (by intro c; cases c), (by intro c; cases c), (by intro c; cases c)⟩), rfl⟩
          exact Or.inr (Or.inr (Or.inl (Classical.not_not.mp h)))

theorem rxEap_passive (s : S) (f : Bytes) (e : Env) : Passive s (rxEap s f e) := by
  unfold rxEap
  split
  · exact Passive.blame s _ false
  · split
    · exact Passive.same_ s false
    · split
      · exact Passive.blame s _ false
      · split
        · exact (eapRequest_passive s _ e).failIf
        · split
          · exact (eapSuccess_passive s e).failIf
          · split
            · exact Passive.fail_ s false
            · exact Passive.same_ s false

theorem kick_passive (s : S) (now : Nat) (e : Env) : Passive s (kick s now e) := by
  unfold kick
  split
  · exact Passive.same_ s false
  · next h =>
    have h' : s.st = .idle := Classical.not_not.mp h
    have hS : ∀ (t : St), Same s { s with m2Send := now, hsStart := now, retries := 3, st := t } :=
      fun t => ⟨rfl, rfl, rfl, rfl, rfl, rfl, rfl, Or.inr h', rfl, rfl, ⟨rfl, rfl⟩, rfl⟩
    have hS0 : Passive s ({ s with m2Send := now, hsStart := now, retries := 3 }, false, []) :=
      ⟨⟨rfl, rfl, rfl, rfl, rfl, rfl, rfl, Or.inr h', rfl, rfl, ⟨rfl, rfl⟩, rfl⟩, noInst_nil,
        Or.inl rfl, rfl⟩
    have hE : Early s.st := Or.inl h'
    dsimp only
    split
    · split
      · exact ⟨hS _, noInst_other, Or.inr (Or.inr ⟨hE, (by intro c; cases c),
          (by intro c; cases c), (by intro c; cases c)⟩), rfl⟩
      · exact hS0
    · split
      · exact ⟨hS _, noInst_other, Or.inr (Or.inr ⟨hE, (by intro c; cases c),
          (by intro c; cases c), (by intro c; cases c)⟩), rfl⟩
      · exact hS0
    · split
      · exact ⟨hS _, noInst_nil, Or.inr (Or.inr ⟨hE, (by intro c; cases c),
          (by intro c; cases c), (by intro c; cases c)⟩), rfl⟩
      · split
        · exact ⟨hS _, noInst_other, Or.inr (Or.inr ⟨hE, (by intro c; cases c),
            (by intro c; cases c), (by intro c; cases c)⟩), rfl⟩
        · exact hS0
    · exact ⟨hS _, noInst_nil, Or.inr (Or.inr ⟨hE, (by intro c; cases c),
        (by intro c; cases c), (by intro c; cases c)⟩), rfl⟩

theorem rxAuth_passive (s : S) (f : Bytes) (e : Env) : Passive s (rxAuth s f e) := by
  unfold rxAuth
  dsimp only
  split
  · exact Passive.same_ s false
  · split
    · exact Passive.same_ s false
    · split
      · exact Passive.same_ s false
      · generalize (if f.getD 2 0 + 256 * f.getD 3 0 = 1 ∧ s.saeH2e = true then 126 else 0) = ex
        split
        · exact Passive.fail_ s false
        · split
          · split
            · exact Passive.same_ s false
            · next h =>
              have h' := Classical.not_not.mp h
              split
              · exact ⟨⟨rfl, rfl, rfl, rfl, rfl, rfl, rfl, Or.inl rfl, rfl, rfl, ⟨rfl, rfl⟩, rfl⟩,
                  noInst_other, Or.inr (Or.inr ⟨Or.inr (Or.inr (Or.inr (Or.inl h'))),
                  (by intro c; cases c), (by intro c; cases c), (by intro c; cases c)⟩), rfl⟩
              · exact Passive.fail_ s false
          · split
            · split
              · exact Passive.same_ s false
              · next h =>
                have h' := Classical.not_not.mp h
                split
                · exact Passive.same_ s false
                · split
                  · exact ⟨⟨rfl, rfl, rfl, rfl, rfl, rfl, rfl, Or.inl rfl, rfl, rfl, ⟨rfl, rfl⟩,
                      rfl⟩, noInst_nil, Or.inr (Or.inr ⟨Or.inr (Or.inr (Or.inr (Or.inr h'))),
                      (by intro c; cases c), (by intro c; cases c), (by intro c; cases c)⟩), rfl⟩
                  · exact Passive.fail_ s false
            · exact Passive.same_ s false

theorem tick_passive (C : Crypto) (s : S) (now : Nat) (e : Env) : Passive s (tick C s now e) := by
  unfold tick
  split
  · exact Passive.fail_ s true
  · split
    · exact Passive.same_ s true
    · split
      · exact Passive.same_ s true
      · split
        · exact Passive.same_ s true
        · split
          · exact Passive.fail_ s true
          · dsimp only
            have hq : ∀ t : S, NoInst (sendM2 C t e).2 := fun t => sendKey_quiet _ _ _ _ _ _ _ _
            split
            · next es hes =>
              have := hq { s with retries := s.retries - 1 }
              rw [hes] at this
              exact ⟨⟨rfl, rfl, rfl, rfl, rfl, rfl, rfl, Or.inl rfl, rfl, rfl, ⟨rfl, rfl⟩, rfl⟩,
                this, Or.inr (Or.inl rfl), rfl⟩
            · next es hes =>
              have := hq { s with retries := s.retries - 1 }
              rw [hes] at this
              exact ⟨⟨rfl, rfl, rfl, rfl, rfl, rfl, rfl, Or.inl rfl, rfl, rfl, ⟨rfl, rfl⟩, rfl⟩,
                this, Or.inl rfl, rfl⟩

theorem installPmk_passive (s : S) (k : Bytes) : Passive s (installPmk s k) := by
  unfold installPmk
  split
  · exact Passive.same_ s false
  · split
    · exact Passive.same_ s false
    · exact ⟨⟨rfl, rfl, rfl, rfl, rfl, rfl, rfl, Or.inl rfl, rfl, rfl, ⟨rfl, rfl⟩, rfl⟩, noInst_nil,
        Or.inl rfl, rfl⟩

/-- The fields of a key frame, as IEEE 802.11 lays them out. -/
def frInfo (f : Bytes) : Nat := num16 f 5
def frReplay (f : Bytes) : Bytes := (f.drop 9).take 8
def frNonce (f : Bytes) : Bytes := (f.drop 17).take 32
def frMic (f : Bytes) : Bytes := (f.drop 81).take 16
def frData (f : Bytes) : Bytes := (f.drop 99).take (num16 f 97)
/-- The 802.1X frame itself, without link-layer padding. -/
def frBody (f : Bytes) : Bytes := f.take (num16 f 2 + 4)

/-- The frame is a key frame with a valid MIC under this key. -/
def MicValid (C : Crypto) (cmac : Bool) (kck f : Bytes) : Prop :=
  C.mic cmac kck (zeroMic (frBody f)) = some (frMic f)

/-- An M1 is answered: the frame is a pairwise key frame with Ack and without MIC, and a PTK is
derived from its nonce and a fresh SNonce. -/
structure Derives (C : Crypto) (s : S) (f : Bytes) (e : Env) (t : S) : Prop where
  frame : KeyFrame f
  bits : (frInfo f).testBit 3 = true ∧ (frInfo f).testBit 7 = true ∧ (frInfo f).testBit 8 = false
  from_ : s.st = .m1Wait
  to : t.st = .m3Wait
  ptk : ∃ sn, e.rnd = some sn ∧
    C.ptk s.cmac s.pmk s.apMac s.staMac (frNonce f) sn = some t.ptk ∧ t.snonce = sn
  havePtk : t.havePtk = true
  anonce : t.anonce = frNonce f
  replay : t.lastReplay = frReplay f
  haveReplay : t.haveReplay = true
  rest : t.apIe = s.apIe ∧ t.mode = s.mode ∧ t.hsStart = s.hsStart ∧ t.ssid = s.ssid ∧
    t.apMac = s.apMac ∧ t.havePpHash = s.havePpHash ∧ t.ppHash = s.ppHash ∧
    t.hasInstall = s.hasInstall ∧ t.cache = s.cache ∧ t.pmk = s.pmk

/-- A message 3 that passes every check. -/
structure Good3 (C : Crypto) (s : S) (f : Bytes) (g : Nat × Bytes) : Prop where
  frame : KeyFrame f
  bits : (frInfo f).testBit 3 = true ∧ (frInfo f).testBit 6 = true ∧ (frInfo f).testBit 7 = true ∧
    (frInfo f).testBit 8 = true
  ver : frInfo f % 8 = s.ver
  replay : s.haveReplay = true → memGt (frReplay f) s.lastReplay = true
  nonce : frNonce f = s.anonce
  mic : MicValid C s.cmac s.ptk.kck f
  enc : (frInfo f).testBit 12 = true
  data : ∃ p, C.unwrap s.ptk.kek (frData f) = some p ∧ GoodKeyData true s.apIe p g

/-- A group message 1 that passes every check. -/
structure GoodG (C : Crypto) (s : S) (f : Bytes) (g : Nat × Bytes) : Prop where
  frame : KeyFrame f
  bits : (frInfo f).testBit 3 = false ∧ (frInfo f).testBit 7 = true ∧ (frInfo f).testBit 8 = true ∧
    (frInfo f).testBit 9 = true
  ver : frInfo f % 8 = s.ver
  replay : s.haveReplay = true → memGt (frReplay f) s.lastReplay = true
  mic : MicValid C s.cmac s.ptk.kck f
  enc : (frInfo f).testBit 12 = true
  data : ∃ p, C.unwrap s.ptk.kek (frData f) = some p ∧ GoodKeyData false s.apIe p g

/-- What a received key frame can do. -/
inductive RxKey (C : Crypto) (s : S) (f : Bytes) (e : Env) : S × Bool × List Ev → Prop where
  | passive {r} (h : Passive s r) : RxKey C s f e r
  /-- an M1 that could not be answered -/
  | m1Fail {r} (h : s.st = .m1Wait) (h1 : r.1.st = .failed) (hc : r.1.cache = s.cache)
      (hr : r.1.ssid = s.ssid ∧ r.1.apMac = s.apMac ∧ r.1.mode = s.mode ∧
        r.1.hsStart = s.hsStart ∧ r.1.havePpHash = s.havePpHash ∧ r.1.ppHash = s.ppHash ∧
        r.1.pmk = s.pmk)
      (hq : NoInst r.2.2) : RxKey C s f e r
  | m1 {r} (h : Derives C s f e r.1) (hq : NoInst r.2.2) : RxKey C s f e r
  /-- a message 3; the keys are installed, or at least attempted -/
  | m3 {r} (g : Nat × Bytes) (h : s.st = .m3Wait) (hg : Good3 C s f g)
      (hev : ∀ ev ∈ r.2.2, ev.isKey = true →
        s.hasInstall = true ∧
        ((∃ ok, ev = .pair s.ptk.tk ok ∧ ok = e.instPair) ∨
         (∃ ok, ev = .group g.1 g.2 ok ∧ e.instPair = true ∧ ok = e.instGroup)))
      (hst : (r.1.st = .auth ∧ r.1.lastReplay = frReplay f ∧ r.1.haveReplay = s.haveReplay ∧
          r.1.cache = s.remember.cache ∧ (s.hasInstall = true →
            Ev.pair s.ptk.tk true ∈ r.2.2 ∧ Ev.group g.1 g.2 true ∈ r.2.2)) ∨
        (r.1.st = .failed ∧ r.1.cache = s.cache))
      (hr : r.1.ptk = s.ptk ∧ r.1.apIe = s.apIe ∧ r.1.mode = s.mode ∧ r.1.ssid = s.ssid ∧
        r.1.apMac = s.apMac ∧ r.1.hsStart = s.hsStart ∧ r.1.havePpHash = s.havePpHash ∧
        r.1.ppHash = s.ppHash ∧ r.1.pmk = s.pmk) :
      RxKey C s f e r
  /-- a group rekey, installed -/
  | group {r} (g : Nat × Bytes) (h : s.st = .auth) (hg : GoodG C s f g)
      (hev : ∀ ev ∈ r.2.2, ev.isKey = true → ev = .group g.1 g.2 true)
      (hst : r.1 = { s with lastReplay := frReplay f }) : RxKey C s f e r
  /-- a group rekey refused by the driver -/
  | groupFail {r} (g : Nat × Bytes) (h : s.st = .auth) (hg : GoodG C s f g)
      (hev : r.2.2 = [.group g.1 g.2 false]) (hst : r.1 = s) : RxKey C s f e r

theorem has_bits (i : Nat) (a b : List Nat) :
    has i a b = true ↔ (∀ k ∈ a, i.testBit k = true) ∧ ∀ k ∈ b, i.testBit k = false := by
  unfold has
  rw [Bool.and_eq_true, List.all_eq_true, List.all_eq_true]
  simp

theorem ne_false' {b : Bool} (h : ¬ b = false) : b = true := by simpa using h

theorem handleM1_rx (C : Crypto) (s : S) (f : Bytes) (now : Nat) (e : Env) (v : View)
    (hf : KeyFrame f) (hi : v.keyInfo = frInfo f) (hr : v.replay = frReplay f)
    (hn : v.nonce = frNonce f) (hst : s.st = .m1Wait) :
    RxKey C s f e (failIf (handleM1 C s v now e)) := by
  have key : ∀ r : S × Bool × List Ev,
      (r.2.1 = false ∧ NoInst r.2.2 ∧ r.1.cache = s.cache ∧
        (r.1.ssid = s.ssid ∧ r.1.apMac = s.apMac ∧ r.1.mode = s.mode ∧
        r.1.hsStart = s.hsStart ∧ r.1.havePpHash = s.havePpHash ∧ r.1.ppHash = s.ppHash ∧
        r.1.pmk = s.pmk)) ∨ (r.2.1 = true ∧ Derives C s f e r.1 ∧ NoInst r.2.2) →
      RxKey C s f e (failIf r) := by
    intro r h
    unfold failIf
    rcases h with ⟨h1, h2, h3, h4⟩ | ⟨h1, h2, h3⟩
    · rw [h1]
      exact RxKey.m1Fail hst rfl h3 h4 h2
    · rw [if_pos h1]
      exact RxKey.m1 h2 h3
  apply key
  unfold handleM1
  split
  · exact Or.inl ⟨rfl, noInst_nil, rfl, rfl, rfl, rfl, rfl, rfl, rfl, rfl⟩
  · next hb =>
    have hb' := (has_bits _ _ _).mp (ne_false' hb)
    rw [hi] at hb'
    dsimp only
    split
    · exact Or.inl ⟨rfl, noInst_nil, rfl, rfl, rfl, rfl, rfl, rfl, rfl, rfl⟩
    · next sn hsn =>
      split
      · exact Or.inl ⟨rfl, noInst_nil, rfl, rfl, rfl, rfl, rfl, rfl, rfl, rfl⟩
      · next p hp =>
        have hq : ∀ t : S, NoInst (sendM2 C t e).2 := fun t => sendKey_quiet _ _ _ _ _ _ _ _
        split
        · next es hes =>
          refine Or.inl ⟨rfl, ?_, rfl, rfl, rfl, rfl, rfl, rfl, rfl, rfl⟩
          have := hq { s with anonce := v.nonce, snonce := sn, ptk := p, havePtk := true,
                              lastReplay := v.replay, haveReplay := true }
          rw [hes] at this
          exact this
        · next es hes =>
          refine Or.inr ⟨rfl, ?_, ?_⟩
          · refine ⟨hf, ⟨hb'.1 3 (by simp), hb'.1 7 (by simp), hb'.2 8 (by simp)⟩, hst, rfl,
              ⟨sn, hsn, ?_, rfl⟩, rfl, hn, hr, rfl, rfl, rfl, rfl, rfl, rfl, rfl, rfl, rfl, rfl, rfl⟩
            rw [← hn]
            exact hp
          · have := hq { s with anonce := v.nonce, snonce := sn, ptk := p, havePtk := true,
                                lastReplay := v.replay, haveReplay := true }
            rw [hes] at this
            exact this

theorem m1Again_passive (C : Crypto) (s : S) (v : View) (now : Nat) (e : Env) (t : S) (es : List Ev)
    (h : m1Again C s v now e = some (t, es)) (b : Bool) : Passive s (t, b, es) := by
  unfold m1Again at h
  split at h
  · cases h
  · split at h
    · have hq := sendKey_quiet C s e (s.ver + 8 + 256) 16 s.lastReplay s.snonce s.ownIe
      split at h
      · next es' hes =>
        have : sendKey C s e (s.ver + 8 + 256) 16 s.lastReplay s.snonce s.ownIe = (true, es') := hes
        rw [this] at hq
        cases h
        exact ⟨⟨rfl, rfl, rfl, rfl, rfl, rfl, rfl, Or.inl rfl, rfl, rfl, ⟨rfl, rfl⟩, rfl⟩, hq,
          Or.inl rfl, rfl⟩
      · next es' hes =>
        have : sendKey C s e (s.ver + 8 + 256) 16 s.lastReplay s.snonce s.ownIe = (false, es') := hes
        rw [this] at hq
        cases h
        exact ⟨Same.rfl' s, hq, Or.inl rfl, rfl⟩
    · cases h
      exact Passive.same_ s b

theorem installBoth_spec (s : S) (g : Nat × Bytes) (e : Env) (hg : 0 < g.2.length) :
    (∀ ev ∈ (installBoth s g.1 g.2 e).2, s.hasInstall = true ∧
      ((∃ ok, ev = .pair s.ptk.tk ok ∧ ok = e.instPair) ∨
       (∃ ok, ev = .group g.1 g.2 ok ∧ e.instPair = true ∧ ok = e.instGroup))) ∧
    ((installBoth s g.1 g.2 e).1 = true → s.hasInstall = true →
      Ev.pair s.ptk.tk true ∈ (installBoth s g.1 g.2 e).2 ∧
      Ev.group g.1 g.2 true ∈ (installBoth s g.1 g.2 e).2) := by
  unfold installBoth
  split
  · next h =>
    exact ⟨(fun ev hev => by cases hev), fun _ c => by rw [h] at c; cases c⟩
  · next h =>
    have h' := ne_false' h
    split
    · next hp =>
      refine ⟨?_, fun c => by cases c⟩
      intro ev hev
      rw [List.mem_singleton] at hev
      exact ⟨h', Or.inl ⟨false, hev, hp.symm⟩⟩
    · next hp =>
      have hp' := ne_false' hp
      refine ⟨?_, ?_⟩
      · intro ev hev
        rcases List.mem_cons.mp hev with hev | hev
        · exact ⟨h', Or.inl ⟨true, hev, hp'.symm⟩⟩
        · rw [List.mem_singleton] at hev
          exact ⟨h', Or.inr ⟨_, hev, hp', rfl⟩⟩
      · intro hc _
        dsimp only at hc
        rw [hc]
        exact ⟨List.mem_cons_self .., List.mem_cons_of_mem _ (List.mem_cons_self ..)⟩

theorem handleM3_rx (C : Crypto) (s : S) (f : Bytes) (e : Env) (v : View)
    (hf : KeyFrame f) (hi : v.keyInfo = frInfo f) (hr : v.replay = frReplay f)
    (hn : v.nonce = frNonce f) (hm : v.mic = frMic f) (hd : v.keyData = frData f)
    (hv : v.keyInfo % 8 = s.ver) (hst : s.st = .m3Wait) :
    RxKey C s f e (failIf (handleM3 C s v (frBody f) e)) := by
  unfold handleM3
  split
  · exact RxKey.passive (Passive.same_ s false).failIf
  · next hb =>
    have hb' := (has_bits _ _ _).mp (ne_false' hb)
    rw [hi] at hb'
    split
    · exact RxKey.passive (Passive.same_ s false).failIf
    · next hrep =>
      split
      · exact RxKey.passive (Passive.same_ s false).failIf
      · next hnon =>
        split
        · exact RxKey.passive (Passive.same_ s false).failIf
        · next hmic =>
          have hmic' : MicValid C s.cmac s.ptk.kck f := by
            have := ne_false' hmic
            unfold micOk at this
            rw [decide_eq_true_eq, hm] at this
            exact this
          split
          · exact RxKey.passive (Passive.blame s _ false).failIf
          · next idx gtk hk =>
            have hsize := group_key_size C s v true (idx, gtk) hk
            have hkd := ((key_data_exact C s v true).2 (idx, gtk)).mp hk
            rw [hd, hi] at hkd
            have hg : Good3 C s f (idx, gtk) := by
              refine ⟨hf, ⟨hb'.1 3 (by simp), hb'.1 6 (by simp), hb'.1 7 (by simp),
                hb'.1 8 (by simp)⟩, ?_, ?_, ?_, hmic', hkd.2.2.2.1, hkd.2.2.2.2⟩
              · rw [← hi]; exact hv
              · intro h1
                rw [← hr]
                exact ne_false' (fun c => hrep ⟨h1, c⟩)
              · rw [← hn]; exact Classical.not_not.mp hnon
            have hinst := installBoth_spec s (idx, gtk) e hsize.1
            dsimp only at hinst
            dsimp only
            split
            · next hr1 =>
              unfold failIf
              rw [if_neg (by simp)]
              exact RxKey.m3 (idx, gtk) hst hg (fun ev hev _ => hinst.1 ev hev) (Or.inr ⟨rfl, rfl⟩)
                ⟨rfl, rfl, rfl, rfl, rfl, rfl, rfl, rfl, rfl⟩
            · next hr1 =>
              have hr1' := ne_false' hr1
              have hq := sendKey_quiet C { s with lastReplay := v.replay } e
                (s.ver + 8 + 256 + 512) 16 v.replay (zeros 32) []
              have hev : ∀ (q : Bool × List Ev), NoInst q.2 →
                  ∀ ev ∈ (installBoth s idx gtk e).2 ++ q.2, ev.isKey = true →
                  s.hasInstall = true ∧
                  ((∃ ok, ev = .pair s.ptk.tk ok ∧ ok = e.instPair) ∨
                   (∃ ok, ev = .group idx gtk ok ∧ e.instPair = true ∧ ok = e.instGroup)) := by
                intro q hq ev hev hk
                rcases List.mem_append.mp hev with h | h
                · exact hinst.1 ev h
                · rw [hq ev h] at hk; cases hk
              have hver : S.ver { s with lastReplay := v.replay } = s.ver := rfl
              rw [hver]
              generalize hq' : sendKey C { s with lastReplay := v.replay } e
                (s.ver + 8 + 256 + 512) 16 v.replay (zeros 32) [] = q at *
              split
              · unfold failIf
                rw [if_neg (by simp)]
                exact RxKey.m3 (idx, gtk) hst hg (hev q hq) (Or.inr ⟨rfl, rfl⟩)
                  ⟨rfl, rfl, rfl, rfl, rfl, rfl, rfl, rfl, rfl⟩
              · unfold failIf
                rw [if_pos rfl]
                refine RxKey.m3 (idx, gtk) hst hg (hev q hq) (Or.inl ⟨rfl, hr, rfl, rfl, ?_⟩)
                  ⟨rfl, rfl, rfl, rfl, rfl, rfl, rfl, rfl, rfl⟩
                intro hi
                have := hinst.2 hr1' hi
                exact ⟨List.mem_append_left _ this.1, List.mem_append_left _ this.2⟩

theorem handleGroup_rx (C : Crypto) (s : S) (f : Bytes) (e : Env) (v : View)
    (hf : KeyFrame f) (hi : v.keyInfo = frInfo f) (hr : v.replay = frReplay f)
    (hm : v.mic = frMic f) (hd : v.keyData = frData f)
    (hv : v.keyInfo % 8 = s.ver) (hst : s.st = .auth) (h3 : v.keyInfo.testBit 3 = false) :
    RxKey C s f e (handleGroup C s v (frBody f) e) := by
  unfold handleGroup
  split
  · exact RxKey.passive (Passive.same_ s false)
  · next hb =>
    have hb' := (has_bits _ _ _).mp (ne_false' hb)
    rw [hi] at hb'
    split
    · exact RxKey.passive (Passive.same_ s false)
    · next hrep =>
      split
      · exact RxKey.passive (Passive.same_ s false)
      · next hmic =>
        have hmic' : MicValid C s.cmac s.ptk.kck f := by
          have := ne_false' hmic
          unfold micOk at this
          rw [decide_eq_true_eq, hm] at this
          exact this
        split
        · exact RxKey.passive (Passive.blame s _ false)
        · next idx gtk hk =>
          have hkd := ((key_data_exact C s v false).2 (idx, gtk)).mp hk
          rw [hd, hi] at hkd
          have hg : GoodG C s f (idx, gtk) := by
            refine ⟨hf, ⟨by rw [← hi]; exact h3, hb'.1 7 (by simp), hb'.1 8 (by simp),
              hb'.1 9 (by simp)⟩, by rw [← hi]; exact hv, ?_, hmic', hkd.2.2.2.1, hkd.2.2.2.2⟩
            intro h1
            rw [← hr]
            exact ne_false' (fun c => hrep ⟨h1, c⟩)
          split
          · exact RxKey.groupFail (idx, gtk) hst hg rfl rfl
          · dsimp only
            have hq := sendKey_quiet C { s with lastReplay := v.replay } e
              (s.ver + 256 + 512) 0 v.replay (zeros 32) []
            refine RxKey.group (idx, gtk) hst hg ?_ (by rw [hr])
            intro ev hev hk
            rcases List.mem_append.mp hev with h | h
            · split at h
              · rw [List.mem_singleton] at h
                exact h
              · cases h
            · rw [hq ev h] at hk; cases hk

theorem fit_ok {cap : Nat} {b : Bytes} (h : b.length ≤ cap) : fit cap b = .ok b := by
  unfold fit; rw [if_pos h]

theorem rx_spec (C : Crypto) (s : S) (f : Bytes) (now : Nat) (e : Env) :
    RxKey C s f e (rx C s f now e) := by
  unfold rx
  split
  · exact RxKey.passive (Passive.same_ s false)
  · split
    · exact RxKey.passive (Passive.blame s _ false)
    · split
      · exact RxKey.passive (rxEap_passive s f e)
      · split
        · exact RxKey.passive (Passive.same_ s false)
        · unfold rxKey
          rcases key_parse_exact f with ⟨hf, hp, _⟩ | ⟨_, hp⟩
          · rw [hp]
            dsimp only
            split
            · exact RxKey.passive (Passive.same_ s false)
            · next hv =>
              have hv' := Classical.not_not.mp hv
              split
              · exact RxKey.passive (Passive.same_ s false)
              · next hfl =>
                rw [fit_ok (by rw [List.length_take]; exact Nat.le_trans (Nat.min_le_left _ _) (Nat.not_lt.mp hfl))]
                dsimp only
                unfold dispatch
                split
                · next hst =>
                  exact handleM1_rx C s f now e _ hf rfl rfl rfl hst
                · next hst =>
                  split
                  · next t es hm =>
                    exact RxKey.passive (m1Again_passive C s _ now e t es hm true)
                  · exact handleM3_rx C s f e _ hf rfl rfl rfl rfl rfl hv' hst
                · next hst =>
                  split
                  · next h3 => exact handleGroup_rx C s f e _ hf rfl rfl rfl rfl hv' hst h3
                  · exact RxKey.passive (Passive.same_ s false)
                all_goals exact RxKey.passive (Passive.same_ s false)
          · rw [hp]
            exact RxKey.passive (Passive.blame s _ false)

end Wolf.Supp
