import Verif.Supp.Dot1xRx

/-!
# The wired 802.1X client authenticates, or says so (C134)
-/

namespace Wolf.Dot1x

open Wolf.Supp

/-! ## Pieces -/

theorem wire_append (l : Link) (out : Supp.Bytes) (a b : List Supp.Ev) :
    wire l out (a ++ b) = wire l out a ++ wire l out b := by
  induction a with
  | nil => rfl
  | cons x a ih => cases x <;> (simp only [List.cons_append, wire, ih])

theorem polls_append (a b : List Ev) : polls (a ++ b) = polls a + polls b := by
  induction a with
  | nil => simp [polls]
  | cons x a ih => cases x <;> (simp only [List.cons_append, polls, ih]; try omega)

theorem polls_wire (l : Link) (out : Supp.Bytes) (es : List Supp.Ev) : polls (wire l out es) = 0 := by
  induction es with
  | nil => rfl
  | cons x es ih => cases x <;> exact ih

/-- Everything `feed` can do. -/
theorem feed_cases (C : Crypto) (l : Link) {s : S} (t : Turn) (hb : Before s) :
    (feed C l s t = (s, []) ∧ ¬ t.Got l.mac (fun _ => True)) ∨
    ∃ f r, t.frame = some f ∧ 14 < f.length ∧ (f.drop 6).take 6 ≠ l.mac ∧ Turned s (f.drop 14) t.env r ∧
      feed C l s t = (r.1, .fed (f.drop 14) :: wire l t.out r.2.2) := by
  unfold feed
  cases hf : t.frame with
  | none => exact .inl ⟨rfl, fun ⟨f, h, _⟩ => by rw [hf] at h; cases h⟩
  | some f =>
    dsimp only
    by_cases h : f.length > 14 ∧ (f.drop 6).take 6 ≠ l.mac
    · rw [if_pos h]
      exact .inr ⟨f, _, rfl, h.1, h.2, rx_turned C _ _ _ hb, rfl⟩
    · rw [if_neg h]
      refine .inl ⟨rfl, fun ⟨g, hg, h1, h2, _⟩ => h ?_⟩
      rw [hf] at hg
      cases hg
      exact ⟨h1, h2⟩

/-- A timer call before the handshake proper. -/
theorem tick_early (C : Crypto) (s : S) (now : Nat) (e : Env) (h : s.st ≠ .m3Wait) :
    (tick C s now e = ({ s with st := .failed }, true, []) ∧ s.st ≠ .idle ∧ s.hsStart + 10000 ≤ now) ∨
    (tick C s now e = (s, true, []) ∧
      (s.st = .idle ∨ s.st = .auth ∨ s.st = .failed ∨ now < s.hsStart + 10000)) := by
  unfold tick
  split
  · next c => exact .inl ⟨rfl, c.1, by omega⟩
  · next c =>
    refine .inr ⟨rfl, ?_⟩
    by_cases a : s.st = .idle
    · exact .inl a
    · by_cases b : s.st = .auth
      · exact .inr (.inl b)
      · by_cases d : s.st = .failed
        · exact .inr (.inr (.inl d))
        · refine .inr (.inr (.inr ?_))
          apply Nat.lt_of_not_le
          intro g
          exact c ⟨a, b, d, by omega, by omega⟩

/-- The session up to turn `k`. -/
structure Going (mac : Supp.Bytes) (start : Nat) (turns : Nat → Turn) (k : Nat) (s : S) : Prop where
  bef : Before s
  hs : s.hsStart = start
  idn : s.st = .tlsProg → ∃ j, j < k ∧ (turns j).Got mac (fun p => EapRequest p 1)

/-- One turn either ends the run or leaves the session going, with nothing bad received. -/
inductive Turn1 (mac : Supp.Bytes) (start : Nat) (turns : Nat → Turn) (k : Nat) (s : S) : S → Prop where
  | won (s' : S) (hw : s'.st = .m1Wait) (h : (turns k).Got mac (fun p => EapCode p 3))
      (hd : (turns k).eng.tlsDone = true) (hk : ∃ m, (turns k).eng.msk = some m)
      (hn : (turns k).now < start + 10000) (hi : ∃ j, j < k ∧ (turns j).Got mac (fun p => EapRequest p 1)) :
      Turn1 mac start turns k s s'
  | lost (s' : S) (hw : s'.st = .failed) : Turn1 mac start turns k s s'
  | on (s' : S) (h : Going mac start turns (k + 1) s') (hf : ¬ (turns k).Got mac (fun p => EapCode p 4))
      (hn : s.st = .idle ∧ s'.st = .idle ∨ s.st ≠ .idle ∧ s'.st ≠ .idle ∧ (turns k).now < start + 10000) :
      Turn1 mac start turns k s s'

theorem turn_cases (C : Crypto) (l : Link) (start : Nat) (turns : Nat → Turn) (k : Nat) (s : S)
    (h : Going l.mac start turns k s) :
    Turn1 l.mac start turns k s (tick C (feed C l s (turns k)).1 (turns k).now (turns k).env).1 := by
  -- a session that is still going after the frame
  have key : ∀ s' : S, Before s' → s'.hsStart = s.hsStart → (s.st = .idle ↔ s'.st = .idle) →
      (s'.st = .tlsProg → ∃ j, j < k + 1 ∧ (turns j).Got l.mac (fun p => EapRequest p 1)) →
      ¬ (turns k).Got l.mac (fun p => EapCode p 4) →
      Turn1 l.mac start turns k s (tick C s' (turns k).now (turns k).env).1 := by
    intro s' hb hh hid hi hf
    have n3 : s'.st ≠ .m3Wait := by rcases hb with c | c | c <;> (rw [c]; simp)
    rcases tick_early C s' (turns k).now (turns k).env n3 with ⟨e, _, _⟩ | ⟨e, d⟩
    · rw [e]
      exact .lost _ rfl
    · rw [e]
      refine .on _ ⟨hb, hh.trans h.hs, hi⟩ hf ?_
      by_cases a : s.st = .idle
      · exact .inl ⟨a, hid.mp a⟩
      · refine .inr ⟨a, fun c => a (hid.mpr c), ?_⟩
        rcases d with d | d | d | d
        · exact absurd (hid.mpr d) a
        · rcases hb with c | c | c <;> (rw [c] at d; cases d)
        · rcases hb with c | c | c <;> (rw [c] at d; cases d)
        · rw [← h.hs, ← hh]
          exact d
  have idn' : s.st = .tlsProg → ∃ j, j < k + 1 ∧ (turns j).Got l.mac (fun p => EapRequest p 1) := fun c =>
    (h.idn c).imp fun j ⟨a, b⟩ => ⟨by omega, b⟩
  rcases feed_cases C l (turns k) h.bef with ⟨e, hg⟩ | ⟨f, r, hf, hlen, hsrc, ht, e⟩
  · rw [e]
    exact key s h.bef rfl Iff.rfl idn' (fun ⟨f, a, b, c, _⟩ => hg ⟨f, a, b, c, trivial⟩)
  · rw [e]
    dsimp only
    have got4 : ¬ EapCode (f.drop 14) 4 → ¬ (turns k).Got l.mac (fun p => EapCode p 4) := by
      intro n ⟨g, a, _, _, d⟩
      rw [hf] at a
      cases a
      exact n d
    cases ht with
    | kept b n4 => exact key s h.bef rfl Iff.rfl idn' (got4 n4)
    | failed b =>
      rcases tick_early C { s with st := .failed } (turns k).now (turns k).env (by simp) with ⟨e, _⟩ | ⟨e, _⟩ <;>
        (rw [e]; exact .lost _ rfl)
    | identity hr hs hx =>
      refine key { s with st := .tlsProg } (.inr (.inr rfl)) rfl ?_ (fun _ => ?_) (got4 (code_ne hr.1 (by decide)))
      · constructor
        · intro c
          rcases hs with d | d <;> (rw [d] at c; cases c)
        · intro c
          cases c
      · exact ⟨k, by omega, f, hf, hlen, hsrc, hr⟩
    | answered n4 hs hx => exact key s h.bef rfl Iff.rfl idn' (got4 n4)
    | success m hc hs hd hk =>
      rcases tick_early C { s with pmk := m, st := .m1Wait } (turns k).now (turns k).env (by simp) with
        ⟨e, _⟩ | ⟨e, d⟩
      · rw [e]
        exact .lost _ rfl
      · rw [e]
        refine .won _ rfl ⟨f, hf, hlen, hsrc, hc⟩ hd ⟨m, hk⟩ ?_ (h.idn hs)
        rcases d with d | d | d | d
        · cases d
        · cases d
        · cases d
        · rw [← h.hs]
          exact d

theorem loop_step (C : Crypto) (l : Link) (turns : Nat → Turn) (n k : Nat) (s : S) :
    ∀ s', (tick C (feed C l s (turns k)).1 (turns k).now (turns k).env).1 = s' →
      (s'.st = .m1Wait → (loop C l turns (n + 1) k s).1 = 0) ∧
      (s'.st = .failed → (loop C l turns (n + 1) k s).1 = -1) ∧
      (s'.st ≠ .m1Wait → s'.st ≠ .failed →
        (loop C l turns (n + 1) k s).1 = (loop C l turns n (k + 1) s').1) := by
  intro s' hs
  refine ⟨fun c => ?_, fun c => ?_, fun c d => ?_⟩
  · rw [loop]
    dsimp only
    rw [hs, if_pos c]
  · rw [loop]
    dsimp only
    rw [hs, if_neg (by rw [c]; simp), if_pos c]
  · rw [loop]
    dsimp only
    rw [hs, if_neg c, if_neg d]

theorem before_ne {s : S} (h : Before s) : s.st ≠ .m1Wait ∧ s.st ≠ .failed := by
  rcases h with c | c | c <;> (rw [c]; exact ⟨by simp, by simp⟩)

theorem loop_success (C : Crypto) (l : Link) (start : Nat) (turns : Nat → Turn) :
    ∀ (n k : Nat) (s : S), Going l.mac start turns k s → (loop C l turns n k s).1 = 0 →
      ∃ i, k ≤ i ∧ i < k + n ∧ (turns i).Got l.mac (fun p => EapCode p 3) ∧ (turns i).eng.tlsDone = true ∧
        (∃ m, (turns i).eng.msk = some m) ∧ (turns i).now < start + 10000 ∧
        (∃ j, j < i ∧ (turns j).Got l.mac (fun p => EapRequest p 1)) ∧
        ∀ j, k ≤ j → j < i → ¬ (turns j).Got l.mac (fun p => EapCode p 4) := by
  intro n
  induction n with
  | zero => intro k s _ h; cases h
  | succ n ih =>
    intro k s hg h
    have t := turn_cases C l start turns k s hg
    have ls := loop_step C l turns n k s _ rfl
    generalize (tick C (feed C l s (turns k)).1 (turns k).now (turns k).env).1 = s' at t ls
    cases t with
    | won hw hs hd hk hn hi =>
      exact ⟨k, Nat.le_refl _, by omega, hs, hd, hk, hn, hi, fun j a b => by omega⟩
    | lost hw =>
      rw [ls.2.1 hw] at h
      cases h
    | on hgo hf hn =>
      rw [ls.2.2 (before_ne hgo.bef).1 (before_ne hgo.bef).2] at h
      obtain ⟨i, a, b, c, d, e, f, g, hh⟩ := ih (k + 1) s' hgo h
      refine ⟨i, by omega, by omega, c, d, e, f, g, fun j ja jb => ?_⟩
      by_cases hj : j = k
      · rw [hj]
        exact hf
      · exact hh j (by omega) jb

/-! ## The set-up -/

theorem init_facts (C : Crypto) (s0 : S) (mac : Supp.Bytes) (ok : Bool) (e : Env)
    (h : (Supp.init C s0 (config mac ok) e).2.1 = true) :
    (Supp.init C s0 (config mac ok) e).1.st = .idle ∧ (Supp.init C s0 (config mac ok) e).1.mode = .eapTls ∧
      (Supp.init C s0 (config mac ok) e).1.live = true ∧ ok = true ∧ e.engine = true := by
  unfold Supp.init at h ⊢
  cases ok with
  | false => cases h
  | true =>
    rw [if_neg (by show ¬ (validCfg (config mac true) = false); simp [validCfg, config])] at h ⊢
    dsimp only at h ⊢
    rw [if_neg (by show ¬ (Mode.eapTls = Mode.psk); simp)] at h ⊢
    unfold initOther at h ⊢
    cases he : e.engine with
    | false => rw [he] at h; cases h
    | true => rw [if_pos rfl]; exact ⟨rfl, rfl, rfl, rfl, rfl⟩

theorem init_works (C : Crypto) (s0 : S) (mac : Supp.Bytes) (e : Env) (he : e.engine = true) :
    (Supp.init C s0 (config mac true) e).2.1 = true := by
  unfold Supp.init
  rw [if_neg (by show ¬ (validCfg (config mac true) = false); simp [validCfg, config])]
  dsimp only
  rw [if_neg (by show ¬ (Mode.eapTls = Mode.psk); simp)]
  unfold initOther
  rw [if_pos he]

/-- EAPOL-Start: sent or lost. -/
theorem kick_cases (s : S) (now : Nat) (e : Env) (hi : s.st = .idle) (hm : s.mode = .eapTls) (hl : s.live = true) :
    (e.send = true ∧ kick s now e =
      ({ s with m2Send := now, hsStart := now, retries := 3, st := .identWait }, true, [.other])) ∨
    (e.send = false ∧ kick s now e = ({ s with m2Send := now, hsStart := now, retries := 3 }, false, [])) := by
  unfold kick
  rw [if_neg (by rw [hi]; simp)]
  dsimp only
  rw [hm]
  dsimp only
  cases hx : e.send with
  | true => rw [if_pos ⟨hl, rfl⟩]; exact .inl ⟨rfl, rfl⟩
  | false => rw [if_neg (by simp)]; exact .inr ⟨rfl, rfl⟩

/-- The shape of a run. -/
theorem run_cases (C : Crypto) (s0 : S) (w : World) :
    (∃ s, run C s0 w = (-1, s, []) ∧ s = s0) ∨
    (∃ mac, w.dev = some mac ∧ w.sock = true ∧ (Supp.init C s0 (config mac w.cfgOk) w.init).2.1 = false ∧
      run C s0 w = (-1, (Supp.init C s0 (config mac w.cfgOk) w.init).1, [.opened, .closed])) ∨
    (∃ mac s, w.dev = some mac ∧ w.sock = true ∧ s.st = .idle ∧ s.mode = .eapTls ∧ s.live = true ∧
      run C s0 w = ((session C ⟨mac, w.auth⟩ w s).1, (session C ⟨mac, w.auth⟩ w s).2.1,
        .opened :: (session C ⟨mac, w.auth⟩ w s).2.2 ++ [.closed])) := by
  unfold run
  cases hd : w.dev with
  | none => exact .inl ⟨s0, rfl, rfl⟩
  | some mac =>
    dsimp only
    by_cases hs : w.sock = false
    · rw [if_pos hs]
      exact .inl ⟨s0, rfl, rfl⟩
    · rw [if_neg hs]
      by_cases hi : (Supp.init C s0 (config mac w.cfgOk) w.init).2.1 = false
      · rw [if_pos hi]
        exact .inr (.inl ⟨mac, rfl, ne_false' hs, hi, rfl⟩)
      · rw [if_neg hi]
        obtain ⟨a, b, c, _⟩ := init_facts C s0 mac w.cfgOk w.init (ne_false' hi)
        exact .inr (.inr ⟨mac, _, rfl, ne_false' hs, a, b, c, rfl⟩)

theorem kick_going (w : World) (mac : Supp.Bytes) (s : S) (hi : s.st = .idle) (hm : s.mode = .eapTls)
    (hl : s.live = true) : Going mac w.start w.turns 0 (kick s w.start w.startEnv).1 := by
  rcases kick_cases s w.start w.startEnv hi hm hl with ⟨_, e⟩ | ⟨_, e⟩
  · rw [e]
    exact ⟨.inr (.inl rfl), rfl, (by intro c; cases c)⟩
  · rw [e]
    exact ⟨.inl hi, rfl, fun c => by
      have c : s.st = .tlsProg := c
      rw [hi] at c
      cases c⟩

/-- **C134, success is an EAP-Success after a finished TLS handshake.**  If the client reports
success, another station sent an EAP-Success in a turn in which the TLS handshake was complete and
gave a key, after an identity request was answered, within ten seconds of the start, and no
EAP-Failure was received before. -/
theorem dot1x_success (C : Crypto) (s0 : S) (w : World) (h : (run C s0 w).1 = 0) :
    ∃ mac i, w.dev = some mac ∧ w.sock = true ∧ i < dot1xMaxIters ∧
      (w.turns i).Got mac (fun p => EapCode p 3) ∧ (w.turns i).eng.tlsDone = true ∧
      (∃ m, (w.turns i).eng.msk = some m) ∧ (w.turns i).now < w.start + 10000 ∧
      (∃ j, j < i ∧ (w.turns j).Got mac (fun p => EapRequest p 1)) ∧
      ∀ j, j < i → ¬ (w.turns j).Got mac (fun p => EapCode p 4) := by
  rcases run_cases C s0 w with ⟨s, e, _⟩ | ⟨mac, _, _, _, e⟩ | ⟨mac, s, hd, hs, hi, hm, hl, e⟩
  · rw [e] at h; cases h
  · rw [e] at h; cases h
  · rw [e] at h
    obtain ⟨i, _, b, c, d, f, g, k, n⟩ := loop_success C ⟨mac, w.auth⟩ w.start w.turns dot1xMaxIters 0 _
      (kick_going w mac s hi hm hl) h
    exact ⟨mac, i, hd, hs, by rw [Nat.zero_add] at b; exact b, c, d, f, g, k, fun j => n j (Nat.zero_le _)⟩

/-- ... and anything else is reported as a failure. -/
theorem dot1x_result (C : Crypto) (s0 : S) (w : World) : (run C s0 w).1 = 0 ∨ (run C s0 w).1 = -1 := by
  have L : ∀ (l : Link) (n k : Nat) (s : S), (loop C l w.turns n k s).1 = 0 ∨ (loop C l w.turns n k s).1 = -1 := by
    intro l n
    induction n with
    | zero => exact fun _ _ => .inr rfl
    | succ n ih =>
      intro k s
      have ls := loop_step C l w.turns n k s _ rfl
      generalize (tick C (feed C l s (w.turns k)).1 (w.turns k).now (w.turns k).env).1 = s' at ls
      by_cases a : s'.st = .m1Wait
      · exact .inl (ls.1 a)
      · by_cases b : s'.st = .failed
        · exact .inr (ls.2.1 b)
        · rw [ls.2.2 a b]
          exact ih _ _
  rcases run_cases C s0 w with ⟨s, e, _⟩ | ⟨mac, _, _, _, e⟩ | ⟨mac, s, _, _, _, _, _, e⟩
  · exact .inr (by rw [e])
  · exact .inr (by rw [e])
  · rw [e]
    exact L _ _ _ _

/-! ## A proper exchange succeeds -/

/-- The turn brings nothing to the supplicant that matters: no frame, a header only, our own frame, or
one that is neither EAP nor a key frame. -/
def Quiet (mac : Supp.Bytes) (t : Turn) : Prop :=
  ¬ t.Got mac (fun p => p.length < 4 ∨ p.getD 1 0 = 0 ∨ p.getD 1 0 = 3)

theorem quiet_feed (C : Crypto) (l : Link) (s : S) (t : Turn) (h : Quiet l.mac t) : (feed C l s t).1 = s := by
  unfold feed
  cases hf : t.frame with
  | none => rfl
  | some f =>
    dsimp only
    by_cases c : f.length > 14 ∧ (f.drop 6).take 6 ≠ l.mac
    · rw [if_pos c]
      have q : ¬ ((f.drop 14).length < 4 ∨ (f.drop 14).getD 1 0 = 0 ∨ (f.drop 14).getD 1 0 = 3) := fun d =>
        h ⟨f, hf, c.1, c.2, d⟩
      have q1 : 4 ≤ (f.drop 14).length := Nat.le_of_not_lt fun d => q (.inl d)
      dsimp only
      rw [rx_foreign C t.now t.env q1 (fun d => q (.inr (.inl d))) (fun d => q (.inr (.inr d)))]
    · rw [if_neg c]

/-- The turn brings a TLS request that the engine accepts and whose answer is sent. -/
def TlsTurn (mac : Supp.Bytes) (t : Turn) : Prop :=
  t.Got mac (fun p => EapRequest p 13) ∧ t.eng.engine = true ∧ sendOk t.out t.tx = true

theorem got_feed (C : Crypto) (l : Link) (s : S) (t : Turn) (P : Supp.Bytes → Prop) (h : t.Got l.mac P) :
    ∃ p, P p ∧ (feed C l s t).1 = (rx C s p t.now t.env).1 ∧
      ∀ ev ∈ wire l t.out (rx C s p t.now t.env).2.2, ev ∈ (feed C l s t).2 := by
  obtain ⟨f, a, b, c, d⟩ := h
  refine ⟨f.drop 14, d, ?_⟩
  unfold feed
  rw [a]
  dsimp only
  rw [if_pos ⟨b, c⟩]
  exact ⟨rfl, fun ev h => List.mem_cons_of_mem _ h⟩

theorem tick_idle (C : Crypto) (s : S) (now : Nat) (e : Env) (h3 : s.st ≠ .m3Wait) (hn : now < s.hsStart + 10000) :
    tick C s now e = (s, true, []) := by
  rcases tick_early C s now e h3 with ⟨_, _, c⟩ | ⟨c, _⟩
  · omega
  · exact c

/-- The effects of one turn. -/
def turnEvs (C : Crypto) (l : Link) (s : S) (t : Turn) : List Ev :=
  .poll t.now :: ((feed C l s t).2 ++ wire l t.out (tick C (feed C l s t).1 t.now t.env).2.2)

theorem loop_evs (C : Crypto) (l : Link) (turns : Nat → Turn) (n k : Nat) (s : S) :
    ∀ s', (tick C (feed C l s (turns k)).1 (turns k).now (turns k).env).1 = s' →
      ((s'.st = .m1Wait ∨ s'.st = .failed) → (loop C l turns (n + 1) k s).2.2 = turnEvs C l s (turns k)) ∧
      (s'.st ≠ .m1Wait → s'.st ≠ .failed →
        (loop C l turns (n + 1) k s).2.2 = turnEvs C l s (turns k) ++ (loop C l turns n (k + 1) s').2.2) := by
  intro s' hs
  refine ⟨fun c => ?_, fun c d => ?_⟩
  · rw [loop]
    dsimp only
    rw [hs]
    rcases c with c | c
    · rw [if_pos c]
      rfl
    · rw [if_neg (by rw [c]; simp), if_pos c]
      rfl
  · rw [loop]
    dsimp only
    rw [hs, if_neg c, if_neg d]
    rfl

/-- A turn's effects are among the loop's. -/
theorem loop_mem (C : Crypto) (l : Link) (turns : Nat → Turn) (n k : Nat) (s : S) {ev : Ev}
    (h : ev ∈ (feed C l s (turns k)).2) : ev ∈ (loop C l turns (n + 1) k s).2.2 := by
  have le := loop_evs C l turns n k s _ rfl
  generalize (tick C (feed C l s (turns k)).1 (turns k).now (turns k).env).1 = s' at le
  have m : ev ∈ turnEvs C l s (turns k) := List.mem_cons_of_mem _ (List.mem_append_left _ h)
  by_cases a : s'.st = .m1Wait ∨ s'.st = .failed
  · rw [le.1 a]
    exact m
  · rw [le.2 (fun c => a (.inl c)) (fun c => a (.inr c))]
    exact List.mem_append_left _ m

theorem tls_loop (C : Crypto) (l : Link) (turns : Nat → Turn) (i : Nat)
    (hi : (turns i).Got l.mac (fun p => EapCode p 3)) (hd : (turns i).eng.tlsDone = true)
    (hk : ∃ m, (turns i).eng.msk = some m) (start : Nat) (hn : ∀ j, j ≤ i → (turns j).now < start + 10000) :
    ∀ (n k : Nat) (s : S), k ≤ i → i < k + n → s.st = .tlsProg → s.mode = .eapTls → s.live = true →
      s.hsStart = start → (∀ j, k ≤ j → j < i → Quiet l.mac (turns j) ∨ TlsTurn l.mac (turns j)) →
      (loop C l turns n k s).1 = 0 ∧ ∀ j, k ≤ j → j < i → TlsTurn l.mac (turns j) →
        .sent (ethFrame l (turns j).out) ∈ (loop C l turns n k s).2.2 := by
  intro n
  induction n with
  | zero => intro k s h1 h2; omega
  | succ n ih =>
    intro k s h1 h2 hs hm hl hh hq
    by_cases hki : k = i
    · rw [hki]
      refine ⟨?_, fun j a b => by omega⟩
      obtain ⟨m, hm'⟩ := hk
      obtain ⟨p, hp, e, _⟩ := got_feed C l s (turns i) _ hi
      have ls := loop_step C l turns n i s _ rfl
      rw [e, rx_success C _ (e := (turns i).env) hp hs hm hd hm', tick_idle C _ _ _ (by simp) (by show _ < s.hsStart + _; rw [hh]; exact hn i (Nat.le_refl _))] at ls
      exact ls.1 rfl
    · have e : (feed C l s (turns k)).1 = s := by
        rcases hq k (Nat.le_refl _) (by omega) with q | ⟨g, q2, q3⟩
        · exact quiet_feed C l s _ q
        · obtain ⟨p, hp, e, _⟩ := got_feed C l s (turns k) _ g
          rw [e, rx_tls C _ (e := (turns k).env) hp hs hl q3 q2]
      have ls := loop_step C l turns n k s _ rfl
      rw [e, tick_idle C _ _ _ (by rw [hs]; simp) (by rw [hh]; exact hn k h1)] at ls
      have le := (loop_evs C l turns n k s _ rfl).2
      rw [e, tick_idle C _ _ _ (by rw [hs]; simp) (by rw [hh]; exact hn k h1)] at le
      have IH := ih (k + 1) s (by omega) (by omega) hs hm hl hh (fun j a b => hq j (by omega) b)
      refine ⟨by rw [ls.2.2 (by rw [hs]; simp) (by rw [hs]; simp)]; exact IH.1, fun j a b c => ?_⟩
      by_cases hj : j = k
      · rw [hj] at c ⊢
        obtain ⟨g, q2, q3⟩ := c
        obtain ⟨p, hp, _, hmem⟩ := got_feed C l s (turns k) _ g
        rw [rx_tls C _ (e := (turns k).env) hp hs hl q3 q2] at hmem
        exact loop_mem C l turns n k s (hmem _ (List.mem_singleton.mpr rfl))
      · rw [le (by rw [hs]; simp) (by rw [hs]; simp)]
        exact List.mem_append_right _ (IH.2 j (by omega) b c)

theorem ident_loop (C : Crypto) (l : Link) (turns : Nat → Turn) (a i : Nat) (hai : a < i)
    (ha : (turns a).Got l.mac (fun p => EapRequest p 1)) (hx : sendOk (turns a).out (turns a).tx = true)
    (hi : (turns i).Got l.mac (fun p => EapCode p 3)) (hd : (turns i).eng.tlsDone = true)
    (hk : ∃ m, (turns i).eng.msk = some m) (start : Nat) (hn : ∀ j, j ≤ i → (turns j).now < start + 10000)
    (hq : ∀ j, j < a → Quiet l.mac (turns j))
    (ht : ∀ j, a < j → j < i → Quiet l.mac (turns j) ∨ TlsTurn l.mac (turns j)) :
    ∀ (n k : Nat) (s : S), k ≤ a → i < k + n → s.st = .identWait → s.mode = .eapTls → s.live = true →
      s.hsStart = start → (loop C l turns n k s).1 = 0 ∧ ∀ j, (j = a ∨ a < j ∧ j < i ∧ TlsTurn l.mac (turns j)) →
        .sent (ethFrame l (turns j).out) ∈ (loop C l turns n k s).2.2 := by
  intro n
  induction n with
  | zero => intro k s h1 h2; omega
  | succ n ih =>
    intro k s h1 h2 hs hm hl hh
    by_cases hka : k = a
    · rw [hka] at h2 ⊢
      obtain ⟨p, hp, e, hmem⟩ := got_feed C l s (turns a) _ ha
      have ls := loop_step C l turns n a s _ rfl
      rw [e, rx_identity C _ (e := (turns a).env) hp hs hl hx, tick_idle C _ _ _ (by simp) (by show _ < s.hsStart + _; rw [hh]; exact hn a (by omega))] at ls
      have le := (loop_evs C l turns n a s _ rfl).2
      rw [e, rx_identity C _ (e := (turns a).env) hp hs hl hx, tick_idle C _ _ _ (by simp) (by show _ < s.hsStart + _; rw [hh]; exact hn a (by omega))] at le
      have T := tls_loop C l turns i hi hd hk start hn n (a + 1) { s with st := .tlsProg } (by omega) (by omega) rfl
        hm hl hh (fun j b c => ht j (by omega) c)
      refine ⟨by rw [ls.2.2 (by simp) (by simp)]; exact T.1, fun j c => ?_⟩
      rcases c with c | ⟨c1, c2, c3⟩
      · rw [c]
        rw [rx_identity C _ (e := (turns a).env) hp hs hl hx] at hmem
        exact loop_mem C l turns n a s (hmem _ (List.mem_singleton.mpr rfl))
      · rw [le (by simp) (by simp)]
        exact List.mem_append_right _ (T.2 j (by omega) c2 c3)
    · have ls := loop_step C l turns n k s _ rfl
      rw [quiet_feed C l s _ (hq k (by omega)), tick_idle C _ _ _ (by rw [hs]; simp) (by rw [hh]; exact hn k (by omega))] at ls
      have le := (loop_evs C l turns n k s _ rfl).2
      rw [quiet_feed C l s _ (hq k (by omega)), tick_idle C _ _ _ (by rw [hs]; simp) (by rw [hh]; exact hn k (by omega))] at le
      have IH := ih (k + 1) s (by omega) (by omega) hs hm hl hh
      refine ⟨by rw [ls.2.2 (by rw [hs]; simp) (by rw [hs]; simp)]; exact IH.1, fun j c => ?_⟩
      rw [le (by rw [hs]; simp) (by rw [hs]; simp)]
      exact List.mem_append_right _ (IH.2 j c)

/-- **C134, a proper exchange succeeds.**  With a device, a socket and acceptable certificates, and
EAPOL-Start on the wire: if an authenticator asks for the identity (turn `a`), runs the TLS exchange,
and ends it with an EAP-Success (turn `i`) when the handshake is complete, all within ten seconds,
the client reports success, whatever unrelated frames are mixed in, and has sent EAPOL-Start, the
identity and its part of the TLS exchange. -/
theorem dot1x_authenticates (C : Crypto) (s0 : S) (w : World) (mac : Supp.Bytes) (a i : Nat)
    (hdev : w.dev = some mac) (hsock : w.sock = true) (hcfg : w.cfgOk = true) (heng : w.init.engine = true)
    (hstart : sendOk w.startOut w.startTx = true) (hai : a < i) (him : i < dot1xMaxIters)
    (ha : (w.turns a).Got mac (fun p => EapRequest p 1)) (hx : sendOk (w.turns a).out (w.turns a).tx = true)
    (hi : (w.turns i).Got mac (fun p => EapCode p 3)) (hd : (w.turns i).eng.tlsDone = true)
    (hk : ∃ m, (w.turns i).eng.msk = some m) (hn : ∀ j, j ≤ i → (w.turns j).now < w.start + 10000)
    (hq : ∀ j, j < a → Quiet mac (w.turns j))
    (ht : ∀ j, a < j → j < i → Quiet mac (w.turns j) ∨ TlsTurn mac (w.turns j)) :
    (run C s0 w).1 = 0 ∧
    .sent (w.auth ++ mac ++ [0x88, 0x8E] ++ w.startOut) ∈ (run C s0 w).2.2 ∧
    ∀ j, (j = a ∨ a < j ∧ j < i ∧ TlsTurn mac (w.turns j)) →
      .sent (w.auth ++ mac ++ [0x88, 0x8E] ++ (w.turns j).out) ∈ (run C s0 w).2.2 := by
  have hw := init_works C s0 mac w.init heng
  rcases run_cases C s0 w with ⟨s, e, _⟩ | ⟨mac', h1, _, h3, _⟩ | ⟨mac', s, h1, _, h3, h4, h5, e⟩
  · exfalso
    have : run C s0 w = ((session C ⟨mac, w.auth⟩ w (Supp.init C s0 (config mac w.cfgOk) w.init).1).1,
        (session C ⟨mac, w.auth⟩ w (Supp.init C s0 (config mac w.cfgOk) w.init).1).2.1,
        .opened :: (session C ⟨mac, w.auth⟩ w (Supp.init C s0 (config mac w.cfgOk) w.init).1).2.2 ++ [.closed]) := by
      unfold run
      rw [hdev]
      dsimp only
      rw [if_neg (by rw [hsock]; decide), hcfg, if_neg (by rw [hw]; decide)]
    rw [this] at e
    have e3 := congrArg (fun x => x.2.2) e
    cases e3
  · rw [hdev] at h1
    cases h1
    rw [hcfg] at h3
    rw [hw] at h3
    cases h3
  · rw [hdev] at h1
    cases h1
    rcases kick_cases s w.start w.startEnv h3 h4 h5 with ⟨_, k⟩ | ⟨c, _⟩
    · have L := ident_loop C ⟨mac, w.auth⟩ w.turns a i hai ha hx hi hd hk w.start hn hq ht dot1xMaxIters 0
        { s with m2Send := w.start, hsStart := w.start, retries := 3, st := .identWait } (Nat.zero_le _)
        (by rw [Nat.zero_add]; exact him) rfl h4 h5 rfl
      obtain ⟨x, S⟩ : ∃ x, session C ⟨mac, w.auth⟩ w s = ((loop C ⟨mac, w.auth⟩ w.turns dot1xMaxIters 0
          { s with m2Send := w.start, hsStart := w.start, retries := 3, st := .identWait }).1, x,
          .sent (ethFrame ⟨mac, w.auth⟩ w.startOut) :: ((loop C ⟨mac, w.auth⟩ w.turns dot1xMaxIters 0
          { s with m2Send := w.start, hsStart := w.start, retries := 3, st := .identWait }).2.2 ++ [.wiped])) := by
        refine ⟨(session C ⟨mac, w.auth⟩ w s).2.1, ?_⟩
        unfold session
        rw [k]
        rfl
      rw [e, S]
      refine ⟨L.1, ?_, fun j c => ?_⟩
      · exact List.mem_append_left _ (List.mem_cons_of_mem _ List.mem_cons_self)
      · exact List.mem_append_left _ (List.mem_cons_of_mem _ (List.mem_cons_of_mem _
          (List.mem_append_left _ (L.2 j c))))
    · have c : sendOk w.startOut w.startTx = false := c
      rw [hstart] at c
      cases c

end Wolf.Dot1x
