import Verif.Supp.Dot1xProps

/-!
# The wired 802.1X client: frames, time and clean-up (C134)
-/

namespace Wolf.Dot1x

open Wolf.Supp

/-- What the events of a run may be. -/
def Fine (w : World) (mac : Supp.Bytes) : Ev → Prop
  | .opened => False
  | .closed => False
  | .wiped => False
  | .poll now => ∃ i, now = (w.turns i).now
  | .fed p => ∃ i f, (w.turns i).frame = some f ∧ 14 < f.length ∧ (f.drop 6).take 6 ≠ mac ∧ p = f.drop 14
  | .sent f => ∃ p, f = w.auth ++ mac ++ [0x88, 0x8E] ++ p ∧ 14 + p.length ≤ dot1xFrameMax ∧
      (p = w.startOut ∨ ∃ i, p = (w.turns i).out)

theorem sendOk_len {out : Supp.Bytes} {tx : Bool} (h : sendOk out tx = true) : 14 + out.length ≤ dot1xFrameMax := by
  unfold sendOk at h
  simp only [Bool.and_eq_true, decide_eq_true_eq] at h
  exact h.1

/-- The frames of a turn. -/
theorem turned_fine (w : World) (mac : Supp.Bytes) {s : S} {p : Supp.Bytes} (i : Nat) {r : S × Bool × List Supp.Ev}
    (h : Turned s p (w.turns i).env r) :
    ∀ ev ∈ wire ⟨mac, w.auth⟩ (w.turns i).out r.2.2, Fine w mac ev := by
  have one : (w.turns i).env.send = true →
      ∀ ev ∈ wire ⟨mac, w.auth⟩ (w.turns i).out [.other], Fine w mac ev := by
    intro hx ev hev
    cases hev with
    | head => exact ⟨(w.turns i).out, rfl, sendOk_len hx, .inr ⟨i, rfl⟩⟩
    | tail _ h => cases h
  cases h with
  | kept b n => intro ev h; cases h
  | failed b => intro ev h; cases h
  | identity h hs hx => exact one hx
  | answered h hs hx => exact one hx
  | success k h hs hd hk => intro ev h; cases h

theorem feed_fine (C : Crypto) (w : World) (mac : Supp.Bytes) (s : S) (i : Nat) (hb : Before s) :
    ∀ ev ∈ (feed C ⟨mac, w.auth⟩ s (w.turns i)).2, Fine w mac ev := by
  rcases feed_cases C ⟨mac, w.auth⟩ (w.turns i) hb with ⟨e, _⟩ | ⟨f, r, hf, hl, hs, ht, e⟩
  · rw [e]
    intro ev h
    cases h
  · rw [e]
    intro ev h
    rcases List.mem_cons.mp h with h | h
    · rw [h]
      exact ⟨i, f, hf, hl, hs, rfl⟩
    · exact turned_fine w mac i ht ev h

/-- After the frame, the session is still early, or has just ended. -/
theorem feed_not3 (C : Crypto) (l : Link) {s : S} (t : Turn) (hb : Before s) : (feed C l s t).1.st ≠ .m3Wait := by
  have nb : s.st ≠ .m3Wait := by rcases hb with c | c | c <;> (rw [c]; simp)
  rcases feed_cases C l t hb with ⟨e, _⟩ | ⟨f, r, _, _, _, ht, e⟩
  · rw [e]
    exact nb
  · rw [e]
    cases ht with
    | kept b n => exact nb
    | failed b => simp
    | identity h hs hx => simp
    | answered h hs hx => exact nb
    | success k h hs hd hk => simp

theorem turn_quiet (C : Crypto) (l : Link) {s : S} (t : Turn) (hb : Before s) :
    turnEvs C l s t = .poll t.now :: (feed C l s t).2 := by
  unfold turnEvs
  rcases tick_early C (feed C l s t).1 t.now t.env (feed_not3 C l t hb) with ⟨e, _⟩ | ⟨e, _⟩ <;>
    (rw [e]; simp [wire])

theorem loop_fine (C : Crypto) (w : World) (mac : Supp.Bytes) :
    ∀ (n k : Nat) (s : S), Going mac w.start w.turns k s →
      ∀ ev ∈ (loop C ⟨mac, w.auth⟩ w.turns n k s).2.2, Fine w mac ev := by
  intro n
  induction n with
  | zero => intro k s _ ev h; cases h
  | succ n ih =>
    intro k s hg
    have t := turn_cases C ⟨mac, w.auth⟩ w.start w.turns k s hg
    have le := loop_evs C ⟨mac, w.auth⟩ w.turns n k s _ rfl
    have hf : ∀ ev ∈ turnEvs C ⟨mac, w.auth⟩ s (w.turns k), Fine w mac ev := by
      rw [turn_quiet C _ _ hg.bef]
      intro ev h
      rcases List.mem_cons.mp h with h | h
      · rw [h]
        exact ⟨k, rfl⟩
      · exact feed_fine C w mac s k hg.bef ev h
    generalize (tick C (feed C ⟨mac, w.auth⟩ s (w.turns k)).1 (w.turns k).now (w.turns k).env).1 = s' at t le
    cases t with
    | won hw _ _ _ _ _ => rw [le.1 (.inl hw)]; exact hf
    | lost hw => rw [le.1 (.inr hw)]; exact hf
    | on hgo _ _ =>
      rw [le.2 (before_ne hgo.bef).1 (before_ne hgo.bef).2]
      intro ev h
      rcases List.mem_append.mp h with h | h
      · exact hf ev h
      · exact ih (k + 1) s' hgo ev h

theorem kick_fine (w : World) (mac : Supp.Bytes) (s : S) (hi : s.st = .idle) (hm : s.mode = .eapTls)
    (hl : s.live = true) :
    ∀ ev ∈ wire ⟨mac, w.auth⟩ w.startOut (kick s w.start w.startEnv).2.2, Fine w mac ev := by
  rcases kick_cases s w.start w.startEnv hi hm hl with ⟨hx, e⟩ | ⟨_, e⟩
  · rw [e]
    intro ev h
    cases h with
    | head => exact ⟨w.startOut, rfl, sendOk_len hx, .inl rfl⟩
    | tail _ h => cases h
  · rw [e]
    intro ev h
    cases h

/-- **C134, clean-up and framing.**  A run either touches nothing (no device, no socket), or opens the
packet socket and closes it as its last act, once each; the supplicant, once set up, is wiped before
that.  In between it polls, hands the supplicant the payloads of frames of more than 14 bytes from
other stations, and sends what the supplicant gives it behind the authenticator's address, its own
address and the EAPOL ethertype, in frames of at most 1600 bytes. -/
theorem dot1x_io (C : Crypto) (s0 : S) (w : World) :
    (run C s0 w).2.2 = [] ∨
    ∃ mac, w.dev = some mac ∧ ((run C s0 w).2.2 = [.opened, .closed] ∨
      ∃ mid, (run C s0 w).2.2 = .opened :: (mid ++ [.wiped, .closed]) ∧ ∀ ev ∈ mid, Fine w mac ev) := by
  rcases run_cases C s0 w with ⟨s, e, _⟩ | ⟨mac, h1, _, _, e⟩ | ⟨mac, s, h1, _, hi, hm, hl, e⟩
  · exact .inl (by rw [e])
  · exact .inr ⟨mac, h1, .inl (by rw [e])⟩
  · refine .inr ⟨mac, h1, .inr ⟨wire ⟨mac, w.auth⟩ w.startOut (kick s w.start w.startEnv).2.2 ++
      (loop C ⟨mac, w.auth⟩ w.turns dot1xMaxIters 0 (kick s w.start w.startEnv).1).2.2, ?_, ?_⟩⟩
    · rw [e]
      unfold session
      simp only [List.cons_append, List.append_assoc, List.nil_append]
    · intro ev h
      rcases List.mem_append.mp h with h | h
      · exact kick_fine w mac s hi hm hl ev h
      · exact loop_fine C w mac _ 0 _ (kick_going w mac s hi hm hl) ev h

/-- **C134, no key stays behind.**  After a run that set up a session no key material is left in the
supplicant. -/
theorem dot1x_wiped (C : Crypto) (s0 : S) (w : World) (h : .wiped ∈ (run C s0 w).2.2) :
    (run C s0 w).2.1.pmk = Supp.zeros 32 ∧ (run C s0 w).2.1.ptk = ⟨Supp.zeros 16, Supp.zeros 16, Supp.zeros 16⟩ ∧
      (run C s0 w).2.1.st = .idle := by
  rcases run_cases C s0 w with ⟨s, e, _⟩ | ⟨mac, h1, _, _, e⟩ | ⟨mac, s, h1, _, hi, hm, hl, e⟩
  · rw [e] at h; cases h
  · rw [e] at h
    simp at h
  · rw [e]
    exact ⟨rfl, rfl, rfl⟩

/-! ## Time -/

theorem feed_polls (C : Crypto) (l : Link) (s : S) (t : Turn) : polls (feed C l s t).2 = 0 := by
  unfold feed
  split
  · rfl
  · split
    · exact polls_wire _ _ _
    · rfl

theorem turn_polls (C : Crypto) (l : Link) (s : S) (t : Turn) : polls (turnEvs C l s t) = 1 := by
  unfold turnEvs
  show polls (_ ++ _) + 1 = 1
  rw [polls_append, feed_polls, polls_wire]

theorem loop_polls (C : Crypto) (l : Link) (turns : Nat → Turn) :
    ∀ (n k : Nat) (s : S), polls (loop C l turns n k s).2.2 ≤ n := by
  intro n
  induction n with
  | zero => intro k s; exact Nat.le_refl 0
  | succ n ih =>
    intro k s
    have le := loop_evs C l turns n k s _ rfl
    generalize (tick C (feed C l s (turns k)).1 (turns k).now (turns k).env).1 = s' at le
    by_cases a : s'.st = .m1Wait ∨ s'.st = .failed
    · rw [le.1 a, turn_polls]
      omega
    · rw [le.2 (fun c => a (.inl c)) (fun c => a (.inr c)), polls_append, turn_polls]
      have := ih (k + 1) s'
      omega

theorem loop_deadline (C : Crypto) (l : Link) (start : Nat) (turns : Nat → Turn) (i : Nat)
    (hn : start + 10000 ≤ (turns i).now) :
    ∀ (n k : Nat) (s : S), Going l.mac start turns k s → s.st ≠ .idle → k ≤ i →
      k + polls (loop C l turns n k s).2.2 ≤ i + 1 := by
  intro n
  induction n with
  | zero => intro k s _ _ h; show k + 0 ≤ i + 1; omega
  | succ n ih =>
    intro k s hg hs hk
    have t := turn_cases C l start turns k s hg
    have le := loop_evs C l turns n k s _ rfl
    generalize (tick C (feed C l s (turns k)).1 (turns k).now (turns k).env).1 = s' at t le
    cases t with
    | won hw _ _ _ _ _ => rw [le.1 (.inl hw), turn_polls]; omega
    | lost hw => rw [le.1 (.inr hw), turn_polls]; omega
    | on hgo _ hn' =>
      rw [le.2 (before_ne hgo.bef).1 (before_ne hgo.bef).2, polls_append, turn_polls]
      rcases hn' with ⟨a, _⟩ | ⟨_, b, c⟩
      · exact absurd a hs
      · have hki : k ≠ i := fun e => by rw [e] at c; omega
        have := ih (k + 1) s' hgo b (by omega)
        omega

/-- **C134, ten seconds (partial).**  When EAPOL-Start was sent, the run is over with the first poll
ten seconds or more after its start, whatever arrives; in any case after four million polls.  (Lacking:
when EAPOL-Start is refused, see below.) -/
theorem dot1x_deadline_partial (C : Crypto) (s0 : S) (w : World) :
    polls (run C s0 w).2.2 ≤ dot1xMaxIters ∧
    (sendOk w.startOut w.startTx = true → ∀ i, w.start + 10000 ≤ (w.turns i).now →
      polls (run C s0 w).2.2 ≤ i + 1) := by
  rcases run_cases C s0 w with ⟨s, e, _⟩ | ⟨mac, h1, _, _, e⟩ | ⟨mac, s, h1, _, hi, hm, hl, e⟩
  · rw [e]
    exact ⟨Nat.zero_le _, fun _ i _ => Nat.zero_le _⟩
  · rw [e]
    exact ⟨Nat.zero_le _, fun _ i _ => Nat.zero_le _⟩
  · have P : polls (run C s0 w).2.2 =
        polls (loop C ⟨mac, w.auth⟩ w.turns dot1xMaxIters 0 (kick s w.start w.startEnv).1).2.2 := by
      rw [e]
      unfold session
      show polls (((wire _ _ _ ++ (loop _ _ _ _ _ _).2.2) ++ [Ev.wiped]) ++ [Ev.closed]) = _
      rw [polls_append, polls_append, polls_append, polls_wire]
      show 0 + _ + 0 + 0 = _
      omega
    rw [P]
    refine ⟨loop_polls C _ _ _ _ _, fun hx i hn => ?_⟩
    rcases kick_cases s w.start w.startEnv hi hm hl with ⟨_, k⟩ | ⟨c, _⟩
    · have g := kick_going w mac s hi hm hl
      rw [k] at g ⊢
      have := loop_deadline C ⟨mac, w.auth⟩ w.start w.turns i hn dot1xMaxIters 0 _ g (by simp) (Nat.zero_le _)
      omega
    · have c : sendOk w.startOut w.startTx = false := c
      rw [hx] at c
      cases c

theorem idle_loop (C : Crypto) (l : Link) (turns : Nat → Turn) (hq : ∀ j, Quiet l.mac (turns j)) :
    ∀ (n k : Nat) (s : S), s.st = .idle →
      (loop C l turns n k s).1 = -1 ∧ polls (loop C l turns n k s).2.2 = n ∧
        ∀ f, .sent f ∉ (loop C l turns n k s).2.2 := by
  intro n
  induction n with
  | zero => intro k s _; exact ⟨rfl, rfl, fun f h => by cases h⟩
  | succ n ih =>
    intro k s hs
    have hb : Before s := .inl hs
    have e := quiet_feed C l s _ (hq k)
    have ls := loop_step C l turns n k s _ rfl
    have le := loop_evs C l turns n k s _ rfl
    have tk : tick C s (turns k).now (turns k).env = (s, true, []) := by
      rcases tick_early C s (turns k).now (turns k).env (by rw [hs]; simp) with ⟨_, c, _⟩ | ⟨c, _⟩
      · exact absurd hs c
      · exact c
    rw [e, tk] at ls le
    have n1 : s.st ≠ .m1Wait := by rw [hs]; simp
    have n2 : s.st ≠ .failed := by rw [hs]; simp
    obtain ⟨i1, i2, i3⟩ := ih (k + 1) s hs
    refine ⟨by rw [ls.2.2 n1 n2]; exact i1, by rw [le.2 n1 n2, polls_append, turn_polls, i2]; omega, ?_⟩
    intro f h
    rw [le.2 n1 n2, turn_quiet C _ _ hb] at h
    rcases List.mem_append.mp h with h | h
    · rcases List.mem_cons.mp h with h | h
      · cases h
      · unfold feed at h
        split at h
        · cases h
        · next g hg =>
          split at h
          · next c =>
            have q : ¬ ((g.drop 14).length < 4 ∨ (g.drop 14).getD 1 0 = 0 ∨ (g.drop 14).getD 1 0 = 3) :=
              fun d => hq k ⟨g, hg, c.1, c.2, d⟩
            rw [rx_foreign C _ _ (Nat.le_of_not_lt fun d => q (.inl d)) (fun d => q (.inr (.inl d)))
              (fun d => q (.inr (.inr d)))] at h
            rcases List.mem_cons.mp h with h | h
            · cases h
            · cases h
          · cases h
    · exact i3 f h

/-- ... the gap: if the socket refuses the one EAPOL-Start (a full queue, a link that is still down)
and the authenticator stays quiet, the client says nothing more and does not notice its ten seconds:
it fails after four million polls, whatever the clock says. -/
theorem dot1x_start_lost (C : Crypto) (s0 : S) (w : World) (mac : Supp.Bytes)
    (hdev : w.dev = some mac) (hsock : w.sock = true) (hcfg : w.cfgOk = true) (heng : w.init.engine = true)
    (hx : sendOk w.startOut w.startTx = false) (hq : ∀ j, Quiet mac (w.turns j)) :
    (run C s0 w).1 = -1 ∧ polls (run C s0 w).2.2 = dot1xMaxIters ∧ ∀ f, .sent f ∉ (run C s0 w).2.2 := by
  have hw := init_works C s0 mac w.init heng
  obtain ⟨hi, hm, hl, _⟩ := init_facts C s0 mac true w.init hw
  have R : run C s0 w = ((session C ⟨mac, w.auth⟩ w (Supp.init C s0 (config mac true) w.init).1).1,
        (session C ⟨mac, w.auth⟩ w (Supp.init C s0 (config mac true) w.init).1).2.1,
        .opened :: (session C ⟨mac, w.auth⟩ w (Supp.init C s0 (config mac true) w.init).1).2.2 ++ [.closed]) := by
    unfold run
    rw [hdev]
    dsimp only
    rw [if_neg (by rw [hsock]; decide), hcfg, if_neg (by rw [hw]; decide)]
  rw [R]
  generalize (Supp.init C s0 (config mac true) w.init).1 = s at hi hm hl
  unfold session
  rcases kick_cases s w.start w.startEnv hi hm hl with ⟨c, _⟩ | ⟨_, k⟩
  · have c : sendOk w.startOut w.startTx = true := c
    rw [hx] at c
    cases c
  · rw [k]
    obtain ⟨a, b, c⟩ := idle_loop C ⟨mac, w.auth⟩ w.turns hq dot1xMaxIters 0
      { s with m2Send := w.start, hsStart := w.start, retries := 3 } hi
    refine ⟨a, ?_, ?_⟩
    · show polls (((([] : List Ev) ++ _) ++ [Ev.wiped]) ++ [Ev.closed]) = _
      rw [polls_append, polls_append, List.nil_append, b]
      rfl
    · intro f h
      simp only [wire, List.nil_append, List.cons_append, List.append_assoc, List.mem_cons, List.mem_append,
        List.not_mem_nil, or_false, reduceCtorEq, false_or] at h
      exact c f h

/-! ## A concrete run -/

/-- An Ethernet frame from the authenticator with an EAP packet. -/
def apEap (eap : Supp.Bytes) : Supp.Bytes :=
  List.replicate 6 2 ++ List.replicate 6 1 ++ [0x88, 0x8E, 2, 0, 0, eap.length] ++ eap

def exEng : Env := { Supp.good with tlsDone := true, msk := some (List.replicate 32 7) }

/-- Identity request, a TLS request, an LLDP-like frame, our own echo, and EAP-Success. -/
def exTurn : Nat → Turn
  | 0 => ⟨1010, some (apEap [1, 1, 0, 5, 1]), [2, 0, 0, 5, 2, 1, 0, 5, 1], true, exEng⟩
  | 1 => ⟨1020, some (apEap [1, 2, 0, 6, 13, 32]), [2, 0, 0, 6, 2, 2, 0, 6, 13, 0], true, exEng⟩
  | 2 => ⟨1030, some (List.replicate 6 1 ++ List.replicate 6 2 ++ [0x88, 0x8E, 2, 0, 0, 4, 4, 9, 0, 4]), [], true, exEng⟩
  | 3 => ⟨1040, some (apEap [3, 3, 0, 4]), [], true, exEng⟩
  | _ + 4 => ⟨1050, none, [], true, exEng⟩

def exWorld : World :=
  ⟨some (List.replicate 6 2), List.replicate 6 1, true, true, Supp.good, 1000, [2, 1, 0, 0], true, Supp.good, exTurn⟩

/-- The exchange meets the hypotheses of `dot1x_authenticates`. -/
example : (run toy S.zero exWorld).1 = 0 := by
  refine (dot1x_authenticates toy S.zero exWorld (List.replicate 6 2) 0 3 rfl rfl rfl rfl rfl (by decide) (by decide)
    ⟨_, rfl, by decide, by decide, by decide⟩ rfl ⟨_, rfl, by decide, by decide, by decide⟩ rfl ⟨_, rfl⟩
    ?_ (fun j h => by omega) ?_).1
  · intro j h
    have : j = 0 ∨ j = 1 ∨ j = 2 ∨ j = 3 := by omega
    rcases this with rfl | rfl | rfl | rfl <;> decide
  · intro j h1 h2
    have : j = 1 ∨ j = 2 := by omega
    rcases this with rfl | rfl
    · exact .inr ⟨⟨_, rfl, by decide, by decide, by decide⟩, rfl, rfl⟩
    · refine .inl ?_
      intro ⟨f, hf, _, hs, _⟩
      cases hf
      exact hs (by decide)

/-- ... and all that is sent: EAPOL-Start, the identity, the TLS answer. -/
example : (loop toy ⟨List.replicate 6 2, List.replicate 6 1⟩ exTurn 10 0
      (kick (Supp.init toy S.zero (config (List.replicate 6 2) true) Supp.good).1 1000 Supp.good).1).2.2 =
    [.poll 1010, .fed [2, 0, 0, 5, 1, 1, 0, 5, 1],
     .sent (List.replicate 6 1 ++ List.replicate 6 2 ++ [0x88, 0x8E, 2, 0, 0, 5, 2, 1, 0, 5, 1]),
     .poll 1020, .fed [2, 0, 0, 6, 1, 2, 0, 6, 13, 32],
     .sent (List.replicate 6 1 ++ List.replicate 6 2 ++ [0x88, 0x8E, 2, 0, 0, 6, 2, 2, 0, 6, 13, 0]),
     .poll 1030, .poll 1040, .fed [2, 0, 0, 4, 3, 3, 0, 4]] := by decide +kernel

/-- An EAP-Failure that anyone on the wire can send ends the same exchange (below). -/
def exForged : Turn :=
  ⟨1030, some (List.replicate 6 2 ++ List.replicate 6 9 ++ [0x88, 0x8E, 2, 0, 0, 4, 4, 0, 0, 4]), [], true, exEng⟩

example : (run toy S.zero { exWorld with turns := fun i => if i = 2 then exForged else exTurn i }).1 = -1 := by
  decide +kernel

def exSilent : Turn := ⟨20000, none, [], true, exEng⟩

/-- The hypotheses of `dot1x_start_lost`: a refused EAPOL-Start and silence. -/
example : (run toy S.zero { exWorld with startTx := false, turns := fun _ => exSilent }).1 = -1 :=
  (dot1x_start_lost toy S.zero _ (List.replicate 6 2) rfl rfl rfl rfl rfl
    (fun j => by intro ⟨f, hf, _⟩; cases hf)).1

/-- ... and if the authenticator then asks for the identity after all, the exchange of `exWorld` fails. -/
example : (run toy S.zero { exWorld with startTx := false }).1 = -1 := by decide +kernel

end Wolf.Dot1x
