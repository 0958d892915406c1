import Verif.Sock.NoStorm
/-!
# C91: segments outside the receive window, acknowledgments of bytes never sent, and the number of the FIN

An off-path attacker who guesses addresses and ports but not sequence numbers.
-/
namespace Wolf.Sock
open Wolf.Tcp (seqInc seqLt seqLeq)
open Wolf.Route (Ip)

/-- Sequence number `x` lies in the window of `wnd` numbers starting at `nxt`, modulo 2^32 (specification). -/
def InWin (nxt wnd x : Nat) : Prop := (x + 4294967296 - nxt) % 4294967296 < wnd

/-- No sequence number the segment occupies lies in the window; a segment that occupies none counts as occupying the
number in its header, and against a closed window that number must not be the expected one (specification: RFC 9293
section 3.10.7.4). -/
def Outside (nxt wnd : Nat) (g : Seg) : Prop :=
  (occupies g = 0 → wnd = 0 → g.seq ≠ nxt) ∧ (occupies g = 0 → ¬ InWin nxt wnd g.seq) ∧
  ∀ j : Nat, j < occupies g → ¬ InWin nxt wnd ((g.seq + j) % 4294967296)

theorem inWin_of (nxt wnd x : Nat) (hn : nxt < 4294967296) (hx : x < 4294967296) (hw : wnd < 2147483648) (hp : wnd ≠ 0)
    (h1 : seqLeq nxt x = true) (h2 : seqLt x (seqInc nxt wnd) = true) : InWin nxt wnd x := by
  unfold InWin
  have e : seqInc nxt wnd = (nxt + wnd) % 4294967296 := seqInc_mod nxt wnd hn (by omega)
  rw [e] at h2
  unfold seqLeq at h1
  unfold seqLt seqLeq at h2
  simp only [Bool.and_eq_true, bne_iff_ne, ne_eq] at h2
  obtain ⟨h2, h3⟩ := h2
  split at h1 <;> split at h3 <;> simp only [decide_eq_true_eq] at h1 h3 <;> omega

theorem occupies_eq (g : Seg) : g.len + (if g.syn then 1 else 0) + (if g.fin then 1 else 0) = occupies g := by
  rw [occupies, Seg.len]
  have : g.iplen - (20 + g.off) = g.iplen - 20 - g.off := by omega
  rw [this]

/-- A segment outside the window is not acceptable. -/
theorem outside_not_acceptable (nxt wnd : Nat) (g : Seg) (hn : nxt < 4294967296) (hs : g.seq < 4294967296) (hw : wnd < 2147483648) (hl : g.iplen < 65536)
    (ho : Outside nxt wnd g) : acceptable nxt wnd g = false := by
  obtain ⟨o1, o2, o3⟩ := ho
  have hle : occupies g < 65538 := by
    unfold occupies; (repeat' split) <;> omega
  rw [acceptable, occupies_eq]
  apply Bool.eq_false_iff.mpr
  intro c
  by_cases h0 : occupies g = 0
  · rw [if_pos h0] at c
    by_cases hw0 : wnd = 0
    · rw [if_pos hw0, beq_iff_eq] at c
      exact o1 h0 hw0 c
    · rw [if_neg hw0, Bool.and_eq_true] at c
      exact o2 h0 (inWin_of nxt wnd g.seq hn hs hw hw0 c.1 c.2)
  · rw [if_neg h0] at c
    by_cases hw0 : wnd = 0
    · rw [if_pos hw0] at c; cases c
    · rw [if_neg hw0, Bool.or_eq_true, Bool.and_eq_true, Bool.and_eq_true] at c
      rcases c with c | c
      · have := o3 0 (by omega)
        rw [Nat.add_zero, Nat.mod_eq_of_lt hs] at this
        exact this (inWin_of nxt wnd g.seq hn hs hw hw0 c.1 c.2)
      · have e := seqInc_mod g.seq (occupies g - 1) hs (by omega)
        rw [e] at c
        exact o3 (occupies g - 1) (by omega) (inWin_of nxt wnd _ hn (Nat.mod_lt _ (by decide)) hw hw0 c.1 c.2)

/-- What is left of an out-of-window segment: the connection as it was, except that the "writable" event may have
been raised (the window field is taken before the sequence number is looked at). -/
def OnlyWindow (t t' : Sock) : Prop := t' = t ∨ t' = { t with evW := true }

theorem sockIn_outside (s : St) (k : Nat) (t : Sock) (g : Seg) (o : Orc) (hr : g.rst = false) (hst : t.st.sync = true ∨ t.st = .synRcvd)
    (hna : acceptable t.ack o.space g = false) :
    OnlyWindow t (sockIn s k t g o).1 ∧ ∀ e ∈ (sockIn s k t g o).2.1, e = .ack k ∨ (e = .syn k t.seq ∧ t.st = .synRcvd) := by
  obtain ⟨used, st, isL, sport, dport, lip, rip, blip, seq, una, ack, last, mss, cb, evR, evW, evC, pend, ctrl, fw2t, preT, retries⟩ := t
  dsimp only at hst hna
  rw [sockIn]
  by_cases hb : g.bad
  · rw [if_pos hb]; exact ⟨Or.inl rfl, by simp⟩
  rw [if_neg hb]
  have key : ∀ t : Sock, (t.st.sync = true ∨ t.st = .synRcvd) → acceptable t.ack o.space g = false →
      (bodyIn k t g o).1 = t ∧ ∀ e ∈ (bodyIn k t g o).2.1, e = .ack k ∨ (e = .syn k t.seq ∧ t.st = .synRcvd) := by
    intro t hst hna
    have hsy : syncIn k t g o = (t, if o.pawsOk = false then (if o.pawsAck then [.ack k] else []) else [.ack k], false) := by
      rw [syncIn]
      by_cases hp : o.pawsOk = false
      · rw [if_pos hp, if_pos hp]
      · rw [if_neg hp, if_neg hp, if_pos hna]
    have hsye : ∀ e ∈ (syncIn k t g o).2.1, e = .ack k := by
      rw [hsy]; intro e; dsimp only; (repeat' split) <;> simp
    rw [bodyIn.eq_def]
    cases hx : t.st with
    | synRcvd =>
      dsimp only
      rw [rcvdIn]
      by_cases h1 : g.syn = true ∧ g.ackF = false ∧ seqInc g.seq 1 = t.ack
      · rw [if_pos h1]; exact ⟨rfl, by simp⟩
      · rw [if_neg h1]
        by_cases h2 : g.ackF = true
        · rw [if_pos h2, if_pos hna]; exact ⟨rfl, by simp⟩
        · rw [if_neg h2]; exact ⟨rfl, by simp⟩
    | timeWait =>
      dsimp only
      refine ⟨rfl, ?_⟩
      intro e; split <;> simp
    | lastAck =>
      dsimp only
      rw [lastAckIn]
      by_cases hp : o.pawsOk = false
      · rw [if_pos hp]; refine ⟨rfl, ?_⟩; intro e; dsimp only; split <;> simp
      · rw [if_neg hp, if_pos hna]; exact ⟨rfl, by simp⟩
    | est => dsimp only; exact ⟨by rw [hsy], fun e he => Or.inl (hsye e he)⟩
    | closeWait => dsimp only; exact ⟨by rw [hsy], fun e he => Or.inl (hsye e he)⟩
    | fw1 => dsimp only; exact ⟨by rw [hsy], fun e he => Or.inl (hsye e he)⟩
    | fw2 => dsimp only; exact ⟨by rw [hsy], fun e he => Or.inl (hsye e he)⟩
    | closing => dsimp only; exact ⟨by rw [hsy], fun e he => Or.inl (hsye e he)⟩
    | closed => rw [hx] at hst; simp [TS.sync] at hst
    | listen => rw [hx] at hst; simp [TS.sync] at hst
    | synSent => rw [hx] at hst; simp [TS.sync] at hst
  have nl : st ≠ .listen := by intro c; rw [c] at hst; simp [TS.sync] at hst
  have ns : st ≠ .synSent := by intro c; rw [c] at hst; simp [TS.sync] at hst
  dsimp only
  rw [if_neg (fun c => nl c.1), if_neg (fun c => nl c.1)]
  rw [if_neg (show ¬ (g.syn = true ∧ (st = .listen ∨ st = .synSent)) from fun c => c.2.elim nl ns)]
  by_cases hw : g.rst = false ∧ o.winUp = true
  · rw [if_pos hw]
    dsimp only
    rw [if_neg (by simp [hr]), if_neg (fun c => ns c.1), if_neg (fun c => nl c.2), if_neg (fun c => ns c.1)]
    obtain ⟨a, b⟩ := key ⟨used, st, isL, sport, dport, lip, rip, blip, seq, una, ack, last, mss, cb, evR, true, evC, pend, ctrl, fw2t, preT, retries⟩ hst hna
    exact ⟨Or.inr a, b⟩
  · rw [if_neg hw]
    dsimp only
    rw [if_neg (by simp [hr]), if_neg (fun c => ns c.1), if_neg (fun c => nl c.2), if_neg (fun c => ns c.1)]
    obtain ⟨a, b⟩ := key ⟨used, st, isL, sport, dport, lip, rip, blip, seq, una, ack, last, mss, cb, evR, evW, evC, pend, ctrl, fw2t, preT, retries⟩ hst hna
    exact ⟨Or.inl a, b⟩

/-- **C91.** A segment without RST whose sequence numbers all lie outside the receive window leaves a synchronized or
SYN_RCVD connection exactly as it was, apart from the window it advertises (`OnlyWindow`), and nothing reaches the
application. What is missing for "no effect": the window field is honoured (see `blind_window_taken`). -/
theorem blind_segment_harmless_partial (s : St) (g : Seg) (o : Nat → Orc) (k : Nat) (t : Sock) (ht : s.socks[k]? = some t) (hr : g.rst = false)
    (hst : t.st.sync = true ∨ t.st = .synRcvd) (hn : t.ack < 4294967296) (hs : g.seq < 4294967296) (hw : (o k).space < 2147483648) (hl : g.iplen < 65536)
    (ho : Outside t.ack (o k).space g) :
    (∃ t' : Sock, (step s (.segment g o)).1.socks[k]? = some t' ∧ OnlyWindow t t') ∧ Ev.data k ∉ (step s (.segment g o)).2.2 := by
  have hna := outside_not_acceptable t.ack (o k).space g hn hs hw hl ho
  change (∃ t' : Sock, (input s g o).2.socks[k]? = some t' ∧ OnlyWindow t t') ∧ Ev.data k ∉ (input s g o).1
  obtain ⟨_, _, _, i4, i5⟩ := input_slot s g o
  constructor
  · rcases i4 k t ht with h | ⟨_, s1, _, _, h4, _⟩
    · exact ⟨t, h, Or.inl rfl⟩
    · exact ⟨_, h4, (sockIn_outside s1 k t g (o k) hr hst hna).1⟩
  · intro hd
    rcases i5 _ hd with ⟨j, u, s1, h1, _, h3, _, h5, h6⟩ | ⟨h, _⟩
    · by_cases hj : j = k
      · subst hj
        rw [ht] at h1
        have hu : t = u := Option.some.inj h1
        subst hu
        rcases (sockIn_outside s1 j t g (o j) hr hst hna).2 _ h6 with c | ⟨c, _⟩ <;> cases c
      · have hn := sockIn_next s1 j u g (o j) hr
        generalize (sockIn s1 j u g (o j)).1 = u' at hn
        generalize (sockIn s1 j u g (o j)).2.1 = evs at hn h6
        cases hn with
        | stay _ _ _ _ he =>
          rcases he _ h6 with c | ⟨c, _⟩ | ⟨c, _⟩ | ⟨c, _⟩
          · cases c
          · cases c
          · cases c; exact hj rfl
          · obtain ⟨r, hr'⟩ := resetReply_rst g _ c; cases hr'
        | syn rnd => simp at h6
        | synAck _ _ _ _ _ _ _ he => cases he _ h6
        | lastOfThree _ _ _ _ _ _ he =>
          rcases he _ h6 with c | c
          · cases c
          · cases c; exact hj rfl
        | move _ _ _ _ he =>
          rcases he _ h6 with c | ⟨c, _⟩
          · cases c
          · cases c; exact hj rfl
        | done => simp at h6
    · obtain ⟨r, hr'⟩ := resetReply_rst g _ h; cases hr'

/-- The fields an acknowledgment, data or a FIN never change while the connection lives. -/
def SameNum (t t' : Sock) : Prop := t'.seq = t.seq ∧ t'.last = t.last

/-- SND.UNA after a segment: unchanged, or the acknowledged number, which lies after SND.UNA and not beyond SND.NXT
(specification). -/
def UnaStep (t : Sock) (a : Nat) (t' : Sock) : Prop :=
  t'.una = t.una ∨ (t'.una = a ∧ t.una ≠ a ∧ seqLeq t.una a = true ∧ seqLeq a t.seq = true)

theorem ackIn_nums (t : Sock) (a : Nat) (h : (ackIn t a).st ≠ .closed) : SameNum t (ackIn t a) ∧ UnaStep t a (ackIn t a) := by
  obtain ⟨used, st, isL, sport, dport, lip, rip, blip, seq, una, ack, last, mss, cb, evR, evW, evC, pend, ctrl, fw2t, preT, retries⟩ := t
  rw [ackIn] at h ⊢
  dsimp only at h ⊢
  generalize seqLeq (seqInc last 1) a = fa at h ⊢
  by_cases h1 : st = .lastAck ∧ fa = true
  · rw [if_pos h1] at h
    split at h
    · exact absurd rfl h
    · rw [closeSock_st] at h; exact absurd rfl h
  · rw [if_neg h1]
    by_cases h2 : st = .fw1 ∧ fa = true
    · rw [if_pos h2]
      dsimp only
      by_cases h4 : una ≠ a ∧ seqLeq una a = true ∧ seqLeq a seq = true
      · rw [if_pos h4]; exact ⟨⟨rfl, rfl⟩, Or.inr ⟨rfl, h4⟩⟩
      · rw [if_neg h4]; exact ⟨⟨rfl, rfl⟩, Or.inl rfl⟩
    · rw [if_neg h2]
      by_cases h3 : st = .closing ∧ fa = true
      · rw [if_pos h3]
        dsimp only
        by_cases h4 : una ≠ a ∧ seqLeq una a = true ∧ seqLeq a seq = true
        · rw [if_pos h4]; exact ⟨⟨rfl, rfl⟩, Or.inr ⟨rfl, h4⟩⟩
        · rw [if_neg h4]; exact ⟨⟨rfl, rfl⟩, Or.inl rfl⟩
      · rw [if_neg h3]
        dsimp only
        by_cases h4 : una ≠ a ∧ seqLeq una a = true ∧ seqLeq a seq = true
        · rw [if_pos h4]; exact ⟨⟨rfl, rfl⟩, Or.inr ⟨rfl, h4⟩⟩
        · rw [if_neg h4]; exact ⟨⟨rfl, rfl⟩, Or.inl rfl⟩

theorem recvIn_nums (i : Nat) (t : Sock) (o : Orc) : (recvIn i t o).1.seq = t.seq ∧ (recvIn i t o).1.last = t.last ∧ (recvIn i t o).1.una = t.una := by
  rw [recvIn]; split <;> exact ⟨rfl, rfl, rfl⟩

theorem finIn_nums (i : Nat) (t : Sock) (g : Seg) : (finIn i t g).1.seq = t.seq ∧ (finIn i t g).1.last = t.last ∧ (finIn i t g).1.una = t.una := by
  rw [finIn]; split <;> exact ⟨rfl, rfl, rfl⟩

theorem syncIn_nums (i : Nat) (t : Sock) (g : Seg) (o : Orc) (h : (syncIn i t g o).1.st ≠ .closed) : SameNum t (syncIn i t g o).1 ∧ UnaStep t g.ack (syncIn i t g o).1 := by
  have triv : SameNum t t ∧ UnaStep t g.ack t := ⟨⟨rfl, rfl⟩, Or.inl rfl⟩
  rw [syncIn] at h ⊢
  by_cases h1 : o.pawsOk = false
  · rw [if_pos h1]; exact triv
  rw [if_neg h1] at h ⊢
  by_cases h2 : acceptable t.ack o.space g = false
  · rw [if_pos h2]; exact triv
  rw [if_neg h2] at h ⊢
  by_cases h3 : g.syn = true
  · rw [if_pos h3]; exact triv
  rw [if_neg h3] at h ⊢
  by_cases h4 : g.ackF = false
  · rw [if_pos h4]; exact triv
  rw [if_neg h4] at h ⊢
  have hn := ackIn_nums t g.ack
  generalize ackIn t g.ack = t1 at h hn ⊢
  dsimp only at h ⊢
  by_cases h5 : t1.st = .closed
  · rw [if_pos h5] at h; exact absurd h5 h
  rw [if_neg h5] at h ⊢
  obtain ⟨⟨a1, a2⟩, a3⟩ := hn h5
  by_cases h6 : g.len > 0 ∧ (t1.st = .lastAck ∨ t1.st = .closing ∨ t1.st = .closed)
  · rw [if_pos h6]; exact ⟨⟨a1, a2⟩, a3⟩
  rw [if_neg h6] at h ⊢
  have hr : ∀ r : Sock × List Ev, r = (if g.len > 0 then recvIn i t1 o else (t1, [])) → r.1.seq = t1.seq ∧ r.1.last = t1.last ∧ r.1.una = t1.una := by
    intro r hr; rw [hr]; split
    · exact recvIn_nums i t1 o
    · exact ⟨rfl, rfl, rfl⟩
  generalize hrr : (if g.len > 0 then recvIn i t1 o else (t1, [])) = r at h ⊢
  obtain ⟨r1, r2, r3⟩ := hr r hrr.symm
  by_cases h7 : g.fin = true
  · rw [if_pos h7]
    obtain ⟨f1, f2, f3⟩ := finIn_nums i r.1 g
    dsimp only
    refine ⟨⟨by rw [f1, r1, a1], by rw [f2, r2, a2]⟩, ?_⟩
    unfold UnaStep at a3 ⊢
    rw [f3, r3]; exact a3
  · rw [if_neg h7]
    dsimp only
    refine ⟨⟨by rw [r1, a1], by rw [r2, a2]⟩, ?_⟩
    unfold UnaStep at a3 ⊢
    rw [r3]; exact a3

theorem bodyIn_nums (i : Nat) (t : Sock) (g : Seg) (o : Orc) (hs : t.st.sync = true) (h : (bodyIn i t g o).1.st ≠ .closed) :
    SameNum t (bodyIn i t g o).1 ∧ UnaStep t g.ack (bodyIn i t g o).1 := by
  have triv : SameNum t t ∧ UnaStep t g.ack t := ⟨⟨rfl, rfl⟩, Or.inl rfl⟩
  rw [bodyIn.eq_def] at h ⊢
  cases hx : t.st <;> rw [hx] at hs <;> simp only [TS.sync, Bool.false_eq_true] at hs <;> simp only [hx] at h ⊢
  case timeWait => exact triv
  case lastAck =>
    rw [lastAckIn] at h ⊢
    by_cases h1 : o.pawsOk = false
    · rw [if_pos h1]; exact triv
    rw [if_neg h1] at h ⊢
    by_cases h2 : acceptable t.ack o.space g = false
    · rw [if_pos h2]; exact triv
    rw [if_neg h2] at h ⊢
    by_cases h3 : g.syn = true
    · rw [if_pos h3]; exact triv
    rw [if_neg h3] at h ⊢
    by_cases h4 : g.ackF = true
    · rw [if_pos h4] at h ⊢; exact ackIn_nums t g.ack h
    · rw [if_neg h4]; exact triv
  all_goals exact syncIn_nums i t g o h

theorem sockIn_nums (s : St) (i : Nat) (t : Sock) (g : Seg) (o : Orc) (hs : t.st.sync = true) (h : (sockIn s i t g o).1.st ≠ .closed) :
    SameNum t (sockIn s i t g o).1 ∧ UnaStep t g.ack (sockIn s i t g o).1 := by
  have triv : SameNum t t ∧ UnaStep t g.ack t := ⟨⟨rfl, rfl⟩, Or.inl rfl⟩
  have nl : t.st ≠ .listen := by intro c; rw [c] at hs; simp [TS.sync] at hs
  have ns : t.st ≠ .synSent := by intro c; rw [c] at hs; simp [TS.sync] at hs
  rw [sockIn] at h ⊢
  by_cases hb : g.bad
  · rw [if_pos hb]; exact triv
  rw [if_neg hb, if_neg (fun c => nl c.1), if_neg (fun c => nl c.1)] at h ⊢
  rw [if_neg (show ¬ (g.syn = true ∧ (t.st = .listen ∨ t.st = .synSent)) from fun c => c.2.elim nl ns)] at h ⊢
  dsimp only at h ⊢
  have hu : ∀ u : Sock, u = (if g.rst = false ∧ o.winUp = true then { t with evW := true } else t) → u.st = t.st ∧ u.seq = t.seq ∧ u.last = t.last ∧ u.una = t.una ∧ u.ack = t.ack := by
    intro u hu; rw [hu]; split <;> exact ⟨rfl, rfl, rfl, rfl, rfl⟩
  generalize hg : (if g.rst = false ∧ o.winUp = true then ({ t with evW := true } : Sock) else t) = u at h ⊢
  obtain ⟨u1, u2, u3, u4, u5⟩ := hu u hg.symm
  have tr : ∀ t' : Sock, SameNum u t' ∧ UnaStep u g.ack t' → SameNum t t' ∧ UnaStep t g.ack t' := by
    intro t' c
    unfold SameNum UnaStep at c ⊢
    rw [u2, u3, u4] at c; exact c
  apply tr
  by_cases hr : g.rst = true
  · rw [if_pos hr] at h ⊢
    dsimp only at h ⊢
    rw [rstIn.eq_def] at h ⊢
    rw [u1] at h ⊢
    cases hx : t.st <;> rw [hx] at hs <;> simp only [TS.sync, Bool.false_eq_true] at hs <;> simp only [hx] at h ⊢
    all_goals
      by_cases c : g.seq ≠ u.ack
      · rw [if_pos c]; split <;> exact ⟨⟨rfl, rfl⟩, Or.inl rfl⟩
      · rw [if_neg c] at h; exact absurd (closeSock_st u) h
  · rw [if_neg hr, if_neg (fun c => ns (u1 ▸ c.1)), if_neg (fun c => nl (u1 ▸ c.2)), if_neg (fun c => ns (u1 ▸ c.1))] at h ⊢
    exact bodyIn_nums i u g o (by rw [u1]; exact hs) h

/-- **C91, acknowledgments.** Whatever segment arrives, a synchronized connection that survives it keeps its next
number to send and the number of its FIN, and the acknowledged position moves only forward and only to a number
already sent: `d` bytes ahead, where `d` is at most what was outstanding. Missing: an acknowledgment exactly 2^31 ahead of
an idle connection is taken (`ack_half_circle_taken`). -/
theorem ack_only_sent_partial (s : St) (g : Seg) (o : Nat → Orc) (k : Nat) (t t' : Sock) (ht : s.socks[k]? = some t) (ht' : (step s (.segment g o)).1.socks[k]? = some t')
    (hs : t.st.sync = true) (hl : t'.st ≠ .closed) (hu : t.una < 4294967296) (hq : t.seq < 4294967296) (ha : g.ack < 4294967296)
    (hout : (t.seq + 4294967296 - t.una) % 4294967296 < 2147483648)
    (hhalf : t.seq = t.una → (g.ack + 4294967296 - t.una) % 4294967296 ≠ 2147483648) :
    t'.seq = t.seq ∧ t'.last = t.last ∧
    ∃ d : Nat, d ≤ (t.seq + 4294967296 - t.una) % 4294967296 ∧ t'.una = (t.una + d) % 4294967296 ∧ (d ≠ 0 → t'.una = g.ack) := by
  change (input s g o).2.socks[k]? = some t' at ht'
  obtain ⟨_, _, _, i4, _⟩ := input_slot s g o
  have key : SameNum t t' ∧ UnaStep t g.ack t' := by
    rcases i4 k t ht with h | ⟨_, s1, _, _, h4, _⟩
    · rw [h] at ht'
      rw [Option.some.inj ht']; exact ⟨⟨rfl, rfl⟩, Or.inl rfl⟩
    · rw [h4] at ht'
      have e := Option.some.inj ht'
      rw [← e] at hl ⊢
      exact sockIn_nums s1 k t g (o k) hs hl
  obtain ⟨⟨a1, a2⟩, a3⟩ := key
  refine ⟨a1, a2, ?_⟩
  rcases a3 with a3 | ⟨b1, b2, b3, b4⟩
  · exact ⟨0, by omega, by rw [a3]; omega, fun c => absurd rfl c⟩
  · refine ⟨(g.ack + 4294967296 - t.una) % 4294967296, ?_, ?_, fun _ => b1⟩
    · unfold seqLeq at b3 b4
      split at b3 <;> split at b4 <;> simp only [decide_eq_true_eq] at b3 b4 <;> omega
    · rw [b1]; omega

/-! ## The number of the FIN -/

/-- States in which our FIN is sent and not known to be acknowledged. -/
def TS.finOut (x : TS) : Prop := x = .fw1 ∨ x = .closing ∨ x = .lastAck

/-- In those states the recorded number of the FIN is the next number to send: one past the last byte. -/
def FinInv (s : St) : Prop := ∀ (k : Nat) (t : Sock), s.socks[k]? = some t → t.st.finOut → t.last = t.seq

theorem finInv_step (s : St) (op : Op) (hi : FinInv s) : FinInv (step s op).1 := by
  intro k t' ht' hf
  have hlen := step_length s op
  obtain ⟨t, ht⟩ : ∃ t : Sock, s.socks[k]? = some t := by
    have := lt_of_get ht'
    exact ⟨s.socks[k]'(by omega), List.getElem?_eq_getElem _⟩
  have ncl : t'.st ≠ .closed := by rintro c; rw [c] at hf; rcases hf with h | h | h <;> cases h
  have edge := state_edges s op k t t' ht ht'
  by_cases hsame : t' = t
  · rw [hsame] at hf ⊢; exact hi k t ht hf
  have put : ∀ (j : Nat) (w u : Sock), s.socks[j]? = some u → (setSock s j w).socks[k]? = some t' →
      (w.st.finOut → (u.st.finOut → u.last = u.seq) → w.last = w.seq) → t'.last = t'.seq := by
    intro j w u hu hw hq
    rcases get_setSock s j w k t t' ht hw with ⟨_, h⟩ | ⟨h, h'⟩
    · exact absurd h hsame
    · subst h; rw [ht] at hu; cases hu; rw [h'] at hf ⊢; exact hq hf (hi j t ht)
  have same : s.socks[k]? = some t' → t'.last = t'.seq := by
    intro h; rw [ht] at h; exact absurd (Option.some.inj h).symm hsame
  have nf : ∀ (x : TS) (P : Prop), x = .closed ∨ x = .listen ∨ x = .synRcvd ∨ x = .synSent → x.finOut → P := by
    intro x P h1 h2; rcases h1 with h | h | h | h <;> rw [h] at h2 <;> rcases h2 with h2 | h2 | h2 <;> cases h2
  cases op with
  | socket =>
    rw [step, socketOp] at ht'
    cases hfr : freeSlot s with
    | none => rw [hfr] at ht'; exact same ht'
    | some j =>
      rw [hfr] at ht'
      obtain ⟨u, hu, _⟩ := freeSlot_spec hfr
      exact put j _ u hu ht' (fun h _ => nf _ _ (Or.inl rfl) h)
  | bind j ip port fam veto =>
    rw [step, bindOp] at ht'
    cases hj : s.socks[j]? with
    | none => rw [hj] at ht'; exact same ht'
    | some u =>
      rw [hj] at ht'
      simp only at ht'
      repeat' split at ht'
      iterate 5 exact same ht'
      exact put j _ u hj ht' (fun h q => q h)
  | listen j veto =>
    rw [step, listenOp] at ht'
    cases hj : s.socks[j]? with
    | none => rw [hj] at ht'; exact same ht'
    | some u =>
      rw [hj] at ht'
      simp only at ht'
      repeat' split at ht'
      · exact same ht'
      · exact put j _ u hj ht' (fun h q => q h)
      · exact put j _ u hj ht' (fun h _ => nf _ _ (Or.inr (Or.inl rfl)) h)
  | connect j ip port fam veto sendOk rnd iss =>
    rw [step, connectOp] at ht'
    cases hj : s.socks[j]? with
    | none => rw [hj] at ht'; exact same ht'
    | some u =>
      rw [hj] at ht'
      simp only at ht'
      by_cases h1 : u.st = .est
      · rw [if_pos h1] at ht'; exact same ht'
      rw [if_neg h1] at ht'
      by_cases h2 : u.st = .synSent
      · rw [if_pos h2] at ht'; exact same ht'
      rw [if_neg h2] at ht'
      by_cases h3 : fam = false
      · rw [if_pos h3] at ht'; exact same ht'
      rw [if_neg h3] at ht'
      by_cases h4 : u.st ≠ .closed
      · rw [if_pos h4] at ht'; exact same ht'
      rw [if_neg h4] at ht'
      have hcl : u.st = .closed := by simpa using h4
      by_cases h5 : Route.isBroadcast s.net ip = true ∨ isMcast ip = true
      · rw [if_pos h5] at ht'; exact same ht'
      rw [if_neg h5] at ht'
      by_cases h6 : u.blip ≠ 0 ∧ isLocal s.net u.blip = false
      · rw [if_pos h6] at ht'; exact same ht'
      rw [if_neg h6] at ht'
      by_cases h7 : veto = true
      · rw [if_pos h7] at ht'; exact put j _ u hj ht' (fun h _ => nf _ _ (Or.inl hcl) h)
      rw [if_neg h7] at ht'
      by_cases h8 : sendOk = false
      · rw [if_pos h8] at ht'; exact put j _ u hj ht' (fun h _ => nf _ _ (Or.inl hcl) h)
      rw [if_neg h8] at ht'
      exact put j _ u hj ht' (fun h _ => nf _ _ (Or.inr (Or.inr (Or.inr rfl))) h)
  | accept j veto sendOk rnd =>
    have e2 := edge
    by_cases hst : t'.st = t.st
    · -- the slot keeps its state: neither the listener nor the new slot
      rw [step, acceptOp] at ht'
      cases hj : s.socks[j]? with
      | none => rw [hj] at ht'; exact same ht'
      | some u =>
        rw [hj] at ht'
        simp only at ht'
        by_cases h1 : u.st = .est ∧ u.isL = true
        · rw [if_pos h1] at ht'; exact put j _ u hj ht' (fun h _ => nf _ _ (Or.inr (Or.inl rfl)) h)
        rw [if_neg h1] at ht'
        by_cases h2 : u.st = .listen
        · rw [if_pos h2] at ht'; exact same ht'
        rw [if_neg h2] at ht'
        by_cases h3 : u.st ≠ .synRcvd
        · rw [if_pos h3] at ht'; exact same ht'
        rw [if_neg h3] at ht'
        cases hfr : freeSlot s with
        | none => rw [hfr] at ht'; exact same ht'
        | some i =>
          rw [hfr] at ht'
          simp only at ht'
          obtain ⟨v, hv, _⟩ := freeSlot_spec hfr
          by_cases h4 : sendOk = false
          · rw [if_pos h4] at ht'
            exact put i _ v hv ht' (fun h _ => nf _ _ (Or.inl (closeSock_st _)) h)
          rw [if_neg h4] at ht'
          have two : ∀ (w w' : Sock), (setSock (setSock s j w) i w').socks[k]? = some t' → t'= t ∨ t' = w ∨ t' = w' := by
            intro w w' h
            obtain ⟨t1, ht1⟩ : ∃ t1 : Sock, (setSock s j w).socks[k]? = some t1 := by
              have := lt_of_get ht
              exact ⟨_, List.getElem?_eq_getElem (by simpa [setSock] using this)⟩
            rcases get_setSock _ i w' k t1 t' ht1 h with ⟨_, q⟩ | ⟨_, q⟩
            · rcases get_setSock s j w k t t1 ht ht1 with ⟨_, q'⟩ | ⟨_, q'⟩
              · exact Or.inl (q.trans q')
              · exact Or.inr (Or.inl (q.trans q'))
            · exact Or.inr (Or.inr q)
          by_cases h5 : veto = true
          · rw [if_pos h5] at ht'
            rcases two _ _ ht' with q | q | q
            · exact absurd q hsame
            · rw [q] at hf; exact nf _ _ (Or.inr (Or.inl rfl)) hf
            · rw [q] at hf; exact nf _ _ (Or.inl (closeSock_st _)) hf
          · rw [if_neg h5] at ht'
            rcases two _ _ ht' with q | q | q
            · exact absurd q hsame
            · rw [q] at hf; exact nf _ _ (Or.inr (Or.inl rfl)) hf
            · rw [q] at hf; exact nf _ _ (Or.inr (Or.inr (Or.inl rfl))) hf
    · have e3 := edge hst
      simp only [Allowed] at e3
      rcases e3 with ⟨_, h, _⟩ | ⟨_, h | h⟩
      · exact nf _ _ (Or.inr (Or.inl h)) hf
      · exact nf _ _ (Or.inr (Or.inr (Or.inl h))) hf
      · exact nf _ _ (Or.inl h) hf
  | close j sendOk =>
    rw [step, closeOp.eq_def] at ht'
    cases hj : s.socks[j]? with
    | none => rw [hj] at ht'; exact same ht'
    | some u =>
      rw [hj] at ht'
      simp only at ht'
      split at ht'
      · by_cases h : sendOk = false
        · rw [if_pos h] at ht'; exact same ht'
        · rw [if_neg h] at ht'; exact put j _ u hj ht' (fun _ _ => rfl)
      · by_cases h : sendOk = false
        · rw [if_pos h] at ht'; exact same ht'
        · rw [if_neg h] at ht'; exact put j _ u hj ht' (fun _ _ => rfl)
      · exact same ht'
      · exact same ht'
      · exact same ht'
      · exact put j _ u hj ht' (fun h _ => nf _ _ (Or.inl (closeSock_st _)) h)
  | register j cb =>
    rw [step] at ht'
    cases hj : s.socks[j]? with
    | none => rw [hj] at ht'; exact same ht'
    | some u =>
      rw [hj] at ht'
      exact put j _ u hj ht' (fun h q => q h)
  | send j n =>
    rw [step] at ht'
    cases hj : s.socks[j]? with
    | none => rw [hj] at ht'; exact same ht'
    | some u =>
      rw [hj] at ht'
      dsimp only at ht'
      split at ht'
      · next hc =>
        refine put j _ u hj ht' (fun h _ => ?_)
        rcases hc with hc | hc <;> (change u.st.finOut at h; rw [hc] at h; rcases h with h | h | h <;> cases h)
      · exact same ht'
  | reconf net => exact same ht'
  | segment g o =>
    change (input s g o).2.socks[k]? = some t' at ht'
    rcases (input_slot s g o).2.2.2.1 k t ht with h | ⟨_, s1, _, _, h4, _⟩
    · rw [h] at ht'; exact absurd (Option.some.inj ht').symm hsame
    · rw [h4] at ht'
      have e := Option.some.inj ht'
      have hold : t.st.finOut := by
        by_cases hst : t'.st = t.st
        · rw [← hst]; exact hf
        · obtain ⟨_, _, e3⟩ := edge hst
          rcases e3 with ⟨_, e3⟩ | ⟨_, e3⟩
          · rcases hf with hf | hf | hf <;> rw [hf] at e3 <;> cases hx : t.st <;> simp only [SegEdge, hx] at e3
            exact Or.inl rfl
          · rcases hf with hf | hf | hf <;> rw [hf] at e3 <;> cases hx : t.st <;> simp only [RstEdge, hx] at e3
      have hsy : t.st.sync = true := by rcases hold with h | h | h <;> rw [h] <;> rfl
      have hn := (sockIn_nums s1 k t g (o k) hsy (by rw [e]; exact ncl)).1
      rw [e] at hn
      rw [hn.1, hn.2]; exact hi k t ht hold
  | rto j o =>
    rw [step.eq_def] at ht'
    dsimp only at ht'
    cases hj : s.socks[j]? with
    | none => rw [hj] at ht'; exact same ht'
    | some u =>
      rw [hj] at ht'
      dsimp only at ht'
      refine put j _ u hj ht' ?_
      intro h q
      rw [rtoIn] at h ⊢
      by_cases c1 : u.used = false
      · rw [if_pos c1] at h ⊢; exact q h
      rw [if_neg c1] at h ⊢
      by_cases c2 : u.fw2t = true
      · rw [if_pos c2] at h ⊢
        by_cases c3 : u.st ≠ .fw2
        · rw [if_pos c3] at h ⊢; exact q h
        · rw [if_neg c3] at h; exact nf _ _ (Or.inl (closeSock_st _)) h
      rw [if_neg c2] at h ⊢
      by_cases c3 : u.preT = true
      · rw [if_pos c3] at h ⊢
        by_cases c4 : u.st ≠ .est ∨ u.isL = false
        · rw [if_pos c4] at h ⊢; exact q h
        · rw [if_neg c4] at h; exact nf _ _ (Or.inr (Or.inl rfl)) h
      rw [if_neg c3] at h ⊢
      by_cases c4 : needsRto u o
      · rw [if_pos c4] at h ⊢
        by_cases c5 : u.retries ≥ ctrlMax
        · rw [if_pos c5] at h
          split at h
          · exact nf _ _ (Or.inr (Or.inl rfl)) h
          · exact nf _ _ (Or.inl (closeSock_st _)) h
        · rw [if_neg c5] at h ⊢
          rw [ctrlResend] at h ⊢
          dsimp only at h ⊢
          by_cases c6 : u.st = .synSent ∨ u.st = .synRcvd
          · rw [if_pos c6] at h ⊢; exact q h
          · rw [if_neg c6] at h ⊢
            dsimp only at h ⊢
            split
            · rfl
            · rw [if_neg (by assumption)] at h; exact q h
      rw [if_neg c4] at h ⊢
      by_cases c5 : u.ctrl = true
      · rw [if_pos c5] at h ⊢; exact q h
      rw [if_neg c5] at h ⊢
      by_cases c6 : u.st ≠ .est ∧ u.st ≠ .fw1
      · rw [if_pos c6] at h ⊢; exact q h
      rw [if_neg c6] at h ⊢
      by_cases c7 : o.giveUp = true
      · rw [if_pos c7] at h; exact nf _ _ (Or.inl (closeSock_st _)) h
      · rw [if_neg c7] at h ⊢; exact q h
  | icmp e =>
    rw [step, icmpIn] at ht'
    split at ht'
    · exact same ht'
    · next j hj =>
      obtain ⟨u, hu⟩ : ∃ u, s.socks[j]? = some u := by
        rw [List.findIdx?_eq_some_iff_getElem] at hj
        exact ⟨_, List.getElem?_eq_getElem hj.1⟩
      rw [getD_of_get hu] at ht'
      refine put j _ u hu ht' ?_
      intro h q
      rw [icmpSock] at h ⊢
      repeat' split at h
      all_goals first
        | exact nf _ _ (Or.inl (closeSock_st _)) h
        | (rename_i w1; exact nf _ _ (Or.inl (closeSock_st _)) h)
        | skip
      all_goals (repeat' split)
      all_goals first
        | exact q h
        | omega
        | contradiction
  | cbBegin j =>
    rw [step, cbBegin.eq_def] at ht'
    cases hj : s.socks[j]? with
    | none => rw [hj] at ht'; exact same ht'
    | some u =>
      rw [hj] at ht'
      dsimp only at ht'
      by_cases c1 : u.pend = true
      · rw [if_pos c1] at ht'; exact put j _ u hj ht' (fun h _ => nf _ _ (Or.inl rfl) h)
      rw [if_neg c1] at ht'
      cases hc : u.cb with
      | none => rw [hc] at ht'; exact same ht'
      | some c =>
        rw [hc] at ht'
        dsimp only at ht'
        by_cases c2 : u.evR = false ∧ u.evW = false ∧ u.evC = false
        · rw [if_pos c2] at ht'; exact same ht'
        rw [if_neg c2] at ht'
        by_cases c3 : u.st = .closed ∧ u.evC = false
        · rw [if_pos c3] at ht'; exact same ht'
        rw [if_neg c3] at ht'
        exact put j _ u hj ht' (fun h q => q h)
  | cbEnd =>
    rw [step, cbEnd.eq_def] at ht'
    cases hin : s.inCb with
    | none => rw [hin] at ht'; exact same ht'
    | some j =>
      rw [hin] at ht'
      dsimp only at ht'
      cases hj : s.socks[j]? with
      | none => rw [hj] at ht'; exact same ht'
      | some u =>
        rw [hj] at ht'
        dsimp only at ht'
        by_cases c : u.st = .closed
        · rw [if_pos c] at ht'; exact put j _ u hj ht' (fun h _ => nf _ _ (Or.inl (closeSock_st _)) h)
        · rw [if_neg c] at ht'; exact same ht'

theorem finInv_run (ops : List Op) : ∀ s : St, FinInv s → FinInv (run s ops).1 := by
  induction ops with
  | nil => intro s h; exact h
  | cons op ops ih => intro s h; rw [run]; exact ih _ (finInv_step s op h)

/-- **C91, FIN.** In every history: while our FIN is out and unacknowledged, its recorded number is the next number to
send, so by `state_edges` the connection leaves FIN_WAIT_1, CLOSING or LAST_ACK on an acknowledgment only if that
covers every byte `send()` accepted and the FIN. -/
theorem fin_number (n : Nat) (net : Route.St) (ops : List Op) (k : Nat) (t : Sock) (ht : (run (init n net) ops).1.socks[k]? = some t)
    (hf : t.st.finOut) : t.last = t.seq := by
  refine finInv_run ops (init n net) ?_ k t ht hf
  intro j u hu hf
  rw [init, List.getElem?_replicate] at hu
  split at hu
  · cases hu; rcases hf with h | h | h <;> cases h
  · cases hu

/-! ## Concrete histories -/

/-- A server with one established connection in slot 1. -/
def estab : List Op := serve ++ [.segment synSeg orc1, .accept 0 false true 9, .segment ackSeg orc1]

/-- A data segment far outside the window, with an absurd acknowledgment and a FIN. -/
def wildSeg : Seg := { ackSeg with seq := 3000000000, ack := 77, fin := true, iplen := 50 }

/-- **C91, not met by the code:** that segment makes the stack take its window field: here it reports the socket
writable. -/
theorem blind_window_taken :
    let quiet := fun k => { orc1 k with txRoom := false }
    let s := (run (init 2 net1) (serve ++ [.segment synSeg quiet, .accept 0 false true 9, .segment ackSeg quiet])).1
    (s.socks[1]?.map fun t => (t.st, t.evW)) = some (.est, false) ∧
    ((step s (.segment wildSeg (fun k => { quiet k with winUp := true }))).1.socks[1]?.map fun t => (t.st, t.evW)) = some (.est, true) := by
  decide +kernel

/-- The hypotheses of `blind_segment_harmless_partial` are met by a connection a server accepted and a wild segment. -/
theorem blind_example :
    ∃ t : Sock, (run (init 2 net1) estab).1.socks[1]? = some t ∧ t.st = .est ∧ t.ack = 101 ∧ OfConn t wildSeg ∧ Outside t.ack (orc1 1).space wildSeg := by
  refine ⟨_, rfl, by decide +kernel, by decide +kernel, ?_, ?_⟩
  · unfold OfConn; decide +kernel
  · have e : ∀ t : Sock, t.ack = 101 → Outside t.ack (orc1 1).space wildSeg := by
      intro t ht
      rw [ht]
      refine ⟨?_, ?_, ?_⟩
      · intro _ c; cases c
      · intro c; exact absurd c (by decide)
      · intro j hj
        have hj' : j < 11 := hj
        unfold InWin
        change ¬ ((3000000000 + j) % 4294967296 + 4294967296 - 101) % 4294967296 < 1000
        omega
    exact e _ (by decide +kernel)

/-- **C91, not met by the code:** an acknowledgment exactly 2^31 ahead of a connection with nothing outstanding moves
the acknowledged position. -/
theorem ack_half_circle_taken :
    ((run (init 2 net1) estab).1.socks[1]?.map fun t => (t.st, t.una, t.seq)) = some (.est, 5001, 5001) ∧
    ((step (run (init 2 net1) estab).1 (.segment { ackSeg with ack := 5001 + 2147483648 } orc1)).1.socks[1]?.map fun t => (t.st, t.una, t.seq)) =
      some (.est, 5001 + 2147483648, 5001) := by
  decide +kernel

/-- `fin_number` and `ack_only_sent_partial` on a connection closed with 10 bytes sent: the FIN is number 5011. -/
theorem fin_example :
    ((run (init 2 net1) (estab ++ [.send 1 10, .close 1 true])).1.socks[1]?.map fun t => (t.st, t.una, t.seq, t.last)) = some (.fw1, 5001, 5011, 5011) ∧
    ((step (run (init 2 net1) (estab ++ [.send 1 10, .close 1 true])).1 (.segment { ackSeg with ack := 5006 } orc1)).1.socks[1]?.map
      fun t => (t.st, t.una, t.seq, t.last)) = some (.fw1, 5006, 5011, 5011) := by
  decide +kernel

end Wolf.Sock
