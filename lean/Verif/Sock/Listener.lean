import Verif.Sock.NoStorm
/-!
# C18: a listening socket outlives failed handshakes

Full statement: if a half-open connection on a listening socket fails (reset, retransmission limit, pre-accept
timeout) the socket returns to LISTEN with its bound address and port and can serve the next client, and `accept()`
leaves it listening. Three histories violate it: a RST, a FIN after the handshake completed but before `accept()`, and
an ICMP port/protocol unreachable that quotes the SYN-ACK (`listener_lost_to_rst`, `listener_lost_to_fin`,
`listener_lost_to_icmp` in Run.lean). Proved: these three and `close()` are the only ways.
-/
namespace Wolf.Sock
open Wolf.Tcp (seqInc seqLt seqLeq)
open Wolf.Route (Ip)

/-- A listening socket: waiting, with a half-open connection, or with one completed before `accept()`, whose
timer is then armed. -/
def Listening (t : Sock) : Prop :=
  t.used = true ∧ t.isL = true ∧ t.pend = false ∧ (t.st = .listen ∨ t.st = .synRcvd ∨ (t.st = .est ∧ t.preT = true))

/-- Same listening endpoint. -/
def SameEnd (t t' : Sock) : Prop := t'.sport = t.sport ∧ t'.blip = t.blip

/-- The four ways to lose a listener. -/
def Fatal (k : Nat) (t : Sock) : Op → Prop
  | .close j _ => j = k
  | .segment g _ => OfConn t g ∧ ((t.st = .est ∧ g.rst = true ∧ g.seq = t.ack) ∨
      (g.rst = false ∧ g.ackF = true ∧ g.fin = true ∧ (t.st = .est ∨ (t.st = .synRcvd ∧ g.ack = seqInc t.una 1))))
  | .icmp e => t.st = .synRcvd ∧ icmpHit e t = true ∧ e.unreach = true ∧ (e.code = 2 ∨ e.code = 3) ∧ seqLeq t.una e.seq = true ∧ seqLt e.seq (seqInc t.una 1) = true
  | _ => False

theorem Next.preT {s : St} {i : Nat} {t t' : Sock} {g : Seg} {evs : List Ev} (h : Next s i t g t' evs) (hl : t.isL = true)
    (hs : t.st = .est → t'.st = .est → t'.preT = t.preT) (hr : t.st = .synRcvd → t'.st = .est → t'.preT = true) (hL : Listening t) :
    (Listening t' ∧ SameEnd t t') ∨ (g.ackF = true ∧ g.fin = true ∧ (t.st = .est ∨ (t.st = .synRcvd ∧ g.ack = seqInc t.una 1))) := by
  obtain ⟨l1, l2, l3, l4⟩ := hL
  cases h with
  | stay _ a b c d =>
    left
    refine ⟨⟨by rw [a.used]; exact l1, by rw [a.isL]; exact l2, by rw [a.pend]; exact l3, ?_⟩, a.sport, a.blip⟩
    rcases l4 with l4 | l4 | ⟨l4, l5⟩
    · left; rw [b]; exact l4
    · right; left; rw [b]; exact l4
    · right; right; exact ⟨by rw [b]; exact l4, by rw [hs l4 (by rw [b]; exact l4)]; exact l5⟩
  | syn rnd a1 a2 a3 a4 a5 a6 a7 a8 =>
    left
    exact ⟨⟨by rw [a7.1]; exact l1, by rw [a7.2.1]; exact l2, by rw [a7.2.2.2.2.2]; exact l3, Or.inr (Or.inl a6)⟩, a7.2.2.1, a7.2.2.2.1⟩
  | synAck _ a1 a2 a3 a4 a5 a6 a7 => rcases l4 with l4 | l4 | ⟨l4, _⟩ <;> rw [a2] at l4 <;> simp at l4
  | lastOfThree _ a1 a2 a3 a4 a5 a6 =>
    rcases a5 with a5 | ⟨a5, a5'⟩
    · left
      exact ⟨⟨by rw [a1.used]; exact l1, by rw [a1.isL]; exact l2, by rw [a1.pend]; exact l3, Or.inr (Or.inr ⟨a5, hr a2 a5⟩)⟩, a1.sport, a1.blip⟩
    · right; exact ⟨a3, a5', Or.inr ⟨a2, a4⟩⟩
  | move _ a1 a2 a3 a4 =>
    have : t.st = .est ∧ g.fin = true := by
      rcases l4 with l4 | l4 | ⟨l4, _⟩ <;> rw [l4] at a3 <;> simp at a3
      exact ⟨l4, a3.2⟩
    right; exact ⟨a2, this.2, Or.inl this.1⟩
  | done a1 a2 a3 a4 => rcases l4 with l4 | l4 | ⟨l4, _⟩ <;> rw [a1] at l4 <;> simp at l4

theorem ackIn_preT (t : Sock) (a : Nat) (h : (ackIn t a).st ≠ .closed) : (ackIn t a).preT = t.preT := by
  generalize hq : ackIn t a = r at *
  rw [ackIn] at hq
  simp only at hq
  subst hq
  revert h
  (repeat' split) <;> intro h <;> first | rfl | (exact absurd (closeSock_st _) h) | exact absurd rfl h

theorem recvIn_preT (i : Nat) (t : Sock) (o : Orc) : (recvIn i t o).1.preT = t.preT := by rw [recvIn]; split <;> rfl

theorem finIn_preT (i : Nat) (t : Sock) (g : Seg) : (finIn i t g).1.preT = t.preT := by rw [finIn]; split <;> rfl

theorem syncIn_preT (i : Nat) (t : Sock) (g : Seg) (o : Orc) (h : (syncIn i t g o).1.st ≠ .closed) : (syncIn i t g o).1.preT = t.preT := by
  generalize hq : syncIn i t g o = r at *
  rw [syncIn] at hq
  by_cases h1 : o.pawsOk = false
  · rw [if_pos h1] at hq; subst hq; rfl
  rw [if_neg h1] at hq
  by_cases h2 : acceptable t.ack o.space g = false
  · rw [if_pos h2] at hq; subst hq; rfl
  rw [if_neg h2] at hq
  by_cases h3 : g.syn = true
  · rw [if_pos h3] at hq; subst hq; rfl
  rw [if_neg h3] at hq
  by_cases h4 : g.ackF = false
  · rw [if_pos h4] at hq; subst hq; rfl
  rw [if_neg h4] at hq
  simp only at hq
  by_cases h5 : (ackIn t g.ack).st = .closed
  · rw [if_pos h5] at hq; subst hq; exact absurd h5 h
  rw [if_neg h5] at hq
  have ha := ackIn_preT t g.ack h5
  generalize ackIn t g.ack = t1 at *
  by_cases h6 : g.len > 0 ∧ (t1.st = .lastAck ∨ t1.st = .closing ∨ t1.st = .closed)
  · rw [if_pos h6] at hq; subst hq; exact ha
  rw [if_neg h6] at hq
  have hr : (if g.len > 0 then recvIn i t1 o else (t1, [])).1.preT = t.preT := by
    split
    · rw [recvIn_preT]; exact ha
    · exact ha
  generalize (if g.len > 0 then recvIn i t1 o else (t1, [])) = r1 at *
  by_cases h7 : g.fin = true
  · rw [if_pos h7] at hq; subst hq; exact (finIn_preT i r1.1 g).trans hr
  · rw [if_neg h7] at hq; subst hq; exact hr

/-- The pre-accept flag through one segment. -/
theorem sockIn_preT (s : St) (i : Nat) (t : Sock) (g : Seg) (o : Orc) (hr : g.rst = false) :
    (t.st = .est → (sockIn s i t g o).1.st = .est → (sockIn s i t g o).1.preT = t.preT) ∧
    (t.st = .synRcvd → t.isL = true → (sockIn s i t g o).1.st = .est → (sockIn s i t g o).1.preT = true) := by
  generalize hq : sockIn s i t g o = r
  rw [sockIn] at hq
  by_cases h1 : g.bad
  · rw [if_pos h1] at hq; subst hq; exact ⟨fun _ _ => rfl, fun a _ b => by rw [a] at b; simp at b⟩
  rw [if_neg h1, if_neg (by simp [hr])] at hq
  by_cases h2 : t.st = .listen ∧ g.ackF = true
  · rw [if_pos h2] at hq; subst hq; exact ⟨fun _ _ => rfl, fun a _ b => by rw [a] at b; simp at b⟩
  rw [if_neg h2] at hq
  simp only at hq
  have hpre : ∀ u : Sock, u = (if g.rst = false ∧ o.winUp = true then { (if g.syn = true ∧ (t.st = .listen ∨ t.st = .synSent) then { t with mss := o.mss } else t) with evW := true }
      else (if g.syn = true ∧ (t.st = .listen ∨ t.st = .synSent) then { t with mss := o.mss } else t)) → u.st = t.st ∧ u.preT = t.preT ∧ u.isL = t.isL := by
    intro u hu; subst hu; (repeat' split) <;> exact ⟨rfl, rfl, rfl⟩
  obtain ⟨p1, p2, p3⟩ := hpre _ rfl
  generalize (if g.rst = false ∧ o.winUp = true then { (if g.syn = true ∧ (t.st = .listen ∨ t.st = .synSent) then { t with mss := o.mss } else t) with evW := true }
      else (if g.syn = true ∧ (t.st = .listen ∨ t.st = .synSent) then { t with mss := o.mss } else t) : Sock) = u at *
  rw [if_neg (by simp [hr])] at hq
  refine ⟨?_, ?_⟩
  · intro hs hf
    rw [hs] at p1
    rw [if_neg (by simp [p1]), if_neg (by simp [p1]), if_neg (by simp [p1]), bodyIn, p1] at hq
    simp only at hq
    subst hq
    rw [syncIn_preT i u g o (by rw [hf]; simp), p2]
  · intro hs hl hf
    rw [hs] at p1
    rw [if_neg (by simp [p1]), if_neg (by simp [p1]), if_neg (by simp [p1]), bodyIn, p1] at hq
    simp only at hq
    have hf' : (rcvdIn i u g o).1.st = .est := by rw [← hq] at hf; exact hf
    have hgoal : r.1.preT = (rcvdIn i u g o).1.preT := by rw [← hq]
    rw [hgoal]
    clear hgoal hq hf
    generalize hq : rcvdIn i u g o = r' at *
    rw [rcvdIn] at hq
    by_cases c1 : g.syn = true ∧ g.ackF = false ∧ seqInc g.seq 1 = u.ack
    · rw [if_pos c1] at hq; subst hq; rw [p1] at hf'; simp at hf'
    rw [if_neg c1] at hq
    by_cases c2 : g.ackF = true
    · rw [if_pos c2] at hq
      by_cases c3 : acceptable u.ack o.space g = false
      · rw [if_pos c3] at hq; subst hq; rw [p1] at hf'; simp at hf'
      rw [if_neg c3] at hq
      by_cases c4 : g.ack ≠ seqInc u.una 1
      · rw [if_pos c4] at hq; subst hq; rw [p1] at hf'; simp at hf'
      rw [if_neg c4] at hq
      simp only at hq
      have hu1 : ({ u with st := .est, ctrl := false, retries := 0, preT := u.preT || u.isL, seq := g.ack, una := g.ack, evW := u.evW || o.txRoom } : Sock).preT = true := by
        simp only; rw [p3, hl]; simp
      generalize ({ u with st := .est, ctrl := false, retries := 0, preT := u.preT || u.isL, seq := g.ack, una := g.ack, evW := u.evW || o.txRoom } : Sock) = v at *
      have hr1 : (if g.len > 0 then recvIn i v o else (v, [])).1.preT = true := by
        split
        · rw [recvIn_preT]; exact hu1
        · exact hu1
      generalize (if g.len > 0 then recvIn i v o else (v, [])) = r1 at *
      subst hq
      (repeat' split) <;> exact hr1
    · rw [if_neg c2] at hq; subst hq; rw [p1] at hf'; simp at hf'

/-- **C18, part.** Whatever happens — segments of any kind, timers, ICMP errors, calls on any socket, callbacks — a
listening socket stays one, with its local port and bound address, unless it is closed by the application or one of
the three listed violations strikes. -/
theorem listener_survives_partial (s : St) (op : Op) (k : Nat) (t t' : Sock) (ht : s.socks[k]? = some t) (ht' : (step s op).1.socks[k]? = some t')
    (hL : Listening t) (hf : ¬ Fatal k t op) : Listening t' ∧ SameEnd t t' := by
  have same : s.socks[k]? = some t' → Listening t' ∧ SameEnd t t' := by
    intro h; rw [ht] at h; cases h; exact ⟨hL, rfl, rfl⟩
  obtain ⟨l1, l2, l3, l4⟩ := hL
  have ncl : t.st ≠ .closed := by rcases l4 with l | l | ⟨l, _⟩ <;> rw [l] <;> simp
  have put : ∀ (j : Nat) (w : Sock), (setSock s j w).socks[k]? = some t' →
      (j = k → Listening w ∧ SameEnd t w) → Listening t' ∧ SameEnd t t' := by
    intro j w hw hq
    rcases get_setSock s j w k t t' ht hw with ⟨_, h⟩ | ⟨h, h'⟩
    · subst h; exact ⟨⟨l1, l2, l3, l4⟩, rfl, rfl⟩
    · rw [h']; exact hq h
  have free : ∀ j, freeSlot s = some j → j ≠ k := by
    intro j hj c
    obtain ⟨u, hu, hun⟩ := freeSlot_spec hj
    rw [c, ht] at hu; cases hu; rw [l1] at hun; simp at hun
  have rev : ∀ rnd, Listening (revert t rnd) ∧ SameEnd t (revert t rnd) := by
    intro rnd; exact ⟨⟨l1, rfl, l3, Or.inl rfl⟩, rfl, rfl⟩
  cases op with
  | socket =>
    rw [step, socketOp] at ht'
    cases hf : freeSlot s with
    | none => rw [hf] at ht'; exact same ht'
    | some j => rw [hf] at ht'; exact put j _ ht' (fun c => absurd c (free j hf))
  | bind j ip port fam veto =>
    rw [step, bindOp] at ht'
    cases hj : s.socks[j]? with
    | none => rw [hj] at ht'; exact same ht'
    | some u =>
      rw [hj] at ht'
      simp only at ht'
      by_cases c : j = k
      · subst c; rw [ht] at hj; cases hj
        rw [if_pos (show t.st ≠ .closed from ncl)] at ht'
        split at ht' <;> exact same ht'
      · repeat' split at ht'
        iterate 5 exact same ht'
        exact put j _ ht' (fun q => absurd q c)
  | listen j veto =>
    rw [step, listenOp] at ht'
    cases hj : s.socks[j]? with
    | none => rw [hj] at ht'; exact same ht'
    | some u =>
      rw [hj] at ht'
      simp only at ht'
      by_cases c : j = k
      · subst c; rw [ht] at hj; cases hj
        rw [if_pos ncl] at ht'; exact same ht'
      · repeat' split at ht'
        · exact same ht'
        · exact put j _ ht' (fun q => absurd q c)
        · exact put j _ ht' (fun q => absurd q c)
  | connect j ip port fam veto sendOk rnd iss =>
    rw [step, connectOp] at ht'
    cases hj : s.socks[j]? with
    | none => rw [hj] at ht'; exact same ht'
    | some u =>
      rw [hj] at ht'
      simp only at ht'
      by_cases c : j = k
      · subst c; rw [ht] at hj; cases hj
        (repeat' split at ht') <;> first | exact same ht' | (rename_i c1 _ _ _ _; exact absurd ncl c1) | (simp_all; done)
      · (repeat' split at ht') <;> first | exact same ht' | exact put j _ ht' (fun q => absurd q c)
  | accept j veto sendOk rnd =>
    rw [step, acceptOp] at ht'
    cases hj : s.socks[j]? with
    | none => rw [hj] at ht'; exact same ht'
    | some u =>
      rw [hj] at ht'
      simp only at ht'
      by_cases h1 : u.st = .est ∧ u.isL = true
      · rw [if_pos h1] at ht'
        exact put j _ ht' (fun c => by subst c; rw [ht] at hj; cases hj; exact rev rnd)
      rw [if_neg h1] at ht'
      by_cases h2 : u.st = .listen
      · rw [if_pos h2] at ht'; exact same ht'
      rw [if_neg h2] at ht'
      by_cases h3 : u.st ≠ .synRcvd
      · rw [if_pos h3] at ht'; exact same ht'
      rw [if_neg h3] at ht'
      cases hf : freeSlot s with
      | none => rw [hf] at ht'; exact same ht'
      | some i =>
        rw [hf] at ht'
        simp only at ht'
        by_cases h4 : sendOk = false
        · rw [if_pos h4] at ht'; exact put i _ ht' (fun c => absurd c (free i hf))
        rw [if_neg h4] at ht'
        have two : ∀ w : Sock,
            (setSock (setSock s j { u with evR := false, st := .listen, ctrl := false, retries := 0, seq := rnd, lip := if u.blip ≠ 0 then u.blip else u.lip }) i w).socks[k]? = some t' →
            Listening t' ∧ SameEnd t t' := by
          intro w hget
          have hik := free i hf
          rw [setSock] at hget
          simp only at hget
          rw [List.getElem?_set_ne hik] at hget
          refine put j _ hget (fun c => ?_)
          subst c; rw [ht] at hj; cases hj
          exact ⟨⟨l1, l2, l3, Or.inl rfl⟩, rfl, rfl⟩
        by_cases h5 : veto = true
        · rw [if_pos h5] at ht'; exact two _ ht'
        · rw [if_neg h5] at ht'; exact two _ ht'
  | close j sendOk =>
    have hjk : j ≠ k := hf
    rw [step, closeOp] at ht'
    cases hj : s.socks[j]? with
    | none => rw [hj] at ht'; exact same ht'
    | some u =>
      rw [hj] at ht'
      (repeat' split at ht') <;> first | exact same ht' | exact put j _ ht' (fun c => absurd c hjk)
  | register j cb =>
    rw [step] at ht'
    cases hj : s.socks[j]? with
    | none => rw [hj] at ht'; exact same ht'
    | some u =>
      rw [hj] at ht'
      exact put j _ ht' (fun c => by subst c; rw [ht] at hj; cases hj; exact ⟨⟨l1, l2, l3, l4⟩, rfl, rfl⟩)
  | send j n =>
    rw [step] at ht'
    cases hj : s.socks[j]? with
    | none => rw [hj] at ht'; exact same ht'
    | some u =>
      rw [hj] at ht'
      simp only at ht'
      split at ht'
      · exact put j _ ht' (fun c => by subst c; rw [ht] at hj; cases hj; exact ⟨⟨l1, l2, l3, l4⟩, rfl, rfl⟩)
      · exact same ht'
  | reconf net => exact same ht'
  | segment g o =>
    rw [step] at ht'
    simp only at ht'
    cases hr : g.rst with
    | true =>
      rcases l4 with l | l | ⟨l, lp⟩
      · exact same (((rst_handshake s g o k t ht hr).1 l).symm.trans ht' ▸ ht)
      · rcases (rst_handshake s g o k t ht hr).2.1 l with h | ⟨_, _, u, h, h'⟩
        · rw [h] at ht'; exact same (by rw [ht]; exact ht')
        · rw [h] at ht'; cases ht'
          rcases h' with ⟨_, b1, b2, b3, b4, b5, b6⟩ | ⟨b, _⟩
          · refine ⟨⟨b3, b2, ?_, Or.inl b1⟩, b4, b5⟩
            -- the pending flag is not touched
            rcases (input_slot s g o).2.2.2.1 k t ht with q | ⟨q1, s1, q2, q3, q4, q5⟩
            · rw [q] at h; cases h; exact l3
            · rw [q4] at h
              by_cases hb : g.bad
              · rw [sockIn, if_pos hb] at h; cases h; exact l3
              · rw [sockIn_rst s1 k t g (o k) hr hb] at h
                simp only at h
                cases h
                rw [rstAns, if_neg (by rw [l]; simp), rstIn] at b1 ⊢
                obtain ⟨p1, p2, _⟩ := pre_spec t g (o k)
                generalize pre t g (o k) = v at *
                rw [l] at p2
                rw [p2] at b1 ⊢
                simp only at b1 ⊢
                by_cases d1 : g.seq ≠ v.ack
                · rw [if_pos d1]; exact p1.pend.trans l3
                · rw [if_neg d1, if_pos (p1.isL.trans l2)]; exact p1.pend.trans l3
          · rw [l2] at b; simp at b
      · refine same ?_
        rw [ht, ← ht']
        symm
        apply (rst_exact s g o k t ht hr (by rw [l]; rfl)).2.1
        rintro ⟨c1, _, c3⟩
        exact hf ⟨c1, Or.inl ⟨l, hr, c3⟩⟩
    | false =>
      rcases (input_slot s g o).2.2.2.1 k t ht with q | ⟨q1, s1, q2, q3, q4, q5⟩
      · rw [q] at ht'; exact same (by rw [ht]; exact ht')
      · rw [q4] at ht'
        cases ht'
        obtain ⟨a1, a2⟩ := sockIn_preT s1 k t g (o k) hr
        have hn := sockIn_next s1 k t g (o k) hr
        rcases hn.preT l2 a1 (fun x y => a2 x l2 y) ⟨l1, l2, l3, l4⟩ with h | ⟨h1, h2, h3⟩
        · exact h
        · exfalso
          apply hf
          refine ⟨(hit_conn ?_).mp q1, Or.inr ⟨hr, h1, h2, h3⟩⟩
          rcases h3 with h3 | ⟨h3, _⟩ <;> rw [h3] <;> rfl
  | rto j o =>
    rw [step] at ht'
    cases hj : s.socks[j]? with
    | none => rw [hj] at ht'; exact same ht'
    | some u =>
      rw [hj] at ht'
      refine put j _ ht' (fun c => ?_)
      subst c; rw [ht] at hj; cases hj
      generalize hq : rtoIn j t o = r
      rw [rtoIn, if_neg (by rw [l1]; simp)] at hq
      by_cases c1 : t.fw2t = true
      · rw [if_pos c1, if_pos (by rcases l4 with l | l | ⟨l, _⟩ <;> rw [l] <;> simp)] at hq
        subst hq; exact ⟨⟨l1, l2, l3, l4⟩, rfl, rfl⟩
      rw [if_neg c1] at hq
      by_cases c2 : t.preT = true
      · rw [if_pos c2] at hq
        by_cases c3 : t.st ≠ .est ∨ t.isL = false
        · rw [if_pos c3] at hq; subst hq
          refine ⟨⟨l1, l2, l3, ?_⟩, rfl, rfl⟩
          rcases l4 with l | l | ⟨l, _⟩
          · exact Or.inl l
          · exact Or.inr (Or.inl l)
          · rcases c3 with c3 | c3
            · exact absurd l c3
            · rw [l2] at c3; simp at c3
        · rw [if_neg c3] at hq; subst hq; exact rev _
      rw [if_neg c2] at hq
      have l4' : t.st = .listen ∨ t.st = .synRcvd := by
        rcases l4 with l | l | ⟨_, l⟩
        · exact Or.inl l
        · exact Or.inr l
        · exact absurd l c2
      by_cases c3 : needsRto t o
      · have hsr : t.st = .synRcvd := by
          rcases l4' with l | l
          · rcases c3 with c | c | c | c <;> simp [l] at c
          · exact l
        rw [if_pos c3] at hq
        by_cases c4 : t.retries ≥ ctrlMax
        · rw [if_pos c4, if_pos ⟨l2, hsr⟩] at hq; subst hq; exact rev _
        · rw [if_neg c4, ctrlResend] at hq
          simp only at hq
          rw [if_pos (show t.st = .synSent ∨ t.st = .synRcvd from Or.inr hsr)] at hq
          subst hq
          exact ⟨⟨l1, l2, l3, Or.inr (Or.inl hsr)⟩, rfl, rfl⟩
      rw [if_neg c3] at hq
      by_cases c4 : t.ctrl = true
      · rw [if_pos c4] at hq; subst hq; exact ⟨⟨l1, l2, l3, l4⟩, rfl, rfl⟩
      rw [if_neg c4, if_pos (by rcases l4' with l | l <;> rw [l] <;> simp)] at hq
      subst hq; exact ⟨⟨l1, l2, l3, l4⟩, rfl, rfl⟩
  | icmp e =>
    rw [step, icmpIn] at ht'
    cases hfi : s.socks.findIdx? (icmpHit e) with
    | none => rw [hfi] at ht'; exact same ht'
    | some j =>
      rw [hfi] at ht'
      rw [List.findIdx?_eq_some_iff_getElem] at hfi
      obtain ⟨f1, f2, _⟩ := hfi
      have hj : s.socks[j]? = some s.socks[j] := List.getElem?_eq_getElem f1
      simp only [getD_of_get hj] at ht'
      refine put j _ ht' (fun c => ?_)
      subst c
      rw [hj] at ht
      have hu : s.socks[j] = t := by cases ht; rfl
      rw [hu] at f2 ⊢
      generalize hq : icmpSock e t = w
      rw [icmpSock] at hq
      by_cases d1 : e.unreach = false
      · rw [if_pos d1] at hq; subst hq; exact ⟨⟨l1, l2, l3, l4⟩, rfl, rfl⟩
      rw [if_neg d1] at hq
      by_cases d2 : e.code = 4
      · rw [if_pos d2] at hq; subst hq
        split <;> exact ⟨⟨l1, l2, l3, l4⟩, rfl, rfl⟩
      rw [if_neg d2] at hq
      by_cases d3 : e.code = 2 ∨ e.code = 3
      · rw [if_pos d3] at hq
        by_cases d4 : (t.st = .synSent ∨ t.st = .synRcvd) ∧ seqLeq t.una e.seq = true ∧ seqLt e.seq (seqInc t.una 1) = true
        · exfalso
          apply hf
          refine ⟨?_, f2, by simpa using d1, d3, d4.2⟩
          rcases d4.1 with d | d
          · rcases l4 with l | l | ⟨l, _⟩ <;> rw [d] at l <;> simp at l
          · exact d
        · rw [if_neg d4] at hq; subst hq; exact ⟨⟨l1, l2, l3, l4⟩, rfl, rfl⟩
      · rw [if_neg d3] at hq; subst hq; exact ⟨⟨l1, l2, l3, l4⟩, rfl, rfl⟩
  | cbBegin j =>
    rw [step, cbBegin] at ht'
    cases hj : s.socks[j]? with
    | none => rw [hj] at ht'; exact same ht'
    | some u =>
      rw [hj] at ht'
      simp only at ht'
      by_cases h1 : u.pend = true
      · rw [if_pos h1] at ht'
        refine put j _ ht' (fun c => ?_)
        subst c; rw [ht] at hj; cases hj; rw [l3] at h1; simp at h1
      · rw [if_neg h1] at ht'
        repeat' split at ht'
        iterate 3 exact same ht'
        exact put j _ ht' (fun c => by subst c; rw [ht] at hj; cases hj; exact ⟨⟨l1, l2, l3, l4⟩, rfl, rfl⟩)
  | cbEnd =>
    rw [step, cbEnd] at ht'
    cases hc : s.inCb with
    | none => rw [hc] at ht'; exact same ht'
    | some j =>
      rw [hc] at ht'
      simp only at ht'
      cases hj : s.socks[j]? with
      | none => rw [hj] at ht'; exact same ht'
      | some u =>
        rw [hj] at ht'
        simp only at ht'
        split at ht'
        · rename_i q
          exact put j _ ht' (fun c => by subst c; rw [ht] at hj; cases hj; exact absurd q ncl)
        · exact same ht'

/-- No fatal event for slot `k` in the history. -/
def Harmless (k : Nat) : St → List Op → Prop
  | _, [] => True
  | s, op :: ops => (∀ t : Sock, s.socks[k]? = some t → ¬ Fatal k t op) ∧ Harmless k (step s op).1 ops

/-- **C18, part, over histories.** -/
theorem listener_survives_history_partial (k : Nat) (ops : List Op) : ∀ (s : St) (t : Sock), s.socks[k]? = some t → Listening t → Harmless k s ops →
    ∃ t' : Sock, (run s ops).1.socks[k]? = some t' ∧ Listening t' ∧ SameEnd t t' := by
  induction ops with
  | nil => intro s t ht hL _; exact ⟨t, ht, hL, rfl, rfl⟩
  | cons op ops ih =>
    intro s t ht hL hh
    have hk : k < (step s op).1.socks.length := by rw [step_length]; exact lt_of_get ht
    obtain ⟨a, b⟩ := listener_survives_partial s op k t _ ht (List.getElem?_eq_getElem hk) hL (hh.1 t ht)
    obtain ⟨t', c1, c2, c3⟩ := ih _ _ (List.getElem?_eq_getElem hk) a hh.2
    exact ⟨t', c1, c2, c3.1.trans b.1, c3.2.trans b.2⟩

/-- **C18.** The retransmission limit: the socket is back in LISTEN, with port, bound address and callback. -/
theorem retry_limit_relistens (k : Nat) (t : Sock) (o : TOrc) (hL : Listening t) (hs : t.st = .synRcvd) (h1 : t.fw2t = false) (h2 : t.preT = false) (h3 : t.retries ≥ ctrlMax) :
    (rtoIn k t o).1.st = .listen ∧ Listening (rtoIn k t o).1 ∧ SameEnd t (rtoIn k t o).1 ∧ (rtoIn k t o).1.cb = t.cb := by
  obtain ⟨l1, l2, l3, _⟩ := hL
  have : rtoIn k t o = (revert t o.rnd, []) := by
    rw [rtoIn, if_neg (by rw [l1]; simp), if_neg (by rw [h1]; simp), if_neg (by rw [h2]; simp), if_pos (show needsRto t o from Or.inr (Or.inl hs)), if_pos h3, if_pos ⟨l2, hs⟩]
  rw [this]
  exact ⟨rfl, ⟨l1, rfl, l3, Or.inl rfl⟩, ⟨rfl, rfl⟩, rfl⟩

/-- **C18.** The pre-accept timeout: likewise. -/
theorem preaccept_timeout_relistens (k : Nat) (t : Sock) (o : TOrc) (hL : Listening t) (hs : t.st = .est) (h1 : t.fw2t = false) :
    (rtoIn k t o).1.st = .listen ∧ Listening (rtoIn k t o).1 ∧ SameEnd t (rtoIn k t o).1 ∧ (rtoIn k t o).1.cb = t.cb := by
  obtain ⟨l1, l2, l3, l4⟩ := hL
  have hp : t.preT = true := by
    rcases l4 with l | l | ⟨_, l⟩
    · rw [hs] at l; simp at l
    · rw [hs] at l; simp at l
    · exact l
  have : rtoIn k t o = (revert t o.rnd, []) := by
    rw [rtoIn, if_neg (by rw [l1]; simp), if_neg (by rw [h1]; simp), if_pos hp, if_neg (by simp [hs, l2])]
  rw [this]
  exact ⟨rfl, ⟨l1, rfl, l3, Or.inl rfl⟩, ⟨rfl, rfl⟩, rfl⟩

/-- **C18.** After `accept()` that returned a descriptor the listening socket is in LISTEN, with port and bound
address, and the new descriptor is another slot, in SYN_RCVD, with the client's address and port. -/
theorem accept_keeps_listening (s : St) (k j : Nat) (veto sendOk : Bool) (rnd : Nat) (t : Sock) (ht : s.socks[k]? = some t) (hL : Listening t)
    (hr : (step s (.accept k veto sendOk rnd)).2.1 = .fd j) :
    j ≠ k ∧ (∃ t' : Sock, (step s (.accept k veto sendOk rnd)).1.socks[k]? = some t' ∧ t'.st = .listen ∧ Listening t' ∧ SameEnd t t') ∧
    (∃ u : Sock, (step s (.accept k veto sendOk rnd)).1.socks[j]? = some u ∧ u.used = true ∧ u.st = .synRcvd ∧ u.sport = t.sport ∧ u.dport = t.dport ∧ u.rip = t.rip ∧ u.lip = t.lip) := by
  obtain ⟨l1, l2, l3, l4⟩ := hL
  generalize hst : step s (.accept k veto sendOk rnd) = r at *
  rw [step, acceptOp, ht] at hst
  simp only at hst
  by_cases h1 : t.st = .est ∧ t.isL = true
  · rw [if_pos h1] at hst; subst hst; simp at hr
  rw [if_neg h1] at hst
  by_cases h2 : t.st = .listen
  · rw [if_pos h2] at hst; subst hst; simp at hr
  rw [if_neg h2] at hst
  by_cases h3 : t.st ≠ .synRcvd
  · rw [if_pos h3] at hst; subst hst; simp at hr
  rw [if_neg h3] at hst
  cases hf : freeSlot s with
  | none => rw [hf] at hst; subst hst; simp at hr
  | some i =>
    rw [hf] at hst
    simp only at hst
    obtain ⟨v, hv, hvn⟩ := freeSlot_spec hf
    have hik : i ≠ k := by intro c; rw [c, ht] at hv; cases hv; rw [l1] at hvn; simp at hvn
    by_cases h4 : sendOk = false
    · rw [if_pos h4] at hst; subst hst; simp at hr
    rw [if_neg h4] at hst
    by_cases h5 : veto = true
    · rw [if_pos h5] at hst; subst hst; simp at hr
    · rw [if_neg h5] at hst
      subst hst
      simp only [Res.fd.injEq] at hr
      subst hr
      refine ⟨hik, ?_, ?_⟩
      · refine ⟨{ t with evR := false, st := .listen, ctrl := false, retries := 0, seq := rnd, lip := if t.blip ≠ 0 then t.blip else t.lip }, ?_, rfl, ⟨l1, l2, l3, Or.inl rfl⟩, rfl, rfl⟩
        simp only [setSock]
        rw [List.getElem?_set_ne hik, List.getElem?_set_self (lt_of_get ht)]
      · refine ⟨{ child t (fresh (s.socks.getD i {})) with retries := 0, ctrl := true, fw2t := false }, ?_, rfl, rfl, rfl, rfl, rfl, rfl⟩
        simp only [setSock]
        rw [List.getElem?_set_self (by simp only [List.length_set]; exact lt_of_get hv)]

/-- **C18.** A socket in LISTEN serves the next client: a SYN to its port and address, from a peer without a
connection here, makes it half-open and is answered with a SYN-ACK (no slot before it claims the segment). -/
theorem listen_serves (s : St) (g : Seg) (o : Nat → Orc) (k : Nat) (t : Sock) (ht : s.socks[k]? = some t) (hu : t.used = true) (hl : t.st = .listen) (hp : t.sport = g.dport)
    (h1 : g.syn = true) (h2 : g.ackF = false) (h3 : g.rst = false) (hb : ¬ g.bad) (h5 : g.dst ≠ 0) (h6 : t.blip = 0 ∨ t.blip = g.dst) (h7 : isLocal s.net g.dst = true)
    (hfirst : ∀ (j : Nat) (u : Sock), j < k → s.socks[j]? = some u → ¬ hit u g) (hdup : dupOf s.socks k t g = false) :
    ∃ (t' : Sock), (step s (.segment g o)).1.socks[k]? = some t' ∧ t'.st = .synRcvd ∧ t'.dport = g.sport ∧ t'.rip = g.src ∧ t'.lip = g.dst ∧ t'.ack = seqInc g.seq 1 ∧
      Ev.syn k (o k).rnd ∈ (step s (.segment g o)).2.2 := by
  have hh : hit t g := ⟨hu, by simp [hl], hp, by intro c; rw [hl] at c; simp [TS.conn] at c⟩
  have skip : ∀ (d n i : Nat), i + d = k → d ≤ n → inputFrom g o i n s = inputFrom g o k (n - d) s := by
    intro d
    induction d with
    | zero => intro n i h _; have : i = k := by omega
              subst this; rfl
    | succ d ih =>
      intro n i h hn
      obtain ⟨m, rfl⟩ : ∃ m, n = m + 1 := ⟨n - 1, by omega⟩
      rw [inputFrom]
      have hi : i < s.socks.length := by have := lt_of_get ht; omega
      rw [List.getElem?_eq_getElem hi]
      simp only
      rw [if_neg (hfirst i _ (by omega) (List.getElem?_eq_getElem hi)), ih m (i + 1) (by omega) (by omega)]
      congr 1; omega
  have hk := lt_of_get ht
  have hin : inputFrom g o 0 s.socks.length s = inputFrom g o k (s.socks.length - k - 1 + 1) s := by
    rw [skip k s.socks.length 0 (by omega) (by omega)]; congr 1; omega
  have hsock : ∃ t' : Sock, sockIn s k t g (o k) = (t', [.syn k (o k).rnd], true) ∧ t'.st = .synRcvd ∧ t'.dport = g.sport ∧ t'.rip = g.src ∧ t'.lip = g.dst ∧ t'.ack = seqInc g.seq 1 := by
    rw [sockIn, if_neg hb, if_neg (by simp [h3]), if_neg (by simp [h2])]
    simp only
    obtain ⟨p1, p2, _⟩ := pre_spec t g (o k)
    rw [show pre t g (o k) = (let t := if g.syn = true ∧ (t.st = .listen ∨ t.st = .synSent) then { t with mss := (o k).mss } else t
      if g.rst = false ∧ (o k).winUp = true then { t with evW := true } else t) from rfl] at p1 p2
    simp only at p1 p2
    generalize (if g.rst = false ∧ (o k).winUp = true then { (if g.syn = true ∧ (t.st = .listen ∨ t.st = .synSent) then { t with mss := (o k).mss } else t) with evW := true }
      else (if g.syn = true ∧ (t.st = .listen ∨ t.st = .synSent) then { t with mss := (o k).mss } else t) : Sock) = u at *
    rw [hl] at p2
    have hdup' : dupOf s.socks k u g = false := by rw [← hdup, dupOf, dupOf, p1.sport]
    rw [if_neg (by simp [h3]), if_neg (by simp [p2]), if_pos ⟨h1, p2⟩, listenSyn, if_neg h5, p1.blip,
      if_neg (by rcases h6 with h | h <;> simp [h]), if_neg (by simp [hdup']), if_neg (by simp [h7])]
    exact ⟨_, rfl, rfl, rfl, rfl, rfl, rfl⟩
  obtain ⟨t', e1, e2⟩ := hsock
  have hfin : inputFrom g o 0 s.socks.length s = ([.syn k (o k).rnd], { s with socks := s.socks.set k t' }, true) := by
    rw [hin, inputFrom, ht]
    simp only
    rw [if_pos hh, e1]
    rfl
  have hinp : input s g o = ([.syn k (o k).rnd], { s with socks := s.socks.set k t' }) := by
    rw [input, hfin]; rfl
  refine ⟨t', ?_, e2.1, e2.2.1, e2.2.2.1, e2.2.2.2.1, e2.2.2.2.2, ?_⟩
  · rw [step]; simp only; rw [hinp]; simp only; rw [List.getElem?_set_self hk]
  · rw [step]; simp only; rw [hinp]; simp

/-- Non-vacuity: a served listener satisfies `Listening` in all three phases. -/
theorem listening_example :
    (∃ t : Sock, (run (init 2 net1) serve).1.socks[0]? = some t ∧ Listening t ∧ t.st = .listen) ∧
    (∃ t : Sock, (run (init 2 net1) (serve ++ [.segment synSeg orc1])).1.socks[0]? = some t ∧ Listening t ∧ t.st = .synRcvd) ∧
    (∃ t : Sock, (run (init 2 net1) (serve ++ [.segment synSeg orc1, .segment ackSeg orc1])).1.socks[0]? = some t ∧ Listening t ∧ t.st = .est) := by
  refine ⟨⟨(run (init 2 net1) serve).1.socks.getD 0 {}, by decide +kernel, ⟨by decide +kernel, by decide +kernel, by decide +kernel, Or.inl (by decide +kernel)⟩, by decide +kernel⟩,
    ⟨(run (init 2 net1) (serve ++ [.segment synSeg orc1])).1.socks.getD 0 {}, by decide +kernel, ⟨by decide +kernel, by decide +kernel, by decide +kernel, Or.inr (Or.inl (by decide +kernel))⟩, by decide +kernel⟩,
    ⟨(run (init 2 net1) (serve ++ [.segment synSeg orc1, .segment ackSeg orc1])).1.socks.getD 0 {}, by decide +kernel, ⟨by decide +kernel, by decide +kernel, by decide +kernel, Or.inr (Or.inr ⟨by decide +kernel, by decide +kernel⟩)⟩, by decide +kernel⟩⟩

end Wolf.Sock
