import Verif.Sock.Listener
/-!
# C19: the close event is delivered exactly once

An involuntary teardown is one by a segment, a timer or an ICMP error. `Pending t c`: the slot is closed and holds an
undelivered CB_EVENT_CLOSED for callback `c`.
-/
namespace Wolf.Sock
open Wolf.Tcp (seqInc seqLt seqLeq)
open Wolf.Route (Ip)

/-- Closed, with an undelivered close event. -/
def Pending (t : Sock) (c : Nat) : Prop := t.used = true ∧ t.st = .closed ∧ t.evC = true ∧ t.cb = some c

/-- Events of the network and of time. -/
def Op.outside : Op → Bool
  | .segment _ _ | .rto _ _ | .icmp _ => true
  | _ => false

theorem closeSock_pending (t : Sock) (c : Nat) (hu : t.used = true) (hc : t.cb = some c) : Pending (closeSock t) c := by
  rw [closeSock, if_pos ⟨hu, by simp [hc]⟩]; exact ⟨rfl, rfl, rfl, hc⟩

/-- Alive with callback `c`, or pending. -/
def Held (t t' : Sock) (c : Nat) : Prop := Pending t' c ∨ (t'.used = true ∧ t'.cb = some c ∧ (t'.st = .closed → t.st = .closed))

theorem ackIn_closed_evC (t : Sock) (a : Nat) (c : Nat) (hu : t.used = true) (hc : t.cb = some c) (hn : t.st ≠ .closed) : (ackIn t a).st = .closed → Pending (ackIn t a) c := by
  intro h
  rcases ackIn_spec t a with ⟨hl, _, h1 | h1⟩ | ⟨_, _, _, hst⟩
  · exact ⟨by rw [h1.2.1.used]; exact hu, h, h1.2.2.2, by rw [h1.2.1.cb]; exact hc⟩
  · rw [hc] at h1; simp at h1
  · rcases hst with hst | hst | hst
    · rw [h] at hst; exact absurd hst.symm hn
    · rw [h] at hst; simp at hst
    · rw [h] at hst; simp at hst

theorem Next.held {s : St} {i : Nat} {t t' : Sock} {g : Seg} {evs : List Ev} (h : Next s i t g t' evs) (c : Nat) (hu : t.used = true) (hc : t.cb = some c) : Held t t' c := by
  cases h with
  | stay _ a b d e => exact Or.inr ⟨by rw [a.used]; exact hu, by rw [a.cb]; exact hc, fun h => by rw [← b]; exact h⟩
  | syn rnd a1 a2 a3 a4 a5 a6 a7 a8 => exact Or.inr ⟨by rw [a7.1]; exact hu, by rw [a7.2.2.2.2.1]; exact hc, fun h => by rw [a6] at h; simp at h⟩
  | synAck _ a1 a2 a3 a4 a5 a6 a7 => exact Or.inr ⟨by rw [a1.used]; exact hu, by rw [a1.cb]; exact hc, fun h => by rw [a6] at h; simp at h⟩
  | lastOfThree _ a1 a2 a3 a4 a5 a6 =>
    exact Or.inr ⟨by rw [a1.used]; exact hu, by rw [a1.cb]; exact hc, fun h => by rcases a5 with a5 | ⟨a5, _⟩ <;> rw [a5] at h <;> simp at h⟩
  | move _ a1 a2 a3 a4 =>
    refine Or.inr ⟨by rw [a1.used]; exact hu, by rw [a1.cb]; exact hc, fun h => ?_⟩
    rcases a3 with ⟨_, b2, _⟩ | ⟨_, b2, _⟩ | ⟨_, b2, _⟩ | ⟨_, b2, _⟩ | ⟨_, b2, _⟩ | ⟨_, b2, _⟩ <;> rw [b2] at h <;> simp at h
  | done a1 a2 a3 a4 =>
    rcases a4 with ⟨_, b2, b3, b4⟩ | ⟨b1, _⟩
    · exact Or.inl ⟨by rw [b2.used]; exact hu, b3, b4, by rw [b2.cb]; exact hc⟩
    · rw [hc] at b1; simp at b1

theorem rstAns_held (k : Nat) (t : Sock) (g : Seg) (o : Orc) (c : Nat) (hu : t.used = true) (hc : t.cb = some c) : Held t (rstAns k t g o).1 c := by
  obtain ⟨p1, p2, _⟩ := pre_spec t g o
  have stay : Held t (pre t g o) c := Or.inr ⟨by rw [p1.used]; exact hu, by rw [p1.cb]; exact hc, fun h => by rw [← p2]; exact h⟩
  have cl : Held t (closeSock (pre t g o)) c := Or.inl (closeSock_pending _ c (by rw [p1.used]; exact hu) (by rw [p1.cb]; exact hc))
  generalize hr : rstAns k t g o = r
  rw [rstAns] at hr
  by_cases h1 : t.st = .listen
  · rw [if_pos h1] at hr; subst hr; exact Or.inr ⟨hu, hc, fun h => h⟩
  rw [if_neg h1, rstIn] at hr
  have hcb : (pre t g o).cb = some c := by rw [p1.cb]; exact hc
  have hus : (pre t g o).used = true := by rw [p1.used]; exact hu
  generalize pre t g o = u at *
  cases hx : u.st <;> rw [hx] at hr <;> simp only at hr
  case listen => subst hr; exact stay
  case synRcvd =>
    by_cases h2 : g.seq ≠ u.ack
    · rw [if_pos h2] at hr; subst hr; exact stay
    rw [if_neg h2] at hr
    by_cases h3 : u.isL = true
    · rw [if_pos h3] at hr; subst hr; exact Or.inr ⟨hus, hcb, fun h => by simp at h⟩
    rw [if_neg h3, if_pos (by simp [hcb])] at hr
    subst hr; exact Or.inl ⟨hus, rfl, rfl, hcb⟩
  case synSent =>
    subst hr
    (repeat' split) <;> first | exact stay | exact cl
  all_goals
    subst hr
    (repeat' split) <;> first | exact stay | exact cl

theorem rtoIn_held (k : Nat) (t : Sock) (o : TOrc) (c : Nat) (hu : t.used = true) (hc : t.cb = some c) : Held t (rtoIn k t o).1 c := by
  have stay : ∀ w : Sock, w.used = t.used → w.cb = t.cb → w.st = t.st → Held t w c := fun w h1 h2 h3 => Or.inr ⟨h1.trans hu, h2.trans hc, fun h => by rw [← h3]; exact h⟩
  have cl : Held t (closeSock { t with st := .closed }) c := Or.inl (closeSock_pending _ c hu hc)
  have rv : Held t (revert t o.rnd) c := Or.inr ⟨hu, hc, fun h => by simp [revert] at h⟩
  rw [rtoIn]
  (repeat' split) <;> first
    | exact cl
    | exact rv
    | exact stay _ rfl rfl rfl
    | (rw [ctrlResend]; simp only; (repeat' split) <;> exact stay _ rfl rfl rfl)

/-- **C19.** When a segment, a timer or an ICMP error tears down a socket with a callback, the close event is pending
for that callback afterwards; if it does not tear the socket down, the callback stays armed. -/
theorem teardown_arms_event (s : St) (op : Op) (k c : Nat) (t t' : Sock) (ht : s.socks[k]? = some t) (ht' : (step s op).1.socks[k]? = some t')
    (ho : op.outside = true) (hu : t.used = true) (hc : t.cb = some c) :
    t'.used = true ∧ t'.cb = some c ∧ (t.st ≠ .closed → t'.st = .closed → Pending t' c) := by
  have hh : Held t t' c := by
    have put : ∀ (j : Nat) (w : Sock), (setSock s j w).socks[k]? = some t' → (j = k → Held t w c) → Held t t' c := by
      intro j w hw hq
      rcases get_setSock s j w k t t' ht hw with ⟨_, h⟩ | ⟨h, h'⟩
      · subst h; exact Or.inr ⟨hu, hc, fun h => h⟩
      · rw [h']; exact hq h
    cases op with
    | segment g o =>
      rcases (input_slot s g o).2.2.2.1 k t ht with q | ⟨q1, s1, q2, q3, q4, q5⟩
      · rw [step] at ht'; simp only at ht'; rw [q] at ht'; cases ht'; exact Or.inr ⟨hu, hc, fun h => h⟩
      · rw [step] at ht'; simp only at ht'; rw [q4] at ht'
        cases ht'
        by_cases hb : g.bad
        · rw [sockIn, if_pos hb]; exact Or.inr ⟨hu, hc, fun h => h⟩
        cases hr : g.rst with
        | false => exact (sockIn_next s1 k t g (o k) hr).held c hu hc
        | true => rw [sockIn_rst s1 k t g (o k) hr hb]; exact rstAns_held k t g (o k) c hu hc
    | rto j o =>
      rw [step] at ht'
      cases hj : s.socks[j]? with
      | none => rw [hj] at ht'; simp only at ht'; rw [ht] at ht'; cases ht'; exact Or.inr ⟨hu, hc, fun h => h⟩
      | some u =>
        rw [hj] at ht'
        refine put j _ ht' (fun q => ?_)
        subst q; rw [ht] at hj; cases hj; exact rtoIn_held j t o c hu hc
    | icmp e =>
      rw [step, icmpIn] at ht'
      cases hfi : s.socks.findIdx? (icmpHit e) with
      | none => rw [hfi] at ht'; simp only at ht'; rw [ht] at ht'; cases ht'; exact Or.inr ⟨hu, hc, fun h => h⟩
      | some j =>
        rw [hfi] at ht'
        refine put j _ ht' (fun q => ?_)
        subst q
        rw [getD_of_get ht, icmpSock]
        (repeat' split) <;> first
          | exact Or.inr ⟨hu, hc, fun h => h⟩
          | exact Or.inl (closeSock_pending t c hu hc)
    | socket => simp [Op.outside] at ho
    | bind => simp [Op.outside] at ho
    | listen => simp [Op.outside] at ho
    | connect => simp [Op.outside] at ho
    | accept => simp [Op.outside] at ho
    | close => simp [Op.outside] at ho
    | register => simp [Op.outside] at ho
    | send => simp [Op.outside] at ho
    | reconf => simp [Op.outside] at ho
    | cbBegin => simp [Op.outside] at ho
    | cbEnd => simp [Op.outside] at ho
  rcases hh with h | ⟨h1, h2, h3⟩
  · exact ⟨h.1, h.2.2.2, fun _ _ => h⟩
  · exact ⟨h1, h2, fun hn hcl => absurd (h3 hcl) hn⟩

/-- Operations that leave the pending event of slot `k` alone: everything but the dispatch of `k` and the calls
`close`, `listen`, `connect` and `wolfIP_register_callback` on it. -/
def Op.quiet (k : Nat) : Op → Prop
  | .close j _ | .listen j _ | .connect j _ _ _ _ _ _ _ | .register j _ | .cbBegin j => j ≠ k
  | _ => True

/-- Only the dispatch calls callbacks, and only the one of the slot it dispatches. -/
theorem call_only_dispatch (s : St) (op : Op) (k c : Nat) (b : Bool) (h : Ev.call k c b ∈ (step s op).2.2) :
    op = .cbBegin k ∧ ∃ t : Sock, s.socks[k]? = some t ∧ t.cb = some c ∧ b = t.evC := by
  cases op with
  | cbBegin j =>
    rw [step, cbBegin] at h
    cases hj : s.socks[j]? with
    | none => rw [hj] at h; simp at h
    | some u =>
      rw [hj] at h
      simp only at h
      split at h
      · split at h
        · rename_i c' hc'
          simp at h; obtain ⟨h1, h2, h3⟩ := h
          subst h1; exact ⟨rfl, u, hj, by rw [hc', h2], h3⟩
        · simp at h
      · split at h
        · simp at h
        · rename_i c' hc'
          (repeat' split at h) <;> simp at h
          obtain ⟨h1, h2, h3⟩ := h
          subst h1; exact ⟨rfl, u, hj, by rw [hc', h2], h3⟩
  | segment g o =>
    exfalso
    rcases (input_slot s g o).2.2.2.2 _ (show Ev.call k c b ∈ (input s g o).1 from h) with ⟨j, t, s1, h1, h2, h3, h4, h5, h6⟩ | ⟨h1, _⟩
    · have hb : ¬ g.bad := by intro c; rw [sockIn, if_pos c] at h6; simp at h6
      cases hr : g.rst with
      | true =>
        rw [sockIn_rst s1 j t g (o j) hr hb] at h6
        have := (rstAns_numbers j t g (o j)).2 _ h6
        simp at this
      | false =>
        have hn := sockIn_next s1 j t g (o j) hr
        generalize (sockIn s1 j t g (o j)).1 = t' at hn
        generalize (sockIn s1 j t g (o j)).2.1 = evs at hn h6
        cases hn with
        | stay _ a b c d =>
          rcases d _ h6 with d | ⟨d1, d2⟩ | ⟨d, d'⟩ | ⟨d, _⟩
          · simp at d
          · simp at d1
          · simp at d
          · obtain ⟨r, hr⟩ := resetReply_rst g _ d; simp at hr
        | syn rnd => simp at h6
        | synAck _ a1 a2 a3 a4 a5 a6 a7 => have := a7 _ h6; simp at this
        | lastOfThree _ a1 a2 a3 a4 a5 a6 => have := a6 _ h6; simp at this
        | move _ a1 a2 a3 a4 => have := a4 _ h6; simp at this
        | done => simp at h6
    · obtain ⟨r, hr⟩ := resetReply_rst g _ h1; simp at hr
  | connect j ip port fam veto sendOk rnd iss => rw [step, connectOp] at h; (repeat' split at h) <;> simp at h
  | accept j veto sendOk rnd => rw [step, acceptOp] at h; (repeat' split at h) <;> simp at h
  | close j sendOk => rw [step, closeOp] at h; (repeat' split at h) <;> simp at h
  | rto j o =>
    rw [step] at h
    split at h
    · simp at h
    · simp only at h
      rw [rtoIn] at h
      (repeat' split at h) <;> first
        | (simp at h; done)
        | (rw [ctrlResend] at h; simp only at h; (repeat' split at h) <;> simp at h)
  | socket => simp [step] at h
  | bind => simp [step] at h
  | listen => simp [step] at h
  | register => simp [step] at h
  | send => simp [step] at h
  | reconf => simp [step] at h
  | icmp => simp [step] at h
  | cbEnd => simp [step] at h

/-- Operations other than the dispatch do not change which callback runs. -/
theorem step_inCb (s : St) (op : Op) (h : (match op with | .cbBegin _ => false | .cbEnd => false | _ => true) = true) : (step s op).1.inCb = s.inCb := by
  cases op with
  | socket => rw [step, socketOp]; simp only; (repeat' split) <;> rfl
  | bind => rw [step, bindOp]; simp only; (repeat' split) <;> rfl
  | listen => rw [step, listenOp]; simp only; (repeat' split) <;> rfl
  | connect => rw [step, connectOp]; simp only; (repeat' split) <;> rfl
  | accept => rw [step, acceptOp]; simp only; (repeat' split) <;> rfl
  | close => rw [step, closeOp]; (repeat' split) <;> rfl
  | register => rw [step]; simp only; (repeat' split) <;> rfl
  | send => rw [step]; simp only; (repeat' split) <;> rfl
  | reconf => rfl
  | rto j o => rw [step]; (repeat' split) <;> rfl
  | icmp => rw [step, icmpIn]; simp only; (repeat' split) <;> rfl
  | segment g o => exact (input_slot s g o).2.1
  | cbBegin => simp at h
  | cbEnd => simp at h

theorem sockIn_miss_closed (t : Sock) (g : Seg) (h : t.st = .closed) (h' : t.evC = true) : ¬ hit t g := fun c => c.2.1 ⟨h, h'⟩

/-- **C19.** While the event is pending, nothing else touches it: it stays pending for the same callback, the
descriptor is not handed out, and no callback of the slot runs. -/
theorem pending_step (s : St) (op : Op) (k c : Nat) (t : Sock) (ht : s.socks[k]? = some t) (hp : Pending t c) (hq : op.quiet k) (hin : s.inCb ≠ some k) :
    (∃ t' : Sock, (step s op).1.socks[k]? = some t' ∧ Pending t' c) ∧ (step s op).2.1 ≠ .fd k ∧ (∀ c' b, Ev.call k c' b ∉ (step s op).2.2) ∧ (step s op).1.inCb ≠ some k := by
  obtain ⟨p1, p2, p3, p4⟩ := hp
  have hk : k < (step s op).1.socks.length := by rw [step_length]; exact lt_of_get ht
  have ht' : (step s op).1.socks[k]? = some (step s op).1.socks[k] := List.getElem?_eq_getElem hk
  generalize (step s op).1.socks[k] = t' at ht'
  have same : s.socks[k]? = some t' → Pending t' c := by
    intro h; rw [ht] at h; cases h; exact ⟨p1, p2, p3, p4⟩
  have put : ∀ (j : Nat) (w : Sock), (setSock s j w).socks[k]? = some t' → (j = k → Pending w c) → Pending t' c := by
    intro j w hw hq
    rcases get_setSock s j w k t t' ht hw with ⟨_, h⟩ | ⟨h, h'⟩
    · subst h; exact ⟨p1, p2, p3, p4⟩
    · rw [h']; exact hq h
  have free : ∀ j, freeSlot s = some j → j ≠ k := by
    intro j hj e
    obtain ⟨u, hu, hun⟩ := freeSlot_spec hj
    rw [e, ht] at hu; cases hu; rw [p1] at hun; simp at hun
  have calls : ∀ c' b, Ev.call k c' b ∉ (step s op).2.2 := by
    intro c' b hcall
    have := (call_only_dispatch s op k c' b hcall).1
    subst this
    exact hq rfl
  refine ⟨⟨t', ht', ?_⟩, ?_, calls, ?_⟩
  · cases op with
    | socket =>
      rw [step, socketOp] at ht'
      cases hf : freeSlot s with
      | none => rw [hf] at ht'; exact same ht'
      | some j => rw [hf] at ht'; exact put j _ ht' (fun e => absurd e (free j hf))
    | bind j ip port fam veto =>
      rw [step, bindOp] at ht'
      cases hj : s.socks[j]? with
      | none => rw [hj] at ht'; exact same ht'
      | some u =>
        rw [hj] at ht'
        simp only at ht'
        repeat' split at ht'
        iterate 5 exact same ht'
        exact put j _ ht' (fun e => by subst e; rw [ht] at hj; cases hj; exact ⟨p1, p2, p3, p4⟩)
    | listen j veto =>
      rw [step, listenOp] at ht'
      have hjk : j ≠ k := hq
      (repeat' split at ht') <;> first | exact same ht' | exact put j _ ht' (fun e => absurd e hjk)
    | connect j ip port fam veto sendOk rnd iss =>
      rw [step, connectOp] at ht'
      have hjk : j ≠ k := hq
      (repeat' split at ht') <;> first | exact same ht' | exact put j _ ht' (fun e => absurd e hjk)
    | accept j veto sendOk rnd =>
      rw [step, acceptOp] at ht'
      cases hj : s.socks[j]? with
      | none => rw [hj] at ht'; exact same ht'
      | some u =>
        rw [hj] at ht'
        simp only at ht'
        by_cases hjk : j = k
        · subst hjk; rw [ht] at hj; cases hj
          rw [if_neg (by simp [p2]), if_neg (by simp [p2]), if_pos (by simp [p2])] at ht'
          exact same ht'
        by_cases h1 : u.st = .est ∧ u.isL = true
        · rw [if_pos h1] at ht'; exact put j _ ht' (fun e => absurd e hjk)
        rw [if_neg h1] at ht'
        by_cases h2 : u.st = .listen
        · rw [if_pos h2] at ht'; exact same ht'
        rw [if_neg h2] at ht'
        by_cases h3 : u.st ≠ .synRcvd
        · rw [if_pos h3] at ht'; exact same ht'
        rw [if_neg h3] at ht'
        cases hf : freeSlot s with
        | none => rw [hf] at ht'; exact same ht'
        | some i =>
          rw [hf] at ht'
          simp only at ht'
          have hik := free i hf
          by_cases h4 : sendOk = false
          · rw [if_pos h4] at ht'; exact put i _ ht' (fun e => absurd e hik)
          rw [if_neg h4] at ht'
          have two : ∀ m w : Sock, (setSock (setSock s j m) i w).socks[k]? = some t' → Pending t' c := by
            intro m w hget
            rw [setSock] at hget
            simp only at hget
            rw [List.getElem?_set_ne hik] at hget
            exact put j _ hget (fun e => absurd e hjk)
          split at ht' <;> exact two _ _ ht'
    | close j sendOk =>
      have hjk : j ≠ k := hq
      rw [step, closeOp] at ht'
      (repeat' split at ht') <;> first | exact same ht' | exact put j _ ht' (fun e => absurd e hjk)
    | register j cb =>
      have hjk : j ≠ k := hq
      rw [step] at ht'
      cases hj : s.socks[j]? with
      | none => rw [hj] at ht'; exact same ht'
      | some u => rw [hj] at ht'; exact put j _ ht' (fun e => absurd e hjk)
    | send j n =>
      rw [step] at ht'
      cases hj : s.socks[j]? with
      | none => rw [hj] at ht'; exact same ht'
      | some u =>
        rw [hj] at ht'
        simp only at ht'
        split at ht'
        · exact put j _ ht' (fun e => by subst e; rw [ht] at hj; cases hj; exact ⟨p1, p2, p3, p4⟩)
        · exact same ht'
    | reconf net => exact same ht'
    | segment g o =>
      have := input_miss s g o k t ht (Or.inl (sockIn_miss_closed t g p2 p3))
      rw [step] at ht'; simp only at ht'; rw [this] at ht'; cases ht'; exact ⟨p1, p2, p3, p4⟩
    | rto j o =>
      rw [step] at ht'
      cases hj : s.socks[j]? with
      | none => rw [hj] at ht'; exact same ht'
      | some u =>
        rw [hj] at ht'
        refine put j _ ht' (fun e => ?_)
        subst e; rw [ht] at hj; cases hj
        have nr : ¬ needsRto t o := by rintro (h | h | h | h) <;> simp [p2] at h
        rw [rtoIn, if_neg (by simp [p1])]
        by_cases d1 : t.fw2t = true
        · rw [if_pos d1, if_pos (by simp [p2])]; exact ⟨p1, p2, p3, p4⟩
        rw [if_neg d1]
        by_cases d2 : t.preT = true
        · rw [if_pos d2, if_pos (by simp [p2])]; exact ⟨p1, p2, p3, p4⟩
        rw [if_neg d2, if_neg nr]
        by_cases d3 : t.ctrl = true
        · rw [if_pos d3]; exact ⟨p1, p2, p3, p4⟩
        rw [if_neg d3, if_pos (by simp [p2])]; exact ⟨p1, p2, p3, p4⟩
    | icmp e =>
      rw [step, icmpIn] at ht'
      cases hfi : s.socks.findIdx? (icmpHit e) with
      | none => rw [hfi] at ht'; exact same ht'
      | some j =>
        rw [hfi] at ht'
        rw [List.findIdx?_eq_some_iff_getElem] at hfi
        obtain ⟨f1, f2, _⟩ := hfi
        refine put j _ ht' (fun q => ?_)
        subst q
        have hj : s.socks[j]? = some s.socks[j] := List.getElem?_eq_getElem f1
        rw [ht] at hj
        have : t = s.socks[j] := by cases hj; rfl
        rw [← this, icmpHit, p2] at f2
        simp [TS.conn] at f2
    | cbBegin j =>
      have hjk : j ≠ k := hq
      rw [step, cbBegin] at ht'
      (repeat' split at ht') <;> first | exact same ht' | exact put j _ ht' (fun e => absurd e hjk)
    | cbEnd =>
      rw [step, cbEnd] at ht'
      cases hc : s.inCb with
      | none => rw [hc] at ht'; exact same ht'
      | some j =>
        have hjk : j ≠ k := by intro e; rw [hc, e] at hin; exact hin rfl
        rw [hc] at ht'
        simp only at ht'
        (repeat' split at ht') <;> first | exact same ht' | exact put j _ ht' (fun e => absurd e hjk)
  · cases op with
    | socket =>
      rw [step, socketOp]
      cases hf : freeSlot s with
      | none => simp
      | some j => simp only [ne_eq, Res.fd.injEq]; exact free j hf
    | accept j veto sendOk rnd =>
      rw [step, acceptOp]
      cases hf : freeSlot s with
      | none => simp only; (repeat' split) <;> simp
      | some i => simp only; (repeat' split) <;> first | (simp; done) | (simp only [ne_eq, Res.fd.injEq]; exact free i hf)
    | bind => rw [step, bindOp]; simp only; (repeat' split) <;> simp
    | listen => rw [step, listenOp]; simp only; (repeat' split) <;> simp
    | connect => rw [step, connectOp]; simp only; (repeat' split) <;> simp
    | close => rw [step, closeOp]; (repeat' split) <;> simp
    | rto j o => rw [step]; (repeat' split) <;> simp
    | _ => simp [step]
  · cases op with
    | segment g o => rw [step]; simp only; rw [(input_slot s g o).2.1]; exact hin
    | cbBegin j =>
      have hjk : j ≠ k := hq
      rw [step, cbBegin]
      simp only
      (repeat' split) <;> first | exact hin | (simp only [ne_eq, Option.some.injEq]; exact hjk)
    | cbEnd =>
      rw [step, cbEnd]
      simp only
      (repeat' split) <;> first | exact hin | simp
    | _ => rw [step_inCb s _ rfl]; exact hin

/-- **C19, over histories.** A pending close event survives every history that does not dispatch the slot or close,
listen on, connect or re-register it; meanwhile no callback of the slot runs. -/
theorem pending_run (k c : Nat) (ops : List Op) : ∀ (s : St) (t : Sock), s.socks[k]? = some t → Pending t c → (∀ op ∈ ops, op.quiet k) → s.inCb ≠ some k →
    (∃ t' : Sock, (run s ops).1.socks[k]? = some t' ∧ Pending t' c) ∧ (∀ c' b, Ev.call k c' b ∉ (run s ops).2) ∧ (run s ops).1.inCb ≠ some k := by
  induction ops with
  | nil => intro s t ht hp _ hin; exact ⟨⟨t, ht, hp⟩, by simp [run], hin⟩
  | cons op ops ih =>
    intro s t ht hp hq hin
    obtain ⟨⟨t1, h1, h2⟩, _, h3, h4⟩ := pending_step s op k c t ht hp (hq op List.mem_cons_self) hin
    obtain ⟨a, b, d⟩ := ih _ t1 h1 h2 (fun o ho => hq o (List.mem_cons_of_mem _ ho)) h4
    refine ⟨a, ?_, d⟩
    intro c' b' hm
    rw [run] at hm
    rcases List.mem_append.mp hm with hm | hm
    · exact h3 _ _ hm
    · exact b _ _ hm

/-- Calls the application makes inside the callback, other than on the socket itself. -/
def Op.inside (k : Nat) : Op → Prop
  | .socket | .reconf _ => True
  | .bind j _ _ _ _ | .listen j _ | .connect j _ _ _ _ _ _ _ | .accept j _ _ _ | .close j _ | .register j _ | .send j _ => j ≠ k
  | _ => False

/-- Delivered: closed and without events, reserved until the callback returns. -/
def Delivered (t : Sock) : Prop := t.used = true ∧ t.st = .closed ∧ t.evC = false

theorem inside_step (s : St) (op : Op) (k : Nat) (t : Sock) (ht : s.socks[k]? = some t) (hp : t.used = true) (hq : op.inside k) :
    (step s op).1.socks[k]? = some t ∧ (step s op).1.inCb = s.inCb ∧ (∀ k' c' b, Ev.call k' c' b ∉ (step s op).2.2) := by
  have put : ∀ (j : Nat) (w : Sock), j ≠ k → (setSock s j w).socks[k]? = some t := by
    intro j w h; rw [setSock]; simp only; rw [List.getElem?_set_ne h]; exact ht
  have free : ∀ j, freeSlot s = some j → j ≠ k := by
    intro j hj e
    obtain ⟨u, hu, hun⟩ := freeSlot_spec hj
    rw [e, ht] at hu; cases hu; rw [hp] at hun; simp at hun
  have calls : (∀ k' c' b, Ev.call k' c' b ∉ (step s op).2.2) := by
    intro k' c' b hc
    have := (call_only_dispatch s op k' c' b hc).1
    subst this; exact hq
  refine ⟨?_, ?_, calls⟩
  · cases op with
    | socket =>
      rw [step, socketOp]
      cases hf : freeSlot s with
      | none => exact ht
      | some j => exact put j _ (free j hf)
    | bind j => rw [step, bindOp]; simp only; (repeat' split) <;> first | exact ht | exact put j _ hq
    | listen j => rw [step, listenOp]; simp only; (repeat' split) <;> first | exact ht | exact put j _ hq
    | connect j => rw [step, connectOp]; simp only; (repeat' split) <;> first | exact ht | exact put j _ hq
    | accept j =>
      rw [step, acceptOp]
      cases hf : freeSlot s with
      | none => simp only; (repeat' split) <;> first | exact ht | exact put j _ hq
      | some i =>
        have two : ∀ m w : Sock, (setSock (setSock s j m) i w).socks[k]? = some t := by
          intro m w; rw [setSock]; simp only; rw [List.getElem?_set_ne (free i hf)]; exact put j m hq
        simp only
        (repeat' split) <;> first | exact ht | exact put j _ hq | exact put i _ (free i hf) | exact two _ _
    | close j => rw [step, closeOp]; (repeat' split) <;> first | exact ht | exact put j _ hq
    | register j => rw [step]; simp only; (repeat' split) <;> first | exact ht | exact put j _ hq
    | send j => rw [step]; simp only; (repeat' split) <;> first | exact ht | exact put j _ hq
    | reconf => exact ht
    | segment => exact hq.elim
    | rto => exact hq.elim
    | icmp => exact hq.elim
    | cbBegin => exact hq.elim
    | cbEnd => exact hq.elim
  · cases op with
    | segment => exact hq.elim
    | cbBegin => exact hq.elim
    | cbEnd => exact hq.elim
    | _ => exact step_inCb s _ rfl

theorem inside_run (k : Nat) (ops : List Op) : ∀ (s : St) (t : Sock), s.socks[k]? = some t → t.used = true → (∀ op ∈ ops, op.inside k) →
    (run s ops).1.socks[k]? = some t ∧ (run s ops).1.inCb = s.inCb ∧ (∀ k' c' b, Ev.call k' c' b ∉ (run s ops).2) := by
  induction ops with
  | nil => intro s t ht _ _; exact ⟨ht, rfl, by simp [run]⟩
  | cons op ops ih =>
    intro s t ht hu hq
    obtain ⟨h1, h2, h3⟩ := inside_step s op k t ht hu (hq op List.mem_cons_self)
    obtain ⟨a, b, d⟩ := ih _ t h1 hu (fun o ho => hq o (List.mem_cons_of_mem _ ho))
    refine ⟨a, b.trans h2, ?_⟩
    intro k' c' b' hm
    rw [run] at hm
    rcases List.mem_append.mp hm with hm | hm
    · exact h3 _ _ _ hm
    · exact d _ _ _ hm

/-- **C19.** The dispatch of a slot with a pending close event calls its callback exactly once with CB_EVENT_CLOSED;
whatever the callback then does with other sockets, when it has returned the slot is free (and no callback ran again). -/
theorem dispatch_delivers_once (s : St) (k c : Nat) (t : Sock) (ht : s.socks[k]? = some t) (hp : Pending t c) (hin : s.inCb = none) :
    (step s (.cbBegin k)).2.2 = [.call k c true] ∧
    ∀ ops : List Op, (∀ op ∈ ops, op.inside k) →
      (∀ k' c' b, Ev.call k' c' b ∉ (run (step s (.cbBegin k)).1 ops).2) ∧
      (t.pend = true → (step s (.cbBegin k)).1.socks[k]? = some {} ∧ (step s (.cbBegin k)).1.inCb = none) ∧
      (t.pend = false → (step (run (step s (.cbBegin k)).1 ops).1 .cbEnd).1.socks[k]? = some {} ∧ (step (run (step s (.cbBegin k)).1 ops).1 .cbEnd).1.inCb = none) := by
  obtain ⟨p1, p2, p3, p4⟩ := hp
  by_cases hpe : t.pend = true
  · have hst : step s (.cbBegin k) = (setSock s k {}, .ok, [.call k c true]) := by
      rw [step, cbBegin, ht]; simp only; rw [if_pos hpe, p4, p3]
    rw [hst]
    refine ⟨rfl, fun ops hops => ⟨?_, fun _ => ⟨?_, hin⟩, fun h => by rw [hpe] at h; simp at h⟩⟩
    · intro k' c' b hm
      have : ∀ (ops : List Op) (s : St), (∀ op ∈ ops, op.inside k) → Ev.call k' c' b ∉ (run s ops).2 := by
        intro ops
        induction ops with
        | nil => intro s _; simp [run]
        | cons op ops ih =>
          intro s h hm
          rw [run] at hm
          rcases List.mem_append.mp hm with hm | hm
          · have := (call_only_dispatch s op k' c' b hm).1
            subst this; exact h _ List.mem_cons_self
          · exact ih _ (fun o ho => h o (List.mem_cons_of_mem _ ho)) hm
      exact this ops _ hops hm
    · rw [setSock]; simp only; rw [List.getElem?_set_self (lt_of_get ht)]
  · have hst : step s (.cbBegin k) = ({ setSock s k { t with evR := false, evW := false, evC := false } with inCb := some k }, .ok, [.call k c true]) := by
      rw [step, cbBegin, ht]; simp only; rw [if_neg hpe, p4]; simp only
      rw [if_neg (by simp [p3]), if_neg (by simp [p3]), p3]
    rw [hst]
    refine ⟨rfl, fun ops hops => ?_⟩
    simp only
    obtain ⟨a, b, d⟩ := inside_run k ops { setSock s k { t with evR := false, evW := false, evC := false } with inCb := some k }
      { t with evR := false, evW := false, evC := false } (by simp only [setSock]; rw [List.getElem?_set_self (lt_of_get ht)]) p1 hops
    refine ⟨d, fun h => absurd h hpe, fun _ => ?_⟩
    generalize (run { setSock s k { t with evR := false, evW := false, evC := false } with inCb := some k } ops).1 = s2 at a b
    rw [step, cbEnd, b]
    simp only
    rw [a]
    simp only
    rw [if_pos p2]
    refine ⟨?_, rfl⟩
    simp only [setSock]
    rw [List.getElem?_set_self (lt_of_get a), closeSock, if_neg (by simp)]

/-- **C19, end to end.** A teardown from outside, then any history that leaves the slot alone, then its dispatch: the
callback is called with CB_EVENT_CLOSED exactly once in all of it. -/
theorem close_event_exactly_once (s : St) (op : Op) (ops : List Op) (k c : Nat) (t t' : Sock) (ht : s.socks[k]? = some t) (ht' : (step s op).1.socks[k]? = some t')
    (ho : op.outside = true) (hu : t.used = true) (hc : t.cb = some c) (hn : t.st ≠ .closed) (hcl : t'.st = .closed) (hin : s.inCb = none)
    (hq : ∀ o ∈ ops, o.quiet k) (hb : (run (step s op).1 ops).1.inCb = none) :
    ((run s (op :: ops ++ [.cbBegin k])).2.filter (fun e => match e with | .call j _ true => j == k | _ => false)) = [.call k c true] := by
  have hp := (teardown_arms_event s op k c t t' ht ht' ho hu hc).2.2 hn hcl
  have hin' : (step s op).1.inCb ≠ some k := by
    cases op with
    | segment g o => rw [step]; simp only; rw [(input_slot s g o).2.1, hin]; simp
    | rto j o => rw [step]; (repeat' split) <;> simp [setSock, hin]
    | icmp e => rw [step, icmpIn]; simp only; (repeat' split) <;> simp [hin]
    | _ => simp [Op.outside] at ho
  obtain ⟨⟨t2, a1, a2⟩, a3, _⟩ := pending_run k c ops _ t' ht' hp hq hin'
  have hd := (dispatch_delivers_once _ k c t2 a1 a2 hb).1
  have happ : ∀ (l : List Op) (s : St) (o : Op), (run s (l ++ [o])).2 = (run s l).2 ++ (step (run s l).1 o).2.2 := by
    intro l
    induction l with
    | nil => intro s o; simp [run]
    | cons x l ih => intro s o; rw [List.cons_append, run, ih, run]; simp [List.append_assoc]
  rw [happ]
  have hrun : (run s (op :: ops)).1 = (run (step s op).1 ops).1 := rfl
  rw [hrun, hd, List.filter_append]
  have hnil : ((run s (op :: ops)).2.filter (fun e => match e with | .call j _ true => j == k | _ => false)) = [] := by
    rw [List.filter_eq_nil_iff]
    intro e he
    rw [run] at he
    cases e with
    | call j c' b =>
      cases b with
      | false => simp
      | true =>
        simp only [beq_iff_eq]
        intro hjk
        subst hjk
        rcases List.mem_append.mp he with he | he
        · have := (call_only_dispatch s op j c' true he).1
          subst this; simp [Op.outside] at ho
        · exact a3 _ _ he
    | _ => simp
  rw [hnil]
  simp

/-- Non-vacuity: an accepted connection, its final ACK, then an exact RST. -/
theorem notify_example :
    let ops : List Op := serve ++ [.segment synSeg orc1, .accept 0 false true 9, .segment ackSeg orc1]
    (∃ t : Sock, (run (init 2 net1) ops).1.socks[1]? = some t ∧ t.used = true ∧ t.cb = some 7 ∧ t.st = .est) ∧
    (∃ t : Sock, (run (init 2 net1) (ops ++ [.segment rstSeg orc1])).1.socks[1]? = some t ∧ Pending t 7) := by
  refine ⟨⟨(run (init 2 net1) (serve ++ [.segment synSeg orc1, .accept 0 false true 9, .segment ackSeg orc1])).1.socks.getD 1 {}, by decide +kernel, by decide +kernel, by decide +kernel, by decide +kernel⟩,
    ⟨(run (init 2 net1) (serve ++ [.segment synSeg orc1, .accept 0 false true 9, .segment ackSeg orc1] ++ [.segment rstSeg orc1])).1.socks.getD 1 {}, by decide +kernel, ⟨by decide +kernel, by decide +kernel, by decide +kernel, by decide +kernel⟩⟩⟩

end Wolf.Sock
