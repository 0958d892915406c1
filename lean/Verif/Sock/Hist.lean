import Verif.Sock.Edges
/-!
# C16 over whole histories: no synchronized state and no delivered byte without a handshake

An observer outside the stack watches the SYNs it sends for each slot and the segments that arrive. `acked k` is
the observer's verdict "a segment of the connection of slot `k` acknowledged exactly the last SYN sent for it".
-/
namespace Wolf.Sock
open Wolf.Tcp (seqInc seqLt seqLeq)
open Wolf.Route (Ip)

/-- The observer's notes: number of the last SYN sent for a slot; whether it has been acknowledged. -/
structure Gh where
  iss : Nat → Option Nat
  acked : Nat → Prop

/-- The number of a SYN for slot `k`. -/
def synOf (k : Nat) : Ev → Option Nat
  | .syn j n => if j = k then some n else none
  | _ => none

/-- An incoming segment of the connection in slot `t` that acknowledges the SYN numbered `n`. -/
def AcksSyn (t : Sock) (g : Seg) (n : Nat) : Prop := OfConn t g ∧ g.rst = false ∧ g.ackF = true ∧ g.ack = seqInc n 1

/-- What the observer notes in one step. -/
def observe (s : St) (op : Op) (evs : List Ev) (h : Gh) : Gh where
  iss k := match evs.findSome? (synOf k) with | some n => some n | none => h.iss k
  acked k := evs.findSome? (synOf k) = none ∧
    (h.acked k ∨ ∃ g o t n, op = .segment g o ∧ s.socks[k]? = some t ∧ h.iss k = some n ∧ AcksSyn t g n)

/-- Numbers of the operation fit 32 bits. -/
def Op.wf : Op → Prop
  | .connect _ _ _ _ _ _ _ iss => iss < 4294967296
  | .segment g o => g.ack < 4294967296 ∧ ∀ k, (o k).rnd < 4294967296
  | _ => True

/-- What holds between the table and the notes. -/
def HInv (s : St) (h : Gh) : Prop := ∀ (k : Nat) (t : Sock), s.socks[k]? = some t →
  (t.st = .synSent ∨ t.st = .synRcvd → t.una = t.seq ∧ h.iss k = some t.seq ∧ t.seq < 4294967296) ∧ (t.st.sync = true → h.acked k)

theorem synOf_some {k n : Nat} {evs : List Ev} (h : evs.findSome? (synOf k) = some n) : Ev.syn k n ∈ evs := by
  obtain ⟨e, he, hn⟩ := List.exists_of_findSome?_eq_some h
  cases e <;> simp [synOf] at hn
  rw [← hn.1, ← hn.2]; exact he

theorem synOf_none {k : Nat} {evs : List Ev} (h : evs.findSome? (synOf k) = none) (n : Nat) : Ev.syn k n ∉ evs := by
  intro c
  have := List.findSome?_eq_none_iff.mp h _ c
  simp [synOf] at this

theorem rstAns_numbers (k : Nat) (t : Sock) (g : Seg) (o : Orc) :
    ((rstAns k t g o).1.st = .listen ∨ (rstAns k t g o).1.st = .closed ∨ ((rstAns k t g o).1.seq = t.seq ∧ (rstAns k t g o).1.una = t.una)) ∧
    ∀ e ∈ (rstAns k t g o).2, e = .ack k := by
  obtain ⟨_, p2, p3, p4, _⟩ := pre_spec t g o
  generalize hr' : rstAns k t g o = r
  rw [rstAns] at hr'
  by_cases h1 : t.st = .listen
  · rw [if_pos h1] at hr'; subst hr'; exact ⟨Or.inl h1, by simp⟩
  rw [if_neg h1, rstIn] at hr'
  generalize pre t g o = u at *
  have other : (if g.seq ≠ u.ack then
      if o.space ≠ 0 ∧ seqLeq u.ack g.seq = true ∧ seqLt g.seq (seqInc u.ack o.space) = true then (u, [Ev.ack k]) else (u, [])
      else (closeSock u, [])) = r → (r.1.st = .listen ∨ r.1.st = .closed ∨ (r.1.seq = t.seq ∧ r.1.una = t.una)) ∧ ∀ e ∈ r.2, e = .ack k := by
    intro h; subst h
    (repeat' split) <;> first | exact ⟨Or.inr (Or.inr ⟨p3, p4⟩), by simp⟩ | exact ⟨Or.inr (Or.inl (closeSock_st _)), by simp⟩
  cases hx : u.st <;> rw [hx] at hr' <;> simp only at hr'
  case listen => subst hr'; exact ⟨Or.inl hx, by simp⟩
  case synRcvd =>
    subst hr'
    (repeat' split) <;> first | exact ⟨Or.inr (Or.inr ⟨p3, p4⟩), by simp⟩ | exact ⟨Or.inl rfl, by simp⟩ | exact ⟨Or.inr (Or.inl rfl), by simp⟩ | exact ⟨Or.inr (Or.inl (closeSock_st _)), by simp⟩
  case synSent =>
    subst hr'
    (repeat' split) <;> first | exact ⟨Or.inr (Or.inr ⟨p3, p4⟩), by simp⟩ | exact ⟨Or.inr (Or.inl (closeSock_st _)), by simp⟩
  all_goals exact other hr'

theorem resetReply_rst (g : Seg) (e : Ev) (h : e ∈ resetReply g) : ∃ r, e = .rst r := by
  rw [resetReply] at h
  (repeat' split at h) <;> simp at h <;> exact ⟨_, h⟩

/-- A SYN sent while a segment is processed: by the slot itself, from LISTEN (a new number) or SYN_RCVD (repeated). -/
theorem seg_syn (s : St) (g : Seg) (o : Nat → Orc) (k n : Nat) (h : Ev.syn k n ∈ (input s g o).1) :
    ∃ (t t' : Sock), s.socks[k]? = some t ∧ (input s g o).2.socks[k]? = some t' ∧ t'.st = .synRcvd ∧
      ((t.st = .listen ∧ t'.seq = n ∧ t'.una = n ∧ n = (o k).rnd) ∨ (t.st = .synRcvd ∧ n = t.seq ∧ t'.seq = t.seq ∧ t'.una = t.una)) := by
  rcases (input_slot s g o).2.2.2.2 _ h with ⟨j, t, s1, h1, h2, h3, h4, h5, h6⟩ | ⟨h1, _⟩
  · have hb : ¬ g.bad := by intro c; rw [sockIn, if_pos c] at h6; simp at h6
    cases hr : g.rst with
    | true =>
      rw [sockIn_rst s1 j t g (o j) hr hb] at h6
      have := (rstAns_numbers j t g (o j)).2 _ h6
      simp at this
    | false =>
      have hn := sockIn_next s1 j t g (o j) hr
      generalize hq : (sockIn s1 j t g (o j)).1 = t' at hn h5
      generalize hq' : (sockIn s1 j t g (o j)).2.1 = evs at hn h6
      cases hn with
      | stay _ a b c d =>
        rcases d _ h6 with d | ⟨d1, d2⟩ | ⟨d, _⟩ | ⟨d, _⟩
        · simp at d
        · simp at d1; obtain ⟨d3, d4⟩ := d1; subst d3
          exact ⟨t, t', h1, h5, by rw [b, d2], Or.inr ⟨d2, d4, (c (Or.inr d2)).1, (c (Or.inr d2)).2⟩⟩
        · simp at d
        · obtain ⟨r, hr⟩ := resetReply_rst g _ d; simp at hr
      | syn rnd a1 a2 a3 a4 a5 a6 a7 a8 =>
        simp at h6
        obtain ⟨d3, d4⟩ := h6
        subst d3
        refine ⟨t, t', h1, h5, a6, Or.inl ⟨a1, by rw [a8.1, d4], by rw [a8.2.1, d4], ?_⟩⟩
        -- the number is the random one
        have : Ev.syn k n ∈ (sockIn s1 k t g (o k)).2.1 := by rw [hq', d4]; simp
        rw [sockIn, if_neg hb, if_neg (by simp [hr]), if_neg (by simp [a3])] at this
        simp only at this
        have p2 := (pre_spec t g (o k)).2.1
        rw [show pre t g (o k) = (let t := if g.syn = true ∧ (t.st = .listen ∨ t.st = .synSent) then { t with mss := (o k).mss } else t
            if g.rst = false ∧ (o k).winUp = true then { t with evW := true } else t) from rfl] at p2
        simp only at p2
        generalize (if g.rst = false ∧ (o k).winUp = true then { (if g.syn = true ∧ (t.st = .listen ∨ t.st = .synSent) then { t with mss := (o k).mss } else t) with evW := true }
            else (if g.syn = true ∧ (t.st = .listen ∨ t.st = .synSent) then { t with mss := (o k).mss } else t) : Sock) = u at p2 this
        rw [a1] at p2
        rw [if_neg (by simp [hr]), if_neg (by simp [p2]), if_pos ⟨a2, p2⟩, listenSyn] at this
        (repeat' split at this) <;> simp at this
        exact this
      | synAck _ a1 a2 a3 a4 a5 a6 a7 => have := a7 _ h6; simp at this
      | lastOfThree _ a1 a2 a3 a4 a5 a6 => have := a6 _ h6; simp at this
      | move _ a1 a2 a3 a4 => have := a4 _ h6; simp at this
      | done a1 a2 a3 a4 => simp at h6
  · obtain ⟨r, hr⟩ := resetReply_rst g _ h1; simp at hr

/-- Payload delivered while a segment is processed. -/
theorem seg_data (s : St) (g : Seg) (o : Nat → Orc) (k : Nat) (h : Ev.data k ∈ (input s g o).1) :
    ∃ t : Sock, s.socks[k]? = some t ∧ OfConn t g ∧ g.rst = false ∧ (canRecv t.st = true ∨ (t.st = .synRcvd ∧ g.ackF = true ∧ g.ack = seqInc t.una 1)) := by
  rcases (input_slot s g o).2.2.2.2 _ h with ⟨j, t, s1, h1, h2, h3, h4, h5, h6⟩ | ⟨h1, _⟩
  · have hb : ¬ g.bad := by intro c; rw [sockIn, if_pos c] at h6; simp at h6
    cases hr : g.rst with
    | true =>
      rw [sockIn_rst s1 j t g (o j) hr hb] at h6
      have := (rstAns_numbers j t g (o j)).2 _ h6
      simp at this
    | false =>
      have hn := sockIn_next s1 j t g (o j) hr
      generalize (sockIn s1 j t g (o j)).1 = t' at hn
      generalize (sockIn s1 j t g (o j)).2.1 = evs at hn h6
      have rc : ∀ x : TS, canRecv x = true → x.conn = true := by intro x hx; cases x <;> simp [canRecv] at hx <;> rfl
      cases hn with
      | stay _ a b c d =>
        rcases d _ h6 with d | ⟨d1, d2⟩ | ⟨d, d'⟩ | ⟨d, _⟩
        · simp at d
        · simp at d1
        · simp at d; subst d; exact ⟨t, h1, (hit_conn (rc _ d')).mp h2, rfl, Or.inl d'⟩
        · obtain ⟨r, hr⟩ := resetReply_rst g _ d; simp at hr
      | syn rnd a1 a2 a3 a4 a5 a6 a7 a8 => simp at h6
      | synAck _ a1 a2 a3 a4 a5 a6 a7 => have := a7 _ h6; simp at this
      | lastOfThree _ a1 a2 a3 a4 a5 a6 =>
        have := a6 _ h6; simp at this; subst this
        exact ⟨t, h1, (hit_conn (by rw [a2]; rfl)).mp h2, rfl, Or.inr ⟨a2, a3, a4⟩⟩
      | move _ a1 a2 a3 a4 =>
        have := a4 _ h6; simp at this; obtain ⟨this, d'⟩ := this; subst this
        exact ⟨t, h1, (hit_conn (rc _ d')).mp h2, rfl, Or.inl d'⟩
      | done a1 a2 a3 a4 => simp at h6
  · obtain ⟨r, hr⟩ := resetReply_rst g _ h1; simp at hr

/-- Handshake states. -/
def TS.half (x : TS) : Prop := x = .synSent ∨ x = .synRcvd

/-- A slot in a handshake state after a segment that sent no SYN for it was in it before, with the same numbers. -/
theorem seg_keep (s : St) (g : Seg) (o : Nat → Orc) (k : Nat) (t t' : Sock) (ht : s.socks[k]? = some t) (ht' : (input s g o).2.socks[k]? = some t')
    (hh : t'.st.half) (hno : ∀ n, Ev.syn k n ∉ (input s g o).1) : t.st.half ∧ t'.seq = t.seq ∧ t'.una = t.una := by
  rcases (input_slot s g o).2.2.2.1 k t ht with h1 | ⟨h1, s1, h2, h3, h4, h5⟩
  · rw [h1] at ht'; cases ht'; exact ⟨hh, rfl, rfl⟩
  · rw [h4] at ht'
    by_cases hb : g.bad
    · rw [sockIn, if_pos hb] at ht'; cases ht'; exact ⟨hh, rfl, rfl⟩
    cases hr : g.rst with
    | true =>
      rw [sockIn_rst s1 k t g (o k) hr hb] at ht'
      simp only at ht'
      cases ht'
      have hn := (rstAns_numbers k t g (o k)).1
      rcases hn with hn | hn | hn
      · rw [hn] at hh; rcases hh with hh | hh <;> simp at hh
      · rw [hn] at hh; rcases hh with hh | hh <;> simp at hh
      · refine ⟨?_, hn⟩
        by_cases q : (rstAns k t g (o k)).1.st = t.st
        · rw [← q]; exact hh
        · have := rstAns_edge k t g (o k) hr q
          rw [RstEdge.eq_def] at this
          rcases hh with hh | hh <;> rw [hh] at this <;> cases hx : t.st <;> rw [hx] at this <;> simp at this
    | false =>
      have hn := sockIn_next s1 k t g (o k) hr
      generalize (sockIn s1 k t g (o k)).1 = v at hn ht'
      cases ht'
      generalize (sockIn s1 k t g (o k)).2.1 = evs at hn h5
      cases hn with
      | stay _ a b c d =>
        rw [b] at hh; exact ⟨hh, c hh⟩
      | syn rnd a1 a2 a3 a4 a5 a6 a7 a8 => exact absurd (h5 (.syn k rnd) (by simp)) (hno rnd)
      | synAck _ a1 a2 a3 a4 a5 a6 a7 => rw [a6] at hh; rcases hh with hh | hh <;> simp at hh
      | lastOfThree _ a1 a2 a3 a4 a5 a6 => rcases a5 with a5 | ⟨a5, _⟩ <;> rw [a5] at hh <;> rcases hh with hh | hh <;> simp at hh
      | move _ a1 a2 a3 a4 =>
        rcases a3 with ⟨_, b2, _⟩ | ⟨_, b2, _⟩ | ⟨_, b2, _⟩ | ⟨_, b2, _⟩ | ⟨_, b2, _⟩ | ⟨_, b2, _⟩ <;> rw [b2] at hh <;> rcases hh with hh | hh <;> simp at hh
      | done a1 a2 a3 a4 =>
        have : t'.st = .closed := by
          rcases a4 with b | b
          · exact b.2.2.1
          · rw [b.2]
        rw [this] at hh; rcases hh with hh | hh <;> simp at hh

theorem rtoIn_half (k : Nat) (t : Sock) (o : TOrc) (h : (rtoIn k t o).1.st.half) : t.st.half ∧ (rtoIn k t o).1.seq = t.seq ∧ (rtoIn k t o).1.una = t.una := by
  by_cases q : (rtoIn k t o).1.st = t.st
  · refine ⟨by rw [← q]; exact h, ?_⟩
    have hc : (rtoIn k t o).1.st ≠ .closed ∧ (rtoIn k t o).1.st ≠ .listen := by rcases h with h | h <;> rw [h] <;> simp
    generalize hr : rtoIn k t o = r at *
    rw [rtoIn] at hr
    subst hr
    revert hc
    (repeat' split) <;> intro hc <;> first
      | exact ⟨rfl, rfl⟩
      | exact absurd (closeSock_st _) hc.1
      | exact absurd rfl hc.2
      | (rw [ctrlResend]; simp only; (repeat' split) <;> exact ⟨rfl, rfl⟩)
  · have := (rtoIn_edge k t o q).2
    rw [TimerEdge.eq_def] at this
    rcases h with h | h <;> rw [h] at this <;> cases hx : t.st <;> rw [hx] at this <;> simp at this

theorem rtoIn_syn (k : Nat) (t : Sock) (o : TOrc) (j n : Nat) (h : Ev.syn j n ∈ (rtoIn k t o).2) :
    j = k ∧ n = t.seq ∧ (rtoIn k t o).1.st.half := by
  generalize hr : rtoIn k t o = r at *
  rw [rtoIn] at hr
  subst hr
  revert h
  (repeat' split) <;> intro h <;> first
    | (simp at h; done)
    | (rename_i hx _
       rw [ctrlResend] at h ⊢
       simp only at h ⊢
       split at h
       · rename_i q
         rw [if_pos q]
         split at h
         · simp at h; exact ⟨h.1, h.2, q⟩
         · simp at h
       · split at h <;> simp at h)

/-- Only `connect`, `accept`, a segment and a timer send a SYN, and then the slot is in the handshake state with
that number (or `accept` failed and the slot is closed). -/
theorem step_syn (s : St) (h : Gh) (op : Op) (hw : op.wf) (hi : HInv s h) (k n : Nat) (he : Ev.syn k n ∈ (step s op).2.2) :
    ∀ t' : Sock, (step s op).1.socks[k]? = some t' → t'.st = .closed ∨ (t'.st.half ∧ t'.seq = n ∧ t'.una = n ∧ n < 4294967296) := by
  intro t' ht'
  cases op with
  | socket => simp [step] at he
  | bind => simp [step] at he
  | listen => simp [step] at he
  | connect j ip port fam veto sendOk rnd iss =>
    rw [step, connectOp] at he ht'
    cases hj : s.socks[j]? with
    | none => rw [hj] at he; simp at he
    | some u =>
      rw [hj] at he ht'
      simp only at he ht'
      (repeat' split at he) <;> simp at he
      rename_i c1 c2 c3 c4 c5 c6 c7 c8
      rw [if_neg c1, if_neg c2, if_neg c3, if_neg c4, if_neg c5, if_neg c6, if_neg c7, if_neg c8] at ht'
      obtain ⟨e1, e2⟩ := he
      subst e1
      rcases get_setSock s k _ k u t' hj ht' with ⟨a, _⟩ | ⟨_, a⟩
      · exact absurd rfl a
      · rw [a]; exact Or.inr ⟨Or.inl rfl, e2.symm, e2.symm, by rw [e2]; exact hw⟩
  | accept j veto sendOk rnd =>
    rw [step, acceptOp] at he ht'
    cases hj : s.socks[j]? with
    | none => rw [hj] at he; simp at he
    | some u =>
      rw [hj] at he ht'
      simp only at he ht'
      by_cases h1 : u.st = .est ∧ u.isL = true
      · rw [if_pos h1] at he; simp at he
      rw [if_neg h1] at he ht'
      by_cases h2 : u.st = .listen
      · rw [if_pos h2] at he; simp at he
      rw [if_neg h2] at he ht'
      by_cases h3 : u.st ≠ .synRcvd
      · rw [if_pos h3] at he; simp at he
      rw [if_neg h3] at he ht'
      have hsr : u.st = .synRcvd := by simpa using h3
      cases hf : freeSlot s with
      | none => rw [hf] at he; simp at he
      | some i =>
        rw [hf] at he ht'
        simp only at he ht'
        obtain ⟨v, hv, hvn⟩ := freeSlot_spec hf
        by_cases h4 : sendOk = false
        · rw [if_pos h4] at he; simp at he
        rw [if_neg h4] at he ht'
        have hu := (hi j u hj).1 (Or.inr hsr)
        have fin : ∀ w m : Sock, (setSock (setSock s j m) i w).socks[i]? = some t' → t' = w := by
          intro w m hget
          rw [setSock] at hget
          simp only at hget
          rw [get_set i (by rw [setSock]; simp only [List.length_set]; exact lt_of_get hv), if_pos rfl] at hget
          cases hget; rfl
        by_cases h5 : veto = true
        · rw [if_pos h5] at he ht'
          simp at he
          obtain ⟨e1, e2⟩ := he; subst e1
          rw [fin _ _ ht']; exact Or.inl (closeSock_st _)
        · rw [if_neg h5] at he ht'
          simp at he
          obtain ⟨e1, e2⟩ := he; subst e1
          rw [fin _ _ ht']
          have e3 : n = u.seq := e2
          exact Or.inr ⟨Or.inr rfl, e3.symm, e3.symm, by rw [e3]; exact hu.2.2⟩
  | close j sendOk =>
    rw [step, closeOp] at he
    (repeat' split at he) <;> simp at he
  | register j cb => simp [step] at he
  | send j m => simp [step] at he
  | reconf net => simp [step] at he
  | segment g o =>
    rw [step] at he ht'
    simp only at he ht'
    obtain ⟨t, t1, h1, h2, h3, h4⟩ := seg_syn s g o k n he
    rw [h2] at ht'; cases ht'
    rcases h4 with ⟨_, a, b, c⟩ | ⟨a, b, c, d⟩
    · exact Or.inr ⟨Or.inr h3, a, b, by rw [c]; exact hw.2 k⟩
    · have hu := (hi k t h1).1 (Or.inr a)
      exact Or.inr ⟨Or.inr h3, by rw [b, c], by rw [b, d, hu.1], by rw [b]; exact hu.2.2⟩
  | rto j o =>
    rw [step] at he ht'
    cases hj : s.socks[j]? with
    | none => rw [hj] at he; simp at he
    | some u =>
      rw [hj] at he ht'
      simp only at he ht'
      obtain ⟨e1, e2, e3⟩ := rtoIn_syn j u o k n he
      subst e1
      rcases get_setSock s k _ k u t' hj ht' with ⟨a, _⟩ | ⟨_, a⟩
      · exact absurd rfl a
      · rw [a]
        obtain ⟨f1, f2, f3⟩ := rtoIn_half k u o e3
        have hu := (hi k u hj).1 f1
        exact Or.inr ⟨e3, by rw [f2, e2], by rw [f3, e2, hu.1], by rw [e2]; exact hu.2.2⟩
  | icmp e => simp [step] at he
  | cbBegin j =>
    rw [step, cbBegin] at he
    (repeat' split at he) <;> simp at he
  | cbEnd => simp [step] at he

/-- Unless a SYN was sent for it, a slot in a handshake state was in one before with the same numbers. -/
theorem step_keep (s : St) (op : Op) (k : Nat) (t t' : Sock) (ht : s.socks[k]? = some t) (ht' : (step s op).1.socks[k]? = some t')
    (hh : t'.st.half) (hno : ∀ n, Ev.syn k n ∉ (step s op).2.2) : t.st.half ∧ t'.seq = t.seq ∧ t'.una = t.una := by
  have same : s.socks[k]? = some t' → t.st.half ∧ t'.seq = t.seq ∧ t'.una = t.una := by
    intro h; rw [ht] at h; cases h; exact ⟨hh, rfl, rfl⟩
  have put : ∀ (j : Nat) (w u : Sock), s.socks[j]? = some u → (setSock s j w).socks[k]? = some t' →
      (w.st.half → u.st.half ∧ w.seq = u.seq ∧ w.una = u.una) → t.st.half ∧ t'.seq = t.seq ∧ t'.una = t.una := by
    intro j w u hu hw hq
    rcases get_setSock s j w k t t' ht hw with ⟨_, h⟩ | ⟨h, h'⟩
    · subst h; exact ⟨hh, rfl, rfl⟩
    · subst h; rw [ht] at hu; cases hu; rw [h'] at hh ⊢; exact hq hh
  have closed : ∀ (w : Sock) (P : Prop), w.st = .closed → w.st.half → P := by
    intro w P h1 h2; rw [h1] at h2; rcases h2 with h2 | h2 <;> simp at h2
  have listen : ∀ (w : Sock) (P : Prop), w.st = .listen → w.st.half → P := by
    intro w P h1 h2; rw [h1] at h2; rcases h2 with h2 | h2 <;> simp at h2
  cases op with
  | socket =>
    rw [step, socketOp] at ht'
    cases hf : freeSlot s with
    | none => rw [hf] at ht'; exact same ht'
    | some j =>
      rw [hf] at ht'
      obtain ⟨u, hu, hun⟩ := freeSlot_spec hf
      exact put j _ u hu ht' (closed _ _ rfl)
  | bind j ip port fam veto =>
    rw [step, bindOp] at ht'
    cases hj : s.socks[j]? with
    | none => rw [hj] at ht'; exact same ht'
    | some u =>
      rw [hj] at ht'
      simp only at ht'
      repeat' split at ht'
      iterate 5 exact same ht'
      exact put j _ u hj ht' (fun h => ⟨h, rfl, rfl⟩)
  | listen j veto =>
    rw [step, listenOp] at ht'
    cases hj : s.socks[j]? with
    | none => rw [hj] at ht'; exact same ht'
    | some u =>
      rw [hj] at ht'
      simp only at ht'
      repeat' split at ht'
      · exact same ht'
      · exact put j _ u hj ht' (fun h => ⟨h, rfl, rfl⟩)
      · exact put j _ u hj ht' (listen _ _ rfl)
  | connect j ip port fam veto sendOk rnd iss =>
    rw [step, connectOp] at ht' hno
    cases hj : s.socks[j]? with
    | none => rw [hj] at ht'; exact same ht'
    | some u =>
      rw [hj] at ht' hno
      simp only at ht' hno
      by_cases h1 : u.st = .est
      · rw [if_pos h1] at ht'; exact same ht'
      rw [if_neg h1] at ht' hno
      by_cases h2 : u.st = .synSent
      · rw [if_pos h2] at ht'; exact same ht'
      rw [if_neg h2] at ht' hno
      by_cases h3 : fam = false
      · rw [if_pos h3] at ht'; exact same ht'
      rw [if_neg h3] at ht' hno
      by_cases h4 : u.st ≠ .closed
      · rw [if_pos h4] at ht'; exact same ht'
      rw [if_neg h4] at ht' hno
      have hcl : u.st = .closed := by simpa using h4
      by_cases h5 : Route.isBroadcast s.net ip = true ∨ isMcast ip = true
      · rw [if_pos h5] at ht'; exact same ht'
      rw [if_neg h5] at ht' hno
      by_cases h6 : u.blip ≠ 0 ∧ isLocal s.net u.blip = false
      · rw [if_pos h6] at ht'; exact same ht'
      rw [if_neg h6] at ht' hno
      by_cases h7 : veto = true
      · rw [if_pos h7] at ht'; exact put j _ u hj ht' (closed _ _ hcl)
      rw [if_neg h7] at ht' hno
      by_cases h8 : sendOk = false
      · rw [if_pos h8] at ht'; exact put j _ u hj ht' (closed _ _ hcl)
      rw [if_neg h8] at ht' hno
      rcases get_setSock s j _ k t t' ht ht' with ⟨_, h⟩ | ⟨h, h'⟩
      · subst h; exact ⟨hh, rfl, rfl⟩
      · subst h; exact absurd (by simp) (hno iss)
  | accept j veto sendOk rnd =>
    rw [step, acceptOp] at ht' hno
    cases hj : s.socks[j]? with
    | none => rw [hj] at ht'; exact same ht'
    | some u =>
      rw [hj] at ht' hno
      simp only at ht' hno
      by_cases h1 : u.st = .est ∧ u.isL = true
      · rw [if_pos h1] at ht'; exact put j _ u hj ht' (listen _ _ rfl)
      rw [if_neg h1] at ht' hno
      by_cases h2 : u.st = .listen
      · rw [if_pos h2] at ht'; exact same ht'
      rw [if_neg h2] at ht' hno
      by_cases h3 : u.st ≠ .synRcvd
      · rw [if_pos h3] at ht'; exact same ht'
      rw [if_neg h3] at ht' hno
      cases hf : freeSlot s with
      | none => rw [hf] at ht'; exact same ht'
      | some i =>
        rw [hf] at ht' hno
        simp only at ht' hno
        obtain ⟨v, hv, hvn⟩ := freeSlot_spec hf
        by_cases h4 : sendOk = false
        · rw [if_pos h4] at ht'; exact put i _ v hv ht' (closed _ _ (closeSock_st _))
        rw [if_neg h4] at ht' hno
        have two : ∀ m w : Sock, m.st = .listen → i ≠ k → (setSock (setSock s j m) i w).socks[k]? = some t' → t.st.half ∧ t'.seq = t.seq ∧ t'.una = t.una := by
          intro m w hm hik hget
          rw [setSock] at hget
          simp only at hget
          rw [List.getElem?_set_ne hik] at hget
          exact put j m u hj hget (listen _ _ hm)
        by_cases hik : i = k
        · exfalso
          subst hik
          by_cases h5 : veto = true
          · rw [if_pos h5] at hno; exact hno _ List.mem_cons_self
          · rw [if_neg h5] at hno; exact hno _ List.mem_cons_self
        · by_cases h5 : veto = true
          · rw [if_pos h5] at ht'; exact two _ _ rfl hik ht'
          · rw [if_neg h5] at ht'; exact two _ _ rfl hik ht'
  | close j sendOk =>
    rw [step, closeOp] at ht'
    cases hj : s.socks[j]? with
    | none => rw [hj] at ht'; exact same ht'
    | some u =>
      rw [hj] at ht'
      simp only at ht'
      have bad : ∀ (w : Sock) (P : Prop), (w.st = .fw1 ∨ w.st = .lastAck) → w.st.half → P := by
        intro w P h1 h2; rcases h1 with h1 | h1 <;> rw [h1] at h2 <;> rcases h2 with h2 | h2 <;> simp at h2
      cases hx : u.st <;> rw [hx] at ht' <;> simp only at ht'
      case est => split at ht'; exact same ht'; exact put j _ u hj ht' (bad _ _ (Or.inl rfl))
      case closeWait => split at ht'; exact same ht'; exact put j _ u hj ht' (bad _ _ (Or.inr rfl))
      case closing => exact same ht'
      case fw1 => exact same ht'
      case fw2 => exact same ht'
      all_goals exact put j _ u hj ht' (closed _ _ (closeSock_st _))
  | register j cb =>
    rw [step] at ht'
    cases hj : s.socks[j]? with
    | none => rw [hj] at ht'; exact same ht'
    | some u => rw [hj] at ht'; exact put j _ u hj ht' (fun h => ⟨h, rfl, rfl⟩)
  | send j n =>
    rw [step] at ht'
    cases hj : s.socks[j]? with
    | none => rw [hj] at ht'; exact same ht'
    | some u =>
      rw [hj] at ht'
      simp only at ht'
      split at ht'
      · rename_i q
        refine put j _ u hj ht' (fun h => ?_)
        have h' : u.st.half := h
        rcases q with q | q <;> rw [q] at h' <;> rcases h' with h' | h' <;> simp at h'
      · exact same ht'
  | reconf net => exact same ht'
  | segment g o => exact seg_keep s g o k t t' ht ht' hh hno
  | rto j o =>
    rw [step] at ht'
    cases hj : s.socks[j]? with
    | none => rw [hj] at ht'; exact same ht'
    | some u => rw [hj] at ht'; exact put j _ u hj ht' (rtoIn_half j u o)
  | icmp e =>
    rw [step, icmpIn] at ht'
    cases hf : s.socks.findIdx? (icmpHit e) with
    | none => rw [hf] at ht'; exact same ht'
    | some j =>
      rw [hf] at ht'
      rw [List.findIdx?_eq_some_iff_getElem] at hf
      obtain ⟨f1, f2, _⟩ := hf
      have hj : s.socks[j]? = some s.socks[j] := List.getElem?_eq_getElem f1
      simp only [getD_of_get hj] at ht'
      refine put j _ _ hj ht' ?_
      intro h
      generalize hq : icmpSock e s.socks[j] = w at h
      rw [icmpSock] at hq
      (repeat' split at hq) <;> first
        | (subst hq; exact ⟨h, rfl, rfl⟩)
        | (subst hq; exact closed _ _ (closeSock_st _) h)
  | cbBegin j =>
    rw [step, cbBegin] at ht'
    cases hj : s.socks[j]? with
    | none => rw [hj] at ht'; exact same ht'
    | some u =>
      rw [hj] at ht'
      simp only at ht'
      by_cases h1 : u.pend = true
      · rw [if_pos h1] at ht'; exact put j _ u hj ht' (closed _ _ rfl)
      · rw [if_neg h1] at ht'
        repeat' split at ht'
        iterate 3 exact same ht'
        exact put j _ u hj ht' (fun h => ⟨h, rfl, rfl⟩)
  | cbEnd =>
    rw [step, cbEnd] at ht'
    cases hc : s.inCb with
    | none => rw [hc] at ht'; exact same ht'
    | some j =>
      rw [hc] at ht'
      simp only at ht'
      cases hj : s.socks[j]? with
      | none => rw [hj] at ht'; exact same ht'
      | some u =>
        rw [hj] at ht'
        simp only at ht'
        split at ht'
        · exact put j _ u hj ht' (closed _ _ (closeSock_st _))
        · exact same ht'

/-- The predecessor of a synchronized state: synchronized, or a handshake that this very segment completes. -/
theorem into_sync (s : St) (op : Op) (k : Nat) (t t' : Sock) (ht : s.socks[k]? = some t) (ht' : (step s op).1.socks[k]? = some t') (hs : t'.st.sync = true) :
    t.st.sync = true ∨ ∃ g o, op = .segment g o ∧ OfConn t g ∧ g.rst = false ∧ g.ackF = true ∧
      ((t.st = .synSent ∧ synAckOk t g.ack = true) ∨ (t.st = .synRcvd ∧ g.ack = seqInc t.una 1)) := by
  by_cases hne : t'.st = t.st
  · left; rw [← hne]; exact hs
  have h := state_edges s op k t t' ht ht' hne
  generalize t'.st = x at h hs
  cases op with
  | segment g o =>
    obtain ⟨_, h2, h3⟩ := h
    rcases h3 with ⟨h3, h4⟩ | ⟨_, h4⟩
    · by_cases hh : t.st.half
      · right
        refine ⟨g, o, rfl, (hit_conn (by rcases hh with hh | hh <;> rw [hh] <;> rfl)).mp h2, h3, ?_⟩
        rw [SegEdge.eq_def] at h4
        rcases hh with hh | hh <;> rw [hh] at h4 <;> cases x <;> simp only at h4
        · exact ⟨h4.2.1, Or.inl ⟨hh, h4.2.2⟩⟩
        · exact ⟨h4.1, Or.inr ⟨hh, h4.2⟩⟩
        · exact ⟨h4.1, Or.inr ⟨hh, h4.2.1⟩⟩
      · left
        rw [SegEdge.eq_def] at h4
        cases hx : t.st <;> rw [hx] at h4 hh <;> first | rfl | (exact absurd (Or.inl rfl) hh) | (exact absurd (Or.inr rfl) hh) | skip
        all_goals cases x <;> simp [TS.sync] at hs <;> simp at h4
    · rw [RstEdge.eq_def] at h4
      cases hx : t.st <;> rw [hx] at h4 <;> cases x <;> simp [TS.sync] at hs <;> simp at h4
  | socket => rw [h.2] at hs; simp [TS.sync] at hs
  | bind => exact h.elim
  | listen j v => cases v with | true => exact h.elim | false => rw [h.2.2] at hs; simp [TS.sync] at hs
  | connect => rw [h.2.2] at hs; simp [TS.sync] at hs
  | accept => rcases h with h | h <;> first | (rw [h.2.1] at hs; simp [TS.sync] at hs; done) | (rcases h.2 with h | h <;> rw [h] at hs <;> simp [TS.sync] at hs)
  | close =>
    obtain ⟨_, h | h | h⟩ := h
    · left; rw [h.1]; rfl
    · left; rw [h.1]; rfl
    · rw [h.1] at hs; simp [TS.sync] at hs
  | register => exact h.elim
  | send => exact h.elim
  | reconf => exact h.elim
  | rto j o => obtain ⟨_, _, h⟩ := h; rw [TimerEdge.eq_def] at h; cases hx : t.st <;> rw [hx] at h <;> cases x <;> simp [TS.sync] at hs <;> simp at h
  | icmp => rw [h.2.1] at hs; simp [TS.sync] at hs
  | cbBegin => rw [h.2.2] at hs; simp [TS.sync] at hs
  | cbEnd => exact h.elim

/-- An acceptable acknowledgment in SYN_SENT is exactly ISS + 1. -/
theorem synAckOk_exact (t : Sock) (a : Nat) (hu : t.una = t.seq) (hs : t.seq < 4294967296) (ha : a < 4294967296) (h : synAckOk t a = true) :
    a = seqInc t.seq 1 := by
  rw [synAckOk, hu] at h
  unfold seqLt seqLeq seqInc at h
  unfold seqInc
  generalize t.seq = n at *
  simp only [Bool.and_eq_true, Bool.not_eq_true', Bool.and_eq_false_iff, bne_iff_ne, ne_eq, bne_eq_false_iff_eq] at h
  obtain ⟨⟨h1, h2⟩, h3⟩ := h
  split at h2 <;> simp only [decide_eq_true_eq] at h2 <;> split at h3 <;> split <;> rcases h3 with h3 | h3 <;>
    first | omega | (split at h3 <;> simp only [decide_eq_false_iff_not] at h3 <;> omega)

/-- Every slot exists before and after a step. -/
theorem step_length (s : St) (op : Op) : (step s op).1.socks.length = s.socks.length := by
  have set : ∀ (j : Nat) (w : Sock), (setSock s j w).socks.length = s.socks.length := by intro j w; rw [setSock]; simp
  cases op with
  | segment g o => exact (input_slot s g o).2.2.1
  | _ =>
    simp only [step, socketOp, bindOp, listenOp, connectOp, acceptOp, closeOp, icmpIn, cbBegin, cbEnd, setSock] <;> (repeat' split) <;> simp

theorem hinv_step (s : St) (h : Gh) (op : Op) (hw : op.wf) (hi : HInv s h) : HInv (step s op).1 (observe s op (step s op).2.2 h) := by
  intro k t' ht'
  have hk : k < s.socks.length := by rw [← step_length s op]; exact lt_of_get ht'
  have ht : s.socks[k]? = some s.socks[k] := List.getElem?_eq_getElem hk
  generalize s.socks[k] = t at ht
  refine ⟨?_, ?_⟩
  · intro hh
    cases hf : (step s op).2.2.findSome? (synOf k) with
    | some n =>
      rcases step_syn s h op hw hi k n (synOf_some hf) t' ht' with h1 | ⟨_, h2, h3, h4⟩
      · rw [h1] at hh; simp at hh
      · refine ⟨by rw [h2, h3], ?_, by rw [h2]; exact h4⟩
        simp only [observe]; rw [hf, h2]
    | none =>
      obtain ⟨h1, h2, h3⟩ := step_keep s op k t t' ht ht' hh (synOf_none hf)
      obtain ⟨q1, q2, q3⟩ := (hi k t ht).1 h1
      refine ⟨by rw [h2, h3, q1], ?_, by rw [h2]; exact q3⟩
      simp only [observe]; rw [hf, h2]; exact q2
  · intro hs
    refine ⟨?_, ?_⟩
    · cases hf : (step s op).2.2.findSome? (synOf k) with
      | none => rfl
      | some n =>
        rcases step_syn s h op hw hi k n (synOf_some hf) t' ht' with h1 | ⟨h1, _⟩
        · rw [h1] at hs; simp [TS.sync] at hs
        · rcases h1 with h1 | h1 <;> rw [h1] at hs <;> simp [TS.sync] at hs
    · rcases into_sync s op k t t' ht ht' hs with h1 | ⟨g, o, e, h2, h3, h4, h5⟩
      · exact Or.inl ((hi k t ht).2 h1)
      · right
        rcases h5 with ⟨a, b⟩ | ⟨a, b⟩
        · obtain ⟨q1, q2, q3⟩ := (hi k t ht).1 (Or.inl a)
          refine ⟨g, o, t, t.seq, e, ht, q2, h2, h3, h4, ?_⟩
          rw [e] at hw
          exact synAckOk_exact t g.ack q1 q3 hw.1 b
        · obtain ⟨q1, q2, q3⟩ := (hi k t ht).1 (Or.inr a)
          exact ⟨g, o, t, t.seq, e, ht, q2, h2, h3, h4, by rw [b, q1]⟩

/-- The observer along a history. -/
def watch (s : St) (h : Gh) : List Op → Gh
  | [] => h
  | op :: ops => watch (step s op).1 (observe s op (step s op).2.2 h) ops

/-- At the start nothing has been sent. -/
def gh0 : Gh := ⟨fun _ => none, fun _ => False⟩

theorem hinv_run (ops : List Op) : ∀ (s : St) (h : Gh), (∀ op ∈ ops, op.wf) → HInv s h → HInv (run s ops).1 (watch s h ops) := by
  induction ops with
  | nil => intro s h _ hi; exact hi
  | cons op ops ih =>
    intro s h hw hi
    exact ih _ _ (fun o ho => hw o (List.mem_cons_of_mem _ ho)) (hinv_step s h op (hw op List.mem_cons_self) hi)

theorem hinv_init (n : Nat) (net : Route.St) : HInv (init n net) gh0 := by
  intro k t ht
  have : t = {} := by
    have := List.mem_of_getElem? ht
    rw [init] at this
    exact (List.mem_replicate.mp this).2
  subst this
  exact ⟨fun h => by simp at h, fun h => by simp [TS.sync] at h⟩

/-- **C16, over histories.** In every history from the initial table, a slot is in ESTABLISHED or any later state
only if a segment of that connection acknowledged exactly the last SYN the stack sent for the slot. -/
theorem synchronized_implies_handshake (n : Nat) (net : Route.St) (ops : List Op) (hw : ∀ op ∈ ops, op.wf) (k : Nat) (t : Sock)
    (ht : (run (init n net) ops).1.socks[k]? = some t) (hs : t.st.sync = true) : (watch (init n net) gh0 ops).acked k :=
  (hinv_run ops _ _ hw (hinv_init n net) k t ht).2 hs

/-- **C16, over histories.** Whenever payload is handed to the receive buffer of slot `k`, a segment of that
connection (possibly the one carrying the payload) has acknowledged exactly the last SYN sent for the slot. -/
theorem data_only_after_handshake (n : Nat) (net : Route.St) (ops : List Op) (op : Op) (hw : ∀ o ∈ ops, o.wf) (hw' : op.wf) (k : Nat)
    (hd : Ev.data k ∈ (step (run (init n net) ops).1 op).2.2) : (watch (init n net) gh0 (ops ++ [op])).acked k := by
  have hi := hinv_run ops _ _ hw (hinv_init n net)
  have hwatch : ∀ (ops : List Op) (s : St) (h : Gh), watch s h (ops ++ [op]) = observe (run s ops).1 op (step (run s ops).1 op).2.2 (watch s h ops) := by
    intro ops
    induction ops with
    | nil => intro s h; rfl
    | cons o ops ih => intro s h; exact ih _ _
  rw [hwatch]
  generalize (run (init n net) ops).1 = s at *
  generalize watch (init n net) gh0 ops = h at *
  cases op with
  | segment g o =>
    have hd' : Ev.data k ∈ (input s g o).1 := hd
    obtain ⟨t, h1, h2, h3, h4⟩ := seg_data s g o k hd'
    have nosyn : (step s (.segment g o)).2.2.findSome? (synOf k) = none ∨ ¬ (canRecv t.st = true ∨ (t.st = .synRcvd ∧ g.ackF = true ∧ g.ack = seqInc t.una 1)) := by
      cases hf : (step s (.segment g o)).2.2.findSome? (synOf k) with
      | none => exact Or.inl rfl
      | some m =>
        right
        obtain ⟨u, u', a1, a2, a3, a4⟩ := seg_syn s g o k m (synOf_some hf)
        rw [h1] at a1; cases a1
        rcases h4 with h4 | h4
        · rcases a4 with a4 | a4 <;> rw [a4.1] at h4 <;> simp [canRecv] at h4
        · -- a SYN is repeated only for a segment without ACK
          exfalso
          rcases (input_slot s g o).2.2.2.2 _ (synOf_some hf : Ev.syn k m ∈ (input s g o).1) with ⟨j, t1, s1, b1, b2, b3, b4, b5, b6⟩ | ⟨b1, _⟩
          · have hn := sockIn_next s1 j t1 g (o j) h3
            have hjk : j = k := by
              generalize (sockIn s1 j t1 g (o j)).1 = v at hn
              generalize (sockIn s1 j t1 g (o j)).2.1 = evs at hn b6
              cases hn with
              | stay _ a b c d =>
                rcases d _ b6 with d | ⟨d1, d2⟩ | ⟨d, _⟩ | ⟨d, _⟩
                · simp at d
                · simp at d1; exact d1.1.symm
                · simp at d
                · obtain ⟨r, hr⟩ := resetReply_rst g _ d; simp at hr
              | syn rnd a1 a2 a3 a4 a5 a6 a7 a8 => simp at b6; exact b6.1.symm
              | synAck _ a1 a2 a3 a4 a5 a6 a7 => have := a7 _ b6; simp at this
              | lastOfThree _ a1 a2 a3 a4 a5 a6 => have := a6 _ b6; simp at this
              | move _ a1 a2 a3 a4 => have := a4 _ b6; simp at this
              | done a1 a2 a3 a4 => simp at b6
            subst hjk
            rw [h1] at b1; cases b1
            have hb : ¬ g.bad := by intro c; rw [sockIn, if_pos c] at b6; simp at b6
            obtain ⟨c1, c2, c3⟩ := h4
            rw [sockIn, if_neg hb, if_neg (by simp [h3]), if_neg (by simp [c1])] at b6
            simp only at b6
            have p2 := (pre_spec t g (o j)).2.1
            rw [show pre t g (o j) = (let t := if g.syn = true ∧ (t.st = .listen ∨ t.st = .synSent) then { t with mss := (o j).mss } else t
                if g.rst = false ∧ (o j).winUp = true then { t with evW := true } else t) from rfl] at p2
            simp only at p2
            generalize (if g.rst = false ∧ (o j).winUp = true then { (if g.syn = true ∧ (t.st = .listen ∨ t.st = .synSent) then { t with mss := (o j).mss } else t) with evW := true }
                else (if g.syn = true ∧ (t.st = .listen ∨ t.st = .synSent) then { t with mss := (o j).mss } else t) : Sock) = u at p2 b6
            rw [c1] at p2
            rw [if_neg (by simp [h3]), if_neg (by simp [p2]), if_neg (by simp [p2]), if_neg (by simp [p2]), bodyIn, p2] at b6
            simp only at b6
            rw [rcvdIn, if_neg (by simp [c2]), if_pos c2] at b6
            simp only at b6
            have rs := recvIn_spec j
            (repeat' split at b6) <;> first
              | (simp at b6; done)
              | (obtain ⟨r, hr⟩ := resetReply_rst g _ b6; simp at hr; done)
              | (simp only [List.mem_append, List.mem_singleton] at b6
                 rcases b6 with b6 | b6
                 · rcases (rs _ (o j)).2.2 _ b6 with ⟨q, _⟩ | q <;> simp at q
                 · simp at b6)
              | (rcases (rs _ (o j)).2.2 _ b6 with ⟨q, _⟩ | q <;> simp at q)
          · obtain ⟨r, hr⟩ := resetReply_rst g _ b1; simp at hr
    rcases nosyn with nosyn | c
    · refine ⟨nosyn, ?_⟩
      rcases h4 with h4 | ⟨a, b, c⟩
      · exact Or.inl ((hi k t h1).2 (by cases hx : t.st <;> rw [hx] at h4 <;> simp [canRecv] at h4 <;> rfl))
      · obtain ⟨q1, q2, q3⟩ := (hi k t h1).1 (Or.inr a)
        exact Or.inr ⟨g, o, t, t.seq, rfl, h1, q2, h2, h3, b, by rw [c, q1]⟩
    · exact absurd h4 c
  | connect j ip port fam veto sendOk rnd iss => rw [step, connectOp] at hd; (repeat' split at hd) <;> simp at hd
  | accept j veto sendOk rnd => rw [step, acceptOp] at hd; (repeat' split at hd) <;> simp at hd
  | close j sendOk => rw [step, closeOp] at hd; (repeat' split at hd) <;> simp at hd
  | rto j o =>
    rw [step] at hd
    split at hd
    · simp at hd
    · simp only at hd
      rw [rtoIn] at hd
      (repeat' split at hd) <;> first
        | (simp at hd; done)
        | (rw [ctrlResend] at hd; simp only at hd; (repeat' split at hd) <;> simp at hd)
  | cbBegin j => rw [step, cbBegin] at hd; (repeat' split at hd) <;> simp at hd
  | socket => simp [step] at hd
  | bind => simp [step] at hd
  | listen => simp [step] at hd
  | register => simp [step] at hd
  | send => simp [step] at hd
  | reconf => simp [step] at hd
  | icmp => simp [step] at hd
  | cbEnd => simp [step] at hd

/-- The hypotheses are met: a served connection reaches ESTABLISHED with a payload segment, and the observer agrees. -/
theorem handshake_example : (∀ op ∈ serve ++ [.segment synSeg orc1, .accept 0 false true 9, .segment { ackSeg with iplen := 50 } orc1], op.wf) ∧
    Ev.data 1 ∈ (run (init 2 net1) (serve ++ [.segment synSeg orc1, .accept 0 false true 9, .segment { ackSeg with iplen := 50 } orc1])).2 := by
  refine ⟨?_, by decide +kernel⟩
  intro op ho
  simp only [serve, List.cons_append, List.nil_append, List.mem_cons, List.not_mem_nil, or_false] at ho
  rcases ho with h | h | h | h | h | h | h <;> subst h <;> simp [Op.wf, synSeg, ackSeg, orc1]

end Wolf.Sock
