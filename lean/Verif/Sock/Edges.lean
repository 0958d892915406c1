import Verif.Sock.Reset
import Verif.Sock.Run
/-!
# C16: the state diagram

`Allowed k t op x`: the operation `op` may move slot `k`, now `t`, to the different state `x`. This is the whole
diagram, with the condition on the segment for every edge a segment causes.
-/
namespace Wolf.Sock
open Wolf.Tcp (seqInc seqLt seqLeq)
open Wolf.Route (Ip)

/-- The edges a segment without RST may cause. -/
def SegEdge (net : Route.St) (t : Sock) (g : Seg) (x : TS) : Prop :=
  match t.st, x with
  | .listen, .synRcvd => g.syn = true ∧ g.ackF = false ∧ (t.blip = 0 ∨ t.blip = g.dst) ∧ isLocal net g.dst = true
  | .synSent, .est => g.syn = true ∧ g.ackF = true ∧ synAckOk t g.ack = true
  | .synRcvd, .est => g.ackF = true ∧ g.ack = seqInc t.una 1
  | .synRcvd, .closeWait => g.ackF = true ∧ g.ack = seqInc t.una 1 ∧ g.fin = true
  | .est, .closeWait => g.ackF = true ∧ g.fin = true
  | .fw1, .fw2 => g.ackF = true ∧ seqLeq (seqInc t.last 1) g.ack = true
  | .fw1, .closing => g.ackF = true ∧ g.fin = true
  | .fw1, .timeWait => g.ackF = true ∧ g.fin = true ∧ seqLeq (seqInc t.last 1) g.ack = true
  | .fw2, .timeWait => g.ackF = true ∧ g.fin = true
  | .closing, .timeWait => g.ackF = true ∧ seqLeq (seqInc t.last 1) g.ack = true
  | .lastAck, .closed => g.ackF = true ∧ seqLeq (seqInc t.last 1) g.ack = true
  | _, _ => False

/-- The edges a RST may cause. -/
def RstEdge (t : Sock) (g : Seg) (x : TS) : Prop :=
  match t.st, x with
  | .synRcvd, .listen => t.isL = true ∧ g.seq = t.ack
  | .synRcvd, .closed => t.isL = false ∧ g.seq = t.ack
  | .synSent, .closed => g.ackF = true ∧ synAckOk t g.ack = true
  | .listen, _ => False
  | .closed, _ => False
  | _, .closed => g.seq = t.ack
  | _, _ => False

/-- The edges a timer may cause. -/
def TimerEdge (t : Sock) (x : TS) : Prop :=
  match t.st, x with
  | .est, .listen => t.isL = true
  | .synRcvd, .listen => t.isL = true
  | .synRcvd, .closed => t.isL = false
  | .synSent, .closed | .est, .closed | .fw1, .closed | .fw2, .closed | .lastAck, .closed => True
  | _, _ => False

/-- The state diagram: who may move a slot from its state to another state `x`. -/
def Allowed (net : Route.St) (k : Nat) (t : Sock) (op : Op) (x : TS) : Prop :=
  match op with
  | .socket => t.used = false ∧ x = .closed
  | .listen j false => j = k ∧ t.st = .closed ∧ x = .listen
  | .connect j _ _ _ _ _ _ _ => j = k ∧ t.st = .closed ∧ x = .synSent
  | .accept j _ _ _ => (j = k ∧ x = .listen ∧ (t.st = .synRcvd ∨ (t.st = .est ∧ t.isL = true))) ∨ (t.used = false ∧ (x = .synRcvd ∨ x = .closed))
  | .close j _ => j = k ∧
    ((t.st = .est ∧ x = .fw1) ∨ (t.st = .closeWait ∧ x = .lastAck) ∨
     (x = .closed ∧ (t.st = .listen ∨ t.st = .synSent ∨ t.st = .synRcvd ∨ t.st = .timeWait ∨ t.st = .lastAck)))
  | .segment g _ => ¬ g.bad ∧ hit t g ∧ ((g.rst = false ∧ SegEdge net t g x) ∨ (g.rst = true ∧ RstEdge t g x))
  | .rto j _ => j = k ∧ t.used = true ∧ TimerEdge t x
  | .icmp e => icmpHit e t = true ∧ x = .closed ∧ (t.st = .synSent ∨ t.st = .synRcvd)
  | .cbBegin j => j = k ∧ t.pend = true ∧ x = .closed
  | _ => False

theorem Next.edge {s : St} {i : Nat} {t t' : Sock} {g : Seg} {evs : List Ev} (h : Next s i t g t' evs) (hne : t'.st ≠ t.st) : SegEdge s.net t g t'.st := by
  cases h with
  | stay _ a b c d => exact absurd b hne
  | syn rnd a1 a2 a3 a4 a5 a6 a7 a8 => rw [SegEdge.eq_def, a1, a6]; exact ⟨a2, a3, a4, a5⟩
  | synAck _ a1 a2 a3 a4 a5 a6 a7 => rw [SegEdge.eq_def, a2, a6]; exact ⟨a3, a4, a5⟩
  | lastOfThree _ a1 a2 a3 a4 a5 a6 =>
    rcases a5 with a5 | ⟨a5, a6⟩
    · rw [SegEdge.eq_def, a2, a5]; exact ⟨a3, a4⟩
    · rw [SegEdge.eq_def, a2, a5]; exact ⟨a3, a4, a6⟩
  | move _ a1 a2 a3 a4 =>
    rcases a3 with ⟨b1, b2, b3⟩ | ⟨b1, b2, b3⟩ | ⟨b1, b2, b3⟩ | ⟨b1, b2, b3, b4⟩ | ⟨b1, b2, b3⟩ | ⟨b1, b2, b3⟩
    · rw [SegEdge.eq_def, b1, b2]; exact ⟨a2, b3⟩
    · rw [SegEdge.eq_def, b1, b2]; exact ⟨a2, b3⟩
    · rw [SegEdge.eq_def, b1, b2]; exact ⟨a2, b3⟩
    · rw [SegEdge.eq_def, b1, b2]; exact ⟨a2, b3, b4⟩
    · rw [SegEdge.eq_def, b1, b2]; exact ⟨a2, b3⟩
    · rw [SegEdge.eq_def, b1, b2]; exact ⟨a2, b3⟩
  | done a1 a2 a3 a4 =>
    have : t'.st = .closed := by
      rcases a4 with b | b
      · exact b.2.2.1
      · rw [b.2]
    rw [SegEdge.eq_def, a1, this]; exact ⟨a2, a3⟩

theorem closeSock_st (t : Sock) : (closeSock t).st = .closed := by rw [closeSock]; split <;> rfl

theorem rstAns_edge (k : Nat) (t : Sock) (g : Seg) (o : Orc) (hr : g.rst = true) (hne : (rstAns k t g o).1.st ≠ t.st) : RstEdge t g (rstAns k t g o).1.st := by
  obtain ⟨p1, p2, p3, p4, p5, p6, p7⟩ := pre_spec t g o
  generalize hr' : rstAns k t g o = r at hne ⊢
  rw [rstAns] at hr'
  by_cases h1 : t.st = .listen
  · rw [if_pos h1] at hr'; subst hr'; exact absurd rfl hne
  rw [if_neg h1, rstIn] at hr'
  generalize pre t g o = u at *
  have sync : ∀ x : TS, t.st = x → x.sync = true → (if g.seq ≠ u.ack then
      if o.space ≠ 0 ∧ seqLeq u.ack g.seq = true ∧ seqLt g.seq (seqInc u.ack o.space) = true then (u, [Ev.ack k]) else (u, [])
      else (closeSock u, [])) = r → RstEdge t g r.1.st := by
    intro x hx hs hr'
    by_cases h2 : g.seq ≠ u.ack
    · rw [if_pos h2] at hr'
      exact absurd (by subst hr'; split <;> exact p2) hne
    · rw [if_neg h2] at hr'
      subst hr'
      have : g.seq = t.ack := by rw [← p5]; simpa using h2
      simp only
      rw [closeSock_st]; unfold RstEdge; rw [hx]
      cases x <;> simp [TS.sync] at hs <;> exact this
  cases hx : u.st <;> rw [hx] at hr' <;> simp only at hr'
  case listen => rw [p2] at hx; exact absurd hx h1
  case synRcvd =>
    rw [p2] at hx
    by_cases h2 : g.seq ≠ u.ack
    · rw [if_pos h2] at hr'; subst hr'; exact absurd p2 hne
    rw [if_neg h2] at hr'
    have hs : g.seq = t.ack := by rw [← p5]; simpa using h2
    by_cases h3 : u.isL = true
    · rw [if_pos h3] at hr'; subst hr'; rw [RstEdge.eq_def, hx]; exact ⟨by rw [← p1.isL]; exact h3, hs⟩
    rw [if_neg h3] at hr'
    have : r.1.st = .closed := by
      by_cases h4 : u.cb ≠ none
      · rw [if_pos h4] at hr'; subst hr'; rfl
      · rw [if_neg h4] at hr'; subst hr'; exact closeSock_st _
    rw [RstEdge.eq_def, hx, this]; exact ⟨by rw [← p1.isL]; simpa using h3, hs⟩
  case synSent =>
    rw [p2] at hx
    by_cases h2 : g.ackF = false
    · rw [if_pos h2] at hr'; subst hr'; exact absurd p2 hne
    rw [if_neg h2] at hr'
    by_cases h3 : synAckOk u g.ack = true
    · rw [if_pos h3] at hr'; subst hr'; simp only
      rw [RstEdge.eq_def, hx, closeSock_st]
      exact ⟨by simpa using h2, by rw [synAckOk, ← p3, ← p4]; exact h3⟩
    · rw [if_neg h3] at hr'; subst hr'; exact absurd p2 hne
  case closed =>
    rw [p2] at hx
    by_cases h2 : g.seq ≠ u.ack
    · rw [if_pos h2] at hr'; exact absurd (by subst hr'; split <;> exact p2) hne
    · rw [if_neg h2] at hr'; subst hr'; exact absurd (by rw [hx]; exact closeSock_st u) hne
  all_goals exact sync _ (p2.symm.trans hx) rfl hr'

theorem rtoIn_edge (k : Nat) (t : Sock) (o : TOrc) (hne : (rtoIn k t o).1.st ≠ t.st) : t.used = true ∧ TimerEdge t (rtoIn k t o).1.st := by
  generalize hr : rtoIn k t o = r at hne ⊢
  rw [rtoIn] at hr
  by_cases h0 : t.used = false
  · rw [if_pos h0] at hr; subst hr; exact absurd rfl hne
  rw [if_neg h0] at hr
  refine ⟨by simpa using h0, ?_⟩
  by_cases h1 : t.fw2t = true
  · rw [if_pos h1] at hr
    by_cases h2 : t.st ≠ .fw2
    · rw [if_pos h2] at hr; subst hr; exact absurd rfl hne
    · rw [if_neg h2] at hr; subst hr; simp only; rw [TimerEdge.eq_def, closeSock_st, show t.st = .fw2 by simpa using h2]; trivial
  rw [if_neg h1] at hr
  by_cases h2 : t.preT = true
  · rw [if_pos h2] at hr
    by_cases h3 : t.st ≠ .est ∨ t.isL = false
    · rw [if_pos h3] at hr; subst hr; exact absurd rfl hne
    · rw [if_neg h3] at hr; subst hr
      have h4 : t.st = .est := Classical.byContradiction (fun c => h3 (Or.inl c))
      simp only; rw [TimerEdge.eq_def, h4]
      show t.isL = true
      cases hx : t.isL with
      | true => rfl
      | false => exact absurd (Or.inr hx) h3
  rw [if_neg h2] at hr
  by_cases h3 : needsRto t o
  · rw [if_pos h3] at hr
    by_cases h4 : t.retries ≥ ctrlMax
    · rw [if_pos h4] at hr
      by_cases h5 : t.isL = true ∧ t.st = .synRcvd
      · rw [if_pos h5] at hr; subst hr; simp only; rw [TimerEdge.eq_def, h5.2]; exact h5.1
      · rw [if_neg h5] at hr; subst hr; simp only; rw [TimerEdge.eq_def, closeSock_st]
        rcases h3 with h | h | h | h
        · rw [h]; trivial
        · rw [h]; show t.isL = false; cases hx : t.isL with | false => rfl | true => exact absurd ⟨hx, h⟩ h5
        · rw [h]; trivial
        · rw [h.1]; trivial
    · rw [if_neg h4] at hr; subst hr
      exact absurd (by rw [ctrlResend]; simp only; (repeat' split) <;> rfl) hne
  rw [if_neg h3] at hr
  by_cases h4 : t.ctrl = true
  · rw [if_pos h4] at hr; subst hr; exact absurd rfl hne
  rw [if_neg h4] at hr
  by_cases h5 : t.st ≠ .est ∧ t.st ≠ .fw1
  · rw [if_pos h5] at hr; subst hr; exact absurd rfl hne
  rw [if_neg h5] at hr
  by_cases h6 : o.giveUp = true
  · rw [if_pos h6] at hr; subst hr; simp only; rw [TimerEdge.eq_def, closeSock_st]
    by_cases q : t.st = .est
    · rw [q]; trivial
    · rw [show t.st = .fw1 from Classical.byContradiction (fun c => h5 ⟨q, c⟩)]; trivial
  · rw [if_neg h6] at hr; subst hr; exact absurd rfl hne

/-- Reading a slot of `setSock`. -/
theorem get_setSock (s : St) (j : Nat) (u : Sock) (k : Nat) (t t' : Sock) (ht : s.socks[k]? = some t) (ht' : (setSock s j u).socks[k]? = some t') :
    (j ≠ k ∧ t' = t) ∨ (j = k ∧ t' = u) := by
  rw [setSock] at ht'
  simp only at ht'
  by_cases h : j = k
  · subst h; rw [get_set j (lt_of_get ht), if_pos rfl] at ht'; cases ht'; exact Or.inr ⟨rfl, rfl⟩
  · rw [List.getElem?_set_ne h, ht] at ht'; cases ht'; exact Or.inl ⟨h, rfl⟩

theorem freeSlot_spec {s : St} {j : Nat} (h : freeSlot s = some j) : ∃ u : Sock, s.socks[j]? = some u ∧ u.used = false := by
  rw [freeSlot, List.findIdx?_eq_some_iff_getElem] at h
  obtain ⟨h1, h2, _⟩ := h
  exact ⟨s.socks[j], List.getElem?_eq_getElem h1, by simpa using h2⟩

/-- **C16.** Whatever happens, the state of a slot changes only along the edges of the diagram, each only by the
causes and under the conditions listed there. -/
theorem state_edges (s : St) (op : Op) (k : Nat) (t t' : Sock) (ht : s.socks[k]? = some t) (ht' : (step s op).1.socks[k]? = some t') (hne : t'.st ≠ t.st) :
    Allowed s.net k t op t'.st := by
  have same : s.socks[k]? = some t' → False := fun h => by rw [ht] at h; cases h; exact hne rfl
  cases op with
  | socket =>
    rw [step, socketOp] at ht'
    cases hf : freeSlot s with
    | none => rw [hf] at ht'; exact (same ht').elim
    | some j =>
      rw [hf] at ht'
      obtain ⟨u, hu, hun⟩ := freeSlot_spec hf
      rcases get_setSock s j _ k t t' ht ht' with ⟨_, h⟩ | ⟨h, h'⟩
      · exact absurd (by rw [h]) hne
      · subst h; rw [ht] at hu; cases hu; rw [h']; exact ⟨hun, rfl⟩
  | bind j ip port fam veto =>
    rw [step, bindOp] at ht'
    cases hj : s.socks[j]? with
    | none => rw [hj] at ht'; exact (same ht').elim
    | some u =>
      rw [hj] at ht'
      simp only at ht'
      repeat' split at ht'
      iterate 5 exact (same ht').elim
      rcases get_setSock s j _ k t t' ht ht' with ⟨_, h⟩ | ⟨h, h'⟩
      · exact absurd (by rw [h]) hne
      · subst h; rw [ht] at hj; cases hj; exact absurd (by rw [h']) hne
  | listen j veto =>
    rw [step, listenOp] at ht'
    cases hj : s.socks[j]? with
    | none => rw [hj] at ht'; exact (same ht').elim
    | some u =>
      rw [hj] at ht'
      simp only at ht'
      by_cases h1 : u.st ≠ .closed
      · rw [if_pos h1] at ht'; exact (same ht').elim
      rw [if_neg h1] at ht'
      cases veto with
      | true =>
        rcases get_setSock s j _ k t t' ht ht' with ⟨_, h⟩ | ⟨h, h'⟩
        · exact absurd (by rw [h]) hne
        · subst h; rw [ht] at hj; cases hj; exact absurd (by rw [h']) hne
      | false =>
        rcases get_setSock s j _ k t t' ht ht' with ⟨_, h⟩ | ⟨h, h'⟩
        · exact absurd (by rw [h]) hne
        · subst h; rw [ht] at hj; cases hj; rw [h']; exact ⟨rfl, by simpa using h1, rfl⟩
  | connect j ip port fam veto sendOk rnd iss =>
    rw [step, connectOp] at ht'
    cases hj : s.socks[j]? with
    | none => rw [hj] at ht'; exact (same ht').elim
    | some u =>
      rw [hj] at ht'
      simp only at ht'
      by_cases h1 : u.st = .est
      · rw [if_pos h1] at ht'; exact (same ht').elim
      rw [if_neg h1] at ht'
      by_cases h2 : u.st = .synSent
      · rw [if_pos h2] at ht'; exact (same ht').elim
      rw [if_neg h2] at ht'
      by_cases h3 : fam = false
      · rw [if_pos h3] at ht'; exact (same ht').elim
      rw [if_neg h3] at ht'
      by_cases h4 : u.st ≠ .closed
      · rw [if_pos h4] at ht'; exact (same ht').elim
      rw [if_neg h4] at ht'
      have hcl : u.st = .closed := by simpa using h4
      repeat' split at ht'
      · exact (same ht').elim
      · exact (same ht').elim
      all_goals
        rcases get_setSock s j _ k t t' ht ht' with ⟨_, h⟩ | ⟨h, h'⟩
        · exact absurd (by rw [h]) hne
        · subst h; rw [ht] at hj; cases hj
          first
          | (exact absurd (by rw [h']; rfl) hne)
          | (rw [h']; exact ⟨rfl, hcl, rfl⟩)
  | accept j veto sendOk rnd =>
    rw [step, acceptOp] at ht'
    cases hj : s.socks[j]? with
    | none => rw [hj] at ht'; exact (same ht').elim
    | some u =>
      rw [hj] at ht'
      simp only at ht'
      by_cases h1 : u.st = .est ∧ u.isL = true
      · rw [if_pos h1] at ht'
        rcases get_setSock s j _ k t t' ht ht' with ⟨_, h⟩ | ⟨h, h'⟩
        · exact absurd (by rw [h]) hne
        · subst h; rw [ht] at hj; cases hj; rw [h']; exact Or.inl ⟨rfl, rfl, Or.inr h1⟩
      rw [if_neg h1] at ht'
      by_cases h2 : u.st = .listen
      · rw [if_pos h2] at ht'; exact (same ht').elim
      rw [if_neg h2] at ht'
      by_cases h3 : u.st ≠ .synRcvd
      · rw [if_pos h3] at ht'; exact (same ht').elim
      rw [if_neg h3] at ht'
      have hsr : u.st = .synRcvd := by simpa using h3
      cases hf : freeSlot s with
      | none => rw [hf] at ht'; exact (same ht').elim
      | some i =>
        rw [hf] at ht'
        simp only at ht'
        obtain ⟨v, hv, hvn⟩ := freeSlot_spec hf
        by_cases h4 : sendOk = false
        · rw [if_pos h4] at ht'
          rcases get_setSock s i _ k t t' ht ht' with ⟨_, h⟩ | ⟨h, h'⟩
          · exact absurd (by rw [h]) hne
          · subst h; rw [ht] at hv; cases hv; rw [h']; exact Or.inr ⟨hvn, Or.inr (closeSock_st _)⟩
        rw [if_neg h4] at ht'
        -- both remaining outcomes: first the listener, then the new slot
        have two : ∀ w : Sock, w.st = .closed ∨ w.st = .synRcvd →
            (setSock (setSock s j { u with evR := false, st := .listen, ctrl := false, retries := 0, seq := rnd, lip := if u.blip ≠ 0 then u.blip else u.lip }) i w).socks[k]? = some t' →
            Allowed s.net k t (.accept j veto sendOk rnd) t'.st := by
          intro w hw hget
          have hmid : ∃ m, (setSock s j { u with evR := false, st := .listen, ctrl := false, retries := 0, seq := rnd, lip := if u.blip ≠ 0 then u.blip else u.lip }).socks[k]? = some m := by
            refine ⟨_, List.getElem?_eq_getElem ?_⟩
            have := lt_of_get ht
            rw [setSock]; simp only [List.length_set]; exact this
          obtain ⟨m, hm⟩ := hmid
          rcases get_setSock _ i w k m t' hm hget with ⟨_, h⟩ | ⟨h, h'⟩
          · subst h
            rcases get_setSock s j _ k t t' ht hm with ⟨_, h⟩ | ⟨h, h'⟩
            · exact absurd (by rw [h]) hne
            · subst h; rw [ht] at hj; cases hj; rw [h']; exact Or.inl ⟨rfl, rfl, Or.inl hsr⟩
          · subst h; rw [ht] at hv; cases hv; rw [h']; exact Or.inr ⟨hvn, hw.symm⟩
        by_cases h5 : veto = true
        · rw [if_pos h5] at ht'; exact two _ (Or.inl (closeSock_st _)) ht'
        · rw [if_neg h5] at ht'; exact two _ (Or.inr rfl) ht'
  | close j sendOk =>
    rw [step, closeOp] at ht'
    cases hj : s.socks[j]? with
    | none => rw [hj] at ht'; exact (same ht').elim
    | some u =>
      rw [hj] at ht'
      simp only at ht'
      have put : ∀ w : Sock, (setSock s j w).socks[k]? = some t' → j = k ∧ t' = w ∧ u = t := by
        intro w hw
        rcases get_setSock s j w k t t' ht hw with ⟨_, h⟩ | ⟨h, h'⟩
        · exact absurd (by rw [h]) hne
        · subst h; rw [ht] at hj; cases hj; exact ⟨rfl, h', rfl⟩
      cases hx : u.st <;> rw [hx] at ht' <;> simp only at ht'
      case est =>
        by_cases h1 : sendOk = false
        · rw [if_pos h1] at ht'; exact (same ht').elim
        · rw [if_neg h1] at ht'; obtain ⟨p1, p2, p3⟩ := put _ ht'; rw [p2]; subst p3; exact ⟨p1, Or.inl ⟨hx, rfl⟩⟩
      case closeWait =>
        by_cases h1 : sendOk = false
        · rw [if_pos h1] at ht'; exact (same ht').elim
        · rw [if_neg h1] at ht'; obtain ⟨p1, p2, p3⟩ := put _ ht'; rw [p2]; subst p3; exact ⟨p1, Or.inr (Or.inl ⟨hx, rfl⟩)⟩
      case closing => exact (same ht').elim
      case fw1 => exact (same ht').elim
      case fw2 => exact (same ht').elim
      case closed =>
        obtain ⟨p1, p2, p3⟩ := put _ ht'; subst p3
        exact absurd (by rw [p2, hx]; exact closeSock_st _) hne
      all_goals
        obtain ⟨p1, p2, p3⟩ := put _ ht'; rw [p2]; subst p3
        refine ⟨p1, Or.inr (Or.inr ⟨closeSock_st _, ?_⟩)⟩
        simp [hx]
  | register j cb =>
    rw [step] at ht'
    cases hj : s.socks[j]? with
    | none => rw [hj] at ht'; exact (same ht').elim
    | some u =>
      rw [hj] at ht'
      rcases get_setSock s j _ k t t' ht ht' with ⟨_, h⟩ | ⟨h, h'⟩
      · exact absurd (by rw [h]) hne
      · subst h; rw [ht] at hj; cases hj; exact absurd (by rw [h']) hne
  | send j n =>
    rw [step] at ht'
    cases hj : s.socks[j]? with
    | none => rw [hj] at ht'; exact (same ht').elim
    | some u =>
      rw [hj] at ht'
      simp only at ht'
      split at ht'
      · rcases get_setSock s j _ k t t' ht ht' with ⟨_, h⟩ | ⟨h, h'⟩
        · exact absurd (by rw [h]) hne
        · subst h; rw [ht] at hj; cases hj; exact absurd (by rw [h']) hne
      · exact (same ht').elim
  | reconf net => exact (same ht').elim
  | segment g o =>
    rw [step] at ht'
    simp only at ht'
    rcases (input_slot s g o).2.2.2.1 k t ht with h1 | ⟨h1, s1, h2, h3, h4, h5⟩
    · rw [h1] at ht'; cases ht'; exact absurd rfl hne
    · rw [h4] at ht'
      cases ht'
      have hb : ¬ g.bad := by intro c; apply hne; rw [sockIn, if_pos c]
      refine ⟨hb, h1, ?_⟩
      cases hr : g.rst with
      | false => rw [← h3]; exact Or.inl ⟨rfl, (sockIn_next s1 k t g (o k) hr).edge hne⟩
      | true =>
        rw [sockIn_rst s1 k t g (o k) hr hb] at hne ⊢
        exact Or.inr ⟨rfl, rstAns_edge k t g (o k) hr hne⟩
  | rto j o =>
    rw [step] at ht'
    cases hj : s.socks[j]? with
    | none => rw [hj] at ht'; exact (same ht').elim
    | some u =>
      rw [hj] at ht'
      rcases get_setSock s j _ k t t' ht ht' with ⟨_, h⟩ | ⟨h, h'⟩
      · exact absurd (by rw [h]) hne
      · subst h; rw [ht] at hj; cases hj; rw [h'] at hne ⊢
        exact ⟨rfl, rtoIn_edge j t o hne⟩
  | icmp e =>
    rw [step, icmpIn] at ht'
    cases hf : s.socks.findIdx? (icmpHit e) with
    | none => rw [hf] at ht'; exact (same ht').elim
    | some j =>
      rw [hf] at ht'
      rw [List.findIdx?_eq_some_iff_getElem] at hf
      obtain ⟨f1, f2, _⟩ := hf
      have hj : s.socks[j]? = some s.socks[j] := List.getElem?_eq_getElem f1
      simp only [getD_of_get hj] at ht'
      rcases get_setSock s j _ k t t' ht ht' with ⟨_, h⟩ | ⟨h, h'⟩
      · exact absurd (by rw [h]) hne
      · subst h; rw [hj] at ht; cases ht; rw [h'] at hne ⊢
        rw [icmpSock] at hne ⊢
        by_cases q1 : e.unreach = false
        · rw [if_pos q1] at hne; exact absurd rfl hne
        rw [if_neg q1] at hne ⊢
        by_cases q2 : e.code = 4
        · rw [if_pos q2] at hne; exact absurd (by split <;> rfl) hne
        rw [if_neg q2] at hne ⊢
        by_cases q3 : e.code = 2 ∨ e.code = 3
        · rw [if_pos q3] at hne ⊢
          split at hne
          · rename_i q4; rw [if_pos q4]; exact ⟨f2, closeSock_st _, q4.1⟩
          · exact absurd rfl hne
        · rw [if_neg q3] at hne; exact absurd rfl hne
  | cbBegin j =>
    rw [step, cbBegin] at ht'
    cases hj : s.socks[j]? with
    | none => rw [hj] at ht'; exact (same ht').elim
    | some u =>
      rw [hj] at ht'
      simp only at ht'
      by_cases h1 : u.pend = true
      · rw [if_pos h1] at ht'
        rcases get_setSock s j _ k t t' ht ht' with ⟨_, h⟩ | ⟨h, h'⟩
        · exact absurd (by rw [h]) hne
        · subst h; rw [ht] at hj; cases hj; rw [h']; exact ⟨rfl, h1, rfl⟩
      · rw [if_neg h1] at ht'
        repeat' split at ht'
        iterate 3 exact (same ht').elim
        rcases get_setSock s j _ k t t' ht ht' with ⟨_, h⟩ | ⟨h, h'⟩
        · exact absurd (by rw [h]) hne
        · subst h; rw [ht] at hj; cases hj; exact absurd (by rw [h']) hne
  | cbEnd =>
    rw [step, cbEnd] at ht'
    cases hc : s.inCb with
    | none => rw [hc] at ht'; exact (same ht').elim
    | some j =>
      rw [hc] at ht'
      simp only at ht'
      cases hj : s.socks[j]? with
      | none => rw [hj] at ht'; exact (same ht').elim
      | some u =>
        rw [hj] at ht'
        simp only at ht'
        split at ht'
        · rename_i h1
          rcases get_setSock s j _ k t t' ht ht' with ⟨_, h⟩ | ⟨h, h'⟩
          · exact absurd (by rw [h]) hne
          · subst h; rw [ht] at hj; cases hj; exact absurd (by rw [h', h1]; exact closeSock_st _) hne
        · exact (same ht').elim

/-- **C16.** ESTABLISHED is entered only from SYN_SENT or SYN_RCVD, by a segment of the connection, without RST,
that acknowledges our SYN. -/
theorem established_only_after_handshake (s : St) (op : Op) (k : Nat) (t t' : Sock) (ht : s.socks[k]? = some t) (ht' : (step s op).1.socks[k]? = some t')
    (hn : t'.st = .est) (ho : t.st ≠ .est) :
    ∃ g o, op = .segment g o ∧ OfConn t g ∧ g.rst = false ∧ g.ackF = true ∧
      ((t.st = .synSent ∧ g.syn = true ∧ synAckOk t g.ack = true) ∨ (t.st = .synRcvd ∧ g.ack = seqInc t.una 1)) := by
  have h := state_edges s op k t t' ht ht' (by rw [hn]; exact fun c => ho c.symm)
  rw [hn] at h
  cases op with
  | segment g o =>
    obtain ⟨_, h2, h3⟩ := h
    refine ⟨g, o, rfl, ?_⟩
    rcases h3 with ⟨h3, h4⟩ | ⟨_, h4⟩
    · rw [SegEdge.eq_def] at h4
      cases hx : t.st <;> rw [hx] at h4 <;> simp only at h4
      · exact ⟨(hit_conn (by rw [hx]; rfl)).mp h2, h3, h4.2.1, Or.inl ⟨rfl, h4.1, h4.2.2⟩⟩
      · exact ⟨(hit_conn (by rw [hx]; rfl)).mp h2, h3, h4.1, Or.inr ⟨rfl, h4.2⟩⟩
    · rw [RstEdge.eq_def] at h4
      cases hx : t.st <;> rw [hx] at h4 <;> simp at h4
  | socket => exact absurd h.2 (by simp)
  | bind => exact h.elim
  | listen j v => cases v with | true => exact h.elim | false => exact absurd h.2.2 (by simp)
  | connect => exact absurd h.2.2 (by simp)
  | accept => rcases h with h | h <;> simp at h
  | close => simp [Allowed] at h
  | register => exact h.elim
  | send => exact h.elim
  | reconf => exact h.elim
  | rto j o => obtain ⟨_, _, h⟩ := h; rw [TimerEdge.eq_def] at h; cases hx : t.st <;> rw [hx] at h <;> simp at h
  | icmp => exact absurd h.2.1 (by simp)
  | cbBegin => exact absurd h.2.2 (by simp)
  | cbEnd => exact h.elim

end Wolf.Sock
