import Verif.Sock.Next
/-!
# C15: which RST segments have which effect

`src/wolfip.c` 5502–5571 inside the loop of `tcp_input`. The theorems are about `input`, the whole table, for every
table, segment and oracle.
-/
namespace Wolf.Sock
open Wolf.Tcp (seqInc seqLt seqLeq)
open Wolf.Route (Ip)

/-- What a well-formed RST does to a slot it belongs to. -/
def rstAns (k : Nat) (t : Sock) (g : Seg) (o : Orc) : Sock × List Ev :=
  if t.st = .listen then (t, []) else rstIn k (pre t g o) g o

theorem sockIn_rst (s : St) (k : Nat) (t : Sock) (g : Seg) (o : Orc) (hr : g.rst = true) (hb : ¬ g.bad) :
    sockIn s k t g o = ((rstAns k t g o).1, (rstAns k t g o).2, false) := by
  rw [sockIn, rstAns, if_neg hb]
  by_cases hl : t.st = .listen
  · rw [if_pos ⟨hl, hr⟩, if_pos hl]
  · rw [if_neg (fun c => hl c.1), if_neg (fun c => hl c.1), if_neg hl]
    show (if g.rst = true then ((rstIn k (pre t g o) g o).1, (rstIn k (pre t g o) g o).2, false) else _) = _
    rw [if_pos hr]

/-- With a well-formed RST the loop visits every slot. -/
theorem inputFrom_rst (g : Seg) (o : Nat → Orc) (hr : g.rst = true) (hb : ¬ g.bad) : ∀ (n i : Nat) (s : St) (k : Nat) (t : Sock),
    s.socks[k]? = some t → i ≤ k → k < i + n → hit t g →
    (inputFrom g o i n s).2.1.socks[k]? = some (rstAns k t g (o k)).1 ∧ ∀ e ∈ (rstAns k t g (o k)).2, e ∈ (inputFrom g o i n s).1 := by
  intro n
  induction n with
  | zero => intro i s k t _ h1 h2; omega
  | succ n ih =>
    intro i s k t ht h1 h2 hh
    rw [inputFrom]
    cases hi : s.socks[i]? with
    | none => have := lt_of_get ht; rw [List.getElem?_eq_none_iff] at hi; omega
    | some u =>
      simp only
      by_cases hu : hit u g
      · rw [if_pos hu, sockIn_rst s i u g (o i) hr hb]
        simp only [Bool.false_eq_true, if_false]
        have hil := lt_of_get hi
        by_cases hk : k = i
        · subst hk
          rw [hi] at ht; cases ht
          obtain ⟨_, _, _, q, _, _⟩ := inputFrom_slot g o n (k + 1) { s with socks := s.socks.set k (rstAns k t g (o k)).1 }
          refine ⟨?_, fun e he => List.mem_append_left _ he⟩
          rw [q k (by omega)]; simp only; rw [get_set k hil, if_pos rfl]
        · obtain ⟨q1, q2⟩ := ih (i + 1) { s with socks := s.socks.set i (rstAns i u g (o i)).1 } k t (by simp only; rw [get_set k hil, if_neg hk]; exact ht) (by omega) (by omega) hh
          exact ⟨q1, fun e he => List.mem_append_right _ (q2 e he)⟩
      · rw [if_neg hu]
        have hk : k ≠ i := by intro c; subst c; rw [hi] at ht; cases ht; exact hu hh
        exact ih (i + 1) s k t ht (by omega) (by omega) hh

/-- Synchronized states (RFC 9293): everything from ESTABLISHED on. -/
def TS.sync : TS → Bool
  | .est | .fw1 | .fw2 | .closing | .timeWait | .closeWait | .lastAck => true
  | _ => false

/-- The segment's addresses and ports are those of the connection (specification). -/
def OfConn (t : Sock) (g : Seg) : Prop :=
  t.used = true ∧ t.sport = g.dport ∧ t.dport = g.sport ∧ t.rip = g.src ∧ (t.lip = 0 ∨ t.lip = g.dst)

theorem hit_conn {t : Sock} {g : Seg} (hs : t.st.conn = true) : hit t g ↔ OfConn t g := by
  have : t.st ≠ .closed := by intro c; rw [c] at hs; simp [TS.conn] at hs
  constructor
  · rintro ⟨h1, _, h3, h4⟩; exact ⟨h1, h3, h4 hs⟩
  · rintro ⟨h1, h3, h4⟩; exact ⟨h1, fun c => this c.1, h3, fun _ => h4⟩

theorem sync_conn {x : TS} (h : x.sync = true) : x.conn = true := by cases x <;> simp [TS.sync] at h <;> rfl

theorem input_socks (s : St) (g : Seg) (o : Nat → Orc) : (input s g o).2 = (inputFrom g o 0 s.socks.length s).2.1 := by
  rw [input]; (repeat' split) <;> rfl

theorem input_evs (s : St) (g : Seg) (o : Nat → Orc) (e : Ev) (h : e ∈ (inputFrom g o 0 s.socks.length s).1) : e ∈ (input s g o).1 := by
  rw [input]; repeat' split
  · exact h
  · exact List.mem_append_left _ h
  · exact h

/-- A slot the segment does not belong to is not touched; neither is any slot by a malformed segment. -/
theorem input_miss (s : St) (g : Seg) (o : Nat → Orc) (k : Nat) (t : Sock) (ht : s.socks[k]? = some t) (h : ¬ hit t g ∨ g.bad) :
    (input s g o).2.socks[k]? = some t := by
  rcases (input_slot s g o).2.2.2.1 k t ht with h1 | ⟨h1, s1, h2, h3, h4, h5⟩
  · exact h1
  · rcases h with h | h
    · exact absurd h1 h
    · rw [h4, sockIn, if_pos h]

/-- A RST on a slot it belongs to. -/
theorem input_rst (s : St) (g : Seg) (o : Nat → Orc) (hr : g.rst = true) (hb : ¬ g.bad) (k : Nat) (t : Sock) (ht : s.socks[k]? = some t) (hh : hit t g) :
    (input s g o).2.socks[k]? = some (rstAns k t g (o k)).1 ∧ ∀ e ∈ (rstAns k t g (o k)).2, e ∈ (input s g o).1 := by
  obtain ⟨a, b⟩ := inputFrom_rst g o hr hb s.socks.length 0 s k t ht (by omega) (by have := lt_of_get ht; omega) hh
  rw [input_socks]
  exact ⟨a, fun e he => input_evs s g o e (b e he)⟩

/-- No slot remains of the connection: the state is CLOSED, and either the slot is free or it is only reserved for
the close notification. -/
def TornDown (t t' : Sock) : Prop :=
  t'.st = .closed ∧ (t.cb = none → t' = {}) ∧ (∀ c, t.cb = some c → t' = { used := true, cb := some c, evC := true, pend := true })

theorem closeSock_torn (t : Sock) (hu : t.used = true) : TornDown t (closeSock t) := by
  rw [closeSock]
  refine ⟨?_, ?_, ?_⟩
  · split <;> rfl
  · intro h; rw [if_neg (by simp [h])]
  · intro c h; rw [if_pos ⟨hu, by simp [h]⟩, h]

/-- **C15.** A RST segment and a slot in a synchronized state. (1) The RST is for this connection, well-formed and
carries exactly RCV.NXT: the connection is torn down. (2) In every other case the slot is exactly what it was.
(3) If it is for the connection and in the receive window but not exact, a challenge ACK is sent. -/
theorem rst_exact (s : St) (g : Seg) (o : Nat → Orc) (k : Nat) (t : Sock) (ht : s.socks[k]? = some t) (hr : g.rst = true) (hs : t.st.sync = true) :
    (OfConn t g → ¬ g.bad → g.seq = t.ack → ∃ t' : Sock, (input s g o).2.socks[k]? = some t' ∧ TornDown t t') ∧
    (¬ (OfConn t g ∧ ¬ g.bad ∧ g.seq = t.ack) → (input s g o).2.socks[k]? = some t) ∧
    (OfConn t g → ¬ g.bad → g.seq ≠ t.ack → (o k).space ≠ 0 → seqLeq t.ack g.seq = true → seqLt g.seq (seqInc t.ack (o k).space) = true →
      Ev.ack k ∈ (input s g o).1) := by
  have hhit := hit_conn (g := g) (sync_conn hs)
  have hpre : pre t g (o k) = t := by
    rw [pre]
    have : ¬ (g.syn = true ∧ (t.st = .listen ∨ t.st = .synSent)) := by
      rintro ⟨_, h | h⟩ <;> rw [h] at hs <;> simp [TS.sync] at hs
    rw [if_neg this, if_neg (by simp [hr])]
  have hl : t.st ≠ .listen := by intro c; rw [c] at hs; simp [TS.sync] at hs
  have hans : rstAns k t g (o k) = if g.seq ≠ t.ack then
      if (o k).space ≠ 0 ∧ seqLeq t.ack g.seq = true ∧ seqLt g.seq (seqInc t.ack (o k).space) = true then (t, [.ack k]) else (t, [])
      else (closeSock t, []) := by
    rw [rstAns, if_neg hl, hpre, rstIn]
    cases hx : t.st <;> rw [hx] at hs <;> simp [TS.sync] at hs <;> rfl
  refine ⟨?_, ?_, ?_⟩
  · intro h1 h2 h3
    obtain ⟨a, _⟩ := input_rst s g o hr h2 k t ht (hhit.mpr h1)
    rw [hans, if_neg (by simp [h3])] at a
    exact ⟨_, a, closeSock_torn t h1.1⟩
  · intro h
    by_cases h2 : hit t g ∧ ¬ g.bad
    · obtain ⟨a, _⟩ := input_rst s g o hr h2.2 k t ht h2.1
      rw [hans, if_pos (fun c => h ⟨hhit.mp h2.1, h2.2, c⟩)] at a
      rw [a]; split <;> rfl
    · exact input_miss s g o k t ht (by
        by_cases q : hit t g
        · exact Or.inr (Classical.byContradiction (fun c => h2 ⟨q, c⟩))
        · exact Or.inl q)
  · intro h1 h2 h3 h4 h5 h6
    obtain ⟨_, b⟩ := input_rst s g o hr h2 k t ht (hhit.mpr h1)
    apply b
    rw [hans, if_pos h3, if_pos ⟨h4, h5, h6⟩]
    simp

/-- **C15, handshake states.** A RST never changes a slot in LISTEN. On a SYN_RCVD slot it acts only if it carries
exactly RCV.NXT, and if that slot is a listening socket it returns to LISTEN with the same local port, bound address
and callback. On a SYN_SENT slot it acts only if it acknowledges our SYN. -/
theorem rst_handshake (s : St) (g : Seg) (o : Nat → Orc) (k : Nat) (t : Sock) (ht : s.socks[k]? = some t) (hr : g.rst = true) :
    (t.st = .listen → (input s g o).2.socks[k]? = some t) ∧
    (t.st = .synRcvd → (input s g o).2.socks[k]? = some t ∨
      (OfConn t g ∧ g.seq = t.ack ∧ ∃ t' : Sock, (input s g o).2.socks[k]? = some t' ∧
        ((t.isL = true ∧ t'.st = .listen ∧ t'.isL = true ∧ t'.used = true ∧ t'.sport = t.sport ∧ t'.blip = t.blip ∧ t'.cb = t.cb) ∨ (t.isL = false ∧ t'.st = .closed)))) ∧
    (t.st = .synSent → (∃ m, (input s g o).2.socks[k]? = some { t with mss := m }) ∨
      (OfConn t g ∧ g.ackF = true ∧ synAckOk t g.ack = true ∧ ∃ t' : Sock, (input s g o).2.socks[k]? = some t' ∧ TornDown t t')) := by
  by_cases h2 : ¬ hit t g ∨ g.bad
  · have := input_miss s g o k t ht h2
    exact ⟨fun _ => this, fun _ => Or.inl this, fun _ => Or.inl ⟨t.mss, this⟩⟩
  have hh : hit t g := Classical.byContradiction (fun c => h2 (Or.inl c))
  have hb : ¬ g.bad := fun c => h2 (Or.inr c)
  obtain ⟨a, _⟩ := input_rst s g o hr hb k t ht hh
  refine ⟨?_, ?_, ?_⟩
  · intro hl; rw [a, rstAns, if_pos hl]
  · intro hl
    have hpre : pre t g (o k) = t := by
      rw [pre, if_neg (show ¬ (g.rst = false ∧ (o k).winUp = true) by simp [hr]), if_neg (by simp [hl])]
    rw [rstAns, if_neg (by simp [hl]), hpre, rstIn, hl] at a
    simp only at a
    by_cases h3 : g.seq ≠ t.ack
    · rw [if_pos h3] at a; exact Or.inl a
    rw [if_neg h3] at a
    refine Or.inr ⟨(hit_conn (by rw [hl]; rfl)).mp hh, by simpa using h3, ?_⟩
    by_cases h4 : t.isL = true
    · rw [if_pos h4] at a
      exact ⟨_, a, Or.inl ⟨h4, rfl, h4, hh.1, rfl, rfl, rfl⟩⟩
    · rw [if_neg h4] at a
      refine ⟨_, a, Or.inr ⟨by simpa using h4, ?_⟩⟩
      split
      · rfl
      · rw [closeSock]; split <;> rfl
  · intro hl
    have hpre : ∃ m, pre t g (o k) = { t with mss := m } := by
      rw [pre]
      by_cases q : g.syn = true
      · exact ⟨(o k).mss, by rw [if_neg (show ¬ (g.rst = false ∧ (o k).winUp = true) by simp [hr]), if_pos ⟨q, Or.inr hl⟩]⟩
      · exact ⟨t.mss, by rw [if_neg (show ¬ (g.rst = false ∧ (o k).winUp = true) by simp [hr]), if_neg (fun c => q c.1)]⟩
    obtain ⟨m, hm⟩ := hpre
    rw [rstAns, if_neg (by simp [hl]), hm, rstIn] at a
    simp only [hl] at a
    by_cases h3 : g.ackF = false
    · rw [if_pos h3] at a; exact Or.inl ⟨m, by rw [a, hl]⟩
    rw [if_neg h3] at a
    have hsa : synAckOk { t with mss := m } g.ack = synAckOk t g.ack := rfl
    rw [hl] at hsa
    rw [hsa] at a
    by_cases h4 : synAckOk t g.ack = true
    · rw [if_pos h4] at a
      refine Or.inr ⟨(hit_conn (by rw [hl]; rfl)).mp hh, by simpa using h3, h4, _, a, ?_⟩
      obtain ⟨q1, q2, q3⟩ := closeSock_torn { t with mss := m } hh.1
      exact ⟨q1, q2, q3⟩
    · rw [if_neg (by exact h4)] at a; exact Or.inl ⟨m, by rw [a, hl]⟩

end Wolf.Sock
