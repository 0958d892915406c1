import Verif.Sock.Hist
/-!
# C17: resets in answer to segments

Full statement: the stack never answers a RST with a RST, and never sends a RST in answer to a segment whose
destination is broadcast or multicast. The first part is proved for every table; the second is false for a port with
a listener (`rst_to_broadcast` in Run.lean) and proved for all other tables.
-/
namespace Wolf.Sock
open Wolf.Tcp (seqInc seqLt seqLeq)
open Wolf.Route (Ip)

/-- **C17.** Nothing but an incoming segment makes the stack send a reset, and never one that is itself a RST. -/
theorem no_rst_for_rst (s : St) (op : Op) (r : Rst) (h : Ev.rst r ∈ (step s op).2.2) : ∃ g o, op = .segment g o ∧ g.rst = false := by
  cases op with
  | segment g o =>
    refine ⟨g, o, rfl, ?_⟩
    cases hr : g.rst with
    | false => rfl
    | true =>
      exfalso
      have none : resetReply g = [] := by rw [resetReply, if_pos hr]
      rcases (input_slot s g o).2.2.2.2 _ (show Ev.rst r ∈ (input s g o).1 from h) with ⟨j, t, s1, h1, h2, h3, h4, h5, h6⟩ | ⟨h1, _⟩
      · by_cases hb : g.bad
        · rw [sockIn, if_pos hb] at h6; simp at h6
        · rw [sockIn_rst s1 j t g (o j) hr hb] at h6
          have := (rstAns_numbers j t g (o j)).2 _ h6
          simp at this
      · rw [none] at h1; simp at h1
  | connect j ip port fam veto sendOk rnd iss => rw [step, connectOp] at h; (repeat' split at h) <;> simp at h
  | accept j veto sendOk rnd => rw [step, acceptOp] at h; (repeat' split at h) <;> simp at h
  | close j sendOk => rw [step, closeOp] at h; (repeat' split at h) <;> simp at h
  | rto j o =>
    rw [step] at h
    split at h
    · simp at h
    · simp only at h
      rw [rtoIn] at h
      (repeat' split at h) <;> first
        | (simp at h; done)
        | (rw [ctrlResend] at h; simp only at h; (repeat' split at h) <;> simp at h)
  | cbBegin j => rw [step, cbBegin] at h; (repeat' split at h) <;> simp at h
  | socket => simp [step] at h
  | bind => simp [step] at h
  | listen => simp [step] at h
  | register => simp [step] at h
  | send => simp [step] at h
  | reconf => simp [step] at h
  | icmp => simp [step] at h
  | cbEnd => simp [step] at h

/-- The sequence space a segment occupies (specification). -/
def occupies (g : Seg) : Nat := (g.iplen - 20 - g.off) + (if g.syn then 1 else 0) + (if g.fin then 1 else 0)

/-- The reset RFC 9293 3.10.7.1 asks for (specification): addresses and ports swapped; if the segment has an ACK the
reset takes its sequence number from it and carries no ACK, else it has sequence number 0 and acknowledges the
segment. -/
def rstFor (g : Seg) : Rst :=
  { sport := g.dport, dport := g.sport, src := g.dst, dst := g.src,
    seq := if g.ackF then g.ack else 0, ack := if g.ackF then 0 else (g.seq + occupies g) % 4294967296, ackF := !g.ackF }

theorem seqInc_mod (a n : Nat) (ha : a < 4294967296) (hn : n ≤ 4294967295) : seqInc a n = (a + n) % 4294967296 := by
  unfold seqInc; split <;> omega

theorem resetReply_exact (g : Seg) (hs : g.seq < 4294967296) (hl : g.iplen < 65536) (e : Ev) (h : e ∈ resetReply g) : e = .rst (rstFor g) := by
  rw [resetReply] at h
  by_cases h1 : g.rst = true
  · rw [if_pos h1] at h; simp at h
  rw [if_neg h1] at h
  by_cases h2 : g.bad
  · rw [if_pos h2] at h; simp at h
  rw [if_neg h2] at h
  by_cases h3 : g.ackF = true
  · rw [if_pos h3] at h; simp at h; rw [h, rstFor, if_pos h3, if_pos h3, h3]; rfl
  · rw [if_neg h3] at h
    simp only [List.mem_singleton] at h
    have h3' : g.ackF = false := by simpa using h3
    rw [h, rstFor, if_neg h3, if_neg h3, h3']
    have hlen : g.len = g.iplen - 20 - g.off := by rw [Seg.len]; omega
    have step1 : ∀ a, a < 4294967296 → seqInc a 1 = (a + 1) % 4294967296 := fun a ha => seqInc_mod a 1 ha (by omega)
    have lt : ∀ x : Nat, x % 4294967296 < 4294967296 := fun x => Nat.mod_lt _ (by decide)
    have key : (if g.fin = true then seqInc (if g.syn = true then seqInc (seqInc g.seq g.len) 1 else seqInc g.seq g.len) 1
        else (if g.syn = true then seqInc (seqInc g.seq g.len) 1 else seqInc g.seq g.len)) = (g.seq + occupies g) % 4294967296 := by
      rw [occupies, seqInc_mod g.seq g.len hs (by omega), hlen]
      generalize g.iplen - 20 - g.off = n
      cases g.syn <;> cases g.fin <;> simp only [Bool.false_eq_true, if_false, if_true]
      · omega
      · rw [step1 _ (lt _)]; omega
      · rw [step1 _ (lt _)]; omega
      · rw [step1 _ (lt _), step1 _ (lt _)]; omega
    rw [key]; rfl

/-- **C17.** Every reset sent is the one RFC 9293 prescribes for the segment it answers, and goes to its sender. -/
theorem rst_content (s : St) (g : Seg) (o : Nat → Orc) (hs : g.seq < 4294967296) (hl : g.iplen < 65536) (r : Rst)
    (h : Ev.rst r ∈ (step s (.segment g o)).2.2) : r = rstFor g := by
  obtain ⟨g', o', e, hr⟩ := no_rst_for_rst s _ r h
  cases e
  have key : Ev.rst r ∈ resetReply g := by
    rcases (input_slot s g o).2.2.2.2 _ (show Ev.rst r ∈ (input s g o).1 from h) with ⟨j, t, s1, h1, h2, h3, h4, h5, h6⟩ | ⟨h1, _⟩
    · have hn := sockIn_next s1 j t g (o j) hr
      generalize (sockIn s1 j t g (o j)).1 = t' at hn
      generalize (sockIn s1 j t g (o j)).2.1 = evs at hn h6
      cases hn with
      | stay _ a b c d =>
        rcases d _ h6 with d | ⟨d, _⟩ | ⟨d, _⟩ | ⟨d, _⟩
        · simp at d
        · simp at d
        · simp at d
        · exact d
      | syn rnd => simp at h6
      | synAck _ a1 a2 a3 a4 a5 a6 a7 => have := a7 _ h6; simp at this
      | lastOfThree _ a1 a2 a3 a4 a5 a6 => have := a6 _ h6; simp at this
      | move _ a1 a2 a3 a4 => have := a4 _ h6; simp at this
      | done a1 a2 a3 a4 => simp at h6
    · exact h1
  have := resetReply_exact g hs hl _ key
  cases this
  rfl

/-- Broadcast or multicast. -/
def Group (net : Route.St) (a : Ip) : Prop := Route.isBroadcast net a = true ∨ isMcast a = true

/-- **C17, part.** A segment to a broadcast or multicast address is answered with a RST only if some slot is
listening on the destination port, or is half open with that very address (or none) as its local address. Missing
for the full statement: a listener must not answer either; it does (`rst_to_broadcast`). -/
theorem no_rst_to_group_partial (s : St) (g : Seg) (o : Nat → Orc) (hg : Group s.net g.dst)
    (hl : ∀ (k : Nat) (t : Sock), s.socks[k]? = some t → t.used = true → t.sport = g.dport → t.st ≠ .listen)
    (hh : ∀ (k : Nat) (t : Sock), s.socks[k]? = some t → t.used = true → t.st.half → t.lip ≠ 0 ∧ ¬ Group s.net t.lip)
    (r : Rst) : Ev.rst r ∉ (step s (.segment g o)).2.2 := by
  intro h
  obtain ⟨g', o', e, hr⟩ := no_rst_for_rst s _ r h
  cases e
  rcases (input_slot s g o).2.2.2.2 _ (show Ev.rst r ∈ (input s g o).1 from h) with ⟨j, t, s1, h1, h2, h3, h4, h5, h6⟩ | ⟨_, _, h2, h3, _⟩
  · have hn := sockIn_next s1 j t g (o j) hr
    generalize (sockIn s1 j t g (o j)).1 = t' at hn
    generalize (sockIn s1 j t g (o j)).2.1 = evs at hn h6
    have half : t.st.half → False := by
      intro q
      obtain ⟨q1, q2⟩ := hh j t h1 h2.1 q
      have hc := (hit_conn (g := g) (by rcases q with q | q <;> rw [q] <;> rfl)).mp h2
      rcases hc.2.2.2.2 with c | c
      · exact q1 c
      · rw [c] at q2; exact q2 hg
    cases hn with
    | stay _ a b c d =>
      rcases d _ h6 with d | ⟨d, _⟩ | ⟨d, _⟩ | ⟨_, _, d⟩
      · simp at d
      · simp at d
      · simp at d
      · rcases d with d | d | d
        · exact hl j t h1 h2.1 h2.2.2.1 d
        · exact half (Or.inl d)
        · exact half (Or.inr d)
    | syn rnd => simp at h6
    | synAck _ a1 a2 a3 a4 a5 a6 a7 => have := a7 _ h6; simp at this
    | lastOfThree _ a1 a2 a3 a4 a5 a6 => have := a6 _ h6; simp at this
    | move _ a1 a2 a3 a4 => have := a4 _ h6; simp at this
    | done a1 a2 a3 a4 => simp at h6
  · rcases hg with hg | hg
    · rw [hg] at h2; simp at h2
    · rw [hg] at h3; simp at h3

/-- The hypotheses are met and the answer exists: a segment to a port nobody uses is answered with the prescribed
reset when sent to us, and not when broadcast. -/
theorem no_storm_example :
    (step (init 2 net1) (.segment { synSeg with dport := 99 } orc1)).2.2 = [.rst ⟨99, 40000, hostA, peerA, 0, 101, true⟩] ∧
    (step (init 2 net1) (.segment { synSeg with dport := 99, dst := 0x0A0000FF#32 } orc1)).2.2 = [] ∧
    Group net1 0x0A0000FF#32 := by
  refine ⟨by decide +kernel, by decide +kernel, Or.inl (by decide +kernel)⟩

end Wolf.Sock
