import Verif.Sock.Base
/-! # What one segment can do to the slot it belongs to -/
namespace Wolf.Sock
open Wolf.Tcp (seqInc seqLt seqLeq)
open Wolf.Route (Ip)

/-- The fields a segment never changes as long as the connection lives. -/
structure Keep (t t' : Sock) : Prop where
  used : t'.used = t.used
  isL : t'.isL = t.isL
  sport : t'.sport = t.sport
  dport : t'.dport = t.dport
  lip : t'.lip = t.lip
  rip : t'.rip = t.rip
  blip : t'.blip = t.blip
  cb : t'.cb = t.cb
  pend : t'.pend = t.pend

theorem Keep.refl (t : Sock) : Keep t t := ⟨rfl, rfl, rfl, rfl, rfl, rfl, rfl, rfl, rfl⟩

theorem Keep.trans {a b c : Sock} (h : Keep a b) (h' : Keep b c) : Keep a c :=
  ⟨h'.used.trans h.used, h'.isL.trans h.isL, h'.sport.trans h.sport, h'.dport.trans h.dport, h'.lip.trans h.lip, h'.rip.trans h.rip,
   h'.blip.trans h.blip, h'.cb.trans h.cb, h'.pend.trans h.pend⟩

/-- Possible outcomes of a segment without RST on the slot it belongs to: new slot and visible events. -/
inductive Next (s : St) (i : Nat) (t : Sock) (g : Seg) : Sock → List Ev → Prop
  | stay (t' : Sock) (evs : List Ev) (hk : Keep t t') (hs : t'.st = t.st)
      (hn : t.st = .synSent ∨ t.st = .synRcvd → t'.seq = t.seq ∧ t'.una = t.una)
      (he : ∀ e ∈ evs, e = .ack i ∨ (e = .syn i t.seq ∧ t.st = .synRcvd) ∨ (e = .data i ∧ canRecv t.st = true) ∨
        (e ∈ resetReply g ∧ g.ackF = true ∧ (t.st = .listen ∨ t.st = .synSent ∨ t.st = .synRcvd))) : Next s i t g t' evs
  | syn (t' : Sock) (rnd : Nat) (hl : t.st = .listen) (h1 : g.syn = true) (h2 : g.ackF = false) (h3 : t.blip = 0 ∨ t.blip = g.dst) (h4 : isLocal s.net g.dst = true)
      (h5 : t'.st = .synRcvd) (h6 : t'.used = t.used ∧ t'.isL = t.isL ∧ t'.sport = t.sport ∧ t'.blip = t.blip ∧ t'.cb = t.cb ∧ t'.pend = t.pend)
      (h7 : t'.seq = rnd ∧ t'.una = rnd ∧ t'.lip = g.dst ∧ t'.rip = g.src ∧ t'.dport = g.sport) : Next s i t g t' [.syn i rnd]
  | synAck (t' : Sock) (evs : List Ev) (hk : Keep t t') (hl : t.st = .synSent) (h1 : g.syn = true) (h2 : g.ackF = true) (h3 : synAckOk t g.ack = true)
      (h4 : t'.st = .est) (he : ∀ e ∈ evs, e = .ack i) : Next s i t g t' evs
  | lastOfThree (t' : Sock) (evs : List Ev) (hk : Keep t t') (hl : t.st = .synRcvd) (h2 : g.ackF = true) (h3 : g.ack = seqInc t.una 1)
      (h4 : t'.st = .est ∨ (t'.st = .closeWait ∧ g.fin = true)) (he : ∀ e ∈ evs, e = .ack i ∨ e = .data i) : Next s i t g t' evs
  | move (t' : Sock) (evs : List Ev) (hk : Keep t t') (h2 : g.ackF = true)
      (h4 : (t.st = .est ∧ t'.st = .closeWait ∧ g.fin = true) ∨ (t.st = .fw1 ∧ t'.st = .fw2 ∧ seqLeq (seqInc t.last 1) g.ack = true) ∨
        (t.st = .fw1 ∧ t'.st = .closing ∧ g.fin = true) ∨
        (t.st = .fw1 ∧ t'.st = .timeWait ∧ g.fin = true ∧ seqLeq (seqInc t.last 1) g.ack = true) ∨ (t.st = .fw2 ∧ t'.st = .timeWait ∧ g.fin = true) ∨
        (t.st = .closing ∧ t'.st = .timeWait ∧ seqLeq (seqInc t.last 1) g.ack = true))
      (he : ∀ e ∈ evs, e = .ack i ∨ (e = .data i ∧ canRecv t.st = true)) : Next s i t g t' evs
  | done (t' : Sock) (hl : t.st = .lastAck) (h2 : g.ackF = true) (h3 : seqLeq (seqInc t.last 1) g.ack = true)
      (h4 : (t.cb ≠ none ∧ Keep t t' ∧ t'.st = .closed ∧ t'.evC = true) ∨ (t.cb = none ∧ t' = {})) : Next s i t g t' []

theorem ackIn_spec (t : Sock) (a : Nat) :
    (t.st = .lastAck ∧ seqLeq (seqInc t.last 1) a = true ∧
      ((t.cb ≠ none ∧ Keep t (ackIn t a) ∧ (ackIn t a).st = .closed ∧ (ackIn t a).evC = true) ∨ (t.cb = none ∧ ackIn t a = {}))) ∨
    (Keep t (ackIn t a) ∧ (ackIn t a).ack = t.ack ∧ (ackIn t a).evC = t.evC ∧
      ((ackIn t a).st = t.st ∨
       (t.st = .fw1 ∧ (ackIn t a).st = .fw2 ∧ seqLeq (seqInc t.last 1) a = true) ∨
       (t.st = .closing ∧ (ackIn t a).st = .timeWait ∧ seqLeq (seqInc t.last 1) a = true))) := by
  rw [ackIn]
  simp only
  by_cases h1 : t.st = .lastAck ∧ seqLeq (seqInc t.last 1) a = true
  · rw [if_pos h1]
    left
    refine ⟨h1.1, h1.2, ?_⟩
    by_cases h2 : t.cb = none
    · right
      refine ⟨h2, ?_⟩
      rw [if_neg (by simpa using h2), closeSock, if_neg (by simp [h2])]
    · left
      rw [if_pos h2]
      exact ⟨h2, ⟨rfl, rfl, rfl, rfl, rfl, rfl, rfl, rfl, rfl⟩, rfl, rfl⟩
  · rw [if_neg h1]
    right
    by_cases h2 : t.st = .fw1 ∧ seqLeq (seqInc t.last 1) a = true
    · rw [if_pos h2]
      split
      · exact ⟨⟨rfl, rfl, rfl, rfl, rfl, rfl, rfl, rfl, rfl⟩, rfl, rfl, Or.inr (Or.inl ⟨h2.1, rfl, h2.2⟩)⟩
      · exact ⟨⟨rfl, rfl, rfl, rfl, rfl, rfl, rfl, rfl, rfl⟩, rfl, rfl, Or.inr (Or.inl ⟨h2.1, rfl, h2.2⟩)⟩
    · rw [if_neg h2]
      by_cases h3 : t.st = .closing ∧ seqLeq (seqInc t.last 1) a = true
      · rw [if_pos h3]
        split
        · exact ⟨⟨rfl, rfl, rfl, rfl, rfl, rfl, rfl, rfl, rfl⟩, rfl, rfl, Or.inr (Or.inr ⟨h3.1, rfl, h3.2⟩)⟩
        · exact ⟨⟨rfl, rfl, rfl, rfl, rfl, rfl, rfl, rfl, rfl⟩, rfl, rfl, Or.inr (Or.inr ⟨h3.1, rfl, h3.2⟩)⟩
      · rw [if_neg h3]
        split
        · exact ⟨⟨rfl, rfl, rfl, rfl, rfl, rfl, rfl, rfl, rfl⟩, rfl, rfl, Or.inl rfl⟩
        · exact ⟨Keep.refl t, rfl, rfl, Or.inl rfl⟩

theorem recvIn_spec (i : Nat) (t : Sock) (o : Orc) :
    Keep t (recvIn i t o).1 ∧ (recvIn i t o).1.st = t.st ∧ ∀ e ∈ (recvIn i t o).2, (e = .data i ∧ canRecv t.st = true) ∨ e = .ack i := by
  rw [recvIn]
  by_cases h : canRecv t.st = true
  · rw [if_pos h]
    refine ⟨⟨rfl, rfl, rfl, rfl, rfl, rfl, rfl, rfl, rfl⟩, rfl, ?_⟩
    intro e he
    simp only [List.mem_cons, List.not_mem_nil, or_false] at he
    rcases he with he | he
    · exact Or.inl ⟨he, h⟩
    · exact Or.inr he
  · rw [if_neg h]; exact ⟨Keep.refl t, rfl, by simp⟩

/-- The state after an accepted FIN. -/
def finSt : TS → TS
  | .est => .closeWait
  | .fw1 => .closing
  | .fw2 => .timeWait
  | x => x

theorem finIn_spec (i : Nat) (t : Sock) (g : Seg) :
    Keep t (finIn i t g).1 ∧ ((finIn i t g).1.st = t.st ∨ (finIn i t g).1.st = finSt t.st) ∧ (finIn i t g).2 = [.ack i] := by
  rw [finIn]
  split
  · exact ⟨Keep.refl t, Or.inl rfl, rfl⟩
  · refine ⟨⟨rfl, rfl, rfl, rfl, rfl, rfl, rfl, rfl, rfl⟩, Or.inr ?_, rfl⟩
    simp only
    cases t.st <;> rfl

/-- Synchronized states handled together. -/
def TS.mid : TS → Bool
  | .est | .closeWait | .fw1 | .fw2 | .closing => true
  | _ => false

theorem syncIn_next (s : St) (i : Nat) (t : Sock) (g : Seg) (o : Orc) (hm : t.st.mid = true) :
    Next s i t g (syncIn i t g o).1 (syncIn i t g o).2.1 := by
  have nsyn : ¬ (t.st = .synSent ∨ t.st = .synRcvd) := by rintro (h | h) <;> rw [h] at hm <;> simp [TS.mid] at hm
  have quiet : ∀ evs : List Ev, (∀ e ∈ evs, e = .ack i) → Next s i t g t evs := fun evs h =>
    Next.stay t evs (Keep.refl t) rfl (fun h' => absurd h' nsyn) (fun e he => Or.inl (h e he))
  rw [syncIn]
  by_cases h1 : o.pawsOk = false
  · rw [if_pos h1]; simp only; apply quiet; intro e he; split at he <;> simp at he; exact he
  rw [if_neg h1]
  by_cases h2 : acceptable t.ack o.space g = false
  · rw [if_pos h2]; exact quiet _ (by simp)
  rw [if_neg h2]
  by_cases h3 : g.syn = true
  · rw [if_pos h3]; exact quiet _ (by simp)
  rw [if_neg h3]
  by_cases h4 : g.ackF = false
  · rw [if_pos h4]; exact quiet _ (by simp)
  rw [if_neg h4]
  have h4' : g.ackF = true := by simpa using h4
  simp only
  rcases ackIn_spec t g.ack with ⟨hl, _⟩ | ⟨hk, _, _, hst⟩
  · rw [hl] at hm; simp [TS.mid] at hm
  generalize ackIn t g.ack = t1 at hk hst
  -- the outcome of the acknowledgment alone
  have base : ∀ evs : List Ev, (∀ e ∈ evs, e = .ack i ∨ (e = .data i ∧ canRecv t.st = true)) → ∀ t', Keep t t' → t'.st = t1.st → Next s i t g t' evs := by
    intro evs he t' hkt hs
    rcases hst with hst | hst | hst
    · exact Next.stay t' evs hkt (by rw [hs, hst]) (fun h' => absurd h' nsyn) (fun e h => by
        rcases he e h with h | h
        · exact Or.inl h
        · exact Or.inr (Or.inr (Or.inl h)))
    · exact Next.move t' evs hkt h4' (Or.inr (Or.inl ⟨hst.1, by rw [hs]; exact hst.2.1, hst.2.2⟩)) he
    · exact Next.move t' evs hkt h4' (Or.inr (Or.inr (Or.inr (Or.inr (Or.inr ⟨hst.1, by rw [hs]; exact hst.2.1, hst.2.2⟩))))) he
  by_cases h5 : t1.st = .closed
  · rw [if_pos h5]; exact base [] (by simp) t1 hk rfl
  rw [if_neg h5]
  by_cases h6 : g.len > 0 ∧ (t1.st = .lastAck ∨ t1.st = .closing ∨ t1.st = .closed)
  · rw [if_pos h6]; exact base [] (by simp) t1 hk rfl
  rw [if_neg h6]
  -- the data
  have hr : ∀ r : Sock × List Ev, (r = if g.len > 0 then recvIn i t1 o else (t1, [])) →
      Keep t r.1 ∧ r.1.st = t1.st ∧ ∀ e ∈ r.2, e = .ack i ∨ (e = .data i ∧ canRecv t.st = true) := by
    intro r hr
    by_cases h7 : g.len > 0
    · rw [if_pos h7] at hr
      obtain ⟨a1, a2, a3⟩ := recvIn_spec i t1 o
      rw [hr]
      refine ⟨hk.trans a1, a2, ?_⟩
      intro e he
      rcases a3 e he with ⟨h, hc⟩ | h
      · right; refine ⟨h, ?_⟩
        rcases hst with hst | hst | hst
        · rw [← hst]; exact hc
        · rw [hst.1]; rfl
        · rw [hst.2.1] at hc; simp [canRecv] at hc
      · exact Or.inl h
    · rw [if_neg h7] at hr; rw [hr]; exact ⟨hk, rfl, by simp⟩
  obtain ⟨r1, r2, r3⟩ := hr _ rfl
  generalize (if g.len > 0 then recvIn i t1 o else (t1, [])) = r at r1 r2 r3 ⊢
  by_cases h8 : g.fin = true
  · rw [if_pos h8]
    simp only
    obtain ⟨f1, f2, f3⟩ := finIn_spec i r.1 g
    generalize finIn i r.1 g = f at f1 f2 f3 ⊢
    have he : ∀ e ∈ r.2 ++ f.2, e = .ack i ∨ (e = .data i ∧ canRecv t.st = true) := by
      intro e he
      rw [List.mem_append] at he
      rcases he with he | he
      · exact r3 e he
      · rw [f3] at he; simp at he; exact Or.inl he
    have hkk := r1.trans f1
    rcases f2 with f2 | f2
    · exact base _ he f.1 hkk (by rw [f2, r2])
    · rw [r2] at f2
      -- which states can t1 have
      by_cases hsame : finSt t1.st = t1.st
      · exact base _ he f.1 hkk (by rw [f2, hsame])
      · rcases hst with hst | hst | hst
        · rw [hst] at f2 hsame
          cases hx : t.st <;> rw [hx] at f2 hsame hm <;> first | (simp [finSt] at hsame; done) | (simp [TS.mid] at hm; done) | skip
          · exact Next.move _ _ hkk h4' (Or.inl ⟨hx, f2, h8⟩) he
          · exact Next.move _ _ hkk h4' (Or.inr (Or.inr (Or.inl ⟨hx, f2, h8⟩))) he
          · exact Next.move _ _ hkk h4' (Or.inr (Or.inr (Or.inr (Or.inr (Or.inl ⟨hx, f2, h8⟩))))) he
        · rw [hst.2.1] at f2
          exact Next.move _ _ hkk h4' (Or.inr (Or.inr (Or.inr (Or.inl ⟨hst.1, f2, h8, hst.2.2⟩)))) he
        · rw [hst.2.1] at hsame; simp [finSt] at hsame
  · rw [if_neg h8]; exact base _ r3 r.1 r1 r2

theorem rcvdIn_next (s : St) (i : Nat) (t : Sock) (g : Seg) (o : Orc) (hm : t.st = .synRcvd) :
    Next s i t g (rcvdIn i t g o).1 (rcvdIn i t g o).2 := by
  rw [rcvdIn]
  by_cases h1 : g.syn = true ∧ g.ackF = false ∧ seqInc g.seq 1 = t.ack
  · rw [if_pos h1]
    exact Next.stay t _ (Keep.refl t) rfl (fun _ => ⟨rfl, rfl⟩) (fun e he => by simp at he; exact Or.inr (Or.inl ⟨he, hm⟩))
  rw [if_neg h1]
  by_cases h2 : g.ackF = true
  · rw [if_pos h2]
    by_cases h3 : acceptable t.ack o.space g = false
    · rw [if_pos h3]
      exact Next.stay t _ (Keep.refl t) rfl (fun _ => ⟨rfl, rfl⟩) (fun e he => by simp at he; exact Or.inl he)
    rw [if_neg h3]
    by_cases h4 : g.ack ≠ seqInc t.una 1
    · rw [if_pos h4]
      exact Next.stay t _ (Keep.refl t) rfl (fun _ => ⟨rfl, rfl⟩) (fun e he => Or.inr (Or.inr (Or.inr ⟨he, h2, Or.inr (Or.inr hm)⟩)))
    rw [if_neg h4]
    have h4' : g.ack = seqInc t.una 1 := by simpa using h4
    simp only
    have hk1 : Keep t { t with st := .est, ctrl := false, retries := 0, preT := t.preT || t.isL, seq := g.ack, una := g.ack, evW := t.evW || o.txRoom } :=
      ⟨rfl, rfl, rfl, rfl, rfl, rfl, rfl, rfl, rfl⟩
    have hs1 : ({ t with st := .est, ctrl := false, retries := 0, preT := t.preT || t.isL, seq := g.ack, una := g.ack, evW := t.evW || o.txRoom } : Sock).st = .est := rfl
    generalize ({ t with st := .est, ctrl := false, retries := 0, preT := t.preT || t.isL, seq := g.ack, una := g.ack, evW := t.evW || o.txRoom } : Sock) = t1 at hk1 hs1 ⊢
    have hr : ∀ r : Sock × List Ev, (r = if g.len > 0 then recvIn i t1 o else (t1, [])) →
        Keep t r.1 ∧ r.1.st = .est ∧ ∀ e ∈ r.2, e = .ack i ∨ e = .data i := by
      intro r hr
      by_cases h7 : g.len > 0
      · rw [if_pos h7] at hr
        obtain ⟨a1, a2, a3⟩ := recvIn_spec i t1 o
        rw [hr]
        refine ⟨hk1.trans a1, a2.trans hs1, ?_⟩
        intro e he
        rcases a3 e he with ⟨h, hc⟩ | h
        · exact Or.inr h
        · exact Or.inl h
      · rw [if_neg h7] at hr; rw [hr]; exact ⟨hk1, hs1, by simp⟩
    obtain ⟨r1, r2, r3⟩ := hr _ rfl
    generalize (if g.len > 0 then recvIn i t1 o else (t1, [])) = r at r1 r2 r3 ⊢
    have he : ∀ e ∈ r.2 ++ [Ev.ack i], e = .ack i ∨ e = .data i := by
      intro e he
      rw [List.mem_append] at he
      rcases he with he | he
      · exact r3 e he
      · simp at he; exact Or.inl he
    by_cases h8 : g.fin = true
    · rw [if_pos h8]
      by_cases h9 : r.1.ack = seqInc g.seq g.len
      · rw [if_pos h9]
        exact Next.lastOfThree _ _ (r1.trans ⟨rfl, rfl, rfl, rfl, rfl, rfl, rfl, rfl, rfl⟩) hm h2 h4' (Or.inr ⟨rfl, h8⟩) he
      · rw [if_neg h9]
        exact Next.lastOfThree _ _ r1 hm h2 h4' (Or.inl r2) he
    · rw [if_neg h8]
      exact Next.lastOfThree _ _ r1 hm h2 h4' (Or.inl r2) r3
  · rw [if_neg h2]
    exact Next.stay t _ (Keep.refl t) rfl (fun _ => ⟨rfl, rfl⟩) (fun e he => by simp at he)

theorem lastAckIn_next (s : St) (i : Nat) (t : Sock) (g : Seg) (o : Orc) (hm : t.st = .lastAck) :
    Next s i t g (lastAckIn i t g o).1 (lastAckIn i t g o).2 := by
  have nsyn : ¬ (t.st = .synSent ∨ t.st = .synRcvd) := by rintro (h | h) <;> rw [h] at hm <;> simp at hm
  have quiet : ∀ evs : List Ev, (∀ e ∈ evs, e = .ack i) → Next s i t g t evs := fun evs h =>
    Next.stay t evs (Keep.refl t) rfl (fun h' => absurd h' nsyn) (fun e he => Or.inl (h e he))
  rw [lastAckIn]
  by_cases h1 : o.pawsOk = false
  · rw [if_pos h1]; simp only; apply quiet; intro e he; split at he <;> simp at he; exact he
  rw [if_neg h1]
  by_cases h2 : acceptable t.ack o.space g = false
  · rw [if_pos h2]; exact quiet _ (by simp)
  rw [if_neg h2]
  by_cases h3 : g.syn = true
  · rw [if_pos h3]; exact quiet _ (by simp)
  rw [if_neg h3]
  by_cases h4 : g.ackF = true
  · rw [if_pos h4]
    simp only
    rcases ackIn_spec t g.ack with ⟨hl, hf, hx⟩ | ⟨hk, _, _, hst⟩
    · exact Next.done _ hl h4 hf hx
    · rcases hst with hst | hst | hst
      · exact Next.stay _ _ hk hst (fun h' => absurd h' nsyn) (by simp)
      · rw [hst.1] at hm; simp at hm
      · rw [hst.1] at hm; simp at hm
  · rw [if_neg h4]; exact quiet _ (by simp)

theorem bodyIn_next (s : St) (i : Nat) (t : Sock) (g : Seg) (o : Orc) : Next s i t g (bodyIn i t g o).1 (bodyIn i t g o).2.1 := by
  rw [bodyIn]
  cases hx : t.st with
  | synRcvd => exact rcvdIn_next s i t g o hx
  | lastAck => exact lastAckIn_next s i t g o hx
  | timeWait =>
    refine Next.stay t _ (Keep.refl t) rfl (fun _ => ⟨rfl, rfl⟩) (fun e he => ?_)
    simp only at he
    split at he <;> simp at he
    exact Or.inl he
  | est => exact syncIn_next s i t g o (by rw [hx]; rfl)
  | closeWait => exact syncIn_next s i t g o (by rw [hx]; rfl)
  | fw1 => exact syncIn_next s i t g o (by rw [hx]; rfl)
  | fw2 => exact syncIn_next s i t g o (by rw [hx]; rfl)
  | closing => exact syncIn_next s i t g o (by rw [hx]; rfl)
  | closed => exact Next.stay t _ (Keep.refl t) rfl (fun _ => ⟨rfl, rfl⟩) (by simp)
  | listen => exact Next.stay t _ (Keep.refl t) rfl (fun _ => ⟨rfl, rfl⟩) (by simp)
  | synSent => exact Next.stay t _ (Keep.refl t) rfl (fun _ => ⟨rfl, rfl⟩) (by simp)

/-- The window and MSS bookkeeping before the state machine. -/
def pre (t : Sock) (g : Seg) (o : Orc) : Sock :=
  let t := if g.syn = true ∧ (t.st = .listen ∨ t.st = .synSent) then { t with mss := o.mss } else t
  if g.rst = false ∧ o.winUp = true then { t with evW := true } else t

theorem pre_spec (t : Sock) (g : Seg) (o : Orc) : Keep t (pre t g o) ∧ (pre t g o).st = t.st ∧ (pre t g o).seq = t.seq ∧ (pre t g o).una = t.una ∧
    (pre t g o).ack = t.ack ∧ (pre t g o).last = t.last ∧ (pre t g o).evC = t.evC := by
  rw [pre]
  (repeat' split) <;> exact ⟨⟨rfl, rfl, rfl, rfl, rfl, rfl, rfl, rfl, rfl⟩, rfl, rfl, rfl, rfl, rfl, rfl⟩

/-- Rebase an outcome on the slot as it was before the bookkeeping. -/
theorem Next.rebase {s : St} {i : Nat} {t u : Sock} {g : Seg} {t' : Sock} {evs : List Ev} (h : Next s i u g t' evs) (hk : Keep t u) (h1 : u.st = t.st) (h2 : u.seq = t.seq)
    (h3 : u.una = t.una) (h4 : u.last = t.last) : Next s i t g t' evs := by
  cases h with
  | stay _ a b c d =>
    refine Next.stay t' evs (hk.trans a) (b.trans h1) ?_ ?_
    · rw [← h1, ← h2, ← h3]; exact c
    · rw [← h1, ← h2]; exact d
  | syn rnd a1 a2 a3 a4 a5 a6 a7 a8 =>
    refine Next.syn t' rnd (by rw [← h1]; exact a1) a2 a3 (by rw [← hk.blip]; exact a4) a5 a6 ?_ a8
    rw [← hk.used, ← hk.isL, ← hk.sport, ← hk.blip, ← hk.cb, ← hk.pend]; exact a7
  | synAck _ a1 a2 a3 a4 a5 a6 a7 =>
    refine Next.synAck t' evs (hk.trans a1) (by rw [← h1]; exact a2) a3 a4 ?_ a6 a7
    rw [synAckOk, ← h2, ← h3]; exact a5
  | lastOfThree _ a1 a2 a3 a4 a5 a6 => exact Next.lastOfThree t' evs (hk.trans a1) (by rw [← h1]; exact a2) a3 (by rw [← h3]; exact a4) a5 a6
  | move _ a1 a2 a3 a4 => exact Next.move t' evs (hk.trans a1) a2 (by rw [← h1, ← h4]; exact a3) (by rw [← h1]; exact a4)
  | done a1 a2 a3 a4 =>
    refine Next.done t' (by rw [← h1]; exact a1) a2 (by rw [← h4]; exact a3) ?_
    rcases a4 with ⟨b1, b2, b3⟩ | ⟨b1, b2⟩
    · exact Or.inl ⟨by rw [← hk.cb]; exact b1, hk.trans b2, b3⟩
    · exact Or.inr ⟨by rw [← hk.cb]; exact b1, b2⟩

/-- **The outcome of a segment without RST.** -/
theorem sockIn_next (s : St) (i : Nat) (t : Sock) (g : Seg) (o : Orc) (hr : g.rst = false) :
    Next s i t g (sockIn s i t g o).1 (sockIn s i t g o).2.1 := by
  rw [sockIn]
  by_cases h1 : g.bad
  · rw [if_pos h1]; exact Next.stay t _ (Keep.refl t) rfl (fun _ => ⟨rfl, rfl⟩) (by simp)
  rw [if_neg h1, if_neg (by simp [hr])]
  by_cases h2 : t.st = .listen ∧ g.ackF = true
  · rw [if_pos h2]
    refine Next.stay t _ (Keep.refl t) rfl (fun _ => ⟨rfl, rfl⟩) (fun e he => ?_)
    simp only at he
    split at he
    · simp at he
    · exact Or.inr (Or.inr (Or.inr ⟨he, h2.2, Or.inl h2.1⟩))
  rw [if_neg h2]
  have hpre := pre_spec t g o
  rw [show pre t g o = (let t := if g.syn = true ∧ (t.st = .listen ∨ t.st = .synSent) then { t with mss := o.mss } else t
      if g.rst = false ∧ o.winUp = true then { t with evW := true } else t) from rfl] at hpre
  simp only at hpre ⊢
  generalize (if g.rst = false ∧ o.winUp = true then { (if g.syn = true ∧ (t.st = .listen ∨ t.st = .synSent) then { t with mss := o.mss } else t) with evW := true }
      else (if g.syn = true ∧ (t.st = .listen ∨ t.st = .synSent) then { t with mss := o.mss } else t) : Sock) = u at hpre ⊢
  obtain ⟨p1, p2, p3, p4, p5, p6, p7⟩ := hpre
  rw [if_neg (by simp [hr])]
  rw [← p2] at h2
  apply Next.rebase _ p1 p2 p3 p4 p6
  by_cases h3 : u.st = .synSent ∧ g.ackF = true ∧ synAckOk u g.ack = false
  · rw [if_pos h3]
    exact Next.stay u _ (Keep.refl u) rfl (fun _ => ⟨rfl, rfl⟩) (fun e he => Or.inr (Or.inr (Or.inr ⟨he, h3.2.1, Or.inr (Or.inl h3.1)⟩)))
  rw [if_neg h3]
  by_cases h4 : g.syn = true ∧ u.st = .listen
  · rw [if_pos h4, listenSyn]
    have stay : Next s i u g u [] := Next.stay u _ (Keep.refl u) rfl (fun _ => ⟨rfl, rfl⟩) (by simp)
    by_cases h5 : g.dst = 0
    · rw [if_pos h5]; exact stay
    rw [if_neg h5]
    by_cases h6 : u.blip ≠ 0 ∧ u.blip ≠ g.dst
    · rw [if_pos h6]; exact stay
    rw [if_neg h6]
    by_cases h7 : dupOf s.socks i u g = true
    · rw [if_pos h7]; exact stay
    rw [if_neg h7]
    by_cases h8 : isLocal s.net g.dst = false
    · rw [if_pos h8]; exact stay
    rw [if_neg h8]
    refine Next.syn _ o.rnd h4.2 h4.1 (by cases hx : g.ackF with | false => rfl | true => exact absurd ⟨h4.2, hx⟩ h2) ?_ (by simpa using h8) rfl ⟨rfl, rfl, rfl, rfl, rfl, rfl⟩ ⟨rfl, rfl, rfl, rfl, rfl⟩
    by_cases hb : u.blip = 0
    · exact Or.inl hb
    · exact Or.inr (Classical.byContradiction (fun c => h6 ⟨hb, c⟩))
  rw [if_neg h4]
  by_cases h5 : u.st = .synSent ∧ g.syn = true ∧ g.ackF = true ∧ g.fin = false ∧ g.oth = false
  · rw [if_pos h5]
    simp only
    obtain ⟨a1, a2, a3, _, _⟩ := h5
    have hok : synAckOk u g.ack = true := by
      cases hx : synAckOk u g.ack with
      | true => rfl
      | false => exact absurd ⟨a1, a3, hx⟩ h3
    have hb := syncIn_next s i { u with st := .est, ctrl := false, retries := 0, ack := seqInc g.seq 1, seq := g.ack, una := g.ack, evW := u.evW || o.txRoom } g o rfl
    have hbody : bodyIn i { u with st := .est, ctrl := false, retries := 0, ack := seqInc g.seq 1, seq := g.ack, una := g.ack, evW := u.evW || o.txRoom } g o =
        syncIn i { u with st := .est, ctrl := false, retries := 0, ack := seqInc g.seq 1, seq := g.ack, una := g.ack, evW := u.evW || o.txRoom } g o := rfl
    rw [hbody]
    have hk1 : Keep u { u with st := .est, ctrl := false, retries := 0, ack := seqInc g.seq 1, seq := g.ack, una := g.ack, evW := u.evW || o.txRoom } := ⟨rfl, rfl, rfl, rfl, rfl, rfl, rfl, rfl, rfl⟩
    have hs1 : ({ u with st := .est, ctrl := false, retries := 0, ack := seqInc g.seq 1, seq := g.ack, una := g.ack, evW := u.evW || o.txRoom } : Sock).st = .est := rfl
    generalize ({ u with st := .est, ctrl := false, retries := 0, ack := seqInc g.seq 1, seq := g.ack, una := g.ack, evW := u.evW || o.txRoom } : Sock) = v at hb hbody hk1 hs1 ⊢
    have heq : ∀ r, r = syncIn i v g o → r.1 = v ∧ ∀ e ∈ r.2.1, e = .ack i := by
      intro r hr'
      rw [syncIn] at hr'
      by_cases q1 : o.pawsOk = false
      · rw [if_pos q1] at hr'; rw [hr']; refine ⟨rfl, ?_⟩; intro e he; simp only at he; split at he <;> simp at he; exact he
      rw [if_neg q1] at hr'
      by_cases q2 : acceptable v.ack o.space g = false
      · rw [if_pos q2] at hr'; rw [hr']; exact ⟨rfl, by simp⟩
      rw [if_neg q2, if_pos a2] at hr'; rw [hr']; exact ⟨rfl, by simp⟩
    obtain ⟨q1, q2⟩ := heq _ rfl
    refine Next.synAck _ _ (by rw [q1]; exact hk1) a1 a2 a3 hok (by rw [q1]; exact hs1) ?_
    intro e he
    rw [List.mem_cons] at he
    rcases he with he | he
    · exact he
    · exact q2 e he
  · rw [if_neg h5]
    exact bodyIn_next s i u g o

end Wolf.Sock
