import Verif.Tcp.Snd
/-
C12: unacknowledged data is never discarded.
-/
namespace Wolf.Tcp.Snd
open Wolf.Tcp

/-! ### A connection's sender together with what the outside world knows -/

/-- The sender, the initial sequence number of its data, the bytes `send()` has
accepted so far and the highest stream position acknowledged so far. The last
two are bookkeeping of the specification: they do not influence the code. -/
structure Conn where
  s : Snd
  iss : Nat
  acc : List UInt8
  hi : Nat

/-- What can happen to it. -/
inductive Ev where
  /-- `send()`; the stack cuts the buffer into these chunks -/
  | send (chunks : List (List UInt8))
  /-- the stack queues a pure ACK / SYN -/
  | queueEmpty
  /-- an acknowledgment of stream position `pos` arrives -/
  | ack (pos : Nat) (win : Nat) (blocks : List (Nat × Nat)) (hasData : Bool) (now : Nat)
  | peerFin
  | close (now : Nat)
  | fire (now : Nat) (queued : Bool)
  | flush (now fuel ok : Nat)
  | window (rwnd : Nat)

def sendOne (c : Conn) (chunk : List UInt8) : Conn :=
  let r := sendChunk c.s chunk
  { c with s := r.1, acc := if r.2 then c.acc ++ chunk else c.acc }

def step (c : Conn) : Ev → Conn
  | .send chunks => chunks.foldl sendOne c
  | .queueEmpty => { c with s := pushEmpty c.s }
  | .ack pos win blocks d now =>
      { c with s := tcpAck c.s ⟨sq c.iss pos, win, blocks, d, now⟩, hi := max c.hi pos }
  | .peerFin => { c with s := Snd.peerFin c.s }
  | .close now => { c with s := appClose c.s now }
  | .fire now queued => { c with s := Snd.fire c.s now queued }
  | .flush now fuel ok => { c with s := Snd.flush c.s now fuel ok }
  | .window w => { c with s := { c.s with peerRwnd := w } }

/-- No unsent empty segment is queued behind a data segment: the situation in
which `flush_tcp_tx` pops the right descriptor. -/
def NoOvertake (q : List Desc) : Prop :=
  ∀ (i j : Nat) (d e : Desc), i < j → q[i]? = some d → q[j]? = some e →
    e.data = [] → e.sent = false → d.data = []

/-- The events whose effect C12 is claimed for in state `c`: an acknowledgment
is of a position not beyond the data plus the FIN and less than half the
sequence space old; transmission happens without an empty segment behind data. -/
def Legit (c : Conn) : Ev → Prop
  | .ack pos _ _ _ _ => pos ≤ c.acc.length + 1 ∧ c.acc.length < pos + 2147483647
  | .flush _ _ _ => NoOvertake c.s.q
  | _ => True

def LegitRun : Conn → List Ev → Prop
  | _, [] => True
  | c, e :: es => Legit c e ∧ LegitRun (step c e) es

def run (c : Conn) (es : List Ev) : Conn := es.foldl step c

/-- Specification: byte `k` of the accepted stream is still available for
(re)transmission: some queued segment carries it under its sequence number. -/
def Retained (c : Conn) (k : Nat) : Prop :=
  ∃ d ∈ c.s.q, ∃ off, d.data[off]? = c.acc[k]? ∧ off ≤ k ∧ off < d.data.length ∧
    d.seq = sq c.iss (k - off)

/-! ### Invariant -/

/-- The queued data segments are consecutive pieces of `acc` from position `p`
to the end; those flagged ACKED end at or before `hi`. -/
def Chain (iss : Nat) (acc : List UInt8) (hi : Nat) : Nat → List Desc → Prop
  | p, [] => p = acc.length
  | p, d :: ds =>
      (d.data = [] ∧ Chain iss acc hi p ds) ∨
      (d.data ≠ [] ∧ d.seq = sq iss p ∧ p + d.data.length ≤ acc.length ∧
        (acc.drop p).take d.data.length = d.data ∧
        (d.acked = true → p + d.data.length ≤ hi) ∧ Chain iss acc hi (p + d.data.length) ds)

/-- The fields `Chain` looks at. -/
def key (d : Desc) : Nat × List UInt8 × Bool × Bool := (d.seq, d.data, d.acked, d.fin)

section chain
variable {iss : Nat} {acc : List UInt8} {hi : Nat}

theorem chain_congr : ∀ {q q' : List Desc} {p : Nat}, q'.map key = q.map key →
    Chain iss acc hi p q → Chain iss acc hi p q'
  | [], [], _, _, h => h
  | [], _ :: _, _, hk, _ => by simp at hk
  | _ :: _, [], _, hk, _ => by simp at hk
  | d :: ds, e :: es, p, hk, h => by
      simp only [List.map_cons, List.cons.injEq, key, Prod.mk.injEq] at hk
      obtain ⟨⟨h1, h2, h3⟩, h4⟩ := hk
      have h4 : es.map key = ds.map key := h4
      simp only [Chain] at h ⊢
      rw [h1, h2, h3.1]
      rcases h with ⟨a, b⟩ | ⟨a, b, c, d', e', f⟩
      · exact Or.inl ⟨a, chain_congr h4 b⟩
      · exact Or.inr ⟨a, b, c, d', e', chain_congr h4 f⟩

theorem chain_mono {hi' : Nat} (hle : hi ≤ hi') : ∀ {q : List Desc} {p : Nat},
    Chain iss acc hi p q → Chain iss acc hi' p q
  | [], _, h => h
  | d :: ds, p, h => by
      simp only [Chain] at h ⊢
      rcases h with ⟨a, b⟩ | ⟨a, b, c, d', e', f⟩
      · exact Or.inl ⟨a, chain_mono hle b⟩
      · exact Or.inr ⟨a, b, c, d', fun h => Nat.le_trans (e' h) hle, chain_mono hle f⟩

theorem chain_sum : ∀ {q : List Desc} {p : Nat}, Chain iss acc hi p q → p + queued q = acc.length
  | [], _, h => by simpa [queued, Chain] using h
  | d :: ds, p, h => by
      simp only [Chain] at h
      have hq : queued (d :: ds) = d.data.length + queued ds := by
        simp [queued, Desc.len]
      rcases h with ⟨a, b⟩ | ⟨a, b, c, d', e', f⟩
      · have := chain_sum b; rw [hq, a]; simp; omega
      · have := chain_sum f; rw [hq]; omega

theorem chain_at : ∀ {q : List Desc} {p i : Nat} {d : Desc}, Chain iss acc hi p q →
    q[i]? = some d → d.data ≠ [] →
    ∃ x, p ≤ x ∧ d.seq = sq iss x ∧ x + d.data.length ≤ acc.length ∧
      (∀ d', d'.seq = d.seq → d'.data = d.data → x + d.data.length ≤ hi →
        Chain iss acc hi p (q.set i d'))
  | [], _, _, _, _, h, _ => by simp at h
  | e :: es, p, 0, d, h, hd, hne => by
      simp only [List.getElem?_cons_zero, Option.some.injEq] at hd; subst hd
      simp only [Chain] at h
      rcases h with ⟨a, _⟩ | ⟨a, b, c, d', e', f⟩
      · exact absurd a hne
      · refine ⟨p, Nat.le_refl _, b, c, ?_⟩
        intro d'' h1 h2 h3
        simp only [List.set_cons_zero, Chain]
        right; rw [h1, h2]; exact ⟨a, b, c, d', fun _ => h3, f⟩
  | e :: es, p, i + 1, d, h, hd, hne => by
      simp only [List.getElem?_cons_succ] at hd
      simp only [Chain] at h
      rcases h with ⟨a, b⟩ | ⟨a, b, c, d', e', f⟩
      · obtain ⟨x, h1, h2, h3, h4⟩ := chain_at b hd hne
        refine ⟨x, h1, h2, h3, ?_⟩
        intro d'' g1 g2 g3
        simp only [List.set_cons_succ, Chain]
        exact Or.inl ⟨a, h4 d'' g1 g2 g3⟩
      · obtain ⟨x, h1, h2, h3, h4⟩ := chain_at f hd hne
        refine ⟨x, by omega, h2, h3, ?_⟩
        intro d'' g1 g2 g3
        simp only [List.set_cons_succ, Chain]
        exact Or.inr ⟨a, b, c, d', e', h4 d'' g1 g2 g3⟩

theorem chain_append_empty {s : Nat} {f : Bool} : ∀ {q : List Desc} {p : Nat}, Chain iss acc hi p q →
    Chain iss acc hi p (q ++ [{ seq := s, data := [], fin := f }])
  | [], p, h => by simp only [List.nil_append, Chain]; exact Or.inl ⟨trivial, h⟩
  | d :: ds, p, h => by
      simp only [List.cons_append, Chain] at h ⊢
      rcases h with ⟨a, b⟩ | ⟨a, b, c, d', e', f⟩
      · exact Or.inl ⟨a, chain_append_empty b⟩
      · exact Or.inr ⟨a, b, c, d', e', chain_append_empty f⟩

theorem chain_append {chunk : List UInt8} (hne : chunk ≠ []) :
    ∀ {q : List Desc} {p : Nat}, Chain iss acc hi p q →
    Chain iss (acc ++ chunk) hi p (q ++ [{ seq := sq iss acc.length, data := chunk }])
  | [], p, h => by
      simp only [Chain] at h; subst h
      simp only [List.nil_append, Chain]
      right; refine ⟨hne, trivial, by simp, by simp, by simp, by simp⟩
  | d :: ds, p, h => by
      simp only [List.cons_append, Chain] at h ⊢
      rcases h with ⟨a, b⟩ | ⟨a, b, c, d', e', f⟩
      · exact Or.inl ⟨a, chain_append hne b⟩
      · refine Or.inr ⟨a, b, by simp; omega, ?_, e', chain_append hne f⟩
        rw [List.drop_append_of_le_length (by omega), List.take_append_of_le_length
          (by simp; omega)]
        exact d'

/-- Removing the oldest segment when it is empty or acknowledged. -/
theorem chain_tail {d : Desc} {ds : List Desc} {p : Nat} (h : Chain iss acc hi p (d :: ds))
    (hp : p ≤ hi) (hc : d.data = [] ∨ d.acked = true) :
    ∃ p', p ≤ p' ∧ p' ≤ hi ∧ Chain iss acc hi p' ds := by
  simp only [Chain] at h
  rcases h with ⟨a, b⟩ | ⟨a, b, c, d', e', f⟩
  · exact ⟨p, Nat.le_refl _, hp, b⟩
  · rcases hc with hc | hc
    · exact absurd hc a
    · exact ⟨_, by omega, e' hc, f⟩

theorem chain_popAcked : ∀ {q : List Desc} {p : Nat}, Chain iss acc hi p q → p ≤ hi →
    ∃ p', p ≤ p' ∧ p' ≤ hi ∧ Chain iss acc hi p' (popAcked q)
  | [], p, h, hp => ⟨p, Nat.le_refl _, hp, h⟩
  | d :: ds, p, h, hp => by
      simp only [popAcked, List.dropWhile_cons]
      split
      · rename_i ha
        obtain ⟨p', h1, h2, h3⟩ := chain_tail h hp (Or.inr ha)
        obtain ⟨p'', h4, h5, h6⟩ := chain_popAcked h3 h2
        exact ⟨p'', by omega, h5, h6⟩
      · exact ⟨p, Nat.le_refl _, hp, h⟩

/-- The marking loop of `tcp_ack` only removes empty or covered segments. -/
theorem chain_ackMark {a : Nat} (ha : a ≤ hi) (ha1 : a ≤ acc.length + 1)
    (ha2 : acc.length < a + 2147483647) :
    ∀ (f : Nat) {q : List Desc} {i c p : Nat}, Chain iss acc hi p q → p ≤ hi →
      acc.length ≤ p + 32768 →
      (∀ j d, j < i → q[j]? = some d → d.acked = true) →
      ∃ p', p ≤ p' ∧ p' ≤ hi ∧ Chain iss acc hi p' (ackMark f q i (sq iss a) c).1
  | 0, q, i, c, p, h, hp, _, _ => ⟨p, Nat.le_refl _, hp, by simpa [ackMark] using h⟩
  | f + 1, q, i, c, p, h, hp, hw, hinv => by
      unfold ackMark
      cases hd : q[i]? with
      | none => exact ⟨p, Nat.le_refl _, hp, h⟩
      | some d =>
        simp only
        split
        · exact ⟨p, Nat.le_refl _, hp, h⟩
        · split
          · rename_i hemp
            have hemp : d.data = [] := List.isEmpty_iff.1 hemp
            cases q with
            | nil => simp at hd
            | cons e es =>
              have hc : e.data = [] ∨ e.acked = true := by
                cases i with
                | zero => simp at hd; exact Or.inl (hd ▸ hemp)
                | succ i => exact Or.inr (hinv 0 e (by omega) (by simp))
              obtain ⟨p', h1, h2, h3⟩ := chain_tail h hp hc
              obtain ⟨p'', h4, h5, h6⟩ := chain_ackMark ha ha1 ha2 f (i := 0) (c := c) h3 h2
                (by omega) (fun j d hj => absurd hj (by omega))
              exact ⟨p'', by omega, h5, h6⟩
          · rename_i hemp
            have hemp : d.data ≠ [] := fun h => hemp (by simp [h])
            split
            · rename_i hcov
              obtain ⟨x, h1, h2, h3, h4⟩ := chain_at h hd hemp
              have hend : (d.seq + d.len) % 4294967296 = sq iss (x + d.data.length) := by
                rw [h2]; unfold Desc.len sq; omega
              rw [hend] at hcov
              have hxa : x + d.data.length ≤ a :=
                ((seq_order_sound iss (x + d.data.length) a (by omega) (by omega)).2.1).1 hcov
              have hch := h4 { d with acked := true, sent := false, retrans := false } rfl rfl (by omega)
              apply chain_ackMark ha ha1 ha2 f hch hp hw
              intro j e hj he
              by_cases hji : j = i
              · subst hji
                rw [List.getElem?_set] at he
                simp only [if_true] at he
                split at he
                · simp only [Option.some.injEq] at he; subst he; rfl
                · simp at he
              · rw [List.getElem?_set_ne (by omega)] at he
                exact hinv j e (by omega) he
            · exact ⟨p, Nat.le_refl _, hp, h⟩

theorem chain_retained : ∀ {q : List Desc} {p k : Nat}, Chain iss acc hi p q → p ≤ k →
    k < acc.length → ∃ d ∈ q, ∃ off, d.data[off]? = acc[k]? ∧ off ≤ k ∧ off < d.data.length ∧
      d.seq = sq iss (k - off)
  | [], p, k, h, h1, h2 => by simp only [Chain] at h; omega
  | d :: ds, p, k, h, h1, h2 => by
      simp only [Chain] at h
      rcases h with ⟨a, b⟩ | ⟨a, b, c, d', e', f⟩
      · obtain ⟨e, he, r⟩ := chain_retained b h1 h2
        exact ⟨e, List.mem_cons_of_mem _ he, r⟩
      · by_cases hk : k < p + d.data.length
        · refine ⟨d, List.mem_cons_self .., k - p, ?_, by omega, by omega, ?_⟩
          · rw [← d', List.getElem?_take_of_lt (by omega), List.getElem?_drop]
            congr 1; omega
          · rw [b]; congr 1; omega
        · obtain ⟨e, he, r⟩ := chain_retained f (by omega) h2
          exact ⟨e, List.mem_cons_of_mem _ he, r⟩

end chain

/-! ### Flag-only operations -/

theorem keys_set (q : List Desc) (i : Nat) (d e : Desc) (h : q[i]? = some d) (hf : key e = key d) :
    (q.set i e).map key = q.map key := by
  rw [List.map_set, hf]
  apply List.ext_getElem?
  intro j
  rw [List.getElem?_set]
  split
  · rename_i hij
    have : (q.map key)[i]? = some (key d) := by simp [h]
    rw [← hij, this]; split
    · rfl
    · rename_i hl; simp at hl
      have := (List.getElem?_eq_some_iff.1 h).1; omega
  · rfl

theorem keys_setAt (q : List Desc) (i : Nat) (f : Desc → Desc) (hf : ∀ d, key (f d) = key d) :
    (setAt q i f).map key = q.map key := by
  unfold setAt
  cases h : q[i]? with
  | none => rfl
  | some d => exact keys_set q i d (f d) h (hf d)

/-- `s'` differs from `s` only in flags, counters and timers. -/
structure Frame (s s' : Snd) : Prop where
  st : s'.st = s.st
  seq : s'.seq = s.seq
  keys : s'.q.map key = s.q.map key

theorem Frame.refl (s : Snd) : Frame s s := ⟨rfl, rfl, rfl⟩
theorem Frame.trans {a b c : Snd} (h1 : Frame a b) (h2 : Frame b c) : Frame a c :=
  ⟨h2.st.trans h1.st, h2.seq.trans h1.seq, h2.keys.trans h1.keys⟩

theorem frame_cancel (s : Snd) : Frame s (cancelTmr s) := by
  unfold cancelTmr; split <;> exact ⟨rfl, rfl, rfl⟩

theorem frame_doMark (s : Snd) (i : Nat) : Frame s (doMark s i) :=
  ⟨rfl, rfl, keys_setAt _ _ _ (fun _ => rfl)⟩

theorem frame_mark (s : Snd) (a : Nat) : Frame s (markUnsacked s a).1 := by
  unfold markUnsacked
  cases scanUnsacked s.peerSack a s.q 0 with
  | mark i => exact frame_doMark s i
  | pending => exact Frame.refl s
  | none c =>
    simp only
    split
    · exact Frame.refl s
    · cases scanUnsacked [] a s.q 0 with
      | mark i => exact Frame.trans (b := { s with peerSack := [] }) ⟨rfl, rfl, rfl⟩ (frame_doMark _ i)
      | pending => exact ⟨rfl, rfl, rfl⟩
      | none c => exact ⟨rfl, rfl, rfl⟩

theorem frame_processSack (s : Snd) (b : List (Nat × Nat)) : Frame s (processSack s b) := by
  unfold processSack; split <;> exact ⟨rfl, rfl, rfl⟩

theorem frame_rearm (s : Snd) (n : Nat) : Frame s (rearm s n) := by
  unfold rearm
  split
  · exact Frame.refl s
  · split
    · exact (frame_cancel s).trans ⟨rfl, rfl, rfl⟩
    · exact frame_cancel s

theorem frame_advance (s : Snd) (a : AckSeg) (d : Nat) : Frame s (advanceUna s a d) :=
  Frame.trans (b := advanceFields s a.ack d) ⟨rfl, rfl, rfl⟩ (frame_rearm _ _)

theorem frame_cc (s : Snd) (a : AckSeg) (d : Nat) : Frame s (ccAdvance s a d).1 := by
  unfold ccAdvance
  split
  · split
    · exact Frame.trans (b := { s with dupAcks := 3, cwnd := partialCwnd s d, cwndCount := 0 })
        ⟨rfl, rfl, rfl⟩ (frame_mark _ _)
    · exact ⟨rfl, rfl, rfl⟩
  · exact ⟨rfl, rfl, rfl⟩

theorem frame_ackAdvance (s : Snd) (a : AckSeg) : Frame s (ackAdvance s a).1 := by
  unfold ackAdvance
  split
  · exact (frame_advance _ _ _).trans (frame_cc _ _ _)
  · exact Frame.refl s

theorem frame_grow (s : Snd) (n : Nat) : Frame s (grow s n) := by
  unfold grow
  split
  · split
    · exact ⟨rfl, rfl, rfl⟩
    · split <;> exact ⟨rfl, rfl, rfl⟩
  · exact Frame.refl s

theorem frame_early (s : Snd) (a : Nat) : Frame s (tryEarly s a).1 := by
  unfold tryEarly; split
  · exact frame_mark _ _
  · exact Frame.refl s

theorem frame_enter (s : Snd) (a n : Nat) : Frame s (enterRecovery s a n) :=
  Frame.trans (b := { s with
    ssthresh := lossThresh n s.smss,
    cwnd := (lossThresh n s.smss + 3 * s.smss) % 4294967296,
    cwndCount := 0, fastRec := true, recPt := s.seq }) ⟨rfl, rfl, rfl⟩ (frame_mark _ _)

theorem frame_onDup (s : Snd) (a n : Nat) : Frame s (onDup s a n) := by
  unfold onDup
  split
  · exact (frame_early s a).trans ⟨rfl, rfl, rfl⟩
  · split
    · exact frame_early s a
    · split
      · exact (frame_early s a).trans (frame_enter _ _ _)
      · exact (frame_early s a).trans ⟨rfl, rfl, rfl⟩

theorem frame_dup (s : Snd) (a : AckSeg) (n : Nat) (w : Bool) : Frame s (dupAck s a n w) := by
  unfold dupAck
  split
  · exact Frame.refl s
  split
  · exact Frame.refl s
  split
  · exact Frame.refl s
  split
  · exact Frame.refl s
  exact Frame.trans (b := bumpDup s) ⟨rfl, rfl, rfl⟩ (frame_onDup _ _ _)

/-! ### The invariant along a run -/

/-- The connection no longer exists. -/
def Gone (s : Snd) : Prop := s.st = .closed ∨ s.st = .listen

structure Good (iss : Nat) (acc : List UInt8) (hi : Nat) (s : Snd) (p : Nat) : Prop where
  le : p ≤ hi
  hib : hi ≤ acc.length + 1
  cap : acc.length ≤ p + 32768
  chain : Chain iss acc hi p s.q
  seq : s.seq = sq iss acc.length

def Inv (iss : Nat) (acc : List UInt8) (hi : Nat) (s : Snd) : Prop :=
  Gone s ∨ ∃ p, Good iss acc hi s p

theorem gone_frame {s s' : Snd} (h : Frame s s') (g : Gone s) : Gone s' := by
  unfold Gone at *; rw [h.st]; exact g

/-- Same queue and sequence number; the state may change, but not out of "gone". -/
structure Frame2 (s s' : Snd) : Prop where
  st : Gone s → Gone s'
  seq : s'.seq = s.seq
  keys : s'.q.map key = s.q.map key

theorem Frame.two {s s' : Snd} (h : Frame s s') : Frame2 s s' := ⟨gone_frame h, h.seq, h.keys⟩
theorem Frame2.trans {a b c : Snd} (h1 : Frame2 a b) (h2 : Frame2 b c) : Frame2 a c :=
  ⟨fun g => h2.st (h1.st g), h2.seq.trans h1.seq, h2.keys.trans h1.keys⟩

theorem frame2_setst {s : Snd} (t : State) (h : s.st ≠ .closed) (h2 : s.st ≠ .listen) :
    Frame2 s { s with st := t } :=
  ⟨fun g => by rcases g with g | g; exact absurd g h; exact absurd g h2, rfl, rfl⟩

theorem frame_ctrlStop (s : Snd) : Frame s (ctrlStop s) :=
  (frame_cancel s).trans ⟨rfl, rfl, rfl⟩

theorem frame_fw2Start (s : Snd) (n : Nat) : Frame s (fw2Start s n) :=
  (frame_cancel s).trans ⟨rfl, rfl, rfl⟩

theorem frame_ctrlStart (s : Snd) (n : Nat) : Frame s (ctrlStart s n) := by
  refine Frame.trans (b := cancelTmr { s with fw2 := false }) ?_ ⟨rfl, rfl, rfl⟩
  exact Frame.trans (b := { s with fw2 := false }) ⟨rfl, rfl, rfl⟩ (frame_cancel _)

theorem frame2_fin1 (s : Snd) (a : AckSeg) : Frame2 s (ackFinWait1 s a) := by
  unfold ackFinWait1
  split
  · rename_i h
    refine Frame2.trans (frame2_setst .finWait2 (by simp [h.1]) (by simp [h.1])) ?_
    exact ((frame_ctrlStop _).trans (frame_fw2Start _ _)).two
  · exact (Frame.refl s).two

theorem frame2_closing (s : Snd) (a : AckSeg) : Frame2 s (ackClosing s a) := by
  unfold ackClosing
  split
  · rename_i h
    exact Frame2.trans (frame2_setst .timeWait (by simp [h.1]) (by simp [h.1])) (frame_ctrlStop _).two
  · exact (Frame.refl s).two

theorem gone_close (s : Snd) : Gone (closeSocket s) := by
  unfold closeSocket; exact Or.inl rfl

theorem gone_revert (s : Snd) : Gone (revertListen s) := by
  unfold revertListen; exact Or.inr rfl

/-- The state of the socket before the marking loop of `tcp_ack`. -/
def preMark (s : Snd) (a : AckSeg) : Snd :=
  processSack (ackClosing (ackFinWait1 { s with lastPeerWin := a.win } a) a) a.blocks

theorem frame2_preMark (s : Snd) (a : AckSeg) : Frame2 s (preMark s a) := by
  unfold preMark
  refine Frame2.trans (b := { s with lastPeerWin := a.win }) (Frame.two ⟨rfl, rfl, rfl⟩) ?_
  exact ((frame2_fin1 _ a).trans (frame2_closing _ a)).trans (frame_processSack _ _).two

theorem ackFront_eq (s : Snd) (a : AckSeg) : ackFront s a =
    ({ preMark s a with q := (ackMark (ackFuel (preMark s a).q) (preMark s a).q 0 a.ack 0).1 },
     (ackMark (ackFuel (preMark s a).q) (preMark s a).q 0 a.ack 0).2) := rfl

section inv
variable {iss : Nat} {acc : List UInt8} {hi : Nat} {s : Snd}

theorem inv_frame {s' : Snd} (h : Frame s s') (g : Inv iss acc hi s) : Inv iss acc hi s' := by
  rcases g with g | ⟨p, g⟩
  · exact Or.inl (gone_frame h g)
  · exact Or.inr ⟨p, g.le, g.hib, g.cap, chain_congr h.keys g.chain, h.seq.trans g.seq⟩

theorem inv_frame2 {s' : Snd} (h : Frame2 s s') (g : Inv iss acc hi s) : Inv iss acc hi s' := by
  rcases g with g | ⟨p, g⟩
  · exact Or.inl (h.st g)
  · exact Or.inr ⟨p, g.le, g.hib, g.cap, chain_congr h.keys g.chain, h.seq.trans g.seq⟩

theorem inv_ackFront (a : AckSeg) (pos : Nat) (hack : a.ack = sq iss pos)
    (hl : pos ≤ acc.length + 1 ∧ acc.length < pos + 2147483647) (g : Inv iss acc hi s) :
    Inv iss acc (max hi pos) (ackFront s a).1 := by
  rw [ackFront_eq]
  rcases inv_frame2 (frame2_preMark s a) g with g | ⟨p, g⟩
  · exact Or.inl g
  · right
    have hch := chain_mono (hi' := max hi pos) (by omega) g.chain
    have gle := g.le
    have gcap := g.cap
    have ghi := g.hib
    obtain ⟨p', h1, h2, h3⟩ := chain_ackMark (a := pos) (hi := max hi pos) (by omega) hl.1 hl.2
      (ackFuel (preMark s a).q) (i := 0) (c := 0) hch (by omega) gcap
      (fun j d hj => absurd hj (by omega))
    refine ⟨p', h2, by omega, by omega, ?_, g.seq⟩
    simp only [hack]; exact h3

theorem inv_pop (g : Inv iss acc hi s) : Inv iss acc hi { s with q := popAcked s.q } := by
  rcases g with g | ⟨p, g⟩
  · exact Or.inl g
  · obtain ⟨p', h1, h2, h3⟩ := chain_popAcked g.chain g.le
    have := g.cap
    exact Or.inr ⟨p', h2, g.hib, by omega, h3, g.seq⟩

theorem inv_ack (a : AckSeg) (pos : Nat) (hack : a.ack = sq iss pos)
    (hl : pos ≤ acc.length + 1 ∧ acc.length < pos + 2147483647) (g : Inv iss acc hi s) :
    Inv iss acc (max hi pos) (tcpAck s a) := by
  unfold tcpAck
  split
  · exact Or.inl (gone_close _)
  · have hadv := inv_frame (frame_ackAdvance (ackFront s a).1 a) (inv_ackFront a pos hack hl g)
    simp only
    split
    · split
      · exact inv_frame (frame_grow _ _) (inv_pop hadv)
      · exact inv_pop hadv
    · exact inv_frame (frame_dup _ _ _ _) hadv

theorem inv_push (f : Bool) (g : Inv iss acc hi s) : Inv iss acc hi (pushEmpty s f) := by
  rcases g with g | ⟨p, g⟩
  · exact Or.inl g
  · exact Or.inr ⟨p, g.le, g.hib, g.cap, chain_append_empty g.chain, g.seq⟩

theorem inv_rtoData (now : Nat) (g : Inv iss acc hi s) : Inv iss acc hi (rtoData s now) := by
  unfold rtoData
  cases rtoTarget s with
  | none =>
    refine inv_frame ?_ g
    refine Frame.trans (b := cancelTmr { s with peerSack := [], inflight := 0 }) ?_ ⟨rfl, rfl, rfl⟩
    exact Frame.trans (b := { s with peerSack := [], inflight := 0 }) ⟨rfl, rfl, rfl⟩ (frame_cancel _)
  | some i =>
    simp only
    split
    · exact Or.inl (gone_close _)
    · refine inv_frame ?_ g
      refine Frame.trans (b := cancelTmr { s with peerSack := [], q := setAt s.q i Desc.markRetrans, inflight := 0 }) ?_ ⟨rfl, rfl, rfl⟩
      exact Frame.trans (b := { s with peerSack := [], q := setAt s.q i Desc.markRetrans, inflight := 0 })
        ⟨rfl, rfl, keys_setAt _ _ _ (fun _ => rfl)⟩ (frame_cancel _)

theorem inv_ctrlCb (now : Nat) (qd : Bool) (g : Inv iss acc hi s) :
    Inv iss acc hi (ctrlCb s now qd) := by
  unfold ctrlCb
  split
  · exact inv_frame (frame_ctrlStop _) g
  · split
    · split
      · exact Or.inl (gone_revert _)
      · exact Or.inl (gone_close _)
    · have hp := fun f => inv_push f g
      unfold ctrlResend
      split
      · split
        · refine inv_frame (frame_ctrlStart _ _) (inv_frame (s := pushEmpty s true) ⟨rfl, rfl, rfl⟩ (hp true))
        · refine inv_frame (frame_ctrlStart _ _) (inv_frame (s := pushEmpty s) ⟨rfl, rfl, rfl⟩ (hp false))
      · exact inv_frame (frame_ctrlStart _ _) g

theorem inv_rtoCb (now : Nat) (qd : Bool) (g : Inv iss acc hi s) :
    Inv iss acc hi (rtoCb s now qd) := by
  unfold rtoCb
  split
  · split
    · exact inv_frame ((frame_cancel _).trans ⟨rfl, rfl, rfl⟩) g
    · exact Or.inl (gone_close _)
  · split
    · split
      · exact inv_frame ((frame_cancel _).trans ⟨rfl, rfl, rfl⟩) g
      · exact Or.inl (gone_revert _)
    · split
      · exact inv_ctrlCb now qd g
      · split
        · exact inv_frame (Frame.refl _) g
        · exact inv_rtoData now g

theorem inv_fire (now : Nat) (qd : Bool) (g : Inv iss acc hi s) :
    Inv iss acc hi (fire s now qd) := by
  unfold fire
  split
  · exact g
  · split
    · exact inv_rtoCb (s := { s with armed := none }) now qd (inv_frame (s := s) ⟨rfl, rfl, rfl⟩ g)
    · exact g

theorem inv_send1 (chunk : List UInt8) (g : Inv iss acc hi s) :
    Inv iss (if (sendChunk s chunk).2 then acc ++ chunk else acc) hi (sendChunk s chunk).1 := by
  unfold sendChunk
  split
  · rename_i h
    rcases g with g | ⟨p, g⟩
    · unfold Gone at g; rcases g with g | g <;> simp [g] at h
    · right
      refine ⟨p, g.le, ?_, ?_, ?_, ?_⟩
      · have := g.hib; simp; omega
      · have := chain_sum g.chain
        have h3 := h.2.2
        simp only [TXBUF] at h3
        simp; omega
      · have := chain_append h.2.1 g.chain
        simp only [if_true]
        rw [g.seq]; exact this
      · simp only [if_true, List.length_append]
        rw [g.seq]; unfold sq; omega
  · simpa using g

theorem frame_resync (s : Snd) (now : Nat) : Frame s (resync s now) := by
  unfold resync
  split
  · exact Frame.refl s
  split
  · exact ⟨rfl, rfl, rfl⟩
  split
  · exact ⟨rfl, rfl, rfl⟩
  split
  · exact Frame.trans (b := { s with inflight := sentBytes s.q }) ⟨rfl, rfl, rfl⟩ (frame_cancel _)
  · exact ⟨rfl, rfl, rfl⟩

theorem cancel_q (s : Snd) : (cancelTmr s).q = s.q := by unfold cancelTmr; split <;> rfl

theorem resync_q (s : Snd) (now : Nat) : (resync s now).q = s.q := by
  unfold resync
  split
  · rfl
  split
  · rfl
  split
  · rfl
  split
  · exact cancel_q _
  · rfl

theorem noOvertake_set {q : List Desc} {i : Nat} {d e : Desc} (h : NoOvertake q)
    (hd : q[i]? = some d) (he : e.data = d.data) (hs : e.sent = true) : NoOvertake (q.set i e) := by
  intro j k x y hjk hx hy hye hys
  rw [List.getElem?_set] at hx hy
  have hlt := (List.getElem?_eq_some_iff.1 hd).1
  split at hy
  · subst_vars; simp only [Option.some.injEq] at hy; subst hy; simp [hs] at hys
  · split at hx
    · subst_vars; simp only [Option.some.injEq] at hx; subst hx
      rw [he]; exact h _ _ _ _ hjk hd hy hye hys
    · exact h _ _ _ _ hjk hx hy hye hys

theorem noOvertake_tail {q : List Desc} (h : NoOvertake q) : NoOvertake q.tail := by
  cases q with
  | nil => exact h
  | cons a as =>
    intro i j d e hij hi hj
    exact h (i + 1) (j + 1) d e (by omega) (by simpa using hi) (by simpa using hj)

theorem frame_txData (s : Snd) (i : Nat) (d : Desc) (now : Nat) (hd : s.q[i]? = some d) :
    Frame s (txData s i d now) := by
  unfold txData
  refine Frame.trans (b := cancelTmr { s with q := s.q.set i d.markSent, inflight := if d.retrans then s.inflight else s.inflight + d.len }) ?_ ⟨rfl, rfl, rfl⟩
  exact Frame.trans (b := { s with q := s.q.set i d.markSent, inflight := if d.retrans then s.inflight else s.inflight + d.len }) ⟨rfl, rfl, keys_set _ _ d _ hd rfl⟩ (frame_cancel _)

theorem txData_q (s : Snd) (i : Nat) (d : Desc) (now : Nat) :
    (txData s i d now).q = s.q.set i d.markSent := by
  unfold txData armTmr; exact cancel_q _

/-- Transmitting an empty segment with nothing but empty ones before it. -/
theorem inv_txEmpty {i : Nat} {d : Desc} (hno : NoOvertake s.q) (hd : s.q[i]? = some d)
    (hsent : d.sent = false) (hemp : d.data = []) (g : Inv iss acc hi s) :
    Inv iss acc hi { s with q := (s.q.set i d.markSent).tail } := by
  rcases g with g | ⟨p, g⟩
  · exact Or.inl g
  · have hch := chain_congr (keys_set _ _ d _ hd rfl : (s.q.set i d.markSent).map key = _) g.chain
    generalize hq : s.q.set i d.markSent = q' at *
    cases q' with
    | nil => exact Or.inr ⟨p, g.le, g.hib, g.cap, hch, g.seq⟩
    | cons e es =>
      have he : e.data = [] := by
        have h0 : (s.q.set i d.markSent)[0]? = some e := by rw [hq]; rfl
        rw [List.getElem?_set] at h0
        split at h0
        · split at h0
          · simp only [Option.some.injEq] at h0; rw [← h0]; exact hemp
          · simp at h0
        · rename_i hi0
          exact hno 0 i e d (by omega) h0 hd hemp hsent
      obtain ⟨p', h1, h2, h3⟩ := chain_tail hch g.le (Or.inl he)
      have := g.cap
      exact Or.inr ⟨p', h2, g.hib, by omega, h3, g.seq⟩

theorem inv_flushLoop : ∀ (f ok : Nat) (s : Snd) (i now : Nat), NoOvertake s.q → Inv iss acc hi s →
    Inv iss acc hi (flushLoop f ok s i now)
  | 0, _, s, _, _, _, g => g
  | f + 1, ok, s, i, now, hno, g => by
      unfold flushLoop
      cases hd : s.q[i]? with
      | none => exact g
      | some d =>
        simp only
        split
        · exact inv_flushLoop f ok s (i + 1) now hno g
        · rename_i hsent
          have hsent : d.sent = false := by simpa using hsent
          split
          · cases ok with
            | zero => exact g
            | succ ok =>
              simp only
              have hno' : NoOvertake (s.q.set i d.markSent) := noOvertake_set hno hd rfl rfl
              split
              · rename_i hemp
                have hemp : d.data = [] := List.isEmpty_iff.1 hemp
                exact inv_flushLoop f ok _ 0 now (noOvertake_tail hno')
                  (inv_txEmpty hno hd hsent hemp g)
              · exact inv_flushLoop f ok _ (i + 1) now (by rw [txData_q]; exact hno')
                  (inv_frame (frame_txData s i d now hd) g)
          · cases findRetrans s.q i with
            | none => exact g
            | some j =>
              simp only
              split
              · exact inv_flushLoop f ok s j now hno g
              · exact g

theorem inv_peerFin (g : Inv iss acc hi s) : Inv iss acc hi (peerFin s) := by
  unfold peerFin
  split
  · rename_i h
    exact inv_push _ (inv_frame2 (frame2_setst .closeWait (by simp [h]) (by simp [h])) g)
  · rename_i h
    exact inv_push _ (inv_frame2 (frame2_setst .closing (by simp [h]) (by simp [h])) g)
  · exact g

theorem inv_appClose (now : Nat) (g : Inv iss acc hi s) : Inv iss acc hi (appClose s now) := by
  have hp := inv_push true g
  have key : ∀ t : State, s.st ≠ .closed → s.st ≠ .listen →
      Inv iss acc hi (ctrlStart { pushEmpty s true with last := s.seq, st := t, ctrlRetries := 0 } now) := by
    intro t h1 h2
    refine inv_frame (frame_ctrlStart _ _) ?_
    refine inv_frame2 (s := pushEmpty s true) ⟨?_, rfl, rfl⟩ hp
    intro g'; rcases g' with g' | g'
    · exact absurd g' h1
    · exact absurd g' h2
  unfold appClose
  split
  · rename_i h; exact key .finWait1 (by simp [h]) (by simp [h])
  · rename_i h; exact key .lastAck (by simp [h]) (by simp [h])
  · exact g

end inv

theorem inv_send (c : Conn) (chunks : List (List UInt8)) (g : Inv c.iss c.acc c.hi c.s) :
    Inv (step c (.send chunks)).iss (step c (.send chunks)).acc (step c (.send chunks)).hi
      (step c (.send chunks)).s := by
  simp only [step]
  induction chunks generalizing c with
  | nil => exact g
  | cons x xs ih => exact ih _ (inv_send1 x g)

theorem inv_step (c : Conn) (e : Ev) (hl : Legit c e) (g : Inv c.iss c.acc c.hi c.s) :
    Inv (step c e).iss (step c e).acc (step c e).hi (step c e).s := by
  cases e with
  | send chunks => exact inv_send c chunks g
  | queueEmpty => exact inv_push _ g
  | ack pos win blocks d now => exact inv_ack ⟨sq c.iss pos, win, blocks, d, now⟩ pos rfl hl g
  | peerFin => exact inv_peerFin g
  | close now => exact inv_appClose now g
  | fire now qd => exact inv_fire now qd g
  | flush now fuel ok =>
    exact inv_flushLoop fuel ok (resync c.s now) 0 now
      (by rw [resync_q]; exact hl) (inv_frame (frame_resync _ _) g)
  | window w => exact inv_frame (s := c.s) (s' := { c.s with peerRwnd := w }) ⟨rfl, rfl, rfl⟩ g

theorem inv_run : ∀ (es : List Ev) (c : Conn), LegitRun c es → Inv c.iss c.acc c.hi c.s →
    Inv (run c es).iss (run c es).acc (run c es).hi (run c es).s
  | [], _, _, g => g
  | e :: es, c, h, g => inv_run es (step c e) h.2 (inv_step c e h.1 g)

/-- A freshly established connection: empty queue. -/
def Fresh (c : Conn) : Prop :=
  c.s.q = [] ∧ c.acc = [] ∧ c.hi = 0 ∧ c.s.seq = sq c.iss 0

/-- **C12 (partial)**: from connection establishment, through any history of
sends, ACKs (new, old, duplicate, with any SACK blocks), FINs, closes, timer
expirations and transmissions, as long as ACKs do not go beyond the data and FIN
handed to the connection and no empty segment is transmitted while data is
queued in front of it, every accepted byte not yet acknowledged is still
queued under its sequence number (or the connection is gone).

What is missing from the full property: the two excluded cases, which really
lose data - see `empty_segment_transmission_discards_data` and
`ack_beyond_sent_discards_data`. -/
theorem unacked_data_is_retained_partial (c : Conn) (es : List Ev) (h0 : Fresh c)
    (hl : LegitRun c es) (hlive : (run c es).s.st ≠ .closed ∧ (run c es).s.st ≠ .listen) :
    ∀ k, (run c es).hi ≤ k → k < (run c es).acc.length → Retained (run c es) k := by
  intro k h1 h2
  have hi0 : Inv c.iss c.acc c.hi c.s := by
    obtain ⟨a, b, cc, d⟩ := h0
    refine Or.inr ⟨0, by omega, by omega, by simp [b], ?_, by rw [b, d]; rfl⟩
    rw [a, b]; rfl
  rcases inv_run es c hl hi0 with g | ⟨p, g⟩
  · rcases g with g | g
    · exact absurd g hlive.1
    · exact absurd g hlive.2
  · exact chain_retained g.chain (Nat.le_trans g.le h1) h2

/-! ### The violations -/

/-- An established connection with a 536-byte MSS, used in the examples. -/
def exConn : Conn :=
  { s := { st := .established, q := [], seq := 5000, sndUna := 5000, last := 0, inflight := 0,
           cwnd := 4000, ssthresh := 32768, peerRwnd := 8000, smss := 1460 },
    iss := 5000, acc := [], hi := 0 }

/-- **C12 is violated by transmission**: `send("ab")`, transmit (the segment may
be lost), then the peer's data makes the stack queue a pure ACK and transmit
it: `flush_tcp_tx` pops the oldest descriptor instead of the ACK, so the two
unacknowledged bytes are gone for good although no ACK was received. -/
theorem empty_segment_transmission_discards_data :
    Fresh exConn ∧
    let c := run exConn [.send [[1, 2]], .flush 10 99 99, .queueEmpty, .flush 20 99 99]
    c.hi = 0 ∧ c.acc = [1, 2] ∧ c.s.st = .established ∧ c.s.sndUna = 5000 ∧
    ¬ Retained c 0 ∧ ¬ Retained c 1 ∧ c.s.q.all (fun d => d.data.isEmpty) = true := by
  refine ⟨⟨rfl, rfl, rfl, ?_⟩, ?_⟩
  · unfold sq; decide
  · have hq : (run exConn [.send [[1, 2]], .flush 10 99 99, .queueEmpty, .flush 20 99 99]).s.q
        = [{ seq := 5002, data := [], sent := true }] := by decide +kernel
    refine ⟨by decide +kernel, by decide +kernel, by decide +kernel, by decide +kernel, ?_, ?_, ?_⟩
    · rintro ⟨d, hd, off, -, -, h, -⟩
      rw [hq] at hd; simp at hd; subst hd; simp at h
    · rintro ⟨d, hd, off, -, -, h, -⟩
      rw [hq] at hd; simp at hd; subst hd; simp at h
    · rw [hq]; rfl

/-- **C12 is violated by a forged ACK**: an ACK number far beyond anything sent
is not rejected; the sent segment is dropped from the retransmission queue
although SND.UNA does not move. -/
theorem ack_beyond_sent_discards_data :
    let c := run exConn [.send [[1, 2]], .flush 10 99 99, .ack 1000000 100 [] false 20]
    c.s.st = .established ∧ c.s.sndUna = 5000 ∧ c.s.seq = 5002 ∧ c.s.q = [] := by
  refine ⟨?_, ?_, ?_, ?_⟩ <;> decide +kernel

/-- Non-vacuity: a legitimate run with loss, SACK, retransmission timeout and a
partial ACK that leaves bytes outstanding. -/
example : ∃ es, LegitRun exConn es ∧ (run exConn es).s.st = .established ∧
    (run exConn es).hi = 3 ∧ (run exConn es).acc.length = 6 ∧
    (run exConn es).s.q.length = 1 := by
  refine ⟨[.send [[1, 2, 3], [4, 5, 6]], .flush 10 99 99, .fire 2000 true, .flush 2001 99 99,
    .ack 3 100 [] false 2100], ?_, ?_, ?_, ?_, ?_⟩
  · refine ⟨trivial, ?_, trivial, ?_, ?_, trivial⟩
    · intro i j d e _ _ hj he
      have : ∀ x ∈ (step exConn (.send [[1, 2, 3], [4, 5, 6]])).s.q, x.data ≠ [] := by decide +kernel
      exact absurd he (this e (List.mem_of_getElem? hj))
    · intro i j d e _ _ hj he
      have : ∀ x ∈ (step (step (step exConn (.send [[1, 2, 3], [4, 5, 6]])) (.flush 10 99 99)) (.fire 2000 true)).s.q, x.data ≠ [] := by decide +kernel
      exact absurd he (this e (List.mem_of_getElem? hj))
    · simp only [Legit]
      constructor <;> decide +kernel
  all_goals decide +kernel

end Wolf.Tcp.Snd
