import Verif.Tcp.SndLive
import Verif.Tcp.SndCC
import Verif.Tcp.RecvProps

/-!
# What the sender puts on the wire

`flushOut` collects the segments one turn of `flush_tcp_tx` transmits, `probe` the segment of the
zero-window probe.  Proved here: whatever happens to the connection (any acknowledgments, genuine or
forged, any timers, losses and refusals), every data segment transmitted carries exactly the bytes
the application handed to `send()` at the stream position its sequence number names, and a FIN is
transmitted only after `close()`, at the end of the stream.
-/
namespace Wolf.Tcp.Snd
open Wolf.Tcp

/-- The segments transmitted by the loop of `flush_tcp_tx`, in order: the same walk as `flushLoop`
(src/wolfip.c 11312-11446). -/
def flushOut : Nat → Nat → Snd → Nat → Nat → List Desc
  | 0, _, _, _, _ => []
  | f + 1, ok, s, i, now =>
      match s.q[i]? with
      | none => []
      | some d =>
          if d.sent then flushOut f ok s (i + 1) now
          else if mayTx s d then
            match ok with
            | 0 => []
            | ok + 1 =>
                if d.data.isEmpty then
                  d :: flushOut f ok { s with q := (s.q.set i d.markSent).tail } 0 now
                else d :: flushOut f ok (txData s i d now) (i + 1) now
          else
            match findRetrans s.q i with
            | some j => if j ≠ i then flushOut f ok s j now else []
            | none => []

/-- First queued segment with payload. -/
def firstData (q : List Desc) : Option Desc := q.find? (fun d => !d.data.isEmpty)

/-- `tcp_persist_cb` / `tcp_send_zero_wnd_probe`, src/wolfip.c 4159-4216, 4268-4291: sequence number
and byte of the probe, if one is sent (it may then be lost; the connection's sender fields do not
change). `payload[probe_off]` is a checked load here: `none` if outside the payload. -/
def probe (s : Snd) : Option (Nat × List UInt8) :=
  if s.st ≠ .established ∧ s.st ≠ .closeWait then none
  else if s.peerRwnd > 0 ∨ hasUnsent s.q = false then none
  else match firstData s.q with
    | none => none
    | some d =>
        if seqLeq d.seq s.sndUna && seqLt s.sndUna (seqInc d.seq d.len) then
          (d.data[(s.sndUna + 4294967296 - d.seq) % 4294967296]?).map fun b => (s.sndUna, [b])
        else (d.data[0]?).map fun b => (d.seq, [b])

/-! ### Provenance of queued segments -/

/-- May the application still send? -/
def openSt (st : State) : Bool := st == .established || st == .closeWait

/-- What identifies a segment on the wire. -/
def tag (d : Desc) : Nat × List UInt8 × Bool := (d.seq, d.data, d.fin)

/-- An empty segment at sequence number `n`, with FIN only if sending is over. -/
def EmptyAt (n : Nat) (st : State) (x : Nat × List UInt8 × Bool) : Prop :=
  x.2.1 = [] ∧ x.1 = n ∧ (x.2.2 = true → openSt st = false)

/-- `s'` comes from `s` without any new data: segments are taken only from the front of the queue,
and only empty ones at SND.NXT are added, with FIN only once sending is over. -/
structure Sub (s s' : Snd) : Prop where
  seq : s'.seq = s.seq
  st : openSt s'.st = true → openSt s.st = true
  q : ∃ n l, s'.q.map tag = (s.q.map tag).drop n ++ l ∧ ∀ x ∈ l, EmptyAt s.seq s'.st x

theorem Sub.refl (s : Snd) : Sub s s := ⟨rfl, id, 0, [], by simp, by simp⟩

theorem Sub.trans {a b c : Snd} (h1 : Sub a b) (h2 : Sub b c) : Sub a c := by
  refine ⟨h2.seq.trans h1.seq, fun h => h1.st (h2.st h), ?_⟩
  obtain ⟨n, l, e, hl⟩ := h1.q
  obtain ⟨m, l', e', hl'⟩ := h2.q
  rw [e, List.drop_append, List.drop_drop, List.append_assoc] at e'
  refine ⟨_, _, e', ?_⟩
  intro x hx
  rcases List.mem_append.1 hx with hx | hx
  · obtain ⟨a1, a2, a3⟩ := hl x (List.mem_of_mem_drop hx)
    refine ⟨a1, a2, ?_⟩
    intro hf
    have := a3 hf
    cases hc : openSt c.st with
    | false => rfl
    | true => rw [h2.st hc] at this; cases this
  · obtain ⟨a1, a2, a3⟩ := hl' x hx
    exact ⟨a1, by rw [a2, h1.seq], a3⟩

/-- `q'` is `q` without some of its oldest segments (up to flags). -/
def Drops (q q' : List Desc) : Prop := ∃ n, q'.map tag = (q.map tag).drop n

theorem Drops.refl (q : List Desc) : Drops q q := ⟨0, rfl⟩
theorem Drops.trans {a b c : List Desc} (h1 : Drops a b) (h2 : Drops b c) : Drops a c := by
  obtain ⟨n, e⟩ := h1
  obtain ⟨m, e'⟩ := h2
  rw [e, List.drop_drop] at e'
  exact ⟨_, e'⟩

theorem drops_tail (q : List Desc) : Drops q q.tail := by
  refine ⟨1, ?_⟩
  cases q <;> rfl

theorem drops_dropWhile (p : Desc → Bool) : ∀ q : List Desc, Drops q (q.dropWhile p)
  | [] => Drops.refl _
  | d :: ds => by
      rw [List.dropWhile_cons]
      split
      · exact Drops.trans (drops_tail (d :: ds)) (drops_dropWhile p ds)
      · exact Drops.refl _

theorem tags_set {q : List Desc} {i : Nat} {d e : Desc} (h : q[i]? = some d) (he : tag e = tag d) :
    (q.set i e).map tag = q.map tag := by
  rw [List.map_set, he]
  apply List.ext_getElem?
  intro j
  rw [List.getElem?_set]
  split
  · next hij =>
    subst hij
    have hl := (List.getElem?_eq_some_iff.1 h).1
    rw [if_pos (by rw [List.length_map]; exact hl), List.getElem?_map, h]; rfl
  · rfl

theorem drops_set {q : List Desc} {i : Nat} {d e : Desc} (h : q[i]? = some d) (he : tag e = tag d) :
    Drops q (q.set i e) := ⟨0, tags_set h he⟩

theorem tags_of_keys {q q' : List Desc} (h : q'.map key = q.map key) : q'.map tag = q.map tag := by
  have : ∀ l : List Desc, l.map tag = (l.map key).map (fun k => (k.1, k.2.1, k.2.2.2)) := by
    intro l; rw [List.map_map]; rfl
  rw [this, this, h]

theorem Frame.sub {s s' : Snd} (h : Frame s s') : Sub s s' :=
  ⟨h.seq, by rw [h.st]; exact id, 0, [], by rw [tags_of_keys h.keys]; simp, by simp⟩

theorem sub_st {s : Snd} (t : State) (h : openSt t = false) : Sub s { s with st := t } :=
  ⟨rfl, fun c => (by rw [h] at c; cases c), 0, [], by simp, by simp⟩

/-- Only segments of `q`. -/
def From (q q' : List Desc) : Prop := ∀ d' ∈ q', ∃ d ∈ q, tag d = tag d'

theorem Drops.from {q q' l : List Desc} (h : Drops q q') (hl : From q' l) : From q l := by
  intro d hd
  obtain ⟨x, hx, e⟩ := hl d hd
  obtain ⟨n, hn⟩ := h
  have : tag x ∈ (q.map tag).drop n := by rw [← hn]; exact List.mem_map_of_mem hx
  obtain ⟨y, hy, e'⟩ := List.mem_map.1 (List.mem_of_mem_drop this)
  exact ⟨y, hy, e'.trans e⟩

theorem drops_ackMark : ∀ (f : Nat) (q : List Desc) (i ack c : Nat), Drops q (ackMark f q i ack c).1
  | 0, q, _, _, _ => Drops.refl q
  | f + 1, q, i, ack, c => by
      unfold ackMark
      cases hd : q[i]? with
      | none => exact Drops.refl q
      | some d =>
        simp only
        split
        · exact Drops.refl q
        split
        · exact Drops.trans (drops_tail q) (drops_ackMark f _ _ _ _)
        split
        · exact Drops.trans (drops_set hd (e := { d with acked := true, sent := false, retrans := false }) rfl) (drops_ackMark f _ _ _ _)
        · exact Drops.refl q

theorem sub_q {s : Snd} {q : List Desc} (h : Drops s.q q) : Sub s { s with q := q } := by
  obtain ⟨n, e⟩ := h
  exact ⟨rfl, id, n, [], by rw [List.append_nil]; exact e, by simp⟩

theorem sub_nil {s s' : Snd} (hs : s'.seq = s.seq) (hst : openSt s'.st = false) (hq : s'.q = []) :
    Sub s s' :=
  ⟨hs, fun c => (by rw [hst] at c; cases c), s.q.length, [], by simp [hq], by simp⟩

theorem sub_closeSocket (s : Snd) : Sub s (closeSocket s) := by
  refine (frame_cancel s).sub.trans ?_
  exact sub_nil rfl rfl rfl

theorem sub_revert (s : Snd) : Sub s (revertListen s) := by
  refine (frame_cancel s).sub.trans ?_
  exact sub_nil rfl rfl rfl

theorem sub_fin1 (s : Snd) (a : AckSeg) : Sub s (ackFinWait1 s a) := by
  unfold ackFinWait1
  split
  · exact (sub_st .finWait2 rfl).trans ((frame_ctrlStop _).trans (frame_fw2Start _ _)).sub
  · exact Sub.refl s

theorem sub_closing (s : Snd) (a : AckSeg) : Sub s (ackClosing s a) := by
  unfold ackClosing
  split
  · exact (sub_st .timeWait rfl).trans (frame_ctrlStop _).sub
  · exact Sub.refl s

theorem sub_ackFront (s : Snd) (a : AckSeg) : Sub s (ackFront s a).1 := by
  rw [ackFront_eq]
  refine Sub.trans (b := preMark s a) ?_ (sub_q (drops_ackMark _ _ _ _ _))
  unfold preMark
  refine Sub.trans (b := { s with lastPeerWin := a.win }) (Frame.sub ⟨rfl, rfl, rfl⟩) ?_
  exact ((sub_fin1 _ a).trans (sub_closing _ a)).trans (frame_processSack _ _).sub

theorem sub_tcpAck (s : Snd) (a : AckSeg) : Sub s (tcpAck s a) := by
  unfold tcpAck
  split
  · refine Sub.trans (b := { s with lastPeerWin := a.win }) (Frame.sub ⟨rfl, rfl, rfl⟩) ?_
    exact (frame_ctrlStop _).sub.trans (sub_closeSocket _)
  · have h := (sub_ackFront s a).trans (frame_ackAdvance (ackFront s a).1 a).sub
    have hp : Sub (ackAdvance (ackFront s a).1 a).1
        { (ackAdvance (ackFront s a).1 a).1 with q := popAcked (ackAdvance (ackFront s a).1 a).1.q } :=
      sub_q (drops_dropWhile _ _)
    simp only
    split
    · split
      · exact (h.trans hp).trans (frame_grow _ _).sub
      · exact h.trans hp
    · exact h.trans (frame_dup _ _ _ _).sub

theorem sub_push (s : Snd) : Sub s (pushEmpty s) := by
  refine ⟨rfl, id, 0, [(s.seq, [], false)], by simp [pushEmpty, tag], ?_⟩
  intro x hx
  simp only [List.mem_singleton] at hx
  subst hx
  exact ⟨rfl, rfl, fun h => by cases h⟩

theorem sub_pushFin (s s' : Snd) (hs : s'.seq = s.seq) (hst : openSt s'.st = false)
    (hq : s'.q = (pushEmpty s true).q) : Sub s s' := by
  refine ⟨hs, fun c => (by rw [hst] at c; cases c), 0, [(s.seq, [], true)], by rw [hq]; simp [pushEmpty, tag], ?_⟩
  intro x hx
  simp only [List.mem_singleton] at hx
  subst hx
  exact ⟨rfl, rfl, fun _ => hst⟩

theorem sub_rtoData (s : Snd) (now : Nat) : Sub s (rtoData s now) := by
  unfold rtoData
  cases rtoTarget s with
  | none =>
    refine Frame.sub ?_
    refine Frame.trans (b := cancelTmr { s with peerSack := [], inflight := 0 }) ?_ ⟨rfl, rfl, rfl⟩
    exact Frame.trans (b := { s with peerSack := [], inflight := 0 }) ⟨rfl, rfl, rfl⟩ (frame_cancel _)
  | some i =>
    have hf : Frame s (cancelTmr { s with peerSack := [], q := setAt s.q i Desc.markRetrans, inflight := 0 }) :=
      Frame.trans (b := { s with peerSack := [], q := setAt s.q i Desc.markRetrans, inflight := 0 })
        ⟨rfl, rfl, keys_setAt _ _ _ (fun _ => rfl)⟩ (frame_cancel _)
    simp only
    split
    · exact hf.sub.trans (sub_closeSocket _)
    · exact hf.sub.trans (Frame.sub ⟨rfl, rfl, rfl⟩)

theorem sub_ctrlCb (s : Snd) (now : Nat) (qd : Bool) : Sub s (ctrlCb s now qd) := by
  unfold ctrlCb
  split
  · exact (frame_ctrlStop _).sub
  split
  · split
    · exact (frame_ctrlStop _).sub.trans (sub_revert _)
    · exact (frame_ctrlStop _).sub.trans (sub_closeSocket _)
  · unfold ctrlResend
    split
    · split
      · next h =>
        refine Sub.trans (b := { pushEmpty s true with ctrlRetries := s.ctrlRetries + 1, last := s.seq }) ?_
          (frame_ctrlStart _ _).sub
        refine sub_pushFin s _ rfl ?_ rfl
        show openSt s.st = false
        rcases h with h | h <;> rw [h] <;> rfl
      · refine Sub.trans (b := { pushEmpty s with ctrlRetries := s.ctrlRetries + 1 }) ?_
          (frame_ctrlStart _ _).sub
        exact (sub_push s).trans (Frame.sub ⟨rfl, rfl, rfl⟩)
    · exact (frame_ctrlStart _ _).sub

theorem sub_fire (s : Snd) (now : Nat) (qd : Bool) : Sub s (fire s now qd) := by
  unfold fire
  split
  · exact Sub.refl s
  · split
    · refine Sub.trans (b := { s with armed := none }) (Frame.sub ⟨rfl, rfl, rfl⟩) ?_
      unfold rtoCb
      have hfw : ∀ x : Snd, Frame x (fw2Stop x) := fun x => (frame_cancel x).trans ⟨rfl, rfl, rfl⟩
      have hpa : ∀ x : Snd, Frame x (preacceptStop x) := fun x => (frame_cancel x).trans ⟨rfl, rfl, rfl⟩
      split
      · split
        · exact (hfw _).sub
        · exact (hfw _).sub.trans (sub_closeSocket _)
      split
      · split
        · exact (hpa _).sub
        · exact sub_revert _
      split
      · exact sub_ctrlCb _ _ _
      split
      · exact Sub.refl _
      · exact sub_rtoData _ _
    · exact Sub.refl s

theorem sub_appClose (s : Snd) (now : Nat) : Sub s (appClose s now) := by
  unfold appClose
  split
  · exact Sub.trans (b := { pushEmpty s true with last := s.seq, st := .finWait1, ctrlRetries := 0 })
      (sub_pushFin s _ rfl rfl rfl) (frame_ctrlStart _ _).sub
  · exact Sub.trans (b := { pushEmpty s true with last := s.seq, st := .lastAck, ctrlRetries := 0 })
      (sub_pushFin s _ rfl rfl rfl) (frame_ctrlStart _ _).sub
  · exact Sub.refl s

theorem sub_peerFin (s : Snd) : Sub s (peerFin s) := by
  unfold peerFin
  split
  · next h =>
    refine Sub.trans (b := { s with st := .closeWait }) ⟨rfl, fun _ => (by rw [h]; rfl), 0, [], by simp, by simp⟩ (sub_push _)
  · exact (sub_st .closing rfl).trans (sub_push _)
  · exact Sub.refl s

theorem from_flushLoop : ∀ (f ok : Nat) (s : Snd) (i now : Nat), Sub s (flushLoop f ok s i now) ∧
    From s.q (flushOut f ok s i now)
  | 0, _, s, _, _ => ⟨Sub.refl s, fun d hd => by cases hd⟩
  | f + 1, ok, s, i, now => by
      have hnil : From s.q [] := fun d hd => by cases hd
      unfold flushLoop flushOut
      cases hd : s.q[i]? with
      | none => exact ⟨Sub.refl s, hnil⟩
      | some d =>
        simp only
        have hcons : ∀ l, From s.q l → From s.q (d :: l) := by
          intro l hl x hx
          rcases List.mem_cons.1 hx with hx | hx
          · exact ⟨d, List.mem_of_getElem? hd, by rw [hx]⟩
          · exact hl x hx
        split
        · exact from_flushLoop f ok s (i + 1) now
        split
        · cases ok with
          | zero => exact ⟨Sub.refl s, hnil⟩
          | succ ok =>
            simp only
            split
            · have h1 : Drops s.q (s.q.set i d.markSent).tail :=
                Drops.trans (drops_set hd (e := d.markSent) rfl) (drops_tail _)
              have h2 := from_flushLoop f ok { s with q := (s.q.set i d.markSent).tail } 0 now
              exact ⟨(sub_q h1).trans h2.1, hcons _ (h1.from h2.2)⟩
            · have h2 := from_flushLoop f ok (txData s i d now) (i + 1) now
              have h1 : Drops s.q (txData s i d now).q := by
                rw [txData_q]; exact drops_set hd rfl
              exact ⟨(frame_txData s i d now hd).sub.trans h2.1, hcons _ (h1.from h2.2)⟩
        · cases findRetrans s.q i with
          | none => exact ⟨Sub.refl s, hnil⟩
          | some j =>
            simp only
            split
            · exact from_flushLoop f ok s j now
            · exact ⟨Sub.refl s, hnil⟩

/-! ### What is on the wire -/

/-- The payloads are consecutive pieces of `acc` from position `p` to its end, under the right
sequence numbers. -/
def Suf (iss : Nat) (acc : List UInt8) : Nat → List (Nat × List UInt8 × Bool) → Prop
  | p, [] => p = acc.length
  | p, x :: xs => (x.2.1 = [] ∧ Suf iss acc p xs) ∨
      (x.2.1 ≠ [] ∧ x.1 = sq iss p ∧ Piece acc p x.2.1 ∧ Suf iss acc (p + x.2.1.length) xs)

theorem suf_drop {iss : Nat} {acc : List UInt8} : ∀ (n p : Nat) (l : List (Nat × List UInt8 × Bool)),
    Suf iss acc p l → ∃ p', p ≤ p' ∧ Suf iss acc p' (l.drop n)
  | 0, p, l, h => ⟨p, Nat.le_refl _, by rw [List.drop_zero]; exact h⟩
  | n + 1, p, [], h => ⟨p, Nat.le_refl _, by rw [List.drop_nil]; exact h⟩
  | n + 1, p, x :: xs, h => by
      rw [List.drop_succ_cons]
      rcases h with ⟨_, h⟩ | ⟨_, _, _, h⟩
      · exact suf_drop n p xs h
      · obtain ⟨p', h1, h2⟩ := suf_drop n _ xs h
        exact ⟨p', by omega, h2⟩

theorem suf_append {iss : Nat} {acc : List UInt8} : ∀ (p : Nat) (l m : List (Nat × List UInt8 × Bool)),
    Suf iss acc p l → (∀ x ∈ m, x.2.1 = []) → Suf iss acc p (l ++ m)
  | p, [], [], h, _ => h
  | p, [], x :: xs, h, hm =>
      Or.inl ⟨hm x (List.mem_cons_self), suf_append p [] xs h fun y hy => hm y (List.mem_cons_of_mem _ hy)⟩
  | p, y :: ys, m, h, hm => by
      rcases h with ⟨a, h⟩ | ⟨a, b, c, h⟩
      · exact Or.inl ⟨a, suf_append p ys m h hm⟩
      · exact Or.inr ⟨a, b, c, suf_append _ ys m h hm⟩

theorem piece_append {acc more d : List UInt8} {k : Nat} (h : Piece acc k d) : Piece (acc ++ more) k d := by
  refine ⟨by rw [List.length_append]; have := h.1; omega, ?_⟩
  intro j hj
  rw [List.getElem?_append_left (by have := h.1; omega)]
  exact h.2 j hj

theorem suf_send {iss : Nat} {acc chunk : List UInt8} (hc : chunk ≠ []) :
    ∀ (p : Nat) (l : List (Nat × List UInt8 × Bool)), Suf iss acc p l →
    Suf iss (acc ++ chunk) p (l ++ [(sq iss acc.length, chunk, false)])
  | p, [], h => by
      have hp : p = acc.length := h
      subst hp
      refine Or.inr ⟨hc, rfl, ⟨?_, ?_⟩, ?_⟩
      · rw [List.length_append]; exact Nat.le_refl _
      · intro j hj
        rw [List.getElem?_append_right (by omega), Nat.add_sub_cancel_left]
        exact List.getElem?_eq_getElem hj
      · show _ = (acc ++ chunk).length
        rw [List.length_append]
  | p, y :: ys, h => by
      rcases h with ⟨a, h⟩ | ⟨a, b, c, h⟩
      · exact Or.inl ⟨a, suf_send hc p ys h⟩
      · exact Or.inr ⟨a, b, piece_append c, suf_send hc _ ys h⟩

theorem suf_sum {iss : Nat} {acc : List UInt8} : ∀ (p : Nat) (l : List (Nat × List UInt8 × Bool)),
    Suf iss acc p l → p + (l.map (fun x => x.2.1.length)).sum = acc.length
  | p, [], h => by have hp : p = acc.length := h; simpa using hp
  | p, x :: xs, h => by
      rw [List.map_cons, List.sum_cons]
      rcases h with ⟨a, h⟩ | ⟨_, _, _, h⟩
      · have := suf_sum p xs h
        rw [a]; simpa using this
      · have := suf_sum _ xs h
        omega

theorem suf_mem {iss : Nat} {acc : List UInt8} : ∀ (p : Nat) (l : List (Nat × List UInt8 × Bool)),
    Suf iss acc p l → ∀ x ∈ l, x.2.1 = [] ∨ ∃ k, p ≤ k ∧ x.1 = sq iss k ∧ Piece acc k x.2.1
  | _, [], _, _, hx => by cases hx
  | p, y :: ys, h, x, hx => by
      rcases h with ⟨a, h⟩ | ⟨a, b, c, h⟩
      · rcases List.mem_cons.1 hx with rfl | hx
        · exact Or.inl a
        · exact suf_mem p ys h x hx
      · rcases List.mem_cons.1 hx with rfl | hx
        · exact Or.inr ⟨p, Nat.le_refl _, b, c⟩
        · rcases suf_mem _ ys h x hx with e | ⟨k, k1, k2⟩
          · exact Or.inl e
          · exact Or.inr ⟨k, by omega, k2⟩

/-- What a segment of this stream is: empty, or the bytes accepted by `send()` at the position its
sequence number names, not more than a transmit buffer behind the last byte accepted; FIN only at
the end of a stream that will not grow. -/
def SegOk (iss : Nat) (acc : List UInt8) (closed : Bool) (seq : Nat) (data : List UInt8) (fin : Bool) : Prop :=
  (data = [] ∨ ∃ k, seq = sq iss k ∧ Piece acc k data ∧ acc.length ≤ k + 32768) ∧
  (fin = true → data = [] ∧ seq = sq iss acc.length ∧ closed = true)

/-- Invariant of a connection. -/
structure EInv (c : Conn) : Prop where
  seq : c.s.seq = sq c.iss c.acc.length
  una : c.s.sndUna < 4294967296
  suf : ∃ p, Suf c.iss c.acc p (c.s.q.map tag) ∧ c.acc.length ≤ p + 32768
  fin : ∀ d ∈ c.s.q, d.fin = true → d.data = [] ∧ d.seq = sq c.iss c.acc.length ∧ openSt c.s.st = false

theorem EInv.seg {c : Conn} (h : EInv c) {d : Desc} (hd : d ∈ c.s.q) :
    SegOk c.iss c.acc (!openSt c.s.st) d.seq d.data d.fin := by
  obtain ⟨p, h1, h2⟩ := h.suf
  constructor
  · rcases suf_mem p _ h1 (tag d) (List.mem_map_of_mem hd) with e | ⟨k, k1, k2, k3⟩
    · exact Or.inl e
    · exact Or.inr ⟨k, k2, k3, by omega⟩
  · intro hf
    obtain ⟨a, b, e⟩ := h.fin d hd hf
    exact ⟨a, b, by rw [e]; rfl⟩

theorem einv_sub {c : Conn} {s' : Snd} {hi : Nat} (h : EInv c) (hs : Sub c.s s')
    (hu : s'.sndUna < 4294967296) : EInv { c with s := s', hi := hi } := by
  obtain ⟨n, l, e, hl⟩ := hs.q
  refine ⟨hs.seq.trans h.seq, hu, ?_, ?_⟩
  · obtain ⟨p, h1, h2⟩ := h.suf
    obtain ⟨p', h3, h4⟩ := suf_drop n p _ h1
    refine ⟨p', ?_, by show c.acc.length ≤ _; omega⟩
    show Suf c.iss c.acc p' (s'.q.map tag)
    rw [e]
    exact suf_append p' _ _ h4 fun x hx => (hl x hx).1
  · intro d hd hf
    have hm : tag d ∈ (c.s.q.map tag).drop n ++ l := by rw [← e]; exact List.mem_map_of_mem hd
    rcases List.mem_append.1 hm with hm | hm
    · obtain ⟨x, hx, ht⟩ := List.mem_map.1 (List.mem_of_mem_drop hm)
      unfold tag at ht
      simp only [Prod.mk.injEq] at ht
      obtain ⟨f1, f2, f3⟩ := h.fin x hx (by rw [ht.2.2]; exact hf)
      refine ⟨by rw [← ht.2.1]; exact f1, by rw [← ht.1]; exact f2, ?_⟩
      show openSt s'.st = false
      cases ho : openSt s'.st with
      | false => rfl
      | true => rw [hs.st ho] at f3; cases f3
    · obtain ⟨a, b, f⟩ := hl _ hm
      exact ⟨a, (show d.seq = c.s.seq from b).trans h.seq, f hf⟩

theorem einv_sendOne {c : Conn} (chunk : List UInt8) (h : EInv c) : EInv (sendOne c chunk) := by
  unfold sendOne sendChunk
  by_cases hc : (c.s.st = .established ∨ c.s.st = .closeWait) ∧ chunk ≠ [] ∧ queued c.s.q + chunk.length ≤ TXBUF
  · rw [if_pos hc]
    have ho : openSt c.s.st = true := by rcases hc.1 with e | e <;> rw [e] <;> rfl
    refine ⟨?_, h.una, ?_, ?_⟩
    · show (c.s.seq + chunk.length) % 4294967296 = sq c.iss (c.acc ++ chunk).length
      rw [h.seq, List.length_append]
      unfold sq; omega
    · obtain ⟨p, h1, h2⟩ := h.suf
      refine ⟨p, ?_, ?_⟩
      · show Suf c.iss (c.acc ++ chunk) p ((c.s.q ++ [({ seq := c.s.seq, data := chunk } : Desc)]).map tag)
        rw [List.map_append, h.seq]
        exact suf_send hc.2.1 p _ h1
      · show (c.acc ++ chunk).length ≤ _
        have hs := suf_sum p _ h1
        have hb := hc.2.2
        rw [List.map_map] at hs
        have : queued c.s.q = (c.s.q.map ((fun x => x.2.1.length) ∘ tag)).sum := rfl
        unfold TXBUF at hb
        rw [List.length_append]
        omega
    · intro d hd
      rcases List.mem_append.1 hd with hd | hd
      · intro hf
        have := (h.fin d hd hf).2.2
        rw [ho] at this; cases this
      · simp only [List.mem_singleton] at hd
        subst hd
        exact fun hf => by cases hf
  · rw [if_neg hc]
    exact h

theorem einv_step {c : Conn} (e : Ev) (h : EInv c) : EInv (step c e) := by
  have hu : (∀ p w b d n, e ≠ .ack p w b d n) → (step c e).s.sndUna < 4294967296 := by
    intro hn; rw [snd_una_only_by_ack c e hn]; exact h.una
  cases e with
  | send chunks =>
    clear hu
    show EInv (chunks.foldl sendOne c)
    induction chunks generalizing c with
    | nil => exact h
    | cons x xs ih => exact ih (einv_sendOne x h)
  | queueEmpty => exact einv_sub h (sub_push c.s) (hu (by intros; simp))
  | ack pos win blocks d now =>
    refine einv_sub h (sub_tcpAck _ _) ?_
    rcases una_tcpAck c.s ⟨sq c.iss pos, win, blocks, d, now⟩ with e | ⟨e, _⟩
    · rw [e]; exact h.una
    · rw [e]; exact sq_lt _ _
  | peerFin => exact einv_sub h (sub_peerFin _) (hu (by intros; simp))
  | close now => exact einv_sub h (sub_appClose _ _) (hu (by intros; simp))
  | fire now qd => exact einv_sub h (sub_fire _ _ _) (hu (by intros; simp))
  | flush now fuel ok =>
    exact einv_sub h ((frame_resync _ _).sub.trans (from_flushLoop _ _ _ _ _).1) (hu (by intros; simp))
  | window w => exact einv_sub h (Frame.sub ⟨rfl, rfl, rfl⟩) (hu (by intros; simp))

/-- A connection right after the handshake. -/
def Start (c : Conn) : Prop := Fresh c ∧ c.s.sndUna = sq c.iss 0

theorem einv_start {c : Conn} (h : Start c) : EInv c := by
  obtain ⟨⟨a, b, _, d⟩, hu⟩ := h
  refine ⟨by rw [b]; exact d, by rw [hu]; exact sq_lt _ _, ⟨0, ?_, by rw [b]; exact Nat.zero_le _⟩, ?_⟩
  · rw [a, b]; rfl
  · rw [a]; intro d hd; cases hd

theorem einv_run {c : Conn} (es : List Ev) (h : EInv c) : EInv (run c es) := by
  induction es generalizing c with
  | nil => exact h
  | cons e es ih => exact ih (einv_step e h)

/-- Segments an event transmits. -/
def emits (c : Conn) : Ev → List Desc
  | .flush now fuel ok => flushOut fuel ok (resync c.s now) 0 now
  | _ => []

theorem emits_ok {c : Conn} (h : EInv c) (e : Ev) : ∀ d ∈ emits c e,
    SegOk c.iss c.acc (!openSt c.s.st) d.seq d.data d.fin := by
  cases e with
  | flush now fuel ok =>
    intro d hd
    obtain ⟨x, hx, ht⟩ := (from_flushLoop fuel ok (resync c.s now) 0 now).2 d hd
    rw [resync_q] at hx
    have := h.seg hx
    unfold tag at ht
    simp only [Prod.mk.injEq] at ht
    rw [ht.1, ht.2.1, ht.2.2] at this
    exact this
  | _ => intro d hd; cases hd

/-- Circular offset of a covered position. -/
theorem cover_off (a u n : Nat) (ha : a < 4294967296) (hu : u < 4294967296) (hn : n ≤ 32768) (h0 : 0 < n)
    (h1 : seqLeq a u = true) (h2 : seqLt u (seqInc a n) = true) : (u + 4294967296 - a) % 4294967296 < n := by
  have he : seqInc a n = (a + n) % 4294967296 := by unfold seqInc; split <;> omega
  rw [he] at h2
  have hlt : (a + n) % 4294967296 < 4294967296 := Nat.mod_lt _ (by decide)
  have hm : (a + n) % 4294967296 = a + n ∨ (a + n) % 4294967296 + 4294967296 = a + n := by omega
  generalize (a + n) % 4294967296 = e at *
  unfold seqLt at h2
  unfold seqLeq at h1 h2
  simp only [Bool.and_eq_true, bne_iff_ne, ne_eq] at h2
  obtain ⟨h2, h3⟩ := h2
  split at h1 <;> split at h3 <;> simp only [decide_eq_true_eq] at h1 h3 <;> omega

/-- **The zero-window probe is safe and honest**: the byte it loads lies inside the queued payload,
and it is the byte `send()` accepted at the position the probe's sequence number names. -/
theorem probe_ok {c : Conn} (h : EInv c) :
    (∀ x, probe c.s = some x → ∃ k, x.1 = sq c.iss k ∧ Piece c.acc k x.2 ∧ x.2.length = 1 ∧
      c.acc.length ≤ k + 32768) ∧
    ((c.s.st = .established ∨ c.s.st = .closeWait) → c.s.peerRwnd = 0 → hasUnsent c.s.q = true →
      (probe c.s).isSome = true) := by
  have key : ∀ d, firstData c.s.q = some d → d.data ≠ [] ∧ ∃ k, d.seq = sq c.iss k ∧ Piece c.acc k d.data ∧
      c.acc.length ≤ k + 32768 := by
    intro d hf
    have hm : d ∈ c.s.q := List.mem_of_find?_eq_some hf
    have hne : d.data ≠ [] := by
      have := List.find?_some hf
      intro e; rw [e] at this; cases this
    exact ⟨hne, (h.seg hm).1.resolve_left hne⟩
  constructor
  · intro x hp
    unfold probe at hp
    split at hp
    · cases hp
    split at hp
    · cases hp
    split at hp
    · cases hp
    · next d hf =>
      obtain ⟨hne, k, hk, ⟨hp1, hp2⟩, hcap⟩ := key d hf
      split at hp
      · rw [Option.map_eq_some_iff] at hp
        obtain ⟨y, hy, rfl⟩ := hp
        obtain ⟨hl, hv⟩ := List.getElem?_eq_some_iff.1 hy
        refine ⟨k + (c.s.sndUna + 4294967296 - d.seq) % 4294967296, ?_, ?_, rfl, by omega⟩
        · show c.s.sndUna = _
          rw [hk]
          have hu := h.una
          unfold sq
          omega
        · constructor
          · show _ + 1 ≤ _
            omega
          · intro j hj
            have : j = 0 := by simp only [List.length_singleton] at hj; omega
            subst this
            rw [Nat.add_zero, hp2 _ hl]
            simp [hv]
      · rw [Option.map_eq_some_iff] at hp
        obtain ⟨y, hy, rfl⟩ := hp
        obtain ⟨hl, hv⟩ := List.getElem?_eq_some_iff.1 hy
        refine ⟨k, hk, ?_, rfl, hcap⟩
        constructor
        · show k + 1 ≤ _
          omega
        · intro j hj
          have : j = 0 := by simp only [List.length_singleton] at hj; omega
          subst this
          rw [hp2 0 hl]
          simp [hv]
  · intro hst hw hun
    unfold probe
    rw [if_neg (by rcases hst with e | e <;> rw [e] <;> simp), if_neg (by rw [hw, hun]; simp)]
    have hsome : ∃ d, firstData c.s.q = some d := by
      unfold hasUnsent at hun
      rw [List.any_eq_true] at hun
      obtain ⟨d, hd, he⟩ := hun
      rw [Bool.and_eq_true] at he
      cases hf : firstData c.s.q with
      | some x => exact ⟨x, rfl⟩
      | none =>
        unfold firstData at hf
        rw [List.find?_eq_none] at hf
        exact absurd he.2 (hf d hd)
    obtain ⟨d, hf⟩ := hsome
    obtain ⟨hne, k, hk, ⟨hp1, hp2⟩, hcap⟩ := key d hf
    rw [hf]
    simp only
    split
    · next hcov =>
      rw [Bool.and_eq_true] at hcov
      have := cover_off d.seq c.s.sndUna d.len (by rw [hk]; exact sq_lt _ _) h.una
        (by unfold Desc.len; omega) (List.length_pos_iff.2 hne) hcov.1 hcov.2
      rw [List.getElem?_eq_getElem (show _ < d.data.length from this)]
      rfl
    · have : 0 < d.data.length := List.length_pos_iff.2 hne
      rw [List.getElem?_eq_getElem this]
      rfl

end Wolf.Tcp.Snd
