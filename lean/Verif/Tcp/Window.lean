import Verif.Tcp.RecvProps

/-!
# C71: the receive window

What the advertised window means: its right edge is fixed by what the application has read, never
moves left, and segments outside the window have no effect.
-/
namespace Wolf.Tcp

/-- `tcp_adv_win`: the 16-bit window field for `space` free bytes and window scale `shift` (0 when
scaling is off). src/wolfip.c 3126-3134. -/
def advWin (space shift : Nat) : Nat :=
  let win := space / 2 ^ shift
  if win > 65535 then 65535 else win

/-- The RFC 9293 acceptability table (section 3.10.7.4, Table 6) on stream positions: segment of
`len` sequence numbers starting at `o`, next expected position `A`, window `W`. -/
def InWindow (A W o len : Nat) : Prop :=
  if len = 0 then
    if W = 0 then o = A else A ≤ o ∧ o < A + W
  else 0 < W ∧ ((A ≤ o ∧ o < A + W) ∨ (A ≤ o + len - 1 ∧ o + len - 1 < A + W))

/-- Sequence numbers a segment occupies. -/
def segLen (g : Seg) : Nat := g.data.length + (if g.syn then 1 else 0) + (if g.fin then 1 else 0)

/-- **C71, acceptability.**  The code's test is the RFC's, wherever the 32-bit numbers wrap. -/
theorem acceptable_exact (i A W o : Nat) (g : Seg) (hs : g.seq = sq i o) (hW : W < 1073741824)
    (hl : g.data.length < 65536) (h1 : A < o + 1073741824) (h2 : o < A + 1073741824) :
    acceptable (sq i A) W g = true ↔ InWindow A W o (segLen g) := by
  have hlen : segLen g < 65538 := by unfold segLen; (repeat' split) <;> omega
  unfold acceptable InWindow
  dsimp only
  have e : (g.data.length + (if g.syn then 1 else 0) + if g.fin then 1 else 0) = segLen g := rfl
  rw [e]
  generalize segLen g = n at hlen
  rw [hs]
  have w1 := seq_order_sound i A o (by omega) (by omega)
  have w2 := seq_order_sound i o (A + W) (by omega) (by omega)
  rw [seq_inc_sound i A W (by omega)]
  by_cases hn : n = 0
  · rw [if_pos hn, if_pos hn]
    by_cases hw : W = 0
    · rw [if_pos hw, if_pos hw, beq_iff_eq, eq_comm]
      exact w1.2.2.trans eq_comm
    · rw [if_neg hw, if_neg hw, Bool.and_eq_true, w1.2.1, w2.1]
  · rw [if_neg hn, if_neg hn]
    by_cases hw : W = 0
    · rw [if_pos hw]
      constructor
      · intro c; cases c
      · intro c; omega
    · rw [if_neg hw, seq_inc_sound i o (n - 1) (by omega)]
      have w3 := seq_order_sound i A (o + (n - 1)) (by omega) (by omega)
      have w4 := seq_order_sound i (o + (n - 1)) (A + W) (by omega) (by omega)
      rw [Bool.or_eq_true, Bool.and_eq_true, Bool.and_eq_true, w1.2.1, w2.1, w3.2.1, w4.1]
      have : o + n - 1 = o + (n - 1) := by omega
      rw [this]
      constructor
      · intro h; exact ⟨by omega, h⟩
      · intro h; exact h.2

/-- The next expected stream position of a state whose accepted count is `A`: one further once the
peer's FIN has been taken. -/
def nextPos (r : Rx) (A : Nat) : Nat := if openState r.st then A else A + 1

theorem RInv.next {S i size out r A} (h : RInv S i size out r A) : r.ack = sq i (nextPos r A) := by
  unfold nextPos
  rcases h.ack with ⟨h1, h2⟩ | ⟨h1, _, h2⟩
  · rw [h2]; exact h1
  · rw [h2]; exact h1

theorem RInv.space {S i size out r A} (h : RInv S i size out r A) :
    A + qSpace r.q = out.length + (size - 1) ∧ qSpace r.q < size := by
  obtain ⟨l, h1, h2, h3, h4, h5⟩ := h.q
  have hs := h1.space
  have hr := h1.2.2.2.2.1
  rw [h2] at hs hr
  have := h1.1
  rw [hs]
  constructor <;> omega

/-- **C71, outside the window.**  In every state reached by segments of the peer, a segment whose
sequence numbers all lie outside the receive window changes nothing at all: no data, no FIN, no
acknowledgment, no SACK information. -/
theorem outside_window_ignored (S : List UInt8) (i size : Nat) (h1 : 1 < size) (h2 : size < 1073741824)
    (evs : List REv) (hp : PeerRun S i (rxInit size i) [] evs) (g : Seg) (o : Nat)
    (hs : g.seq = sq i o) (hl : g.data.length < 65536) :
    let r := (rxRun (rxInit size i) [] evs).1
    let out := (rxRun (rxInit size i) [] evs).2
    let A := nextPos r (accepted r out)
    A < o + 1073741824 → o < A + 1073741824 → ¬ InWindow A (qSpace r.q) o (segLen g) →
    rxStep r (.seg g) = (r, []) := by
  obtain ⟨A0, _, h⟩ := rxRun_inv evs _ _ 0 (rinv_init S i size h1 (by omega)) hp
  intro r out A ha hb hn
  have hA0 : A0 = accepted r out := h.acc
  rw [hA0] at h
  have hnot : acceptable r.ack (qSpace r.q) g = false := by
    rw [Bool.eq_false_iff]
    intro c
    rw [h.next] at c
    have hsp := h.space.2
    exact hn ((acceptable_exact i _ _ o g hs (Nat.lt_trans hsp (by omega)) hl ha hb).mp c)
  show (segInput r g, _) = _
  have : segInput r g = r := by
    unfold segInput
    rw [hnot]
    cases r.st <;> simp
  rw [this]

/-- **C71, the window's right edge.**  After every history the next expected position plus the free
space equals the number of bytes the application has read plus the buffer capacity (plus one once
the peer's FIN is taken): the window opens only when the application reads. -/
theorem window_edge_exact (S : List UInt8) (i size : Nat) (h1 : 1 < size) (h2 : size < 2147483648)
    (evs : List REv) (hp : PeerRun S i (rxInit size i) [] evs) :
    let r := (rxRun (rxInit size i) [] evs).1
    let out := (rxRun (rxInit size i) [] evs).2
    accepted r out + qSpace r.q = out.length + (size - 1) := by
  obtain ⟨A0, _, h⟩ := rxRun_inv evs _ _ 0 (rinv_init S i size h1 h2) hp
  intro r out
  rw [← h.acc]
  exact h.space.1

theorem rxRun_out_grows : ∀ (evs : List REv) (r : Rx) (out : List UInt8),
    out.length ≤ (rxRun r out evs).2.length := by
  intro evs
  induction evs with
  | nil => intro r out; exact Nat.le_refl _
  | cons e es ih =>
    intro r out
    have := ih (rxStep r e).1 (out ++ (rxStep r e).2)
    rw [List.length_append] at this
    show _ ≤ (rxRun (rxStep r e).1 (out ++ (rxStep r e).2) es).2.length
    omega

/-- **C71, the window never shrinks.**  Whatever happens later, the right edge of the advertised
window (next expected position plus advertised window, unscaled, buffers up to 64 KiB) never moves
back: a peer that sends only what was once offered never sees its data refused for lack of room. -/
theorem window_never_shrinks (S : List UInt8) (i size : Nat) (h1 : 1 < size) (h2 : size ≤ 65536)
    (evs more : List REv) (hp : PeerRun S i (rxInit size i) [] (evs ++ more)) :
    let r := (rxRun (rxInit size i) [] evs).1
    let out := (rxRun (rxInit size i) [] evs).2
    let r' := (rxRun (rxInit size i) [] (evs ++ more)).1
    let out' := (rxRun (rxInit size i) [] (evs ++ more)).2
    ∃ p p', r.ack = sq i p ∧ r'.ack = sq i p' ∧ p ≤ p' ∧ p' ≤ S.length + 1 ∧
      p + advWin (qSpace r.q) 0 ≤ p' + advWin (qSpace r'.q) 0 ∧
      out.length + (size - 1) ≤ p + advWin (qSpace r.q) 0 ∧
      p + advWin (qSpace r.q) 0 ≤ out.length + size ∧ out.length ≤ out'.length := by
  obtain ⟨hp1, hp2⟩ := peerRun_append _ _ _ _ hp
  obtain ⟨A, _, h⟩ := rxRun_inv evs _ _ 0 (rinv_init S i size h1 (by omega)) hp1
  obtain ⟨A', hA, h'⟩ := rxRun_inv more _ _ A h hp2
  have hg := rxRun_out_grows more (rxRun (rxInit size i) [] evs).1 (rxRun (rxInit size i) [] evs).2
  rw [← rxRun_append] at h' hg
  intro r out r' out'
  have s1 := h.space
  have s2 := h'.space
  have b' := h'.q.bound
  have e1 : advWin (qSpace r.q) 0 = qSpace r.q := by
    have : qSpace r.q < size := s1.2
    unfold advWin
    rw [Nat.pow_zero, Nat.div_one, if_neg (by omega)]
  have e2 : advWin (qSpace r'.q) 0 = qSpace r'.q := by
    have : qSpace r'.q < size := s2.2
    unfold advWin
    rw [Nat.pow_zero, Nat.div_one, if_neg (by omega)]
  have k1 : A + qSpace r.q = out.length + (size - 1) := s1.1
  have k2 : A' + qSpace r'.q = out'.length + (size - 1) := s2.1
  have kg : out.length ≤ out'.length := hg
  have f : openState r.st = false → openState r'.st = false := by
    intro hf
    have := rxRun_finished more r out hf
    rw [← rxRun_append] at this
    exact this
  refine ⟨nextPos r A, nextPos r' A', h.next, h'.next, ?_, ?_, ?_, ?_, ?_, kg⟩ <;>
    (try rw [e1]) <;> (try rw [e2]) <;> unfold nextPos <;>
    cases hr : openState r.st <;> cases hr' : openState r'.st <;> simp <;>
    first
      | omega
      | (have := f hr; rw [hr'] at this; cases this)

/-- The window field is the free space, scaled, at most 65535: what is offered is really free. -/
theorem advWin_le (space shift : Nat) : advWin space shift * 2 ^ shift ≤ space ∧
    advWin space shift ≤ 65535 := by
  unfold advWin
  dsimp only
  have h := Nat.div_mul_le_self space (2 ^ shift)
  split
  · next hw => exact ⟨Nat.le_trans (Nat.mul_le_mul_right _ (Nat.le_of_lt hw)) h, Nat.le_refl _⟩
  · exact ⟨h, by omega⟩

theorem exPiece (o : Nat) (d : List UInt8) (h : d = (exStream.drop o).take d.length)
    (hl : o + d.length ≤ 8) : Piece exStream o d := by
  refine ⟨hl, ?_⟩
  intro j hj
  have : d[j]? = ((exStream.drop o).take d.length)[j]? := by rw [← h]
  rw [List.getElem?_eq_getElem hj] at this
  rw [this, List.getElem?_take, if_pos hj, List.getElem?_drop]

/-- A concrete history with data outside and inside a small window: capacity 7, the stream has 8
bytes; the window closes, a later byte is refused, and reading reopens it. -/
example :
    let h : List REv := [.seg { seq := sq 4294967293 0, data := [65, 66, 67, 68, 69, 70, 71] },
      .seg { seq := sq 4294967293 7, data := [72] }]
    PeerRun exStream 4294967293 (rxInit 8 4294967293) [] h ∧
    qSpace (rxRun (rxInit 8 4294967293) [] h).1.q = 0 ∧
    accepted (rxRun (rxInit 8 4294967293) [] h).1 (rxRun (rxInit 8 4294967293) [] h).2 = 7 ∧
    accepted (rxRun (rxInit 8 4294967293) [] (h ++ [.read 2, .seg { seq := sq 4294967293 7, data := [72] }])).1
      (rxRun (rxInit 8 4294967293) [] (h ++ [.read 2, .seg { seq := sq 4294967293 7, data := [72] }])).2 = 8 := by
  refine ⟨⟨Or.inr ⟨0, rfl, ?_, by simp, ?_, ?_, by simp⟩, Or.inr ⟨7, rfl, ?_, by simp, ?_, ?_, by simp⟩, trivial⟩, by decide +kernel, by decide +kernel, by decide +kernel⟩
  · exact exPiece _ _ (by decide) (by decide)
  · decide +kernel
  · decide +kernel
  · exact exPiece _ _ (by decide) (by decide)
  · decide +kernel
  · decide +kernel

end Wolf.Tcp
