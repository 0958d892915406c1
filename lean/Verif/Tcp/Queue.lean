import Verif.Tcp.Seq
/-!
# TCP receive ring (`struct queue`), `src/wolfip.c` 548–690

Model and refinement to a list of bytes.  `uint32_t` cursors are `Nat`, all below `size`.
-/
namespace Wolf.Tcp

/-- `struct queue`. src/wolfip.c 551–554. -/
structure Queue where
  seqBase : Nat
  head : Nat
  tail : Nat
  size : Nat
  mem : Nat → UInt8

/-- `queue_init`. src/wolfip.c 560–567. -/
def qInit (size seqBase : Nat) : Queue :=
  { seqBase := seqBase, head := 0, tail := 0, size := size, mem := fun _ => 0 }

/-- `queue_space`. src/wolfip.c 570–577. -/
def qSpace (q : Queue) : Nat :=
  if q.size ≤ 1 then 0
  else if q.head ≥ q.tail then (q.size - (q.head - q.tail)) - 1
  else (q.tail - q.head) - 1

/-- `queue_len`. src/wolfip.c 580–585. -/
def qLen (q : Queue) : Nat := if q.size ≤ 1 then 0 else (q.size - 1) - qSpace q

/-- `memcpy` into the ring memory. -/
def qwr (m : Nat → UInt8) (p : Nat) (bs : List UInt8) : Nat → UInt8 :=
  fun i => if p ≤ i ∧ i < p + bs.length then bs.getD (i - p) 0 else m i

/-- `memcpy` out of the ring memory. -/
def qrd (m : Nat → UInt8) (p n : Nat) : List UInt8 := (List.range n).map fun i => m (p + i)

/-- The one or two `memcpy` of an append at `head`. src/wolfip.c 641–648. -/
def qAppendMem (q : Queue) (data : List UInt8) : Nat → UInt8 :=
  if q.head + data.length > q.size then
    qwr (qwr q.mem q.head (data.take (q.size - q.head))) 0 (data.drop (q.size - q.head))
  else qwr q.mem q.head data

/-- `queue_insert`: `none` = −1, `some q'` = 0. src/wolfip.c 605–651. -/
def qInsert (q : Queue) (data : List UInt8) (seq : Nat) : Option Queue :=
  if q.size ≤ 1 then none
  else if data.length > q.size - 1 then none
  else if data.length > qSpace q then none
  else if qLen q = 0 then
    some { q with tail := 0, head := data.length, seqBase := seq, mem := qwr q.mem 0 data }
  else
    let rel := seqDiff seq q.seqBase
    if rel < 0 then none
    else if rel < (qLen q : Int) then some q
    else if rel > (qLen q : Int) then none
    else
      some { q with head := (q.head + data.length) % q.size, mem := qAppendMem q data }

/-- `queue_pop`: `none` = −EAGAIN. src/wolfip.c 653–677. -/
def qPop (q : Queue) (n : Nat) : Option (List UInt8 × Queue) :=
  let ql := qLen q
  if ql = 0 then none else
  let n := if n > ql then ql else n
  let out := if q.tail + n > q.size then
      let first := q.size - q.tail
      qrd q.mem q.tail first ++ qrd q.mem 0 (n - first)
    else qrd q.mem q.tail n
  some (out, { q with tail := (q.tail + n) % q.size, seqBase := (q.seqBase + n) % 4294967296 })

/-! ## Refinement -/

/-- The ring holds exactly the bytes `l`, oldest first. -/
def QRep (q : Queue) (l : List UInt8) : Prop :=
  1 < q.size ∧ q.size < 2147483648 ∧ q.head < q.size ∧ q.tail < q.size ∧ l.length < q.size ∧
  q.head = (q.tail + l.length) % q.size ∧
  ∀ i (h : i < l.length), q.mem ((q.tail + i) % q.size) = l[i]

theorem mod_lt2 {a b n : Nat} (ha : a < n) (hb : b < n) :
    (a + b) % n = if a + b < n then a + b else a + b - n := by
  split
  · exact Nat.mod_eq_of_lt (by assumption)
  · rw [Nat.mod_eq_sub_mod (by omega), Nat.mod_eq_of_lt (by omega)]

theorem qInit_rep (size b : Nat) (h1 : 1 < size) (h2 : size < 2147483648) : QRep (qInit size b) [] := by
  refine ⟨h1, h2, ?_, ?_, ?_, ?_, ?_⟩ <;> simp [qInit] <;> omega

theorem QRep.len {q l} (h : QRep q l) : qLen q = l.length := by
  obtain ⟨h1, h2, h3, h4, h5, h6, _⟩ := h
  rw [mod_lt2 h4 h5] at h6
  unfold qLen qSpace
  rw [if_neg (by omega), if_neg (by omega)]
  split at h6 <;> split <;> omega

theorem QRep.space {q l} (h : QRep q l) : qSpace q = q.size - 1 - l.length := by
  have := h.len
  obtain ⟨h1, h2, h3, h4, h5, h6, _⟩ := h
  rw [mod_lt2 h4 h5] at h6
  unfold qSpace
  rw [if_neg (by omega)]
  split at h6 <;> split <;> omega

theorem qwr_out {m p bs i} (h : i < p ∨ p + bs.length ≤ i) : qwr m p bs i = m i := by
  unfold qwr; rw [if_neg (by omega)]

theorem qwr_in {m p} {bs : List UInt8} {i j} (h : i < bs.length) (hj : j = p + i) :
    qwr m p bs j = bs[i] := by
  subst hj
  unfold qwr; rw [if_pos (by omega)]; simp [h]

theorem qInsert_empty {q data seq} (h : QRep q []) (hd : data.length < q.size) :
    ∃ q', qInsert q data seq = some q' ∧ QRep q' data ∧ q'.seqBase = seq ∧ q'.size = q.size := by
  have hl := h.len
  have hs := h.space
  obtain ⟨h1, h2, h3, h4, h5, h6, _⟩ := h
  simp only [List.length_nil] at hl hs
  refine ⟨{ q with tail := 0, head := data.length, seqBase := seq, mem := qwr q.mem 0 data }, ?_, ?_, rfl, rfl⟩
  · unfold qInsert
    rw [if_neg (by omega), if_neg (by omega), if_neg (by omega), if_pos hl]
  refine ⟨h1, h2, hd, by simp only; omega, hd, ?_, ?_⟩
  · simp only [Nat.zero_add]; exact (Nat.mod_eq_of_lt hd).symm
  · intro i hi
    simp only [Nat.zero_add]
    rw [Nat.mod_eq_of_lt (by omega)]
    exact qwr_in hi (by omega)

theorem appendMem_old {q : Queue} {data : List UInt8} {j : Nat} (hh : q.head < q.size) (hjs : j < q.size)
    (h : (q.head + data.length ≤ q.size ∧ (j < q.head ∨ q.head + data.length ≤ j)) ∨
         (q.head + data.length > q.size ∧ q.head + data.length - q.size ≤ j ∧ j < q.head)) :
    qAppendMem q data j = q.mem j := by
  unfold qAppendMem
  split
  · rw [qwr_out (by simp only [List.length_drop]; omega), qwr_out (by simp only [List.length_take]; omega)]
  · rw [qwr_out (by omega)]

theorem appendMem_new {q : Queue} {data : List UInt8} {j k : Nat} (hh : q.head < q.size)
    (hk : k < data.length) (hl : data.length < q.size)
    (hj : (q.head + k < q.size ∧ j = q.head + k) ∨ (q.size ≤ q.head + k ∧ j + q.size = q.head + k)) :
    qAppendMem q data j = data[k] := by
  unfold qAppendMem
  split
  · by_cases hf : q.head + k < q.size
    · rw [qwr_out (by simp only [List.length_drop]; omega),
        qwr_in (i := k) (by simp only [List.length_take]; omega) (by omega)]
      simp
    · rw [qwr_in (i := k - (q.size - q.head)) (by simp only [List.length_drop]; omega) (by omega)]
      simp only [List.getElem_drop]
      congr 1; omega
  · rw [qwr_in (i := k) hk (by omega)]

theorem qInsert_append {q l data seq} (h : QRep q l) (hl0 : l ≠ []) (hd : l.length + data.length < q.size)
    (hseq : seqDiff seq q.seqBase = l.length) :
    ∃ q', qInsert q data seq = some q' ∧ QRep q' (l ++ data) ∧ q'.seqBase = q.seqBase ∧
      q'.size = q.size := by
  have hl := h.len
  have hs := h.space
  obtain ⟨h1, h2, h3, h4, h5, h6, h7⟩ := h
  have hpos : 0 < l.length := List.length_pos_iff.2 hl0
  refine ⟨{ q with head := (q.head + data.length) % q.size, mem := qAppendMem q data }, ?_, ?_, rfl, rfl⟩
  · unfold qInsert
    rw [if_neg (by omega), if_neg (by omega), if_neg (by omega), if_neg (by omega)]
    simp only
    rw [if_neg (by omega), if_neg (by omega), if_neg (by omega)]
  have hh := mod_lt2 h4 h5
  rw [← h6] at hh
  have hnew : (q.head + data.length) % q.size = (q.tail + (l ++ data).length) % q.size := by
    rw [h6, Nat.mod_add_mod, List.length_append, Nat.add_assoc]
  refine ⟨h1, h2, ?_, h4, by simp; omega, hnew, ?_⟩
  · exact Nat.mod_lt _ (by omega)
  · intro i hi
    simp only [List.length_append] at hi
    simp only
    have hj := mod_lt2 h4 (by omega : i < q.size)
    have hjl : (q.tail + i) % q.size < q.size := Nat.mod_lt _ (by omega)
    by_cases hil : i < l.length
    · rw [List.getElem_append_left hil, ← h7 i hil]
      generalize (q.tail + i) % q.size = j at *
      apply appendMem_old h3 hjl
      split at hh <;> split at hj <;> omega
    · rw [List.getElem_append_right (by omega)]
      generalize (q.tail + i) % q.size = j at *
      apply appendMem_new h3 _ (by omega)
      split at hh <;> split at hj <;> omega

theorem qPop_spec {q l} (n : Nat) (h : QRep q l) (hne : l ≠ []) :
    ∃ q', qPop q n = some (l.take n, q') ∧ QRep q' (l.drop n) ∧ q'.size = q.size ∧
      q'.seqBase = (q.seqBase + min n l.length) % 4294967296 := by
  have hl := h.len
  obtain ⟨h1, h2, h3, h4, h5, h6, h7⟩ := h
  have hpos : 0 < l.length := List.length_pos_iff.2 hne
  have hn : (if n > qLen q then qLen q else n) = min n l.length := by
    rw [hl]; split <;> omega
  refine ⟨{ q with tail := (q.tail + min n l.length) % q.size,
                   seqBase := (q.seqBase + min n l.length) % 4294967296 }, ?_, ?_, rfl, rfl⟩
  · unfold qPop
    simp only [hn]
    rw [if_neg (by omega)]
    congr 2
    have hlen : (l.take n).length = min n l.length := by simp
    apply List.ext_getElem
    · rw [hlen]; split <;> simp [qrd]; omega
    · intro i hi1 hi2
      rw [hlen] at hi2
      simp only [List.getElem_take]
      have h8 := h7 i (by omega)
      rw [mod_lt2 h4 (by omega : i < q.size)] at h8
      rw [← h8]
      split
      · by_cases hf : i < q.size - q.tail
        · rw [List.getElem_append_left (by simpa [qrd] using hf)]
          simp only [qrd, List.getElem_map, List.getElem_range]
          rw [if_pos (by omega)]
        · rw [List.getElem_append_right (by simp [qrd]; omega)]
          simp only [qrd, List.getElem_map, List.getElem_range, List.length_map, List.length_range]
          rw [if_neg (by omega)]
          congr 1; omega
      · simp only [qrd, List.getElem_map, List.getElem_range]
        rw [if_pos (by omega)]
  · refine ⟨h1, h2, h3, Nat.mod_lt _ (by omega), by simp; omega, ?_, ?_⟩
    · simp only [List.length_drop, Nat.mod_add_mod]
      rw [h6]; congr 1; omega
    · intro i hi
      simp only [List.length_drop] at hi
      simp only [Nat.mod_add_mod, List.getElem_drop]
      have hx : q.tail + min n l.length + i = q.tail + (n + i) := by omega
      rw [hx]
      exact h7 (n + i) (by omega)

theorem qPop_empty {q} (n : Nat) (h : QRep q []) : qPop q n = none := by
  have hl := h.len
  unfold qPop; simp [hl]

/-! ## C06 -/

/-- Operations on the receive ring. -/
inductive QOp where
  | insert (data : List UInt8) (seq : Nat)
  | pop (n : Nat)

/-- Result of an operation: whether the insert returned 0 / the bytes returned by pop
(`none` = EAGAIN). -/
inductive QOut where
  | inserted (ok : Bool)
  | popped (r : Option (List UInt8))
deriving DecidableEq

/-- One ring operation (pure composition of the modelled functions). -/
def qStep (q : Queue) : QOp → Queue × QOut
  | .insert d s => match qInsert q d s with
    | some q' => (q', .inserted true)
    | none => (q, .inserted false)
  | .pop n => match qPop q n with
    | some (r, q') => (q', .popped (some r))
    | none => (q, .popped none)

/-- Run a history. -/
def qRun (q : Queue) : List QOp → Queue × List QOut
  | [] => (q, [])
  | op :: ops =>
    let (q', o) := qStep q op
    let (q'', os) := qRun q' ops
    (q'', o :: os)

/-- Specification state: the unread bytes and the sequence number of the first one. -/
structure ByteQ where
  bytes : List UInt8
  base : Nat

/-- Specification of one operation for capacity `cap`: a bounded byte queue that only takes bytes
at its end.  Anything that would exceed `cap`, lies before the queue or leaves a gap is refused;
a segment starting inside the unread bytes is acknowledged without effect. -/
def byteQStep (cap : Nat) (b : ByteQ) : QOp → ByteQ × QOut
  | .insert d s =>
    if d.length + b.bytes.length > cap then (b, .inserted false)
    else if b.bytes = [] then ({ bytes := d, base := s }, .inserted true)
    else
      let rel := seqDiff s b.base
      if rel = b.bytes.length then ({ b with bytes := b.bytes ++ d }, .inserted true)
      else (b, .inserted (decide (0 ≤ rel ∧ rel < b.bytes.length)))
  | .pop n =>
    if b.bytes = [] then (b, .popped none)
    else ({ bytes := b.bytes.drop n, base := (b.base + min n b.bytes.length) % 4294967296 },
          .popped (some (b.bytes.take n)))

/-- Specification run. -/
def byteQRun (cap : Nat) (b : ByteQ) : List QOp → ByteQ × List QOut
  | [] => (b, [])
  | op :: ops =>
    let (b', o) := byteQStep cap b op
    let (b'', os) := byteQRun cap b' ops
    (b'', o :: os)

theorem qStep_refines {q : Queue} {b : ByteQ} (op : QOp) (h : QRep q b.bytes)
    (hb : b.bytes ≠ [] → q.seqBase = b.base) :
    (qStep q op).2 = (byteQStep (q.size - 1) b op).2 ∧
    QRep (qStep q op).1 (byteQStep (q.size - 1) b op).1.bytes ∧
    ((byteQStep (q.size - 1) b op).1.bytes ≠ [] →
      (qStep q op).1.seqBase = (byteQStep (q.size - 1) b op).1.base) ∧
    (qStep q op).1.size = q.size := by
  have hl := h.len
  have hs := h.space
  obtain ⟨h1, h2, h3, h4, h5, h6, h7⟩ := id h
  cases op with
  | insert d s =>
    simp only [qStep, byteQStep]
    by_cases hcap : d.length + b.bytes.length > q.size - 1
    · rw [if_pos hcap]
      have : qInsert q d s = none := by
        unfold qInsert
        rw [if_neg (by omega)]
        split
        · rfl
        · rw [if_pos (by omega)]
      rw [this]; exact ⟨rfl, h, hb, rfl⟩
    · rw [if_neg hcap]
      by_cases he : b.bytes = []
      · rw [if_pos he]
        rw [he] at h
        obtain ⟨q', e1, e2, e3, e4⟩ := qInsert_empty (seq := s) h (data := d) (by omega)
        rw [e1]; exact ⟨rfl, e2, fun _ => e3, e4⟩
      · rw [if_neg he]
        have hpos : 0 < b.bytes.length := List.length_pos_iff.2 he
        have hbase := hb he
        have h0 : b.bytes.length + d.length < q.size := by clear h6 h7; omega
        have g1 : ¬ q.size ≤ 1 := by omega
        have g2 : ¬ d.length > q.size - 1 := by omega
        have g3 : ¬ d.length > qSpace q := by omega
        have g4 : ¬ qLen q = 0 := by omega
        by_cases hr : seqDiff s b.base = b.bytes.length
        · rw [if_pos hr]
          obtain ⟨q', e1, e2, e3, e4⟩ := qInsert_append h he (data := d) (seq := s) h0 (by rw [hbase]; exact hr)
          rw [e1]; exact ⟨rfl, e2, fun _ => by simp only; rw [e3]; exact hbase, e4⟩
        · rw [if_neg hr]
          have : qInsert q d s = if 0 ≤ seqDiff s b.base ∧ seqDiff s b.base < b.bytes.length then some q else none := by
            unfold qInsert
            rw [if_neg g1, if_neg g2, if_neg g3, if_neg g4, hl, hbase]
            simp only
            clear h0 g1 g2 g3 g4 h1 h2 h3 h4 h5 h6 h7 hl hs hcap hpos hbase hb h
            generalize seqDiff s b.base = rel at *
            generalize b.bytes.length = k at *
            split
            · rw [if_neg (by omega)]
            · split
              · rw [if_pos (by omega)]
              · rw [if_pos (by omega), if_neg (by omega)]
          rw [this]
          by_cases hc : 0 ≤ seqDiff s b.base ∧ seqDiff s b.base < b.bytes.length
          · rw [if_pos hc]
            exact ⟨by simp only [hc, decide_true, and_self], h, hb, rfl⟩
          · rw [if_neg hc]
            exact ⟨by simp only [hc, decide_false], h, hb, rfl⟩
  | pop n =>
    simp only [qStep, byteQStep]
    by_cases he : b.bytes = []
    · rw [if_pos he]
      rw [he] at h
      rw [qPop_empty n h]
      exact ⟨rfl, by rw [he]; exact h, hb, rfl⟩
    · rw [if_neg he]
      obtain ⟨q', e1, e2, e3, e4⟩ := qPop_spec n h he
      rw [e1]
      exact ⟨rfl, e2, fun _ => by simp only; rw [e4, hb he], e3⟩

/-- **C06.** For every ring size and every history of inserts and reads, the receive ring answers
exactly like a byte queue of capacity `size − 1`. -/
theorem rx_ring_is_bounded_byte_queue (size base : Nat) (h1 : 1 < size) (h2 : size < 2147483648)
    (ops : List QOp) :
    (qRun (qInit size base) ops).2 = (byteQRun (size - 1) { bytes := [], base := base } ops).2 := by
  have gen : ∀ (ops : List QOp) (q : Queue) (b : ByteQ), q.size = size → QRep q b.bytes →
      (b.bytes ≠ [] → q.seqBase = b.base) →
      (qRun q ops).2 = (byteQRun (size - 1) b ops).2 := by
    intro ops
    induction ops with
    | nil => intros; rfl
    | cons op ops ih =>
      intro q b hsz hr hb
      obtain ⟨e1, e2, e3, e4⟩ := qStep_refines op hr hb
      rw [hsz] at e1 e2 e3
      simp only [qRun, byteQRun]
      rw [e1, ih _ _ (by rw [e4]; exact hsz) e2 e3]
  exact gen ops _ _ rfl (qInit_rep size base h1 h2) (by simp)

/-- Size invariant of the specification: at most `cap` bytes are held. -/
theorem byteQ_bounded (cap : Nat) (ops : List QOp) (b : ByteQ) (h : b.bytes.length ≤ cap) :
    (byteQRun cap b ops).1.bytes.length ≤ cap := by
  induction ops generalizing b with
  | nil => exact h
  | cons op ops ih =>
    simp only [byteQRun]
    apply ih
    cases op with
    | insert d s =>
      simp only [byteQStep]
      repeat' split
      all_goals simp_all
      all_goals omega
    | pop n =>
      simp only [byteQStep]
      repeat' split
      all_goals simp_all
      all_goals omega

/-- A concrete wrapped history: bytes written in three pieces across the ring end are read back in
order. -/
example : (qRun (qInit 6 100) [.insert [1,2,3,4] 100, .pop 3, .insert [5,6,7] 104, .insert [9] 200,
    .pop 2, .pop 9, .pop 1]).2 =
    [.inserted true, .popped (some [1,2,3]), .inserted true, .inserted false, .popped (some [4,5]),
     .popped (some [6,7]), .popped none] := by decide +kernel

end Wolf.Tcp
