import Verif.Supp.Frame

/-!
# EAP-TLS fragmentation and reassembly (C66)

Model of `src/supplicant/eap_tls.c` and the I/O callbacks of `eap_tls_engine.c` 33-106.
`rx_filled` and `tx_filled` are the lengths of the buffered byte lists.
-/

namespace Wolf.Supp

/-- `WOLFIP_SUPPLICANT_EAP_FRAG_SIZE`, eap_tls.h 58. -/
notation "fragSize" => (2048 : Nat)

/-- `struct eap_tls_io`, eap_tls.h 70-87. -/
structure Io where
  rx : Bytes
  rxTotal : Nat
  rxDrained : Nat
  rxComplete : Bool
  tx : Bytes
  txDrained : Nat
  txFirst : Bool
  deriving DecidableEq, Repr

/-- `eap_tls_io_reset`, eap_tls.c 17-24. -/
def Io.init : Io := ⟨[], 0, 0, false, [], 0, true⟩

/-- Bit `k` of a flags byte. -/
def flag (v k : Nat) : Bool := v.testBit k

/-- `rd32_be`, eap_tls.c 26-32. -/
def rd32 (b : Bytes) (i : Nat) : M Nat := do
  let a ← ld b i
  let b1 ← ld b (i + 1)
  let c ← ld b (i + 2)
  let d ← ld b (i + 3)
  return ((a * 256 + b1) * 256 + c) * 256 + d

/-- `wr32_be`, eap_tls.c 34-40. -/
def wr32 (v : Nat) : Bytes := [v / 16777216 % 256, v / 65536 % 256, v / 256 % 256, v % 256]

/-- eap_tls.c 103-127: append the payload at `off`, then the M bit. -/
def rxAppend (io : Io) (d : Bytes) (fl off : Nat) : Io × M Bool :=
  let payload := d.drop off
  if payload.length > 0 ∧ io.rx.length + payload.length > fragSize then (io, .error .reject)
  else if payload.length > 0 ∧ io.rxTotal ≠ 0 ∧ io.rx.length + payload.length > io.rxTotal then
    (io, .error .reject)
  else
    let io := { io with rx := io.rx ++ payload }
    if flag fl 6 = false then
      ({ io with rxComplete := true,
                 rxTotal := if io.rxTotal = 0 then io.rx.length else io.rxTotal }, .ok false)
    else (io, .ok false)

/-- `eap_tls_rx_fragment`, eap_tls.c 42-128.  Result `true` is "Start". -/
def rxFragment (io : Io) (d : Bytes) : Io × M Bool :=
  match ld d 0 with
  | .error _ => (io, .error .reject)     -- type_data_len < 1 (checked before the read)
  | .ok fl =>
    let io := if io.rxComplete then
        { io with rx := [], rxTotal := 0, rxComplete := false, rxDrained := 0 } else io
    if flag fl 5 then (io, .ok true)
    else if flag fl 7 then
      if d.length < 5 then (io, .error .reject)
      else match rd32 d 1 with
        | .error e => (io, .error e)
        | .ok total =>
          if io.rxTotal = 0 then
            if total > fragSize ∨ total < io.rx.length then (io, .error .reject)
            else rxAppend { io with rxTotal := total } d fl 5
          else rxAppend io d fl 5
    else rxAppend io d fl 1

/-- `eap_tls_io_recv`, eap_tls_engine.c 33-67.  `none`: error, or nothing to read. -/
def ioRecv (io : Io) (sz : Nat) : Io × Option Bytes :=
  if sz = 0 then (io, none)
  else if io.rx.length < io.rxDrained then (io, none)
  else
    let avail := io.rx.length - io.rxDrained
    if avail = 0 then (io, none)
    else
      let take := if sz > avail then avail else sz
      let out := (io.rx.drop io.rxDrained).take take
      let io := { io with rxDrained := io.rxDrained + take }
      if io.rxComplete ∧ io.rxDrained = io.rx.length then
        ({ io with rx := [], rxTotal := 0, rxDrained := 0, rxComplete := false }, some out)
      else (io, some out)

/-- `eap_tls_io_send`, eap_tls_engine.c 71-106: how many bytes of `b` are taken. -/
def ioSend (io : Io) (b : Bytes) : Io × Option Nat :=
  if b = [] then (io, none)
  else if io.tx.length > fragSize then (io, none)
  else
    let cap := fragSize - io.tx.length
    if cap = 0 then (io, none)
    else ({ io with tx := io.tx ++ b.take cap }, some (min b.length cap))

/-- `eap_tls_tx_fragment`, eap_tls.c 130-199: the fragment and whether more follow. -/
def txFragment (io : Io) (mtu : Nat) : Io × Option (Bytes × Bool) :=
  if mtu < 1 then (io, none)
  else if io.tx.length < io.txDrained then (io, none)
  else
    let remaining := io.tx.length - io.txDrained
    let off := if io.txFirst ∧ remaining + 1 > mtu then 5 else 1
    if mtu < off then (io, none)
    else
      let take := if mtu - off > remaining then remaining else mtu - off
      let more := decide (take < remaining)
      if take = 0 ∧ more then (io, none)
      else
        let fl := (if io.txFirst ∧ more then 128 else 0) + (if more then 64 else 0)
        -- the length field is only written when the L flag is set
        let hdr := fl :: (if io.txFirst ∧ more then wr32 remaining else List.replicate (off - 1) 0)
        let out := hdr ++ (io.tx.drop io.txDrained).take take
        if more then ({ io with txDrained := io.txDrained + take, txFirst := false }, some (out, true))
        else ({ io with tx := [], txDrained := 0, txFirst := true }, some (out, false))

/-! ## Buffers are never overrun -/

/-- What happens to the buffers. -/
inductive IoOp where
  | fragment (d : Bytes)
  | recv (sz : Nat)
  | send (b : Bytes)
  | transmit (mtu : Nat)

/-- One buffer operation. -/
def ioStep (io : Io) : IoOp → Io
  | .fragment d => (rxFragment io d).1
  | .recv sz => (ioRecv io sz).1
  | .send b => (ioSend io b).1
  | .transmit mtu => (txFragment io mtu).1

/-- Both buffers within their arrays, cursors within the data, data within the announced total. -/
structure IoOk (io : Io) : Prop where
  rx : io.rx.length ≤ 2048
  total : io.rxTotal ≠ 0 → io.rx.length ≤ io.rxTotal ∧ io.rxTotal ≤ 2048
  drained : io.rxDrained ≤ io.rx.length
  tx : io.tx.length ≤ 2048
  txd : io.txDrained ≤ io.tx.length

theorem rxAppend_ok {io : Io} (h : IoOk io) (d : Bytes) (fl off : Nat) :
    IoOk (rxAppend io d fl off).1 := by
  have h1 := h.rx
  have h2 := h.total
  have h3 := h.drained
  unfold rxAppend
  dsimp only
  split
  · exact h
  · next c1 =>
    split
    · exact h
    · next c2 =>
      have ha : io.rx.length + (d.drop off).length ≤ 2048 := by
        by_cases hp : (d.drop off).length > 0
        · have : ¬ io.rx.length + (d.drop off).length > 2048 := fun c => c1 ⟨hp, c⟩
          omega
        · omega
      have hb : io.rxTotal ≠ 0 → io.rx.length + (d.drop off).length ≤ io.rxTotal := by
        intro h0
        by_cases hp : (d.drop off).length > 0
        · have : ¬ io.rx.length + (d.drop off).length > io.rxTotal := fun c => c2 ⟨hp, h0, c⟩
          omega
        · have := (h2 h0).1
          omega
      split
      · refine ⟨?_, ?_, ?_, h.tx, h.txd⟩
        · show (io.rx ++ d.drop off).length ≤ 2048
          rw [List.length_append]; exact ha
        · show (if io.rxTotal = 0 then (io.rx ++ d.drop off).length else io.rxTotal) ≠ 0 →
            (io.rx ++ d.drop off).length ≤
              (if io.rxTotal = 0 then (io.rx ++ d.drop off).length else io.rxTotal) ∧
            (if io.rxTotal = 0 then (io.rx ++ d.drop off).length else io.rxTotal) ≤ 2048
          rw [List.length_append]
          split
          · intro _; exact ⟨Nat.le_refl _, ha⟩
          · next h0 => intro _; exact ⟨hb h0, (h2 h0).2⟩
        · show io.rxDrained ≤ (io.rx ++ d.drop off).length
          rw [List.length_append]; omega
      · refine ⟨?_, ?_, ?_, h.tx, h.txd⟩
        · show (io.rx ++ d.drop off).length ≤ 2048
          rw [List.length_append]; exact ha
        · show io.rxTotal ≠ 0 → (io.rx ++ d.drop off).length ≤ io.rxTotal ∧ io.rxTotal ≤ 2048
          rw [List.length_append]
          intro h0; exact ⟨hb h0, (h2 h0).2⟩
        · show io.rxDrained ≤ (io.rx ++ d.drop off).length
          rw [List.length_append]; omega

theorem ioStep_ok {io : Io} (h : IoOk io) (o : IoOp) : IoOk (ioStep io o) := by
  cases o with
  | fragment d =>
    have hclr : IoOk (if io.rxComplete then
        ({ io with rx := [], rxTotal := 0, rxComplete := false, rxDrained := 0 } : Io) else io) := by
      split
      · exact ⟨Nat.zero_le _, fun c => absurd rfl c, Nat.le_refl _, h.tx, h.txd⟩
      · exact h
    unfold ioStep rxFragment
    dsimp only
    split
    · exact h
    · next fl hfl =>
      generalize (if io.rxComplete then
        ({ io with rx := [], rxTotal := 0, rxComplete := false, rxDrained := 0 } : Io) else io) = j
        at hclr
      split
      · exact hclr
      · split
        · split
          · exact hclr
          · split
            · exact hclr
            · next total ht =>
              split
              · next h0 =>
                split
                · exact hclr
                · next hb =>
                  apply rxAppend_ok
                  exact ⟨hclr.rx, fun _ => ⟨by dsimp only; omega, by dsimp only; omega⟩,
                    hclr.drained, hclr.tx, hclr.txd⟩
              · exact rxAppend_ok hclr _ _ _
        · exact rxAppend_ok hclr _ _ _
  | recv sz =>
    have h3 := h.drained
    unfold ioStep ioRecv
    dsimp only
    split
    · exact h
    · split
      · exact h
      · generalize hk : (if sz > io.rx.length - io.rxDrained then
            io.rx.length - io.rxDrained else sz) = k
        have hk' : k ≤ io.rx.length - io.rxDrained := by rw [← hk]; split <;> omega
        split
        · exact h
        · split
          · exact ⟨Nat.zero_le _, fun c => absurd rfl c, Nat.le_refl _, h.tx, h.txd⟩
          · exact ⟨h.rx, h.total, (by dsimp only; omega), h.tx, h.txd⟩
  | send b =>
    unfold ioStep ioSend
    dsimp only
    split
    · exact h
    · split
      · exact h
      · split
        · exact h
        · refine ⟨h.rx, h.total, h.drained, ?_, ?_⟩
          · show (io.tx ++ b.take (2048 - io.tx.length)).length ≤ 2048
            rw [List.length_append, List.length_take]; omega
          · show io.txDrained ≤ (io.tx ++ b.take (2048 - io.tx.length)).length
            rw [List.length_append]
            exact Nat.le_trans h.txd (Nat.le_add_right _ _)
  | transmit mtu =>
    have h5 := h.txd
    unfold ioStep txFragment
    dsimp only
    split
    · exact h
    · split
      · exact h
      · generalize (if io.txFirst = true ∧ io.tx.length - io.txDrained + 1 > mtu then 5 else 1) = off
        split
        · exact h
        · generalize hk : (if mtu - off > io.tx.length - io.txDrained then
            io.tx.length - io.txDrained else mtu - off) = k
          have hk' : k ≤ io.tx.length - io.txDrained := by rw [← hk]; split <;> omega
          split
          · exact h
          · split
            · exact ⟨h.rx, h.total, h.drained, h.tx, by dsimp only; omega⟩
            · exact ⟨h.rx, h.total, h.drained, Nat.zero_le _, Nat.le_refl _⟩

theorem rd32_ok {b : Bytes} {i : Nat} (h : i + 3 < b.length) : ∃ v, rd32 b i = .ok v := by
  unfold rd32
  rw [ld_ok (show i < b.length by omega), ld_ok (show i + 1 < b.length by omega),
    ld_ok (show i + 2 < b.length by omega), ld_ok h]
  exact ⟨_, rfl⟩

/-- **C66, safety.**  Whatever fragments arrive and whatever the TLS engine reads and writes, in any
order, neither 2048-byte buffer is ever overrun, no message grows beyond its announced length, and
no fragment is read beyond its end. -/
theorem eap_tls_buffers_safe (ops : List IoOp) :
    IoOk (ops.foldl ioStep Io.init) ∧
    ∀ d, (rxFragment (ops.foldl ioStep Io.init) d).2 ≠ .error .oob := by
  have key : ∀ (ops : List IoOp) (io : Io), IoOk io → IoOk (ops.foldl ioStep io) := by
    intro ops
    induction ops with
    | nil => intro io h; exact h
    | cons o os ih => intro io h; exact ih _ (ioStep_ok h o)
  refine ⟨key ops _ ⟨Nat.zero_le _, fun c => absurd rfl c, Nat.le_refl _, Nat.zero_le _,
    Nat.le_refl _⟩, ?_⟩
  intro d
  generalize ops.foldl ioStep Io.init = io
  have happ : ∀ (io : Io) (fl off : Nat), (rxAppend io d fl off).2 ≠ .error .oob := by
    intro io fl off
    unfold rxAppend
    dsimp only
    (repeat' split) <;> (intro c; cases c)
  unfold rxFragment
  dsimp only
  split
  · intro c; cases c
  · generalize (if io.rxComplete = true then
        ({ io with rx := [], rxTotal := 0, rxComplete := false, rxDrained := 0 } : Io) else io) = j
    split
    · intro c; cases c
    · split
      · split
        · intro c; cases c
        · next hl =>
          obtain ⟨v, hv⟩ := rd32_ok (show 1 + 3 < d.length by omega)
          rw [hv]
          dsimp only
          split
          · split
            · intro c; cases c
            · exact happ _ _ _
          · exact happ _ _ _
      · exact happ _ _ _

/-! ## What one side sends, the other side receives -/

/-- The fragments of the message in the outbound buffer, one per request of the peer. -/
def txAll (mtu : Nat) : Nat → Io → List Bytes
  | 0, _ => []
  | n + 1, io =>
    match txFragment io mtu with
    | (_, none) => []
    | (io', some (f, true)) => f :: txAll mtu n io'
    | (_, some (f, false)) => [f]

/-- Feed fragments to the receiver; `none` if one is refused or taken for a Start. -/
def feed : Io → List Bytes → Option Io
  | io, [] => some io
  | io, f :: fs =>
    match rxFragment io f with
    | (io', .ok false) => feed io' fs
    | _ => none

theorem rd32_wr32 {v : Nat} (hv : v < 2 ^ 32) (x : Nat) (r : Bytes) :
    rd32 (x :: (wr32 v ++ r)) 1 = .ok v := by
  unfold rd32 wr32
  rw [ld_eq (x := v / 16777216 % 256) rfl, ld_eq (x := v / 65536 % 256) rfl,
    ld_eq (x := v / 256 % 256) rfl, ld_eq (x := v % 256) rfl]
  show Except.ok _ = Except.ok v
  congr 1
  omega

/-- Receiver part-way through message `m`: `k` bytes received. -/
def Mid (r : Io) (m : Bytes) (k : Nat) : Prop :=
  r.rx = m.take k ∧ r.rxTotal = m.length ∧ r.rxDrained = 0 ∧ r.rxComplete = false

/-- Receiver holding exactly the complete message. -/
def Got (r : Io) (m : Bytes) : Prop :=
  r.rx = m ∧ r.rxDrained = 0 ∧ r.rxComplete = true

theorem rx_middle {r : Io} {m : Bytes} {k t : Nat} (h : Mid r m k) (hm : m.length ≤ 2048)
    (hk : k + t ≤ m.length) :
    ∃ r', rxFragment r (64 :: (m.drop k).take t) = (r', .ok false) ∧ Mid r' m (k + t) := by
  obtain ⟨h1, h2, h3, h4⟩ := h
  refine ⟨{ r with rx := m.take (k + t) }, ?_, rfl, h2, h3, h4⟩
  unfold rxFragment
  rw [ld_eq (x := 64) rfl]
  dsimp only
  rw [h4]
  simp only [Bool.false_eq_true, if_false, show flag 64 5 = false from rfl,
    show flag 64 7 = false from rfl]
  unfold rxAppend
  dsimp only
  have e1 : List.drop 1 (64 :: (m.drop k).take t) = (m.drop k).take t := rfl
  have hl : ((m.drop k).take t).length = t := by
    rw [List.length_take, List.length_drop]; omega
  have hr : r.rx.length = k := by rw [h1, List.length_take]; omega
  rw [e1, hl, hr, if_neg (by omega), if_neg (by omega)]
  rw [show flag 64 6 = true from rfl]
  simp only [Bool.true_eq_false, if_false]
  rw [h1, ← List.take_add, h4]

theorem rx_last {r : Io} {m : Bytes} {k : Nat} (h : Mid r m k) (hm : m.length ≤ 2048)
    (hk : k ≤ m.length) (h0 : m ≠ []) :
    ∃ r', rxFragment r (0 :: m.drop k) = (r', .ok false) ∧ Got r' m := by
  obtain ⟨h1, h2, h3, h4⟩ := h
  have hpos : m.length ≠ 0 := fun c => h0 (List.length_eq_zero_iff.mp c)
  refine ⟨{ r with rx := m, rxComplete := true }, ?_, rfl, h3, rfl⟩
  unfold rxFragment
  rw [ld_eq (x := 0) rfl]
  dsimp only
  rw [h4]
  simp only [Bool.false_eq_true, if_false, show flag 0 5 = false from rfl,
    show flag 0 7 = false from rfl]
  unfold rxAppend
  dsimp only
  have e1 : List.drop 1 (0 :: m.drop k) = m.drop k := rfl
  have hr : r.rx.length = k := by rw [h1, List.length_take]; omega
  rw [e1, hr, List.length_drop, if_neg (by omega), if_neg (by omega)]
  rw [show flag 0 6 = false from rfl]
  simp only [if_true]
  rw [h1, List.take_append_drop, h2, if_neg hpos]

theorem txAll_mid {mtu : Nat} (hmtu : 2 ≤ mtu) {m : Bytes} (hm : m.length ≤ 2048) (h0 : m ≠ [])
    (n : Nat) : ∀ (io r : Io) (k : Nat), io.tx = m → io.txDrained = k → io.txFirst = false →
      k ≤ m.length → m.length - k < n → Mid r m k →
      (∃ r', feed r (txAll mtu n io) = some r' ∧ Got r' m) ∧
      ∀ f ∈ txAll mtu n io, f.length ≤ mtu := by
  induction n with
  | zero => intro io r k _ _ _ _ hn; omega
  | succ n ih =>
    intro io r k htx hd hf hk hn hmid
    have htx' : txFragment io mtu =
        if m.length - k ≤ mtu - 1 then
          ({ io with tx := [], txDrained := 0, txFirst := true }, some (0 :: m.drop k, false))
        else ({ io with txDrained := k + (mtu - 1), txFirst := false },
          some (64 :: (m.drop k).take (mtu - 1), true)) := by
      unfold txFragment
      dsimp only
      rw [htx, hd, hf]
      rw [if_neg (by omega), if_neg (by omega)]
      simp only [Bool.false_eq_true, false_and, if_false]
      rw [if_neg (by omega)]
      by_cases hc : m.length - k ≤ mtu - 1
      · rw [if_pos hc]
        have ht : (if mtu - 1 > m.length - k then m.length - k else mtu - 1) = m.length - k := by
          split <;> omega
        rw [ht]
        have hdec : decide (m.length - k < m.length - k) = false := by simp
        rw [hdec]
        simp only [Bool.false_eq_true, and_false, if_false, List.replicate_zero, Nat.add_zero]
        rw [List.take_of_length_le (by rw [List.length_drop]; omega)]
        rfl
      · rw [if_neg hc]
        have ht : (if mtu - 1 > m.length - k then m.length - k else mtu - 1) = mtu - 1 := by
          split <;> omega
        rw [ht]
        have hdec : decide (mtu - 1 < m.length - k) = true := by simp; omega
        rw [hdec]
        rw [if_neg (by omega)]
        simp only [if_true]
        rfl
    unfold txAll
    rw [htx']
    by_cases hc : m.length - k ≤ mtu - 1
    · rw [if_pos hc]
      dsimp only
      obtain ⟨r', h1, h2⟩ := rx_last hmid hm hk h0
      refine ⟨⟨r', ?_, h2⟩, ?_⟩
      · unfold feed
        rw [h1]
        rfl
      · intro f hf
        rw [List.mem_singleton] at hf
        rw [hf, List.length_cons, List.length_drop]
        omega
    · rw [if_neg hc]
      dsimp only
      obtain ⟨r', h1, h2⟩ := rx_middle (t := mtu - 1) hmid hm (by omega)
      obtain ⟨⟨r'', h3, h4⟩, h5⟩ := ih { io with txDrained := k + (mtu - 1), txFirst := false } r'
        (k + (mtu - 1)) htx rfl rfl (by omega) (by omega) h2
      refine ⟨⟨r'', ?_, h4⟩, ?_⟩
      · unfold feed
        rw [h1]
        exact h3
      · intro f hf
        rcases List.mem_cons.mp hf with hf | hf
        · rw [hf, List.length_cons, List.length_take, List.length_drop]
          omega
        · exact h5 f hf

/-- **C66, round trip.**  A TLS message of up to 2048 bytes, cut into EAP-TLS fragments for any MTU of
at least 6 bytes, is reassembled exactly by a receiver that is between messages; the message is
complete at the last fragment and every fragment fits the MTU. -/
theorem eap_tls_round_trip (mtu : Nat) (hmtu : 6 ≤ mtu) (m : Bytes) (h0 : m ≠ [])
    (hm : m.length ≤ 2048) (io r : Io) (htx : io.tx = m) (hd : io.txDrained = 0)
    (hf : io.txFirst = true)
    (hr : r.rxComplete = true ∨ (r.rx = [] ∧ r.rxTotal = 0 ∧ r.rxDrained = 0)) :
    (∃ r', feed r (txAll mtu (m.length + 1) io) = some r' ∧ Got r' m) ∧
    ∀ f ∈ txAll mtu (m.length + 1) io, f.length ≤ mtu := by
  have hclr : ∃ rr : Io, (if r.rxComplete = true then
      ({ r with rx := [], rxTotal := 0, rxComplete := false, rxDrained := 0 } : Io) else r) = rr ∧
      rr.rx = [] ∧ rr.rxTotal = 0 ∧ rr.rxDrained = 0 ∧ rr.rxComplete = false := by
    refine ⟨_, rfl, ?_⟩
    by_cases hc : r.rxComplete = true
    · rw [if_pos hc]; exact ⟨rfl, rfl, rfl, rfl⟩
    · rw [if_neg hc]
      rcases hr with h | h
      · exact absurd h hc
      · exact ⟨h.1, h.2.1, h.2.2, by simpa using hc⟩
  obtain ⟨rr, hrr, r1, r2, r3, r4⟩ := hclr
  have hpos : 0 < m.length := Nat.pos_of_ne_zero (fun c => h0 (List.length_eq_zero_iff.mp c))
  by_cases hc : m.length + 1 ≤ mtu
  · have htx' : txFragment io mtu = ({ io with tx := [], txDrained := 0, txFirst := true },
        some (0 :: m, false)) := by
      unfold txFragment
      dsimp only
      rw [htx, hd, hf, if_neg (by omega), if_neg (by omega), Nat.sub_zero]
      rw [if_neg (show ¬ (true = true ∧ m.length + 1 > mtu) from fun c => absurd c.2 (by omega))]
      rw [if_neg (by omega)]
      have ht : (if mtu - 1 > m.length then m.length else mtu - 1) = m.length := by split <;> omega
      rw [ht]
      have hdec : decide (m.length < m.length) = false := by simp
      rw [hdec]
      simp only [Bool.false_eq_true, and_false, if_false, Nat.add_zero, List.drop_zero,
        List.take_length]
      rfl
    have hrx : rxFragment r (0 :: m) =
        ({ rr with rx := m, rxComplete := true, rxTotal := m.length }, .ok false) := by
      unfold rxFragment
      rw [ld_eq (x := 0) rfl]
      dsimp only
      rw [hrr]
      simp only [Bool.false_eq_true, if_false, show flag 0 5 = false from rfl,
        show flag 0 7 = false from rfl]
      unfold rxAppend
      dsimp only
      rw [show List.drop 1 (0 :: m) = m from rfl, r1, r2]
      rw [List.length_nil, if_neg (by omega), if_neg (by omega)]
      rw [show flag 0 6 = false from rfl]
      simp only [if_true, List.nil_append]
    have hall : txAll mtu (m.length + 1) io = [0 :: m] := by
      unfold txAll
      rw [htx']
    rw [hall]
    refine ⟨⟨{ rr with rx := m, rxComplete := true, rxTotal := m.length }, ?_, rfl, r3, rfl⟩, ?_⟩
    · unfold feed
      rw [hrx]
      rfl
    · intro f hf
      rw [List.mem_singleton] at hf
      rw [hf, List.length_cons]
      exact hc
  · have htx' : txFragment io mtu = ({ io with txDrained := mtu - 5, txFirst := false },
        some (192 :: (wr32 m.length ++ m.take (mtu - 5)), true)) := by
      unfold txFragment
      dsimp only
      rw [htx, hd, hf, if_neg (by omega), if_neg (by omega), Nat.sub_zero]
      rw [if_pos (show (true = true ∧ m.length + 1 > mtu) from ⟨rfl, by omega⟩)]
      rw [if_neg (by omega)]
      have ht : (if mtu - 5 > m.length then m.length else mtu - 5) = mtu - 5 := by split <;> omega
      rw [ht]
      have hdec : decide (mtu - 5 < m.length) = true := by simp; omega
      rw [hdec, if_neg (by omega)]
      simp only [true_and, if_true, List.drop_zero, Nat.zero_add]
      rfl
    have hlen : (m.take (mtu - 5)).length = mtu - 5 := by rw [List.length_take]; omega
    have hrx : rxFragment r (192 :: (wr32 m.length ++ m.take (mtu - 5))) =
        ({ rr with rx := m.take (mtu - 5), rxTotal := m.length }, .ok false) := by
      unfold rxFragment
      rw [ld_eq (x := 192) rfl]
      dsimp only
      rw [hrr]
      simp only [Bool.false_eq_true, if_false, if_true, show flag 192 5 = false from rfl,
        show flag 192 7 = true from rfl]
      rw [if_neg (show ¬ (192 :: (wr32 m.length ++ m.take (mtu - 5))).length < 5 by
        simp [wr32]), rd32_wr32 (by omega)]
      dsimp only
      rw [r1, r2, if_pos rfl, List.length_nil, if_neg (by omega)]
      unfold rxAppend
      dsimp only
      rw [show List.drop 5 (192 :: (wr32 m.length ++ m.take (mtu - 5))) = m.take (mtu - 5) from rfl]
      rw [hlen, List.length_nil, if_neg (by omega), if_neg (by omega)]
      rw [show flag 192 6 = true from rfl]
      simp only [Bool.true_eq_false, if_false, List.nil_append]
    obtain ⟨⟨r'', h3, h4⟩, h5⟩ := txAll_mid (mtu := mtu) (by omega) hm h0 m.length
      { io with txDrained := mtu - 5, txFirst := false }
      { rr with rx := m.take (mtu - 5), rxTotal := m.length } (mtu - 5) htx rfl rfl (by omega)
      (by omega) ⟨rfl, rfl, r3, r4⟩
    have hall : txAll mtu (m.length + 1) io = (192 :: (wr32 m.length ++ m.take (mtu - 5))) ::
        txAll mtu m.length { io with txDrained := mtu - 5, txFirst := false } := by
      rw [txAll, htx']
    rw [hall]
    refine ⟨⟨r'', ?_, h4⟩, ?_⟩
    · unfold feed
      rw [hrx]
      exact h3
    · intro f hf
      rcases List.mem_cons.mp hf with hf | hf
      · rw [hf, List.length_cons, List.length_append, hlen]
        simp [wr32]
        omega
      · exact h5 f hf

/-- Successive reads by the TLS engine. -/
def reads : Io → List Nat → Bytes × Io
  | io, [] => ([], io)
  | io, n :: ns =>
    let (io', o) := ioRecv io n
    let (b, io'') := reads io' ns
    (o.getD [] ++ b, io'')

theorem ioRecv_empty {io : Io} (h : io.rx = []) (sz : Nat) : (ioRecv io sz) = (io, none) := by
  unfold ioRecv
  dsimp only
  rw [h]
  split
  · rfl
  · split
    · rfl
    · rw [if_pos (by simp)]

theorem reads_empty (ns : List Nat) {io : Io} (h : io.rx = []) : reads io ns = ([], io) := by
  induction ns with
  | nil => rfl
  | cons n ns ih =>
    unfold reads
    rw [ioRecv_empty h]
    dsimp only
    rw [ih]
    rfl

theorem reads_spec (ns : List Nat) : ∀ (io : Io), io.rxComplete = true →
    io.rxDrained < io.rx.length →
    (reads io ns).1 = (io.rx.drop io.rxDrained).take ns.sum ∧
    (io.rx.length - io.rxDrained ≤ ns.sum →
      (reads io ns).2 = { io with rx := [], rxTotal := 0, rxDrained := 0, rxComplete := false }) := by
  induction ns with
  | nil =>
    intro io hc hd
    exact ⟨by simp [reads], fun h => by simp at h; omega⟩
  | cons n ns ih =>
    intro io hc hd
    unfold reads
    have hlen : (io.rx.drop io.rxDrained).length = io.rx.length - io.rxDrained := List.length_drop
    by_cases hn : n = 0
    · have : ioRecv io n = (io, none) := by unfold ioRecv; rw [if_pos hn]
      rw [this]
      dsimp only
      have := ih io hc hd
      rw [List.sum_cons, hn, Nat.zero_add]
      exact ⟨by rw [Option.getD_none, List.nil_append]; exact this.1, this.2⟩
    · by_cases hall : io.rx.length - io.rxDrained ≤ n
      · have hr : ioRecv io n = (⟨[], 0, 0, false, io.tx, io.txDrained, io.txFirst⟩,
            some (io.rx.drop io.rxDrained)) := by
          unfold ioRecv
          dsimp only
          rw [if_neg hn, if_neg (by omega), if_neg (by omega)]
          have ht : (if n > io.rx.length - io.rxDrained then io.rx.length - io.rxDrained else n) =
            io.rx.length - io.rxDrained := by split <;> omega
          rw [ht, hc, if_pos ⟨rfl, by omega⟩,
            List.take_of_length_le (by rw [hlen]; exact Nat.le_refl _)]
        rw [hr]
        dsimp only
        rw [reads_empty ns rfl]
        dsimp only
        refine ⟨?_, fun _ => rfl⟩
        rw [List.append_nil, Option.getD_some, List.take_of_length_le]
        rw [hlen, List.sum_cons]
        omega
      · have hr : ioRecv io n = ({ io with rxDrained := io.rxDrained + n },
            some ((io.rx.drop io.rxDrained).take n)) := by
          unfold ioRecv
          dsimp only
          rw [if_neg hn, if_neg (by omega), if_neg (by omega)]
          have ht : (if n > io.rx.length - io.rxDrained then io.rx.length - io.rxDrained else n) =
            n := by split <;> omega
          rw [ht, if_neg (by omega)]
        rw [hr]
        dsimp only
        have := ih { io with rxDrained := io.rxDrained + n } hc (by dsimp only; omega)
        dsimp only at this
        refine ⟨?_, ?_⟩
        · rw [Option.getD_some, this.1, List.sum_cons, List.take_add, List.drop_drop]
        · intro h
          rw [List.sum_cons] at h
          exact this.2 (by omega)

/-- **C66, delivery.**  However the TLS engine chops its reads, it gets the bytes of a complete message
in order and once, and when it has read them all the receiver is ready for the next message. -/
theorem eap_tls_delivery (m : Bytes) (h0 : m ≠ []) (r : Io) (h : Got r m) (ns : List Nat) :
    (reads r ns).1 = m.take ns.sum ∧
    (m.length ≤ ns.sum → (reads r ns).2.rx = [] ∧ (reads r ns).2.rxTotal = 0 ∧
      (reads r ns).2.rxDrained = 0) := by
  obtain ⟨h1, h2, h3⟩ := h
  have hpos : 0 < m.length := Nat.pos_of_ne_zero (fun c => h0 (List.length_eq_zero_iff.mp c))
  have := reads_spec ns r h3 (by rw [h2, h1]; exact hpos)
  rw [h1, h2] at this
  refine ⟨this.1, fun hl => ?_⟩
  rw [this.2 (by omega)]
  exact ⟨rfl, rfl, rfl⟩

/-- Non-vacuity: a 9-byte message with a 6-byte MTU takes three fragments. -/
example : txAll 6 10 { Io.init with tx := [1, 2, 3, 4, 5, 6, 7, 8, 9] } =
      [[192, 0, 0, 0, 9, 1], [64, 2, 3, 4, 5, 6], [0, 7, 8, 9]] ∧
    (feed Io.init [[192, 0, 0, 0, 9, 1], [64, 2, 3, 4, 5, 6], [0, 7, 8, 9]]).map (·.rx) =
      some [1, 2, 3, 4, 5, 6, 7, 8, 9] ∧
    (feed Io.init [[192, 0, 0, 0, 9, 1], [64, 2, 3, 4, 5, 6], [0, 7, 8, 9, 10]]).map (·.rx) =
      none := by
  decide +kernel

end Wolf.Supp
