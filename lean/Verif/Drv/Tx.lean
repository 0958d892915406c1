import Verif.Drv.RxProps

/-!
# C106: the transmit ring of the Ethernet drivers

Model of `eth_send` of `src/port/stm32/stm32_eth.c` (762–807; the same code is `src/port/lpc_enet/lpc_enet.c` 455–481,
and, but for the tail pointer, `src/port/stm32f4/stm32f4_eth.c` 528–571 and `src/port/va416xx/va416xx_eth.c` 687–770),
running concurrently with the DMA engine. Every octet copied, every word of a descriptor written and every octet the
engine reads is one step. After a frame the engine gives the descriptor back and its address and length are void (that
is what the write-back of the EQOS does; the others leave them). Not modelled: status bits, the poll-demand and
interrupt registers, caches and barriers (the accesses of the driver take effect in program order).
-/
namespace Wolf.Drv

/-- A transmit descriptor. -/
structure TDesc where
  own : Bool
  addr : Option Nat
  len : Nat

/-- Where the driver is in `eth_send`, with the frame it was given. -/
inductive TPc where
  | idle
  /-- length and OWN are to be tested (769–772) -/
  | test (f : List Nat)
  /-- `memcpy`, `k` octets are there (775) -/
  | copy (f : List Nat) (k : Nat)
  /-- `memset` of the padding (779) -/
  | pad (f : List Nat) (k : Nat)
  | addr (f : List Nat)
  | size (f : List Nat)
  | own (f : List Nat)
  | tail (f : List Nat)
  | next (f : List Nat)
deriving DecidableEq

/-- The driver, the ring and the engine. `acc` records the frames whose descriptor was given to the engine, `wire`
the frames the engine has sent, `ret` the results of the calls so far (ghost). -/
structure Tx where
  desc : Nat → TDesc
  buf : Nat → Nat → Nat
  idx : Nat
  pc : TPc
  cur : Nat
  /-- buffer, length, octets read so far -/
  fill : Option (Nat × Nat × List Nat)
  tailp : Nat
  /-- the engine followed an address that is none of our buffers -/
  wild : Bool
  /-- the driver wrote outside a buffer -/
  oob : Bool
  acc : List (List Nat)
  wire : List (List Nat)
  ret : List (List Nat × Int)

/-- `eth_init_desc`, stm32_eth.c 461–480, 488–490: nothing owned by the engine, tail pointer on the first descriptor. -/
def Tx.start (b : Nat → Nat → Nat) : Tx :=
  { desc := fun _ => ⟨false, none, 0⟩, buf := b, idx := 0, pc := .idle, cur := 0, fill := none, tailp := 0,
    wild := false, oob := false, acc := [], wire := [], ret := [] }

notation "txBufSize" => (1536 : Nat)
notation "frameMinLen" => (60 : Nat)

/-- One access of the driver, with `n` descriptors. -/
def tcpu (n : Nat) (s : Tx) : Tx :=
  match s.pc with
  | .idle => s
  | .test f =>
    if f.length = 0 ∨ f.length > txBufSize then { s with pc := .idle, ret := s.ret ++ [(f, -1)] }
    else if (s.desc s.idx).own then { s with pc := .idle, ret := s.ret ++ [(f, -2)] }
    else { s with pc := .copy f 0 }
  | .copy f k =>
    if k < f.length then
      { s with buf := upd s.buf s.idx (upd (s.buf s.idx) k (f.getD k 0)), pc := .copy f (k + 1),
               oob := s.oob || decide (txBufSize ≤ k) }
    else { s with pc := .pad f k }
  | .pad f k =>
    if k < frameMinLen then
      { s with buf := upd s.buf s.idx (upd (s.buf s.idx) k 0), pc := .pad f (k + 1),
               oob := s.oob || decide (txBufSize ≤ k) }
    else { s with pc := .addr f }
  | .addr f => { s with desc := upd s.desc s.idx { s.desc s.idx with addr := some s.idx }, pc := .size f }
  | .size f =>
    { s with desc := upd s.desc s.idx { s.desc s.idx with len := if f.length < frameMinLen then frameMinLen else f.length },
             pc := .own f }
  | .own f =>
    { s with desc := upd s.desc s.idx { s.desc s.idx with own := true }, acc := s.acc ++ [f], pc := .tail f }
  | .tail f => { s with tailp := (s.idx + 1) % n, pc := .next f }
  | .next f => { s with idx := (s.idx + 1) % n, pc := .idle, ret := s.ret ++ [(f, (f.length : Int))] }

inductive TDma where
  | fetch | read | complete
deriving DecidableEq

/-- One action of the engine; an action that is not possible is no action. -/
def tdma (strict : Bool) (n : Nat) (s : Tx) : TDma → Tx
  | .fetch =>
    if s.fill = none ∧ s.wild = false ∧ (s.desc s.cur).own = true ∧ ¬ (strict = true ∧ s.cur = s.tailp) then
      match (s.desc s.cur).addr with
      | some b => { s with fill := some (b, (s.desc s.cur).len, []) }
      | none => { s with wild := true }
    else s
  | .read =>
    match s.fill with
    | some (b, len, got) => if got.length < len then { s with fill := some (b, len, got ++ [s.buf b got.length]) } else s
    | none => s
  | .complete =>
    match s.fill with
    | some (_, len, got) =>
      if got.length = len then
        { s with desc := upd s.desc s.cur ⟨false, none, 0⟩, wire := s.wire ++ [got], cur := (s.cur + 1) % n, fill := none }
      else s
    | none => s

inductive TAct where
  /-- the stack calls `eth_send`; only while no call is running -/
  | call (f : List Nat)
  | cpu
  | dma (a : TDma)
deriving DecidableEq

def Tx.step (strict : Bool) (n : Nat) (s : Tx) : TAct → Tx
  | .call f => if s.pc = .idle then { s with pc := .test f } else s
  | .cpu => tcpu n s
  | .dma a => tdma strict n s a

def Tx.run (strict : Bool) (n : Nat) (s : Tx) (l : List TAct) : Tx := l.foldl (Tx.step strict n) s

/-! ## Specification -/

/-- The frame on the wire: padded with zeros to the minimum length of Ethernet (without FCS). -/
def padded (f : List Nat) : List Nat := f ++ List.replicate (60 - f.length) 0

/-- The frames of the calls that reported success. -/
def accepted (r : List (List Nat × Int)) : List (List Nat) :=
  (r.filter fun x => decide (0 ≤ x.2)).map (·.1)

/-! ## The invariant -/

/-- The frame the driver is handing over but has not yet given to the engine. -/
def TPc.held : TPc → Option (List Nat)
  | .copy f _ | .pad f _ | .addr f | .size f | .own f => some f
  | _ => none

/-- The frame given to the engine by a call that has not returned yet. -/
def TPc.given : TPc → Option (List Nat)
  | .tail f | .next f => some f
  | _ => none

structure TInv (n : Nat) (s : Tx) : Prop where
  pos : 0 < n
  le : s.wire.length ≤ s.acc.length
  room : s.acc.length ≤ s.wire.length + n
  cur : s.cur = s.wire.length % n
  idx : s.pc.given = none → s.idx = s.acc.length % n
  idx' : s.pc.given ≠ none → ∃ k, s.acc.length = k + 1 ∧ s.idx = k % n
  outs : s.wire = (s.acc.take s.wire.length).map padded
  queued : ∀ j f, s.wire.length ≤ j → s.acc[j]? = some f → (s.desc (j % n)).own = true ∧
    (s.desc (j % n)).addr = some (j % n) ∧ (s.desc (j % n)).len = (padded f).length ∧
    ∀ k, k < (padded f).length → s.buf (j % n) k = (padded f).getD k 0
  free : ∀ j, s.acc.length ≤ j → j < s.wire.length + n → (s.desc (j % n)).own = false
  fill : ∀ b l got, s.fill = some (b, l, got) → ∃ f, s.acc[s.wire.length]? = some f ∧ b = s.wire.length % n ∧
    l = (padded f).length ∧ got.length ≤ l ∧ got = (padded f).take got.length
  tame : s.wild = false
  safe : s.oob = false
  held : s.pc.held ≠ none → s.acc.length < s.wire.length + n
  size : ∀ f, s.pc.held = some f → 0 < f.length ∧ f.length ≤ txBufSize
  copying : ∀ f k, s.pc = .copy f k → k ≤ f.length ∧ ∀ i, i < k → s.buf s.idx i = (padded f).getD i 0
  padding : ∀ f k, s.pc = .pad f k → f.length ≤ k ∧ (k ≤ f.length ∨ k ≤ frameMinLen) ∧ ∀ i, i < k → s.buf s.idx i = (padded f).getD i 0
  filled : ∀ f, s.pc = .addr f ∨ s.pc = .size f ∨ s.pc = .own f →
    ∀ i, i < (padded f).length → s.buf s.idx i = (padded f).getD i 0
  named : ∀ f, s.pc = .size f ∨ s.pc = .own f → (s.desc s.idx).addr = some s.idx
  sized : ∀ f, s.pc = .own f → (s.desc s.idx).len = (padded f).length
  rets : s.acc = accepted s.ret ++ s.pc.given.toList

theorem padded_length (f : List Nat) : (padded f).length = if f.length < 60 then 60 else f.length := by
  rw [padded, List.length_append, List.length_replicate]
  split <;> omega

theorem padded_left (f : List Nat) {k : Nat} (h : k < f.length) : (padded f).getD k 0 = f.getD k 0 := by
  rw [padded, List.getD_eq_getElem?_getD, List.getElem?_append_left h, ← List.getD_eq_getElem?_getD]

theorem padded_right (f : List Nat) {k : Nat} (h : f.length ≤ k) : (padded f).getD k 0 = 0 := by
  rw [padded, List.getD_eq_getElem?_getD, List.getElem?_append_right h, List.getElem?_replicate]
  split <;> rfl

theorem accepted_snoc (r : List (List Nat × Int)) (f : List Nat) (v : Int) :
    accepted (r ++ [(f, v)]) = accepted r ++ (if 0 ≤ v then [f] else []) := by
  unfold accepted
  rw [List.filter_append, List.map_append]
  by_cases h : 0 ≤ v
  · rw [if_pos h, List.filter_cons_of_pos (by simpa using h)]
    rfl
  · rw [if_neg h, List.filter_cons_of_neg (by simpa using h)]
    rfl

theorem tstart_inv {n : Nat} (hn : 0 < n) (b : Nat → Nat → Nat) : TInv n (Tx.start b) where
  pos := hn
  le := Nat.le_refl 0
  room := by simp [Tx.start]
  cur := by simp [Tx.start]
  idx := fun _ => by simp [Tx.start]
  idx' := fun h => absurd rfl h
  outs := rfl
  queued := fun j f _ h => by simp [Tx.start] at h
  free := fun j _ _ => rfl
  fill := fun b l g h => by cases h
  tame := rfl
  safe := rfl
  held := fun h => absurd rfl h
  size := fun f h => by cases h
  copying := fun f k h => by cases h
  padding := fun f k h => by cases h
  filled := fun f h => by rcases h with h | h | h <;> cases h
  named := fun f h => by rcases h with h | h <;> cases h
  sized := fun f h => by cases h
  rets := rfl

end Wolf.Drv
