/-!
# C104, C105: the receive ring of the Ethernet drivers

Model of `eth_poll` of `src/port/stm32/stm32_eth.c` (717–760; the same code is `src/port/lpc_enet/lpc_enet.c`
417–453), kind `eqos`, and of `src/port/stm32f4/stm32f4_eth.c` (487–526; the same sequence of accesses is
`src/port/va416xx/va416xx_eth.c` 613–680), kind `gmac`, running concurrently with the DMA engine of the
Ethernet controller. Every access of the driver to a descriptor or to an octet of a buffer is one step, and so is
every action of the DMA engine; a schedule interleaves them arbitrarily.

The DMA engine is modelled by the contract of the reference manuals: it fetches the descriptor it points to when
that is marked as its own, writes into the buffer the descriptor names, and then writes back status and ownership
and goes to the next descriptor. In the `eqos` kind the write-back overwrites the buffer address with time stamps,
the ring length is a register, and a tail pointer stops the engine; in the `gmac` kind the address survives and the
last descriptor of the ring is the one with the RER flag set when it was fetched. Not modelled: prefetching of more
than one descriptor, caches and barriers (the accesses of the driver take effect in program order), checksums,
frames that end in an error (they differ in the status word only).
-/
namespace Wolf.Drv

/-- Which controller: the Synopsys EQOS of STM32H5/H7/N6 and LPC, or the older GMAC of STM32F4 and VA416xx. -/
inductive Kind where
  | eqos | gmac
deriving DecidableEq, Repr

/-- The status a completed descriptor carries: first segment, last segment, error summary (only looked at by the
`gmac` driver), frame length. -/
structure Stat where
  fs : Bool
  ls : Bool
  es : Bool
  len : Nat
deriving DecidableEq

/-- A descriptor: OWN, the address in it (`some i` is `rx_buffers[i]`), the end-of-ring flag, the status. -/
structure Desc where
  own : Bool
  addr : Option Nat
  rer : Bool
  st : Stat

/-- Where the driver is in `eth_poll`. -/
inductive Pc where
  | idle
  /-- RBU was seen and cleared; the tail pointer is to be written (725–732) -/
  | kick
  /-- OWN is to be tested (734–735) -/
  | look
  /-- the status is to be read (738) -/
  | take
  /-- `memcpy` of `want` octets, `acc` of which are there (744) -/
  | copy (want : Nat) (acc : List Nat)
  /-- `eqos`: the address is to be restored (750) -/
  | addr (acc : List Nat)
  /-- OWN is to be set (`eqos` 754, `gmac` 512) -/
  | own (acc : List Nat)
  /-- `gmac`: the size is to be written, without RER (513) -/
  | size
  /-- `gmac`: RER is to be set on the last descriptor (514–515) -/
  | rer
  /-- `eqos`: the tail pointer is to be written (756) -/
  | tail
  /-- the index is to be advanced (757) -/
  | next
deriving DecidableEq

/-- The driver, the ring and the engine. `done` records the completed frames, with the contents of the buffer at
completion, and `out` what the successive calls of `eth_poll` copied to the stack (ghost). -/
structure Rx where
  desc : Nat → Desc
  buf : Nat → Nat → Nat
  idx : Nat
  pc : Pc
  /-- the engine's current descriptor -/
  cur : Nat
  /-- the buffer the engine is writing to, and the RER flag it fetched -/
  fill : Option (Nat × Bool)
  tailp : Nat
  rbu : Bool
  /-- the engine followed an address that is none of our buffers, or left the ring -/
  wild : Bool
  done : List (Stat × (Nat → Nat))
  out : List (List Nat)

def upd {α : Type} (f : Nat → α) (i : Nat) (v : α) : Nat → α := fun x => if x = i then v else f x

/-- The state `eth_init_desc` and `eth_arm_rx_descriptors` leave (stm32_eth.c 429–460, 546–560; stm32f4_eth.c
369–388). -/
def Rx.start (n : Nat) (b : Nat → Nat → Nat) : Rx :=
  { desc := fun i => ⟨true, some i, decide (i = n - 1), ⟨false, false, false, 0⟩⟩, buf := b, idx := 0, pc := .idle,
    cur := 0, fill := none, tailp := n - 1, rbu := false, wild := false, done := [], out := [] }

/-- Does the driver take the frame of a descriptor with this status? -/
def accepts (K : Kind) (s : Stat) : Bool := s.fs && s.ls && (K = .eqos || !s.es)

/-- One access of the driver. `n` descriptors, `len` the size of the caller's buffer. -/
def cpu (K : Kind) (n len : Nat) (s : Rx) : Rx :=
  match s.pc with
  | .idle =>
    if K = .eqos ∧ s.rbu = true then { s with rbu := false, pc := .kick } else { s with pc := .look }
  | .kick => { s with tailp := n - 1, pc := .look }
  | .look => if (s.desc s.idx).own then { s with pc := .idle } else { s with pc := .take }
  | .take =>
    let st := (s.desc s.idx).st
    if accepts K st then { s with pc := .copy (if st.len > len then len else st.len) [] }
    else { s with pc := if K = .eqos then .addr [] else .own [] }
  | .copy want acc =>
    if acc.length < want then { s with pc := .copy want (acc ++ [s.buf s.idx acc.length]) }
    else { s with pc := if K = .eqos then .addr acc else .own acc }
  | .addr acc => { s with desc := upd s.desc s.idx { s.desc s.idx with addr := some s.idx }, pc := .own acc }
  | .own acc =>
    { s with desc := upd s.desc s.idx { s.desc s.idx with own := true }, out := s.out ++ [acc],
             pc := if K = .eqos then .tail else .size }
  | .size => { s with desc := upd s.desc s.idx { s.desc s.idx with rer := false }, pc := .rer }
  | .rer =>
    { s with desc := if s.idx = n - 1 then upd s.desc s.idx { s.desc s.idx with rer := true } else s.desc,
             pc := .next }
  | .tail => { s with tailp := s.idx, pc := .next }
  | .next => { s with idx := (s.idx + 1) % n, pc := .idle }

/-- What the engine may do. -/
inductive Dma where
  /-- fetch the current descriptor; with `strict` only while it is not the one the tail pointer names -/
  | fetch
  /-- write an octet of the frame being received -/
  | write (j v : Nat)
  /-- finish the segment -/
  | complete (st : Stat)
  /-- report that there is no descriptor -/
  | stall
deriving DecidableEq

/-- One action of the engine; an action that is not possible is no action. -/
def dma (K : Kind) (strict : Bool) (n : Nat) (s : Rx) : Dma → Rx
  | .fetch =>
    if s.fill = none ∧ s.wild = false ∧ (s.desc s.cur).own = true ∧ ¬ (K = .eqos ∧ strict = true ∧ s.cur = s.tailp) then
      match (s.desc s.cur).addr with
      | some b => { s with fill := some (b, (s.desc s.cur).rer) }
      | none => { s with wild := true }
    else s
  | .write j v =>
    match s.fill with
    | some (b, _) => { s with buf := upd s.buf b (upd (s.buf b) j v) }
    | none => s
  | .complete st =>
    match s.fill with
    | some (b, r) =>
      let d := s.desc s.cur
      let nxt := if K = .eqos then (s.cur + 1) % n else if r then 0 else s.cur + 1
      { s with desc := upd s.desc s.cur { d with own := false, addr := if K = .eqos then none else d.addr, st := st },
               done := s.done ++ [(st, s.buf b)], cur := nxt, fill := none, wild := decide (n ≤ nxt) || s.wild }
    | none => s
  | .stall =>
    if s.fill = none ∧ ((s.desc s.cur).own = false ∨ (strict = true ∧ s.cur = s.tailp)) then { s with rbu := true } else s

inductive Act where
  | cpu
  | dma (a : Dma)
deriving DecidableEq

def Rx.step (K : Kind) (strict : Bool) (n len : Nat) (s : Rx) : Act → Rx
  | .cpu => Drv.cpu K n len s
  | .dma a => Drv.dma K strict n s a

def Rx.run (K : Kind) (strict : Bool) (n len : Nat) (s : Rx) (l : List Act) : Rx := l.foldl (Rx.step K strict n len) s

/-! ## Specification -/

/-- What the stack gets of a completed descriptor: the frame if it is whole (and, for `gmac`, error-free), cut to
the size of the stack's buffer; otherwise nothing. -/
def deliver (K : Kind) (len : Nat) (f : Stat × (Nat → Nat)) : List Nat :=
  if f.1.fs = true ∧ f.1.ls = true ∧ (K = .gmac → f.1.es = false) then (List.range (min f.1.len len)).map f.2 else []

/-- The engine does not fetch between the two writes of `des1`. -/
def Calm (K : Kind) (strict : Bool) (n len : Nat) : Rx → List Act → Prop
  | _, [] => True
  | s, a :: l => (a = .dma .fetch → s.pc ≠ .rer) ∧ Calm K strict n len (s.step K strict n len a) l

instance Calm.dec (K : Kind) (strict : Bool) (n len : Nat) : ∀ (s : Rx) (l : List Act), Decidable (Calm K strict n len s l)
  | _, [] => isTrue trivial
  | s, a :: l =>
    have := Calm.dec K strict n len (s.step K strict n len a) l
    inferInstanceAs (Decidable ((a = .dma .fetch → s.pc ≠ .rer) ∧ Calm K strict n len (s.step K strict n len a) l))

/-! ## The invariant -/

/-- Does the driver still hold the descriptor at its index? -/
def Pc.holds : Pc → Bool
  | .take | .copy _ _ | .addr _ | .own _ => true
  | _ => false

/-- Has it given it back without having advanced its index? -/
def Pc.after : Pc → Bool
  | .size | .rer | .tail | .next => true
  | _ => false

structure Inv (K : Kind) (n len : Nat) (s : Rx) : Prop where
  pos : 0 < n
  le : s.out.length ≤ s.done.length
  room : s.done.length ≤ s.out.length + n
  cur : s.cur = s.done.length % n
  idx : s.pc.after = false → s.idx = s.out.length % n
  idx' : s.pc.after = true → ∃ k, s.out.length = k + 1 ∧ s.idx = k % n
  outs : s.out = (s.done.take s.out.length).map (deliver K len)
  full : ∀ j f, s.out.length ≤ j → s.done[j]? = some f →
    (s.desc (j % n)).own = false ∧ (s.desc (j % n)).st = f.1 ∧ s.buf (j % n) = f.2
  free : ∀ j, s.done.length ≤ j → j < s.out.length + n →
    (s.desc (j % n)).own = true ∧ (s.desc (j % n)).addr = some (j % n)
  addrs : K = .gmac → ∀ i, i < n → (s.desc i).addr = some i
  rers : K = .gmac → ∀ i, i < n → ¬ (s.pc = .rer ∧ i = s.idx) → (s.desc i).rer = decide (i = n - 1)
  rer0 : s.pc = .rer → (s.desc s.idx).rer = false
  fill : ∀ b r, s.fill = some (b, r) → s.done.length < s.out.length + n ∧ b = s.done.length % n ∧
    (K = .gmac → r = decide (b = n - 1))
  tame : s.wild = false
  held : s.pc.holds = true → s.out.length < s.done.length
  kinds : (K = .eqos → s.pc ≠ .size ∧ s.pc ≠ .rer) ∧ (K = .gmac → s.pc ≠ .kick ∧ s.pc ≠ .tail ∧ ∀ a, s.pc ≠ .addr a)
  copying : ∀ w acc, s.pc = .copy w acc → ∀ f, s.done[s.out.length]? = some f →
    accepts K f.1 = true ∧ w = min f.1.len len ∧ acc.length ≤ w ∧ acc = (List.range acc.length).map f.2
  ready : ∀ acc, s.pc = .addr acc ∨ s.pc = .own acc → ∀ f, s.done[s.out.length]? = some f → acc = deliver K len f
  named : ∀ acc, s.pc = .own acc → (s.desc s.idx).addr = some s.idx

theorem mod_ne {n i j : Nat} (h : i < j) (h2 : j < i + n) : i % n ≠ j % n := by
  intro e
  have h3 : (j - i) % n = 0 := Nat.sub_mod_eq_zero_of_mod_eq e.symm
  rw [Nat.mod_eq_of_lt (by omega)] at h3
  omega

theorem accepts_iff (K : Kind) (f : Stat) : accepts K f = true ↔
    f.fs = true ∧ f.ls = true ∧ (K = .gmac → f.es = false) := by
  unfold accepts
  cases K <;> simp [and_assoc]

theorem start_inv (K : Kind) {n : Nat} (hn : 0 < n) (len : Nat) (b : Nat → Nat → Nat) : Inv K n len (Rx.start n b) where
  pos := hn
  le := Nat.le_refl 0
  room := by simp [Rx.start]
  cur := by simp [Rx.start]
  idx := fun _ => by simp [Rx.start]
  idx' := fun h => by cases h
  outs := rfl
  full := fun j f _ h => by simp [Rx.start] at h
  free := fun j _ _ => ⟨rfl, rfl⟩
  addrs := fun _ i _ => rfl
  rers := fun _ i _ _ => rfl
  rer0 := fun h => by cases h
  fill := fun b r h => by cases h
  tame := rfl
  held := fun h => by cases h
  kinds := ⟨fun _ => ⟨(by intro h; cases h), (by intro h; cases h)⟩,
    fun _ => ⟨(by intro h; cases h), (by intro h; cases h), (fun a h => by cases h)⟩⟩
  copying := fun w acc h => by cases h
  ready := fun acc h => by rcases h with h | h <;> cases h
  named := fun acc h => by cases h

end Wolf.Drv
