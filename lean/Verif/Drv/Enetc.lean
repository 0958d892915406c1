import Verif.Drv.Gem
import Verif.Drv.TxProps

/-!
# C135: the index rings of the ENETC driver

Model of `eth_send` and `eth_poll` of `src/port/nxp_enetc/nxp_enetc.c` 439–521, with the rings of 385–436.
Unlike the other controllers this one has no ownership bit in the transmit descriptors: who owns what follows
from a producer and a consumer index in registers.

One step is one action of the driver (a register read, a `memcpy` with its padding, a descriptor written, a
doorbell) or of the device (a frame begun, an octet moved, a frame finished); they interleave freely.

The device's contract (LS1028A, as the driver uses it): it sends the frames between TBCIR and TBPIR and moves
TBCIR on after each; it receives into the descriptor RBPIR while the next one is not RBCIR, a frame of at most
the buffer size (PM_MAXFRM 1536 ≤ RBBSR 2048), writes length and status, and moves RBPIR on.
Simplified: the cache operations have no effect (DMA is snooped: ENETC_SICAR_VALUE), the VLAN word and the
buffer address of a descriptor, which never change, are left out.
-/
namespace Wolf.Drv.Enetc

abbrev Bytes := List Nat

/-- `ENETC_MAX_BUF_LEN`, nxp_enetc.h 159. -/
notation "enetcBuf" => (2048 : Nat)
/-- `ENETC_POLL_TRIES`, nxp_enetc.h 160. -/
notation "enetcTries" => (32000 : Nat)

/-! ## Transmit -/

/-- Where the driver is in `eth_send`. -/
inductive TPc where
  | idle
  /-- the tests (445–450) -/
  | test (f : Bytes)
  /-- `memcpy` and padding (452–456) -/
  | copy (f : Bytes)
  /-- the descriptor (458–462) -/
  | desc (f : Bytes)
  /-- `tx_prod`, TBPIR (469–470) -/
  | bell (f : Bytes)
  /-- the wait (473–476), `k` tries left -/
  | wait (f : Bytes) (k : Nat)
  deriving DecidableEq

/-- Driver and device.  `acc`: the frames announced by a doorbell; `wire`: the frames sent; `ret`: the results
of the calls (ghosts). -/
structure Tx where
  len : Nat → Nat
  buf : Nat → Nat → Nat
  prod : Nat
  pir : Nat
  cir : Nat
  pc : TPc
  fill : Option Bytes
  acc : List Bytes
  wire : List Bytes
  ret : List (Bytes × Int)

/-- `enetc_setup_tx_bdr`, nxp_enetc.c 385–405. -/
def Tx.start (b : Nat → Nat → Nat) : Tx :=
  { len := fun _ => 0, buf := b, prod := 0, pir := 0, cir := 0, pc := .idle, fill := none, acc := [], wire := [],
    ret := [] }

/-- nxp_enetc.c 452–456: what `memcpy` and `memset` leave in the buffer. -/
def filled (f : Bytes) (old : Nat → Nat) (k : Nat) : Nat :=
  if k < f.length then f.getD k 0 else if k < 60 then 0 else old k

/-- `len` after nxp_enetc.c 453–456. -/
def sendLen (f : Bytes) : Nat := if f.length < 60 then 60 else f.length

/-- One action of `eth_send`, nxp_enetc.c 439–478. -/
def tcpu (n : Nat) (s : Tx) : Tx :=
  match s.pc with
  | .idle => s
  | .test f =>
    if f.length = 0 ∨ f.length > enetcBuf then { s with pc := .idle, ret := s.ret ++ [(f, -1)] }
    else if (s.prod + 1) % n = s.cir then { s with pc := .idle, ret := s.ret ++ [(f, -2)] }
    else { s with pc := .copy f }
  | .copy f => { s with buf := upd s.buf s.prod (filled f (s.buf s.prod)), pc := .desc f }
  | .desc f => { s with len := upd s.len s.prod (sendLen f), pc := .bell f }
  | .bell f =>
    { s with prod := (s.prod + 1) % n, pir := (s.prod + 1) % n, acc := s.acc ++ [f], pc := .wait f enetcTries }
  | .wait f k =>
    if k - 1 = 0 then { s with pc := .idle, ret := s.ret ++ [(f, -1)] }
    else if s.prod = s.cir then { s with pc := .idle, ret := s.ret ++ [(f, (sendLen f : Int))] }
    else { s with pc := .wait f (k - 1) }

inductive TDma where
  | fetch | read | complete
  deriving DecidableEq

/-- One action of the device. -/
def tdma (n : Nat) (s : Tx) : TDma → Tx
  | .fetch => if s.fill = none ∧ s.cir ≠ s.pir then { s with fill := some [] } else s
  | .read =>
    match s.fill with
    | some got => if got.length < s.len s.cir then { s with fill := some (got ++ [s.buf s.cir got.length]) } else s
    | none => s
  | .complete =>
    match s.fill with
    | some got =>
      if got.length = s.len s.cir then { s with wire := s.wire ++ [got], cir := (s.cir + 1) % n, fill := none } else s
    | none => s

inductive TAct where
  /-- the stack calls `eth_send`; only while no call is running -/
  | call (f : Bytes)
  | cpu
  | dma (a : TDma)
  deriving DecidableEq

def Tx.step (n : Nat) (s : Tx) : TAct → Tx
  | .call f => if s.pc = .idle then { s with pc := .test f } else s
  | .cpu => tcpu n s
  | .dma a => tdma n s a

def Tx.run (n : Nat) (s : Tx) (l : List TAct) : Tx := l.foldl (Tx.step n) s

/-! ### The invariant -/

/-- Room for one more frame, kept since the test. -/
def TPc.held : TPc → Option Bytes
  | .copy f | .desc f | .bell f => some f
  | .idle => none
  | .test _ => none
  | .wait _ _ => none

structure TInv (n : Nat) (s : Tx) : Prop where
  pos : 0 < n
  le : s.wire.length ≤ s.acc.length
  room : s.acc.length < s.wire.length + n
  cir : s.cir = s.wire.length % n
  pir : s.pir = s.acc.length % n
  prod : s.prod = s.acc.length % n
  outs : s.wire = (s.acc.take s.wire.length).map padded
  queued : ∀ j f, s.wire.length ≤ j → s.acc[j]? = some f → s.len (j % n) = (padded f).length ∧
    ∀ k, k < (padded f).length → s.buf (j % n) k = (padded f).getD k 0
  fill : ∀ got, s.fill = some got → ∃ f, s.acc[s.wire.length]? = some f ∧ got.length ≤ (padded f).length ∧
    got = (padded f).take got.length
  held : s.pc.held ≠ none → s.acc.length + 1 < s.wire.length + n
  ok : ∀ f, s.pc.held = some f → 0 < f.length ∧ f.length ≤ enetcBuf
  copied : ∀ f, s.pc = .desc f ∨ s.pc = .bell f →
    ∀ k, k < (padded f).length → s.buf s.prod k = (padded f).getD k 0
  sized : ∀ f, s.pc = .bell f → s.len s.prod = (padded f).length
  waits : ∀ f k, s.pc = .wait f k → ∃ a, s.acc = a ++ [f]
  sizes : ∀ f ∈ s.acc, 0 < f.length ∧ f.length ≤ enetcBuf

theorem sendLen_eq (f : Bytes) : sendLen f = (padded f).length := by
  rw [padded_length]
  rfl

theorem filled_eq (f : Bytes) (old : Nat → Nat) {k : Nat} (h : k < (padded f).length) :
    filled f old k = (padded f).getD k 0 := by
  unfold filled
  rw [padded_length] at h
  by_cases c : k < f.length
  · rw [if_pos c, padded_left f c]
  · rw [if_neg c, padded_right f (by omega), if_pos (by split at h <;> omega)]

theorem start_inv {n : Nat} (hn : 0 < n) (b : Nat → Nat → Nat) : TInv n (Tx.start b) where
  pos := hn
  le := Nat.le_refl 0
  room := by show 0 < 0 + n; omega
  cir := by show 0 = 0 % n; rw [Nat.zero_mod]
  pir := by show 0 = 0 % n; rw [Nat.zero_mod]
  prod := by show 0 = 0 % n; rw [Nat.zero_mod]
  outs := rfl
  queued := fun j f _ h => by simp [Tx.start] at h
  fill := fun _ h => by cases h
  held := fun h => absurd rfl h
  ok := fun _ h => by cases h
  copied := fun _ h => by rcases h with h | h <;> cases h
  sized := fun _ h => by cases h
  waits := fun _ _ h => by cases h
  sizes := fun _ h => by cases h

theorem tdma_inv {n : Nat} {s : Tx} (h : TInv n s) (a : TDma) : TInv n (tdma n s a) := by
  cases a with
  | fetch =>
    unfold tdma
    dsimp only
    split
    · next c =>
      refine { h with fill := fun got hg => ?_ }
      cases hg
      have : s.wire.length ≠ s.acc.length := fun e => c.2 (by rw [h.cir, h.pir, e])
      have hl : s.wire.length < s.acc.length := Nat.lt_of_le_of_ne h.le this
      exact ⟨_, List.getElem?_eq_getElem hl, Nat.zero_le _, rfl⟩
    · exact h
  | read =>
    unfold tdma
    dsimp only
    split
    · next got hg =>
      split
      · next c =>
        obtain ⟨f, hf, hl, ht⟩ := h.fill got hg
        obtain ⟨q1, q2⟩ := h.queued _ f (Nat.le_refl _) hf
        rw [← h.cir] at q1 q2
        have hk : got.length < (padded f).length := by rw [← q1]; exact c
        refine { h with fill := fun g2 hg2 => ?_ }
        cases hg2
        refine ⟨f, hf, ?_, ?_⟩
        · rw [List.length_append]
          exact hk
        · rw [List.length_append, q2 _ hk]
          show _ = (padded f).take (got.length + 1)
          rw [← take_snoc_getD _ hk, ← ht]
      · exact h
    · exact h
  | complete =>
    unfold tdma
    dsimp only
    split
    · next got hg =>
      split
      · next c =>
        obtain ⟨f, hf, hl, ht⟩ := h.fill got hg
        obtain ⟨q1, q2⟩ := h.queued _ f (Nat.le_refl _) hf
        rw [← h.cir] at q1
        have hw : s.wire.length < s.acc.length := by
          apply Nat.lt_of_not_le
          intro e
          rw [List.getElem?_eq_none e] at hf
          cases hf
        have hgot : got = padded f := by
          rw [ht, c, q1, List.take_length]
        have hlen : (s.wire ++ [got]).length = s.wire.length + 1 := List.length_append
        exact { h with
          le := by show (s.wire ++ [got]).length ≤ s.acc.length; omega
          room := by have := h.room; show s.acc.length < (s.wire ++ [got]).length + n; omega
          cir := by
            show (s.cir + 1) % n = (s.wire ++ [got]).length % n
            rw [hlen, h.cir, Nat.mod_add_mod]
          outs := by
            show s.wire ++ [got] = (s.acc.take (s.wire ++ [got]).length).map padded
            rw [hlen, List.take_add_one, hf, List.map_append, ← h.outs, hgot]
            rfl
          queued := fun j g hj => h.queued j g (by have hj : (s.wire ++ [got]).length ≤ j := hj; omega)
          fill := fun _ e => by cases e
          held := fun e => by have := h.held e; show s.acc.length + 1 < (s.wire ++ [got]).length + n; omega }
      · exact h
    · exact h

theorem call_inv {n : Nat} {s : Tx} (h : TInv n s) (f : Bytes) : TInv n { s with pc := .test f } :=
  { h with
    held := fun e => absurd rfl e
    ok := fun _ e => by cases e
    copied := fun _ e => by rcases e with e | e <;> cases e
    sized := fun _ e => by cases e
    waits := fun _ _ e => by cases e }

/-- Writing the descriptor or the buffer at `prod` leaves the queued ones alone. -/
theorem queued_ne {n : Nat} {s : Tx} (h : TInv n s) {j : Nat} {f : Bytes} (hj : s.wire.length ≤ j)
    (hf : s.acc[j]? = some f) : j % n ≠ s.prod := by
  have hl : j < s.acc.length := by
    apply Nat.lt_of_not_le
    intro e
    rw [List.getElem?_eq_none e] at hf
    cases hf
  rw [h.prod]
  exact mod_ne hl (by have := h.room; omega)

theorem ret_inv {n : Nat} {s : Tx} (h : TInv n s) (r : List (Bytes × Int)) : TInv n { s with pc := .idle, ret := r } :=
  { h with
    held := fun e => absurd rfl e
    ok := fun _ e => by cases e
    copied := fun _ e => by rcases e with e | e <;> cases e
    sized := fun _ e => by cases e
    waits := fun _ _ e => by cases e }

theorem tcpu_inv {n : Nat} {s : Tx} (h : TInv n s) : TInv n (tcpu n s) := by
  unfold tcpu
  split
  · exact h
  · next f hp =>
    split
    · exact ret_inv h _
    · next c1 =>
      split
      · exact ret_inv h _
      · next c2 =>
        have hr : s.acc.length + 1 < s.wire.length + n := by
          apply Nat.lt_of_not_le
          intro e
          have e2 : s.acc.length + 1 = s.wire.length + n := by have := h.room; omega
          apply c2
          rw [h.prod, Nat.mod_add_mod, e2, Nat.add_mod_right, ← h.cir]
        exact { h with
          held := fun _ => hr
          ok := fun g e => by cases e; omega
          copied := fun _ e => by rcases e with e | e <;> cases e
          sized := fun _ e => by cases e
          waits := fun _ _ e => by cases e }
  · next f hp =>
    have hh : s.acc.length + 1 < s.wire.length + n := h.held (by rw [hp]; intro e; cases e)
    have ho := h.ok f (by rw [hp]; rfl)
    exact { h with
      queued := fun j g hj hg => by
        obtain ⟨q1, q2⟩ := h.queued j g hj hg
        refine ⟨q1, fun k hk => ?_⟩
        show upd s.buf s.prod _ (j % n) k = _
        rw [upd_ne _ _ (queued_ne h hj hg)]
        exact q2 k hk
      held := fun _ => hh
      ok := fun g e => by cases e; exact ho
      copied := fun g e k hk => by
        have e : f = g := by
          rcases e with e | e
          · cases e; rfl
          · cases e
        rw [← e] at hk ⊢
        show upd s.buf s.prod _ s.prod k = _
        rw [upd_eq]
        exact filled_eq f _ hk
      sized := fun _ e => by cases e
      waits := fun _ _ e => by cases e }
  · next f hp =>
    have hh : s.acc.length + 1 < s.wire.length + n := h.held (by rw [hp]; intro e; cases e)
    have ho := h.ok f (by rw [hp]; rfl)
    exact { h with
      queued := fun j g hj hg => by
        obtain ⟨q1, q2⟩ := h.queued j g hj hg
        refine ⟨?_, q2⟩
        show upd s.len s.prod _ (j % n) = _
        rw [upd_ne _ _ (queued_ne h hj hg)]
        exact q1
      held := fun _ => hh
      ok := fun g e => by cases e; exact ho
      copied := fun g e k hk => by
        have e : f = g := by
          rcases e with e | e
          · cases e
          · cases e; rfl
        rw [← e] at hk ⊢
        exact h.copied f (.inl hp) k hk
      sized := fun g e => by
        cases e
        show upd s.len s.prod _ s.prod = _
        rw [upd_eq, sendLen_eq]
      waits := fun _ _ e => by cases e }
  · next f hp =>
    have hh : s.acc.length + 1 < s.wire.length + n := h.held (by rw [hp]; intro e; cases e)
    have ho := h.ok f (by rw [hp]; rfl)
    have hlen : (s.acc ++ [f]).length = s.acc.length + 1 := List.length_append
    have hpr : (s.prod + 1) % n = (s.acc ++ [f]).length % n := by rw [hlen, h.prod, Nat.mod_add_mod]
    exact { h with
      le := by have := h.le; show s.wire.length ≤ (s.acc ++ [f]).length; omega
      room := by show (s.acc ++ [f]).length < s.wire.length + n; omega
      pir := hpr
      prod := hpr
      outs := by
        show s.wire = ((s.acc ++ [f]).take s.wire.length).map padded
        rw [List.take_append_of_le_length h.le]
        exact h.outs
      queued := fun j g hj hg => by
        have hg : (s.acc ++ [f])[j]? = some g := hg
        by_cases c : j < s.acc.length
        · rw [List.getElem?_append_left c] at hg
          exact h.queued j g hj hg
        · rw [List.getElem?_append_right (by omega)] at hg
          have e : j = s.acc.length := by
            apply Nat.le_antisymm ?_ (by omega)
            apply Nat.le_of_not_lt
            intro d
            rw [List.getElem?_eq_none (by show 1 ≤ _; omega)] at hg
            cases hg
          rw [e, Nat.sub_self] at hg
          cases hg
          rw [e, ← h.prod]
          exact ⟨h.sized f hp, h.copied f (.inr hp)⟩
      fill := fun got e => by
        obtain ⟨g, a, b⟩ := h.fill got e
        refine ⟨g, ?_, b⟩
        show (s.acc ++ [f])[_]? = _
        rw [List.getElem?_append_left]
        · exact a
        · apply Nat.lt_of_not_le
          intro d
          rw [List.getElem?_eq_none d] at a
          cases a
      held := fun e => absurd rfl e
      ok := fun _ e => by cases e
      copied := fun _ e => by rcases e with e | e <;> cases e
      sized := fun _ e => by cases e
      waits := fun g k e => by cases e; exact ⟨s.acc, rfl⟩
      sizes := fun g hg => by
        rcases List.mem_append.mp hg with hg | hg
        · exact h.sizes g hg
        · rw [List.mem_singleton.mp hg]; exact ho }
  · next f k hp =>
    split
    · exact ret_inv h _
    · split
      · exact ret_inv h _
      · exact { h with
          held := fun e => absurd rfl e
          ok := fun _ e => by cases e
          copied := fun _ e => by rcases e with e | e <;> cases e
          sized := fun _ e => by cases e
          waits := fun g j e => by cases e; exact h.waits f k hp }

theorem run_inv {n : Nat} : ∀ (l : List TAct) {s : Tx}, TInv n s → TInv n (s.run n l) := by
  intro l
  induction l with
  | nil => intro s h; exact h
  | cons a l ih =>
    intro s h
    refine ih (s := s.step n a) ?_
    cases a with
    | call f =>
      show TInv n (if s.pc = .idle then _ else s)
      split
      · exact call_inv h f
      · exact h
    | cpu => exact tcpu_inv h
    | dma a => exact tdma_inv h a

/-! ### The theorems -/

/-- **C135, transmit.**  Whatever the schedule: the frames on the wire are, in order and each once, those
announced so far but for at most `n - 1` still to come, padded with zeros to 60 octets and otherwise
unchanged; all of them had between 1 and 2048 octets. -/
theorem enetc_tx_exact {n : Nat} (hn : 0 < n) (b : Nat → Nat → Nat) (l : List TAct) (s : Tx)
    (hs : s = (Tx.start b).run n l) :
    s.wire = (s.acc.take s.wire.length).map padded ∧ s.wire.length ≤ s.acc.length ∧
      s.acc.length < s.wire.length + n ∧ ∀ f ∈ s.acc, 0 < f.length ∧ f.length ≤ 2048 := by
  have h := run_inv l (start_inv hn b)
  rw [← hs] at h
  exact ⟨h.outs, h.le, h.room, h.sizes⟩

/-- **C135, the results.**  From every reachable state: a call returns -1 at once exactly for an empty frame or
one of more than 2048 octets, and -2 exactly when `n - 1` frames are still to be sent, in both cases announcing
nothing; otherwise it announces the frame.  A call that returns a length returns that of the padded frame, and
by then this frame and every one before it is on the wire. -/
theorem enetc_send_result {n : Nat} (hn : 0 < n) (b : Nat → Nat → Nat) (l : List TAct) (s : Tx)
    (hs : s = (Tx.start b).run n l) :
    (∀ f, s.pc = .test f →
      ((f.length = 0 ∨ 2048 < f.length) → tcpu n s = { s with pc := .idle, ret := s.ret ++ [(f, -1)] }) ∧
      (0 < f.length → f.length ≤ 2048 → s.acc.length + 1 = s.wire.length + n →
        tcpu n s = { s with pc := .idle, ret := s.ret ++ [(f, -2)] }) ∧
      (0 < f.length → f.length ≤ 2048 → s.acc.length + 1 < s.wire.length + n → (tcpu n s).pc = .copy f)) ∧
    (∀ f, s.pc = .copy f → (tcpu n s).pc = .desc f ∧ (tcpu n s).acc = s.acc) ∧
    (∀ f, s.pc = .desc f → (tcpu n s).pc = .bell f ∧ (tcpu n s).acc = s.acc) ∧
    (∀ f, s.pc = .bell f → (tcpu n s).acc = s.acc ++ [f]) ∧
    (∀ f k v, s.pc = .wait f k → (tcpu n s).ret = s.ret ++ [(f, v)] → 0 ≤ v →
      v = ((padded f).length : Int) ∧ s.wire.length = s.acc.length ∧ s.wire.getLast? = some (padded f)) := by
  have h := run_inv l (start_inv hn b)
  rw [← hs] at h
  have full : s.acc.length + 1 = s.wire.length + n → (s.prod + 1) % n = s.cir := fun e => by
    rw [h.prod, Nat.mod_add_mod, e, Nat.add_mod_right, ← h.cir]
  refine ⟨fun f hp => ⟨fun c => ?_, fun c1 c2 c3 => ?_, fun c1 c2 c3 => ?_⟩, fun f hp => ?_, fun f hp => ?_,
    fun f hp => ?_, fun f k v hp hr hv => ?_⟩
  · unfold tcpu
    rw [hp]
    dsimp only
    rw [if_pos c]
  · unfold tcpu
    rw [hp]
    dsimp only
    rw [if_neg (by omega), if_pos (full c3)]
  · unfold tcpu
    rw [hp]
    dsimp only
    rw [if_neg (by omega), if_neg]
    intro e
    rw [h.prod, Nat.mod_add_mod, h.cir] at e
    have := Gem.mod_inj e.symm (by have := h.le; omega) c3
    have := h.le
    omega
  · unfold tcpu
    rw [hp]
    exact ⟨rfl, rfl⟩
  · unfold tcpu
    rw [hp]
    exact ⟨rfl, rfl⟩
  · unfold tcpu
    rw [hp]
  · unfold tcpu at hr
    rw [hp] at hr
    dsimp only at hr
    split at hr
    · have e := List.append_cancel_left hr
      simp only [List.cons.injEq, Prod.mk.injEq, true_and, and_true] at e
      omega
    · split at hr
      · next c =>
        have e := List.append_cancel_left hr
        simp only [List.cons.injEq, Prod.mk.injEq, true_and, and_true] at e
        rw [h.prod, h.cir] at c
        have e2 := Gem.mod_inj c.symm h.le h.room
        refine ⟨by rw [← e, sendLen_eq], e2, ?_⟩
        obtain ⟨a, ha⟩ := h.waits f k hp
        rw [h.outs, e2, List.take_length, ha, List.map_append]
        exact List.getLast?_concat
      · have hr : s.ret = s.ret ++ [(f, v)] := hr
        have := congrArg List.length hr
        rw [List.length_append] at this
        exact absurd this (by simp)

/-- A call is over after at most 32000 looks at the consumer index. -/
theorem enetc_wait_ends {n : Nat} (s : Tx) (f : Bytes) (k : Nat) (hp : s.pc = .wait f k) :
    (tcpu n s).pc = .idle ∨ 1 < k ∧ (tcpu n s).pc = .wait f (k - 1) := by
  unfold tcpu
  rw [hp]
  dsimp only
  split
  · exact .inl rfl
  · split
    · exact .inl rfl
    · exact .inr ⟨by omega, rfl⟩

/-- The actions of a whole call during which the device does nothing. -/
def stuckCall (f : Bytes) : List TAct := .call f :: (List.replicate 4 .cpu ++ List.replicate enetcTries .cpu)

theorem run_append (n : Nat) (s : Tx) (a b : List TAct) : s.run n (a ++ b) = (s.run n a).run n b := List.foldl_append

theorem wait_stuck {n : Nat} : ∀ (k : Nat) (s : Tx) (f : Bytes), s.pc = .wait f (k + 1) → s.prod ≠ s.cir →
    s.run n (List.replicate (k + 1) .cpu) = { s with pc := .idle, ret := s.ret ++ [(f, -1)] } := by
  intro k
  induction k with
  | zero =>
    intro s f hp _
    show tcpu n s = _
    unfold tcpu
    rw [hp]
    rfl
  | succ k ih =>
    intro s f hp hc
    show Tx.run n (tcpu n s) (List.replicate (k + 1) .cpu) = _
    have e : tcpu n s = { s with pc := .wait f (k + 1) } := by
      unfold tcpu
      rw [hp]
      dsimp only
      rw [if_neg (by omega), if_neg hc]
      rfl
    rw [e]
    exact ih { s with pc := .wait f (k + 1) } f rfl hc

theorem wait_stuck' {n m : Nat} (hm : 0 < m) (s : Tx) (f : Bytes) (hp : s.pc = .wait f m) (hc : s.prod ≠ s.cir) :
    s.run n (List.replicate m .cpu) = { s with pc := .idle, ret := s.ret ++ [(f, -1)] } := by
  obtain ⟨k, rfl⟩ : ∃ k, m = k + 1 := ⟨m - 1, by omega⟩
  exact wait_stuck k s f hp hc

/-- **What is wrong: -1 does not mean that the frame will not be sent.**  If the device does not take the frame
while the driver waits (no link), the call fails, but the frame stays announced and is sent as soon as the
device goes on: a caller that tries again has it sent twice. -/
theorem enetc_failed_send_goes_out :
    ((Tx.start (fun _ _ => 9)).run 8 (stuckCall [5] ++ .dma .fetch :: (List.replicate 60 (.dma .read) ++ [.dma .complete]))).ret =
      [([5], -1)] ∧
    ((Tx.start (fun _ _ => 9)).run 8 (stuckCall [5] ++ .dma .fetch :: (List.replicate 60 (.dma .read) ++ [.dma .complete]))).wire =
      [5 :: List.replicate 59 0] := by
  have key : ∀ m, 0 < m → ∀ t : Tx, t.pc = .wait [5] m → t.prod = 1 → t.cir = 0 → t.ret = [] →
      t.run 8 (List.replicate m .cpu) = { t with pc := .idle, ret := [([5], -1)] } := by
    intro m hm t hp h1 h2 h3
    rw [wait_stuck' hm t [5] hp (by omega), h3]
    rfl
  have e : (Tx.start (fun _ _ => 9)).run 8 (stuckCall [5]) =
      { (Tx.start (fun _ _ => 9)).run 8 (.call [5] :: List.replicate 4 .cpu) with pc := .idle, ret := [([5], -1)] } := by
    unfold stuckCall
    rw [← List.cons_append, run_append]
    apply key
    · omega
    · rfl
    · rfl
    · rfl
    · rfl
  rw [run_append, e]
  exact ⟨by decide +kernel, by decide +kernel⟩

/-! ## Receive -/

/-- Where the driver is in `eth_poll`; `cap` is its `len`. -/
inductive RPc where
  | idle
  /-- the ready test (488–492) -/
  | test (cap : Nat)
  /-- error and length (494–499) -/
  | size (cap : Nat)
  /-- `memcpy` (500–503) -/
  | copy (cap : Nat) (err : Bool) (flen : Nat)
  /-- the descriptor is cleared (506–513) -/
  | recycle (cap : Nat) (err : Bool) (flen : Nat) (out : Bytes)
  /-- `rx_idx`, RBCIR (518–521) -/
  | next (cap : Nat) (err : Bool) (flen : Nat) (out : Bytes)
  deriving DecidableEq

/-- What one call that met a frame did: its `len`, the octets it stored, its result. -/
structure Got where
  cap : Nat
  out : Bytes
  ret : Nat
  deriving DecidableEq

/-- Driver and device.  `fill`: the frame the device is writing, with its error flag and the octets written;
`arr`: the frames received (ghost); `log`: the calls that met a frame (ghost); `zero`: the others (ghost). -/
structure Rx where
  ready : Nat → Bool
  err : Nat → Bool
  len : Nat → Nat
  buf : Nat → Nat → Nat
  idx : Nat
  pir : Nat
  cir : Nat
  pc : RPc
  fill : Option (Bytes × Bool × Nat)
  arr : List (Bytes × Bool)
  log : List Got
  zero : Nat

/-- `enetc_setup_rx_bdr`, nxp_enetc.c 407–436. -/
def Rx.start (b : Nat → Nat → Nat) : Rx :=
  { ready := fun _ => false, err := fun _ => false, len := fun _ => 0, buf := b, idx := 0, pir := 0, cir := 0,
    pc := .idle, fill := none, arr := [], log := [], zero := 0 }

/-- `flen` after nxp_enetc.c 495–499. -/
def cut (l cap : Nat) : Nat :=
  let f := if l > enetcBuf then enetcBuf else l
  if f > cap then cap else f

/-- One action of `eth_poll`, nxp_enetc.c 480–521. -/
def rcpu (n : Nat) (s : Rx) : Rx :=
  match s.pc with
  | .idle => s
  | .test cap => if s.ready s.idx = true then { s with pc := .size cap } else { s with pc := .idle, zero := s.zero + 1 }
  | .size cap => { s with pc := .copy cap (s.err s.idx) (cut (s.len s.idx) cap) }
  | .copy cap e l =>
    { s with pc := .recycle cap e l (if e = false ∧ 0 < l then (List.range l).map (s.buf s.idx) else []) }
  | .recycle cap e l o =>
    { s with ready := upd s.ready s.idx false, err := upd s.err s.idx false, len := upd s.len s.idx 0,
             pc := .next cap e l o }
  | .next cap e l o =>
    { s with idx := (s.idx + 1) % n, cir := (s.idx + 1) % n, pc := .idle,
             log := s.log ++ [⟨cap, o, if e = true then 0 else l⟩] }

inductive RDma where
  /-- a frame arrives; dropped when the ring is full -/
  | begin (f : Bytes) (err : Bool)
  | write
  | finish
  deriving DecidableEq

/-- One action of the device. -/
def rdma (n : Nat) (s : Rx) : RDma → Rx
  | .begin f e =>
    if s.fill = none ∧ (s.pir + 1) % n ≠ s.cir ∧ f.length ≤ enetcBuf then { s with fill := some (f, e, 0) } else s
  | .write =>
    match s.fill with
    | some (f, e, k) =>
      if k < f.length then
        { s with buf := upd s.buf s.pir (upd (s.buf s.pir) k (f.getD k 0)), fill := some (f, e, k + 1) }
      else s
    | none => s
  | .finish =>
    match s.fill with
    | some (f, e, k) =>
      if k = f.length then
        { s with ready := upd s.ready s.pir true, err := upd s.err s.pir e, len := upd s.len s.pir f.length,
                 pir := (s.pir + 1) % n, arr := s.arr ++ [(f, e)], fill := none }
      else s
    | none => s

inductive RAct where
  /-- the stack calls `eth_poll`; only while no call is running -/
  | call (cap : Nat)
  | cpu
  | dma (a : RDma)
  deriving DecidableEq

def Rx.step (n : Nat) (s : Rx) : RAct → Rx
  | .call c => if s.pc = .idle then { s with pc := .test c } else s
  | .cpu => rcpu n s
  | .dma a => rdma n s a

def Rx.run (n : Nat) (s : Rx) (l : List RAct) : Rx := l.foldl (Rx.step n) s

/-- What a call with `len = cap` should make of the received frame `a`. -/
def want (a : Bytes × Bool) (cap : Nat) : Got :=
  if a.2 = true then ⟨cap, [], 0⟩ else ⟨cap, a.1.take cap, (a.1.take cap).length⟩

/-- The descriptor of the frame the driver is at is already cleared. -/
def RPc.cleared : RPc → Bool
  | .next .. => true
  | .idle => false
  | .test _ => false
  | .size _ => false
  | .copy .. => false
  | .recycle .. => false

/-- The frame the driver is at has been seen to be there. -/
def RPc.seen : RPc → Bool
  | .next .. => true
  | .size _ => true
  | .copy .. => true
  | .recycle .. => true
  | .idle => false
  | .test _ => false

structure RInv (n : Nat) (s : Rx) : Prop where
  pos : 0 < n
  le : s.log.length ≤ s.arr.length
  room : s.arr.length < s.log.length + n
  idx : s.idx = s.log.length % n
  cir : s.cir = s.log.length % n
  pir : s.pir = s.arr.length % n
  logs : ∀ (i : Nat) (g : Got), s.log[i]? = some g → ∃ a, s.arr[i]? = some a ∧ g = want a g.cap
  slots : ∀ j f e, s.log.length ≤ j → (j = s.log.length → s.pc.cleared = false) → s.arr[j]? = some (f, e) →
    s.ready (j % n) = true ∧ s.err (j % n) = e ∧ s.len (j % n) = f.length
  bytes : ∀ j f e, s.log.length ≤ j → s.arr[j]? = some (f, e) →
    ∀ k, k < f.length → s.buf (j % n) k = f.getD k 0
  free : ∀ j, s.arr.length ≤ j → j < s.log.length + n → s.ready (j % n) = false
  fill : ∀ f e k, s.fill = some (f, e, k) → f.length ≤ enetcBuf ∧ k ≤ f.length ∧
    s.arr.length + 1 < s.log.length + n ∧ ∀ i, i < k → s.buf s.pir i = f.getD i 0
  sizes : ∀ a ∈ s.arr, a.1.length ≤ enetcBuf
  seen : s.pc.seen = true → s.log.length < s.arr.length
  clear : s.pc.cleared = true → s.ready s.idx = false
  sized : ∀ cap e l, s.pc = .copy cap e l → ∃ f, s.arr[s.log.length]? = some (f, e) ∧ l = (f.take cap).length
  outs : ∀ cap e l o, s.pc = .recycle cap e l o ∨ s.pc = .next cap e l o → ∃ a, s.arr[s.log.length]? = some a ∧
    want a cap = ⟨cap, o, if e = true then 0 else l⟩

theorem rstart_inv {n : Nat} (hn : 0 < n) (b : Nat → Nat → Nat) : RInv n (Rx.start b) where
  pos := hn
  le := Nat.le_refl 0
  room := by show 0 < 0 + n; omega
  idx := by show 0 = 0 % n; rw [Nat.zero_mod]
  cir := by show 0 = 0 % n; rw [Nat.zero_mod]
  pir := by show 0 = 0 % n; rw [Nat.zero_mod]
  logs := fun i g h => by simp [Rx.start] at h
  slots := fun j f e _ _ h => by simp [Rx.start] at h
  bytes := fun j f e _ h => by simp [Rx.start] at h
  free := fun _ _ _ => rfl
  fill := fun _ _ _ h => by cases h
  sizes := fun a h => by cases h
  seen := fun h => by cases h
  clear := fun h => by cases h
  sized := fun _ _ _ h => by cases h
  outs := fun _ _ _ _ h => by rcases h with h | h <;> cases h

theorem rdma_inv {n : Nat} {s : Rx} (h : RInv n s) (a : RDma) : RInv n (rdma n s a) := by
  have ne : ∀ j, s.log.length ≤ j → j < s.arr.length → j % n ≠ s.pir := fun j h1 h2 e => by
    rw [h.pir] at e
    have := Gem.mod_inj e (by omega) (by have := h.room; omega)
    omega
  have lt : ∀ {j : Nat} {f : Bytes} {e : Bool}, s.arr[j]? = some (f, e) → j < s.arr.length := fun hj =>
    (List.getElem?_eq_some_iff.mp hj).1
  cases a with
  | begin f e =>
    unfold rdma
    dsimp only
    split
    · next c =>
      refine { h with fill := fun g e' k hg => ?_ }
      cases hg
      refine ⟨c.2.2, Nat.zero_le _, ?_, fun i hi => absurd hi (Nat.not_lt_zero i)⟩
      have : s.arr.length + 1 ≠ s.log.length + n := fun e => c.2.1 (by
        rw [h.pir, Nat.mod_add_mod, e, Nat.add_mod_right, ← h.cir])
      have := h.room
      show s.arr.length + 1 < s.log.length + n
      omega
    · exact h
  | write =>
    unfold rdma
    dsimp only
    split
    · next f e k hg =>
      split
      · next c =>
        obtain ⟨q1, q2, q3, q4⟩ := h.fill f e k hg
        refine { h with bytes := fun j f' e' h1 h2 i hi => ?_, fill := fun g e' k' hg' => ?_ }
        · show upd s.buf s.pir _ (j % n) i = _
          rw [upd_ne _ _ (ne j h1 (lt h2))]
          exact h.bytes j f' e' h1 h2 i hi
        · cases hg'
          refine ⟨q1, c, q3, fun i hi => ?_⟩
          show upd s.buf s.pir _ s.pir i = _
          rw [upd_eq]
          by_cases ci : i = k
          · rw [ci, upd_eq]
          · rw [upd_ne _ _ ci]
            exact q4 i (by omega)
      · exact h
    · exact h
  | finish =>
    unfold rdma
    dsimp only
    split
    · next f e k hg =>
      split
      · next c =>
        obtain ⟨q1, q2, q3, q4⟩ := h.fill f e k hg
        have old : ∀ {j : Nat}, j < s.arr.length → (s.arr ++ [(f, e)])[j]? = s.arr[j]? := fun hj =>
          List.getElem?_append_left hj
        have case : ∀ {j : Nat} {f' : Bytes} {e' : Bool}, (s.arr ++ [(f, e)])[j]? = some (f', e') →
            (j < s.arr.length ∧ s.arr[j]? = some (f', e')) ∨ (j = s.arr.length ∧ f' = f ∧ e' = e) := by
          intro j f' e' hj
          by_cases cj : j < s.arr.length
          · rw [old cj] at hj
            exact .inl ⟨cj, hj⟩
          · have := (List.getElem?_eq_some_iff.mp hj).1
            simp only [List.length_append, List.length_singleton] at this
            obtain rfl : j = s.arr.length := by omega
            rw [List.getElem?_concat_length] at hj
            cases hj
            exact .inr ⟨rfl, rfl, rfl⟩
        have hl : (s.arr ++ [(f, e)]).length = s.arr.length + 1 := by simp
        exact
          { pos := h.pos
            le := by show s.log.length ≤ _; rw [hl]; have := h.le; omega
            room := by show (s.arr ++ [(f, e)]).length < s.log.length + n; rw [hl]; exact q3
            idx := h.idx
            cir := h.cir
            pir := by show (s.pir + 1) % n = _ % n; rw [hl, h.pir, Nat.mod_add_mod]
            logs := fun i g hi => by
              obtain ⟨a, ha, hw⟩ := h.logs i g hi
              exact ⟨a, by show (s.arr ++ [(f, e)])[i]? = _; rw [old (List.getElem?_eq_some_iff.mp ha).1, ha], hw⟩
            slots := fun j f' e' h1 h2 h3 => by
              rcases case h3 with ⟨cj, hj⟩ | ⟨rfl, rfl, rfl⟩
              · show upd s.ready s.pir true (j % n) = true ∧ upd s.err s.pir e (j % n) = e' ∧
                  upd s.len s.pir f.length (j % n) = f'.length
                rw [upd_ne _ _ (ne j h1 cj), upd_ne _ _ (ne j h1 cj), upd_ne _ _ (ne j h1 cj)]
                exact h.slots j f' e' h1 h2 hj
              · rw [← h.pir]
                exact ⟨upd_eq .., upd_eq .., upd_eq ..⟩
            bytes := fun j f' e' h1 h3 i hi => by
              rcases case h3 with ⟨cj, hj⟩ | ⟨rfl, rfl, rfl⟩
              · exact h.bytes j f' e' h1 hj i hi
              · rw [← h.pir]
                exact q4 i (by omega)
            free := fun j h1 h2 => by
              have h1 : (s.arr ++ [(f, e)]).length ≤ j := h1
              have h2 : j < s.log.length + n := h2
              rw [hl] at h1
              show upd s.ready s.pir true (j % n) = false
              rw [upd_ne _ _ (fun e => by
                rw [h.pir] at e
                have := Gem.mod_inj e.symm (by omega) (by have := h.le; omega)
                omega)]
              exact h.free j (by omega) h2
            fill := fun _ _ _ e => by cases e
            sizes := fun a ha => by
              rcases List.mem_append.mp ha with ha | ha
              · exact h.sizes a ha
              · rw [List.mem_singleton.mp ha]
                exact q1
            seen := fun e => by show s.log.length < _; rw [hl]; have := h.seen e; omega
            clear := fun c => by
              show upd s.ready s.pir true s.idx = false
              have hs : s.pc.seen = true := by
                have c : s.pc.cleared = true := c
                revert c
                cases s.pc <;> intro c <;> first | rfl | cases c
              rw [upd_ne _ _ (by rw [h.idx]; exact ne _ (Nat.le_refl _) (h.seen hs))]
              exact h.clear c
            sized := fun cap e' l hp => by
              obtain ⟨g, hg1, hg2⟩ := h.sized cap e' l hp
              exact ⟨g, by show (s.arr ++ [(f, e)])[s.log.length]? = _; rw [old (lt hg1), hg1], hg2⟩
            outs := fun cap e' l o hp => by
              obtain ⟨g, hg1, hg2⟩ := h.outs cap e' l o hp
              exact ⟨g, by show (s.arr ++ [(f, e)])[s.log.length]? = _
                           rw [old (List.getElem?_eq_some_iff.mp hg1).1, hg1], hg2⟩ }
      · exact h
    · exact h

theorem rcall_inv {n : Nat} {s : Rx} (h : RInv n s) (c : Nat) (hp : s.pc = .idle) :
    RInv n { s with pc := .test c } :=
  { h with
    slots := fun j f e h1 _ h3 => h.slots j f e h1 (fun _ => by rw [hp]; rfl) h3
    seen := fun e => by cases e
    clear := fun e => by cases e
    sized := fun _ _ _ e => by cases e
    outs := fun _ _ _ _ e => by rcases e with e | e <;> cases e }

theorem cut_eq {f : Bytes} (cap : Nat) (h : f.length ≤ enetcBuf) : cut f.length cap = (f.take cap).length := by
  unfold cut
  dsimp only
  rw [if_neg (show ¬ f.length > enetcBuf by omega), List.length_take]
  split <;> omega

theorem map_buf {f : Bytes} {b : Nat → Nat} {l : Nat} (h : ∀ k, k < f.length → b k = f.getD k 0) (hl : l ≤ f.length) :
    (List.range l).map b = f.take l := by
  apply List.ext_getElem?
  intro i
  rw [List.getElem?_map, List.getElem?_take]
  by_cases c : i < l
  · rw [if_pos c, List.getElem?_range c]
    show some (b i) = _
    rw [h i (by omega), List.getD_eq_getElem?_getD, List.getElem?_eq_getElem (by omega)]
    rfl
  · rw [if_neg c, List.getElem?_eq_none (by simp; omega)]
    rfl

theorem rcpu_inv {n : Nat} {s : Rx} (h : RInv n s) : RInv n (rcpu n s) := by
  unfold rcpu
  split
  · exact h
  · next cap hp =>
    split
    · next c =>
      refine { h with
        slots := fun j f e h1 _ h3 => h.slots j f e h1 (fun _ => by rw [hp]; rfl) h3
        seen := fun _ => ?_
        clear := fun e => by cases e
        sized := fun _ _ _ e => by cases e
        outs := fun _ _ _ _ e => by rcases e with e | e <;> cases e }
      show s.log.length < s.arr.length
      apply Nat.lt_of_not_le
      intro e
      have := h.free s.log.length e (by have := h.pos; omega)
      rw [← h.idx, c] at this
      cases this
    · exact { h with
        slots := fun j f e h1 _ h3 => h.slots j f e h1 (fun _ => by rw [hp]; rfl) h3
        seen := fun e => by cases e
        clear := fun e => by cases e
        sized := fun _ _ _ e => by cases e
        outs := fun _ _ _ _ e => by rcases e with e | e <;> cases e }
  · next cap hp =>
    have hs := h.seen (by rw [hp]; rfl)
    refine { h with
      slots := fun j f e h1 _ h3 => h.slots j f e h1 (fun _ => by rw [hp]; rfl) h3
      seen := fun _ => hs
      clear := fun e => by cases e
      sized := fun cap' e l hc => ?_
      outs := fun _ _ _ _ e => by rcases e with e | e <;> cases e }
    cases hc
    have hg := List.getElem?_eq_getElem hs
    obtain ⟨_, q2, q3⟩ := h.slots _ _ _ (Nat.le_refl _) (fun _ => by rw [hp]; rfl) hg
    rw [← h.idx] at q2 q3
    refine ⟨(s.arr[s.log.length]).1, ?_, ?_⟩
    · rw [q2]
      exact hg
    · rw [q3]
      exact cut_eq cap (h.sizes _ (List.getElem_mem hs))
  · next cap e l hp =>
    have hs := h.seen (by rw [hp]; rfl)
    refine { h with
      slots := fun j f e h1 _ h3 => h.slots j f e h1 (fun _ => by rw [hp]; rfl) h3
      seen := fun _ => hs
      clear := fun e => by cases e
      sized := fun _ _ _ e => by cases e
      outs := fun cap' e' l' o hc => ?_ }
    rcases hc with hc | hc <;> cases hc
    obtain ⟨f, hf, hl⟩ := h.sized cap e l hp
    refine ⟨_, hf, ?_⟩
    have hb := h.bytes _ f e (Nat.le_refl _) hf
    rw [← h.idx] at hb
    have hll : l ≤ f.length := by rw [hl, List.length_take]; exact Nat.min_le_right ..
    cases e with
    | true => rfl
    | false =>
      show Got.mk cap (f.take cap) _ = Got.mk cap _ l
      rw [← hl]
      congr 1
      rw [map_buf hb hll]
      have e1 : f.take l = f.take cap := by
        rw [hl, List.length_take]
        by_cases c : cap ≤ f.length
        · rw [Nat.min_eq_left c]
        · rw [Nat.min_eq_right (by omega), List.take_of_length_le (Nat.le_refl _), List.take_of_length_le (by omega)]
      split
      · exact e1.symm
      · next c =>
        have : l = 0 := by
          apply Nat.eq_zero_of_not_pos
          exact fun hl => c ⟨rfl, hl⟩
        rw [← e1, this]
        rfl
  · next cap e l o hp =>
    have hs := h.seen (by rw [hp]; rfl)
    have ne : ∀ j, s.log.length < j → j < s.log.length + n → j % n ≠ s.idx := fun j h1 h2 e => by
      rw [h.idx] at e
      have := Gem.mod_inj e.symm (by omega) h2
      omega
    exact { h with
      slots := fun j f' e' h1 h2 h3 => by
        have h1 : s.log.length ≤ j := h1
        have hj := (List.getElem?_eq_some_iff.mp h3).1
        have hj : j < s.arr.length := hj
        have : j ≠ s.log.length := fun c => by have := h2 c; cases this
        have n1 := ne j (by omega) (by have := h.room; omega)
        show upd s.ready s.idx false (j % n) = true ∧ upd s.err s.idx false (j % n) = e' ∧
          upd s.len s.idx 0 (j % n) = f'.length
        rw [upd_ne _ _ n1, upd_ne _ _ n1, upd_ne _ _ n1]
        exact h.slots j f' e' h1 (fun c => absurd c this) h3
      free := fun j h1 h2 => by
        show upd s.ready s.idx false (j % n) = false
        by_cases c : j % n = s.idx
        · rw [c, upd_eq]
        · rw [upd_ne _ _ c]
          exact h.free j h1 h2
      seen := fun _ => hs
      clear := fun _ => upd_eq ..
      sized := fun _ _ _ e => by cases e
      outs := fun cap' e' l' o' hc => by
        rcases hc with hc | hc <;> cases hc
        exact h.outs cap e l o (.inl hp) }
  · next cap e l o hp =>
    have hs := h.seen (by rw [hp]; rfl)
    obtain ⟨a, ha, hw⟩ := h.outs cap e l o (.inr hp)
    have hl : (s.log ++ [Got.mk cap o (if e = true then 0 else l)]).length = s.log.length + 1 := by simp
    have hidx : (s.idx + 1) % n = (s.log.length + 1) % n := by rw [h.idx, Nat.mod_add_mod]
    exact
      { pos := h.pos
        le := by show (s.log ++ [_]).length ≤ s.arr.length; rw [hl]; exact hs
        room := by
          show s.arr.length < (s.log ++ [_]).length + n
          rw [hl]
          have := h.room
          omega
        idx := by show (s.idx + 1) % n = (s.log ++ [_]).length % n; rw [hl, hidx]
        cir := by show (s.idx + 1) % n = (s.log ++ [_]).length % n; rw [hl, hidx]
        pir := h.pir
        logs := fun i g hi => by
          have hi : (s.log ++ [Got.mk cap o (if e = true then 0 else l)])[i]? = some g := hi
          by_cases c : i < s.log.length
          · rw [List.getElem?_append_left c] at hi
            exact h.logs i g hi
          · have := (List.getElem?_eq_some_iff.mp hi).1
            rw [hl] at this
            obtain rfl : i = s.log.length := by omega
            rw [List.getElem?_concat_length] at hi
            cases hi
            exact ⟨a, ha, hw.symm⟩
        slots := fun j f' e' h1 _ h3 => by
          have h1 : (s.log ++ [Got.mk cap o (if e = true then 0 else l)]).length ≤ j := h1
          rw [hl] at h1
          exact h.slots j f' e' (by omega) (fun c => absurd c (by omega)) h3
        bytes := fun j f' e' h1 h3 => by
          have h1 : (s.log ++ [Got.mk cap o (if e = true then 0 else l)]).length ≤ j := h1
          rw [hl] at h1
          exact h.bytes j f' e' (by omega) h3
        free := fun j h1 h2 => by
          have h1 : s.arr.length ≤ j := h1
          have h2 : j < (s.log ++ [Got.mk cap o (if e = true then 0 else l)]).length + n := h2
          rw [hl] at h2
          show s.ready (j % n) = false
          by_cases c : j < s.log.length + n
          · exact h.free j h1 c
          · obtain rfl : j = s.log.length + n := by omega
            rw [Nat.add_mod_right, ← h.idx]
            exact h.clear (by rw [hp]; rfl)
        fill := fun f e' k hg => by
          obtain ⟨q1, q2, q3, q4⟩ := h.fill f e' k hg
          refine ⟨q1, q2, ?_, q4⟩
          show s.arr.length + 1 < (s.log ++ [_]).length + n
          rw [hl]
          omega
        sizes := h.sizes
        seen := fun c => by cases c
        clear := fun c => by cases c
        sized := fun _ _ _ c => by cases c
        outs := fun _ _ _ _ c => by rcases c with c | c <;> cases c }

theorem rrun_inv {n : Nat} : ∀ (l : List RAct) {s : Rx}, RInv n s → RInv n (s.run n l) := by
  intro l
  induction l with
  | nil => intro s h; exact h
  | cons a l ih =>
    intro s h
    refine ih (s := s.step n a) ?_
    cases a with
    | call c =>
      show RInv n (if s.pc = .idle then _ else s)
      split
      · next hp => exact rcall_inv h c hp
      · exact h
    | cpu => exact rcpu_inv h
    | dma a => exact rdma_inv h a

/-- **C135, receive.**  Whatever the schedule: the i-th call that met a frame met the i-th frame received.  If
it arrived with an error it stored nothing and returned 0; otherwise it stored the frame, cut to its `len`, and
returned the number of octets stored.  At most `n - 1` frames wait. -/
theorem enetc_rx_exact {n : Nat} (hn : 0 < n) (b : Nat → Nat → Nat) (l : List RAct) (s : Rx)
    (hs : s = (Rx.start b).run n l) :
    (∀ (i : Nat) (g : Got), s.log[i]? = some g → ∃ f e, s.arr[i]? = some (f, e) ∧
      (e = true → g.out = [] ∧ g.ret = 0) ∧ (e = false → g.out = f.take g.cap ∧ g.ret = g.out.length)) ∧
    s.log.length ≤ s.arr.length ∧ s.arr.length < s.log.length + n := by
  have h := rrun_inv l (rstart_inv hn b)
  rw [← hs] at h
  refine ⟨fun i g hi => ?_, h.le, h.room⟩
  obtain ⟨⟨f, e⟩, ha, hw⟩ := h.logs i g hi
  refine ⟨f, e, ha, fun c => ?_, fun c => ?_⟩
  · rw [hw, want, if_pos c]
    exact ⟨rfl, rfl⟩
  · rw [hw, want, if_neg (by rw [c]; nofun)]
    exact ⟨rfl, rfl⟩

/-- A call finds no frame exactly when there is none: every frame received has then been met. -/
theorem enetc_rx_empty {n : Nat} (hn : 0 < n) (b : Nat → Nat → Nat) (l : List RAct) (s : Rx)
    (hs : s = (Rx.start b).run n l) (cap : Nat) (hp : s.pc = .test cap) :
    ((rcpu n s).pc = .idle ↔ s.log.length = s.arr.length) ∧
      (s.log.length < s.arr.length → (rcpu n s).pc = .size cap) := by
  have h := rrun_inv l (rstart_inv hn b)
  rw [← hs] at h
  have some' : s.log.length < s.arr.length → s.ready s.idx = true := fun c => by
    have := (h.slots _ _ _ (Nat.le_refl _) (fun _ => by rw [hp]; rfl) (List.getElem?_eq_getElem c)).1
    rw [← h.idx] at this
    exact this
  have none' : s.arr.length ≤ s.log.length → s.ready s.idx = false := fun c => by
    rw [h.idx]
    exact h.free _ c (by omega)
  unfold rcpu
  rw [hp]
  dsimp only
  have := h.le
  refine ⟨⟨fun c => ?_, fun c => ?_⟩, fun c => ?_⟩
  · apply Nat.le_antisymm this
    apply Nat.le_of_not_lt
    intro d
    rw [if_pos (some' d)] at c
    cases c
  · rw [if_neg (by rw [none' (by omega)]; nofun)]
  · rw [if_pos (some' c)]

/-- The device loses a frame only when `n - 1` of them wait for the driver. -/
theorem enetc_rx_room {n : Nat} (hn : 0 < n) (b : Nat → Nat → Nat) (l : List RAct) (s : Rx)
    (hs : s = (Rx.start b).run n l) (f : Bytes) (e : Bool) (hf : f.length ≤ 2048) (hi : s.fill = none)
    (hr : s.arr.length + 1 < s.log.length + n) : (s.step n (.dma (.begin f e))).fill = some (f, e, 0) := by
  have h := rrun_inv l (rstart_inv hn b)
  rw [← hs] at h
  show (rdma n s (.begin f e)).fill = _
  unfold rdma
  dsimp only
  rw [if_pos]
  refine ⟨hi, fun c => ?_, hf⟩
  rw [h.pir, Nat.mod_add_mod, h.cir] at c
  have := Gem.mod_inj c.symm (by have := h.le; omega) hr
  have := h.le
  omega

/-! ### Concrete runs -/

/-- A frame of 61 octets sent and the length returned. -/
example : ((Tx.start (fun _ _ => 9)).run 3 (.call (List.replicate 61 7) :: (List.replicate 4 .cpu ++
    .dma .fetch :: (List.replicate 61 (.dma .read) ++ [.dma .complete, .cpu])))).wire = [List.replicate 61 7] ∧
    ((Tx.start (fun _ _ => 9)).run 3 (.call (List.replicate 61 7) :: (List.replicate 4 .cpu ++
    .dma .fetch :: (List.replicate 61 (.dma .read) ++ [.dma .complete, .cpu])))).ret = [(List.replicate 61 7, 61)] := by
  decide +kernel

/-- A frame and one in error, polled with `len = 2`, and two calls that find nothing. -/
example : ((Rx.start (fun _ _ => 9)).run 3 [.dma (.begin [1, 2, 3] false), .dma .write, .call 2, .cpu, .dma .write,
      .dma .write, .dma .finish, .call 2, .cpu, .dma (.begin [4] true), .cpu, .dma .write, .cpu, .cpu, .dma .finish,
      .cpu, .call 2, .cpu, .cpu, .cpu, .cpu, .cpu, .call 2, .cpu]).log = [⟨2, [1, 2], 2⟩, ⟨2, [], 0⟩] ∧
    ((Rx.start (fun _ _ => 9)).run 3 [.dma (.begin [1, 2, 3] false), .dma .write, .call 2, .cpu, .dma .write,
      .dma .write, .dma .finish, .call 2, .cpu, .dma (.begin [4] true), .cpu, .dma .write, .cpu, .cpu, .dma .finish,
      .cpu, .call 2, .cpu, .cpu, .cpu, .cpu, .cpu, .call 2, .cpu]).zero = 2 := by
  decide +kernel

end Wolf.Drv.Enetc
