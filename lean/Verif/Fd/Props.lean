import Verif.Fd.Model

/-!
# C60: descriptors name exactly one slot of exactly one kind
-/

namespace Wolf.Fd

theorem and_pow_eq (x n : Nat) : (x &&& 2 ^ n == 2 ^ n) = x.testBit n := by
  rw [Bool.eq_iff_iff, beq_iff_eq]
  constructor
  · intro h
    have := congrArg (fun y => Nat.testBit y n) h
    simpa [Nat.testBit_and, Nat.testBit_two_pow] using this
  · intro h
    apply Nat.eq_of_testBit_eq
    intro j
    rw [Nat.testBit_and, Nat.testBit_two_pow]
    by_cases hj : n = j
    · subst hj; simp [h]
    · simp [hj]

/-- Position of the mark bit. -/
def bit : Kind → Nat
  | .tcp => 8 | .udp => 9 | .icmp => 10 | .raw => 11 | .packet => 12

theorem mark_bit (k : Kind) : mark k = 2 ^ bit k := by cases k <;> rfl

theorem bit_inj {k k' : Kind} (h : bit k = bit k') : k = k' := by
  cases k <;> cases k' <;> first | rfl | (simp [bit] at h)

theorem bit_ge (k : Kind) : 8 ≤ bit k := by cases k <;> simp [bit]

theorem small_testBit {i n : Nat} (h : i < 256) (hn : 8 ≤ n) : i.testBit n = false := by
  apply Nat.testBit_lt_two_pow
  calc i < 2 ^ 8 := h
    _ ≤ 2 ^ n := Nat.pow_le_pow_right (by decide) hn

/-- A descriptor of kind `k` carries the mark of `k` and no other. -/
theorem isSocket_fdOf (k k' : Kind) {i : Nat} (h : i < 256) :
    isSocket k' (fdOf k i) = decide (k' = k) := by
  unfold isSocket fdOf
  rw [mark_bit, mark_bit, and_pow_eq, Nat.testBit_or, small_testBit h (bit_ge k'),
    Nat.testBit_two_pow, Bool.false_or]
  by_cases e : k' = k
  · subst e; simp
  · have : bit k ≠ bit k' := fun c => e (bit_inj c).symm
    simp [e, this]

/-- … and its index comes back. -/
theorem unmark_fdOf (k : Kind) {i : Nat} (h : i < 256) : unmark (fdOf k i) = i := by
  unfold unmark fdOf
  apply Nat.eq_of_testBit_eq
  intro j
  rw [Nat.testBit_and, Nat.testBit_or, mark_bit, Nat.testBit_two_pow]
  have e : (0xFF : Nat) = 2 ^ 8 - 1 := by decide
  rw [e, Nat.testBit_two_pow_sub_one]
  by_cases hj : j < 8
  · have : bit k ≠ j := by have := bit_ge k; omega
    simp [hj, this]
  · rw [small_testBit h (by omega)]; simp [hj]

/-- Descriptors of different kinds or different indices are different numbers. -/
theorem fd_injective {k k' : Kind} {i i' : Nat} (h : i < 256) (h' : i' < 256)
    (e : fdOf k i = fdOf k' i') : k = k' ∧ i = i' := by
  constructor
  · have a := isSocket_fdOf k k h
    rw [e, isSocket_fdOf k' k h'] at a
    simpa using a
  · have a := unmark_fdOf k h
    rw [e, unmark_fdOf k' h'] at a
    exact a.symm

/-- **Every entry point, whatever the order in which it tests the marks, resolves the
descriptor of an in-use slot to that slot** – or refuses it, if it does not serve the kind. -/
theorem fd_names_slot (t : Tabs) (e : Entry) (k : Kind) (i : Nat) (s : Slot) (h : i < 256)
    (hs : t.slot k i = some s) (hu : s.used = true) :
    resolve t e (fdOf k i : Nat) = if k ∈ e.order then some (k, i) else none := by
  show resolveNat t e.strict (fdOf k i) e.order = _
  generalize e.order = l
  generalize e.strict = st
  induction l with
  | nil => simp [resolveNat]
  | cons a l ih =>
    rw [resolveNat, isSocket_fdOf k a h, unmark_fdOf k h]
    by_cases ha : a = k
    · subst ha
      unfold Tabs.slot at hs
      simp [hs, hu]
    · have : k ≠ a := fun c => ha c.symm
      simp [ha, ih, this]

/-- Whatever a descriptor resolves to, it is a slot inside its array whose kind's mark the
descriptor carries: no access outside the arrays, for every integer. -/
theorem resolve_in_range (t : Tabs) (e : Entry) (fd : Int) (k : Kind) (i : Nat)
    (h : resolve t e fd = some (k, i)) : i < (t.get k).length ∧ k ∈ e.order ∧
      ∃ n : Nat, fd = n ∧ i = n &&& 0xFF ∧ n &&& mark k = mark k := by
  cases fd with
  | negSucc n => cases h
  | ofNat n =>
    change resolveNat t e.strict n e.order = some (k, i) at h
    revert h
    generalize e.order = l
    generalize e.strict = st
    intro h
    induction l with
    | nil => cases h
    | cons a l ih =>
      rw [resolveNat] at h
      by_cases ha : isSocket a n = true
      · rw [if_pos ha] at h
        cases hg : (t.get a)[unmark n]? with
        | none => rw [hg] at h; cases h
        | some s =>
          rw [hg] at h
          dsimp only at h
          split at h
          · cases h
          · have h' := Option.some.inj h
            have e1 : a = k := congrArg Prod.fst h'
            have e2 : unmark n = i := congrArg Prod.snd h'
            subst e1; subst e2
            refine ⟨?_, List.mem_cons_self, n, rfl, rfl, ?_⟩
            · rw [List.getElem?_eq_some_iff] at hg
              exact hg.1
            · simpa [isSocket] using ha
      · rw [if_neg ha] at h
        obtain ⟨a1, a2, a3⟩ := ih h
        exact ⟨a1, List.mem_cons_of_mem _ a2, a3⟩

theorem get_put (t : Tabs) (k k' : Kind) (l : List Slot) :
    (t.put k l).get k' = if k' = k then l else t.get k' := by
  cases k <;> cases k' <;> rfl

theorem slot_put_set (t : Tabs) (k k' : Kind) (i j : Nat) (s : Slot) :
    (t.put k ((t.get k).set i s)).slot k' j =
      if k' = k ∧ j = i ∧ i < (t.get k).length then some s else t.slot k' j := by
  unfold Tabs.slot
  rw [get_put]
  by_cases hk : k' = k
  · subst hk
    rw [if_pos rfl, List.getElem?_set]
    by_cases hj : i = j
    · subst hj
      by_cases hl : i < (t.get k').length
      · simp [hl]
      · simp [hl]
    · have : j ≠ i := fun c => hj c.symm
      simp [hj, this]
  · simp [hk]

theorem slot_touch_other (t : Tabs) (k k' : Kind) (i j : Nat) (f : Slot → Slot)
    (h : ¬(k' = k ∧ j = i)) : (touch t k i f).slot k' j = t.slot k' j := by
  unfold touch
  split
  · rfl
  · rw [slot_put_set, if_neg (fun c => h ⟨c.1, c.2.1⟩)]

theorem len_touch (t : Tabs) (k k' : Kind) (i : Nat) (f : Slot → Slot) :
    ((touch t k i f).get k').length = (t.get k').length := by
  unfold touch
  split
  · rfl
  · rw [get_put]
    split
    · next e => subst e; simp
    · rfl

theorem slot_touch_self (t : Tabs) (k : Kind) (i : Nat) (f : Slot → Slot) :
    (touch t k i f).slot k i = (t.slot k i).map f := by
  unfold touch
  cases h : (t.get k)[i]? with
  | none => simp only [Tabs.slot, h, Option.map]
  | some s =>
    dsimp only
    rw [slot_put_set, if_pos ⟨rfl, rfl, (List.getElem?_eq_some_iff.mp h).1⟩]
    simp only [Tabs.slot, h, Option.map]

theorem len_alloc (t : Tabs) (k k' : Kind) (b : Nat) :
    ((alloc t k b).1.get k').length = (t.get k').length := by
  unfold alloc
  split
  · rfl
  · rw [get_put]
    split
    · next e => subst e; simp
    · rfl

/-- A call never changes the size of an array. -/
theorem len_step (t : Tabs) (o : Op) (k : Kind) :
    ((step t o).1.get k).length = (t.get k).length := by
  cases o with
  | socket k' b => exact len_alloc ..
  | use e fd f =>
    simp only [step]
    split
    · rfl
    · exact len_touch ..
  | accept fd ok f b =>
    simp only [step]
    split
    · rfl
    · split
      · rw [len_alloc, len_touch]
      · exact len_touch ..
  | close fd now f =>
    simp only [step]
    split
    · rfl
    · split <;> exact len_touch ..
  | internal i r f =>
    simp only [step]
    split <;> exact len_touch ..

/-- What an allocation does: it takes a slot that was free, returns the descriptor that
names it, and leaves all other slots alone; or it fails and changes nothing. -/
theorem alloc_spec (t : Tabs) (k : Kind) (b : Nat) :
    (alloc t k b = (t, -1)) ∨
    ∃ i s, t.slot k i = some s ∧ s.used = false ∧ (alloc t k b).2 = (fdOf k i : Nat) ∧
      (alloc t k b).1.slot k i = some ⟨true, b⟩ ∧
      ∀ k' j, ¬(k' = k ∧ j = i) → (alloc t k b).1.slot k' j = t.slot k' j := by
  unfold alloc
  cases h : (t.get k).findIdx? (fun s => !s.used) with
  | none => exact Or.inl rfl
  | some i =>
    right
    rw [List.findIdx?_eq_some_iff_getElem] at h
    obtain ⟨hi, hu, _⟩ := h
    refine ⟨i, (t.get k)[i], ?_, ?_, rfl, ?_, ?_⟩
    · exact List.getElem?_eq_getElem hi
    · simpa using hu
    · dsimp only
      rw [slot_put_set, if_pos ⟨rfl, rfl, hi⟩]
    · intro k' j hn
      dsimp only
      rw [slot_put_set, if_neg (fun c => hn ⟨c.1, c.2.1⟩)]

/-- The descriptor a call is given. -/
def Op.given : Op → Option Int
  | .use _ fd _ => some fd
  | .accept fd _ _ _ => some fd
  | .close fd _ _ => some fd
  | _ => none

theorem wf_lt {t : Tabs} (h : t.wf) {k : Kind} {i : Nat} {s : Slot}
    (hs : t.slot k i = some s) : i < 255 := by
  have h1 := (List.getElem?_eq_some_iff.mp hs).1
  have h2 := h k
  omega

theorem resolve_own {t : Tabs} {e : Entry} {k k' : Kind} {i i' : Nat} {s : Slot} (h : t.wf)
    (hs : t.slot k i = some s) (hu : s.used = true)
    (hr : resolve t e (fdOf k i : Nat) = some (k', i')) : k' = k ∧ i' = i := by
  rw [fd_names_slot t e k i s (by have := wf_lt h hs; omega) hs hu] at hr
  split at hr
  · have h' := Option.some.inj hr
    exact ⟨(congrArg Prod.fst h').symm, (congrArg Prod.snd h').symm⟩
  · cases hr

/-- **Using a descriptor touches only its own slot.**  A call on the descriptor of an
in-use slot leaves every slot of every other kind or index exactly as it was; the only
exception is the slot `accept` newly opens, which was free. -/
theorem fd_touches_own_slot (t : Tabs) (o : Op) (k : Kind) (i : Nat) (s : Slot) (h : t.wf)
    (hs : t.slot k i = some s) (hu : s.used = true) (hg : o.given = some (fdOf k i : Nat))
    (k' : Kind) (j : Nat) (hne : ¬(k' = k ∧ j = i)) :
    (step t o).1.slot k' j = t.slot k' j ∨
      ((step t o).2 = (fdOf k' j : Nat) ∧ ∃ s', t.slot k' j = some s' ∧ s'.used = false) := by
  cases o with
  | socket k b => cases hg
  | internal i r f => cases hg
  | use e fd f =>
    have hfd := Option.some.inj hg
    subst hfd
    left
    simp only [step]
    split
    · rfl
    · next a b hr =>
      obtain ⟨rfl, rfl⟩ := resolve_own h hs hu hr
      exact slot_touch_other _ _ _ _ _ _ hne
  | close fd now f =>
    have hfd := Option.some.inj hg
    subst hfd
    left
    simp only [step]
    split
    · rfl
    · next a b hr =>
      obtain ⟨rfl, rfl⟩ := resolve_own h hs hu hr
      split <;> exact slot_touch_other _ _ _ _ _ _ hne
  | accept fd ok f b =>
    have hfd := Option.some.inj hg
    subst hfd
    simp only [step]
    split
    · exact Or.inl rfl
    · next a c hr =>
      obtain ⟨rfl, rfl⟩ := resolve_own h hs hu hr
      split
      · rcases alloc_spec (touch t a c (fun s => { s with body := f s.body })) .tcp b with e | e
        · rw [e]; exact Or.inl (slot_touch_other _ _ _ _ _ _ hne)
        · obtain ⟨n, s', h1, h2, h3, _, h5⟩ := e
          by_cases hn : k' = .tcp ∧ j = n
          · right
            rw [h3, hn.1, hn.2]
            refine ⟨rfl, s', ?_, h2⟩
            rw [← h1, ← hn.1, ← hn.2]
            exact (slot_touch_other _ _ _ _ _ _ hne).symm
          · left
            rw [h5 _ _ hn]
            exact slot_touch_other _ _ _ _ _ _ hne
      · exact Or.inl (slot_touch_other _ _ _ _ _ _ hne)

/-- **Whatever integer an application passes** – stale, forged, negative – a call that does
not open a socket changes at most one slot, and only one whose kind's mark and index the
integer carries. -/
theorem any_fd_one_slot (t : Tabs) (e : Entry) (fd : Int) (f : Nat → Nat) (k : Kind) (i : Nat)
    (hc : (step t (.use e fd f)).1.slot k i ≠ t.slot k i) :
    resolve t e fd = some (k, i) ∧ ∃ n : Nat, fd = n ∧ i = n &&& 0xFF ∧ n &&& mark k = mark k := by
  simp only [step] at hc
  cases hr : resolve t e fd with
  | none => rw [hr] at hc; exact absurd rfl hc
  | some p =>
    obtain ⟨a, b⟩ := p
    rw [hr] at hc
    by_cases hn : k = a ∧ i = b
    · obtain ⟨rfl, rfl⟩ := hn
      obtain ⟨_, _, h3⟩ := resolve_in_range t e fd k i hr
      exact ⟨rfl, h3⟩
    · exact absurd (slot_touch_other _ _ _ _ _ _ hn) hc

/-- **A returned descriptor is new and names exactly one slot.**  If a call returns a
descriptor, no in-use slot had it before, and afterwards exactly one slot – in use – has it. -/
theorem returned_fd_fresh (t : Tabs) (o : Op) (h : t.wf) (hd : 0 ≤ (step t o).2) :
    ∃ k i, (step t o).2 = (fdOf k i : Nat) ∧
      (∃ s, (step t o).1.slot k i = some s ∧ s.used = true) ∧
      (∃ s, t.slot k i = some s ∧ s.used = false) ∧
      (∀ k' j s, (step t o).1.slot k' j = some s → (step t o).2 = (fdOf k' j : Nat) →
        k' = k ∧ j = i) := by
  have key : ∀ (u : Tabs) (k : Kind) (b : Nat), u.wf → 0 ≤ (alloc u k b).2 →
      ∃ i s, u.slot k i = some s ∧ s.used = false ∧ (alloc u k b).2 = (fdOf k i : Nat) ∧
        (∃ s, (alloc u k b).1.slot k i = some s ∧ s.used = true) ∧
        (∀ k' j s, (alloc u k b).1.slot k' j = some s → (alloc u k b).2 = (fdOf k' j : Nat) →
          k' = k ∧ j = i) := by
    intro u k b hw h0
    rcases alloc_spec u k b with e | ⟨i, s, h1, h2, h3, h4, h5⟩
    · rw [e] at h0; exact absurd (show (0:Int) ≤ -1 from h0) (by decide)
    · refine ⟨i, s, h1, h2, h3, ⟨_, h4, rfl⟩, ?_⟩
      intro k' j s' hs' he
      rw [h3] at he
      have hj : j < 255 := by
        have a1 := (List.getElem?_eq_some_iff.mp hs').1
        have a2 := len_alloc u k k' b
        have a3 := hw k'
        omega
      have hi := wf_lt hw h1
      have := fd_injective (k := k) (k' := k') (i := i) (i' := j) (by omega) (by omega)
        (by exact_mod_cast he)
      exact ⟨this.1.symm, this.2.symm⟩
  cases o with
  | socket k b =>
    obtain ⟨i, s, h1, h2, h3, h4, h5⟩ := key t k b h hd
    exact ⟨k, i, h3, h4, ⟨s, h1, h2⟩, h5⟩
  | use e fd f =>
    simp only [step] at hd
    split at hd <;> exact absurd (show (0:Int) ≤ -1 from hd) (by decide)
  | close fd now f =>
    simp only [step] at hd
    split at hd
    · exact absurd (show (0:Int) ≤ -1 from hd) (by decide)
    · split at hd <;> exact absurd (show (0:Int) ≤ -1 from hd) (by decide)
  | internal i r f =>
    simp only [step] at hd
    split at hd <;> exact absurd (show (0:Int) ≤ -1 from hd) (by decide)
  | accept fd ok f b =>
    simp only [step] at hd ⊢
    cases hr : resolve t eAccept fd with
    | none => rw [hr] at hd; exact absurd (show (0:Int) ≤ -1 from hd) (by decide)
    | some p =>
      obtain ⟨a, c⟩ := p
      rw [hr] at hd
      dsimp only at hd ⊢
      by_cases ho : ok = true
      · rw [if_pos ho] at hd ⊢
        have hw : (touch t a c (fun s => { s with body := f s.body })).wf := by
          intro k; rw [len_touch]; exact h k
        obtain ⟨i, s, h1, h2, h3, h4, h5⟩ := key _ _ _ hw hd
        refine ⟨.tcp, i, h3, h4, ?_, h5⟩
        by_cases hn : Kind.tcp = a ∧ i = c
        · obtain ⟨rfl, rfl⟩ := hn
          rw [slot_touch_self] at h1
          cases hs : t.slot .tcp i with
          | none => rw [hs] at h1; cases h1
          | some s0 =>
            rw [hs] at h1
            refine ⟨s0, rfl, ?_⟩
            have := Option.some.inj h1
            rw [← h2, ← this]
        · rw [slot_touch_other _ _ _ _ _ _ hn] at h1
          exact ⟨s, h1, h2⟩
      · rw [if_neg ho] at hd; exact absurd (show (0:Int) ≤ -1 from hd) (by decide)

/-- Which kinds of socket each call serves, read off the API: `accept`, `listen` are for TCP,
`getpeername` for TCP and raw sockets, `connect` for everything but packet sockets, the rest
for all five kinds. -/
inductive Call where
  | register | connect | accept | sendto | recvfrom | setsockopt | getsockopt | close
  | getsockname | bind | listen | getpeername
  deriving DecidableEq

/-- The chain a call walks. -/
def Call.entry : Call → Entry
  | .register => eRegister | .connect => eConnect | .accept => eAccept | .sendto => eSendto
  | .recvfrom => eRecvfrom | .setsockopt => eSetsockopt | .getsockopt => eGetsockopt
  | .close => eClose | .getsockname => eGetsockname | .bind => eBind | .listen => eListen
  | .getpeername => eGetpeername

/-- The kinds a call is documented for. -/
def Call.serves : Call → Kind → Bool
  | .accept, k => k == .tcp
  | .listen, k => k == .tcp
  | .getpeername, k => k == .tcp || k == .raw
  | .connect, k => k != .packet
  | _, _ => true

/-- **Every call reaches the slot of the descriptor it is given**, for each kind of socket it
serves, and refuses the descriptors of the other kinds. -/
theorem call_reaches_slot (t : Tabs) (c : Call) (k : Kind) (i : Nat) (s : Slot) (h : i < 256)
    (hs : t.slot k i = some s) (hu : s.used = true) :
    resolve t c.entry (fdOf k i : Nat) = if c.serves k then some (k, i) else none := by
  rw [fd_names_slot t c.entry k i s h hs hu]
  have : k ∈ c.entry.order ↔ c.serves k = true := by
    cases c <;> cases k <;> decide
  by_cases hk : k ∈ c.entry.order
  · rw [if_pos hk, if_pos (this.mp hk)]
  · rw [if_neg hk, if_neg (fun e => hk (this.mpr e))]

/-- **What `close` does to the slot it names**: datagram, raw and packet slots are free
afterwards; a TCP slot that still has to finish its connection stays in use – so its
descriptor is not handed out again before the stack releases it. -/
theorem close_effect (t : Tabs) (now : Bool) (f : Nat → Nat) (k : Kind) (i : Nat) (s : Slot)
    (h : i < 256) (hs : t.slot k i = some s) (hu : s.used = true) :
    (∃ s', (step t (.close (fdOf k i : Nat) now f)).1.slot k i = some s' ∧
      (s'.used = true ↔ k = .tcp ∧ now = false)) ∧
    (step t (.close (fdOf k i : Nat) now f)).2 = -1 := by
  have hr := call_reaches_slot t .close k i s h hs hu
  rw [if_pos (by rfl)] at hr
  simp only [step]
  rw [show resolve t eClose (fdOf k i : Nat) = some (k, i) from hr]
  dsimp only
  by_cases hc : (now || k != .tcp) = true
  · rw [if_pos hc, slot_touch_self, hs]
    refine ⟨⟨_, rfl, ?_⟩, rfl⟩
    cases now <;> cases k <;> simp_all
  · rw [if_neg hc, slot_touch_self, hs]
    refine ⟨⟨_, rfl, ?_⟩, rfl⟩
    cases now <;> cases k <;> simp_all

/-- Run a list of calls. -/
def run (t : Tabs) : List Op → Tabs × List Int
  | [] => (t, [])
  | o :: os => ((run (step t o).1 os).1, (step t o).2 :: (run (step t o).1 os).2)

/-- Calls that may release the slot `(k, i)`: closing a descriptor that resolves to it, or
the stack ending that TCP connection. -/
def releases (k : Kind) (i : Nat) (fd : Nat) : Op → Prop
  | .close d _ _ => d = fd
  | .internal j r _ => k = .tcp ∧ j = i ∧ r = true
  | _ => False

/-- Descriptor values as the API hands them out: one mark, index below 256.  (A forged
number with two marks set can resolve to a slot it was not issued for.) -/
def issued (fd : Int) : Prop := ∃ k i, i < 256 ∧ fd = (fdOf k i : Nat)

/-- **A descriptor stays its owner's until it is closed.**  Over any sequence of calls in
which nobody closes `fd` (and the stack does not end the connection), and closes are made
with issued descriptors, its slot stays in use and no call returns `fd` again. -/
theorem held_fd_not_reissued (t : Tabs) (ops : List Op) (k : Kind) (i : Nat) (s : Slot)
    (h : t.wf) (hs : t.slot k i = some s) (hu : s.used = true)
    (hi : ∀ d n f, Op.close d n f ∈ ops → issued d)
    (hr : ∀ o ∈ ops, ¬ releases k i (fdOf k i) o) :
    (∃ s', (run t ops).1.slot k i = some s' ∧ s'.used = true) ∧
      ((fdOf k i : Nat) : Int) ∉ (run t ops).2 := by
  induction ops generalizing t s with
  | nil => exact ⟨⟨s, hs, hu⟩, List.not_mem_nil⟩
  | cons o os ih =>
    have hil : i < 255 := wf_lt h hs
    have hw' : (step t o).1.wf := by intro k'; rw [len_step]; exact h k'
    have keep : ∃ s', (step t o).1.slot k i = some s' ∧ s'.used = true := by
      have tk : ∀ (u : Tabs) (a : Kind) (c : Nat) (f : Nat → Nat) (s0 : Slot),
          u.slot k i = some s0 → s0.used = true →
          ∃ s', (touch u a c (fun s => { s with body := f s.body })).slot k i = some s' ∧
            s'.used = true := by
        intro u a c f s0 h0 hu0
        by_cases hn : k = a ∧ i = c
        · obtain ⟨rfl, rfl⟩ := hn
          rw [slot_touch_self, h0]
          exact ⟨_, rfl, hu0⟩
        · rw [slot_touch_other _ _ _ _ _ _ hn]
          exact ⟨s0, h0, hu0⟩
      have ak : ∀ (u : Tabs) (a : Kind) (b : Nat) (s0 : Slot),
          u.slot k i = some s0 → s0.used = true →
          ∃ s', (alloc u a b).1.slot k i = some s' ∧ s'.used = true := by
        intro u a b s0 h0 hu0
        rcases alloc_spec u a b with e | ⟨n, s', h1, h2, _, h4, h5⟩
        · rw [e]; exact ⟨s0, h0, hu0⟩
        · by_cases hn : k = a ∧ i = n
          · obtain ⟨rfl, rfl⟩ := hn
            rw [h1] at h0
            rw [← Option.some.inj h0, h2] at hu0
            cases hu0
          · rw [h5 _ _ hn]; exact ⟨s0, h0, hu0⟩
      cases o with
      | socket a b => exact ak t a b s hs hu
      | use e fd f =>
        simp only [step]
        split
        · exact ⟨s, hs, hu⟩
        · exact tk t _ _ f s hs hu
      | accept fd ok f b =>
        simp only [step]
        split
        · exact ⟨s, hs, hu⟩
        · obtain ⟨s1, h1, h2⟩ := tk t _ _ f s hs hu
          split
          · exact ak _ _ _ s1 h1 h2
          · exact ⟨s1, h1, h2⟩
      | close fd now f =>
        simp only [step]
        split
        · exact ⟨s, hs, hu⟩
        · next a c hres =>
          have hne : ¬(k = a ∧ i = c) := by
            rintro ⟨rfl, rfl⟩
            obtain ⟨a1, i1, hi1, e1⟩ := hi fd now f List.mem_cons_self
            obtain ⟨_, _, n, e2, e3, e4⟩ := resolve_in_range t eClose fd k i hres
            have e5 : n = fdOf a1 i1 := by
              have := e2.symm.trans e1
              exact_mod_cast this
            have e6 : isSocket k n = true := by
              unfold isSocket
              rw [beq_iff_eq]
              exact e4
            rw [e5, isSocket_fdOf a1 k hi1] at e6
            have e7 : k = a1 := by simpa using e6
            have e8 : i = i1 := by
              rw [e3, e5]
              exact unmark_fdOf a1 hi1
            apply hr _ List.mem_cons_self
            show fd = _
            rw [e1, e7, e8]
          split
          · rw [slot_touch_other _ _ _ _ _ _ hne]; exact ⟨s, hs, hu⟩
          · rw [slot_touch_other _ _ _ _ _ _ hne]; exact ⟨s, hs, hu⟩
      | internal j r f =>
        simp only [step]
        split
        · next hrt =>
          have hne : ¬(k = .tcp ∧ i = j) := by
            rintro ⟨e1, e2⟩
            exact hr _ List.mem_cons_self ⟨e1, e2.symm, hrt⟩
          rw [slot_touch_other _ _ _ _ _ _ hne]; exact ⟨s, hs, hu⟩
        · exact tk t _ _ f s hs hu
    obtain ⟨s1, hs1, hu1⟩ := keep
    obtain ⟨r1, r2⟩ := ih (step t o).1 s1 hw' hs1 hu1
      (fun d n f hm => hi d n f (List.mem_cons_of_mem _ hm))
      (fun o' hm => hr o' (List.mem_cons_of_mem _ hm))
    refine ⟨r1, ?_⟩
    show _ ∉ (step t o).2 :: _
    rw [List.mem_cons]
    rintro (e | e)
    · have h0 : 0 ≤ (step t o).2 := by rw [← e]; exact Int.natCast_nonneg _
      obtain ⟨k1, i1, e1, _, ⟨s2, hs2, hu2⟩, _⟩ := returned_fd_fresh t o h h0
      rw [e1] at e
      have e' : fdOf k i = fdOf k1 i1 := by exact_mod_cast e
      have hl := wf_lt h hs2
      obtain ⟨rfl, rfl⟩ := fd_injective (by omega) (by omega) e'
      rw [hs] at hs2
      rw [← Option.some.inj hs2, hu] at hu2
      cases hu2
    · exact r2 e

/-! ## A concrete case, and why the limit of 255 is needed -/

/-- The default configuration, nothing open. -/
def t0 : Tabs :=
  ⟨List.replicate 4 ⟨false, 0⟩, List.replicate 2 ⟨false, 0⟩, List.replicate 2 ⟨false, 0⟩,
   List.replicate 4 ⟨false, 0⟩, List.replicate 2 ⟨false, 0⟩⟩

/-- Opening two TCP sockets, a UDP, a raw and a packet socket, closing the first TCP socket
and opening another: descriptors and reuse are as the theorems say. -/
theorem fd_example : t0.wf ∧
    (run t0 [.socket .tcp 7, .socket .tcp 8, .socket .udp 9, .socket .raw 10,
      .socket .packet 11, .close 0x100 true id, .socket .tcp 12,
      .use eSetsockopt 0x800 (· + 1)]).2 =
      [0x100, 0x101, 0x200, 0x800, 0x1000, -1, 0x100, -1] := by
  constructor
  · intro k; cases k <;> decide
  · rfl

/-- The build refuses tables of more than 255 slots (`wolfip.h` 314-336) for a reason: slot
256 would be handed the descriptor of slot 0 – and slot 512 of the TCP table one that
`connect` takes for a UDP socket. -/
theorem big_table_aliases : fdOf .tcp 256 = fdOf .tcp 0 ∧
    isSocket .udp (fdOf .tcp 512) = true := by
  constructor <;> rfl

end Wolf.Fd
