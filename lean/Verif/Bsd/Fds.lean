/-!
# C87: a descriptor of the FreeRTOS port stays with the socket it was created for

Models the table `g_fds` of `src/port/freeRTOS/bsd_socket.c` (`wolfip_bsd_fd_valid` 113–122, `wolfip_bsd_fd_alloc` 124–143, `wolfip_bsd_fd_free` 145–158), the
parts of `socket` (256–284), `accept` (318–344) and `close` (644–673) that use it, and the sockets of the stack as slots that hold an
identity: which of the sockets ever created lives there. All the other calls (`bind`, `listen`, `connect`, `send`, `recv`, the options) look up the slot and act on what is there
(`use`). The creation of the semaphore is taken not to fail (a failure returns −ENOMEM as a full table does). A slot of TCP can also be freed by the stack (reset, timeout, last
acknowledgement: `close_socket` and the dispatch that reaps it, src/wolfip.c 6135–6176 and 11219–11230), which does not touch the table.
-/
namespace Wolf.BsdFd

/-- A slot of the stack: of the family (TCP, UDP, ICMP, raw, packet) number `fam`, the `ix`-th. -/
structure Slot where
  fam : Nat
  ix : Nat
deriving DecidableEq, Repr

/-- The stack's slots: `who` is the identity of the socket in each; `cap` is how many slots a family has. `fds`: the table. -/
structure W where
  who : Slot → Option Nat
  cap : Nat → Nat
  fds : List (Option Slot)
  next : Nat

/-- WOLFIP_FREERTOS_BSD_MAX_FDS -/
notation "maxFds" => (16 : Nat)

def start (cap : Nat → Nat) : W := { who := fun _ => none, cap := cap, fds := List.replicate maxFds none, next := 0 }

/-- The first free slot of a family (`tcp_new_socket`, `udp_new_socket`, …: the first whose `proto` is 0). -/
def freeSlot (w : W) (fam : Nat) : Option Slot :=
  ((List.range (w.cap fam)).find? (fun i => (w.who ⟨fam, i⟩).isNone)).map (fun i => ⟨fam, i⟩)

/-- `wolfip_bsd_fd_alloc`: the first entry not in use. -/
def freeFd (w : W) : Option Nat := w.fds.findIdx? Option.isNone

def put (who : Slot → Option Nat) (s : Slot) (v : Option Nat) : Slot → Option Nat := fun t => if t = s then v else who t

/-- What the program does, and what the stack does by itself. `close` is the pass of the loop in which the stack's close succeeds. -/
inductive Op where
  | socket (fam : Nat)
  | accept (p : Nat)
  | use (p : Nat)
  | close (p : Nat)
  | die (s : Slot)
deriving DecidableEq, Repr

/-- `fd p id`: a new descriptor, for the new socket `id`; `acts id`: the call acted on the socket `id` (none: on a free slot). -/
inductive Out where
  | fd (p id : Nat)
  | fail
  | acts (id : Option Nat)
deriving DecidableEq, Repr

/-- A new socket of a family, and an entry for it; without an entry the socket is closed again. -/
def create (w : W) (fam : Nat) : W × Out :=
  match freeSlot w fam with
  | none => (w, .fail)
  | some s =>
    match freeFd w with
    | none => ({ w with next := w.next + 1 }, .fail)
    | some p => ({ w with who := put w.who s (some w.next), fds := w.fds.set p (some s), next := w.next + 1 }, .fd p w.next)

/-- `wolfip_bsd_fd_valid`, then the entry's slot. -/
def lookup (w : W) (p : Nat) : Option Slot := (w.fds[p]?).join

def step (w : W) : Op → W × Out
  | .socket fam => create w fam
  | .accept p => match lookup w p with | none => (w, .fail) | some s => create w s.fam
  | .use p => match lookup w p with | none => (w, .fail) | some s => (w, .acts (w.who s))
  | .close p => match lookup w p with
    | none => (w, .fail)
    | some s => ({ w with who := put w.who s none, fds := w.fds.set p none }, .acts (w.who s))
  | .die s => ({ w with who := put w.who s none }, .fail)

def run (w : W) : List Op → W × List (Op × Out)
  | [] => (w, [])
  | op :: ops => ((run (step w op).1 ops).1, (op, (step w op).2) :: (run (step w op).1 ops).2)

/-! ## Specification -/

/-- The socket each descriptor stands for, from the calls and their results alone: the one of the last creation that returned it, until it is closed. -/
def ownStep (own : Nat → Option Nat) : Op × Out → (Nat → Option Nat)
  | (.socket _, .fd p id) => fun q => if q = p then some id else own q
  | (.accept _, .fd p id) => fun q => if q = p then some id else own q
  | (.close p, .acts _) => fun q => if q = p then none else own q
  | _ => own

def own (es : List (Op × Out)) : Nat → Option Nat := es.foldl ownStep (fun _ => none)

/-- The stack frees no slot that a descriptor in use refers to. -/
def Kept (w : W) : List Op → Prop
  | [] => True
  | op :: ops => (∀ s, op = .die s → ∀ p : Nat, lookup w p ≠ some s) ∧ Kept (step w op).1 ops

/-! ## Invariant -/

structure Inv (w : W) (o : Nat → Option Nat) : Prop where
  len : w.fds.length = maxFds
  own : ∀ p : Nat, match lookup w p with | none => o p = none | some s => ∃ id, o p = some id ∧ w.who s = some id
  fresh : ∀ s id, w.who s = some id → id < w.next
  inj : ∀ s t id, w.who s = some id → w.who t = some id → s = t
  diff : ∀ p q : Nat, ∀ s, lookup w p = some s → lookup w q = some s → p = q

theorem lookup_lt (w : W) (p : Nat) (s : Slot) (h : lookup w p = some s) : p < w.fds.length := by
  unfold lookup at h
  cases hx : w.fds[p]? with
  | none => rw [hx] at h; cases h
  | some y => exact (List.getElem?_eq_some_iff.mp hx).1

theorem lookup_set (fds : List (Option Slot)) (p q : Nat) (v : Option Slot) (hp : p < fds.length) :
    ((fds.set p v)[q]?).join = if q = p then v else (fds[q]?).join := by
  by_cases h : q = p
  · subst h
    rw [if_pos rfl, List.getElem?_set_self hp]
    rfl
  · rw [if_neg h, List.getElem?_set_ne (fun c => h c.symm)]

theorem freeSlot_spec (w : W) (fam : Nat) (s : Slot) (h : freeSlot w fam = some s) : s.fam = fam ∧ s.ix < w.cap fam ∧ w.who s = none ∧
    ∀ j, j < s.ix → w.who ⟨fam, j⟩ ≠ none := by
  unfold freeSlot at h
  rw [Option.map_eq_some_iff] at h
  obtain ⟨i, hi, hs⟩ := h
  subst hs
  rw [List.find?_range_eq_some] at hi
  refine ⟨rfl, List.mem_range.mp hi.2.1, by simpa using hi.1, ?_⟩
  intro j hj hn
  have := hi.2.2 j hj
  rw [hn] at this
  cases this

theorem freeFd_spec (w : W) (p : Nat) (h : freeFd w = some p) : p < w.fds.length ∧ lookup w p = none ∧ ∀ q, q < p → lookup w q ≠ none := by
  unfold freeFd at h
  rw [List.findIdx?_eq_some_iff_getElem] at h
  obtain ⟨hp, h1, h2⟩ := h
  refine ⟨hp, ?_, ?_⟩
  · unfold lookup
    rw [List.getElem?_eq_getElem hp]
    cases hx : w.fds[p] with
    | none => rfl
    | some y => rw [hx] at h1; cases h1
  · intro q hq hn
    have := h2 q hq
    unfold lookup at hn
    rw [List.getElem?_eq_getElem (Nat.lt_trans hq hp)] at hn
    cases hx : w.fds[q]'(Nat.lt_trans hq hp) with
    | none => rw [hx] at this; exact absurd rfl this
    | some y => rw [hx] at hn; cases hn

theorem create_inv (w : W) (o : Nat → Option Nat) (fam : Nat) (h : Inv w o) :
    Inv (create w fam).1 (match (create w fam).2 with | .fd p id => fun q => if q = p then some id else o q | .fail => o | .acts _ => o) := by
  unfold create
  cases hs : freeSlot w fam with
  | none => exact h
  | some s =>
    dsimp only
    cases hp : freeFd w with
    | none => exact ⟨h.len, h.own, fun s id hx => Nat.lt_succ_of_lt (h.fresh s id hx), h.inj, h.diff⟩
    | some p =>
      dsimp only
      obtain ⟨hf1, hf2, hf3, _⟩ := freeSlot_spec w fam s hs
      obtain ⟨hp1, hp2, _⟩ := freeFd_spec w p hp
      have hfree : ∀ q : Nat, lookup w q ≠ some s := by
        intro q hq
        have := h.own q
        rw [hq] at this
        obtain ⟨id, _, h2⟩ := this
        rw [hf3] at h2; cases h2
      refine ⟨by rw [List.length_set]; exact h.len, ?_, ?_, ?_, ?_⟩
      · intro q
        show match ((w.fds.set p (some s))[q]?).join with | none => _ | some s' => _
        rw [lookup_set _ _ _ _ hp1]
        by_cases hq : q = p
        · rw [if_pos hq]
          refine ⟨w.next, by rw [if_pos hq], by dsimp only; unfold put; rw [if_pos rfl]⟩
        · rw [if_neg hq]
          have := h.own q
          unfold lookup at this
          cases hl : (w.fds[q]?).join with
          | none => rw [hl] at this; show (if q = p then _ else _) = none; rw [if_neg hq]; exact this
          | some t =>
            rw [hl] at this
            obtain ⟨id, h1, h2⟩ := this
            refine ⟨id, by rw [if_neg hq]; exact h1, ?_⟩
            dsimp only
            unfold put
            rw [if_neg (fun c => hfree q (by unfold lookup; rw [hl, c]))]
            exact h2
      · intro t id ht
        dsimp only at ht
        unfold put at ht
        by_cases hts : t = s
        · rw [if_pos hts] at ht; cases ht; exact Nat.lt_succ_self _
        · rw [if_neg hts] at ht; exact Nat.lt_succ_of_lt (h.fresh t id ht)
      · intro a b id ha hb
        dsimp only at ha hb
        unfold put at ha hb
        by_cases has : a = s
        · rw [if_pos has] at ha
          cases ha
          by_cases hbs : b = s
          · rw [has, hbs]
          · rw [if_neg hbs] at hb; exact absurd (h.fresh b _ hb) (Nat.lt_irrefl _)
        · rw [if_neg has] at ha
          by_cases hbs : b = s
          · rw [if_pos hbs] at hb; cases hb; exact absurd (h.fresh a _ ha) (Nat.lt_irrefl _)
          · rw [if_neg hbs] at hb; exact h.inj a b id ha hb
      · intro a b t ha hb
        unfold lookup at ha hb
        dsimp only at ha hb
        rw [lookup_set _ _ _ _ hp1] at ha hb
        by_cases h1 : a = p
        · by_cases h2 : b = p
          · rw [h1, h2]
          · rw [if_pos h1] at ha; rw [if_neg h2] at hb; cases ha; exact absurd hb (hfree b)
        · by_cases h2 : b = p
          · rw [if_neg h1] at ha; rw [if_pos h2] at hb; cases hb; exact absurd ha (hfree a)
          · rw [if_neg h1] at ha; rw [if_neg h2] at hb; exact h.diff a b t ha hb

/-- `create` answers a descriptor or a failure. -/
theorem create_out (w : W) (fam : Nat) : (create w fam).2 = .fail ∨ ∃ p id, (create w fam).2 = .fd p id := by
  unfold create
  cases freeSlot w fam with
  | none => exact Or.inl rfl
  | some s =>
    dsimp only
    cases freeFd w with
    | none => exact Or.inl rfl
    | some p => exact Or.inr ⟨p, w.next, rfl⟩

theorem step_inv (w : W) (o : Nat → Option Nat) (op : Op) (hk : ∀ s, op = .die s → ∀ p : Nat, lookup w p ≠ some s) (h : Inv w o) :
    Inv (step w op).1 (ownStep o (op, (step w op).2)) := by
  cases op with
  | socket fam =>
    have hc := create_inv w o fam h
    show Inv (create w fam).1 (ownStep o (.socket fam, (create w fam).2))
    rcases create_out w fam with e | ⟨p, id, e⟩ <;> rw [e] at hc ⊢ <;> exact hc
  | accept p =>
    simp only [step]
    cases hl : lookup w p with
    | none => exact h
    | some s =>
      have hc := create_inv w o s.fam h
      dsimp only
      rcases create_out w s.fam with e | ⟨p, id, e⟩ <;> rw [e] at hc ⊢ <;> exact hc
  | use p =>
    simp only [step]
    cases hl : lookup w p <;> exact h
  | die s =>
    have hk' := hk s rfl
    refine ⟨h.len, ?_, ?_, ?_, h.diff⟩
    · intro p
      have := h.own p
      show match lookup w p with | none => _ | some t => ∃ id, o p = some id ∧ put w.who s none t = some id
      cases hl : lookup w p with
      | none => rw [hl] at this; exact this
      | some t =>
        rw [hl] at this
        obtain ⟨id, h1, h2⟩ := this
        refine ⟨id, h1, ?_⟩
        unfold put
        rw [if_neg (fun c => hk' p (by rw [hl, c]))]
        exact h2
    · intro t id ht
      dsimp only [step] at ht
      unfold put at ht
      split at ht
      · cases ht
      · exact h.fresh t id ht
    · intro a b id ha hb
      dsimp only [step] at ha hb
      unfold put at ha hb
      split at ha
      · cases ha
      · split at hb
        · cases hb
        · exact h.inj a b id ha hb
  | close p =>
    simp only [step]
    cases hl : lookup w p with
    | none => exact h
    | some s =>
      have hp1 := lookup_lt w p s hl
      refine ⟨by rw [List.length_set]; exact h.len, ?_, ?_, ?_, ?_⟩
      · intro q
        show match ((w.fds.set p none)[q]?).join with | none => (if q = p then none else o q) = none | some t => ∃ id, (if q = p then none else o q) = some id ∧ put w.who s none t = some id
        rw [lookup_set _ _ _ _ hp1]
        by_cases hq : q = p
        · rw [if_pos hq, if_pos hq]
        · rw [if_neg hq, if_neg hq]
          have := h.own q
          unfold lookup at this
          cases hlq : (w.fds[q]?).join with
          | none => rw [hlq] at this; exact this
          | some t =>
            rw [hlq] at this
            obtain ⟨id, h1, h2⟩ := this
            refine ⟨id, h1, ?_⟩
            unfold put
            rw [if_neg (fun c => hq (h.diff q p s (by unfold lookup; rw [hlq, c]) hl))]
            exact h2
      · intro t id ht
        dsimp only at ht
        unfold put at ht
        split at ht
        · cases ht
        · exact h.fresh t id ht
      · intro a b id ha hb
        dsimp only at ha hb
        unfold put at ha hb
        split at ha
        · cases ha
        · split at hb
          · cases hb
          · exact h.inj a b id ha hb
      · intro a b t ha hb
        unfold lookup at ha hb
        dsimp only at ha hb
        rw [lookup_set _ _ _ _ hp1] at ha hb
        by_cases h1 : a = p
        · rw [if_pos h1] at ha; cases ha
        · by_cases h2 : b = p
          · rw [if_pos h2] at hb; cases hb
          · rw [if_neg h1] at ha; rw [if_neg h2] at hb; exact h.diff a b t ha hb

theorem run_inv (ops : List Op) : ∀ (w : W) (o : Nat → Option Nat), Kept w ops → Inv w o → Inv (run w ops).1 ((run w ops).2.foldl ownStep o) := by
  induction ops with
  | nil => intro w o _ h; exact h
  | cons op ops ih => intro w o hk h; exact ih _ _ hk.2 (step_inv w o op hk.1 h)

theorem start_inv (cap : Nat → Nat) : Inv (start cap) (fun _ => none) := by
  have hl : ∀ p : Nat, lookup (start cap) p = none := by
    intro p
    unfold lookup start
    dsimp only
    rw [List.getElem?_replicate]
    split <;> rfl
  refine ⟨List.length_replicate, ?_, ?_, ?_, ?_⟩
  · intro p; rw [hl p]
  · intro s id h; cases h
  · intro s t id h; cases h
  · intro p q s h; rw [hl p] at h; cases h

/-! ## Theorems -/

/-- C87. As long as the stack frees no slot under an open descriptor, every call on a descriptor acts on the very socket the descriptor was returned for; on a
descriptor that is not open it fails. -/
theorem fd_acts_on_own_partial (cap : Nat → Nat) (ops : List Op) (hk : Kept (start cap) ops) (p : Nat) :
    (step (run (start cap) ops).1 (.use p)).2 = match own (run (start cap) ops).2 p with | none => .fail | some id => .acts (some id) := by
  have h := run_inv ops (start cap) (fun _ => none) hk (start_inv cap)
  have hp := h.own p
  unfold own
  simp only [step]
  cases hl : lookup (run (start cap) ops).1 p with
  | none => rw [hl] at hp; dsimp only at hp ⊢; rw [hp]
  | some s =>
    rw [hl] at hp
    obtain ⟨id, h1, h2⟩ := hp
    dsimp only
    rw [h1, h2]

/-- … and `close` closes that socket, and no other descriptor's. -/
theorem fd_close_own_partial (cap : Nat → Nat) (ops : List Op) (hk : Kept (start cap) ops) (p q id : Nat) (hq : own (run (start cap) ops).2 q = some id) (hne : q ≠ p) :
    (step (step (run (start cap) ops).1 (.close p)).1 (.use q)).2 = .acts (some id) := by
  have h := run_inv ops (start cap) (fun _ => none) hk (start_inv cap)
  have h' := step_inv _ _ (.close p) (by intro s c; cases c) h
  have hp := h'.own q
  have ho : ownStep ((run (start cap) ops).2.foldl ownStep (fun _ => none)) (.close p, (step (run (start cap) ops).1 (.close p)).2) q = some id := by
    generalize (step (run (start cap) ops).1 (.close p)).2 = out
    cases out with
    | fd a b => exact hq
    | fail => exact hq
    | acts a => show (if q = p then none else _) = _; rw [if_neg hne]; exact hq
  rw [ho] at hp
  generalize (step (run (start cap) ops).1 (.close p)).1 = w' at hp ⊢
  simp only [step]
  cases hl : lookup w' q with
  | none => rw [hl] at hp; cases hp
  | some s =>
    rw [hl] at hp
    obtain ⟨id', h1, h2⟩ := hp
    cases h1
    dsimp only
    rw [h2]

/-- Two open descriptors never stand for the same socket, and never share a slot. -/
theorem fd_not_shared_partial (cap : Nat → Nat) (ops : List Op) (hk : Kept (start cap) ops) (p q : Nat) (s : Slot)
    (hp : lookup (run (start cap) ops).1 p = some s) (hq : lookup (run (start cap) ops).1 q = some s) : p = q :=
  (run_inv ops (start cap) (fun _ => none) hk (start_inv cap)).diff p q s hp hq

/-- A creation returns the lowest descriptor not open, below 16, and leaves every other descriptor alone; and if it fails, no slot is lost. -/
theorem fd_create (w : W) (fam : Nat) :
    (∀ p id, (create w fam).2 = .fd p id → p < w.fds.length ∧ lookup w p = none ∧ (∀ q, q < p → lookup w q ≠ none) ∧
      (∀ q, q ≠ p → lookup (create w fam).1 q = lookup w q) ∧
      ∃ s, lookup (create w fam).1 p = some s ∧ w.who s = none ∧ (create w fam).1.who s = some id) ∧
    ((create w fam).2 = .fail → (create w fam).1.who = w.who ∧ (create w fam).1.fds = w.fds) := by
  unfold create
  cases hs : freeSlot w fam with
  | none => exact ⟨(by intro p id h; cases h), fun _ => ⟨rfl, rfl⟩⟩
  | some s =>
    dsimp only
    cases hp : freeFd w with
    | none => exact ⟨(by intro p id h; cases h), fun _ => ⟨rfl, rfl⟩⟩
    | some p =>
      dsimp only
      obtain ⟨_, _, hf3, _⟩ := freeSlot_spec w fam s hs
      obtain ⟨hp1, hp2, hp3⟩ := freeFd_spec w p hp
      refine ⟨?_, (by intro h; cases h)⟩
      intro p' id hx
      cases hx
      refine ⟨hp1, hp2, hp3, ?_, s, ?_, hf3, ?_⟩
      · intro q hq
        show ((w.fds.set p (some s))[q]?).join = (w.fds[q]?).join
        rw [lookup_set _ _ _ _ hp1, if_neg hq]
      · show ((w.fds.set p (some s))[p]?).join = _
        rw [lookup_set _ _ _ _ hp1, if_pos rfl]
      · show put w.who s (some w.next) s = _
        unfold put
        rw [if_pos rfl]

/-- Creation fails only when the family has no free slot or all 16 descriptors are open. -/
theorem fd_create_fails (w : W) (fam : Nat) (h : (create w fam).2 = .fail) :
    (∀ i, i < w.cap fam → w.who ⟨fam, i⟩ ≠ none) ∨ (∀ p, p < w.fds.length → lookup w p ≠ none) := by
  unfold create at h
  cases hs : freeSlot w fam with
  | none =>
    left
    intro i hi hn
    unfold freeSlot at hs
    rw [Option.map_eq_none_iff, List.find?_eq_none] at hs
    exact hs i (List.mem_range.mpr hi) (by rw [hn]; rfl)
  | some s =>
    rw [hs] at h
    dsimp only at h
    cases hp : freeFd w with
    | some p => rw [hp] at h; cases h
    | none =>
      right
      intro p hlt hn
      unfold freeFd at hp
      rw [List.findIdx?_eq_none_iff] at hp
      have := hp (w.fds[p]) (List.getElem_mem hlt)
      unfold lookup at hn
      rw [List.getElem?_eq_getElem hlt] at hn
      cases hx : w.fds[p] with
      | none => rw [hx] at this; cases this
      | some y => rw [hx] at hn; cases hn

/-- Four TCP slots, two of the others: the configuration of config.h. -/
def cfgCap : Nat → Nat := fun f => if f = 0 then 4 else 2

/-- The full claim is false. A connection dies under its open descriptor 0; another task's `socket` gets the slot, under descriptor 1; every call on 0 then acts on the
other task's socket, and `close(0)` destroys it. -/
theorem fd_taken_over : ∃ ops : List Op, own (run (start cfgCap) ops).2 0 = some 0 ∧ own (run (start cfgCap) ops).2 1 = some 1 ∧
    (step (run (start cfgCap) ops).1 (.use 0)).2 = .acts (some 1) ∧
    (step (run (start cfgCap) ops).1 (.close 0)).2 = .acts (some 1) ∧
    (step (step (run (start cfgCap) ops).1 (.close 0)).1 (.use 1)).2 = .acts none :=
  ⟨[.socket 0, .die ⟨0, 0⟩, .socket 0], by decide +kernel⟩

/-- A history of three sockets of two families, one closed and its descriptor reused, meets the hypothesis. -/
example : Kept (start cfgCap) [.socket 0, .socket 1, .accept 0, .die ⟨0, 3⟩, .close 1, .socket 0] ∧
    own (run (start cfgCap) [.socket 0, .socket 1, .accept 0, .die ⟨0, 3⟩, .close 1, .socket 0]).2 1 = some 3 := by
  refine ⟨?_, by decide +kernel⟩
  refine ⟨(by intro s c; cases c), (by intro s c; cases c), (by intro s c; cases c), ?_, (by intro s c; cases c), (by intro s c; cases c), trivial⟩
  intro s c p hp
  cases c
  have hlt := lookup_lt _ _ _ hp
  have hall : ∀ p : Nat, p < 16 → lookup (step (step (step (start cfgCap) (.socket 0)).1 (.socket 1)).1 (.accept 0)).1 p ≠ some ⟨0, 3⟩ := by decide +kernel
  exact hall p hlt hp

end Wolf.BsdFd
