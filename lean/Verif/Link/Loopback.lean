/-!
# C41: the loopback interface

Model of `wolfIP_loopback_send` / `wolfIP_loopback_poll` (src/wolfip.c 1658–1708). The queue is a ring of
`depth` slots of 1500 bytes each (`loopback_buf`, `loopback_pending_len`, `loopback_head`, `loopback_tail`,
`loopback_count`). The notification of writable sockets in poll is not modelled. A slot keeps the bytes of
earlier frames beyond the ones copied into it.
-/
namespace Wolf.Loopback

/-! ## Model -/

/-- WOLFIP_LOOPBACK_QUEUE_DEPTH. -/
notation "depth" => (4 : Nat)
/-- IP_MTU_MAX: the size of a slot. -/
notation "slotLen" => (1500 : Nat)

/-- The loopback part of `struct wolfIP`. src/wolfip.c 1497–1501. -/
structure St where
  buf : List (List Nat)
  len : List Nat
  head : Nat
  tail : Nat
  count : Nat

/-- `wolfIP_init` zeroes the structure. -/
def init : St := { buf := List.replicate depth (List.replicate slotLen 0), len := List.replicate depth 0, head := 0, tail := 0, count := 0 }

/-- `memcpy(dst, src, n)` into a slot: the first bytes are replaced, the others stay. -/
def memcpy (dst src : List Nat) : List Nat := src ++ dst.drop src.length

/-- What send answers: the number of bytes taken, 0, or -EAGAIN. -/
inductive SendRes where
  | taken (n : Nat)
  | ignored
  | again
deriving DecidableEq, Repr

/-- `wolfIP_loopback_send`. src/wolfip.c 1658–1680. -/
def send (s : St) (d : List Nat) : St × SendRes :=
  if d.length = 0 ∨ d.length > slotLen then (s, .ignored)
  else if s.count ≥ depth then (s, .again)
  else
    ({ s with buf := s.buf.set s.tail (memcpy (s.buf.getD s.tail []) d)
              len := s.len.set s.tail d.length
              tail := (s.tail + 1) % depth
              count := s.count + 1 }, .taken d.length)

/-- `wolfIP_loopback_poll` with a buffer of `cap` bytes; the result is what was copied into it (`none`: the call
returned 0). src/wolfip.c 1682–1708. -/
def poll (s : St) (cap : Nat) : St × Option (List Nat) :=
  if s.count = 0 then (s, none)
  else if s.len.getD s.head 0 > cap then (s, none)
  else
    ({ s with len := s.len.set s.head 0
              head := (s.head + 1) % depth
              count := s.count - 1 }, some ((s.buf.getD s.head []).take (s.len.getD s.head 0)))

/-! ## Specification: what a caller sees -/

inductive Op where
  | send (d : List Nat)
  | poll (cap : Nat)

/-- A history of calls, with the frames that send said it took (returned their length) and the frames poll
delivered, both in order. -/
structure Log where
  taken : List (List Nat) := []
  got : List (List Nat) := []
deriving DecidableEq

def step (x : St × Log) : Op → St × Log
  | .send d =>
    match send x.1 d with
    | (s', .taken _) => (s', { x.2 with taken := x.2.taken ++ [d] })
    | (s', _) => (s', x.2)
  | .poll cap =>
    match poll x.1 cap with
    | (s', some f) => (s', { x.2 with got := x.2.got ++ [f] })
    | (s', none) => (s', x.2)

def run (os : List Op) : St × Log := os.foldl step (init, {})

/-! ## Proof -/

/-- The queue, oldest first: `n` slots from position `h`. -/
def items (s : St) : Nat → Nat → List (List Nat)
  | _, 0 => []
  | h, n + 1 => (s.buf.getD h []).take (s.len.getD h 0) :: items s ((h + 1) % depth) n

structure Inv (s : St) (l : Log) : Prop where
  bl : s.buf.length = depth
  ll : s.len.length = depth
  h : s.head < depth
  c : s.count ≤ depth
  t : s.tail = (s.head + s.count) % depth
  q : l.taken = l.got ++ items s s.head s.count
  pos : ∀ k, k < s.count → 0 < s.len.getD ((s.head + k) % depth) 0 ∧ s.len.getD ((s.head + k) % depth) 0 ≤ slotLen
  cap : ∀ k, k < depth → (s.buf.getD k []).length = slotLen

theorem getD_set {α : Type} (l : List α) (i j : Nat) (x d : α) (hi : i < l.length) : (l.set i x).getD j d = if j = i then x else l.getD j d := by
  rw [List.getD_eq_getElem?_getD, List.getD_eq_getElem?_getD]
  by_cases h : j = i
  · subst h; rw [if_pos rfl, List.getElem?_set_self hi]; rfl
  · rw [if_neg h, List.getElem?_set_ne (Ne.symm h)]

/-- `items` looks only at the slots it names. -/
theorem items_congr (s s' : St) (n : Nat) : ∀ h, h < depth → (∀ k, k < n → s'.buf.getD ((h + k) % depth) [] = s.buf.getD ((h + k) % depth) [] ∧ s'.len.getD ((h + k) % depth) 0 = s.len.getD ((h + k) % depth) 0) →
    items s' h n = items s h n := by
  induction n with
  | zero => intro h _ _; rfl
  | succ n ih =>
    intro h hh hk
    have h0 := hk 0 (by omega)
    rw [Nat.add_zero, Nat.mod_eq_of_lt hh] at h0
    rw [items, items, h0.1, h0.2, ih _ (Nat.mod_lt _ (by omega))]
    intro k hk'
    have := hk (k + 1) (by omega)
    rw [show ((h + 1) % depth + k) % depth = (h + (k + 1)) % depth by omega]
    exact this

theorem items_snoc (s : St) (n : Nat) : ∀ h, h < depth → items s h (n + 1) = items s h n ++ [(s.buf.getD ((h + n) % depth) []).take (s.len.getD ((h + n) % depth) 0)] := by
  induction n with
  | zero => intro h hh; simp [items, Nat.mod_eq_of_lt hh]
  | succ n ih =>
    intro h hh
    rw [items, ih _ (Nat.mod_lt _ (by omega)), items, List.cons_append]
    rw [show ((h + 1) % depth + n) % depth = (h + (n + 1)) % depth by omega]

theorem items_length (s : St) (n : Nat) : ∀ h, (items s h n).length = n := by
  induction n with
  | zero => intro h; rfl
  | succ n ih => intro h; rw [items, List.length_cons, ih]

theorem inv_init : Inv init {} := by
  refine ⟨rfl, rfl, by decide, by decide, rfl, rfl, ?_, ?_⟩
  · intro k hk; exact absurd hk (Nat.not_lt_zero k)
  · intro k hk
    rw [init, List.getD_eq_getElem?_getD, List.getElem?_replicate, if_pos hk]
    simp only [Option.getD_some, List.length_replicate]

theorem inv_step (x : St × Log) (o : Op) (hx : Inv x.1 x.2) : Inv (step x o).1 (step x o).2 := by
  obtain ⟨s, l⟩ := x
  simp only at hx
  cases o with
  | send d =>
    simp only [step]
    rw [send]
    by_cases h1 : d.length = 0 ∨ d.length > slotLen
    · rw [if_pos h1]; exact hx
    · rw [if_neg h1]
      by_cases h2 : s.count ≥ depth
      · rw [if_pos h2]; exact hx
      · rw [if_neg h2]
        simp only
        have hth : s.tail < depth := by rw [hx.t]; omega
        have hb : s.tail < s.buf.length := by rw [hx.bl]; exact hth
        have hl : s.tail < s.len.length := by rw [hx.ll]; exact hth
        have hne : ∀ k, k < s.count → (s.head + k) % depth ≠ s.tail := by
          intro k hk; rw [hx.t]; have := hx.h; omega
        refine ⟨by rw [List.length_set]; exact hx.bl, by rw [List.length_set]; exact hx.ll, hx.h, ?_, ?_, ?_, ?_, ?_⟩
        · show s.count + 1 ≤ depth; omega
        · show (s.tail + 1) % depth = (s.head + (s.count + 1)) % depth
          rw [hx.t]; omega
        · show l.taken ++ [d] = l.got ++ items _ s.head (s.count + 1)
          rw [items_snoc _ _ _ hx.h, ← hx.t, hx.q]
          simp only
          rw [getD_set _ _ _ _ _ hb, if_pos rfl, getD_set _ _ _ _ _ hl, if_pos rfl, memcpy, List.take_left]
          rw [List.append_assoc]
          congr 2
          refine (items_congr s _ s.count s.head hx.h ?_).symm
          intro k hk
          simp only
          rw [getD_set _ _ _ _ _ hb, if_neg (hne k hk), getD_set _ _ _ _ _ hl, if_neg (hne k hk)]
          exact ⟨rfl, rfl⟩
        · intro k hk
          simp only at hk ⊢
          rw [getD_set _ _ _ _ _ hl]
          by_cases hk' : k = s.count
          · subst hk'; rw [if_pos hx.t.symm]; omega
          · rw [if_neg (hne k (by omega))]; exact hx.pos k (by omega)
        · intro k hk
          simp only
          rw [getD_set _ _ _ _ _ hb]
          by_cases hk' : k = s.tail
          · rw [if_pos hk', memcpy, List.length_append, List.length_drop, hx.cap _ hth]; omega
          · rw [if_neg hk']; exact hx.cap k hk
  | poll cap =>
    simp only [step]
    rw [poll]
    by_cases h1 : s.count = 0
    · rw [if_pos h1]; exact hx
    · rw [if_neg h1]
      by_cases h2 : s.len.getD s.head 0 > cap
      · rw [if_pos h2]; exact hx
      · rw [if_neg h2]
        simp only
        have hh := hx.h
        have hl : s.head < s.len.length := by rw [hx.ll]; exact hh
        obtain ⟨n, hn⟩ : ∃ n, s.count = n + 1 := ⟨s.count - 1, by omega⟩
        have hc := hx.c
        refine ⟨hx.bl, by rw [List.length_set]; exact hx.ll, Nat.mod_lt _ (by omega), ?_, ?_, ?_, ?_, hx.cap⟩
        · show s.count - 1 ≤ depth; omega
        · show s.tail = ((s.head + 1) % depth + (s.count - 1)) % depth
          rw [hx.t]; omega
        · show l.taken = (l.got ++ [_]) ++ items _ ((s.head + 1) % depth) (s.count - 1)
          rw [hx.q, hn, items, Nat.add_sub_cancel, List.append_assoc, List.singleton_append]
          congr 2
          refine (items_congr s _ n _ (Nat.mod_lt _ (by omega)) ?_).symm
          intro k hk
          simp only
          rw [getD_set _ _ _ _ _ hl, if_neg (by omega)]
          exact ⟨trivial, rfl⟩
        · intro k hk
          simp only at hk ⊢
          rw [getD_set _ _ _ _ _ hl, if_neg (by omega)]
          have := hx.pos (k + 1) (by omega)
          rw [show ((s.head + 1) % depth + k) % depth = (s.head + (k + 1)) % depth by omega]
          exact this

theorem inv_run (os : List Op) : Inv (run os).1 (run os).2 := by
  have : ∀ (os : List Op) (x : St × Log), Inv x.1 x.2 → Inv (os.foldl step x).1 (os.foldl step x).2 := by
    intro os
    induction os with
    | nil => intro x h; exact h
    | cons o os ih => intro x h; exact ih _ (inv_step x o h)
  exact this os _ inv_init

/-- **C41, exact FIFO.** After every interleaving of sends and polls, the frames delivered, followed by
at most `depth` frames still queued, are exactly the frames send took, in order, unchanged. -/
theorem loopback_fifo (os : List Op) :
    ∃ queued, (run os).2.taken = (run os).2.got ++ queued ∧ queued.length ≤ depth ∧ (∀ f ∈ queued, 0 < f.length ∧ f.length ≤ slotLen) ∧
      -- a poll with room for the oldest frame delivers exactly it; an empty queue delivers nothing
      (∀ cap, ((poll (run os).1 cap).2 = match queued with | [] => none | f :: _ => if f.length > cap then none else some f)) ∧
      -- a frame of 1..1500 bytes is refused exactly when the queue is full
      (∀ d, 0 < d.length → d.length ≤ slotLen → (send (run os).1 d).2 = if queued.length = depth then .again else .taken d.length) := by
  have h := inv_run os
  generalize run os = x at h
  obtain ⟨s, l⟩ := x
  simp only at h ⊢
  have hlen : ∀ (n k : Nat), k < depth → (∀ j, j < n → s.len.getD ((k + j) % depth) 0 ≤ slotLen ∧ 0 < s.len.getD ((k + j) % depth) 0) → ∀ f ∈ items s k n, 0 < f.length ∧ f.length ≤ slotLen := by
    intro n
    induction n with
    | zero => intro k _ _ f hf; simp [items] at hf
    | succ n ih =>
      intro k hk hj f hf
      rw [items, List.mem_cons] at hf
      rcases hf with rfl | hf
      · have := hj 0 (by omega)
        rw [Nat.add_zero, Nat.mod_eq_of_lt hk] at this
        rw [List.length_take, h.cap k hk]; omega
      · refine ih _ (Nat.mod_lt _ (by omega)) ?_ f hf
        intro j hj'
        have := hj (j + 1) (by omega)
        rw [show ((k + 1) % depth + j) % depth = (k + (j + 1)) % depth by omega]; exact this
  refine ⟨items s s.head s.count, h.q, by rw [items_length]; exact h.c, hlen _ _ h.h (fun j hj => ⟨(h.pos j hj).2, (h.pos j hj).1⟩), ?_, ?_⟩
  · intro cap
    rw [poll]
    by_cases hc : s.count = 0
    · rw [if_pos hc, hc]; rfl
    · rw [if_neg hc]
      obtain ⟨n, hn⟩ : ∃ n, s.count = n + 1 := ⟨s.count - 1, by omega⟩
      have hp := h.pos 0 (by omega)
      rw [Nat.add_zero, Nat.mod_eq_of_lt h.h] at hp
      rw [hn, items]
      simp only
      rw [List.length_take, h.cap _ h.h, Nat.min_eq_left hp.2]
      split <;> rfl
  · intro d h0 h1
    rw [send, if_neg (by omega), items_length]
    by_cases hc : s.count ≥ depth
    · rw [if_pos hc, if_pos (by have := h.c; omega)]
    · rw [if_neg hc, if_neg (by omega)]

/-- A frame with no bytes or more than 1500 is never queued, and nothing changes. -/
theorem loopback_oversize (os : List Op) (d : List Nat) (h : d.length = 0 ∨ d.length > slotLen) : send (run os).1 d = ((run os).1, .ignored) := by
  rw [send, if_pos h]

/-- Non-trivial case: five sends with polls in between wrap the ring; the fifth to the full ring is refused. -/
example : (run [.send [1], .send [2, 2], .poll 1500, .send [3], .send [4], .send [5, 6], .send [7], .poll 1500, .poll 1500, .poll 1500, .poll 1, .poll 2]).2 =
    { taken := [[1], [2, 2], [3], [4], [5, 6]], got := [[1], [2, 2], [3], [4], [5, 6]] } := by decide +kernel

end Wolf.Loopback
