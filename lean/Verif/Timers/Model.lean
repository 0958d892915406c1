/-!
# Timer heap, `src/wolfip.c` 1414–1435, 2508–2630, 11192–11200

The heap array `timers[0 .. size)` is a list (entries beyond `size` are never read).
`uint64_t` deadlines are naturals; `id` is a 32-bit counter that skips 0.
-/
namespace Wolf.Timers

/-- `MAX_TIMERS` = 3 · MAX_TCPSOCKETS with the shipped config. src/wolfip.c 77, config.h. -/
abbrev MAX_TIMERS : Nat := 12

/-- `struct wolfIP_timer`; `arg` stands for the pair (callback, argument). src/wolfip.c 1414–1419. -/
structure Timer where
  id : Nat
  exp : Nat
  arg : Nat
deriving DecidableEq, Repr, Inhabited

/-- Array read. -/
def get (h : List Timer) (i : Nat) : Timer := h.getD i ⟨0, 0, 0⟩

/-- Deadline of slot `i`. -/
def key (h : List Timer) (i : Nat) : Nat := (get h i).exp

/-- Exchange of two slots (the three assignments through `tmp`). -/
def swapL (h : List Timer) (i j : Nat) : List Timer := (h.set i (get h j)).set j (get h i)

/-- Sift-down loop, returning also the final index. src/wolfip.c 2519–2532 and 2583–2594.
The first argument bounds the number of iterations; `h.length` is always enough. -/
def siftDown : Nat → List Timer → Nat → List Timer × Nat
  | 0, h, i => (h, i)
  | f + 1, h, i =>
    if 2 * i + 1 < h.length then
      let j := if 2 * i + 1 + 1 < h.length ∧ key h (2 * i + 1 + 1) < key h (2 * i + 1)
        then 2 * i + 1 + 1 else 2 * i + 1
      if key h i ≤ key h j then (h, i)
      else siftDown f (swapL h i j) j
    else (h, i)

/-- Sift-up loop. src/wolfip.c 2550–2555 and 2596–2605. -/
def siftUp : Nat → List Timer → Nat → List Timer
  | 0, h, _ => h
  | f + 1, h, i =>
    if 0 < i ∧ key h i < key h ((i - 1) / 2) then siftUp f (swapL h i ((i - 1) / 2)) ((i - 1) / 2)
    else h

/-- `timers_binheap_pop`; only called on a nonempty heap. src/wolfip.c 2512–2534. -/
def pop (h : List Timer) : Timer × List Timer :=
  let r := (h.set 0 (get h (h.length - 1))).take (h.length - 1)
  (get h 0, (siftDown r.length r 0).1)

/-- `while (heap->size > 0 && heap->timers[0].expires == 0) pop`. src/wolfip.c 2542–2543, 2561–2563. -/
def drain : Nat → List Timer → List Timer
  | 0, h => h
  | f + 1, h => if 0 < h.length ∧ key h 0 = 0 then drain f (pop h).2 else h

/-- The heap and the static `timer_id` counter. -/
structure St where
  heap : List Timer
  next : Nat

/-- `timers_binheap_insert`; result 0 = heap full. src/wolfip.c 2536–2557. -/
def insert (s : St) (exp arg : Nat) : St × Nat :=
  let id := if s.next = 0 then 1 else s.next
  let h := drain s.heap.length s.heap
  if h.length ≥ MAX_TIMERS then ({ heap := h, next := id }, 0)
  else
    let h1 := h ++ [{ id := id, exp := exp, arg := arg }]
    ({ heap := siftUp h.length h1 h.length, next := (id + 1) % 4294967296 }, id)

/-- `timers_heapify`. src/wolfip.c 2575–2606. -/
def heapify (h : List Timer) (i : Nat) : List Timer :=
  if i ≥ h.length then h
  else let d := siftDown h.length h i; siftUp d.2 d.1 d.2

/-- `timer_binheap_cancel`: first slot with that id. src/wolfip.c 2608–2630. -/
def cancel (h : List Timer) (id : Nat) : List Timer :=
  match h.findIdx? (fun t => t.id == id) with
  | none => h
  | some i => heapify ((h.set i (get h (h.length - 1))).take (h.length - 1)) i

/-- `is_timer_expired` followed by `timers_binheap_pop` if true: one iteration of `handle_timers`.
src/wolfip.c 2559–2569, 11192–11200. -/
def fire (h : List Timer) (now : Nat) : List Timer × Option Timer :=
  let h1 := drain h.length h
  if h1.length = 0 then (h1, none)
  else if key h1 0 ≤ now then ((pop h1).2, some (pop h1).1)
  else (h1, none)

/-- What can happen to the timers.  A poll is a sequence of `fire now` with, after each timer
fired, whatever arming and cancelling its callback does. -/
inductive Op where
  | arm (exp arg : Nat)
  | cancel (id : Nat)
  | fire (now : Nat)

/-- Result: the id returned by arming, or the timer fired. -/
inductive Out where
  | armed (id : Nat)
  | cancelled
  | fired (t : Option Timer)

/-- One operation. -/
def step (s : St) : Op → St × Out
  | .arm e a => let r := insert s e a; (r.1, .armed r.2)
  | .cancel id => ({ s with heap := cancel s.heap id }, .cancelled)
  | .fire now => let r := fire s.heap now; ({ s with heap := r.1 }, .fired r.2)

/-- A history. -/
def run (s : St) : List Op → St × List Out
  | [] => (s, [])
  | op :: ops => let r := step s op; let t := run r.1 ops; (t.1, r.2 :: t.2)

/-- `handle_timers` when no callback touches the timers: fire until nothing is due.
src/wolfip.c 11192–11200. -/
def pollLoop : Nat → List Timer → Nat → List Timer × List Timer
  | 0, h, _ => (h, [])
  | f + 1, h, now =>
    match fire h now with
    | (h', none) => (h', [])
    | (h', some t) => let r := pollLoop f h' now; (r.1, t :: r.2)

/-- Zeroed structure and `timer_id = 1`. src/wolfip.c 2538. -/
def init : St := { heap := [], next := 1 }

end Wolf.Timers
