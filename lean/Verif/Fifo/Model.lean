/-!
# Model of the packet FIFO (`struct fifo`), `src/wolfip.c` 208–545

The FIFO stores whole packets, each preceded by a 16-byte `struct pkt_desc`, in one circular
byte buffer.  It backs the UDP/ICMP/raw/packet socket buffers and the TCP transmit buffer.

Simplifications (whole file):
* `uint32_t` cursors are `Nat`.  All sums in the C code are bounded by `2*size + 16`, so no
  32-bit wrap happens for buffers below 2^30 bytes (`config.h`: 20 KiB / 32 KiB).
* The buffer is a total function from index to byte; the theorems in `Props.lean` show that every
  byte read or written by a successful operation lies inside `[0, size)`.
-/
namespace Wolf.Fifo

/-- `sizeof(struct pkt_desc)`: four `uint32_t`, packed. src/wolfip.c 208–212. -/
abbrev descSize : Nat := 16

/-- `struct fifo`. src/wolfip.c 214–219.  `mem` is the pointed-to `data` buffer. -/
structure Fifo where
  head : Nat
  tail : Nat
  size : Nat
  hWrap : Nat
  lastPos : Nat
  lastValid : Bool
  mem : Nat → UInt8

/-- `fifo_init`. src/wolfip.c 265–274 (buffer content is whatever was there: zero here). -/
def init (size : Nat) : Fifo :=
  { head := 0, tail := 0, size := size, hWrap := 0, lastPos := 0, lastValid := false,
    mem := fun _ => 0 }

/-- `fifo_is_empty`. src/wolfip.c 220–223. -/
def isEmpty (f : Fifo) : Bool := f.head == f.tail && f.hWrap == 0

/-- The alignment step `if (x % 4) x += 4 - (x % 4)` of `fifo_align_head_pos`/`fifo_align_tail`.
src/wolfip.c 227–228, 238–239. -/
def al (x : Nat) : Nat := if x % 4 ≠ 0 then x + (4 - x % 4) else x

/-- `fifo_align_head_pos`. src/wolfip.c 225–232. -/
def alignHead (head size : Nat) : Nat :=
  let h := al head
  if h ≥ size then 0 else h

/-- `fifo_align_tail` on a non-empty buffer: the successive assignments to `(tail, h_wrap)`.
src/wolfip.c 238–254. -/
def alignTailCur (tail hWrap size : Nat) : Nat × Nat :=
  let tail := al tail
  let (tail, hWrap) := if hWrap ≠ 0 ∧ tail ≥ hWrap then (0, 0) else (tail, hWrap)
  let (tail, hWrap) := if hWrap ≠ 0 ∧ tail < hWrap ∧ tail + descSize > hWrap then (0, 0)
                       else (tail, hWrap)
  let tail := if size > 0 ∧ tail ≥ size then tail % size else tail
  let tail := if tail + descSize > size then 0 else tail
  (tail, hWrap)

/-- `fifo_align_tail`. src/wolfip.c 234–255. -/
def alignTail (f : Fifo) : Fifo :=
  if isEmpty f then f else
  let c := alignTailCur f.tail f.hWrap f.size
  { f with tail := c.1, hWrap := c.2 }

/-- Little-endian bytes of a `uint32_t` field of the descriptor (host order of the supported
little-endian targets; the code only writes and reads it back through the same struct). -/
def le32 (v : Nat) : List UInt8 :=
  [UInt8.ofNat (v % 256), UInt8.ofNat (v / 256 % 256), UInt8.ofNat (v / 65536 % 256),
   UInt8.ofNat (v / 16777216 % 256)]

/-- Read back a `uint32_t` descriptor field. -/
def rd32 (m : Nat → UInt8) (p : Nat) : Nat :=
  (m p).toNat + 256 * (m (p+1)).toNat + 65536 * (m (p+2)).toNat + 16777216 * (m (p+3)).toNat

/-- `memcpy` into the buffer. -/
def wr (m : Nat → UInt8) (p : Nat) (bs : List UInt8) : Nat → UInt8 :=
  fun i => if p ≤ i ∧ i < p + bs.length then bs.getD (i - p) 0 else m i

/-- `memcpy` out of the buffer. -/
def rd (m : Nat → UInt8) (p n : Nat) : List UInt8 := (List.range n).map fun i => m (p + i)

/-- `desc->len` of the descriptor at offset `p`. src/wolfip.c 208–212. -/
def descLen (m : Nat → UInt8) (p : Nat) : Nat := rd32 m (p + 4)

/-- Payload that follows the descriptor at offset `p` (`data + desc->pos + sizeof(*desc)`). -/
def payload (m : Nat → UInt8) (p : Nat) : List UInt8 := rd m (p + descSize) (descLen m p)

/-- The `space` computation of `fifo_push`/`fifo_can_push_len`. src/wolfip.c 377–391, 449–463. -/
def spaceAt (head tail size hWrap : Nat) : Nat :=
  if head = tail ∧ hWrap = 0 then size
  else if head = tail then 0
  else if hWrap ≠ 0 then (if head < tail then tail - head else 0)
  else if head ≥ tail then size - (head - tail)
  else tail - head

/-- The final fit test of `fifo_push`/`fifo_can_push_len`. src/wolfip.c 405–411, 478–484. -/
def fitCheck (head hWrap tail size needed : Nat) : Option (Nat × Nat) :=
  if hWrap ≠ 0 then
    if head + needed > tail then none else some (head, hWrap)
  else
    if head + needed > size then none else some (head, hWrap)

/-- Placement decision of `fifo_push`: new `(pos, h_wrap)` or refusal.
src/wolfip.c 366–411, up to the writes. -/
def place (f : Fifo) (len : Nat) : Option (Nat × Nat) :=
  let needed := descSize + len
  let head := alignHead f.head f.size
  if spaceAt head f.tail f.size f.hWrap < needed then none else
  let head := if f.hWrap ≠ 0 ∧ head = f.hWrap then 0 else head
  if f.hWrap = 0 ∧ head ≥ f.tail ∧ f.size - head < needed then
    if f.tail < needed then none
    else fitCheck 0 head f.tail f.size needed
  else fitCheck head f.hWrap f.tail f.size needed

/-- The descriptor written by `fifo_push` (`flags` and `time_sent` zero). src/wolfip.c 370,417–418 -/
def descBytes (pos len : Nat) : List UInt8 := le32 pos ++ le32 len ++ le32 0 ++ le32 0

/-- `fifo_push`; `none` = return −1 (nothing written). src/wolfip.c 366–431. -/
def push (f : Fifo) (data : List UInt8) : Option Fifo :=
  match place f data.length with
  | none => none
  | some (pos, hWrap) =>
    let m := wr f.mem pos (descBytes pos data.length)
    let m := wr m (pos + descSize) data
    let head := pos + descSize + data.length
    let atEnd := head = f.size
    some { f with
      head := if atEnd then 0 else head
      hWrap := if atEnd ∧ hWrap = 0 then f.size else hWrap
      lastPos := pos, lastValid := true, mem := m }

/-- `fifo_can_push_len`. src/wolfip.c 433–486 (written out separately in the C code: a copy of the
placement rules plus an early `needed > size` test). -/
def canPushLen (f : Fifo) (len : Nat) : Bool :=
  let needed := descSize + len
  if needed > f.size then false else
  let head := alignHead f.head f.size
  if spaceAt head f.tail f.size f.hWrap < needed then false else
  let head := if f.hWrap ≠ 0 ∧ head = f.hWrap then 0 else head
  if f.hWrap = 0 ∧ head ≥ f.tail ∧ f.size - head < needed then
    if f.tail < needed then false
    else
      if head ≠ 0 then !decide (0 + needed > f.tail) else !decide (0 + needed > f.size)
  else
    if f.hWrap ≠ 0 then !decide (head + needed > f.tail) else !decide (head + needed > f.size)

/-- The `while (lo <= hi)` loop of `fifo_max_push_payload`. src/wolfip.c 499–510. -/
def searchLoop (ok : Nat → Bool) (lo hi best : Nat) : Nat :=
  if h : lo ≤ hi then
    let mid := lo + (hi - lo) / 2
    if ok mid then searchLoop ok (mid + 1) hi mid
    else if mid = 0 then best   -- `hi = mid - 1` never underflows because `lo ≥ 1`
    else searchLoop ok lo (mid - 1) best
  else best
termination_by hi + 1 - lo
decreasing_by all_goals omega

/-- `fifo_max_push_payload`. src/wolfip.c 489–512. -/
def maxPushPayload (f : Fifo) (frameBase payloadCap : Nat) : Nat :=
  if payloadCap = 0 then 0
  else searchLoop (fun mid => canPushLen f (frameBase + mid)) 1 payloadCap 0

/-- `fifo_peek`: aligns the tail, returns the descriptor offset. src/wolfip.c 294–306. -/
def peek (f : Fifo) : Option Nat × Fifo :=
  if isEmpty f then (none, f) else
  let f := alignTail f
  if isEmpty f then (none, f) else (some f.tail, f)

/-- `fifo_next` for the descriptor at offset `pos`. src/wolfip.c 309–345. -/
def next (f : Fifo) (pos : Nat) : Option Nat :=
  if pos ≥ f.size then none else
  let dlen := descLen f.mem pos
  if dlen > f.size - descSize then none else
  let len := al (pos + (descSize + dlen)) - pos
  if len > f.size - pos then none else
  let nextPos := pos + len
  let nextPos := if f.hWrap ≠ 0 ∧ pos < f.hWrap ∧ nextPos ≥ f.hWrap then 0
                 else if nextPos ≥ f.size then 0 else nextPos
  let stop := alignHead f.head f.size
  let stop := if f.hWrap ≠ 0 ∧ stop = f.hWrap then 0 else stop
  if nextPos = stop then none else some nextPos

/-- `fifo_desc_budget`. src/wolfip.c 520–525. -/
def descBudget (f : Fifo) : Nat := if f.size < descSize then 1 else f.size / descSize + 2

/-- A descriptor walk `for (d = fifo_peek(); d && budget--; d = fifo_next(d))` as every user of
`fifo_next` performs it (e.g. src/wolfip.c 5050–5070): list of visited descriptor offsets. -/
def walkFrom (f : Fifo) : Nat → Option Nat → List Nat
  | 0, _ => []
  | _, none => []
  | n+1, some p => p :: walkFrom f n (next f p)

/-- Full walk with the code's own budget. -/
def walk (f : Fifo) : List Nat × Fifo :=
  let (p, f') := peek f
  (walkFrom f' (descBudget f') p, f')

/-- `fifo_len`. src/wolfip.c 348–363. -/
def len (f : Fifo) : Nat × Fifo :=
  let f := alignTail f
  if isEmpty f then (0, f)
  else if f.tail = f.head then (f.size, f)
  else if f.tail > f.head then
    (if f.hWrap > 0 then f.hWrap - f.tail + f.head else f.size - (f.tail - f.head), f)
  else (f.head - f.tail, f)

/-- `fifo_pop` after alignment: the successive assignments to `(tail, h_wrap)`; `n` is
`sizeof(struct pkt_desc) + desc->len`. src/wolfip.c 536–543. -/
def popCur (head tail hWrap size n : Nat) : Nat × Nat :=
  let tail := tail + n
  let (tail, hWrap) := if hWrap ≠ 0 ∧ tail ≥ hWrap then (tail - hWrap, 0) else (tail, hWrap)
  let hWrap := if tail = head then 0 else hWrap
  let tail := if tail ≥ size then tail % size else tail
  (tail, hWrap)

/-- `fifo_pop` after alignment. src/wolfip.c 535–546. -/
def popAligned (f : Fifo) : Fifo :=
  let c := popCur f.head f.tail f.hWrap f.size (descSize + descLen f.mem f.tail)
  { f with tail := c.1, hWrap := c.2,
           lastValid := f.lastValid && !(f.head == c.1 && c.2 == 0) }

/-- `fifo_pop`: offset of the removed descriptor and the new state. src/wolfip.c 528–547. -/
def pop (f : Fifo) : Option Nat × Fifo :=
  if isEmpty f then (none, f) else
  let f := alignTail f
  if isEmpty f then (none, f) else
  (some f.tail, popAligned f)

/-- Operations a socket performs on its FIFO.  `rewrite i fl ts bs` models the in-place updates the
TCP sender makes to the `i`-th packet of a walk: descriptor flags and time stamp, and header bytes
of the stored frame (same length).  src/wolfip.c 4969–5100, 11262–11400. -/
inductive Op where
  | push (data : List UInt8)
  | pop
  | peek
  | len
  | rewrite (i : Nat) (flags time : Nat) (bytes : List UInt8)

/-- Observable result of an operation. -/
inductive Out where
  | pushed (ok : Bool)
  | popped (p : Option (List UInt8))
  | peeked (p : Option (List UInt8))
  | lenIs (n : Nat)
  | rewrote (ok : Bool)
deriving DecidableEq

/-- One operation and its observable result (the payload of the descriptor returned by pop/peek
is read before the next operation, as all callers do). -/
def step (f : Fifo) : Op → Fifo × Out
  | .push d => match push f d with
    | some f' => (f', .pushed true)
    | none => (f, .pushed false)
  | .pop => let (p, f') := pop f; (f', .popped (p.map (payload f'.mem)))
  | .peek => let (p, f') := peek f; (f', .peeked (p.map (payload f'.mem)))
  | .len => let (n, f') := len f; (f', .lenIs n)
  | .rewrite i fl ts bs =>
    let (ps, f') := walk f
    match ps[i]? with
    | none => (f', .rewrote false)
    | some p =>
      if descLen f'.mem p = bs.length then
        ({ f' with mem := wr (wr f'.mem (p + 8) (le32 fl ++ le32 ts)) (p + descSize) bs },
          .rewrote true)
      else (f', .rewrote false)

/-- Run a list of operations, collecting the outputs. -/
def run (f : Fifo) : List Op → Fifo × List Out
  | [] => (f, [])
  | op :: ops =>
    let (f', o) := step f op
    let (f'', os) := run f' ops
    (f'', o :: os)

end Wolf.Fifo
