import Verif.Tcp.Queue
/-!
# TCP receiver: in-order queue, out-of-order cache, SACK list

Model of `tcp_segment_acceptable`, `tcp_recv`, `tcp_store_ooo_segment`, `tcp_consume_ooo`,
`tcp_sort_sack_blocks`, `tcp_merge_sack_blocks`, `tcp_rebuild_rx_sack` and of the data/FIN part of
`tcp_input` (`src/wolfip.c`).

Simplifications: the emitted ACK packets are represented by the value of the acknowledgment field
(`ack`) after each event; `tcp_ack`/`tcp_process_ts` (sender side) only enter through the separate
event `finAcked` and through the flag `pawsOk` of a segment.
-/
namespace Wolf.Tcp

/-- `TCP_MSS_MAX` = 1500 − 40. src/wolfip.c 147. -/
abbrev MSS_MAX : Nat := 1460

/-- `TCP_SACK_MAX_BLOCKS`. src/wolfip.c 195. -/
abbrev SACK_MAX : Nat := 4

/-- One used entry of the out-of-order cache; `len` is the length of `data`.
`struct tcp_ooo_seg`, src/wolfip.c 750–755. -/
structure Slot where
  seq : Nat
  data : List UInt8

/-! ## SACK list -/

/-- Inner loop of `tcp_sort_sack_blocks`: put the least of `x :: l` in front by exchanges.
`lt` compares left edges. src/wolfip.c 3269–3276. -/
def exch (lt : Nat → Nat → Bool) (x : Nat × Nat) : List (Nat × Nat) → (Nat × Nat) × List (Nat × Nat)
  | [] => (x, [])
  | y :: ys =>
    if lt y.1 x.1 then let r := exch lt y ys; (r.1, x :: r.2)
    else let r := exch lt x ys; (r.1, y :: r.2)

/-- `tcp_sort_sack_blocks` on the first `n` positions. src/wolfip.c 3265–3278. -/
def sortBlocks (lt : Nat → Nat → Bool) : Nat → List (Nat × Nat) → List (Nat × Nat)
  | 0, l => l
  | _ + 1, [] => []
  | n + 1, x :: xs => let r := exch lt x xs; r.1 :: sortBlocks lt n r.2

/-- Merge loop of `tcp_merge_sack_blocks`: `cur` is `blocks[out]`. src/wolfip.c 3290–3299. -/
def mergeGo (lt le : Nat → Nat → Bool) (cur : Nat × Nat) : List (Nat × Nat) → List (Nat × Nat)
  | [] => [cur]
  | b :: bs =>
    if lt b.1 cur.2 then
      if !le b.2 cur.2 then mergeGo lt le (cur.1, b.2) bs else mergeGo lt le cur bs
    else if b.1 = cur.2 then mergeGo lt le (cur.1, b.2) bs
    else cur :: mergeGo lt le b bs

/-- `tcp_merge_sack_blocks`; the comparison functions are parameters so that the same code can be
read on sequence numbers and on stream positions. src/wolfip.c 3280–3301. -/
def mergeBlocks (lt le : Nat → Nat → Bool) (l : List (Nat × Nat)) : List (Nat × Nat) :=
  match sortBlocks lt l.length l with
  | [] => []
  | x :: xs => mergeGo lt le x xs

/-- Blocks of the used, nonempty cache entries. src/wolfip.c 3317–3324. -/
def slotBlocks (ooo : List (Option Slot)) : List (Nat × Nat) :=
  ooo.filterMap fun o => match o with
    | none => none
    | some s => if s.data.length = 0 then none else some (s.seq, seqInc s.seq s.data.length)

/-- Move the first block containing the triggering segment to the front. src/wolfip.c 3338–3349. -/
def moveFront (p : Nat × Nat → Bool) (l : List (Nat × Nat)) : List (Nat × Nat) :=
  match l.find? p with
  | none => l
  | some b => b :: l.eraseP p

/-- `tcp_rebuild_rx_sack`. src/wolfip.c 3304–3351. -/
def rebuildSack (ooo : List (Option Slot)) (trigSeq trigLen : Nat) : List (Nat × Nat) :=
  let l := ((mergeBlocks seqLt seqLeq (slotBlocks ooo)).reverse).take SACK_MAX
  if trigLen ≠ 0 then moveFront (fun b => seqLeq b.1 trigSeq && seqLt trigSeq b.2) l else l

/-! ## Out-of-order cache -/

/-- The overlap/coalesce attempt with one used entry: `some` = coalesced entry.
src/wolfip.c 3387–3408. The buffer after `memmove`/`memcpy` is written as a table. -/
def coalesce (s : Slot) (seq : Nat) (data : List UInt8) : Option Slot :=
  let endNew := seqInc seq data.length
  let endCur := seqInc s.seq s.data.length
  if seqLt seq endCur && seqLt s.seq endNew then
    let uStart := if seqLt seq s.seq then seq else s.seq
    let uEnd := if seqLt endCur endNew then endNew else endCur
    let uLen := (seqDiff uEnd uStart).toNat
    if uLen ≤ MSS_MAX then
      let curOff := (seqDiff s.seq uStart).toNat
      let newOff := (seqDiff seq uStart).toNat
      some { seq := uStart,
             data := (List.range uLen).map fun j =>
               if newOff ≤ j ∧ j < newOff + data.length then data.getD (j - newOff) 0
               else s.data.getD (j - curOff) 0 }
    else none
  else none

/-- Scan for an entry to coalesce into. Result: new cache and the stored range.
src/wolfip.c 3370–3410. -/
def storeMerge (seq : Nat) (data : List UInt8) : List (Option Slot) → Option (List (Option Slot) × Slot)
  | [] => none
  | none :: r => (storeMerge seq data r).map fun x => (none :: x.1, x.2)
  | some s :: r =>
    match coalesce s seq data with
    | some u => some (some u :: r, u)
    | none => (storeMerge seq data r).map fun x => (some s :: x.1, x.2)

/-- Fill the first free entry. src/wolfip.c 3371–3374, 3411–3417. -/
def storeFree (s : Slot) : List (Option Slot) → Option (List (Option Slot))
  | [] => none
  | none :: r => some (some s :: r)
  | some t :: r => (storeFree s r).map fun x => some t :: x

/-- `tcp_store_ooo_segment`: `none` = −1 (nothing stored). src/wolfip.c 3353–3418. -/
def storeOoo (ooo : List (Option Slot)) (seq : Nat) (data : List UInt8) :
    Option (List (Option Slot) × Slot) :=
  if data.length = 0 ∨ data.length > MSS_MAX then none
  else match storeMerge seq data ooo with
    | some r => some r
    | none => (storeFree { seq := seq, data := data } ooo).map fun o => (o, { seq := seq, data := data })

/-- What one used entry does in a pass of `tcp_consume_ooo`: `some` = progress (then `break`).
src/wolfip.c 3441–3477. -/
def slotStep (q : Queue) (ack : Nat) (s : Slot) : Option (Queue × Nat × Option Slot) :=
  if seqLt s.seq ack then
    if seqLeq (seqInc s.seq s.data.length) ack then some (q, ack, none)
    else
      let trim := (seqDiff ack s.seq).toNat
      some (q, ack, some { seq := ack, data := s.data.drop trim })
  else if s.seq = ack then
    match qInsert q s.data s.seq with
    | some q' => some (q', seqInc ack s.data.length, none)
    | none => none
  else none

/-- One iteration of the `while (progressed)` loop; `none` = no progress. src/wolfip.c 3434–3480. -/
def consumeStep (q : Queue) (ack : Nat) : List (Option Slot) → Option (Queue × Nat × List (Option Slot))
  | [] => none
  | none :: r => (consumeStep q ack r).map fun x => (x.1, x.2.1, none :: x.2.2)
  | some s :: r =>
    match slotStep q ack s with
    | some x => some (x.1, x.2.1, x.2.2 :: r)
    | none => (consumeStep q ack r).map fun x => (x.1, x.2.1, some s :: x.2.2)

/-- The loop, with an explicit bound on the number of iterations
(`consume_done` proves that the bound used below is never the reason for stopping). -/
def consumeLoop : Nat → Queue → Nat → List (Option Slot) → Queue × Nat × List (Option Slot)
  | 0, q, ack, o => (q, ack, o)
  | f + 1, q, ack, o =>
    match consumeStep q ack o with
    | none => (q, ack, o)
    | some x => consumeLoop f x.1 x.2.1 x.2.2

/-- Total size of the cache: bytes plus one per used entry. -/
def oooSize : List (Option Slot) → Nat
  | [] => 0
  | none :: r => oooSize r
  | some s :: r => s.data.length + 1 + oooSize r

/-- `tcp_consume_ooo` without the final `tcp_rebuild_rx_sack`. src/wolfip.c 3419–3481. -/
def consume (q : Queue) (ack : Nat) (o : List (Option Slot)) : Queue × Nat × List (Option Slot) :=
  consumeLoop (oooSize o) q ack o

/-! ## The receiver -/

/-- Connection states in which `tcp_input` looks at data or FIN (`LAST_ACK`, `TIME_WAIT`, closed:
it does not). src/wolfip.c 5705–5845. -/
inductive RState where
  | established | closeWait | finWait1 | finWait2 | closing | timeWait | lastAck | closed
deriving DecidableEq

/-- Receive side of a connection. `rxbuf`, `ack` (RCV.NXT), `ooo[4]`, `rx_sack` of
`struct tcp_socket`. src/wolfip.c 1195–1225. -/
structure Rx where
  q : Queue
  ack : Nat
  ooo : List (Option Slot)
  sack : List (Nat × Nat)
  st : RState

/-- A received segment after header validation. `pawsOk` = `tcp_paws_check` returned
`TCP_PAWS_OK`. -/
structure Seg where
  seq : Nat
  data : List UInt8
  fin : Bool := false
  syn : Bool := false
  ackFlag : Bool := true
  pawsOk : Bool := true

/-- `tcp_segment_acceptable`. src/wolfip.c 3136–3162. -/
def acceptable (ack wnd : Nat) (g : Seg) : Bool :=
  let segLen := g.data.length + (if g.syn then 1 else 0) + (if g.fin then 1 else 0)
  if segLen = 0 then
    if wnd = 0 then g.seq == ack
    else seqLeq ack g.seq && seqLt g.seq (seqInc ack wnd)
  else if wnd = 0 then false
  else
    let last := seqInc g.seq (segLen - 1)
    (seqLeq ack g.seq && seqLt g.seq (seqInc ack wnd)) ||
    (seqLeq ack last && seqLt last (seqInc ack wnd))

/-- States in which `tcp_recv` takes data. src/wolfip.c 4311–4316. -/
def canRecv : RState → Bool
  | .established | .closeWait | .finWait1 | .finWait2 => true
  | _ => false

/-- `tcp_recv` after the trimming of bytes below RCV.NXT. src/wolfip.c 4332–4351. -/
def recvAt (r : Rx) (seq : Nat) (data : List UInt8) : Rx :=
  if seq = r.ack then
    match qInsert r.q data seq with
    | none => r
    | some q' =>
      let c := consume q' (seqInc seq data.length) r.ooo
      { r with q := c.1, ack := c.2.1, ooo := c.2.2, sack := rebuildSack c.2.2 0 0 }
  else if seqLt r.ack seq then
    match storeOoo r.ooo seq data with
    | none => r
    | some x => { r with ooo := x.1, sack := rebuildSack x.1 x.2.seq x.2.data.length }
  else r

/-- `tcp_recv`. src/wolfip.c 4302–4352. -/
def tcpRecv (r : Rx) (seq : Nat) (data : List UInt8) : Rx :=
  if !canRecv r.st then r
  else if data.length = 0 then r
  else if seqLt seq r.ack then
    let consumed := (seqDiff r.ack seq).toNat
    if consumed ≥ data.length then r
    else recvAt r (seqInc seq consumed) (data.drop consumed)
  else recvAt r seq data

/-- State change caused by an accepted FIN. src/wolfip.c 5820–5834. -/
def finState : RState → RState
  | .established => .closeWait
  | .finWait1 => .closing
  | .finWait2 => .timeWait
  | s => s

/-- FIN processing. src/wolfip.c 5808–5844. -/
def finInput (r : Rx) (seq len : Nat) : Rx :=
  let finEnd := seqInc seq len
  if (len = 0 ∧ r.ack ≠ seq) ∨ (len > 0 ∧ r.ack ≠ finEnd) then r
  else { r with st := finState r.st, ack := if len > 0 then seqInc finEnd 1 else seqInc seq 1 }

/-- The data-transfer branch of `tcp_input`. src/wolfip.c 5764–5845. -/
def segInput (r : Rx) (g : Seg) : Rx :=
  match r.st with
  | .established | .closeWait | .finWait1 | .finWait2 | .closing =>
    if !g.pawsOk then r
    else if !acceptable r.ack (qSpace r.q) g then r
    else if g.syn then r
    else if !g.ackFlag then r
    else if g.data.length > 0 && r.st == .closing then r
    else
      let r1 := tcpRecv r g.seq g.data
      if g.fin then finInput r1 g.seq g.data.length else r1
  | _ => r

/-- Events at the receiver. -/
inductive REv where
  /-- a segment arrives -/
  | seg (g : Seg)
  /-- the application reads up to `n` bytes (`wolfIP_sock_recv`) -/
  | read (n : Nat)
  /-- the application closes -/
  | close
  /-- our FIN is acknowledged (`tcp_ack`) -/
  | finAcked

/-- State after `close()`. src/wolfip.c 7662–7720. -/
def closeState : RState → RState
  | .established => .finWait1
  | .closeWait => .lastAck
  | s => s

/-- State after our FIN was acknowledged. src/wolfip.c 5107–5200. -/
def finAckedState : RState → RState
  | .finWait1 => .finWait2
  | .closing => .timeWait
  | .lastAck => .closed
  | s => s

/-- States in which `recv()` reads the receive buffer (elsewhere it returns an error and leaves the
buffer alone). src/wolfip.c 7042–7095. -/
def canRead : RState → Bool
  | .established | .closeWait | .finWait1 | .finWait2 | .closed => true
  | _ => false

/-- One event; the second component is what the application received. -/
def rxStep (r : Rx) : REv → Rx × List UInt8
  | .seg g => (segInput r g, [])
  | .read n =>
    if canRead r.st then
      match qPop r.q n with
      | none => (r, [])
      | some x => ({ r with q := x.2 }, x.1)
    else (r, [])
  | .close => ({ r with st := closeState r.st }, [])
  | .finAcked => ({ r with st := finAckedState r.st }, [])

/-- Receiver state right after the handshake: peer ISN + 1 is `i`. `queue_init` of the receive
buffer at src/wolfip.c 6275, four unused entries. -/
def rxInit (size i : Nat) : Rx :=
  { q := qInit size 0, ack := sq i 0, ooo := [none, none, none, none], sack := [], st := .established }

end Wolf.Tcp
