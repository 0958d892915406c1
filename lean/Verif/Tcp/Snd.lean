import Verif.Tcp.Seq
import Verif.Tcp.Recv
import Verif.Tcp.Rto
/-
The TCP sender of src/wolfip.c: transmit queue, acknowledgment processing,
fast retransmit / congestion control, retransmission timer, transmission.

Simplifications (apply to every definition below):
* the transmit FIFO is the list of its packets, oldest first (the byte-level
  FIFO is modelled and related to such a list in `Verif/Fifo`); the walk guard
  `fifo_desc_budget` is an explicit fuel where it can matter;
* inserting into the timer heap succeeds (heap modelled in `Verif/Timers`);
* application events (CB_EVENT_*), RTT sampling and zero-window probing are
  left out (the latter two are `Verif/Tcp/Rto`).
-/
namespace Wolf.Tcp.Snd
open Wolf.Tcp

/-- `enum tcp_state`, src/wolfip.c 1174-1186. -/
inductive State where
  | closed | listen | synSent | synRcvd | established | finWait1 | finWait2
  | closing | timeWait | closeWait | lastAck
deriving DecidableEq, Repr

/-- A queued segment: `struct pkt_desc` flags (src/wolfip.c 210-232) together
with the sequence number and the payload stored behind it. -/
structure Desc where
  seq : Nat
  data : List UInt8
  sent : Bool := false
  retrans : Bool := false
  acked : Bool := false
  wasRetrans : Bool := false
  /-- the segment carries FIN (only empty ones can) -/
  fin : Bool := false
deriving DecidableEq, Repr

/-- Sender fields of `struct tcpsocket`, src/wolfip.c 1188-1226.
`tmrId` is "`tmr_rto != NO_TIMER`"; `armed` is the deadline of this socket's
timer still in the heap (a timer that has fired leaves `tmr_rto` stale). -/
structure Snd where
  st : State
  q : List Desc
  seq : Nat
  sndUna : Nat
  last : Nat
  inflight : Nat
  cwnd : Nat
  ssthresh : Nat
  cwndCount : Nat := 0
  dupAcks : Nat := 0
  fastRec : Bool := false
  recPt : Nat := 0
  rto : Nat := 1000
  rtoBackoff : Nat := 0
  tmrId : Bool := false
  armed : Option Nat := none
  fw2 : Bool := false
  preaccept : Bool := false
  isListener : Bool := false
  ctrlActive : Bool := false
  ctrlRetries : Nat := 0
  peerRwnd : Nat
  peerSack : List (Nat × Nat) := []
  sackPermitted : Bool := false
  lastPeerWin : Nat := 0
  earlyDone : Bool := false
  lastEarly : Nat := 0
  smss : Nat
deriving DecidableEq, Repr

def Desc.len (d : Desc) : Nat := d.data.length

/-- An incoming acknowledgment as `tcp_ack` sees it. -/
structure AckSeg where
  ack : Nat
  win : Nat
  blocks : List (Nat × Nat)
  hasData : Bool
  now : Nat

/-! ### Timers -/

/-- `timer_binheap_cancel` + `NO_TIMER` under the `tmr_rto != NO_TIMER` guard. -/
def cancelTmr (s : Snd) : Snd :=
  if s.tmrId then { s with tmrId := false, armed := none } else s

/-- `timers_binheap_insert` into `tmr_rto`. -/
def armTmr (s : Snd) (deadline : Nat) : Snd := { s with tmrId := true, armed := some deadline }

/-- `tcp_ctrl_rto_stop`, src/wolfip.c 3907-3917. -/
def ctrlStop (s : Snd) : Snd := { cancelTmr s with ctrlActive := false, ctrlRetries := 0 }

/-- `tcp_ctrl_rto_start`, src/wolfip.c 3931-3949. -/
def ctrlStart (s : Snd) (now : Nat) : Snd :=
  let s := cancelTmr { s with fw2 := false }
  { armTmr s (now + Rto.backoff s.rto s.ctrlRetries) with ctrlActive := true }

/-- `tcp_fin_wait_2_timeout_start`, src/wolfip.c 3951-3967. -/
def fw2Start (s : Snd) (now : Nat) : Snd :=
  { armTmr (cancelTmr s) (now + 60000) with fw2 := true }

/-- `tcp_fin_wait_2_timeout_stop`, src/wolfip.c 3969-3978. -/
def fw2Stop (s : Snd) : Snd := { cancelTmr s with fw2 := false }

/-- `tcp_preaccept_timeout_stop`, src/wolfip.c 3997-4006. -/
def preacceptStop (s : Snd) : Snd := { cancelTmr s with preaccept := false }

/-- Final state of `close_socket` for a TCP socket, src/wolfip.c 6138-6200: the
timer is cancelled and the slot (with its queue) is wiped. -/
def closeSocket (s : Snd) : Snd := { cancelTmr s with st := .closed, q := [] }

/-! ### Segment queues -/

/-- `tcp_has_pending_unsent_payload`, src/wolfip.c 4094-4115. -/
def hasUnsent (q : List Desc) : Bool := q.any (fun d => !d.sent && !d.data.isEmpty)

/-- `tcp_ctrl_state_needs_rto`, src/wolfip.c 3888-3904. -/
def needsCtrl (s : Snd) : Bool :=
  s.st == .synSent || s.st == .synRcvd || s.st == .lastAck ||
  (s.st == .finWait1 && s.inflight == 0 && !hasUnsent s.q)

/-- `tcp_is_range_sacked`, src/wolfip.c 4953-4967. -/
def isSacked (blocks : List (Nat × Nat)) (a b : Nat) : Bool :=
  blocks.any (fun k => seqLeq k.1 a && seqLeq b k.2)

/-- `tcp_process_sack`, src/wolfip.c 4969-5007; `blocks` are those found by the
option parser (at most 4). -/
def processSack (s : Snd) (blocks : List (Nat × Nat)) : Snd :=
  if !s.sackPermitted then { s with peerSack := [] }
  else
    let clip := blocks.filterMap (fun b =>
      if !seqLt b.1 b.2 then none
      else if seqLeq b.2 s.sndUna then none
      else if seqLeq s.seq b.1 then none
      else
        let l := if seqLt b.1 s.sndUna then s.sndUna else b.1
        let r := if seqLt s.seq b.2 then s.seq else b.2
        if seqLt l r then some (l, r) else none)
    { s with peerSack := mergeBlocks seqLt seqLeq (clip.take 4) }

/-- Outcome of one scan of `tcp_mark_unsacked_for_retransmit`. -/
inductive Scan where
  | mark (i : Nat) | pending | none (cover : Bool)
deriving DecidableEq, Repr

/-- Inner loop of `tcp_mark_unsacked_for_retransmit`, src/wolfip.c 5026-5091. -/
def scanUnsacked (sack : List (Nat × Nat)) (ack : Nat) : List Desc → Nat → Scan
  | [], _ => .none false
  | d :: ds, i =>
      if d.data.isEmpty then scanUnsacked sack ack ds (i + 1)
      else
        let e := seqInc d.seq d.len
        if seqLeq e ack then scanUnsacked sack ack ds (i + 1)
        else if isSacked sack d.seq e then scanUnsacked sack ack ds (i + 1)
        else if seqLeq d.seq ack && seqLt ack e then
          if !d.sent then .pending else .mark i
        else scanUnsacked sack ack ds (i + 1)

/-- Clear SENT, set RETRANS. -/
def Desc.markRetrans (d : Desc) : Desc := { d with sent := false, retrans := true }

/-- Apply `f` to the `i`-th descriptor in place. -/
def setAt (q : List Desc) (i : Nat) (f : Desc → Desc) : List Desc :=
  match q[i]? with
  | none => q
  | some d => q.set i (f d)

/-- Payload length of the `i`-th descriptor. -/
def lenAt (q : List Desc) (i : Nat) : Nat := match q[i]? with | none => 0 | some d => d.len

/-- The effect of marking segment `i`, src/wolfip.c 5078-5090. -/
def doMark (s : Snd) (i : Nat) : Snd :=
  { s with q := setAt s.q i Desc.markRetrans,
           inflight := if lenAt s.q i ≥ s.inflight then 0 else s.inflight - lenAt s.q i }

/-- `tcp_mark_unsacked_for_retransmit`, src/wolfip.c 5011-5104, including the
single rescan after dropping the SACK scoreboard. -/
def markUnsacked (s : Snd) (ack : Nat) : Snd × Bool :=
  match scanUnsacked s.peerSack ack s.q 0 with
  | .mark i => (doMark s i, true)
  | .pending => (s, true)
  | .none _ =>
      if s.peerSack.isEmpty then (s, false)
      else
        let s := { s with peerSack := [] }
        match scanUnsacked [] ack s.q 0 with
        | .mark i => (doMark s i, true)
        | .pending => (s, true)
        | .none _ => (s, false)

/-- The first loop of `tcp_ack`, src/wolfip.c 5154-5175: walk from the oldest
segment while SENT; a zero-length one makes the *oldest* one be popped and the
walk restart; a covered one becomes ACKED. `i` is the walk position. -/
def ackMark : Nat → List Desc → Nat → Nat → Nat → List Desc × Nat
  | 0, q, _, _, c => (q, c)
  | f + 1, q, i, ack, c =>
      match q[i]? with
      | none => (q, c)
      | some d =>
          if !d.sent then (q, c)
          else if d.data.isEmpty then ackMark f q.tail 0 ack c
          else if seqLeq ((d.seq + d.len) % 4294967296) ack then
            ackMark f (q.set i { d with acked := true, sent := false, retrans := false })
              (i + 1) ack (c + 1)
          else (q, c)

/-- Enough fuel for `ackMark` to reach its own exit condition. -/
def ackFuel (q : List Desc) : Nat := (q.length + 1) * (q.length + 1)

/-- `delta` computation, src/wolfip.c 5181-5184. -/
def ackDelta (ack una : Nat) : Nat :=
  if ack ≥ una then ack - una else (ack + (4294967295 - una) + 1) % 4294967296

/-- Forward-ACK block: plain field updates, src/wolfip.c 5185-5194. -/
def advanceFields (s : Snd) (ack delta : Nat) : Snd := { s with
    inflight := if delta ≥ s.inflight then 0 else s.inflight - delta,
    sndUna := ack, dupAcks := 0, earlyDone := false, lastEarly := ack, rtoBackoff := 0 }

/-- Forward-ACK block: stop the timer and re-arm it if bytes remain in flight,
src/wolfip.c 5195-5213. -/
def rearm (s : Snd) (now : Nat) : Snd :=
  if s.fw2 || s.preaccept then s
  else if (cancelTmr s).inflight > 0 then armTmr (cancelTmr s) (now + (cancelTmr s).rto)
  else cancelTmr s

/-- Forward-ACK block up to (not including) congestion control, src/wolfip.c 5176-5216. -/
def advanceUna (s : Snd) (a : AckSeg) (delta : Nat) : Snd :=
  rearm (advanceFields s a.ack delta) a.now

/-- Window after a partial ACK, src/wolfip.c 5220-5226. -/
def partialCwnd (s : Snd) (delta : Nat) : Nat :=
  let c := ((if delta ≥ s.cwnd then s.smss else s.cwnd - delta) + s.smss) % 4294967296
  let lim := (s.ssthresh + s.smss) % 4294967296
  if c < lim then lim else c

/-- Congestion-control half of the forward-ACK block, src/wolfip.c 5217-5241.
Second component: partial or exit ACK (suppresses growth). -/
def ccAdvance (s : Snd) (a : AckSeg) (delta : Nat) : Snd × Bool :=
  if s.fastRec then
    if seqLt a.ack s.recPt then
      ((markUnsacked { s with dupAcks := 3, cwnd := partialCwnd s delta, cwndCount := 0 } a.ack).1,
        true)
    else
      ({ s with fastRec := false, recPt := a.ack, dupAcks := 0, cwnd := s.ssthresh,
                cwndCount := 0 }, true)
  else ({ s with dupAcks := 0 }, false)

/-- Window growth, src/wolfip.c 5273-5293. -/
def grow (s : Snd) (inflightPre : Nat) : Snd :=
  if s.cwnd ≤ (inflightPre + s.smss) % 4294967296 || s.cwnd ≤ (2 * s.smss) % 4294967296 then
    if s.cwnd < s.ssthresh then { s with cwnd := (s.cwnd + s.smss) % 4294967296 }
    else if (s.cwndCount + s.smss) % 4294967296 ≥ s.cwnd then
      { s with cwndCount := (s.cwndCount + s.smss) % 4294967296 - s.cwnd,
               cwnd := (s.cwnd + s.smss) % 4294967296 }
    else { s with cwndCount := (s.cwndCount + s.smss) % 4294967296 }
  else s

/-- Threshold after a loss: half the flight, at least two segments
(src/wolfip.c 5334-5336, 6043-6045). -/
def lossThresh (inflightPre smss : Nat) : Nat :=
  if inflightPre / 2 < (2 * smss) % 4294967296 then (2 * smss) % 4294967296 else inflightPre / 2

/-- Enter fast recovery, src/wolfip.c 5331-5342. -/
def enterRecovery (s : Snd) (ack inflightPre : Nat) : Snd :=
  (markUnsacked { s with
    ssthresh := lossThresh inflightPre s.smss,
    cwnd := (lossThresh inflightPre s.smss + 3 * s.smss) % 4294967296,
    cwndCount := 0, fastRec := true, recPt := s.seq } ack).1

/-- Count a duplicate, src/wolfip.c 5315-5316. -/
def bumpDup (s : Snd) : Snd :=
  { s with dupAcks := if s.dupAcks < 255 then s.dupAcks + 1 else s.dupAcks }

/-- SACK-driven early retransmission test, src/wolfip.c 5317-5321. -/
def wantEarly (s : Snd) (ack : Nat) : Bool :=
  !s.peerSack.isEmpty && decide (s.dupAcks ≥ 2) &&
  (match s.peerSack.getLast? with | some b => seqLt ack b.2 | none => false) &&
  (!s.earlyDone || s.lastEarly != ack)

/-- Early retransmission attempt, src/wolfip.c 5322-5326. -/
def tryEarly (s : Snd) (ack : Nat) : Snd × Bool :=
  if wantEarly s ack then markUnsacked s ack else (s, false)

/-- After counting: early retransmit, enter recovery or inflate, src/wolfip.c 5317-5345. -/
def onDup (s : Snd) (ack inflightPre : Nat) : Snd :=
  if (tryEarly s ack).2 then { (tryEarly s ack).1 with earlyDone := true, lastEarly := ack }
  else if (tryEarly s ack).1.dupAcks < 3 then (tryEarly s ack).1
  else if (tryEarly s ack).1.dupAcks = 3 then enterRecovery (tryEarly s ack).1 ack inflightPre
  else { (tryEarly s ack).1 with
    cwnd := ((tryEarly s ack).1.cwnd + (tryEarly s ack).1.smss) % 4294967296 }

/-- Duplicate-ACK branch, src/wolfip.c 5299-5345. -/
def dupAck (s : Snd) (a : AckSeg) (inflightPre : Nat) (winChanged : Bool) : Snd :=
  if a.ack ≠ s.sndUna then s
  else if inflightPre = 0 then s
  else if a.hasData then s
  else if winChanged then s
  else onDup (bumpDup s) a.ack inflightPre

/-- FIN_WAIT_1 -> FIN_WAIT_2 when our FIN is acknowledged, src/wolfip.c 5141-5145. -/
def ackFinWait1 (s : Snd) (a : AckSeg) : Snd :=
  if s.st = .finWait1 ∧ seqLeq (seqInc s.last 1) a.ack = true then
    fw2Start (ctrlStop { s with st := .finWait2 }) a.now else s

/-- CLOSING -> TIME_WAIT, src/wolfip.c 5146-5149. -/
def ackClosing (s : Snd) (a : AckSeg) : Snd :=
  if s.st = .closing ∧ seqLeq (seqInc s.last 1) a.ack = true then
    ctrlStop { s with st := .timeWait } else s

/-- LAST_ACK is left for good: src/wolfip.c 5123-5140. -/
def ackEndsLastAck (s : Snd) (a : AckSeg) : Bool :=
  decide (s.st = .lastAck) && seqLeq (seqInc s.last 1) a.ack

/-- Pop leading ACKED descriptors, src/wolfip.c 5247-5252. -/
def popAcked (q : List Desc) : List Desc := q.dropWhile (·.acked)

/-- Is this a forward ACK? src/wolfip.c 5176-5178. -/
def isForward (s : Snd) (ack : Nat) : Bool :=
  s.sndUna != ack && seqLeq s.sndUna ack && seqLeq ack s.seq

/-- `tcp_ack` up to and including the marking loop, src/wolfip.c 5107-5175;
second component: number of segments newly ACKED. -/
def ackFront (s0 : Snd) (a : AckSeg) : Snd × Nat :=
  let s := processSack (ackClosing (ackFinWait1 { s0 with lastPeerWin := a.win } a) a) a.blocks
  let m := ackMark (ackFuel s.q) s.q 0 a.ack 0
  ({ s with q := m.1 }, m.2)

/-- The forward-ACK block, src/wolfip.c 5176-5243. -/
def ackAdvance (s : Snd) (a : AckSeg) : Snd × Bool :=
  if isForward s a.ack then
    ccAdvance (advanceUna s a (ackDelta a.ack s.sndUna)) a (ackDelta a.ack s.sndUna)
  else (s, false)

/-- `tcp_ack`, src/wolfip.c 5107-5348. -/
def tcpAck (s0 : Snd) (a : AckSeg) : Snd :=
  if ackEndsLastAck s0 a then closeSocket (ctrlStop { s0 with lastPeerWin := a.win })
  else
    let m := ackFront s0 a
    let c := ackAdvance m.1 a
    if m.2 > 0 then
      let s := { c.1 with q := popAcked c.1.q }
      if decide (s.q.length < c.1.q.length) && isForward m.1 a.ack && !c.2
      then grow s s0.inflight else s
    else dupAck c.1 a s0.inflight (a.win != s0.lastPeerWin)

/-! ### Retransmission timeout -/

/-- Scan of `tcp_rto_cb`, src/wolfip.c 5956-6001 (the SACK scoreboard has just
been cleared). Result: index of the SENT segment covering SND.UNA, if met
before an unsent covering one; and the SENT payload segment of lowest sequence
among those scanned. -/
def rtoScan (una : Nat) : List Desc → Nat → Option (Nat × Nat) → Option Nat × Option (Nat × Nat)
  | [], _, first => (none, first)
  | d :: ds, i, first =>
      let e := seqInc d.seq d.len
      let covers := !d.data.isEmpty && seqLeq d.seq una && seqLt una e
      if d.sent then
        let first := if !d.data.isEmpty && (match first with
            | none => true | some f => seqLt d.seq f.2) then some (i, d.seq) else first
        if covers then (some i, first) else rtoScan una ds (i + 1) first
      else if covers then (none, first)
      else rtoScan una ds (i + 1) first

/-- The segment `tcp_rto_cb` retransmits: the covering one, else the lowest
sent one (src/wolfip.c 5978-5984, 6002-6011). -/
def rtoTarget (s : Snd) : Option Nat :=
  match (rtoScan s.sndUna s.q 0 none).1 with
  | some i => some i
  | none => (rtoScan s.sndUna s.q 0 none).2.map (·.1)

/-- Congestion response and re-arming after a timeout, src/wolfip.c 6039-6058. -/
def rtoLoss (s : Snd) (prev now : Nat) : Snd :=
  armTmr { s with rtoBackoff := s.rtoBackoff + 1, cwnd := s.smss,
                  ssthresh := lossThresh prev s.smss, fastRec := false, recPt := s.sndUna }
    (now + Rto.backoff s.rto (s.rtoBackoff + 1))

/-- Data path of `tcp_rto_cb`, src/wolfip.c 5948-6061. -/
def rtoData (s : Snd) (now : Nat) : Snd :=
  match rtoTarget s with
  | some i =>
      let s1 := cancelTmr { s with peerSack := [], q := setAt s.q i Desc.markRetrans, inflight := 0 }
      if s.rtoBackoff ≥ 15 then closeSocket s1 else rtoLoss s1 s.inflight now
  | none => { cancelTmr { s with peerSack := [], inflight := 0 } with rtoBackoff := 0 }

/-- `tcp_listener_revert_to_listen`, src/wolfip.c 4014-4065 (sender part). -/
def revertListen (s : Snd) : Snd :=
  { cancelTmr s with st := .listen, q := [], inflight := 0, ctrlActive := false, ctrlRetries := 0,
                     preaccept := false, fw2 := false, rto := 1000, rtoBackoff := 0 }

/-- Queue an empty (ACK/SYN, or FIN) segment, src/wolfip.c 3607-3637, 3791-3797. SND.NXT is not
advanced, not even for a FIN. -/
def pushEmpty (s : Snd) (fin : Bool := false) : Snd :=
  { s with q := s.q ++ [{ seq := s.seq, data := [], fin := fin }] }

/-- Resend of the control segment, src/wolfip.c 5926-5945. -/
def ctrlResend (s : Snd) (now : Nat) (queued : Bool) : Snd :=
  if queued then
    if s.st = .finWait1 ∨ s.st = .lastAck then
      ctrlStart { pushEmpty s true with ctrlRetries := s.ctrlRetries + 1, last := s.seq } now
    else ctrlStart { pushEmpty s with ctrlRetries := s.ctrlRetries + 1 } now
  else ctrlStart s now

/-- Control half of `tcp_rto_cb`, src/wolfip.c 5906-5947. -/
def ctrlCb (s : Snd) (now : Nat) (queued : Bool) : Snd :=
  if !needsCtrl s then ctrlStop s
  else if s.ctrlRetries ≥ 8 then
    if s.isListener = true ∧ s.st = .synRcvd then revertListen (ctrlStop s)
    else closeSocket (ctrlStop s)
  else ctrlResend s now queued

/-- `tcp_rto_cb`, src/wolfip.c 5867-6062, called after the timer was removed
from the heap (so `armed = none`, `tmrId` still set). `queued`: could the
control segment be queued. -/
def rtoCb (s : Snd) (now : Nat) (queued : Bool) : Snd :=
  if s.fw2 then
    if s.st ≠ .finWait2 then fw2Stop s else closeSocket (fw2Stop s)
  else if s.preaccept then
    if s.st ≠ .established ∨ s.isListener = false then preacceptStop s else revertListen s
  else if needsCtrl s || s.ctrlActive then ctrlCb s now queued
  else if s.st ≠ .established ∧ s.st ≠ .finWait1 then s
  else rtoData s now

/-- The timer of this socket fires at `now`: it leaves the heap, then the
callback runs (src/wolfip.c handle_timers / `Verif/Timers`). -/
def fire (s : Snd) (now : Nat) (queued : Bool) : Snd :=
  match s.armed with
  | none => s
  | some d => if d ≤ now then rtoCb { s with armed := none } now queued else s

/-! ### Transmission -/

/-- Is any data segment sent and unacknowledged? -/
def hasSent (q : List Desc) : Bool := q.any (fun d => d.sent && !d.data.isEmpty)

/-- Bytes sent and unacknowledged according to the queue. -/
def sentBytes (q : List Desc) : Nat := (q.map (fun d => if d.sent then d.len else 0)).sum

/-- `tcp_resync_inflight`, src/wolfip.c 6065-6110. -/
def resync (s : Snd) (now : Nat) : Snd :=
  if needsCtrl s || s.ctrlActive then s
  else if s.preaccept then { s with inflight := sentBytes s.q }
  else if hasSent s.q && !s.tmrId then
    armTmr { s with inflight := sentBytes s.q } (now + Rto.backoff s.rto s.rtoBackoff)
  else if !hasSent s.q && s.tmrId then cancelTmr { s with inflight := sentBytes s.q }
  else { s with inflight := sentBytes s.q }

/-- `tcp_find_pending_retrans`, src/wolfip.c 6114-6136: index of the first
queued retransmission at or after `start`. -/
def findRetrans (q : List Desc) (start : Nat) : Option Nat :=
  ((q.drop start).findIdx? (fun d => d.retrans && !d.sent && !d.data.isEmpty)).map (· + start)

/-- What transmitting a segment does to its flags, src/wolfip.c 11405-11409. -/
def Desc.markSent (d : Desc) : Desc :=
  { d with sent := true, retrans := false, wasRetrans := d.wasRetrans || d.retrans }

/-- The send test of `flush_tcp_tx`, src/wolfip.c 11340-11353. -/
def mayTx (s : Snd) (d : Desc) : Bool :=
  d.retrans || d.data.isEmpty ||
  (decide (s.inflight < min s.peerRwnd s.cwnd) && decide (d.len ≤ min s.peerRwnd s.cwnd - s.inflight))

/-- State after a data segment left, src/wolfip.c 11405-11426. -/
def txData (s : Snd) (i : Nat) (d : Desc) (now : Nat) : Snd :=
  armTmr (cancelTmr { s with q := s.q.set i d.markSent,
                             inflight := if d.retrans then s.inflight else s.inflight + d.len })
    (now + Rto.backoff s.rto s.rtoBackoff)

/-- The transmission loop of `flush_tcp_tx`, src/wolfip.c 11312-11446, from walk
position `i`. `ok` = how many frames the link (ARP, filters, driver) accepts
before one is refused (any refusal ends the loop). After a zero-payload segment
is sent, `fifo_pop` removes the *oldest* descriptor and the walk goes on from
the new oldest one (simplification: the popped descriptor, if it had not been
sent itself, is not looked at again). -/
def flushLoop : Nat → Nat → Snd → Nat → Nat → Snd
  | 0, _, s, _, _ => s
  | f + 1, ok, s, i, now =>
      match s.q[i]? with
      | none => s
      | some d =>
          if d.sent then flushLoop f ok s (i + 1) now
          else if mayTx s d then
            match ok with
            | 0 => s
            | ok + 1 =>
                if d.data.isEmpty then
                  flushLoop f ok { s with q := (s.q.set i d.markSent).tail } 0 now
                else flushLoop f ok (txData s i d now) (i + 1) now
          else
            match findRetrans s.q i with
            | some j => if j ≠ i then flushLoop f ok s j now else s
            | none => s

/-- One socket's turn in `flush_tcp_tx`, src/wolfip.c 11288-11446. -/
def flush (s : Snd) (now fuel ok : Nat) : Snd := flushLoop fuel ok (resync s now) 0 now

/-! ### Application calls -/

/-- Transmit buffer size, config.h. -/
def TXBUF : Nat := 32768

/-- Bytes of payload held in the transmit buffer. -/
def queued (q : List Desc) : Nat := (q.map Desc.len).sum

/-- One iteration of the `send()` loop, src/wolfip.c 6656-6703: a chunk is
accepted when the state allows it and it fits (the exact fit test is C02; here
only that payload never exceeds the buffer). -/
def sendChunk (s : Snd) (chunk : List UInt8) : Snd × Bool :=
  if (s.st = .established ∨ s.st = .closeWait) ∧ chunk ≠ [] ∧ queued s.q + chunk.length ≤ TXBUF then
    ({ s with q := s.q ++ [{ seq := s.seq, data := chunk }],
              seq := (s.seq + chunk.length) % 4294967296 }, true)
  else (s, false)

/-- `wolfIP_sock_close` on an established / close-wait socket, src/wolfip.c
7671-7706 (FIN queued). -/
def appClose (s : Snd) (now : Nat) : Snd :=
  match s.st with
  | .established => ctrlStart { pushEmpty s true with last := s.seq, st := .finWait1, ctrlRetries := 0 } now
  | .closeWait => ctrlStart { pushEmpty s true with last := s.seq, st := .lastAck, ctrlRetries := 0 } now
  | _ => s

/-- The peer's FIN was accepted (src/wolfip.c 5770-5850): ESTABLISHED ->
CLOSE_WAIT, FIN_WAIT_1 -> CLOSING; an ACK is queued. -/
def peerFin (s : Snd) : Snd :=
  match s.st with
  | .established => pushEmpty { s with st := .closeWait }
  | .finWait1 => pushEmpty { s with st := .closing }
  | _ => s

end Wolf.Tcp.Snd
