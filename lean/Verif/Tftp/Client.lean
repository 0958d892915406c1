import Verif.Tftp.RoundTrip
/-!
# C53, C54 (client), C57 (retries): the TFTP client

Model of `wolftftp_client_*` (`src/tftp/wolftftp.c` 594–895). A client is driven by packets and polls; what
it does to its surroundings (packets sent, sink callbacks) is its output. What the callbacks answer is
part of each event.
-/
namespace Wolf.Tftp

/-! ## Model -/

/-- `enum wolftftp_client_state`. src/tftp/wolftftp.h 107–113. -/
inductive CState where
  | idle | waitFirst | recvData | complete | error
deriving DecidableEq

/-- The status codes used. src/tftp/wolftftp.h 74–82. -/
inductive Status where
  | ok | io | packet | unsupported | size | verify | timeout
deriving DecidableEq

/-- `struct wolftftp_client`; addresses and callbacks are not stored (the callbacks' answers come with the
events), `last_tx` with its length as a list. src/tftp/wolftftp.h 196–222. -/
structure Client where
  cfg : Cfg
  localPort : Nat
  serverIp : Nat
  neg : Neg
  asked : Bits := {}
  serverPort : Nat := 69
  tidLocked : Bool := false
  handle : Bool := false
  lastTx : List Nat := []
  nextOffset : Nat := 0
  total : Nat := 0
  advertised : Nat := 0
  deadline : Nat := 0
  expected : Nat := 1
  lastAcked : Nat := 0
  windowCount : Nat := 0
  retries : Nat := 0
  status : Status := .ok
  state : CState := .idle
  finalSeen : Bool := false
deriving DecidableEq

/-- What the callbacks answer during one event: `open` (and whether it set the handle), `write`,
`hash_update`, `verify` and the transport's `send` succeed. An absent callback is one that succeeds. -/
structure Env where
  openOk : Bool := true
  openHandle : Bool := true
  writeOk : Bool := true
  hashOk : Bool := true
  verifyOk : Bool := true
  sendOk : Bool := true
deriving DecidableEq

/-- What the client does to its surroundings. -/
inductive Out where
  | send (port : Nat) (pkt : List Nat)
  | openSink
  | write (off : Nat) (data : List Nat)
  | hash (data : List Nat)
  | verify (total : Nat)
  | close (st : Status)
deriving DecidableEq

/-- `wolftftp_client_finish`. src/tftp/wolftftp.c 196–210. -/
def finish (s : Client) (st : Status) : Client × List Out :=
  ({ s with status := st, handle := false, deadline := 0, lastTx := [],
            state := if st = .ok then .complete else .error },
   if s.handle then [.close st] else [])

/-- An error packet (code and text; the text is not modelled further). src/tftp/wolftftp.c 594–605. -/
def errPkt (code : Nat) : List Nat := [0, 5, 0, code, 0]

/-- `wolftftp_build_ack`. src/tftp/wolftftp.c 420–425. -/
def ackPkt (n : Nat) : List Nat := [0, 4, n / 256, n % 256]

/-- The accepting branch of `wolftftp_client_accept_data` from the point where the sink is open.
src/tftp/wolftftp.c 717–763. -/
def acceptTail (s : Client) (env : Env) (block : Nat) (data : List Nat) (pre : List Out) : Client × List Out :=
  let o1 := pre ++ [.write s.nextOffset data]
  if env.writeOk = false then
    let (s', o) := finish s .io
    (s', o1 ++ [.send s.serverPort (errPkt 2)] ++ o)
  else
    let o2 := if data.length > 0 then o1 ++ [.hash data] else o1
    if data.length > 0 ∧ env.hashOk = false then
      let (s', o) := finish s .verify
      (s', o2 ++ [.send s.serverPort (errPkt 0)] ++ o)
    else
      let s1 : Client := { s with
        nextOffset := (s.nextOffset + data.length) % 4294967296
        total := (s.total + data.length) % 4294967296
        expected := (s.expected + 1) % 65536
        windowCount := (s.windowCount + 1) % 65536
        finalSeen := decide (data.length < s.neg.blksize) }
      let ackNow : Bool := decide (s1.windowCount ≥ s1.neg.windowsize) || s1.finalSeen
      let s2 : Client := if ackNow then { s1 with lastTx := ackPkt block } else s1
      let o3 := if ackNow then o2 ++ [.send s.serverPort (ackPkt block)] else o2
      if ackNow = true ∧ env.sendOk = false then (s2, o3)
      else
        let s3 : Client := if ackNow then { s2 with lastAcked := block, windowCount := 0 } else s2
        if s3.finalSeen then
          let o4 := o3 ++ [.verify s3.total]
          if env.verifyOk = false then
            let (s', o) := finish s3 .verify
            (s', o4 ++ o)
          else
            let (s', o) := finish s3 .ok
            (s', o4 ++ o)
        else ({ s3 with state := .recvData }, o3)

/-- `wolftftp_client_accept_data`. The overflow test `total > UINT32_MAX - len` is written as a sum (packet
lengths are 16-bit, so the difference does not wrap). src/tftp/wolftftp.c 693–774. -/
def acceptData (s : Client) (env : Env) (block : Nat) (data : List Nat) : Client × List Out :=
  if block = s.expected then
    if s.total + data.length > 4294967295 ∨
        (s.cfg.maxImage ≠ 0 ∧ data.length > (s.cfg.maxImage + 4294967296 - s.total) % 4294967296) then
      let (s', o) := finish s .size
      (s', .send s.serverPort (errPkt 3) :: o)
    else if s.handle = false then
      if env.openOk = false then
        let (s', o) := finish s .io
        (s', .openSink :: .send s.serverPort (errPkt 2) :: o)
      else acceptTail { s with handle := env.openHandle } env block data [.openSink]
    else acceptTail s env block data []
  else if block = s.lastAcked ∨ block = (s.expected + 65535) % 65536 then
    if s.lastTx.length ≠ 0 then (s, [.send s.serverPort s.lastTx]) else (s, [])
  else (s, [])

/-- `wolftftp_client_receive`. The second port check of the code is repeated before `accept_data` and
cannot fail there. src/tftp/wolftftp.c 776–856. -/
def receive (s : Client) (env : Env) (localPort ip port : Nat) (m : List Nat) : Client × List Out :=
  if localPort ≠ s.localPort then (s, [])
  else if s.state ≠ .waitFirst ∧ s.state ≠ .recvData then (s, [])
  else if ip ≠ s.serverIp then (s, [])
  else if s.tidLocked = true ∧ port ≠ s.serverPort then (s, [.send port (errPkt 5)])
  else if m.length < 2 then (s, [])
  else if rd16 m 0 = 6 then
    let s := { s with serverPort := port, tidLocked := true }
    match parseOack m (negDefaults s.cfg) s.asked with
    | .packet => finish s .packet
    | .unsupported => finish s .unsupported
    | .oob => (s, [])
    | .running => (s, [])
    | .ok n =>
      let s := match n.tsize with
        | some t => { s with advertised := t }
        | none => s
      if s.cfg.maxImage ≠ 0 ∧ (n.tsize.getD 0) > s.cfg.maxImage then
        let (s', o) := finish s .size
        (s', .send s.serverPort (errPkt 3) :: o)
      else
        let s := { s with neg := n, lastTx := ackPkt 0 }
        if env.sendOk = false then (s, [.send s.serverPort (ackPkt 0)])
        else ({ s with lastAcked := 0, state := .recvData, deadline := 0, retries := 0 }, [.send s.serverPort (ackPkt 0)])
  else if rd16 m 0 = 5 then finish s .io
  else if rd16 m 0 ≠ 3 then (s, [])
  else if m.length < 4 then (s, [])
  else
    let s := if s.tidLocked then s else { s with serverPort := port, tidLocked := true }
    let s := if s.state = .waitFirst then { s with neg := negDefaults s.cfg, advertised := 0, state := .recvData } else s
    acceptData { s with deadline := 0, retries := 0 } env (rd16 m 2) (m.drop 4)

/-- `wolftftp_deadline`. src/tftp/wolftftp.c 584–592. -/
def deadlineAt (n : Neg) (now : Nat) : Nat :=
  let d := (now + n.timeout * 1000) % 4294967296
  if d = 0 then 1 else d

/-- `(int32_t)(now - deadline) < 0`. -/
def before (now deadline : Nat) : Bool := decide ((now + 4294967296 - deadline) % 4294967296 ≥ 2147483648)

/-- `wolftftp_client_poll`. src/tftp/wolftftp.c 858–888. -/
def poll (s : Client) (env : Env) (now : Nat) : Client × List Out :=
  if s.state ≠ .waitFirst ∧ s.state ≠ .recvData then (s, [])
  else if s.lastTx.length = 0 then (s, [])
  else if s.deadline = 0 then ({ s with deadline := deadlineAt s.neg now }, [])
  else if before now s.deadline then (s, [])
  else if s.retries ≥ s.cfg.maxRetries then finish s .timeout
  else
    ({ s with retries := if env.sendOk then s.retries + 1 else s.retries, deadline := deadlineAt s.neg now },
      [.send s.serverPort s.lastTx])

/-- `wolftftp_client_start_rrq` when it succeeds, on an initialised client (`cfg` with its defaults
applied); `name` is the requested file. src/tftp/wolftftp.c 645–691. -/
def start (cfg : Cfg) (localPort ip port : Nat) (name : List Nat) : Option Client :=
  match buildRequest 256 1 name cfg with
  | none => none
  | some m =>
    some { cfg := cfg, localPort := localPort, serverIp := ip, neg := negDefaults cfg, asked := requested cfg,
           serverPort := if port = 0 then 69 else port, lastTx := m, state := .waitFirst }

/-- Something that happens to a running client. -/
inductive Ev where
  | recv (env : Env) (localPort ip port : Nat) (m : List Nat)
  | poll (env : Env) (now : Nat)

def step (s : Client) : Ev → Client × List Out
  | .recv env lp ip port m => receive s env lp ip port m
  | .poll env now => poll s env now

/-- State and output after a list of events. -/
def run (s : Client) (o : List Out) : List Ev → Client × List Out
  | [] => (s, o)
  | e :: es => run (step s e).1 (o ++ (step s e).2) es

/-! ## Specification -/

/-- The write calls made to the sink. -/
def writes (o : List Out) : List (Nat × List Nat) := o.filterMap fun
  | .write off d => some (off, d)
  | _ => none

/-- The bytes given to the sink, in order. -/
def written (o : List Out) : List Nat := (writes o).flatMap (·.2)

/-- Block `j` (from 1) of a file in blocks of `B` bytes: the server's block size. -/
def blockOf (B : Nat) (file : List Nat) (j : Nat) : List Nat := (file.drop ((j - 1) * B)).take B

/-- The DATA packet of block `j`. -/
def dataPkt (B : Nat) (file : List Nat) (j : Nat) : List Nat := [0, 3, j / 256 % 256, j % 256] ++ blockOf B file j

/-- The packet comes from the server the client talks to. -/
def FromServer (s : Client) (lp ip port : Nat) : Prop :=
  lp = s.localPort ∧ ip = s.serverIp ∧ (s.tidLocked = true → port = s.serverPort)

/-- Every DATA packet the server sends is a block of the file; loss, duplication and reordering are free,
but a packet is not delayed by a whole cycle of the 16-bit block numbers. `k` blocks have been accepted. -/
def HonestEv (B : Nat) (file : List Nat) (k : Nat) (s : Client) : Ev → Prop
  | .recv _ lp ip port m => FromServer s lp ip port → rd16 m 0 = 3 → 4 ≤ m.length →
      ∃ j, m = dataPkt B file j ∧ 1 ≤ j ∧ j ≤ file.length / B + 1 ∧ j < k + 1 + 65536 ∧ k + 1 < j + 65536
  | .poll _ _ => True

/-- Client and server agree on the block size: an accepted OACK announces `B`, and a server that sends
DATA without an OACK uses the size configured in the client. -/
def AgreesEv (B : Nat) (s : Client) : Ev → Prop
  | .recv _ lp ip port m => FromServer s lp ip port →
      (∀ n, rd16 m 0 = 6 → parseOack m (negDefaults s.cfg) s.asked = .ok n → n.blksize = B) ∧
      (rd16 m 0 = 3 → s.state = .waitFirst → s.cfg.blksize = B)
  | .poll _ _ => True

def RunAll (P : List Out → Client → Ev → Prop) : Client → List Out → List Ev → Prop
  | _, _, [] => True
  | s, o, e :: es => P o s e ∧ RunAll P (step s e).1 (o ++ (step s e).2) es

def Honest (B : Nat) (file : List Nat) (s : Client) (o : List Out) (es : List Ev) : Prop :=
  RunAll (fun o s e => HonestEv B file (writes o).length s e) s o es

def Agrees (B : Nat) (s : Client) (o : List Out) (es : List Ev) : Prop := RunAll (fun _ s e => AgreesEv B s e) s o es

/-! ## Proofs -/

theorem writes_append (a b : List Out) : writes (a ++ b) = writes a ++ writes b := by simp [writes]

theorem finish_writes (s : Client) (st : Status) : writes (finish s st).2 = [] := by
  rw [finish]; simp only; split <;> rfl

theorem finish_state (s : Client) (st : Status) :
    (finish s st).1.state = (if st = .ok then .complete else .error) ∧ (finish s st).1.total = s.total ∧
    (finish s st).1.nextOffset = s.nextOffset ∧ (finish s st).1.cfg = s.cfg ∧ (finish s st).1.expected = s.expected ∧
    (finish s st).1.neg = s.neg ∧ (finish s st).1.finalSeen = s.finalSeen := ⟨rfl, rfl, rfl, rfl, rfl, rfl, rfl⟩

def Active (s : Client) : Prop := s.state = .waitFirst ∨ s.state = .recvData

theorem not_active_finish (s : Client) (st : Status) : ¬ Active (finish s st).1 := by
  rw [Active, (finish_state s st).1]; split <;> simp

/-- The three ways one event can change what has been written. -/
inductive Effect (s s' : Client) (o : List Out) : Prop
  /-- nothing written; nothing that matters for the data changed -/
  | none (hw : writes o = []) (hc : s'.cfg = s.cfg) (hx : s'.expected = s.expected) (ht : s'.total = s.total)
      (hn : s'.nextOffset = s.nextOffset) (hstate : s'.state = .complete → s.state = .complete)
  /-- a write was attempted (at most within the limit) and the transfer failed -/
  | failed (d : List Nat) (hw : writes o = [(s.nextOffset, d)]) (hc : s'.cfg = s.cfg)
      (hlim : s.total + d.length ≤ 4294967295) (hmax : s.cfg.maxImage ≠ 0 → s.total ≤ s.cfg.maxImage → s.total + d.length ≤ s.cfg.maxImage)
      (hstate : s'.state = .error)
  /-- a block was written -/
  | wrote (d : List Nat) (hw : writes o = [(s.nextOffset, d)]) (hc : s'.cfg = s.cfg)
      (hlim : s.total + d.length ≤ 4294967295) (hmax : s.cfg.maxImage ≠ 0 → s.total ≤ s.cfg.maxImage → s.total + d.length ≤ s.cfg.maxImage)
      (hx : s'.expected = (s.expected + 1) % 65536) (ht : s'.total = s.total + d.length)
      (hn : s'.nextOffset = (s.nextOffset + d.length) % 4294967296)
      (hstate : s'.state = .complete → d.length < s'.neg.blksize)

theorem acceptTail_effect (s : Client) (env : Env) (block : Nat) (d : List Nat) (pre : List Out) (hp : writes pre = [])
    (hlim : s.total + d.length ≤ 4294967295)
    (hmax : s.cfg.maxImage ≠ 0 → s.total ≤ s.cfg.maxImage → s.total + d.length ≤ s.cfg.maxImage)
    (hst : s.state = .waitFirst ∨ s.state = .recvData) :
    Effect s (acceptTail s env block d pre).1 (acceptTail s env block d pre).2 ∧
    ((acceptTail s env block d pre).1.state ≠ .error → (acceptTail s env block d pre).1.neg = s.neg) ∧
    writes (acceptTail s env block d pre).2 = [(s.nextOffset, d)] := by
  have hns : s.state ≠ .complete := by rcases hst with h | h <;> rw [h] <;> simp
  have w0 : writes (pre ++ [.write s.nextOffset d]) = [(s.nextOffset, d)] := by rw [writes_append, hp]; rfl
  have wsend : ∀ (x : List Out) (p : Nat) (q : List Nat), writes (x ++ [.send p q]) = writes x := by
    intro x p q; rw [writes_append]; simp [writes]
  have whash : ∀ (x : List Out) (q : List Nat), writes (x ++ [.hash q]) = writes x := by
    intro x q; rw [writes_append]; simp [writes]
  have wver : ∀ (x : List Out) (q : Nat), writes (x ++ [.verify q]) = writes x := by
    intro x q; rw [writes_append]; simp [writes]
  have wfin : ∀ (x : List Out) (c : Client) (st : Status), writes (x ++ (finish c st).2) = writes x := by
    intro x c st; rw [writes_append, finish_writes, List.append_nil]
  have hmod : (s.total + d.length) % 4294967296 = s.total + d.length := Nat.mod_eq_of_lt (by omega)
  have g2 : writes (if d.length > 0 then pre ++ [.write s.nextOffset d] ++ [.hash d] else pre ++ [.write s.nextOffset d]) =
      [(s.nextOffset, d)] := by split <;> (try rw [whash]) <;> exact w0
  rw [acceptTail]
  simp only
  generalize (if d.length > 0 then pre ++ [.write s.nextOffset d] ++ [.hash d] else pre ++ [.write s.nextOffset d]) = o2 at g2 ⊢
  split
  · refine ⟨.failed d ?_ rfl hlim hmax rfl, fun h => absurd rfl h, ?_⟩ <;> (simp only; rw [wfin, wsend]; exact w0)
  split
  · refine ⟨.failed d ?_ rfl hlim hmax rfl, fun h => absurd rfl h, ?_⟩ <;> (simp only; rw [wfin, wsend]; exact g2)
  generalize hack : (decide ((s.windowCount + 1) % 65536 ≥ s.neg.windowsize) || decide (d.length < s.neg.blksize)) = ack
  have hfin : d.length < s.neg.blksize → ack = true := by intro h; rw [← hack]; simp [h]
  have g3 : writes (if ack = true then o2 ++ [.send s.serverPort (ackPkt block)] else o2) = [(s.nextOffset, d)] := by
    split <;> (try rw [wsend]) <;> exact g2
  generalize (if ack = true then o2 ++ [.send s.serverPort (ackPkt block)] else o2) = o3 at g3 ⊢
  cases ack with
  | true =>
    simp only [true_and, if_true]
    split
    · exact ⟨.wrote d g3 rfl hlim hmax rfl hmod rfl (fun h => absurd h hns), fun _ => rfl, g3⟩
    · split
      · rename_i hf
        split
        · refine ⟨.wrote d ?_ rfl hlim hmax rfl hmod rfl (fun h => by simp [finish] at h), fun _ => rfl, ?_⟩ <;> (rw [wfin, wver]; exact g3)
        · refine ⟨.wrote d ?_ rfl hlim hmax rfl hmod rfl (fun _ => by simp at hf; exact hf), fun _ => rfl, ?_⟩ <;> (rw [wfin, wver]; exact g3)
      · exact ⟨.wrote d g3 rfl hlim hmax rfl hmod rfl (fun h => by simp at h), fun _ => rfl, g3⟩
  | false =>
    have hnf : ¬ d.length < s.neg.blksize := fun h => by simpa using hfin h
    simp only [hnf, decide_false, Bool.false_eq_true, if_false, false_and]
    exact ⟨.wrote d g3 rfl hlim hmax rfl hmod rfl (fun h => by simp at h), fun _ => trivial, g3⟩

theorem acceptData_effect (s : Client) (env : Env) (block : Nat) (d : List Nat) (hst : Active s) :
    Effect s (acceptData s env block d).1 (acceptData s env block d).2 ∧
    ((acceptData s env block d).1.state ≠ .error → (acceptData s env block d).1.neg = s.neg) ∧
    (writes (acceptData s env block d).2 ≠ [] → block = s.expected ∧ writes (acceptData s env block d).2 = [(s.nextOffset, d)]) := by
  rw [acceptData]
  have hns : s.state ≠ .complete := by rcases hst with h | h <;> rw [h] <;> simp
  split
  · rename_i hb
    split
    · refine ⟨.none ?_ rfl rfl rfl rfl (fun h => by simp [finish] at h), fun _ => rfl, fun h => ?_⟩
      · simp only [finish]; split <;> rfl
      · exfalso; apply h; simp only [finish]; split <;> rfl
    · rename_i hlim
      have h1 : s.total + d.length ≤ 4294967295 := by omega
      have h2 : s.cfg.maxImage ≠ 0 → s.total ≤ s.cfg.maxImage → s.total + d.length ≤ s.cfg.maxImage := by
        intro ha hb
        have : ¬ (d.length > (s.cfg.maxImage + 4294967296 - s.total) % 4294967296) := fun hc => hlim (Or.inr ⟨ha, hc⟩)
        omega
      split
      · split
        · refine ⟨.none ?_ rfl rfl rfl rfl (fun h => by simp [finish] at h), fun _ => rfl, fun h => ?_⟩
          · simp only [finish]; split <;> rfl
          · exfalso; apply h; simp only [finish]; split <;> rfl
        · have := acceptTail_effect { s with handle := env.openHandle } env block d [.openSink] rfl h1 h2 hst
          refine ⟨?_, this.2.1, fun _ => ⟨hb, this.2.2⟩⟩
          cases this.1 with
          | none a b c d e f => exact .none a b c d e f
          | failed d a b c e f => exact .failed d a b c e f
          | wrote d a b c e f g h i => exact .wrote d a b c e f g h i
      · have := acceptTail_effect s env block d [] rfl h1 h2 hst
        exact ⟨this.1, this.2.1, fun _ => ⟨hb, this.2.2⟩⟩
  · split
    · split
      · exact ⟨.none rfl rfl rfl rfl rfl id, fun _ => rfl, fun h => absurd rfl h⟩
      · exact ⟨.none rfl rfl rfl rfl rfl id, fun _ => rfl, fun h => absurd rfl h⟩
    · exact ⟨.none rfl rfl rfl rfl rfl id, fun _ => rfl, fun h => absurd rfl h⟩

theorem Effect.congr {s0 s s' : Client} {o : List Out} (h : Effect s0 s' o) (hc : s0.cfg = s.cfg) (ht : s0.total = s.total)
    (hn : s0.nextOffset = s.nextOffset) (hx : s0.expected = s.expected) (hs : s0.state ≠ .complete) : Effect s s' o := by
  cases h with
  | none a b c d e f => exact .none a (b.trans hc) (c.trans hx) (d.trans ht) (e.trans hn) (fun h => absurd (f h) hs)
  | failed d a b c e f => exact .failed d (by rw [← hn]; exact a) (b.trans hc) (by rw [← ht]; exact c) (by rw [← ht, ← hc]; exact e) f
  | wrote d a b c e f g h i =>
    exact .wrote d (by rw [← hn]; exact a) (b.trans hc) (by rw [← ht]; exact c) (by rw [← ht, ← hc]; exact e)
      (by rw [← hx]; exact f) (by rw [← ht]; exact g) (by rw [← hn]; exact h) i

theorem finish_effect (s s0 : Client) (st : Status) (pre : List Out) (hst : st ≠ .ok) (hp : writes pre = [])
    (hc : s0.cfg = s.cfg) (ht : s0.total = s.total) (hn : s0.nextOffset = s.nextOffset) (hx : s0.expected = s.expected) :
    Effect s (finish s0 st).1 (pre ++ (finish s0 st).2) := by
  refine .none ?_ hc hx ht hn ?_
  · rw [writes_append, hp, finish_writes]; rfl
  · intro h; rw [(finish_state s0 st).1, if_neg hst] at h; simp at h

/-- What one event does: an effect; a write is a DATA packet from the server with the expected number;
and what happens to the negotiated parameters. -/
theorem step_effect (s : Client) (e : Ev) :
    Effect s (step s e).1 (step s e).2 ∧
    (¬ Active s → (step s e).1 = s ∧ (step s e).2 = []) ∧
    (writes (step s e).2 ≠ [] → ∃ env lp ip port m, e = .recv env lp ip port m ∧ Active s ∧ FromServer s lp ip port ∧ rd16 m 0 = 3 ∧
      4 ≤ m.length ∧ rd16 m 2 = s.expected ∧ writes (step s e).2 = [(s.nextOffset, m.drop 4)]) := by
  cases e with
  | poll env now =>
    simp only [step, poll]
    by_cases hA : s.state ≠ .waitFirst ∧ s.state ≠ .recvData
    · rw [if_pos hA]
      exact ⟨.none rfl rfl rfl rfl rfl id, fun _ => ⟨rfl, rfl⟩, fun h => absurd rfl h⟩
    · have hact : Active s := by rw [Active]; by_cases h : s.state = .waitFirst <;> simp_all
      rw [if_neg hA]
      refine ⟨?_, fun h => absurd hact h, ?_⟩
      · split
        · exact .none rfl rfl rfl rfl rfl id
        split
        · exact .none rfl rfl rfl rfl rfl id
        split
        · exact .none rfl rfl rfl rfl rfl id
        split
        · exact finish_effect s s .timeout [] (by simp) rfl rfl rfl rfl rfl
        · exact .none rfl rfl rfl rfl rfl id
      · intro h
        exfalso; apply h
        split
        · rfl
        split
        · rfl
        split
        · rfl
        split
        · exact finish_writes s .timeout
        · rfl
  | recv env lp ip port m =>
    simp only [step, receive]
    by_cases h1 : lp ≠ s.localPort
    · rw [if_pos h1]
      exact ⟨.none rfl rfl rfl rfl rfl id, fun _ => ⟨rfl, rfl⟩, fun h => absurd rfl h⟩
    rw [if_neg h1]
    by_cases hA : s.state ≠ .waitFirst ∧ s.state ≠ .recvData
    · rw [if_pos hA]
      exact ⟨.none rfl rfl rfl rfl rfl id, fun _ => ⟨rfl, rfl⟩, fun h => absurd rfl h⟩
    have hact : Active s := by rw [Active]; by_cases h : s.state = .waitFirst <;> simp_all
    have hns : s.state ≠ .complete := by rcases hact with h | h <;> rw [h] <;> simp
    rw [if_neg hA]
    by_cases h2 : ip ≠ s.serverIp
    · rw [if_pos h2]
      exact ⟨.none rfl rfl rfl rfl rfl id, fun _ => ⟨rfl, rfl⟩, fun h => absurd rfl h⟩
    rw [if_neg h2]
    by_cases h3 : s.tidLocked = true ∧ port ≠ s.serverPort
    · rw [if_pos h3]
      exact ⟨.none rfl rfl rfl rfl rfl id, fun h => absurd hact h, fun h => absurd rfl h⟩
    rw [if_neg h3]
    by_cases h4 : m.length < 2
    · rw [if_pos h4]
      exact ⟨.none rfl rfl rfl rfl rfl id, fun h => absurd hact h, fun h => absurd rfl h⟩
    rw [if_neg h4]
    have hfrom : FromServer s lp ip port := ⟨by simpa using h1, by simpa using h2, fun h => by
      by_cases hp : port = s.serverPort
      · exact hp
      · exact absurd ⟨h, hp⟩ h3⟩
    by_cases h6 : rd16 m 0 = 6
    · rw [if_pos h6]
      have key : ∀ r : Client × List Out, Effect s r.1 r.2 → writes r.2 = [] →
          Effect s r.1 r.2 ∧ (¬ Active s → r.1 = s ∧ r.2 = []) ∧
          (writes r.2 ≠ [] → ∃ env' lp' ip' port' m', Ev.recv env lp ip port m = .recv env' lp' ip' port' m' ∧ Active s ∧
            FromServer s lp' ip' port' ∧ rd16 m' 0 = 3 ∧ 4 ≤ m'.length ∧ rd16 m' 2 = s.expected ∧ writes r.2 = [(s.nextOffset, m'.drop 4)]) :=
        fun r a b => ⟨a, fun h => absurd hact h, fun h => absurd b h⟩
      cases hp : parseOack m (negDefaults s.cfg) s.asked with
      | packet => exact key _ (finish_effect s _ .packet [] (by simp) rfl rfl rfl rfl rfl) (finish_writes _ _)
      | unsupported => exact key _ (finish_effect s _ .unsupported [] (by simp) rfl rfl rfl rfl rfl) (finish_writes _ _)
      | oob => exact key _ (.none rfl rfl rfl rfl rfl id) rfl
      | running => exact key _ (.none rfl rfl rfl rfl rfl id) rfl
      | ok n =>
        simp only
        cases hts : n.tsize with
        | none =>
          simp only
          split
          · exact key _ (finish_effect s _ .size [_] (by simp) rfl rfl rfl rfl rfl) (by simp only [finish]; split <;> rfl)
          · split
            · exact key _ (.none rfl rfl rfl rfl rfl id) rfl
            · exact key _ (.none rfl rfl rfl rfl rfl (fun h => by simp at h)) rfl
        | some t =>
          simp only
          split
          · exact key _ (finish_effect s _ .size [_] (by simp) rfl rfl rfl rfl rfl) (by simp only [finish]; split <;> rfl)
          · split
            · exact key _ (.none rfl rfl rfl rfl rfl id) rfl
            · exact key _ (.none rfl rfl rfl rfl rfl (fun h => by simp at h)) rfl
    rw [if_neg h6]
    by_cases h5 : rd16 m 0 = 5
    · rw [if_pos h5]
      exact ⟨finish_effect s s .io [] (by simp) rfl rfl rfl rfl rfl, fun h => absurd hact h, fun h => absurd (finish_writes _ _) h⟩
    rw [if_neg h5]
    by_cases h7 : rd16 m 0 ≠ 3
    · rw [if_pos h7]
      exact ⟨.none rfl rfl rfl rfl rfl id, fun h => absurd hact h, fun h => absurd rfl h⟩
    rw [if_neg h7]
    by_cases h8 : m.length < 4
    · rw [if_pos h8]
      exact ⟨.none rfl rfl rfl rfl rfl id, fun h => absurd hact h, fun h => absurd rfl h⟩
    rw [if_neg h8]
    generalize hs1 : (if s.tidLocked = true then s else { s with serverPort := port, tidLocked := true }) = s1
    have e1 : s1.cfg = s.cfg ∧ s1.total = s.total ∧ s1.nextOffset = s.nextOffset ∧ s1.expected = s.expected ∧ s1.state = s.state := by
      rw [← hs1]; split <;> exact ⟨rfl, rfl, rfl, rfl, rfl⟩
    generalize hs2 : (if s1.state = .waitFirst then { s1 with neg := negDefaults s1.cfg, advertised := 0, state := .recvData } else s1) = s2
    have e2 : s2.cfg = s.cfg ∧ s2.total = s.total ∧ s2.nextOffset = s.nextOffset ∧ s2.expected = s.expected ∧ s2.state = .recvData := by
      rw [← hs2]; split
      · exact ⟨e1.1, e1.2.1, e1.2.2.1, e1.2.2.2.1, rfl⟩
      · rename_i hne
        refine ⟨e1.1, e1.2.1, e1.2.2.1, e1.2.2.2.1, ?_⟩
        rw [e1.2.2.2.2] at hne ⊢
        rcases hact with h | h
        · exact absurd h hne
        · exact h
    have hA2 : Active { s2 with deadline := 0, retries := 0 } := Or.inr e2.2.2.2.2
    have hacc := acceptData_effect { s2 with deadline := 0, retries := 0 } env (rd16 m 2) (m.drop 4) hA2
    refine ⟨hacc.1.congr e2.1 e2.2.1 e2.2.2.1 e2.2.2.2.1 (by rw [e2.2.2.2.2]; simp), fun h => absurd hact h, ?_⟩
    intro hw
    obtain ⟨hb, hw'⟩ := hacc.2.2 hw
    exact ⟨env, lp, ip, port, m, rfl, hact, hfrom, by simpa using h7, by omega, by rw [hb]; exact e2.2.2.2.1, by rw [hw']; simp only; rw [e2.2.2.1]⟩

theorem step_neg (B : Nat) (s : Client) (e : Ev) (hI : s.state = .recvData ∨ s.state = .complete → s.neg.blksize = B) (hA : AgreesEv B s e) :
    (step s e).1.state = .recvData ∨ (step s e).1.state = .complete → (step s e).1.neg.blksize = B := by
  cases e with
  | poll env now =>
    simp only [step, poll]
    split
    · exact hI
    split
    · exact hI
    split
    · exact hI
    split
    · exact hI
    split
    · intro h; simp [finish] at h
    · exact hI
  | recv env lp ip port m =>
    show (receive s env lp ip port m).1.state = .recvData ∨ (receive s env lp ip port m).1.state = .complete → (receive s env lp ip port m).1.neg.blksize = B
    generalize hr : receive s env lp ip port m = r
    rw [receive] at hr
    by_cases h1 : lp ≠ s.localPort
    · rw [if_pos h1] at hr; subst hr; exact hI
    rw [if_neg h1] at hr
    by_cases hact : s.state ≠ .waitFirst ∧ s.state ≠ .recvData
    · rw [if_pos hact] at hr; subst hr; exact hI
    rw [if_neg hact] at hr
    by_cases h2 : ip ≠ s.serverIp
    · rw [if_pos h2] at hr; subst hr; exact hI
    rw [if_neg h2] at hr
    by_cases h3 : s.tidLocked = true ∧ port ≠ s.serverPort
    · rw [if_pos h3] at hr; subst hr; exact hI
    rw [if_neg h3] at hr
    by_cases h4 : m.length < 2
    · rw [if_pos h4] at hr; subst hr; exact hI
    rw [if_neg h4] at hr
    have hfrom : FromServer s lp ip port := ⟨by simpa using h1, by simpa using h2, fun h => by
      by_cases hp : port = s.serverPort
      · exact hp
      · exact absurd ⟨h, hp⟩ h3⟩
    have hag := hA hfrom
    by_cases h6 : rd16 m 0 = 6
    · rw [if_pos h6] at hr
      cases hp : parseOack m (negDefaults s.cfg) s.asked with
      | packet => simp only [hp] at hr; subst hr; intro h; simp [finish] at h
      | unsupported => simp only [hp] at hr; subst hr; intro h; simp [finish] at h
      | oob => simp only [hp] at hr; subst hr; exact hI
      | running => simp only [hp] at hr; subst hr; exact hI
      | ok n =>
        have hn := hag.1 n h6 hp
        simp only [hp] at hr
        cases hts : n.tsize with
        | none =>
          simp only [hts] at hr
          split at hr
          · subst hr; intro h; simp [finish] at h
          · split at hr
            · subst hr; intro _; exact hn
            · subst hr; intro _; exact hn
        | some t =>
          simp only [hts] at hr
          split at hr
          · subst hr; intro h; simp [finish] at h
          · split at hr
            · subst hr; intro _; exact hn
            · subst hr; intro _; exact hn
    rw [if_neg h6] at hr
    by_cases h5 : rd16 m 0 = 5
    · rw [if_pos h5] at hr; subst hr; intro h; simp [finish] at h
    rw [if_neg h5] at hr
    by_cases h7 : rd16 m 0 ≠ 3
    · rw [if_pos h7] at hr; subst hr; exact hI
    rw [if_neg h7] at hr
    by_cases h8 : m.length < 4
    · rw [if_pos h8] at hr; subst hr; exact hI
    rw [if_neg h8] at hr
    simp only at hr
    generalize hs1 : (if s.tidLocked = true then s else { s with serverPort := port, tidLocked := true }) = s1 at hr
    have e1 : s1.cfg = s.cfg ∧ s1.state = s.state ∧ s1.neg = s.neg := by
      rw [← hs1]; split <;> exact ⟨rfl, rfl, rfl⟩
    generalize hs2 : (if s1.state = .waitFirst then { s1 with neg := negDefaults s1.cfg, advertised := 0, state := .recvData } else s1) = s2 at hr
    have e2 : s2.neg.blksize = B ∧ s2.state = .recvData := by
      rw [← hs2]; split
      · rename_i hw
        rw [e1.2.1] at hw
        refine ⟨?_, rfl⟩
        simp only [negDefaults]
        rw [e1.1]
        exact hag.2 (by simpa using h7) hw
      · rename_i hne
        rw [e1.2.1] at hne
        have hr : s.state = .recvData := by
          by_cases h : s.state = .recvData
          · exact h
          · exact absurd ⟨hne, h⟩ hact
        exact ⟨by rw [e1.2.2]; exact hI (Or.inl hr), by rw [e1.2.1]; exact hr⟩
    have hacc := acceptData_effect { s2 with deadline := 0, retries := 0 } env (rd16 m 2) (m.drop 4) (Or.inr e2.2)
    subst hr
    intro h
    rw [hacc.2.1 (by rcases h with h | h <;> rw [h] <;> simp)]
    exact e2.1

/-! ### C54: the size limit -/

theorem written_append (a b : List Out) : written (a ++ b) = written a ++ written b := by
  simp [written, writes_append]

theorem written_one (o : List Out) (off : Nat) (d : List Nat) (h : writes o = [(off, d)]) : written o = d := by
  simp [written, h]

theorem written_none (o : List Out) (h : writes o = []) : written o = [] := by simp [written, h]

/-- The write calls are back to back from offset 0. -/
def Contiguous (ws : List (Nat × List Nat)) : Prop :=
  ∀ pre off d post, ws = pre ++ (off, d) :: post → off = (pre.flatMap (·.2)).length

theorem contiguous_snoc (ws : List (Nat × List Nat)) (off : Nat) (d : List Nat) (h : Contiguous ws) (ho : off = (ws.flatMap (·.2)).length) :
    Contiguous (ws ++ [(off, d)]) := by
  intro pre off' d' post he
  rcases List.eq_nil_or_concat post with rfl | ⟨post', x, rfl⟩
  · have := List.append_inj' he (by simp)
    simp at this
    rw [← this.1, ← this.2.1]; exact ho
  · rw [List.concat_eq_append, ← List.cons_append, ← List.append_assoc] at he
    exact h pre off' d' post' (List.append_inj' he (by simp)).1

structure SizeInv (M : Nat) (s : Client) (o : List Out) : Prop where
  cfg : s.cfg.maxImage = M
  contig : Contiguous (writes o)
  lim : (written o).length ≤ 4294967295
  max : M ≠ 0 → (written o).length ≤ M
  act : Active s → s.total = (written o).length ∧ s.nextOffset = (written o).length

theorem sizeInv_step (M : Nat) (s : Client) (o : List Out) (e : Ev) (h : SizeInv M s o) :
    SizeInv M (step s e).1 (o ++ (step s e).2) := by
  obtain ⟨heff, hno, hw⟩ := step_effect s e
  have hact' : ∀ s' : Client, s'.state = .error → ¬ Active s' := by intro s' hs' ha; rcases ha with h | h <;> rw [hs'] at h <;> simp at h
  by_cases hA : Active s
  · obtain ⟨ht, hn⟩ := h.act hA
    cases heff with
    | none a b c d e f =>
      have hw0 := written_none _ a
      refine ⟨by rw [b]; exact h.cfg, ?_, ?_, ?_, ?_⟩
      · rw [writes_append, a, List.append_nil]; exact h.contig
      · rw [written_append, hw0, List.append_nil]; exact h.lim
      · rw [written_append, hw0, List.append_nil]; exact h.max
      · rw [written_append, hw0, List.append_nil, d, e]; exact fun _ => ⟨ht, hn⟩
    | failed d a b c e f =>
      have hw1 := written_one _ _ _ a
      refine ⟨by rw [b]; exact h.cfg, ?_, ?_, ?_, fun hh => absurd hh (hact' _ f)⟩
      · rw [writes_append, a]; exact contiguous_snoc _ _ _ h.contig (by rw [hn]; rfl)
      · rw [written_append, hw1, List.length_append]; omega
      · intro hM; rw [written_append, hw1, List.length_append, ← ht, ← h.cfg]
        exact e (by rw [h.cfg]; exact hM) (by rw [h.cfg, ht]; exact h.max hM)
    | wrote d a b c e f g hnx i =>
      have hw1 := written_one _ _ _ a
      refine ⟨by rw [b]; exact h.cfg, ?_, ?_, ?_, fun _ => ?_⟩
      · rw [writes_append, a]; exact contiguous_snoc _ _ _ h.contig (by rw [hn]; rfl)
      · rw [written_append, hw1, List.length_append]; omega
      · intro hM; rw [written_append, hw1, List.length_append, ← ht, ← h.cfg]
        exact e (by rw [h.cfg]; exact hM) (by rw [h.cfg, ht]; exact h.max hM)
      · rw [written_append, hw1, List.length_append, g, hnx, hn, ← ht]
        exact ⟨rfl, Nat.mod_eq_of_lt (by omega)⟩
  · obtain ⟨e1, e2⟩ := hno hA
    rw [e1, e2, List.append_nil]; exact h

theorem run_inv (P : Client → List Out → Prop) (hstep : ∀ s o e, P s o → P (step s e).1 (o ++ (step s e).2)) :
    ∀ (es : List Ev) (s : Client) (o : List Out), P s o → P (run s o es).1 (run s o es).2 := by
  intro es
  induction es with
  | nil => intro s o h; exact h
  | cons e es ih => intro s o h; exact ih _ _ (hstep s o e h)

theorem start_fields (cfg : Cfg) (lp ip port : Nat) (name : List Nat) (s : Client) (h : start cfg lp ip port name = some s) :
    s.cfg = cfg ∧ s.state = .waitFirst ∧ s.total = 0 ∧ s.nextOffset = 0 ∧ s.expected = 1 ∧ s.retries = 0 ∧ s.deadline = 0 ∧
    s.neg = negDefaults cfg ∧ s.serverIp = ip ∧ s.localPort = lp ∧ s.tidLocked = false ∧ 0 < s.lastTx.length := by
  rw [start] at h
  cases hb : buildRequest 256 1 name cfg with
  | none => rw [hb] at h; simp at h
  | some m =>
    rw [hb] at h
    simp only [Option.some.injEq] at h
    subst h
    refine ⟨rfl, rfl, rfl, rfl, rfl, rfl, rfl, rfl, rfl, rfl, rfl, ?_⟩
    rw [buildRequest] at hb
    split at hb
    · simp at hb
    split at hb
    · simp at hb
    have grow : ∀ (b : Bool) (max : Nat) (k : List Nat) (v : Nat) (x : Option (List Nat)), (∀ y, x = some y → 0 < y.length) →
        ∀ y, optIf b max k v x = some y → 0 < y.length := by
      intro b max k v x hx y hy
      rw [optIf] at hy
      split at hy
      · cases x with
        | none => simp [appendOpt] at hy
        | some z =>
          rw [appendOpt] at hy
          split at hy
          · simp at hy
          · simp at hy; rw [← hy]; simp; omega
      · exact hx y hy
    exact grow _ _ _ _ _ (grow _ _ _ _ _ (grow _ _ _ _ _ (grow _ _ _ _ _ (by intro y hy; simp at hy; rw [← hy]; simp)))) m hb

/-- **C54, client.** Whatever packets arrive from anywhere, however the callbacks answer and whenever the
client is polled: the bytes handed to the sink are written back to back from offset 0, without
wrapping, and never exceed the configured maximum image size. -/
theorem tftp_client_size_limit (cfg : Cfg) (lp ip port : Nat) (name : List Nat) (s : Client) (es : List Ev)
    (h : start cfg lp ip port name = some s) :
    (cfg.maxImage ≠ 0 → (written (run s [] es).2).length ≤ cfg.maxImage) ∧
    (written (run s [] es).2).length ≤ 4294967295 ∧ Contiguous (writes (run s [] es).2) := by
  obtain ⟨h1, h2, h3, h4, _⟩ := start_fields _ _ _ _ _ _ h
  have := run_inv (SizeInv cfg.maxImage) (fun s o e => sizeInv_step _ s o e) es s []
    ⟨by rw [h1], by intro pre off d post he; simp [writes] at he, by simp [written, writes], by simp [written, writes],
      fun _ => by rw [h3, h4]; simp [written, writes]⟩
  exact ⟨this.max, this.lim, this.contig⟩

/-! ### C53: the data -/

theorem blocks_prefix (B : Nat) (file : List Nat) : ∀ k, ((List.range k).map (fun i => blockOf B file (i + 1))).flatten = file.take (k * B) := by
  intro k
  induction k with
  | zero => simp
  | succ k ih =>
    rw [List.range_succ, List.map_append, List.flatten_append, ih]
    simp only [List.map_cons, List.map_nil, List.flatten_cons, List.flatten_nil, List.append_nil, blockOf, Nat.add_sub_cancel]
    rw [Nat.succ_mul, List.take_add]

structure DataInv (B : Nat) (file : List Nat) (s : Client) (o : List Out) : Prop where
  data : (writes o).map (·.2) = (List.range (writes o).length).map (fun i => blockOf B file (i + 1))
  exp : Active s → s.expected = ((writes o).length + 1) % 65536

theorem dataInv_step (B : Nat) (file : List Nat) (s : Client) (o : List Out) (e : Ev) (h : DataInv B file s o)
    (hh : HonestEv B file (writes o).length s e) : DataInv B file (step s e).1 (o ++ (step s e).2) := by
  obtain ⟨heff, hno, hw⟩ := step_effect s e
  have hact' : ∀ s' : Client, s'.state = .error → ¬ Active s' := by intro s' hs' ha; rcases ha with h | h <;> rw [hs'] at h <;> simp at h
  by_cases hA : Active s
  · -- the data of a write
    have key : writes (step s e).2 ≠ [] → ∀ off d, writes (step s e).2 = [(off, d)] → d = blockOf B file ((writes o).length + 1) := by
      intro hne off d hd
      obtain ⟨env, lp, ip, port, m, rfl, _, hfrom, hop, hlen, hblk, hws⟩ := hw hne
      obtain ⟨j, rfl, hj1, hj2, hj3, hj4⟩ := hh hfrom hop hlen
      rw [h.exp hA] at hblk
      have hj : j = (writes o).length + 1 := by
        have : rd16 (dataPkt B file j) 2 = j / 256 % 256 * 256 + j % 256 := rfl
        rw [this] at hblk
        omega
      rw [hd] at hws
      simp only [List.cons.injEq, Prod.mk.injEq, and_true] at hws
      rw [hws.2, hj]
      rfl
    have snoc : ∀ off d, writes (step s e).2 = [(off, d)] →
        (writes (o ++ (step s e).2)).map (·.2) = (List.range (writes (o ++ (step s e).2)).length).map (fun i => blockOf B file (i + 1)) := by
      intro off d hd
      have hde := key (by rw [hd]; simp) off d hd
      rw [writes_append, hd, List.map_append, h.data, List.length_append, List.length_cons, List.length_nil, List.range_succ, List.map_append]
      simp [hde]
    cases heff with
    | none a b c d e f =>
      refine ⟨by rw [writes_append, a, List.append_nil]; exact h.data, ?_⟩
      rw [writes_append, a, List.append_nil, c]
      exact fun _ => h.exp hA
    | failed d a b c e f => exact ⟨snoc _ _ a, fun hh => absurd hh (hact' _ f)⟩
    | wrote d a b c e f g hnx i =>
      refine ⟨snoc _ _ a, fun _ => ?_⟩
      rw [f, h.exp hA, writes_append, a, List.length_append]
      simp only [List.length_cons, List.length_nil]
      omega
  · obtain ⟨e1, e2⟩ := hno hA
    rw [e1, e2, List.append_nil]; exact h

theorem run_inv2 (Q : List Out → Client → Ev → Prop) (P : Client → List Out → Prop)
    (hstep : ∀ s o e, P s o → Q o s e → P (step s e).1 (o ++ (step s e).2)) :
    ∀ (es : List Ev) (s : Client) (o : List Out), RunAll Q s o es → P s o → P (run s o es).1 (run s o es).2 := by
  intro es
  induction es with
  | nil => intro s o _ h; exact h
  | cons e es ih => intro s o hq h; exact ih _ _ hq.2 (hstep s o e h hq.1)

/-- **C53, prefix.** For every file, every block size the server uses, every loss, duplication and
reordering of its packets (and anything sent by others), every answer of the callbacks and every poll
schedule: what the client has written is at every moment exactly the first `k` blocks of the file, in
order, where `k` is the number of writes. -/
theorem tftp_download_prefix (cfg : Cfg) (lp ip port : Nat) (name : List Nat) (s : Client) (es : List Ev) (B : Nat) (file : List Nat)
    (h : start cfg lp ip port name = some s) (hh : Honest B file s [] es) :
    written (run s [] es).2 = file.take ((writes (run s [] es).2).length * B) := by
  obtain ⟨h1, h2, h3, h4, h5, _⟩ := start_fields _ _ _ _ _ _ h
  have := run_inv2 _ (DataInv B file) (fun s o e hi hq => dataInv_step B file s o e hi hq) es s [] hh
    ⟨by simp [writes], fun _ => by rw [h5]; simp [writes]⟩
  rw [← blocks_prefix, ← this.data, written, List.flatMap_def]

structure DoneInv (B : Nat) (file : List Nat) (s : Client) (o : List Out) : Prop where
  data : DataInv B file s o
  neg : s.state = .recvData ∨ s.state = .complete → s.neg.blksize = B
  done : s.state = .complete → 0 < (writes o).length ∧ (blockOf B file (writes o).length).length < B

theorem doneInv_step (B : Nat) (file : List Nat) (s : Client) (o : List Out) (ev : Ev) (h : DoneInv B file s o)
    (hq : HonestEv B file (writes o).length s ev ∧ AgreesEv B s ev) : DoneInv B file (step s ev).1 (o ++ (step s ev).2) := by
  have hd' := dataInv_step B file s o ev h.data hq.1
  have hn' := step_neg B s ev h.neg hq.2
  refine ⟨hd', hn', ?_⟩
  intro hc
  obtain ⟨heff, hno, _⟩ := step_effect s ev
  by_cases hA : Active s
  · cases heff with
    | none a b c d e f =>
      have := f hc
      rcases hA with hA | hA <;> rw [hA] at this <;> simp at this
    | failed d a b c e f => rw [f] at hc; simp at hc
    | wrote d a b c e f g hnx i =>
      have hlt := i hc
      rw [hn' (Or.inr hc)] at hlt
      have hlen : (writes (o ++ (step s ev).2)).length = (writes o).length + 1 := by rw [writes_append, a]; simp
      have hdata := hd'.data
      rw [hlen, List.range_succ, List.map_append, writes_append, a, List.map_append] at hdata
      have := (List.append_inj' hdata (by simp)).2
      simp at this
      rw [hlen, ← this]
      exact ⟨by omega, hlt⟩
  · obtain ⟨e1, e2⟩ := hno hA
    rw [e1] at hc
    rw [e2, List.append_nil]; exact h.done hc

theorem runAll_and (P Q : List Out → Client → Ev → Prop) : ∀ (es : List Ev) (s : Client) (o : List Out),
    RunAll P s o es → RunAll Q s o es → RunAll (fun o s e => P o s e ∧ Q o s e) s o es := by
  intro es
  induction es with
  | nil => intro s o _ _; trivial
  | cons e es ih => intro s o h1 h2; exact ⟨⟨h1.1, h2.1⟩, ih _ _ h1.2 h2.2⟩

/-- **C53, completion.** If client and server agree on the block size, the transfer is reported complete
only when the whole file has been written. -/
theorem tftp_download_complete_partial (cfg : Cfg) (lp ip port : Nat) (name : List Nat) (s : Client) (es : List Ev) (B : Nat) (file : List Nat)
    (h : start cfg lp ip port name = some s) (hh : Honest B file s [] es) (ha : Agrees B s [] es)
    (hc : (run s [] es).1.state = .complete) : written (run s [] es).2 = file := by
  obtain ⟨h1, h2, h3, h4, h5, _⟩ := start_fields _ _ _ _ _ _ h
  have hp := tftp_download_prefix cfg lp ip port name s es B file h hh
  have := run_inv2 _ (DoneInv B file) (fun s o e hi hq => doneInv_step B file s o e hi hq) es s [] (runAll_and _ _ es s [] hh ha)
    ⟨⟨by simp [writes], fun _ => by rw [h5]; simp [writes]⟩, by rw [h2]; simp, by rw [h2]; simp⟩
  obtain ⟨hpos, hlt⟩ := this.done hc
  rw [hp]
  apply List.take_of_length_le
  generalize (writes (run s [] es).2).length = k at *
  obtain ⟨k', rfl⟩ : ∃ k', k = k' + 1 := ⟨k - 1, by omega⟩
  rw [blockOf, List.length_take, List.length_drop] at hlt
  simp only [Nat.add_sub_cancel] at hlt
  rw [Nat.succ_mul]
  omega

/-! ### C57: giving up -/

/-- Packets sent. -/
def sends (o : List Out) : List (List Nat) := o.filterMap fun
  | .send _ p => some p
  | _ => none

/-- Polls at the given times, with a working transport. -/
def polls (ts : List Nat) : List Ev := ts.map fun t => .poll {} t

theorem sends_append (a b : List Out) : sends (a ++ b) = sends a ++ sends b := by simp [sends]

theorem finish_sends (s : Client) (st : Status) : sends (finish s st).2 = [] := by
  rw [finish]; simp only; split <;> rfl

theorem poll_sends_bound : ∀ (ts : List Nat) (s : Client) (o : List Out), s.retries ≤ s.cfg.maxRetries →
    (sends (run s o (polls ts)).2).length + s.retries ≤ (sends o).length + s.cfg.maxRetries := by
  intro ts
  induction ts with
  | nil => intro s o h; simp only [polls, List.map_nil, run]; omega
  | cons t ts ih =>
    intro s o h
    show (sends (run (poll s {} t).1 (o ++ (poll s {} t).2) (polls ts)).2).length + s.retries ≤ _
    generalize hr : poll s {} t = r
    have same : ∀ s' : Client, s'.retries = s.retries → s'.cfg = s.cfg →
        (sends (run s' o (polls ts)).2).length + s.retries ≤ (sends o).length + s.cfg.maxRetries := by
      intro s' h1 h2
      have := ih s' o (by rw [h1, h2]; exact h)
      rw [h1, h2] at this; exact this
    rw [poll] at hr
    by_cases h1 : s.state ≠ .waitFirst ∧ s.state ≠ .recvData
    · rw [if_pos h1] at hr; subst hr; simp only [List.append_nil]; exact same s rfl rfl
    rw [if_neg h1] at hr
    by_cases h2 : s.lastTx.length = 0
    · rw [if_pos h2] at hr; subst hr; simp only [List.append_nil]; exact same s rfl rfl
    rw [if_neg h2] at hr
    by_cases h3 : s.deadline = 0
    · rw [if_pos h3] at hr; subst hr; simp only [List.append_nil]; exact same _ rfl rfl
    rw [if_neg h3] at hr
    by_cases h4 : before t s.deadline = true
    · rw [if_pos h4] at hr; subst hr; simp only [List.append_nil]; exact same s rfl rfl
    rw [if_neg h4] at hr
    by_cases h5 : s.retries ≥ s.cfg.maxRetries
    · rw [if_pos h5] at hr; subst hr
      have := ih (finish s .timeout).1 (o ++ (finish s .timeout).2) h
      rw [sends_append, finish_sends, List.append_nil] at this
      exact this
    · rw [if_neg h5] at hr; subst hr
      have := ih { s with retries := s.retries + 1, deadline := deadlineAt s.neg t } (o ++ [.send s.serverPort s.lastTx]) (by simp only; omega)
      rw [sends_append, show sends [Out.send s.serverPort s.lastTx] = [s.lastTx] from rfl, List.length_append, List.length_singleton] at this
      simp only at this
      show (sends (run { s with retries := s.retries + 1, deadline := deadlineAt s.neg t } (o ++ [.send s.serverPort s.lastTx]) (polls ts)).2).length + _ ≤ _
      omega

/-- Polls at least a timeout (and at most half the clock range) apart, on a 32-bit millisecond clock. -/
def Spaced (gap : Nat) : Nat → List Nat → Prop
  | _, [] => True
  | a, b :: ts => b < 4294967296 ∧ gap ≤ (b + 4294967296 - a) % 4294967296 ∧ (b + 4294967296 - a) % 4294967296 < 2147483648 ∧ Spaced gap b ts

theorem due_aux (T a b d : Nat) (hd : d = (a + T) % 4294967296) (ha : a < 4294967296) (hb : b < 4294967296)
    (h1 : T + 1 ≤ (b + 4294967296 - a) % 4294967296) (h2 : (b + 4294967296 - a) % 4294967296 < 2147483648) :
    ¬ (b + 4294967296 - (if d = 0 then 1 else d)) % 4294967296 ≥ 2147483648 ∧ (if d = 0 then 1 else d) ≠ 0 := by
  constructor <;> split <;> omega

theorem due (n : Neg) (a b : Nat) (ha : a < 4294967296) (hb : b < 4294967296)
    (h1 : n.timeout * 1000 + 1 ≤ (b + 4294967296 - a) % 4294967296) (h2 : (b + 4294967296 - a) % 4294967296 < 2147483648) :
    before b (deadlineAt n a) = false ∧ deadlineAt n a ≠ 0 := by
  have := due_aux (n.timeout * 1000) a b _ rfl ha hb h1 h2
  exact ⟨by rw [before, decide_eq_false_iff_not]; exact this.1, this.2⟩

theorem gives_up : ∀ (ts : List Nat) (s : Client) (o : List Out) (t0 : Nat), Active s → s.lastTx.length ≠ 0 → t0 < 4294967296 →
    s.deadline = deadlineAt s.neg t0 → s.retries + ts.length = s.cfg.maxRetries + 1 → Spaced (s.neg.timeout * 1000 + 1) t0 ts → ts ≠ [] →
    (run s o (polls ts)).1.state = .error ∧ (run s o (polls ts)).1.status = .timeout ∧
    sends (run s o (polls ts)).2 = sends o ++ List.replicate (ts.length - 1) s.lastTx := by
  intro ts
  induction ts with
  | nil => intro s o t0 _ _ _ _ _ _ h; exact absurd rfl h
  | cons t ts ih =>
    intro s o t0 hA hl ht0 hd hn hsp _
    obtain ⟨hb, hs1, hs2, hs3⟩ := hsp
    obtain ⟨hdue, hd0⟩ := due s.neg t0 t ht0 hb hs1 hs2
    have hstate : ¬ (s.state ≠ .waitFirst ∧ s.state ≠ .recvData) := by rcases hA with h | h <;> rw [h] <;> simp
    show (run (poll s {} t).1 (o ++ (poll s {} t).2) (polls ts)).1.state = _ ∧ (run (poll s {} t).1 (o ++ (poll s {} t).2) (polls ts)).1.status = _ ∧
      sends (run (poll s {} t).1 (o ++ (poll s {} t).2) (polls ts)).2 = _
    simp only [List.length_cons] at hn
    cases ts with
    | nil =>
      have hp : poll s {} t = finish s .timeout := by
        rw [poll, if_neg hstate, if_neg hl, if_neg (by rw [hd]; exact hd0), if_neg (by rw [hd, hdue]; simp), if_pos (by simp at hn; omega)]
      rw [hp]
      refine ⟨rfl, rfl, ?_⟩
      simp only [polls, List.map_nil, run, sends_append, finish_sends]
      simp
    | cons t' ts' =>
      have hlt : ¬ s.retries ≥ s.cfg.maxRetries := by simp only [List.length_cons] at hn; omega
      have hp : poll s {} t = ({ s with retries := s.retries + 1, deadline := deadlineAt s.neg t }, [.send s.serverPort s.lastTx]) := by
        rw [poll, if_neg hstate, if_neg hl, if_neg (by rw [hd]; exact hd0), if_neg (by rw [hd, hdue]; simp), if_neg hlt]
        rfl
      rw [hp]
      have := ih { s with retries := s.retries + 1, deadline := deadlineAt s.neg t } (o ++ [.send s.serverPort s.lastTx]) t hA hl hb rfl
        (by simp only [List.length_cons] at hn ⊢; omega) hs3 (by simp)
      refine ⟨this.1, this.2.1, ?_⟩
      rw [this.2.2, sends_append]
      simp only [List.length_cons, Nat.add_sub_cancel, List.replicate_succ]
      simp [sends]

/-- **C57, retries.** Whatever the poll times, an unanswered request is retransmitted at most `max_retries`
times. -/
theorem tftp_retries_bounded (cfg : Cfg) (lp ip port : Nat) (name : List Nat) (s : Client) (ts : List Nat)
    (h : start cfg lp ip port name = some s) : (sends (run s [] (polls ts)).2).length ≤ cfg.maxRetries := by
  obtain ⟨h1, _, _, _, _, h6, _⟩ := start_fields _ _ _ _ _ _ h
  have := poll_sends_bound ts s [] (by omega)
  rw [h6, h1] at this
  simpa [sends] using this

/-- **C57, giving up.** Polled `max_retries + 2` times at least a timeout apart, an unanswered client has
retransmitted its request exactly `max_retries` times and reports a timeout. -/
theorem tftp_unanswered_gives_up (cfg : Cfg) (lp ip port : Nat) (name : List Nat) (s : Client) (t : Nat) (ts : List Nat)
    (h : start cfg lp ip port name = some s) (hlen : ts.length = cfg.maxRetries + 1) (ht : t < 4294967296)
    (hsp : Spaced (cfg.timeout * 1000 + 1) t ts) :
    (run s [] (polls (t :: ts))).1.state = .error ∧ (run s [] (polls (t :: ts))).1.status = .timeout ∧
    sends (run s [] (polls (t :: ts))).2 = List.replicate cfg.maxRetries s.lastTx := by
  obtain ⟨h1, h2, _, _, _, h6, h7, h8, _, _, _, h9⟩ := start_fields _ _ _ _ _ _ h
  have hp : poll s {} t = ({ s with deadline := deadlineAt s.neg t }, []) := by
    rw [poll, if_neg (by rw [h2]; simp), if_neg (by omega), if_pos h7]
  have := gives_up ts { s with deadline := deadlineAt s.neg t } [] t (Or.inl h2) (by simp only; omega) ht rfl
    (by simp only; rw [h6, h1]; omega) (by simp only; rw [h8]; exact hsp) (by intro h; rw [h] at hlen; simp at hlen)
  show (run (poll s {} t).1 ([] ++ (poll s {} t).2) (polls ts)).1.state = _ ∧ (run (poll s {} t).1 ([] ++ (poll s {} t).2) (polls ts)).1.status = _ ∧
      sends (run (poll s {} t).1 ([] ++ (poll s {} t).2) (polls ts)).2 = _
  rw [hp]
  refine ⟨this.1, this.2.1, ?_⟩
  have h3 := this.2.2
  simp only [hlen, Nat.add_sub_cancel] at h3
  simpa [sends] using h3

/-! ### Examples and counterexamples -/

/-- A client that would like blocks of 16 bytes. -/
def cfg16 : Cfg := cfgDefaults { blksize := 16, timeout := 1, windowsize := 1, maxRetries := 3, maxImage := 0 }

def file20 : List Nat := List.range 20
/-- Nine bytes for a server with 8-byte blocks. -/
def file9 : List Nat := List.range 9

/-- The file arrives in two 16-byte blocks after an OACK that announces 16, with a duplicate in between. -/
def exRun : List Ev :=
  [.recv {} 1000 7 5000 ([0, 6] ++ wire kBlksize [49, 54]),
   .recv {} 1000 7 5000 (dataPkt 16 file20 1), .recv {} 1000 7 5000 (dataPkt 16 file20 1),
   .recv {} 1000 9 5000 [0, 5, 0, 0, 0], .recv {} 1000 7 5000 (dataPkt 16 file20 2)]

/-- The hypotheses of `tftp_download_complete_partial` are met by that run, and it completes. -/
example : ∃ s, start cfg16 1000 7 69 [97] = some s ∧ (run s [] exRun).1.state = .complete ∧ written (run s [] exRun).2 = file20 := by
  refine ⟨(start cfg16 1000 7 69 [97]).get (by decide +kernel), by decide +kernel, by decide +kernel, by decide +kernel⟩

/-- **C53 is false of the code when the server does not negotiate the block size** (it may ignore the option,
RFC 2347; blocks are then 512 bytes — here, to keep the example small, a server with 8-byte blocks): the
first full block is shorter than the client's configured size and ends the transfer, reported as a success,
with one byte of the file missing. -/
theorem tftp_download_truncated : ∃ s, start cfg16 1000 7 69 [97] = some s ∧
    Honest 8 file9 s [] [.recv {} 1000 7 5000 (dataPkt 8 file9 1)] ∧
    (run s [] [.recv {} 1000 7 5000 (dataPkt 8 file9 1)]).1.state = .complete ∧
    (run s [] [.recv {} 1000 7 5000 (dataPkt 8 file9 1)]).1.status = .ok ∧
    written (run s [] [.recv {} 1000 7 5000 (dataPkt 8 file9 1)]).2 ≠ file9 := by
  refine ⟨(start cfg16 1000 7 69 [97]).get (by decide +kernel), by decide +kernel, ⟨?_, trivial⟩, by decide +kernel, by decide +kernel, by decide +kernel⟩
  intro _ _ _
  exact ⟨1, rfl, by decide, by decide, by decide +kernel, by decide +kernel⟩

/-- The same with the standard 512-byte blocks and a client configured for 1024. -/
def cfg1024 : Cfg := cfgDefaults { blksize := 1024, timeout := 1, windowsize := 1, maxRetries := 3, maxImage := 0 }

theorem tftp_download_truncated_512 (file : List Nat) (h : 512 < file.length) : ∃ s, start cfg1024 1000 7 69 [97] = some s ∧
    (run s [] [.recv {} 1000 7 5000 (dataPkt 512 file 1)]).1.state = .complete ∧
    written (run s [] [.recv {} 1000 7 5000 (dataPkt 512 file 1)]).2 = file.take 512 := by
  refine ⟨(start cfg1024 1000 7 69 [97]).get (by decide +kernel), by decide +kernel, ?_⟩
  generalize hs : (start cfg1024 1000 7 69 [97]).get _ = s
  have hs' : start cfg1024 1000 7 69 [97] = some s := by rw [← hs]; simp
  have hcfg := start_fields _ _ _ _ _ _ hs'
  obtain ⟨h1, h2, h3, h4, h5, h6, h7, h8, h9, h10, h11, h12⟩ := hcfg
  have hh : s.handle = false ∧ s.windowCount = 0 := by rw [← hs]; decide +kernel
  have hb : blockOf 512 file 1 = file.take 512 := by simp [blockOf]
  have hbl : (file.take 512).length = 512 := by rw [List.length_take]; omega
  have hc : cfg1024.blksize = 1024 ∧ cfg1024.maxImage = 0 := by decide +kernel
  have hrd : rd16 (dataPkt 512 file 1) 0 = 3 ∧ rd16 (dataPkt 512 file 1) 2 = 1 ∧ (dataPkt 512 file 1).drop 4 = file.take 512 ∧
      (dataPkt 512 file 1).length = 516 := by
    refine ⟨by simp [rd16, dataPkt], by simp [rd16, dataPkt], by rw [← hb]; simp [dataPkt], ?_⟩
    simp only [dataPkt, List.length_append, hb, hbl]; rfl
  obtain ⟨r1, r2, r3, r4⟩ := hrd
  simp only [run, step, List.nil_append]
  generalize hr : receive s {} 1000 7 5000 (dataPkt 512 file 1) = r
  rw [receive, if_neg (by rw [h10]; simp), if_neg (by rw [h2]; simp), if_neg (by rw [h9]; simp), if_neg (by rw [h11]; simp), r4,
    if_neg (by omega), r1, if_neg (by omega), if_neg (by omega), if_neg (by omega), if_neg (by omega)] at hr
  simp only [h11, Bool.false_eq_true, if_false, h2, if_true, r2, r3] at hr
  rw [acceptData, if_pos h5.symm, if_neg (by simp only [hbl, h3, h1, hc.2]; omega), if_pos hh.1] at hr
  simp only [Bool.true_eq_false, if_false] at hr
  rw [acceptTail] at hr
  have hlt : 512 < (negDefaults s.cfg).blksize := by rw [h1]; exact (by decide +kernel : 512 < (negDefaults cfg1024).blksize)
  simp only [Bool.true_eq_false, if_false, and_false, hbl, hlt, decide_true, Bool.or_true, if_true] at hr
  subst hr
  refine ⟨rfl, ?_⟩
  simp [written, writes, finish]

end Wolf.Tftp
