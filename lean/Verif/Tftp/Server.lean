import Verif.Tftp.Client
/-!
# C54 (server), C55, C56: the TFTP server

Model of `wolftftp_server_*` (`src/tftp/wolftftp.c` 897–1417). A server has a table of session slots; it is
driven by packets and polls. What the callbacks answer comes with each event.
-/
namespace Wolf.Tftp.Srv
open Wolf.Tftp

/-! ## Model -/

/-- `struct wolftftp_server_session`; the states COMPLETE and ERROR are left at once (the slot is zeroed by
`wolftftp_server_finish`), so a slot is free, sending or receiving. src/tftp/wolftftp.h 224–260. -/
structure Sess where
  used : Bool := false
  isWrite : Bool := false
  ip : Nat := 0
  port : Nat := 0
  neg : Neg := { blksize := 0, timeout := 0, windowsize := 0 }
  handle : Bool := false
  nextOffset : Nat := 0
  total : Nat := 0
  deadline : Nat := 0
  wsOffset : Nat := 0
  wsTotal : Nat := 0
  wsBlock : Nat := 0
  wsFinal : Bool := false
  nextBlock : Nat := 0
  lastAcked : Nat := 0
  windowCount : Nat := 0
  retries : Nat := 0
  optionsSent : Bool := false
  oackOpts : Bits := {}
  finalSeen : Bool := false
deriving DecidableEq

/-- What the callbacks answer during one event. `read off max` is what `io.read` copies and its `is_last`
hint (`none` on failure); `send k` whether the `k`-th send counted from the end of a window succeeds. -/
structure SEnv where
  openOk : Bool := true
  openHandle : Bool := true
  openSize : Nat := 0
  writeOk : Bool := true
  hashOk : Bool := true
  verifyOk : Bool := true
  send : Nat → Bool := fun _ => true
  read : Nat → Nat → Option (List Nat × Bool) := fun _ _ => none

/-- What the server does for slot `i`. A `data` output is a read at `off` whose result was sent as DATA
block `n`. -/
inductive SOut where
  | err (code : Nat)
  | openFile (i : Nat) (name : List Nat) (isWrite : Bool)
  | data (i off n : Nat) (d : List Nat)
  | oack (i : Nat)
  | ack (i n : Nat)
  | write (i off : Nat) (d : List Nat)
  | verify (i total : Nat)
  | close (i : Nat)
deriving DecidableEq

/-- `wolftftp_server_finish`: the slot is zeroed. src/tftp/wolftftp.c 212–230. -/
def fin (i : Nat) (s : Sess) : Sess × List SOut := ({}, if s.handle then [.close i] else [])

/-- Would `len` more bytes pass the limit? The overflow test is written as a sum. -/
def tooLarge (M total len : Nat) : Bool :=
  decide (total + len > 4294967295) || (decide (M ≠ 0) && decide (len > (M + 4294967296 - total) % 4294967296))

/-- The loop of `wolftftp_server_send_window`, `n` rounds to go; the last component is success.
src/tftp/wolftftp.c 997–1048. -/
def winLoop (M : Nat) (env : SEnv) (i : Nat) : Nat → Sess → List SOut → Sess × List SOut × Bool
  | 0, s, o => (s, o, true)
  | n + 1, s, o =>
    match env.read s.nextOffset s.neg.blksize with
    | none => (s, o, false)
    | some (d, last) =>
      if tooLarge M s.total d.length then ((fin i s).1, o ++ [.err 3] ++ (fin i s).2, false)
      else if env.send n = false then (s, o, false)
      else
        let s1 : Sess := { s with
          nextOffset := (s.nextOffset + d.length) % 4294967296
          total := (s.total + d.length) % 4294967296
          windowCount := (s.windowCount + 1) % 65536
          nextBlock := (s.nextBlock + 1) % 65536 }
        let o1 := o ++ [.data i s.nextOffset s.nextBlock d]
        if d.length < s.neg.blksize then ({ s1 with finalSeen := true }, o1, true)
        else if last then (s1, o1, true)
        else winLoop M env i n s1 o1

/-- `wolftftp_server_send_window`. src/tftp/wolftftp.c 978–1051. -/
def sendWindow (M : Nat) (env : SEnv) (i : Nat) (s : Sess) : Sess × List SOut × Bool :=
  winLoop M env i s.neg.windowsize
    { s with wsOffset := s.nextOffset, wsTotal := s.total, wsBlock := s.nextBlock, wsFinal := s.finalSeen } []

/-- An ACK for a sending slot. src/tftp/wolftftp.c 1342–1364. -/
def recvAck (M : Nat) (env : SEnv) (i : Nat) (s : Sess) (n : Nat) : Sess × List SOut :=
  if n ≠ s.lastAcked ∧ n ≠ (s.nextBlock + 65535) % 65536 ∧ ¬ (s.optionsSent = true ∧ n = 0) then (s, [])
  else
    let s1 : Sess := { s with lastAcked := n, windowCount := 0, optionsSent := false, deadline := 0, retries := 0 }
    if s1.finalSeen = true ∧ n = (s1.nextBlock + 65535) % 65536 then fin i s1
    else
      let r := sendWindow M env i s1
      (if r.2.2 then { r.1 with deadline := 0 } else r.1, r.2.1)

/-- A DATA packet for a receiving slot. src/tftp/wolftftp.c 1210–1288. -/
def recvData (M : Nat) (env : SEnv) (i : Nat) (s : Sess) (n : Nat) (d : List Nat) : Sess × List SOut :=
  if n = s.nextBlock then
    let s0 := { s with optionsSent := false }
    if tooLarge M s0.total d.length then ((fin i s0).1, [.err 3] ++ (fin i s0).2)
    else if env.writeOk = false then ((fin i s0).1, [.write i s0.nextOffset d] ++ (fin i s0).2)
    else if d.length > 0 ∧ env.hashOk = false then ((fin i s0).1, [.write i s0.nextOffset d] ++ (fin i s0).2)
    else
      let s1 : Sess := { s0 with
        nextOffset := (s0.nextOffset + d.length) % 4294967296
        total := (s0.total + d.length) % 4294967296
        windowCount := (s0.windowCount + 1) % 65536
        nextBlock := (s0.nextBlock + 1) % 65536
        finalSeen := decide (d.length < s0.neg.blksize) }
      let o1 : List SOut := [.write i s0.nextOffset d]
      let ackNow : Bool := decide (s1.windowCount ≥ s1.neg.windowsize) || s1.finalSeen
      if ackNow = true ∧ env.send 0 = false then (s1, o1)
      else
        let s2 : Sess := if ackNow then { s1 with lastAcked := n, windowCount := 0, deadline := 0, retries := 0 } else s1
        let o2 := if ackNow then o1 ++ [.ack i n] else o1
        if s2.finalSeen then
          ((fin i s2).1, o2 ++ [.verify i s2.total] ++ (fin i s2).2)
        else (s2, o2)
  else if n = s.lastAcked ∨ n = (s.nextBlock + 65535) % 65536 then (s, if env.send 0 then [.ack i n] else [])
  else (s, [])

/-- One slot of `wolftftp_server_poll`. src/tftp/wolftftp.c 1375–1415. -/
def pollSess (M maxRetries : Nat) (env : SEnv) (i : Nat) (s : Sess) (now : Nat) : Sess × List SOut :=
  if s.used = false then (s, [])
  else if s.deadline = 0 then ({ s with deadline := deadlineAt s.neg now }, [])
  else if before now s.deadline then (s, [])
  else if s.retries ≥ maxRetries then fin i s
  else
    let r : Sess × List SOut :=
      if s.optionsSent then (s, [.oack i])
      else if s.isWrite then (s, [.ack i s.lastAcked])
      else
        let w := sendWindow M env i { s with nextOffset := s.wsOffset, total := s.wsTotal, nextBlock := s.wsBlock, finalSeen := s.wsFinal }
        (w.1, w.2.1)
    ({ r.1 with retries := (r.1.retries + 1) % 65536, deadline := deadlineAt r.1.neg now }, r.2)

/-- The server: configuration and slots. src/tftp/wolftftp.h 262–269. -/
structure Server where
  cfg : Cfg
  sess : List Sess

def slots : Nat := 4
def portBase : Nat := 20000
def listenPort : Nat := 69

/-- `wolftftp_server_init`. src/tftp/wolftftp.c 897–913. -/
def init (cfg : Cfg) : Server := { cfg := cfgDefaults cfg, sess := List.replicate slots {} }

def bitsOf (r : Req) : Bits :=
  { blksize := r.blksize.isSome, timeout := r.timeout.isSome, tsize := r.tsize.isSome, windowsize := r.windowsize.isSome }

def anyOpt (r : Req) : Bool := r.blksize.isSome || r.timeout.isSome || r.tsize.isSome || r.windowsize.isSome

/-- The end of `wolftftp_server_start_request`: OACK, ACK 0 or the first window.
src/tftp/wolftftp.c 1121–1154. -/
def startReply (cfg : Cfg) (env : SEnv) (i : Nat) (r : Req) (s : Sess) (o1 : List SOut) : Sess × List SOut :=
  if anyOpt r then ({ s with optionsSent := true, oackOpts := bitsOf r }, o1 ++ if env.send 0 then [.oack i] else [])
  else if s.isWrite then (s, o1 ++ if env.send 0 then [.ack i 0] else [])
  else
    let w := sendWindow cfg.maxImage env i s
    (if w.2.2 then { w.1 with deadline := 0 } else w.1, o1 ++ w.2.1)

/-- `wolftftp_server_start_request` for the free slot `i` (all callbacks installed).
src/tftp/wolftftp.c 1053–1155. -/
def startReq (cfg : Cfg) (env : SEnv) (i ip port : Nat) (r : Req) : Sess × List SOut :=
  let neg : Neg :=
    { blksize := r.blksize.getD cfg.blksize
      timeout := r.timeout.getD cfg.timeout
      windowsize := r.windowsize.getD cfg.windowsize
      tsize := r.tsize }
  let s : Sess := { used := true, isWrite := decide (r.opcode = 2), ip := ip, port := port, neg := neg, nextBlock := 1 }
  if cfg.maxImage ≠ 0 ∧ r.tsize.getD 0 > cfg.maxImage then ({}, [.err 3])
  else if env.openOk = false then ({}, [.openFile i r.filename s.isWrite, .err 1])
  else
    let s := { s with handle := env.openHandle }
    let o1 : List SOut := [.openFile i r.filename s.isWrite]
    let s := if s.isWrite = false ∧ r.tsize.isSome = true then { s with neg := { s.neg with tsize := some env.openSize } } else s
    startReply cfg env i r s o1

/-- `wolftftp_server_receive`. src/tftp/wolftftp.c 1290–1366. -/
def receive (sv : Server) (env : SEnv) (lp ip port : Nat) (m : List Nat) : Server × List SOut :=
  if lp = listenPort then
    match parseRequest m with
    | .ok r =>
      if sv.sess.any (fun s => s.used && s.ip == ip && s.port == port) then (sv, [])
      else
        match sv.sess.findIdx? (fun s => !s.used) with
        | none => (sv, [.err 0])
        | some i =>
          let x := startReq sv.cfg env i ip port r
          ({ sv with sess := sv.sess.set i x.1 }, x.2)
    | .unsupported => (sv, [.err 8])
    | _ => (sv, [.err 4])
  else
    let i := lp - portBase
    match sv.sess[i]? with
    | some s =>
      if lp ≥ portBase ∧ s.used = true ∧ s.ip = ip ∧ s.port = port then
        let op := rd16 m 0
        let put (x : Sess × List SOut) : Server × List SOut := ({ sv with sess := sv.sess.set i x.1 }, x.2)
        if m.length ≥ 2 ∧ op = 5 then put (fin i s)
        else if s.isWrite then
          if m.length < 4 ∨ op ≠ 3 then (sv, [])
          else put (recvData sv.cfg.maxImage env i s (rd16 m 2) (m.drop 4))
        else if op ≠ 4 ∨ m.length < 4 then (sv, [])
        else put (recvAck sv.cfg.maxImage env i s (rd16 m 2))
      else (sv, [.err 5])
    | none => (sv, [.err 5])

/-- `wolftftp_server_poll`: all slots; what the callbacks answer may differ by slot. -/
def pollAll (cfg : Cfg) (env : Nat → SEnv) (now : Nat) : Nat → List Sess → List Sess × List SOut
  | _, [] => ([], [])
  | i, s :: ss =>
    let x := pollSess cfg.maxImage cfg.maxRetries (env i) i s now
    let y := pollAll cfg env now (i + 1) ss
    (x.1 :: y.1, x.2 ++ y.2)

inductive SEv where
  | recv (env : SEnv) (lp ip port : Nat) (m : List Nat)
  | poll (env : Nat → SEnv) (now : Nat)

def step (sv : Server) : SEv → Server × List SOut
  | .recv env lp ip port m => receive sv env lp ip port m
  | .poll env now => let x := pollAll sv.cfg env now 0 sv.sess; ({ sv with sess := x.1 }, x.2)

def run (sv : Server) (o : List SOut) : List SEv → Server × List SOut
  | [] => (sv, o)
  | e :: es => run (step sv e).1 (o ++ (step sv e).2) es

/-! ## C56: every opened name is safe -/

def OpenOk (o : SOut) : Prop := ∀ i name w, o = .openFile i name w → Safe name ∧ name.length < 128 ∧ ∀ c ∈ name, c ≠ 0

def NoOpen (o : SOut) : Prop := ∀ i name w, o ≠ .openFile i name w

theorem fin_noOpen (i : Nat) (s : Sess) : ∀ o ∈ (fin i s).2, NoOpen o := by
  intro o ho i' n w; rw [fin] at ho; simp only at ho
  split at ho
  · simp at ho; rw [ho]; simp
  · simp at ho

theorem winLoop_noOpen (M : Nat) (env : SEnv) (i : Nat) : ∀ (n : Nat) (s : Sess) (o : List SOut), (∀ x ∈ o, NoOpen x) →
    ∀ x ∈ (winLoop M env i n s o).2.1, NoOpen x := by
  intro n
  induction n with
  | zero => intro s o h; exact h
  | succ n ih =>
    intro s o h
    have hd : ∀ a b c, ∀ x ∈ o ++ [SOut.data i a b c], NoOpen x := by
      intro a b c x hx
      rw [List.mem_append] at hx
      rcases hx with hx | hx
      · exact h x hx
      · simp at hx; rw [hx]; intro i' n' w'; simp
    rw [winLoop]
    cases env.read s.nextOffset s.neg.blksize with
    | none => exact h
    | some r =>
      obtain ⟨d, last⟩ := r
      simp only
      split
      · intro x hx
        simp only [List.mem_append] at hx
        rcases hx with (hx | hx) | hx
        · exact h x hx
        · simp at hx; rw [hx]; intro i' n' w'; simp
        · exact fin_noOpen i s x hx
      split
      · exact h
      split
      · exact hd _ _ _
      split
      · exact hd _ _ _
      · exact ih _ _ (hd _ _ _)

theorem sendWindow_noOpen (M : Nat) (env : SEnv) (i : Nat) (s : Sess) : ∀ x ∈ (sendWindow M env i s).2.1, NoOpen x :=
  winLoop_noOpen M env i _ _ [] (by simp)

theorem recvAck_noOpen (M : Nat) (env : SEnv) (i : Nat) (s : Sess) (n : Nat) : ∀ x ∈ (recvAck M env i s n).2, NoOpen x := by
  rw [recvAck]
  split
  · simp
  simp only
  split
  · exact fin_noOpen _ _
  · exact sendWindow_noOpen _ _ _ _

theorem recvData_noOpen (M : Nat) (env : SEnv) (i : Nat) (s : Sess) (n : Nat) (d : List Nat) : ∀ x ∈ (recvData M env i s n d).2, NoOpen x := by
  have hf : ∀ s' : Sess, ∀ x ∈ (fin i s').2, NoOpen x := fun s' => fin_noOpen i s'
  have hl : ∀ (l : List SOut) (s' : Sess), (∀ x ∈ l, NoOpen x) → ∀ x ∈ l ++ (fin i s').2, NoOpen x := by
    intro l s' h x hx
    rw [List.mem_append] at hx
    rcases hx with hx | hx
    · exact h x hx
    · exact hf s' x hx
  have one : ∀ (y : SOut), NoOpen y → ∀ x ∈ [y], NoOpen x := by intro y hy x hx; simp at hx; rw [hx]; exact hy
  have n1 : ∀ a b, NoOpen (.write i a b) := by intro a b i' n' w'; simp
  have n2 : ∀ a, NoOpen (.err a) := by intro a i' n' w'; simp
  have n3 : ∀ a, NoOpen (.ack i a) := by intro a i' n' w'; simp
  have n4 : ∀ a, NoOpen (.verify i a) := by intro a i' n' w'; simp
  rw [recvData]
  split
  · simp only
    split
    · exact hl _ _ (one _ (n2 _))
    split
    · exact hl _ _ (one _ (n1 _ _))
    split
    · exact hl _ _ (one _ (n1 _ _))
    split
    · exact one _ (n1 _ _)
    generalize hg : (if (decide ((s.windowCount + 1) % 65536 ≥ s.neg.windowsize) || decide (d.length < s.neg.blksize)) = true then
      [SOut.write i s.nextOffset d] ++ [.ack i n] else [SOut.write i s.nextOffset d]) = o2
    have ho2 : ∀ x ∈ o2, NoOpen x := by
      rw [← hg]; intro x hx; split at hx
      · simp at hx; rcases hx with rfl | rfl
        · exact n1 _ _
        · exact n3 _
      · exact one _ (n1 _ _) x hx
    have hv : ∀ t, ∀ x ∈ o2 ++ [SOut.verify i t], NoOpen x := by
      intro t x hx
      rw [List.mem_append] at hx
      rcases hx with hx | hx
      · exact ho2 x hx
      · exact one _ (n4 _) x hx
    split
    · split
      · exact hl _ _ (hv _)
      · exact ho2
    · split
      · exact hl _ _ (hv _)
      · exact ho2
  · split
    · simp only
      split
      · exact one _ (n3 _)
      · simp
    · simp

theorem pollSess_noOpen (M R : Nat) (env : SEnv) (i : Nat) (s : Sess) (now : Nat) : ∀ x ∈ (pollSess M R env i s now).2, NoOpen x := by
  rw [pollSess]
  split
  · simp
  split
  · simp
  split
  · simp
  split
  · exact fin_noOpen _ _
  · simp only
    split
    · intro x hx i' n w; simp at hx; rw [hx]; simp
    split
    · intro x hx i' n w; simp at hx; rw [hx]; simp
    · exact sendWindow_noOpen _ _ _ _

theorem pollAll_noOpen (cfg : Cfg) (env : Nat → SEnv) (now : Nat) : ∀ (ss : List Sess) (i : Nat), ∀ x ∈ (pollAll cfg env now i ss).2, NoOpen x := by
  intro ss
  induction ss with
  | nil => intro i; simp [pollAll]
  | cons s ss ih =>
    intro i x hx
    rw [pollAll] at hx
    simp only [List.mem_append] at hx
    rcases hx with hx | hx
    · exact pollSess_noOpen _ _ _ _ _ _ x hx
    · exact ih (i + 1) x hx

theorem startReply_opens (cfg : Cfg) (env : SEnv) (i : Nat) (r : Req) (s' : Sess) (w' : Bool) (j : Nat) (name : List Nat) (w : Bool)
    (hx : .openFile j name w ∈ (startReply cfg env i r s' [.openFile i r.filename w']).2) : name = r.filename := by
  rw [startReply] at hx
  have o1 : ∀ l : List SOut, .openFile j name w ∈ [SOut.openFile i r.filename w'] ++ l →
      .openFile j name w ∉ l → name = r.filename := by
    intro l h1 h2
    rw [List.mem_append] at h1
    rcases h1 with h1 | h1
    · simp at h1; exact h1.2.1
    · exact absurd h1 h2
  split at hx
  · exact o1 _ hx (by split <;> simp)
  split at hx
  · exact o1 _ hx (by split <;> simp)
  · exact o1 _ hx (fun h => absurd rfl (sendWindow_noOpen _ _ _ _ _ h j name w))

theorem startReq_opens (cfg : Cfg) (env : SEnv) (i ip port : Nat) (r : Req) : ∀ x ∈ (startReq cfg env i ip port r).2,
    ∀ j name w, x = .openFile j name w → name = r.filename := by
  intro x hx j name w he
  subst he
  rw [startReq] at hx
  simp only at hx
  split at hx
  · simp at hx
  split at hx
  · simp at hx; exact hx.2.1
  exact startReply_opens cfg env i r _ _ j name w hx

theorem step_opens (sv : Server) (e : SEv) : ∀ x ∈ (step sv e).2, OpenOk x := by
  have lift : ∀ l : List SOut, (∀ x ∈ l, NoOpen x) → ∀ x ∈ l, OpenOk x := fun l h x hx i n w he => absurd he (h x hx i n w)
  have one : ∀ a, ∀ x ∈ [SOut.err a], OpenOk x := by intro a x hx i n w he; simp at hx; rw [hx] at he; simp at he
  cases e with
  | poll env now => exact lift _ (pollAll_noOpen sv.cfg env now sv.sess 0)
  | recv env lp ip port m =>
    simp only [step]
    rw [receive]
    split
    · have hp := tftp_request_parse m
      cases hr : parseRequest m with
      | ok r =>
        simp only
        split
        · simp
        split
        · exact one _
        · intro x hx i n w he
          have hok := hp.2.2 r hr
          rw [startReq_opens _ _ _ _ _ _ x hx i n w he]
          exact ⟨hok.name, hok.nameLen, hok.nameNoNul⟩
      | unsupported => exact one _
      | packet => exact one _
      | oob => exact one _
      | running => exact one _
    · simp only
      split
      · split
        · split
          · exact lift _ (fin_noOpen _ _)
          split
          · split
            · simp
            · exact lift _ (recvData_noOpen _ _ _ _ _ _)
          split
          · simp
          · exact lift _ (recvAck_noOpen _ _ _ _ _)
        · exact one _
      · exact one _

theorem run_all (P : SOut → Prop) (h : ∀ sv e, ∀ x ∈ (step sv e).2, P x) : ∀ (es : List SEv) (sv : Server) (o : List SOut), (∀ x ∈ o, P x) →
    ∀ x ∈ (run sv o es).2, P x := by
  intro es
  induction es with
  | nil => intro sv o ho; exact ho
  | cons e es ih =>
    intro sv o ho
    apply ih
    intro x hx
    rw [List.mem_append] at hx
    rcases hx with hx | hx
    · exact ho x hx
    · exact h sv e x hx

/-- **C56.** Whatever packets reach the server and whenever it is polled, every file name given to the open
callback is safe. -/
theorem tftp_opened_names_safe (sv : Server) (es : List SEv) (i : Nat) (name : List Nat) (w : Bool)
    (h : .openFile i name w ∈ (run sv [] es).2) : Safe name ∧ name.length < 128 ∧ ∀ c ∈ name, c ≠ 0 :=
  run_all OpenOk step_opens es sv [] (by simp) _ h i name w rfl

end Wolf.Tftp.Srv
