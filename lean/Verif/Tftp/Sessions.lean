import Verif.Tftp.ServerLimit
/-! # C133: the sessions of the TFTP server -/
namespace Wolf.Tftp.Srv.Ses
open Wolf.Tftp

/-! ## Specification -/

/-- Every acknowledgment among the outputs of a slot is for block 0 or for a block handed to `write` before it (numbers
wrap at 65536). -/
def Acked (o : List SOut) : Prop :=
  ∀ k i n, o[k]? = some (.ack i n) → ∃ j, j ≤ (curWrites (o.take k)).length ∧ n = j % 65536

/-- Events with what the server did. -/
def trace (sv : Server) : List SEv → List (SEv × List SOut)
  | [] => []
  | e :: es => (e, (step sv e).2) :: trace (step sv e).1 es

def wasOpened (i : Nat) (x : SEv × List SOut) : Bool :=
  (match x.1 with | .recv env _ _ _ _ => env.openOk && env.openHandle | .poll _ _ => false) &&
  x.2.any (fun o => match o with | .openFile j _ _ => j == i | _ => false)

/-- Is a file open for slot `i` after these events? -/
def held (i : Nat) (h : Bool) : List (SEv × List SOut) → Bool
  | [] => h
  | x :: l => held i ((h || wasOpened i x) && !decide (.close i ∈ x.2)) l

/-- Only what is open is closed, and once. -/
def ClosesOk (i : Nat) (h : Bool) : List (SEv × List SOut) → Prop
  | [] => True
  | x :: l => x.2.count (.close i) ≤ (if h || wasOpened i x then 1 else 0) ∧ ClosesOk i ((h || wasOpened i x) && !decide (.close i ∈ x.2)) l

/-- No two sessions have the same peer. -/
def OnePer (sv : Server) : Prop := ∀ (i j : Nat) (s t : Sess), sv.sess[i]? = some s → sv.sess[j]? = some t → s.used = true → t.used = true →
  s.ip = t.ip → s.port = t.port → i = j

/-- Time on a 32-bit millisecond clock from `a` to `b`. -/
def elapsed (a b : Nat) : Nat := (b + 4294967296 - a % 4294967296) % 4294967296

/-- Polls more than `p` ms apart (and less than 24 days). -/
def Spaced (p : Nat) : Option Nat → List SEv → Prop
  | _, [] => True
  | last, .recv _ _ _ _ _ :: es => Spaced p last es
  | none, .poll _ now :: es => now < 4294967296 ∧ Spaced p (some now) es
  | some t, .poll _ now :: es => now < 4294967296 ∧ p < elapsed t now ∧ elapsed t now < 2147483648 ∧ Spaced p (some now) es

def pollCount (es : List SEv) : Nat := es.countP fun e => match e with | .poll _ _ => true | _ => false

/-- No packet comes from that peer to that session. -/
def QuietFor (i ip port : Nat) (es : List SEv) : Prop := ∀ env lp ip' port' m, .recv env lp ip' port' m ∈ es → ¬ (lp = portBase + i ∧ ip' = ip ∧ port' = port)

/-! ## Windows -/

/-- What a window does to a session and says. -/
structure WinRes (i : Nat) (s : Sess) (r : Sess × List SOut × Bool) : Prop where
  state : (r.1 = {} ∧ r.2.1.count (.close i) = if s.handle then 1 else 0) ∨
    (∃ a b c d f, r.1 = { s with nextOffset := a, total := b, windowCount := c, nextBlock := d, finalSeen := f }) ∧ .close i ∉ r.2.1
  outs : ∀ x ∈ r.2.1, (∃ off n d, x = .data i off n d) ∨ x = .err 3 ∨ x = .close i

theorem winLoop_res' (M : Nat) (env : SEnv) (i : Nat) : ∀ (n : Nat) (s : Sess) (o : List SOut),
    (∀ x ∈ o, ∃ off n d, x = .data i off n d) → WinRes i s (winLoop M env i n s o) := by
  intro n
  induction n with
  | zero =>
    intro s o h
    refine ⟨.inr ⟨⟨s.nextOffset, s.total, s.windowCount, s.nextBlock, s.finalSeen, rfl⟩, fun hm => ?_⟩, fun x hx => .inl (h x hx)⟩
    obtain ⟨_, _, _, e⟩ := h _ hm; cases e
  | succ n ih =>
    intro s o h
    have hno : .close i ∉ o := fun hm => by obtain ⟨_, _, _, e⟩ := h _ hm; cases e
    have hsame : WinRes i s (s, o, false) :=
      ⟨.inr ⟨⟨s.nextOffset, s.total, s.windowCount, s.nextBlock, s.finalSeen, rfl⟩, hno⟩, fun x hx => .inl (h x hx)⟩
    rw [winLoop]
    cases env.read s.nextOffset s.neg.blksize with
    | none => exact hsame
    | some r =>
      obtain ⟨d, last⟩ := r
      dsimp only
      have hd : ∀ x ∈ o ++ [SOut.data i s.nextOffset s.nextBlock d], ∃ off n d, x = .data i off n d := by
        intro x hx
        rw [List.mem_append] at hx
        rcases hx with hx | hx
        · exact h x hx
        · exact ⟨_, _, _, List.mem_singleton.1 hx⟩
      have hdno : .close i ∉ o ++ [SOut.data i s.nextOffset s.nextBlock d] := fun hm => by obtain ⟨_, _, _, e⟩ := hd _ hm; cases e
      split
      · refine ⟨.inl ⟨rfl, ?_⟩, ?_⟩
        · show (o ++ [SOut.err 3] ++ (fin i s).2).count (.close i) = _
          rw [List.count_append, List.count_append, List.count_eq_zero.2 hno]
          unfold fin
          cases s.handle <;> simp
        · intro x hx
          simp only [List.mem_append] at hx
          rcases hx with (hx | hx) | hx
          · exact .inl (h x hx)
          · exact .inr (.inl (List.mem_singleton.1 hx))
          · unfold fin at hx
            dsimp only at hx
            split at hx
            · exact .inr (.inr (List.mem_singleton.1 hx))
            · cases hx
      split
      · exact hsame
      split
      · exact ⟨.inr ⟨⟨_, _, _, _, _, rfl⟩, hdno⟩, fun x hx => .inl (hd x hx)⟩
      split
      · exact ⟨.inr ⟨⟨_, _, _, _, _, rfl⟩, hdno⟩, fun x hx => .inl (hd x hx)⟩
      · have := ih { s with
          nextOffset := (s.nextOffset + d.length) % 4294967296
          total := (s.total + d.length) % 4294967296
          windowCount := (s.windowCount + 1) % 65536
          nextBlock := (s.nextBlock + 1) % 65536 } _ hd
        refine ⟨?_, this.outs⟩
        rcases this.state with q | ⟨⟨a, b, c, d', f, q⟩, q'⟩
        · exact .inl q
        · exact .inr ⟨⟨a, b, c, d', f, q⟩, q'⟩

/-- … with the place the window starts recorded. -/
structure WinRes' (i : Nat) (s : Sess) (r : Sess × List SOut × Bool) : Prop where
  state : (r.1 = {} ∧ r.2.1.count (.close i) = if s.handle then 1 else 0) ∨
    (∃ a b c d f g h k l, r.1 = { s with nextOffset := a, total := b, windowCount := c, nextBlock := d, finalSeen := f, wsOffset := g, wsTotal := h, wsBlock := k, wsFinal := l }) ∧ .close i ∉ r.2.1
  outs : ∀ x ∈ r.2.1, (∃ off n d, x = .data i off n d) ∨ x = .err 3 ∨ x = .close i

theorem sendWindow_res (M : Nat) (env : SEnv) (i : Nat) (s : Sess) : WinRes' i s (sendWindow M env i s) := by
  have := winLoop_res' M env i s.neg.windowsize
    { s with wsOffset := s.nextOffset, wsTotal := s.total, wsBlock := s.nextBlock, wsFinal := s.finalSeen } [] nofun
  refine ⟨?_, this.outs⟩
  rcases this.state with q | ⟨⟨a, b, c, d', f, q⟩, q'⟩
  · exact .inl q
  · exact .inr ⟨⟨a, b, c, d', f, _, _, _, _, q⟩, q'⟩

theorem fin_outs (i : Nat) (s : Sess) : (fin i s).2.count (.close i) = (if s.handle then 1 else 0) ∧ (∀ x ∈ (fin i s).2, x = .close i) := by
  unfold fin
  cases s.handle with
  | true => exact ⟨by simp, fun x hx => List.mem_singleton.1 hx⟩
  | false => exact ⟨by simp, fun x hx => (by cases hx)⟩

/-! ## What one thing done to a slot leaves and says -/

/-- The session is over and its file closed, or it goes on under the same terms; no file is opened. -/
structure Turn (i : Nat) (s : Sess) (x : Sess × List SOut) : Prop where
  state : (x.1.used = false ∧ x.1.handle = false ∧ x.2.count (.close i) = if s.handle then 1 else 0) ∨
    (x.1.used = s.used ∧ x.1.handle = s.handle ∧ x.1.ip = s.ip ∧ x.1.port = s.port ∧ x.1.isWrite = s.isWrite ∧ x.1.neg = s.neg ∧
      x.1.oackOpts = s.oackOpts ∧ .close i ∉ x.2)
  noOpen : ∀ o ∈ x.2, NoOpen o

theorem turn_fin (i : Nat) (s : Sess) : Turn i s (fin i s) := ⟨.inl ⟨rfl, rfl, (fin_outs i s).1⟩, fin_noOpen i s⟩

theorem turn_ack (M : Nat) (env : SEnv) (i : Nat) (s : Sess) (n : Nat) : Turn i s (recvAck M env i s n) := by
  refine ⟨?_, recvAck_noOpen M env i s n⟩
  unfold recvAck
  split
  · exact .inr ⟨rfl, rfl, rfl, rfl, rfl, rfl, rfl, nofun⟩
  dsimp only
  split
  · exact .inl ⟨rfl, rfl, (fin_outs i _).1⟩
  · have w := (sendWindow_res M env i { s with lastAcked := n, windowCount := 0, optionsSent := false, deadline := 0, retries := 0 }).state
    generalize sendWindow M env i { s with lastAcked := n, windowCount := 0, optionsSent := false, deadline := 0, retries := 0 } = r at w
    rcases w with ⟨q1, q2⟩ | ⟨⟨a, b, c, d, f, g, h, k, l, q1⟩, q2⟩
    · refine .inl ⟨?_, ?_, q2⟩ <;> (dsimp only; split <;> rw [q1])
    · refine .inr ⟨?_, ?_, ?_, ?_, ?_, ?_, ?_, q2⟩ <;> (dsimp only; split <;> rw [q1])

theorem close_app {i : Nat} {l : List SOut} (s : Sess) (h : .close i ∉ l) : (l ++ (fin i s).2).count (.close i) = if s.handle then 1 else 0 := by
  rw [List.count_append, List.count_eq_zero.2 h, Nat.zero_add, (fin_outs i s).1]

theorem turn_data (M : Nat) (env : SEnv) (i : Nat) (s : Sess) (n : Nat) (d : List Nat) : Turn i s (recvData M env i s n d) := by
  refine ⟨?_, recvData_noOpen M env i s n d⟩
  unfold recvData
  split
  · dsimp only
    split
    · exact .inl ⟨rfl, rfl, close_app _ (by simp)⟩
    split
    · exact .inl ⟨rfl, rfl, close_app _ (by simp)⟩
    split
    · exact .inl ⟨rfl, rfl, close_app _ (by simp)⟩
    split
    · exact .inr ⟨rfl, rfl, rfl, rfl, rfl, rfl, rfl, by simp⟩
    split
    · split
      · exact .inl ⟨rfl, rfl, close_app _ (by simp)⟩
      · exact .inr ⟨rfl, rfl, rfl, rfl, rfl, rfl, rfl, by simp⟩
    · split
      · exact .inl ⟨rfl, rfl, close_app _ (by simp)⟩
      · exact .inr ⟨rfl, rfl, rfl, rfl, rfl, rfl, rfl, by simp⟩
  · split
    · refine .inr ⟨rfl, rfl, rfl, rfl, rfl, rfl, rfl, ?_⟩
      dsimp only
      split <;> simp
    · exact .inr ⟨rfl, rfl, rfl, rfl, rfl, rfl, rfl, nofun⟩

theorem turn_poll (M R : Nat) (env : SEnv) (i : Nat) (s : Sess) (now : Nat) : Turn i s (pollSess M R env i s now) := by
  refine ⟨?_, pollSess_noOpen M R env i s now⟩
  unfold pollSess
  split
  · exact .inr ⟨rfl, rfl, rfl, rfl, rfl, rfl, rfl, nofun⟩
  split
  · exact .inr ⟨rfl, rfl, rfl, rfl, rfl, rfl, rfl, nofun⟩
  split
  · exact .inr ⟨rfl, rfl, rfl, rfl, rfl, rfl, rfl, nofun⟩
  split
  · exact .inl ⟨rfl, rfl, (fin_outs i s).1⟩
  dsimp only
  split
  · exact .inr ⟨rfl, rfl, rfl, rfl, rfl, rfl, rfl, by simp⟩
  split
  · exact .inr ⟨rfl, rfl, rfl, rfl, rfl, rfl, rfl, by simp⟩
  · have w := (sendWindow_res M env i { s with nextOffset := s.wsOffset, total := s.wsTotal, nextBlock := s.wsBlock, finalSeen := s.wsFinal }).state
    generalize sendWindow M env i { s with nextOffset := s.wsOffset, total := s.wsTotal, nextBlock := s.wsBlock, finalSeen := s.wsFinal } = r at w
    rcases w with ⟨q1, q2⟩ | ⟨⟨a, b, c, d, f, g, h, k, l, q1⟩, q2⟩
    · exact .inl ⟨by dsimp only; rw [q1], by dsimp only; rw [q1], q2⟩
    · refine .inr ⟨?_, ?_, ?_, ?_, ?_, ?_, ?_, q2⟩ <;> (dsimp only; rw [q1])

/-- A new session. -/
structure Fresh (env : SEnv) (i ip port : Nat) (r : Req) (x : Sess × List SOut) : Prop where
  state : (x.1.used = false ∧ x.1.handle = false ∧
      ((env.openOk = true → env.openHandle = true → (∃ n w, .openFile i n w ∈ x.2) → x.2.count (.close i) = 1) ∧
       ((∀ n w, .openFile i n w ∉ x.2) ∨ env.openOk = false ∨ env.openHandle = false → .close i ∉ x.2))) ∨
    (x.1.used = true ∧ x.1.handle = env.openHandle ∧ x.1.ip = ip ∧ x.1.port = port ∧ x.1.deadline = 0 ∧ x.1.retries = 0 ∧
      x.1.isWrite = decide (r.opcode = 2) ∧ env.openOk = true ∧ .close i ∉ x.2 ∧ (∃ n w, .openFile i n w ∈ x.2) ∧
      (anyOpt r = true → x.1.optionsSent = true ∧ x.1.oackOpts = bitsOf r) ∧
      (∀ v, r.blksize = some v → x.1.neg.blksize = v) ∧ (∀ v, r.timeout = some v → x.1.neg.timeout = v) ∧
      (∀ v, r.windowsize = some v → x.1.neg.windowsize = v) ∧
      (∀ v, r.tsize = some v → x.1.neg.tsize = some (if r.opcode = 2 then v else env.openSize)))

theorem fresh_start (cfg : Cfg) (env : SEnv) (i ip port : Nat) (r : Req) : Fresh env i ip port r (startReq cfg env i ip port r) := by
  unfold startReq
  dsimp only
  split
  · exact ⟨.inl ⟨rfl, rfl, ⟨fun _ _ h => by obtain ⟨n, w, h⟩ := h; simp at h, fun _ => by simp⟩⟩⟩
  split
  · rename_i hok
    exact ⟨.inl ⟨rfl, rfl, ⟨fun h => (by rw [h] at hok; cases hok), fun _ => by simp⟩⟩⟩
  rename_i hok
  have hok : env.openOk = true := by simpa using hok
  obtain ⟨s, es, h1, h2, h3, h4, h5, h6, h7, h8⟩ : ∃ s : Sess,
      (if decide (r.opcode = 2) = false ∧ r.tsize.isSome = true then
        { used := true, isWrite := decide (r.opcode = 2), ip := ip, port := port
          neg := { blksize := r.blksize.getD cfg.blksize, timeout := r.timeout.getD cfg.timeout, windowsize := r.windowsize.getD cfg.windowsize, tsize := some env.openSize }
          handle := env.openHandle, nextBlock := 1 }
      else
        { used := true, isWrite := decide (r.opcode = 2), ip := ip, port := port
          neg := { blksize := r.blksize.getD cfg.blksize, timeout := r.timeout.getD cfg.timeout, windowsize := r.windowsize.getD cfg.windowsize, tsize := r.tsize }
          handle := env.openHandle, nextBlock := 1 } : Sess) = s ∧ s.used = true ∧ s.handle = env.openHandle ∧ s.ip = ip ∧ s.port = port ∧
      s.deadline = 0 ∧ s.retries = 0 ∧ s.isWrite = decide (r.opcode = 2) ∧
      ((∀ v, r.blksize = some v → s.neg.blksize = v) ∧ (∀ v, r.timeout = some v → s.neg.timeout = v) ∧
       (∀ v, r.windowsize = some v → s.neg.windowsize = v) ∧
       (∀ v, r.tsize = some v → s.neg.tsize = some (if r.opcode = 2 then v else env.openSize))) := by
    refine ⟨_, rfl, ?_⟩
    split
    · rename_i hc
      have hop : ¬ r.opcode = 2 := by simpa using hc.1
      refine ⟨rfl, rfl, rfl, rfl, rfl, rfl, rfl, ?_, ?_, ?_, ?_⟩
      · intro v e; show r.blksize.getD _ = v; rw [e]; rfl
      · intro v e; show r.timeout.getD _ = v; rw [e]; rfl
      · intro v e; show r.windowsize.getD _ = v; rw [e]; rfl
      · intro v e; rw [if_neg hop]
    · rename_i hc
      refine ⟨rfl, rfl, rfl, rfl, rfl, rfl, rfl, ?_, ?_, ?_, ?_⟩
      · intro v e; show r.blksize.getD _ = v; rw [e]; rfl
      · intro v e; show r.timeout.getD _ = v; rw [e]; rfl
      · intro v e; show r.windowsize.getD _ = v; rw [e]; rfl
      · intro v e
        have hop : r.opcode = 2 := by
          refine Decidable.byContradiction fun c => hc ⟨by simpa using c, by rw [e]; rfl⟩
        show r.tsize = _
        rw [if_pos hop, e]
  refine ⟨?_⟩
  rw [es]
  unfold startReply
  split
  · rename_i ha
    exact .inr ⟨h1, h2, h3, h4, h5, h6, h7, hok, by dsimp only; split <;> simp, ⟨r.filename, decide (r.opcode = 2), by simp⟩, fun _ => ⟨rfl, rfl⟩, h8⟩
  rename_i ha
  split
  · exact .inr ⟨h1, h2, h3, h4, h5, h6, h7, hok, by dsimp only; split <;> simp, ⟨r.filename, decide (r.opcode = 2), by simp⟩, fun c => absurd c ha, h8⟩
  · have w := sendWindow_res cfg.maxImage env i s
    dsimp only
    generalize sendWindow cfg.maxImage env i s = q at w
    rcases w.state with ⟨q1, q2⟩ | ⟨⟨a, b, c, d, f, g, h, k, l, q1⟩, q2⟩
    · refine .inl ⟨?_, ?_, ?_, ?_⟩
      · split <;> rw [q1]
      · split <;> rw [q1]
      · intro _ b _
        show ([SOut.openFile i r.filename _] ++ q.2.1).count _ = 1
        rw [List.count_append, q2, h2, b]
        simp
      · intro hc hm
        rw [List.mem_append] at hm
        rcases hm with hm | hm
        · simp at hm
        · have hz : q.2.1.count (.close i) ≠ 0 := by
            have := List.count_pos_iff.2 hm
            omega
          rcases hc with hc | hc | hc
          · exact hc r.filename (decide (r.opcode = 2)) (by simp)
          · rw [hok] at hc; cases hc
          · rw [q2, h2, hc] at hz; exact hz rfl
    · refine .inr ⟨?_, ?_, ?_, ?_, ?_, ?_, ?_, hok, ?_, ⟨r.filename, decide (r.opcode = 2), by simp⟩, fun c => absurd c ha, ?_⟩
      all_goals try (split <;> rw [q1] <;> first | exact h1 | exact h2 | exact h3 | exact h4 | exact h5 | exact h6 | exact h7 | exact h8 | rfl)
      intro hm
      rw [List.mem_append] at hm
      rcases hm with hm | hm
      · simp at hm
      · exact q2 hm

end Wolf.Tftp.Srv.Ses
