import Verif.Tftp.ServerLimit
/-!
# C55: a served file

A reading session of the server (`recvAck`, `pollSess`) fed with acknowledgments and polls. The property as
worded is false of the code: a duplicate of the last acknowledgment moves the server past blocks the client
never acknowledged (`tftp_server_skips_on_duplicate_ack`). It is proved for clients whose acknowledgments
each arrive at most once.
-/
namespace Wolf.Tftp.Srv
open Wolf.Tftp

/-! ## Specification -/

/-- What happens on the wire of one session: the client's acknowledgment of block `m` arrives, or DATA block
number `n` with the bytes `d` read at offset `off` goes out. -/
inductive Wire where
  | rx (m : Nat)
  | tx (off n : Nat) (d : List Nat)
deriving DecidableEq

def acksOf (l : List Wire) : List Nat := l.filterMap fun
  | .rx m => some m
  | _ => none

/-- Which block (from 1) of the file each DATA packet carried, judged by its place in the file. -/
def blocksOf (B : Nat) (l : List Wire) : List Nat := l.filterMap fun
  | .tx off _ _ => some (off / B + 1)
  | _ => none

/-- The callbacks read the file (or fail). -/
def ReadsFile (file : List Nat) (env : SEnv) : Prop :=
  ∀ off max d last, env.read off max = some (d, last) → d = (file.drop off).take max

/-- The acknowledgment of block `m` (a true block number; the wire carries it modulo 65536) is one the client
may send when `log` has happened: block `m` was sent (or `m = 0` answers the OACK), it is not older than the
numbering allows to tell, and it has not arrived before. -/
def FreshAck (B : Nat) (opt : Bool) (log : List Wire) (m : Nat) : Prop :=
  ((m = 0 ∧ opt = true) ∨ m ∈ blocksOf B log) ∧ (∀ j ∈ blocksOf B log, j < m + 65536) ∧ m ∉ acksOf log

/-- DATA packet of block `j` of the file. -/
def IsBlock (B : Nat) (file : List Nat) (j off n : Nat) (d : List Nat) : Prop :=
  1 ≤ j ∧ n = j % 65536 ∧ off = (j - 1) * B ∧ d = blockOf B file j ∧ (j - 1) * B ≤ file.length

/-! ## Sessions -/

inductive REv where
  | ack (env : SEnv) (m : Nat)
  | poll (env : SEnv) (now : Nat)

def txs (o : List SOut) : List Wire := o.filterMap fun
  | .data _ off n d => some (.tx off n d)
  | _ => none

/-- One event at a reading session. -/
def rstep (cfg : Cfg) (i : Nat) (s : Sess) : REv → Sess × List Wire
  | .ack env m => if s.used then let r := recvAck cfg.maxImage env i s (m % 65536); (r.1, .rx m :: txs r.2) else (s, [])
  | .poll env now => let r := pollSess cfg.maxImage cfg.maxRetries env i s now; (r.1, txs r.2)

def rrun (cfg : Cfg) (i : Nat) (s : Sess) (log : List Wire) : List REv → Sess × List Wire
  | [] => (s, log)
  | e :: es => rrun cfg i (rstep cfg i s e).1 (log ++ (rstep cfg i s e).2) es

/-- The event is fair when `log` has happened. -/
def FairEv (B : Nat) (opt : Bool) (file : List Nat) (log : List Wire) : REv → Prop
  | .ack env m => ReadsFile file env ∧ FreshAck B opt log m
  | .poll env _ => ReadsFile file env

def Fair (cfg : Cfg) (i B : Nat) (opt : Bool) (file : List Nat) (s : Sess) (log : List Wire) : List REv → Prop
  | [] => True
  | e :: es => (s.used = true → FairEv B opt file log e) ∧ Fair cfg i B opt file (rstep cfg i s e).1 (log ++ (rstep cfg i s e).2) es

/-! ## Proof -/

theorem acksOf_append (a b : List Wire) : acksOf (a ++ b) = acksOf a ++ acksOf b := by simp [acksOf]
theorem blocksOf_append (B : Nat) (a b : List Wire) : blocksOf B (a ++ b) = blocksOf B a ++ blocksOf B b := by simp [blocksOf]
theorem txs_append (a b : List SOut) : txs (a ++ b) = txs a ++ txs b := by simp [txs]

theorem acksOf_txs (o : List SOut) : acksOf (txs o) = [] := by
  induction o with
  | nil => rfl
  | cons x o ih =>
    have : txs (x :: o) = txs [x] ++ txs o := by rw [← txs_append]; rfl
    rw [this, acksOf_append, ih]
    cases x <;> rfl

theorem txs_fin (i : Nat) (s : Sess) : txs (fin i s).2 = [] := by rw [fin]; simp only; split <;> rfl

/-- `N` blocks have been sent in sequence. -/
structure At (B : Nat) (file : List Nat) (N : Nat) (s : Sess) : Prop where
  blk : s.nextBlock = (N + 1) % 65536
  off : s.nextOffset = min (N * B) file.length
  tot : s.total = min (N * B) file.length
  fin : s.finalSeen = decide (file.length < N * B)
  pos : 1 ≤ N → (N - 1) * B ≤ file.length

/-- The fields a window leaves alone. -/
structure Same (s s' : Sess) : Prop where
  used : s'.used = s.used
  wr : s'.isWrite = s.isWrite
  neg : s'.neg = s.neg
  la : s'.lastAcked = s.lastAcked
  wo : s'.wsOffset = s.wsOffset
  wt : s'.wsTotal = s.wsTotal
  wb : s'.wsBlock = s.wsBlock
  wf : s'.wsFinal = s.wsFinal
  os : s'.optionsSent = s.optionsSent

/-- What a window of up to `k` blocks after block `N` does. -/
structure WinRes (B : Nat) (file : List Nat) (N k : Nat) (s : Sess) (l : List Wire) (s' : Sess) : Prop where
  good : ∀ off n d, .tx off n d ∈ l → ∃ j, N < j ∧ j ≤ N + k ∧ IsBlock B file j off n d
  noRx : acksOf l = []
  st : s'.used = false ∨ ∃ N', N ≤ N' ∧ N' ≤ N + k ∧ At B file N' s' ∧ Same s s' ∧ (N' = N ∨ N' ∈ blocksOf B l)

theorem isBlock_idx {B : Nat} {file : List Nat} {j off n : Nat} {d : List Nat} (hB : 0 < B) (h : IsBlock B file j off n d) : off / B + 1 = j := by
  obtain ⟨h1, _, h2, _⟩ := h
  rw [h2, Nat.mul_div_cancel _ hB]; omega

theorem winLoop_res (M : Nat) (env : SEnv) (i B : Nat) (file : List Nat) (hB : 0 < B) (hlen : file.length < 4294967296) (henv : ReadsFile file env) :
    ∀ (k : Nat) (s : Sess) (o : List SOut) (N : Nat), s.neg.blksize = B → At B file N s → N * B ≤ file.length →
    ∃ l, (winLoop M env i k s o).2.1 = o ++ l ∧ WinRes B file N k s (txs l) (winLoop M env i k s o).1 := by
  intro k
  have stay : ∀ (k : Nat) (s : Sess) (N : Nat), At B file N s → WinRes B file N k s (txs []) s := fun k s N h =>
    ⟨by intro a b c hx; simp [txs] at hx, rfl, Or.inr ⟨N, Nat.le_refl _, Nat.le_add_right _ _, h, ⟨rfl, rfl, rfl, rfl, rfl, rfl, rfl, rfl, rfl⟩, Or.inl rfl⟩⟩
  induction k with
  | zero => intro s o N hneg hat hN; exact ⟨[], by simp [winLoop], stay 0 s N hat⟩
  | succ k ih =>
    intro s o N hneg hat hN
    rw [winLoop]
    cases hrd : env.read s.nextOffset s.neg.blksize with
    | none => exact ⟨[], by simp, stay _ s N hat⟩
    | some r =>
      obtain ⟨d, last⟩ := r
      simp only
      have hd := henv _ _ _ _ hrd
      have hoff : s.nextOffset = N * B := by rw [hat.off]; exact Nat.min_eq_left hN
      have htot : s.total = N * B := by rw [hat.tot]; exact Nat.min_eq_left hN
      have hdl : d.length = min B (file.length - N * B) := by rw [hd, hneg, hoff, List.length_take, List.length_drop]
      by_cases htl : tooLarge M s.total d.length = true
      · rw [if_pos htl]
        refine ⟨[.err 3] ++ (Srv.fin i s).2, by simp, ?_⟩
        refine ⟨?_, acksOf_txs _, Or.inl rfl⟩
        intro a b c hx; rw [txs_append, txs_fin] at hx; simp [txs] at hx
      rw [if_neg htl]
      by_cases hsend : env.send k = false
      · rw [if_pos hsend]; exact ⟨[], by simp, stay _ s N hat⟩
      rw [if_neg hsend]
      have hblk : IsBlock B file (N + 1) s.nextOffset s.nextBlock d := by
        refine ⟨by omega, hat.blk, by rw [hoff]; simp, ?_, by simpa using hN⟩
        rw [hd, hneg, hoff, blockOf]; simp
      have hm : (N + 1) * B = N * B + B := Nat.succ_mul N B
      have hoff' : (s.nextOffset + d.length) % 4294967296 = min ((N + 1) * B) file.length := by
        rw [hoff, Nat.mod_eq_of_lt (by omega)]; omega
      have htot' : (s.total + d.length) % 4294967296 = min ((N + 1) * B) file.length := by
        rw [htot, Nat.mod_eq_of_lt (by omega)]; omega
      have hnb : (s.nextBlock + 1) % 65536 = (N + 1 + 1) % 65536 := by rw [hat.blk]; omega
      have one : blocksOf B (txs [SOut.data i s.nextOffset s.nextBlock d]) = [N + 1] := by
        simp [txs, blocksOf, isBlock_idx hB hblk]
      have goodOne : ∀ off n d', Wire.tx off n d' ∈ txs [SOut.data i s.nextOffset s.nextBlock d] → ∃ j, N < j ∧ j ≤ N + (k + 1) ∧ IsBlock B file j off n d' := by
        intro off n d' hx
        simp [txs] at hx
        exact ⟨N + 1, by omega, by omega, by rw [hx.1, hx.2.1, hx.2.2]; exact hblk⟩
      by_cases hs : d.length < s.neg.blksize
      · rw [if_pos hs]
        refine ⟨[SOut.data i s.nextOffset s.nextBlock d], rfl, goodOne, acksOf_txs _, Or.inr ⟨N + 1, by omega, by omega, ?_, ⟨rfl, rfl, rfl, rfl, rfl, rfl, rfl, rfl, rfl⟩, Or.inr (by rw [one]; simp)⟩⟩
        refine ⟨hnb, hoff', htot', ?_, fun _ => by simpa using hN⟩
        symm; rw [decide_eq_true_eq]; rw [hneg] at hs; omega
      rw [if_neg hs]
      have hnext : (N + 1) * B ≤ file.length := by rw [hneg] at hs; omega
      have hf : s.finalSeen = decide (file.length < (N + 1) * B) := by
        rw [hat.fin, decide_eq_false (by omega), decide_eq_false (by omega)]
      by_cases hl : last = true
      · rw [if_pos hl]
        exact ⟨[SOut.data i s.nextOffset s.nextBlock d], rfl, goodOne, acksOf_txs _, Or.inr ⟨N + 1, by omega, by omega, ⟨hnb, hoff', htot', hf, fun _ => by simpa using hN⟩,
          ⟨rfl, rfl, rfl, rfl, rfl, rfl, rfl, rfl, rfl⟩, Or.inr (by rw [one]; simp)⟩⟩
      rw [if_neg hl]
      obtain ⟨l, e1, e2⟩ := ih { s with
          nextOffset := (s.nextOffset + d.length) % 4294967296
          total := (s.total + d.length) % 4294967296
          windowCount := (s.windowCount + 1) % 65536
          nextBlock := (s.nextBlock + 1) % 65536 } (o ++ [SOut.data i s.nextOffset s.nextBlock d]) (N + 1) hneg
        ⟨hnb, hoff', htot', hf, fun _ => by simpa using hN⟩ hnext
      refine ⟨[SOut.data i s.nextOffset s.nextBlock d] ++ l, by rw [e1]; simp, ?_, acksOf_txs _, ?_⟩
      · intro off n d' hx
        rw [txs_append, List.mem_append] at hx
        rcases hx with hx | hx
        · exact goodOne off n d' hx
        · obtain ⟨j, h1, h2, h3⟩ := e2.good off n d' hx
          exact ⟨j, by omega, by omega, h3⟩
      · rcases e2.st with h | ⟨N', h1, h2, h3, h4, h5⟩
        · exact Or.inl h
        · refine Or.inr ⟨N', by omega, by omega, h3, ⟨h4.used, h4.wr, h4.neg, h4.la, h4.wo, h4.wt, h4.wb, h4.wf, h4.os⟩, Or.inr ?_⟩
          rw [txs_append, blocksOf_append, one, List.mem_append]
          rcases h5 with h5 | h5
          · left; rw [h5]; simp
          · right; exact h5

/-- The session between events: `A` blocks acknowledged, `N` sent in sequence. -/
structure SInv (B ws : Nat) (opt : Bool) (file : List Nat) (A N : Nat) (s : Sess) (log : List Wire) : Prop where
  wr : s.isWrite = false
  blk : s.neg.blksize = B
  win : s.neg.windowsize = ws
  att : At B file N s
  la : s.lastAcked = A % 65536
  le : A ≤ N
  notFin : A * B ≤ file.length
  up : N ≤ A + ws
  sent : ∀ j ∈ blocksOf B log, 1 ≤ j ∧ j ≤ A + ws
  nsent : N = 0 ∨ N ∈ blocksOf B log
  acked : A = 0 ∨ (A ∈ acksOf log ∧ A ∈ blocksOf B log)
  snap : s.optionsSent = false → s.wsBlock = (A + 1) % 65536 ∧ s.wsOffset = A * B ∧ s.wsTotal = A * B ∧ s.wsFinal = false
  opts : s.optionsSent = true → N = 0
  first : opt = true → s.optionsSent = true ∨ 0 ∈ acksOf log
  noOpt : opt = false → s.optionsSent = false

/-- Every DATA packet is a block of the file within the window after an acknowledged block. -/
def LogOk (B ws : Nat) (file : List Nat) (log : List Wire) : Prop :=
  ∀ pre off n d post, log = pre ++ .tx off n d :: post →
    ∃ j, IsBlock B file j off n d ∧ (j ≤ ws ∨ ∃ m ∈ acksOf pre, m < j ∧ j ≤ m + ws)

theorem logOk_append {B ws : Nat} {file : List Nat} {log l : List Wire} (h : LogOk B ws file log)
    (hl : ∀ off n d, Wire.tx off n d ∈ l → ∃ j, IsBlock B file j off n d ∧ (j ≤ ws ∨ ∃ m ∈ acksOf log, m < j ∧ j ≤ m + ws)) : LogOk B ws file (log ++ l) := by
  intro pre off n d post he
  rcases List.append_eq_append_iff.mp he with ⟨a, h1, h2⟩ | ⟨a, h1, h2⟩
  · obtain ⟨j, h3, h4⟩ := hl off n d (by rw [h2]; simp)
    refine ⟨j, h3, ?_⟩
    rcases h4 with h4 | ⟨m, hm, h4⟩
    · exact Or.inl h4
    · exact Or.inr ⟨m, by rw [h1, acksOf_append, List.mem_append]; exact Or.inl hm, h4⟩
  · cases a with
    | nil =>
      simp at h1 h2
      obtain ⟨j, h3, h4⟩ := hl off n d (by rw [← h2]; simp)
      exact ⟨j, h3, by rw [← h1]; exact h4⟩
    | cons x a =>
      simp at h2
      obtain ⟨rfl, _⟩ := h2
      exact h pre off n d a h1

theorem logOk_rx {B ws : Nat} {file : List Nat} {log : List Wire} (h : LogOk B ws file log) (m : Nat) : LogOk B ws file (log ++ [.rx m]) :=
  logOk_append h (by intro a b c hx; simp at hx)

/-- The invariant of a session: free, or as above; and the log. -/
def RInv (B ws : Nat) (opt : Bool) (file : List Nat) (s : Sess) (log : List Wire) : Prop :=
  LogOk B ws file log ∧ (s.used = true → ∃ A N, SInv B ws opt file A N s log)

/-- A window started after `A` acknowledged blocks. -/
theorem window_inv (M : Nat) (env : SEnv) (i B ws : Nat) (opt : Bool) (file : List Nat) (hB : 0 < B) (hlen : file.length < 4294967296) (henv : ReadsFile file env)
    (s : Sess) (log : List Wire) (A : Nat) (hlog : LogOk B ws file log) (hwr : s.isWrite = false) (hblk : s.neg.blksize = B) (hwin : s.neg.windowsize = ws)
    (hat : At B file A s) (hnf : A * B ≤ file.length) (hla : s.lastAcked = A % 65536) (hos : s.optionsSent = false)
    (hsent : ∀ j ∈ blocksOf B log, 1 ≤ j ∧ j ≤ A + ws) (hA : A = 0 ∨ (A ∈ acksOf log ∧ A ∈ blocksOf B log)) (hopt : opt = true → 0 ∈ acksOf log)
    (s' : Sess) (hs' : s'.used = (sendWindow M env i s).1.used) (hsame : s'.used = true → ∀ N', At B file N' (sendWindow M env i s).1 → At B file N' s' ∧ Same (sendWindow M env i s).1 s') :
    RInv B ws opt file s' (log ++ txs (sendWindow M env i s).2.1) := by
  obtain ⟨l, e1, e2⟩ := winLoop_res M env i B file hB hlen henv s.neg.windowsize
    { s with wsOffset := s.nextOffset, wsTotal := s.total, wsBlock := s.nextBlock, wsFinal := s.finalSeen } [] A hblk
    ⟨hat.blk, hat.off, hat.tot, hat.fin, hat.pos⟩ hnf
  rw [hwin] at e2
  rw [List.nil_append] at e1
  have e1' : (sendWindow M env i s).2.1 = l := e1
  rw [e1']
  refine ⟨logOk_append hlog ?_, ?_⟩
  · intro off n d hx
    obtain ⟨j, h1, h2, h3⟩ := e2.good off n d hx
    refine ⟨j, h3, ?_⟩
    rcases hA with hA | hA
    · left; omega
    · right; exact ⟨A, hA.1, h1, h2⟩
  · intro hu
    rw [hs'] at hu
    have hst := e2.st
    rw [← hwin] at hst
    change (sendWindow M env i s).1.used = false ∨ ∃ N', A ≤ N' ∧ N' ≤ A + s.neg.windowsize ∧ At B file N' (sendWindow M env i s).1 ∧ _ at hst
    rcases hst with h | ⟨N', h1, h2, h3, h4, h5⟩
    · rw [h] at hu; simp at hu
    have h4' : Same { s with wsOffset := s.nextOffset, wsTotal := s.total, wsBlock := s.nextBlock, wsFinal := s.finalSeen } (sendWindow M env i s).1 := h4
    obtain ⟨h6, h7⟩ := hsame (by rw [hs']; exact hu) N' h3
    refine ⟨A, N', ?_⟩
    have hoff : s.nextOffset = A * B := by rw [hat.off]; exact Nat.min_eq_left hnf
    have htot : s.total = A * B := by rw [hat.tot]; exact Nat.min_eq_left hnf
    have hosf : s'.optionsSent = false := by rw [h7.os, h4'.os]; exact hos
    refine ⟨by rw [h7.wr, h4'.wr]; exact hwr, by rw [h7.neg, h4'.neg]; exact hblk, by rw [h7.neg, h4'.neg]; exact hwin, h6, by rw [h7.la, h4'.la]; exact hla, h1, hnf,
      by rw [← hwin]; exact h2, ?_, ?_, ?_, ?_, ?_, ?_, ?_⟩
    · intro j hj
      rw [blocksOf_append, List.mem_append] at hj
      rcases hj with hj | hj
      · exact hsent j hj
      · rw [blocksOf, List.mem_filterMap] at hj
        obtain ⟨w, hw, he⟩ := hj
        cases w with
        | rx m => simp at he
        | tx off n d =>
          obtain ⟨j', g1, g2, g3⟩ := e2.good off n d hw
          simp at he
          rw [isBlock_idx hB g3] at he
          omega
    · rw [blocksOf_append, List.mem_append]
      rcases h5 with h5 | h5
      · rcases hA with hA | hA
        · left; omega
        · right; left; rw [h5]; exact hA.2
      · right; right; exact h5
    · rw [acksOf_append, blocksOf_append, List.mem_append, List.mem_append]
      rcases hA with hA | hA
      · left; exact hA
      · right; exact ⟨Or.inl hA.1, Or.inl hA.2⟩
    · intro _
      rw [h7.wb, h7.wo, h7.wt, h7.wf, h4'.wb, h4'.wo, h4'.wt, h4'.wf]
      refine ⟨hat.blk, hoff, htot, ?_⟩
      show s.finalSeen = false
      rw [hat.fin, decide_eq_false (by omega)]
    · intro h; rw [hosf] at h; simp at h
    · intro h; right; rw [acksOf_append, List.mem_append]; left; exact hopt h
    · intro _; exact hosf

theorem rstep_inv (cfg : Cfg) (i B ws : Nat) (opt : Bool) (file : List Nat) (hB : 0 < B) (hws : ws < 65536) (hlen : file.length < 4294967296)
    (s : Sess) (log : List Wire) (e : REv) (h : RInv B ws opt file s log) (hf : s.used = true → FairEv B opt file log e) :
    RInv B ws opt file (rstep cfg i s e).1 (log ++ (rstep cfg i s e).2) := by
  by_cases hu' : s.used = false
  · cases e with
    | ack env m => simp only [rstep, hu', Bool.false_eq_true, if_false, List.append_nil]; exact h
    | poll env now =>
      have : pollSess cfg.maxImage cfg.maxRetries env i s now = (s, []) := by rw [pollSess, if_pos hu']
      simp only [rstep, this]
      simp only [txs, List.filterMap_nil, List.append_nil]
      exact h
  have hu : s.used = true := by simpa using hu'
  obtain ⟨A, N, hi⟩ := h.2 hu
  have hfair := hf hu
  cases e with
  | ack env m =>
    obtain ⟨henv, hfresh⟩ := hfair
    obtain ⟨f1, f2, f3⟩ := hfresh
    simp only [rstep, hu, if_true]
    -- the numbering is unambiguous here
    have hmA : m % 65536 = s.lastAcked → m = 0 ∧ opt = true ∧ A = 0 ∧ N = 0 := by
      intro hm
      rw [hi.la] at hm
      have hmA : m = A := by
        rcases f1 with ⟨f1, _⟩ | f1
        · rcases hi.acked with h0 | h0
          · omega
          · -- A was sent
            have : A < 65536 := by
              rcases hi.nsent with h1 | h1
              · have := hi.le; omega
              · have := f2 N h1; have := hi.le; omega
            omega
        · have h1 := hi.sent m f1
          have hA : A < m + 65536 := by
            rcases hi.nsent with h2 | h2
            · have := hi.le; omega
            · have := f2 N h2; have := hi.le; omega
          omega
      subst hmA
      rcases hi.acked with h0 | h0
      · subst h0
        rcases f1 with ⟨_, f1⟩ | f1
        · refine ⟨rfl, f1, rfl, ?_⟩
          rcases hi.first f1 with g | g
          · exact hi.opts g
          · exact absurd g f3
        · have := hi.sent 0 f1; omega
      · exact absurd h0.1 f3
    have hmN : m % 65536 = (s.nextBlock + 65535) % 65536 → m = N := by
      intro hm
      rw [hi.att.blk] at hm
      have e2 : ((N + 1) % 65536 + 65535) % 65536 = N % 65536 := by omega
      rw [e2] at hm
      have h1 : N < m + 65536 := by
        rcases hi.nsent with h2 | h2
        · omega
        · exact f2 N h2
      have h2 : m < N + 65536 := by
        rcases f1 with ⟨f1, _⟩ | f1
        · omega
        · have := hi.sent m f1; have := hi.le; omega
      omega
    have hm0 : s.optionsSent = true ∧ m % 65536 = 0 → m = N := by
      rintro ⟨h1, h2⟩
      have hN := hi.opts h1
      have hA : A = 0 := by have := hi.le; omega
      rcases f1 with ⟨f1, _⟩ | f1
      · omega
      · have := hi.sent m f1; omega
    have hrx : LogOk B ws file (log ++ [.rx m]) := logOk_rx h.1 m
    rw [recvAck]
    by_cases hign : m % 65536 ≠ s.lastAcked ∧ m % 65536 ≠ (s.nextBlock + 65535) % 65536 ∧ ¬(s.optionsSent = true ∧ m % 65536 = 0)
    · rw [if_pos hign]
      refine ⟨hrx, fun _ => ⟨A, N, ?_⟩⟩
      have eb : blocksOf B (log ++ [Wire.rx m]) = blocksOf B log := by rw [blocksOf_append]; simp [blocksOf]
      have ea : acksOf (log ++ [Wire.rx m]) = acksOf log ++ [m] := by rw [acksOf_append]; rfl
      refine ⟨hi.wr, hi.blk, hi.win, hi.att, hi.la, hi.le, hi.notFin, hi.up, ?_, ?_, ?_, hi.snap, hi.opts, ?_, hi.noOpt⟩
      · show ∀ j ∈ blocksOf B (log ++ [Wire.rx m]), _
        rw [eb]; exact hi.sent
      · show N = 0 ∨ N ∈ blocksOf B (log ++ [Wire.rx m])
        rw [eb]; exact hi.nsent
      · show A = 0 ∨ (A ∈ acksOf (log ++ [Wire.rx m]) ∧ A ∈ blocksOf B (log ++ [Wire.rx m]))
        rw [ea, eb, List.mem_append]; rcases hi.acked with g | g
        · exact Or.inl g
        · exact Or.inr ⟨Or.inl g.1, g.2⟩
      · show opt = true → s.optionsSent = true ∨ 0 ∈ acksOf (log ++ [Wire.rx m])
        intro ho; rw [ea, List.mem_append]; rcases hi.first ho with g | g
        · exact Or.inl g
        · exact Or.inr (Or.inl g)
    rw [if_neg hign]
    -- accepted: it is the last block sent
    have hmEq : m = N := by
      by_cases g1 : m % 65536 = s.lastAcked
      · obtain ⟨a, _, _, b⟩ := hmA g1; omega
      by_cases g2 : m % 65536 = (s.nextBlock + 65535) % 65536
      · exact hmN g2
      · by_cases g3 : s.optionsSent = true ∧ m % 65536 = 0
        · exact hm0 g3
        · exact absurd ⟨g1, g2, g3⟩ hign
    subst hmEq
    simp only
    by_cases hfin : s.finalSeen = true ∧ m % 65536 = (s.nextBlock + 65535) % 65536
    · rw [if_pos hfin, txs_fin]
      exact ⟨hrx, fun hu' => by simp [Srv.fin] at hu'⟩
    rw [if_neg hfin]
    have hnf : m * B ≤ file.length := by
      have e2 : m % 65536 = (s.nextBlock + 65535) % 65536 := by rw [hi.att.blk]; omega
      have : ¬ s.finalSeen = true := fun g => hfin ⟨g, e2⟩
      rw [hi.att.fin] at this
      simp at this; exact this
    have hopt : opt = true → 0 ∈ acksOf (log ++ [Wire.rx m]) := by
      intro ho
      rw [acksOf_append, List.mem_append]
      rcases hi.first ho with g | g
      · right; rw [hi.opts g]; simp [acksOf]
      · left; exact g
    have key := fun s' hs' hsame => window_inv cfg.maxImage env i B ws opt file hB hlen henv
      { s with lastAcked := m % 65536, windowCount := 0, optionsSent := false, deadline := 0, retries := 0 } (log ++ [.rx m]) m hrx hi.wr hi.blk hi.win
      ⟨hi.att.blk, hi.att.off, hi.att.tot, hi.att.fin, hi.att.pos⟩ hnf rfl rfl
      (by rw [blocksOf_append]; simp only [blocksOf, List.filterMap_cons, List.filterMap_nil, List.append_nil]; intro j hj; have := hi.sent j hj; have := hi.le; omega)
      (by
        rcases hi.nsent with g | g
        · left; exact g
        · right; rw [acksOf_append, blocksOf_append]; simp only [List.mem_append]; exact ⟨Or.inr (by simp [acksOf]), Or.inl g⟩)
      hopt s' hs' hsame
    rw [show ∀ x : List Wire, log ++ (Wire.rx m :: x) = (log ++ [Wire.rx m]) ++ x by intro x; simp]
    apply key
    · split <;> rfl
    · intro _ N' hat
      split
      · exact ⟨⟨hat.blk, hat.off, hat.tot, hat.fin, hat.pos⟩, ⟨rfl, rfl, rfl, rfl, rfl, rfl, rfl, rfl, rfl⟩⟩
      · exact ⟨hat, ⟨rfl, rfl, rfl, rfl, rfl, rfl, rfl, rfl, rfl⟩⟩
  | poll env now =>
    have henv : ReadsFile file env := hfair
    have same : ∀ (s' : Sess), s'.used = s.used → At B file N s' → Same s s' → RInv B ws opt file s' log := by
      intro s' _ hat hs
      refine ⟨h.1, fun _ => ⟨A, N, by rw [hs.wr]; exact hi.wr, by rw [hs.neg]; exact hi.blk, by rw [hs.neg]; exact hi.win, hat, by rw [hs.la]; exact hi.la, hi.le, hi.notFin, hi.up, hi.sent, hi.nsent, hi.acked, ?_, ?_, ?_, ?_⟩⟩
      · rw [hs.os, hs.wb, hs.wo, hs.wt, hs.wf]; exact hi.snap
      · rw [hs.os]; exact hi.opts
      · rw [hs.os]; exact hi.first
      · rw [hs.os]; exact hi.noOpt
    simp only [rstep]
    rw [pollSess, if_neg (by rw [hu]; simp)]
    have rfl9 : ∀ s' : Sess, s'.nextBlock = s.nextBlock → s'.nextOffset = s.nextOffset → s'.total = s.total → s'.finalSeen = s.finalSeen → At B file N s' := by
      intro s' a b c d; exact ⟨by rw [a]; exact hi.att.blk, by rw [b]; exact hi.att.off, by rw [c]; exact hi.att.tot, by rw [d]; exact hi.att.fin, hi.att.pos⟩
    split
    · simp only [txs, List.filterMap_nil, List.append_nil]
      exact same _ rfl (rfl9 _ rfl rfl rfl rfl) ⟨rfl, rfl, rfl, rfl, rfl, rfl, rfl, rfl, rfl⟩
    split
    · simp only [txs, List.filterMap_nil, List.append_nil]
      exact h
    split
    · rw [txs_fin, List.append_nil]
      exact ⟨h.1, fun hu' => by simp [Srv.fin] at hu'⟩
    simp only
    by_cases hos : s.optionsSent = true
    · rw [if_pos hos]
      simp only [txs, List.filterMap_cons, List.filterMap_nil, List.append_nil]
      exact same _ rfl (rfl9 _ rfl rfl rfl rfl) ⟨rfl, rfl, rfl, rfl, rfl, rfl, rfl, rfl, rfl⟩
    rw [if_neg hos, if_neg (by rw [hi.wr]; simp)]
    have hos' : s.optionsSent = false := by simpa using hos
    obtain ⟨g1, g2, g3, g4⟩ := hi.snap hos'
    apply window_inv cfg.maxImage env i B ws opt file hB hlen henv
      { s with nextOffset := s.wsOffset, total := s.wsTotal, nextBlock := s.wsBlock, finalSeen := s.wsFinal } log A h.1 hi.wr hi.blk hi.win
      ⟨g1, by rw [Nat.min_eq_left hi.notFin]; exact g2, by rw [Nat.min_eq_left hi.notFin]; exact g3, by rw [decide_eq_false (by have := hi.notFin; omega)]; exact g4, fun hA => Nat.le_trans (Nat.mul_le_mul_right B (by omega)) hi.notFin⟩
      hi.notFin hi.la hos' hi.sent ?_ (fun ho => by rcases hi.first ho with g | g; rw [hos'] at g; simp at g; exact g)
    · rfl
    · intro _ N' hat
      exact ⟨⟨hat.blk, hat.off, hat.tot, hat.fin, hat.pos⟩, ⟨rfl, rfl, rfl, rfl, rfl, rfl, rfl, rfl, rfl⟩⟩
    · exact hi.acked

theorem start_inv (cfg : Cfg) (env : SEnv) (i ip port : Nat) (r : Req) (file : List Nat) (B ws : Nat) (hop : r.opcode = 1)
    (hBe : B = r.blksize.getD cfg.blksize) (hwe : ws = r.windowsize.getD cfg.windowsize) (hB : 0 < B) (hlen : file.length < 4294967296) (henv : ReadsFile file env) :
    RInv B ws (anyOpt r) file (startReq cfg env i ip port r).1 (txs (startReq cfg env i ip port r).2) := by
  have empty : LogOk B ws file [] := by intro pre off n d post he; simp at he
  have reply : ∀ (s' : Sess) n w, s'.isWrite = false → s'.neg.blksize = B → s'.neg.windowsize = ws → At B file 0 s' → s'.lastAcked = 0 → s'.optionsSent = false →
      RInv B ws (anyOpt r) file (startReply cfg env i r s' [.openFile i n w]).1 (txs (startReply cfg env i r s' [.openFile i n w]).2) := by
    intro s' n w h1 h2 h3 h4 h5 h6
    rw [startReply]
    by_cases ho : anyOpt r = true
    · rw [if_pos ho]
      have : txs ([SOut.openFile i n w] ++ if env.send 0 = true then [SOut.oack i] else []) = [] := by split <;> rfl
      simp only [this]
      refine ⟨empty, fun _ => ⟨0, 0, h1, h2, h3, ⟨h4.blk, h4.off, h4.tot, h4.fin, h4.pos⟩, by rw [h5], Nat.le_refl _, by simp, by omega, by simp [blocksOf], Or.inl rfl, Or.inl rfl, by simp, fun _ => rfl, fun _ => Or.inl rfl, fun h => by rw [ho] at h; simp at h⟩⟩
    · rw [if_neg ho, if_neg (by rw [h1]; simp)]
      have := window_inv cfg.maxImage env i B ws (anyOpt r) file hB hlen henv s' [] 0 empty h1 h2 h3 h4 (by simp) h5 h6 (by simp [blocksOf]) (Or.inl rfl)
        (fun h => absurd h ho)
      have e : ∀ l, txs ([SOut.openFile i n w] ++ l) = [] ++ txs l := by intro l; rw [txs_append]; rfl
      simp only [e]
      apply this
      · split <;> rfl
      · intro _ N' hat
        split
        · exact ⟨⟨hat.blk, hat.off, hat.tot, hat.fin, hat.pos⟩, ⟨rfl, rfl, rfl, rfl, rfl, rfl, rfl, rfl, rfl⟩⟩
        · exact ⟨hat, ⟨rfl, rfl, rfl, rfl, rfl, rfl, rfl, rfl, rfl⟩⟩
  have at0 : ∀ s' : Sess, s'.nextBlock = 1 → s'.nextOffset = 0 → s'.total = 0 → s'.finalSeen = false → At B file 0 s' := by
    intro s' a b c d; exact ⟨a, by rw [b]; simp, by rw [c]; simp, by rw [d]; simp, by omega⟩
  generalize hr : startReq cfg env i ip port r = x
  rw [startReq] at hr
  simp only at hr
  split at hr
  · subst hr; exact ⟨empty, fun h => by simp at h⟩
  split at hr
  · subst hr; exact ⟨empty, fun h => by simp at h⟩
  subst hr
  split
  · exact reply _ _ _ (by simp [hop]) hBe.symm hwe.symm (at0 _ rfl rfl rfl rfl) rfl rfl
  · exact reply _ _ _ (by simp [hop]) hBe.symm hwe.symm (at0 _ rfl rfl rfl rfl) rfl rfl

theorem rrun_inv (cfg : Cfg) (i B ws : Nat) (opt : Bool) (file : List Nat) (hB : 0 < B) (hws : ws < 65536) (hlen : file.length < 4294967296) :
    ∀ (es : List REv) (s : Sess) (log : List Wire), RInv B ws opt file s log → Fair cfg i B opt file s log es →
    RInv B ws opt file (rrun cfg i s log es).1 (rrun cfg i s log es).2 := by
  intro es
  induction es with
  | nil => intro s log h _; exact h
  | cons e es ih => intro s log h hf; exact ih _ _ (rstep_inv cfg i B ws opt file hB hws hlen s log e h hf.1) hf.2

/-- **C55 (partial).** A session serves a file after a read request. If each acknowledgment arrives at most
once, then whatever is lost, reordered or timed out and however sends and reads fail: every DATA packet ever
sent is a block of the file under its number and with its bytes, within the file, and at most one window past
the start or past a block acknowledged earlier. Missing: with a repeated acknowledgment this is false of the
code (`tftp_server_skips_on_duplicate_ack`). -/
theorem tftp_server_sends_blocks_partial (cfg : Cfg) (env : SEnv) (i ip port : Nat) (r : Req) (file : List Nat) (B ws : Nat) (hop : r.opcode = 1)
    (hBe : B = r.blksize.getD cfg.blksize) (hwe : ws = r.windowsize.getD cfg.windowsize) (hB : 0 < B) (hws : ws < 65536)
    (hlen : file.length < 4294967296) (henv : ReadsFile file env) (es : List REv)
    (hf : Fair cfg i B (anyOpt r) file (startReq cfg env i ip port r).1 (txs (startReq cfg env i ip port r).2) es)
    (pre : List Wire) (off n : Nat) (d : List Nat) (post : List Wire)
    (he : (rrun cfg i (startReq cfg env i ip port r).1 (txs (startReq cfg env i ip port r).2) es).2 = pre ++ .tx off n d :: post) :
    ∃ j, IsBlock B file j off n d ∧ (j ≤ ws ∨ ∃ m ∈ acksOf pre, m < j ∧ j ≤ m + ws) :=
  (rrun_inv cfg i B ws (anyOpt r) file hB hws hlen es _ _ (start_inv cfg env i ip port r file B ws hop hBe hwe hB hlen henv) hf).1 pre off n d post he

theorem winLoop_unused (M : Nat) (env : SEnv) (i : Nat) : ∀ (k : Nat) (s : Sess) (o : List SOut), s.used = true →
    (winLoop M env i k s o).1.used = false → .err 3 ∈ (winLoop M env i k s o).2.1 := by
  intro k
  induction k with
  | zero => intro s o h1 h2; rw [winLoop] at h2; rw [h1] at h2; simp at h2
  | succ k ih =>
    intro s o h1
    rw [winLoop]
    cases env.read s.nextOffset s.neg.blksize with
    | none => intro h2; simp [h1] at h2
    | some r =>
      obtain ⟨d, last⟩ := r
      simp only
      split
      · intro _; simp
      split
      · intro h2; simp [h1] at h2
      split
      · intro h2; simp [h1] at h2
      split
      · intro h2; simp [h1] at h2
      · exact ih _ _ h1

/-- **C55 (partial), the end of a transfer.** Under the same conditions, an acknowledgment that ends the
session without an error packet is that of the final (short) block. -/
theorem tftp_server_finishes_partial (cfg : Cfg) (env : SEnv) (i ip port : Nat) (r : Req) (file : List Nat) (B ws : Nat) (hop : r.opcode = 1)
    (hBe : B = r.blksize.getD cfg.blksize) (hwe : ws = r.windowsize.getD cfg.windowsize) (hB : 0 < B) (hws : ws < 65536)
    (hlen : file.length < 4294967296) (henv : ReadsFile file env) (es : List REv)
    (hf : Fair cfg i B (anyOpt r) file (startReq cfg env i ip port r).1 (txs (startReq cfg env i ip port r).2) es)
    (env' : SEnv) (m : Nat) (s : Sess) (log : List Wire)
    (hr : rrun cfg i (startReq cfg env i ip port r).1 (txs (startReq cfg env i ip port r).2) es = (s, log))
    (hu : s.used = true) (hfresh : FreshAck B (anyOpt r) log m)
    (hend : (recvAck cfg.maxImage env' i s (m % 65536)).1.used = false) (hne : ∀ c, .err c ∉ (recvAck cfg.maxImage env' i s (m % 65536)).2) :
    file.length < m * B ∧ (m - 1) * B ≤ file.length ∧ m ∈ blocksOf B log := by
  have hinv := rrun_inv cfg i B ws (anyOpt r) file hB hws hlen es _ _ (start_inv cfg env i ip port r file B ws hop hBe hwe hB hlen henv) hf
  rw [hr] at hinv
  obtain ⟨A, N, hi⟩ := hinv.2 hu
  obtain ⟨f1, f2, f3⟩ := hfresh
  rw [recvAck] at hend hne
  split at hend
  · rw [hu] at hend; simp at hend
  rename_i hign
  rw [if_neg hign] at hne
  simp only at hend hne
  split at hend
  · rename_i hfin
    have hfs := hfin.1
    rw [hi.att.fin, decide_eq_true_eq] at hfs
    have hNpos : 1 ≤ N := by
      cases N with
      | zero => simp at hfs
      | succ N => omega
    have hNs : N ∈ blocksOf B log := by
      rcases hi.nsent with h | h
      · omega
      · exact h
    have hmN : m = N := by
      have e := hfin.2
      rw [hi.att.blk] at e
      have h1 := f2 N hNs
      have h2 : m < N + 65536 := by
        rcases f1 with ⟨f1, _⟩ | f1
        · omega
        · have := hi.sent m f1; have := hi.le; omega
      omega
    rw [hmN]
    exact ⟨hfs, hi.att.pos hNpos, hNs⟩
  · rename_i hfin
    rw [if_neg hfin] at hne
    have : (sendWindow cfg.maxImage env' i { s with lastAcked := m % 65536, windowCount := 0, optionsSent := false, deadline := 0, retries := 0 }).1.used = false := by
      split at hend <;> exact hend
    exact absurd (winLoop_unused _ _ _ _ _ _ (by exact hu) this) (hne 3)

/-! ## The violation, and a concrete case -/

def exFile : List Nat := List.range 20
def exEnv : SEnv := { read := fun off max => some ((exFile.drop off).take max, false) }
def exCfg : Cfg := cfgDefaults { blksize := 8, timeout := 1, windowsize := 1, maxRetries := 3, maxImage := 0 }
def exReq : Req := { opcode := 1, filename := [97], blksize := none, timeout := none, tsize := none, windowsize := none }
def exStart : Sess × List SOut := startReq exCfg exEnv 0 7 1000 exReq

/-- **C55 is false of the code.** Blocks of 8 bytes, window 1. The client acknowledges block 1; the server
sends block 2, which is lost; the client sends its acknowledgment of block 1 again; the server answers with
block 3, and having had block 2 neither acknowledged nor sent again it reports the transfer done when block
3 is acknowledged. -/
theorem tftp_server_skips_on_duplicate_ack :
    ReadsFile exFile exEnv ∧
    (rrun exCfg 0 exStart.1 (txs exStart.2) [.ack exEnv 1, .ack exEnv 1, .ack exEnv 3]).2 =
      [.tx 0 1 (blockOf 8 exFile 1), .rx 1, .tx 8 2 (blockOf 8 exFile 2), .rx 1, .tx 16 3 (blockOf 8 exFile 3), .rx 3] ∧
    (rrun exCfg 0 exStart.1 (txs exStart.2) [.ack exEnv 1, .ack exEnv 1, .ack exEnv 3]).1.used = false := by
  refine ⟨?_, by decide +kernel, by decide +kernel⟩
  intro off max d last h
  simp [exEnv] at h
  rw [h.1]

/-- A fair run: the acknowledgment of block 1 arrives, a timeout repeats block 2, the rest is acknowledged. -/
example : Fair exCfg 0 8 false exFile exStart.1 (txs exStart.2)
      [.ack exEnv 1, .poll exEnv 10, .poll exEnv 5000, .ack exEnv 2, .ack exEnv 3] ∧
    (rrun exCfg 0 exStart.1 (txs exStart.2) [.ack exEnv 1, .poll exEnv 10, .poll exEnv 5000, .ack exEnv 2, .ack exEnv 3]).2 =
      [.tx 0 1 (blockOf 8 exFile 1), .rx 1, .tx 8 2 (blockOf 8 exFile 2), .tx 8 2 (blockOf 8 exFile 2), .rx 2,
       .tx 16 3 (blockOf 8 exFile 3), .rx 3] := by
  have hr : ReadsFile exFile exEnv := tftp_server_skips_on_duplicate_ack.1
  refine ⟨⟨fun _ => ⟨hr, ?_⟩, fun _ => hr, fun _ => hr, fun _ => ⟨hr, ?_⟩, fun _ => ⟨hr, ?_⟩, trivial⟩, by decide +kernel⟩
  all_goals exact ⟨by decide +kernel, by decide +kernel, by decide +kernel⟩

/-- A server that stores an upload of 20 bytes with a limit of 20, and refuses one byte more. -/
def wrqMsg : List Nat := [0, 2, 97, 0, 111, 99, 116, 101, 116, 0]
def dataMsg (n : Nat) (d : List Nat) : List Nat := [0, 3, n / 256 % 256, n % 256] ++ d
def upCfg : Cfg := { blksize := 8, timeout := 1, windowsize := 1, maxRetries := 3, maxImage := 20 }

example :
    received (outsOf 0 (run (init upCfg) [] [.recv {} 69 7 1000 wrqMsg, .recv {} 20000 7 1000 (dataMsg 1 (List.range 8)),
      .recv {} 20000 7 1000 (dataMsg 2 (List.range 8)), .recv {} 20000 7 1000 (dataMsg 3 (List.range 4))]).2) = List.range 8 ++ List.range 8 ++ List.range 4 ∧
    received (outsOf 0 (run (init upCfg) [] [.recv {} 69 7 1000 wrqMsg, .recv {} 20000 7 1000 (dataMsg 1 (List.range 8)),
      .recv {} 20000 7 1000 (dataMsg 2 (List.range 8)), .recv {} 20000 7 1000 (dataMsg 3 (List.range 5))]).2) = List.range 8 ++ List.range 8 := by
  decide +kernel

end Wolf.Tftp.Srv
