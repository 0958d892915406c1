import Verif.Tftp.Client
/-!
# C124: how the TFTP client uses the application's storage callbacks

The application that stores a download only sees a sequence of callbacks. Whatever the network does and
whatever the callbacks answer, that sequence follows a protocol: the sink is opened once before the first
write, every write continues exactly where the previous one ended, nothing is written after a call that
failed, the verification is asked for once, with the number of bytes written, and the sink is closed once, at
the end, with success exactly when the verification succeeded.
-/
namespace Wolf.Tftp

/-! ## Specification: the protocol -/

/-- Where the application's sink is. -/
inductive Phase where
  /-- not opened -/
  | fresh
  /-- `open` was refused -/
  | refused
  /-- open, `n` bytes written -/
  | opened (n : Nat)
  /-- a write, hash or verification failed: to be closed -/
  | failed
  /-- verified: to be closed as good -/
  | verified
  /-- closed, as good or not -/
  | closed (good : Bool)
deriving DecidableEq

/-- One callback, given what it answers. `none`: the call breaks the protocol. -/
def track (env : Env) : Phase → Out → Option Phase
  | p, .send _ _ => some p
  | .fresh, .openSink => some (if env.openOk then .opened 0 else .refused)
  | .opened n, .write off d =>
      if off = n then some (if env.writeOk then .opened (n + d.length) else .failed) else none
  | .opened n, .hash _ => some (if env.hashOk then .opened n else .failed)
  | .opened n, .verify t => if t = n then some (if env.verifyOk then .verified else .failed) else none
  | .opened _, .close st => if st = .ok then none else some (.closed false)
  | .failed, .close st => if st = .ok then none else some (.closed false)
  | .verified, .close st => if st = .ok then some (.closed true) else none
  | _, _ => none

/-- The callbacks of one event. -/
def trackAll (env : Env) : Phase → List Out → Option Phase
  | p, [] => some p
  | p, o :: os => (track env p o).bind fun p1 => trackAll env p1 os

def Ev.env : Ev → Env
  | .recv env _ _ _ _ => env
  | .poll env _ => env

/-- The callbacks of a run of the client. -/
def phases (s : Client) (p : Phase) : List Ev → Option Phase
  | [] => some p
  | e :: es => (trackAll e.env p (step s e).2).bind fun p1 => phases (step s e).1 p1 es

/-- The client after a list of events. -/
def after (s : Client) : List Ev → Client
  | [] => s
  | e :: es => after (step s e).1 es

/-- A sink whose `open`, when it succeeds, provides a handle. -/
def GivesHandle (es : List Ev) : Prop := ∀ e, e ∈ es → e.env.openOk = true → e.env.openHandle = true

/-- What the outside can tell about a client in a given phase. -/
def Agree (s : Client) : Phase → Prop
  | .fresh => s.state ≠ .complete
  | .opened _ => s.state = .recvData
  | .refused => s.state = .error
  | .closed good => s.state = if good then .complete else .error
  | .failed => False
  | .verified => False

/-! ## Proof -/

/-- The client's own account matches the phase. -/
structure Inv (s : Client) (p : Phase) : Prop where
  agree : Agree s p
  fresh : Active s → s.handle = false → p = .fresh ∧ s.total = 0 ∧ s.nextOffset = 0
  opened : Active s → s.handle = true → p = .opened s.total ∧ s.nextOffset = s.total ∧ s.total < 4294967296

theorem trackAll_append (env : Env) (a b : List Out) : ∀ p, trackAll env p (a ++ b) = (trackAll env p a).bind fun q => trackAll env q b := by
  induction a with
  | nil => intro p; rfl
  | cons o a ih =>
    intro p
    rw [List.cons_append, trackAll, trackAll]
    cases track env p o with
    | none => rfl
    | some q => exact ih q

theorem track_send (env : Env) (p : Phase) (port : Nat) (q : List Nat) : track env p (.send port q) = some p := by
  cases p <;> rfl

/-- Ending with an error. -/
theorem finish_inv {env : Env} {s : Client} {p : Phase} {st : Status} (hst : st ≠ .ok)
    (h : (s.handle = false ∧ (p = .fresh ∨ p = .refused)) ∨ (s.handle = true ∧ ((∃ n, p = .opened n) ∨ p = .failed))) :
    ∃ p1, trackAll env p (finish s st).2 = some p1 ∧ Inv (finish s st).1 p1 := by
  have hna : ¬ Active (finish s st).1 := not_active_finish s st
  have hs : (finish s st).1.state = .error := by rw [(finish_state s st).1, if_neg hst]
  have hi : ∀ q, Agree (finish s st).1 q → Inv (finish s st).1 q :=
    fun q hq => ⟨hq, fun a => absurd a hna, fun a => absurd a hna⟩
  rcases h with ⟨h1, h2⟩ | ⟨h1, h2⟩
  · refine ⟨p, ?_, hi p ?_⟩
    · rw [finish]; simp only [h1]; rfl
    · rcases h2 with h2 | h2
      · rw [h2]; show (finish s st).1.state ≠ .complete; rw [hs]; intro h; cases h
      · rw [h2]; exact hs
  · refine ⟨.closed false, ?_, hi _ hs⟩
    rw [finish]; simp only [h1, if_true]
    rcases h2 with ⟨n, h2⟩ | h2 <;> subst h2 <;> simp [trackAll, track, hst]

theorem acceptTail_inv {env : Env} {s : Client} {n : Nat} (block : Nat) (d : List Nat) (pre : List Out) (p : Phase)
    (hpre : trackAll env p pre = some (.opened n)) (hh : s.handle = true) (ht : s.total = n) (ho : s.nextOffset = n)
    (hlim : n + d.length < 4294967296) (hr : s.state = .recvData) :
    ∃ p1, trackAll env p (acceptTail s env block d pre).2 = some p1 ∧ Inv (acceptTail s env block d pre).1 p1 := by
  have hsend : ∀ (x : List Out) (q : Phase) (port : Nat) (z : List Nat), trackAll env p x = some q →
      trackAll env p (x ++ [.send port z]) = some q := by
    intro x q port z h
    rw [trackAll_append, h]; simp [trackAll, track_send]
  have hmod : (n + d.length) % 4294967296 = n + d.length := Nat.mod_eq_of_lt hlim
  rw [acceptTail]
  simp only [ho, ht, hmod]
  by_cases hw : env.writeOk = false
  · rw [if_pos hw]
    have h1 : trackAll env p (pre ++ [.write n d]) = some .failed := by
      rw [trackAll_append, hpre]; simp [trackAll, track, hw]
    obtain ⟨p1, a1, a2⟩ := finish_inv (env := env) (s := s) (p := .failed) (st := .io) (by simp) (.inr ⟨hh, .inr rfl⟩)
    refine ⟨p1, ?_, a2⟩
    rw [trackAll_append, hsend _ _ _ _ h1]; exact a1
  rw [if_neg hw]
  have hw' : env.writeOk = true := by cases hx : env.writeOk with | true => rfl | false => exact absurd hx hw
  have h1 : trackAll env p (pre ++ [.write n d]) = some (.opened (n + d.length)) := by
    rw [trackAll_append, hpre]; simp [trackAll, track, hw']
  by_cases hf : d.length > 0 ∧ env.hashOk = false
  · rw [if_pos hf, if_pos hf.1]
    have h2 : trackAll env p (pre ++ [.write n d] ++ [.hash d]) = some .failed := by
      rw [trackAll_append, h1]; simp [trackAll, track, hf.2]
    obtain ⟨p1, a1, a2⟩ := finish_inv (env := env) (s := s) (p := .failed) (st := .verify) (by simp) (.inr ⟨hh, .inr rfl⟩)
    refine ⟨p1, ?_, a2⟩
    rw [trackAll_append, hsend _ _ _ _ h2]; exact a1
  rw [if_neg hf]
  have h2 : trackAll env p (if d.length > 0 then pre ++ [.write n d] ++ [.hash d] else pre ++ [.write n d]) = some (.opened (n + d.length)) := by
    by_cases hd : d.length > 0
    · have hk : env.hashOk = true := by
        cases hx : env.hashOk with | true => rfl | false => exact absurd ⟨hd, hx⟩ hf
      rw [if_pos hd, trackAll_append, h1]; simp [trackAll, track, hk]
    · rw [if_neg hd]; exact h1
  generalize (if d.length > 0 then pre ++ [.write n d] ++ [.hash d] else pre ++ [.write n d]) = o2 at h2 ⊢
  generalize (decide ((s.windowCount + 1) % 65536 ≥ s.neg.windowsize) || decide (d.length < s.neg.blksize)) = ack
  have h3 : trackAll env p (if ack = true then o2 ++ [.send s.serverPort (ackPkt block)] else o2) = some (.opened (n + d.length)) := by
    cases ack with
    | true => rw [if_pos rfl]; exact hsend _ _ _ _ h2
    | false => rw [if_neg (by decide)]; exact h2
  generalize (if ack = true then o2 ++ [.send s.serverPort (ackPkt block)] else o2) = o3 at h3 ⊢
  have inv_open : ∀ s' : Client, s'.state = .recvData → s'.handle = true → s'.total = n + d.length → s'.nextOffset = n + d.length →
      Inv s' (.opened (n + d.length)) := by
    intro s' b1 b2 b3 b4
    refine ⟨b1, fun _ h => ?_, fun _ _ => ⟨by rw [b3], by rw [b3, b4], by rw [b3]; exact hlim⟩⟩
    rw [b2] at h; cases h
  have fin_ok : ∀ s' : Client, s'.handle = true → s'.total = n + d.length → env.verifyOk = true →
      ∃ p1, trackAll env p (o3 ++ [.verify s'.total] ++ (finish s' .ok).2) = some p1 ∧ Inv (finish s' .ok).1 p1 := by
    intro s' b1 b2 b3
    refine ⟨.closed true, ?_, rfl, fun a => absurd a (not_active_finish s' .ok), fun a => absurd a (not_active_finish s' .ok)⟩
    rw [List.append_assoc, trackAll_append, h3, finish]
    simp [trackAll, track, b1, b2, b3]
  have fin_bad : ∀ s' : Client, s'.handle = true → s'.total = n + d.length → env.verifyOk = false →
      ∃ p1, trackAll env p (o3 ++ [.verify s'.total] ++ (finish s' .verify).2) = some p1 ∧ Inv (finish s' .verify).1 p1 := by
    intro s' b1 b2 b3
    refine ⟨.closed false, ?_, rfl, fun a => absurd a (not_active_finish s' .verify), fun a => absurd a (not_active_finish s' .verify)⟩
    rw [List.append_assoc, trackAll_append, h3, finish]
    simp [trackAll, track, b1, b2, b3]
  have hv : env.verifyOk = false ∨ env.verifyOk = true := by cases env.verifyOk <;> simp
  cases ack with
  | true =>
    simp only [true_and, if_true]
    split
    · exact ⟨_, h3, inv_open _ hr hh rfl rfl⟩
    · split
      · split
        · rename_i hv; exact fin_bad { s with nextOffset := n + d.length, total := n + d.length, expected := (s.expected + 1) % 65536, windowCount := 0, finalSeen := decide (d.length < s.neg.blksize), lastTx := ackPkt block, lastAcked := block } hh rfl hv
        · rename_i hv; exact fin_ok { s with nextOffset := n + d.length, total := n + d.length, expected := (s.expected + 1) % 65536, windowCount := 0, finalSeen := decide (d.length < s.neg.blksize), lastTx := ackPkt block, lastAcked := block } hh rfl (by revert hv; cases env.verifyOk <;> simp)
      · exact ⟨_, h3, inv_open _ rfl hh rfl rfl⟩
  | false =>
    simp only [Bool.false_eq_true, if_false, false_and]
    split
    · split
      · rename_i hv; exact fin_bad { s with nextOffset := n + d.length, total := n + d.length, expected := (s.expected + 1) % 65536, windowCount := (s.windowCount + 1) % 65536, finalSeen := decide (d.length < s.neg.blksize) } hh rfl hv
      · rename_i hv; exact fin_ok { s with nextOffset := n + d.length, total := n + d.length, expected := (s.expected + 1) % 65536, windowCount := (s.windowCount + 1) % 65536, finalSeen := decide (d.length < s.neg.blksize) } hh rfl (by revert hv; cases env.verifyOk <;> simp)
    · exact ⟨_, h3, inv_open _ rfl hh rfl rfl⟩

theorem Inv.phase {s : Client} {p : Phase} (h : Inv s p) (ha : Active s) :
    (s.handle = false ∧ p = .fresh ∧ s.total = 0 ∧ s.nextOffset = 0) ∨
    (s.handle = true ∧ p = .opened s.total ∧ s.nextOffset = s.total ∧ s.total < 4294967296) := by
  cases hh : s.handle with
  | false => exact .inl ⟨rfl, h.fresh ha hh⟩
  | true => exact .inr ⟨rfl, h.opened ha hh⟩

theorem Inv.end_err {env : Env} {s s' : Client} {p : Phase} {st : Status} (h : Inv s p) (ha : Active s) (hst : st ≠ .ok)
    (hh : s'.handle = s.handle) (pre : List Out) (hpre : trackAll env p pre = some p) :
    ∃ p1, trackAll env p (pre ++ (finish s' st).2) = some p1 ∧ Inv (finish s' st).1 p1 := by
  rw [trackAll_append, hpre]
  refine finish_inv hst ?_
  rw [hh]
  rcases h.phase ha with ⟨a, b, _⟩ | ⟨a, b, _⟩
  · exact .inl ⟨a, .inl b⟩
  · exact .inr ⟨a, .inl ⟨_, b⟩⟩

theorem acceptData_inv {env : Env} {s : Client} {p : Phase} (h : Inv s p) (hr : s.state = .recvData)
    (henv : env.openOk = true → env.openHandle = true) (block : Nat) (d : List Nat) :
    ∃ p1, trackAll env p (acceptData s env block d).2 = some p1 ∧ Inv (acceptData s env block d).1 p1 := by
  have ha : Active s := .inr hr
  rw [acceptData]
  by_cases hb : block = s.expected
  · rw [if_pos hb]
    by_cases hlim : s.total + d.length > 4294967295 ∨
        (s.cfg.maxImage ≠ 0 ∧ d.length > (s.cfg.maxImage + 4294967296 - s.total) % 4294967296)
    · rw [if_pos hlim]
      exact h.end_err (st := .size) ha (by simp) rfl [.send s.serverPort (errPkt 3)] (by simp [trackAll, track_send])
    · rw [if_neg hlim]
      have hl : s.total + d.length < 4294967296 := by omega
      rcases h.phase ha with ⟨a1, a2, a3, a4⟩ | ⟨a1, a2, a3, a4⟩
      · rw [if_pos a1]
        by_cases ho : env.openOk = false
        · rw [if_pos ho]
          obtain ⟨p1, b1, b2⟩ := finish_inv (env := env) (s := s) (p := .refused) (st := .io) (by simp) (.inl ⟨a1, .inr rfl⟩)
          refine ⟨p1, ?_, b2⟩
          subst a2
          show trackAll env .fresh (.openSink :: .send s.serverPort (errPkt 2) :: (finish s .io).2) = some p1
          simp only [trackAll, track, ho, Bool.false_eq_true, if_false, Option.bind_some]
          exact b1
        · rw [if_neg ho]
          have ho' : env.openOk = true := by cases hx : env.openOk with | true => rfl | false => exact absurd hx ho
          refine acceptTail_inv (n := 0) block d [.openSink] p ?_ (henv ho') a3 a4 (by omega) hr
          subst a2; simp [trackAll, track, ho']
      · rw [if_neg (by rw [a1]; decide)]
        exact acceptTail_inv (n := s.total) block d [] p (by rw [a2]; rfl) a1 rfl a3 hl hr
  · rw [if_neg hb]
    split
    · split
      · exact ⟨p, by simp [trackAll, track_send], h⟩
      · exact ⟨p, rfl, h⟩
    · exact ⟨p, rfl, h⟩

/-- Changing what is not about the sink keeps the account. -/
theorem Inv.keep {s s' : Client} {p : Phase} (h : Inv s p) (ha : Active s) (h1 : s'.handle = s.handle) (h2 : s'.total = s.total)
    (h3 : s'.nextOffset = s.nextOffset) (h4 : s'.state = s.state ∨ s'.state = .recvData) : Inv s' p := by
  have hA : Active s' → True := fun _ => trivial
  refine ⟨?_, fun _ hh => ?_, fun _ hh => ?_⟩
  · rcases h.phase ha with ⟨_, b, _⟩ | ⟨_, b, _⟩
    · rw [b]
      show s'.state ≠ .complete
      rcases h4 with h4 | h4
      · rw [h4]; rcases ha with ha | ha <;> rw [ha] <;> intro h <;> cases h
      · rw [h4]; intro h; cases h
    · rw [b]
      show s'.state = .recvData
      rcases h4 with h4 | h4
      · rw [h4]; have := h.agree; rw [b] at this; exact this
      · exact h4
  · rw [h1] at hh; rw [h2, h3]; exact h.fresh ha hh
  · rw [h1] at hh; rw [h2, h3]; exact h.opened ha hh

theorem step_inv {s : Client} {p : Phase} (h : Inv s p) (e : Ev) (henv : e.env.openOk = true → e.env.openHandle = true) :
    ∃ p1, trackAll e.env p (step s e).2 = some p1 ∧ Inv (step s e).1 p1 := by
  cases e with
  | poll env now =>
    dsimp only [step, Ev.env]
    unfold poll
    by_cases hA : s.state ≠ .waitFirst ∧ s.state ≠ .recvData
    · rw [if_pos hA]; exact ⟨p, rfl, h⟩
    · rw [if_neg hA]
      have ha : Active s := by
        unfold Active
        by_cases h1 : s.state = .waitFirst
        · exact .inl h1
        · by_cases h2 : s.state = .recvData
          · exact .inr h2
          · exact absurd ⟨h1, h2⟩ hA
      split
      · exact ⟨p, rfl, h⟩
      · split
        · exact ⟨p, rfl, h.keep ha rfl rfl rfl (.inl rfl)⟩
        · split
          · exact ⟨p, rfl, h⟩
          · split
            · exact h.end_err (st := .timeout) ha (by simp) rfl [] rfl
            · exact ⟨p, by simp [trackAll, track_send], h.keep ha rfl rfl rfl (.inl rfl)⟩
  | recv env lp ip port m =>
    dsimp only [step, Ev.env] at henv ⊢
    unfold receive
    by_cases h0 : lp ≠ s.localPort
    · rw [if_pos h0]; exact ⟨p, rfl, h⟩
    rw [if_neg h0]
    by_cases hA : s.state ≠ .waitFirst ∧ s.state ≠ .recvData
    · rw [if_pos hA]; exact ⟨p, rfl, h⟩
    rw [if_neg hA]
    have ha : Active s := by
      unfold Active
      by_cases h1 : s.state = .waitFirst
      · exact .inl h1
      · by_cases h2 : s.state = .recvData
        · exact .inr h2
        · exact absurd ⟨h1, h2⟩ hA
    by_cases h1 : ip ≠ s.serverIp
    · rw [if_pos h1]; exact ⟨p, rfl, h⟩
    rw [if_neg h1]
    by_cases h2 : s.tidLocked = true ∧ port ≠ s.serverPort
    · rw [if_pos h2]; exact ⟨p, by simp [trackAll, track_send], h⟩
    rw [if_neg h2]
    by_cases h3 : m.length < 2
    · rw [if_pos h3]; exact ⟨p, rfl, h⟩
    rw [if_neg h3]
    by_cases h4 : rd16 m 0 = 6
    · rw [if_pos h4]
      dsimp only
      cases parseOack m (negDefaults s.cfg) s.asked with
      | packet => exact h.end_err (s' := { s with serverPort := port, tidLocked := true }) (st := .packet) ha (by simp) rfl [] rfl
      | unsupported => exact h.end_err (s' := { s with serverPort := port, tidLocked := true }) (st := .unsupported) ha (by simp) rfl [] rfl
      | oob => exact ⟨p, rfl, h.keep ha rfl rfl rfl (.inl rfl)⟩
      | running => exact ⟨p, rfl, h.keep ha rfl rfl rfl (.inl rfl)⟩
      | ok n =>
        dsimp only
        have tail : ∀ (s1 : Client) (z : Nat), s1.handle = s.handle → s1.total = s.total → s1.nextOffset = s.nextOffset →
            s1.state = s.state → ∃ p1, trackAll env p (if s1.cfg.maxImage ≠ 0 ∧ z > s1.cfg.maxImage then
                ((finish s1 .size).1, .send s1.serverPort (errPkt 3) :: (finish s1 .size).2)
              else if env.sendOk = false then ({ s1 with neg := n, lastTx := ackPkt 0 }, [.send s1.serverPort (ackPkt 0)])
              else ({ s1 with neg := n, lastTx := ackPkt 0, lastAcked := 0, state := .recvData, deadline := 0, retries := 0 },
                [.send s1.serverPort (ackPkt 0)])).2 = some p1 ∧ Inv (if s1.cfg.maxImage ≠ 0 ∧ z > s1.cfg.maxImage then
                ((finish s1 .size).1, .send s1.serverPort (errPkt 3) :: (finish s1 .size).2)
              else if env.sendOk = false then ({ s1 with neg := n, lastTx := ackPkt 0 }, [.send s1.serverPort (ackPkt 0)])
              else ({ s1 with neg := n, lastTx := ackPkt 0, lastAcked := 0, state := .recvData, deadline := 0, retries := 0 },
                [.send s1.serverPort (ackPkt 0)])).1 p1 := by
          intro s1 z k1 k2 k3 k4
          split
          · exact h.end_err (s' := s1) (st := .size) ha (by simp) k1 [.send s1.serverPort (errPkt 3)] (by simp [trackAll, track_send])
          · split
            · exact ⟨p, by simp [trackAll, track_send], h.keep ha k1 k2 k3 (.inl k4)⟩
            · exact ⟨p, by simp [trackAll, track_send], h.keep ha k1 k2 k3 (.inr rfl)⟩
        cases n.tsize with
        | none => exact tail { s with serverPort := port, tidLocked := true } _ rfl rfl rfl rfl
        | some t => exact tail { s with serverPort := port, tidLocked := true, advertised := t } _ rfl rfl rfl rfl
    rw [if_neg h4]
    by_cases h5 : rd16 m 0 = 5
    · rw [if_pos h5]; exact h.end_err (s' := s) (st := .io) ha (by simp) rfl [] rfl
    rw [if_neg h5]
    by_cases h6 : rd16 m 0 ≠ 3
    · rw [if_pos h6]; exact ⟨p, rfl, h⟩
    rw [if_neg h6]
    by_cases h7 : m.length < 4
    · rw [if_pos h7]; exact ⟨p, rfl, h⟩
    rw [if_neg h7]
    dsimp only
    obtain ⟨s1, hs1⟩ : ∃ s1 : Client, (if s.tidLocked = true then s else { s with serverPort := port, tidLocked := true }) = s1 := ⟨_, rfl⟩
    have k : s1.handle = s.handle ∧ s1.total = s.total ∧ s1.nextOffset = s.nextOffset ∧ s1.state = s.state := by
      rw [← hs1]; split <;> exact ⟨rfl, rfl, rfl, rfl⟩
    rw [hs1]
    obtain ⟨s2, hs2⟩ : ∃ s2 : Client, (if s1.state = .waitFirst then { s1 with neg := negDefaults s1.cfg, advertised := 0, state := .recvData } else s1) = s2 := ⟨_, rfl⟩
    have k2 : s2.handle = s.handle ∧ s2.total = s.total ∧ s2.nextOffset = s.nextOffset ∧ s2.state = .recvData := by
      rw [← hs2]; split
      · exact ⟨k.1, k.2.1, k.2.2.1, rfl⟩
      · rename_i hw
        refine ⟨k.1, k.2.1, k.2.2.1, ?_⟩
        rw [k.2.2.2] at hw ⊢
        rcases ha with ha | ha
        · exact absurd ha hw
        · exact ha
    rw [hs2]
    refine acceptData_inv (s := { s2 with deadline := 0, retries := 0 }) (h.keep ha k2.1 k2.2.1 k2.2.2.1 (.inr k2.2.2.2)) k2.2.2.2 henv _ _

theorem phases_inv : ∀ (es : List Ev) (s : Client) (p : Phase), Inv s p → GivesHandle es →
    ∃ p1, phases s p es = some p1 ∧ Inv (after s es) p1 := by
  intro es
  induction es with
  | nil => intro s p h _; exact ⟨p, rfl, h⟩
  | cons e es ih =>
    intro s p h hg
    obtain ⟨p1, a1, a2⟩ := step_inv h e (hg e (by simp))
    obtain ⟨p2, b1, b2⟩ := ih _ _ a2 (fun e' he => hg e' (List.mem_cons_of_mem _ he))
    refine ⟨p2, ?_, b2⟩
    rw [phases, a1]; exact b1

theorem start_inv {cfg : Cfg} {lp ip port : Nat} {name : List Nat} {s : Client} (h : start cfg lp ip port name = some s) :
    Inv s .fresh := by
  unfold start at h
  split at h
  · cases h
  · cases h
    exact ⟨(by intro h; cases h), fun _ _ => ⟨rfl, rfl, rfl⟩, fun _ h => (by cases h)⟩

/-- **Callback protocol.** From the request on, for every sequence of packets, polls and callback answers, the
calls made to the application's sink follow the protocol, and the state of the client tells the phase: in
particular the transfer is reported complete only after a verification that succeeded. -/
theorem sink_protocol (cfg : Cfg) (lp ip port : Nat) (name : List Nat) (s : Client) (h : start cfg lp ip port name = some s)
    (es : List Ev) (hg : GivesHandle es) : ∃ p, phases s .fresh es = some p ∧ Agree (after s es) p := by
  obtain ⟨p, a, b⟩ := phases_inv es s .fresh (start_inv h) hg
  exact ⟨p, a, b.agree⟩

/-- Complete means verified and closed as good. -/
theorem complete_means_verified (cfg : Cfg) (lp ip port : Nat) (name : List Nat) (s : Client)
    (h : start cfg lp ip port name = some s) (es : List Ev) (hg : GivesHandle es) :
    (after s es).state = .complete ↔ phases s .fresh es = some (.closed true) := by
  obtain ⟨p, a, b⟩ := sink_protocol cfg lp ip port name s h es hg
  constructor
  · intro hc
    rw [a]
    cases p with
    | fresh => exact absurd hc b
    | refused => have b : (after s es).state = .error := b; rw [b] at hc; cases hc
    | opened n => have b : (after s es).state = .recvData := b; rw [b] at hc; cases hc
    | failed => exact b.elim
    | verified => exact b.elim
    | closed g =>
      cases g with
      | true => rfl
      | false => have b : (after s es).state = .error := b; rw [b] at hc; cases hc
  · intro hp
    rw [a] at hp; cases hp
    exact b

/-- Without a handle from `open` the sink is opened again for every block: the protocol needs the handle. -/
theorem no_handle_reopens (s : Client) (h : s.handle = false) (hl : s.total + 3 ≤ 4294967295) (hm : s.cfg.maxImage = 0)
    (hb : s.neg.blksize ≤ 3) (hw : 1 < s.neg.windowsize) (h0 : s.windowCount = 0) (env : Env)
    (he : env = { openHandle := false }) :
    .openSink ∈ (acceptData s env s.expected [1, 2, 3]).2 ∧ (acceptData s env s.expected [1, 2, 3]).1.handle = false := by
  subst he
  have hn : ¬ (3 < s.neg.blksize) := by omega
  have hl' : ¬ (4294967295 < s.total + 3) := by omega
  simp [acceptData, acceptTail, h, hm, h0, hn, hl', finish, Nat.not_le.2 hw]

/-! ## Examples -/

/-- The download of `exRun` through a sink that works: opened, two writes, verified with 20, closed as good. -/
example : ∃ s, start cfg16 1000 7 69 [97] = some s ∧ phases s .fresh exRun = some (.closed true) ∧ GivesHandle exRun :=
  ⟨(start cfg16 1000 7 69 [97]).get (by decide +kernel), by decide +kernel, by decide +kernel, by
    intro e he _
    revert he
    simp only [exRun, List.mem_cons, List.not_mem_nil, or_false]
    rintro (h | h | h | h | h) <;> subst h <;> rfl⟩

/-- The second write fails: closed as bad, and the retransmission of the block changes nothing. -/
example : ∃ s, start cfg16 1000 7 69 [97] = some s ∧
    phases s .fresh [.recv {} 1000 7 5000 ([0, 6] ++ wire kBlksize [49, 54]), .recv {} 1000 7 5000 (dataPkt 16 file20 1),
      .recv { writeOk := false } 1000 7 5000 (dataPkt 16 file20 2), .recv {} 1000 7 5000 (dataPkt 16 file20 2)] = some (.closed false) :=
  ⟨(start cfg16 1000 7 69 [97]).get (by decide +kernel), by decide +kernel, by decide +kernel⟩

/-- A client with a size limit (it asks the server for the size). -/
def cfgMax : Cfg := cfgDefaults { blksize := 16, timeout := 1, windowsize := 1, maxRetries := 3, maxImage := 1000 }

/-- The number given to the verification is what was received, not the size the server announced: a download
that stops short of the announced size is verified against itself and completes. -/
theorem announced_size_ignored : ∃ s, start cfgMax 1000 7 69 [97] = some s ∧
    (after s [.recv {} 1000 7 5000 ([0, 6] ++ wire kBlksize [49, 54] ++ wire kTsize [50, 48]),
      .recv {} 1000 7 5000 [0, 3, 0, 1, 65]]).advertised = 20 ∧
    (after s [.recv {} 1000 7 5000 ([0, 6] ++ wire kBlksize [49, 54] ++ wire kTsize [50, 48]),
      .recv {} 1000 7 5000 [0, 3, 0, 1, 65]]).state = .complete ∧
    phases s .fresh [.recv {} 1000 7 5000 ([0, 6] ++ wire kBlksize [49, 54] ++ wire kTsize [50, 48]),
      .recv {} 1000 7 5000 [0, 3, 0, 1, 65]] = some (.closed true) ∧
    (step (step s (.recv {} 1000 7 5000 ([0, 6] ++ wire kBlksize [49, 54] ++ wire kTsize [50, 48]))).1
      (.recv {} 1000 7 5000 [0, 3, 0, 1, 65])).2 =
      [.openSink, .write 0 [65], .hash [65], .send 5000 (ackPkt 1), .verify 1, .close .ok] :=
  ⟨(start cfgMax 1000 7 69 [97]).get (by decide +kernel), by decide +kernel, by decide +kernel, by decide +kernel, by decide +kernel,
    by decide +kernel⟩

end Wolf.Tftp
