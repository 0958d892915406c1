import Verif.Tls.ClientProps
/-! # C128: what goes wrong — descriptors of the generic client, connection attempts that never end -/
namespace Wolf.Tls
open Wolf.Glue

/-! ## The generic client uses up the descriptors -/

/-- Successful set-ups in a history of the glue. -/
def setups (log : List (Op × Res)) : Nat := log.countP fun e => match e with
  | (.sslIO _ _ _, .ok) => true
  | _ => false

/-- Descriptors in use. -/
def busy (l : List Slot) : Nat := l.countP fun d => !d.free .ssl

theorem busy_take : ∀ (l : List Slot) (i st : Nat) (fd : Int), firstFree .ssl l = some i →
    busy (l.set i ⟨some st, fd, true⟩) = busy l + 1
  | [], _, _, _, h => by cases h
  | d :: l, i, st, fd, h => by
    unfold firstFree at h
    by_cases hd : d.free .ssl = true
    · rw [if_pos hd] at h
      cases h
      show busy (⟨some st, fd, true⟩ :: l) = busy (d :: l) + 1
      have h1 : (⟨some st, fd, true⟩ : Slot).free .ssl = false := rfl
      simp only [busy, List.countP_cons, hd, h1]
      simp
    · rw [if_neg hd] at h
      cases hj : firstFree .ssl l with
      | none => rw [hj] at h; cases h
      | some j =>
        rw [hj] at h
        have h := Option.some.inj h
        subst h
        have ih := busy_take l j st fd hj
        show busy (d :: l.set j ⟨some st, fd, true⟩) = busy (d :: l) + 1
        simp only [busy, List.countP_cons] at ih ⊢
        omega

theorem setups_busy : ∀ l : List Op, (∀ x, .clean x ∉ l) → setups (exec .ssl l).2 = busy (exec .ssl l).1.slots
  | [], _ => by decide
  | o :: l, h => by
    have ih := setups_busy l (fun x hx => h x (List.mem_cons_of_mem _ hx))
    show setups ((o, (Glue.step .ssl (exec .ssl l).1 o).2) :: (exec .ssl l).2) = busy (Glue.step .ssl (exec .ssl l).1 o).1.slots
    generalize exec .ssl l = p at ih
    obtain ⟨s, log⟩ := p
    have ih : setups log = busy s.slots := ih
    have same : ∀ r, r ≠ Res.ok ∨ (∀ x c fd, o ≠ .sslIO x c fd) → setups ((o, r) :: log) = setups log := by
      intro r hr
      simp only [setups, List.countP_cons]
      cases o with
      | sslIO x c fd =>
        cases r with
        | ok => rcases hr with hr | hr
                · exact absurd rfl hr
                · exact absurd rfl (hr x c fd)
        | _ => rfl
      | _ => rfl
    cases o with
    | regCtx c st => exact (same _ (.inr nofun)).trans ih
    | clean x => exact absurd (List.mem_cons_self ..) (h x)
    | free x => exact (same _ (.inr nofun)).trans ih
    | sshIO x c fd => exact (same _ (.inr nofun)).trans ih
    | sslIO x c fd =>
      dsimp only [Glue.step]
      rw [if_pos rfl]
      unfold sslSetIO
      cases c with
      | none => exact (same .badArg (.inl nofun)).trans ih
      | some c =>
        dsimp only
        split
        · exact (same .badArg (.inl nofun)).trans ih
        cases lookup s.ctxs c with
        | none => exact (same .general (.inl nofun)).trans ih
        | some st =>
          dsimp only
          cases hi : firstFree .ssl s.slots with
          | none => exact (same .noSlot (.inl nofun)).trans ih
          | some i =>
            dsimp only
            have := busy_take s.slots i st fd hi
            show setups _ = busy (s.slots.set i ⟨some st, fd, true⟩)
            rw [this, ← ih]
            simp only [setups, List.countP_cons]
            rfl

theorem setups_le (l : List Op) (h : ∀ x, .clean x ∉ l) : setups (exec .ssl l).2 ≤ 8 := by
  rw [setups_busy l h]
  have h1 := (exec_inv .ssl l nofun).len
  have h2 : busy (exec .ssl l).1.slots ≤ (exec .ssl l).1.slots.length := List.countP_le_length
  rw [h1] at h2
  exact h2

/-- No clean-up is ever called for by the generic client. -/
theorem generic_ops (ctx : Nat) (w : W) (e : Ev) (ho : ∀ o, e ≠ .other o) (h : ∀ x, .clean x ∉ w.ops) :
    ∀ x, .clean x ∉ (step .generic ctx w e).ops := by
  have hh : ∀ (w' : W) (hs : Hs), (handshake .generic w' hs).1.ops = w'.ops := fun w' hs => by cases hs <;> rfl
  cases e with
  | other o => exact absurd rfl (ho o)
  | close =>
    intro x hx
    have e : (step .generic ctx w .close).ops = (teardown .generic w).ops := by
      dsimp only [step, close]
      unfold closeFd
      split <;> rfl
    rw [e] at hx
    unfold teardown at hx
    cases hs : w.cl.ssl with
    | none => rw [hs] at hx; exact h x hx
    | some y =>
      rw [hs] at hx
      rcases List.mem_cons.mp hx with e | hx
      · cases e
      · exact h x hx
  | connect ip s c =>
    dsimp only [step]
    unfold connect
    dsimp only
    split
    · exact h
    split
    · exact h
    split
    · exact h
    split
    · exact h
    · exact h
  | poll e =>
    show ∀ x, .clean x ∉ (poll .generic ctx w e).1.ops
    unfold poll
    cases w.cl.ph with
    | idle => exact h
    | done => exact h
    | error => exact h
    | handshake => dsimp only; rw [hh]; exact h
    | connected =>
      dsimp only
      unfold connected
      cases e.rd <;> exact h
    | connecting =>
      dsimp only
      unfold connecting
      split
      · exact h
      split
      · exact h
      dsimp only
      split
      · exact h
      unfold setup
      cases e.new with
      | none => exact h
      | some y =>
        dsimp only
        have h1 : ∀ x, .clean x ∉ (Op.sslIO y (some ctx) w.cl.fd :: w.ops) := fun x hx => by
          rcases List.mem_cons.mp hx with e | hx
          · cases e
          · exact h x hx
        split
        · exact h1
        · rw [hh]; exact h1

theorem generic_run_ops (ctx : Nat) : ∀ (es : List Ev) (w : W), (∀ e ∈ es, ∀ o, e ≠ .other o) → (∀ x, .clean x ∉ w.ops) →
    ∀ x, .clean x ∉ (run .generic ctx w es).ops
  | [], _, _, h => h
  | e :: es, w, ho, h => generic_run_ops ctx es _ (fun e' he => ho e' (List.mem_cons_of_mem _ he))
      (generic_ops ctx w e (ho e (List.mem_cons_self ..)) h)

/-- **Finding** (`generic_at_most_eight`): the generic client never gives its I/O descriptor back. Alone on the glue, it
sets up at most eight sessions, in whatever history of connects and closes; from then on every connection that settles
ends in ERROR. -/
theorem generic_at_most_eight (ctx st : Nat) (es : List Ev) (ho : ∀ e ∈ es, ∀ o, e ≠ .other o) :
    let w := run .generic ctx (start ctx st) es
    setups (exec .ssl w.ops).2 ≤ 8 ∧
    (setups (exec .ssl w.ops).2 = 8 → w.cl.ph = .connecting → ∀ e : PollEnv,
      (step .generic ctx w (.poll e)).cl.ph = .connecting ∨ (step .generic ctx w (.poll e)).cl.ph = .error) := by
  have hn := generic_run_ops ctx es (start ctx st) ho (fun x hx => by simp [start] at hx)
  dsimp only
  generalize run .generic ctx (start ctx st) es = w at hn
  refine ⟨setups_le w.ops hn, fun h8 hp e => ?_⟩
  show (poll .generic ctx w e).1.cl.ph = _ ∨ (poll .generic ctx w e).1.cl.ph = _
  unfold poll
  rw [hp]
  dsimp only
  unfold connecting
  split
  · exact .inl hp
  split
  · exact .inr rfl
  dsimp only
  split
  · exact .inl hp
  unfold setup
  cases e.new with
  | none => exact .inr rfl
  | some y =>
    dsimp only
    split
    · exact .inr rfl
    · rename_i hr
      exfalso
      have hr : (Glue.step .ssl (exec .ssl w.ops).1 (.sslIO y (some ctx) w.cl.fd)).2 = .ok := by simpa using hr
      have := setups_le (.sslIO y (some ctx) w.cl.fd :: w.ops) (fun x hx => by
        rcases List.mem_cons.mp hx with e | hx
        · cases e
        · exact hn x hx)
      have e : setups (exec .ssl (.sslIO y (some ctx) w.cl.fd :: w.ops)).2 = setups (exec .ssl w.ops).2 + 1 := by
        show setups ((_, (Glue.step .ssl (exec .ssl w.ops).1 (.sslIO y (some ctx) w.cl.fd)).2) :: (exec .ssl w.ops).2) = _
        rw [hr]
        simp only [setups, List.countP_cons]
        rfl
      omega

/-! ## Connection attempts -/

theorem poll_eagain (v : Variant) (ctx : Nat) (w : W) (e : PollEnv) (hp : w.cl.ph = .connecting) (he : e.conn = eagain) :
    step v ctx w (.poll e) = (connecting v ctx w e).1 ∧ (v = .generic → (step v ctx w (.poll e)).cl.ph = .connecting) ∧
    (v = .rtl → w.cl.wait < maxPolls → (step v ctx w (.poll e)).cl.ph = .connecting ∧ (step v ctx w (.poll e)).cl.wait = w.cl.wait + 1) ∧
    (v = .rtl → w.cl.wait = maxPolls → (step v ctx w (.poll e)).cl.ph = .error) := by
  have hs : step v ctx w (.poll e) = (connecting v ctx w e).1 := by
    show (poll v ctx w e).1 = _
    unfold poll; rw [hp]
  refine ⟨hs, ?_, ?_, ?_⟩ <;> rw [hs] <;> unfold connecting <;> rw [if_pos he]
  · rintro rfl; exact hp
  · rintro rfl h
    dsimp only
    rw [if_neg (by omega)]
    exact ⟨hp, rfl⟩
  · rintro rfl h
    dsimp only
    rw [if_pos (by omega)]
    exact finish_ph ..

/-- **C128, rtl8735b: a server that never answers.** While every poll finds the connection still being made, the client
is connecting; with the 2001st such poll it gives up. -/
theorem rtl_gives_up (ctx : Nat) : ∀ (ps : List PollEnv) (w : W), (∀ p ∈ ps, p.conn = eagain) → w.cl.ph = .connecting →
    w.cl.wait ≤ maxPolls →
    (w.cl.wait + ps.length ≤ maxPolls → (run .rtl ctx w (ps.map .poll)).cl.ph = .connecting) ∧
    (w.cl.wait + ps.length = maxPolls + 1 → (run .rtl ctx w (ps.map .poll)).cl.ph = .error)
  | [], w, _, hp, hw => ⟨fun _ => hp, fun h => by simp only [List.length_nil] at h; omega⟩
  | p :: ps, w, he, hp, hw => by
    obtain ⟨-, -, h1, h2⟩ := poll_eagain .rtl ctx w p hp (he p (List.mem_cons_self ..))
    have rest := fun q hq => he q (List.mem_cons_of_mem p hq)
    simp only [List.length_cons, List.map_cons, run]
    by_cases hk : w.cl.wait < maxPolls
    · obtain ⟨a, b⟩ := h1 rfl hk
      have ih := rtl_gives_up ctx ps _ rest a (by omega)
      rw [b] at ih
      exact ⟨fun h => ih.1 (by omega), fun h => ih.2 (by omega)⟩
    · have a := h2 rfl (by omega)
      refine ⟨fun h => by omega, fun h => ?_⟩
      have : ps = [] := List.eq_nil_of_length_eq_zero (by omega)
      rw [this]
      exact a

/-- **Finding**: the generic client waits for a server that never answers for ever. -/
theorem generic_waits_forever (ctx : Nat) : ∀ (ps : List PollEnv) (w : W), (∀ p ∈ ps, p.conn = eagain) → w.cl.ph = .connecting →
    (run .generic ctx w (ps.map .poll)).cl.ph = .connecting
  | [], _, _, hp => hp
  | p :: ps, w, he, hp =>
    generic_waits_forever ctx ps _ (fun q hq => he q (List.mem_cons_of_mem p hq))
      ((poll_eagain .generic ctx w p hp (he p (List.mem_cons_self ..))).2.1 rfl)

/-- **Finding**: the bound of the rtl client counts consecutive polls only. A connection that comes and goes (an accept
followed by a reset, before ten polls have passed) keeps it connecting for ever: each of the two counters is reset by the
other case. -/
theorem rtl_flapping_never_ends (ctx : Nat) : ∀ (n : Nat) (w : W), w.cl.ph = .connecting → w.cl.ready = 0 → w.cl.wait ≤ 1 →
    (run .rtl ctx w ((List.replicate n [Ev.poll { conn := 0 }, Ev.poll { conn := eagain }]).flatten)).cl.ph = .connecting
  | 0, _, hp, _, _ => hp
  | n + 1, w, hp, hr, hw => by
    have h1 : step .rtl ctx w (.poll { conn := 0 }) = { w with cl := { w.cl with ready := 1, wait := 0 } } := by
      show (poll .rtl ctx w _).1 = _
      unfold poll; rw [hp]
      dsimp only
      unfold connecting
      rw [if_neg (by decide), if_neg (by decide)]
      dsimp only
      rw [hr, if_pos (by decide)]
    show (run .rtl ctx (step .rtl ctx (step .rtl ctx w (.poll { conn := 0 })) (.poll { conn := eagain })) _).cl.ph = _
    rw [h1]
    obtain ⟨e, -, h2, -⟩ := poll_eagain .rtl ctx { w with cl := { w.cl with ready := 1, wait := 0 } } { conn := eagain } hp rfl
    obtain ⟨a, b⟩ := h2 rfl (show (0:Nat) < 2000 by decide)
    refine rtl_flapping_never_ends ctx n _ a ?_ (by rw [b]; exact Nat.le_refl 1)
    rw [e]
    unfold connecting
    rw [if_pos rfl]
    dsimp only
    rw [if_neg (by decide)]

/-- `tls_client_send` refuses unless connected, and passes on what `wolfSSL_write` took. -/
theorem send_result (w : W) (n : Int) (want : Bool) :
    (w.cl.ph ≠ .connected → send w n want = -1) ∧ (w.cl.ph = .connected → 0 < n → send w n want = n) := by
  unfold send
  refine ⟨fun h => if_pos h, fun h hn => ?_⟩
  rw [if_neg (by simp [h]), if_neg (by omega)]

/-- **Finding**: `wolfSSL_write` answers -1 when the socket's buffer is full; `tls_client_send` then answers -1 like for
a dead connection, so the caller cannot tell "try again" from "failed". -/
theorem send_ambiguous (w : W) : send w (-1) true = send w (-1) false := by
  unfold send
  split
  · rfl
  · rfl

/-! ## Examples -/

/-- One connection from connect to close: ten polls to settle, set-up with session `x`, handshake, a read, end, close. -/
def session (x : Nat) : List Ev :=
  [.connect 0x0A000001 11 eagain] ++ List.replicate 10 (.poll { conn := 0, new := some x, hs := .ok }) ++
  [.poll { rd := .data [72, 105] }, .poll { rd := .zeroReturn }, .close]

/-- Twenty connections of the rtl client, all of them get their data. -/
example : ((run .rtl 7 (start 7 0) ((List.range 20).flatMap session)).acts.filter (fun a => decide (a = .deliver [72, 105]))).length = 20 := by
  decide +kernel

/-- Twenty connections of the generic client: eight get their data. -/
example : ((run .generic 7 (start 7 0) ((List.range 20).flatMap session)).acts.filter (fun a => decide (a = .deliver [72, 105]))).length = 8 := by
  decide +kernel

/-- The history of one connection is fair, also with another user's session open beside it. -/
example : FairAll .rtl 7 [7] (start 7 0) [.connect 1 11 eagain, .other (.sslIO 99 (some 7) 20), .poll { conn := eagain }, .close] := by
  refine ⟨trivial, ⟨⟨by decide, trivial⟩, by decide⟩, ?_, trivial, trivial⟩
  intro x hx; cases hx

end Wolf.Tls
