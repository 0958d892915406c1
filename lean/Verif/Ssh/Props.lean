import Verif.Ssh.Server
/-! # C130: proofs about the SSH server -/
namespace Wolf.Ssh

/-! ## Password check -/

/-- **C130, authentication.** Exactly the configured name with exactly the configured password gets in, and only by the
password method. -/
theorem auth_exact (pw : Bool) (user pass : List Nat) :
    auth pw user pass = .success ↔ pw = true ∧ user = userName ∧ pass = password := by
  have key : ∀ a b : List Nat, (a.length ≠ b.length ∨ a.take a.length ≠ b.take a.length) ↔ a ≠ b := by
    intro a b
    rw [List.take_length]
    constructor
    · rintro (h | h) e
      · exact h (by rw [e])
      · exact h (by rw [e, List.take_length])
    · intro h
      by_cases hl : a.length = b.length
      · exact .inr (by rw [hl, List.take_length]; exact h)
      · exact .inl hl
  unfold auth
  simp only [key]
  cases pw
  · simp
  · by_cases h1 : user = userName <;> by_cases h2 : pass = password <;> simp [h1, h2]

/-! ## Numbers and answers -/

/-- The value of a decimal numeral. -/
def value (l : List Nat) : Nat := l.foldl (fun a c => 10 * a + (c - 48)) 0

theorem value_snoc (l : List Nat) (c : Nat) : value (l ++ [c]) = 10 * value l + (c - 48) := by simp [value, List.foldl_append]

theorem digits_spec : ∀ (f v : Nat), v < 10 ^ f → value (digits f v).reverse = v ∧ (∀ c ∈ digits f v, 48 ≤ c ∧ c ≤ 57) ∧
    (v ≠ 0 → (digits f v).getLast? ≠ some 48 ∧ digits f v ≠ [])
  | 0, v, h => by
    have : v = 0 := by simpa using h
    subst this
    exact ⟨rfl, nofun, fun h => absurd rfl h⟩
  | f + 1, v, h => by
    unfold digits
    by_cases hv : v = 0
    · rw [if_pos hv, hv]
      exact ⟨rfl, nofun, fun h => absurd rfl h⟩
    · rw [if_neg hv]
      obtain ⟨h1, h2, h3⟩ := digits_spec f (v / 10) (by rw [Nat.pow_succ] at h; omega)
      refine ⟨?_, ?_, fun _ => ⟨?_, List.cons_ne_nil _ _⟩⟩
      · rw [List.reverse_cons, value_snoc, h1]; omega
      · intro c hc
        rcases List.mem_cons.mp hc with e | e
        · omega
        · exact h2 c e
      · by_cases hz : v / 10 = 0
        · have : digits f (v / 10) = [] := by rw [hz]; cases f <;> simp [digits]
          rw [this, List.getLast?_singleton]
          intro e
          have := Option.some.inj e
          omega
        · obtain ⟨h4, h5⟩ := h3 hz
          rw [List.getLast?_cons, ]
          cases hl : (digits f (v / 10)).getLast? with
          | none => exact absurd (List.getLast?_eq_none_iff.mp hl) h5
          | some a => rw [hl] at h4; exact h4

theorem digits_len : ∀ (f n v : Nat), v < 10 ^ n → (digits f v).length ≤ n
  | 0, _, _, _ => Nat.zero_le _
  | f + 1, 0, v, h => by
    have : v = 0 := by simpa using h
    simp [digits, this]
  | f + 1, n + 1, v, h => by
    unfold digits
    split
    · exact Nat.zero_le _
    · rw [List.length_cons]
      have := digits_len f n (v / 10) (by rw [Nat.pow_succ] at h; omega)
      omega

/-- **C130, numbers.** Every 32-bit number is written as its decimal numeral, without leading zeros, and fits `num_buf`
of twelve bytes with its NUL. -/
theorem uint_decimal (v : Nat) (hv : v < 4294967296) :
    value (uintToStr v) = v ∧ (∀ c ∈ uintToStr v, 48 ≤ c ∧ c ≤ 57) ∧ (uintToStr v).length + 1 ≤ 12 ∧
    (v ≠ 0 → (uintToStr v).head? ≠ some 48) := by
  unfold uintToStr
  by_cases h : v = 0
  · rw [if_pos h, h]; exact ⟨rfl, by decide, by decide, fun h => absurd rfl h⟩
  · rw [if_neg h]
    obtain ⟨h1, h2, h3⟩ := digits_spec 12 v (by omega)
    refine ⟨h1, fun c hc => h2 c (List.mem_reverse.mp hc), ?_, fun hz => ?_⟩
    · rw [List.length_reverse]; have := digits_len 12 10 v (by omega); omega
    · rw [List.head?_reverse]; exact (h3 hz).1

theorem fit_lt (t : List Nat) {max : Nat} (h : 0 < max) : (fit t max).length < max := by
  unfold fit
  split
  · rw [List.length_take]; omega
  · omega

/-- **C130, answers.** Whatever was typed and whatever the size of the buffer: the text stored fits it with its NUL, and
the number of bytes the caller is told to send is the length of that text. -/
theorem answer_fits (cmd : List Nat) (max : Nat) (h : 0 < max) :
    (handle cmd max).1.length < max ∧ (handle cmd max).2.natAbs = (handle cmd max).1.length := by
  unfold handle
  dsimp only
  repeat' split
  all_goals first
    | exact ⟨fit_lt _ h, by dsimp only; omega⟩
    | exact ⟨by dsimp only; assumption, by dsimp only; omega⟩
    | exact ⟨h, rfl⟩

/-- With the server's buffer of 256 bytes no answer is cut, none contains a NUL, and the session ends exactly for a
line that starts, after blanks, with "exit" or "quit". -/
theorem answer_whole (cmd : List Nat) :
    (handle cmd 256).1 ∈ [tHelp, tInfo, tUp1 ++ [48] ++ tUp2, tBye, tUnknown, []] ∧ 0 ∉ (handle cmd 256).1 ∧
    ((handle cmd 256).2 < 0 ↔ ((cmd.dropWhile fun c => c == 32 || c == 9).take 4 = cExit ∨ (cmd.dropWhile fun c => c == 32 || c == 9).take 4 = cQuit)) := by
  unfold handle
  dsimp only
  have f1 : fit tHelp 256 = tHelp := by decide +kernel
  have f2 : fit tInfo 256 = tInfo := by decide +kernel
  have f3 : fit tBye 256 = tBye := by decide +kernel
  have f4 : fit tUnknown 256 = tUnknown := by decide +kernel
  have f5 : uintToStr uptime = [48] := by decide +kernel
  rw [f1, f2, f3, f4, f5]
  generalize cmd.dropWhile (fun c => c == 32 || c == 9) = c
  split
  · rename_i h; rw [h]; exact ⟨by simp, by decide +kernel, by decide +kernel⟩
  split
  · rename_i h; rw [h]; exact ⟨by simp, by decide +kernel, by decide +kernel⟩
  split
  · rename_i h
    have : c.take 4 = [117, 112, 116, 105] := by
      have := congrArg (List.take 4) h
      rw [List.take_take] at this
      exact this
    rw [this, if_pos (by decide)]
    exact ⟨by simp, by decide +kernel, by decide +kernel⟩
  split
  · rename_i h; exact ⟨by simp, by decide +kernel, fun _ => h, fun _ => by decide⟩
  · rename_i h
    split
    · exact ⟨by simp, by decide +kernel, fun h' => absurd h' (by decide), fun h' => absurd h' h⟩
    · exact ⟨by simp, by simp, fun h' => absurd h' (by decide), fun h' => absurd h' h⟩

/-- Each command gives its own text, whatever follows it on the line and however many blanks are in front. -/
theorem answer_of (n : Nat) (rest : List Nat) :
    (handle (List.replicate n 32 ++ cHelp ++ rest) 256).1 = tHelp ∧ (handle (List.replicate n 32 ++ cInfo ++ rest) 256).1 = tInfo ∧
    (handle (List.replicate n 32 ++ cUptime ++ rest) 256).1 = tUp1 ++ [48] ++ tUp2 ∧
    (handle (List.replicate n 32 ++ cExit ++ rest) 256).1 = tBye ∧ (handle (List.replicate n 32 ++ cQuit ++ rest) 256).1 = tBye ∧
    (handle (List.replicate n 32) 256) = ([], 0) := by
  have drop : ∀ (n : Nat) (l : List Nat), handle (List.replicate n 32 ++ l) 256 = handle l 256 := by
    intro n l
    induction n with
    | zero => rfl
    | succ n ih =>
      rw [← ih, List.replicate_succ, List.cons_append]
      unfold handle
      have e : ∀ r : List Nat, (32 :: r).dropWhile (fun c => c == 32 || c == 9) = r.dropWhile (fun c => c == 32 || c == 9) := fun _ => rfl
      rw [e]
  have f1 : fit tHelp 256 = tHelp := by decide +kernel
  have f2 : fit tInfo 256 = tInfo := by decide +kernel
  have f3 : fit tBye 256 = tBye := by decide +kernel
  have f5 : uintToStr uptime = [48] := by decide +kernel
  have f6 : (tUp1 ++ [48] ++ tUp2).length < 256 := by decide +kernel
  have d0 := drop n []
  rw [List.append_nil] at d0
  simp only [List.append_assoc, drop, d0]
  unfold handle
  dsimp only
  rw [f1, f2, f3, f5, if_pos f6]
  refine ⟨?_, ?_, ?_, ?_, ?_, ?_⟩
  · rw [if_pos (by simp [cHelp])]
  · rw [if_neg (by simp [cHelp, cInfo]), if_pos (by simp [cInfo])]
  · rw [if_neg (by simp [cHelp, cUptime]), if_neg (by simp [cInfo, cUptime]), if_pos (by simp [cUptime])]; rfl
  · rw [if_neg (by simp [cHelp, cExit]), if_neg (by simp [cInfo, cExit]), if_neg (by simp [cExit, cUptime]), if_pos (by simp [cExit])]
  · rw [if_neg (by simp [cHelp, cQuit]), if_neg (by simp [cInfo, cQuit]), if_neg (by simp [cQuit, cUptime]), if_pos (by simp [cQuit])]
  · rfl

/-! ## What the server holds -/

open Glue (bound exec Tidy)

/-- What the server owns in each state, and that the glue is as it should be. -/
structure Inv (st : Nat) (w : W) : Prop where
  tidy : Tidy .ssh w.ops
  live : ∀ x, isLive x w.acts = true ↔ w.ssh = some x
  opn : ∀ k, isOpen k w.acts = true ↔ w.client = some k
  bnd : ∀ x, w.ssh = some x → ∃ k : Nat, w.client = some k ∧ bound x (exec .ssh w.ops).2 = some (st, (k : Int))
  oth : ∀ x, w.ssh ≠ some x → bound x (exec .ssh w.ops).2 = none
  idle : w.ph = .listening → w.client = none ∧ w.ssh = none
  acc : w.ph = .accepting → w.client ≠ none ∧ w.ssh = none
  up : w.ph = .keyExchange ∨ w.ph = .connected → w.ssh ≠ none
  cls : w.ph ≠ .listening → w.client ≠ none
  rx : w.rx.length ≤ 511

theorem inv_start (net : Sock.St) (k st : Nat) : Inv st (start net k) where
  tidy := trivial
  live _ := ⟨nofun, nofun⟩
  opn _ := ⟨nofun, nofun⟩
  bnd _ := nofun
  oth _ _ := rfl
  idle _ := ⟨rfl, rfl⟩
  acc := nofun
  up := by rintro (h | h) <;> cases h
  cls h := absurd rfl h
  rx := Nat.zero_le _

theorem inv_listening {st : Nat} {w : W} (port : Nat) (h : Inv st w) (hp : w.ph = .listening) (e : Env) : Inv st (listening port w e) := by
  obtain ⟨hc, hs⟩ := h.idle hp
  unfold listening
  split
  · exact h
  split
  · rename_i k _ _
    exact { tidy := h.tidy, live := h.live, oth := h.oth, rx := h.rx
            opn := fun j => by
              show (if k = j then true else isOpen j w.acts) = true ↔ some k = some j
              by_cases hj : k = j
              · rw [if_pos hj, hj]; exact ⟨fun _ => rfl, fun _ => rfl⟩
              · rw [if_neg hj, h.opn j, hc]
                exact ⟨nofun, fun e => absurd (Option.some.inj e) hj⟩
            bnd := fun x hx => by rw [show (_ : W).ssh = w.ssh from rfl, hs] at hx; cases hx
            idle := nofun, acc := fun _ => ⟨nofun, hs⟩, up := (by rintro (h | h) <;> cases h), cls := fun _ => nofun }
  · exact { h with }
  · exact { h with }

theorem setup_ok {st : Nat} {w : W} (h : Inv st w) (hs : w.ssh = none) (x : Nat) (k : Nat) :
    (Glue.step .ssh (exec .ssh w.ops).1 (.sshIO x (some st) (k : Int))).2 = .ok := by
  have := Glue.ssh_setup_succeeds w.ops h.tidy x st (k : Int) (by omega) (by
    rintro ⟨L, -, hl, hb⟩
    match L, hl with
    | y :: _, _ => exact hb y (List.mem_cons_self ..) (h.oth y (by rw [hs]; nofun)))
  unfold Glue.step
  exact this

theorem accepting_eq {st : Nat} {w : W} (h : Inv st w) (hp : w.ph = .accepting) (e : Env) {x : Nat} (hx : e.new = some x) :
    ∃ k : Nat, w.client = some k ∧ accepting st w e =
      { w with ssh := some x, ops := .sshIO x (some st) (k : Int) :: w.ops, acts := .made x :: w.acts, ph := .keyExchange } ∧
      bound x (exec .ssh (.sshIO x (some st) (k : Int) :: w.ops)).2 = some (st, (k : Int)) := by
  obtain ⟨hc, hs⟩ := h.acc hp
  obtain ⟨k, hk⟩ := Option.ne_none_iff_exists'.mp hc
  have ok := setup_ok h hs x k
  refine ⟨k, hk, ?_, ?_⟩
  · unfold accepting
    rw [hx, hk]
    dsimp only
    rw [ok, if_neg (by simp)]
  · show bound x ((Glue.Op.sshIO x (some st) (k : Int), (Glue.step .ssh (exec .ssh w.ops).1 (.sshIO x (some st) (k : Int))).2) :: (exec .ssh w.ops).2) = _
    rw [ok, bound, if_pos rfl]

theorem inv_accepting {st : Nat} {w : W} (h : Inv st w) (hp : w.ph = .accepting) (e : Env) : Inv st (accepting st w e) := by
  obtain ⟨hc, hs⟩ := h.acc hp
  cases hx : e.new with
  | none =>
    unfold accepting
    rw [hx]
    exact { h with idle := nofun, acc := nofun, up := (by rintro (h | h) <;> cases h), cls := fun _ => hc }
  | some x =>
    obtain ⟨k, hk, he, hb⟩ := accepting_eq h hp e hx
    rw [he]
    have ok := setup_ok h hs x k
    exact {
      tidy := ⟨h.oth x (by rw [hs]; nofun), h.tidy⟩
      live := fun y => by
        show (if x = y then true else isLive y w.acts) = true ↔ some x = some y
        by_cases hy : x = y
        · rw [if_pos hy, hy]; exact ⟨fun _ => rfl, fun _ => rfl⟩
        · rw [if_neg hy, h.live y, hs]
          exact ⟨nofun, fun e => absurd (Option.some.inj e) hy⟩
      opn := h.opn
      bnd := fun y hy => by cases hy; exact ⟨k, hk, hb⟩
      oth := fun y hy => by
        have hy : ¬ (x = y) := fun e => hy (congrArg some e)
        show bound y ((Glue.Op.sshIO x (some st) (k : Int), (Glue.step .ssh (exec .ssh w.ops).1 (.sshIO x (some st) (k : Int))).2) :: (exec .ssh w.ops).2) = _
        rw [ok, bound, if_neg hy]
        exact h.oth y (by rw [hs]; nofun)
      idle := nofun, acc := nofun, up := fun _ => nofun, cls := fun _ => hc, rx := h.rx }

theorem inv_keyExchange {st : Nat} {w : W} (h : Inv st w) (hp : w.ph = .keyExchange) (e : Env) : Inv st (keyExchange w e) := by
  have hs := h.up (.inl hp)
  have hc := h.cls (by rw [hp]; nofun)
  unfold keyExchange
  split
  · exact { tidy := h.tidy, live := h.live, opn := h.opn, bnd := h.bnd, oth := h.oth, idle := nofun, acc := nofun, up := fun _ => hs, cls := fun _ => hc, rx := Nat.zero_le _ }
  · exact h
  · exact { h with idle := nofun, acc := nofun, up := (by rintro (h | h) <;> cases h), cls := fun _ => hc }

theorem inv_connected {st : Nat} {w : W} (h : Inv st w) (hp : w.ph = .connected) (e : Env) : Inv st (connected w e) := by
  have hs := h.up (.inr hp)
  have hc := h.cls (by rw [hp]; nofun)
  have hl := h.rx
  have base : ∀ (w' : W), w'.ops = w.ops → w'.client = w.client → w'.ssh = w.ssh → (w'.ph = .connected ∨ w'.ph = .closing) →
      (∀ k, isOpen k w'.acts = isOpen k w.acts) → (∀ x, isLive x w'.acts = isLive x w.acts) → w'.rx.length ≤ 511 → Inv st w' := by
    intro w' e1 e2 e3 e4 e5 e6 e7
    exact { tidy := by rw [e1]; exact h.tidy
            live := fun x => by rw [e6, e3]; exact h.live x
            opn := fun x => by rw [e5, e2]; exact h.opn x
            bnd := fun x => by rw [e3, e2, e1]; exact h.bnd x
            oth := fun x => by rw [e3, e1]; exact h.oth x
            idle := fun e => by rcases e4 with f | f <;> rw [f] at e <;> cases e
            acc := fun e => by rcases e4 with f | f <;> rw [f] at e <;> cases e
            up := fun _ => by rw [e3]; exact hs
            cls := fun _ => by rw [e2]; exact hc
            rx := e7 }
  unfold connected
  split
  · dsimp only
    split
    · exact h
    have len : (w.rx ++ List.take (512 - w.rx.length - 1) ‹List Nat›).length ≤ 511 := by
      rw [List.length_append, List.length_take]; omega
    split
    · exact base _ rfl rfl rfl (.inl hp) (fun _ => rfl) (fun _ => rfl) len
    · split
      · exact base _ rfl rfl rfl (.inr rfl) (fun _ => rfl) (fun _ => rfl) len
      · split
        · exact base _ rfl rfl rfl (.inl hp) (fun _ => rfl) (fun _ => rfl) (Nat.zero_le _)
        · exact base _ rfl rfl rfl (.inl hp) (fun _ => rfl) (fun _ => rfl) (Nat.zero_le _)
  · exact h
  · exact h
  · exact base _ rfl rfl rfl (.inr rfl) (fun _ => rfl) (fun _ => rfl) hl

theorem inv_closing {st : Nat} {w : W} (h : Inv st w) (hp : w.ph = .closing) (e : Env) : Inv st (closing w e) := by
  have hc := h.cls (by rw [hp]; nofun)
  obtain ⟨k, hk⟩ := Option.ne_none_iff_exists'.mp hc
  have closedOpen : ∀ (l : List Act), (∀ j, isOpen j l = isOpen j w.acts) → ∀ j, isOpen j (.closed k :: l) = true ↔ (none : Option Nat) = some j := by
    intro l hl j
    show (if k = j then false else isOpen j l) = true ↔ _
    by_cases hj : k = j
    · rw [if_pos hj]; exact ⟨nofun, nofun⟩
    · rw [if_neg hj, hl j, h.opn j, hk]
      exact ⟨fun e => absurd (Option.some.inj e) hj, nofun⟩
  unfold closing
  cases hs : w.ssh with
  | none =>
    dsimp only
    rw [hk]
    dsimp only
    exact { tidy := h.tidy, live := h.live
            opn := closedOpen _ fun _ => rfl
            bnd := fun x (hx : w.ssh = some x) => by rw [hs] at hx; cases hx
            oth := fun x _ => h.oth x (by rw [hs]; nofun)
            idle := fun _ => ⟨rfl, hs⟩, acc := nofun, up := (by rintro (h | h) <;> cases h), cls := fun e => absurd rfl e, rx := Nat.zero_le _ }
  | some x =>
    dsimp only
    rw [hk]
    dsimp only
    obtain ⟨k', hk', hb⟩ := h.bnd x hs
    have e1 : ∀ y, bound y (exec .ssh (.clean x :: w.ops)).2 = if x = y then none else bound y (exec .ssh w.ops).2 := fun _ => rfl
    have e2 : ∀ y, bound y (exec .ssh (.free x :: .clean x :: w.ops)).2 = if x = y then none else bound y (exec .ssh (.clean x :: w.ops)).2 := fun _ => rfl
    exact { tidy := ⟨by rw [e1, if_pos rfl], fun _ => (by rw [hb]; nofun), h.tidy⟩
            live := fun y => by
              show (if x = y then false else isLive y w.acts) = true ↔ (none : Option Nat) = some y
              by_cases hy : x = y
              · rw [if_pos hy]; exact ⟨nofun, nofun⟩
              · rw [if_neg hy, h.live y, hs]
                exact ⟨fun e => absurd (Option.some.inj e) hy, nofun⟩
            opn := closedOpen _ fun _ => rfl
            bnd := fun x => nofun
            oth := fun y _ => by
              show bound y (exec .ssh (.free x :: .clean x :: w.ops)).2 = none
              rw [e2, e1]
              by_cases hy : x = y
              · rw [if_pos hy]
              · rw [if_neg hy, if_neg hy]; exact h.oth y (by rw [hs]; exact fun e => hy (Option.some.inj e))
            idle := fun _ => ⟨rfl, rfl⟩, acc := nofun, up := (by rintro (h | h) <;> cases h), cls := fun e => absurd rfl e, rx := Nat.zero_le _ }

theorem inv_step {port st : Nat} {w : W} (h : Inv st w) (e : Ev) : Inv st (step port st w e) := by
  cases e with
  | net o => exact { h with }
  | poll e =>
    show Inv st (poll port st w e)
    unfold poll
    cases hp : w.ph <;> dsimp only
    · exact inv_listening port h hp e
    · exact inv_accepting h hp e
    · exact inv_keyExchange h hp e
    · exact inv_connected h hp e
    · exact inv_closing h hp e

theorem inv_run {port st : Nat} : ∀ (es : List Ev) {w : W}, Inv st w → Inv st (run port st w es)
  | [], _, h => h
  | e :: es, _, h => inv_run es (inv_step h e)

/-- **C130, ownership.** After every history of polls, network events and answers of wolfSSH: the server has at most one
connection and one session, those it holds are exactly those accepted and made and not given back, none of them in
LISTENING, and its input buffer is never overrun, terminator included. -/
theorem server_holds (net : Sock.St) (k port st : Nat) (es : List Ev) :
    let w := run port st (start net k) es
    (∀ j, isOpen j w.acts = true ↔ w.client = some j) ∧ (∀ x, isLive x w.acts = true ↔ w.ssh = some x) ∧
    (w.ph = .listening → ∀ j, isOpen j w.acts = false ∧ isLive j w.acts = false) ∧ w.rx.length + 1 ≤ 512 := by
  have h := inv_run es (inv_start net k st) (port := port)
  dsimp only
  generalize run port st (start net k) es = w at h
  refine ⟨h.opn, h.live, fun hp j => ?_, by have := h.rx; omega⟩
  obtain ⟨hc, hs⟩ := h.idle hp
  constructor
  · cases e : isOpen j w.acts with
    | false => rfl
    | true => have := (h.opn j).mp e; rw [hc] at this; cases this
  · cases e : isLive j w.acts with
    | false => rfl
    | true => have := (h.live j).mp e; rw [hs] at this; cases this

/-- **C130, input and output.** In every history: a live session reads and writes the accepted socket, on the server's
stack, and reports what the socket said. -/
theorem session_io (net : Sock.St) (k port st : Nat) (es : List Ev) (x : Nat) (sock : Nat → Int → Int) :
    let w := run port st (start net k) es
    isLive x w.acts = true → ∃ j : Nat, isOpen j w.acts = true ∧
      Glue.outcome .wantRead (sock st j) (Glue.ioRecv .ssh (exec .ssh w.ops).1 x sock) ∧
      Glue.outcome .wantWrite (sock st j) (Glue.ioSend .ssh (exec .ssh w.ops).1 x sock) := by
  have h := inv_run es (inv_start net k st) (port := port)
  dsimp only
  generalize run port st (start net k) es = w at h
  intro hx
  obtain ⟨j, hj, hb⟩ := h.bnd x ((h.live x).mp hx)
  exact ⟨j, (h.opn j).mpr hj, Glue.ssh_io_exact_partial w.ops (Glue.tidy_once rfl h.tidy) x sock st j hb⟩

/-- **C130, no session is refused.** However many sessions there were, the session made for an accepted connection is
set up: the descriptors of the glue never run out. -/
theorem setup_never_fails (net : Sock.St) (k port st : Nat) (es : List Ev) (e : Env) (x : Nat) :
    let w := run port st (start net k) es
    w.ph = .accepting → e.new = some x → (step port st w (.poll e)).ph = .keyExchange ∧ (step port st w (.poll e)).ssh = some x := by
  have h := inv_run es (inv_start net k st) (port := port)
  dsimp only
  generalize run port st (start net k) es = w at h
  intro hp hx
  obtain ⟨j, -, he, -⟩ := accepting_eq h hp e hx
  have : step port st w (.poll e) = accepting st w e := by
    show poll port st w e = _
    unfold poll
    rw [hp]
  rw [this, he]
  exact ⟨rfl, rfl⟩

end Wolf.Ssh
