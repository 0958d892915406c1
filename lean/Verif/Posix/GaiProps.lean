import Verif.Posix.Gai

/-! # C115: proofs -/
namespace Wolf.Posix.Gai

/-- Holds between the steps of histories without early answers. -/
structure Inv (s : S) (log : List Out) : Prop where
  idle : s.phase = .idle → s.busy = false ∧ s.pending = false
  begun : ∀ q, s.phase = .begun q → s.pending = true ∧ s.type = some q.kind ∧ s.status = none ∧ s.busy = true
  wait : ∀ q, s.phase = .waiting q → s.type = some q.kind ∧ s.busy = true ∧ (∀ q', s.out = some q' → q' = q) ∧
    (s.pending = false → ∃ v, s.status = some v ∧ Out.answered q v ∈ log)
  rets : ∀ c v, Out.ret c (some v) ∈ log → ∃ k n, Out.asked ⟨k, n, c⟩ ∈ log ∧ Out.answered ⟨k, n, c⟩ v ∈ log
  asked : ∀ q, s.phase = .waiting q → Out.asked q ∈ log

theorem inv_step (s : S) (log : List Out) (e : Ev) (h : Inv s log) (hn : (∃ v, e = .answer v) → isBegun s.phase = false) :
    Inv (step s e).1 (log ++ (step s e).2) := by
  obtain ⟨busy, pending, type, status, phase, out, calls⟩ := s
  have mono : ∀ x l, x ∈ log → x ∈ log ++ l := fun x l hx => List.mem_append_left _ hx
  have retmono : ∀ l, (∀ c v, Out.ret c (some v) ∉ l) → ∀ c v, Out.ret c (some v) ∈ log ++ l →
      ∃ k n, Out.asked ⟨k, n, c⟩ ∈ log ++ l ∧ Out.answered ⟨k, n, c⟩ v ∈ log ++ l := by
    intro l hl c v hm
    rcases List.mem_append.1 hm with hm | hm
    · obtain ⟨k, n, q1, q2⟩ := h.rets c v hm
      exact ⟨k, n, mono _ _ q1, mono _ _ q2⟩
    · exact absurd hm (hl c v)
  cases phase with
  | idle =>
    obtain ⟨hb, hp⟩ := h.idle rfl
    dsimp only at hb hp
    subst hb hp
    have frame : ∀ (o : Option Query) l, (∀ c v, Out.ret c (some v) ∉ l) → Inv ⟨false, false, type, status, .idle, o, calls⟩ (log ++ l) := fun o l hl =>
      { idle := fun _ => ⟨rfl, rfl⟩
        begun := fun q e => by cases e
        wait := fun q e => by cases e
        rets := retmono l hl
        asked := fun q e => by cases e }
    cases e with
    | call k n =>
      exact
        { idle := fun e => by cases e
          begun := fun q e => by cases e; exact ⟨rfl, rfl, rfl, rfl⟩
          wait := fun q e => by cases e
          rets := retmono [] (by simp)
          asked := fun q e => by cases e }
    | lookup ok => exact frame out [] (by simp)
    | answer v =>
      cases out with
      | none => exact frame none [] (by simp)
      | some q => exact frame none [.answered q v] (by simp)
    | giveUp => exact frame none [] (by simp)
    | wake => exact frame out [] (by simp)
    | timeout => exact frame out [] (by simp)
  | begun q0 =>
    obtain ⟨h1, h2, h3, h4⟩ := h.begun q0 rfl
    dsimp only at h1 h2 h3 h4
    subst h1 h2 h3 h4
    have frame : ∀ (o : Option Query) l, (∀ c v, Out.ret c (some v) ∉ l) → Inv ⟨true, true, some q0.kind, none, .begun q0, o, calls⟩ (log ++ l) := fun o l hl =>
      { idle := fun e => by cases e
        begun := fun q e => by cases e; exact ⟨rfl, rfl, rfl, rfl⟩
        wait := fun q e => by cases e
        rets := retmono l hl
        asked := fun q e => by cases e }
    cases e with
    | call k n => exact frame out [] (by simp)
    | lookup ok =>
      show Inv (if out ≠ none ∨ ok = false then _ else _ : S × List Out).1 (log ++ (if out ≠ none ∨ ok = false then _ else _ : S × List Out).2)
      split
      · exact
          { idle := fun _ => ⟨rfl, rfl⟩
            begun := fun q e => by cases e
            wait := fun q e => by cases e
            rets := retmono _ (by simp)
            asked := fun q e => by cases e }
      · exact
          { idle := fun e => by cases e
            begun := fun q e => by cases e
            wait := fun q e => by
              cases e
              exact ⟨rfl, rfl, fun q' e => by cases e; rfl, fun e => by cases e⟩
            rets := retmono _ (by simp)
            asked := fun q e => by cases e; simp }
    | answer v => exact absurd (hn ⟨v, rfl⟩) (by simp [isBegun])
    | giveUp => exact frame none [] (by simp)
    | wake => exact frame out [] (by simp)
    | timeout => exact frame out [] (by simp)
  | waiting q0 =>
    obtain ⟨h1, h2, h3, h4⟩ := h.wait q0 rfl
    have h5 := h.asked q0 rfl
    dsimp only at h1 h2 h3 h4
    subst h1 h2
    have frame : ∀ (o : Option Query) (p : Bool) (st : Option Nat) l, (∀ c v, Out.ret c (some v) ∉ l) → (∀ q', o = some q' → q' = q0) →
        (p = false → ∃ v, st = some v ∧ Out.answered q0 v ∈ log ++ l) → Inv ⟨true, p, some q0.kind, st, .waiting q0, o, calls⟩ (log ++ l) := fun o p st l hl ho hp =>
      { idle := fun e => by cases e
        begun := fun q e => by cases e
        wait := fun q e => by cases e; exact ⟨rfl, rfl, ho, hp⟩
        rets := retmono l hl
        asked := fun q e => by cases e; exact mono _ _ h5 }
    have h4' : pending = false → ∃ v, status = some v ∧ Out.answered q0 v ∈ log ++ [] := fun e => by
      obtain ⟨v, q1, q2⟩ := h4 e; exact ⟨v, q1, mono _ _ q2⟩
    cases e with
    | call k n => exact frame out pending status [] (by simp) h3 h4'
    | lookup ok => exact frame out pending status [] (by simp) h3 h4'
    | answer v =>
      cases out with
      | none => exact frame none pending status [] (by simp) (by simp) h4'
      | some q =>
        have := h3 q rfl
        subst this
        cases pending with
        | true =>
          show Inv (if true = true ∧ some q.kind = some q.kind then _ else _ : S × List Out).1 (log ++ (if true = true ∧ some q.kind = some q.kind then _ else _ : S × List Out).2)
          rw [if_pos ⟨rfl, rfl⟩]
          exact frame none false (some v) [.answered q v] (by simp) (by simp) (fun _ => ⟨v, rfl, by simp⟩)
        | false =>
          refine frame none false status [.answered q v] (by simp) (by simp) (fun _ => ?_)
          obtain ⟨v', q1, q2⟩ := h4 rfl
          exact ⟨v', q1, mono _ _ q2⟩
    | giveUp => exact frame none pending status [] (by simp) (by simp) h4'
    | wake =>
      cases pending with
      | true =>
        show Inv (if true = true ∧ some q0.kind = some q0.kind then _ else _ : S × List Out).1 (log ++ (if true = true ∧ some q0.kind = some q0.kind then _ else _ : S × List Out).2)
        rw [if_pos ⟨rfl, rfl⟩]
        exact frame out true status [] (by simp) h3 (fun e => by cases e)
      | false =>
        obtain ⟨v, q1, q2⟩ := h4 rfl
        subst q1
        have e : step ⟨true, false, some q0.kind, some v, .waiting q0, out, calls⟩ .wake = (⟨false, false, none, some v, .idle, out, calls⟩, [.ret q0.call (some v)]) := by
          simp [step]
        rw [e]
        exact
          { idle := fun _ => ⟨rfl, rfl⟩
            begun := fun q e => by cases e
            wait := fun q e => by cases e
            rets := by
              intro c v' hm
              rcases List.mem_append.1 hm with hm | hm
              · obtain ⟨k, n, r1, r2⟩ := h.rets c v' hm
                exact ⟨k, n, mono _ _ r1, mono _ _ r2⟩
              · simp only [List.mem_singleton, Out.ret.injEq, Option.some.injEq] at hm
                obtain ⟨rfl, rfl⟩ := hm
                exact ⟨q0.kind, q0.name, mono _ _ h5, mono _ _ q2⟩
            asked := fun q e => by cases e }
    | timeout =>
      cases pending with
      | true =>
        show Inv (if true = true ∧ some q0.kind = some q0.kind then _ else _ : S × List Out).1 (log ++ (if true = true ∧ some q0.kind = some q0.kind then _ else _ : S × List Out).2)
        rw [if_pos ⟨rfl, rfl⟩]
        exact
          { idle := fun _ => ⟨rfl, rfl⟩
            begun := fun q e => by cases e
            wait := fun q e => by cases e
            rets := retmono _ (by simp)
            asked := fun q e => by cases e }
      | false => exact frame out false status [] (by simp) h3 h4'

theorem inv_run (es : List Ev) : ∀ (s : S) (log : List Out), Inv s log → NoEarly s es → Inv (run s es).1 (log ++ (run s es).2) := by
  induction es with
  | nil => intro s log h _; rw [show (run s []).2 = [] from rfl, List.append_nil]; exact h
  | cons e es ih =>
    intro s log h hn
    have h1 := ih _ _ (inv_step s log e h hn.1) hn.2
    rw [List.append_assoc] at h1
    exact h1

theorem inv_start : Inv start [] :=
  { idle := fun _ => ⟨rfl, rfl⟩, begun := fun q e => (by cases e), wait := fun q e => (by cases e), rets := fun c v e => (by cases e), asked := fun q e => (by cases e) }

/-- The address or name a call returns is an answer to the question of that call. Missing: this is false when the answer to an earlier call's question, which that call no longer waits
for, comes in between two steps of the new call (`late_answer_taken`). -/
theorem answer_is_its_own_partial (es : List Ev) (hn : NoEarly start es) (c v : Nat) (h : Out.ret c (some v) ∈ (run start es).2) :
    ∃ k n, Out.asked ⟨k, n, c⟩ ∈ (run start es).2 ∧ Out.answered ⟨k, n, c⟩ v ∈ (run start es).2 :=
  (inv_run es start [] inv_start hn).rets c v h

/-- The state after every history, early answers or not: between calls the wait context is free, so that no call of the application is turned away because of an earlier one. -/
theorem not_wedged (es : List Ev) : Out.refused ∉ (run start es).2 := by
  have key : ∀ (es : List Ev) (s : S), (s.phase = .idle → s.busy = false) → Out.refused ∉ (run s es).2 := by
    intro es
    induction es with
    | nil => intro s _; simp [run]
    | cons e es ih =>
      intro s hs
      have hx : Out.refused ∉ (step s e).2 ∧ ((step s e).1.phase = .idle → (step s e).1.busy = false) := by
        obtain ⟨busy, pending, type, status, phase, out, calls⟩ := s
        dsimp only at hs
        unfold step
        cases e <;> cases phase <;> dsimp only
        all_goals (repeat' split)
        all_goals simp_all
      intro hm
      rcases List.mem_append.1 hm with hm | hm
      · exact hx.1 hm
      · exact ih _ hx.2 hm
  exact key es start (fun _ => rfl)

/-- **Finding** (`late_answer_taken`): the first call, for the name 1, times out; its query is still out. The second call, for the name 2, has set up its wait when the answer
to the first query, 77, comes in: it is taken for the new call's, the query for 2 is sent, and `getaddrinfo` returns the address of 1 as the address of 2. -/
theorem late_answer_taken :
    (run start [.call .fwd 1, .lookup true, .timeout, .call .fwd 2, .answer 77, .lookup true, .wake]).2 =
      [.asked ⟨.fwd, 1, 0⟩, .ret 0 none, .answered ⟨.fwd, 1, 0⟩ 77, .asked ⟨.fwd, 2, 1⟩, .ret 1 (some 77)] := by
  decide

/-- Two calls in a row that meet the hypothesis and return what was asked. -/
example : let es := [Ev.call .fwd 1, .lookup true, .answer 5, .wake, .call .ptr 2, .lookup true, .wake, .answer 6, .wake]
    NoEarly start es ∧ (run start es).2 = [.asked ⟨.fwd, 1, 0⟩, .answered ⟨.fwd, 1, 0⟩ 5, .ret 0 (some 5), .asked ⟨.ptr, 2, 1⟩,
      .answered ⟨.ptr, 2, 1⟩ 6, .ret 1 (some 6)] := by
  refine ⟨⟨?_, ?_, ?_, ?_, ?_, ?_, ?_, ?_, ?_, trivial⟩, by decide⟩ <;> (rintro ⟨v, e⟩; first | (cases e; done) | decide)

/-! ## The list of results -/

theorem gai_free_gen (os : List GOp) : ∀ (reg : List Nat) (f : Nat → Option Own), reg.Nodup → (∀ p, p ∈ reg ↔ f p = some .port) → GLegal f os →
    GRight f (grun reg os).2 ∧ (grun reg os).1.Nodup ∧ ∀ p, p ∈ (grun reg os).1 ↔ gown f os p = some .port := by
  induction os with
  | nil => intro reg f h1 h2 _; exact ⟨trivial, h1, h2⟩
  | cons o os ih =>
    intro reg f h1 h2 hl
    cases o with
    | get w p =>
      obtain ⟨hl1, hl2⟩ := hl
      cases w with
      | port =>
        have hp : p ∉ reg := by rw [h2 p, hl1]; simp
        refine ih (p :: reg) _ (List.nodup_cons.2 ⟨hp, h1⟩) ?_ hl2
        intro x
        rw [List.mem_cons, h2 x]
        by_cases e : x = p <;> simp [e]
      | host =>
        refine ih reg _ h1 ?_ hl2
        intro x
        rw [h2 x]
        by_cases e : x = p
        · subst e; simp [hl1]
        · simp [e]
    | free p =>
      obtain ⟨hl1, hl2⟩ := hl
      by_cases hp : p ∈ reg
      · have e : gstep reg (.free p) = (reg.erase p, some .port) := by show (if _ then _ else _) = _; rw [if_pos hp]
        unfold grun
        rw [e]
        have hr := ih (reg.erase p) (fun x => if x = p then none else f x) (h1.erase p) (by
          intro x
          rw [h1.mem_erase_iff, h2 x]
          by_cases e : x = p <;> simp [e]) hl2
        exact ⟨⟨((h2 p).1 hp).symm, hr.1⟩, hr.2⟩
      · have e : gstep reg (.free p) = (reg, some .host) := by show (if _ then _ else _) = _; rw [if_neg hp]
        unfold grun
        rw [e]
        have hf : f p = some .host := by
          cases hq : f p with
          | none => exact absurd hq hl1
          | some w => cases w with
            | host => rfl
            | port => exact absurd ((h2 p).2 hq) hp
        have hr := ih reg (fun x => if x = p then none else f x) h1 (by
          intro x
          rw [h2 x]
          by_cases e : x = p
          · subst e; simp [hf]
          · simp [e]) hl2
        exact ⟨⟨hf.symm, hr.1⟩, hr.2⟩

/-- `freeaddrinfo` gives every result back to where it came from, exactly the port's own results are on its list, and none of them twice. -/
theorem gai_free_exact (os : List GOp) (hl : GLegal (fun _ => none) os) :
    GRight (fun _ => none) (grun [] os).2 ∧ (grun [] os).1.Nodup ∧ ∀ p, p ∈ (grun [] os).1 ↔ gown (fun _ => none) os p = some .port :=
  gai_free_gen os [] _ List.nodup_nil (by simp) hl

example : let os : List GOp := [.get .port 8, .get .host 16, .get .port 24, .free 8, .get .host 8, .free 16, .free 8]
    GLegal (fun _ => none) os ∧ (grun [] os).2.map (·.2) = [none, none, none, some .port, none, some .host, some .host] ∧ (grun [] os).1 = [24] := by
  refine ⟨⟨rfl, rfl, rfl, by decide, rfl, by decide, by decide, trivial⟩, by decide, by decide⟩

/-! ## Strings -/

theorem val_snoc (ds : Bytes) (c : Nat) : val (ds ++ [c]) = val ds * 10 + (c - 48) := by unfold val; simp [List.foldl_append]

theorem val_mono (a b : Bytes) : val a ≤ val (a ++ b) := by
  have key : ∀ (b : Bytes) (x : Nat), x ≤ b.foldl (fun a c => a * 10 + (c - 48)) x := by
    intro b
    induction b with
    | nil => intro x; exact Nat.le_refl _
    | cons c b ih => intro x; exact Nat.le_trans (by omega) (ih (x * 10 + (c - 48)))
  unfold val
  rw [List.foldl_append]
  exact key b _

theorem split_ne (s : Bytes) : splitDots s ≠ [] := by cases s with | nil => simp [splitDots] | cons c s => unfold splitDots; split <;> simp

theorem split_eq (s : Bytes) : splitDots s = (splitDots s).headD [] :: (splitDots s).tail := by
  cases h : splitDots s with
  | nil => exact absurd h (split_ne s)
  | cons a l => rfl

theorem validLoop_spec (s : Bytes) : ∀ (parts : Nat) (cur : Bytes), cur.length ≤ 3 → (∀ c ∈ cur, isDigit c = true) → val cur ≤ 255 →
    (validLoop parts cur.length (val cur) s = true ↔
      Octet (cur ++ (splitDots s).headD []) ∧ (∀ d ∈ (splitDots s).tail, Octet d) ∧ parts + (splitDots s).length = 4) := by
  induction s with
  | nil =>
    intro parts cur h1 h2 h3
    simp only [validLoop, splitDots, List.headD, List.tail, List.append_nil, List.length_singleton, decide_eq_true_eq]
    constructor
    · rintro ⟨q1, q2⟩
      exact ⟨⟨by omega, h1, h2, h3⟩, by simp, by omega⟩
    · rintro ⟨q1, -, q3⟩
      exact ⟨by omega, by have := q1.1; omega⟩
  | cons c s ih =>
    intro parts cur h1 h2 h3
    unfold validLoop
    by_cases hd : isDigit c = true
    · rw [if_pos hd]
      have h46 : c ≠ 46 := by unfold isDigit at hd; simp at hd; omega
      have hs : splitDots (c :: s) = (c :: (splitDots s).headD []) :: (splitDots s).tail := by
        show (if c = 46 then _ else _) = _; rw [if_neg h46]
      have hlen : (splitDots (c :: s)).length = (splitDots s).length := by
        rw [hs]; have := congrArg List.length (split_eq s); simp only [List.length_cons] at this ⊢; omega
      rw [hlen, hs]
      simp only [List.headD_cons, List.tail_cons]
      have happ : cur ++ c :: (splitDots s).headD [] = (cur ++ [c]) ++ (splitDots s).headD [] := by simp
      rw [happ]
      by_cases h4 : cur.length + 1 > 3
      · rw [if_pos h4]
        constructor
        · intro e; cases e
        · rintro ⟨q1, -, -⟩
          have := q1.2.1
          simp only [List.length_append, List.length_singleton] at this
          omega
      · rw [if_neg h4]
        by_cases h5 : val cur * 10 + (c - 48) > 255
        · rw [if_pos h5]
          constructor
          · intro e; cases e
          · rintro ⟨q1, -, -⟩
            have h6 := q1.2.2.2
            have h7 := val_mono (cur ++ [c]) ((splitDots s).headD [])
            rw [val_snoc] at h7
            omega
        · rw [if_neg h5]
          have h8 := ih parts (cur ++ [c]) (by simp; omega) (by
            intro x hx
            rcases List.mem_append.1 hx with hx | hx
            · exact h2 x hx
            · rw [List.mem_singleton.1 hx]; exact hd) (by rw [val_snoc]; omega)
          rw [val_snoc, List.length_append, List.length_singleton] at h8
          exact h8
    · rw [if_neg hd]
      by_cases h46 : c = 46
      · rw [if_pos h46]
        have hs : splitDots (c :: s) = [] :: splitDots s := by show (if c = 46 then _ else _) = _; rw [if_pos h46]
        rw [hs]
        simp only [List.headD_cons, List.tail_cons, List.length_cons, List.append_nil]
        by_cases h0 : cur.length = 0
        · rw [if_pos h0]
          constructor
          · intro e; cases e
          · rintro ⟨q1, -, -⟩; have := q1.1; omega
        · rw [if_neg h0]
          have h8 := ih (parts + 1) [] (by simp) (by simp) (by decide)
          have hv : val ([] : Bytes) = 0 := rfl
          rw [hv] at h8
          refine Iff.trans h8 ?_
          rw [List.nil_append]
          have hsp := split_eq s
          constructor
          · rintro ⟨q1, q2, q3⟩
            refine ⟨⟨by omega, h1, h2, h3⟩, ?_, by omega⟩
            intro d hd
            rw [hsp] at hd
            rcases List.mem_cons.1 hd with e | e
            · rw [e]; exact q1
            · exact q2 d e
          · rintro ⟨q1, q2, q3⟩
            refine ⟨q2 _ ?_, fun d hd => q2 d ?_, by omega⟩
            · rw [hsp]; exact List.mem_cons_self ..
            · exact List.mem_of_mem_tail hd
      · rw [if_neg h46]
        constructor
        · intro e; cases e
        · rintro ⟨q1, -, -⟩
          have hs : splitDots (c :: s) = (c :: (splitDots s).headD []) :: (splitDots s).tail := by
            show (if c = 46 then _ else _) = _; rw [if_neg h46]
          rw [hs] at q1
          exact absurd (q1.2.2.1 c (by simp)) hd

/-- The check of the configured addresses accepts exactly the dotted quads: four parts between dots, each of one to three digits and at most 255. -/
theorem validate_exact (s : Bytes) : validate s = true ↔ Dotted s := by
  have h := validLoop_spec s 0 [] (by simp) (by simp) (by decide)
  have hsp := split_eq s
  have h2 : validLoop 0 0 0 s = true ↔ Dotted s := by
    refine Iff.trans h ?_
    unfold Dotted
    rw [List.nil_append]
    constructor
    · rintro ⟨q1, q2, q3⟩
      refine ⟨by omega, ?_⟩
      intro d hd
      rw [hsp] at hd
      rcases List.mem_cons.1 hd with e | e
      · rw [e]; exact q1
      · exact q2 d e
    · rintro ⟨q1, q2⟩
      refine ⟨q2 _ ?_, fun d hd => q2 d (List.mem_of_mem_tail hd), by omega⟩
      rw [hsp]; exact List.mem_cons_self ..
  unfold validate
  split
  · rename_i e
    subst e
    rw [← h2]; decide
  · exact h2

example : validate [49, 48, 46, 50, 53, 53, 46, 48, 46, 49] = true ∧ validate [49, 46, 50, 53, 54, 46, 48, 46, 49] = false := by decide

theorem dropWhile_spaces (ws t : Bytes) (hw : ∀ c ∈ ws, isSpace c = true) (ht : ∀ c, t.head? = some c → isSpace c = false) :
    (ws ++ t).dropWhile isSpace = t := by
  induction ws with
  | nil =>
    cases t with
    | nil => rfl
    | cons c t => rw [List.nil_append, List.dropWhile_cons_of_neg (by rw [ht c rfl]; decide)]
  | cons c ws ih =>
    rw [List.cons_append, List.dropWhile_cons_of_pos (hw c (List.mem_cons_self ..))]
    exact ih (fun x hx => hw x (List.mem_cons_of_mem _ hx))

theorem all_digits (ds : Bytes) (h : ∀ c ∈ ds, isDigit c = true) : ds.takeWhile isDigit = ds ∧ ds.dropWhile isDigit = [] := by
  induction ds with
  | nil => exact ⟨rfl, rfl⟩
  | cons c ds ih =>
    have hc := h c (List.mem_cons_self ..)
    have hr := ih (fun x hx => h x (List.mem_cons_of_mem _ hx))
    rw [List.takeWhile_cons_of_pos hc, List.dropWhile_cons_of_pos hc, hr.1, hr.2]
    exact ⟨rfl, rfl⟩

theorem takeWhile_holds (p : Nat → Bool) (l : Bytes) : ∀ c ∈ l.takeWhile p, p c = true := by
  induction l with
  | nil => simp
  | cons a l ih =>
    intro c hc
    by_cases h : p a = true
    · rw [List.takeWhile_cons_of_pos h] at hc
      rcases List.mem_cons.1 hc with e | e
      · rw [e]; exact h
      · exact ih c e
    · rw [List.takeWhile_cons_of_neg h] at hc; cases hc

/-- What is accepted as a service: nothing at all, or white space, a sign or none, and digits to the end, of a value that is a port. -/
def Service (s : Bytes) (p : Nat) : Prop :=
  (s = [] ∧ p = 0) ∨ ∃ ws sign ds, s = ws ++ (sign ++ ds) ∧ (∀ c ∈ ws, isSpace c = true) ∧ (sign = [] ∨ sign = [43] ∨ sign = [45]) ∧
    ds ≠ [] ∧ (∀ c ∈ ds, isDigit c = true) ∧ p = val ds ∧ p ≤ 65535 ∧ (sign = [45] → p = 0)

/-- The port is exactly the number that the string denotes; everything else is refused. -/
theorem service_exact (s : Bytes) (p : Nat) : parseService s = some p ↔ Service s p := by
  unfold parseService strtol Service
  dsimp only
  constructor
  · intro h
    have hs := List.takeWhile_append_dropWhile (p := isSpace) (l := s)
    generalize s.dropWhile isSpace = t at *
    have ht : ∃ sign u, t = sign ++ u ∧ (if t.head? = some 45 ∨ t.head? = some 43 then t.drop 1 else t) = u ∧
        ((sign = [] ∧ decide (t.head? = some 45) = false) ∨ (sign = [43] ∧ decide (t.head? = some 45) = false) ∨ (sign = [45] ∧ decide (t.head? = some 45) = true)) := by
      cases t with
      | nil => exact ⟨[], [], rfl, rfl, Or.inl ⟨rfl, rfl⟩⟩
      | cons c t =>
        by_cases h45 : c = 45
        · subst h45; exact ⟨[45], t, rfl, rfl, Or.inr (Or.inr ⟨rfl, rfl⟩)⟩
        · by_cases h43 : c = 43
          · subst h43; exact ⟨[43], t, rfl, rfl, Or.inr (Or.inl ⟨rfl, rfl⟩)⟩
          · exact ⟨[], c :: t, rfl, by simp [h45, h43], Or.inl ⟨rfl, by simp [h45]⟩⟩
    obtain ⟨sign, u, e1, e2, e3⟩ := ht
    rw [e2] at h
    by_cases hd : u.takeWhile isDigit = []
    · rw [if_pos hd] at h
      dsimp only at h
      split at h
      · cases h
      · rename_i hx
        have : s = [] := Classical.byContradiction fun hc => hx (Or.inl hc)
        exact Or.inl ⟨this, by cases h; rfl⟩
    · rw [if_neg hd] at h
      obtain ⟨vv, hvv⟩ : ∃ x, (if val (u.takeWhile isDigit) > longMax then longMax else val (u.takeWhile isDigit)) = x := ⟨_, rfl⟩
      rw [hvv] at h
      dsimp only at h
      split at h
      · cases h
      · rename_i hx
        rw [← hvv] at h hx
        have hrest : u.dropWhile isDigit = [] := Classical.byContradiction fun hc => hx (Or.inl hc)
        have hu : u.takeWhile isDigit = u := by
          have := List.takeWhile_append_dropWhile (p := isDigit) (l := u)
          rw [hrest, List.append_nil] at this; exact this
        have hall : ∀ c ∈ u, isDigit c = true := by intro c hc; rw [← hu] at hc; exact takeWhile_holds isDigit u c hc
        rw [hu] at h hd hx
        have hle : ¬ (if val u > longMax then longMax else val u) > 65535 := fun hc => hx (Or.inr (Or.inr hc))
        have hv : (if val u > longMax then longMax else val u) = val u := by
          split
          · rename_i hc; rw [if_pos hc] at hle; omega
          · rfl
        rw [hv] at h hle hx
        cases h
        refine Or.inr ⟨s.takeWhile isSpace, sign, u, by rw [← e1]; exact hs.symm, takeWhile_holds isSpace s, ?_, hd, hall, rfl, by omega, ?_⟩
        · rcases e3 with ⟨q, -⟩ | ⟨q, -⟩ | ⟨q, -⟩
          · exact Or.inl q
          · exact Or.inr (Or.inl q)
          · exact Or.inr (Or.inr q)
        · intro hsg
          rcases e3 with ⟨q, -⟩ | ⟨q, -⟩ | ⟨q, q2⟩
          · rw [q] at hsg; cases hsg
          · rw [q] at hsg; cases hsg
          · exact Classical.byContradiction fun hc => hx (Or.inr (Or.inl ⟨q2, hc⟩))
  · rintro (⟨rfl, rfl⟩ | ⟨ws, sign, ds, rfl, hw, hsg, hne, hall, rfl, hle, hneg⟩)
    · rfl
    · obtain ⟨d0, ds', rfl⟩ : ∃ d0 ds', ds = d0 :: ds' := by cases ds with | nil => exact absurd rfl hne | cons a l => exact ⟨a, l, rfl⟩
      have hd0 := hall d0 (List.mem_cons_self ..)
      have hd0' : 48 ≤ d0 ∧ d0 ≤ 57 := by unfold isDigit at hd0; simpa using hd0
      have hsp : ∀ c, (sign ++ d0 :: ds').head? = some c → isSpace c = false := by
        intro c hc
        rcases hsg with rfl | rfl | rfl
        · cases hc; unfold isSpace; simp; omega
        · cases hc; decide
        · cases hc; decide
      rw [dropWhile_spaces ws _ hw hsp]
      have hu : (if (sign ++ d0 :: ds').head? = some 45 ∨ (sign ++ d0 :: ds').head? = some 43 then (sign ++ d0 :: ds').drop 1 else sign ++ d0 :: ds') = d0 :: ds' := by
        rcases hsg with rfl | rfl | rfl
        · rw [if_neg]
          · rfl
          · rintro (e | e) <;> (simp at e; omega)
        · rfl
        · rfl
      rw [hu, (all_digits _ hall).1, (all_digits _ hall).2, if_neg hne]
      dsimp only
      rw [if_neg (show ¬ val (d0 :: ds') > longMax by omega), if_neg]
      rintro (e | ⟨e1, e2⟩ | e)
      · exact e rfl
      · rcases hsg with rfl | rfl | rfl
        · simp at e1; omega
        · simp at e1
        · exact e2 (hneg rfl)
      · omega

example : parseService [32, 43, 56, 48] = some 80 ∧ parseService [104, 116, 116, 112] = none ∧ parseService [54, 53, 53, 51, 54] = none ∧ parseService [45, 49] = none := by
  decide

end Wolf.Posix.Gai
