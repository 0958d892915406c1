import Verif.Ssh.Props
/-! # C130: which command lines the SSH server executes -/
namespace Wolf.Ssh

theorem lines_snoc (s : List Nat) (c : Nat) : lines (s ++ [c]) =
    if c = 13 ∨ c = 10 then ((lines s).1 ++ [(lines s).2], []) else ((lines s).1, (lines s).2 ++ [c]) := by
  induction s with
  | nil =>
    show lines [c] = _
    unfold lines
    dsimp only [lines]
    split <;> rfl
  | cons a s ih =>
    rw [List.cons_append]
    unfold lines
    dsimp only
    rw [ih]
    by_cases ha : a = 13 ∨ a = 10
    · rw [if_pos ha, if_pos ha]
      split <;> rfl
    · rw [if_neg ha, if_neg ha]
      by_cases hc : c = 13 ∨ c = 10
      · rw [if_pos hc, if_pos hc]
        cases h : (lines s).1 <;> rfl
      · rw [if_neg hc, if_neg hc]
        cases h : (lines s).1 <;> rfl

theorem lines_plain (s : List Nat) : ∀ d : List Nat, (∀ c ∈ d, c ≠ 13 ∧ c ≠ 10) → lines (s ++ d) = ((lines s).1, (lines s).2 ++ d) := by
  intro d
  induction d generalizing s with
  | nil => intro _; rw [List.append_nil, List.append_nil]
  | cons c d ih =>
    intro h
    have hc := h c (List.mem_cons_self ..)
    have := ih (s ++ [c]) fun x hx => h x (List.mem_cons_of_mem _ hx)
    rw [List.append_assoc, List.singleton_append] at this
    rw [this, lines_snoc, if_neg (by omega)]
    dsimp only
    rw [List.append_assoc, List.singleton_append]

theorem lines_rest (s : List Nat) : ∀ c ∈ (lines s).2, c ≠ 13 ∧ c ≠ 10 := by
  induction s with
  | nil => nofun
  | cons a s ih =>
    unfold lines
    dsimp only
    split
    · exact ih
    · rename_i ha
      have ih' : ∀ c ∈ a :: (lines s).2, c ≠ 13 ∧ c ≠ 10 := by
        intro c hc
        rcases List.mem_cons.mp hc with e | e
        · omega
        · exact ih c e
      cases h : (lines s).1 <;> dsimp only
      · exact ih'
      · exact ih

theorem lines_rest_mem (s : List Nat) : ∀ c ∈ (lines s).2, c ∈ s := by
  induction s with
  | nil => nofun
  | cons a s ih =>
    unfold lines
    dsimp only
    split
    · exact fun c hc => List.mem_cons_of_mem _ (ih c hc)
    · cases h : (lines s).1 <;> dsimp only
      · intro c hc
        rcases List.mem_cons.mp hc with e | e
        · rw [e]; exact List.mem_cons_self ..
        · exact List.mem_cons_of_mem _ (ih c e)
      · exact fun c hc => List.mem_cons_of_mem _ (ih c hc)

theorem takeWhile_all {l : List Nat} (h : ∀ c ∈ l, c ≠ 0) : l.takeWhile (· ≠ 0) = l := by
  induction l with
  | nil => rfl
  | cons a l ih =>
    rw [List.takeWhile_cons, if_pos (by simp [h a (List.mem_cons_self ..)]), ih fun c hc => h c (List.mem_cons_of_mem _ hc)]

theorem findIdx_snoc (l : List Nat) (c x : Nat) (h : ∀ a ∈ l, a ≠ x) :
    (l ++ [c]).findIdx? (· == x) = if c = x then some l.length else none := by
  induction l with
  | nil => by_cases hc : c = x <;> simp [hc]
  | cons a l ih =>
    have ha := h a (List.mem_cons_self ..)
    rw [List.cons_append, List.findIdx?_cons, ih fun b hb => h b (List.mem_cons_of_mem _ hb)]
    by_cases hc : c = x <;> simp [hc, ha]

theorem findIdx_none (l : List Nat) (x : Nat) (h : ∀ a ∈ l, a ≠ x) : l.findIdx? (· == x) = none := by
  rw [List.findIdx?_eq_none_iff]
  intro a ha
  simp [h a ha]

theorem strchr_plain {l : List Nat} (h : ∀ c ∈ l, c ≠ 0 ∧ c ≠ 13 ∧ c ≠ 10) : (strchr l 13).or (strchr l 10) = none := by
  unfold strchr
  rw [takeWhile_all fun c hc => (h c hc).1, findIdx_none l 13 fun c hc => (h c hc).2.1, findIdx_none l 10 fun c hc => (h c hc).2.2]
  rfl

theorem strchr_end {l : List Nat} {c : Nat} (h : ∀ c ∈ l, c ≠ 0 ∧ c ≠ 13 ∧ c ≠ 10) (hc : c = 13 ∨ c = 10) :
    (strchr (l ++ [c]) 13).or (strchr (l ++ [c]) 10) = some l.length := by
  have all : ∀ x ∈ l ++ [c], x ≠ 0 := by
    intro x hx
    rcases List.mem_append.mp hx with e | e
    · exact (h x e).1
    · have := List.mem_singleton.mp e; omega
  unfold strchr
  rw [takeWhile_all all, findIdx_snoc l c 13 fun c hc => (h c hc).2.1, findIdx_snoc l c 10 fun c hc => (h c hc).2.2]
  rcases hc with e | e <;> subst e <;> rfl

/-- The input buffer is the unfinished line, and what was executed are the finished ones. -/
structure Lin (w : W) : Prop where
  ran : ran w.acts = (lines (typed w.acts)).1
  rx : w.ph = .connected → w.rx = (lines (typed w.acts)).2
  new : w.ph = .keyExchange → typed w.acts = []
  nul : ∀ c ∈ typed w.acts, c ≠ 0

theorem lin_connected {w : W} (h : Lin w) (hp : w.ph = .connected) (e : Env) (hty : Typing (.poll e)) : Lin (connected w e) := by
  unfold connected
  split
  · rename_i d0 hd0
    have hty : (∀ c ∈ d0, c ≠ 0) ∧ ∀ c ∈ d0.dropLast, c ≠ 13 ∧ c ≠ 10 := by
      have := hty; unfold Typing at this; dsimp only at this; rw [hd0] at this; exact this
    dsimp only
    generalize hk : sshRxBuf - w.rx.length - 1 = k
    have hz : ∀ c ∈ d0.take k, c ≠ 0 := fun c hc => hty.1 c (List.mem_of_mem_take hc)
    have hn : ∀ c ∈ (d0.take k).dropLast, c ≠ 13 ∧ c ≠ 10 := by
      intro c hc
      refine hty.2 c ?_
      rw [List.dropLast_eq_take] at hc ⊢
      rw [List.take_take] at hc
      have hl : (min ((d0.take k).length - 1) k) ≤ d0.length - 1 := by rw [List.length_take]; omega
      rw [show d0.take (min ((d0.take k).length - 1) k) = (d0.take (d0.length - 1)).take (min ((d0.take k).length - 1) k) by
        rw [List.take_take, Nat.min_eq_left hl]] at hc
      exact List.mem_of_mem_take hc
    generalize d0.take k = d at hz hn
    split
    · exact h
    rename_i hne
    have hrx := h.rx hp
    have plainRx : ∀ c ∈ w.rx, c ≠ 0 ∧ c ≠ 13 ∧ c ≠ 10 := by
      rw [hrx]
      exact fun c hc => ⟨h.nul c (lines_rest_mem _ c hc), lines_rest _ c hc⟩
    rcases List.eq_nil_or_concat d with e0 | ⟨d1, c, e0⟩
    · exact absurd e0 hne
    rw [List.concat_eq_append] at e0
    subst e0
    rw [List.dropLast_concat] at hn
    have nul' : ∀ x ∈ typed w.acts ++ (d1 ++ [c]), x ≠ 0 := by
      intro x hx
      rcases List.mem_append.mp hx with e | e
      · exact h.nul x e
      · exact hz x e
    have plain1 : ∀ x ∈ w.rx ++ d1, x ≠ 0 ∧ x ≠ 13 ∧ x ≠ 10 := by
      intro x hx
      rcases List.mem_append.mp hx with e | e
      · exact plainRx x e
      · exact ⟨hz x (List.mem_append_left _ e), hn x e⟩
    by_cases hc : c = 13 ∨ c = 10
    · have hs : (strchr (w.rx ++ (d1 ++ [c])) 13).or (strchr (w.rx ++ (d1 ++ [c])) 10) = some (w.rx ++ d1).length := by
        rw [← List.append_assoc]; exact strchr_end plain1 hc
      rw [hs]
      have ht : (w.rx ++ (d1 ++ [c])).take (w.rx ++ d1).length = w.rx ++ d1 := by
        rw [← List.append_assoc, List.take_left']; rfl
      dsimp only
      rw [ht]
      have hlines : lines (typed w.acts ++ (d1 ++ [c])) = ((lines (typed w.acts)).1 ++ [w.rx ++ d1], []) := by
        rw [← List.append_assoc, lines_snoc, if_pos hc, lines_plain _ _ hn, hrx]
      split
      · refine ⟨?_, nofun, nofun, nul'⟩
        show Ssh.ran w.acts ++ [w.rx ++ d1] = (lines (typed w.acts ++ (d1 ++ [c]))).1
        rw [hlines, h.ran]
      · have : ∀ a : List Act, (a = .sent ((handle (w.rx ++ d1) 256).1.take (handle (w.rx ++ d1) 256).2.natAbs) :: .ran (w.rx ++ d1) :: .sent (d1 ++ [c]) :: .typed (d1 ++ [c]) :: w.acts ∨
            a = .ran (w.rx ++ d1) :: .sent (d1 ++ [c]) :: .typed (d1 ++ [c]) :: w.acts) → ∀ w' : W, w'.acts = .sent tPrompt :: a → w'.rx = [] → w'.ph = w.ph → Lin w' := by
          intro a ha w' e1 e2 e3
          have t1 : typed w'.acts = typed w.acts ++ (d1 ++ [c]) := by rw [e1]; rcases ha with ha | ha <;> rw [ha] <;> rfl
          have t2 : Ssh.ran w'.acts = Ssh.ran w.acts ++ [w.rx ++ d1] := by rw [e1]; rcases ha with ha | ha <;> rw [ha] <;> rfl
          exact ⟨by rw [t1, t2, hlines, h.ran], fun _ => by rw [t1, hlines, e2], fun hk => (by rw [e3, hp] at hk; cases hk), by rw [t1]; exact nul'⟩
        refine this _ ?_ _ rfl rfl rfl
        split
        · exact .inl rfl
        · exact .inr rfl
    · have pl : ∀ x ∈ d1 ++ [c], x ≠ 13 ∧ x ≠ 10 := by
        intro x hx
        rcases List.mem_append.mp hx with e | e
        · exact hn x e
        · have := List.mem_singleton.mp e; omega
      have hs : (strchr (w.rx ++ (d1 ++ [c])) 13).or (strchr (w.rx ++ (d1 ++ [c])) 10) = none := by
        refine strchr_plain fun x hx => ?_
        rcases List.mem_append.mp hx with e | e
        · exact plainRx x e
        · exact ⟨hz x e, pl x e⟩
      rw [hs]
      have hlines := lines_plain (typed w.acts) (d1 ++ [c]) pl
      refine ⟨?_, fun _ => ?_, fun (hk : w.ph = .keyExchange) => (by rw [hp] at hk; cases hk), nul'⟩
      · show Ssh.ran w.acts = (lines (typed w.acts ++ (d1 ++ [c]))).1
        rw [hlines, h.ran]
      · show w.rx ++ (d1 ++ [c]) = (lines (typed w.acts ++ (d1 ++ [c]))).2
        rw [hlines, hrx]
  · exact h
  · exact h
  · exact ⟨h.ran, nofun, nofun, h.nul⟩

theorem lin_of {w w' : W} (h : Lin w) (h1 : ran w'.acts = ran w.acts) (h2 : typed w'.acts = typed w.acts)
    (h3 : w'.ph ≠ .connected) (h4 : w'.ph ≠ .keyExchange) : Lin w' :=
  ⟨by rw [h1, h2]; exact h.ran, fun e => absurd e h3, fun e => absurd e h4, by rw [h2]; exact h.nul⟩

theorem lin_step {port st : Nat} {w : W} (h : Lin w) (ev : Ev) (hty : Typing ev) : Lin (step port st w ev) := by
  cases ev with
  | net o => exact ⟨h.ran, h.rx, h.new, h.nul⟩
  | poll e =>
    show Lin (poll port st w e)
    unfold poll
    cases hp : w.ph <;> dsimp only
    · unfold listening
      split
      · exact h
      split
      · exact lin_of h rfl rfl nofun nofun
      · exact lin_of h rfl rfl (by show w.ph ≠ _; rw [hp]; nofun) (by show w.ph ≠ _; rw [hp]; nofun)
      · exact lin_of h rfl rfl (by show w.ph ≠ _; rw [hp]; nofun) (by show w.ph ≠ _; rw [hp]; nofun)
    · unfold accepting
      split
      · exact lin_of h rfl rfl nofun nofun
      · refine ⟨rfl, fun hh => ?_, fun _ => rfl, nofun⟩
        have ne : ∀ (c : Prop) [Decidable c], (if c then Ph.closing else Ph.keyExchange) ≠ .connected := by
          intro c _; split <;> nofun
        exact absurd hh (ne _)
    · unfold keyExchange
      split
      · have := h.new hp
        refine ⟨h.ran, fun _ => ?_, nofun, h.nul⟩
        show [] = (lines (typed w.acts)).2
        rw [this]; rfl
      · exact h
      · exact lin_of h rfl rfl nofun nofun
    · exact lin_connected h hp e hty
    · unfold closing
      cases w.ssh <;> dsimp only <;> cases w.client <;> dsimp only <;> exact lin_of h rfl rfl (by show Ph.listening ≠ _; nofun) (by show Ph.listening ≠ _; nofun)

theorem lin_run {port st : Nat} : ∀ (es : List Ev) {w : W}, Lin w → (∀ e ∈ es, Typing e) → Lin (run port st w es)
  | [], _, h, _ => h
  | e :: es, _, h, ht => lin_run es (lin_step h e (ht e (List.mem_cons_self ..))) fun e' he => ht e' (List.mem_cons_of_mem _ he)

/-- **C130, commands, partial.** As long as the input has no NUL and no read contains anything after a line end: the lines
executed in a session are exactly those typed in it, in order, and what is typed of the next line is kept. Missing:
input that arrives faster (`rest_of_read_lost`) and NULs (`nul_hides`). -/
theorem commands_exact_partial (net : Sock.St) (k port st : Nat) (es : List Ev) (ht : ∀ e ∈ es, Typing e) :
    let w := run port st (start net k) es
    ran w.acts = (lines (typed w.acts)).1 ∧ (w.ph = .connected → w.rx = (lines (typed w.acts)).2) := by
  have h := lin_run (port := port) (st := st) es (w := start net k) ⟨rfl, nofun, nofun, nofun⟩ ht
  exact ⟨h.ran, h.rx⟩

/-- A session in progress. -/
def inSession : W := { net := Sock.init 2 Sock.net1, listen := some 0, client := some 1, ssh := some 5, ph := .connected, acts := [.made 5] }

/-- **Finding** (`rest_of_read_lost`): two commands that arrive in one read: the second is echoed but not executed, and
not kept either. -/
theorem rest_of_read_lost :
    let w := connected inSession { rd := .data (cInfo ++ [13] ++ cExit ++ [13]) }
    ran w.acts = [cInfo] ∧ lines (typed w.acts) = ([cInfo, cExit], []) ∧ w.rx = [] ∧ w.ph = .connected := by
  decide +kernel

/-- **Finding** (`nul_hides`): after a NUL no line end is seen any more. -/
theorem nul_hides (d : List Nat) (rx : List Nat) (w : W) (hp : w.ph = .connected) (hr : 0 ∈ w.rx) (hn : ∀ c ∈ w.rx.takeWhile (· ≠ 0), c ≠ 13 ∧ c ≠ 10)
    (hd : rx = (connected w { rd := .data d }).rx) :
    ran (connected w { rd := .data d }).acts = ran w.acts ∧ (connected w { rd := .data d }).ph = .connected ∧ 0 ∈ rx := by
  have tw : ∀ x : List Nat, (w.rx ++ x).takeWhile (· ≠ 0) = w.rx.takeWhile (· ≠ 0) := by
    intro x
    generalize w.rx = l at hr
    induction l with
    | nil => cases hr
    | cons a l ih =>
      rw [List.cons_append, List.takeWhile_cons, List.takeWhile_cons]
      split
      · rename_i ha
        rw [ih]
        rcases List.mem_cons.mp hr with e | e
        · subst e; simp at ha
        · exact e
      · rfl
  have none' : ∀ x : List Nat, (strchr (w.rx ++ x) 13).or (strchr (w.rx ++ x) 10) = none := by
    intro x
    unfold strchr
    rw [tw, findIdx_none _ 13 fun c hc => (hn c hc).1, findIdx_none _ 10 fun c hc => (hn c hc).2]
    rfl
  rw [hd]
  unfold connected
  dsimp only
  split
  · exact ⟨rfl, hp, hr⟩
  · rw [none']
    exact ⟨rfl, hp, List.mem_append_left _ hr⟩

/-- **Finding** (`long_line_stuck`): a line of 511 bytes without an end: nothing is read any more; the server waits in
CONNECTED for ever unless the read itself fails. -/
theorem long_line_stuck (port st : Nat) : ∀ (es : List Ev) (w : W), w.ph = .connected → w.rx.length = 511 →
    (∀ e ∈ es, ∀ p, e = .poll p → p.rd ≠ .fail) →
    (run port st w es).ph = .connected ∧ (run port st w es).rx = w.rx ∧ (run port st w es).acts = w.acts
  | [], _, hp, _, _ => ⟨hp, rfl, rfl⟩
  | ev :: es, w, hp, hl, hf => by
    have hs : (step port st w ev).ph = w.ph ∧ (step port st w ev).rx = w.rx ∧ (step port st w ev).acts = w.acts := by
      cases ev with
      | net o => exact ⟨rfl, rfl, rfl⟩
      | poll e =>
        have hne := hf _ (List.mem_cons_self ..) e rfl
        show (poll port st w e).ph = _ ∧ (poll port st w e).rx = _ ∧ (poll port st w e).acts = _
        unfold poll
        rw [hp]
        dsimp only
        unfold connected
        split
        · dsimp only
          rw [hl, if_pos (List.take_zero)]
          exact ⟨hp, rfl, rfl⟩
        · exact ⟨hp, rfl, rfl⟩
        · exact ⟨hp, rfl, rfl⟩
        · rename_i h; exact absurd h hne
    obtain ⟨h1, h2, h3⟩ := hs
    obtain ⟨i1, i2, i3⟩ := long_line_stuck port st es _ (h1.trans hp) (by rw [h2]; exact hl) fun e he => hf e (List.mem_cons_of_mem _ he)
    exact ⟨i1, i2.trans h2, i3.trans h3⟩

end Wolf.Ssh
