import Verif.Ota.FlashProps
import Verif.Tftp.Sink
/-!
# C125: the TFTP client driving the flash sink

The client of `src/tftp/wolftftp.c` (as modelled for C53) with the callbacks of
`src/port/stm32h563/tftp_client_demo.c` as its sink. For every sequence of packets and polls.
-/
namespace Wolf.Ota
open Wolf.Tftp (Client Ev Env Out Phase track trackAll phases step after start Cfg Status)

/-! ## Specification -/

/-- The callbacks of a run with the answers they gave. -/
def calls (s : Client) : List Ev → List (Env × Out)
  | [] => []
  | e :: es => (step s e).2.map (fun o => (e.env, o)) ++ calls (step s e).1 es

/-- The data of the write calls. -/
def received (l : List (Env × Out)) : List Nat := l.flatMap fun x =>
  match x.2 with
  | .write _ d => d
  | _ => []

def R.isOk : R → Bool
  | .ok _ => true
  | _ => false

def R.st (d : St) : R → St
  | .ok s => s
  | .err s => s
  | .oob => d

/-- One callback carried out by the flash sink; `none` if the recorded answer is not the sink's own. The sink's
`open` always succeeds, its `hash_update` does nothing. tftp_client_demo.c 279–301, 337–372, 404–446. -/
def sinkCall (e : Nat → Bool) (st : St) (x : Env × Out) : Option St :=
  match x.2 with
  | .openSink => if x.1.openOk = true ∧ x.1.openHandle = true then some (demoOpen st.log) else none
  | .write _ d => if x.1.writeOk = (demoWrite e st d).isOk then some ((demoWrite e st d).st st) else none
  | .verify t => if x.1.verifyOk = (demoVerify e st t).isOk then some ((demoVerify e st t).st st) else none
  | .hash _ => if x.1.hashOk = true then some st else none
  | _ => some st

def sinkCalls (e : Nat → Bool) : St → List (Env × Out) → Option St
  | st, [] => some st
  | st, x :: l => (sinkCall e st x).bind fun s1 => sinkCalls e s1 l

/-! ## Proof -/

def trackL : Phase → List (Env × Out) → Option Phase
  | p, [] => some p
  | p, x :: l => (track x.1 p x.2).bind fun q => trackL q l

theorem trackL_append (a b : List (Env × Out)) : ∀ p, trackL p (a ++ b) = (trackL p a).bind fun q => trackL q b := by
  induction a with
  | nil => intro p; rfl
  | cons o a ih =>
    intro p
    rw [List.cons_append, trackL, trackL]
    cases track o.1 p o.2 with
    | none => rfl
    | some q => exact ih q

theorem trackL_map (env : Env) (l : List Out) : ∀ p, trackL p (l.map fun o => (env, o)) = trackAll env p l := by
  induction l with
  | nil => intro p; rfl
  | cons o l ih =>
    intro p
    rw [List.map_cons, trackL, trackAll]
    cases track env p o with
    | none => rfl
    | some q => exact ih q

theorem phases_calls : ∀ (es : List Ev) (s : Client) (p : Phase), phases s p es = trackL p (calls s es) := by
  intro es
  induction es with
  | nil => intro s p; rfl
  | cons e es ih =>
    intro s p
    rw [phases, calls, trackL_append, trackL_map]
    cases trackAll e.env p (step s e).2 with
    | none => rfl
    | some q => exact ih _ _

theorem writeAll_append (e : Nat → Bool) (a b : List (List Nat)) : ∀ s, writeAll e s (a ++ b) =
    match writeAll e s a with
    | .ok s1 => writeAll e s1 b
    | r => r := by
  induction a with
  | nil => intro s; rfl
  | cons x a ih =>
    intro s
    rw [List.cons_append, writeAll, writeAll]
    cases demoWrite e s x with
    | ok s1 => exact ih s1
    | err s1 => rfl
    | oob => rfl

/-- The result's history extends the one before. -/
def Extends (l : List FOp) (r : R) : Prop := r = .oob ∨ ∃ t, r.log = l ++ t

theorem Extends.refl_ok (s : St) : Extends s.log (.ok s) := .inr ⟨[], by simp [R.log]⟩
theorem Extends.refl_err (s : St) : Extends s.log (.err s) := .inr ⟨[], by simp [R.log]⟩

theorem Extends.trans {l : List FOp} {s : St} {r : R} (h : Extends l (.ok s)) (h2 : Extends s.log r) : Extends l r := by
  rcases h with h | ⟨t, h⟩
  · cases h
  · rcases h2 with h1 | ⟨u, h1⟩
    · exact .inl h1
    · refine .inr ⟨t ++ u, ?_⟩
      have : s.log = l ++ t := h
      rw [h1, this, List.append_assoc]

theorem erase_extends (e : Nat → Bool) (s : St) (a : Nat) : Extends s.log (erasePage e s a) := by
  unfold erasePage
  split
  · exact .refl_err s
  · split <;> exact .inr ⟨_, rfl⟩

theorem ensure_extends (e : Nat → Bool) : ∀ fuel s t, Extends s.log (ensureLoop e fuel s t) := by
  intro fuel
  induction fuel with
  | zero => intro s t; exact .refl_ok s
  | succ n ih =>
    intro s t
    rw [ensureLoop]
    split
    · have h := erase_extends e s s.h.erased
      generalize erasePage e s s.h.erased = r at h
      cases r with
      | ok s1 => exact h.trans (ih _ _)
      | err s1 => exact h
      | oob => exact h
    · exact .refl_ok s

theorem prog_extends (e : Nat → Bool) (s : St) (a : Nat) (d : List Nat) : Extends s.log (progQword e s a d) := by
  unfold progQword
  split
  · exact .refl_err s
  · split <;> exact .inr ⟨_, rfl⟩

theorem flush_extends (e : Nat → Bool) (s : St) : Extends s.log (flushQword e s) := by
  unfold flushQword
  split
  · exact .refl_ok s
  · have h : Extends s.log (ensureErased e s (s.h.qaddr + 16)) := ensure_extends e _ s _
    generalize ensureErased e s (s.h.qaddr + 16) = r at h
    cases r with
    | ok s1 =>
      refine h.trans ?_
      dsimp only
      have h2 := prog_extends e s1 s1.h.qaddr s1.h.qword
      generalize progQword e s1 s1.h.qaddr s1.h.qword = r2 at h2
      cases r2 with
      | ok s2 => exact h2.trans (.inr ⟨[], by simp [R.log]⟩)
      | err s2 => exact h2
      | oob => exact h2
    | err s1 => exact h
    | oob => exact h

theorem trigger_extends (e : Nat → Bool) (s : St) : Extends s.log (trigger e s) := by
  unfold trigger
  dsimp only
  generalize partBase + partSize - 1 - (partBase + partSize - 1) % 16 - (partBase + partSize - 1 - (partBase + partSize - 1) % 16) % pageSize + pageSize = z
  have h : Extends s.log (ensureErased e s z) := ensure_extends e _ s _
  generalize ensureErased e s z = r at h
  cases r with
  | ok s1 => exact h.trans (prog_extends e s1 _ _)
  | err s1 => exact h
  | oob => exact h

theorem verify_extends (e : Nat → Bool) (s : St) (t : Nat) : Extends s.log (demoVerify e s t) := by
  unfold demoVerify
  have h1 : Extends s.log (if 0 < s.h.cnt ∧ s.h.cnt < 16 then flushQword e { s with h := padTo16 s.h } else .ok s) := by
    split
    · exact flush_extends e { s with h := padTo16 s.h }
    · exact .refl_ok s
  dsimp only
  generalize (if 0 < s.h.cnt ∧ s.h.cnt < 16 then flushQword e { s with h := padTo16 s.h } else .ok s) = r at h1
  cases r with
  | ok s1 =>
    refine h1.trans ?_
    dsimp only
    split
    · exact .refl_err s1
    · exact trigger_extends e s1
  | err s1 => exact h1
  | oob => exact h1

/-- What the flash history is in each phase. -/
def Rel (e : Nat → Bool) (w : List Nat) (st : St) : Phase → Prop
  | .fresh => st.log = [] ∧ w = []
  | .opened n => ∃ bl, writeAll e (demoOpen []) bl = .ok st ∧ bl.flatten = w ∧ w.length = n
  | .verified => ∃ bl, session e bl bl.flatten.length = .ok st ∧ bl.flatten = w
  | .closed true => ∃ bl, session e bl bl.flatten.length = .ok st ∧ bl.flatten = w
  | _ => ∃ bl, bl.flatten = w ∧ ∃ suf, (session e bl bl.flatten.length).log = st.log ++ suf

theorem opened_prefix {e : Nat → Bool} {w : List Nat} {st : St} {n : Nat} (h : Rel e w st (.opened n)) :
    ∃ bl, bl.flatten = w ∧ ∃ suf, (session e bl bl.flatten.length).log = st.log ++ suf := by
  obtain ⟨bl, a, b, _⟩ := h
  refine ⟨bl, b, ?_⟩
  rcases verify_extends e st bl.flatten.length with h1 | h1
  · exact absurd (by rw [session, a]; exact h1) (staging_memory_safe e bl bl.flatten.length)
  · rw [session, a]; exact h1

theorem call_rel {e : Nat → Bool} {w : List Nat} {st st1 : St} {p q : Phase} (x : Env × Out) (h : Rel e w st p)
    (ht : track x.1 p x.2 = some q) (hs : sinkCall e st x = some st1) : Rel e (w ++ received [x]) st1 q := by
  obtain ⟨env, o⟩ := x
  dsimp only at ht
  cases o with
  | send a b =>
    rw [Wolf.Tftp.track_send] at ht; cases ht
    cases hs
    simpa [received] using h
  | openSink =>
    unfold sinkCall at hs; dsimp only at hs
    by_cases ho : env.openOk = true ∧ env.openHandle = true
    · rw [if_pos ho] at hs; cases hs
      cases p <;> try (cases ht; done)
      rw [track, if_pos ho.1] at ht; cases ht
      refine ⟨[], ?_, ?_, ?_⟩
      · rw [h.1]; rfl
      · rw [h.2]; rfl
      · rw [h.2]; rfl
    · rw [if_neg ho] at hs; cases hs
  | write off d =>
    unfold sinkCall at hs; dsimp only at hs
    by_cases hw : env.writeOk = (demoWrite e st d).isOk
    · rw [if_pos hw] at hs; cases hs
      cases p <;> try (cases ht; done)
      rename_i n
      rw [track] at ht
      split at ht
      · have hr : received [(env, Out.write off d)] = d := by simp [received]
        obtain ⟨bl, a, b, c⟩ := h
        have hwa : writeAll e (demoOpen []) (bl ++ [d]) = demoWrite e st d := by
          rw [writeAll_append, a]; dsimp only
          rw [writeAll]
          cases demoWrite e st d <;> rfl
        have hfl : (bl ++ [d]).flatten = w ++ d := by rw [← b]; simp
        rw [hr]
        cases hd : demoWrite e st d with
        | ok s1 =>
          rw [hd] at hw hwa
          have hw : env.writeOk = true := hw
          rw [if_pos hw] at ht; cases ht
          exact ⟨bl ++ [d], hwa, hfl, by rw [List.length_append, c]⟩
        | err s1 =>
          rw [hd] at hw hwa
          have hw : env.writeOk = false := hw
          rw [if_neg (by rw [hw]; decide)] at ht; cases ht
          refine ⟨bl ++ [d], hfl, [], ?_⟩
          rw [session, hwa, List.append_nil]; rfl
        | oob =>
          rw [hd] at hwa
          exact absurd (by rw [session, hwa]) (staging_memory_safe e (bl ++ [d]) 0)
      · cases ht
    · rw [if_neg hw] at hs; cases hs
  | hash d =>
    unfold sinkCall at hs; dsimp only at hs
    by_cases hk : env.hashOk = true
    · rw [if_pos hk] at hs; cases hs
      cases p <;> try (cases ht; done)
      rw [track, if_pos hk] at ht; cases ht
      simpa [received] using h
    · rw [if_neg hk] at hs; cases hs
  | verify t =>
    unfold sinkCall at hs; dsimp only at hs
    by_cases hv : env.verifyOk = (demoVerify e st t).isOk
    · rw [if_pos hv] at hs; cases hs
      cases p <;> try (cases ht; done)
      rename_i n
      rw [track] at ht
      split at ht
      · rename_i htn
        have hr : received [(env, Out.verify t)] = [] := by simp [received]
        rw [hr, List.append_nil]
        obtain ⟨bl, a, b, c⟩ := h
        have hsess : session e bl bl.flatten.length = demoVerify e st t := by
          rw [session, a, htn, ← c, ← b]
        cases hd : demoVerify e st t with
        | ok s1 =>
          rw [hd] at hv hsess
          have hv : env.verifyOk = true := hv
          rw [if_pos hv] at ht; cases ht
          exact ⟨bl, hsess, b⟩
        | err s1 =>
          rw [hd] at hv hsess
          have hv : env.verifyOk = false := hv
          rw [if_neg (by rw [hv]; decide)] at ht; cases ht
          refine ⟨bl, b, [], ?_⟩
          rw [hsess, List.append_nil]; rfl
        | oob =>
          rw [hd] at hsess
          exact absurd hsess (staging_memory_safe e bl _)
      · cases ht
    · rw [if_neg hv] at hs; cases hs
  | close s =>
    cases hs
    have hr : received [(env, Out.close s)] = [] := by simp [received]
    rw [hr, List.append_nil]
    cases p <;> try (cases ht; done)
    · rw [track] at ht; split at ht
      · cases ht
      · cases ht; exact opened_prefix h
    · rw [track] at ht; split at ht
      · cases ht
      · cases ht; exact h
    · rw [track] at ht; split at ht
      · cases ht; exact h
      · cases ht

theorem received_cons (x : Env × Out) (l : List (Env × Out)) : received (x :: l) = received [x] ++ received l := by
  simp [received]

theorem calls_rel (e : Nat → Bool) : ∀ (l : List (Env × Out)) (p q : Phase) (st st1 : St) (w : List Nat), Rel e w st p →
    trackL p l = some q → sinkCalls e st l = some st1 → Rel e (w ++ received l) st1 q := by
  intro l
  induction l with
  | nil =>
    intro p q st st1 w h h1 h2
    cases h1; cases h2
    simpa [received] using h
  | cons x l ih =>
    intro p q st st1 w h h1 h2
    rw [trackL] at h1
    rw [sinkCalls] at h2
    cases h3 : track x.1 p x.2 with
    | none => rw [h3] at h1; cases h1
    | some p1 =>
      cases h4 : sinkCall e st x with
      | none => rw [h4] at h2; cases h2
      | some s1 =>
        rw [h3] at h1; rw [h4] at h2
        have := ih p1 q s1 st1 _ (call_rel x h h3 h4) h1 h2
        rw [received_cons, ← List.append_assoc]
        exact this

theorem Rel.prefix {e : Nat → Bool} {w : List Nat} {st : St} {p : Phase} (h : Rel e w st p) :
    ∃ bl, bl.flatten = w ∧ ∃ suf, (session e bl bl.flatten.length).log = st.log ++ suf := by
  cases p with
  | fresh => exact ⟨[], h.2.symm, _, by rw [h.1]; rfl⟩
  | opened n => exact opened_prefix h
  | refused => exact h
  | failed => exact h
  | verified =>
    obtain ⟨bl, a, b⟩ := h
    exact ⟨bl, b, [], by rw [a]; simp [R.log]⟩
  | closed g =>
    cases g with
    | true =>
      obtain ⟨bl, a, b⟩ := h
      exact ⟨bl, b, [], by rw [a]; simp [R.log]⟩
    | false => exact h

theorem crash_mono {m0 m : Mem} {l t : List FOp} (h : Crash m0 l m) : Crash m0 (l ++ t) m := by
  rcases h with ⟨pre, suf, h1, h2⟩ | ⟨pre, op, suf, h1, h2⟩
  · exact .inl ⟨pre, suf ++ t, by rw [h1, List.append_assoc], h2⟩
  · exact .inr ⟨pre, op, suf ++ t, by rw [h1, List.append_assoc, List.cons_append], h2⟩

theorem handle_of_sink {e : Nat → Bool} : ∀ (l : List (Env × Out)) (st st1 : St), sinkCalls e st l = some st1 →
    ∀ x, x ∈ l → x.2 = .openSink → x.1.openOk = true ∧ x.1.openHandle = true := by
  intro l
  induction l with
  | nil => intro st st1 _ x hx; cases hx
  | cons y l ih =>
    intro st st1 h x hx hxo
    rw [sinkCalls] at h
    cases h4 : sinkCall e st y with
    | none => rw [h4] at h; cases h
    | some s1 =>
      rw [h4] at h
      rcases List.mem_cons.1 hx with rfl | hx
      · unfold sinkCall at h4; rw [hxo] at h4; dsimp only at h4
        split at h4
        · assumption
        · cases h4
      · exact ih s1 st1 h x hx hxo

/-- The invariant of a download into flash: whatever packets arrive, the flash operations so far are those of
staging the bytes received so far. -/
theorem download_rel (cfg : Cfg) (lp ip port : Nat) (name : List Nat) (s : Client) (hst : start cfg lp ip port name = some s)
    (es : List Ev) (hg : Wolf.Tftp.GivesHandle es) (e : Nat → Bool) (st : St) (h0 : Hd)
    (hs : sinkCalls e ⟨h0, []⟩ (calls s es) = some st) :
    ∃ p, phases s .fresh es = some p ∧ Wolf.Tftp.Agree (after s es) p ∧ Rel e (received (calls s es)) st p := by
  obtain ⟨p, a, b⟩ := Wolf.Tftp.sink_protocol cfg lp ip port name s hst es hg
  refine ⟨p, a, b, ?_⟩
  rw [phases_calls] at a
  have := calls_rel e (calls s es) .fresh p ⟨h0, []⟩ st [] ⟨rfl, rfl⟩ a hs
  simpa using this

/-- **Power failure during a download.** Whatever the network sends and whatever the flash reports, if the flag was
clear when the download started and power fails at any moment, then a flag found set means that every byte
received is in place, and nothing outside the update partition differs. -/
theorem download_crash_safe_partial (cfg : Cfg) (lp ip port : Nat) (name : List Nat) (s : Client)
    (hst : start cfg lp ip port name = some s) (es : List Ev) (hg : Wolf.Tftp.GivesHandle es) (e : Nat → Bool) (st : St) (h0 : Hd)
    (hs : sinkCalls e ⟨h0, []⟩ (calls s es) = some st) (m0 m : Mem) (hm : Crash m0 st.log m) :
    Untouched m0 m ∧ ((received (calls s es)).length ≤ partSize - 16 → m0 flagAddr = 255 → m flagAddr ≠ 255 →
      Holds m (received (calls s es))) := by
  obtain ⟨p, _, _, hr⟩ := download_rel cfg lp ip port name s hst es hg e st h0 hs
  obtain ⟨bl, hb, suf, hl⟩ := hr.prefix
  have hc : Crash m0 (session e bl bl.flatten.length).log m := by rw [hl]; exact crash_mono hm
  refine ⟨staging_confined m0 e bl _ m hc, fun h1 h2 h3 => ?_⟩
  rw [← hb] at h1 ⊢
  exact flag_implies_image_partial m0 e bl _ m h1 h2 hc h3

/-- **A download reported complete is installed**: the partition holds the bytes received, erased up to the flag, and
the flag is set. -/
theorem download_complete_installed_partial (cfg : Cfg) (lp ip port : Nat) (name : List Nat) (s : Client)
    (hst : start cfg lp ip port name = some s) (es : List Ev) (hg : Wolf.Tftp.GivesHandle es) (e : Nat → Bool) (st : St) (h0 : Hd)
    (hs : sinkCalls e ⟨h0, []⟩ (calls s es) = some st) (hc : (after s es).state = .complete)
    (hfit : (received (calls s es)).length ≤ partSize - 16) (m0 m : Mem) (hm : Exec m0 st.log m) :
    Holds m (received (calls s es)) ∧ m flagAddr = updating ∧
    (∀ i, (received (calls s es)).length ≤ i → i < partSize - 1 → m (partBase + i) = 255) := by
  obtain ⟨p, a, _, hr⟩ := download_rel cfg lp ip port name s hst es hg e st h0 hs
  have hp := (Wolf.Tftp.complete_means_verified cfg lp ip port name s hst es hg).1 hc
  rw [a] at hp; cases hp
  obtain ⟨bl, h1, h2⟩ := hr
  rw [← h2] at hfit ⊢
  have := success_installs_partial m0 e bl _ st hfit h1 m hm
  exact ⟨this.1, this.2.2.1, this.2.1⟩

/-- The history before any verification. -/
def RelW (e : Nat → Bool) (w : List Nat) (st : St) (p : Phase) : Prop :=
  (p = .fresh ∧ st.log = [] ∧ w = []) ∨ (∃ n bl, p = .opened n ∧ writeAll e (demoOpen []) bl = .ok st ∧ bl.flatten = w) ∨
  ((∀ n, p ≠ .opened n) ∧ p ≠ .fresh ∧ ∃ bl, (writeAll e (demoOpen []) bl).log = st.log ∧ bl.flatten = w ∧ writeAll e (demoOpen []) bl ≠ .oob)

theorem call_relW {e : Nat → Bool} {w : List Nat} {st st1 : St} {p q : Phase} (x : Env × Out) (h : RelW e w st p)
    (hv : ∀ t, x.2 ≠ .verify t) (ht : track x.1 p x.2 = some q) (hs : sinkCall e st x = some st1) : RelW e (w ++ received [x]) st1 q := by
  obtain ⟨env, o⟩ := x
  dsimp only at ht hv
  cases o with
  | send a b =>
    rw [Wolf.Tftp.track_send] at ht; cases ht
    cases hs
    simpa [received] using h
  | openSink =>
    unfold sinkCall at hs; dsimp only at hs
    by_cases ho : env.openOk = true ∧ env.openHandle = true
    · rw [if_pos ho] at hs; cases hs
      cases p <;> try (cases ht; done)
      rw [track, if_pos ho.1] at ht; cases ht
      rcases h with ⟨_, h1, h2⟩ | ⟨n, bl, h1, _⟩ | ⟨_, h1, _⟩
      · exact .inr (.inl ⟨0, [], rfl, by rw [h1]; rfl, by rw [h2]; rfl⟩)
      · cases h1
      · exact absurd rfl h1
    · rw [if_neg ho] at hs; cases hs
  | write off d =>
    unfold sinkCall at hs; dsimp only at hs
    by_cases hw : env.writeOk = (demoWrite e st d).isOk
    · rw [if_pos hw] at hs; cases hs
      cases p <;> try (cases ht; done)
      rename_i n
      rw [track] at ht
      split at ht
      · have hr : received [(env, Out.write off d)] = d := by simp [received]
        rcases h with ⟨h1, _⟩ | ⟨n', bl, _, a, b⟩ | ⟨h1, _⟩
        · cases h1
        · have hwa : writeAll e (demoOpen []) (bl ++ [d]) = demoWrite e st d := by
            rw [writeAll_append, a]; dsimp only
            rw [writeAll]
            cases demoWrite e st d <;> rfl
          have hfl : (bl ++ [d]).flatten = w ++ d := by rw [← b]; simp
          rw [hr]
          cases hd : demoWrite e st d with
          | ok s1 =>
            rw [hd] at hw hwa
            have hw : env.writeOk = true := hw
            rw [if_pos hw] at ht; cases ht
            exact .inr (.inl ⟨_, bl ++ [d], rfl, hwa, hfl⟩)
          | err s1 =>
            rw [hd] at hw hwa
            have hw : env.writeOk = false := hw
            rw [if_neg (by rw [hw]; decide)] at ht; cases ht
            exact .inr (.inr ⟨nofun, nofun, bl ++ [d], by rw [hwa]; rfl, hfl, by rw [hwa]; exact nofun⟩)
          | oob =>
            rw [hd] at hwa
            exact absurd (by rw [session, hwa]) (staging_memory_safe e (bl ++ [d]) 0)
        · exact absurd rfl (h1 n)
      · cases ht
    · rw [if_neg hw] at hs; cases hs
  | hash d =>
    unfold sinkCall at hs; dsimp only at hs
    by_cases hk : env.hashOk = true
    · rw [if_pos hk] at hs; cases hs
      cases p <;> try (cases ht; done)
      rw [track, if_pos hk] at ht; cases ht
      simpa [received] using h
    · rw [if_neg hk] at hs; cases hs
  | verify t => exact absurd rfl (hv t)
  | close s =>
    cases hs
    have hr : received [(env, Out.close s)] = [] := by simp [received]
    rw [hr, List.append_nil]
    have key : ∀ g, p ≠ .fresh → RelW e w st (.closed g) := by
      intro g hp
      rcases h with ⟨h1, _⟩ | ⟨n', bl, _, a, b⟩ | ⟨h1, h2, h3⟩
      · exact absurd h1 hp
      · exact .inr (.inr ⟨nofun, nofun, bl, by rw [a]; rfl, b, by rw [a]; exact nofun⟩)
      · exact .inr (.inr ⟨nofun, nofun, h3⟩)
    cases p <;> try (cases ht; done)
    all_goals
      rw [track] at ht; split at ht <;> cases ht
      exact key _ nofun

theorem calls_relW (e : Nat → Bool) : ∀ (l : List (Env × Out)) (p q : Phase) (st st1 : St) (w : List Nat), RelW e w st p →
    (∀ x t, x ∈ l → x.2 ≠ .verify t) → trackL p l = some q → sinkCalls e st l = some st1 → RelW e (w ++ received l) st1 q := by
  intro l
  induction l with
  | nil =>
    intro p q st st1 w h _ h1 h2
    cases h1; cases h2
    simpa [received] using h
  | cons x l ih =>
    intro p q st st1 w h hv h1 h2
    rw [trackL] at h1
    rw [sinkCalls] at h2
    cases h3 : track x.1 p x.2 with
    | none => rw [h3] at h1; cases h1
    | some p1 =>
      cases h4 : sinkCall e st x with
      | none => rw [h4] at h2; cases h2
      | some s1 =>
        rw [h3] at h1; rw [h4] at h2
        have := ih p1 q s1 st1 _ (call_relW x h (fun t => hv x t (by simp)) h3 h4) (fun y t hy => hv y t (List.mem_cons_of_mem _ hy)) h1 h2
        rw [received_cons, ← List.append_assoc]
        exact this

/-- **The flag is set by the verification only**: while blocks are still expected, and after a failure before the
verification, a power failure finds the flag as it was. -/
theorem flag_only_after_verify (cfg : Cfg) (lp ip port : Nat) (name : List Nat) (s : Client)
    (hst : start cfg lp ip port name = some s) (es : List Ev) (hg : Wolf.Tftp.GivesHandle es) (e : Nat → Bool) (st : St) (h0 : Hd)
    (hs : sinkCalls e ⟨h0, []⟩ (calls s es) = some st) (hv : ∀ x t, x ∈ calls s es → x.2 ≠ .verify t)
    (hfit : (received (calls s es)).length ≤ partSize - 16) (m0 m : Mem) (h255 : m0 flagAddr = 255) (hm : Crash m0 st.log m) :
    m flagAddr = 255 := by
  obtain ⟨p, a, _⟩ := Wolf.Tftp.sink_protocol cfg lp ip port name s hst es hg
  rw [phases_calls] at a
  have hr := calls_relW e (calls s es) .fresh p ⟨h0, []⟩ st [] (.inl ⟨rfl, rfl, rfl⟩) hv a hs
  rw [List.nil_append] at hr
  have key : ∀ bl, (writeAll e (demoOpen []) bl).log = st.log → writeAll e (demoOpen []) bl ≠ .oob → bl.flatten = received (calls s es) →
      m flagAddr = 255 := by
    intro bl h1 h2 h3
    rcases writeAll_spec (m0 := m0) (I := bl.flatten) e bl [] (demoOpen []) (mid_open m0 _) rfl with
      ⟨s1, a1, a2, _⟩ | ⟨s1, a1, a2, _⟩
    · rw [a1] at h1
      have h1 : s1.log = st.log := h1
      rw [← h1] at hm
      exact ((a2.quiet (Nat.le_refl _)).crash m hm).2 h255 (by rw [h3]; exact hfit)
    · rw [a1] at h1
      have h1 : s1.log = st.log := h1
      rw [← h1] at hm
      exact (a2.crash m hm).2 h255 (by rw [h3]; exact hfit)
  rcases hr with ⟨_, h1, _⟩ | ⟨n, bl, _, h1, h2⟩ | ⟨_, _, bl, h1, h2, h3⟩
  · rw [h1] at hm; rw [crash_nil hm]; exact h255
  · exact key bl (by rw [h1]; rfl) (by rw [h1]; exact nofun) h2
  · exact key bl h1 h3 h2

/-! ## Example -/

/-- The download of `Wolf.Tftp.exRun` (20 bytes in blocks of 16) into working flash. -/
example : ∃ s, start Wolf.Tftp.cfg16 1000 7 69 [97] = some s ∧ (after s Wolf.Tftp.exRun).state = .complete ∧
    received (calls s Wolf.Tftp.exRun) = List.range 20 ∧
    ((sinkCalls (fun _ => true) (demoOpen []) (calls s Wolf.Tftp.exRun)).map fun st => (st.log.length, st.log.take 3)) =
      some (83, [.erase partBase true, .prog partBase (List.range 16) true,
        .prog (partBase + 16) ([16, 17, 18, 19] ++ List.replicate 12 255) true]) :=
  ⟨(start Wolf.Tftp.cfg16 1000 7 69 [97]).get (by decide +kernel), by decide +kernel, by decide +kernel, by decide +kernel, by decide +kernel⟩

/-- The answers of a server that announces twenty bytes and sends one. -/
def shortRun : List Ev := [.recv {} 1000 7 5000 ([0, 6] ++ Wolf.Tftp.wire Wolf.Tftp.kBlksize [49, 54] ++
  Wolf.Tftp.wire Wolf.Tftp.kTsize [50, 48]), .recv {} 1000 7 5000 [0, 3, 0, 1, 65]]

/-- As the verification is given the count of bytes received, a download that stops short of the announced size is
flagged for installation: one byte of an image announced as twenty. -/
theorem short_download_flagged : ∃ s st, start Wolf.Tftp.cfgMax 1000 7 69 [97] = some s ∧ (after s shortRun).advertised = 20 ∧
    received (calls s shortRun) = [65] ∧ sinkCalls (fun _ => true) (demoOpen []) (calls s shortRun) = some st ∧
    ∀ m0 m, Exec m0 st.log m → m flagAddr = updating := by
  obtain ⟨s, hs⟩ : ∃ s, start Wolf.Tftp.cfgMax 1000 7 69 [97] = some s := ⟨(start Wolf.Tftp.cfgMax 1000 7 69 [97]).get (by decide +kernel), by simp⟩
  have e1 : s = (start Wolf.Tftp.cfgMax 1000 7 69 [97]).get (by decide +kernel) := by simp [hs]
  have h1 : (after s shortRun).advertised = 20 ∧ received (calls s shortRun) = [65] ∧ (after s shortRun).state = .complete ∧
      (sinkCalls (fun _ => true) (demoOpen []) (calls s shortRun)).isSome = true := by
    rw [e1]; decide +kernel
  obtain ⟨st, hst⟩ := Option.isSome_iff_exists.1 h1.2.2.2
  refine ⟨s, st, hs, h1.1, h1.2.1, hst, fun m0 m hm => ?_⟩
  have hg : Wolf.Tftp.GivesHandle shortRun := by
    intro e he _
    revert he
    simp only [shortRun, List.mem_cons, List.not_mem_nil, or_false]
    rintro (h | h) <;> subst h <;> rfl
  exact (download_complete_installed_partial _ _ _ _ _ s hs shortRun hg (fun _ => true) st (demoOpen []).h hst h1.2.2.1
    (by rw [h1.2.1]; decide) m0 m hm).2.1

end Wolf.Ota
