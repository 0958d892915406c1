import Verif.Filter.Model
/-! # C38: proofs -/
namespace Wolf.Filter

theorem opsOf_append (a b : List T) : opsOf (a ++ b) = opsOf a ++ opsOf b := by simp [opsOf]

/-- The state described by the configuration calls so far. -/
structure Desc (ops : List Op) (st : FSt) : Prop where
  cb : st.cb = true ↔ Installed ops
  mask : st.mask = maskOf ops .all
  eth : st.eth = maskOf ops .eth
  ip : st.ip = maskOf ops .ip
  tcp : st.tcp = maskOf ops .tcp
  udp : st.udp = maskOf ops .udp
  icmp : st.icmp = maskOf ops .icmp
  touched : st.touched = true ↔ Configured ops

theorem lastSome_snoc {α β : Type} (f : α → Option β) (l : List α) (x : α) : lastSome f (l ++ [x]) = (f x).or (lastSome f l) := by
  rw [lastSome, lastSome, List.filterMap_append]
  cases h : f x with
  | none => simp [List.filterMap_cons, h]
  | some y => simp [List.filterMap_cons, h]

theorem installed_cb (ops : List Op) (on : Bool) : Installed (ops ++ [.setCb on]) ↔ on = true := by
  rw [Installed, lastSome_snoc]; simp

theorem installed_mask (ops : List Op) (l : Layer) (m : Nat) : Installed (ops ++ [.setMask l m]) ↔ Installed ops := by
  rw [Installed, lastSome_snoc]; simp [Installed]

theorem maskOf_cb (ops : List Op) (on : Bool) (l : Layer) : maskOf (ops ++ [.setCb on]) l = maskOf ops l := by
  rw [maskOf, lastSome_snoc]; simp [maskOf]

theorem maskOf_mask (ops : List Op) (l l' : Layer) (m : Nat) : maskOf (ops ++ [.setMask l' m]) l = if l' = l then m else maskOf ops l := by
  rw [maskOf, lastSome_snoc]
  by_cases h : l' = l
  · simp [h]
  · simp [h, maskOf]

theorem configured_mask (ops : List Op) (l : Layer) (m : Nat) : Configured (ops ++ [.setMask l m]) := ⟨ops, l, m, [], rfl, by simp⟩

theorem configured_off (ops : List Op) : ¬ Configured (ops ++ [.setCb false]) := by
  rintro ⟨pre, l, m, post, he, hn⟩
  rcases List.eq_nil_or_concat post with rfl | ⟨p', x, rfl⟩
  · have := List.append_inj' he (by simp); simp at this
  · rw [List.concat_eq_append, ← List.cons_append, ← List.append_assoc] at he
    have := List.append_inj' he (by simp)
    simp at this
    rw [← this.2] at hn
    simp at hn

theorem configured_on (ops : List Op) : Configured (ops ++ [.setCb true]) ↔ Configured ops := by
  constructor
  · rintro ⟨pre, l, m, post, he, hn⟩
    rcases List.eq_nil_or_concat post with rfl | ⟨p', x, rfl⟩
    · have := List.append_inj' he (by simp); simp at this
    · rw [List.concat_eq_append, ← List.cons_append, ← List.append_assoc] at he
      have := (List.append_inj' he (by simp)).1
      exact ⟨pre, l, m, p', this, fun h => hn (by simp [h])⟩
  · rintro ⟨pre, l, m, post, he, hn⟩
    exact ⟨pre, l, m, post ++ [.setCb true], by rw [he]; simp, by simp [hn]⟩

theorem desc_apply (ops : List Op) (st : FSt) (o : Op) (h : Desc ops st) : Desc (ops ++ [o]) (apply st o) := by
  cases o with
  | setCb on =>
    refine ⟨?_, ?_, ?_, ?_, ?_, ?_, ?_, ?_⟩
    · rw [installed_cb]; rfl
    all_goals first
      | (rw [maskOf_cb]; first | exact h.mask | exact h.eth | exact h.ip | exact h.tcp | exact h.udp | exact h.icmp)
      | skip
    cases on with
    | true => rw [configured_on]; exact h.touched
    | false => simp [apply, configured_off]
  | setMask l m =>
    have hc : ∀ st' : FSt, st'.touched = true → (st'.touched = true ↔ Configured (ops ++ [.setMask l m])) :=
      fun st' e => ⟨fun _ => configured_mask ops l m, fun _ => e⟩
    have hi := installed_mask ops l m
    cases l <;> (refine ⟨?_, ?_, ?_, ?_, ?_, ?_, ?_, hc _ rfl⟩ <;> first | (rw [hi]; exact h.cb) | (rw [maskOf_mask]; simp [apply, h.mask, h.eth, h.ip, h.tcp, h.udp, h.icmp]))

theorem desc_lock (ops : List Op) (st : FSt) (b : Bool) (h : Desc ops st) : Desc ops { st with lock := b } :=
  ⟨h.cb, h.mask, h.eth, h.ip, h.tcp, h.udp, h.icmp, h.touched⟩

theorem land_bit (m r : Nat) : Nat.land m (1 <<< r) = 0 ↔ m.testBit r = false := by
  rw [Nat.one_shiftLeft]
  show m &&& 2 ^ r = 0 ↔ _
  constructor
  · intro h
    have := congrArg (fun x => x.testBit r) h
    simpa [Nat.testBit_and, Nat.testBit_two_pow_self] using this
  · intro h
    apply Nat.eq_of_testBit_eq
    intro i
    rw [Nat.testBit_and, Nat.testBit_two_pow, Nat.zero_testBit]
    by_cases hi : r = i
    · subst hi; simp [h]
    · simp [hi]

theorem bit32 (r : Nat) (h : r < 32) : (4294967295 : Nat).testBit r = true := by
  rw [show (4294967295 : Nat) = 2 ^ 32 - 1 by decide, Nat.testBit_two_pow_sub_one]; simpa using h

/-- The test made by the code is the specification's. -/
theorem enabled_iff (ops : List Op) (st : FSt) (r : Nat) (p : Option Nat) (h : Desc ops st) (hr : r < 32) :
    Nat.land (selMask st p) (1 <<< r) ≠ 0 ↔ Enabled ops r p := by
  rw [Ne, land_bit]
  have hm : ¬ st.touched = false → selMask st p = effMask ops p := by
    intro ht
    rw [selMask.eq_def, if_neg ht]
    cases p with
    | none => simp [effMask, h.mask]
    | some q =>
      simp only [effMask, Option.bind_some, layerOf, maskFor]
      rw [h.mask, h.eth, h.ip, h.tcp, h.udp, h.icmp]
      by_cases h1 : q = protoEth
      · simp [h1]
      by_cases h2 : q = protoIp
      · simp [h2, protoEth, protoIp]
      by_cases h3 : q = protoTcp
      · simp [h3, protoEth, protoIp, protoTcp]
      by_cases h4 : q = protoUdp
      · simp [h4, protoEth, protoIp, protoTcp, protoUdp]
      by_cases h5 : q = protoIcmp
      · simp [h5, protoEth, protoIp, protoTcp, protoUdp, protoIcmp]
      · simp [h1, h2, h3, h4, h5]
  rw [Enabled, ← h.touched]
  by_cases ht : st.touched = false
  · rw [selMask.eq_def, if_pos ht, bit32 r hr]; simp [ht]
  · rw [hm ht]; simp [ht]

/-- While the lock is held, an event is answered 0 at once. -/
theorem dispatch_locked (beh : Beh) (n : Nat) (st : FSt) (r : Nat) (p : Option Nat) (h : st.lock = true) : dispatch beh (n + 1) st r p = (st, 0, []) := by
  rw [dispatch.eq_def]
  simp only [h, if_true]
  split
  · rfl
  split
  · rfl
  rfl

theorem apply_lock (st : FSt) (o : Op) : (apply st o).lock = st.lock := by
  cases o with
  | setCb on => rfl
  | setMask l m => cases l <;> rfl

def OnlyCfg (tr : List T) : Prop := ∀ t ∈ tr, ∃ o, t = .cfgd o

/-- A callback run with the lock held only reconfigures. -/
theorem runProg_locked (beh : Beh) (n : Nat) : ∀ (pr : Prog) (ops : List Op) (st : FSt), st.lock = true → Desc ops st →
    OnlyCfg (runProg (dispatch beh (n + 1)) st pr).2.2 ∧
    Desc (ops ++ opsOf (runProg (dispatch beh (n + 1)) st pr).2.2) (runProg (dispatch beh (n + 1)) st pr).1 := by
  intro pr
  induction pr with
  | ret v => intro ops st _ h; rw [runProg]; exact ⟨by intro t ht; simp at ht, by simpa [opsOf] using h⟩
  | cfg o k ih =>
    intro ops st hl h
    rw [runProg]
    obtain ⟨h1, h2⟩ := ih (ops ++ [o]) (apply st o) (by rw [apply_lock]; exact hl) (desc_apply ops st o h)
    refine ⟨?_, ?_⟩
    · intro t ht
      simp only [List.mem_cons] at ht
      rcases ht with ht | ht
      · exact ⟨o, ht⟩
      · exact h1 t ht
    · simp only [opsOf, List.filterMap_cons] at h2 ⊢
      rw [List.append_assoc] at h2; exact h2
  | event r p k ih =>
    intro ops st hl h
    rw [runProg]
    simp only
    rw [dispatch_locked beh n st r p hl]
    simp only [List.nil_append]
    exact ih 0 ops st hl h

/-- What an event raised by the stack does, from a described state with the lock free. -/
theorem raise_spec (beh : Beh) (ops : List Op) (st : FSt) (r : Nat) (p : Option Nat) (h : Desc ops st) (hl : st.lock = false) (hr : r < 32) :
    (raise beh st r p).1.lock = false ∧ Desc (ops ++ opsOf (raise beh st r p).2.2) (raise beh st r p).1 ∧
    ((Installed ops ∧ Enabled ops r p ∧ ∃ body, OnlyCfg body ∧ (raise beh st r p).2.2 = .enter r p :: (body ++ [.leave (raise beh st r p).2.1])) ∨
     (¬ (Installed ops ∧ Enabled ops r p) ∧ raise beh st r p = (st, 0, []))) := by
  have en := enabled_iff ops st r p h hr
  have quiet : raise beh st r p = (st, 0, []) → (raise beh st r p).1.lock = false ∧ Desc (ops ++ opsOf (raise beh st r p).2.2) (raise beh st r p).1 := by
    intro e; rw [e]; exact ⟨hl, by simpa [opsOf] using h⟩
  by_cases hcb : st.cb = false
  · have e : raise beh st r p = (st, 0, []) := by rw [raise, dispatch.eq_def]; simp only; rw [if_pos hcb]
    refine ⟨(quiet e).1, (quiet e).2, Or.inr ⟨?_, e⟩⟩
    rintro ⟨hi, _⟩
    rw [← h.cb, hcb] at hi; simp at hi
  by_cases hz : Nat.land (selMask st p) (1 <<< r) = 0
  · have e : raise beh st r p = (st, 0, []) := by rw [raise, dispatch.eq_def]; simp only; rw [if_neg hcb, if_pos hz]
    refine ⟨(quiet e).1, (quiet e).2, Or.inr ⟨?_, e⟩⟩
    rintro ⟨_, he⟩
    exact absurd hz (en.mpr he)
  · have e : raise beh st r p = ({ (runProg (dispatch beh 1) { st with lock := true } (beh 1 r p)).1 with lock := false },
        (runProg (dispatch beh 1) { st with lock := true } (beh 1 r p)).2.1,
        .enter r p :: ((runProg (dispatch beh 1) { st with lock := true } (beh 1 r p)).2.2 ++ [.leave (runProg (dispatch beh 1) { st with lock := true } (beh 1 r p)).2.1])) := by
      rw [raise, dispatch.eq_def]; simp only; rw [if_neg hcb, if_neg hz, if_neg (by rw [hl]; simp)]
    obtain ⟨h1, h2⟩ := runProg_locked beh 0 (beh 1 r p) ops { st with lock := true } rfl (desc_lock ops st true h)
    rw [e]
    refine ⟨rfl, ?_, Or.inl ⟨h.cb.mp (by simpa using hcb), en.mp hz, _, h1, rfl⟩⟩
    have : opsOf (.enter r p :: ((runProg (dispatch beh 1) { st with lock := true } (beh 1 r p)).2.2 ++ [.leave (runProg (dispatch beh 1) { st with lock := true } (beh 1 r p)).2.1])) =
        opsOf (runProg (dispatch beh 1) { st with lock := true } (beh 1 r p)).2.2 := by
      simp [opsOf]
    simp only [this]
    exact desc_lock _ _ false h2

theorem noReentry_onlyCfg (b : Bool) (body rest : List T) (h : OnlyCfg body) : NoReentry b (body ++ rest) ↔ NoReentry b rest := by
  induction body with
  | nil => rfl
  | cons t body ih =>
    obtain ⟨o, ho⟩ := h t (by simp)
    subst ho
    cases b <;> simp only [List.cons_append, NoReentry] <;> exact ih (fun t ht => h t (by simp [ht]))

/-- The callback is not running at the end of the trace. -/
def Closed (tr : List T) : Prop := ∀ rest, NoReentry false (tr ++ rest) ↔ NoReentry false rest

theorem closed_append {a b : List T} (ha : Closed a) (hb : Closed b) : Closed (a ++ b) := by
  intro rest; rw [List.append_assoc, ha, hb]

theorem closed_call (r : Nat) (p : Option Nat) (v : Int) (body : List T) (h : OnlyCfg body) : Closed (.enter r p :: (body ++ [.leave v])) := by
  intro rest
  simp only [List.cons_append, List.append_assoc, NoReentry]
  rw [noReentry_onlyCfg _ _ _ h]
  simp [NoReentry]

/-- The events of a history have reasons the API has (a 32-bit mask bit). -/
def ActOk : Act → Prop
  | .cfg _ => True
  | .event _ r _ => r < 32

structure AInv (st : FSt) (tr : List T) : Prop where
  desc : Desc (opsOf tr) st
  lock : st.lock = false
  closed : Closed tr

theorem act_inv (st : FSt) (tr : List T) (a : Act) (h : AInv st tr) (ha : ActOk a) : AInv (act st a).1 (tr ++ (act st a).2) := by
  cases a with
  | cfg o =>
    refine ⟨?_, by simp only [act]; rw [apply_lock]; exact h.lock, closed_append h.closed ?_⟩
    · rw [opsOf_append]; exact desc_apply _ _ o h.desc
    · intro rest; simp [act, NoReentry]
  | event beh r p =>
    obtain ⟨h1, h2, h3⟩ := raise_spec beh (opsOf tr) st r p h.desc h.lock ha
    refine ⟨by rw [opsOf_append]; exact h2, h1, closed_append h.closed ?_⟩
    simp only [act]
    rcases h3 with ⟨_, _, body, hb, he⟩ | ⟨_, he⟩
    · rw [he]; exact closed_call _ _ _ _ hb
    · rw [he]; intro rest; simp

theorem acts_inv : ∀ (as : List Act) (st : FSt) (tr : List T), AInv st tr → (∀ a ∈ as, ActOk a) → AInv (acts st tr as).1 (acts st tr as).2 := by
  intro as
  induction as with
  | nil => intro st tr h _; exact h
  | cons a as ih =>
    intro st tr h ha
    exact ih _ _ (act_inv st tr a h (ha a (by simp))) (fun x hx => ha x (by simp [hx]))

theorem desc_init : Desc [] {} := by
  refine ⟨by simp [Installed, lastSome], rfl, rfl, rfl, rfl, rfl, rfl, ?_⟩
  simp [Configured]

theorem init_inv : AInv {} [] := ⟨desc_init, rfl, fun _ => Iff.rfl⟩

/-- **C38, consultation.** After any history of mask settings, installations and filter events (with
callbacks doing what they like, including reconfiguring the filter and using the stack), an event is put to
the callback exactly if a callback is installed and the reason enabled; then the callback's verdict is the
answer, and otherwise the answer is 0 (allow) and nothing happens. -/
theorem filter_consulted (as : List Act) (has : ∀ a ∈ as, ActOk a) (beh : Beh) (r : Nat) (hr : r < 32) (p : Option Nat) :
    (Installed (opsOf (acts {} [] as).2) ∧ Enabled (opsOf (acts {} [] as).2) r p →
      ∃ body, OnlyCfg body ∧ (raise beh (acts {} [] as).1 r p).2.2 = .enter r p :: (body ++ [.leave (raise beh (acts {} [] as).1 r p).2.1])) ∧
    (¬ (Installed (opsOf (acts {} [] as).2) ∧ Enabled (opsOf (acts {} [] as).2) r p) →
      raise beh (acts {} [] as).1 r p = ((acts {} [] as).1, 0, [])) := by
  have hi := acts_inv as {} [] init_inv has
  obtain ⟨_, _, h3⟩ := raise_spec beh _ _ r p hi.desc hi.lock hr
  constructor
  · intro h
    rcases h3 with ⟨_, _, body, hb, he⟩ | ⟨hn, _⟩
    · exact ⟨body, hb, he⟩
    · exact absurd h hn
  · intro h
    rcases h3 with ⟨a, b, _⟩ | ⟨_, he⟩
    · exact absurd ⟨a, b⟩ h
    · exact he

/-- **C38, no re-entry.** In no history is the callback entered while it is running. -/
theorem filter_not_reentered (as : List Act) (has : ∀ a ∈ as, ActOk a) : NoReentry false (acts {} [] as).2 := by
  have := (acts_inv as {} [] init_inv has).closed []
  rw [List.append_nil] at this
  exact this.mpr (by simp [NoReentry])

theorem chain_inv (beh : Beh) (r : Nat) (hr : r < 32) : ∀ (ps : List Nat) (st : FSt) (tr : List T), AInv st tr →
    AInv (chain beh r st ps).1 (tr ++ (chain beh r st ps).2.2) ∧
    ((chain beh r st ps).2.1 = true ↔ ∀ v, T.leave v ∈ (chain beh r st ps).2.2 → v = 0) ∧
    ((chain beh r st ps).2.1 = true → ∀ k (hk : k < ps.length), Installed (opsOf tr) → (∀ o, T.cfgd o ∉ (chain beh r st ps).2.2) → Enabled (opsOf tr) r (some ps[k]) →
      T.enter r (some ps[k]) ∈ (chain beh r st ps).2.2) := by
  intro ps
  induction ps with
  | nil => intro st tr h; simp [chain]; exact h
  | cons p ps ih =>
    intro st tr h
    obtain ⟨h1, h2, h3⟩ := raise_spec beh (opsOf tr) st r (some p) h.desc h.lock hr
    have hinv : AInv (raise beh st r (some p)).1 (tr ++ (raise beh st r (some p)).2.2) := act_inv st tr (.event beh r (some p)) h hr
    have onlyLeave : ∀ v, T.leave v ∈ (raise beh st r (some p)).2.2 → v = (raise beh st r (some p)).2.1 := by
      intro v hv
      rcases h3 with ⟨_, _, body, hb, he⟩ | ⟨_, he⟩
      · rw [he] at hv
        simp only [List.mem_cons, List.mem_append, List.not_mem_nil, or_false, reduceCtorEq, false_or, T.leave.injEq] at hv
        rcases hv with hv | hv
        · obtain ⟨o, ho⟩ := hb _ hv; simp at ho
        · exact hv
      · rw [he] at hv; simp at hv
    rw [chain]
    simp only
    by_cases hv : (raise beh st r (some p)).2.1 ≠ 0
    · rw [if_pos hv]
      refine ⟨hinv, ⟨by simp, fun hall => ?_⟩, by simp⟩
      rcases h3 with ⟨_, _, body, hb, he⟩ | ⟨_, he⟩
      · exact absurd (hall (raise beh st r (some p)).2.1 (by rw [he]; simp)) hv
      · rw [he] at hv; simp at hv
    · rw [if_neg hv]
      obtain ⟨i1, i2, i3⟩ := ih (raise beh st r (some p)).1 (tr ++ (raise beh st r (some p)).2.2) hinv
      refine ⟨by rw [← List.append_assoc]; exact i1, ?_, ?_⟩
      · rw [i2]
        constructor
        · intro ha v hm
          rw [List.mem_append] at hm
          rcases hm with hm | hm
          · rw [onlyLeave v hm]; simpa using hv
          · exact ha v hm
        · intro ha v hm; exact ha v (by rw [List.mem_append]; exact Or.inr hm)
      · intro hs k hk hin hnc hen
        rw [List.mem_append]
        cases k with
        | zero =>
          left
          rcases h3 with ⟨_, _, body, hb, he⟩ | ⟨hn, _⟩
          · rw [he]; simp
          · exact absurd ⟨hin, hen⟩ hn
        | succ k =>
          right
          have hops : opsOf (tr ++ (raise beh st r (some p)).2.2) = opsOf tr := by
            rw [opsOf_append]
            have : opsOf (raise beh st r (some p)).2.2 = [] := by
              rw [opsOf, List.filterMap_eq_nil_iff]
              intro t ht
              cases t with
              | cfgd o => exact absurd (by rw [List.mem_append]; exact Or.inl ht) (hnc o)
              | _ => rfl
            rw [this, List.append_nil]
          exact i3 hs k (by simpa using hk) (by rw [hops]; exact hin) (fun o ho => hnc o (by rw [List.mem_append]; exact Or.inr ho)) (by rw [hops]; exact hen)

/-- **C38, veto.** A frame whose layers `ps` are put to the filter before sending is sent exactly if no verdict
was nonzero; and when it is sent and the callback did not reconfigure the filter meanwhile, every layer
whose reason is enabled was put to the callback. -/
theorem filter_vetoes (as : List Act) (has : ∀ a ∈ as, ActOk a) (beh : Beh) (r : Nat) (hr : r < 32) (ps : List Nat) :
    ((chain beh r (acts {} [] as).1 ps).2.1 = true ↔ ∀ v, T.leave v ∈ (chain beh r (acts {} [] as).1 ps).2.2 → v = 0) ∧
    ((chain beh r (acts {} [] as).1 ps).2.1 = true → (∀ o, T.cfgd o ∉ (chain beh r (acts {} [] as).1 ps).2.2) →
      Installed (opsOf (acts {} [] as).2) → ∀ p ∈ ps, Enabled (opsOf (acts {} [] as).2) r (some p) →
      T.enter r (some p) ∈ (chain beh r (acts {} [] as).1 ps).2.2) := by
  obtain ⟨_, h2, h3⟩ := chain_inv beh r hr ps _ _ (acts_inv as {} [] init_inv has)
  refine ⟨h2, fun hs hn hi p hp he => ?_⟩
  obtain ⟨k, hk, rfl⟩ := List.getElem_of_mem hp
  exact h3 hs k hk hi hn he

/-- **Which layers a forwarded datagram is shown to**: the IP layer always, the Ethernet layer
on interfaces that have one, and the transport layer whenever its fixed header is all there. -/
theorem forward_layers_exact (ipProto len hlen : Nat) (eth : Bool) (p : Nat) :
    p ∈ forwardLayers ipProto len hlen eth ↔
      p = protoIp ∨ (p = protoEth ∧ eth = true) ∨
      (p = protoTcp ∧ ipProto = 6 ∧ 14 + hlen + 20 ≤ len) ∨
      (p = protoUdp ∧ ipProto = 17 ∧ 14 + hlen + 8 ≤ len) ∨
      (p = protoIcmp ∧ ipProto = 1 ∧ 14 + hlen + 8 ≤ len) := by
  unfold forwardLayers
  rw [List.mem_append, List.mem_append]
  have e : (p ∈ (if eth = true then [protoEth] else ([] : List Nat))) ↔ (p = protoEth ∧ eth = true) := by
    cases eth <;> simp
  have t : (p ∈ (if ipProto = 6 then (if len < 14 + hlen + 20 then [] else [protoTcp])
      else if ipProto = 17 then (if len < 14 + hlen + 8 then [] else [protoUdp])
      else if ipProto = 1 then (if len < 14 + hlen + 8 then [] else [protoIcmp])
      else ([] : List Nat))) ↔
      ((p = protoTcp ∧ ipProto = 6 ∧ 14 + hlen + 20 ≤ len) ∨
      (p = protoUdp ∧ ipProto = 17 ∧ 14 + hlen + 8 ≤ len) ∨
      (p = protoIcmp ∧ ipProto = 1 ∧ 14 + hlen + 8 ≤ len)) := by
    (repeat' split) <;> simp <;> omega
  rw [e, t, List.mem_singleton]
  constructor
  · rintro ((h | h) | h)
    · exact Or.inr (Or.inr h)
    · exact Or.inl h
    · exact Or.inr (Or.inl h)
  · rintro (h | h | h)
    · exact Or.inl (Or.inr h)
    · exact Or.inr h
    · exact Or.inl (Or.inl h)

/-- **A forwarded datagram that goes out was let through by every layer that has an enabled
filter**: the callback was entered for the IP layer, for Ethernet if the interface has it and
for a complete transport header, and never answered with a veto. -/
theorem forward_consults (as : List Act) (has : ∀ a ∈ as, ActOk a) (beh : Beh)
    (ipProto len hlen : Nat) (eth : Bool) (p : Nat)
    (hp : p = protoIp ∨ (p = protoEth ∧ eth = true) ∨
      (p = protoTcp ∧ ipProto = 6 ∧ 14 + hlen + 20 ≤ len) ∨
      (p = protoUdp ∧ ipProto = 17 ∧ 14 + hlen + 8 ≤ len) ∨
      (p = protoIcmp ∧ ipProto = 1 ∧ 14 + hlen + 8 ≤ len))
    (hs : (chain beh filtSending (acts {} [] as).1 (forwardLayers ipProto len hlen eth)).2.1 = true)
    (hn : ∀ o, T.cfgd o ∉ (chain beh filtSending (acts {} [] as).1 (forwardLayers ipProto len hlen eth)).2.2)
    (hi : Installed (opsOf (acts {} [] as).2))
    (he : Enabled (opsOf (acts {} [] as).2) filtSending (some p)) :
    T.enter filtSending (some p) ∈
        (chain beh filtSending (acts {} [] as).1 (forwardLayers ipProto len hlen eth)).2.2 ∧
      ∀ v, T.leave v ∈
        (chain beh filtSending (acts {} [] as).1 (forwardLayers ipProto len hlen eth)).2.2 → v = 0 := by
  obtain ⟨h1, h2⟩ := filter_vetoes as has beh filtSending (by decide) (forwardLayers ipProto len hlen eth)
  exact ⟨h2 hs hn hi p ((forward_layers_exact ipProto len hlen eth p).mpr hp) he, h1.mp hs⟩

/-! ## Concrete cases -/

/-- A callback that refuses everything at the TCP layer, after reading back through the stack. -/
def exBeh : Beh := fun _ r p => .event r p (fun v => .ret (if v = 0 ∧ p = some protoTcp then 1 else 0))

/-- Installed without masks: asked, refuses; masks set so that only the IP layer is enabled: not asked. -/
example : raise exBeh (acts {} [] [.cfg (.setCb true)]).1 9 (some protoTcp) = (({ cb := true } : FSt), 1, [.enter 9 (some protoTcp), .leave 1]) := by
  decide +kernel
example : (raise exBeh (acts {} [] [.cfg (.setCb true), .cfg (.setMask .ip 0x200)]).1 9 (some protoTcp)).2 = (0, []) := by decide +kernel
example : Installed [.setCb true] ∧ Enabled [.setCb true] 9 (some protoTcp) ∧ ¬ Enabled [.setCb true, .setMask .ip 0x200] 9 (some protoTcp) := by
  refine ⟨rfl, Or.inl ?_, ?_⟩
  · rintro ⟨pre, l, m, post, he, _⟩
    have : Op.setMask l m ∈ [Op.setCb true] := by rw [he]; simp
    simp at this
  · rintro (h | h)
    · exact h ⟨[.setCb true], .ip, 0x200, [], rfl, by simp⟩
    · revert h; decide

/-- **C38 is not met for a forwarded datagram whose transport header is cut short**: with only the TCP layer
enabled, a TCP datagram with a 20-byte header is put to the callback (which refuses it), the same datagram
with 19 bytes of TCP header is forwarded without asking. -/
theorem filter_misses_truncated_forward :
    (chain exBeh filtSending (acts {} [] [.cfg (.setCb true), .cfg (.setMask .tcp 0x200)]).1 (forwardLayers 6 54 20 true)).2.1 = false ∧
    (chain exBeh filtSending (acts {} [] [.cfg (.setCb true), .cfg (.setMask .tcp 0x200)]).1 (forwardLayers 6 53 20 true)).2 = (true, []) := by
  decide +kernel

end Wolf.Filter
