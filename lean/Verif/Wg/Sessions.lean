import Verif.Wg.Micro

/-!
# Session invariants over all histories (for C45, C47, C48)
-/

namespace Wolf.Wg

/-- An effect in a history: device clock, peer, effect. -/
abbrev TEv := Nat × Nat × Ev

/-- Sequences of micro-steps of all peers. -/
inductive DS : List Core → Nat → List TEv → List Core → Nat → Prop
  | refl (cs n) : DS cs n [] cs n
  | quiet {cs n cs' n' tr} (t i : Nat) (e : Ev) (h : Ev.quiet e) (r : DS cs n tr cs' n') :
      DS cs n ((t, i, e) :: tr) cs' n'
  | fresh {cs n cs' n' tr} (i : Nat) (r : DS (cs.set i Core.empty) n tr cs' n') :
      DS cs n tr cs' n'
  | cons {cs n cs' n' tr} (t i : Nat) (c c' : Core) (e : Option Ev) (hc : cs[i]? = some c)
      (h : Mic t n c e c') (r : DS (cs.set i c') (bump n e) tr cs' n') :
      DS cs n (e.toList.map (fun e => (t, i, e)) ++ tr) cs' n'

theorem DS.trans {cs n tr cs' n' tr' cs'' n''} (h : DS cs n tr cs' n')
    (h' : DS cs' n' tr' cs'' n'') : DS cs n (tr ++ tr') cs'' n'' := by
  induction h with
  | refl => exact h'
  | quiet t i e hq _ ih => exact DS.quiet t i e hq (ih h')
  | fresh i _ ih => exact DS.fresh i (ih h')
  | cons t i c c' e hc hm _ ih =>
    rw [List.append_assoc]
    exact DS.cons t i c c' e hc hm (ih h')

/-- A peer's micro-steps inside the device. -/
theorem DS.ofMS {t : Nat} {c : Core} {n : Nat} {es : List Ev} {c' : Core} {n' : Nat}
    (h : MS t c n es c' n') (i : Nat) : ∀ (cs : List Core), cs[i]? = some c →
    DS cs n (es.map (fun e => (t, i, e))) (cs.set i c') n' := by
  induction h with
  | refl c n =>
    intro cs hc
    have e : cs.set i c = cs := by
      apply List.ext_getElem?
      intro j
      rw [List.getElem?_set]
      by_cases hj : i = j
      · subst hj
        obtain ⟨h1, h2⟩ := List.getElem?_eq_some_iff.mp hc
        simp [h1, h2]
      · simp [hj]
    rw [e]
    exact DS.refl _ _
  | @cons c n e c1 es c2 n2 hm _ ih =>
    intro cs hc
    have hl := (List.getElem?_eq_some_iff.mp hc).1
    have h1 : (cs.set i c1)[i]? = some c1 := by simp [hl]
    have h2 := ih (cs.set i c1) h1
    rw [List.set_set] at h2
    rw [List.map_append]
    exact DS.cons t i c c1 e hc hm h2

/-! ## Well-formed pointers -/

/-- The three pointers are in range and name different slots. -/
structure CWf (c : Core) : Prop where
  len : c.slots.length = 3
  cur3 : ∀ i, c.cur = some i → i < 3
  prev3 : ∀ i, c.prev = some i → i < 3
  next3 : ∀ i, c.next = some i → i < 3
  cp : ∀ i, c.cur = some i → c.prev ≠ some i
  cn : ∀ i, c.cur = some i → c.next ≠ some i
  pn : ∀ i, c.prev = some i → c.next ≠ some i

theorem CWf.empty : CWf Core.empty := by
  refine ⟨rfl, ?_, ?_, ?_, ?_, ?_, ?_⟩ <;> intro i h <;> cases h

theorem pick_spec (c : Core) (h : CWf c) :
    c.pick < 3 ∧ c.cur ≠ some c.pick ∧ c.prev ≠ some c.pick := by
  unfold Core.pick
  by_cases h0 : c.cur ≠ some 0 ∧ c.prev ≠ some 0
  · rw [if_pos h0]; exact ⟨by decide, h0⟩
  rw [if_neg h0]
  by_cases h1 : c.cur ≠ some 1 ∧ c.prev ≠ some 1
  · rw [if_pos h1]; exact ⟨by decide, h1⟩
  rw [if_neg h1]
  by_cases h2 : c.cur ≠ some 2 ∧ c.prev ≠ some 2
  · rw [if_pos h2]; exact ⟨by decide, h2⟩
  exfalso
  cases hc : c.cur with
  | none =>
    rw [hc] at h0 h1
    cases hp : c.prev with
    | none => rw [hp] at h0; exact h0 ⟨by simp, by simp⟩
    | some j =>
      rw [hp] at h0 h1
      simp at h0 h1
      omega
  | some i =>
    rw [hc] at h0 h1 h2
    cases hp : c.prev with
    | none =>
      rw [hp] at h0 h1
      simp at h0 h1
      omega
    | some j =>
      rw [hp] at h0 h1 h2
      simp at h0 h1 h2
      omega

theorem CWf.setSlots {c : Core} (h : CWf c) (i : Nat) (k : KP) :
    CWf { c with slots := c.slots.set i k } :=
  ⟨by simp [h.len], h.cur3, h.prev3, h.next3, h.cp, h.cn, h.pn⟩

theorem CWf.dropNext {c : Core} (h : CWf c) : CWf c.dropNext := by
  unfold Core.dropNext
  split
  · refine ⟨by simp [h.len], h.cur3, h.prev3, ?_, h.cp, ?_, ?_⟩
    · intro i e; cases e
    · intro i _ e; cases e
    · intro i _ e; cases e
  · exact h

theorem dropNext_next (c : Core) : c.dropNext.next = none := by
  unfold Core.dropNext; split
  · rfl
  · assumption

theorem CWf.install {c : Core} (h : CWf c) (k : KP) : CWf (c.install k) := by
  have hd := h.dropNext
  have hn := dropNext_next c
  obtain ⟨p1, p2, p3⟩ := pick_spec _ hd
  unfold Core.install
  dsimp only
  split
  · refine ⟨by simp [hd.len], ?_, hd.cur3, ?_, ?_, ?_, ?_⟩
    · intro i e; cases e; exact p1
    · intro i e; rw [hn] at e; cases e
    · intro i e; cases e; exact p2
    · intro i _ e; rw [hn] at e; cases e
    · intro i _ e; rw [hn] at e; cases e
  · refine ⟨by simp [hd.len], hd.cur3, hd.prev3, ?_, hd.cp, ?_, ?_⟩
    · intro i e; cases e; exact p1
    · intro i e e'; cases e'; exact p2 e
    · intro i e e'; cases e'; exact p3 e

theorem CWf.promote {c : Core} (h : CWf c) (i : Nat) : CWf (c.promote i) := by
  unfold Core.promote
  split
  · next hn =>
    have key : ∀ d : Core, CWf d → d.cur = c.cur → CWf { d with prev := d.cur, cur := some i, next := none } := by
      intro d hd he
      refine ⟨hd.len, ?_, hd.cur3, ?_, ?_, ?_, ?_⟩
      · intro j e; cases e; exact h.next3 _ hn
      · intro j e; cases e
      · intro j e e'; cases e; rw [he] at e'; exact h.cn _ e' hn
      · intro j _ e; cases e
      · intro j _ e; cases e
    rcases c with ⟨cur, prev, next, slots⟩
    cases prev with
    | none => exact key _ h rfl
    | some j => exact key _ (h.setSlots j KP.zero) rfl
  · exact h

theorem CWf.mic {t n : Nat} {c : Core} {e : Option Ev} {c' : Core} (h : CWf c)
    (m : Mic t n c e c') : CWf c' := by
  cases m with
  | quiet => exact h
  | enc => exact h.setSlots _ _
  | invalidate => exact h.setSlots _ _
  | session => exact h.install _
  | clear => exact CWf.empty
  | refuse => exact h.setSlots _ _
  | accept => exact (h.setSlots _ _).promote _

/-! ## What happens to the slots -/

/-- A wiped slot. -/
def Wiped (k : KP) : Prop := k = KP.zero

theorem get_set {l : List KP} {i s : Nat} {k x : KP} (h : (l.set i k)[s]? = some x) :
    (s = i ∧ x = k) ∨ (s ≠ i ∧ l[s]? = some x) := by
  rw [List.getElem?_set] at h
  by_cases hs : i = s
  · subst hs
    rw [if_pos rfl] at h
    split at h
    · exact Or.inl ⟨rfl, (Option.some.inj h).symm⟩
    · cases h
  · rw [if_neg hs] at h
    exact Or.inr ⟨fun e => hs e.symm, h⟩

theorem dropNext_slots {c : Core} {s : Nat} {x : KP} (h : c.dropNext.slots[s]? = some x) :
    Wiped x ∨ (c.next ≠ some s ∧ c.slots[s]? = some x) := by
  unfold Core.dropNext at h
  cases hn : c.next with
  | none => rw [hn] at h; exact Or.inr ⟨by simp, h⟩
  | some i =>
    rw [hn] at h
    rcases get_set h with ⟨_, e⟩ | ⟨a, b⟩
    · exact Or.inl e
    · refine Or.inr ⟨?_, b⟩
      intro e
      exact a (Option.some.inj e).symm

theorem install_slots {c : Core} {k : KP} {s : Nat} {x : KP}
    (h : (c.install k).slots[s]? = some x) :
    (s = c.dropNext.pick ∧ x = k) ∨ Wiped x ∨ (s ≠ c.dropNext.pick ∧ c.slots[s]? = some x) := by
  have h' : (c.dropNext.slots.set c.dropNext.pick k)[s]? = some x := by
    unfold Core.install at h
    dsimp only at h
    split at h <;> exact h
  rcases get_set h' with e | ⟨a, b⟩
  · exact Or.inl e
  · rcases dropNext_slots b with w | ⟨_, w⟩
    · exact Or.inr (Or.inl w)
    · exact Or.inr (Or.inr ⟨a, w⟩)

theorem promote_slots {c : Core} {i s : Nat} {x : KP}
    (h : (c.promote i).slots[s]? = some x) : Wiped x ∨ c.slots[s]? = some x := by
  unfold Core.promote at h
  split at h
  · cases hp : c.prev with
    | none => rw [hp] at h; exact Or.inr h
    | some j =>
      rw [hp] at h
      rcases get_set h with ⟨_, e⟩ | ⟨_, b⟩
      · exact Or.inl e
      · exact Or.inr b
  · exact Or.inr h

/-! ## History predicates -/

/-- The counters accepted in session `sid`, newest first. -/
def accs (tr : List TEv) (sid : Nat) : List Nat :=
  tr.reverse.filterMap (fun e => match e with
    | (_, _, .accept s c) => if s = sid then some c else none
    | _ => none)

/-- The session an effect belongs to. -/
def evSid : TEv → Option Nat
  | (_, _, .enc s _ _ _ _) => some s
  | (_, _, .accept s _) => some s
  | (_, _, .session s _) => some s
  | _ => none

/-- What is promised of an effect, given everything before it. -/
def Promise (a : List TEv) : TEv → Prop
  | (t, i, .enc sid c pl _ _) =>
    (∃ t0 b, (t0, i, Ev.session sid b) ∈ a ∧ sub64 t t0 < rejectMs ∧
      (b = false → ∃ t1 c1, (t1, i, Ev.accept sid c1) ∈ a)) ∧
    c < rejectAfter ∧ (pl ≠ [] → c < rekeyMsgs) ∧
    (∀ t1 i1 c1 pl1 ip1 pt1, (t1, i1, Ev.enc sid c1 pl1 ip1 pt1) ∈ a → c1 < c)
  | (t, i, .accept sid c) =>
    (∃ t0 b, (t0, i, Ev.session sid b) ∈ a ∧ sub64 t t0 < rejectMs) ∧ c < rejectAfter ∧
    ∀ t1 i1, (t1, i1, Ev.accept sid c) ∉ a
  | (_, _, .session sid _) => ∀ e ∈ a, evSid e ≠ some sid
  | _ => True

/-- Every effect of a history keeps its promise. -/
def Ok (tr : List TEv) : Prop := ∀ a e b, tr = a ++ e :: b → Promise a e

theorem Ok.snoc {tr : List TEv} (h : Ok tr) {e : TEv} (he : Promise tr e) : Ok (tr ++ [e]) := by
  intro a x b hx
  rcases List.eq_nil_or_concat b with rfl | ⟨b', y, rfl⟩
  · have := List.append_inj' hx rfl
    obtain ⟨rfl, h2⟩ := this
    cases h2
    exact he
  · have hx' : tr ++ [e] = (a ++ x :: b') ++ [y] := by rw [hx]; simp
    have := (List.append_inj' hx' rfl).1
    exact h a x b' this

theorem Ok.nil : Ok [] := by
  intro a e b h
  cases a <;> cases h

/-- What a slot records about its session. -/
structure SlotInv (i n : Nat) (tr : List TEv) (k : KP) : Prop where
  le : k.sid ≤ n
  zero : k.sid = 0 → k.sValid = false ∧ k.rValid = false
  sess : k.sid ≠ 0 → (k.sBirth, i, Ev.session k.sid k.isInit) ∈ tr
  birth : k.sid ≠ 0 → k.rBirth = k.sBirth
  ctr : k.sid ≠ 0 → ∀ t1 i1 c1 pl ip pt, (t1, i1, Ev.enc k.sid c1 pl ip pt) ∈ tr → c1 < k.sCtr
  good : k.sid ≠ 0 → Good k.replay (accs tr k.sid)
  mem : k.sid ≠ 0 → ∀ t1 i1 c1, (t1, i1, Ev.accept k.sid c1) ∈ tr → i1 = i

theorem SlotInv.wiped (i n : Nat) (tr : List TEv) {k : KP} (h : Wiped k) : SlotInv i n tr k := by
  cases h
  exact ⟨Nat.zero_le _, fun _ => ⟨rfl, rfl⟩, fun c => absurd rfl c, fun c => absurd rfl c,
    fun c => absurd rfl c, fun c => absurd rfl c, fun c => absurd rfl c⟩

theorem accs_snoc (tr : List TEv) (e : TEv) (sid : Nat)
    (h : ∀ t i c, e ≠ (t, i, Ev.accept sid c)) : accs (tr ++ [e]) sid = accs tr sid := by
  unfold accs
  rw [List.reverse_append, List.reverse_singleton, List.singleton_append, List.filterMap_cons]
  split
  · rfl
  · next b hb =>
    exfalso
    split at hb
    · next t i s c =>
      split at hb
      · next hs => subst hs; exact h _ _ _ rfl
      · cases hb
    · cases hb

theorem accs_snoc_accept (tr : List TEv) (t i sid c : Nat) :
    accs (tr ++ [(t, i, Ev.accept sid c)]) sid = c :: accs tr sid := by
  unfold accs
  rw [List.reverse_append, List.reverse_singleton, List.singleton_append, List.filterMap_cons]
  simp

theorem mem_accs (tr : List TEv) (sid c : Nat) :
    c ∈ accs tr sid ↔ ∃ t i, (t, i, Ev.accept sid c) ∈ tr := by
  unfold accs
  rw [List.mem_filterMap]
  constructor
  · rintro ⟨e, he, h⟩
    rw [List.mem_reverse] at he
    split at h
    · next t i s c' =>
      split at h
      · next hs => subst hs; cases h; exact ⟨t, i, he⟩
      · cases h
    · cases h
  · rintro ⟨t, i, h⟩
    exact ⟨_, List.mem_reverse.mpr h, by simp⟩

/-- Slots not concerned by an effect keep their record. -/
theorem SlotInv.mono {i n n' : Nat} {tr : List TEv} {k : KP} (h : SlotInv i n tr k) (e : TEv)
    (hn : n ≤ n') (he : k.sid ≠ 0 → evSid e ≠ some k.sid) : SlotInv i n' (tr ++ [e]) k := by
  refine ⟨Nat.le_trans h.le hn, h.zero, fun hk => List.mem_append_left _ (h.sess hk), h.birth,
    ?_, ?_, ?_⟩
  · intro hk t1 i1 c1 pl ip pt hm
    rcases List.mem_append.mp hm with hm | hm
    · exact h.ctr hk _ _ _ _ _ _ hm
    · rw [List.mem_singleton] at hm
      exact absurd (by rw [← hm]; rfl) (he hk)
  · intro hk
    rw [accs_snoc]
    · exact h.good hk
    · intro t i c hh
      exact absurd (by rw [hh]; rfl) (he hk)
  · intro hk t1 i1 c1 hm
    rcases List.mem_append.mp hm with hm | hm
    · exact h.mem hk _ _ _ hm
    · rw [List.mem_singleton] at hm
      exact absurd (by rw [← hm]; rfl) (he hk)

/-- The invariant of all histories. -/
structure DInv (cs : List Core) (n : Nat) (tr : List TEv) : Prop where
  wf : ∀ (i : Nat) (c : Core), cs[i]? = some c → CWf c
  slot : ∀ (i : Nat) (c : Core) (s : Nat) (k : KP), cs[i]? = some c → c.slots[s]? = some k →
    SlotInv i n tr k
  conf : ∀ (i : Nat) (c : Core) (s : Nat) (k : KP), cs[i]? = some c → c.cur = some s →
    c.slots[s]? = some k → k.sid ≠ 0 → k.isInit = false →
    ∃ t1 c1, (t1, i, Ev.accept k.sid c1) ∈ tr
  dist : ∀ (i : Nat) (c : Core) (s : Nat) (k : KP) (i' : Nat) (c' : Core) (s' : Nat) (k' : KP),
    cs[i]? = some c → c.slots[s]? = some k → cs[i']? = some c' → c'.slots[s']? = some k' →
    k.sid = k'.sid → k.sid ≠ 0 → i = i' ∧ s = s'
  evs : ∀ e ∈ tr, ∀ s, evSid e = some s → s ≤ n
  ok : Ok tr

theorem cores_set {cs : List Core} {i j : Nat} {c' x : Core} (h : (cs.set i c')[j]? = some x) :
    (j = i ∧ x = c') ∨ (j ≠ i ∧ cs[j]? = some x) := by
  rw [List.getElem?_set] at h
  by_cases hs : i = j
  · subst hs
    rw [if_pos rfl] at h
    split at h
    · exact Or.inl ⟨rfl, (Option.some.inj h).symm⟩
    · cases h
  · rw [if_neg hs] at h
    exact Or.inr ⟨fun e => hs e.symm, h⟩

theorem SlotInv.monoOpt {i n n' : Nat} {tr : List TEv} {k : KP} (h : SlotInv i n tr k)
    (e : Option TEv) (hn : n ≤ n')
    (he : k.sid ≠ 0 → ∀ e1, e = some e1 → evSid e1 ≠ some k.sid) :
    SlotInv i n' (tr ++ e.toList) k := by
  cases e with
  | none =>
    rw [Option.toList_none, List.append_nil]
    exact ⟨Nat.le_trans h.le hn, h.zero, h.sess, h.birth, h.ctr, h.good, h.mem⟩
  | some e => exact h.mono e hn (fun hk => he hk e rfl)

/-- Changing one peer preserves the invariant if its new slots are accounted for. -/
theorem DInv.upd {cs : List Core} {n : Nat} {tr : List TEv} {i : Nat} {c c' : Core} {n' : Nat}
    {e : Option TEv} (s0 : Nat) (h : DInv cs n tr) (hc : cs[i]? = some c) (hn : n ≤ n')
    (hw : CWf c')
    (hsl : ∀ (s : Nat) (x : KP), c'.slots[s]? = some x → SlotInv i n' (tr ++ e.toList) x ∧
      (x.sid ≠ 0 → (x.sid = n + 1 ∧ s = s0) ∨
        ∃ x0 : KP, c.slots[s]? = some x0 ∧ x0.sid = x.sid))
    (hcf : ∀ (s : Nat) (k : KP), c'.cur = some s → c'.slots[s]? = some k → k.sid ≠ 0 →
      k.isInit = false → ∃ t1 c1, (t1, i, Ev.accept k.sid c1) ∈ tr ++ e.toList)
    (hev : ∀ e1, e = some e1 → ∀ sid, evSid e1 = some sid → sid ≠ 0 ∧ sid ≤ n' ∧
      ((∃ (s : Nat) (k : KP), c.slots[s]? = some k ∧ k.sid = sid) ∨ sid = n + 1))
    (hok : ∀ e1, e = some e1 → Promise tr e1) :
    DInv (cs.set i c') n' (tr ++ e.toList) := by
  refine ⟨?_, ?_, ?_, ?_, ?_, ?_⟩
  · intro j d hd
    rcases cores_set hd with ⟨_, rfl⟩ | ⟨_, hd⟩
    · exact hw
    · exact h.wf j d hd
  · intro j d s k hd hk
    rcases cores_set hd with ⟨rfl, rfl⟩ | ⟨hji, hd⟩
    · exact (hsl s k hk).1
    · apply (h.slot j d s k hd hk).monoOpt e hn
      intro hk0 e1 he1 hs
      obtain ⟨_, _, hh⟩ := hev e1 he1 _ hs
      rcases hh with ⟨s1, k1, hk1, hs1⟩ | hh
      · exact hji (h.dist j d s k i c s1 k1 hd hk hc hk1 hs1.symm hk0).1
      · have := (h.slot j d s k hd hk).le
        omega
  · intro j d s k hd hcur hk hk0 hki
    rcases cores_set hd with ⟨rfl, rfl⟩ | ⟨_, hd⟩
    · exact hcf s k hcur hk hk0 hki
    · obtain ⟨t1, c1, hm⟩ := h.conf j d s k hd hcur hk hk0 hki
      exact ⟨t1, c1, List.mem_append_left _ hm⟩
  · -- distinctness: reduce to old slots
    have cross : ∀ (s : Nat) (x : KP) (j : Nat) (d : Core) (s' : Nat) (k' : KP),
        c'.slots[s]? = some x → x.sid ≠ 0 → j ≠ i → cs[j]? = some d → d.slots[s']? = some k' →
        x.sid ≠ k'.sid := by
      intro s x j d s' k' hx hx0 hji hd hk' he
      rcases (hsl s x hx).2 hx0 with ⟨hnew, _⟩ | ⟨x0, h0, h1⟩
      · have := (h.slot j d s' k' hd hk').le
        omega
      · exact hji (h.dist i c s x0 j d s' k' hc h0 hd hk' (h1.trans he) (by rw [h1]; exact hx0)).1.symm
    intro j d s k j' d' s' k' hd hk hd' hk' he hk0
    rcases cores_set hd with ⟨rfl, rfl⟩ | ⟨hji, hd0⟩
    · rcases cores_set hd' with ⟨rfl, rfl⟩ | ⟨hji', hd'⟩
      · refine ⟨rfl, ?_⟩
        rcases (hsl s k hk).2 hk0 with ⟨a1, a2⟩ | ⟨x0, h0, h1⟩
        · rcases (hsl s' k' hk').2 (by rw [← he]; exact hk0) with ⟨b1, b2⟩ | ⟨y0, g0, g1⟩
          · rw [a2, b2]
          · have := (h.slot _ c s' y0 hc g0).le
            omega
        · rcases (hsl s' k' hk').2 (by rw [← he]; exact hk0) with ⟨b1, b2⟩ | ⟨y0, g0, g1⟩
          · have := (h.slot _ c s x0 hc h0).le
            omega
          · exact (h.dist _ c s x0 _ c s' y0 hc h0 hc g0 (by omega) (by omega)).2
      · exact absurd he (cross s k j' d' s' k' hk hk0 hji' hd' hk')
    · have hd2 := hd0
      rcases cores_set hd' with ⟨rfl, rfl⟩ | ⟨hji', hd'⟩
      · exact absurd he.symm (cross s' k' j d s k hk' (by rw [← he]; exact hk0) hji hd2 hk)
      · exact h.dist j d s k j' d' s' k' hd2 hk hd' hk' he hk0
  · intro x hx s hs
    rcases List.mem_append.mp hx with hx | hx
    · exact Nat.le_trans (h.evs x hx s hs) hn
    · rw [Option.mem_toList] at hx
      exact (hev x hx s hs).2.1
  · cases e with
    | none => rw [Option.toList_none, List.append_nil]; exact h.ok
    | some e1 => exact h.ok.snoc (hok e1 rfl)

theorem DInv.fresh {cs : List Core} {n : Nat} {tr : List TEv} (h : DInv cs n tr) (i : Nat) :
    DInv (cs.set i Core.empty) n tr := by
  cases hc : cs[i]? with
  | none =>
    have : cs.set i Core.empty = cs := by
      apply List.set_eq_of_length_le
      rw [List.getElem?_eq_none_iff] at hc
      exact hc
    rw [this]; exact h
  | some c =>
    have := DInv.upd (e := none) (n' := n) 0 h hc (Nat.le_refl _) CWf.empty
      (by
        intro s x hx
        have hz : Wiped x := by
          have : x ∈ List.replicate 3 KP.zero := List.mem_of_getElem? hx
          exact (List.mem_replicate.mp this).2
        refine ⟨SlotInv.wiped _ _ _ hz, ?_⟩
        intro h0; rw [hz] at h0; exact absurd rfl h0)
      (by intro s k e; cases e) (by intro e1 he; cases he) (by intro e1 he; cases he)
    rwa [Option.toList_none, List.append_nil] at this

theorem promise_quiet {tr : List TEv} {t i : Nat} {e : Ev} (h : Ev.quiet e) :
    Promise tr (t, i, e) := by
  cases e <;> first | trivial | exact absurd h id

theorem evSid_quiet {t i : Nat} {e : Ev} (h : Ev.quiet e) : evSid (t, i, e) = none := by
  cases e <;> first | rfl | exact absurd h id

theorem DInv.quiet {cs : List Core} {n : Nat} {tr : List TEv} (h : DInv cs n tr) (t i : Nat)
    (e : Ev) (hq : Ev.quiet e) : DInv cs n (tr ++ [(t, i, e)]) := by
  refine ⟨h.wf, ?_, ?_, h.dist, ?_, h.ok.snoc (promise_quiet hq)⟩
  · intro j c s k hc hk
    exact (h.slot j c s k hc hk).mono _ (Nat.le_refl _) (by intro _ c; rw [evSid_quiet hq] at c; cases c)
  · intro j c s k hc hcur hk h0 hi
    obtain ⟨t1, c1, hm⟩ := h.conf j c s k hc hcur hk h0 hi
    exact ⟨t1, c1, List.mem_append_left _ hm⟩
  · intro x hx s hs
    rcases List.mem_append.mp hx with hx | hx
    · exact h.evs x hx s hs
    · rw [List.mem_singleton] at hx
      rw [hx, evSid_quiet hq] at hs; cases hs

end Wolf.Wg
