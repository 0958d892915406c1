import Verif.Posix.Fds
/-! # C110: proofs -/
namespace Wolf.Posix.Fds

theorem put_eq {α β : Type} [DecidableEq α] (f : α → β) (a : α) (b : β) : put f a b a = b := if_pos rfl

theorem put_ne {α β : Type} [DecidableEq α] (f : α → β) {a x : α} (b : β) (h : x ≠ a) : put f a b x = f x := if_neg h

structure Inv (w : W) (o : Nat → Option Thing) : Prop where
  lt : ∀ p e, w.tab p = some e → p < maxPublic
  ent : ∀ p e, w.tab p = some e → ∃ id, o p = some (.sock id) ∧ w.who e.slot = some id ∧ w.host p ≠ none ∧ w.host e.w ≠ none ∧
    w.back e.slot = some p ∧ o e.w = none ∧ w.tab e.w = none
  sock : ∀ p id, o p = some (.sock id) → ∃ e, w.tab p = some e
  file : ∀ p id, o p = some (.file id) → w.host p = some id ∧ w.tab p = none
  host : ∀ x, w.host x ≠ none → (∃ id, o x = some (.file id)) ∨ (∃ e, w.tab x = some e) ∨ ∃ p e, w.tab p = some e ∧ e.w = x
  wr : ∀ p q e f, w.tab p = some e → w.tab q = some f → e.w = f.w → p = q
  back : ∀ s p, w.back s = some p → ∃ e, w.tab p = some e ∧ e.slot = s
  inj : ∀ s t id, w.who s = some id → w.who t = some id → s = t
  fresh : ∀ s id, w.who s = some id → id < w.next

theorem start_inv (cap : Nat → Nat) : Inv (start cap) (fun _ => none) :=
  ⟨nofun, nofun, nofun, nofun, (fun x h => absurd rfl h), nofun, nofun, nofun, nofun⟩

theorem freeSlot_spec {w : W} {fam : Nat} {s : Slot} (h : freeSlot w fam = some s) : s.fam = fam ∧ w.who s = none := by
  unfold freeSlot at h
  rw [Option.map_eq_some_iff] at h
  obtain ⟨i, hi, rfl⟩ := h
  have := List.find?_some hi
  exact ⟨rfl, by simpa using this⟩

theorem entry_tab {w : W} {o : Nat → Option Thing} (h : Inv w o) (p : Nat) : entry w p = w.tab p := by
  unfold entry
  split
  · rfl
  · rename_i hp
    cases ht : w.tab p with
    | none => rfl
    | some e => exact absurd (h.lt p e ht) hp

theorem next_inv {w : W} {o : Nat → Option Thing} (h : Inv w o) (n : Nat) (hn : w.next ≤ n) : Inv { w with next := n } o :=
  { h with fresh := fun s id hs => Nat.lt_of_lt_of_le (h.fresh s id hs) hn }

theorem create_inv {w : W} {o : Nat → Option Thing} (h : Inv w o) (fam : Nat) (pipe : Option (Nat × Nat))
    (hl : ∀ r x, pipe = some (r, x) → r ≠ x ∧ w.host r = none ∧ w.host x = none) :
    ((create w fam pipe).2 = .fail ∧ Inv (create w fam pipe).1 o) ∨
    ∃ r id, (create w fam pipe).2 = .fd r id ∧ Inv (create w fam pipe).1 (put o r (some (.sock id))) := by
  unfold create
  cases hs : freeSlot w fam with
  | none => exact Or.inl ⟨rfl, h⟩
  | some s =>
    dsimp only
    have hfree := (freeSlot_spec hs).2
    cases hpipe : pipe with
    | none => exact Or.inl ⟨rfl, next_inv h _ (by omega)⟩
    | some rx =>
      obtain ⟨r, x⟩ := rx
      dsimp only
      split
      · exact Or.inl ⟨rfl, next_inv h _ (by omega)⟩
      · rename_i hc
        obtain ⟨hrx, hr, hx⟩ := hl r x hpipe
        have hc1 : r < maxPublic := by
          refine Nat.lt_of_not_ge fun hge => hc (Or.inl hge)
        have hrt : w.tab r = none := by
          cases ht : w.tab r with
          | none => rfl
          | some e => exact absurd (Or.inr (by rw [ht]; rfl)) hc
        -- nothing refers to the new numbers
        have nt : ∀ p e, w.tab p = some e → p ≠ r ∧ p ≠ x ∧ e.w ≠ r ∧ e.w ≠ x ∧ e.slot ≠ s := by
          intro p e hp
          obtain ⟨id, -, h2, h3, h4, -⟩ := h.ent p e hp
          refine ⟨?_, ?_, ?_, ?_, ?_⟩
          · rintro rfl; rw [hr] at h3; exact h3 rfl
          · rintro rfl; rw [hx] at h3; exact h3 rfl
          · intro e1; rw [e1, hr] at h4; exact h4 rfl
          · intro e1; rw [e1, hx] at h4; exact h4 rfl
          · intro e1; rw [e1, hfree] at h2; cases h2
        have hxt : w.tab x = none := by
          cases ht : w.tab x with
          | none => rfl
          | some e => exact absurd rfl (nt x e ht).2.1
        have hox : o x = none := by
          cases ho : o x with
          | none => rfl
          | some t =>
            cases t with
            | sock id => obtain ⟨e, he⟩ := h.sock x id ho; rw [hxt] at he; cases he
            | file id => have := (h.file x id ho).1; rw [hx] at this; cases this
        refine Or.inr ⟨r, w.next, rfl, ?_⟩
        have tabc : ∀ {p e}, put w.tab r (some ⟨s, x⟩) p = some e → (p = r ∧ e = ⟨s, x⟩) ∨ (p ≠ r ∧ w.tab p = some e) := by
          intro p e hp
          by_cases hpr : p = r
          · subst hpr
            rw [put_eq] at hp
            exact Or.inl ⟨rfl, (Option.some.inj hp).symm⟩
          · rw [put_ne _ _ hpr] at hp
            exact Or.inr ⟨hpr, hp⟩
        refine ⟨?_, ?_, ?_, ?_, ?_, ?_, ?_, ?_, ?_⟩
        · intro p e hp
          rcases tabc hp with ⟨rfl, -⟩ | ⟨-, hp⟩
          · exact hc1
          · exact h.lt p e hp
        · intro p e hp
          rcases tabc hp with ⟨e1, e2⟩ | ⟨hpr, hp⟩
          · subst e1; subst e2
            refine ⟨w.next, put_eq _ _ _, put_eq _ _ _, ?_, ?_, put_eq _ _ _, ?_, ?_⟩
            · show put (put w.host p _) x _ p ≠ none
              rw [put_ne _ _ hrx, put_eq]; exact nofun
            · show put (put w.host p _) x _ x ≠ none
              rw [put_eq]; exact nofun
            · show put o p _ x = none
              rw [put_ne _ _ (Ne.symm hrx)]; exact hox
            · show put w.tab p _ x = none
              rw [put_ne _ _ (Ne.symm hrx)]; exact hxt
          · obtain ⟨n1, n2, n3, n4, n5⟩ := nt p e hp
            obtain ⟨id, q1, q2, q3, q4, q5, q6, q7⟩ := h.ent p e hp
            refine ⟨id, ?_, ?_, ?_, ?_, ?_, ?_, ?_⟩
            · rw [put_ne _ _ hpr]; exact q1
            · show put w.who s _ e.slot = _
              rw [put_ne _ _ n5]; exact q2
            · show put (put w.host r _) x _ p ≠ none
              rw [put_ne _ _ n2, put_ne _ _ n1]; exact q3
            · show put (put w.host r _) x _ e.w ≠ none
              rw [put_ne _ _ n4, put_ne _ _ n3]; exact q4
            · show put w.back s _ e.slot = _
              rw [put_ne _ _ n5]; exact q5
            · rw [put_ne _ _ n3]; exact q6
            · show put w.tab r _ e.w = none
              rw [put_ne _ _ n3]; exact q7
        · intro p id hp
          by_cases hpr : p = r
          · exact ⟨⟨s, x⟩, by rw [hpr]; exact put_eq _ _ _⟩
          · rw [put_ne _ _ hpr] at hp
            obtain ⟨e, he⟩ := h.sock p id hp
            exact ⟨e, by show put w.tab r _ p = _; rw [put_ne _ _ hpr]; exact he⟩
        · intro p id hp
          by_cases hpr : p = r
          · rw [hpr, put_eq] at hp; cases hp
          · rw [put_ne _ _ hpr] at hp
            obtain ⟨q1, q2⟩ := h.file p id hp
            have hpx : p ≠ x := by rintro rfl; rw [hx] at q1; cases q1
            refine ⟨?_, ?_⟩
            · show put (put w.host r _) x _ p = _
              rw [put_ne _ _ hpx, put_ne _ _ hpr]; exact q1
            · show put w.tab r _ p = none
              rw [put_ne _ _ hpr]; exact q2
        · intro y hy
          by_cases hyr : y = r
          · exact Or.inr (Or.inl ⟨⟨s, x⟩, by rw [hyr]; exact put_eq _ _ _⟩)
          · by_cases hyx : y = x
            · exact Or.inr (Or.inr ⟨r, ⟨s, x⟩, put_eq _ _ _, hyx.symm⟩)
            · have hy : put (put w.host r (some (w.next + 1))) x (some (w.next + 2)) y ≠ none := hy
              rw [put_ne _ _ hyx, put_ne _ _ hyr] at hy
              rcases h.host y hy with ⟨id, q⟩ | ⟨e, q⟩ | ⟨p, e, q1, q2⟩
              · exact Or.inl ⟨id, by rw [put_ne _ _ hyr]; exact q⟩
              · exact Or.inr (Or.inl ⟨e, by show put w.tab r _ y = _; rw [put_ne _ _ hyr]; exact q⟩)
              · exact Or.inr (Or.inr ⟨p, e, by show put w.tab r _ p = _; rw [put_ne _ _ (nt p e q1).1]; exact q1, q2⟩)
        · intro p q e f hp hq hw
          rcases tabc hp with ⟨a1, a2⟩ | ⟨a1, a2⟩ <;> rcases tabc hq with ⟨b1, b2⟩ | ⟨b1, b2⟩
          · exact a1.trans b1.symm
          · rw [a2] at hw; exact absurd hw.symm (nt q f b2).2.2.2.1
          · rw [b2] at hw; exact absurd hw (nt p e a2).2.2.2.1
          · exact h.wr p q e f a2 b2 hw
        · intro t p hp
          by_cases ht : t = s
          · subst ht
            have hp : put w.back t (some r) t = some p := hp
            rw [put_eq] at hp
            cases hp
            exact ⟨_, put_eq _ _ _, rfl⟩
          · have hp : put w.back s (some r) t = some p := hp
            rw [put_ne _ _ ht] at hp
            obtain ⟨e, q1, q2⟩ := h.back t p hp
            exact ⟨e, by show put w.tab r _ p = _; rw [put_ne _ _ (nt p e q1).1]; exact q1, q2⟩
        · intro t u id ht hu
          have ht : put w.who s (some w.next) t = some id := ht
          have hu : put w.who s (some w.next) u = some id := hu
          by_cases h1 : t = s <;> by_cases h2 : u = s
          · rw [h1, h2]
          · rw [h1, put_eq] at ht
            rw [put_ne _ _ h2] at hu
            cases ht
            exact absurd (h.fresh u _ hu) (Nat.lt_irrefl _)
          · rw [h2, put_eq] at hu
            rw [put_ne _ _ h1] at ht
            cases hu
            exact absurd (h.fresh t _ ht) (Nat.lt_irrefl _)
          · rw [put_ne _ _ h1] at ht
            rw [put_ne _ _ h2] at hu
            exact h.inj t u id ht hu
        · intro t id ht
          have ht : put w.who s (some w.next) t = some id := ht
          show id < w.next + 3
          by_cases h1 : t = s
          · rw [h1, put_eq] at ht; cases ht; omega
          · rw [put_ne _ _ h1] at ht
            have := h.fresh t id ht
            omega

theorem close_sock_inv {w : W} {o : Nat → Option Thing} (h : Inv w o) {p : Nat} {e : Ent} (hp : w.tab p = some e) (gone : Bool) :
    Inv { w with host := put (put w.host p none) e.w none, back := put w.back e.slot none, tab := put w.tab p none,
                 who := if gone then put w.who e.slot none else w.who } (put o p none) := by
  obtain ⟨id0, e1, e2, e3, e4, e5, e6, e7⟩ := h.ent p e hp
  have hpw : p ≠ e.w := by intro hh; rw [← hh, hp] at e7; cases e7
  have tabc : ∀ {q f}, put w.tab p none q = some f → q ≠ p ∧ w.tab q = some f := by
    intro q f hq
    by_cases hqp : q = p
    · rw [hqp, put_eq] at hq; cases hq
    · rw [put_ne _ _ hqp] at hq; exact ⟨hqp, hq⟩
  have whoc : ∀ {t id}, (if gone then put w.who e.slot none else w.who) t = some id → w.who t = some id := by
    intro t id ht
    split at ht
    · by_cases hts : t = e.slot
      · rw [hts, put_eq] at ht; cases ht
      · rw [put_ne _ _ hts] at ht; exact ht
    · exact ht
  have sd : ∀ {q f}, q ≠ p → w.tab q = some f → f.slot ≠ e.slot := by
    intro q f hqp hq hs
    obtain ⟨-, -, -, -, -, b, -⟩ := h.ent q f hq
    rw [hs, e5] at b
    exact hqp (Option.some.inj b).symm
  refine ⟨?_, ?_, ?_, ?_, ?_, ?_, ?_, ?_, ?_⟩
  · intro q f hq; exact h.lt q f (tabc hq).2
  · intro q f hq
    obtain ⟨hqp, hq⟩ := tabc hq
    obtain ⟨id, q1, q2, q3, q4, q5, q6, q7⟩ := h.ent q f hq
    have hqw : q ≠ e.w := by rintro rfl; rw [e7] at hq; cases hq
    have hfp : f.w ≠ p := by intro hh; rw [hh, hp] at q7; cases q7
    have hfw : f.w ≠ e.w := fun hh => hqp (h.wr q p f e hq hp hh)
    refine ⟨id, ?_, ?_, ?_, ?_, ?_, ?_, ?_⟩
    · rw [put_ne _ _ hqp]; exact q1
    · show (if gone then put w.who e.slot none else w.who) f.slot = _
      split
      · rw [put_ne _ _ (sd hqp hq)]; exact q2
      · exact q2
    · show put (put w.host p none) e.w none q ≠ none
      rw [put_ne _ _ hqw, put_ne _ _ hqp]; exact q3
    · show put (put w.host p none) e.w none f.w ≠ none
      rw [put_ne _ _ hfw, put_ne _ _ hfp]; exact q4
    · show put w.back e.slot none f.slot = _
      rw [put_ne _ _ (sd hqp hq)]; exact q5
    · rw [put_ne _ _ hfp]; exact q6
    · show put w.tab p none f.w = none
      rw [put_ne _ _ hfp]; exact q7
  · intro q id hq
    by_cases hqp : q = p
    · rw [hqp, put_eq] at hq; cases hq
    · rw [put_ne _ _ hqp] at hq
      obtain ⟨f, hf⟩ := h.sock q id hq
      exact ⟨f, by show put w.tab p none q = _; rw [put_ne _ _ hqp]; exact hf⟩
  · intro q id hq
    by_cases hqp : q = p
    · rw [hqp, put_eq] at hq; cases hq
    · rw [put_ne _ _ hqp] at hq
      obtain ⟨q1, q2⟩ := h.file q id hq
      have hqw : q ≠ e.w := by rintro rfl; rw [e6] at hq; cases hq
      refine ⟨?_, ?_⟩
      · show put (put w.host p none) e.w none q = _
        rw [put_ne _ _ hqw, put_ne _ _ hqp]; exact q1
      · show put w.tab p none q = _
        rw [put_ne _ _ hqp]; exact q2
  · intro x hx
    have hx : put (put w.host p none) e.w none x ≠ none := hx
    by_cases hxw : x = e.w
    · rw [hxw, put_eq] at hx; exact absurd rfl hx
    · rw [put_ne _ _ hxw] at hx
      by_cases hxp : x = p
      · rw [hxp, put_eq] at hx; exact absurd rfl hx
      · rw [put_ne _ _ hxp] at hx
        rcases h.host x hx with ⟨id, q⟩ | ⟨f, q⟩ | ⟨q, f, q1, q2⟩
        · exact Or.inl ⟨id, by rw [put_ne _ _ hxp]; exact q⟩
        · exact Or.inr (Or.inl ⟨f, by show put w.tab p none x = _; rw [put_ne _ _ hxp]; exact q⟩)
        · have hqp : q ≠ p := by
            rintro rfl
            rw [hp] at q1
            cases q1
            exact hxw q2.symm
          exact Or.inr (Or.inr ⟨q, f, by show put w.tab p none q = _; rw [put_ne _ _ hqp]; exact q1, q2⟩)
  · intro q r f g hq hr; exact h.wr q r f g (tabc hq).2 (tabc hr).2
  · intro s q hq
    have hq : put w.back e.slot none s = some q := hq
    by_cases hs : s = e.slot
    · rw [hs, put_eq] at hq; cases hq
    · rw [put_ne _ _ hs] at hq
      obtain ⟨f, q1, q2⟩ := h.back s q hq
      have hqp : q ≠ p := by
        rintro rfl
        rw [hp] at q1
        cases q1
        exact hs q2.symm
      exact ⟨f, by show put w.tab p none q = _; rw [put_ne _ _ hqp]; exact q1, q2⟩
  · intro s t id hs ht; exact h.inj s t id (whoc hs) (whoc ht)
  · intro s id hs; exact h.fresh s id (whoc hs)

/-- A number that stands for a file is closed. -/
theorem close_file_inv {w : W} {o : Nat → Option Thing} (h : Inv w o) {p id : Nat} (hp : o p = some (.file id)) :
    Inv { w with host := put w.host p none } (put o p none) := by
  obtain ⟨f1, f2⟩ := h.file p id hp
  have hnp : ∀ {q e}, w.tab q = some e → q ≠ p ∧ e.w ≠ p := by
    intro q e hq
    obtain ⟨-, -, -, -, -, -, q6, -⟩ := h.ent q e hq
    refine ⟨?_, ?_⟩
    · rintro rfl; rw [f2] at hq; cases hq
    · intro hh; rw [hh, hp] at q6; cases q6
  refine { h with ent := ?_, sock := ?_, file := ?_, host := ?_ }
  · intro q e hq
    obtain ⟨n1, n2⟩ := hnp hq
    obtain ⟨id', q1, q2, q3, q4, q5, q6, q7⟩ := h.ent q e hq
    refine ⟨id', by rw [put_ne _ _ n1]; exact q1, q2, ?_, ?_, q5, by rw [put_ne _ _ n2]; exact q6, q7⟩
    · show put w.host p none q ≠ none
      rw [put_ne _ _ n1]; exact q3
    · show put w.host p none e.w ≠ none
      rw [put_ne _ _ n2]; exact q4
  · intro q id' hq
    by_cases hqp : q = p
    · rw [hqp, put_eq] at hq; cases hq
    · rw [put_ne _ _ hqp] at hq; exact h.sock q id' hq
  · intro q id' hq
    by_cases hqp : q = p
    · rw [hqp, put_eq] at hq; cases hq
    · rw [put_ne _ _ hqp] at hq
      exact ⟨by show put w.host p none q = _; rw [put_ne _ _ hqp]; exact (h.file q id' hq).1, (h.file q id' hq).2⟩
  · intro x hx
    have hx : put w.host p none x ≠ none := hx
    by_cases hxp : x = p
    · rw [hxp, put_eq] at hx; exact absurd rfl hx
    · rw [put_ne _ _ hxp] at hx
      rcases h.host x hx with ⟨id', q⟩ | q | q
      · exact Or.inl ⟨id', by rw [put_ne _ _ hxp]; exact q⟩
      · exact Or.inr (Or.inl q)
      · exact Or.inr (Or.inr q)

theorem open_inv {w : W} {o : Nat → Option Thing} (h : Inv w o) {p : Nat} (hp : w.host p = none) :
    Inv { w with host := put w.host p (some w.next), next := w.next + 1 } (put o p (some (.file w.next))) := by
  have hnp : ∀ {q e}, w.tab q = some e → q ≠ p ∧ e.w ≠ p := by
    intro q e hq
    obtain ⟨-, -, -, q3, q4, -⟩ := h.ent q e hq
    refine ⟨?_, ?_⟩
    · rintro rfl; exact q3 hp
    · intro hh; rw [hh] at q4; exact q4 hp
  refine { h with ent := ?_, sock := ?_, file := ?_, host := ?_, fresh := ?_ }
  · intro q e hq
    obtain ⟨n1, n2⟩ := hnp hq
    obtain ⟨id', q1, q2, q3, q4, q5, q6, q7⟩ := h.ent q e hq
    refine ⟨id', by rw [put_ne _ _ n1]; exact q1, q2, ?_, ?_, q5, by rw [put_ne _ _ n2]; exact q6, q7⟩
    · show put w.host p _ q ≠ none
      rw [put_ne _ _ n1]; exact q3
    · show put w.host p _ e.w ≠ none
      rw [put_ne _ _ n2]; exact q4
  · intro q id' hq
    by_cases hqp : q = p
    · rw [hqp, put_eq] at hq; cases hq
    · rw [put_ne _ _ hqp] at hq; exact h.sock q id' hq
  · intro q id' hq
    by_cases hqp : q = p
    · subst hqp
      rw [put_eq] at hq
      cases hq
      refine ⟨put_eq _ _ _, ?_⟩
      cases ht : w.tab q with
      | none => rfl
      | some e => exact absurd rfl (hnp ht).1
    · rw [put_ne _ _ hqp] at hq
      exact ⟨by show put w.host p _ q = _; rw [put_ne _ _ hqp]; exact (h.file q id' hq).1, (h.file q id' hq).2⟩
  · intro x hx
    have hx : put w.host p (some w.next) x ≠ none := hx
    by_cases hxp : x = p
    · exact Or.inl ⟨w.next, by rw [hxp]; exact put_eq _ _ _⟩
    · rw [put_ne _ _ hxp] at hx
      rcases h.host x hx with ⟨id', q⟩ | q | q
      · exact Or.inl ⟨id', by rw [put_ne _ _ hxp]; exact q⟩
      · exact Or.inr (Or.inl q)
      · exact Or.inr (Or.inr q)
  · intro s id hs
    have := h.fresh s id hs
    show id < w.next + 1
    omega

theorem die_inv {w : W} {o : Nat → Option Thing} (h : Inv w o) {s : Slot} (hs : ∀ p e, w.tab p = some e → e.slot ≠ s) :
    Inv { w with who := put w.who s none } o := by
  have whoc : ∀ {t id}, put w.who s none t = some id → w.who t = some id := by
    intro t id ht
    by_cases hts : t = s
    · rw [hts, put_eq] at ht; cases ht
    · rw [put_ne _ _ hts] at ht; exact ht
  refine { h with ent := ?_, inj := fun s t id h1 h2 => h.inj s t id (whoc h1) (whoc h2), fresh := fun s id h1 => h.fresh s id (whoc h1) }
  intro p e hp
  obtain ⟨id', q1, q2, q⟩ := h.ent p e hp
  exact ⟨id', q1, by show put w.who s none e.slot = _; rw [put_ne _ _ (hs p e hp)]; exact q2, q⟩

theorem step_inv {w : W} {o : Nat → Option Thing} (h : Inv w o) (op : Op) (hl : Legal w o op) (ha : Apart w o op) :
    Inv (step w op).1 (ownStep o (op, (step w op).2)) := by
  cases op with
  | socket fam pipe =>
    show Inv (create w fam pipe).1 (ownStep o (.socket fam pipe, (create w fam pipe).2))
    rcases create_inv h fam pipe hl with ⟨h1, h2⟩ | ⟨r, id, h1, h2⟩
    · rw [h1]; exact h2
    · rw [h1]; exact h2
  | accept p pipe =>
    show Inv (match entry w p with | none => _ | some e => _ : W × Out).1 (ownStep o (.accept p pipe, (match entry w p with | none => _ | some e => _ : W × Out).2))
    cases he : entry w p with
    | none => exact h
    | some e =>
      dsimp only
      rcases create_inv h e.slot.fam pipe hl.2 with ⟨h1, h2⟩ | ⟨r, id, h1, h2⟩
      · rw [h1]; exact h2
      · rw [h1]; exact h2
  | use p =>
    show Inv (match entry w p with | none => _ | some e => _ : W × Out).1 o
    split <;> exact h
  | close p gone =>
    show Inv (match entry w p with | none => _ | some e => _ : W × Out).1 (put o p none)
    cases he : entry w p with
    | none =>
      dsimp only
      rw [entry_tab h] at he
      cases ho : o p with
      | none => exact absurd ho hl
      | some t =>
        cases t with
        | sock id => obtain ⟨e, q⟩ := h.sock p id ho; rw [he] at q; cases q
        | file id => exact close_file_inv h ho
    | some e =>
      rw [entry_tab h] at he
      exact close_sock_inv h he gone
  | «open» p => exact open_inv h hl
  | die s => exact die_inv h ha
  | event s => exact h
  | xuse p => exact h
  | xclose p =>
    obtain ⟨id, hid⟩ := ha
    exact close_file_inv h hid

theorem run_inv : ∀ (l : List Op) {w : W} {es : List (Op × Out)}, Inv w (own es) → All Legal w (own es) l → All Apart w (own es) l →
    Inv (run w l).1 (own (es ++ (run w l).2)) := by
  intro l
  induction l with
  | nil => intro w es h _ _; rw [show (run w []).2 = [] from rfl, List.append_nil]; exact h
  | cons op l ih =>
    intro w es h hl ha
    have e : own (es ++ [(op, (step w op).2)]) = ownStep (own es) (op, (step w op).2) := by
      unfold own; rw [List.foldl_append]; rfl
    have h' := step_inv h op hl.1 ha.1
    rw [← e] at h'
    have := ih h' (by rw [e]; exact hl.2) (by rw [e]; exact ha.2)
    rw [List.append_assoc] at this
    exact this

/-! ## The theorems -/

/-- **C110, partial.** After every history of the application and the stack in which the stack frees no socket under an open descriptor and other
threads keep off the sockets: a call on a number acts on what the number stands for, a socket of the stack or an object of the host; an event of a
socket wakes the descriptor that stands for it; and the host's table holds nothing but the application's files and two pipe ends per open socket.
Missing: sockets freed by the stack and other threads (`freed_slot_shared`, `other_threads_bypass`, `foreign_close_hijack`). -/
theorem fd_exact_partial (cap : Nat → Nat) (l : List Op) (hl : All Legal (start cap) (fun _ => none) l) (ha : All Apart (start cap) (fun _ => none) l)
    (w : W) (es : List (Op × Out)) (hr : (w, es) = run (start cap) l) :
    (∀ p id, own es p = some (.sock id) → (step w (.use p)).2 = .sock (some id) ∧ ∀ g, (step w (.close p g)).2 = .sock (some id)) ∧
    (∀ p id, own es p = some (.file id) → (step w (.use p)).2 = .host (some id) ∧ ∀ g, (step w (.close p g)).2 = .host (some id)) ∧
    (∀ s p id, w.who s = some id → own es p = some (.sock id) → (step w (.event s)).2 = .wakes (some p)) ∧
    (∀ s id, w.who s = some id → (∀ p, own es p ≠ some (.sock id)) → (step w (.event s)).2 = .wakes none) ∧
    (∀ x, w.host x ≠ none → (∃ t, own es x = some t) ∨ ∃ p e, w.tab p = some e ∧ e.w = x ∧ ∃ id, own es p = some (.sock id)) := by
  have h : Inv w (own es) := by
    have := run_inv l (es := []) (start_inv cap) hl ha
    rw [← hr] at this
    exact this
  have wake : ∀ s, (step w (.event s)).2 = .wakes (w.back s) := by
    intro s
    show Out.wakes (match w.back s with | none => none | some p => if (entry w p).isSome then some p else none) = _
    cases hb : w.back s with
    | none => rfl
    | some p =>
      obtain ⟨e, he, -⟩ := h.back s p hb
      dsimp only
      rw [entry_tab h, he]
      rfl
  have sk : ∀ p id, own es p = some (.sock id) → ∃ e, entry w p = some e ∧ w.who e.slot = some id ∧ w.back e.slot = some p := by
    intro p id hp
    obtain ⟨e, he⟩ := h.sock p id hp
    obtain ⟨id', q1, q2, -, -, q5, -⟩ := h.ent p e he
    rw [hp] at q1
    cases q1
    exact ⟨e, by rw [entry_tab h]; exact he, q2, q5⟩
  refine ⟨?_, ?_, ?_, ?_, ?_⟩
  · intro p id hp
    obtain ⟨e, e1, e2, -⟩ := sk p id hp
    constructor
    · show (match entry w p with | none => _ | some e => _ : W × Out).2 = _
      rw [e1]
      exact congrArg Out.sock e2
    · intro g
      show (match entry w p with | none => _ | some e => _ : W × Out).2 = _
      rw [e1]
      exact congrArg Out.sock e2
  · intro p id hp
    obtain ⟨f1, f2⟩ := h.file p id hp
    have e1 : entry w p = none := by rw [entry_tab h]; exact f2
    constructor
    · show (match entry w p with | none => _ | some e => _ : W × Out).2 = _
      rw [e1]
      exact congrArg Out.host f1
    · intro g
      show (match entry w p with | none => _ | some e => _ : W × Out).2 = _
      rw [e1]
      exact congrArg Out.host f1
  · intro s p id hs hp
    obtain ⟨e, -, e2, e3⟩ := sk p id hp
    have := h.inj s e.slot id hs e2
    rw [wake, this, e3]
  · intro s id hs hno
    rw [wake]
    cases hb : w.back s with
    | none => rfl
    | some p =>
      obtain ⟨e, he, hes⟩ := h.back s p hb
      obtain ⟨id', q1, q2, -⟩ := h.ent p e he
      rw [hes, hs] at q2
      cases q2
      exact absurd q1 (hno p)
  · intro x hx
    rcases h.host x hx with ⟨id, q⟩ | ⟨e, q⟩ | ⟨p, e, q1, q2⟩
    · exact Or.inl ⟨_, q⟩
    · obtain ⟨id, q1, -⟩ := h.ent x e q
      exact Or.inl ⟨_, q1⟩
    · obtain ⟨id, q3, -⟩ := h.ent p e q1
      exact Or.inr ⟨p, e, q1, q2, id, q3⟩

/-- No descriptor leaks: when the application has closed every socket, the host has only its files left open. -/
theorem no_leak (cap : Nat → Nat) (l : List Op) (hl : All Legal (start cap) (fun _ => none) l) (ha : All Apart (start cap) (fun _ => none) l)
    (w : W) (es : List (Op × Out)) (hr : (w, es) = run (start cap) l) (hc : ∀ p id, own es p ≠ some (.sock id)) :
    ∀ x, w.host x ≠ none → ∃ id, own es x = some (.file id) := by
  intro x hx
  rcases (fd_exact_partial cap l hl ha w es hr).2.2.2.2 x hx with ⟨t, ht⟩ | ⟨p, e, -, -, id, q⟩
  · cases t with
    | sock id => exact absurd ht (hc x id)
    | file id => exact ⟨id, ht⟩
  · exact absurd q (hc p id)

/-- Four TCP slots, two of the other kinds. -/
def caps : Nat → Nat := fun f => if f = 0 then 4 else 2

/-- **Finding** (`freed_slot_shared`): connection 0 on descriptor 3 is reset by its peer, the stack frees the slot, and the next socket gets it as
descriptor 5. From then on calls on 3 act on the new socket, and closing 3 closes it and takes away its wake-ups: a call waiting on 5 sleeps for ever. -/
theorem freed_slot_shared :
    let r := run (start caps) [.socket 0 (some (3, 4)), .die ⟨0, 0⟩, .socket 0 (some (5, 6))]
    own r.2 3 = some (.sock 0) ∧ own r.2 5 = some (.sock 3) ∧ (step r.1 (.use 3)).2 = .sock (some 3) ∧
    (step r.1 (.close 3 true)).2 = .sock (some 3) ∧ (step (step r.1 (.close 3 true)).1 (.event ⟨0, 0⟩)).2 = .wakes none := by
  decide

/-- **Finding** (`other_threads_bypass`): on any socket descriptor, at any time: a call by another thread than the one that ran the constructor does not reach the
socket; the host performs it on the wake-up pipe. -/
theorem other_threads_bypass (w : W) (p : Nat) : (step w (.xuse p)).2 = .host (w.host p) ∧
    let r := run (start caps) [.socket 0 (some (3, 4))]
    (own r.2 3 = some (.sock 0) ∧ (step r.1 (.use 3)).2 = .sock (some 0) ∧ (step r.1 (.xuse 3)).2 = .host (some 1)) := by
  exact ⟨rfl, by decide⟩

/-- **Finding** (`foreign_close_hijack`): another thread closes descriptor 3; the entry stays in use, the socket open. The host gives the number to the next file, and what the
first thread writes to that file goes to the connection. -/
theorem foreign_close_hijack :
    let r := run (start caps) [.socket 0 (some (3, 4)), .xclose 3, .open 3]
    own r.2 3 = some (.file 3) ∧ (step r.1 (.use 3)).2 = .sock (some 0) := by
  decide

instance (w : W) (o : Nat → Option Thing) (op : Op) : Decidable (Legal w o op) := by
  cases op with
  | socket f pipe =>
    cases pipe with
    | none => exact isTrue (by intro r x e; cases e)
    | some rx =>
      exact decidable_of_iff (rx.1 ≠ rx.2 ∧ w.host rx.1 = none ∧ w.host rx.2 = none)
          ⟨fun h r x e => by cases e; exact h, fun h => h _ _ rfl⟩
  | accept p pipe =>
    cases pipe with
    | none => exact decidable_of_iff (o p ≠ none) ⟨fun h => ⟨h, by intro r x e; cases e⟩, fun h => h.1⟩
    | some rx =>
      exact decidable_of_iff (o p ≠ none ∧ rx.1 ≠ rx.2 ∧ w.host rx.1 = none ∧ w.host rx.2 = none)
          ⟨fun h => ⟨h.1, fun r x e => by cases e; exact h.2⟩, fun h => ⟨h.1, h.2 _ _ rfl⟩⟩
  | use p => unfold Legal; infer_instance
  | close p g => unfold Legal; infer_instance
  | «open» p => unfold Legal; infer_instance
  | die s => exact isTrue trivial
  | event s => exact isTrue trivial
  | xuse p => unfold Legal; infer_instance
  | xclose p => unfold Legal; infer_instance

instance decAll (P : W → (Nat → Option Thing) → Op → Prop) [∀ w o op, Decidable (P w o op)] (w : W) (o : Nat → Option Thing) (l : List Op) :
    Decidable (All P w o l) :=
  match l with
  | [] => isTrue trivial
  | op :: ops => @instDecidableAnd _ _ _ (decAll P (step w op).1 (ownStep o (op, (step w op).2)) ops)

/-- A history with files, sockets, accepted connections, closes and reuse of numbers that meets the hypotheses. -/
example : let l : List Op := [.open 0, .socket 0 (some (1, 2)), .accept 1 (some (3, 4)), .use 3, .close 1 true, .open 1, .event ⟨0, 1⟩,
      .socket 1 (some (300, 2)), .socket 1 (some (2, 5)), .close 3 false, .die ⟨0, 1⟩, .xuse 0, .socket 0 (some (3, 4))]
    All Legal (start caps) (fun _ => none) l ∧ All Apart (start caps) (fun _ => none) l ∧
    own (run (start caps) l).2 3 ≠ none ∧ own (run (start caps) l).2 1 ≠ none := by
  refine ⟨by decide +kernel, ?_, by decide, by decide⟩
  refine ⟨trivial, trivial, trivial, trivial, trivial, trivial, trivial, trivial, trivial, trivial, ?_, ⟨0, by decide⟩, trivial, trivial⟩
  intro p e hp he
  have hq : (if p = 3 then none else if p = 2 then some (⟨⟨1, 0⟩, 5⟩ : Ent) else if p = 1 then none else if p = 3 then some ⟨⟨0, 1⟩, 4⟩
      else if p = 1 then some ⟨⟨0, 0⟩, 2⟩ else none) = some e := hp
  repeat' split at hq
  all_goals first | (cases hq; done) | (cases hq; revert he; decide) | omega

end Wolf.Posix.Fds
