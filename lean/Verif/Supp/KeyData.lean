import Verif.Supp.Model

/-!
# The encrypted key data: memory safety, group key and downgrade check (C67)
-/

namespace Wolf.Supp

/-- The information elements of a buffer: type and body, up to the first one that does not fit. -/
def elements : Bytes → List (Nat × Bytes)
  | [] => []
  | [_] => []
  | t :: l :: rest =>
    if l ≤ rest.length then (t, rest.take l) :: elements (rest.drop l) else []
termination_by b => b.length
decreasing_by simp; omega

/-- A GTK KDE: vendor element of 00-0F-AC, data type 1. -/
def IsGtk (e : Nat × Bytes) : Prop := e.1 = 221 ∧ 6 ≤ e.2.length ∧ e.2.take 4 = [0, 15, 172, 1]

instance (e : Nat × Bytes) : Decidable (IsGtk e) := by unfold IsGtk; exact inferInstance

/-- The element as it stood in the frame. -/
def whole (e : Nat × Bytes) : Bytes := e.1 :: e.2.length :: e.2

/-- The key a GTK KDE carries: index in the low two bits of byte 4, key from byte 6. -/
def gtkOf (e : Nat × Bytes) : Nat × Bytes := (e.2.getD 4 0 % 4, e.2.drop 6)

/-- One pass over the elements. -/
def kdSpec (expect : Bool) (apIe : Bytes) : List (Nat × Bytes) → Bool → Option (Nat × Bytes) →
    M (Bool × Option (Nat × Bytes))
  | [], rsn, gtk => .ok (rsn, gtk)
  | x :: r, rsn, gtk =>
    if expect = true ∧ x.1 = 48 then
      if whole x = apIe then kdSpec expect apIe r true gtk else .error .reject
    else if IsGtk x then
      if x.2.length - 6 = 0 ∨ x.2.length - 6 > 32 then .error .reject
      else kdSpec expect apIe r rsn (some (gtkOf x))
    else kdSpec expect apIe r rsn gtk

theorem elements_cons {t l : Nat} {rest : Bytes} (h : l ≤ rest.length) :
    elements (t :: l :: rest) = (t, rest.take l) :: elements (rest.drop l) := by
  rw [elements, if_pos h]

theorem elements_short {b : Bytes} (h : b.length < 2) : elements b = [] := by
  match b with
  | [] => rw [elements]
  | [_] => rw [elements]
  | _ :: _ :: _ => simp at h; omega

theorem drop_two {p : Bytes} {i : Nat} (h : i + 2 ≤ p.length) :
    p.drop i = p[i] :: p[i + 1] :: p.drop (i + 2) := by
  rw [List.drop_eq_getElem_cons (show i < p.length by omega),
    List.drop_eq_getElem_cons (show i + 1 < p.length by omega)]

theorem getElem_take_drop {p : Bytes} {i l k : Nat} (hk : k < l) (h : i + l ≤ p.length) :
    ((p.drop i).take l).getD k 0 = p.getD (i + k) 0 := by
  rw [List.getD_eq_getElem?_getD, List.getD_eq_getElem?_getD, List.getElem?_take_of_lt hk,
    List.getElem?_drop]

theorem take4 {b : Bytes} (h : 4 ≤ b.length) :
    b.take 4 = [b.getD 0 0, b.getD 1 0, b.getD 2 0, b.getD 3 0] := by
  match b with
  | [] => simp at h
  | [_] => simp at h
  | [_, _] => simp at h
  | [_, _, _] => simp at h
  | _ :: _ :: _ :: _ :: _ => rfl

theorem kdLoop_spec (expect : Bool) (apIe p : Bytes) (fuel : Nat) : ∀ (i : Nat) (rsn : Bool)
    (gtk : Option (Nat × Bytes)), p.length - i ≤ fuel →
    kdLoop expect apIe p fuel i rsn gtk = kdSpec expect apIe (elements (p.drop i)) rsn gtk := by
  induction fuel with
  | zero =>
    intro i rsn gtk h
    rw [elements_short (by rw [List.length_drop]; omega)]
    rfl
  | succ n ih =>
    intro i rsn gtk h
    unfold kdLoop
    split
    · next h2 =>
      rw [ld_ok (show i < p.length by omega), ok_bind, ld_ok (show i + 1 < p.length by omega),
        ok_bind]
      have hd := drop_two h2
      have hlen : (p.drop (i + 2)).length = p.length - (i + 2) := List.length_drop
      generalize p[i] = t at hd ⊢
      generalize p[i + 1] = l at hd ⊢
      by_cases hl : i + 2 + l > p.length
      · rw [if_pos hl, hd, elements, if_neg (by omega)]
        rfl
      · rw [if_neg hl, hd, elements_cons (by omega)]
        have hb : ((p.drop (i + 2)).take l).length = l := by rw [List.length_take]; omega
        have hnext : (p.drop (i + 2)).drop l = p.drop (i + 2 + l) := by rw [List.drop_drop]
        rw [hnext]
        unfold kdSpec
        by_cases hr : expect = true ∧ t = 48
        · rw [if_pos hr, if_pos hr, sl_ok (show i + (l + 2) ≤ p.length by omega), ok_bind]
          have hw : (p.drop i).take (l + 2) = whole (t, (p.drop (i + 2)).take l) := by
            unfold whole
            dsimp only
            rw [hd, hb]
            rfl
          rw [hw]
          split
          · exact ih _ _ _ (by omega)
          · rfl
        · rw [if_neg hr, if_neg (show ¬ (expect = true ∧ (t, (p.drop (i + 2)).take l).1 = 48) from hr)]
          by_cases hg : t = 221 ∧ l ≥ 6
          · rw [if_pos hg, ld_num (show i + 2 < p.length by omega), ok_bind,
              ld_num (show i + 3 < p.length by omega), ok_bind,
              ld_num (show i + 4 < p.length by omega), ok_bind,
              ld_num (show i + 5 < p.length by omega), ok_bind]
            have e0 := getElem_take_drop (p := p) (i := i + 2) (l := l) (k := 0) (by omega) (by omega)
            have e1 := getElem_take_drop (p := p) (i := i + 2) (l := l) (k := 1) (by omega) (by omega)
            have e2 := getElem_take_drop (p := p) (i := i + 2) (l := l) (k := 2) (by omega) (by omega)
            have e3 := getElem_take_drop (p := p) (i := i + 2) (l := l) (k := 3) (by omega) (by omega)
            have e4 := getElem_take_drop (p := p) (i := i + 2) (l := l) (k := 4) (by omega) (by omega)
            have hiff : IsGtk (t, (p.drop (i + 2)).take l) ↔ (p.getD (i + 2) 0 = 0 ∧
                p.getD (i + 3) 0 = 15 ∧ p.getD (i + 4) 0 = 172 ∧ p.getD (i + 5) 0 = 1) := by
              unfold IsGtk
              dsimp only
              rw [take4 (by omega), e0, e1, e2, e3, hb]
              constructor
              · intro ⟨_, _, h3⟩
                injection h3 with a1 h3
                injection h3 with a2 h3
                injection h3 with a3 h3
                injection h3 with a4 h3
                exact ⟨a1, a2, a3, a4⟩
              · intro ⟨a1, a2, a3, a4⟩
                rw [show i + 2 + 0 = i + 2 from rfl, show i + 2 + 1 = i + 3 from rfl,
                  show i + 2 + 2 = i + 4 from rfl, show i + 2 + 3 = i + 5 from rfl, a1, a2, a3, a4]
                exact ⟨hg.1, hg.2, rfl⟩
            by_cases hk : IsGtk (t, (p.drop (i + 2)).take l)
            · rw [if_pos (hiff.mp hk), if_pos hk]
              dsimp only
              rw [hb]
              split
              · rfl
              · next hlb =>
                rw [ld_num (show i + 6 < p.length by omega), ok_bind,
                  sl_ok (show i + 8 + (l - 6) ≤ p.length by omega), ok_bind, ih _ _ _ (by omega)]
                unfold gtkOf
                dsimp only
                rw [e4, show ((p.drop (i + 2)).take l).drop 6 = (p.drop (i + 8)).take (l - 6) by
                  rw [List.drop_take, List.drop_drop]]
            · rw [if_neg (fun c => hk (hiff.mpr c)), if_neg hk]
              exact ih _ _ _ (by omega)
          · have hk : ¬ IsGtk (t, (p.drop (i + 2)).take l) := by
              intro c
              have := c.2.1
              dsimp only at this
              exact hg ⟨c.1, by omega⟩
            rw [if_neg hg, if_neg hk]
            exact ih _ _ _ (by omega)
    · next h2 =>
      rw [elements_short (by rw [List.length_drop]; omega)]
      rfl

/-- What key data must look like: every RSN element is the AP's, every GTK KDE has a key of 1 to 32
bytes. -/
def Sound (expect : Bool) (apIe : Bytes) (els : List (Nat × Bytes)) : Prop :=
  (expect = true → ∀ x ∈ els, x.1 = 48 → whole x = apIe) ∧
  ∀ x ∈ els, IsGtk x → ¬ (expect = true ∧ x.1 = 48) → 7 ≤ x.2.length ∧ x.2.length ≤ 38

theorem kdSpec_cases (expect : Bool) (apIe : Bytes) (els : List (Nat × Bytes)) : ∀ (rsn : Bool)
    (gtk : Option (Nat × Bytes)),
    (¬ Sound expect apIe els ∧ kdSpec expect apIe els rsn gtk = .error .reject) ∨
    (Sound expect apIe els ∧ kdSpec expect apIe els rsn gtk =
      .ok (rsn || (expect && els.any (fun x => decide (x.1 = 48))),
        ((els.filter (fun x => decide (IsGtk x))).getLast?.map gtkOf).or gtk)) := by
  induction els with
  | nil =>
    intro rsn gtk
    refine Or.inr ⟨⟨fun _ x hx => (by cases hx), fun x hx => (by cases hx)⟩, ?_⟩
    simp [kdSpec]
  | cons x r ih =>
    intro rsn gtk
    unfold kdSpec
    by_cases hr : expect = true ∧ x.1 = 48
    · have hng : ¬ IsGtk x := fun c => by have := c.1; omega
      rw [if_pos hr]
      by_cases hw : whole x = apIe
      · rw [if_pos hw]
        rcases ih true gtk with ⟨h1, h2⟩ | ⟨h1, h2⟩
        · refine Or.inl ⟨fun c => h1 ⟨fun he y hy => c.1 he y (List.mem_cons_of_mem _ hy),
            fun y hy => c.2 y (List.mem_cons_of_mem _ hy)⟩, h2⟩
        · refine Or.inr ⟨⟨?_, ?_⟩, ?_⟩
          · intro he y hy h48
            rcases List.mem_cons.mp hy with rfl | hy
            · exact hw
            · exact h1.1 he y hy h48
          · intro y hy hy1 hy2
            rcases List.mem_cons.mp hy with rfl | hy
            · exact absurd hr hy2
            · exact h1.2 y hy hy1 hy2
          · rw [h2, List.filter_cons_of_neg (by simpa using hng), hr.1]
            simp [hr.2]
      · rw [if_neg hw]
        exact Or.inl ⟨fun c => hw (c.1 hr.1 x (List.mem_cons_self ..) hr.2), rfl⟩
    · rw [if_neg hr]
      have hany : (expect && (x :: r).any (fun x => decide (x.1 = 48))) =
          (expect && r.any (fun x => decide (x.1 = 48))) := by
        rw [List.any_cons]
        cases hx : decide (x.1 = 48)
        · rw [Bool.false_or]
        · have : expect = false := by
            cases he : expect
            · rfl
            · exact absurd ⟨he, of_decide_eq_true hx⟩ hr
          rw [this]
          rfl
      have hsnd : (IsGtk x → 7 ≤ x.2.length ∧ x.2.length ≤ 38) →
          (Sound expect apIe (x :: r) ↔ Sound expect apIe r) := by
        intro hx
        constructor
        · intro c
          exact ⟨fun he y hy => c.1 he y (List.mem_cons_of_mem _ hy),
            fun y hy => c.2 y (List.mem_cons_of_mem _ hy)⟩
        · intro c
          refine ⟨?_, ?_⟩
          · intro he y hy h48
            rcases List.mem_cons.mp hy with rfl | hy
            · exact absurd ⟨he, h48⟩ hr
            · exact c.1 he y hy h48
          · intro y hy hy1 hy2
            rcases List.mem_cons.mp hy with rfl | hy
            · exact hx hy1
            · exact c.2 y hy hy1 hy2
      by_cases hg : IsGtk x
      · rw [if_pos hg]
        by_cases hb : x.2.length - 6 = 0 ∨ x.2.length - 6 > 32
        · rw [if_pos hb]
          refine Or.inl ⟨fun c => ?_, rfl⟩
          have := c.2 x (List.mem_cons_self ..) hg hr
          omega
        · rw [if_neg hb, hsnd (fun _ => by have := hg.2.1; omega), hany]
          rcases ih rsn (some (gtkOf x)) with h | ⟨h1, h2⟩
          · exact Or.inl h
          · refine Or.inr ⟨h1, ?_⟩
            rw [h2, List.filter_cons_of_pos (by simpa using hg)]
            cases hf : r.filter (fun x => decide (IsGtk x)) with
            | nil => rfl
            | cons a as => rw [List.getLast?_cons_cons, List.getLast?_cons]; rfl
      · rw [if_neg hg, hsnd (fun c => absurd c hg), hany]
        rw [List.filter_cons_of_neg (by simpa using hg)]
        exact ih rsn gtk

/-- The key data of a frame are acceptable and give this group key. -/
def GoodKeyData (expect : Bool) (apIe p : Bytes) (g : Nat × Bytes) : Prop :=
  Sound expect apIe (elements p) ∧
  (expect = true → ∃ x ∈ elements p, x.1 = 48) ∧
  ∃ x, ((elements p).filter (fun x => decide (IsGtk x))).getLast? = some x ∧ g = gtkOf x

theorem parse_iff (expect : Bool) (apIe p : Bytes) (g : Nat × Bytes) :
    kdFinish expect (kdLoop expect apIe p p.length 0 false none) = .ok g ↔ GoodKeyData expect apIe p g := by
  rw [kdLoop_spec expect apIe p p.length 0 false none (by omega), List.drop_zero]
  rcases kdSpec_cases expect apIe (elements p) false none with ⟨h1, h2⟩ | ⟨h1, h2⟩
  · rw [h2]
    exact ⟨(fun c => by cases c), fun c => absurd c.1 h1⟩
  · rw [h2]
    rw [Bool.false_or, Option.or_none]
    unfold kdFinish
    dsimp only
    have hr : (expect = true ∧ (expect && (elements p).any (fun x => decide (x.1 = 48))) = false) ↔
        ¬ (expect = true → ∃ x ∈ elements p, x.1 = 48) := by
      rw [Classical.not_imp]
      constructor
      · intro ⟨h1, h2⟩
        refine ⟨h1, fun ⟨x, hx, h48⟩ => ?_⟩
        have : (elements p).any (fun x => decide (x.1 = 48)) = true :=
          List.any_eq_true.mpr ⟨x, hx, by simpa using h48⟩
        rw [h1, this] at h2
        cases h2
      · intro ⟨h1, h2⟩
        refine ⟨h1, ?_⟩
        rw [h1, Bool.true_and]
        apply Bool.eq_false_iff.mpr
        intro c
        obtain ⟨x, hx, h48⟩ := List.any_eq_true.mp c
        exact h2 ⟨x, hx, by simpa using h48⟩
    by_cases hc : expect = true → ∃ x ∈ elements p, x.1 = 48
    · rw [if_neg (fun c => hr.mp c hc)]
      cases hl : ((elements p).filter (fun x => decide (IsGtk x))).getLast? with
      | none =>
        refine ⟨(fun c => by cases c), fun ⟨_, _, x, hx, _⟩ => ?_⟩
        rw [hl] at hx
        cases hx
      | some y =>
        dsimp only [Option.map]
        constructor
        · intro c
          cases c
          exact ⟨h1, hc, y, hl, rfl⟩
        · intro ⟨_, _, x, hx, hg⟩
          rw [hl] at hx
          cases hx
          rw [hg]
    · rw [if_pos (hr.mpr hc)]
      exact ⟨(fun c => by cases c), fun c => absurd c.2.1 hc⟩

theorem parse_no_oob (expect : Bool) (apIe p : Bytes) :
    kdFinish expect (kdLoop expect apIe p p.length 0 false none) ≠ .error .oob := by
  rw [kdLoop_spec expect apIe p p.length 0 false none (by omega), List.drop_zero]
  rcases kdSpec_cases expect apIe (elements p) false none with ⟨h1, h2⟩ | ⟨h1, h2⟩
  · rw [h2]
    intro c; cases c
  · rw [h2]
    unfold kdFinish
    dsimp only
    split
    · intro c; cases c
    · split <;> (intro c; cases c)

/-- **C67, exactness.**  `supp_parse_key_data` never overruns its 256-byte plaintext buffer, never
reads outside the unwrapped data and never writes a group key longer than 32 bytes.  It succeeds
exactly when the key data are flagged encrypted, of an acceptable wrapped length, unwrap under the
current KEK, contain a GTK KDE and - in message 3 - at least one RSN element, all of them equal
byte for byte to the AP's; the key returned is that of the last GTK KDE. -/
theorem key_data_exact (C : Crypto) (s : S) (v : View) (expect : Bool) :
    parseKeyData C s v expect ≠ .error .oob ∧
    ∀ g, parseKeyData C s v expect = .ok g ↔
      (24 ≤ v.keyData.length ∧ v.keyData.length ≤ 264 ∧ v.keyData.length % 8 = 0 ∧
        v.keyInfo.testBit 12 = true ∧
        ∃ p, C.unwrap s.ptk.kek v.keyData = some p ∧ GoodKeyData expect s.apIe p g) := by
  unfold parseKeyData
  by_cases h1 : v.keyData.length < 24 ∨ v.keyData.length > 264
  · rw [if_pos h1]
    exact ⟨(by intro c; cases c), fun g => ⟨(fun c => by cases c), fun c => by omega⟩⟩
  · rw [if_neg h1]
    by_cases h2 : v.keyData.length % 8 ≠ 0
    · rw [if_pos h2]
      exact ⟨(by intro c; cases c), fun g => ⟨(fun c => by cases c), fun c => absurd c.2.2.1 h2⟩⟩
    · rw [if_neg h2]
      by_cases h3 : v.keyInfo.testBit 12 = false
      · rw [if_pos h3]
        exact ⟨(by intro c; cases c), fun g => ⟨(fun c => by cases c), fun c => by
          rw [h3] at c; exact absurd c.2.2.2.1 (by decide)⟩⟩
      · rw [if_neg h3]
        cases hu : C.unwrap s.ptk.kek v.keyData with
        | none =>
          exact ⟨(by intro c; cases c), fun g => ⟨(fun c => by cases c), fun ⟨_, _, _, _, p, hp, _⟩ => by
            cases hp⟩⟩
        | some p =>
          have hl := C.unwrap_len _ _ _ hu
          dsimp only
          rw [if_neg (by omega)]
          refine ⟨parse_no_oob _ _ _, fun g => ?_⟩
          rw [parse_iff]
          constructor
          · intro h
            exact ⟨by omega, by omega, by omega, by simpa using h3, p, rfl, h⟩
          · intro ⟨_, _, _, _, p', hp, h⟩
            cases hp
            exact h

/-- **C67, key size.**  A group key is never empty nor longer than 32 bytes, and its index is 0-3. -/
theorem group_key_size (C : Crypto) (s : S) (v : View) (expect : Bool) (g : Nat × Bytes)
    (h : parseKeyData C s v expect = .ok g) : 1 ≤ g.2.length ∧ g.2.length ≤ 32 ∧ g.1 < 4 := by
  obtain ⟨_, _, _, _, p, _, hs, _, x, hx, hg⟩ := ((key_data_exact C s v expect).2 g).mp h
  have hm := List.mem_of_getLast? hx
  rw [List.mem_filter] at hm
  have hx' : IsGtk x := by simpa using hm.2
  have := hs.2 x hm.1 hx' (fun c => by have := hx'.1; omega)
  rw [hg]
  unfold gtkOf
  dsimp only
  rw [List.length_drop]
  exact ⟨by omega, by omega, Nat.mod_lt _ (by decide)⟩

end Wolf.Supp
