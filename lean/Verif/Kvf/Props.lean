import Verif.Kvf.Write
import Verif.Kvf.Spec
/-! # C92: the flash store is crash-safe -/
namespace Wolf.Kvf

/-! ## The map a log stands for -/

/-- The record matches. -/
abbrev hits (ns : Nat) (key : List Nat) (t : Slot) : Bool := t.committed && (t.ns == ns && t.key == key)

theorem mapOf_snoc (l : List Slot) (s : Slot) (ns : Nat) (key : List Nat) :
    mapOf (l ++ [s]) ns key = if hits ns key s then (if s.tomb then none else some s.blob) else mapOf l ns key := by
  induction l with
  | nil => simp [mapOf, hits]
  | cons t l ih =>
    rw [List.cons_append, mapOf, mapOf, List.any_append]
    by_cases hs : hits ns key s = true
    · rw [if_pos hs, if_pos (by simp [hs]), ih, if_pos hs]
    · have hsf : hits ns key s = false := Bool.eq_false_iff.mpr hs
      have e : ([s].any fun t => t.committed && (t.ns == ns && t.key == key)) = false := by
        rw [List.any_cons, List.any_nil, Bool.or_false]; exact hsf
      rw [if_neg hs, e, Bool.or_false, ih, if_neg hs]

/-- A record rewritten by compaction. -/
def redo (s : Slot) : Slot := fresh s.ns s.key s.blob

theorem redo_hits (s : Slot) (ns : Nat) (key : List Nat) : hits ns key (redo s) = (s.ns == ns && s.key == key) := by
  rw [hits, redo, fresh_key]; rfl

theorem redo_tomb (s : Slot) : (redo s).tomb = false := rfl

theorem mapOf_redo_some (l : List Slot) (ns : Nat) (key : List Nat) :
    (mapOf (l.map redo) ns key).isSome = (l.map redo).any (hits ns key) := by
  induction l with
  | nil => rfl
  | cons s l ih =>
    rw [List.map_cons, mapOf, List.any_cons]
    by_cases h : (l.map redo).any (hits ns key) = true
    · rw [if_pos h, ih, h, Bool.or_true]
    · rw [if_neg h, Bool.eq_false_iff.mpr h, Bool.or_false]
      by_cases h2 : hits ns key (redo s) = true
      · rw [if_pos h2, redo_tomb, h2]; rfl
      · rw [if_neg h2, Bool.eq_false_iff.mpr h2]; rfl

/-- Compaction keeps the map. -/
theorem mapOf_live (l : List Slot) (ns : Nat) (key : List Nat) : mapOf ((liveS l).map redo) ns key = mapOf l ns key := by
  induction l with
  | nil => rfl
  | cons s l ih =>
    have hA := mapOf_redo_some (liveS l) ns key
    rw [ih] at hA
    rw [liveS]
    by_cases hl : (s.committed && !s.tomb && !l.any (hits s.ns s.key)) = true
    · rw [if_pos hl, List.map_cons, mapOf, mapOf]
      simp only [Bool.and_eq_true, Bool.not_eq_true'] at hl
      obtain ⟨⟨c1, c2⟩, c3⟩ := hl
      by_cases h : l.any (hits ns key) = true
      · rw [if_pos h]
        have hns : (s.ns == ns && s.key == key) = false := by
          apply Bool.eq_false_iff.mpr
          intro c
          simp only [Bool.and_eq_true, beq_iff_eq] at c
          rw [c.1, c.2, h] at c3; cases c3
        by_cases h2 : ((liveS l).map redo).any (hits ns key) = true
        · rw [if_pos h2, ih]
        · rw [if_neg h2, if_neg (by rw [show ((redo s).committed && ((redo s).ns == ns && (redo s).key == key)) = (s.ns == ns && s.key == key) from redo_hits s ns key, hns]; simp)]
          rw [Bool.eq_false_iff.mpr h2] at hA
          cases hm : mapOf l ns key with
          | none => rfl
          | some v => rw [hm] at hA; cases hA
      · have hn := mapOf_none l ns key (Bool.eq_false_iff.mpr h)
        rw [hn] at hA
        have h2 : ¬ ((liveS l).map redo).any (hits ns key) = true := by rw [← hA]; simp
        rw [if_neg h, if_neg h2]
        rw [show ((redo s).committed && ((redo s).ns == ns && (redo s).key == key)) = (s.ns == ns && s.key == key) from redo_hits s ns key, c1, Bool.true_and, c2, redo_tomb]
        rw [show (redo s).blob = s.blob from fresh_blob _ _ _]
    · rw [if_neg hl, ih, mapOf]
      by_cases h : l.any (hits ns key) = true
      · rw [if_pos h]
      · rw [if_neg h, mapOf_none l ns key (Bool.eq_false_iff.mpr h)]
        by_cases hs : (s.committed && (s.ns == ns && s.key == key)) = true
        · rw [if_pos hs]
          simp only [Bool.and_eq_true, beq_iff_eq] at hs
          obtain ⟨c1, c2, c3⟩ := hs
          rw [c1, c2, c3, Bool.eq_false_iff.mpr h] at hl
          simp only [Bool.true_and, Bool.not_false, Bool.and_true, Bool.not_eq_true', Bool.not_eq_false] at hl
          rw [hl]; rfl
        · rw [if_neg hs]

theorem liveS_mem (l : List Slot) (s : Slot) (h : s ∈ liveS l) : s ∈ l ∧ s.committed = true ∧ s.tomb = false := by
  induction l with
  | nil => cases h
  | cons t l ih =>
    rw [liveS] at h
    by_cases hl : (t.committed && !t.tomb && !l.any (hits t.ns t.key)) = true
    · rw [if_pos hl] at h
      rcases List.mem_cons.mp h with h | h
      · subst h
        simp only [Bool.and_eq_true, Bool.not_eq_true'] at hl
        exact ⟨by simp, hl.1.1, hl.1.2⟩
      · obtain ⟨a, b⟩ := ih h; exact ⟨by simp [a], b⟩
    · rw [if_neg hl] at h
      obtain ⟨a, b⟩ := ih h; exact ⟨by simp [a], b⟩

/-- Live records have different keys. -/
theorem liveS_distinct (l : List Slot) : (liveS l).Pairwise (fun s t => ¬ (t.ns = s.ns ∧ t.key = s.key)) := by
  induction l with
  | nil => exact List.Pairwise.nil
  | cons s l ih =>
    rw [liveS]
    by_cases hl : (s.committed && !s.tomb && !l.any (hits s.ns s.key)) = true
    · rw [if_pos hl]
      refine List.Pairwise.cons ?_ ih
      intro t ht c
      obtain ⟨a, b, _⟩ := liveS_mem l t ht
      simp only [Bool.and_eq_true, Bool.not_eq_true'] at hl
      have : l.any (hits s.ns s.key) = true := List.any_eq_true.mpr ⟨t, a, by simp [hits, b, c.1, c.2]⟩
      rw [this] at hl; cases hl.2
    · rw [if_neg hl]; exact ih

theorem mapOf_some_iff (l : List Slot) (ns : Nat) (key blob : List Nat) :
    mapOf l ns key = some blob ↔ ∃ s ∈ liveS l, s.ns = ns ∧ s.key = key ∧ s.blob = blob := by
  rw [← mapOf_live]
  have key2 : ∀ m : List Slot, m.Pairwise (fun s t => ¬ (t.ns = s.ns ∧ t.key = s.key)) →
      (mapOf (m.map redo) ns key = some blob ↔ ∃ s ∈ m, s.ns = ns ∧ s.key = key ∧ s.blob = blob) := by
    intro m
    induction m with
    | nil => intro _; simp [mapOf]
    | cons s m ih =>
      intro hp
      obtain ⟨h1, h2⟩ := List.pairwise_cons.mp hp
      have ih := ih h2
      rw [List.map_cons, mapOf]
      rw [show ((redo s).committed && ((redo s).ns == ns && (redo s).key == key)) = (s.ns == ns && s.key == key) from redo_hits s ns key]
      by_cases h : (m.map redo).any (hits ns key) = true
      · rw [if_pos h, ih]
        obtain ⟨t', ht', hh⟩ := List.any_eq_true.mp h
        obtain ⟨t, ht, rfl⟩ := List.mem_map.mp ht'
        rw [redo_hits] at hh
        simp only [Bool.and_eq_true, beq_iff_eq] at hh
        constructor
        · rintro ⟨u, hu, q⟩; exact ⟨u, by simp [hu], q⟩
        · rintro ⟨u, hu, q⟩
          rcases List.mem_cons.mp hu with hu | hu
          · subst hu
            exact absurd ⟨hh.1.trans q.1.symm, hh.2.trans q.2.1.symm⟩ (h1 t ht)
          · exact ⟨u, hu, q⟩
      · rw [if_neg h]
        have hno : ∀ u ∈ m, ¬ (u.ns = ns ∧ u.key = key) := by
          intro u hu c
          apply h
          exact List.any_eq_true.mpr ⟨redo u, List.mem_map.mpr ⟨u, hu, rfl⟩, by rw [redo_hits]; simp [c.1, c.2]⟩
        rw [show (redo s).blob = s.blob from fresh_blob _ _ _, redo_tomb]
        by_cases hs : (s.ns == ns && s.key == key) = true
        · rw [if_pos hs]
          simp only [Bool.and_eq_true, beq_iff_eq] at hs
          simp only [Bool.false_eq_true, if_false, Option.some.injEq]
          constructor
          · intro e; exact ⟨s, by simp, hs.1, hs.2, e⟩
          · rintro ⟨u, hu, q⟩
            rcases List.mem_cons.mp hu with hu | hu
            · subst hu; exact q.2.2
            · exact absurd ⟨q.1, q.2.1⟩ (hno u hu)
        · rw [if_neg hs]
          constructor
          · intro e; cases e
          · rintro ⟨u, hu, q⟩
            rcases List.mem_cons.mp hu with hu | hu
            · subst hu; exact absurd (by simp [q.1, q.2.1]) hs
            · exact absurd ⟨q.1, q.2.1⟩ (hno u hu)
  exact key2 _ (liveS_distinct l)

theorem mapOf_tq (l1 : List Slot) (s : Slot) (q : Qw) (l2 : List Slot) (hc : s.committed = true) (hl : l2.any (hits s.ns s.key) = false) :
    mapOf (l1 ++ { s with tq := q } :: l2) = if ({ s with tq := q } : Slot).tomb then upd (mapOf (l1 ++ s :: l2)) s.ns s.key none
      else upd (mapOf (l1 ++ s :: l2)) s.ns s.key (some s.blob) := by
  funext ns key
  have same : ∀ l1 : List Slot, (l1 ++ { s with tq := q } :: l2).any (hits ns key) = (l1 ++ s :: l2).any (hits ns key) := by
    intro l1
    induction l1 with
    | nil => rfl
    | cons t l1 ih => rw [List.cons_append, List.cons_append, List.any_cons, List.any_cons, ih]
  by_cases hk : ns = s.ns ∧ key = s.key
  · obtain ⟨rfl, rfl⟩ := hk
    rw [mapOf_split l1 { s with tq := q } l2 s.ns s.key (by simp [show ({ s with tq := q } : Slot).committed = s.committed from rfl, hc, show ({ s with tq := q } : Slot).key = s.key from rfl]) hl]
    split
    · rw [upd, if_pos ⟨rfl, rfl⟩]
    · rw [upd, if_pos ⟨rfl, rfl⟩]; rfl
  · have e : mapOf (l1 ++ { s with tq := q } :: l2) ns key = mapOf (l1 ++ s :: l2) ns key := by
      induction l1 with
      | nil =>
        rw [List.nil_append, List.nil_append, mapOf, mapOf]
        have hne : ¬ (s.committed && (s.ns == ns && s.key == key)) = true := by
          intro c
          simp only [Bool.and_eq_true, beq_iff_eq] at c
          exact hk ⟨c.2.1.symm, c.2.2.symm⟩
        rw [if_neg hne]
        rw [if_neg (show ¬ (({ s with tq := q } : Slot).committed && (({ s with tq := q } : Slot).ns == ns && ({ s with tq := q } : Slot).key == key)) = true from hne)]
      | cons t l1 ih =>
        rw [List.cons_append, List.cons_append, mapOf, mapOf, ih]
        rw [show (l1 ++ { s with tq := q } :: l2).any (fun t => t.committed && (t.ns == ns && t.key == key)) = (l1 ++ s :: l2).any (fun t => t.committed && (t.ns == ns && t.key == key)) from same l1]
    rw [e]
    split
    · rw [upd, if_neg hk]
    · rw [upd, if_neg hk]

/-- What an append leaves, as a map. -/
theorem mapOf_trace (l : List Slot) (ns : Nat) (key blob : List Nat) (r : R) (t : List Slot) (h : Trace ns key blob r t) :
    (r = .ok → mapOf (l ++ t) = upd (mapOf l) ns key (some blob)) ∧ (r = .err → mapOf (l ++ t) = mapOf l) ∧
    (r = .crash → mapOf (l ++ t) = mapOf l ∨ mapOf (l ++ t) = upd (mapOf l) ns key (some blob)) ∧ r ≠ .full := by
  have full : ∀ c : Qw, (c.getD 0 0 == 197) = true → mapOf (l ++ [{ fresh ns key blob with commit := c }]) = upd (mapOf l) ns key (some blob) := by
    intro c hc
    funext n k
    rw [mapOf_snoc]
    have e : hits n k { fresh ns key blob with commit := c } = (ns == n && key == k) := by
      rw [hits]
      rw [show ({ fresh ns key blob with commit := c } : Slot).key = key from fresh_key ns key blob]
      rw [show ({ fresh ns key blob with commit := c } : Slot).committed = true from hc]
      rfl
    have e2 : ({ fresh ns key blob with commit := c } : Slot).blob = blob := fresh_blob ns key blob
    have e3 : ({ fresh ns key blob with commit := c } : Slot).tomb = false := rfl
    rw [e, e2, e3, upd]
    by_cases hk : n = ns ∧ k = key
    · rw [if_pos hk, if_pos (by simp [hk.1, hk.2])]; rfl
    · rw [if_neg hk, if_neg (by intro c; simp only [Bool.and_eq_true, beq_iff_eq] at c; exact hk ⟨c.1.symm, c.2.symm⟩)]
  have none' : ∀ s : Slot, s.committed = false → mapOf (l ++ [s]) = mapOf l := by
    intro s hs; funext n k; rw [mapOf_snoc, if_neg (by rw [hits, hs]; simp)]
  cases h with
  | done => exact ⟨fun _ => full commitQw rfl, (by intro c; cases c), (by intro c; cases c), by intro c; cases c⟩
  | none _ h =>
    rw [List.append_nil]
    refine ⟨?_, fun _ => rfl, fun _ => Or.inl rfl, ?_⟩
    · intro c; rcases h with h | h <;> rw [h] at c <;> cases c
    · intro c; rcases h with h | h <;> rw [h] at c <;> cases c
  | torn _ h w hw =>
    have := none' ⟨ns, key.length, blob.length, ers, w, ers⟩ rfl
    refine ⟨?_, fun _ => this, fun _ => Or.inl this, ?_⟩
    · intro c; rcases h with h | h <;> rw [h] at c <;> cases c
    · intro c; rcases h with h | h <;> rw [h] at c <;> cases c
  | cut c =>
    refine ⟨(by intro c; cases c), (by intro c; cases c), fun _ => ?_, (by intro c; cases c)⟩
    by_cases hc : (c.getD 0 0 == 197) = true
    · exact Or.inr (full c hc)
    · exact Or.inl (none' _ (Bool.eq_false_iff.mpr hc))

theorem trace_ok (P : Par) (ns : Nat) (key blob : List Nat) (r : R) (t : List Slot) (h : Trace ns key blob r t) (h0 : key.length ≠ 0) (h1 : key.length ≤ 256)
    (h2 : blob.length ≤ P.maxBlob) : ∀ s ∈ t, s.Ok P := by
  have hf := fresh_ok P ns key blob h0 h1 h2
  cases h with
  | done => intro s hs; rw [List.mem_singleton.mp hs]; exact hf
  | none _ h => intro s hs; cases hs
  | torn _ h w hw =>
    intro s hs; rw [List.mem_singleton.mp hs]
    exact ⟨Nat.pos_of_ne_zero h0, h1, h2, hw, by intro c; cases c⟩
  | cut c =>
    intro s hs; rw [List.mem_singleton.mp hs]
    exact ⟨hf.k0, hf.k1, hf.b1, hf.len, fun _ => hf.whole rfl⟩

end Wolf.Kvf
