import Verif.Tcp.Recv
/-! # SACK block sorting/merging: simulation on stream positions, and its meaning -/
namespace Wolf.Tcp

/-- Plain comparisons on stream positions. -/
def nlt (a b : Nat) : Bool := decide (a < b)
def nle (a b : Nat) : Bool := decide (a ≤ b)

/-- Block of stream positions → block of sequence numbers. -/
def sqb (i : Nat) (p : Nat × Nat) : Nat × Nat := (sq i p.1, sq i p.2)

/-- A nonempty block inside the half sequence space starting at position `A`. -/
def InWin (A : Nat) (p : Nat × Nat) : Prop := A ≤ p.1 ∧ p.1 < p.2 ∧ p.2 < A + 2147483648

theorem bool_eq_of {a b : Bool} (h : a = true ↔ b = true) : a = b := by
  cases a <;> cases b <;> simp_all

theorem seqLt_win {i A x y : Nat} (hx : A ≤ x ∧ x < A + 2147483648) (hy : A ≤ y ∧ y < A + 2147483648) :
    seqLt (sq i x) (sq i y) = nlt x y := by
  apply bool_eq_of
  rw [(seq_order_sound i x y (by omega) (by omega)).1]; simp [nlt]

theorem seqLeq_win {i A x y : Nat} (hx : A ≤ x ∧ x < A + 2147483648) (hy : A ≤ y ∧ y < A + 2147483648) :
    seqLeq (sq i x) (sq i y) = nle x y := by
  apply bool_eq_of
  rw [(seq_order_sound i x y (by omega) (by omega)).2.1]; simp [nle]

theorem sq_inj_win {i A x y : Nat} (hx : A ≤ x ∧ x < A + 2147483648) (hy : A ≤ y ∧ y < A + 2147483648) :
    sq i x = sq i y ↔ x = y := (seq_order_sound i x y (by omega) (by omega)).2.2

theorem InWin.l {A p} (h : InWin A p) : A ≤ p.1 ∧ p.1 < A + 2147483648 := by
  obtain ⟨a, b, c⟩ := h; omega
theorem InWin.r {A p} (h : InWin A p) : A ≤ p.2 ∧ p.2 < A + 2147483648 := by
  obtain ⟨a, b, c⟩ := h; omega

theorem exch_map {i A : Nat} (l : List (Nat × Nat)) : ∀ x, InWin A x → (∀ b ∈ l, InWin A b) →
    exch seqLt (sqb i x) (l.map (sqb i)) = (sqb i (exch nlt x l).1, (exch nlt x l).2.map (sqb i)) := by
  induction l with
  | nil => intro x _ _; rfl
  | cons y ys ih =>
    intro x hx hl
    have hy := hl y (by simp)
    have hys : ∀ b ∈ ys, InWin A b := fun b hb => hl b (by simp [hb])
    have e : seqLt (sqb i y).1 (sqb i x).1 = nlt y.1 x.1 := seqLt_win hy.l hx.l
    simp only [List.map_cons, exch, e]
    split
    · rw [ih y hy hys]; rfl
    · rw [ih x hx hys]; rfl

theorem exch_perm (l : List (Nat × Nat)) : ∀ x, ((exch nlt x l).1 :: (exch nlt x l).2).Perm (x :: l) := by
  induction l with
  | nil => intro x; exact List.Perm.refl _
  | cons y ys ih =>
    intro x
    simp only [exch]
    split
    · refine (List.Perm.swap _ _ _).trans (((ih y).cons x).trans ?_)
      exact List.Perm.refl _
    · exact (List.Perm.swap _ _ _).trans (((ih x).cons y).trans (List.Perm.swap _ _ _))

theorem exch_le (l : List (Nat × Nat)) : ∀ x, (exch nlt x l).1.1 ≤ x.1 ∧
    ∀ b ∈ (exch nlt x l).2, (exch nlt x l).1.1 ≤ b.1 := by
  induction l with
  | nil => intro x; simp [exch]
  | cons y ys ih =>
    intro x
    simp only [exch]
    split
    · rename_i h
      simp only [nlt, decide_eq_true_eq] at h
      have := ih y
      refine ⟨by simp only; omega, ?_⟩
      intro b hb
      simp only [List.mem_cons] at hb
      rcases hb with hb | hb
      · subst hb; simp only; omega
      · exact this.2 b hb
    · rename_i h
      simp only [nlt, decide_eq_true_eq] at h
      have := ih x
      refine ⟨this.1, ?_⟩
      intro b hb
      simp only [List.mem_cons] at hb
      rcases hb with hb | hb
      · subst hb; simp only; omega
      · exact this.2 b hb

theorem exch_length (l : List (Nat × Nat)) (x) : (exch nlt x l).2.length = l.length := by
  have := (exch_perm l x).length_eq
  simpa using this

theorem sort_map {i A : Nat} : ∀ n (l : List (Nat × Nat)), (∀ b ∈ l, InWin A b) →
    sortBlocks seqLt n (l.map (sqb i)) = (sortBlocks nlt n l).map (sqb i) := by
  intro n
  induction n with
  | zero => intro l _; simp [sortBlocks]
  | succ n ih =>
    intro l hl
    cases l with
    | nil => simp [sortBlocks]
    | cons x xs =>
      have hx := hl x (by simp)
      have hxs : ∀ b ∈ xs, InWin A b := fun b hb => hl b (by simp [hb])
      simp only [List.map_cons, sortBlocks, exch_map xs x hx hxs]
      rw [ih]
      intro b hb
      apply hl
      exact (exch_perm xs x).mem_iff.1 (by simp [hb])

theorem sort_perm : ∀ n (l : List (Nat × Nat)), (sortBlocks nlt n l).Perm l := by
  intro n
  induction n with
  | zero => intro l; simp [sortBlocks]
  | succ n ih =>
    intro l
    cases l with
    | nil => simp [sortBlocks]
    | cons x xs =>
      simp only [sortBlocks]
      exact ((ih _).cons _).trans (exch_perm xs x)

theorem sort_sorted : ∀ n (l : List (Nat × Nat)), l.length ≤ n →
    (sortBlocks nlt n l).Pairwise (fun a b => a.1 ≤ b.1) := by
  intro n
  induction n with
  | zero => intro l h; have : l = [] := List.eq_nil_of_length_eq_zero (by omega); subst this; simp [sortBlocks]
  | succ n ih =>
    intro l h
    cases l with
    | nil => simp [sortBlocks]
    | cons x xs =>
      simp only [sortBlocks, List.pairwise_cons]
      simp only [List.length_cons] at h
      refine ⟨?_, ih _ (by rw [exch_length]; omega)⟩
      intro b hb
      exact (exch_le xs x).2 b ((sort_perm _ _).mem_iff.1 hb)

theorem mergeGo_map {i A : Nat} (l : List (Nat × Nat)) : ∀ c, InWin A c → (∀ b ∈ l, InWin A b) →
    l.Pairwise (fun a b => a.1 ≤ b.1) → (∀ b ∈ l, c.1 ≤ b.1) →
    mergeGo seqLt seqLeq (sqb i c) (l.map (sqb i)) = (mergeGo nlt nle c l).map (sqb i) := by
  induction l with
  | nil => intro c _ _ _ _; rfl
  | cons y ys ih =>
    intro c hc hl hp hcl
    have hy := hl y (by simp)
    have hys : ∀ b ∈ ys, InWin A b := fun b hb => hl b (by simp [hb])
    rw [List.pairwise_cons] at hp
    have hcy := hcl y (by simp)
    have hcys : ∀ b ∈ ys, c.1 ≤ b.1 := fun b hb => hcl b (by simp [hb])
    have e1 : seqLt (sqb i y).1 (sqb i c).2 = nlt y.1 c.2 := seqLt_win hy.l hc.r
    have e2 : seqLeq (sqb i y).2 (sqb i c).2 = nle y.2 c.2 := seqLeq_win hy.r hc.r
    have e3 : (sqb i y).1 = (sqb i c).2 ↔ y.1 = c.2 := sq_inj_win hy.l hc.r
    have hw : InWin A (c.1, y.2) := ⟨hc.1, by have := hy.2.1; simp only; omega, hy.2.2⟩
    simp only [List.map_cons, mergeGo, e1, e2]
    split
    · split
      · exact ih (c.1, y.2) hw hys hp.2 hcys
      · exact ih c hc hys hp.2 hcys
    · by_cases h3 : y.1 = c.2
      · rw [if_pos (e3.2 h3), if_pos h3]
        exact ih (c.1, y.2) hw hys hp.2 hcys
      · rw [if_neg (fun h => h3 (e3.1 h)), if_neg h3, List.map_cons]
        rw [ih y hy hys hp.2 hp.1]

/-- A position is covered by a list of blocks. -/
def Covers (l : List (Nat × Nat)) (y : Nat) : Prop := ∃ b ∈ l, b.1 ≤ y ∧ y < b.2

theorem mergeGo_spec (l : List (Nat × Nat)) : ∀ c : Nat × Nat, c.1 < c.2 → (∀ b ∈ l, b.1 < b.2) →
    l.Pairwise (fun a b => a.1 ≤ b.1) → (∀ b ∈ l, c.1 ≤ b.1) →
    (∀ y, Covers (mergeGo nlt nle c l) y ↔ Covers (c :: l) y) ∧
    (mergeGo nlt nle c l).Pairwise (fun a b => a.2 < b.1) ∧
    (∀ b ∈ mergeGo nlt nle c l, b.1 < b.2 ∧ c.1 ≤ b.1) ∧
    (mergeGo nlt nle c l).length ≤ l.length + 1 := by
  induction l with
  | nil => intro c h _ _ _; simp [mergeGo, Covers, h]
  | cons z zs ih =>
    intro c hc hl hp hcl
    have hz := hl z (by simp)
    have hzs : ∀ b ∈ zs, b.1 < b.2 := fun b hb => hl b (by simp [hb])
    rw [List.pairwise_cons] at hp
    have hcz := hcl z (by simp)
    have hczs : ∀ b ∈ zs, c.1 ≤ b.1 := fun b hb => hcl b (by simp [hb])
    have merged : z.1 ≤ c.2 → c.2 < z.2 → ∀ y, Covers ((c.1, z.2) :: zs) y ↔ Covers (c :: z :: zs) y := by
      intro h1 h2 y
      simp only [Covers, List.mem_cons, exists_eq_or_imp]
      constructor
      · rintro (h | h)
        · by_cases hy : y < c.2
          · exact Or.inl ⟨h.1, hy⟩
          · exact Or.inr (Or.inl ⟨by omega, h.2⟩)
        · exact Or.inr (Or.inr h)
      · rintro (h | h | h)
        · exact Or.inl ⟨h.1, by omega⟩
        · exact Or.inl ⟨by omega, h.2⟩
        · exact Or.inr h
    simp only [mergeGo, nlt, nle, Bool.not_eq_true', decide_eq_false_iff_not, decide_eq_true_eq]
    split
    · split
      · have := ih (c.1, z.2) (by simp only; omega) hzs hp.2 hczs
        exact ⟨fun y => (this.1 y).trans (merged (by omega) (by omega) y), this.2.1, this.2.2.1, by
          simp only [List.length_cons]; omega⟩
      · have := ih c hc hzs hp.2 hczs
        refine ⟨fun y => (this.1 y).trans ?_, this.2.1, this.2.2.1, by
          simp only [List.length_cons]; omega⟩
        simp only [Covers, List.mem_cons, exists_eq_or_imp]
        constructor
        · rintro (h | h)
          · exact Or.inl h
          · exact Or.inr (Or.inr h)
        · rintro (h | h | h)
          · exact Or.inl h
          · exact Or.inl ⟨by omega, by omega⟩
          · exact Or.inr h
    · split
      · have := ih (c.1, z.2) (by simp only; omega) hzs hp.2 hczs
        exact ⟨fun y => (this.1 y).trans (merged (by omega) (by omega) y), this.2.1, this.2.2.1, by
          simp only [List.length_cons]; omega⟩
      · have := ih z hz hzs hp.2 hp.1
        refine ⟨fun y => ?_, ?_, ?_, by simp only [List.length_cons]; omega⟩
        · have h1 := this.1 y
          simp only [Covers, List.mem_cons, exists_eq_or_imp] at h1 ⊢
          rw [h1]
        · rw [List.pairwise_cons]
          refine ⟨fun b hb => ?_, this.2.1⟩
          have := (this.2.2.1 b hb).2
          omega
        · intro b hb
          simp only [List.mem_cons] at hb
          rcases hb with hb | hb
          · subst hb; exact ⟨hc, Nat.le_refl _⟩
          · have := this.2.2.1 b hb
            exact ⟨this.1, by omega⟩

theorem mergeBlocks_map {i A : Nat} {l : List (Nat × Nat)} (hl : ∀ b ∈ l, InWin A b) :
    mergeBlocks seqLt seqLeq (l.map (sqb i)) = (mergeBlocks nlt nle l).map (sqb i) := by
  unfold mergeBlocks
  rw [List.length_map, sort_map _ _ hl]
  have hp := sort_perm l.length l
  have hs := sort_sorted l.length l (Nat.le_refl _)
  cases hc : sortBlocks nlt l.length l with
  | nil => simp
  | cons x xs =>
    rw [hc] at hp hs
    rw [List.pairwise_cons] at hs
    simp only [List.map_cons]
    refine mergeGo_map xs x (hl x (hp.mem_iff.1 (by simp))) (fun b hb => hl b (hp.mem_iff.1 (by simp [hb]))) hs.2 hs.1

theorem mergeBlocks_spec {l : List (Nat × Nat)} (hl : ∀ b ∈ l, b.1 < b.2) :
    (∀ y, Covers (mergeBlocks nlt nle l) y ↔ Covers l y) ∧
    (mergeBlocks nlt nle l).Pairwise (fun a b => a.2 < b.1) ∧
    (∀ b ∈ mergeBlocks nlt nle l, b.1 < b.2) ∧
    (mergeBlocks nlt nle l).length ≤ l.length := by
  unfold mergeBlocks
  have hp := sort_perm l.length l
  have hs := sort_sorted l.length l (Nat.le_refl _)
  have hcov : ∀ y, Covers (sortBlocks nlt l.length l) y ↔ Covers l y := by
    intro y; unfold Covers
    constructor
    · rintro ⟨b, hb, h⟩; exact ⟨b, hp.mem_iff.1 hb, h⟩
    · rintro ⟨b, hb, h⟩; exact ⟨b, hp.mem_iff.2 hb, h⟩
  cases hc : sortBlocks nlt l.length l with
  | nil =>
    rw [hc] at hcov
    exact ⟨hcov, by simp, by simp, by simp⟩
  | cons x xs =>
    rw [hc] at hp hs hcov
    rw [List.pairwise_cons] at hs
    obtain ⟨a, b, c, d⟩ := mergeGo_spec xs x (hl x (hp.mem_iff.1 (by simp)))
      (fun b hb => hl b (hp.mem_iff.1 (by simp [hb]))) hs.2 hs.1
    refine ⟨fun y => (a y).trans (hcov y), b, fun e he => (c e he).1, ?_⟩
    have := hp.length_eq
    simp only [List.length_cons] at this
    simp only
    omega

theorem moveFront_perm (p : Nat × Nat → Bool) (l) : (moveFront p l).Perm l := by
  unfold moveFront
  split
  · exact List.Perm.refl _
  · rename_i b hb
    induction l with
    | nil => simp at hb
    | cons x xs ih =>
      by_cases hx : p x = true
      · simp only [List.find?_cons, hx, Option.some.injEq] at hb
        subst hb
        rw [List.eraseP_cons_of_pos hx]
      · have hx' : p x = false := by simpa using hx
        simp only [List.find?_cons, hx'] at hb
        rw [List.eraseP_cons_of_neg hx]
        exact (List.Perm.swap _ _ _).trans ((ih hb).cons x)

/-- If some block satisfies `p`, the first block after `moveFront` does. -/
theorem moveFront_head (p : Nat × Nat → Bool) (l) (h : ∃ b ∈ l, p b = true) :
    ∃ b r, moveFront p l = b :: r ∧ p b = true := by
  unfold moveFront
  cases hf : l.find? p with
  | none =>
    obtain ⟨b, hb, hp⟩ := h
    rw [List.find?_eq_none] at hf
    exact absurd hp (hf b hb)
  | some b => exact ⟨b, _, rfl, List.find?_some hf⟩

end Wolf.Tcp
