import Verif.Timers.Model
/-! # Binary heap lemmas -/
namespace Wolf.Timers

theorem swapL_length (h : List Timer) (i j : Nat) : (swapL h i j).length = h.length := by
  simp [swapL]

theorem get_eq {h : List Timer} {i : Nat} (hi : i < h.length) : get h i = h[i] := by
  simp [get, hi]

theorem get_swap {h : List Timer} {i j : Nat} (hi : i < h.length) (hj : j < h.length) (k : Nat) :
    get (swapL h i j) k = if k = j then get h i else if k = i then get h j else get h k := by
  unfold swapL get
  simp only [List.getD_eq_getElem?_getD, List.getElem?_set, List.length_set]
  by_cases h1 : k = j
  · subst h1; simp [hj]
  · rw [if_neg (fun e => h1 e.symm), if_neg h1]
    by_cases h2 : k = i
    · subst h2; simp [hi]
    · rw [if_neg (fun e => h2 e.symm), if_neg h2]

theorem key_swap {h : List Timer} {i j : Nat} (hi : i < h.length) (hj : j < h.length) (k : Nat) :
    key (swapL h i j) k = if k = j then key h i else if k = i then key h j else key h k := by
  unfold key; rw [get_swap hi hj]
  split
  · rfl
  · split <;> rfl

theorem swapL_perm {h : List Timer} {i j : Nat} (hi : i < h.length) (hj : j < h.length) :
    (swapL h i j).Perm h := by
  unfold swapL
  rw [get_eq hi, get_eq hj]
  exact List.set_set_perm hi hj

/-- Min-heap order. -/
def IsHeap (h : List Timer) : Prop := ∀ k, 0 < k → k < h.length → key h ((k - 1) / 2) ≤ key h k

/-- Heap order everywhere except between `i` and its children (and possibly its parent). -/
def HoleDown (h : List Timer) (i : Nat) : Prop :=
  (∀ k, 0 < k → k < h.length → k ≠ i → (k - 1) / 2 ≠ i → key h ((k - 1) / 2) ≤ key h k) ∧
  (0 < i → ∀ k, 0 < k → k < h.length → (k - 1) / 2 = i → key h ((i - 1) / 2) ≤ key h k)

/-- Heap order everywhere except between `i` and its parent. -/
def HoleUp (h : List Timer) (i : Nat) : Prop :=
  (∀ k, 0 < k → k < h.length → k ≠ i → key h ((k - 1) / 2) ≤ key h k) ∧
  (0 < i → ∀ k, 0 < k → k < h.length → (k - 1) / 2 = i → key h ((i - 1) / 2) ≤ key h k)

theorem siftDown_spec : ∀ f h i, i < h.length → h.length ≤ f + i → HoleDown h i →
    (siftDown f h i).1.Perm h ∧ HoleUp (siftDown f h i).1 (siftDown f h i).2 ∧
    (siftDown f h i).2 < h.length ∧
    ((siftDown f h i).2 = i ∨ key (siftDown f h i).1 (((siftDown f h i).2 - 1) / 2) ≤ key (siftDown f h i).1 (siftDown f h i).2) := by
  intro f
  induction f with
  | zero => intro h i h1 h2; omega
  | succ f ih =>
    intro h i hi hf hh
    obtain ⟨H1, H2⟩ := hh
    simp only [siftDown]
    by_cases c1 : 2 * i + 1 < h.length
    · rw [if_pos c1]
      generalize hj : (if 2 * i + 1 + 1 < h.length ∧ key h (2 * i + 1 + 1) < key h (2 * i + 1)
        then 2 * i + 1 + 1 else 2 * i + 1) = j
      have hjl : j < h.length := by split at hj <;> omega
      have hjp : (j - 1) / 2 = i ∧ 0 < j := by split at hj <;> omega
      have hmin : ∀ k, 0 < k → k < h.length → (k - 1) / 2 = i → key h j ≤ key h k := by
        intro k k0 kl kp
        have : k = 2 * i + 1 ∨ k = 2 * i + 1 + 1 := by omega
        split at hj
        · rename_i c
          subst hj
          rcases this with e | e <;> subst e <;> omega
        · rename_i c
          subst hj
          rcases this with e | e
          · subst e; omega
          · subst e
            apply Nat.le_of_not_lt; intro hlt; exact c ⟨kl, hlt⟩
      clear hj
      by_cases c2 : key h i ≤ key h j
      · rw [if_pos c2]
        refine ⟨List.Perm.refl _, ⟨?_, H2⟩, hi, Or.inl rfl⟩
        intro k k0 kl ki
        by_cases kp : (k - 1) / 2 = i
        · rw [kp]; exact Nat.le_trans c2 (hmin k k0 kl kp)
        · exact H1 k k0 kl ki kp
      · rw [if_neg c2]
        have hne : i ≠ j := by omega
        have hw : HoleDown (swapL h i j) j := by
          constructor
          · intro k k0 kl kj kp
            rw [swapL_length] at kl
            rw [key_swap hi hjl, key_swap hi hjl, if_neg kp, if_neg kj]
            by_cases ki : k = i
            · subst ki
              rw [if_pos rfl, if_neg (by omega)]
              exact H2 k0 j hjp.2 hjl hjp.1
            · rw [if_neg ki]
              split
              · rename_i e; exact hmin k k0 kl e
              · rename_i e; exact H1 k k0 kl ki e
          · intro j0 k k0 kl kp
            rw [swapL_length] at kl
            rw [key_swap hi hjl, key_swap hi hjl, hjp.1]
            rw [if_neg hne, if_pos rfl, if_neg (by omega), if_neg (by omega)]
            have := H1 k k0 kl (by omega) (by omega)
            rw [kp] at this; exact this
        obtain ⟨a1, a2, a3, a4⟩ := ih (swapL h i j) j (by rw [swapL_length]; exact hjl)
          (by rw [swapL_length]; omega) hw
        rw [swapL_length] at a3
        refine ⟨a1.trans (swapL_perm hi hjl), a2, a3, Or.inr ?_⟩
        rcases a4 with e | e
        · -- stopped right at j: the parent of j is i holding the old child
          rcases f with _ | f
          · omega
          · -- look at the final step
            have hkey : key (swapL h i j) ((j - 1) / 2) ≤ key (swapL h i j) j := by
              rw [key_swap hi hjl, key_swap hi hjl, if_pos rfl, hjp.1, if_neg hne, if_pos rfl]
              omega
            -- siftDown stopped without moving: the list is unchanged
            have same : ∀ f h i, (siftDown f h i).2 = i → i < h.length → (siftDown f h i).1 = h := by
              intro f
              induction f with
              | zero => intros; rfl
              | succ f ihf =>
                intro h i he hi
                simp only [siftDown] at he ⊢
                split
                · rename_i c
                  rw [if_pos c] at he
                  generalize hj2 : (if 2 * i + 1 + 1 < h.length ∧ key h (2 * i + 1 + 1) < key h (2 * i + 1)
                    then 2 * i + 1 + 1 else 2 * i + 1) = j2 at he ⊢
                  split
                  · rfl
                  · rename_i c3
                    rw [if_neg c3] at he
                    exfalso
                    have mono : ∀ f h i, i ≤ (siftDown f h i).2 := by
                      intro f
                      induction f with
                      | zero => intros; exact Nat.le_refl _
                      | succ f ihm =>
                        intro h i
                        simp only [siftDown]
                        split
                        · generalize hj3 : (if 2 * i + 1 + 1 < h.length ∧ key h (2 * i + 1 + 1) < key h (2 * i + 1)
                            then 2 * i + 1 + 1 else 2 * i + 1) = j3
                          have : i ≤ j3 := by split at hj3 <;> omega
                          split
                          · exact Nat.le_refl _
                          · exact Nat.le_trans this (ihm _ _)
                        · exact Nat.le_refl _
                    have := mono f (swapL h i j2) j2
                    have : i < j2 := by split at hj2 <;> omega
                    omega
                · rfl
            rw [e, same _ _ _ e (by rw [swapL_length]; exact hjl)]
            exact hkey
        · exact e
    · rw [if_neg c1]
      refine ⟨List.Perm.refl _, ⟨?_, H2⟩, hi, Or.inl rfl⟩
      intro k k0 kl ki
      simp only at kl
      exact H1 k k0 kl ki (by omega)

theorem siftUp_spec : ∀ f h i, i < h.length → i ≤ f → HoleUp h i →
    (siftUp f h i).Perm h ∧ IsHeap (siftUp f h i) := by
  intro f
  induction f with
  | zero =>
    intro h i hi hf hh
    have : i = 0 := by omega
    subst this
    refine ⟨List.Perm.refl _, ?_⟩
    intro k k0 kl
    exact hh.1 k k0 kl (by omega)
  | succ f ih =>
    intro h i hi hf hh
    obtain ⟨H1, H2⟩ := hh
    simp only [siftUp]
    by_cases c : 0 < i ∧ key h i < key h ((i - 1) / 2)
    · rw [if_pos c]
      have hp : (i - 1) / 2 < i := by omega
      generalize hpe : (i - 1) / 2 = p at *
      have hpl : p < h.length := by omega
      have hw : HoleUp (swapL h i p) p := by
        constructor
        · intro k k0 kl kp
          rw [swapL_length] at kl
          rw [key_swap hi hpl, key_swap hi hpl, if_neg kp]
          by_cases ki : k = i
          · subst ki; rw [if_pos rfl, hpe, if_pos rfl]; omega
          · rw [if_neg ki]
            have hk := H1 k k0 kl ki
            split
            · rename_i e; rw [e] at hk; omega
            · split
              · rename_i e1 e2
                have := H2 c.1 k k0 kl e2
                exact this
              · exact hk
        · intro p0 k k0 kl kp
          rw [swapL_length] at kl
          rw [key_swap hi hpl, key_swap hi hpl, if_neg (by omega), if_neg (by omega), if_neg (by omega)]
          have hpp := H1 p p0 hpl (by omega)
          by_cases ki : k = i
          · rw [if_pos ki]; exact hpp
          · rw [if_neg ki]
            have := H1 k k0 kl ki
            rw [kp] at this; omega
      obtain ⟨a1, a2⟩ := ih (swapL h i p) p (by rw [swapL_length]; exact hpl) (by omega) hw
      exact ⟨a1.trans (swapL_perm hi hpl), a2⟩
    · rw [if_neg c]
      refine ⟨List.Perm.refl _, ?_⟩
      intro k k0 kl
      by_cases ki : k = i
      · subst ki
        apply Nat.le_of_not_lt; intro hlt; exact c ⟨k0, hlt⟩
      · exact H1 k k0 kl ki

/-- Filling a hole with the last slot. -/
theorem fill_perm (h : List Timer) (i : Nat) (hi : i < h.length) :
    (get h i :: (h.set i (get h (h.length - 1))).take (h.length - 1)).Perm h := by
  have hne : h ≠ [] := by intro e; subst e; simp at hi
  have hl : h.length - 1 < h.length := by omega
  have hsplit : h.take (h.length - 1) ++ [h[h.length - 1]] = h := by
    rw [List.take_append_getElem hl, Nat.sub_add_cancel (by omega), List.take_length]
  rw [get_eq hi, get_eq hl]
  by_cases hlast : i = h.length - 1
  · subst hlast
    rw [List.take_set_of_le (Nat.le_refl _)]
    have : (h[h.length - 1] :: h.take (h.length - 1)).Perm (h.take (h.length - 1) ++ [h[h.length - 1]]) :=
      (List.perm_append_comm (l₁ := [h[h.length - 1]]) (l₂ := h.take (h.length - 1)))
    rw [hsplit] at this; exact this
  · have hlt : i < h.length - 1 := by omega
    have p := List.set_set_perm (as := h) hi hl
    -- swap i with the last, then the list is the filled part plus the old element
    have e : (h.set i h[h.length - 1]).set (h.length - 1) h[i] =
        (h.set i h[h.length - 1]).take (h.length - 1) ++ [h[i]] := by
      have hl' : h.length - 1 < ((h.set i h[h.length - 1]).set (h.length - 1) h[i]).length := by simp; omega
      have := List.take_append_getElem hl'
      simp only [Nat.sub_add_cancel (show 1 ≤ h.length by omega), List.getElem_set_self] at this
      rw [List.take_of_length_le (i := h.length) (by simp), List.take_set_of_le (Nat.le_refl _)] at this
      exact this.symm
    rw [e] at p
    exact (List.perm_append_comm (l₁ := [h[i]])).trans p

theorem get_take_set {h : List Timer} {i k : Nat} {x : Timer} (n : Nat) (hk : k < n) (hkl : k < h.length) :
    get ((h.set i x).take n) k = if k = i then x else get h k := by
  unfold get
  simp only [List.getD_eq_getElem?_getD, List.getElem?_take, if_pos hk, List.getElem?_set]
  split
  · subst_vars; simp [hkl]
  · rename_i c
    rw [if_neg (fun e => c e.symm)]

theorem fill_hole (h : List Timer) (i : Nat) (hh : IsHeap h) (hi : i < h.length - 1) :
    HoleDown ((h.set i (get h (h.length - 1))).take (h.length - 1)) i := by
  have hlen : ((h.set i (get h (h.length - 1))).take (h.length - 1)).length = h.length - 1 := by simp
  constructor
  · intro k k0 kl ki kp
    rw [hlen] at kl
    unfold key
    rw [get_take_set _ (by omega) (by omega), get_take_set _ kl (by omega), if_neg kp, if_neg ki]
    exact hh k k0 (by omega)
  · intro i0 k k0 kl kp
    rw [hlen] at kl
    unfold key
    rw [get_take_set _ (by omega) (by omega), get_take_set _ kl (by omega), if_neg (by omega), if_neg (by omega)]
    have h1 := hh k k0 (by omega)
    rw [kp] at h1
    exact Nat.le_trans (hh i i0 (by omega)) h1

theorem heap_root_min {h : List Timer} (hh : IsHeap h) : ∀ k, k < h.length → key h 0 ≤ key h k := by
  intro k
  induction k using Nat.strongRecOn with
  | ind k ih =>
    intro hk
    by_cases k0 : k = 0
    · subst k0; exact Nat.le_refl _
    · exact Nat.le_trans (ih ((k - 1) / 2) (by omega) (by omega)) (hh k (by omega) hk)

theorem pop_spec {h : List Timer} (hh : IsHeap h) (hne : 0 < h.length) :
    (get h 0 :: (pop h).2).Perm h ∧ IsHeap (pop h).2 ∧ (pop h).1 = get h 0 ∧
    (∀ t ∈ h, (get h 0).exp ≤ t.exp) := by
  have hmin : ∀ t ∈ h, (get h 0).exp ≤ t.exp := by
    intro t ht
    obtain ⟨k, hk, e⟩ := List.mem_iff_getElem.1 ht
    have := heap_root_min hh k hk
    unfold key at this; rw [get_eq hk, e] at this; exact this
  have hfill := fill_perm h 0 hne
  unfold pop
  simp only
  generalize hr : (h.set 0 (get h (h.length - 1))).take (h.length - 1) = r at *
  have hrl : r.length = h.length - 1 := by rw [← hr]; simp
  by_cases hl : 0 < r.length
  · have hd : HoleDown r 0 := by rw [← hr]; exact fill_hole h 0 hh (by omega)
    obtain ⟨a1, a2, a3, a4⟩ := siftDown_spec r.length r 0 hl (by omega) hd
    refine ⟨(a1.cons _).trans hfill, ?_, trivial, hmin⟩
    intro k k0 kl
    by_cases ki : k = (siftDown r.length r 0).2
    · rcases a4 with e | e
      · omega
      · rw [ki]; exact e
    · exact a2.1 k k0 kl ki
  · have : r = [] := List.eq_nil_of_length_eq_zero (by omega)
    subst this
    refine ⟨hfill, ?_, trivial, hmin⟩
    intro k k0 kl; simp [siftDown] at kl

theorem drain_id {h : List Timer} (hp : ∀ t ∈ h, 0 < t.exp) (f : Nat) : drain f h = h := by
  cases f with
  | zero => rfl
  | succ f =>
    simp only [drain]
    rw [if_neg]
    rintro ⟨h1, h2⟩
    have := hp (get h 0) (by rw [get_eq h1]; exact List.getElem_mem h1)
    unfold key at h2; omega

theorem heapify_spec {h : List Timer} {i : Nat} (hd : i < h.length → HoleDown h i)
    (hu : ¬ i < h.length → IsHeap h) : (heapify h i).Perm h ∧ IsHeap (heapify h i) := by
  unfold heapify
  by_cases hi : i ≥ h.length
  · rw [if_pos hi]; exact ⟨List.Perm.refl _, hu (by omega)⟩
  · rw [if_neg hi]
    obtain ⟨a1, a2, a3, _⟩ := siftDown_spec h.length h i (by omega) (by omega) (hd (by omega))
    obtain ⟨b1, b2⟩ := siftUp_spec (siftDown h.length h i).2 _ _ (by rw [a1.length_eq]; exact a3) (Nat.le_refl _) a2
    exact ⟨b1.trans a1, b2⟩

theorem cancel_spec {h : List Timer} (hh : IsHeap h) (id : Nat) :
    (cancel h id = h ∧ ∀ t ∈ h, t.id ≠ id) ∨
    (∃ t ∈ h, t.id = id ∧ (t :: cancel h id).Perm h ∧ IsHeap (cancel h id)) := by
  unfold cancel
  cases hf : h.findIdx? (fun t => t.id == id) with
  | none =>
    rw [List.findIdx?_eq_none_iff] at hf
    refine Or.inl ⟨rfl, ?_⟩
    intro t ht e
    have := hf t ht
    simp [e] at this
  | some i =>
    rw [List.findIdx?_eq_some_iff_getElem] at hf
    obtain ⟨hi, hid, _⟩ := hf
    refine Or.inr ⟨h[i], List.getElem_mem hi, by simpa using hid, ?_⟩
    have hlen : ((h.set i (get h (h.length - 1))).take (h.length - 1)).length = h.length - 1 := by simp
    obtain ⟨a1, a2⟩ := heapify_spec (h := (h.set i (get h (h.length - 1))).take (h.length - 1)) (i := i)
      (fun hl => fill_hole h i hh (by rw [hlen] at hl; exact hl))
      (fun hl => by
        intro k k0 kl
        rw [hlen] at kl hl
        unfold key
        rw [get_take_set _ (by omega) (by omega), get_take_set _ kl (by omega), if_neg (by omega), if_neg (by omega)]
        exact hh k k0 (by omega))
    have := fill_perm h i hi
    rw [get_eq hi] at this
    exact ⟨(a1.cons _).trans this, a2⟩

end Wolf.Timers
