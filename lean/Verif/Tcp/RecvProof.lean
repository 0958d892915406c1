import Verif.Tcp.SackProof
/-! # Receiver invariant -/
namespace Wolf.Tcp

theorem getD_lt {l : List UInt8} {k : Nat} (h : k < l.length) : l.getD k 0 = l[k] := by simp [h]

/-- `d` is the piece of the stream `S` that starts at position `o`. -/
def Piece (S : List UInt8) (o : Nat) (d : List UInt8) : Prop :=
  o + d.length ≤ S.length ∧ ∀ j (h : j < d.length), S[o + j]? = some d[j]

/-- The receive queue holds what was accepted and not read: `out` was read, `A` accepted. -/
def QHolds (S : List UInt8) (i size : Nat) (out : List UInt8) (A : Nat) (q : Queue) : Prop :=
  ∃ l, QRep q l ∧ q.size = size ∧ out ++ l = S.take A ∧ out.length + l.length = A ∧
    (l ≠ [] → q.seqBase = sq i out.length)

/-- A cache entry holds a piece of the stream at position ≥ `lo`. -/
def Held (S : List UInt8) (i lo A : Nat) (s : Slot) : Prop :=
  ∃ o, s.seq = sq i o ∧ lo ≤ o ∧ Piece S o s.data ∧ 0 < s.data.length ∧ s.data.length ≤ 1460 ∧
    o + s.data.length < A + 2147483648

theorem Piece.drop {S o d} (k : Nat) (hk : k ≤ d.length) (h : Piece S o d) : Piece S (o + k) (d.drop k) := by
  obtain ⟨h1, h2⟩ := h
  refine ⟨by simp only [List.length_drop]; omega, ?_⟩
  intro j hj
  simp only [List.length_drop] at hj
  rw [List.getElem_drop, ← h2 (k + j) (by omega)]
  congr 1; omega

theorem Piece.append {S A d} (h : Piece S A d) : S.take A ++ d = S.take (A + d.length) := by
  obtain ⟨h1, h2⟩ := h
  apply List.ext_getElem?
  intro n
  by_cases hn : n < A
  · rw [List.getElem?_append_left (by simp only [List.length_take]; omega), List.getElem?_take,
      List.getElem?_take, if_pos hn, if_pos (by omega)]
  · rw [List.getElem?_append_right (by simp only [List.length_take]; omega), List.length_take,
      List.getElem?_take]
    split
    · rw [Nat.min_eq_left (by omega), List.getElem?_eq_getElem (by omega), ← h2 (n - A) (by omega)]
      congr 1; omega
    · rw [List.getElem?_eq_none]; omega

theorem QHolds.bound {S i size out A q} (h : QHolds S i size out A q) :
    out.length ≤ A ∧ A < out.length + 2147483648 ∧ A ≤ S.length := by
  obtain ⟨l, h1, h2, h3, h4, _⟩ := h
  obtain ⟨g1, g2, g3, g4, g5, _, _⟩ := h1
  have := congrArg List.length h3
  simp only [List.length_append, List.length_take] at this
  clear h3
  omega

theorem qInsert_fits {q d s q'} (h : qInsert q d s = some q') : d.length ≤ qSpace q ∧ 1 < q.size := by
  unfold qInsert at h
  by_cases h1 : q.size ≤ 1
  · rw [if_pos h1] at h; simp at h
  rw [if_neg h1] at h
  by_cases h2 : d.length > q.size - 1
  · rw [if_pos h2] at h; simp at h
  rw [if_neg h2] at h
  by_cases h3 : d.length > qSpace q
  · rw [if_pos h3] at h; simp at h
  omega

theorem QHolds.insert {S i size out A q d} (h : QHolds S i size out A q) (hp : Piece S A d)
    {q'} (hi : qInsert q d (sq i A) = some q') : QHolds S i size out (A + d.length) q' := by
  have hf := qInsert_fits hi
  obtain ⟨l, h1, h2, h3, h4, h5⟩ := h
  have hsp := h1.space
  have hq : 1 < q.size ∧ q.size < 2147483648 ∧ l.length < q.size := ⟨h1.1, h1.2.1, h1.2.2.2.2.1⟩
  by_cases hl : l = []
  · subst hl
    simp only [List.length_nil] at hsp h4
    obtain ⟨q2, e1, e2, e3, e4⟩ := qInsert_empty (seq := sq i A) (data := d) h1 (by omega)
    rw [hi] at e1
    cases e1
    refine ⟨d, e2, e4.trans h2, ?_, by omega, ?_⟩
    · rw [← hp.append, ← h3]; simp
    · intro _; rw [e3]; congr 1; omega
  · have hb := h5 hl
    obtain ⟨q2, e1, e2, e3, e4⟩ := qInsert_append (seq := sq i A) (data := d) h1 hl (by omega)
      (by rw [hb, seq_diff_sound i A out.length (by omega) (by omega)]; omega)
    rw [hi] at e1
    cases e1
    refine ⟨l ++ d, e2, e4.trans h2, ?_, by simp only [List.length_append]; omega, ?_⟩
    · rw [← hp.append, ← h3]; simp
    · intro _; rw [e3]; exact hb

/-- An insert at the accepted position succeeds exactly when the bytes fit. -/
theorem QHolds.insert_ok {S i size out A q d} (h : QHolds S i size out A q) (hd : d.length ≤ qSpace q) :
    ∃ q', qInsert q d (sq i A) = some q' := by
  obtain ⟨l, h1, h2, h3, h4, h5⟩ := h
  have hsp := h1.space
  have hq : 1 < q.size ∧ q.size < 2147483648 ∧ l.length < q.size := ⟨h1.1, h1.2.1, h1.2.2.2.2.1⟩
  by_cases hl : l = []
  · subst hl
    simp only [List.length_nil] at hsp h4
    obtain ⟨q2, e1, _⟩ := qInsert_empty (seq := sq i A) (data := d) h1 (by omega)
    exact ⟨q2, e1⟩
  · have hb := h5 hl
    obtain ⟨q2, e1, _⟩ := qInsert_append (seq := sq i A) (data := d) h1 hl (by omega)
      (by rw [hb, seq_diff_sound i A out.length (by omega) (by omega)]; omega)
    exact ⟨q2, e1⟩

/-! ## `tcp_consume_ooo` -/

theorem slotStep_inv {S i size out A q s x} (hq : QHolds S i size out A q) (hs : Held S i out.length A s)
    (hx : slotStep q (sq i A) s = some x) :
    ∃ A', A ≤ A' ∧ QHolds S i size out A' x.1 ∧ x.2.1 = sq i A' ∧
      (∀ t, x.2.2 = some t → Held S i out.length A' t ∧ t.data.length < s.data.length) := by
  obtain ⟨o, e1, e2, e3, e4, e5, e6⟩ := hs
  have hb := hq.bound
  have ho := seq_order_sound i o A (by omega) (by omega)
  have hoe := seq_order_sound i (o + s.data.length) A (by omega) (by omega)
  unfold slotStep at hx
  rw [e1, seq_inc_sound i o s.data.length (by omega)] at hx
  by_cases c1 : seqLt (sq i o) (sq i A) = true
  · rw [if_pos c1] at hx
    have hoA := ho.1.1 c1
    by_cases c2 : seqLeq (sq i (o + s.data.length)) (sq i A) = true
    · rw [if_pos c2] at hx
      cases hx
      exact ⟨A, Nat.le_refl _, hq, rfl, by simp⟩
    · rw [if_neg c2] at hx
      have hlt : ¬ (o + s.data.length ≤ A) := fun h => c2 (hoe.2.1.2 h)
      have hd : (seqDiff (sq i A) (sq i o)).toNat = A - o := by
        rw [seq_diff_sound i A o (by omega) (by omega)]; omega
      simp only [hd] at hx
      cases hx
      refine ⟨A, Nat.le_refl _, hq, rfl, ?_⟩
      intro t ht
      cases ht
      have hoa : o + (A - o) = A := by omega
      refine ⟨⟨A, rfl, hb.1, ?_, ?_, ?_, ?_⟩, ?_⟩
      · have := e3.drop (A - o) (by omega)
        rw [hoa] at this; exact this
      all_goals simp only [List.length_drop]; omega
  · rw [if_neg c1] at hx
    by_cases c2 : sq i o = sq i A
    · rw [if_pos c2] at hx
      have hoA : o = A := ho.2.2.1 c2
      subst hoA
      cases hc : qInsert q s.data (sq i o) with
      | none => rw [hc] at hx; simp at hx
      | some q' =>
        rw [hc] at hx
        simp only [Option.some.injEq] at hx
        subst hx
        exact ⟨o + s.data.length, by omega, hq.insert e3 hc, seq_inc_sound i o _ (by omega), by simp⟩
    · rw [if_neg c2] at hx; simp at hx

theorem Held.mono {S i lo A A' s} (h : Held S i lo A s) (hA : A ≤ A') : Held S i lo A' s := by
  obtain ⟨o, e1, e2, e3, e4, e5, e6⟩ := h
  exact ⟨o, e1, e2, e3, e4, e5, by omega⟩

theorem consumeStep_inv {S i size out A q} (hq : QHolds S i size out A q) :
    ∀ ooo, (∀ s, some s ∈ ooo → Held S i out.length A s) → ∀ x, consumeStep q (sq i A) ooo = some x →
    ∃ A', A ≤ A' ∧ QHolds S i size out A' x.1 ∧ x.2.1 = sq i A' ∧
      (∀ s, some s ∈ x.2.2 → Held S i out.length A' s) ∧ oooSize x.2.2 < oooSize ooo ∧
      x.2.2.length = ooo.length := by
  intro ooo
  induction ooo with
  | nil => intro _ x hx; simp [consumeStep] at hx
  | cons o r ih =>
    intro hs x hx
    have hr : ∀ s, some s ∈ r → Held S i out.length A s := fun s h => hs s (by simp [h])
    cases o with
    | none =>
      simp only [consumeStep, Option.map_eq_some_iff] at hx
      obtain ⟨y, hy, e⟩ := hx
      obtain ⟨A', a1, a2, a3, a4, a5, a6⟩ := ih hr y hy
      subst e
      refine ⟨A', a1, a2, a3, ?_, by simpa [oooSize] using a5, by simp [a6]⟩
      intro s h; simp at h; exact a4 s h
    | some t =>
      simp only [consumeStep] at hx
      cases hst : slotStep q (sq i A) t with
      | some y =>
        rw [hst] at hx
        simp only [Option.some.injEq] at hx
        obtain ⟨A', a1, a2, a3, a4⟩ := slotStep_inv hq (hs t (by simp)) hst
        subst hx
        refine ⟨A', a1, a2, a3, ?_, ?_, by simp⟩
        · intro s h
          simp only [List.mem_cons] at h
          rcases h with h | h
          · exact (a4 s h.symm).1
          · exact (hr s h).mono a1
        · cases hy : y.2.2 with
          | none => simp only [oooSize]; omega
          | some u => have := (a4 u hy).2; simp only [oooSize]; omega
      | none =>
        rw [hst] at hx
        simp only [Option.map_eq_some_iff] at hx
        obtain ⟨y, hy, e⟩ := hx
        obtain ⟨A', a1, a2, a3, a4, a5, a6⟩ := ih hr y hy
        subst e
        refine ⟨A', a1, a2, a3, ?_, by simp only [oooSize]; omega, by simp [a6]⟩
        intro s h
        simp only [List.mem_cons] at h
        rcases h with h | h
        · cases h; exact (hs t (by simp)).mono a1
        · exact a4 s h

theorem consumeLoop_inv {S i size out} : ∀ f A q ooo, QHolds S i size out A q →
    (∀ s, some s ∈ ooo → Held S i out.length A s) → oooSize ooo ≤ f →
    ∃ A', A ≤ A' ∧ QHolds S i size out A' (consumeLoop f q (sq i A) ooo).1 ∧
      (consumeLoop f q (sq i A) ooo).2.1 = sq i A' ∧
      (∀ s, some s ∈ (consumeLoop f q (sq i A) ooo).2.2 → Held S i out.length A' s) ∧
      consumeStep (consumeLoop f q (sq i A) ooo).1 (consumeLoop f q (sq i A) ooo).2.1
        (consumeLoop f q (sq i A) ooo).2.2 = none ∧
      (consumeLoop f q (sq i A) ooo).2.2.length = ooo.length := by
  intro f
  induction f with
  | zero =>
    intro A q ooo hq hs hf
    simp only [consumeLoop]
    refine ⟨A, Nat.le_refl _, hq, rfl, hs, ?_, trivial⟩
    cases hc : consumeStep q (sq i A) ooo with
    | none => rfl
    | some x =>
      obtain ⟨A', _, _, _, _, h, _⟩ := consumeStep_inv hq ooo hs x hc
      omega
  | succ f ih =>
    intro A q ooo hq hs hf
    simp only [consumeLoop]
    cases hc : consumeStep q (sq i A) ooo with
    | none => exact ⟨A, Nat.le_refl _, hq, by simp, hs, by simp [hc], by simp⟩
    | some x =>
      obtain ⟨A', b1, b2, b3, b4, b5, b6⟩ := consumeStep_inv hq ooo hs x hc
      simp only [b3]
      obtain ⟨A2, c1, c2, c3, c4, c5, c6⟩ := ih A' x.1 x.2.2 b2 b4 (by omega)
      exact ⟨A2, by omega, c2, c3, c4, c5, by omega⟩

theorem consumeStep_none {q ack} : ∀ ooo, consumeStep q ack ooo = none →
    ∀ s, some s ∈ ooo → slotStep q ack s = none := by
  intro ooo
  induction ooo with
  | nil => intro _ s h; simp at h
  | cons o r ih =>
    intro h s hs
    cases o with
    | none =>
      simp only [consumeStep, Option.map_eq_none_iff] at h
      simp only [List.mem_cons] at hs
      rcases hs with hs | hs
      · cases hs
      · exact ih h s hs
    | some t =>
      simp only [consumeStep] at h
      cases hst : slotStep q ack t with
      | some y => rw [hst] at h; simp at h
      | none =>
        rw [hst] at h
        simp only [Option.map_eq_none_iff] at h
        simp only [List.mem_cons] at hs
        rcases hs with hs | hs
        · cases hs; exact hst
        · exact ih h s hs

/-- After the consume loop stops every entry starts at or above RCV.NXT, and one that starts at
RCV.NXT does not fit the queue. -/
theorem stuck_slot {S i size out A q s} (hq : QHolds S i size out A q) (hs : Held S i out.length A s)
    (h : slotStep q (sq i A) s = none) :
    Held S i A A s ∧ (s.seq = sq i A → qSpace q < s.data.length) := by
  obtain ⟨o, e1, e2, e3, e4, e5, e6⟩ := hs
  have hb := hq.bound
  have ho := seq_order_sound i o A (by omega) (by omega)
  unfold slotStep at h
  rw [e1] at h
  by_cases c1 : seqLt (sq i o) (sq i A) = true
  · rw [if_pos c1] at h
    split at h <;> simp at h
  · rw [if_neg c1] at h
    have hAo : A ≤ o := by
      apply Nat.le_of_not_lt; intro h'; exact c1 (ho.1.2 h')
    refine ⟨⟨o, e1, hAo, e3, e4, e5, e6⟩, ?_⟩
    intro hsa
    rw [e1] at hsa
    rw [if_pos hsa] at h
    apply Nat.lt_of_not_le
    intro hle
    obtain ⟨q', hq'⟩ := hq.insert_ok (d := s.data) hle
    rw [hsa, hq'] at h
    simp at h

/-! ## `tcp_store_ooo_segment` -/

theorem coalesce_held {S i A s seq data u o} (hs : Held S i A A s) (hseq : seq = sq i o) (hA : A ≤ o)
    (hp : Piece S o data) (h0 : 0 < data.length) (h1 : data.length ≤ 1460)
    (hend : o + data.length < A + 2147483648) (hu : coalesce s seq data = some u) :
    Held S i A A u ∧ (∃ ou, u.seq = sq i ou ∧ ou ≤ o ∧ o + data.length ≤ ou + u.data.length) := by
  obtain ⟨c, e1, e2, e3, e4, e5, e6⟩ := hs
  subst hseq
  unfold coalesce at hu
  rw [e1, seq_inc_sound i c _ (by omega), seq_inc_sound i o _ (by omega)] at hu
  simp only at hu
  have w : ∀ x, A ≤ x → x < A + 2147483648 → A ≤ x ∧ x < A + 2147483648 := fun x a b => ⟨a, b⟩
  rw [seqLt_win (w o hA (by omega)) (w _ (by omega) e6), seqLt_win (w c e2 (by omega)) (w _ (by omega) hend),
    seqLt_win (w o hA (by omega)) (w c e2 (by omega)),
    seqLt_win (w _ (by omega) e6) (w _ (by omega) hend)] at hu
  simp only [nlt, Bool.and_eq_true, decide_eq_true_eq] at hu
  by_cases hov : o < c + s.data.length ∧ c < o + data.length
  · rw [if_pos hov] at hu
    have hst : (if o < c then sq i o else sq i c) = sq i (min o c) := by
      split <;> congr 1 <;> omega
    have hen : (if c + s.data.length < o + data.length then sq i (o + data.length) else sq i (c + s.data.length))
        = sq i (max (c + s.data.length) (o + data.length)) := by
      split <;> congr 1 <;> omega
    rw [hst, hen] at hu
    have d1 : (seqDiff (sq i (max (c + s.data.length) (o + data.length))) (sq i (min o c))).toNat =
        max (c + s.data.length) (o + data.length) - min o c := by
      rw [seq_diff_sound i _ _ (by omega) (by omega)]; omega
    have d2 : (seqDiff (sq i c) (sq i (min o c))).toNat = c - min o c := by
      rw [seq_diff_sound i _ _ (by omega) (by omega)]; omega
    have d3 : (seqDiff (sq i o) (sq i (min o c))).toNat = o - min o c := by
      rw [seq_diff_sound i _ _ (by omega) (by omega)]; omega
    rw [d1, d2, d3] at hu
    clear d1 d2 d3 hst hen
    by_cases hm : max (c + s.data.length) (o + data.length) - min o c ≤ MSS_MAX
    · rw [if_pos hm] at hu
      simp only [Option.some.injEq] at hu
      subst hu
      refine ⟨⟨min o c, rfl, by omega, ?_, ?_, ?_, ?_⟩, ⟨min o c, rfl, by omega, ?_⟩⟩
      · have g1 := e3.1
        have g2 := hp.1
        refine ⟨by simp only [List.length_map, List.length_range]; omega, ?_⟩
        intro j hj
        simp only [List.length_map, List.length_range] at hj
        simp only [List.getElem_map, List.getElem_range]
        split
        · rename_i hr
          rw [getD_lt (by omega), ← hp.2 (j - (o - min o c)) (by omega)]
          congr 1; omega
        · rename_i hr
          rw [getD_lt (by omega), ← e3.2 (j - (c - min o c)) (by omega)]
          congr 1; omega
      · simp only [List.length_map, List.length_range]; omega
      · simp only [List.length_map, List.length_range]; exact hm
      · simp only [List.length_map, List.length_range]; omega
      · simp only [List.length_map, List.length_range]; omega
    · rw [if_neg hm] at hu; simp at hu
  · rw [if_neg hov] at hu; simp at hu

theorem storeMerge_held {S i A seq data o} (hseq : seq = sq i o) (hA : A ≤ o)
    (hp : Piece S o data) (h0 : 0 < data.length) (h1 : data.length ≤ 1460)
    (hend : o + data.length < A + 2147483648) :
    ∀ ooo, (∀ s, some s ∈ ooo → Held S i A A s) → ∀ x, storeMerge seq data ooo = some x →
    (∀ s, some s ∈ x.1 → Held S i A A s) ∧ x.1.length = ooo.length ∧ some x.2 ∈ x.1 ∧
    (∃ ou, x.2.seq = sq i ou ∧ ou ≤ o ∧ o + data.length ≤ ou + x.2.data.length) := by
  intro ooo
  induction ooo with
  | nil => intro _ x hx; simp [storeMerge] at hx
  | cons c r ih =>
    intro hs x hx
    have hr : ∀ s, some s ∈ r → Held S i A A s := fun s h => hs s (by simp [h])
    cases c with
    | none =>
      simp only [storeMerge, Option.map_eq_some_iff] at hx
      obtain ⟨y, hy, e⟩ := hx
      subst e
      obtain ⟨a1, a2, a3, a4⟩ := ih hr y hy
      exact ⟨by intro s h; simp at h; exact a1 s h, by simp [a2], by simp [a3], a4⟩
    | some t =>
      simp only [storeMerge] at hx
      cases hc : coalesce t seq data with
      | some u =>
        rw [hc] at hx
        simp only [Option.some.injEq] at hx
        subst hx
        obtain ⟨b1, b2⟩ := coalesce_held (hs t (by simp)) hseq hA hp h0 h1 hend hc
        refine ⟨?_, by simp, by simp, b2⟩
        intro s h
        simp only [List.mem_cons] at h
        rcases h with h | h
        · cases h; exact b1
        · exact hr s h
      | none =>
        rw [hc] at hx
        simp only [Option.map_eq_some_iff] at hx
        obtain ⟨y, hy, e⟩ := hx
        subst e
        obtain ⟨a1, a2, a3, a4⟩ := ih hr y hy
        refine ⟨?_, by simp [a2], by simp [a3], a4⟩
        intro s h
        simp only [List.mem_cons] at h
        rcases h with h | h
        · cases h; exact hs t (by simp)
        · exact a1 s h

theorem storeFree_held {P : Slot → Prop} {n : Slot} (hn : P n) :
    ∀ ooo, (∀ s, some s ∈ ooo → P s) → ∀ x, storeFree n ooo = some x →
    (∀ s, some s ∈ x → P s) ∧ x.length = ooo.length ∧ some n ∈ x := by
  intro ooo
  induction ooo with
  | nil => intro _ x hx; simp [storeFree] at hx
  | cons c r ih =>
    intro hs x hx
    have hr : ∀ s, some s ∈ r → P s := fun s h => hs s (by simp [h])
    cases c with
    | none =>
      simp only [storeFree, Option.some.injEq] at hx
      subst hx
      refine ⟨?_, by simp, by simp⟩
      intro s h
      simp only [List.mem_cons] at h
      rcases h with h | h
      · cases h; exact hn
      · exact hr s h
    | some t =>
      simp only [storeFree, Option.map_eq_some_iff] at hx
      obtain ⟨y, hy, e⟩ := hx
      subst e
      obtain ⟨a1, a2, a3⟩ := ih hr y hy
      refine ⟨?_, by simp [a2], by simp [a3]⟩
      intro s h
      simp only [List.mem_cons] at h
      rcases h with h | h
      · cases h; exact hs t (by simp)
      · exact a1 s h

theorem storeOoo_held {S i A seq data o ooo} (hseq : seq = sq i o) (hA : A ≤ o)
    (hp : Piece S o data) (hend : o + data.length < A + 2147483648)
    (hs : ∀ s, some s ∈ ooo → Held S i A A s) {x} (hx : storeOoo ooo seq data = some x) :
    (∀ s, some s ∈ x.1 → Held S i A A s) ∧ x.1.length = ooo.length ∧ some x.2 ∈ x.1 ∧
    (∃ ou, x.2.seq = sq i ou ∧ ou ≤ o ∧ o + data.length ≤ ou + x.2.data.length) := by
  unfold storeOoo at hx
  by_cases hc : data.length = 0 ∨ data.length > MSS_MAX
  · rw [if_pos hc] at hx; simp at hx
  rw [if_neg hc] at hx
  simp only [MSS_MAX] at hc
  have h0 : 0 < data.length := by omega
  have h1 : data.length ≤ 1460 := by omega
  cases hm : storeMerge seq data ooo with
  | some r =>
    rw [hm] at hx
    simp only [Option.some.injEq] at hx
    subst hx
    exact storeMerge_held hseq hA hp h0 h1 hend ooo hs r hm
  | none =>
    rw [hm] at hx
    simp only [Option.map_eq_some_iff] at hx
    obtain ⟨y, hy, e⟩ := hx
    subst e
    have hn : Held S i A A { seq := seq, data := data } := ⟨o, hseq, hA, hp, h0, h1, hend⟩
    obtain ⟨a1, a2, a3⟩ := storeFree_held hn ooo hs y hy
    exact ⟨a1, a2, a3, o, hseq, Nat.le_refl _, Nat.le_refl _⟩

end Wolf.Tcp
