/-
C26: route lookup is longest-prefix match.
-/
import Verif.Route.Model
namespace Wolf.Route

/-! ## Specification -/

/-- The first `n` bits (most significant first) of `a` and `b` agree. -/
def SamePrefix (a b : Ip) (n : Nat) : Prop := ∀ i, i < n → i < 32 → a.getMsbD i = b.getMsbD i

/-- `mask` is the contiguous mask of length `n`. -/
def IsMask (mask : Ip) (n : Nat) : Prop := n ≤ 32 ∧ ∀ i, i < 32 → mask.getMsbD i = decide (i < n)

/-- A route: prefix length, insertion rank (0 for connected subnets), interface and
next hop. -/
structure Cand where
  plen : Nat
  order : Nat
  ifIdx : Nat
  nexthop : Ip

/-- The routes that cover `dest`: a configured interface with a contiguous nonzero
mask whose subnet contains it (next hop: `dest` itself), or a table entry whose
prefix contains it (next hop: its gateway, or `dest` if it has none). -/
inductive Covers (s : St) (dest : Ip) : Cand → Prop where
  | connected (i : Nat) (c : Conf) (n : Nat) : s.confs[i]? = some c → c.ip ≠ 0 → 0 < n →
      IsMask c.mask n → SamePrefix dest c.ip n → Covers s dest ⟨n, 0, i, dest⟩
  | static (r : Entry) : r ∈ s.routes → r.used = true → SamePrefix dest r.pfx r.plen →
      Covers s dest ⟨r.plen, r.order, r.ifIdx, if r.gw ≠ 0 then r.gw else dest⟩

/-- `a` is at least as good as `b`: longer prefix, else earlier inserted, else lower
interface number. -/
def AtLeastAsGood (a b : Cand) : Prop :=
  b.plen < a.plen ∨ (b.plen = a.plen ∧
    (a.order < b.order ∨ (a.order = b.order ∧ a.ifIdx ≤ b.ifIdx)))

/-! ## Masks -/

theorem top_shift (b : Nat) (hb : b < 32) : 0x80000000#32 >>> b = 1#32 <<< (31 - b) := by
  have : ∀ b : Fin 32, 0x80000000#32 >>> b.val = 1#32 <<< (31 - b.val) := by decide +kernel
  exact this ⟨b, hb⟩

theorem test_bit (m : Ip) (b : Nat) (hb : b < 32) :
    (m &&& (0x80000000#32 >>> b) ≠ 0#32) ↔ m.getMsbD b = true := by
  rw [top_shift b hb]
  have hm : m.getMsbD b = m.getLsbD (31 - b) := by
    simp [BitVec.getMsbD, hb]
  rw [hm]
  cases hx : m.getLsbD (31 - b)
  · have : m &&& (1#32 <<< (31 - b)) = 0#32 := by
      apply BitVec.eq_of_getLsbD_eq
      intro i hi
      simp only [BitVec.getLsbD_and, BitVec.getLsbD_shiftLeft]
      by_cases hib : i = 31 - b
      · subst hib; simp [hx]
      · by_cases h2 : i < 31 - b
        · simp [h2]
        · have : i - (31 - b) ≠ 0 := by omega
          simp [this]
    simp [this]
  · simp only [ne_eq, iff_true]
    intro h
    have h2 := congrArg (fun v => BitVec.getLsbD v (31 - b)) h
    rw [BitVec.getLsbD_eq_getElem (by omega)] at hx
    have h31 : 31 - b < 32 := by omega
    rw [← BitVec.getLsbD_eq_getElem h31] at hx
    simp [hx] at h2
    omega

theorem maskLoop_seen (mask : Ip) : ∀ n len k, n ≤ 32 →
    (maskLoop mask n len true = some k ↔
      k = len ∧ ∀ i, 32 - n ≤ i → i < 32 → mask.getMsbD i = false) := by
  intro n
  induction n with
  | zero =>
    intro len k _
    simp only [maskLoop, Option.some.injEq]
    constructor
    · intro h; exact ⟨h.symm, fun i h1 h2 => by omega⟩
    · intro h; exact h.1.symm
  | succ n ih =>
    intro len k hn
    have hb := test_bit mask (32 - (n + 1)) (by omega)
    simp only [maskLoop]
    by_cases h : mask.getMsbD (32 - (n + 1)) = true
    · rw [if_pos (hb.mpr h)]
      simp only [↓reduceIte, reduceCtorEq, false_iff]
      rintro ⟨_, h2⟩
      have := h2 (32 - (n + 1)) (Nat.le_refl _) (by omega)
      rw [h] at this; cases this
    · rw [if_neg (fun h' => h (hb.mp h')), ih len k (by omega)]
      have hf : mask.getMsbD (32 - (n + 1)) = false := by simpa using h
      constructor
      · rintro ⟨h0, h1⟩
        refine ⟨h0, fun i h2 h3 => ?_⟩
        by_cases hi : i = 32 - (n + 1)
        · subst hi; exact hf
        · exact h1 i (by omega) h3
      · rintro ⟨h0, h1⟩
        exact ⟨h0, fun i h2 h3 => h1 i (by omega) h3⟩

theorem maskLoop_unseen (mask : Ip) : ∀ n, n ≤ 32 →
    (∀ i, i < 32 - n → mask.getMsbD i = true) →
    ∀ k, maskLoop mask n (32 - n) false = some k ↔ IsMask mask k ∧ 32 - n ≤ k := by
  intro n
  induction n with
  | zero =>
    intro _ hall k
    simp only [maskLoop, Option.some.injEq]
    constructor
    · intro h; subst h
      exact ⟨⟨by omega, fun i hi => by rw [hall i (by omega)]; simp; omega⟩, by omega⟩
    · rintro ⟨⟨h1, _⟩, h2⟩; omega
  | succ n ih =>
    intro hn hall k
    have hb := test_bit mask (32 - (n + 1)) (by omega)
    simp only [maskLoop]
    by_cases h : mask.getMsbD (32 - (n + 1)) = true
    · rw [if_pos (hb.mpr h)]
      simp only [Bool.false_eq_true, ↓reduceIte]
      have e : 32 - (n + 1) + 1 = 32 - n := by omega
      rw [e, ih (by omega)]
      · constructor
        · rintro ⟨h1, h2⟩; exact ⟨h1, by omega⟩
        · rintro ⟨h1, h2⟩
          refine ⟨h1, ?_⟩
          have := h1.2 (32 - (n + 1)) (by omega)
          rw [h] at this
          simp at this
          omega
      · intro i hi
        by_cases h2 : i = 32 - (n + 1)
        · subst h2; exact h
        · exact hall i (by omega)
    · rw [if_neg (fun h' => h (hb.mp h')), maskLoop_seen mask n _ _ (by omega)]
      have hf : mask.getMsbD (32 - (n + 1)) = false := by simpa using h
      constructor
      · rintro ⟨hk, hz⟩
        subst hk
        refine ⟨⟨by omega, fun i hi => ?_⟩, by omega⟩
        by_cases h1 : i < 32 - (n + 1)
        · rw [hall i h1]; simp; omega
        · by_cases h2 : i = 32 - (n + 1)
          · rw [h2, hf]; simp
          · rw [hz i (by omega) hi]; simp; omega
      · rintro ⟨⟨h1, h2⟩, h3⟩
        have h4 := h2 (32 - (n + 1)) (by omega)
        rw [hf] at h4
        simp at h4
        refine ⟨by omega, fun i hi1 hi2 => ?_⟩
        rw [h2 i hi2]
        simp
        omega

/-- The mask-length function is exact: it returns n iff the mask is the contiguous
mask of length n. -/
theorem maskPrefixLen_exact (mask : Ip) (n : Nat) :
    maskPrefixLen mask = some n ↔ IsMask mask n := by
  have := maskLoop_unseen mask 32 (by omega) (by intro i h; omega) n
  simp only [Nat.sub_self, Nat.zero_le, and_true] at this
  exact this

theorem prefixMask_isMask (n : Nat) (hn : n ≤ 32) : IsMask (prefixMask n) n := by
  have : ∀ n : Fin 33, ∀ i : Fin 32, (prefixMask n.val).getMsbD i.val = decide (i.val < n.val) := by
    decide +kernel
  exact ⟨hn, fun i hi => this ⟨n, by omega⟩ ⟨i, hi⟩⟩

theorem and_mask_eq (a b m : Ip) (n : Nat) (hm : IsMask m n) :
    ((a &&& m) = (b &&& m)) ↔ SamePrefix a b n := by
  constructor
  · intro h i hi h32
    have := congrArg (fun v => BitVec.getMsbD v i) h
    simp only [BitVec.getMsbD_and, hm.2 i h32, hi] at this
    simpa using this
  · intro h
    apply BitVec.eq_of_getMsbD_eq
    intro i hi
    simp only [BitVec.getMsbD_and, hm.2 i hi]
    by_cases hin : i < n
    · rw [h i hin hi]
    · simp [hin]

theorem matchPrefix_exact (a p : Ip) (n : Nat) :
    matchPrefix a p n = true ↔ SamePrefix a p n := by
  simp only [matchPrefix]
  split
  · rename_i h; subst h; simp [SamePrefix]
  · by_cases hn : n ≤ 32
    · rw [beq_iff_eq]
      exact and_mask_eq a p _ n (prefixMask_isMask n hn)
    · have h1 : prefixMask n = prefixMask 32 := by
        simp only [prefixMask]; rw [if_neg (by omega), if_pos (by omega)]; rfl
      rw [beq_iff_eq, h1, and_mask_eq a p _ 32 (prefixMask_isMask 32 (Nat.le_refl _))]
      simp only [SamePrefix]
      constructor
      · intro h i _ h3; exact h i h3 h3
      · intro h i h2 h3; exact h i (by omega) h3

theorem isMask_unique (m : Ip) (a b : Nat) (h1 : IsMask m a) (h2 : IsMask m b) : a = b := by
  have e1 := (maskPrefixLen_exact m a).mpr h1
  have e2 := (maskPrefixLen_exact m b).mpr h2
  rw [e1] at e2; exact Option.some.inj e2

theorem isMask_zero (m : Ip) (n : Nat) (h : IsMask m n) : m = 0 ↔ n = 0 := by
  constructor
  · intro h0
    subst h0
    exact isMask_unique 0#32 n 0 h ((maskPrefixLen_exact _ _).mp (by decide +kernel))
  · intro h0
    subst h0
    apply BitVec.eq_of_getMsbD_eq
    intro i hi
    rw [h.2 i hi]; simp

/-! ## Scans -/

/-- `b` as a candidate. -/
def Best.cand (b : Best) : Cand := ⟨b.plen, b.order, b.ifIdx, b.nexthop⟩

/-- `best` is the best of the set `P` of candidates (none iff `P` is empty). -/
def BestOf (P : Cand → Prop) (best : Option Best) : Prop :=
  match best with
  | none => ∀ c, ¬ P c
  | some b => P b.cand ∧ ∀ c, P c → AtLeastAsGood b.cand c

theorem good_refl (a : Cand) : AtLeastAsGood a a := Or.inr ⟨rfl, Or.inr ⟨rfl, Nat.le_refl _⟩⟩

theorem good_trans (a b c : Cand) (h1 : AtLeastAsGood a b) (h2 : AtLeastAsGood b c) :
    AtLeastAsGood a c := by
  simp only [AtLeastAsGood] at *
  omega

/-- Connected candidates among interfaces below `n`. -/
def ConnBelow (s : List Conf) (dest : Ip) (m : Nat) (x : Cand) : Prop :=
  ∃ i c n, i < m ∧ s[i]? = some c ∧ c.ip ≠ 0 ∧ 0 < n ∧ IsMask c.mask n ∧
    SamePrefix dest c.ip n ∧ x = ⟨n, 0, i, dest⟩

/-- What the connected scan starting at interface `i` establishes. -/
def ConnRes (all : List Conf) (dest : Ip) (i : Nat) (r : Sum Nat (Option Best)) : Prop :=
  match r with
  | .inl j => i ≤ j ∧ (∃ c, all[j]? = some c ∧ c.ip = dest ∧ c.ip ≠ 0) ∧
      ∀ k c, i ≤ k → k < j → all[k]? = some c → c.ip = 0 ∨ c.ip ≠ dest
  | .inr best' => (∀ k c, i ≤ k → all[k]? = some c → c.ip = 0 ∨ c.ip ≠ dest) ∧
      BestOf (ConnBelow all dest all.length) best'

theorem connScan_spec (all : List Conf) (dest : Ip) :
    ∀ (cs : List Conf) (i : Nat) (best : Option Best), all.drop i = cs →
    BestOf (ConnBelow all dest i) best →
    (∀ b, best = some b → b.ifIdx < i ∧ b.order = 0) →
    ConnRes all dest i (connScan dest cs i best) := by
  intro cs
  induction cs with
  | nil =>
    intro i best hd hb hlt
    have hl : all.length ≤ i := by
      have := congrArg List.length hd
      simp at this
      omega
    simp only [connScan]
    refine ⟨fun k c h1 h2 => ?_, ?_⟩
    · rw [List.getElem?_eq_none (by omega)] at h2; cases h2
    · have e : ∀ x, ConnBelow all dest i x ↔ ConnBelow all dest all.length x := by
        intro x
        constructor
        · rintro ⟨k, c, n, h1, h2, h3⟩
          refine ⟨k, c, n, ?_, h2, h3⟩
          exact (List.getElem?_eq_some_iff.mp h2).1
        · rintro ⟨k, c, n, h1, h2, h3⟩
          exact ⟨k, c, n, by omega, h2, h3⟩
      cases best with
      | none => intro c hc; exact hb c ((e c).mpr hc)
      | some b => exact ⟨(e _).mp hb.1, fun c hc => hb.2 c ((e c).mpr hc)⟩
  | cons c cs ih =>
    intro i best hd hb hlt
    have hget : all[i]? = some c := by
      have := congrArg (fun l => l[0]?) hd
      simpa [List.getElem?_drop] using this
    have hd' : all.drop (i + 1) = cs := by
      have := congrArg (List.drop 1) hd
      simpa [List.drop_drop, Nat.add_comm] using this
    -- a step in which interface i contributes no candidate
    have skip : (∀ n, ¬ (c.ip ≠ 0 ∧ 0 < n ∧ IsMask c.mask n ∧ SamePrefix dest c.ip n)) →
        BestOf (ConnBelow all dest (i + 1)) best := by
      intro hno
      have e : ∀ x, ConnBelow all dest i x ↔ ConnBelow all dest (i + 1) x := by
        intro x
        constructor
        · rintro ⟨k, c', n, h1, h2, h3⟩
          exact ⟨k, c', n, by omega, h2, h3⟩
        · rintro ⟨k, c', n, h1, h2, h3, h4, h5, h6, h7⟩
          by_cases hk : k = i
          · subst hk
            rw [hget] at h2
            cases h2
            exact absurd ⟨h3, h4, h5, h6⟩ (hno n)
          · exact ⟨k, c', n, by omega, h2, h3, h4, h5, h6, h7⟩
      cases best with
      | none => intro x hx; exact hb x ((e x).mpr hx)
      | some b => exact ⟨(e _).mp hb.1, fun x hx => hb.2 x ((e x).mpr hx)⟩
    have hlt' : ∀ b, best = some b → b.ifIdx < i + 1 ∧ b.order = 0 := by
      intro b h
      have := hlt b h
      exact ⟨by omega, this.2⟩
    -- lifting the recursive result
    have lift : (c.ip = 0 ∨ c.ip ≠ dest) → ∀ best2 : Option Best,
        BestOf (ConnBelow all dest (i + 1)) best2 →
        (∀ b, best2 = some b → b.ifIdx < i + 1 ∧ b.order = 0) →
        ConnRes all dest i (connScan dest cs (i + 1) best2) := by
      intro hc best2 h1 h2
      have := ih (i + 1) best2 hd' h1 h2
      revert this
      cases connScan dest cs (i + 1) best2 with
      | inl j =>
        rintro ⟨h3, h4, h5⟩
        refine ⟨by omega, h4, fun k c' hk1 hk2 hk3 => ?_⟩
        by_cases hk : k = i
        · subst hk; rw [hget] at hk3; cases hk3; exact hc
        · exact h5 k c' (by omega) hk2 hk3
      | inr b =>
        rintro ⟨h3, h4⟩
        refine ⟨fun k c' hk1 hk2 => ?_, h4⟩
        by_cases hk : k = i
        · subst hk; rw [hget] at hk2; cases hk2; exact hc
        · exact h3 k c' (by omega) hk2
    simp only [connScan]
    split
    · rename_i h0
      exact lift (Or.inl h0) best (skip (fun n h => h.1 h0)) hlt'
    rename_i h0
    split
    · rename_i hd2
      exact ⟨Nat.le_refl _, ⟨c, hget, hd2, h0⟩, fun k c' h1 h2 => by omega⟩
    rename_i hne
    split
    · rename_i hloc
      refine lift (Or.inr hne) best (skip ?_) hlt'
      rintro n ⟨_, h2, h3, h4⟩
      have hm0 : c.mask ≠ 0 := fun h => by
        have := (isMask_zero c.mask n h3).mp h
        omega
      simp only [isLocalConf, if_neg hm0, Bool.not_eq_true', beq_eq_false_iff_ne] at hloc
      exact hloc ((and_mask_eq dest c.ip c.mask n h3).mpr h4)
    rename_i hloc
    split
    · rename_i hnone
      refine lift (Or.inr hne) best (skip ?_) hlt'
      rintro n ⟨_, h2, h3, h4⟩
      rw [(maskPrefixLen_exact _ _).mpr h3] at hnone
      cases hnone
    rename_i n hsome
    have hM := (maskPrefixLen_exact _ _).mp hsome
    have hm0 : c.mask ≠ 0 := by
      intro h
      simp only [isLocalConf, if_pos h, Bool.not_eq_true', Bool.not_eq_false, beq_iff_eq] at hloc
      exact hne hloc
    have hn0 : 0 < n := by
      rcases Nat.eq_zero_or_pos n with h | h
      · exact absurd ((isMask_zero c.mask n hM).mpr h) hm0
      · exact h
    have hS : SamePrefix dest c.ip n := by
      simp only [isLocalConf, if_neg hm0, Bool.not_eq_true', Bool.not_eq_false, beq_iff_eq] at hloc
      exact (and_mask_eq dest c.ip c.mask n hM).mp hloc
    have hnew : ConnBelow all dest (i + 1) ⟨n, 0, i, dest⟩ :=
      ⟨i, c, n, by omega, hget, h0, hn0, hM, hS, rfl⟩
    have hext : ∀ x, ConnBelow all dest (i + 1) x → ConnBelow all dest i x ∨ x = ⟨n, 0, i, dest⟩ := by
      rintro x ⟨k, c', n', h1, h2, h3, h4, h5, h6, h7⟩
      by_cases hk : k = i
      · subst hk
        rw [hget] at h2
        cases h2
        right
        rw [h7, isMask_unique _ _ _ h5 hM]
      · left
        exact ⟨k, c', n', by omega, h2, h3, h4, h5, h6, h7⟩
    have hup : ∀ x, ConnBelow all dest i x → ConnBelow all dest (i + 1) x := by
      rintro x ⟨k, c', n', h1, h2⟩
      exact ⟨k, c', n', by omega, h2⟩
    split
    · refine lift (Or.inr hne) _ ⟨hnew, fun x hx => ?_⟩ ?_
      · rcases hext x hx with h | h
        · exact absurd h (hb x)
        · subst h; exact good_refl _
      · intro b hb2; cases hb2; exact ⟨by simp, rfl⟩
    · rename_i b
      obtain ⟨hlt1, hord⟩ := hlt b rfl
      split
      · rename_i hgt
        refine lift (Or.inr hne) _ ⟨hnew, fun x hx => ?_⟩ ?_
        · rcases hext x hx with h | h
          · exact good_trans _ b.cand _ (Or.inl hgt) (hb.2 x h)
          · subst h; exact good_refl _
        · intro b hb2; cases hb2; exact ⟨by simp, rfl⟩
      · rename_i hgt
        refine lift (Or.inr hne) _ ⟨hup _ hb.1, fun x hx => ?_⟩ hlt'
        rcases hext x hx with h | h
        · exact hb.2 x h
        · subst h
          simp only [AtLeastAsGood, Best.cand, hord, true_and]
          omega

theorem statScan_spec (dest : Ip) : ∀ (rs : List Entry) (P : Cand → Prop) (best : Option Best),
    BestOf P best →
    BestOf (fun x => P x ∨ ∃ r ∈ rs, r.used = true ∧ SamePrefix dest r.pfx r.plen ∧
      x = ⟨r.plen, r.order, r.ifIdx, if r.gw ≠ 0 then r.gw else dest⟩) (statScan dest rs best) := by
  intro rs
  induction rs with
  | nil =>
    intro P best hb
    cases best with
    | none => simpa [statScan, BestOf] using hb
    | some b => simpa [statScan, BestOf] using hb
  | cons r rs ih =>
    intro P best hb
    have congrB : ∀ (P Q : Cand → Prop) (o : Option Best), (∀ x, P x ↔ Q x) → BestOf P o → BestOf Q o := by
      intro P Q o h hp
      cases o with
      | none => intro x hx; exact hp x ((h x).mpr hx)
      | some b => exact ⟨(h _).mp hp.1, fun x hx => hp.2 x ((h x).mpr hx)⟩
    have skip : ¬ (r.used = true ∧ SamePrefix dest r.pfx r.plen) → ∀ x,
        (P x ∨ ∃ r ∈ rs, r.used = true ∧ SamePrefix dest r.pfx r.plen ∧
          x = ⟨r.plen, r.order, r.ifIdx, if r.gw ≠ 0 then r.gw else dest⟩) ↔
        (P x ∨ ∃ r' ∈ r :: rs, r'.used = true ∧ SamePrefix dest r'.pfx r'.plen ∧
          x = ⟨r'.plen, r'.order, r'.ifIdx, if r'.gw ≠ 0 then r'.gw else dest⟩) := by
      intro hno x
      constructor
      · rintro (h | ⟨r', h1, h2⟩)
        · exact Or.inl h
        · exact Or.inr ⟨r', List.mem_cons_of_mem _ h1, h2⟩
      · rintro (h | ⟨r', h1, h2⟩)
        · exact Or.inl h
        · rcases List.mem_cons.mp h1 with h3 | h3
          · subst h3; exact absurd ⟨h2.1, h2.2.1⟩ hno
          · exact Or.inr ⟨r', h3, h2⟩
    have add : ∀ (hu : r.used = true) (hs : SamePrefix dest r.pfx r.plen) x,
        ((P x ∨ x = ⟨r.plen, r.order, r.ifIdx, if r.gw ≠ 0 then r.gw else dest⟩) ∨
          ∃ r ∈ rs, r.used = true ∧ SamePrefix dest r.pfx r.plen ∧
          x = ⟨r.plen, r.order, r.ifIdx, if r.gw ≠ 0 then r.gw else dest⟩) ↔
        (P x ∨ ∃ r' ∈ r :: rs, r'.used = true ∧ SamePrefix dest r'.pfx r'.plen ∧
          x = ⟨r'.plen, r'.order, r'.ifIdx, if r'.gw ≠ 0 then r'.gw else dest⟩) := by
      intro hu hs x
      constructor
      · rintro ((h | h) | ⟨r', h1, h2⟩)
        · exact Or.inl h
        · exact Or.inr ⟨r, List.mem_cons_self, hu, hs, h⟩
        · exact Or.inr ⟨r', List.mem_cons_of_mem _ h1, h2⟩
      · rintro (h | ⟨r', h1, h2⟩)
        · exact Or.inl (Or.inl h)
        · rcases List.mem_cons.mp h1 with h3 | h3
          · subst h3; exact Or.inl (Or.inr h2.2.2)
          · exact Or.inr ⟨r', h3, h2⟩
    simp only [statScan]
    split
    · rename_i hu
      exact congrB _ _ _ (skip (by simp at hu; simp [hu])) (ih P best hb)
    rename_i hu
    split
    · rename_i hm
      refine congrB _ _ _ (skip ?_) (ih P best hb)
      rintro ⟨_, h⟩
      rw [(matchPrefix_exact _ _ _).mpr h] at hm
      simp at hm
    rename_i hm
    have hu' : r.used = true := by simpa using hu
    have hs : SamePrefix dest r.pfx r.plen := (matchPrefix_exact _ _ _).mp (by simpa using hm)
    split
    · refine congrB _ _ _ (add hu' hs) (ih _ _ ⟨Or.inr rfl, ?_⟩)
      rintro x (h | h)
      · exact absurd h (hb x)
      · subst h; exact good_refl _
    · rename_i b
      split
      · rename_i hbetter
        refine congrB _ _ _ (add hu' hs) (ih _ _ ⟨Or.inr rfl, ?_⟩)
        rintro x (h | h)
        · refine good_trans _ b.cand _ ?_ (hb.2 x h)
          simp only [AtLeastAsGood, Best.cand]
          omega
        · subst h; exact good_refl _
      · rename_i hbetter
        refine congrB _ _ _ (add hu' hs) (ih _ _ ⟨Or.inl hb.1, ?_⟩)
        rintro x (h | h)
        · exact hb.2 x h
        · subst h
          simp only [AtLeastAsGood, Best.cand]
          omega

theorem bestOf_all (s : St) (dest : Ip) (best : Option Best)
    (h : BestOf (ConnBelow s.confs dest s.confs.length) best) :
    BestOf (Covers s dest) (statScan dest s.routes best) := by
  have h2 := statScan_spec dest s.routes _ best h
  have e : ∀ x, (ConnBelow s.confs dest s.confs.length x ∨ ∃ r ∈ s.routes, r.used = true ∧
      SamePrefix dest r.pfx r.plen ∧
      x = ⟨r.plen, r.order, r.ifIdx, if r.gw ≠ 0 then r.gw else dest⟩) ↔ Covers s dest x := by
    intro x
    constructor
    · rintro (⟨i, c, n, h1, h2, h3, h4, h5, h6, h7⟩ | ⟨r, h1, h2, h3, h4⟩)
      · subst h7; exact .connected i c n h2 h3 h4 h5 h6
      · subst h4; exact .static r h1 h2 h3
    · intro hx
      cases hx with
      | connected i c n h2 h3 h4 h5 h6 =>
        exact Or.inl ⟨i, c, n, (List.getElem?_eq_some_iff.mp h2).1, h2, h3, h4, h5, h6, rfl⟩
      | static r h1 h2 h3 => exact Or.inr ⟨r, h1, h2, h3, rfl⟩
  cases hs : statScan dest s.routes best with
  | none => rw [hs] at h2; intro x hx; exact h2 x ((e x).mpr hx)
  | some b => rw [hs] at h2; exact ⟨(e _).mp h2.1, fun x hx => h2.2 x ((e x).mpr hx)⟩

/-! ## C26 -/

/-- No interface owns `dest`. -/
def Foreign (s : St) (dest : Ip) : Prop := ∀ c ∈ s.confs, c.ip ≠ dest

theorem connScan_foreign (s : St) (dest : Ip) (hd : dest ≠ 0) (hf : Foreign s dest) :
    ∃ best, connScan dest s.confs 0 none = .inr best ∧
      BestOf (ConnBelow s.confs dest s.confs.length) best := by
  have := connScan_spec s.confs dest s.confs 0 none rfl
    (by rintro c ⟨i, _, _, h, _⟩; omega) (by simp)
  cases hc : connScan dest s.confs 0 none with
  | inl j =>
    rw [hc] at this
    obtain ⟨_, ⟨c, h1, h2, _⟩, _⟩ := this
    exact absurd h2 (hf c (List.mem_of_getElem? h1))
  | inr b => rw [hc] at this; exact ⟨b, rfl, this.2⟩

/-- **C26, longest prefix match.** For a unicast destination that is not one of our
own addresses: if some route covers it, lookup succeeds and returns the interface
and next hop of a covering route that is at least as good (longest prefix, then
earliest inserted, connected subnets counting as earliest, then lowest interface)
as every covering route. -/
theorem route_lookup_longest_prefix (s : St) (dest : Ip) (hd : dest ≠ 0)
    (hb : isBroadcast s dest = false) (hn : s.confs ≠ []) (hf : Foreign s dest)
    (x : Cand) (hx : Covers s dest x) :
    ∃ b : Cand, Covers s dest b ∧ (∀ y, Covers s dest y → AtLeastAsGood b y) ∧
      lookup s dest = some (b.ifIdx, b.nexthop) := by
  obtain ⟨best, h1, h2⟩ := connScan_foreign s dest hd hf
  have h3 := bestOf_all s dest best h2
  have hl : s.confs.length ≠ 0 := fun h => hn (List.length_eq_zero_iff.mp h)
  simp only [lookup, if_neg hl, hb]
  rw [if_neg (by simpa using hd), h1]
  simp only
  cases hs : statScan dest s.routes best with
  | none => rw [hs] at h3; exact absurd hx (h3 x)
  | some b => rw [hs] at h3; exact ⟨b.cand, h3.1, h3.2, rfl⟩

/-- Specification of the fallback: the first non-loopback interface with a gateway
(used with that gateway); else the first configured non-loopback interface
(on-link); else the primary interface. -/
inductive Fallback (s : St) (dest : Ip) : Nat × Ip → Prop where
  | gateway (i : Nat) (c : Conf) : s.confs[i]? = some c → isLoop s i = false → c.gw ≠ 0 →
      (∀ k c', k < i → s.confs[k]? = some c' → isLoop s k = false → c'.gw = 0) →
      Fallback s dest (i, c.gw)
  | onLink (i : Nat) (c : Conf) : (∀ k c', s.confs[k]? = some c' → isLoop s k = false → c'.gw = 0) →
      s.confs[i]? = some c → isLoop s i = false → c.ip ≠ 0 →
      (∀ k c', k < i → s.confs[k]? = some c' → isLoop s k = false → c'.ip = 0) →
      Fallback s dest (i, dest)
  | primary : (∀ k c', s.confs[k]? = some c' → isLoop s k = false → c'.gw = 0 ∧ c'.ip = 0) →
      Fallback s dest (primaryIf s, dest)

/-- `o` is the first index below `m` satisfying `Q`. -/
def FirstBelow (Q : Nat → Prop) (m : Nat) (o : Option Nat) : Prop :=
  match o with
  | some g => g < m ∧ Q g ∧ ∀ k, k < g → ¬ Q k
  | none => ∀ k, k < m → ¬ Q k

theorem firstBelow_step (Q : Nat → Prop) [DecidablePred Q] (m : Nat) (o : Option Nat)
    (h : FirstBelow Q m o) :
    FirstBelow Q (m + 1) (if Q m ∧ o = none then some m else o) := by
  cases o with
  | some g =>
    simp only [reduceCtorEq, and_false, if_false]
    exact ⟨by have := h.1; omega, h.2⟩
  | none =>
    simp only [and_true]
    split
    · rename_i hq
      exact ⟨by omega, hq, h⟩
    · rename_i hq
      intro k hk
      by_cases e : k = m
      · subst e; exact hq
      · exact h k (by omega)

/-- Interface `k` is not the loopback and has a gateway. -/
def HasGw (s : St) (k : Nat) : Prop := isLoop s k = false ∧ (s.confs[k]?.map (·.gw)).getD 0 ≠ 0
/-- Interface `k` is not the loopback and is configured. -/
def HasConf (s : St) (k : Nat) : Prop := isLoop s k = false ∧
  ((s.confs[k]?.map (·.ip)).getD 0 ≠ 0 ∨ (s.confs[k]?.map (·.gw)).getD 0 ≠ 0)

instance (s : St) : DecidablePred (HasGw s) := fun k => by unfold HasGw; infer_instance
instance (s : St) : DecidablePred (HasConf s) := fun k => by unfold HasConf; infer_instance

theorem fallbackScan_spec (s : St) : ∀ (cs : List Conf) (i : Nat) (g f : Option Nat),
    s.confs.drop i = cs →
    FirstBelow (HasGw s) i g → FirstBelow (HasConf s) i f →
    FirstBelow (HasGw s) (i + cs.length) (fallbackScan s cs i (g, f)).1 ∧
    FirstBelow (HasConf s) (i + cs.length) (fallbackScan s cs i (g, f)).2 := by
  intro cs
  induction cs with
  | nil => intro i g f _ h1 h2; exact ⟨h1, h2⟩
  | cons c cs ih =>
    intro i g f hd h1 h2
    have hget : s.confs[i]? = some c := by
      have := congrArg (fun l => l[0]?) hd
      simpa [List.getElem?_drop] using this
    have hd' : s.confs.drop (i + 1) = cs := by
      have := congrArg (List.drop 1) hd
      simpa [List.drop_drop, Nat.add_comm] using this
    have hG : HasGw s i ↔ isLoop s i = false ∧ c.gw ≠ 0 := by simp [HasGw, hget]
    have hC : HasConf s i ↔ isLoop s i = false ∧ (c.ip ≠ 0 ∨ c.gw ≠ 0) := by simp [HasConf, hget]
    have s1 := firstBelow_step (HasGw s) i g h1
    have s2 := firstBelow_step (HasConf s) i f h2
    have elen : i + (c :: cs).length = i + 1 + cs.length := by simp; omega
    rw [elen]
    simp only [fallbackScan]
    split
    · rename_i h0
      apply ih (i + 1) g f hd'
      · rwa [if_neg (by rw [hG]; rintro ⟨⟨_, h⟩, _⟩; exact h h0.2)] at s1
      · rwa [if_neg (by rw [hC]; rintro ⟨⟨_, h | h⟩, _⟩; exact h h0.1; exact h h0.2)] at s2
    · rename_i h0
      have h0' : c.ip ≠ 0 ∨ c.gw ≠ 0 := by
        rcases Classical.em (c.ip = 0) with h | h
        · exact Or.inr (fun h' => h0 ⟨h, h'⟩)
        · exact Or.inl h
      apply ih (i + 1) _ _ hd'
      · have : (HasGw s i ∧ g = none) ↔ ((!isLoop s i) = true ∧ g = none ∧ c.gw ≠ 0) := by
          rw [hG]; simp; constructor
          · rintro ⟨⟨a, b⟩, d⟩; exact ⟨a, d, b⟩
          · rintro ⟨a, d, b⟩; exact ⟨⟨a, b⟩, d⟩
        by_cases hq : HasGw s i ∧ g = none
        · rw [if_pos hq] at s1; rw [if_pos (this.mp hq)]; exact s1
        · rw [if_neg hq] at s1; rw [if_neg (fun h => hq (this.mpr h))]; exact s1
      · have : (HasConf s i ∧ f = none) ↔ ((!isLoop s i) = true ∧ f = none) := by
          rw [hC]; simp; intro _ _; simpa using h0'
        by_cases hq : HasConf s i ∧ f = none
        · rw [if_pos hq] at s2; rw [if_pos (this.mp hq)]; exact s2
        · rw [if_neg hq] at s2; rw [if_neg (fun h => hq (this.mpr h))]; exact s2

/-- **C26, no covering route.** Then lookup uses the fallback of the specification:
a configured gateway if there is one. -/
theorem route_lookup_fallback (s : St) (dest : Ip) (hd : dest ≠ 0)
    (hb : isBroadcast s dest = false) (hn : s.confs ≠ []) (hf : Foreign s dest)
    (hx : ∀ x, ¬ Covers s dest x) :
    ∃ r, lookup s dest = some r ∧ Fallback s dest r := by
  obtain ⟨best, h1, h2⟩ := connScan_foreign s dest hd hf
  have h3 := bestOf_all s dest best h2
  have hl : s.confs.length ≠ 0 := fun h => hn (List.length_eq_zero_iff.mp h)
  simp only [lookup, if_neg hl, hb]
  rw [if_neg (by simpa using hd), h1]
  simp only
  cases hs : statScan dest s.routes best with
  | some b => rw [hs] at h3; exact absurd h3.1 (hx _)
  | none =>
    refine ⟨_, rfl, ?_⟩
    have hfb := fallbackScan_spec s s.confs 0 none none rfl (by intro k hk; omega) (by intro k hk; omega)
    simp only [Nat.zero_add] at hfb
    obtain ⟨hg, hc⟩ := hfb
    simp only [fallback]
    have gwAll : ∀ k c', s.confs[k]? = some c' → isLoop s k = false → ¬ HasGw s k → c'.gw = 0 := by
      intro k c' h1 h2 h3
      exact Classical.byContradiction fun h => h3 ⟨h2, by simpa [h1] using h⟩
    have confAll : ∀ k c', s.confs[k]? = some c' → isLoop s k = false → ¬ HasConf s k → c'.ip = 0 := by
      intro k c' h1 h2 h3
      exact Classical.byContradiction fun h => h3 ⟨h2, Or.inl (by simpa [h1] using h)⟩
    cases hscan : fallbackScan s s.confs 0 (none, none) with
    | mk a b =>
      rw [hscan] at hg hc
      simp only at hg hc ⊢
      cases a with
      | some g =>
        obtain ⟨hlt, hq, hfirst⟩ := hg
        have hc' : s.confs[g]? = some s.confs[g] := List.getElem?_eq_getElem hlt
        have hgw : s.confs[g].gw ≠ 0 := by simpa [hc'] using hq.2
        simp only [hc', if_pos hgw]
        exact .gateway g _ hc' hq.1 hgw
          (fun k c' hk h1 h2 => gwAll k c' h1 h2 (hfirst k hk))
      | none =>
        have hnogw : ∀ k c', s.confs[k]? = some c' → isLoop s k = false → c'.gw = 0 :=
          fun k c' h1 h2 => gwAll k c' h1 h2 (hg k (List.getElem?_eq_some_iff.mp h1).1)
        cases b with
        | some f =>
          obtain ⟨hlt, hq, hfirst⟩ := hc
          have hc' : s.confs[f]? = some s.confs[f] := List.getElem?_eq_getElem hlt
          have hip : s.confs[f].ip ≠ 0 := by
            have hgz := hnogw f _ hc' hq.1
            rcases hq.2 with h | h
            · simpa [hc'] using h
            · simp [hc', hgz] at h
          exact .onLink f _ hnogw hc' hq.1 hip
            (fun k c' hk h1 h2 => confAll k c' h1 h2 (hfirst k hk))
        | none =>
          exact .primary (fun k c' h1 h2 => ⟨hnogw k c' h1 h2,
            confAll k c' h1 h2 (hc k (List.getElem?_eq_some_iff.mp h1).1)⟩)

/-- **C26, local and broadcast destinations.** One of our own addresses resolves to
the first interface that owns it; the wildcard and broadcast addresses to the
primary interface; in both cases the destination itself is the next hop. -/
theorem route_lookup_own_address (s : St) (dest : Ip) (hd : dest ≠ 0)
    (hb : isBroadcast s dest = false) (i : Nat) (c : Conf) (hc : s.confs[i]? = some c)
    (hown : c.ip = dest) (hfirst : ∀ k c', k < i → s.confs[k]? = some c' → c'.ip ≠ dest) :
    lookup s dest = some (i, dest) := by
  have := connScan_spec s.confs dest s.confs 0 none rfl
    (by rintro c ⟨i, _, _, h, _⟩; omega) (by simp)
  have hlt := (List.getElem?_eq_some_iff.mp hc).1
  have hl : s.confs.length ≠ 0 := by omega
  simp only [lookup, if_neg hl, hb]
  rw [if_neg (by simpa using hd)]
  cases hcs : connScan dest s.confs 0 none with
  | inl j =>
    rw [hcs] at this
    obtain ⟨_, ⟨c', h1, h2, h3⟩, h4⟩ := this
    have : j = i := by
      rcases Nat.lt_trichotomy j i with h | h | h
      · exact absurd h2 (hfirst j c' h h1)
      · exact h
      · rcases h4 i c (Nat.zero_le _) h hc with h5 | h5
        · exact absurd (hown ▸ h5) hd
        · exact absurd hown h5
    rw [this]
  | inr b =>
    rw [hcs] at this
    rcases this.1 i c (Nat.zero_le _) hc with h5 | h5
    · exact absurd (hown ▸ h5) hd
    · exact absurd hown h5

theorem route_lookup_broadcast (s : St) (dest : Ip) (hn : s.confs ≠ [])
    (h : dest = 0 ∨ isBroadcast s dest = true) : lookup s dest = some (primaryIf s, dest) := by
  have hl : s.confs.length ≠ 0 := fun h => hn (List.length_eq_zero_iff.mp h)
  simp only [lookup, if_neg hl]
  rw [if_pos (by simpa using h)]

/-- **C26, broadcasts.** A broadcast (or the zero address) leaves by interface 0, or by interface 1 when interface 0 is the
loopback interface and there is another one; and to itself. -/
theorem route_lookup_broadcast_if (s : St) (dest : Ip) (hn : s.confs ≠ []) (h : dest = 0 ∨ isBroadcast s dest = true) :
    lookup s dest = some (if s.loop = true ∧ 2 ≤ s.confs.length then 1 else 0, dest) := by
  have hl : s.confs.length ≠ 0 := fun h => hn (List.length_eq_zero_iff.mp h)
  rw [route_lookup_broadcast s dest hn h, primaryIf]
  cases hs : s.loop with
  | true =>
    show some (if 1 < s.confs.length then 1 else 0, dest) = _
    by_cases c : 2 ≤ s.confs.length
    · rw [if_pos (show 1 < s.confs.length from c), if_pos (show true = true ∧ 2 ≤ s.confs.length from ⟨rfl, c⟩)]
    · rw [if_neg (show ¬ 1 < s.confs.length from c), if_neg (show ¬ (true = true ∧ 2 ≤ s.confs.length) from fun x => c x.2)]
  | false =>
    show some (if 0 < s.confs.length then 0 else 0, dest) = _
    rw [if_pos (show 0 < s.confs.length by omega), if_neg (show ¬ (false = true ∧ 2 ≤ s.confs.length) from fun x => Bool.noConfusion x.1)]

/-- **C26, no interface.** Without any interface the lookup fails. -/
theorem route_lookup_no_interface (s : St) (dest : Ip) : lookup s dest = none ↔ s.confs = [] := by
  rw [lookup]
  constructor
  · intro h
    by_cases c : s.confs.length = 0
    · exact List.length_eq_zero_iff.mp c
    · rw [if_neg c] at h
      split at h
      · cases h
      · split at h
        · cases h
        · split at h <;> cases h
  · intro h; rw [h]; rfl

/-- The broadcast test is exact for interfaces with a contiguous mask of length
1..31: all-ones, or all host bits one within the subnet. -/
theorem isBroadcast_exact (s : St) (dest : Ip) :
    isBroadcast s dest = true ↔ dest = 0xFFFFFFFF#32 ∨
      ∃ c ∈ s.confs, c.ip ≠ 0 ∧ c.mask ≠ 0 ∧ c.mask ≠ 0xFFFFFFFF#32 ∧
        dest = (c.ip &&& c.mask) ||| ~~~c.mask := by
  have loop : ∀ cs : List Conf, bcastLoop dest cs = true ↔ ∃ c ∈ cs, c.ip ≠ 0 ∧ c.mask ≠ 0 ∧
      c.mask ≠ 0xFFFFFFFF#32 ∧ dest = (c.ip &&& c.mask) ||| ~~~c.mask := by
    intro cs
    induction cs with
    | nil => simp [bcastLoop]
    | cons c cs ih =>
      simp only [bcastLoop, List.mem_cons, exists_eq_or_imp]
      split
      · rename_i h; rw [ih]; simp [h]
      · rename_i h
        split
        · rename_i h2
          rw [ih]
          constructor
          · exact Or.inr
          · rintro (⟨_, h3, h4, _⟩ | h3)
            · rcases h2 with h2 | h2
              · exact absurd h2 h3
              · exact absurd h2 h4
            · exact h3
        · rename_i h2
          split
          · rename_i h3
            simp only [true_iff]
            exact Or.inl ⟨h, fun h4 => h2 (Or.inl h4), fun h4 => h2 (Or.inr h4), h3⟩
          · rename_i h3
            rw [ih]
            constructor
            · exact Or.inr
            · rintro (⟨_, _, _, h4⟩ | h4)
              · exact absurd h4 h3
              · exact h4
  simp only [isBroadcast]
  split
  · rename_i h; simp [h]
  · rename_i h; rw [loop]; simp [h]

/-- A concrete table meeting the hypotheses: 10.1.2.3 is covered by the connected
10.0.0.0/8 on interface 1 and the static 10.1.2.0/24 on interface 0 via 192.168.1.9;
the static one wins. -/
def demo : St where
  confs := [⟨0xC0A80101#32, 0xFFFFFF00#32, 0#32⟩, ⟨0x0A000001#32, 0xFF000000#32, 0x0A0000FE#32⟩]
  routes := [⟨true, 0x0A010200#32, 0xC0A80109#32, 0, 24, 0⟩, Entry.zero]
  gen := 1
  loop := false

example : lookup demo 0x0A010203#32 = some (0, 0xC0A80109#32) ∧
    lookup demo 0x0A050505#32 = some (1, 0x0A050505#32) ∧
    lookup demo 0x08080808#32 = some (1, 0x0A0000FE#32) ∧
    isBroadcast demo 0x0A010203#32 = false := by decide +kernel

example : Covers demo 0x0A010203#32 ⟨24, 0, 0, 0xC0A80109#32⟩ :=
  .static ⟨true, 0x0A010200#32, 0xC0A80109#32, 0, 24, 0⟩ (by simp [demo]) rfl
    ((matchPrefix_exact _ _ _).mp (by decide +kernel))

example : Foreign demo 0x0A010203#32 := by simp [Foreign, demo]

end Wolf.Route
