import Verif.Mcast.Model
/-! # C42: the membership invariant -/
namespace Wolf.Mcast

/-! ## Sums over lists -/

theorem sum_set {α : Type} (f : α → Nat) (l : List α) : ∀ (k : Nat) (x old : α), l[k]? = some old → ((l.set k x).map f).sum + f old = (l.map f).sum + f x := by
  induction l with
  | nil => intro k x old h; simp at h
  | cons a l ih =>
    intro k x old h
    cases k with
    | zero => simp at h; subst h; simp; omega
    | succ k =>
      simp only [List.getElem?_cons_succ] at h
      have := ih k x old h
      simp only [List.set_cons_succ, List.map_cons, List.sum_cons]; omega

theorem sum_le_len {α : Type} (f : α → Nat) (l : List α) (c : Nat) (h : ∀ x ∈ l, f x ≤ c) : (l.map f).sum ≤ l.length * c := by
  induction l with
  | nil => simp
  | cons a l ih =>
    have h1 := h a (by simp)
    have h2 := ih (fun x hx => h x (by simp [hx]))
    simp only [List.map_cons, List.sum_cons, List.length_cons, Nat.add_mul]; omega

theorem sum_ge_len {α : Type} (f : α → Nat) (l : List α) (h : ∀ x ∈ l, 1 ≤ f x) : l.length ≤ (l.map f).sum := by
  induction l with
  | nil => simp
  | cons a l ih =>
    have h1 := h a (by simp)
    have h2 := ih (fun x hx => h x (by simp [hx]))
    simp only [List.map_cons, List.sum_cons, List.length_cons]; omega

theorem sum_pos {α : Type} (f : α → Nat) (l : List α) (h : (l.map f).sum ≠ 0) : ∃ (k : Nat) (x : α), l[k]? = some x ∧ f x ≠ 0 := by
  induction l with
  | nil => simp at h
  | cons a l ih =>
    by_cases ha : f a = 0
    · obtain ⟨k, x, hk, hx⟩ := ih (by simp [ha] at h ⊢; exact h)
      exact ⟨k + 1, x, by simpa using hk, hx⟩
    · exact ⟨0, a, rfl, ha⟩

theorem le_sum {α : Type} (f : α → Nat) (l : List α) : ∀ (k : Nat) (x : α), l[k]? = some x → f x ≤ (l.map f).sum := by
  induction l with
  | nil => intro k x h; simp at h
  | cons a l ih =>
    intro k x h
    cases k with
    | zero => simp at h; subst h; simp
    | succ k => simp only [List.getElem?_cons_succ] at h; have := ih k x h; simp only [List.map_cons, List.sum_cons]; omega

theorem two_le_sum {α : Type} (f : α → Nat) (l : List α) : ∀ (k k' : Nat) (x x' : α), l[k]? = some x → l[k']? = some x' → k ≠ k' → f x + f x' ≤ (l.map f).sum := by
  induction l with
  | nil => intro k k' x x' h; simp at h
  | cons a l ih =>
    intro k k' x x' h h' hne
    cases k with
    | zero =>
      cases k' with
      | zero => omega
      | succ k' =>
        simp at h; subst h
        simp only [List.getElem?_cons_succ] at h'
        have := le_sum f l k' x' h'
        simp only [List.map_cons, List.sum_cons]; omega
    | succ k =>
      simp only [List.getElem?_cons_succ] at h
      cases k' with
      | zero =>
        simp at h'; subst h'
        have := le_sum f l k x h
        simp only [List.map_cons, List.sum_cons]; omega
      | succ k' =>
        simp only [List.getElem?_cons_succ] at h'
        have := ih k k' x x' h h' (by omega)
        simp only [List.map_cons, List.sum_cons]; omega

theorem get_set {α : Type} {l : List α} {k : Nat} {x : α} (i : Nat) (hk : k < l.length) :
    (l.set k x)[i]? = if i = k then some x else l[i]? := by
  by_cases h : i = k
  · subst h; rw [if_pos rfl, List.getElem?_set_self hk]
  · rw [if_neg h, List.getElem?_set_ne (Ne.symm h)]

theorem lt_of_get {α : Type} {l : List α} {k : Nat} {x : α} (h : l[k]? = some x) : k < l.length := (List.getElem?_eq_some_iff.mp h).1

theorem getD_of_get {α : Type} {l : List α} {k : Nat} {x d : α} (h : l[k]? = some x) : l.getD k d = x := by
  rw [List.getD_eq_getElem?_getD, h]; rfl

/-! ## The invariant -/

/-- Number of sockets that have joined. -/
def ind (ifi group : Nat) (t : Sock) : Nat := if hasMcast t ifi group then 1 else 0
def count (socks : List Sock) (ifi group : Nat) : Nat := (socks.map (ind ifi group)).sum

/-- Number of used entries of a socket. -/
def eUsed (e : Nat × Nat) : Nat := if e.1 ≠ 0 then 1 else 0
def usedN (t : Sock) : Nat := (t.mc.map eUsed).sum

theorem hasMcast_iff (t : Sock) (ifi group : Nat) : hasMcast t ifi group = true ↔ (group, ifi) ∈ t.mc := by
  rw [hasMcast, List.any_eq_true]
  constructor
  · rintro ⟨e, he, h⟩; rw [beq_iff_eq] at h; rw [← h]; exact he
  · intro h; exact ⟨_, h, by simp⟩

structure Inv (n : Nat) (s : St) : Prop where
  n255 : n ≤ 255
  sl : s.socks.length = n
  el : ∀ (k : Nat) (t : Sock), s.socks[k]? = some t → t.mc.length = perSock
  ml : s.mem.length = n * perSock
  live : ∀ (j : Nat) (m : Mem), s.mem[j]? = some m → m.refs ≠ 0 → isMcast m.group = true ∧ m.ifi < s.ips.length ∧ m.refs = count s.socks m.ifi m.group
  dead : ∀ (j : Nat) (m : Mem), s.mem[j]? = some m → m.refs = 0 → m.tmr = 0
  uniq : ∀ (j j' : Nat) (m m' : Mem), s.mem[j]? = some m → s.mem[j']? = some m' → m.refs ≠ 0 → m'.refs ≠ 0 → m.group = m'.group → m.ifi = m'.ifi → j = j'
  has : ∀ (k : Nat) (t : Sock) (g i : Nat), s.socks[k]? = some t → (g, i) ∈ t.mc → g ≠ 0 → isMcast g = true ∧ i < s.ips.length ∧
    ∃ (j : Nat) (m : Mem), s.mem[j]? = some m ∧ m.refs ≠ 0 ∧ m.group = g ∧ m.ifi = i
  once : ∀ (k : Nat) (t : Sock) (a b g i : Nat), s.socks[k]? = some t → t.mc[a]? = some (g, i) → t.mc[b]? = some (g, i) → g ≠ 0 → a = b
  tot : (s.mem.map Mem.refs).sum = (s.socks.map usedN).sum
  shut : ∀ (k : Nat) (t : Sock) (g i : Nat), s.socks[k]? = some t → t.used = false → (g, i) ∈ t.mc → g = 0

theorem mcast_ne {g : Nat} (h : isMcast g = true) : g ≠ 0 := by
  intro h0; subst h0; simp [isMcast] at h

theorem find_iff {n : Nat} {s : St} (h : Inv n s) (ifi group j : Nat) :
    find s ifi group = some j ↔ ∃ m, s.mem[j]? = some m ∧ m.refs ≠ 0 ∧ m.group = group ∧ m.ifi = ifi := by
  rw [find, List.findIdx?_eq_some_iff_getElem]
  constructor
  · rintro ⟨hj, hk, _⟩
    simp only [isKey, Bool.and_eq_true, beq_iff_eq, bne_iff_ne, ne_eq] at hk
    exact ⟨_, List.getElem?_eq_getElem hj, hk.2, hk.1.1, hk.1.2⟩
  · rintro ⟨m, hm, h1, h2, h3⟩
    obtain ⟨hj, hme⟩ := List.getElem?_eq_some_iff.mp hm
    refine ⟨hj, by rw [hme]; simp [isKey, h1, h2, h3], ?_⟩
    intro j' hj'
    simp only [isKey, Bool.not_eq_true, Bool.eq_false_iff, ne_eq, Bool.and_eq_true, beq_iff_eq, bne_iff_ne]
    intro hk
    have := h.uniq j' j _ m (List.getElem?_eq_getElem (by omega)) hm hk.2 h1 (by rw [h2]; exact hk.1.1) (by rw [h3]; exact hk.1.2)
    omega

theorem find_none {s : St} (ifi group : Nat) (h : find s ifi group = none) (j : Nat) (m : Mem) (hm : s.mem[j]? = some m) (hr : m.refs ≠ 0) :
    ¬ (m.group = group ∧ m.ifi = ifi) := by
  rw [find, List.findIdx?_eq_none_iff] at h
  have := h m (List.mem_of_getElem? hm)
  intro hk
  simp [isKey, hk.1, hk.2, hr] at this

/-- Some socket has joined exactly when the count is positive. -/
theorem count_pos (socks : List Sock) (ifi group : Nat) : count socks ifi group ≠ 0 ↔ ∃ (k : Nat) (t : Sock), socks[k]? = some t ∧ (group, ifi) ∈ t.mc := by
  constructor
  · intro h
    obtain ⟨k, t, hk, ht⟩ := sum_pos _ _ h
    refine ⟨k, t, hk, ?_⟩
    rw [← hasMcast_iff]
    simp only [ind] at ht
    split at ht
    · assumption
    · simp at ht
  · rintro ⟨k, t, hk, ht⟩
    have := le_sum (ind ifi group) socks k t hk
    rw [ind, if_pos ((hasMcast_iff _ _ _).mpr ht)] at this
    rw [count]; omega

theorem joined_iff {n : Nat} {s : St} (h : Inv n s) (ifi group : Nat) :
    isJoined s ifi group = true ↔ group ≠ 0 ∧ ∃ (k : Nat) (t : Sock), s.socks[k]? = some t ∧ (group, ifi) ∈ t.mc := by
  rw [isJoined, Option.isSome_iff_exists]
  constructor
  · rintro ⟨j, hj⟩
    obtain ⟨m, hm, h1, h2, h3⟩ := (find_iff h ifi group j).mp hj
    obtain ⟨l1, _, l2⟩ := h.live j m hm h1
    refine ⟨h2 ▸ mcast_ne l1, ?_⟩
    apply (count_pos _ _ _).mp
    rw [← h2, ← h3, ← l2]; exact h1
  · rintro ⟨h0, k, t, hk, ht⟩
    obtain ⟨_, _, j, m, hm, h1, h2, h3⟩ := h.has k t group ifi hk ht h0
    exact ⟨j, (find_iff h ifi group j).mpr ⟨m, hm, h1, h2, h3⟩⟩

theorem inv_init (n : Nat) (hn : n ≤ 255) (ips : List Nat) : Inv n (init n ips) := by
  have hm : ∀ (j : Nat) (m : Mem), (List.replicate (n * perSock) ({} : Mem))[j]? = some m → m = {} := by
    intro j m h; rw [List.getElem?_replicate] at h; split at h <;> simp at h; exact h.symm
  have hs : ∀ (k : Nat) (t : Sock), (List.replicate n ({ mc := List.replicate perSock (0, 0) } : Sock))[k]? = some t → t = { mc := List.replicate perSock (0, 0) } := by
    intro j m h; rw [List.getElem?_replicate] at h; split at h <;> simp at h; exact h.symm
  have he : ∀ g i : Nat, (g, i) ∈ List.replicate perSock ((0, 0) : Nat × Nat) → g = 0 := by
    intro g i h; have := List.eq_of_mem_replicate h; simp at this; exact this.1
  refine ⟨hn, by simp [init], ?_, by simp [init], ?_, ?_, ?_, ?_, ?_, ?_, ?_⟩
  · intro k t h; rw [hs k t h]; rfl
  · intro j m h h1; rw [hm j m h] at h1; simp at h1
  · intro j m h _; rw [hm j m h]
  · intro j j' m m' h _ h1; rw [hm j m h] at h1; simp at h1
  · intro k t g i h h1 h2; rw [hs k t h] at h1; exact absurd (he g i h1) h2
  · intro k t a b g i h h1 _ h2; rw [hs k t h] at h1; exact absurd (he g i (List.mem_of_getElem? h1)) h2
  · simp only [init, List.map_replicate]
    simp [usedN, eUsed, List.sum_replicate_nat]
  · intro k t g i h _ h1; rw [hs k t h] at h1; exact he g i h1

/-! ## Joining -/

theorem mem_set_free (mc : List (Nat × Nat)) (i : Nat) (o e x : Nat × Nat) (hi : mc[i]? = some o) (ho : o.1 = 0) (hx : x.1 ≠ 0) :
    x ∈ mc.set i e ↔ x = e ∨ x ∈ mc := by
  constructor
  · intro h; rcases List.mem_or_eq_of_mem_set h with h | h
    · exact Or.inr h
    · exact Or.inl h
  · rintro (rfl | h)
    · exact List.mem_set (lt_of_get hi) _
    · obtain ⟨a, ha⟩ := List.getElem?_of_mem h
      have hne : a ≠ i := by intro e'; rw [e', hi] at ha; simp at ha; rw [ha] at ho; exact hx ho
      exact List.mem_of_getElem? (by rw [get_set a (lt_of_get hi), if_neg hne]; exact ha)

/-- The new table after a join: invariant and who is joined. -/
theorem joinAt_inv {n : Nat} {s : St} (h : Inv n s) (k i ifi g j : Nat) (t : Sock) (o : Nat × Nat) (m m0 : Mem)
    (ht : s.socks[k]? = some t) (hu : t.used = true) (hg : isMcast g = true) (hif : ifi < s.ips.length) (hnot : hasMcast t ifi g = false) (hi : t.mc[i]? = some o) (ho : o.1 = 0)
    (hm0 : s.mem[j]? = some m0) (e1 : m.group = g) (e2 : m.ifi = ifi) (e3 : m.refs = m0.refs) (e4 : m.refs = count s.socks ifi g) (e5 : m.tmr = m0.tmr)
    (e6 : m0.refs ≠ 0 → m0.group = g ∧ m0.ifi = ifi)
    (e7 : ∀ (j' : Nat) (m' : Mem), s.mem[j']? = some m' → m'.refs ≠ 0 → m'.group = g → m'.ifi = ifi → j' = j) :
    Inv n (joinAt s k t i ifi g j m).1 := by
  have hk := lt_of_get ht
  have hj := lt_of_get hm0
  have hgne := mcast_ne hg
  generalize ht' : ({ t with mc := t.mc.set i (g, ifi) } : Sock) = t'
  have hmem : ∀ x : Nat × Nat, x.1 ≠ 0 → (x ∈ t'.mc ↔ x = (g, ifi) ∨ x ∈ t.mc) := by
    intro x hx; rw [← ht']; exact mem_set_free t.mc i o (g, ifi) x hi ho hx
  have hcount : ∀ i' g', g' ≠ 0 → count (s.socks.set k t') i' g' = count s.socks i' g' + (if (g', i') = (g, ifi) then 1 else 0) := by
    intro i' g' hg'
    have := sum_set (ind i' g') s.socks k t' t ht
    rw [count, count]
    have hb : hasMcast t' i' g' = true ↔ (g', i') = (g, ifi) ∨ hasMcast t i' g' = true := by
      rw [hasMcast_iff, hasMcast_iff]; exact hmem _ hg'
    by_cases hc : (g', i') = (g, ifi)
    · rw [if_pos hc]
      have hh : hasMcast t i' g' = false := by simp at hc; rw [hc.1, hc.2]; exact hnot
      simp only [ind] at this ⊢
      rw [if_neg (by rw [hh]; simp), if_pos (hb.mpr (Or.inl hc))] at this
      omega
    · rw [if_neg hc]
      have hh : hasMcast t' i' g' = hasMcast t i' g' := by
        rw [Bool.eq_iff_iff, hb]; simp [hc]
      simp only [ind] at this ⊢
      rw [hh] at this
      omega
  have hlt : m.refs < 255 := by
    have h1 := sum_le_len (ind ifi g) (s.socks.set k t') 1 (by intro x _; rw [ind]; split <;> omega)
    have h2 := hcount ifi g hgne
    rw [if_pos rfl] at h2
    rw [count] at h2
    rw [h2, List.length_set, h.sl] at h1
    have := h.n255
    omega
  have hout : (joinAt s k t i ifi g j m).1 = { s with socks := s.socks.set k t', mem := s.mem.set j { m with refs := m.refs + 1 } } := by
    rw [joinAt, ht', setMem, setSock]
    rw [if_pos (by omega)]
  rw [hout]
  refine ⟨h.n255, by simp [h.sl], ?_, by simp [h.ml], ?_, ?_, ?_, ?_, ?_, ?_, ?_⟩
  · intro k' t1 h1
    simp only at h1
    rw [get_set k' hk] at h1
    split at h1
    · simp at h1; rw [← h1, ← ht']; simp only [List.length_set]; exact h.el k t ht
    · exact h.el k' t1 h1
  · intro j' m' h1 h2
    simp only at h1 ⊢
    rw [get_set j' hj] at h1
    split at h1
    · simp at h1; subst h1
      simp only
      rw [e1, e2]
      refine ⟨hg, hif, ?_⟩
      rw [hcount ifi g hgne, if_pos rfl, e4]
    · rename_i hne
      obtain ⟨l1, l2, l3⟩ := h.live j' m' h1 h2
      refine ⟨l1, l2, ?_⟩
      rw [hcount _ _ (mcast_ne l1), if_neg]
      · exact l3
      · intro hc; simp at hc; exact hne (e7 j' m' h1 h2 hc.1 hc.2)
  · intro j' m' h1 h2
    simp only at h1
    rw [get_set j' hj] at h1
    split at h1
    · simp at h1; subst h1; simp at h2
    · exact h.dead j' m' h1 h2
  · intro a b ma mb ha hb ra rb eg ei
    simp only at ha hb
    rw [get_set a hj] at ha
    rw [get_set b hj] at hb
    split at ha
    · split at hb
      · omega
      · simp at ha; subst ha
        rename_i hbj
        exact absurd (e7 b mb hb rb (by rw [← eg]; exact e1) (by rw [← ei]; exact e2)) hbj
    · split at hb
      · simp at hb; subst hb
        rename_i haj _
        exact absurd (e7 a ma ha ra (by rw [eg]; exact e1) (by rw [ei]; exact e2)) haj
      · exact h.uniq a b ma mb ha hb ra rb eg ei
  · intro k' t1 g' i' h1 h2 h3
    simp only at h1 ⊢
    have key : (g', i') = (g, ifi) ∨ ∃ (t2 : Sock) (k2 : Nat), s.socks[k2]? = some t2 ∧ (g', i') ∈ t2.mc := by
      rw [get_set k' hk] at h1
      split at h1
      · simp at h1; rw [← h1] at h2
        rcases (hmem _ h3).mp h2 with h4 | h4
        · exact Or.inl h4
        · exact Or.inr ⟨t, k, ht, h4⟩
      · exact Or.inr ⟨t1, k', h1, h2⟩
    have self : ∃ (j' : Nat) (m' : Mem), (s.mem.set j { m with refs := m.refs + 1 })[j']? = some m' ∧ m'.refs ≠ 0 ∧ m'.group = g ∧ m'.ifi = ifi :=
      ⟨j, { m with refs := m.refs + 1 }, by rw [get_set j hj, if_pos rfl], Nat.succ_ne_zero _, e1, e2⟩
    rcases key with hc | ⟨t2, k2, hk2, hm2⟩
    · simp at hc; rw [hc.1, hc.2]; exact ⟨hg, hif, self⟩
    · obtain ⟨q1, q2, j', m', hj', r', g1, i1⟩ := h.has k2 t2 g' i' hk2 hm2 h3
      refine ⟨q1, q2, ?_⟩
      by_cases hjj : j' = j
      · subst hjj
        rw [hm0] at hj'; simp at hj'; subst hj'
        obtain ⟨a1, a2⟩ := e6 r'
        rw [← g1, ← i1, a1, a2]; exact self
      · exact ⟨j', m', by rw [get_set j' hj, if_neg hjj]; exact hj', r', g1, i1⟩
  · intro k' t1 a b g' i' h1 ha hb h3
    simp only at h1
    rw [get_set k' hk] at h1
    split at h1
    · simp at h1; rw [← h1, ← ht'] at ha hb
      simp only at ha hb
      have hil := lt_of_get hi
      rw [get_set a hil] at ha
      rw [get_set b hil] at hb
      have nin : ∀ c : Nat, t.mc[c]? = some (g, ifi) → False := by
        intro c hc
        rw [(hasMcast_iff t ifi g).mpr (List.mem_of_getElem? hc)] at hnot; simp at hnot
      split at ha
      · split at hb
        · omega
        · simp at ha; rw [← ha.1, ← ha.2] at hb; exact (nin b hb).elim
      · split at hb
        · simp at hb; rw [← hb.1, ← hb.2] at ha; exact (nin a ha).elim
        · exact h.once k t a b g' i' ht ha hb h3
    · exact h.once k' t1 a b g' i' h1 ha hb h3
  · simp only
    have h1 := sum_set Mem.refs s.mem j { m with refs := m.refs + 1 } m0 hm0
    have h2 := sum_set usedN s.socks k t' t ht
    have h3 : usedN t' = usedN t + 1 := by
      have := sum_set eUsed t.mc i (g, ifi) o hi
      rw [usedN, usedN, ← ht']
      simp only
      simp only [eUsed] at this ⊢
      rw [if_neg (by simp [ho]), if_pos hgne] at this
      omega
    have := h.tot
    simp only at h1
    omega
  · intro k' t1 g' i' h1 h2 h3
    simp only at h1
    rw [get_set k' hk] at h1
    split at h1
    · simp at h1; rw [← h1, ← ht'] at h2; simp [hu] at h2
    · exact h.shut k' t1 g' i' h1 h2 h3

/-- A join of a group not yet joined on a socket with a free entry always succeeds. -/
theorem room_for_join {n : Nat} {s : St} (h : Inv n s) (k i : Nat) (t : Sock) (o : Nat × Nat) (ht : s.socks[k]? = some t) (hi : t.mc[i]? = some o) (ho : o.1 = 0) :
    ∃ j, s.mem.findIdx? (fun m => m.refs == 0) = some j := by
  cases hf : s.mem.findIdx? (fun m => m.refs == 0) with
  | some j => exact ⟨j, rfl⟩
  | none =>
    exfalso
    rw [List.findIdx?_eq_none_iff] at hf
    have h1 := sum_ge_len Mem.refs s.mem (by intro m hm; have := hf m hm; simp at this; omega)
    rw [h.ml, h.tot] at h1
    have hu : ∀ (k : Nat) (t : Sock), s.socks[k]? = some t → usedN t ≤ perSock := by
      intro k t ht
      have := sum_le_len eUsed t.mc 1 (by intro e _; rw [eUsed]; split <;> omega)
      rw [h.el k t ht] at this
      rw [usedN]; omega
    have h2 := sum_set usedN s.socks k { t with mc := t.mc.set i (1, 0) } t ht
    have h3 : usedN { t with mc := t.mc.set i (1, 0) } = usedN t + 1 := by
      have := sum_set eUsed t.mc i (1, 0) o hi
      rw [usedN, usedN]
      simp only [eUsed] at this ⊢
      rw [if_neg (by simp [ho])] at this
      simp at this ⊢
      omega
    have h4 := sum_le_len usedN (s.socks.set k { t with mc := t.mc.set i (1, 0) }) perSock (by
      intro x hx
      rcases List.mem_or_eq_of_mem_set hx with hx | hx
      · obtain ⟨a, ha⟩ := List.getElem?_of_mem hx
        exact hu a x ha
      · rw [hx]
        have := sum_le_len eUsed (t.mc.set i (1, 0)) 1 (by intro e _; rw [eUsed]; split <;> omega)
        rw [List.length_set, h.el k t ht] at this
        rw [usedN]; simp only; omega)
    rw [List.length_set, h.sl] at h4
    omega

/-! ## Dropping -/

theorem mem_set_drop (mc : List (Nat × Nat)) (i : Nat) (e x : Nat × Nat) (hi : mc[i]? = some e) (hx : x.1 ≠ 0)
    (once : ∀ a b : Nat, mc[a]? = some e → mc[b]? = some e → a = b) :
    x ∈ mc.set i (0, 0) ↔ x ≠ e ∧ x ∈ mc := by
  have hil := lt_of_get hi
  constructor
  · intro h
    obtain ⟨a, ha⟩ := List.getElem?_of_mem h
    rw [get_set a hil] at ha
    split at ha
    · simp at ha; rw [← ha] at hx; simp at hx
    · rename_i hne
      refine ⟨?_, List.mem_of_getElem? ha⟩
      intro hxe; rw [hxe] at ha; exact hne (once a i ha hi)
  · rintro ⟨hne, h⟩
    obtain ⟨a, ha⟩ := List.getElem?_of_mem h
    have : a ≠ i := by intro e'; rw [e', hi] at ha; simp at ha; exact hne ha.symm
    exact List.mem_of_getElem? (by rw [get_set a hil, if_neg this]; exact ha)

/-- The state after dropping entry `i` = (g, ifi) of socket `k`, without the timers: the membership `j` is
counted down and cleared at 0. -/
def dropped (m : Mem) : Mem := if m.refs - 1 = 0 then {} else { m with refs := m.refs - 1 }

theorem drop_eq {n : Nat} {s : St} (h : Inv n s) (k i ifi g : Nat) (t : Sock) (ht : s.socks[k]? = some t) (hi : t.mc[i]? = some (g, ifi)) (hg0 : g ≠ 0) :
    ∃ (j : Nat) (m : Mem), s.mem[j]? = some m ∧ m.group = g ∧ m.ifi = ifi ∧ m.refs = count s.socks ifi g ∧ m.refs ≠ 0 ∧
      drop s k t g ifi = ({ s with socks := s.socks.set k { t with mc := t.mc.set i (0, 0) }, mem := s.mem.set j (dropped m),
                                   tms := if m.refs - 1 = 0 ∧ m.tmr ≠ 0 then s.tms.filter (fun x => x.id != m.tmr) else s.tms }, .ok,
                          if m.refs = 1 then report s ifi g true else []) := by
  obtain ⟨hg, hif, j, m, hm, hr, e1, e2⟩ := h.has k t g ifi ht (List.mem_of_getElem? hi) hg0
  have hlive := h.live j m hm hr
  refine ⟨j, m, hm, e1, e2, by rw [← e1, ← e2]; exact hlive.2.2, hr, ?_⟩
  rw [drop, if_neg (by simp [hg, hif])]
  have hfi : t.mc.findIdx? (fun e => e == (g, ifi)) = some i := by
    rw [List.findIdx?_eq_some_iff_getElem]
    obtain ⟨hil, hie⟩ := List.getElem?_eq_some_iff.mp hi
    refine ⟨hil, by rw [hie]; simp, ?_⟩
    intro a ha hc
    rw [beq_iff_eq] at hc
    have := h.once k t a i g ifi ht (by rw [List.getElem?_eq_getElem (by omega), hc]) hi hg0
    omega
  rw [hfi]
  simp only
  have hfind : find (setSock s k { t with mc := t.mc.set i (0, 0) }) ifi g = some j := by
    have := (find_iff h ifi g j).mpr ⟨m, hm, hr, e1, e2⟩
    exact this
  rw [release.eq_def, hfind]
  simp only
  rw [show (setSock s k { t with mc := t.mc.set i (0, 0) }).mem = s.mem from rfl, getD_of_get hm, releaseAt, if_pos (by omega), dropped]
  simp only [setSock, setMem, cancel]
  by_cases h1 : m.refs - 1 = 0
  · rw [if_pos h1, if_pos h1, if_pos (show m.refs = 1 by omega)]
    have : report { s with socks := s.socks.set k { t with mc := t.mc.set i (0, 0) } } ifi g true = report s ifi g true := rfl
    rw [this]
    by_cases h2 : m.tmr = 0
    · rw [if_neg (by simpa using h2), if_neg (by simp [h2])]
    · rw [if_pos h2, if_pos ⟨h1, h2⟩]
  · rw [if_neg h1, if_neg h1, if_neg (show ¬ m.refs = 1 by omega), if_neg (by simp [h1])]

theorem drop_count {n : Nat} {s : St} (h : Inv n s) (k i ifi g : Nat) (t : Sock) (ht : s.socks[k]? = some t) (hi : t.mc[i]? = some (g, ifi)) (hg0 : g ≠ 0) (i' g' : Nat) (hg' : g' ≠ 0) :
    count (s.socks.set k { t with mc := t.mc.set i (0, 0) }) i' g' + (if (g', i') = (g, ifi) then 1 else 0) = count s.socks i' g' := by
  have hmem : ∀ x : Nat × Nat, x.1 ≠ 0 → (x ∈ t.mc.set i (0, 0) ↔ x ≠ (g, ifi) ∧ x ∈ t.mc) :=
    fun x hx => mem_set_drop t.mc i (g, ifi) x hi hx (fun a b ha hb => h.once k t a b g ifi ht ha hb hg0)
  have := sum_set (ind i' g') s.socks k { t with mc := t.mc.set i (0, 0) } t ht
  rw [count, count]
  have hb : hasMcast { t with mc := t.mc.set i (0, 0) } i' g' = true ↔ (g', i') ≠ (g, ifi) ∧ hasMcast t i' g' = true := by
    rw [hasMcast_iff, hasMcast_iff]; exact hmem _ hg'
  by_cases hc : (g', i') = (g, ifi)
  · rw [if_pos hc]
    have hh : hasMcast t i' g' = true := by
      rw [hasMcast_iff, hc]; exact List.mem_of_getElem? hi
    simp only [ind] at this ⊢
    rw [if_pos hh, if_neg (by rw [hb]; simp [hc])] at this
    omega
  · rw [if_neg hc]
    have hh : hasMcast { t with mc := t.mc.set i (0, 0) } i' g' = hasMcast t i' g' := by
      rw [Bool.eq_iff_iff, hb]; simp only [ne_eq, hc, not_false_eq_true, true_and]
    simp only [ind] at this ⊢
    rw [hh] at this
    omega

theorem drop_inv {n : Nat} {s : St} (h : Inv n s) (k i ifi g : Nat) (t : Sock) (ht : s.socks[k]? = some t) (hi : t.mc[i]? = some (g, ifi)) (hg0 : g ≠ 0) :
    Inv n (drop s k t g ifi).1 := by
  obtain ⟨j, m, hm, e1, e2, e4, hr, hd⟩ := drop_eq h k i ifi g t ht hi hg0
  rw [hd]
  have hk := lt_of_get ht
  have hj := lt_of_get hm
  have hil := lt_of_get hi
  have hmem : ∀ x : Nat × Nat, x.1 ≠ 0 → (x ∈ t.mc.set i (0, 0) ↔ x ≠ (g, ifi) ∧ x ∈ t.mc) :=
    fun x hx => mem_set_drop t.mc i (g, ifi) x hi hx (fun a b ha hb => h.once k t a b g ifi ht ha hb hg0)
  have hcnt := drop_count h k i ifi g t ht hi hg0
  have hlive := h.live j m hm hr
  have dr : (dropped m).refs = m.refs - 1 := by
    rw [dropped]; split
    · rename_i h1; exact h1.symm
    · rfl
  have dk : (dropped m).refs ≠ 0 → (dropped m).group = g ∧ (dropped m).ifi = ifi := by
    intro h1; rw [dr] at h1
    rw [dropped, if_neg h1]; exact ⟨e1, e2⟩
  refine ⟨h.n255, by simp [h.sl], ?_, by simp [h.ml], ?_, ?_, ?_, ?_, ?_, ?_, ?_⟩
  · intro k' t1 h1
    simp only at h1
    rw [get_set k' hk] at h1
    split at h1
    · simp at h1; rw [← h1]; simp only [List.length_set]; exact h.el k t ht
    · exact h.el k' t1 h1
  · intro j' m' h1 h2
    simp only at h1 ⊢
    rw [get_set j' hj] at h1
    split at h1
    · simp at h1; subst h1
      obtain ⟨d1, d2⟩ := dk h2
      rw [d1, d2]
      have := hcnt ifi g hg0
      rw [if_pos rfl] at this
      exact ⟨e1 ▸ hlive.1, e2 ▸ hlive.2.1, by omega⟩
    · rename_i hne
      obtain ⟨l1, l2, l3⟩ := h.live j' m' h1 h2
      refine ⟨l1, l2, ?_⟩
      have := hcnt m'.ifi m'.group (mcast_ne l1)
      rw [if_neg] at this
      · omega
      · intro hc; simp at hc; exact hne (h.uniq j' j m' m h1 hm h2 hr (by rw [hc.1, e1]) (by rw [hc.2, e2]))
  · intro j' m' h1 h2
    simp only at h1
    rw [get_set j' hj] at h1
    split at h1
    · simp at h1; subst h1
      rw [dr] at h2
      rw [dropped, if_pos h2]
    · exact h.dead j' m' h1 h2
  · intro a b ma mb ha hb ra rb eg ei
    simp only at ha hb
    rw [get_set a hj] at ha
    rw [get_set b hj] at hb
    split at ha
    · split at hb
      · omega
      · simp at ha; subst ha
        obtain ⟨d1, d2⟩ := dk ra
        have := h.uniq j b m mb hm hb hr rb (by rw [e1, ← eg, d1]) (by rw [e2, ← ei, d2])
        omega
    · split at hb
      · simp at hb; subst hb
        obtain ⟨d1, d2⟩ := dk rb
        have := h.uniq a j ma m ha hm ra hr (by rw [e1, eg, d1]) (by rw [e2, ei, d2])
        omega
      · exact h.uniq a b ma mb ha hb ra rb eg ei
  · intro k' t1 g' i' h1 h2 h3
    simp only at h1 ⊢
    have key : ∃ (t2 : Sock) (k2 : Nat), s.socks[k2]? = some t2 ∧ (g', i') ∈ t2.mc ∧ (k2 = k → (g', i') ≠ (g, ifi)) := by
      rw [get_set k' hk] at h1
      split at h1
      · simp at h1; rw [← h1] at h2
        obtain ⟨q1, q2⟩ := (hmem _ h3).mp h2
        exact ⟨t, k, ht, q2, fun _ => q1⟩
      · exact ⟨t1, k', h1, h2, fun e => by omega⟩
    obtain ⟨t2, k2, hk2, hm2, hne⟩ := key
    obtain ⟨q1, q2, j', m', hj', r', g1, i1⟩ := h.has k2 t2 g' i' hk2 hm2 h3
    refine ⟨q1, q2, ?_⟩
    by_cases hjj : j' = j
    · subst hjj
      rw [hm] at hj'; simp at hj'; subst hj'
      have hk2k : k2 ≠ k := by intro e; apply hne e; rw [← g1, ← i1, e1, e2]
      have h2' := two_le_sum (ind ifi g) s.socks k k2 t t2 ht hk2 (Ne.symm hk2k)
      rw [ind, ind, if_pos ((hasMcast_iff _ _ _).mpr (List.mem_of_getElem? hi)), if_pos ((hasMcast_iff _ _ _).mpr (by rw [← e1, ← e2, g1, i1]; exact hm2))] at h2'
      rw [count] at e4
      have hrr : m.refs - 1 ≠ 0 := by omega
      obtain ⟨d1, d2⟩ := dk (by rw [dr]; exact hrr)
      exact ⟨j', dropped m, by rw [get_set j' hj, if_pos rfl], by rw [dr]; exact hrr, by rw [d1, ← e1, g1], by rw [d2, ← e2, i1]⟩
    · exact ⟨j', m', by rw [get_set j' hj, if_neg hjj]; exact hj', r', g1, i1⟩
  · intro k' t1 a b g' i' h1 ha hb h3
    simp only at h1
    rw [get_set k' hk] at h1
    split at h1
    · simp at h1; rw [← h1] at ha hb
      simp only at ha hb
      rw [get_set a hil] at ha
      rw [get_set b hil] at hb
      split at ha
      · simp at ha; omega
      · split at hb
        · simp at hb; omega
        · exact h.once k t a b g' i' ht ha hb h3
    · exact h.once k' t1 a b g' i' h1 ha hb h3
  · simp only
    have h1 := sum_set Mem.refs s.mem j (dropped m) m hm
    have h2 := sum_set usedN s.socks k { t with mc := t.mc.set i (0, 0) } t ht
    have h3 : usedN { t with mc := t.mc.set i (0, 0) } + 1 = usedN t := by
      have := sum_set eUsed t.mc i (0, 0) (g, ifi) hi
      rw [usedN, usedN]
      simp only [eUsed] at this ⊢
      rw [if_pos hg0] at this
      simp at this ⊢
      omega
    have := h.tot
    rw [dr] at h1
    omega
  · intro k' t1 g' i' h1 h2 h3
    simp only at h1
    rw [get_set k' hk] at h1
    split at h1
    · simp at h1; rw [← h1] at h2 h3
      simp only at h2 h3
      rcases List.mem_or_eq_of_mem_set h3 with h4 | h4
      · exact h.shut k t g' i' ht h2 h4
      · simp at h4; exact h4.1
    · exact h.shut k' t1 g' i' h1 h2 h3

end Wolf.Mcast
