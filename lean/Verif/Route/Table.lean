/-
C27: the route table API is a finite map.
-/
import Verif.Route.Lpm
namespace Wolf.Route

/-! ## Specification: a finite map as an association list without repeated keys -/

/-- (interface, masked prefix, prefix length). -/
abbrev Key := Nat × Ip × Nat
abbrev Map := List (Key × Ip)

def Map.has (m : Map) (k : Key) : Prop := k ∈ m.map (·.1)
instance (m : Map) (k : Key) : Decidable (m.has k) := inferInstanceAs (Decidable (k ∈ _))

/-- Replace the value of `k`, or append it. -/
def Map.insert (m : Map) (k : Key) (g : Ip) : Map :=
  if m.has k then m.map (fun e => if e.1 = k then (k, g) else e) else m ++ [(k, g)]

def Map.erase (m : Map) (k : Key) : Map := m.filter (fun e => e.1 ≠ k)

/-- API operations. -/
inductive Op
  | add (ifIdx : Nat) (pfx : Ip) (plen : Nat) (gw : Ip)
  | del (ifIdx : Nat) (pfx : Ip) (plen : Nat)
deriving Repr, DecidableEq

/-- The map key of a call: the prefix with all bits beyond the prefix length
cleared. -/
def maskTo (p : Ip) (n : Nat) : Ip := p &&& prefixMask n

/-- The specification of one call with `ifs` interfaces and room for `cap` routes. -/
def specStep (ifs cap : Nat) (m : Map) : Op → Map × Option Err
  | .add i p n g =>
    if i ≥ ifs ∨ n > 32 then (m, some .inval)
    else if m.has (i, maskTo p n, n) ∨ m.length < cap then (m.insert (i, maskTo p n, n) g, none)
    else (m, some .nomem)
  | .del i p n =>
    if i ≥ ifs ∨ n > 32 then (m, some .inval)
    else if m.has (i, maskTo p n, n) then (m.erase (i, maskTo p n, n), none)
    else (m, some .inval)

def step (s : St) : Op → St × Option Err
  | .add i p n g => routeAdd s i p n g
  | .del i p n => routeDelete s i p n

/-- Run a history, collecting the return values (oldest first). -/
def runOps : St → List Op → St × List (Option Err)
  | s, [] => (s, [])
  | s, o :: os => let r := step s o; let q := runOps r.1 os; (q.1, r.2 :: q.2)

def specOps (ifs cap : Nat) : Map → List Op → Map × List (Option Err)
  | m, [] => (m, [])
  | m, o :: os => let r := specStep ifs cap m o; let q := specOps ifs cap r.1 os; (q.1, r.2 :: q.2)

/-- `maskTo` clears exactly the bits beyond the prefix length. -/
theorem maskTo_bits (p : Ip) (n : Nat) (hn : n ≤ 32) (i : Nat) (hi : i < 32) :
    (maskTo p n).getMsbD i = (p.getMsbD i && decide (i < n)) := by
  simp only [maskTo, BitVec.getMsbD_and, (prefixMask_isMask n hn).2 i hi]

/-! ## The table as a list of entries -/

/-- The map entry of a slot. -/
def Entry.kv (r : Entry) : Key × Ip := ((r.ifIdx, r.pfx, r.plen), r.gw)

/-- The contents of the used slots. -/
def contents (rs : List Entry) : Map := (rs.filter (·.used)).map Entry.kv

theorem contents_length (s : St) : (contents s.routes).length = routeCount s := by
  simp [contents, routeCount]

theorem contents_cons (r : Entry) (rs : List Entry) :
    contents (r :: rs) = if r.used then r.kv :: contents rs else contents rs := by
  simp only [contents, List.filter_cons]
  split <;> simp_all

theorem has_cons_used (r : Entry) (rs : List Entry) (h : r.used = true) (k : Key) :
    (contents (r :: rs)).has k ↔ (r.ifIdx, r.pfx, r.plen) = k ∨ (contents rs).has k := by
  rw [contents_cons, if_pos h]
  simp only [Map.has, List.map_cons, List.mem_cons, Entry.kv]
  constructor
  · rintro (h | h)
    · exact Or.inl h.symm
    · exact Or.inr h
  · rintro (h | h)
    · exact Or.inl h.symm
    · exact Or.inr h

theorem has_cons_unused (r : Entry) (rs : List Entry) (h : r.used = false) (k : Key) :
    (contents (r :: rs)).has k ↔ (contents rs).has k := by
  rw [contents_cons]; simp [h]

/-! ### Scans -/

theorem addScan_spec (ifIdx : Nat) (p : Ip) (n : Nat) : ∀ (rs : List Entry) (i : Nat) (free : Option Nat),
    (∀ j f, addScan ifIdx p n rs i free = (some j, f) →
      i ≤ j ∧ ∃ r, rs[j - i]? = some r ∧ r.used = true ∧ (r.ifIdx, r.pfx, r.plen) = (ifIdx, p, n)) ∧
    ((∃ f, addScan ifIdx p n rs i free = (none, f)) ↔ ¬ (contents rs).has (ifIdx, p, n)) ∧
    (∀ f, addScan ifIdx p n rs i free = (none, f) →
      (∀ g, free = some g → f = some g) ∧
      (free = none → match f with
        | some j => i ≤ j ∧ ∃ r, rs[j - i]? = some r ∧ r.used = false
        | none => ∀ r ∈ rs, r.used = true)) := by
  intro rs
  induction rs with
  | nil =>
    intro i free
    refine ⟨by simp [addScan], ⟨fun _ => by simp [contents, Map.has], fun _ => ⟨free, rfl⟩⟩, ?_⟩
    intro f h
    simp only [addScan, Prod.mk.injEq, true_and] at h
    subst h
    exact ⟨fun g h => h, fun h => by subst h; simp⟩
  | cons r rs ih =>
    intro i free
    simp only [addScan]
    cases hu : r.used
    · simp only [Bool.not_false, ↓reduceIte]
      obtain ⟨h1, h2, h3⟩ := ih (i + 1) (if free = none then some i else free)
      refine ⟨?_, ?_, ?_⟩
      · intro j f hj
        obtain ⟨a, r', b, c⟩ := h1 j f hj
        refine ⟨by omega, r', ?_, c⟩
        rw [show j - i = (j - (i + 1)) + 1 by omega, List.getElem?_cons_succ]
        exact b
      · rw [h2, has_cons_unused r rs hu]
      · intro f hf
        obtain ⟨a, b⟩ := h3 f hf
        refine ⟨?_, ?_⟩
        · intro g hg; subst hg; simpa using a
        · intro hn; subst hn
          have := a i (by simp)
          subst this
          refine ⟨Nat.le_refl _, r, by simp, hu⟩
    · simp only [Bool.not_true, Bool.false_eq_true, ↓reduceIte]
      by_cases hk : r.ifIdx = ifIdx ∧ r.plen = n ∧ r.pfx = p
      · rw [if_pos hk]
        refine ⟨?_, ?_, by simp⟩
        · intro j f hj
          simp only [Prod.mk.injEq, Option.some.injEq] at hj
          obtain ⟨rfl, _⟩ := hj
          exact ⟨Nat.le_refl _, r, by simp, hu, by simp [hk]⟩
        · simp only [Prod.mk.injEq, reduceCtorEq, false_and, exists_false, false_iff, Classical.not_not]
          rw [has_cons_used r rs hu]
          exact Or.inl (by simp [hk])
      · rw [if_neg hk]
        obtain ⟨h1, h2, h3⟩ := ih (i + 1) free
        refine ⟨?_, ?_, ?_⟩
        · intro j f hj
          obtain ⟨a, r', b, c⟩ := h1 j f hj
          refine ⟨by omega, r', ?_, c⟩
          rw [show j - i = (j - (i + 1)) + 1 by omega, List.getElem?_cons_succ]
          exact b
        · rw [h2, has_cons_used r rs hu]
          constructor
          · rintro h (h' | h')
            · simp only [Prod.mk.injEq] at h'
              exact hk ⟨h'.1, h'.2.2, h'.2.1⟩
            · exact h h'
          · intro h h'; exact h (Or.inr h')
        · intro f hf
          obtain ⟨a, b⟩ := h3 f hf
          refine ⟨a, fun hn => ?_⟩
          have b := b hn
          cases f with
          | some j =>
            obtain ⟨c, r', d, e⟩ := b
            refine ⟨by omega, r', ?_, e⟩
            rw [show j - i = (j - (i + 1)) + 1 by omega, List.getElem?_cons_succ]
            exact d
          | none =>
            intro r' hr'
            rcases List.mem_cons.mp hr' with h | h
            · subst h; exact hu
            · exact b r' h

theorem delScan_spec (ifIdx : Nat) (p : Ip) (n : Nat) : ∀ (rs : List Entry) (i : Nat),
    (∀ j, delScan ifIdx p n rs i = some j →
      i ≤ j ∧ ∃ r, rs[j - i]? = some r ∧ r.used = true ∧ (r.ifIdx, r.pfx, r.plen) = (ifIdx, p, n)) ∧
    (delScan ifIdx p n rs i = none ↔ ¬ (contents rs).has (ifIdx, p, n)) := by
  intro rs
  induction rs with
  | nil => intro i; simp [delScan, contents, Map.has]
  | cons r rs ih =>
    intro i
    simp only [delScan]
    obtain ⟨h1, h2⟩ := ih (i + 1)
    have up : ∀ j, delScan ifIdx p n rs (i + 1) = some j →
        i ≤ j ∧ ∃ r', (r :: rs)[j - i]? = some r' ∧ r'.used = true ∧
          (r'.ifIdx, r'.pfx, r'.plen) = (ifIdx, p, n) := by
      intro j hj
      obtain ⟨a, r', b, c⟩ := h1 j hj
      refine ⟨by omega, r', ?_, c⟩
      rw [show j - i = (j - (i + 1)) + 1 by omega, List.getElem?_cons_succ]
      exact b
    cases hu : r.used
    · simp only [Bool.not_false, ↓reduceIte]
      exact ⟨up, by rw [h2, has_cons_unused r rs hu]⟩
    · simp only [Bool.not_true, Bool.false_eq_true, ↓reduceIte]
      by_cases hk : r.ifIdx ≠ ifIdx ∨ r.plen ≠ n ∨ r.pfx ≠ p
      · rw [if_pos hk]
        refine ⟨up, ?_⟩
        rw [h2, has_cons_used r rs hu]
        constructor
        · rintro h (h' | h')
          · simp only [Prod.mk.injEq] at h'
            rcases hk with h1 | h1 | h1
            · exact h1 h'.1
            · exact h1 h'.2.2
            · exact h1 h'.2.1
          · exact h h'
        · intro h h'; exact h (Or.inr h')
      · rw [if_neg hk]
        have hk' : (r.ifIdx, r.pfx, r.plen) = (ifIdx, p, n) := by
          simp only [Prod.mk.injEq]
          refine ⟨?_, ?_, ?_⟩
          · exact Classical.byContradiction fun h => hk (Or.inl h)
          · exact Classical.byContradiction fun h => hk (Or.inr (Or.inr h))
          · exact Classical.byContradiction fun h => hk (Or.inr (Or.inl h))
        refine ⟨?_, ?_⟩
        · intro j hj
          simp only [Option.some.injEq] at hj
          subst hj
          exact ⟨Nat.le_refl _, r, by simp, hu, hk'⟩
        · simp only [reduceCtorEq, false_iff, Classical.not_not]
          rw [has_cons_used r rs hu]
          exact Or.inl hk'

/-! ### Updating one slot -/

theorem contents_append (a b : List Entry) : contents (a ++ b) = contents a ++ contents b := by
  simp [contents]

theorem split_at (rs : List Entry) (j : Nat) (r : Entry) (h : rs[j]? = some r) :
    rs = rs.take j ++ r :: rs.drop (j + 1) ∧
    ∀ x, rs.set j x = rs.take j ++ x :: rs.drop (j + 1) := by
  obtain ⟨hlt, hr⟩ := List.getElem?_eq_some_iff.mp h
  refine ⟨?_, fun x => List.set_eq_take_append_cons_drop ▸ by simp [hlt]⟩
  rw [← hr]
  conv => lhs; rw [← List.take_append_drop j rs, List.drop_eq_getElem_cons hlt]

/-! ## Refinement -/

/-- The table refines the map: same entries up to order, keys unique. -/
structure Ref (s : St) (m : Map) : Prop where
  perm : (contents s.routes).Perm m
  uniq : (m.map (·.1)).Nodup

theorem has_perm (a b : Map) (h : a.Perm b) (k : Key) : a.has k ↔ b.has k :=
  (h.map (·.1)).mem_iff

theorem step_ref (s : St) (m : Map) (hr : Ref s m) (hi : s.confs.length ≤ 256) (o : Op) :
    (step s o).2 = (specStep s.confs.length s.routes.length m o).2 ∧
    Ref (step s o).1 (specStep s.confs.length s.routes.length m o).1 ∧
    (step s o).1.confs = s.confs ∧ (step s o).1.routes.length = s.routes.length := by
  have hperm := hr.perm
  have huniq := hr.uniq
  cases o with
  | add ifIdx pfx n g =>
    simp only [step, specStep, routeAdd]
    by_cases hbad : ifIdx ≥ s.confs.length ∨ n > 32
    · rw [if_pos hbad, if_pos hbad]; exact ⟨rfl, hr, rfl, rfl⟩
    rw [if_neg hbad, if_neg hbad]
    have hif : ifIdx % 256 = ifIdx := Nat.mod_eq_of_lt (by omega)
    obtain ⟨h1, h2, h3⟩ := addScan_spec ifIdx (pfx &&& prefixMask n) n s.routes 0 none
    have hh := has_perm _ _ hperm (ifIdx, pfx &&& prefixMask n, n)
    have emask : pfx &&& prefixMask n = maskTo pfx n := rfl
    simp only [emask] at *
    clear emask
    generalize maskTo pfx n = p at *
    cases hsc : addScan ifIdx p n s.routes 0 none with
    | mk a f =>
      cases a with
      | some j =>
        obtain ⟨_, r, hget, hu, hkey⟩ := h1 j f hsc
        simp only [Nat.sub_zero] at hget
        have hhas : m.has (ifIdx, p, n) := by
          rw [← hh]
          apply Classical.byContradiction
          intro hno
          obtain ⟨f', hf'⟩ := h2.mpr hno
          rw [hsc] at hf'; simp at hf'
        rw [if_pos (Or.inl hhas)]
        refine ⟨rfl, ⟨?_, ?_⟩, rfl, by simp⟩
        · simp only [Map.insert, if_pos hhas]
          obtain ⟨e1, e2⟩ := split_at s.routes j r hget
          have hgd : s.routes.getD j Entry.zero = r := by
            rw [List.getD_eq_getElem?_getD, hget]; rfl
          rw [hgd, e2]
          rw [e1] at hperm
          rw [contents_append, contents_cons, if_pos hu] at hperm
          rw [contents_append, contents_cons]
          simp only [hu, ↓reduceIte]
          have hmap := hperm.map (fun e : Key × Ip => if e.1 = (ifIdx, p, n) then ((ifIdx, p, n), g) else e)
          refine List.Perm.trans ?_ hmap
          apply List.Perm.of_eq
          have hnd : ((contents (s.routes.take j) ++ r.kv :: contents (s.routes.drop (j + 1))).map (·.1)).Nodup :=
            (hperm.map (·.1)).nodup_iff.mpr huniq
          simp only [List.map_append, List.map_cons] at hnd ⊢
          have hkv : r.kv.1 = (ifIdx, p, n) := hkey
          rw [hkv] at hnd
          have hne : ∀ (l : Map), (ifIdx, p, n) ∉ l.map (·.1) →
              l.map (fun e : Key × Ip => if e.1 = (ifIdx, p, n) then ((ifIdx, p, n), g) else e) = l := by
            intro l hl
            conv => rhs; rw [← List.map_id l]
            apply List.map_congr_left
            intro e he
            have : e.1 ≠ (ifIdx, p, n) := fun h => hl (List.mem_map.mpr ⟨e, he, h⟩)
            simp [this]
          rw [List.nodup_append] at hnd
          obtain ⟨_, hn2, hn3⟩ := hnd
          rw [hne _ (fun h => hn3 _ h _ List.mem_cons_self rfl), hne _ (List.nodup_cons.mp hn2).1]
          simp only [hkv, ↓reduceIte]
          congr 2
          simp only [Entry.kv]
          rw [hkey]
        · simp only [Map.insert, if_pos hhas, List.map_map]
          have : ((fun e : Key × Ip => e.1) ∘ fun e : Key × Ip =>
              if e.1 = (ifIdx, p, n) then ((ifIdx, p, n), g) else e) = (fun e => e.1) := by
            funext e
            simp only [Function.comp]
            split
            · rename_i h; exact h.symm
            · rfl
          rw [this]
          exact huniq
      | none =>
        have hno : ¬ m.has (ifIdx, p, n) := by rw [← hh]; exact h2.mp ⟨f, hsc⟩
        have hfree := (h3 f hsc).2 trivial
        cases f with
        | none =>
          have hfull : m.length = s.routes.length := by
            rw [← hperm.length_eq]
            simp only [contents, List.length_map]
            rw [List.filter_eq_self.mpr (by simpa using hfree)]
          rw [if_neg (by rintro (h | h); exact hno h; omega)]
          exact ⟨rfl, hr, rfl, rfl⟩
        | some j =>
          obtain ⟨_, r, hget, hu⟩ := hfree
          simp only [Nat.sub_zero] at hget
          obtain ⟨e1, e2⟩ := split_at s.routes j r hget
          have hlen : m.length < s.routes.length := by
            rw [← hperm.length_eq]
            simp only [contents, List.length_map]
            have hle := List.length_filter_le (fun e : Entry => e.used) s.routes
            rcases Nat.lt_or_eq_of_le hle with h | h
            · exact h
            · have := List.length_filter_eq_length_iff.mp h r (List.mem_of_getElem? hget)
              rw [hu] at this; cases this
          rw [if_pos (Or.inr hlen)]
          refine ⟨rfl, ⟨?_, ?_⟩, rfl, by simp⟩
          · simp only [Map.insert, if_neg hno]
            rw [e2, contents_append, contents_cons]
            rw [e1, contents_append, contents_cons] at hperm
            simp only [hu, Bool.false_eq_true, ↓reduceIte] at hperm
            simp only [↓reduceIte, Entry.kv, hif]
            refine List.Perm.trans List.perm_middle ?_
            refine List.Perm.trans ?_ (List.perm_append_comm (l₁ := [((ifIdx, p, n), g)]))
            exact List.Perm.cons _ hperm
          · simp only [Map.insert, if_neg hno, List.map_append, List.map_cons, List.map_nil]
            rw [List.nodup_append]
            refine ⟨huniq, by simp, ?_⟩
            intro a ha b hb hab
            simp only [List.mem_singleton] at hb
            subst hb
            subst hab
            exact hno ha
  | del ifIdx pfx n =>
    simp only [step, specStep, routeDelete]
    by_cases hbad : ifIdx ≥ s.confs.length ∨ n > 32
    · rw [if_pos hbad, if_pos hbad]; exact ⟨rfl, hr, rfl, rfl⟩
    rw [if_neg hbad, if_neg hbad]
    obtain ⟨h1, h2⟩ := delScan_spec ifIdx (pfx &&& prefixMask n) n s.routes 0
    have hh := has_perm _ _ hperm (ifIdx, pfx &&& prefixMask n, n)
    have emask : pfx &&& prefixMask n = maskTo pfx n := rfl
    simp only [emask] at *
    clear emask
    generalize maskTo pfx n = p at *
    cases hsc : delScan ifIdx p n s.routes 0 with
    | none =>
      rw [if_neg (by rw [← hh]; exact h2.mp hsc)]
      exact ⟨rfl, hr, rfl, rfl⟩
    | some j =>
      obtain ⟨_, r, hget, hu, hkey⟩ := h1 j hsc
      simp only [Nat.sub_zero] at hget
      have hhas : m.has (ifIdx, p, n) := by
        rw [← hh]
        apply Classical.byContradiction
        intro hno
        rw [h2.mpr hno] at hsc; cases hsc
      rw [if_pos hhas]
      obtain ⟨e1, e2⟩ := split_at s.routes j r hget
      refine ⟨rfl, ⟨?_, ?_⟩, rfl, by simp⟩
      · simp only [Map.erase]
        rw [e2, contents_append, contents_cons]
        rw [e1, contents_append, contents_cons] at hperm
        simp only [hu, ↓reduceIte] at hperm
        simp only [Entry.zero, Bool.false_eq_true, ↓reduceIte]
        refine List.Perm.trans ?_ (hperm.filter _)
        apply List.Perm.of_eq
        have hnd : ((contents (s.routes.take j) ++ r.kv :: contents (s.routes.drop (j + 1))).map (·.1)).Nodup :=
          (hperm.map (·.1)).nodup_iff.mpr huniq
        simp only [List.map_append, List.map_cons] at hnd
        have hkv : r.kv.1 = (ifIdx, p, n) := hkey
        rw [hkv] at hnd
        rw [List.nodup_append] at hnd
        obtain ⟨_, hn2, hn3⟩ := hnd
        have hne : ∀ (l : Map), (ifIdx, p, n) ∉ l.map (·.1) →
            l.filter (fun e : Key × Ip => decide (e.1 ≠ (ifIdx, p, n))) = l := by
          intro l hl
          rw [List.filter_eq_self]
          intro e he
          have : e.1 ≠ (ifIdx, p, n) := fun h => hl (List.mem_map.mpr ⟨e, he, h⟩)
          simp [this]
        rw [List.filter_append, List.filter_cons, hne _ (fun h => hn3 _ h _ List.mem_cons_self rfl),
          hne _ (List.nodup_cons.mp hn2).1]
        simp [hkv]
      · simp only [Map.erase]
        exact List.Nodup.sublist (List.Sublist.map _ List.filter_sublist) huniq

theorem runOps_ref (os : List Op) : ∀ (s : St) (m : Map), Ref s m → s.confs.length ≤ 256 →
    (runOps s os).2 = (specOps s.confs.length s.routes.length m os).2 ∧
    Ref (runOps s os).1 (specOps s.confs.length s.routes.length m os).1 := by
  induction os with
  | nil => intro s m h _; exact ⟨rfl, h⟩
  | cons o os ih =>
    intro s m h hi
    obtain ⟨h1, h2, h3, h4⟩ := step_ref s m h hi o
    have := ih (step s o).1 _ h2 (by rw [h3]; exact hi)
    rw [h3, h4] at this
    simp only [runOps, specOps]
    exact ⟨by rw [h1, this.1], this.2⟩

/-- What the enumeration calls return, for indices 0, 1, …, count-1. -/
def enumerate (s : St) : List (Option (Key × Ip)) := (List.range (routeCount s)).map (routeGet s)

theorem getLoop_spec : ∀ (rs : List Entry) (k : Nat),
    (getLoop rs k).map Entry.kv = (contents rs)[k]? := by
  intro rs
  induction rs with
  | nil => intro k; simp [getLoop, contents]
  | cons r rs ih =>
    intro k
    simp only [getLoop]
    rw [contents_cons]
    cases hu : r.used
    · simp only [Bool.not_false, ↓reduceIte, Bool.false_eq_true]
      exact ih k
    · simp only [Bool.not_true, Bool.false_eq_true, ↓reduceIte]
      cases k with
      | zero => rfl
      | succ k => simpa using ih k

theorem routeGet_spec (s : St) (k : Nat) : routeGet s k = (contents s.routes)[k]? := by
  rw [← getLoop_spec]; rfl

/-- An empty table with `ifs` interfaces and `cap` slots. -/
def empty (confs : List Conf) (cap : Nat) (loop : Bool) : St :=
  { confs := confs, routes := List.replicate cap Entry.zero, gen := 0, loop := loop }

/-- **C27.** For every history of add and delete calls on an initially empty table
(any number of slots; at most 256 interfaces, the stored index being one byte): the
calls return exactly what the finite map returns; the reported count is the map's
size; enumerating indices 0 … count-1 yields exactly the map's entries, each once;
and any further index is refused. -/
theorem route_table_is_map (confs : List Conf) (cap : Nat) (loop : Bool) (hi : confs.length ≤ 256)
    (os : List Op) :
    let s := (runOps (empty confs cap loop) os).1
    let m := (specOps confs.length cap [] os).1
    (runOps (empty confs cap loop) os).2 = (specOps confs.length cap [] os).2 ∧
    routeCount s = m.length ∧
    (enumerate s).Perm (m.map some) ∧
    (∀ k, routeCount s ≤ k → routeGet s k = none) ∧
    (m.map (·.1)).Nodup := by
  have h0 : Ref (empty confs cap loop) [] := by
    refine ⟨?_, by simp⟩
    have : contents (empty confs cap loop).routes = [] := by
      simp [contents, empty, Entry.zero, List.filter_replicate]
    rw [this]
  obtain ⟨h1, h2⟩ := runOps_ref os (empty confs cap loop) [] h0 hi
  have e1 : (empty confs cap loop).confs.length = confs.length := rfl
  have e2 : (empty confs cap loop).routes.length = cap := by simp [empty]
  rw [e1, e2] at h1 h2
  refine ⟨h1, ?_, ?_, ?_, h2.uniq⟩
  · rw [← contents_length, h2.perm.length_eq]
  · refine List.Perm.trans (List.Perm.of_eq ?_) (h2.perm.map some)
    simp only [enumerate]
    apply List.ext_getElem?
    intro k
    rw [List.getElem?_map, List.getElem?_map, ← contents_length]
    by_cases hk : k < (contents (runOps (empty confs cap loop) os).1.routes).length
    · rw [List.getElem?_range hk, Option.map_some, routeGet_spec, List.getElem?_eq_getElem hk]
      rfl
    · rw [List.getElem?_eq_none (by simpa using Nat.le_of_not_lt hk),
        List.getElem?_eq_none (Nat.le_of_not_lt hk)]
      rfl
  · intro k hk
    rw [routeGet_spec, List.getElem?_eq_none (by rw [contents_length]; exact hk)]

/-- **C27, failing calls.** A call that returns an error leaves the whole routing
state as it was. -/
theorem route_failed_call_no_effect (s : St) (o : Op) (h : (step s o).2 ≠ none) :
    (step s o).1 = s := by
  cases o with
  | add i p n g =>
    simp only [step, routeAdd] at *
    split
    · rfl
    · rename_i hb
      rw [if_neg hb] at h
      revert h
      cases addScan i (p &&& prefixMask n) n s.routes 0 none with
      | mk a f =>
        cases a with
        | some j => simp
        | none =>
          cases f with
          | some j => simp
          | none => simp
  | del i p n =>
    simp only [step, routeDelete] at *
    split
    · rfl
    · rename_i hb
      rw [if_neg hb] at h
      revert h
      cases delScan i (p &&& prefixMask n) n s.routes 0 with
      | some j => simp
      | none => simp

/-! ## Insertion order (used by the tie-break of C26) -/

/-- Every used slot's insertion rank is below the generation counter, and ranks of
different used slots differ. -/
structure Orders (s : St) : Prop where
  below : ∀ r ∈ s.routes, r.used = true → r.order < s.gen
  distinct : (s.routes.filter (·.used)).map (·.order) |>.Nodup

/-- Number of successful or attempted adds in a history. -/
def adds (os : List Op) : Nat := (os.filter (fun o => match o with | .add .. => true | _ => false)).length

theorem filter_used_set (rs : List Entry) (j : Nat) (r x : Entry) (h : rs[j]? = some r) :
    ((rs.set j x).filter (·.used)) = (rs.take j).filter (·.used) ++
      ((if x.used then [x] else []) ++ (rs.drop (j + 1)).filter (·.used)) ∧
    (rs.filter (·.used)) = (rs.take j).filter (·.used) ++
      ((if r.used then [r] else []) ++ (rs.drop (j + 1)).filter (·.used)) := by
  obtain ⟨e1, e2⟩ := split_at rs j r h
  constructor
  · rw [e2, List.filter_append, List.filter_cons]
    cases x.used <;> rfl
  · conv => lhs; rw [e1]
    rw [List.filter_append, List.filter_cons]
    cases r.used <;> rfl

theorem step_orders (s : St) (h : Orders s) (o : Op)
    (hg : s.gen + 1 < 2 ^ 32) : Orders (step s o).1 ∧ (step s o).1.gen ≤ s.gen + 1 := by
  have hgm : (s.gen + 1) % 2 ^ 32 = s.gen + 1 := Nat.mod_eq_of_lt hg
  cases o with
  | add i p n g =>
    simp only [step, routeAdd]
    split
    · exact ⟨h, by simp⟩
    obtain ⟨h1, h2, h3⟩ := addScan_spec i (p &&& prefixMask n) n s.routes 0 none
    generalize hp : p &&& prefixMask n = q at *
    cases hsc : addScan i q n s.routes 0 none with
    | mk a f =>
      cases a with
      | some j =>
        obtain ⟨_, r, hget, hu, hkey⟩ := h1 j f hsc
        simp only [Nat.sub_zero] at hget
        have hgd : s.routes.getD j Entry.zero = r := by
          rw [List.getD_eq_getElem?_getD, hget]; rfl
        simp only [hgd]
        refine ⟨⟨?_, ?_⟩, by simp⟩
        · intro r' hr' hu'
          rcases List.mem_or_eq_of_mem_set hr' with h4 | h4
          · exact h.below r' h4 hu'
          · subst h4; exact h.below r (List.mem_of_getElem? hget) hu
        · obtain ⟨e1, e2⟩ := filter_used_set s.routes j r { r with gw := g } hget
          have hd := h.distinct
          rw [e2] at hd
          simp only [e1]
          simpa [hu] using hd
      | none =>
        cases f with
        | none => exact ⟨h, by simp⟩
        | some j =>
          obtain ⟨_, r, hget, hu⟩ := (h3 _ hsc).2 rfl
          simp only [Nat.sub_zero] at hget
          simp only [hgm]
          refine ⟨⟨?_, ?_⟩, Nat.le_refl _⟩
          · intro r' hr' hu'
            rcases List.mem_or_eq_of_mem_set hr' with h4 | h4
            · have := h.below r' h4 hu'
              show r'.order < s.gen + 1
              omega
            · subst h4; exact Nat.lt_succ_self _
          · obtain ⟨e1, e2⟩ := filter_used_set s.routes j r
              { used := true, pfx := q, gw := g, order := s.gen, plen := n, ifIdx := i % 256 } hget
            have hd := h.distinct
            rw [e2] at hd
            simp only [e1]
            simp only [hu, Bool.false_eq_true, ↓reduceIte, List.nil_append, List.map_append] at hd
            simp only [↓reduceIte, List.singleton_append, List.map_append, List.map_cons]
            rw [List.perm_middle.nodup_iff]
            refine List.nodup_cons.mpr ⟨?_, hd⟩
            intro hm
            rw [← List.map_append, List.mem_map] at hm
            obtain ⟨r', h5, h6⟩ := hm
            have hmem : r' ∈ s.routes ∧ r'.used = true := by
              rcases List.mem_append.mp h5 with h7 | h7
              · rw [List.mem_filter] at h7; exact ⟨List.mem_of_mem_take h7.1, h7.2⟩
              · rw [List.mem_filter] at h7; exact ⟨List.mem_of_mem_drop h7.1, h7.2⟩
            have := h.below r' hmem.1 hmem.2
            omega
  | del i p n =>
    simp only [step, routeDelete]
    split
    · exact ⟨h, by simp⟩
    obtain ⟨h1, h2⟩ := delScan_spec i (p &&& prefixMask n) n s.routes 0
    generalize hp : p &&& prefixMask n = q at *
    cases hsc : delScan i q n s.routes 0 with
    | none => exact ⟨h, by simp⟩
    | some j =>
      obtain ⟨_, r, hget, hu, hkey⟩ := h1 j hsc
      simp only [Nat.sub_zero] at hget
      refine ⟨⟨?_, ?_⟩, by simp⟩
      · intro r' hr' hu'
        rcases List.mem_or_eq_of_mem_set hr' with h4 | h4
        · exact h.below r' h4 hu'
        · subst h4; cases hu'
      · obtain ⟨e1, e2⟩ := filter_used_set s.routes j r Entry.zero hget
        have hd := h.distinct
        rw [e2] at hd
        simp only [e1]
        simp only [hu, ↓reduceIte, List.map_append] at hd
        simp only [Entry.zero, Bool.false_eq_true, ↓reduceIte, List.nil_append, List.map_append]
        rw [List.nodup_append] at hd ⊢
        obtain ⟨a, b, c⟩ := hd
        rw [List.nodup_append] at b
        exact ⟨a, b.2.1, fun x hx y hy => c x hx y (List.mem_append_right _ hy)⟩

/-- **C26/C27, insertion order.** In any history with fewer than 2^32 calls, the rank
stored with an entry is an insertion rank: ranks of live entries are pairwise
different and a newly inserted entry ranks after every live one. -/
theorem route_order_is_insertion_order (confs : List Conf) (cap : Nat) (loop : Bool) (os : List Op)
    (hn : os.length + 1 < 2 ^ 32) : Orders (runOps (empty confs cap loop) os).1 := by
  have gen : ∀ (os : List Op) (s : St), Orders s → s.gen + os.length + 1 < 2 ^ 32 →
      Orders (runOps s os).1 := by
    intro os
    induction os with
    | nil => intro s h _; exact h
    | cons o os ih =>
      intro s h hg
      simp only [List.length_cons] at hg
      obtain ⟨h1, h2⟩ := step_orders s h o (by omega)
      exact ih _ h1 (by omega)
  apply gen
  · refine ⟨?_, ?_⟩
    · intro r hr hu
      simp only [empty, List.mem_replicate] at hr
      rw [hr.2] at hu; cases hu
    · simp [empty, Entry.zero, List.filter_replicate]
  · show 0 + os.length + 1 < 2 ^ 32
    omega

/-- A history that exercises update-in-place, a full table, deletion and reuse. -/
example :
    let cs : List Conf := [⟨1#32, 0#32, 0#32⟩, ⟨2#32, 0#32, 0#32⟩]
    let os : List Op := [.add 0 0x0A0102FF#32 24 7#32, .add 1 0x0A000000#32 8 8#32,
      .add 0 0x0A010200#32 24 9#32, .add 1 0#32 0 1#32, .del 1 0x0A999999#32 8,
      .add 1 0#32 0 1#32, .add 2 0#32 0 0#32]
    (runOps (empty cs 2 false) os).2 = [none, none, none, some .nomem, none, none, some .inval] ∧
    enumerate (runOps (empty cs 2 false) os).1 =
      [some ((0, 0x0A010200#32, 24), 9#32), some ((1, 0#32, 0), 1#32)] := by decide +kernel

end Wolf.Route
