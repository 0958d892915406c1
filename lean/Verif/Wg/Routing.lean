import Verif.Wg.SessionProps

/-!
# C46: crypto-routing

Specification: a table of allowed IPs is a partial map from prefixes to peers.  A prefix is a
length `len` and the leading `len` bits `net` of the addresses in it, so an address `ip` belongs
to it iff `ip / 2^(32 - len) = net`.  (The API does not refuse lengths above 32; such an entry
covers one address, and wins over a /32 for it.  Nothing below depends on lengths being ≤ 32.)
-/

namespace Wolf.Wg

/-- The address belongs to the prefix. -/
def InPrefix (ip net len : Nat) : Prop := ip / 2 ^ (32 - len) = net

instance (ip net len : Nat) : Decidable (InPrefix ip net len) :=
  inferInstanceAs (Decidable (_ = _))

/-- The table assigns the prefix to the peer. -/
def Owns (t : List (Option Allowed)) (net len peer : Nat) : Prop :=
  some (⟨net * 2 ^ (32 - len), len, peer⟩ : Allowed) ∈ t

/-- Well-formed tables: entries are stored masked, and no prefix has two entries. -/
structure TWf (t : List (Option Allowed)) : Prop where
  masked : ∀ a : Allowed, some a ∈ t → ∃ net, a.ip = net * 2 ^ (32 - a.cidr)
  once : ∀ (i j : Nat) (a b : Allowed), t[i]? = some (some a) → t[j]? = some (some b) →
    a.ip = b.ip → a.cidr = b.cidr → i = j

theorem and_cidrMask (ip c : Nat) (h : ip < 2 ^ 32) :
    ip &&& cidrMask c = ip / 2 ^ (32 - c) * 2 ^ (32 - c) := by
  unfold cidrMask
  split
  · next h0 => subst h0; simp [Nat.div_eq_of_lt h]
  · split
    · next h1 =>
      rw [Nat.sub_eq_zero_of_le h1, Nat.pow_zero, Nat.div_one, Nat.mul_one]
      rw [show (0xFFFFFFFF : Nat) = 2 ^ 32 - 1 from rfl, Nat.and_two_pow_sub_one_eq_mod]
      exact Nat.mod_eq_of_lt h
    · next h0 h1 =>
      generalize hk : 32 - c = k
      have hk1 : k < 32 := by omega
      rw [← Nat.shiftRight_eq_div_pow, ← Nat.shiftLeft_eq]
      apply Nat.eq_of_testBit_eq
      intro i
      rw [Nat.testBit_and, Nat.testBit_xor, Nat.testBit_two_pow_sub_one,
        Nat.testBit_two_pow_sub_one, Nat.testBit_shiftLeft, Nat.testBit_shiftRight]
      by_cases hi : k ≤ i
      · have e : k + (i - k) = i := by omega
        have hn : ¬ i < k := by omega
        rw [e]
        by_cases h32 : i < 32
        · simp [hi, hn, h32]
        · have : ip.testBit i = false :=
            Nat.testBit_lt_two_pow (Nat.lt_of_lt_of_le h (Nat.pow_le_pow_right (by omega) (by omega)))
          simp [this]
      · have hn : i < k := by omega
        have h32 : i < 32 := by omega
        simp [hi, hn, h32]

theorem and_mask_match (ip c net : Nat) (h : ip < 2 ^ 32) :
    ip &&& cidrMask c = net * 2 ^ (32 - c) ↔ InPrefix ip net c := by
  rw [and_cidrMask ip c h]
  unfold InPrefix
  constructor
  · intro e; exact Nat.eq_of_mul_eq_mul_right (Nat.pow_pos (by decide)) e
  · intro e; rw [e]

/-! ### Lookup -/

/-- What the loop of the lookup maintains over the entries seen so far. -/
structure Best (ip : Nat) (seen : List (Option Allowed)) (b : Option Nat × Nat) : Prop where
  nohit : b.1 = none → ∀ a : Allowed, some a ∈ seen → ip &&& cidrMask a.cidr ≠ a.ip
  found : ∀ q, b.1 = some q →
    (∃ a : Allowed, some a ∈ seen ∧ ip &&& cidrMask a.cidr = a.ip ∧ a.cidr = b.2 ∧ a.peer = q) ∧
    ∀ a : Allowed, some a ∈ seen → ip &&& cidrMask a.cidr = a.ip → a.cidr ≤ b.2

theorem Best.step {ip : Nat} {seen b} (h : Best ip seen b) (e : Option Allowed) :
    Best ip (seen ++ [e]) (lookupStep ip b e) := by
  have mono : ∀ {a : Allowed}, some a ∈ seen ++ [e] → some a ∈ seen ∨ some a = e := by
    intro a ha
    rcases List.mem_append.mp ha with ha | ha
    · exact Or.inl ha
    · exact Or.inr (List.mem_singleton.mp ha)
  cases e with
  | none =>
    show Best ip _ b
    refine ⟨fun hb a ha => ?_, fun q hq => ?_⟩
    · rcases mono ha with ha | ha
      · exact h.nohit hb a ha
      · cases ha
    · obtain ⟨⟨a, h1, h2⟩, h3⟩ := h.found q hq
      refine ⟨⟨a, List.mem_append_left _ h1, h2⟩, fun a ha hm => ?_⟩
      rcases mono ha with ha | ha
      · exact h3 a ha hm
      · cases ha
  | some x =>
    unfold lookupStep
    dsimp only
    by_cases hm : ip &&& cidrMask x.cidr = x.ip
    · rw [if_pos hm]
      by_cases hb : b.1 = none ∨ x.cidr > b.2
      · rw [if_pos hb]
        refine ⟨fun hn => (by cases hn), fun q hq => ?_⟩
        have hq' : x.peer = q := Option.some.inj hq
        refine ⟨⟨x, by simp, hm, rfl, hq'⟩, fun a ha hma => ?_⟩
        rcases mono ha with ha | ha
        · cases hb1 : b.1 with
          | none => exact absurd hma (h.nohit hb1 a ha)
          | some q' =>
            have := (h.found q' hb1).2 a ha hma
            rcases hb with hb | hb
            · rw [hb1] at hb; cases hb
            · show a.cidr ≤ x.cidr; omega
        · cases ha; exact Nat.le_refl _
      · rw [if_neg hb]
        refine ⟨fun hn => absurd (Or.inl hn) hb, fun q hq => ?_⟩
        obtain ⟨⟨a, h1, h2⟩, h3⟩ := h.found q hq
        refine ⟨⟨a, List.mem_append_left _ h1, h2⟩, fun a ha hma => ?_⟩
        rcases mono ha with ha | ha
        · exact h3 a ha hma
        · cases ha
          by_cases hc : x.cidr > b.2
          · exact absurd (Or.inr hc) hb
          · omega
    · rw [if_neg hm]
      refine ⟨fun hb a ha => ?_, fun q hq => ?_⟩
      · rcases mono ha with ha | ha
        · exact h.nohit hb a ha
        · cases ha; exact hm
      · obtain ⟨⟨a, h1, h2⟩, h3⟩ := h.found q hq
        refine ⟨⟨a, List.mem_append_left _ h1, h2⟩, fun a ha hma => ?_⟩
        rcases mono ha with ha | ha
        · exact h3 a ha hma
        · cases ha; exact absurd hma hm

theorem Best.foldl {ip : Nat} (t : List (Option Allowed)) : ∀ {seen b}, Best ip seen b →
    Best ip (seen ++ t) (t.foldl (lookupStep ip) b) := by
  induction t with
  | nil => intro seen b h; rw [List.append_nil]; exact h
  | cons e t ih =>
    intro seen b h
    have := ih (h.step e)
    rw [List.append_assoc] at this
    exact this

theorem lookup_best (t : List (Option Allowed)) (ip : Nat) :
    Best ip t (t.foldl (lookupStep ip) (none, 0)) :=
  Best.foldl t (seen := [])
    (b := (none, 0)) ⟨fun _ a h => (by cases h), fun q hq => (by cases hq)⟩

/-- **C46, lookup.**  The peer found for an address is the owner of the longest prefix that
contains the address. -/
theorem lookup_is_longest (t : List (Option Allowed)) (hw : TWf t) (ip q : Nat)
    (hip : ip < 2 ^ 32) :
    allowLookup t ip = some q ↔
      ∃ net len, Owns t net len q ∧ InPrefix ip net len ∧
        ∀ net' len' q', Owns t net' len' q' → InPrefix ip net' len' → len' ≤ len := by
  have hb := lookup_best t ip
  have own : ∀ a : Allowed, some a ∈ t → ip &&& cidrMask a.cidr = a.ip →
      ∃ net, Owns t net a.cidr a.peer ∧ InPrefix ip net a.cidr := by
    intro a ha hm
    obtain ⟨net, hn⟩ := hw.masked a ha
    refine ⟨net, ?_, ?_⟩
    · unfold Owns
      rw [← hn]
      exact ha
    · rw [hn] at hm
      exact (and_mask_match ip _ _ hip).mp hm
  constructor
  · intro h
    obtain ⟨⟨a, h1, h2, h3, h4⟩, h5⟩ := hb.found q h
    obtain ⟨net, h6, h7⟩ := own a h1 h2
    rw [h4] at h6
    refine ⟨net, a.cidr, h6, h7, ?_⟩
    intro net' len' q' ho hp
    rw [h3]
    exact h5 _ ho ((and_mask_match ip _ _ hip).mpr hp)
  · rintro ⟨net, len, ho, hp, hmax⟩
    have hm := (and_mask_match ip len net hip).mpr hp
    cases hr : (t.foldl (lookupStep ip) (none, 0)).1 with
    | none => exact absurd hm (hb.nohit hr _ ho)
    | some q' =>
      obtain ⟨⟨a, h1, h2, h3, h4⟩, h5⟩ := hb.found q' hr
      have hle : len ≤ a.cidr := by rw [h3]; exact h5 _ ho hm
      obtain ⟨net', h6, h7⟩ := own a h1 h2
      have hge := hmax _ _ _ h6 h7
      have hl : len = a.cidr := by omega
      subst hl
      have : net = net' := by rw [← hp, ← h7]
      subst this
      obtain ⟨i, hi⟩ := List.getElem?_of_mem ho
      obtain ⟨j, hj⟩ := List.getElem?_of_mem h6
      have hij := hw.once i j _ _ hi hj rfl rfl
      subst hij
      rw [hi] at hj
      injection hj with hj
      injection hj with hj
      injection hj with _ _ hj
      show (t.foldl (lookupStep ip) (none, 0)).1 = some q
      rw [hr, ← h4, hj]

/-- **C46, lookup.**  No peer is found only if no prefix contains the address. -/
theorem lookup_none (t : List (Option Allowed)) (hw : TWf t) (ip : Nat) (hip : ip < 2 ^ 32) :
    allowLookup t ip = none ↔ ∀ net len q, Owns t net len q → ¬ InPrefix ip net len := by
  have hb := lookup_best t ip
  constructor
  · intro h net len q ho hp
    exact hb.nohit h _ ho ((and_mask_match ip _ _ hip).mpr hp)
  · intro h
    cases hr : (t.foldl (lookupStep ip) (none, 0)).1 with
    | none => exact hr
    | some q =>
      obtain ⟨⟨a, h1, h2, _⟩, _⟩ := hb.found q hr
      obtain ⟨net, hn⟩ := hw.masked a h1
      rw [hn] at h2
      refine absurd ((and_mask_match ip _ _ hip).mp h2) (h net a.cidr a.peer ?_)
      unfold Owns
      rw [← hn]
      exact h1

/-! ### Insertion and removal -/

theorem get_set_opt {l : List (Option Allowed)} {i s : Nat} {k x : Option Allowed}
    (h : (l.set i k)[s]? = some x) : (s = i ∧ x = k) ∨ (s ≠ i ∧ l[s]? = some x) := by
  rw [List.getElem?_set] at h
  by_cases hs : i = s
  · subst hs
    rw [if_pos rfl] at h
    split at h
    · exact Or.inl ⟨rfl, (Option.some.inj h).symm⟩
    · cases h
  · rw [if_neg hs] at h
    exact Or.inr ⟨fun e => hs e.symm, h⟩

/-- The prefix of length `c` that `ip` lies in is recorded in slot `i`, and nowhere else. -/
theorem insert_at (t : List (Option Allowed)) (ip c peer i : Nat) (hw : TWf t)
    (hip : ip < 2 ^ 32) (hi : i < t.length)
    (hu : ∀ (j : Nat) (a : Allowed), t[j]? = some (some a) →
      a.ip = ip / 2 ^ (32 - c) * 2 ^ (32 - c) → a.cidr = c → j = i)
    (ho : ∀ a : Allowed, t[i]? = some (some a) →
      a.ip = ip / 2 ^ (32 - c) * 2 ^ (32 - c) ∧ a.cidr = c) :
    TWf (t.set i (some ⟨ip / 2 ^ (32 - c) * 2 ^ (32 - c), c, peer⟩)) ∧
    ∀ net len q, Owns (t.set i (some ⟨ip / 2 ^ (32 - c) * 2 ^ (32 - c), c, peer⟩)) net len q ↔
      (if len = c ∧ InPrefix ip net c then q = peer else Owns t net len q) := by
  have _ := hip
  refine ⟨⟨?_, ?_⟩, ?_⟩
  · intro a ha
    rcases List.mem_or_eq_of_mem_set ha with ha | ha
    · exact hw.masked a ha
    · cases ha; exact ⟨_, rfl⟩
  · intro j k a b hj hk e1 e2
    rcases get_set_opt hj with ⟨hji, ha⟩ | ⟨hji, hj⟩
    · rcases get_set_opt hk with ⟨hki, hb⟩ | ⟨hki, hk⟩
      · rw [hji, hki]
      · cases ha
        rw [hji]
        exact (hu k b hk e1.symm e2.symm).symm
    · rcases get_set_opt hk with ⟨hki, hb⟩ | ⟨hki, hk⟩
      · cases hb
        rw [hki]
        exact hu j a hj e1 e2
      · exact hw.once j k a b hj hk e1 e2
  · intro net len q
    constructor
    · intro h
      obtain ⟨j, hj⟩ := List.getElem?_of_mem h
      split
      · next hc =>
        obtain ⟨rfl, hp⟩ := hc
        rcases get_set_opt hj with ⟨hji, ha⟩ | ⟨hji, hj⟩
        · injection ha with ha
          injection ha
        · refine absurd (hu j _ hj ?_ rfl) hji
          rw [hp]
      · next hc =>
        rcases get_set_opt hj with ⟨hji, ha⟩ | ⟨hji, hj⟩
        · injection ha with ha
          injection ha with ha hl hq
          exfalso
          apply hc
          subst hl
          exact ⟨rfl, (Nat.eq_of_mul_eq_mul_right (Nat.pow_pos (by decide)) ha).symm⟩
        · exact List.mem_of_getElem? hj
    · intro h
      split at h
      · next hc =>
        obtain ⟨rfl, hp⟩ := hc
        subst h
        unfold Owns
        rw [← hp]
        exact List.mem_of_getElem? (i := i) (by rw [List.getElem?_set_self hi])
      · next hc =>
        obtain ⟨j, hj⟩ := List.getElem?_of_mem h
        have hji : j ≠ i := by
          intro e
          subst e
          obtain ⟨e1, e2⟩ := ho _ hj
          dsimp only at e1 e2
          subst e2
          exact hc ⟨rfl, (Nat.eq_of_mul_eq_mul_right (Nat.pow_pos (by decide)) e1).symm⟩
        exact List.mem_of_getElem? (i := j) (by rw [List.getElem?_set_ne (Ne.symm hji)]; exact hj)

/-- **C46, insertion.**  A successful insertion assigns exactly the given prefix to the peer and
changes no other prefix; it fails, changing nothing, only if every entry is in use by another
prefix. -/
theorem insert_exact (t : List (Option Allowed)) (ip c peer : Nat) (hw : TWf t)
    (hip : ip < 2 ^ 32) :
    TWf (allowInsert t ip c peer).1 ∧
    ((allowInsert t ip c peer).2 = true →
      ∀ net len q, Owns (allowInsert t ip c peer).1 net len q ↔
        (if len = c ∧ InPrefix ip net c then q = peer else Owns t net len q)) ∧
    ((allowInsert t ip c peer).2 = false →
      (allowInsert t ip c peer).1 = t ∧ (∀ e ∈ t, e ≠ none) ∧
      ∀ net q, InPrefix ip net c → ¬ Owns t net c q) := by
  unfold allowInsert
  rw [and_cidrMask ip c hip]
  dsimp only
  split
  · next i hi =>
    rw [List.findIdx?_eq_some_iff_getElem] at hi
    obtain ⟨hl, hp, hbefore⟩ := hi
    cases hx : t[i] with
    | none => rw [hx] at hp; cases hp
    | some x =>
      rw [hx] at hp
      simp only [Bool.and_eq_true, beq_iff_eq] at hp
      have hxi : t[i]? = some (some x) := by rw [List.getElem?_eq_getElem hl, hx]
      have key := insert_at t ip c peer i hw hip hl
        (by
          intro j a hj e1 e2
          exact hw.once j i a x hj hxi (e1.trans hp.1.symm) (e2.trans hp.2.symm))
        (by
          intro a ha
          rw [hxi] at ha
          injection ha with ha
          injection ha with ha
          subst ha
          exact hp)
      exact ⟨key.1, fun _ => key.2, fun h => by cases h⟩
  · next hi =>
    rw [List.findIdx?_eq_none_iff] at hi
    have hno : ∀ (j : Nat) (a : Allowed), t[j]? = some (some a) →
        a.ip = ip / 2 ^ (32 - c) * 2 ^ (32 - c) → a.cidr = c → False := by
      intro j a hj e1 e2
      have := hi _ (List.mem_of_getElem? hj)
      simp [e1, e2] at this
    split
    · next i hi' =>
      rw [List.findIdx?_eq_some_iff_getElem] at hi'
      obtain ⟨hl, hp, _⟩ := hi'
      have key := insert_at t ip c peer i hw hip hl
        (fun j a hj e1 e2 => (hno j a hj e1 e2).elim)
        (by
          intro a ha
          rw [List.getElem?_eq_getElem hl] at ha
          rw [Option.some.inj ha] at hp
          cases hp)
      exact ⟨key.1, fun _ => key.2, fun h => by cases h⟩
    · next hi' =>
      rw [List.findIdx?_eq_none_iff] at hi'
      refine ⟨hw, fun h => (by cases h), fun _ => ⟨rfl, ?_, ?_⟩⟩
      · intro e he hn
        have := hi' e he
        rw [hn] at this
        cases this
      · intro net q hp ho
        obtain ⟨j, hj⟩ := List.getElem?_of_mem ho
        exact hno j _ hj (by rw [hp]) rfl

/-- **C46, removal.**  Removing a peer removes exactly its prefixes. -/
theorem remove_exact (t : List (Option Allowed)) (hw : TWf t) (peer : Nat) :
    TWf (allowRemove t peer) ∧
    ∀ net len q, Owns (allowRemove t peer) net len q ↔ Owns t net len q ∧ q ≠ peer := by
  have hget : ∀ (i : Nat) (a : Allowed), (allowRemove t peer)[i]? = some (some a) ↔
      t[i]? = some (some a) ∧ a.peer ≠ peer := by
    intro i a
    unfold allowRemove
    rw [List.getElem?_map]
    cases h : t[i]? with
    | none => simp
    | some e =>
      cases e with
      | none => simp
      | some x =>
        by_cases hx : x.peer = peer
        · simp only [Option.map_some, hx]
          constructor
          · intro c; simp at c
          · rintro ⟨h1, h2⟩
            injection h1 with h1
            injection h1 with h1
            subst h1
            exact absurd hx h2
        · simp only [Option.map_some, if_neg hx]
          constructor
          · intro c
            refine ⟨c, ?_⟩
            injection c with c
            injection c with c
            rw [← c]; exact hx
          · exact fun c => c.1
  have hmem : ∀ a : Allowed, some a ∈ allowRemove t peer ↔ some a ∈ t ∧ a.peer ≠ peer := by
    intro a
    constructor
    · intro h
      obtain ⟨i, hi⟩ := List.getElem?_of_mem h
      have := (hget i a).mp hi
      exact ⟨List.mem_of_getElem? this.1, this.2⟩
    · rintro ⟨h, h2⟩
      obtain ⟨i, hi⟩ := List.getElem?_of_mem h
      exact List.mem_of_getElem? ((hget i a).mpr ⟨hi, h2⟩)
  refine ⟨⟨?_, ?_⟩, ?_⟩
  · intro a ha
    exact hw.masked a ((hmem a).mp ha).1
  · intro i j a b hi hj
    exact hw.once i j a b ((hget i a).mp hi).1 ((hget j b).mp hj).1
  · intro net len q
    exact hmem _

/-! ### Over histories -/

/-- Operations as the API can issue them: addresses are 32-bit. -/
def Op.ok : Op → Prop
  | .addAllowed _ ip _ => ip < 2 ^ 32
  | _ => True

theorem step_allowed_other (co : Nat → Nat → Nat) (d : Dev) (o : Op)
    (h : ∀ p ip c, o ≠ .addAllowed p ip c) (h' : ∀ p, o ≠ .removeAllowed p) :
    (step co d o).1.allowed = d.allowed := by
  cases o with
  | addAllowed p ip c => exact absurd rfl (h p ip c)
  | removeAllowed p => exact absurd rfl (h' p)
  | poll now => rfl
  | addPeer ip port interval => simp only [step]; split <;> rfl
  | setKey => rfl
  | output pkt =>
    simp only [step]
    (repeat' split) <;> rfl
  | initiation mac who ts sender ip port =>
    simp only [step]
    (repeat' split) <;> rfl
  | response mac recv auth sender ip port =>
    simp only [step]
    (repeat' split) <;> rfl
  | data recv ctr dec ip port =>
    simp only [step]
    (repeat' split) <;> rfl

theorem step_twf (co : Nat → Nat → Nat) (d : Dev) (o : Op) (ho : o.ok) (h : TWf d.allowed) :
    TWf (step co d o).1.allowed := by
  by_cases h1 : ∃ p ip c, o = .addAllowed p ip c
  · obtain ⟨p, ip, c, rfl⟩ := h1
    simp only [step]
    split
    · exact h
    · split
      · exact h
      · exact (insert_exact d.allowed ip c p h ho).1
  · by_cases h2 : ∃ p, o = .removeAllowed p
    · obtain ⟨p, rfl⟩ := h2
      exact (remove_exact d.allowed h p).1
    · rw [step_allowed_other co d o (fun p ip c e => h1 ⟨p, ip, c, e⟩) (fun p e => h2 ⟨p, e⟩)]
      exact h

theorem init_twf : TWf Dev.init.allowed := by
  have hn : ∀ (i : Nat) (a : Allowed), Dev.init.allowed[i]? ≠ some (some a) := by
    intro i a h
    have := List.mem_of_getElem? h
    unfold Dev.init at this
    have := (List.mem_replicate.mp this).2
    cases this
  refine ⟨?_, fun i j a b hi => absurd hi (hn i a)⟩
  intro a ha
  obtain ⟨i, hi⟩ := List.getElem?_of_mem ha
  exact absurd hi (hn i a)

theorem drun_twf (co : Nat → Nat → Nat) (ops : List Op) : ∀ (d : Dev), (∀ o ∈ ops, o.ok) →
    TWf d.allowed → TWf (drun co d ops).1.allowed := by
  induction ops with
  | nil => intro d _ h; exact h
  | cons o os ih =>
    intro d ho h
    exact ih _ (fun o' h' => ho o' (List.mem_cons_of_mem _ h'))
      (step_twf co d o (ho o List.mem_cons_self) h)

/-- Tables are well formed after every history. -/
theorem after_twf (co : Nat → Nat → Nat) (ops : List Op) (h : ∀ o ∈ ops, o.ok) :
    TWf (after co ops).allowed := drun_twf co ops Dev.init h init_twf

/-- Longest-prefix owner of an address in the table after a history. -/
def OwnerIs (t : List (Option Allowed)) (ip q : Nat) : Prop :=
  ∃ net len, Owns t net len q ∧ InPrefix ip net len ∧
    ∀ net' len' q', Owns t net' len' q' → InPrefix ip net' len' → len' ≤ len

theorem be32_lt (b : Bytes) (hb : ∀ x ∈ b, x < 256) (i : Nat) : be32 b i < 2 ^ 32 := by
  have h : ∀ j, byteAt b j < 256 := by
    intro j
    unfold byteAt
    rw [List.getD_eq_getElem?_getD]
    cases hj : b[j]? with
    | none => decide
    | some x => exact hb x (List.mem_of_getElem? hj)
  have h0 := h i; have h1 := h (i + 1); have h2 := h (i + 2); have h3 := h (i + 3)
  unfold be32
  omega

theorem peerData_spec (now : Nat) (p : Peer) (i ctr ip port : Nat) (dec : Nat → Option Bytes) :
    ∀ pt, (peerData now p i ctr ip port dec).2.2 = some pt →
      (peerData now p i ctr ip port dec).2.1 = [.accept (p.kp i).sid ctr] ∧
      dec (p.kp i).sid = some pt := by
  intro pt
  unfold peerData
  dsimp only
  split
  · intro h; cases h
  · split
    · intro h; cases h
    · split
      · intro h; cases h
      · next q hq =>
        split
        · intro h; cases h
        · split
          · intro h; cases h
          · intro h
            cases h
            exact ⟨rfl, hq⟩

/-- **C46, injection.**  After any history, if an operation hands a decrypted packet to the IP
stack, the operation is the arrival of a transport message; it authenticated under a session of
some peer `i`, decrypted to that packet, and the packet is IPv4 with a full header, a total
length within the message, and a source address whose longest-prefix owner is that same peer. -/
theorem inject_only_from_owner (co : Nat → Nat → Nat) (ops : List Op) (hops : ∀ o ∈ ops, o.ok)
    (o : Op) (i : Nat) (pkt : Bytes) (hb : ∀ x ∈ pkt, x < 256)
    (h : (i, Ev.inject pkt) ∈ (step co (after co ops) o).2) :
    ∃ recv ctr dec ip port sid, o = .data recv ctr dec ip port ∧
      (step co (after co ops) o).2 = [(i, .accept sid ctr), (i, .inject pkt)] ∧
      dec sid = some pkt ∧
      20 ≤ pkt.length ∧ byteAt pkt 0 / 16 = 4 ∧
      byteAt pkt 2 * 256 + byteAt pkt 3 ≤ pkt.length ∧
      OwnerIs (after co ops).allowed (be32 pkt 12) i := by
  have hw := after_twf co ops hops
  generalize after co ops = d at *
  have no : ∀ (j : Nat) (es : List Ev), (∀ e ∈ es, ∀ q, e ≠ .inject q) →
      (i, Ev.inject pkt) ∈ tag j es → False := by
    intro j es hes hm
    unfold tag at hm
    obtain ⟨e, he, heq⟩ := List.mem_map.mp hm
    injection heq with _ heq
    exact hes e he pkt heq
  have noQ : ∀ {t n es c c' n'} (j : Nat), MS t c n es c' n' →
      (i, Ev.inject pkt) ∈ tag j es → False := fun j hms => no j _ hms.noInject
  cases o with
  | poll now =>
    exfalso
    have key : ∀ (ps : List Peer) (j : Nat), (i, Ev.inject pkt) ∉ (tickAll co now j ps).2 := by
      intro ps
      induction ps with
      | nil => intro j hm; cases hm
      | cons p ps ih =>
        intro j hm
        rcases List.mem_append.mp hm with hm | hm
        · exact noQ j (tick_ms (co j) now 0 p) hm
        · exact ih (j + 1) hm
    exact key d.peers 0 h
  | addPeer ip port interval =>
    simp only [step] at h
    split at h <;> cases h
  | addAllowed peer ip cidr =>
    simp only [step] at h
    split at h
    · cases h
    · split at h <;> cases h
  | removeAllowed peer => cases h
  | setKey => cases h
  | output q =>
    exfalso
    simp only [step] at h
    split at h
    · cases h
    · split at h
      · cases h
      · split at h
        · cases h
        · next j _ =>
          split at h
          · cases h
          · next p _ =>
            split at h
            · cases h
            · exact noQ j (packetSend_ms (co j) d.now 0 p q) h
  | initiation mac who ts sender ip port =>
    exfalso
    simp only [step] at h
    split at h
    · cases h
    · split at h
      · simp at h
      · split at h
        · cases h
        · next j =>
          split at h
          · cases h
          · next p _ =>
            split at h
            · cases h
            · exact noQ j (peerInitiation_ms (co j) d.now d.kpCtr p ts sender ip port) h
  | response mac recv auth sender ip port =>
    exfalso
    simp only [step] at h
    split at h
    · cases h
    · split at h
      · simp at h
      · split at h
        · cases h
        · next j _ =>
          exact noQ j (peerResponse_ms (co j) d.now d.kpCtr _ auth sender ip port) h
  | data recv ctr dec ip port =>
    simp only [step] at h ⊢
    split at h
    · cases h
    · next j hj =>
      split at h
      · cases h
      · next s hs =>
        have hms := peerData_ms d.now d.kpCtr (d.peers.getD j Peer.zero) s recv ctr ip port dec hs
        have hspec := peerData_spec d.now (d.peers.getD j Peer.zero) s ctr ip port dec
        split at h
        · exact (noQ j hms h).elim
        · next pt hpt =>
          obtain ⟨he, hd⟩ := hspec pt hpt
          rw [he] at h ⊢
          split at h
          · next hin =>
            rw [if_pos hin]
            have hij : i = j ∧ pkt = pt := by
              simp only [tag, List.cons_append, List.nil_append, List.map_cons, List.map_nil,
                List.mem_cons, Prod.mk.injEq, reduceCtorEq, and_false, false_or,
                Ev.inject.injEq, List.not_mem_nil, or_false] at h
              exact h
            obtain ⟨rfl, rfl⟩ := hij
            unfold innerOk at hin
            simp only [Bool.and_eq_true, decide_eq_true_eq, beq_iff_eq, ge_iff_le] at hin
            refine ⟨recv, ctr, dec, ip, port, ((d.peers.getD i Peer.zero).kp s).sid, rfl, rfl, hd,
              hin.1.1.1, hin.1.1.2, hin.1.2, ?_⟩
            exact (lookup_is_longest d.allowed hw _ _ (be32_lt pkt hb 12)).mp hin.2
          · exact (no j _ (by intro e he q; simp at he; subst he; intro c; cases c) h).elim

end Wolf.Wg
