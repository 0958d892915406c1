import Verif.Ip.Spec
/-!
# C23: only well-formed datagrams reach the upper layers
-/
namespace Wolf.IpIn
open Wolf.Route (Ip Conf)
open Wolf.Csum (words Bytes put16 ipSet ipVerify sum32 fold wsum)

/-! ## Addresses -/

theorem and_high (n k : Nat) (hn : n < 4294967296) (hk : k ≤ 32) : n &&& ((2 ^ (32 - k) - 1) <<< k) = (n >>> k) <<< k := by
  apply Nat.eq_of_testBit_eq
  intro i
  rw [Nat.testBit_and, Nat.testBit_shiftLeft, Nat.testBit_shiftLeft, Nat.testBit_two_pow_sub_one, Nat.testBit_shiftRight]
  by_cases h : k ≤ i
  · rw [show k + (i - k) = i by omega]
    by_cases h2 : i < 32
    · simp [h, show i - k < 32 - k by omega]
    · have : n.testBit i = false := Nat.testBit_lt_two_pow (Nat.lt_of_lt_of_le (show n < 2 ^ 32 from hn) (Nat.pow_le_pow_right (show 0 < 2 by omega) (show 32 ≤ i by omega)))
      simp [this]
  · simp [h]

theorem high_eq (a : Ip) (k v : Nat) (hk : k ≤ 32) (m c : Ip) (hm : m.toNat = (2 ^ (32 - k) - 1) <<< k) (hc : c.toNat = v * 2 ^ k) :
    (a &&& m = c) ↔ a.toNat / 2 ^ k = v := by
  have h1 : (a &&& m).toNat = a.toNat / 2 ^ k * 2 ^ k := by
    rw [BitVec.toNat_and, hm, and_high _ _ a.isLt hk, Nat.shiftRight_eq_div_pow, Nat.shiftLeft_eq]
  rw [← BitVec.toNat_inj, h1, hc]
  exact ⟨fun h => Nat.eq_of_mul_eq_mul_right (Nat.pow_pos (by omega)) h, fun h => by rw [h]⟩

theorem isLoopNet_iff (a : Ip) : isLoopNet a = true ↔ octet1 a = 127 := by
  rw [isLoopNet, beq_iff_eq, high_eq a 24 127 (by omega) _ _ (by decide) (by decide)]; exact Iff.rfl

theorem isMcast_iff (a : Ip) : isMcast a = true ↔ Mcast a := by
  rw [isMcast, beq_iff_eq, high_eq a 28 14 (by omega) _ _ (by decide) (by decide), Mcast, octet1]
  generalize a.toNat = x
  omega

theorem linkLocal_iff (a : Ip) : ((a &&& 0xFFFF0000#32) == 0xA9FE0000#32) = true ↔ octet1 a = 169 ∧ a.toNat / 65536 % 256 = 254 := by
  rw [beq_iff_eq, high_eq a 16 43518 (by omega) _ _ (by decide) (by decide), octet1]
  have := a.isLt
  generalize a.toNat = x at *
  omega

theorem isBroadcast_iff (n : Net) (a : Ip) : Route.isBroadcast n.rt a = true ↔ Bcast n a := Route.isBroadcast_exact n.rt a

/-! ## Checksum -/

theorem ipVerify_sum (ip : List Nat) (hb : Bytes ip) (hv : ipVerify ip = true) : SumOk (ip.take (ip.getD 0 0 % 16 * 4)) := by
  rw [ipVerify] at hv
  by_cases h1 : ip.getD 0 0 / 16 ≠ 4
  · rw [if_pos h1] at hv; exact absurd hv (by decide)
  rw [if_neg h1] at hv
  simp only at hv
  by_cases h2 : ip.getD 0 0 % 16 * 4 < 20
  · rw [if_pos h2] at hv; exact absurd hv (by decide)
  rw [if_neg h2, beq_iff_eq] at hv
  generalize hH : ip.getD 0 0 % 16 * 4 = h at *
  have hh : h ≤ 60 := by omega
  have hl : (ip.take h).length ≤ 60 := by rw [List.length_take]; omega
  have b0 := Csum.wsum_bound (ip.take h) (Csum.bytes_take _ _ hb) (by omega)
  rw [Csum.sum32_eq _ 0 (by omega), Nat.zero_add] at hv
  have hf := Csum.fold_spec (wsum (ip.take h))
  have : fold (wsum (ip.take h)) = 65535 := by omega
  rw [Csum.fold_ok_iff] at this
  exact this

theorem bytes_drop (p : List Nat) (n : Nat) (h : Bytes p) : Bytes (p.drop n) := fun x hx => h x (List.mem_of_mem_drop hx)

theorem getD_drop (f : List Nat) (a k : Nat) : (f.drop a).getD k 0 = f.getD (a + k) 0 := by
  rw [List.getD_eq_getElem?_getD, List.getElem?_drop, List.getD_eq_getElem?_getD]

theorem getD_take (f : List Nat) (a k : Nat) (h : k < a) : (f.take a).getD k 0 = f.getD k 0 := by
  rw [List.getD_eq_getElem?_getD, List.getElem?_take_of_lt h, List.getD_eq_getElem?_getD]

/-! ## Options -/

theorem optWalk_total (f : List Nat) (e : Nat) (he : e ≤ f.length) : ∀ (fuel k : Nat), k ≤ e → e < k + fuel → optWalk f e fuel k = .ok ∨ optWalk f e fuel k = .bad := by
  intro fuel
  induction fuel with
  | zero => intro k hk hk'; omega
  | succ m ih =>
    intro k hk hk'
    rw [optWalk]
    by_cases h0 : k ≥ e
    · rw [if_pos h0]; exact Or.inl rfl
    rw [if_neg h0, List.getElem?_eq_getElem (show k < f.length by omega)]
    simp only
    by_cases h1 : f[k] = 0
    · rw [if_pos h1]; exact Or.inl rfl
    rw [if_neg h1]
    by_cases h2 : f[k] = 1
    · rw [if_pos h2]; exact ih _ (by omega) (by omega)
    rw [if_neg h2]
    by_cases h3 : f[k] = 0x83 ∨ f[k] = 0x89
    · rw [if_pos h3]; exact Or.inr rfl
    rw [if_neg h3]
    by_cases h4 : k + 1 ≥ e
    · rw [if_pos h4]; exact Or.inr rfl
    rw [if_neg h4, List.getElem?_eq_getElem (show k + 1 < f.length by omega)]
    simp only
    by_cases h5 : f[k + 1] < 2
    · rw [if_pos h5]; exact Or.inr rfl
    rw [if_neg h5]
    by_cases h6 : f[k + 1] > (e - k) % 256
    · rw [if_pos h6]; exact Or.inr rfl
    · rw [if_neg h6]; exact ih _ (by omega) (by omega)

/-- `OptFrom o a k`: an option starts at `k` if one starts at `a`. -/
inductive OptFrom (o : List Nat) (a : Nat) : Nat → Prop
  | first : OptFrom o a a
  | nop {k : Nat} : OptFrom o a k → o[k]? = some 1 → OptFrom o a (k + 1)
  | next {k t l : Nat} : OptFrom o a k → o[k]? = some t → t ≠ 0 → t ≠ 1 → o[k + 1]? = some l → OptFrom o a (k + l)

theorem OptFrom.head {o : List Nat} {a k : Nat} (h : OptFrom o a k) :
    k = a ∨ (o[a]? = some 1 ∧ OptFrom o (a + 1) k) ∨ (∃ t l, o[a]? = some t ∧ t ≠ 0 ∧ t ≠ 1 ∧ o[a + 1]? = some l ∧ OptFrom o (a + l) k) := by
  induction h with
  | first => exact Or.inl rfl
  | nop h1 h2 ih =>
    right
    rcases ih with h | ⟨g1, g2⟩ | ⟨t, l, g1, g2, g3, g4, g5⟩
    · subst h; exact Or.inl ⟨h2, .first⟩
    · exact Or.inl ⟨g1, g2.nop h2⟩
    · exact Or.inr ⟨t, l, g1, g2, g3, g4, g5.nop h2⟩
  | next h1 h2 h3 h4 h5 ih =>
    right
    rcases ih with h | ⟨g1, g2⟩ | ⟨t, l, g1, g2, g3, g4, g5⟩
    · subst h; exact Or.inr ⟨_, _, h2, h3, h4, h5, .first⟩
    · exact Or.inl ⟨g1, g2.next h2 h3 h4 h5⟩
    · exact Or.inr ⟨t, l, g1, g2, g3, g4, g5.next h2 h3 h4 h5⟩

theorem optAt_from {o : List Nat} {k : Nat} (h : OptAt o k) : OptFrom o 0 k := by
  induction h with
  | first => exact .first
  | nop _ h2 ih => exact ih.nop h2
  | next _ h2 h3 h4 h5 ih => exact ih.next h2 h3 h4 h5

/-- The walk accepts only option areas without a source route. -/
theorem optWalk_clean (f : List Nat) (o : List Nat) (e : Nat) (he : ∀ j, 34 + j < e → o[j]? = f[34 + j]?) (hn : ∀ j, e ≤ 34 + j → o[j]? = none) :
    ∀ (fuel a : Nat), optWalk f e fuel (34 + a) = .ok → ∀ k, OptFrom o a k → o[k]? ≠ some 0x83 ∧ o[k]? ≠ some 0x89 := by
  intro fuel
  induction fuel with
  | zero => intro a h; cases h
  | succ m ih =>
    intro a h k hk
    have out : ∀ j, OptFrom o a j → e ≤ 34 + a → o[j]? = none := by
      intro j hj hle
      rcases hj.head with h1 | ⟨h1, _⟩ | ⟨t, l, h1, _⟩
      · rw [h1]; exact hn _ hle
      · rw [hn _ hle] at h1; cases h1
      · rw [hn _ hle] at h1; cases h1
    rw [optWalk] at h
    by_cases h0 : 34 + a ≥ e
    · rw [out k hk h0]; exact ⟨by simp, by simp⟩
    rw [if_neg h0] at h
    have hoa := he a (by omega)
    cases hx : f[34 + a]? with
    | none => rw [hx] at h; cases h
    | some t =>
      rw [hx] at h hoa
      simp only at h
      by_cases h1 : t = 0
      · rcases hk.head with g | ⟨g, _⟩ | ⟨t', l, g, g2, _⟩
        · rw [g, hoa, h1]; exact ⟨by simp, by simp⟩
        · rw [hoa, h1] at g; simp at g
        · rw [hoa, h1] at g; cases g; exact absurd rfl g2
      rw [if_neg h1] at h
      by_cases h2 : t = 1
      · rw [if_pos h2] at h
        rcases hk.head with g | ⟨_, g⟩ | ⟨t', l, g, _, g3, _⟩
        · rw [g, hoa, h2]; exact ⟨by simp, by simp⟩
        · exact ih (a + 1) (by rw [show 34 + (a + 1) = 34 + a + 1 by omega]; exact h) k g
        · rw [hoa, h2] at g; cases g; exact absurd rfl g3
      rw [if_neg h2] at h
      by_cases h3 : t = 0x83 ∨ t = 0x89
      · rw [if_pos h3] at h; cases h
      rw [if_neg h3] at h
      by_cases h4 : 34 + a + 1 ≥ e
      · rw [if_pos h4] at h; cases h
      rw [if_neg h4] at h
      have hob := he (a + 1) (by omega)
      cases hy : f[34 + a + 1]? with
      | none => rw [hy] at h; cases h
      | some l =>
        rw [hy] at h
        rw [show 34 + (a + 1) = 34 + a + 1 by omega, hy] at hob
        simp only at h
        by_cases h5 : l < 2
        · rw [if_pos h5] at h; cases h
        rw [if_neg h5] at h
        by_cases h6 : l > (e - (34 + a)) % 256
        · rw [if_pos h6] at h; cases h
        rw [if_neg h6] at h
        rcases hk.head with g | ⟨g, _⟩ | ⟨t', l', g, _, _, g4, g5⟩
        · rw [g, hoa]
          refine ⟨fun c => ?_, fun c => ?_⟩
          · cases c; exact h3 (Or.inl rfl)
          · cases c; exact h3 (Or.inr rfl)
        · rw [hoa] at g; cases g; exact absurd rfl h2
        · rw [hob] at g4; cases g4; exact ih (a + l) (by rw [show 34 + (a + l) = 34 + a + l by omega]; exact h) k g5

/-! ## The checks -/

theorem u8_lt (f : List Nat) (hb : Bytes f) (k : Nat) : u8 f k < 256 := by
  rw [u8, List.getD_eq_getElem?_getD]
  cases h : f[k]? with
  | none => simp
  | some x => exact hb x (List.mem_of_getElem? h)

theorem headOk_spec (n : Net) (i : Nat) (f : List Nat) (hb : Bytes f) (h : headOk n i f = true) :
    34 ≤ f.length ∧ u8 f 14 / 16 = 4 ∧ (20 ≤ hlen f ∧ 14 + hlen f ≤ f.length) ∧ (hlen f ≤ tot f ∧ 14 + tot f ≤ f.length) ∧
    SumOk ((f.drop 14).take (hlen f)) ∧ u16 f 20 % 16384 = 0 ∧ (¬ Bcast n (src f) ∧ ¬ Mcast (src f)) ∧ (src f ≠ 0 ∨ n.dhcp = true) ∧
    (Route.isLoop n.rt i = true ∨ (octet1 (src f) ≠ 127 ∧ octet1 (dst f) ≠ 127)) := by
  rw [headOk] at h
  by_cases h1 : f.length < 34
  · rw [if_pos h1] at h; cases h
  rw [if_neg h1] at h
  by_cases h2 : u8 f 14 / 16 ≠ 4 ∨ hlen f < 20
  · rw [if_pos h2] at h; cases h
  rw [if_neg h2] at h
  by_cases h3 : f.length < 14 + hlen f
  · rw [if_pos h3] at h; cases h
  rw [if_neg h3] at h
  by_cases h4 : tot f < hlen f
  · rw [if_pos h4] at h; cases h
  rw [if_neg h4] at h
  by_cases h5 : tot f > f.length - 14
  · rw [if_pos h5] at h; cases h
  rw [if_neg h5] at h
  by_cases h6 : ipVerify (f.drop 14) = false
  · rw [if_pos h6] at h; cases h
  rw [if_neg h6] at h
  by_cases h7 : u16 f 20 % 16384 ≠ 0
  · rw [if_pos h7] at h; cases h
  rw [if_neg h7] at h
  by_cases h8 : Route.isBroadcast n.rt (src f) = true ∨ isMcast (src f) = true
  · rw [if_pos h8] at h; cases h
  rw [if_neg h8] at h
  by_cases h9 : src f = 0 ∧ n.dhcp = false
  · rw [if_pos h9] at h; cases h
  rw [if_neg h9] at h
  by_cases h10 : Route.isLoop n.rt i = false ∧ (isLoopNet (dst f) = true ∨ isLoopNet (src f) = true)
  · rw [if_pos h10] at h; cases h
  have hver : u8 f 14 / 16 = 4 := by omega
  have hhl : (f.drop 14).getD 0 0 % 16 * 4 = hlen f := by rw [getD_drop]; rfl
  have hsum := ipVerify_sum (f.drop 14) (bytes_drop _ _ hb) (by simpa using h6)
  rw [hhl] at hsum
  refine ⟨by omega, hver, ⟨by omega, by omega⟩, ⟨by omega, by omega⟩, hsum, by omega, ⟨fun c => h8 (Or.inl ((isBroadcast_iff n _).mpr c)), fun c => h8 (Or.inr ((isMcast_iff _).mpr c))⟩, ?_, ?_⟩
  · by_cases c : src f = 0
    · right
      cases hd : n.dhcp with
      | true => rfl
      | false => exact absurd ⟨c, hd⟩ h9
    · exact Or.inl c
  · cases hl : Route.isLoop n.rt i with
    | true => exact Or.inl rfl
    | false =>
      right
      exact ⟨fun c => h10 ⟨hl, Or.inr ((isLoopNet_iff _).mpr c)⟩, fun c => h10 ⟨hl, Or.inl ((isLoopNet_iff _).mpr c)⟩⟩

theorem walk_clean (f : List Nat) (h20 : 20 ≤ hlen f) (hl : 14 + hlen f ≤ f.length) (h : walkOf f = .ok) :
    ∀ k, OptAt (optBytes f) k → (optBytes f)[k]? ≠ some 0x83 ∧ (optBytes f)[k]? ≠ some 0x89 := by
  intro k hk
  have hlen' : (optBytes f).length = hlen f - 20 := by rw [optBytes, List.length_drop, List.length_take]; omega
  rw [walkOf] at h
  by_cases hh : hlen f > 20
  · rw [if_pos hh] at h
    refine optWalk_clean f (optBytes f) (14 + hlen f) ?_ ?_ 64 0 h k (optAt_from hk)
    · intro j hj
      rw [optBytes, List.getElem?_drop, List.getElem?_take_of_lt (by omega)]
    · intro j hj
      exact List.getElem?_eq_none (by omega)
  · have : (optBytes f) = [] := List.eq_nil_of_length_eq_zero (by omega)
    rw [this]; exact ⟨by simp, by simp⟩

theorem walk_total (f : List Nat) (hl : 14 + hlen f ≤ f.length) : walkOf f = .ok ∨ walkOf f = .bad := by
  rw [walkOf]
  by_cases hh : hlen f > 20
  · rw [if_pos hh]
    refine optWalk_total f _ hl 64 34 (by omega) ?_
    have : hlen f ≤ 60 := by rw [hlen]; omega
    omega
  · rw [if_neg hh]; exact Or.inl rfl

/-- What passes all the checks is well formed. -/
theorem accepted_wf (n : Net) (i : Nat) (f : List Nat) (hb : Bytes f) (h : headOk n i f = true) (hw : walkOf f = .ok) : WellFormed n i f := by
  obtain ⟨h1, h2, h3, h4, h5, h6, h7, h8, h9⟩ := headOk_spec n i f hb h
  exact ⟨h1, h2, h3, h4, h5, h6, h7, h8, h9, walk_clean f h3.1 h3.2 hw⟩

theorem headOk_len {n : Net} {i : Nat} {f : List Nat} (h : headOk n i f = true) : 14 + hlen f ≤ f.length := by
  rw [headOk] at h
  by_cases a1 : f.length < 34
  · rw [if_pos a1] at h; cases h
  rw [if_neg a1] at h
  by_cases a2 : u8 f 14 / 16 ≠ 4 ∨ hlen f < 20
  · rw [if_pos a2] at h; cases h
  rw [if_neg a2] at h
  by_cases a3 : f.length < 14 + hlen f
  · rw [if_pos a3] at h; cases h
  omega

/-- `ip_recv` in three lines. -/
theorem ipRecv_eq (n : Net) (i : Nat) (f : List Nat) (veto arp : Bool) :
    ipRecv n i f veto arp = .drop ∨
    (headOk n i f = true ∧ veto = false ∧ walkOf f = .ok ∧
      ((∃ r, forwardBlock n i f arp = some r ∧ ipRecv n i f veto arp = r) ∨ (forwardBlock n i f arp = none ∧ ipRecv n i f veto arp = dispatch f))) := by
  generalize hr : ipRecv n i f veto arp = r
  rw [ipRecv] at hr
  by_cases h1 : headOk n i f = false
  · rw [if_pos h1] at hr; exact Or.inl hr.symm
  rw [if_neg h1] at hr
  have h1' : headOk n i f = true := by simpa using h1
  by_cases h2 : veto = true
  · rw [if_pos h2] at hr; exact Or.inl hr.symm
  rw [if_neg h2] at hr
  have h2' : veto = false := by simpa using h2
  rcases walk_total f (headOk_len h1') with h3 | h3
  · rw [h3] at hr
    right
    refine ⟨h1', h2', h3, ?_⟩
    cases hf : forwardBlock n i f arp with
    | some q => rw [hf] at hr; exact Or.inl ⟨q, rfl, hr.symm⟩
    | none => rw [hf] at hr; exact Or.inr ⟨rfl, hr.symm⟩
  · rw [h3] at hr; exact Or.inl hr.symm

end Wolf.IpIn
