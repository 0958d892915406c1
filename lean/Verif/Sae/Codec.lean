import Verif.Sae.Field

/-!
# Octet strings, the KDF, the shift, and the constant-time helpers
-/

namespace Wolf.Sae

theorem be_snoc (l : Bytes) (b : UInt8) : be (l ++ [b]) = be l * 256 + b.toNat := by
  simp [be]

theorem be_lt (l : Bytes) : be l < 256 ^ l.length := by
  induction l using List.reverseRecOn with
  | nil => simp [be]
  | append_singleton l b ih =>
    rw [be_snoc, List.length_append, List.length_singleton, Nat.pow_succ]
    have := b.toNat_lt
    omega

theorem beRaw_length : ∀ k n, (beRaw k n).length = k
  | 0, _ => rfl
  | k + 1, n => by simp [beRaw, beRaw_length k]

theorem be_beRaw : ∀ k n, be (beRaw k n) = n % 256 ^ k
  | 0, n => by simp [beRaw, be, Nat.mod_one]
  | k + 1, n => by
    rw [beRaw, be_snoc, be_beRaw k]
    have h1 : (UInt8.ofNat n).toNat = n % 256 := by simp
    rw [h1, Nat.pow_succ, Nat.mul_comm (256 ^ k) 256, Nat.mod_mul]
    omega

theorem beRaw_be : ∀ l : Bytes, beRaw l.length (be l) = l := by
  intro l
  induction l using List.reverseRecOn with
  | nil => rfl
  | append_singleton l b ih =>
    have h := b.toNat_lt
    rw [List.length_append, List.length_singleton, beRaw, be_snoc]
    have h1 : (be l * 256 + b.toNat) / 256 = be l := by omega
    rw [h1, ih]
    congr 2
    apply UInt8.toNat_inj.1
    simp

theorem toBE_some {k n : Nat} (h : n < 256 ^ k) : toBE k n = some (beRaw k n) := if_pos h

theorem toBE_iff {k n : Nat} {bs : Bytes} :
    toBE k n = some bs ↔ bs.length = k ∧ be bs = n := by
  unfold toBE
  constructor
  · intro h
    split at h
    · rename_i hlt
      have e := Option.some.inj h
      subst e
      exact ⟨beRaw_length _ _, by rw [be_beRaw, Nat.mod_eq_of_lt hlt]⟩
    · exact absurd h (by simp)
  · rintro ⟨rfl, rfl⟩
    rw [if_pos (be_lt bs), beRaw_be]

/-- Octet strings of the same length are determined by their value. -/
theorem be_inj {l m : Bytes} (hl : l.length = m.length) (h : be l = be m) : l = m := by
  rw [← beRaw_be l, ← beRaw_be m, hl, h]

theorem beRaw_inj {k m n : Nat} (hm : m < 256 ^ k) (hn : n < 256 ^ k)
    (h : beRaw k m = beRaw k n) : m = n := by
  have := congrArg be h
  rwa [be_beRaw, be_beRaw, Nat.mod_eq_of_lt hm, Nat.mod_eq_of_lt hn] at this

theorem le16_length (n : Nat) : (le16 n).length = 2 := rfl

theorem le16_inj {m n : Nat} (hm : m < 65536) (hn : n < 65536) (h : le16 m = le16 n) : m = n := by
  simp only [le16, List.cons.injEq, and_true] at h
  have h1 := congrArg UInt8.toNat h.1
  have h2 := congrArg UInt8.toNat h.2
  simp at h1 h2
  omega

/-! ## The MAC-address salt is symmetric -/

theorem memGe_total : ∀ a b : Bytes, a.length = b.length → memGe a b = true ∨ memGe b a = true
  | [], _, _ => Or.inl (by simp [memGe])
  | _ :: _, [], _ => Or.inl (by simp [memGe])
  | x :: xs, y :: ys, h => by
    simp only [memGe]
    by_cases hxy : x = y
    · subst hxy
      simpa using memGe_total xs ys (by simpa using h)
    · simp only [hxy, Ne.symm hxy, if_false, decide_eq_true_eq]
      have : x.toNat ≠ y.toNat := fun c => hxy (UInt8.toNat_inj.1 c)
      omega

theorem memGe_antisymm : ∀ a b : Bytes, a.length = b.length → memGe a b = true →
    memGe b a = true → a = b
  | [], [], _, _, _ => rfl
  | [], _ :: _, h, _, _ => by simp at h
  | _ :: _, [], h, _, _ => by simp at h
  | x :: xs, y :: ys, h, h1, h2 => by
    simp only [memGe] at h1 h2
    by_cases hxy : x = y
    · subst hxy
      rw [if_pos rfl] at h1 h2
      rw [memGe_antisymm xs ys (by simpa using h) h1 h2]
    · rw [if_neg hxy] at h1
      rw [if_neg (Ne.symm hxy)] at h2
      simp only [decide_eq_true_eq] at h1 h2
      omega

/-- Both ends compute the same salt from the two addresses. -/
theorem macConcat_comm {a b : Bytes} (h : a.length = b.length) : macConcat a b = macConcat b a := by
  unfold macConcat
  rcases memGe_total a b h with h1 | h1
  · by_cases h2 : memGe b a = true
    · rw [memGe_antisymm a b h h1 h2]
    · rw [if_pos h1, if_neg h2]
  · by_cases h2 : memGe a b = true
    · rw [memGe_antisymm a b h h2 h1]
    · rw [if_pos h1, if_neg h2]

/-! ## The KDF -/

/-- The octet lengths of the primitives. -/
structure Prims.Good (h : Prims) : Prop where
  hmac_len : ∀ ht k m, hashLen ht ≠ 0 → (h.hmac ht k m).length = hashLen ht
  extract_len : ∀ ht s m, hashLen ht ≠ 0 → (h.extract ht s m).length = hashLen ht
  expand_len : ∀ ht k i L, (h.expand ht k i L).length = L

/-- The standard's KDF: the blocks `HMAC(key, i || label || context || length)`
for `i = 1, 2, …` one after the other, cut to the wanted number of octets. -/
def kdfSpec (h : Prims) (ht : Nat) (key label ctx : Bytes) (bits : Nat) : Bytes :=
  (((List.range ((bits + 7) / 8)).flatMap fun i =>
      h.hmac ht key (le16 (i + 1) ++ label ++ ctx ++ le16 bits))).take ((bits + 7) / 8)

theorem flatMap_range_len {f : Nat → Bytes} {B : Nat} (hf : ∀ i, (f i).length = B) :
    ∀ k, ((List.range k).flatMap f).length = k * B
  | 0 => by simp
  | k + 1 => by
    rw [List.range_succ, List.flatMap_append, List.length_append, flatMap_range_len hf k]
    simp [hf, Nat.succ_mul]

theorem range_flatMap_prefix (f : Nat → Bytes) (k : Nat) :
    ∀ j, (List.range (k + j)).flatMap f
      = (List.range k).flatMap f ++ (List.range j).flatMap (fun i => f (k + i))
  | 0 => by simp
  | j + 1 => by
    rw [← Nat.add_assoc, List.range_succ, List.flatMap_append, range_flatMap_prefix f k j,
      List.range_succ, List.flatMap_append]
    simp

/-- The loop, seen from any of its rounds. -/
theorem kdfLoop_eq {h : Prims} {ht : Nat} {key label ctx : Bytes} {bits n B : Nat}
    (hB : 0 < B) (hlen : ∀ i, (kdfBlock h ht key label ctx bits i).length = B)
    (hn : n < 65535) :
    ∀ (fuel k : Nat) (out : Bytes), k ≤ n →
      out = ((List.range k).flatMap fun i => kdfBlock h ht key label ctx bits (i + 1)).take n →
      n ≤ k + fuel →
      kdfLoop h ht key label ctx bits n B fuel (k + 1) out
        = ((List.range n).flatMap fun i => kdfBlock h ht key label ctx bits (i + 1)).take n := by
  intro fuel
  have hlen' : ∀ i, ((fun i => kdfBlock h ht key label ctx bits (i + 1)) i).length = B :=
    fun i => hlen (i + 1)
  have done : ∀ k, k ≤ n → n ≤ k * B →
      ((List.range k).flatMap fun i => kdfBlock h ht key label ctx bits (i + 1)).take n
        = ((List.range n).flatMap fun i => kdfBlock h ht key label ctx bits (i + 1)).take n := by
    intro k hk hkB
    obtain ⟨j, rfl⟩ : ∃ j, n = k + j := ⟨n - k, by omega⟩
    rw [range_flatMap_prefix _ k j, List.take_append_of_le_length]
    rw [flatMap_range_len hlen']; exact hkB
  induction fuel with
  | zero =>
    intro k out hk hout hf
    have : k = n := by omega
    subst this
    simp only [kdfLoop]
    exact hout
  | succ fuel ih =>
    intro k out hk hout hf
    have hol : out.length = min n (k * B) := by
      rw [hout, List.length_take, flatMap_range_len hlen']
    rw [kdfLoop]
    by_cases hlt : out.length < n
    · rw [if_pos hlt]
      have hkB : k * B < n := by omega
      have hkn : k < n := Nat.lt_of_le_of_lt (Nat.le_mul_of_pos_right k hB) hkB
      have hmod : (k + 1 + 1) % 65536 = k + 1 + 1 := Nat.mod_eq_of_lt (by omega)
      dsimp only
      rw [hmod]
      refine ih (k + 1) _ (by omega) ?_ (by omega)
      have hout' : out = (List.range k).flatMap fun i => kdfBlock h ht key label ctx bits (i + 1) := by
        rw [hout, List.take_of_length_le]
        rw [flatMap_range_len hlen']; omega
      rw [List.range_succ, List.flatMap_append, List.take_append, flatMap_range_len hlen',
        ← hout', List.take_of_length_le (l := out) (by omega)]
      congr 1
      have hol' : out.length = k * B := by omega
      rw [hol']
      simp only [List.flatMap_cons, List.flatMap_nil, List.append_nil]
      split
      · rename_i hgt
        rw [List.take_of_length_le, List.take_of_length_le] <;> rw [hlen] <;> omega
      · rfl
    · rw [if_neg hlt, hout]
      exact done k hk (by omega)

/-- The code's KDF is the standard's, for every output the counter can number. -/
theorem ieeeKdf_eq {h : Prims} (hg : h.Good) {ht : Nat} (hht : hashLen ht ≠ 0)
    (key label ctx : Bytes) {bits : Nat} (hb : (bits + 7) / 8 < 65535) :
    ieeeKdf h ht key label ctx bits = some (kdfSpec h ht key label ctx bits) := by
  unfold ieeeKdf
  rw [if_neg hht]
  congr 1
  exact kdfLoop_eq (B := hashLen ht) (by omega) (fun i => hg.hmac_len _ _ _ hht) hb _ 0 []
    (by omega) (by simp) (by omega)

theorem kdfSpec_length {h : Prims} (hg : h.Good) {ht : Nat} (hht : hashLen ht ≠ 0)
    (key label ctx : Bytes) (bits : Nat) :
    (kdfSpec h ht key label ctx bits).length = (bits + 7) / 8 := by
  unfold kdfSpec
  rw [List.length_take, flatMap_range_len (B := hashLen ht) (fun i => hg.hmac_len _ _ _ hht)]
  have := Nat.le_mul_of_pos_right ((bits + 7) / 8) (Nat.pos_of_ne_zero hht)
  omega

/-! ## The right shift -/

theorem or_shift {b c s : Nat} (hs : s ≤ 8) (hb : b < 256) :
    (b >>> s ||| c <<< (8 - s)) = b / 2 ^ s + c * 2 ^ (8 - s) := by
  rw [Nat.shiftRight_eq_div_pow, Nat.or_comm, Nat.shiftLeft_eq, Nat.mul_comm c]
  rw [Nat.add_comm]
  refine (Nat.two_pow_add_eq_or_of_lt ?_ _).symm
  rw [Nat.div_lt_iff_lt_mul (Nat.two_pow_pos s), ← Nat.pow_add]
  have : 8 - s + s = 8 := by omega
  rw [this]; exact hb

theorem shiftFrom_length (s : Nat) : ∀ prev l, (shiftFrom s prev l).length = l.length
  | _, [] => rfl
  | _, b :: bs => by simp [shiftFrom, shiftFrom_length s b bs]

theorem be_cons (b : UInt8) (l : Bytes) : be (b :: l) = b.toNat * 256 ^ l.length + be l := by
  have gen : ∀ (l : Bytes) (a : Nat),
      l.foldl (fun a b => a * 256 + b.toNat) a = a * 256 ^ l.length + be l := by
    intro l
    induction l with
    | nil => intro a; simp [be]
    | cons c l ih =>
      intro a
      have h2 : be (c :: l) = c.toNat * 256 ^ l.length + be l := by
        unfold be
        rw [List.foldl_cons, Nat.zero_mul, Nat.zero_add, ih c.toNat]
        rfl
      rw [List.foldl_cons, ih, h2, List.length_cons, Nat.pow_succ]
      ring
  unfold be
  rw [List.foldl_cons, Nat.zero_mul, Nat.zero_add, gen l b.toNat]
  rfl

/-- The shifted tail, given the octet before it: the value of `prev % 2^s`
followed by the tail, divided by `2^s`. -/
theorem shiftFrom_be {s : Nat} (hs : s ≤ 8) : ∀ (l : Bytes) (prev : UInt8),
    be (shiftFrom s prev l) = (prev.toNat % 2 ^ s * 256 ^ l.length + be l) / 2 ^ s
  | [], prev => by
    simp only [shiftFrom, be, List.foldl_nil, List.length_nil, Nat.pow_zero, Nat.mul_one,
      Nat.add_zero]
    rw [Nat.div_eq_of_lt (Nat.mod_lt _ (Nat.two_pow_pos s))]
  | b :: bs, prev => by
    have hb := b.toNat_lt
    have hpos := Nat.two_pow_pos s
    have h8 : 2 ^ (8 - s) * 2 ^ s = 256 := by
      rw [← Nat.pow_add]
      have : 8 - s + s = 8 := by omega
      rw [this]
    rw [shiftFrom, be_cons, be_cons, shiftFrom_length, shiftFrom_be hs bs b, or_shift hs hb]
    have h1 : (UInt8.ofNat (b.toNat / 2 ^ s + prev.toNat * 2 ^ (8 - s))).toNat
        = b.toNat / 2 ^ s + (prev.toNat % 2 ^ s) * 2 ^ (8 - s) := by
      have hbd : b.toNat / 2 ^ s < 2 ^ (8 - s) := by
        rw [Nat.div_lt_iff_lt_mul hpos, h8]; exact hb
      have hm : prev.toNat * 2 ^ (8 - s) % 256 = prev.toNat % 2 ^ s * 2 ^ (8 - s) := by
        rw [← h8, Nat.mul_comm (2 ^ (8 - s)) (2 ^ s), Nat.mul_mod_mul_right]
      have hlt : prev.toNat % 2 ^ s < 2 ^ s := Nat.mod_lt _ hpos
      have hmul : (prev.toNat % 2 ^ s + 1) * 2 ^ (8 - s) ≤ 2 ^ s * 2 ^ (8 - s) :=
        Nat.mul_le_mul_right _ hlt
      rw [Nat.succ_mul, Nat.mul_comm (2 ^ s), h8] at hmul
      simp only [UInt8.toNat_ofNat']
      generalize b.toNat / 2 ^ s = f at *
      generalize prev.toNat * 2 ^ (8 - s) = g at *
      generalize prev.toNat % 2 ^ s * 2 ^ (8 - s) = k at *
      generalize 2 ^ (8 - s) = E at *
      clear h8
      omega
    rw [h1]
    have hdm := Nat.div_add_mod b.toNat (2 ^ s)
    have e : prev.toNat % 2 ^ s * 256 ^ (bs.length + 1) + (b.toNat * 256 ^ bs.length + be bs)
        = 2 ^ s * ((b.toNat / 2 ^ s + prev.toNat % 2 ^ s * 2 ^ (8 - s)) * 256 ^ bs.length)
          + (b.toNat % 2 ^ s * 256 ^ bs.length + be bs) := by
      rw [Nat.pow_succ]
      have h9 : prev.toNat % 2 ^ s * (256 ^ bs.length * 256)
          = 2 ^ s * (prev.toNat % 2 ^ s * 2 ^ (8 - s) * 256 ^ bs.length) := by
        rw [← h8]; ring
      rw [h9]
      conv => lhs; rw [← hdm]
      ring
    rw [List.length_cons, e, Nat.mul_add_div hpos]

/-- The shift loop divides the number the octets spell by `2^bits`. -/
theorem bufShiftRight_be {s : Nat} (hs : s ≤ 8) (l : Bytes) :
    (bufShiftRight l s).length = l.length ∧ be (bufShiftRight l s) = be l / 2 ^ s := by
  cases l with
  | nil => simp [bufShiftRight, be]
  | cons b bs =>
    simp only [bufShiftRight]
    split
    · rename_i h0; subst h0; simp
    · have hpos := Nat.two_pow_pos s
      refine ⟨by simp [shiftFrom_length], ?_⟩
      have hb := b.toNat_lt
      rw [be_cons, be_cons, shiftFrom_length, shiftFrom_be hs]
      have h1 : (UInt8.ofNat (b.toNat >>> s)).toNat = b.toNat / 2 ^ s := by
        rw [Nat.shiftRight_eq_div_pow]
        simp only [UInt8.toNat_ofNat']
        exact Nat.mod_eq_of_lt (Nat.lt_of_le_of_lt (Nat.div_le_self _ _) hb)
      have hdm := Nat.div_add_mod b.toNat (2 ^ s)
      have e : b.toNat * 256 ^ bs.length + be bs
          = 2 ^ s * (b.toNat / 2 ^ s * 256 ^ bs.length)
            + (b.toNat % 2 ^ s * 256 ^ bs.length + be bs) := by
        conv => lhs; rw [← hdm]
        ring
      rw [h1, e, Nat.mul_add_div hpos]

/-! ## The constant-time helpers -/

theorem and_ones (b : UInt8) : b &&& 255 = b := by
  apply UInt8.toNat_inj.1
  rw [UInt8.toNat_and]
  have h := b.toNat_lt
  have e : (255 : UInt8).toNat = 2 ^ 8 - 1 := rfl
  rw [e, Nat.and_two_pow_sub_one_eq_mod]
  exact Nat.mod_eq_of_lt h

theorem sel_ones (a b : UInt8) : (a &&& ~~~(255 : UInt8)) ||| (b &&& 255) = b := by
  have e : ~~~(255 : UInt8) = 0 := by decide
  rw [e, and_ones]; simp

theorem sel_zero (a b : UInt8) : (a &&& ~~~(0 : UInt8)) ||| (b &&& 0) = a := by
  have e : ~~~(0 : UInt8) = 255 := by decide
  rw [e, and_ones]; simp

theorem ctSelect_ones : ∀ {s x : Bytes}, s.length = x.length → ctSelect 255 s x = x
  | [], [], _ => rfl
  | [], _ :: _, h => by simp at h
  | _ :: _, [], h => by simp at h
  | a :: s, b :: x, h => by
    have := ctSelect_ones (s := s) (x := x) (by simpa using h)
    unfold ctSelect at *
    rw [List.zipWith_cons_cons, this, sel_ones]

theorem ctSelect_zero : ∀ {s x : Bytes}, s.length = x.length → ctSelect 0 s x = s
  | [], [], _ => rfl
  | [], _ :: _, h => by simp at h
  | _ :: _, [], h => by simp at h
  | a :: s, b :: x, h => by
    have := ctSelect_zero (s := s) (x := x) (by simpa using h)
    unfold ctSelect at *
    rw [List.zipWith_cons_cons, this, sel_zero]

theorem u8_or_zero {a b : UInt8} (h : a ||| b = 0) : a = 0 ∧ b = 0 := by
  have h1 := congrArg UInt8.toNat h
  rw [UInt8.toNat_or] at h1
  have h2 := Nat.or_eq_zero_iff.1 h1
  exact ⟨UInt8.toNat_inj.1 h2.1, UInt8.toNat_inj.1 h2.2⟩

theorem foldl_or_zero : ∀ (l : Bytes) (a : UInt8), l.foldl (fun a b => a ||| b) a = 0 ↔
    a = 0 ∧ ∀ b ∈ l, b = 0
  | [], a => by simp
  | b :: l, a => by
    rw [List.foldl_cons, foldl_or_zero l]
    constructor
    · rintro ⟨h1, h2⟩
      obtain ⟨h3, h4⟩ := u8_or_zero h1
      exact ⟨h3, fun c hc => by
        rcases List.mem_cons.1 hc with rfl | hc
        · exact h4
        · exact h2 c hc⟩
    · rintro ⟨h1, h2⟩
      exact ⟨by rw [h1, h2 b List.mem_cons_self]; rfl, fun c hc => h2 c (List.mem_cons_of_mem _ hc)⟩

theorem zip_xor_zero : ∀ {d m : Bytes}, d.length = m.length →
    ((∀ b ∈ List.zipWith (fun x y => x ^^^ y) d m, b = 0) ↔ d = m)
  | [], [], _ => by simp
  | [], _ :: _, h => by simp at h
  | _ :: _, [], h => by simp at h
  | a :: d, b :: m, h => by
    have ih := zip_xor_zero (d := d) (m := m) (by simpa using h)
    rw [List.zipWith_cons_cons, List.forall_mem_cons, ih, List.cons.injEq]
    have : a ^^^ b = 0 ↔ a = b := UInt8.xor_eq_zero_iff
    rw [this]

/-- The constant-time comparison is equality. -/
theorem ctDiff_zero {d m : Bytes} (h : d.length = m.length) : ctDiff d m = 0 ↔ d = m := by
  unfold ctDiff
  rw [foldl_or_zero, zip_xor_zero h]
  simp

/-! ## The order of the two addresses -/

theorem memGe_be : ∀ {a b : Bytes}, a.length = b.length → (memGe a b = true ↔ be b ≤ be a)
  | [], [], _ => by simp [memGe]
  | x :: xs, y :: ys, h => by
    have hl : xs.length = ys.length := by simpa using h
    have h1 := be_lt xs
    have h2 := be_lt ys
    rw [be_cons, be_cons, ← hl]
    rw [← hl] at h2
    unfold memGe
    split
    · rename_i e
      subst e
      rw [memGe_be hl]
      omega
    · rename_i ne
      have hne : x.toNat ≠ y.toNat := fun c => ne (UInt8.toNat_inj.1 c)
      rw [decide_eq_true_iff]
      constructor
      · intro c
        have := Nat.mul_le_mul_right (256 ^ xs.length) (show y.toNat + 1 ≤ x.toNat by omega)
        rw [Nat.add_mul] at this
        omega
      · intro c
        rcases Nat.lt_or_ge y.toNat x.toNat with c0 | c0
        · exact c0
        · have := Nat.mul_le_mul_right (256 ^ xs.length) (show x.toNat + 1 ≤ y.toNat by omega)
          rw [Nat.add_mul] at this
          omega

/-- C95, C96: the two addresses are concatenated with the numerically larger
one first (IEEE 802.11-2020 12.4.4.2.2, `MAX(…) || MIN(…)`). -/
theorem mac_order {a b : Bytes} (h : a.length = b.length) :
    macConcat a b = if be b ≤ be a then a ++ b else b ++ a := by
  unfold macConcat
  by_cases c : be b ≤ be a
  · rw [if_pos c, if_pos ((memGe_be h).2 c)]
  · rw [if_neg c, if_neg (fun k => c ((memGe_be h).1 k))]

end Wolf.Sae
