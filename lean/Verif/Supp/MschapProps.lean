import Verif.Supp.Mschap

/-!
# MSCHAPv2: messages and computations are those of the RFCs (C90)
-/

namespace Wolf.Supp

/-! ## Messages -/

/-- A list of at least 22 bytes, spelled out. -/
theorem head6 {b : Bytes} (h : 6 ≤ b.length) :
    b = [b.getD 0 0, b.getD 1 0, b.getD 2 0, b.getD 3 0, b.getD 4 0, b.getD 5 0] ++ b.drop 6 := by
  match b, h with
  | a0 :: a1 :: a2 :: a3 :: a4 :: a5 :: r, _ => rfl

/-- What `parseChal` computes, without the loads. -/
theorem parseChal_eq (b : Bytes) : parseChal b =
    if ¬ 22 ≤ b.length then .error .reject
    else if b.getD 0 0 = 26 ∧ b.getD 1 0 = 1 ∧ num16 b 3 ≤ b.length - 1 ∧ b.getD 5 0 = 16 then
      .ok ⟨b.getD 2 0, num16 b 3, (b.drop 6).take 16, (b.drop 22).take (b.length - 22)⟩
    else .error .reject := by
  unfold parseChal
  rw [need_bind]
  by_cases h : 22 ≤ b.length
  · rw [if_pos h, if_neg (fun c => c h), ld_num (by omega), ok_bind, need_bind]
    by_cases h0 : b.getD 0 0 = 26
    · rw [if_pos h0, ld_num (by omega), ok_bind, need_bind]
      by_cases h1 : b.getD 1 0 = 1
      · rw [if_pos h1, ld_num (by omega), ok_bind, rd16_num (by omega), ok_bind, need_bind]
        by_cases h2 : num16 b 3 ≤ b.length - 1
        · rw [if_pos h2, ld_num (by omega), ok_bind, need_bind]
          by_cases h3 : b.getD 5 0 = 16
          · rw [if_pos h3, sl_ok (by omega), ok_bind, sl_ok (by omega), ok_bind,
              if_pos ⟨h0, h1, h2, h3⟩]
            rfl
          · rw [if_neg h3, if_neg (fun c => h3 c.2.2.2)]
        · rw [if_neg h2, if_neg (fun c => h2 c.2.2.1)]
      · rw [if_neg h1, if_neg (fun c => h1 c.2.1)]
    · rw [if_neg h0, if_neg (fun c => h0 c.1)]
  · rw [if_neg h, if_pos h]

/-- **C90.**  The challenge parser accepts exactly the well-formed challenges, returns their fields,
and never reads outside the message. -/
theorem challenge_parsed (b : Bytes) :
    (∀ c, parseChal b = .ok c ↔ ChalMsg b c) ∧ parseChal b ≠ .error .oob := by
  rw [parseChal_eq]
  constructor
  · intro c
    constructor
    · intro h
      split at h
      · cases h
      · next h22 =>
        have h22 : 22 ≤ b.length := Decidable.not_not.mp h22
        split at h
        · next hc =>
          cases h
          refine ⟨b.getD 3 0, b.getD 4 0, ?_, ?_, rfl, ?_⟩
          · dsimp only
            have h6 := head6 (b := b) (by omega)
            rw [hc.1, hc.2.1, hc.2.2.2] at h6
            have e : (b.drop 22).take (b.length - 22) = (b.drop 6).drop 16 := by
              rw [List.drop_drop, List.take_of_length_le (by rw [List.length_drop]; omega)]
            rw [e, List.append_assoc, List.take_append_drop]
            exact h6
          · dsimp only
            rw [List.length_take, List.length_drop]; omega
          · dsimp only
            rw [List.length_take, List.length_drop]; omega
        · cases h
    · rintro ⟨hi, lo, hb, ha, hm, hl⟩
      obtain ⟨id, ms, au, nm⟩ := c
      dsimp only at hb ha hm hl
      subst hb
      have hlen : ([26, 1, id, hi, lo, 16] ++ au ++ nm).length = 22 + nm.length := by
        simp only [List.length_append, List.length_cons, List.length_nil, ha]
      rw [if_neg (by rw [hlen]; omega), if_pos]
      · have e1 : (([26, 1, id, hi, lo, 16] ++ au ++ nm).drop 6).take 16 = au := by
          show (au ++ nm).take 16 = au
          rw [← ha, List.take_left]
        have e2 : (([26, 1, id, hi, lo, 16] ++ au ++ nm).drop 22).take
            (([26, 1, id, hi, lo, 16] ++ au ++ nm).length - 22) = nm := by
          show ((au ++ nm).drop 16).take _ = nm
          rw [hlen, Nat.add_sub_cancel_left, List.drop_left' ha, List.take_length]
        rw [e1, e2, hm]
        rfl
      · refine ⟨rfl, rfl, ?_, rfl⟩
        rw [hlen]
        show hi * 256 + lo ≤ _
        omega
  · split
    · intro h; cases h
    · split
      · intro h; cases h
      · intro h; cases h

/-- A challenge is accepted: identifier 7, challenge of sixteen 9s, server name "ap". -/
example : ChalMsg ([26, 1, 7, 0, 23, 16] ++ List.replicate 16 9 ++ [97, 112])
    ⟨7, 23, List.replicate 16 9, [97, 112]⟩ :=
  ⟨0, 23, rfl, rfl, rfl, by decide⟩

/-- **C90.**  The response the client builds is read back by the server as the identifier, peer
challenge, NT response and user name given; it fits the buffer; and it is refused only when it would
not fit the buffer or the 16-bit length. -/
theorem response_read (cap id : Nat) (peer nt user : Bytes)
    (hp : peer.length = 16) (hn : nt.length = 24) :
    (∀ b, buildResp cap id peer nt user = some b →
      readResp b = some (id, peer, nt, user) ∧ b.length ≤ cap ∧ b.length = 55 + user.length) ∧
    (buildResp cap id peer nt user = none ↔ cap < 55 + user.length ∨ 65535 < 55 + user.length) := by
  unfold buildResp
  dsimp only
  constructor
  · intro b h
    split at h
    · cases h
    · next hc =>
      have hb := (Option.some.inj h).symm
      have h1 : 55 + user.length ≤ cap := Nat.not_lt.mp (fun c => hc (Or.inl c))
      have h2 : 55 + user.length ≤ 65535 := Nat.not_lt.mp (fun c => hc (Or.inr c))
      have hlen : b.length = 55 + user.length := by
        rw [hb]
        simp only [List.length_append, List.length_cons, List.length_nil, List.length_replicate,
          wr16, hp, hn]
      refine ⟨?_, by omega, hlen⟩
      have hr : b = 26 :: 2 :: id :: ((55 + user.length - 1) / 256 % 256) ::
          ((55 + user.length - 1) % 256) :: 49 ::
          (peer ++ (List.replicate 8 0 ++ (nt ++ ([0] ++ user)))) := by
        rw [hb]
        simp only [wr16, List.append_assoc, List.cons_append, List.nil_append]
      have hrl : (peer ++ (List.replicate 8 0 ++ (nt ++ ([0] ++ user)))).length = 49 + user.length := by
        simp only [List.length_append, List.length_cons, List.length_nil, List.length_replicate,
          hp, hn]
        omega
      rw [hr]
      unfold readResp
      dsimp only
      have d16 : (peer ++ (List.replicate 8 0 ++ (nt ++ ([0] ++ user)))).drop 16 =
          List.replicate 8 0 ++ (nt ++ ([0] ++ user)) := by rw [← hp, List.drop_left]
      have d24 : (peer ++ (List.replicate 8 0 ++ (nt ++ ([0] ++ user)))).drop 24 =
          nt ++ ([0] ++ user) := by
        rw [show (24 : Nat) = 16 + 8 from rfl, ← List.drop_drop, d16]
        exact List.drop_left' (List.length_replicate)
      have d48 : (peer ++ (List.replicate 8 0 ++ (nt ++ ([0] ++ user)))).drop 48 = [0] ++ user := by
        rw [show (48 : Nat) = 24 + 24 from rfl, ← List.drop_drop, d24]
        exact List.drop_left' hn
      rw [if_pos]
      · have t1 : (peer ++ (List.replicate 8 0 ++ (nt ++ ([0] ++ user)))).take 16 = peer := by
          rw [← hp, List.take_left]
        have t2 : (nt ++ ([0] ++ user)).take 24 = nt := by rw [← hn, List.take_left]
        have t3 : (peer ++ (List.replicate 8 0 ++ (nt ++ ([0] ++ user)))).drop 49 = user := by
          rw [show (49 : Nat) = 48 + 1 from rfl, ← List.drop_drop, d48]
          rfl
        rw [t1, d24, t2, t3]
      · refine ⟨rfl, rfl, rfl, ?_, by omega, ?_, ?_⟩
        · rw [hrl]; omega
        · rw [List.getD_eq_getElem?_getD, ← List.head?_drop, d48]
          rfl
        · rw [d16]
          exact List.take_left' (List.length_replicate)
  · split
    · next hc => exact ⟨fun _ => hc, fun _ => rfl⟩
    · next hc => exact ⟨fun h => (by cases h), fun h => absurd h hc⟩

example : (buildResp 256 7 (List.replicate 16 1) (List.replicate 24 2) (ascii "bob")).isSome = true := by
  decide

/-- The scan finds the first occurrence, if there is one. -/
theorem scanAuth_spec (b : Bytes) : ∀ (n i : Nat), b.length ≤ n + i →
    (∃ j, i ≤ j ∧ j + 42 ≤ b.length ∧ b.getD j 0 = 83 ∧ b.getD (j + 1) 0 = 61 ∧
      (∀ k, i ≤ k → k < j → ¬ (b.getD k 0 = 83 ∧ b.getD (k + 1) 0 = 61)) ∧
      scanAuth b n i = .ok ((b.drop j).take 42)) ∨
    ((∀ k, i ≤ k → k + 42 ≤ b.length → ¬ (b.getD k 0 = 83 ∧ b.getD (k + 1) 0 = 61)) ∧
      scanAuth b n i = .error .reject) := by
  intro n
  induction n with
  | zero =>
    intro i h
    exact Or.inr ⟨fun k h1 h2 => by omega, rfl⟩
  | succ n ih =>
    intro i h
    rw [scanAuth]
    by_cases hi : i + 42 ≤ b.length
    · rw [if_pos hi, ld_num (by omega), ok_bind, ld_num (by omega)]
      by_cases hm : b.getD i 0 = 83 ∧ b.getD (i + 1) 0 = 61
      · refine Or.inl ⟨i, Nat.le_refl _, hi, hm.1, hm.2, fun k h1 h2 => by omega, ?_⟩
        rw [if_pos hm.1, ok_bind, if_pos hm.2, sl_ok hi]
      · have hnext : (if b.getD i 0 = 83 then ((Except.ok (b.getD (i + 1) 0) : M Nat) >>= fun y =>
            if y = 61 then sl b i 42 else scanAuth b n (i + 1)) else scanAuth b n (i + 1)) =
            scanAuth b n (i + 1) := by
          by_cases h1 : b.getD i 0 = 83
          · rw [if_pos h1, ok_bind, if_neg (fun c => hm ⟨h1, c⟩)]
          · rw [if_neg h1]
        rw [hnext]
        rcases ih (i + 1) (by omega) with ⟨j, a1, a2, a3, a4, a5, a6⟩ | ⟨a1, a2⟩
        · refine Or.inl ⟨j, by omega, a2, a3, a4, ?_, a6⟩
          intro k k1 k2 kc
          by_cases ke : k = i
          · subst ke; exact hm kc
          · exact a5 k (by omega) k2 kc
        · refine Or.inr ⟨?_, a2⟩
          intro k k1 k2 kc
          by_cases ke : k = i
          · subst ke; exact hm kc
          · exact a1 k (by omega) k2 kc
    · rw [if_neg hi]
      exact Or.inr ⟨fun k h1 h2 => by omega, rfl⟩

/-- **C90.**  From a Success message the client takes the 42 bytes at the first `S=` after the
five-byte header that still has 42 bytes; every other message is refused; no read is outside. -/
theorem authresp_extracted (b r : Bytes) :
    (extractAuth b = .ok r ↔
      b.getD 0 0 = 26 ∧ b.getD 1 0 = 3 ∧
      ∃ pre rest, b = pre ++ r ++ rest ∧ 5 ≤ pre.length ∧ r.length = 42 ∧
        r.take 2 = ascii "S=" ∧
        ∀ k, 5 ≤ k → k < pre.length → (b.drop k).take 2 ≠ ascii "S=") ∧
    extractAuth b ≠ .error .oob := by
  have two : ∀ k, k + 42 ≤ b.length → ((b.drop k).take 2 = ascii "S=" ↔
      b.getD k 0 = 83 ∧ b.getD (k + 1) 0 = 61) := by
    intro k hk
    rw [show (ascii "S=") = [83, 61] from by decide, List.drop_eq_getElem_cons (show k < b.length by omega),
      List.drop_eq_getElem_cons (show k + 1 < b.length by omega)]
    rw [List.getD_eq_getElem?_getD, List.getD_eq_getElem?_getD,
      List.getElem?_eq_getElem (show k < b.length by omega),
      List.getElem?_eq_getElem (show k + 1 < b.length by omega)]
    show [b[k], b[k + 1]] = [83, 61] ↔ b[k] = 83 ∧ b[k + 1] = 61
    constructor
    · intro h; injection h with h1 h2; injection h2 with h2 _; exact ⟨h1, h2⟩
    · rintro ⟨h1, h2⟩; rw [h1, h2]
  unfold extractAuth
  rw [need_bind]
  by_cases h6 : 6 ≤ b.length
  · rw [if_pos h6, ld_num (by omega), ok_bind, ld_num (by omega), ok_bind, need_bind]
    by_cases hh : b.getD 0 0 = 26 ∧ b.getD 1 0 = 3
    · rw [if_pos hh]
      rcases scanAuth_spec b b.length 5 (by omega) with ⟨j, a1, a2, a3, a4, a5, a6⟩ | ⟨a1, a2⟩
      · rw [a6]
        refine ⟨⟨fun h => ?_, ?_⟩, by intro h; cases h⟩
        · cases h
          refine ⟨hh.1, hh.2, b.take j, b.drop (j + 42), ?_, ?_, ?_, ?_, ?_⟩
          · rw [List.append_assoc, ← List.drop_drop, List.take_append_drop, List.take_append_drop]
          · rw [List.length_take]; omega
          · rw [List.length_take, List.length_drop]; omega
          · rw [List.take_take]
            exact (two j a2).mpr ⟨a3, a4⟩
          · intro k k1 k2 kc
            rw [List.length_take] at k2
            exact a5 k k1 (by omega) ((two k (by omega)).mp kc)
        · rintro ⟨_, _, pre, rest, hb, p1, p2, p3, p4⟩
          have hbl : b.length = pre.length + 42 + rest.length := by
            rw [hb]; simp only [List.length_append, p2]
          have hd : (b.drop pre.length).take 42 = r := by
            rw [hb, List.append_assoc, List.drop_left, ← p2, List.take_left]
          have hs : (b.drop pre.length).take 2 = ascii "S=" := by
            rw [← p3, ← hd, List.take_take]
            rfl
          have hm := (two pre.length (by omega)).mp hs
          have : j = pre.length := by
            rcases Nat.lt_trichotomy j pre.length with c | c | c
            · exact absurd ((two j a2).mpr ⟨a3, a4⟩) (p4 j a1 c)
            · exact c
            · exact absurd hm (a5 _ p1 c)
          rw [this, hd]
      · rw [a2]
        refine ⟨⟨fun h => (by cases h), ?_⟩, by intro h; cases h⟩
        rintro ⟨_, _, pre, rest, hb, p1, p2, p3, p4⟩
        have hbl : b.length = pre.length + 42 + rest.length := by
          rw [hb]; simp only [List.length_append, p2]
        have hd : (b.drop pre.length).take 42 = r := by
          rw [hb, List.append_assoc, List.drop_left, ← p2, List.take_left]
        have hs : (b.drop pre.length).take 2 = ascii "S=" := by
          rw [← p3, ← hd, List.take_take]
          rfl
        exact absurd ((two pre.length (by omega)).mp hs) (a1 _ p1 (by omega))
    · rw [if_neg hh]
      exact ⟨⟨fun h => (by cases h), fun h => absurd ⟨h.1, h.2.1⟩ hh⟩, by intro h; cases h⟩
  · rw [if_neg h6]
    refine ⟨⟨fun h => (by cases h), ?_⟩, by intro h; cases h⟩
    rintro ⟨_, _, pre, rest, hb, p1, p2, p3, p4⟩
    have hbl : b.length = pre.length + 42 + rest.length := by
      rw [hb]; simp only [List.length_append, p2]
    omega

/-- A Success message is accepted. -/
example : extractAuth ([26, 3, 1, 0, 50] ++ ascii "S=" ++ List.replicate 40 65 ++ ascii " M=ok") =
    .ok (ascii "S=" ++ List.replicate 40 65) := by rfl

/-! ## Computations -/

theorem utf16_eq (pw : Bytes) : utf16 pw = utf16le pw := by
  induction pw with
  | nil => rfl
  | cons c cs ih => rw [utf16, ih]; rfl

theorem ntHash_eq (P : Prims) (pw : Bytes) :
    ntHash P pw = if 1 ≤ pw.length ∧ pw.length ≤ 127 then some (NtPasswordHash P pw) else none := by
  unfold ntHash NtPasswordHash
  rw [utf16_eq]
  by_cases h : 1 ≤ pw.length ∧ pw.length ≤ 127
  · rw [if_pos h, if_neg (by omega), if_neg (by omega)]
  · rw [if_neg h, if_pos (by omega)]

theorem chalHash_eq (P : Prims) (peer auth user : Bytes) :
    chalHash P peer auth user = ChallengeHash P peer auth user := by
  unfold chalHash ChallengeHash
  cases P.sha (peer ++ auth ++ user) <;> rfl

/-- Two neighbouring bytes give seven bits. -/
theorem mix (k a b : Nat) (h7 : k ≤ 7) (hb : b < 256) :
    ((a <<< (8 - k)) ||| (b >>> k)) &&& 254 = 2 * ((a * 256 + b) / 2 ^ (k + 1) % 128) := by
  have e254 : ∀ j, (254 : Nat).testBit j = (decide (1 ≤ j) && decide (j < 8)) := by
    intro j
    by_cases hj : j < 8
    · have : j = 0 ∨ j = 1 ∨ j = 2 ∨ j = 3 ∨ j = 4 ∨ j = 5 ∨ j = 6 ∨ j = 7 := by omega
      rcases this with h | h | h | h | h | h | h | h <;> subst h <;> rfl
    · rw [Nat.testBit_lt_two_pow (Nat.lt_of_lt_of_le (by decide : 254 < 2 ^ 8)
        (Nat.pow_le_pow_right (by decide) (by omega)))]
      simp [hj]
  apply Nat.eq_of_testBit_eq
  intro j
  rw [Nat.testBit_and, Nat.testBit_or, Nat.testBit_shiftLeft, Nat.testBit_shiftRight, e254]
  rw [show (2 : Nat) * ((a * 256 + b) / 2 ^ (k + 1) % 128) =
      ((a * 256 + b) / 2 ^ (k + 1) % 2 ^ 7) * 2 ^ 1 from by omega]
  rw [Nat.testBit_mul_two_pow, Nat.testBit_mod_two_pow, Nat.testBit_div_two_pow]
  rw [show a * 256 + b = 2 ^ 8 * a + b from by omega, Nat.testBit_two_pow_mul_add _ hb]
  by_cases hj : 1 ≤ j
  · by_cases hj8 : j < 8
    · have e1 : j - 1 + (k + 1) = j + k := by omega
      rw [e1]
      by_cases hc : j + k < 8
      · rw [if_pos hc]
        have : ¬ (8 - k ≤ j) := by omega
        have : ¬ (j ≥ 8 - k) := by omega
        simp [*, Nat.add_comm, show j - 1 < 7 by omega]
      · rw [if_neg hc]
        have hbf : b.testBit (k + j) = false :=
          Nat.testBit_lt_two_pow (Nat.lt_of_lt_of_le hb
            (show 2 ^ 8 ≤ 2 ^ (k + j) from Nat.pow_le_pow_right (by decide) (by omega)))
        rw [hbf]
        have : j ≥ 8 - k := by omega
        have e2 : j - (8 - k) = j + k - 8 := by omega
        simp [*, show j - 1 < 7 by omega]
    · simp [hj8, show ¬ j - 1 < 7 by omega]
  · simp [hj]

theorem cons2 {a b : Nat} {l m : Bytes} (h : a = b) (t : l = m) : a :: l = b :: m := by rw [h, t]

/-- The key schedule spreads the 56 bits over eight bytes. -/
theorem desKey_eq (k : Bytes) (hl : k.length = 7) (hb : ∀ x ∈ k, x < 256) :
    desKey k = spread56 (bits56 k) := by
  match k, hl with
  | [a, b, c, d, e, f, g], _ =>
    have ha := hb a (by simp)
    have hb1 := hb b (by simp)
    have hc := hb c (by simp)
    have hd := hb d (by simp)
    have he := hb e (by simp)
    have hf := hb f (by simp)
    have hg := hb g (by simp)
    have m0 : a &&& 254 = 2 * ((0 * 256 + a) / 2 ^ 1 % 128) := by
      rw [← mix 0 0 a (by decide) ha]
      simp
    have m1 := mix 1 a b (by decide) hb1
    have m2 := mix 2 b c (by decide) hc
    have m3 := mix 3 c d (by decide) hd
    have m4 := mix 4 d e (by decide) he
    have m5 := mix 5 e f (by decide) hf
    have m6 := mix 6 f g (by decide) hg
    have m7 : (g <<< 1) &&& 254 = 2 * ((g * 256 + 0) / 2 ^ 8 % 128) := by
      rw [← mix 7 g 0 (by decide) (by decide)]
      simp
    show [a &&& 254, ((a <<< 7) ||| (b >>> 1)) &&& 254, ((b <<< 6) ||| (c >>> 2)) &&& 254,
      ((c <<< 5) ||| (d >>> 3)) &&& 254, ((d <<< 4) ||| (e >>> 4)) &&& 254,
      ((e <<< 3) ||| (f >>> 5)) &&& 254, ((f <<< 2) ||| (g >>> 6)) &&& 254, (g <<< 1) &&& 254] = _
    rw [m0, m1, m2, m3, m4, m5, m6, m7]
    clear m0 m1 m2 m3 m4 m5 m6 m7 hb
    unfold spread56 bits56
    rw [show List.range 8 = [0, 1, 2, 3, 4, 5, 6, 7] from rfl]
    simp only [List.map, List.foldl, Nat.reduceMul, Nat.reduceSub, Nat.reducePow, Nat.reduceAdd]
    refine cons2 ?_ (cons2 ?_ (cons2 ?_ (cons2 ?_ (cons2 ?_ (cons2 ?_ (cons2 ?_ (cons2 ?_ rfl)))))))
      <;> omega

theorem take7_of {z : Bytes} (hl : z.length = 21) (hb : ∀ x ∈ z, x < 256) (i : Nat) (hi : i < 3) :
    desKey ((z.drop (i * 7)).take 7) = spread56 (bits56 ((z.drop (i * 7)).take 7)) :=
  desKey_eq _ (by rw [List.length_take, List.length_drop]; omega)
    (fun x hx => hb x (List.mem_of_mem_drop (List.mem_of_mem_take hx)))

theorem chalResp_eq (P : Prims) (chal h : Bytes) (hl : h.length = 16) (hb : ∀ x ∈ h, x < 256) :
    chalResp P chal h = ChallengeResponse P chal h := by
  have zl : (h ++ List.replicate 5 0).length = 21 := by
    rw [List.length_append, List.length_replicate, hl]
  have zb : ∀ x ∈ h ++ List.replicate 5 0, x < 256 := by
    intro x hx
    rcases List.mem_append.mp hx with c | c
    · exact hb x c
    · rw [List.eq_of_mem_replicate c]; decide
  unfold chalResp ChallengeResponse
  dsimp only
  generalize h ++ List.replicate 5 0 = z at zl zb
  have e2 : z.drop 14 = (z.drop (2 * 7)).take 7 :=
    (List.take_of_length_le (by rw [List.length_drop]; omega)).symm
  rw [e2]
  have k0 := take7_of zl zb 0 (by decide)
  have k1 := take7_of zl zb 1 (by decide)
  have k2 := take7_of zl zb 2 (by decide)
  simp only [desLoop, Nat.zero_add, Nat.reduceAdd]
  rw [k0, k1, k2]
  simp only [Nat.zero_mul, Nat.one_mul, List.drop_zero]
  cases P.des (spread56 (bits56 (z.take 7))) chal with
  | none => rfl
  | some a =>
    cases P.des (spread56 (bits56 ((z.drop 7).take 7))) chal with
    | none => rfl
    | some b =>
      cases P.des (spread56 (bits56 ((z.drop (2 * 7)).take 7))) chal with
      | none => rfl
      | some c =>
        show some (a ++ (b ++ (c ++ []))) = some (a ++ b ++ c)
        rw [List.append_nil, List.append_assoc]

/-- **C90.**  For every password of 1 to 127 characters the NT response is RFC 2759's
GenerateNTResponse of the two challenges, the user name and the password; other passwords are
refused. -/
theorem nt_response_exact (P : Prims) (auth peer user pw : Bytes) :
    genNt P auth peer user pw =
      if 1 ≤ pw.length ∧ pw.length ≤ 127 then GenerateNTResponse P auth peer user pw else none := by
  unfold genNt GenerateNTResponse
  rw [chalHash_eq, ntHash_eq]
  cases ChallengeHash P peer auth user with
  | none => dsimp only [Option.bind]; split <;> rfl
  | some c =>
    by_cases h : 1 ≤ pw.length ∧ pw.length ≤ 127
    · rw [if_pos h, if_pos h]
      exact chalResp_eq P c _ (P.md4_len _) (P.md4_bytes _)
    · rw [if_neg h, if_neg h]

theorem desLoop_len (P : Prims) (chal z : Bytes) :
    ∀ n i r, desLoop P chal z n i = some r → r.length = 8 * n := by
  intro n
  induction n with
  | zero => intro i r h; cases h; rfl
  | succ n ih =>
    intro i r h
    rw [desLoop] at h
    split at h
    · cases h
    · next c hc =>
      split at h
      · cases h
      · next r' hr =>
        cases h
        rw [List.length_append, P.des_len _ _ _ hc, ih _ _ hr]
        omega

/-- The NT response is 24 bytes long. -/
theorem genNt_len (P : Prims) (auth peer user pw r : Bytes) (h : genNt P auth peer user pw = some r) :
    r.length = 24 := by
  unfold genNt at h
  split at h
  · cases h
  · split at h
    · cases h
    · exact desLoop_len P _ _ 3 0 r h

/-! ### The authenticator response -/

theorem nibble (x : Nat) (hx : x < 16) :
    hexDigit x = (ascii "0123456789ABCDEF").getD x 0 := by
  have : x = 0 ∨ x = 1 ∨ x = 2 ∨ x = 3 ∨ x = 4 ∨ x = 5 ∨ x = 6 ∨ x = 7 ∨ x = 8 ∨ x = 9 ∨ x = 10 ∨
    x = 11 ∨ x = 12 ∨ x = 13 ∨ x = 14 ∨ x = 15 := by omega
  rcases this with h | h | h | h | h | h | h | h | h | h | h | h | h | h | h | h <;> subst h <;> rfl

theorem hexLoop_eq (d : Bytes) (hb : ∀ x ∈ d, x < 256) : hexLoop d = d.flatMap hex2 := by
  induction d with
  | nil => rfl
  | cons x ds ih =>
    have hx := hb x List.mem_cons_self
    rw [hexLoop, ih (fun y hy => hb y (List.mem_cons_of_mem _ hy)), List.flatMap_cons]
    have e1 : (x >>> 4) &&& 15 = x / 16 := by
      rw [show (15 : Nat) = 2 ^ 4 - 1 from rfl, Nat.and_two_pow_sub_one_eq_mod,
        Nat.shiftRight_eq_div_pow]
      omega
    have e2 : x &&& 15 = x % 16 := by
      rw [show (15 : Nat) = 2 ^ 4 - 1 from rfl, Nat.and_two_pow_sub_one_eq_mod]
    rw [e1, e2, nibble _ (by omega), nibble _ (by omega)]
    rfl

theorem hexLoop_len (d : Bytes) : (hexLoop d).length = 2 * d.length := by
  induction d with
  | nil => rfl
  | cons x ds ih => rw [hexLoop]; simp only [List.length_cons, ih]; omega

theorem xor_zero_iff (a b : Nat) : a ^^^ b = 0 ↔ a = b := by
  constructor
  · intro h
    have : a ^^^ (b ^^^ b) = b := by rw [← Nat.xor_assoc, h, Nat.zero_xor]
    rwa [Nat.xor_self, Nat.xor_zero] at this
  · intro h; rw [h, Nat.xor_self]

/-- The accumulated difference is zero exactly when all compared bytes agree. -/
theorem diffLoop_zero (a b : Bytes) : ∀ n i acc, diffLoop a b n i acc = 0 ↔
    acc = 0 ∧ ∀ k, i ≤ k → k < i + n → a.getD k 0 = b.getD k 0 := by
  intro n
  induction n with
  | zero =>
    intro i acc
    exact ⟨fun h => ⟨h, fun k h1 h2 => by omega⟩, fun h => h.1⟩
  | succ n ih =>
    intro i acc
    rw [diffLoop, ih]
    have hor : (acc ||| (a.getD i 0 ^^^ b.getD i 0)) = 0 ↔ acc = 0 ∧ a.getD i 0 = b.getD i 0 := by
      rw [Nat.or_eq_zero_iff, xor_zero_iff]
    rw [hor]
    constructor
    · rintro ⟨⟨h1, h2⟩, h3⟩
      refine ⟨h1, fun k k1 k2 => ?_⟩
      by_cases ke : k = i
      · subst ke; exact h2
      · exact h3 k (by omega) (by omega)
    · rintro ⟨h1, h2⟩
      exact ⟨⟨h1, h2 i (Nat.le_refl _) (by omega)⟩, fun k k1 k2 => h2 k (by omega) (by omega)⟩

theorem magic1_eq : magic1 = ascii "Magic server to client signing constant" := by decide
theorem magic2_eq : magic2 = ascii "Pad to make it do more than one iteration" := by decide
theorem magicKey_eq : magicKey = ascii "This is the MPPE Master Key" := by decide
theorem magicSend_eq : magicSend = ascii
    "On the client side, this is the send key; on the server side, it is the receive key." := by
  decide +kernel
theorem magicRecv_eq : magicRecv = ascii
    "On the client side, this is the receive key; on the server side, it is the send key." := by
  decide +kernel

theorem expected_eq (P : Prims) (pw nt peer auth user : Bytes) :
    expected P pw nt peer auth user =
      if 1 ≤ pw.length ∧ pw.length ≤ 127 then GenerateAuthenticatorResponse P pw nt peer auth user
      else none := by
  unfold expected GenerateAuthenticatorResponse
  rw [ntHash_eq, magic1_eq, magic2_eq, chalHash_eq]
  by_cases h : 1 ≤ pw.length ∧ pw.length ≤ 127
  · rw [if_pos h, if_pos h]
    dsimp only
    cases P.sha (P.md4 (NtPasswordHash P pw) ++ nt ++
        ascii "Magic server to client signing constant") with
    | none => rfl
    | some d =>
      dsimp only [Option.bind]
      cases ChallengeHash P peer auth user with
      | none => rfl
      | some c =>
        dsimp only [Option.bind]
        cases hs : P.sha (d ++ c ++ ascii "Pad to make it do more than one iteration") with
        | none => rfl
        | some d2 =>
          show some (83 :: 61 :: hexLoop d2) = some (ascii "S=" ++ d2.flatMap hex2)
          rw [hexLoop_eq d2 (P.sha_bytes _ _ hs)]
          rfl
  · rw [if_neg h, if_neg h]

theorem expected_len (P : Prims) (pw nt peer auth user e : Bytes)
    (h : expected P pw nt peer auth user = some e) : e.length = 42 := by
  unfold expected at h
  split at h
  · cases h
  · split at h
    · cases h
    · split at h
      · cases h
      · split at h
        · cases h
        · next hs =>
          cases h
          simp only [List.length_cons, hexLoop_len, P.sha_len _ _ hs]

/-- **C90.**  The server's response is accepted exactly when its first 42 bytes are RFC 2759's
GenerateAuthenticatorResponse of the password, the NT response, the two challenges and the user name;
shorter responses are refused (and, hence, not read past their end). -/
theorem verify_exact (P : Prims) (pw nt peer auth user resp : Bytes) :
    verify P pw nt peer auth user resp = true ↔
      42 ≤ resp.length ∧ 1 ≤ pw.length ∧ pw.length ≤ 127 ∧
      GenerateAuthenticatorResponse P pw nt peer auth user = some (resp.take 42) := by
  unfold verify
  by_cases h42 : resp.length < 42
  · rw [if_pos h42]
    exact ⟨fun h => (by cases h), fun h => absurd h.1 (by omega)⟩
  · rw [if_neg h42]
    have h42 := Nat.not_lt.mp h42
    by_cases hpw : 1 ≤ pw.length ∧ pw.length ≤ 127
    · have he := expected_eq P pw nt peer auth user
      rw [if_pos hpw] at he
      cases hx : expected P pw nt peer auth user with
      | none =>
        rw [hx] at he
        dsimp only
        exact ⟨fun h => (by cases h), fun h => by rw [← he] at h; cases h.2.2.2⟩
      | some e =>
        rw [hx] at he
        dsimp only
        have hl := expected_len P _ _ _ _ _ _ hx
        rw [decide_eq_true_iff, diffLoop_zero, ← he]
        constructor
        · rintro ⟨_, hk⟩
          refine ⟨h42, hpw.1, hpw.2, congrArg some ?_⟩
          apply List.ext_getElem?
          intro k
          by_cases hk42 : k < 42
          · have := hk k (Nat.zero_le _) (by omega)
            rw [List.getD_eq_getElem?_getD, List.getD_eq_getElem?_getD,
              List.getElem?_eq_getElem (show k < resp.length by omega),
              List.getElem?_eq_getElem (show k < e.length by omega)] at this
            rw [List.getElem?_take_of_lt hk42,
              List.getElem?_eq_getElem (show k < resp.length by omega),
              List.getElem?_eq_getElem (show k < e.length by omega)]
            exact congrArg some this.symm
          · rw [List.getElem?_eq_none (by omega),
              List.getElem?_eq_none (by rw [List.length_take]; omega)]
        · rintro ⟨_, _, _, hr⟩
          refine ⟨rfl, fun k _ k2 => ?_⟩
          rw [Option.some.inj hr, List.getD_eq_getElem?_getD, List.getD_eq_getElem?_getD,
            List.getElem?_take_of_lt (by omega)]
    · have he := expected_eq P pw nt peer auth user
      rw [if_neg hpw] at he
      rw [he]
      exact ⟨fun h => (by cases h), fun h => absurd ⟨h.2.1, h.2.2.1⟩ hpw⟩

/-- **C90.**  The exported keys are RFC 3079's: receive key, send key, 32 zero bytes. -/
theorem msk_exact (P : Prims) (pw nt : Bytes) :
    deriveMsk P pw nt = if 1 ≤ pw.length ∧ pw.length ≤ 127 then Msk P pw nt else none := by
  unfold deriveMsk Msk startKey StartKey
  rw [ntHash_eq, magicKey_eq, magicSend_eq, magicRecv_eq]
  by_cases h : 1 ≤ pw.length ∧ pw.length ≤ 127
  · rw [if_pos h, if_pos h]
    dsimp only
    cases P.sha (P.md4 (NtPasswordHash P pw) ++ nt ++ ascii "This is the MPPE Master Key") with
    | none => rfl
    | some d =>
      dsimp only [Option.bind]
      generalize hg : P.sha (List.take 16 d ++ List.replicate 40 0 ++ ascii
        "On the client side, this is the send key; on the server side, it is the receive key." ++
        List.replicate 40 0xF2) = g
      cases g with
      | none => rfl
      | some s =>
        dsimp only [Option.map]
        generalize hg2 : P.sha (List.take 16 d ++ List.replicate 40 0 ++ ascii
          "On the client side, this is the receive key; on the server side, it is the send key." ++
          List.replicate 40 0xF2) = g2
        cases g2 with
        | none => rfl
        | some r => rfl
  · rw [if_neg h, if_neg h]

end Wolf.Supp
