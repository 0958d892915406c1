/-
C37: dotted-quad text conversion (wolfip.h `atou`, `atoip4`, `iptoa`).

C strings are lists of bytes (the terminating NUL is the end of the list);
`uint32_t` is a natural number reduced modulo 2^32 where the code wraps.
-/
namespace Wolf.Text

/-- `*s >= '0' && *s <= '9'`, wolfip.h 567. -/
def isDigit (c : Nat) : Bool := decide (48 ≤ c) && decide (c ≤ 57)

/-- Loop of `atou`, wolfip.h 564-572; `ret` is the accumulator. -/
def atouLoop (ret : Nat) : List Nat → Nat
  | [] => ret
  | c :: cs => if isDigit c then atouLoop ((ret * 10 + (c - 48)) % 4294967296) cs else ret

/-- `atou`, wolfip.h 564-572. -/
def atou (s : List Nat) : Nat := atouLoop 0 s

/-- `while (ip[j] != '.' && ip[j] != 0) j++`, wolfip.h 581: what is left of the
text when the loop stops. -/
def toDot : List Nat → List Nat
  | [] => []
  | c :: cs => if c = 46 then c :: cs else toDot cs

/-- Body of the loop of `atoip4`, wolfip.h 579-584, for iterations `i..3`;
`n` = number of iterations left, so `24 - i*8 = 8*(n-1)`. -/
def atoip4Loop : Nat → Nat → List Nat → Nat
  | 0, ret, _ => ret
  | n + 1, ret, s =>
      let ret := ret ||| (atou s * 2 ^ (8 * n)) % 4294967296
      match toDot s with
      | [] => ret
      | _ :: rest => atoip4Loop n ret rest

/-- `atoip4`, wolfip.h 574-587. -/
def atoip4 (s : List Nat) : Nat := atoip4Loop 4 0 s

/-- The decimal digits `iptoa` writes for one octet, wolfip.h 594-597. -/
def octet (x : Nat) : List Nat :=
  (if x > 99 then [x / 100 + 48] else []) ++ (if x > 9 then [(x / 10) % 10 + 48] else []) ++
    [x % 10 + 48]

/-- Loop of `iptoa`, wolfip.h 593-599, for the `n` remaining octets
(`24 - i*8 = 8*(n-1)`); a dot after each but the last. -/
def iptoaLoop (ip : Nat) : Nat → List Nat
  | 0 => []
  | n + 1 => octet ((ip / 2 ^ (8 * n)) % 256) ++ (if n > 0 then [46] else []) ++ iptoaLoop ip n

/-- `iptoa`, wolfip.h 589-601. -/
def iptoa (ip : Nat) : List Nat := iptoaLoop ip 4

/-! ### Proofs -/

theorem atou_octet (x : Nat) (h : x < 256) (rest : List Nat) (hr : rest = [] ∨ ∃ r, rest = 46 :: r) :
    atou (octet x ++ rest) = x := by
  have hend : ∀ v, atouLoop v rest = v := by
    intro v; rcases hr with rfl | ⟨r, rfl⟩
    · rfl
    · simp [atouLoop, isDigit]
  have dig : ∀ (v d : Nat) (l : List Nat), d < 10 → v < 1000 →
      atouLoop v ((d + 48) :: l) = atouLoop (v * 10 + d) l := by
    intro v d l hd hv
    have : isDigit (d + 48) = true := by unfold isDigit; simp; omega
    simp only [atouLoop, this, if_true]
    congr 1
    omega
  unfold atou octet
  by_cases h1 : x > 99
  · have h2 : x > 9 := by omega
    simp only [h1, h2, if_true, List.cons_append, List.nil_append]
    rw [dig _ _ _ (by omega) (by omega), dig _ _ _ (by omega) (by omega),
      dig _ _ _ (by omega) (by omega), hend]
    omega
  · by_cases h2 : x > 9
    · simp only [h1, h2, if_true, if_false, List.cons_append, List.nil_append]
      rw [dig _ _ _ (by omega) (by omega), dig _ _ _ (by omega) (by omega), hend]
      omega
    · simp only [h1, h2, if_false, List.cons_append, List.nil_append]
      rw [dig _ _ _ (by omega) (by omega), hend]
      omega

theorem octet_no_dot (x : Nat) (h : x < 256) : ∀ c ∈ octet x, 48 ≤ c ∧ c ≤ 57 := by
  unfold octet
  intro c hc
  by_cases h1 : x > 99 <;> by_cases h2 : x > 9 <;>
    simp only [h1, h2, if_true, if_false, List.cons_append, List.nil_append, List.mem_cons,
      List.not_mem_nil, or_false] at hc <;> omega

theorem toDot_skip (l rest : List Nat) (h : ∀ c ∈ l, c ≠ 46) : toDot (l ++ rest) = toDot rest := by
  induction l with
  | nil => rfl
  | cons a l ih =>
    simp only [List.cons_append, toDot]
    rw [if_neg (h a (by simp)), ih (fun c hc => h c (by simp [hc]))]

theorem atoip4_step (n ret x : Nat) (hx : x < 256) (hn : n < 4) (rest : List Nat)
    (hr : rest = [] ∨ ∃ r, rest = 46 :: r) (hret : ret % 2 ^ (8 * (n + 1)) = 0)  :
    atoip4Loop (n + 1) ret (octet x ++ rest) =
      (match rest with | [] => ret + x * 2 ^ (8 * n) | _ :: r => atoip4Loop n (ret + x * 2 ^ (8 * n)) r) := by
  have h1 := atou_octet x hx rest hr
  have hlt : x * 2 ^ (8 * n) < 2 ^ (8 * (n + 1)) := by
    have : (2:Nat) ^ (8 * (n + 1)) = 256 * 2 ^ (8 * n) := by
      rw [show 8 * (n + 1) = 8 * n + 8 by omega, Nat.pow_add]; omega
    rw [this]; exact Nat.mul_lt_mul_of_pos_right hx (Nat.pow_pos (by decide))
  have hlt32 : x * 2 ^ (8 * n) < 4294967296 := by
    refine Nat.lt_of_lt_of_le hlt ?_
    have : (2:Nat) ^ (8 * (n + 1)) ≤ 2 ^ 32 := Nat.pow_le_pow_right (by decide) (by omega)
    simpa using this
  have hor : ret ||| (x * 2 ^ (8 * n)) = ret + x * 2 ^ (8 * n) := by
    have hk : ret = 2 ^ (8 * (n + 1)) * (ret / 2 ^ (8 * (n + 1))) := by
      have := Nat.div_add_mod ret (2 ^ (8 * (n + 1))); omega
    rw [hk]
    exact (Nat.two_pow_add_eq_or_of_lt hlt _).symm
  simp only [atoip4Loop, h1]
  rw [toDot_skip _ _ (fun c hc => by have := octet_no_dot x hx c hc; omega),
    Nat.mod_eq_of_lt hlt32, hor]
  rcases hr with rfl | ⟨r, rfl⟩
  · rfl
  · simp [toDot]

theorem loop_roundtrip (ip n : Nat) : ∀ ret : Nat, n < 4 → ret % 2 ^ (8 * (n + 1)) = 0 →
    atoip4Loop (n + 1) ret (iptoaLoop ip (n + 1)) = ret + ip % 2 ^ (8 * (n + 1)) := by
  induction n with
  | zero =>
      intro ret h hr
      simp only [iptoaLoop, Nat.lt_irrefl, gt_iff_lt, if_false, List.append_nil]
      have := atoip4_step 0 ret ((ip / 2 ^ (8 * 0)) % 256) (Nat.mod_lt _ (by decide)) (by omega) []
        (Or.inl rfl) hr
      rw [List.append_nil] at this
      rw [this]; simp
  | succ n ih =>
      intro ret h hr
      have hx : (ip / 2 ^ (8 * (n + 1))) % 256 < 256 := Nat.mod_lt _ (by decide)
      have e : iptoaLoop ip (n + 1 + 1) =
          octet ((ip / 2 ^ (8 * (n + 1))) % 256) ++ (46 :: iptoaLoop ip (n + 1)) := by
        rw [iptoaLoop]; simp
      rw [e, atoip4_step (n + 1) ret _ hx (by omega) _ (Or.inr ⟨_, rfl⟩) hr]
      simp only
      have hp : (2:Nat) ^ (8 * (n + 1 + 1)) = 2 ^ (8 * (n + 1)) * 256 := by
        rw [show 8 * (n + 1 + 1) = 8 * (n + 1) + 8 by omega, Nat.pow_add]
      generalize hP : (2:Nat) ^ (8 * (n + 1)) = P at *
      have hret' : ret % P = 0 := by
        have := Nat.mod_mul_right_mod ret P 256
        rw [← hp, hr, Nat.zero_mod] at this; exact this.symm
      have hi := ih (ret + ip / P % 256 * P) (by omega)
        (by rw [Nat.add_mul_mod_self_right]; exact hret')
      have hm : ip % (P * 256) = ip % P + P * (ip / P % 256) := Nat.mod_mul
      rw [hi, hp, hm, Nat.mul_comm P, Nat.add_assoc, Nat.add_comm (ip % P)]

/-- **C37**: formatting any IPv4 address and parsing the text gives the address back. -/
theorem dotted_quad_round_trip (ip : Nat) (h : ip < 2 ^ 32) : atoip4 (iptoa ip) = ip := by
  unfold atoip4 iptoa
  rw [loop_roundtrip ip 3 0 (by decide) (by decide)]
  simp only [Nat.zero_add]
  exact Nat.mod_eq_of_lt h

/-- The text fits the 16-byte buffer callers use (15 characters and NUL) and
consists of digits and dots only. -/
theorem iptoa_fits (ip : Nat) : (iptoa ip).length ≤ 15 ∧ 7 ≤ (iptoa ip).length ∧
    ∀ c ∈ iptoa ip, c = 46 ∨ (48 ≤ c ∧ c ≤ 57) := by
  have hl : ∀ x, (octet x).length ≤ 3 ∧ 1 ≤ (octet x).length := by
    intro x; unfold octet; split <;> split <;> simp
  have hd : ∀ x, ∀ c ∈ octet (x % 256), 48 ≤ c ∧ c ≤ 57 :=
    fun x => octet_no_dot _ (Nat.mod_lt _ (by decide))
  refine ⟨?_, ?_, ?_⟩
  · simp only [iptoa, iptoaLoop, List.length_append]
    have h1 := hl ((ip / 2 ^ (8 * 3)) % 256); have h2 := hl ((ip / 2 ^ (8 * 2)) % 256)
    have h3 := hl ((ip / 2 ^ (8 * 1)) % 256); have h4 := hl ((ip / 2 ^ (8 * 0)) % 256)
    simp only [gt_iff_lt, Nat.lt_irrefl, if_false, if_true, List.length_nil, List.length_cons,
      Nat.zero_lt_succ]
    omega
  · simp only [iptoa, iptoaLoop, List.length_append]
    have h1 := hl ((ip / 2 ^ (8 * 3)) % 256); have h2 := hl ((ip / 2 ^ (8 * 2)) % 256)
    have h3 := hl ((ip / 2 ^ (8 * 1)) % 256); have h4 := hl ((ip / 2 ^ (8 * 0)) % 256)
    simp only [gt_iff_lt, Nat.lt_irrefl, if_false, if_true, List.length_nil, List.length_cons,
      Nat.zero_lt_succ]
    omega
  · intro c hc
    simp only [iptoa, iptoaLoop, List.mem_append] at hc
    have := hd (ip / 2 ^ (8 * 3)) c; have := hd (ip / 2 ^ (8 * 2)) c
    have := hd (ip / 2 ^ (8 * 1)) c; have := hd (ip / 2 ^ (8 * 0)) c
    simp only [Nat.lt_irrefl, gt_iff_lt, if_false, List.not_mem_nil, or_false] at hc
    rcases hc with (h | h) | (h | h) | (h | h) | h
    all_goals first
      | (right; solve_by_elim)
      | (left; simpa using h)

/-- Concrete case: 192.168.10.255. -/
example : iptoa 3232238335 = [49, 57, 50, 46, 49, 54, 56, 46, 49, 48, 46, 50, 53, 53] := by decide +kernel

end Wolf.Text
