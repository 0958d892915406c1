import Verif.Tftp.RoundTrip
/-! # TFTP: option names in any case, and messages that fit their buffers -/
namespace Wolf.Tftp

/-- Two characters are the same letter, whatever their case, or the same character. -/
def SameLetter (a b : Nat) : Prop :=
  a = b ∨ ∃ k, k < 26 ∧ (a = 65 + k ∨ a = 97 + k) ∧ (b = 65 + k ∨ b = 97 + k)

theorem lower_same (a b : Nat) : lower a = lower b ↔ SameLetter a b := by
  unfold lower SameLetter
  constructor
  · intro h
    split at h <;> split at h
    · exact .inl (by omega)
    · exact .inr ⟨a - 65, by omega, .inl (by omega), .inr (by omega)⟩
    · exact .inr ⟨b - 65, by omega, .inr (by omega), .inl (by omega)⟩
    · exact .inl h
  · rintro (h | ⟨k, h1, h2, h3⟩)
    · rw [h]
    · split <;> split <;> omega

/-- **C56, names in any case.** Two names are the same option exactly when they have the same length and the same letters at
every place, whatever their case. -/
theorem tftp_names_any_case : ∀ (a b : List Nat), stricmp0 a b = true ↔
    a.length = b.length ∧ ∀ (i x y : Nat), a[i]? = some x → b[i]? = some y → SameLetter x y
  | [], [] => by simp [stricmp0]
  | [], b :: bs => by simp [stricmp0]
  | a :: as, [] => by simp [stricmp0]
  | a :: as, b :: bs => by
    have ih := tftp_names_any_case as bs
    unfold stricmp0
    constructor
    · intro h
      split at h
      · rename_i e
        obtain ⟨h1, h2⟩ := ih.1 h
        refine ⟨by simp [h1], fun i x y hx hy => ?_⟩
        cases i with
        | zero =>
          cases hx; cases hy
          exact (lower_same _ _).1 e
        | succ i => exact h2 i x y hx hy
      · cases h
    · rintro ⟨h1, h2⟩
      rw [if_pos ((lower_same _ _).2 (h2 0 a b rfl rfl))]
      exact ih.2 ⟨by simpa using h1, fun i x y hx hy => h2 (i + 1) x y hx hy⟩

theorem optIf_le {b : Bool} {max : Nat} {key : List Nat} {v : Nat} {out : Option (List Nat)} {m : List Nat}
    (h : optIf b max key v out = some m) (ho : ∀ o, out = some o → o.length ≤ max) : m.length ≤ max := by
  unfold optIf appendOpt at h
  split at h
  · cases out with
    | none => cases h
    | some o =>
      dsimp only at h
      split at h
      · cases h
      · rename_i hc
        cases h
        simp only [List.length_append, List.length_cons, List.length_nil]
        omega
  · exact ho m h

/-- **C57, bounds.** A request never exceeds the buffer it is built in. -/
theorem tftp_request_fits (max op : Nat) (name : List Nat) (c : Cfg) (m : List Nat) (h : buildRequest max op name c = some m) : m.length ≤ max := by
  unfold buildRequest at h
  split at h
  · cases h
  split at h
  · cases h
  rename_i h1
  exact optIf_le h fun _ h => optIf_le h fun _ h => optIf_le h fun _ h => optIf_le h fun o e => by
    cases e
    simp only [List.length_append, List.length_cons, List.length_nil, sOctet]
    omega

/-- Nor does the acknowledgment of options. -/
theorem tftp_oack_fits (max : Nat) (n : Neg) (b : Bits) (m : List Nat) (hm : 2 ≤ max) (h : buildOack max n b = some m) : m.length ≤ max :=
  optIf_le h fun _ h => optIf_le h fun _ h => optIf_le h fun _ h => optIf_le h fun o e => by cases e; exact hm

/-- "BlkSize" and "blksize" are the same name, "blksizes" is another; a request of 25 bytes is built in 25 bytes, and not
in 24. -/
example : stricmp0 [66, 108, 107, 83, 105, 122, 101] kBlksize = true ∧ stricmp0 kBlksize (kBlksize ++ [115]) = false ∧
    ((buildRequest 26 1 [97] { blksize := 1024, timeout := 1, windowsize := 1, maxRetries := 5, maxImage := 0 }).map List.length) = some 23 ∧
    buildRequest 22 1 [97] { blksize := 1024, timeout := 1, windowsize := 1, maxRetries := 5, maxImage := 0 } = none ∧
    buildOack 14 { blksize := 1024, timeout := 1, windowsize := 1 } { blksize := true } = none := by decide +kernel

end Wolf.Tftp
