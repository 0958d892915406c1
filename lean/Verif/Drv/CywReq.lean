import Verif.Drv.CywIoctl
/-!
# C123: what CYW43439 requests carry

Model of `cyw43_gspi_cmd`, `cyw43_iovar_build` (src/port/rp2350_cyw43439/cyw43_sdpcm.c 22–29, 59–74) and of the chunking
in `clm_load` (cyw43439_driver.c 1022–1060).
-/
namespace Wolf.Drv.CywReq
open Wolf.Drv.Cyw (Bytes)
open Wolf.Drv.CywTx (le4)

/-- `cyw43_gspi_cmd`; the `|` of disjoint fields is a sum. cyw43_sdpcm.c 22–29. -/
def gspiCmd (write : Bool) (fn addr n : Nat) : Nat :=
  (if write then 2147483648 else 0) + 1073741824 + fn % 4 * 268435456 + addr % 131072 * 2048 + n % 2048

/-- The command word's fields are the arguments: direction, auto-increment, function, address, length. -/
theorem gspi_fields (write : Bool) (fn addr n : Nat) (hf : fn < 4) (ha : addr < 131072) (hn : n < 2048) :
    let w := gspiCmd write fn addr n
    w < 4294967296 ∧ (w / 2147483648 = 1 ↔ write = true) ∧ w / 1073741824 % 2 = 1 ∧ w / 268435456 % 4 = fn ∧
      w / 2048 % 131072 = addr ∧ w % 2048 = n := by
  intro w
  have hw : w = (if write then 2147483648 else 0) + 1073741824 + fn % 4 * 268435456 + addr % 131072 * 2048 + n % 2048 := rfl
  cases write with
  | true => rw [if_pos rfl] at hw; refine ⟨?_, ?_, ?_, ?_, ?_, ?_⟩ <;> first | omega | (constructor <;> intro _ <;> first | rfl | omega)
  | false =>
    rw [if_neg Bool.false_ne_true] at hw
    refine ⟨?_, ?_, ?_, ?_, ?_, ?_⟩ <;> first | omega | (constructor <;> intro h <;> first | omega | cases h)

/-- The longest transfer the driver makes, 2048 octets, is announced to the radio as length 0. -/
theorem gspi_longest (fn addr : Nat) (w : Bool) : gspiCmd w fn addr 2048 % 2048 = 0 := by
  unfold gspiCmd; cases w <;> simp <;> omega

/-- `cyw43_iovar_build`: `name` without its NUL; `nlen` and `*outlen` are `uint32_t`, `outcap` is a `size_t`. `none`: -1.
cyw43_sdpcm.c 59–74. -/
def iovar (name val : Bytes) (outcap : Nat) : Option (Bytes × Nat) :=
  let nlen := (name.length + 1) % 4294967296
  if outcap < nlen ∨ outcap - nlen < val.length then none
  else some ((name ++ [0]).take nlen ++ val, (nlen + val.length) % 4294967296)

/-- The request is the name, a NUL and the value, whole, or is refused: for any value length, nothing beyond the buffer is
written, and a request that fits is never refused. -/
theorem iovar_exact (name val : Bytes) (outcap : Nat) (hn : name.length + 1 < 4294967296) (hc : outcap < 4294967296) :
    iovar name val outcap = if name.length + 1 + val.length ≤ outcap then
      some (name ++ [0] ++ val, (name ++ [0] ++ val).length) else none := by
  unfold iovar
  dsimp only
  rw [Nat.mod_eq_of_lt hn]
  by_cases h : name.length + 1 + val.length ≤ outcap
  · rw [if_pos h, if_neg (by omega)]
    have h1 : (name ++ [0]).take (name.length + 1) = name ++ [0] := List.take_of_length_le (by simp)
    have h2 : (name.length + 1 + val.length) % 4294967296 = (name ++ [0] ++ val).length := by
      simp only [List.length_append, List.length_cons, List.length_nil]
      exact Nat.mod_eq_of_lt (by omega)
    rw [h1, h2]
  · rw [if_neg h, if_pos (by omega)]

/-! ## The regulatory blob -/

/-- The request for one chunk: name, flags, type 2, length, CRC 0, data. cyw43439_driver.c 1041–1049. -/
def clmReq (flag : Nat) (chunk : Bytes) : Bytes :=
  [99, 108, 109, 108, 111, 97, 100, 0, flag % 256, flag / 256 % 256, 2, 0] ++ le4 chunk.length ++ le4 0 ++ chunk

/-- The flags of a chunk. 1038–1040. -/
def clmFlag (off chunk total : Nat) : Nat :=
  0x1000 + (if off = 0 then 2 else 0) + (if total ≤ off + chunk then 4 else 0)

/-- The chunk length. 1036–1037. -/
def clmChunk (total off : Nat) : Nat := if 1024 < total - off then 1024 else total - off

/-- The loop while the radio accepts: the requests sent from offset `off`; `fuel` bounds the recursion and is never the
reason to stop. 1035–1052. -/
def clmFrom (clm : Bytes) : Nat → Nat → List Bytes
  | 0, _ => []
  | fuel + 1, off =>
    if off < clm.length then
      let c := clmChunk clm.length off
      clmReq (clmFlag off c clm.length) ((clm.drop off).take c) :: clmFrom clm fuel (off + c)
    else []

/-- `clm_load`'s requests. -/
def clmLoad (clm : Bytes) : List Bytes := clmFrom clm clm.length 0

/-- The blob data in a request. -/
def dataOf (r : Bytes) : Bytes := r.drop 20

/-- Flag octets of a request. -/
def flagsOf (r : Bytes) : Nat := Cyw.oct r 8 + 256 * Cyw.oct r 9

theorem req_data (f : Nat) (c : Bytes) : dataOf (clmReq f c) = c := rfl

theorem req_flags (f : Nat) (c : Bytes) (h : f < 65536) : flagsOf (clmReq f c) = f := by
  show f % 256 + 256 * (f / 256 % 256) = f
  omega

theorem flag_lt (a b t : Nat) : clmFlag a b t < 65536 := by
  unfold clmFlag; split <;> split <;> omega

theorem chunk_pos {t o : Nat} (h : o < t) : 0 < clmChunk t o ∧ clmChunk t o ≤ 1024 ∧ o + clmChunk t o ≤ t := by
  unfold clmChunk; split <;> omega

theorem clm_from (clm : Bytes) (fuel off : Nat) (hf : clm.length ≤ fuel + off) (ho : off ≤ clm.length) :
    ((clmFrom clm fuel off).map dataOf).flatten = clm.drop off := by
  induction fuel generalizing off with
  | zero =>
    have : off = clm.length := by omega
    rw [this, List.drop_length]; rfl
  | succ n ih =>
    unfold clmFrom
    by_cases h : off < clm.length
    · rw [if_pos h]
      obtain ⟨h1, h2, h3⟩ := chunk_pos h
      simp only [List.map_cons, List.flatten_cons, req_data]
      rw [ih _ (by omega) h3, ← List.drop_drop, List.take_append_drop]
    · rw [if_neg h]
      have : off = clm.length := by omega
      rw [this, List.drop_length]; rfl

theorem clm_each (clm : Bytes) (fuel off : Nat) (hf : clm.length ≤ fuel + off) (ho : off ≤ clm.length) :
    ∀ (i : Nat) (r : Bytes), (clmFrom clm fuel off)[i]? = some r →
      r.length ≤ 1044 ∧ 0 < (dataOf r).length ∧
      (flagsOf r / 2 % 2 = 1 ↔ off = 0 ∧ i = 0) ∧ (flagsOf r / 4 % 2 = 1 ↔ i + 1 = (clmFrom clm fuel off).length) := by
  induction fuel generalizing off with
  | zero => intro i r h; cases h
  | succ n ih =>
    by_cases h : off < clm.length
    · obtain ⟨h1, h2, h3⟩ := chunk_pos h
      have e : clmFrom clm (n + 1) off = clmReq (clmFlag off (clmChunk clm.length off) clm.length)
          ((clm.drop off).take (clmChunk clm.length off)) :: clmFrom clm n (off + clmChunk clm.length off) := by
        rw [clmFrom, if_pos h]
      rw [e]
      intro i r hr
      have hcl : ((clm.drop off).take (clmChunk clm.length off)).length = clmChunk clm.length off := by
        rw [List.length_take, List.length_drop]; omega
      have hnil : clm.length ≤ off + clmChunk clm.length off ↔ (clmFrom clm n (off + clmChunk clm.length off)).length = 0 := by
        constructor
        · intro hh
          have : ¬ off + clmChunk clm.length off < clm.length := by omega
          cases n with
          | zero => rfl
          | succ m => rw [clmFrom, if_neg this]; rfl
        · intro hh
          apply Classical.byContradiction
          intro hc
          cases n with
          | zero => omega
          | succ m => rw [clmFrom, if_pos (by omega)] at hh; simp at hh
      cases i with
      | zero =>
        have hr' : clmReq (clmFlag off (clmChunk clm.length off) clm.length)
          ((clm.drop off).take (clmChunk clm.length off)) = r := Option.some.inj hr
        subst hr'
        refine ⟨?_, by rw [req_data, hcl]; exact h1, ?_, ?_⟩
        · simp only [clmReq, List.length_append, List.length_cons, List.length_nil, hcl, le4]; omega
        · rw [req_flags _ _ (flag_lt ..)]
          unfold clmFlag
          by_cases h0 : off = 0
          · rw [if_pos h0]; split <;> simp [h0]
          · rw [if_neg h0]; split <;> simp [h0]
        · rw [req_flags _ _ (flag_lt ..)]
          have : (0 + 1 = (clmReq (clmFlag off (clmChunk clm.length off) clm.length)
              ((clm.drop off).take (clmChunk clm.length off)) :: clmFrom clm n (off + clmChunk clm.length off)).length) ↔
              clm.length ≤ off + clmChunk clm.length off := by
            rw [hnil, List.length_cons]; omega
          rw [this]
          unfold clmFlag
          by_cases h0 : clm.length ≤ off + clmChunk clm.length off
          · rw [if_pos h0]; split <;> simp [h0]
          · rw [if_neg h0]; split <;> simp [h0]
      | succ i =>
        obtain ⟨k1, k2, k3, k4⟩ := ih (off + clmChunk clm.length off) (by omega) h3 i r hr
        refine ⟨k1, k2, ?_, ?_⟩
        · rw [k3]; omega
        · rw [k4, List.length_cons]; omega
    · intro i r hr
      rw [clmFrom, if_neg h] at hr
      cases hr

/-- **C123.** The requests carry the whole blob, in order and once; every request fits the driver's buffer (1056 octets)
and carries at least one octet; the first and only the first says "begin", the last and only the last "end". -/
theorem clm_exact (clm : Bytes) :
    ((clmLoad clm).map dataOf).flatten = clm ∧
    ∀ (i : Nat) (r : Bytes), (clmLoad clm)[i]? = some r → r.length ≤ 1056 ∧ 0 < (dataOf r).length ∧
      (flagsOf r / 2 % 2 = 1 ↔ i = 0) ∧ (flagsOf r / 4 % 2 = 1 ↔ i + 1 = (clmLoad clm).length) := by
  refine ⟨?_, ?_⟩
  · have := clm_from clm clm.length 0 (by omega) (by omega)
    simpa [clmLoad] using this
  · intro i r h
    obtain ⟨k1, k2, k3, k4⟩ := clm_each clm clm.length 0 (by omega) (by omega) i r h
    exact ⟨by omega, k2, by rw [k3]; simp, k4⟩

/-! ## Non-vacuity -/

example : (clmLoad (List.replicate 2500 7)).map (fun r => (r.length, flagsOf r)) =
    [(1044, 0x1002), (1044, 0x1000), (472, 0x1004)] := by decide +kernel

example : iovar [97] [1, 2, 3, 4] 6 = some ([97, 0, 1, 2, 3, 4], 6) ∧ iovar [97] [1, 2, 3, 4] 5 = none := by decide

end Wolf.Drv.CywReq
