/-!
# EAPOL-Key and EAP framing

Model of `src/supplicant/eapol.c` and `eap.c`.  Every read of a received buffer is bounds-checked
in the model; an access outside the buffer yields `oob`, so "never `oob`" is memory safety of the
parser.
-/

namespace Wolf.Supp

abbrev Bytes := List Nat

/-- Why a function stops early: it returns -1, or it would read outside its buffer. -/
inductive Fault where
  | reject | oob
  deriving DecidableEq, Repr

abbrev M := Except Fault

/-- Read byte `i` of `b`. -/
def ld (b : Bytes) (i : Nat) : M Nat :=
  match b[i]? with
  | some x => .ok x
  | none => .error .oob

/-- Read `n` bytes at `off`. -/
def sl (b : Bytes) (off n : Nat) : M Bytes :=
  if off + n ≤ b.length then .ok ((b.drop off).take n) else .error .oob

/-- `if (!c) return -1`. -/
def need (c : Prop) [Decidable c] : M Unit := if c then .ok () else .error .reject

/-- `eapol_rd16`, eapol.h 100-103. -/
def rd16 (b : Bytes) (i : Nat) : M Nat := do
  let hi ← ld b i
  let lo ← ld b (i + 1)
  return hi * 256 + lo

/-- `eapol_wr16`, eapol.h 104-108. -/
def wr16 (v : Nat) : Bytes := [v / 256 % 256, v % 256]

/-- `struct eapol_key_view`, eapol.h 86-97: what the pointers point at. -/
structure View where
  frameLen : Nat
  keyInfo : Nat
  keyLen : Nat
  replay : Bytes
  nonce : Bytes
  mic : Bytes
  keyData : Bytes
  deriving DecidableEq, Repr

/-- `eapol_key_parse`, eapol.c 20-62.  `frame` is the received buffer (`frame_len` bytes). -/
def keyParse (frame : Bytes) : M View := do
  need (99 ≤ frame.length)                       -- EAPOL_KEY_FIXED_LEN
  let v ← ld frame 0
  need (v = 2 ∨ v = 1)
  let t ← ld frame 1
  need (t = 3)
  let bodyLen ← rd16 frame 2
  need (bodyLen + 4 ≤ frame.length)
  need (95 ≤ bodyLen)                            -- KEYBODY_FIXED_LEN
  let d ← ld frame 4
  need (d = 2)
  let kdl ← rd16 frame (4 + 93)
  need (95 + kdl ≤ bodyLen)
  let info ← rd16 frame (4 + 1)
  let klen ← rd16 frame (4 + 3)
  let replay ← sl frame (4 + 5) 8
  let nonce ← sl frame (4 + 13) 32
  let mic ← sl frame (4 + 77) 16
  let kd ← sl frame (4 + 95) kdl
  return ⟨bodyLen + 4, info, klen, replay, nonce, mic, kd⟩

/-- `eapol_key_build`, eapol.c 64-118 (a frame with a zero MIC); `cap` is the output buffer. -/
def keyBuild (cap info klen : Nat) (replay nonce kd : Bytes) : Option Bytes :=
  if 95 + kd.length > 65535 then none
  else if 99 + kd.length > cap then none
  else some ([2, 3] ++ wr16 (95 + kd.length) ++ [2] ++ wr16 info ++ wr16 klen ++ replay ++ nonce ++
    List.replicate 48 0 ++ wr16 kd.length ++ kd)

/-- `struct eap_view`, eap.h 52-59. -/
structure EapView where
  code : Nat
  id : Nat
  length : Nat
  type : Nat
  data : Bytes
  deriving DecidableEq, Repr

/-- `eap_parse`, eap.c 17-50. -/
def eapParse (body : Bytes) : M EapView := do
  need (4 ≤ body.length)
  let code ← ld body 0
  let id ← ld body 1
  let total ← rd16 body 2
  need (¬ (total < 4 ∨ total > body.length))
  if code = 1 ∨ code = 2 then
    need (5 ≤ total)
    let ty ← ld body 4
    let data ← sl body 5 (total - 5)
    return ⟨code, id, total, ty, data⟩
  else return ⟨code, id, total, 0, []⟩

/-! ## Facts about loads -/

theorem ld_ok {b : Bytes} {i : Nat} (h : i < b.length) : ld b i = .ok b[i] := by
  unfold ld
  rw [List.getElem?_eq_getElem h]

theorem ld_eq {b : Bytes} {i x : Nat} (h : b[i]? = some x) : ld b i = .ok x := by
  unfold ld
  rw [h]

theorem rd16_ok {b : Bytes} {i : Nat} (h : i + 1 < b.length) :
    rd16 b i = .ok (b[i] * 256 + b[i + 1]) := by
  unfold rd16
  rw [ld_ok (Nat.lt_of_succ_lt h), ld_ok h]
  rfl

theorem sl_ok {b : Bytes} {o n : Nat} (h : o + n ≤ b.length) :
    sl b o n = .ok ((b.drop o).take n) := if_pos h

theorem need_bind {c : Prop} [Decidable c] {α : Type} (k : Unit → M α) :
    (need c >>= k) = if c then k () else .error .reject := by
  unfold need
  split <;> rfl

theorem ok_bind {α β : Type} (a : α) (k : α → M β) : ((Except.ok a : M α) >>= k) = k a := rfl

/-- The big-endian number at `i`. -/
def num16 (b : Bytes) (i : Nat) : Nat := b.getD i 0 * 256 + b.getD (i + 1) 0

theorem rd16_num {b : Bytes} {i : Nat} (h : i + 1 < b.length) : rd16 b i = .ok (num16 b i) := by
  rw [rd16_ok h]
  unfold num16
  rw [List.getD_eq_getElem?_getD, List.getD_eq_getElem?_getD,
    List.getElem?_eq_getElem (Nat.lt_of_succ_lt h), List.getElem?_eq_getElem h]
  rfl

theorem ld_num {b : Bytes} {i : Nat} (h : i < b.length) : ld b i = .ok (b.getD i 0) := by
  rw [ld_ok h, List.getD_eq_getElem?_getD, List.getElem?_eq_getElem h]
  rfl

/-- What a well-formed key frame is. -/
structure KeyFrame (f : Bytes) : Prop where
  len : 99 ≤ f.length
  ver : f.getD 0 0 = 2 ∨ f.getD 0 0 = 1
  type : f.getD 1 0 = 3
  body : num16 f 2 + 4 ≤ f.length
  fixed : 95 ≤ num16 f 2
  desc : f.getD 4 0 = 2
  data : 95 + num16 f 97 ≤ num16 f 2

/-- **C68, exact parsing.**  `eapol_key_parse` never reads outside the received frame; it accepts
exactly the well-formed key frames, and the fields it returns are those at the offsets of IEEE
802.11, the key data lying inside the frame. -/
theorem key_parse_exact (f : Bytes) :
    (KeyFrame f ∧ keyParse f = .ok
      { frameLen := num16 f 2 + 4, keyInfo := num16 f 5, keyLen := num16 f 7,
        replay := (f.drop 9).take 8, nonce := (f.drop 17).take 32, mic := (f.drop 81).take 16,
        keyData := (f.drop 99).take (num16 f 97) } ∧ 99 + num16 f 97 ≤ f.length) ∨
    (¬ KeyFrame f ∧ keyParse f = .error .reject) := by
  unfold keyParse
  rw [need_bind]
  by_cases h0 : 99 ≤ f.length
  · rw [if_pos h0]
    rw [ld_num (show 0 < f.length by omega), ok_bind, need_bind]
    by_cases h1 : f.getD 0 0 = 2 ∨ f.getD 0 0 = 1
    · rw [if_pos h1, ld_num (show 1 < f.length by omega), ok_bind, need_bind]
      by_cases h2 : f.getD 1 0 = 3
      · rw [if_pos h2, rd16_num (show 2 + 1 < f.length by omega), ok_bind, need_bind]
        by_cases h3 : num16 f 2 + 4 ≤ f.length
        · rw [if_pos h3, need_bind]
          by_cases h4 : 95 ≤ num16 f 2
          · rw [if_pos h4, ld_num (show 4 < f.length by omega), ok_bind, need_bind]
            by_cases h5 : f.getD 4 0 = 2
            · rw [if_pos h5, rd16_num (show 4 + 93 + 1 < f.length by omega), ok_bind, need_bind]
              by_cases h6 : 95 + num16 f 97 ≤ num16 f 2
              · have h6' : 95 + num16 f (4 + 93) ≤ num16 f 2 := h6
                rw [if_pos h6', rd16_num (show 4 + 1 + 1 < f.length by omega), ok_bind,
                  rd16_num (show 4 + 3 + 1 < f.length by omega), ok_bind,
                  sl_ok (show 4 + 5 + 8 ≤ f.length by omega), ok_bind,
                  sl_ok (show 4 + 13 + 32 ≤ f.length by omega), ok_bind,
                  sl_ok (show 4 + 77 + 16 ≤ f.length by omega), ok_bind,
                  sl_ok (show 4 + 95 + num16 f (4 + 93) ≤ f.length by omega), ok_bind]
                exact Or.inl ⟨⟨h0, h1, h2, h3, h4, h5, h6⟩, rfl, by omega⟩
              · exact Or.inr ⟨fun c => h6 c.data, if_neg h6⟩
            · rw [if_neg h5]; exact Or.inr ⟨fun c => h5 c.desc, rfl⟩
          · rw [if_neg h4]; exact Or.inr ⟨fun c => h4 c.fixed, rfl⟩
        · rw [if_neg h3]; exact Or.inr ⟨fun c => h3 c.body, rfl⟩
      · rw [if_neg h2]; exact Or.inr ⟨fun c => h2 c.type, rfl⟩
    · rw [if_neg h1]; exact Or.inr ⟨fun c => h1 c.ver, rfl⟩
  · rw [if_neg h0]; exact Or.inr ⟨fun c => h0 c.len, rfl⟩

/-- A number that fits two bytes survives `wr16`. -/
theorem num16_wr16 {a c : Bytes} {v i : Nat} (hv : v < 65536) (hi : a.length = i) :
    num16 (a ++ (wr16 v ++ c)) i = v := by
  subst hi
  unfold num16 wr16
  rw [List.getD_eq_getElem?_getD, List.getD_eq_getElem?_getD,
    List.getElem?_append_right (Nat.le_refl _), List.getElem?_append_right (Nat.le_succ _)]
  rw [Nat.sub_self, show a.length + 1 - a.length = 1 by omega]
  simp
  omega

theorem drop_take_mid {a b c : Bytes} {o n : Nat} (ho : a.length = o) (hn : b.length = n) :
    ((a ++ (b ++ c)).drop o).take n = b := by
  subst ho hn
  rw [List.drop_left, List.take_left]

/-- **C68, round trip.**  A key frame built by `eapol_key_build` is read back exactly, whatever
follows it in the receive buffer. -/
theorem key_build_parse (cap info klen : Nat) (replay nonce kd f rest : Bytes)
    (hi : info < 65536) (hk : klen < 65536) (hr : replay.length = 8) (hn : nonce.length = 32)
    (h : keyBuild cap info klen replay nonce kd = some f) :
    f.length ≤ cap ∧ f.length = 99 + kd.length ∧ keyParse (f ++ rest) = .ok
      ⟨f.length, info, klen, replay, nonce, List.replicate 16 0, kd⟩ := by
  unfold keyBuild at h
  split at h
  · cases h
  · next h1 =>
    split at h
    · cases h
    · next h2 =>
      have hf := (Option.some.inj h).symm
      have hlen : f.length = 99 + kd.length := by
        rw [hf]
        simp [wr16, hr, hn]
        omega
      refine ⟨by omega, hlen, ?_⟩
      have hb : num16 (f ++ rest) 2 = 95 + kd.length := by
        rw [hf]
        simp only [List.append_assoc]
        exact num16_wr16 (a := [2, 3]) (by omega) rfl
      have hinfo : num16 (f ++ rest) 5 = info := by
        rw [hf, show [2, 3] ++ wr16 (95 + kd.length) ++ [2] ++ wr16 info ++ wr16 klen ++ replay ++
          nonce ++ List.replicate 48 0 ++ wr16 kd.length ++ kd ++ rest =
          ([2, 3] ++ wr16 (95 + kd.length) ++ [2]) ++ (wr16 info ++ (wr16 klen ++ replay ++
          nonce ++ List.replicate 48 0 ++ wr16 kd.length ++ kd ++ rest)) by
            simp only [List.append_assoc]]
        exact num16_wr16 hi rfl
      have hklen : num16 (f ++ rest) 7 = klen := by
        rw [hf, show [2, 3] ++ wr16 (95 + kd.length) ++ [2] ++ wr16 info ++ wr16 klen ++ replay ++
          nonce ++ List.replicate 48 0 ++ wr16 kd.length ++ kd ++ rest =
          ([2, 3] ++ wr16 (95 + kd.length) ++ [2] ++ wr16 info) ++ (wr16 klen ++ (replay ++
          nonce ++ List.replicate 48 0 ++ wr16 kd.length ++ kd ++ rest)) by
            simp only [List.append_assoc]]
        exact num16_wr16 hk rfl
      have hrep : ((f ++ rest).drop 9).take 8 = replay := by
        rw [hf, show [2, 3] ++ wr16 (95 + kd.length) ++ [2] ++ wr16 info ++ wr16 klen ++ replay ++
          nonce ++ List.replicate 48 0 ++ wr16 kd.length ++ kd ++ rest =
          ([2, 3] ++ wr16 (95 + kd.length) ++ [2] ++ wr16 info ++ wr16 klen) ++ (replay ++ (
          nonce ++ List.replicate 48 0 ++ wr16 kd.length ++ kd ++ rest)) by
            simp only [List.append_assoc]]
        exact drop_take_mid rfl hr
      have hnon : ((f ++ rest).drop 17).take 32 = nonce := by
        rw [hf, show [2, 3] ++ wr16 (95 + kd.length) ++ [2] ++ wr16 info ++ wr16 klen ++ replay ++
          nonce ++ List.replicate 48 0 ++ wr16 kd.length ++ kd ++ rest =
          ([2, 3] ++ wr16 (95 + kd.length) ++ [2] ++ wr16 info ++ wr16 klen ++ replay) ++ (nonce ++ (
          List.replicate 48 0 ++ wr16 kd.length ++ kd ++ rest)) by
            simp only [List.append_assoc]]
        exact drop_take_mid (by simp [wr16, hr]) hn
      have hmic : ((f ++ rest).drop 81).take 16 = List.replicate 16 0 := by
        rw [hf, show [2, 3] ++ wr16 (95 + kd.length) ++ [2] ++ wr16 info ++ wr16 klen ++ replay ++
          nonce ++ List.replicate 48 0 ++ wr16 kd.length ++ kd ++ rest =
          ([2, 3] ++ wr16 (95 + kd.length) ++ [2] ++ wr16 info ++ wr16 klen ++ replay ++ nonce ++
          List.replicate 32 0) ++ (List.replicate 16 0 ++ (wr16 kd.length ++ kd ++ rest)) by
            rw [show List.replicate 48 0 = List.replicate 32 0 ++ List.replicate 16 0 from rfl]
            simp only [List.append_assoc]]
        exact drop_take_mid (by simp [wr16, hr, hn]) (by simp)
      have hkdl : num16 (f ++ rest) 97 = kd.length := by
        rw [hf, show [2, 3] ++ wr16 (95 + kd.length) ++ [2] ++ wr16 info ++ wr16 klen ++ replay ++
          nonce ++ List.replicate 48 0 ++ wr16 kd.length ++ kd ++ rest =
          ([2, 3] ++ wr16 (95 + kd.length) ++ [2] ++ wr16 info ++ wr16 klen ++ replay ++ nonce ++
          List.replicate 48 0) ++ (wr16 kd.length ++ (kd ++ rest)) by
            simp only [List.append_assoc]]
        exact num16_wr16 (by omega) (by simp [wr16, hr, hn])
      have hkd : ((f ++ rest).drop 99).take kd.length = kd := by
        rw [hf, show [2, 3] ++ wr16 (95 + kd.length) ++ [2] ++ wr16 info ++ wr16 klen ++ replay ++
          nonce ++ List.replicate 48 0 ++ wr16 kd.length ++ kd ++ rest =
          ([2, 3] ++ wr16 (95 + kd.length) ++ [2] ++ wr16 info ++ wr16 klen ++ replay ++ nonce ++
          List.replicate 48 0 ++ wr16 kd.length) ++ (kd ++ rest) by
            simp only [List.append_assoc]]
        exact drop_take_mid (by simp [wr16, hr, hn]) rfl
      have g0 : (f ++ rest).getD 0 0 = 2 := by rw [hf]; rfl
      have g1 : (f ++ rest).getD 1 0 = 3 := by rw [hf]; rfl
      have g4 : (f ++ rest).getD 4 0 = 2 := by rw [hf]; rfl
      have hfl : (f ++ rest).length = f.length + rest.length := List.length_append
      rcases key_parse_exact (f ++ rest) with ⟨_, h3, _⟩ | ⟨h3, _⟩
      · rw [h3, hb, hinfo, hklen, hrep, hnon, hmic, hkdl, hkd, hlen]
        congr 2
        omega
      · refine absurd ⟨by omega, Or.inl g0, g1, by omega, by omega, g4, by omega⟩ h3

/-- **C68, EAP parsing.**  `eap_parse` never reads outside the packet; the type data of an accepted
packet is exactly the bytes from offset 5 up to the length field, which lies inside the packet. -/
theorem eap_parse_safe (b : Bytes) :
    eapParse b ≠ .error .oob ∧
    ∀ v, eapParse b = .ok v → v.code = b.getD 0 0 ∧ v.id = b.getD 1 0 ∧ v.length = num16 b 2 ∧
      4 ≤ v.length ∧ v.length ≤ b.length ∧
      (v.code = 1 ∨ v.code = 2 → 5 ≤ v.length ∧ v.type = b.getD 4 0 ∧
        v.data = (b.take v.length).drop 5) := by
  unfold eapParse
  rw [need_bind]
  by_cases h0 : 4 ≤ b.length
  · rw [if_pos h0, ld_num (show 0 < b.length by omega), ok_bind,
      ld_num (show 1 < b.length by omega), ok_bind, rd16_num (show 2 + 1 < b.length by omega),
      ok_bind, need_bind]
    by_cases h1 : ¬ (num16 b 2 < 4 ∨ num16 b 2 > b.length)
    · rw [if_pos h1]
      by_cases hc : b.getD 0 0 = 1 ∨ b.getD 0 0 = 2
      · rw [if_pos hc, need_bind]
        by_cases h2 : 5 ≤ num16 b 2
        · rw [if_pos h2, ld_num (show 4 < b.length by omega), ok_bind,
            sl_ok (show 5 + (num16 b 2 - 5) ≤ b.length by omega), ok_bind]
          refine ⟨(by intro c; cases c), ?_⟩
          intro v hv
          cases hv
          refine ⟨rfl, rfl, rfl, by dsimp only; omega, by dsimp only; omega, fun _ =>
            ⟨h2, rfl, ?_⟩⟩
          dsimp only
          rw [List.drop_take]
        · rw [if_neg h2]
          exact ⟨(by intro c; cases c), fun v hv => by cases hv⟩
      · rw [if_neg hc]
        refine ⟨(by intro c; cases c), ?_⟩
        intro v hv
        cases hv
        exact ⟨rfl, rfl, rfl, by dsimp only; omega, by dsimp only; omega, fun c => absurd c hc⟩
    · rw [if_neg h1]
      exact ⟨(by intro c; cases c), fun v hv => by cases hv⟩
  · rw [if_neg h0]
    exact ⟨(by intro c; cases c), fun v hv => by cases hv⟩

/-- Non-vacuity: a frame is built and read back. -/
example : ∃ f, keyBuild 163 0x010A 16 (List.replicate 8 1) (List.replicate 32 7) [9, 9] = some f ∧
    f.length = 101 := ⟨_, rfl, rfl⟩

end Wolf.Supp
