/-!
# C58: HTTP URL coding in place

Model of `http_hex_value`, `http_url_decode` and `http_url_encode` (`src/http/httpd.c` 231–297).

A buffer is the list of the bytes of its allocation; loads, stores and `memmove` are checked against its
length, and an access outside is the result `oob`.
-/
namespace Wolf.Http

/-- Result of a coding call: a stray access, an error code, or the new length; with the buffer. -/
inductive Res where
  | oob
  | truncated (m : List Nat)
  | badEscape (m : List Nat)
  | noSpace (m : List Nat)
  | ok (len : Nat) (m : List Nat)
deriving DecidableEq

/-- `memmove(m + dst, m + src, n)`, checked. -/
def move (m : List Nat) (dst src n : Nat) : Option (List Nat) :=
  if src + n ≤ m.length ∧ dst + n ≤ m.length then
    some (m.take dst ++ (m.drop src).take n ++ m.drop (dst + n))
  else none

/-- `m[i] = v`, checked. -/
def put (m : List Nat) (i v : Nat) : Option (List Nat) := if i < m.length then some (m.set i v) else none

/-- `memchr(m + p, c, n)` as an offset from the buffer start. -/
def find (c : Nat) (m : List Nat) (p n : Nat) : Option Nat := ((m.drop p).take n).findIdx? (· == c) |>.map (p + ·)

/-- `http_hex_value`; −1 is `none`. Bytes above 127 are negative `char`s and no digits.
src/http/httpd.c 231–239. -/
def hexVal (c : Nat) : Option Nat :=
  if 48 ≤ c ∧ c ≤ 57 then some (c - 48)
  else if 97 ≤ c ∧ c ≤ 102 then some (10 + (c - 97))
  else if 65 ≤ c ∧ c ≤ 70 then some (10 + (c - 65))
  else none

/-- The loop of `http_url_decode` from offset `p`, with `end` = `e`. Each round consumes at least one byte,
so `e - p + 1` rounds are enough (`fuel`); running out of it is `oob`. src/http/httpd.c 249–271. -/
def decodeRun : Nat → List Nat → Nat → Nat → Res
  | 0, _, _, _ => .oob
  | fuel + 1, m, p, e =>
    if p < e then
      if e ≤ m.length then
        match find 37 m p (e - p) with
        | none => .ok e m
        | some q =>
          if q + 2 ≥ e then .truncated m
          else
            match m[q + 1]?, m[q + 2]? with
            | some a, some b =>
              match hexVal a, hexVal b with
              | some hi, some lo =>
                match put m q (hi * 16 + lo) with
                | none => .oob
                | some m1 =>
                  match move m1 (q + 1) (q + 3) (e - (q + 3)) with
                  | none => .oob
                  | some m2 => decodeRun fuel m2 (q + 1) (e - 2)
              | _, _ => .badEscape m
            | _, _ => .oob
      else .oob
    else .ok e m

/-- `http_url_decode`. src/http/httpd.c 241–272. -/
def urlDecode (m : List Nat) (len : Nat) : Res := decodeRun (len + 1) m 0 len

/-- The loop of `http_url_encode`. src/http/httpd.c 277–292. -/
def encodeRun : Nat → List Nat → Nat → Nat → Nat → Res
  | 0, _, _, _, _ => .oob
  | fuel + 1, m, p, len, max =>
    let fin : Res :=
      if len ≥ max then .noSpace m
      else match put m len 0 with
        | none => .oob
        | some m1 => .ok len m1
    if p < len then
      if len ≤ m.length then
        match find 32 m p (len - p) with
        | none => fin
        | some q =>
          if len + 2 ≥ max then .noSpace m
          else
            match move m (q + 3) (q + 1) (len - (q + 1)) with
            | none => .oob
            | some m1 =>
              match put m1 q 37 with
              | none => .oob
              | some m2 =>
                match put m2 (q + 1) 50 with
                | none => .oob
                | some m3 =>
                  match put m3 (q + 2) 48 with
                  | none => .oob
                  | some m4 => encodeRun fuel m4 (q + 3) (len + 2) max
      else .oob
    else fin

/-- `http_url_encode`. src/http/httpd.c 274–297. -/
def urlEncode (m : List Nat) (len max : Nat) : Res := encodeRun (len + 1) m 0 len max

/-! ## Specification -/

/-- Outcome of percent-decoding (RFC 3986 §2.1). -/
inductive Dec where
  | text (l : List Nat)
  | truncated
  | bad
deriving DecidableEq

def Dec.cons (b : Nat) : Dec → Dec
  | .text l => .text (b :: l)
  | d => d

/-- Percent-decoding of a string. -/
def dec : List Nat → Dec
  | [] => .text []
  | c :: t =>
    if c = 37 then
      match t with
      | a :: b :: t' =>
        match hexVal a, hexVal b with
        | some hi, some lo => (dec t').cons (hi * 16 + lo)
        | _, _ => .bad
      | _ => .truncated
    else (dec t).cons c

/-- Encoding of spaces. -/
def enc : List Nat → List Nat
  | [] => []
  | c :: t => if c = 32 then 37 :: 50 :: 48 :: enc t else c :: enc t

/-! ## Proofs -/

theorem find_spec (c : Nat) (m : List Nat) (p n : Nat) (hn : p + n ≤ m.length) :
    (find c m p n = none → ∀ x ∈ (m.drop p).take n, x ≠ c) ∧
    (∀ q, find c m p n = some q → p ≤ q ∧ q < p + n ∧ ∃ pre suf, (m.drop p).take n = pre ++ c :: suf ∧ pre.length = q - p ∧
      ∀ x ∈ pre, x ≠ c) := by
  simp only [find]
  constructor
  · intro h
    simp only [Option.map_eq_none_iff, List.findIdx?_eq_none_iff] at h
    intro x hx; have := h x hx; simpa using this
  · intro q h
    simp only [Option.map_eq_some_iff] at h
    obtain ⟨i, hi, rfl⟩ := h
    rw [List.findIdx?_eq_some_iff_getElem] at hi
    obtain ⟨hlt, hc, hno⟩ := hi
    simp only [beq_iff_eq] at hc
    have hl : ((m.drop p).take n).length = n := by rw [List.length_take, List.length_drop]; omega
    refine ⟨by omega, by omega, ((m.drop p).take n).take i, ((m.drop p).take n).drop (i + 1), ?_, ?_, ?_⟩
    · rw [← hc, ← List.drop_eq_getElem_cons hlt, List.take_append_drop]
    · rw [List.length_take, hl]; omega
    · intro x hx
      obtain ⟨j, hj, rfl⟩ := List.getElem_of_mem hx
      rw [List.length_take] at hj
      have := hno j (by omega)
      rw [List.getElem_take]
      simpa using this

theorem hexVal_lt (c v : Nat) (h : hexVal c = some v) : v < 16 := by
  simp only [hexVal] at h
  split at h
  · simp at h; omega
  split at h
  · simp at h; omega
  split at h
  · simp at h; omega
  · simp at h

theorem dec_cons_ne (c : Nat) (t : List Nat) (h : c ≠ 37) : dec (c :: t) = (dec t).cons c := by
  rw [dec.eq_def]; simp [h]

theorem getElem?_mid (a b : List Nat) (k : Nat) : (a ++ b)[a.length + k]? = b[k]? := by
  rw [List.getElem?_append_right (by omega)]; congr 1; omega

theorem put_mid (a b : List Nat) (k v : Nat) (h : k < b.length) : put (a ++ b) (a.length + k) v = some (a ++ b.set k v) := by
  rw [put, if_pos (by simp; omega), List.set_append_right _ _ (by omega)]
  congr 3; omega

theorem dec_pre : ∀ (pre rest : List Nat), (∀ x ∈ pre, x ≠ 37) →
    dec (pre ++ rest) = match dec rest with
      | .text l => .text (pre ++ l)
      | d => d := by
  intro pre
  induction pre with
  | nil => intro rest _; simp; split <;> simp_all
  | cons c t ih =>
    intro rest h
    rw [List.forall_mem_cons] at h
    rw [List.cons_append, dec_cons_ne _ _ h.1, ih rest h.2]
    cases dec rest <;> rfl

theorem dec_plain (l : List Nat) (h : ∀ x ∈ l, x ≠ 37) : dec l = .text l := by
  have := dec_pre l [] h
  simpa [dec] using this

theorem dec_percent (t : List Nat) : dec (37 :: t) = match t with
      | a :: b :: t' =>
        match hexVal a, hexVal b with
        | some hi, some lo => (dec t').cons (hi * 16 + lo)
        | _, _ => .bad
      | _ => .truncated := by rw [dec.eq_def]; simp

/-- What `http_url_decode` must return for a buffer `done ++ rest ++ tail`. -/
def DecSpec (done rest : List Nat) (mlen : Nat) (tail : List Nat) (r : Res) : Prop :=
  match dec rest with
  | .text l => ∃ m, r = .ok (done.length + l.length) m ∧ m.take (done.length + l.length) = done ++ l ∧ m.length = mlen ∧
      ∃ j, m = done ++ l ++ j ++ tail
  | .truncated => ∃ m, r = .truncated m ∧ m.length = mlen
  | .bad => ∃ m, r = .badEscape m ∧ m.length = mlen

theorem decodeRun_spec : ∀ (fuel : Nat) (done rest junk tail : List Nat), rest.length < fuel →
    DecSpec done rest (done ++ rest ++ junk ++ tail).length tail
      (decodeRun fuel (done ++ rest ++ junk ++ tail) done.length (done.length + rest.length)) := by
  intro fuel
  induction fuel with
  | zero => intro done rest junk tail h; omega
  | succ fuel ih =>
    intro done rest junk tail hf
    rw [decodeRun]
    generalize hm : done ++ rest ++ junk ++ tail = m
    have hml : m.length = done.length + rest.length + junk.length + tail.length := by rw [← hm]; simp; omega
    have hwin : (m.drop done.length).take rest.length = rest := by
      rw [← hm]; simp [List.append_assoc]
    by_cases hp : done.length < done.length + rest.length
    · rw [if_pos hp, if_pos (by omega)]
      have hs := find_spec 37 m done.length (done.length + rest.length - done.length) (by omega)
      have hsub : done.length + rest.length - done.length = rest.length := by omega
      rw [hsub, hwin] at hs
      rw [hsub]
      cases hfi : find 37 m done.length rest.length with
      | none =>
        have hno := hs.1 hfi
        rw [DecSpec, dec_plain rest hno]
        refine ⟨m, rfl, ?_, rfl, junk, hm.symm⟩
        have e : m = (done ++ rest) ++ (junk ++ tail) := by rw [← hm]; simp
        have l : done.length + rest.length = (done ++ rest).length := by simp
        rw [e, l, List.take_left]
      | some q =>
        obtain ⟨h1, h2, pre, suf, h3, h4, h5⟩ := hs.2 q hfi
        have hlen : rest.length = pre.length + 1 + suf.length := by rw [h3]; simp; omega
        have hdr : dec rest = match dec (37 :: suf) with
            | .text l => .text (pre ++ l)
            | d => d := by rw [h3]; exact dec_pre pre _ h5
        simp only
        split
        · rename_i hq
          have : dec (37 :: suf) = .truncated := by
            rw [dec_percent]
            match suf, hlen with
            | [], _ => rfl
            | [_], _ => rfl
            | _ :: _ :: _, hlen => simp at hlen; omega
          rw [DecSpec, hdr, this]
          exact ⟨m, rfl, rfl⟩
        · rename_i hq
          obtain ⟨a, b, t, rfl⟩ : ∃ a b t, suf = a :: b :: t := by
            match suf, hlen with
            | [], hlen => simp at hlen; omega
            | [_], hlen => simp at hlen; omega
            | a :: b :: t, _ => exact ⟨a, b, t, rfl⟩
          have hqe : q = (done ++ pre).length := by simp; omega
          have hm' : m = (done ++ pre) ++ 37 :: a :: b :: t ++ junk ++ tail := by
            rw [← hm, h3]; simp
          have hm2 : m = (done ++ pre) ++ (37 :: a :: b :: (t ++ (junk ++ tail))) := by rw [hm']; simp
          have ga : m[q + 1]? = some a := by rw [hm2, hqe, getElem?_mid]; rfl
          have gb : m[q + 2]? = some b := by rw [hm2, hqe, getElem?_mid]; rfl
          rw [ga, gb]
          simp only
          rw [dec_percent] at hdr
          simp only at hdr
          cases ha : hexVal a with
          | none =>
            rw [DecSpec, hdr, ha]
            exact ⟨m, rfl, rfl⟩
          | some hi =>
          cases hb : hexVal b with
          | none =>
            rw [DecSpec, hdr, ha, hb]
            exact ⟨m, rfl, rfl⟩
          | some lo =>
          simp only
          have hput : put m q (hi * 16 + lo) = some ((done ++ pre) ++ (hi * 16 + lo) :: a :: b :: t ++ junk ++ tail) := by
            rw [put, if_pos (by omega), hm', hqe]
            simp [List.set_append]
          rw [hput]
          simp only
          have hte : done.length + rest.length - (q + 3) = t.length := by
            simp at hlen; omega
          have hmove : move ((done ++ pre) ++ (hi * 16 + lo) :: a :: b :: t ++ junk ++ tail) (q + 1) (q + 3) t.length
              = some ((done ++ pre ++ [hi * 16 + lo]) ++ t ++ ((a :: b :: t).drop t.length ++ junk) ++ tail) := by
            rw [move, if_pos (by simp [hqe]; omega)]
            congr 1
            have e1 : ((done ++ pre) ++ (hi * 16 + lo) :: a :: b :: t ++ junk ++ tail) =
                (done ++ pre ++ [hi * 16 + lo]) ++ ((a :: b :: t) ++ (junk ++ tail)) := by simp
            have e2 : ((done ++ pre) ++ (hi * 16 + lo) :: a :: b :: t ++ junk ++ tail) =
                (done ++ pre ++ [hi * 16 + lo, a, b]) ++ (t ++ (junk ++ tail)) := by simp
            have l1 : q + 1 = (done ++ pre ++ [hi * 16 + lo]).length := by simp [hqe]; try omega
            have l2 : q + 3 = (done ++ pre ++ [hi * 16 + lo, a, b]).length := by simp [hqe]; try omega
            have p1 : ((done ++ pre) ++ (hi * 16 + lo) :: a :: b :: t ++ junk ++ tail).take (q + 1) = done ++ pre ++ [hi * 16 + lo] := by
              rw [e1, l1, List.take_left]
            have p2 : (((done ++ pre) ++ (hi * 16 + lo) :: a :: b :: t ++ junk ++ tail).drop (q + 3)).take t.length = t := by
              rw [e2, l2, List.drop_left, List.take_left]
            have p3 : ((done ++ pre) ++ (hi * 16 + lo) :: a :: b :: t ++ junk ++ tail).drop (q + 1 + t.length) =
                (a :: b :: t).drop t.length ++ (junk ++ tail) := by
              rw [e1, l1, ← List.drop_drop, List.drop_left, List.drop_append_of_le_length (by simp; omega)]
            rw [p1, p2, p3]
            simp only [List.append_assoc]
          rw [hte, hmove]
          simp only
          have hIH := ih (done ++ pre ++ [hi * 16 + lo]) t ((a :: b :: t).drop t.length ++ junk) tail (by simp at hlen; omega)
          have hl1 : (done ++ pre ++ [hi * 16 + lo]).length = q + 1 := by simp [hqe]; try omega
          have hl2 : q + 1 + t.length = done.length + rest.length - 2 := by simp at hlen; omega
          have hl3 : ((done ++ pre ++ [hi * 16 + lo]) ++ t ++ ((a :: b :: t).drop t.length ++ junk) ++ tail).length = m.length := by
            rw [hm']; simp; omega
          rw [hl1, hl2, hl3] at hIH
          rw [ha, hb] at hdr
          simp only at hdr
          rw [DecSpec] at hIH ⊢
          rw [hdr]
          cases hdt : dec t with
          | text l =>
            rw [hdt] at hIH
            obtain ⟨m', x1, x2, x3, j, x4⟩ := hIH
            simp only [Dec.cons]
            have : (done ++ pre ++ [hi * 16 + lo]).length + l.length = done.length + (pre ++ (hi * 16 + lo) :: l).length := by
              simp; omega
            rw [this] at x1 x2
            refine ⟨m', x1, ?_, x3, j, ?_⟩
            · rw [x2]; simp
            · rw [x4]; simp
          | truncated => rw [hdt] at hIH; exact hIH
          | bad => rw [hdt] at hIH; exact hIH
    · have : rest = [] := List.length_eq_zero_iff.1 (by omega)
      subst this
      rw [if_neg hp, DecSpec, dec]
      refine ⟨m, rfl, ?_, rfl, junk, ?_⟩
      · rw [← hm]; simp
      · rw [← hm]

/-- **C58, decoding.** For every buffer and every length inside it, decoding stays inside the buffer and
leaves the bytes behind the given length alone; it returns the percent-decoding of the string, in
place, and its length, or refuses a truncated or malformed escape. -/
theorem url_decode_correct (s tail : List Nat) :
    match dec s with
    | .text l => ∃ j, urlDecode (s ++ tail) s.length = .ok l.length (l ++ j ++ tail) ∧ (l ++ j).length = s.length
    | .truncated => ∃ m, urlDecode (s ++ tail) s.length = .truncated m ∧ m.length = (s ++ tail).length
    | .bad => ∃ m, urlDecode (s ++ tail) s.length = .badEscape m ∧ m.length = (s ++ tail).length := by
  have h := decodeRun_spec (s.length + 1) [] s [] tail (by omega)
  simp only [List.nil_append, List.append_nil, List.length_nil, Nat.zero_add] at h
  rw [DecSpec] at h
  rw [urlDecode]
  cases hd : dec s with
  | text l =>
    rw [hd] at h
    obtain ⟨m, h1, h2, h3, j, h4⟩ := h
    simp only [List.length_nil, Nat.zero_add, List.nil_append] at h1 h2 h4
    refine ⟨j, by rw [h1, h4], ?_⟩
    rw [h4] at h3
    simp only [List.length_append] at h3 ⊢
    omega
  | truncated => rw [hd] at h; exact h
  | bad => rw [hd] at h; exact h

/-- Decoding never makes the string longer. -/
theorem url_decode_never_grows (s tail : List Nat) (n : Nat) (m : List Nat)
    (h : urlDecode (s ++ tail) s.length = .ok n m) : n ≤ s.length ∧ m.length = (s ++ tail).length := by
  have := url_decode_correct s tail
  cases hd : dec s with
  | text l =>
    rw [hd] at this
    obtain ⟨j, h1, h2⟩ := this
    rw [h1] at h
    simp only [Res.ok.injEq] at h
    obtain ⟨rfl, rfl⟩ := h
    simp only [List.length_append] at *
    omega
  | truncated => rw [hd] at this; obtain ⟨_, h1, _⟩ := this; rw [h1] at h; simp at h
  | bad => rw [hd] at this; obtain ⟨_, h1, _⟩ := this; rw [h1] at h; simp at h

theorem enc_pre : ∀ (pre rest : List Nat), (∀ x ∈ pre, x ≠ 32) → enc (pre ++ rest) = pre ++ enc rest := by
  intro pre
  induction pre with
  | nil => intro rest _; rfl
  | cons c t ih =>
    intro rest h
    rw [List.forall_mem_cons] at h
    rw [List.cons_append, enc, if_neg h.1, ih rest h.2]; rfl

theorem enc_length (l : List Nat) : l.length ≤ (enc l).length := by
  induction l with
  | nil => simp [enc]
  | cons c t ih => rw [enc]; split <;> simp <;> omega

/-- What `http_url_encode` must return for a buffer that holds `done ++ rest`. -/
def EncSpec (done rest : List Nat) (max mlen : Nat) (r : Res) : Prop :=
  if done.length + (enc rest).length < max then
    ∃ j, r = .ok (done.length + (enc rest).length) (done ++ enc rest ++ 0 :: j) ∧ (done ++ enc rest ++ 0 :: j).length = mlen
  else ∃ m, r = .noSpace m ∧ m.length = mlen

theorem encodeRun_spec : ∀ (fuel : Nat) (done rest junk : List Nat) (max : Nat), rest.length < fuel →
    max ≤ (done ++ rest ++ junk).length → done.length + rest.length ≤ max →
    EncSpec done rest max (done ++ rest ++ junk).length
      (encodeRun fuel (done ++ rest ++ junk) done.length (done.length + rest.length) max) := by
  intro fuel
  induction fuel with
  | zero => intro done rest junk max h; omega
  | succ fuel ih =>
    intro done rest junk max hf hmax hle
    rw [encodeRun]
    have hfin : enc rest = rest → EncSpec done rest max (done ++ rest ++ junk).length
        (if done.length + rest.length ≥ max then .noSpace (done ++ rest ++ junk)
          else match put (done ++ rest ++ junk) (done.length + rest.length) 0 with
            | none => .oob
            | some m1 => .ok (done.length + rest.length) m1) := by
      intro he
      rw [EncSpec, he]
      split
      · rename_i hlt
        rw [if_neg (by omega)]
        have hj : 0 < junk.length := by simp at hmax; omega
        obtain ⟨x, j, rfl⟩ : ∃ x j, junk = x :: j := by
          cases junk with
          | nil => simp at hj
          | cons x j => exact ⟨x, j, rfl⟩
        have hput : put (done ++ rest ++ x :: j) (done.length + rest.length) 0 = some (done ++ rest ++ 0 :: j) := by
          have hl : done.length + rest.length = (done ++ rest).length := by simp
          rw [put, if_pos (by simp), hl]
          simp [List.set_append]
        rw [hput]
        exact ⟨j, rfl, by simp⟩
      · rename_i hlt
        rw [if_pos (by omega)]
        exact ⟨_, rfl, rfl⟩
    generalize hm : done ++ rest ++ junk = m at hfin hmax ⊢
    have hml : m.length = done.length + rest.length + junk.length := by rw [← hm]; simp; omega
    have hwin : (m.drop done.length).take rest.length = rest := by
      rw [← hm]; simp [List.append_assoc]
    by_cases hp : done.length < done.length + rest.length
    · rw [if_pos hp, if_pos (by omega)]
      have hs := find_spec 32 m done.length (done.length + rest.length - done.length) (by omega)
      have hsub : done.length + rest.length - done.length = rest.length := by omega
      rw [hsub, hwin] at hs
      rw [hsub]
      cases hfi : find 32 m done.length rest.length with
      | none =>
        apply hfin
        have := enc_pre rest [] (hs.1 hfi)
        simpa [enc] using this
      | some q =>
        obtain ⟨h1, h2, pre, suf, h3, h4, h5⟩ := hs.2 q hfi
        have hlen : rest.length = pre.length + 1 + suf.length := by rw [h3]; simp; omega
        have her : enc rest = pre ++ 37 :: 50 :: 48 :: enc suf := by
          rw [h3, enc_pre pre _ h5, enc, if_pos rfl]
        have hge := enc_length suf
        simp only
        split
        · rename_i hsp
          rw [EncSpec, her, if_neg (by simp; omega)]
          exact ⟨m, rfl, rfl⟩
        · rename_i hsp
          have hqe : q = (done ++ pre).length := by simp; omega
          -- two bytes of room behind the string
          obtain ⟨x, y, j, rfl⟩ : ∃ x y j, junk = x :: y :: j := by
            match junk, hml with
            | [], hml => simp at hml; omega
            | [_], hml => simp at hml; omega
            | x :: y :: j, _ => exact ⟨x, y, j, rfl⟩
          have hm' : m = (done ++ pre) ++ 32 :: suf ++ x :: y :: j := by rw [← hm, h3]; simp
          have hte : done.length + rest.length - (q + 1) = suf.length := by omega
          have hmove : ∃ u v, move m (q + 3) (q + 1) suf.length = some ((done ++ pre) ++ 32 :: u :: v :: suf ++ j) := by
            obtain ⟨u, v, w, e⟩ : ∃ u v w, suf ++ [x, y] = u :: v :: w := by
              match suf with
              | [] => exact ⟨x, y, [], rfl⟩
              | [a] => exact ⟨a, x, [y], rfl⟩
              | a :: b :: t => exact ⟨a, b, t ++ [x, y], rfl⟩
            refine ⟨u, v, ?_⟩
            rw [move, if_pos (by simp at hml; omega)]
            congr 1
            have e1 : m = (done ++ pre ++ [32]) ++ (suf ++ ([x, y] ++ j)) := by rw [hm']; simp
            have e2 : m = (done ++ pre ++ [32, u, v]) ++ (w ++ j) := by
              have : m = (done ++ pre ++ [32]) ++ ((suf ++ [x, y]) ++ j) := by rw [hm']; simp
              rw [this, e]; simp
            have l1 : q + 1 = (done ++ pre ++ [32]).length := by simp [hqe]; try omega
            have l3 : q + 3 = (done ++ pre ++ [32, u, v]).length := by simp [hqe]; try omega
            have hw : w.length = suf.length := by
              have := congrArg List.length e; simp at this; omega
            have p1 : m.take (q + 3) = done ++ pre ++ [32, u, v] := by rw [e2, l3, List.take_left]
            have p2 : (m.drop (q + 1)).take suf.length = suf := by rw [e1, l1, List.drop_left, List.take_left]
            have p3 : m.drop (q + 3 + suf.length) = j := by
              rw [e2, l3, ← List.drop_drop, List.drop_left, ← hw, List.drop_left]
            rw [p1, p2, p3]; simp
          obtain ⟨u, v, hmove⟩ := hmove
          rw [hte, hmove]
          simp only
          have w1 : put ((done ++ pre) ++ 32 :: u :: v :: suf ++ j) q 37 = some ((done ++ pre) ++ 37 :: u :: v :: suf ++ j) := by
            have := put_mid (done ++ pre) (32 :: u :: v :: (suf ++ j)) 0 37 (by simp)
            rw [← hqe] at this; simpa using this
          have w2 : put ((done ++ pre) ++ 37 :: u :: v :: suf ++ j) (q + 1) 50 = some ((done ++ pre) ++ 37 :: 50 :: v :: suf ++ j) := by
            have := put_mid (done ++ pre) (37 :: u :: v :: (suf ++ j)) 1 50 (by simp)
            rw [← hqe] at this; simpa using this
          have w3 : put ((done ++ pre) ++ 37 :: 50 :: v :: suf ++ j) (q + 2) 48 = some ((done ++ pre ++ [37, 50, 48]) ++ suf ++ j) := by
            have := put_mid (done ++ pre) (37 :: 50 :: v :: (suf ++ j)) 2 48 (by simp)
            rw [← hqe] at this; simpa using this
          rw [w1]; simp only
          rw [w2]; simp only
          rw [w3]; simp only
          have hlm : ((done ++ pre ++ [37, 50, 48]) ++ suf ++ j).length = m.length := by
            rw [hm']; simp; omega
          have hIH := ih (done ++ pre ++ [37, 50, 48]) suf j max (by omega) (by rw [hlm]; exact hmax) (by simp; omega)
          have hl1 : (done ++ pre ++ [37, 50, 48]).length = q + 3 := by simp [hqe]; try omega
          have hl2 : q + 3 + suf.length = done.length + rest.length + 2 := by omega
          have hl4 : q + 3 + (enc suf).length = done.length + (pre ++ 37 :: 50 :: 48 :: enc suf).length := by simp; omega
          rw [EncSpec, hl1, hl2, hlm, hl4] at hIH
          rw [EncSpec, her]
          split
          · rename_i hlt
            rw [if_pos hlt] at hIH
            obtain ⟨j', a1, a2⟩ := hIH
            refine ⟨j', ?_, ?_⟩
            · rw [a1]; simp
            · rw [← a2]; simp
          · rename_i hlt
            rw [if_neg hlt] at hIH
            exact hIH
    · have : rest = [] := List.length_eq_zero_iff.1 (by omega)
      subst this
      rw [if_neg hp]
      exact hfin rfl

/-- **C58, encoding.** For every buffer of at least `max` bytes holding the string `s`, encoding stays
inside it; it returns the encoded string, NUL-terminated, when that fits into `max` bytes with the NUL,
and refuses otherwise. -/
theorem url_encode_correct (s junk : List Nat) (max : Nat) (hm : max ≤ (s ++ junk).length) (hs : s.length ≤ max) :
    if (enc s).length < max then
      ∃ j, urlEncode (s ++ junk) s.length max = .ok (enc s).length (enc s ++ 0 :: j) ∧ (enc s ++ 0 :: j).length = (s ++ junk).length
    else ∃ m, urlEncode (s ++ junk) s.length max = .noSpace m ∧ m.length = (s ++ junk).length := by
  have h := encodeRun_spec (s.length + 1) [] s junk max (by omega) (by simpa using hm) (by simpa using hs)
  simpa [EncSpec, urlEncode] using h

theorem dec_enc : ∀ s : List Nat, (∀ x ∈ s, x ≠ 37) → dec (enc s) = .text s := by
  intro s
  induction s with
  | nil => intro _; rfl
  | cons c t ih =>
    intro h
    rw [List.forall_mem_cons] at h
    rw [enc]
    split
    · rename_i hc
      rw [dec_percent]
      have : hexVal 50 = some 2 ∧ hexVal 48 = some 0 := by decide
      simp only [this.1, this.2, ih h.2, Dec.cons, hc]
    · rw [dec_cons_ne _ _ h.1, ih h.2]; rfl

/-- **C58, round trip.** Encoding a string in place and decoding the result in place gives the string
back, for strings without a percent sign. -/
theorem url_round_trip_partial (s junk : List Nat) (max : Nat) (hm : max ≤ (s ++ junk).length) (hp : ∀ x ∈ s, x ≠ 37)
    (hf : (enc s).length < max) :
    ∃ m j, urlEncode (s ++ junk) s.length max = .ok (enc s).length m ∧
      urlDecode m (enc s).length = .ok s.length (s ++ j) := by
  have he := url_encode_correct s junk max hm (Nat.le_of_lt (Nat.lt_of_le_of_lt (enc_length s) hf))
  rw [if_pos hf] at he
  obtain ⟨j, h1, h2⟩ := he
  have hd := url_decode_correct (enc s) (0 :: j)
  rw [dec_enc s hp] at hd
  obtain ⟨j', h3, _⟩ := hd
  exact ⟨_, j' ++ 0 :: j, h1, by rw [h3]; simp⟩

/-- Not for all strings: `http_url_encode` leaves percent signs alone, so "%41" comes back as "A". -/
theorem url_round_trip_fails :
    urlEncode ([37, 52, 49] ++ [0, 0]) 3 5 = .ok 3 [37, 52, 49, 0, 0] ∧
    urlDecode [37, 52, 49, 0, 0] 3 = .ok 1 [65, 52, 49, 0, 0] := by decide +kernel

/-- "a b" in a buffer of 8 bytes. -/
example : urlEncode ([97, 32, 98] ++ [1, 1, 1, 1, 1]) 3 8 = .ok 5 [97, 37, 50, 48, 98, 0, 1, 1] ∧
    urlDecode [97, 37, 50, 48, 98, 0, 1, 1] 5 = .ok 3 [97, 32, 98, 48, 98, 0, 1, 1] := by decide +kernel

example : urlDecode [97, 37, 52] 3 = .truncated [97, 37, 52] ∧ urlDecode [37, 52, 71] 3 = .badEscape [37, 52, 71] := by
  decide +kernel

end Wolf.Http
