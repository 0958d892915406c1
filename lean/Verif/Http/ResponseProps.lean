import Verif.Http.Response

/-! # C131: proofs about HTTP responses -/

namespace Wolf.Http.Resp

/-! ## Numerals -/

theorem val_digit (b d : Nat) (hb : b = 10 ∨ b = 16) (hd : d < b) : val b (digit d) = some d := by
  unfold val digit
  by_cases h : d < 10
  · rw [if_pos h, if_pos (by omega)]; congr 1; omega
  · rw [if_neg h, if_neg (by omega), if_pos (by omega)]; congr 1; omega

theorem numFrom_append (b : Nat) : ∀ (l : List Nat) (a : Nat) (m : List Nat),
    numFrom b a (l ++ m) = (numFrom b a l).bind fun v => numFrom b v m
  | [], _, _ => rfl
  | c :: l, a, m => by
    show (val b c).bind _ = ((val b c).bind _).bind _
    cases val b c with
    | none => rfl
    | some v => exact numFrom_append b l _ m

theorem rdigits_value (b : Nat) (hb : b = 10 ∨ b = 16) : ∀ (f n : Nat), n < b ^ f → 0 < f →
    numFrom b 0 (rdigits b f n).reverse = some n ∧ rdigits b f n ≠ [] ∧ (rdigits b f n).length ≤ f ∧
    ∀ c ∈ rdigits b f n, 48 ≤ c ∧ c < 103
  | 0, _, _, h => by omega
  | f + 1, n, h, _ => by
    unfold rdigits
    by_cases hn : n < b
    · rw [if_pos hn]
      refine ⟨?_, by simp, by simp, ?_⟩
      · show (val b (digit n)).bind _ = _
        rw [val_digit b n hb hn]; show some (0 * b + n) = _; congr 1; omega
      · intro c hc
        rw [List.mem_singleton] at hc; subst hc
        unfold digit; split <;> omega
    · rw [if_neg hn]
      have hb0 : 0 < b := by omega
      have h' : n / b < b ^ f := by
        apply Nat.div_lt_of_lt_mul
        rw [← Nat.pow_succ']; exact h
      have hf : 0 < f := by
        rcases Nat.eq_zero_or_pos f with hf | hf
        · subst hf
          have := Nat.div_pos (Nat.le_of_not_lt hn) hb0
          have : n / b < 1 := h'
          omega
        · exact hf
      obtain ⟨h1, h2, h3, h4⟩ := rdigits_value b hb f (n / b) h' hf
      have hm : n % b < b := Nat.mod_lt _ hb0
      refine ⟨?_, by simp, by simp; exact h3, ?_⟩
      · rw [List.reverse_cons, numFrom_append, h1]
        show (val b (digit (n % b))).bind _ = _
        rw [val_digit b _ hb hm]
        show some (n / b * b + n % b) = _
        rw [Nat.div_add_mod']
      · intro c hc
        rcases List.mem_cons.1 hc with rfl | hc
        · unfold digit; split <;> omega
        · exact h4 c hc

/-- **C131, numbers.** A length written by the server is read back. -/
theorem number_read (n : Nat) (h : n < 18446744073709551616) :
    num 10 (dec n) = some n ∧ num 16 (hex n) = some n ∧ (dec n).length ≤ 20 ∧ (hex n).length ≤ 16 ∧
    (∀ c ∈ dec n, 48 ≤ c ∧ c < 103) ∧ (∀ c ∈ hex n, 48 ≤ c ∧ c < 103) := by
  have a := rdigits_value 10 (.inl rfl) 20 n (by omega) (by omega)
  have b := rdigits_value 16 (.inr rfl) 16 n (by omega) (by omega)
  refine ⟨?_, ?_, ?_, ?_, ?_, ?_⟩
  · unfold num dec; rw [if_neg (by simpa using a.2.1)]; exact a.1
  · unfold num hex; rw [if_neg (by simpa using b.2.1)]; exact b.1
  · unfold dec; rw [List.length_reverse]; exact a.2.2.1
  · unfold hex; rw [List.length_reverse]; exact b.2.2.1
  · intro c hc; unfold dec at hc; exact a.2.2.2 c (List.mem_reverse.1 hc)
  · intro c hc; unfold hex at hc; exact b.2.2.2 c (List.mem_reverse.1 hc)

/-- A three-digit status has three digits. -/
theorem status_digits (s : Nat) (h : 100 ≤ s) (h' : s ≤ 999) :
    dec s = [48 + s / 100, 48 + s / 10 % 10, 48 + s % 10] := by
  unfold dec
  rw [rdigits, if_neg (by omega), rdigits, if_neg (by omega), rdigits, if_pos (by omega)]
  have e : s / 10 / 10 = s / 100 := by omega
  rw [e]
  simp only [digit]
  rw [if_pos (by omega), if_pos (by omega), if_pos (by omega)]
  rfl

/-! ## Lines -/

theorem line_app : ∀ (l r : List Nat), 13 ∉ l → line (l ++ 13 :: 10 :: r) = some (l, r)
  | [], r, _ => by simp [line]
  | c :: l, r, h => by
    have hc : c ≠ 13 := fun e => h (by simp [e])
    have hl : 13 ∉ l := fun e => h (by simp [e])
    rw [List.cons_append, line, if_neg (fun x => hc x.1), line_app l r hl]
    rfl

theorem line_none : ∀ s : List Nat, 13 ∉ s → line s = none
  | [], _ => rfl
  | c :: s, h => by
    have hc : c ≠ 13 := fun e => h (by simp [e])
    have hl : 13 ∉ s := fun e => h (by simp [e])
    rw [line, if_neg (fun x => hc x.1), line_none s hl]; rfl

theorem section_app : ∀ (fs : List (List Nat)) (f : Nat) (r : List Nat), fs.length < f → (∀ l ∈ fs, l ≠ [] ∧ 13 ∉ l) →
    section_ f ((fs.map (· ++ [13, 10])).flatten ++ 13 :: 10 :: r) = some (fs, r)
  | [], 0, _, h, _ => by cases h
  | [], f + 1, r, _, _ => by
    rw [section_]
    rw [show (List.map (· ++ [13, 10]) ([] : List (List Nat))).flatten ++ 13 :: 10 :: r = [] ++ 13 :: 10 :: r from rfl]
    rw [line_app [] r (by simp)]; rfl
  | l :: fs, 0, _, h, _ => by cases h
  | l :: fs, f + 1, r, h, hl => by
    have e : ((List.map (· ++ [13, 10]) (l :: fs)).flatten ++ 13 :: 10 :: r) =
        l ++ 13 :: 10 :: ((fs.map (· ++ [13, 10])).flatten ++ 13 :: 10 :: r) := by simp
    rw [e, section_, line_app l _ (hl l (by simp)).2]
    dsimp only
    rw [if_neg (hl l (by simp)).1, section_app fs f r (by simpa using h) (fun x hx => hl x (by simp [hx]))]
    rfl

/-! ## The header -/

theorem dropWhile_head {p : Nat → Bool} {l : List Nat} (h : ∀ c, l.head? = some c → p c = false) : l.dropWhile p = l := by
  cases l with
  | nil => rfl
  | cons c l => rw [List.dropWhile_cons, if_neg (by rw [h c rfl]; simp)]

theorem field_of (t name v : List Nat) (ht : t.map lower = name) (hv : ∀ c, v.head? = some c → c ≠ 32 ∧ c ≠ 9) :
    field name (t ++ [58, 32] ++ v) = some v := by
  have hl : name.length = t.length := by rw [← ht, List.length_map]
  unfold field
  rw [hl]
  have e1 : (t ++ [58, 32] ++ v).take t.length = t := by rw [List.append_assoc, List.take_left' rfl]
  have e2 : (t ++ [58, 32] ++ v)[t.length]? = some 58 := by simp
  have e3 : (t ++ [58, 32] ++ v).drop (t.length + 1) = 32 :: v := by
    rw [← List.drop_drop, List.append_assoc, List.drop_left' rfl]; rfl
  rw [e1, e2, e3, if_pos ⟨ht, rfl⟩, List.dropWhile_cons, if_pos (by simp)]
  rw [dropWhile_head]
  intro c hc
  have := hv c hc
  simp [this.1, this.2]

/-- The status line. -/
def statusLine (s : Nat) (r : List Nat) : List Nat := tHttp ++ dec s ++ [32] ++ r

theorem statusLine_read (s : Nat) (r : List Nat) (h : 100 ≤ s) (h' : s ≤ 999) :
    (statusLine s r).take 9 = tHttp ∧ (statusLine s r)[12]? = some 32 ∧ num 10 (((statusLine s r).drop 9).take 3) = some s ∧
    (statusLine s r).drop 13 = r := by
  have n := (number_read s (by omega)).1
  unfold statusLine
  rw [status_digits s h h'] at n ⊢
  refine ⟨rfl, rfl, n, rfl⟩

theorem statusLine_plain (s : Nat) (r : List Nat) (hs : s < 1000) (hr : Plain r) : 13 ∉ statusLine s r := by
  unfold statusLine
  intro h
  rcases List.mem_append.1 h with h | h
  · rcases List.mem_append.1 h with h | h
    · rcases List.mem_append.1 h with h | h
      · revert h; decide
      · have := (number_read s (by omega)).2.2.2.2.1 13 h; omega
    · revert h; decide
  · exact hr h

/-- What `client` makes of a header and what follows it. -/
theorem client_of (s : Nat) (r ct : List Nat) (last : List Nat) (rest : List Nat) (b tail : List Nat)
    (h : 100 ≤ s) (h' : s ≤ 999) (hr : Plain r) (ht : Plain ct) (hb : ct.head? ≠ some 32 ∧ ct.head? ≠ some 9)
    (hl : last ≠ [] ∧ 13 ∉ last) (hf : framed [tType ++ ct, last] rest = some (b, tail)) :
    client (statusLine s r ++ crlf ++ tType ++ ct ++ crlf ++ last ++ crlf ++ crlf ++ rest) = some (⟨s, r, ct, b⟩, tail) := by
  have e : statusLine s r ++ crlf ++ tType ++ ct ++ crlf ++ last ++ crlf ++ crlf ++ rest =
      statusLine s r ++ 13 :: 10 :: (([tType ++ ct, last].map (· ++ [13, 10])).flatten ++ 13 :: 10 :: rest) := by
    simp [crlf, List.append_assoc]
  have hp : 13 ∉ tType ++ ct := by
    intro x; rcases List.mem_append.1 x with x | x
    · revert x; decide
    · exact ht x
  obtain ⟨s1, s2, s3, s4⟩ := statusLine_read s r h h'
  unfold client
  rw [e, line_app _ _ (statusLine_plain s r (by omega) hr)]
  dsimp only
  rw [section_app _ _ _ (by simp; omega) (by
    intro l hl'
    rcases List.mem_cons.1 hl' with rfl | hl'
    · exact ⟨by simp [tType], hp⟩
    · rw [List.mem_singleton] at hl'; subst hl'; exact hl)]
  dsimp only
  rw [if_pos ⟨s1, s2⟩, s3, s4, hf]
  have hct : field nType (tType ++ ct) = some ct := by
    have : tType = [67, 111, 110, 116, 101, 110, 116, 45, 84, 121, 112, 101] ++ [58, 32] := rfl
    rw [this]
    exact field_of _ _ _ (by decide) (fun c hc => ⟨fun e => hb.1 (by rw [hc, e]), fun e => hb.2 (by rw [hc, e])⟩)
  rw [List.findSome?_cons, hct]

theorem no_field_type (name ct : List Nat) (hn : name = nCoding ∨ name = nLength) : field name (tType ++ ct) = none := by
  unfold field
  rw [if_neg]
  rintro ⟨h1, h2⟩
  rcases hn with rfl | rfl
  · have := congrArg List.head? h1
    simp [nCoding, tType, lower] at this
  · have := congrArg (fun l => l[8]?) h1
    simp [nLength, tType, lower] at this

theorem skip_type (name ct x : List Nat) (hn : name = nCoding ∨ name = nLength) :
    [tType ++ ct, x].findSome? (field name) = [x].findSome? (field name) := by
  rw [List.findSome?_cons, no_field_type name ct hn]

theorem framed_chunked (ct s : List Nat) : framed [tType ++ ct, tChunked] s = unchunk (s.length + 1) s := by
  unfold framed
  rw [skip_type _ ct _ (.inl rfl), skip_type _ ct _ (.inr rfl)]
  have a : [tChunked].findSome? (field nCoding) = some vChunked := by decide
  have b : [tChunked].findSome? (field nLength) = none := by decide
  rw [a, b]
  dsimp only
  rw [if_pos rfl]

theorem framed_sized (ct d rest : List Nat) (h : d.length < 18446744073709551616) :
    framed [tType ++ ct, tLength ++ dec d.length] (d ++ rest) = some (d, rest) := by
  have n := number_read d.length h
  unfold framed
  rw [skip_type _ ct _ (.inl rfl), skip_type _ ct _ (.inr rfl)]
  have a : [tLength ++ dec d.length].findSome? (field nCoding) = none := by
    rw [List.findSome?_cons]
    have : field nCoding (tLength ++ dec d.length) = none := by
      unfold field
      rw [if_neg]
      rintro ⟨h1, h2⟩
      have := congrArg List.head? h1
      simp [nCoding, tLength, lower] at this
    rw [this]; rfl
  have b : [tLength ++ dec d.length].findSome? (field nLength) = some (dec d.length) := by
    rw [List.findSome?_cons]
    have e : tLength = [67, 111, 110, 116, 101, 110, 116, 45, 76, 101, 110, 103, 116, 104] ++ [58, 32] := rfl
    rw [e, field_of _ _ _ (by decide)]
    intro c hc
    have := n.2.2.2.2.1 c (List.mem_of_mem_head? hc)
    omega
  rw [a, b]
  dsimp only
  rw [n.1]
  dsimp only
  rw [if_pos (by simp), List.take_left' rfl, List.drop_left' rfl]

/-! ## Chunks -/

/-- One chunk on the wire. -/
def chunkText (d : List Nat) : List Nat := hex d.length ++ crlf ++ d ++ crlf

theorem unchunk_app : ∀ (ds : List (List Nat)) (f : Nat) (rest : List Nat), ds.length < f →
    (∀ d ∈ ds, d ≠ [] ∧ d.length < 18446744073709551616) →
    unchunk f ((ds.map chunkText).flatten ++ ([48] ++ crlf ++ crlf) ++ rest) = some (ds.flatten, rest)
  | [], 0, _, h, _ => by cases h
  | [], f + 1, rest, _, _ => by
    have e : ((List.map chunkText []).flatten ++ ([48] ++ crlf ++ crlf) ++ rest) = [48] ++ 13 :: 10 :: (13 :: 10 :: rest) := by
      simp [crlf]
    rw [e, unchunk, line_app _ _ (by decide)]
    have n0 : num 16 [48] = some 0 := by decide
    dsimp only
    rw [n0]
    dsimp only
    rw [if_pos rfl]
    have := section_app [] ((13 :: 10 :: rest).length + 1) rest (by simp) (by simp)
    rw [show (List.map (· ++ [13, 10]) ([] : List (List Nat))).flatten ++ 13 :: 10 :: rest = 13 :: 10 :: rest from rfl] at this
    rw [this]; rfl
  | d :: ds, 0, _, h, _ => by cases h
  | d :: ds, f + 1, rest, h, hd => by
    have hd1 := hd d (by simp)
    have n := number_read d.length hd1.2
    have e : ((List.map chunkText (d :: ds)).flatten ++ ([48] ++ crlf ++ crlf) ++ rest) =
        hex d.length ++ 13 :: 10 :: (d ++ ([13, 10] ++ ((ds.map chunkText).flatten ++ ([48] ++ crlf ++ crlf) ++ rest))) := by
      simp [crlf, chunkText, List.append_assoc]
    rw [e, unchunk, line_app _ _ (fun x => by have := n.2.2.2.2.2 13 x; omega)]
    dsimp only
    rw [n.2.1]
    dsimp only
    have hl : d.length ≠ 0 := fun x => hd1.1 (List.length_eq_zero_iff.1 x)
    rw [if_neg hl, ← List.drop_drop, List.drop_left' rfl, List.take_left' rfl, if_pos ⟨rfl, by simp⟩]
    have e2 : ∀ x : List Nat, ([13, 10] ++ x).drop 2 = x := fun _ => rfl
    rw [e2]
    rw [unchunk_app ds f rest (by simpa using h) (fun x hx => hd x (by simp [hx]))]
    rfl

/-! ## What is sent -/

/-- The bytes of a response. -/
def Made.text : Made → List Nat
  | .sized s r t d => statusLine s r ++ crlf ++ tType ++ t ++ crlf ++ (tLength ++ dec d.length) ++ crlf ++ crlf ++ d
  | .chunks s r t ds => statusLine s r ++ crlf ++ tType ++ t ++ crlf ++ tChunked ++ crlf ++ crlf ++ ((ds.map chunkText).flatten ++ ([48] ++ crlf ++ crlf))

theorem headText_whole (s : Nat) (r t : List Nat) (n : Nat) (hs : s ≤ 999) (hs' : 100 ≤ s) (hl : r.length + t.length ≤ 1388) (hn : n < 18446744073709551616) :
    headText s r t n = statusLine s r ++ crlf ++ tType ++ t ++ crlf ++ (if n = 0 then tChunked else tLength ++ dec n) ++ crlf ++ crlf := by
  have h3 : (dec s).length = 3 := by rw [status_digits s hs' hs]; rfl
  have h20 := (number_read n hn).2.2.1
  have l1 : tHttp.length = 9 := rfl
  have l2 : tType.length = 14 := rfl
  have l3 : tChunked.length = 26 := rfl
  have l4 : tLength.length = 16 := rfl
  have l5 : crlf.length = 2 := rfl
  unfold headText cut statusLine
  by_cases h0 : n = 0
  · rw [if_pos h0, if_pos h0]
    rw [List.take_of_length_le]
    simp only [List.length_append, List.length_singleton]; omega
  · rw [if_neg h0, if_neg h0]
    rw [List.take_of_length_le]
    · simp only [List.append_assoc]
    · simp only [List.length_append, List.length_singleton]; omega

theorem sizeLine_whole (n : Nat) (hn : n < 18446744073709551616) : sizeLine n = hex n ++ crlf := by
  unfold sizeLine cut
  rw [List.take_of_length_le]
  have := (number_read n hn).2.2.2.1
  have l5 : crlf.length = 2 := rfl
  rw [List.length_append]; omega

/-- **C131, reading.** A client that reads the bytes of a response, whatever follows them, gets the message the
application gave, and what follows. -/
theorem response_read (m : Made) (hg : m.Good) (rest : List Nat) : client (m.text ++ rest) = some (m.message, rest) := by
  cases m with
  | sized s r t d =>
    obtain ⟨h1, h2, h3, h4, h5, h6, h7, h8, h9⟩ := hg
    show client (_ ++ d ++ rest) = _
    rw [List.append_assoc _ d rest]
    apply client_of s r t _ _ _ _ h1 h2 h3 h4 ⟨h5, h6⟩ ⟨by simp [tLength], ?_⟩ (framed_sized t d rest h9)
    intro x
    rcases List.mem_append.1 x with x | x
    · revert x; decide
    · have := (number_read d.length h9).2.2.2.2.1 13 x; omega
  | chunks s r t ds =>
    obtain ⟨h1, h2, h3, h4, h5, h6, h7, h8⟩ := hg
    show client (_ ++ (_ ++ _) ++ rest) = _
    rw [List.append_assoc _ (_ ++ _) rest]
    apply client_of s r t _ _ _ _ h1 h2 h3 h4 ⟨h5, h6⟩ ⟨by decide, by decide⟩
    rw [framed_chunked, unchunk_app ds _ rest _ h8]
    simp only [List.length_append, List.length_flatten]
    have : ∀ l : List (List Nat), l.length ≤ ((l.map chunkText).map List.length).sum := by
      intro l
      induction l with
      | nil => simp
      | cons d l ih =>
        simp only [List.map_cons, List.sum_cons, List.length_cons]
        have : 2 ≤ (chunkText d).length := by unfold chunkText; simp [crlf]; omega
        omega
    have := this ds
    omega

end Wolf.Http.Resp
