import Verif.Dns.Names
/-
C36: encoding of DNS queries, `dns_send_query` 11035-11085, `dns_write_u8`
10664-10681, `dns_format_ptr_name` 10683-10707 of src/wolfip.c.
Names are C strings: lists of non-zero bytes.
-/
namespace Wolf.Dns

/-- Text up to the next dot (`tok_end` loop, src/wolfip.c 11048-11052). -/
def tok (s : List UInt8) : List UInt8 := s.takeWhile (· ≠ 46)

/-- From the next dot on. -/
def tokRest (s : List UInt8) : List UInt8 := s.dropWhile (· ≠ 46)

/-- The label loop of `dns_send_query`, src/wolfip.c 11046-11082. `fuel` bounds
the number of labels (each consumes text); `tl` is `tok_len`. -/
def encLoop : Nat → List UInt8 → Nat → List UInt8 → Option (List UInt8)
  | 0, _, _, _ => none
  | f + 1, s, tl, out =>
      if s = [] then some out
      else if (tok s).length = 0 then none
      else if (tok s).length > 63 then none
      else if tl + (tok s).length + 1 > 255 then none
      else
        match tokRest s with
        | [] => some (out ++ [UInt8.ofNat (tok s).length] ++ tok s)
        | _ :: rest =>
            encLoop f rest (tl + (tok s).length + 1) (out ++ [UInt8.ofNat (tok s).length] ++ tok s)

/-- Name part of the query: `strlen` check (src/wolfip.c 11025), label loop and
terminator. `none` = -22. -/
def encodeName (s : List UInt8) : Option (List UInt8) :=
  if s.length > 255 then none
  else (encLoop (s.length + 1) s 0 []).map (· ++ [0])

/-! ### Specification -/

/-- Wire form of a list of labels, without the root terminator. -/
def wire (ls : List (List UInt8)) : List UInt8 :=
  ls.flatMap (fun l => UInt8.ofNat l.length :: l)

/-- Acceptable labels: 1 to 63 bytes each, no dot inside. -/
def GoodLabels (ls : List (List UInt8)) : Prop :=
  ∀ l ∈ ls, 1 ≤ l.length ∧ l.length ≤ 63 ∧ (46 : UInt8) ∉ l

theorem wire_len (ls : List (List UInt8)) : (wire ls).length = (ls.map (fun l => l.length + 1)).sum := by
  induction ls with
  | nil => rfl
  | cons l ls ih =>
    have : wire (l :: ls) = (UInt8.ofNat l.length :: l) ++ wire ls := rfl
    rw [this]; simp [ih]; omega

theorem tok_append {l rest : List UInt8} (h : (46 : UInt8) ∉ l) : tok (l ++ 46 :: rest) = l ∧
    tokRest (l ++ 46 :: rest) = 46 :: rest := by
  unfold tok tokRest
  induction l with
  | nil => simp
  | cons a l ih =>
    have ha : a ≠ 46 := fun e => h (by simp [e])
    have := ih (fun e => h (by simp [e]))
    simp only [List.cons_append, List.takeWhile_cons, List.dropWhile_cons]
    simp [ha]
    simpa using this

theorem tok_all {l : List UInt8} (h : (46 : UInt8) ∉ l) : tok l = l ∧ tokRest l = [] := by
  unfold tok tokRest
  induction l with
  | nil => simp
  | cons a l ih =>
    have ha : a ≠ 46 := fun e => h (by simp [e])
    have := ih (fun e => h (by simp [e]))
    simp only [List.takeWhile_cons, List.dropWhile_cons]
    simp [ha]
    simpa using this

theorem tok_split (s : List UInt8) : tok s ++ tokRest s = s ∧ (46 : UInt8) ∉ tok s ∧
    (∀ a r, tokRest s = a :: r → a = 46) := by
  unfold tok tokRest
  refine ⟨List.takeWhile_append_dropWhile, ?_, ?_⟩
  · intro h
    induction s with
    | nil => simp at h
    | cons a s ih =>
      simp only [List.takeWhile_cons] at h
      split at h
      · rename_i ha
        rcases List.mem_cons.1 h with h | h
        · subst h; simp at ha
        · exact ih h
      · simp at h
  · intro a r h
    induction s with
    | nil => simp at h
    | cons b s ih =>
      simp only [List.dropWhile_cons] at h
      split at h
      · exact ih h
      · rename_i hb
        simp only [List.cons.injEq] at h
        have : b = 46 := by simpa using hb
        rw [← h.1]; exact this

/-- The text of labels, possibly with the trailing dot of an absolute name. -/
def TextOf (s : List UInt8) (ls : List (List UInt8)) : Prop :=
  s = dotted ls ∨ (ls ≠ [] ∧ s = dotted ls ++ [46])

theorem dotted_cons2 (l m : List UInt8) (ms : List (List UInt8)) :
    dotted (l :: m :: ms) = l ++ 46 :: dotted (m :: ms) := by
  simp [dotted]

theorem enc_sound : ∀ (f : Nat) (s : List UInt8) (tl : Nat) (out w : List UInt8), tl ≤ 255 →
    encLoop f s tl out = some w →
    ∃ ls, TextOf s ls ∧ GoodLabels ls ∧ w = out ++ wire ls ∧ tl + (wire ls).length ≤ 255
  | 0, _, _, _, _, _, h => by simp [encLoop] at h
  | f + 1, s, tl, out, w, htl, h => by
      unfold encLoop at h
      split at h
      · rename_i hs
        simp only [Option.some.injEq] at h
        exact ⟨[], Or.inl hs, by intro l hl; simp at hl, by simp [wire, h], by simpa [wire] using htl⟩
      split at h
      · simp at h
      split at h
      · simp at h
      split at h
      · simp at h
      · rename_i h0 h1 h2 h3
        obtain ⟨t1, t2, t3⟩ := tok_split s
        cases hr : tokRest s with
        | nil =>
          rw [hr] at h
          simp only [Option.some.injEq] at h
          refine ⟨[tok s], Or.inl ?_, ?_, ?_, ?_⟩
          · rw [hr, List.append_nil] at t1; simp [dotted, t1]
          · intro l hl; simp only [List.mem_singleton] at hl; subst hl; exact ⟨by omega, by omega, t2⟩
          · rw [← h]; simp [wire]
          · simp [wire]; omega
        | cons a r =>
          rw [hr] at h
          simp only at h
          have ha := t3 a r hr
          obtain ⟨ls, i1, i2, i3, i4⟩ := enc_sound f r _ _ w (by omega) h
          have hsplit : s = tok s ++ 46 :: r := by rw [← ha, ← hr]; exact t1.symm
          refine ⟨tok s :: ls, ?_, ?_, ?_, ?_⟩
          · rcases i1 with i1 | ⟨i0, i1⟩
            · cases ls with
              | nil =>
                right
                refine ⟨by simp, ?_⟩
                have : r = [] := i1
                rw [this] at hsplit; simpa [dotted] using hsplit
              | cons m ms => left; rw [dotted_cons2, ← i1]; exact hsplit
            · cases ls with
              | nil => exact absurd rfl i0
              | cons m ms =>
                right
                refine ⟨by simp, ?_⟩
                rw [dotted_cons2]; simp only [List.append_assoc, List.cons_append]
                rw [← i1]; exact hsplit
          · intro l hl
            rcases List.mem_cons.1 hl with rfl | hl
            · exact ⟨by omega, by omega, t2⟩
            · exact i2 l hl
          · rw [i3]; simp [wire]
          · have : wire (tok s :: ls) = (UInt8.ofNat (tok s).length :: tok s) ++ wire ls := rfl
            rw [this]; simp; omega

theorem dotted_ne {ls : List (List UInt8)} (h : GoodLabels ls) (hne : ls ≠ []) : dotted ls ≠ [] := by
  cases ls with
  | nil => exact absurd rfl hne
  | cons l ls =>
    have := (h l (by simp)).1
    intro he
    have hl := congrArg List.length he
    cases ls with
    | nil => simp [dotted] at he; subst he; simp at this
    | cons m ms => rw [dotted_cons2] at hl; simp at hl

theorem enc_complete : ∀ (ls : List (List UInt8)) (s : List UInt8) (f tl : Nat) (out : List UInt8),
    TextOf s ls → GoodLabels ls → tl + (wire ls).length ≤ 255 → ls.length < f →
    encLoop f s tl out = some (out ++ wire ls)
  | [], s, 0, _, _, _, _, _, hf => by simp at hf
  | [], s, f + 1, tl, out, h, _, _, _ => by
      have : s = [] := by
        rcases h with h | ⟨h, _⟩
        · exact h
        · exact absurd rfl h
      subst this
      simp [encLoop, wire]
  | l :: ls, s, 0, _, _, _, _, _, hf => by simp at hf
  | l :: ls, s, f + 1, tl, out, h, hg, hl, hf => by
      obtain ⟨g1, g2, g3⟩ := hg l (by simp)
      have hgs : GoodLabels ls := fun x hx => hg x (by simp [hx])
      have hw : wire (l :: ls) = (UInt8.ofNat l.length :: l) ++ wire ls := rfl
      have hwl : (wire (l :: ls)).length = l.length + 1 + (wire ls).length := by rw [hw]; simp; omega
      have hlne : l ≠ [] := by intro e; subst e; simp at g1
      have base : ∀ r, tok s = l → tokRest s = r → s ≠ [] →
          encLoop (f + 1) s tl out = (match r with
            | [] => some (out ++ [UInt8.ofNat l.length] ++ l)
            | _ :: rest => encLoop f rest (tl + l.length + 1) (out ++ [UInt8.ofNat l.length] ++ l)) := by
        intro r h1 h2 h3
        rw [encLoop]
        rw [if_neg h3, h1, h2, if_neg (by omega), if_neg (by omega), if_neg (by omega)]
      have hgo : ∀ rest, s = l ++ 46 :: rest → TextOf rest ls →
          encLoop (f + 1) s tl out = some (out ++ wire (l :: ls)) := by
        intro rest hs ht
        obtain ⟨t1, t2⟩ := tok_append (rest := rest) g3
        rw [← hs] at t1 t2
        rw [base _ t1 t2 (by rw [hs]; simp)]
        simp only
        rw [enc_complete ls rest f _ _ ht hgs (by omega) (by simp at hf; omega), hw]
        simp
      rcases h with h | ⟨_, h⟩
      · cases ls with
        | nil =>
          have hs : s = l := by simpa [dotted] using h
          obtain ⟨t1, t2⟩ := tok_all g3
          rw [← hs] at t1 t2
          rw [base [] (by rw [t1, hs]) t2 (by rw [hs]; exact hlne)]
          simp [wire]
        | cons m ms =>
          rw [dotted_cons2] at h
          exact hgo _ h (Or.inl rfl)
      · cases ls with
        | nil => exact hgo [] (by simpa [dotted] using h) (Or.inl rfl)
        | cons m ms =>
          rw [dotted_cons2] at h
          simp only [List.append_assoc, List.cons_append] at h
          exact hgo _ h (Or.inr ⟨by simp, rfl⟩)

theorem textOf_len {s : List UInt8} {ls : List (List UInt8)} (h : TextOf s ls) (hg : GoodLabels ls) :
    ls.length ≤ s.length := by
  have hd : ∀ ls : List (List UInt8), GoodLabels ls → ls.length ≤ (dotted ls).length := by
    intro ls
    induction ls with
    | nil => intro _; simp
    | cons l ls ih =>
      intro hg
      have h1 := (hg l (by simp)).1
      have h2 := ih (fun x hx => hg x (by simp [hx]))
      cases ls with
      | nil => simp [dotted]; omega
      | cons m ms => rw [dotted_cons2]; simp at h2 ⊢; omega
  have := hd ls hg
  rcases h with h | ⟨_, h⟩
  · rw [h]; exact this
  · rw [h]; simp; omega

/-- **C36, exactly the well-formed names are encoded, faithfully**: a name is
accepted if and only if it is at most 255 characters of text made of labels of
1 to 63 bytes separated by dots (optionally ending in a dot) whose encoding
takes at most 255 bytes before the terminator; the encoding is then the
length-prefixed labels followed by the root terminator. -/
theorem dns_encoding_exact (s w : List UInt8) :
    encodeName s = some w ↔
    s.length ≤ 255 ∧ ∃ ls, TextOf s ls ∧ GoodLabels ls ∧ (wire ls).length ≤ 255 ∧ w = wire ls ++ [0] := by
  unfold encodeName
  constructor
  · intro h
    split at h
    · simp at h
    · rename_i hl
      rw [Option.map_eq_some_iff] at h
      obtain ⟨w', h1, h2⟩ := h
      obtain ⟨ls, e1, e2, e3, e4⟩ := enc_sound _ _ _ _ _ (by omega) h1
      exact ⟨by omega, ls, e1, e2, by omega, by rw [← h2, e3]; simp⟩
  · rintro ⟨hl, ls, h1, h2, h3, h4⟩
    rw [if_neg (by omega)]
    have := textOf_len h1 h2
    rw [enc_complete ls s _ 0 [] h1 h2 (by omega) (by omega), h4]
    simp

theorem nameAt_wire (ls : List (List UInt8)) (pre post : List UInt8) (hg : GoodLabels ls) :
    NameAt (pre ++ (wire ls ++ 0 :: post)) (ls.length + 1) pre.length ls := by
  induction ls generalizing pre with
  | nil => exact NameAt.root (by simp [wire])
  | cons l ls ih =>
    obtain ⟨g1, g2, g3⟩ := hg l (by simp)
    have hw : wire (l :: ls) = (UInt8.ofNat l.length :: l) ++ wire ls := rfl
    have hb : pre ++ (wire (l :: ls) ++ 0 :: post) =
        (pre ++ UInt8.ofNat l.length :: l) ++ (wire ls ++ 0 :: post) := by rw [hw]; simp
    have hc : (UInt8.ofNat l.length).toNat = l.length := by
      rw [UInt8.toNat_ofNat']; omega
    have i := ih (pre ++ UInt8.ofNat l.length :: l) (fun x hx => hg x (by simp [hx]))
    rw [← hb] at i
    have hpos : (pre ++ UInt8.ofNat l.length :: l).length = pre.length + 1 + (UInt8.ofNat l.length).toNat := by
      rw [hc]; simp; omega
    rw [hpos] at i
    have key := NameAt.label (buf := pre ++ (wire (l :: ls) ++ 0 :: post)) (p := pre.length)
      (c := UInt8.ofNat l.length) (by rw [hw]; simp) (by rw [hc]; omega) (by rw [hc]; omega)
      (by rw [hc, hw]; simp; omega) i
    have hl : ((pre ++ (wire (l :: ls) ++ 0 :: post)).drop (pre.length + 1)).take
        (UInt8.ofNat l.length).toNat = l := by
      rw [hc, hw]
      have : pre ++ ((UInt8.ofNat l.length :: l ++ wire ls) ++ 0 :: post) =
          (pre ++ [UInt8.ofNat l.length]) ++ (l ++ (wire ls ++ 0 :: post)) := by simp
      rw [this, show pre.length + 1 = (pre ++ [UInt8.ofNat l.length]).length by simp,
        List.drop_left, List.take_left]
    rw [hl] at key
    exact key

/-- **C36, round trip**: decoding the name of a query packet (any 12-byte header
in front, question fields behind) gives back the labels' text; the trailing dot,
if any, is the only thing not reproduced. -/
theorem dns_query_decodes (hdr post s w : List UInt8) (h : encodeName s = some w) (hh : hdr.length = 12) :
    ∃ ls, TextOf s ls ∧ GoodLabels ls ∧
      (copyName (hdr ++ w ++ post) 12 256).1 = some (dotted ls) := by
  obtain ⟨hl, ls, h1, h2, h3, h4⟩ := (dns_encoding_exact s w).1 h
  refine ⟨ls, h1, h2, ?_⟩
  have hb : hdr ++ w ++ post = hdr ++ (wire ls ++ 0 :: post) := by rw [h4]; simp
  have hn := nameAt_wire ls hdr post h2
  rw [← hb, hh] at hn
  have hw : ls.length ≤ (wire ls).length := by
    rw [wire_len]
    clear h1 h2 h3 h4 hb hn h
    induction ls with
    | nil => simp
    | cons l ls ih => simp; omega
  have hd : (dotted ls).length ≤ s.length := by
    rcases h1 with h1 | ⟨_, h1⟩
    · rw [h1]; exact Nat.le_refl _
    · rw [h1]; simp
  exact dns_copy_accepts _ _ _ _ _ hn (by rw [hb]; simp [hh]; omega) (by omega)

/-- **C36 is violated by one byte**: RFC 1035 limits a name to 255 bytes on the
wire including the terminator; this 254-character name is accepted and takes 256. -/
theorem dns_name_of_256_octets_accepted :
    ∃ s w, s.length = 254 ∧ encodeName s = some w ∧ w.length = 256 := by
  let ls := [List.replicate 63 (97 : UInt8), List.replicate 63 98, List.replicate 63 99, List.replicate 62 100]
  refine ⟨dotted ls, wire ls ++ [0], by decide +kernel, ?_, by decide +kernel⟩
  decide +kernel

/-! ### Reverse lookups -/

/-- `dns_write_u8`, src/wolfip.c 10664-10681. -/
def writeU8 (v : Nat) : List Nat :=
  let a := if v ≥ 100 then [48 + v / 100] else []
  let v1 := if v ≥ 100 then v % 100 else v
  let b := if v1 ≥ 10 ∨ a ≠ [] then [48 + v1 / 10] else []
  let v2 := if v1 ≥ 10 ∨ a ≠ [] then v1 % 10 else v1
  a ++ b ++ [48 + v2]

/-- "in-addr.arpa" -/
def arpa : List Nat := [105, 110, 45, 97, 100, 100, 114, 46, 97, 114, 112, 97]

/-- `dns_format_ptr_name`, src/wolfip.c 10683-10707, octet loop. -/
def ptrLoop (len : Nat) : List Nat → List Nat → Option (List Nat)
  | [], out => if out.length + 13 ≥ len then none else some (out ++ arpa)
  | v :: vs, out =>
      if out.length + 3 ≥ len then none
      else if (out ++ writeU8 v).length + 1 ≥ len then none
      else ptrLoop len vs (out ++ writeU8 v ++ [46])

/-- `dns_format_ptr_name`, src/wolfip.c 10683-10707. -/
def formatPtr (len ip : Nat) : Option (List Nat) :=
  ptrLoop len [ip % 256, ip / 256 % 256, ip / 65536 % 256, ip / 16777216 % 256] []

theorem writeU8_eq (v : Nat) (h : v < 256) : writeU8 v = Text.octet v := by
  unfold writeU8 Text.octet
  by_cases h1 : v ≥ 100
  · have h2 : v > 99 := by omega
    have h3 : v > 9 := by omega
    simp [h1, h2, h3]; omega
  · have h2 : ¬ v > 99 := by omega
    by_cases h3 : v ≥ 10
    · have h4 : v > 9 := by omega
      simp [h1, h2, h3, h4]; omega
    · have h4 : ¬ v > 9 := by omega
      simp [h1, h2, h3, h4]; omega

/-- Address with its four octets in reverse order. -/
def reversed (ip : Nat) : Nat :=
  ip % 256 * 16777216 + ip / 256 % 256 * 65536 + ip / 65536 % 256 * 256 + ip / 16777216 % 256

/-- **C36, reverse names**: for every address the name asked for is the dotted
quad of the byte-reversed address followed by ".in-addr.arpa"; the 128-byte
buffer always suffices. -/
theorem dns_reverse_name (ip : Nat) :
    formatPtr 128 ip = some (Text.iptoa (reversed ip) ++ [46] ++ arpa) := by
  have hl : ∀ x, (Text.octet x).length ≤ 3 := by
    intro x; unfold Text.octet; split <;> split <;> simp
  have e : Text.iptoa (reversed ip) =
      Text.octet (ip % 256) ++ [46] ++ (Text.octet (ip / 256 % 256) ++ [46] ++
        (Text.octet (ip / 65536 % 256) ++ [46] ++ Text.octet (ip / 16777216 % 256))) := by
    unfold Text.iptoa Text.iptoaLoop Text.iptoaLoop Text.iptoaLoop Text.iptoaLoop Text.iptoaLoop reversed
    have hA : ip % 256 < 256 := Nat.mod_lt _ (by decide)
    have hB : ip / 256 % 256 < 256 := Nat.mod_lt _ (by decide)
    have hC : ip / 65536 % 256 < 256 := Nat.mod_lt _ (by decide)
    have hD : ip / 16777216 % 256 < 256 := Nat.mod_lt _ (by decide)
    generalize ip % 256 = A at *
    generalize ip / 256 % 256 = B at *
    generalize ip / 65536 % 256 = C at *
    generalize ip / 16777216 % 256 = D at *
    have a1 : (A * 16777216 + B * 65536 + C * 256 + D) / 2 ^ (8 * 3) % 256 = A := by
      simp only [Nat.reduceMul, Nat.reducePow]; omega
    have a2 : (A * 16777216 + B * 65536 + C * 256 + D) / 2 ^ (8 * 2) % 256 = B := by
      simp only [Nat.reduceMul, Nat.reducePow]; omega
    have a3 : (A * 16777216 + B * 65536 + C * 256 + D) / 2 ^ (8 * 1) % 256 = C := by
      simp only [Nat.reduceMul, Nat.reducePow]; omega
    have a4 : (A * 16777216 + B * 65536 + C * 256 + D) / 2 ^ (8 * 0) % 256 = D := by
      simp only [Nat.reduceMul, Nat.reducePow]; omega
    rw [a1, a2, a3, a4]
    simp
  rw [e]
  unfold formatPtr ptrLoop ptrLoop ptrLoop ptrLoop ptrLoop
  have w1 := writeU8_eq (ip % 256) (Nat.mod_lt _ (by decide))
  have w2 := writeU8_eq (ip / 256 % 256) (Nat.mod_lt _ (by decide))
  have w3 := writeU8_eq (ip / 65536 % 256) (Nat.mod_lt _ (by decide))
  have w4 := writeU8_eq (ip / 16777216 % 256) (Nat.mod_lt _ (by decide))
  rw [w1, w2, w3, w4]
  have l1 := hl (ip % 256)
  have l2 := hl (ip / 256 % 256)
  have l3 := hl (ip / 65536 % 256)
  have l4 := hl (ip / 16777216 % 256)
  generalize Text.octet (ip % 256) = A at *
  generalize Text.octet (ip / 256 % 256) = B at *
  generalize Text.octet (ip / 65536 % 256) = C at *
  generalize Text.octet (ip / 16777216 % 256) = D at *
  simp only [List.length_append, List.length_nil, List.length_cons, List.nil_append]
  rw [if_neg (by omega), if_neg (by omega), if_neg (by omega), if_neg (by omega), if_neg (by omega),
    if_neg (by omega), if_neg (by omega), if_neg (by omega), if_neg (by omega)]
  simp

/-- Concrete case: `www.example.com.` is accepted and encoded. -/
example : encodeName [119, 119, 119, 46, 101, 120, 46, 99, 46] =
    some [3, 119, 119, 119, 2, 101, 120, 1, 99, 0] := by decide +kernel

example : formatPtr 128 3232238335 = some (Text.iptoa 4278888640 ++ [46] ++ arpa) := by decide +kernel

end Wolf.Dns
