import Verif.Http.ResponseProps

/-! # C131: what reaches the connection -/

namespace Wolf.Http.Resp

/-- The transport never takes a part of a write: it refuses or takes all of it (no length reaches 2^64). -/
def NoShort (c : C) : Prop := ∀ r ∈ c.ans, r ≤ 0 ∨ 18446744073709551616 ≤ r

theorem put_closed (c : C) (d : List Nat) (h : c.isOpen = false) : put c d = c := by
  unfold put send close
  rw [if_pos h]
  dsimp only
  rw [if_pos (by decide)]
  cases c; cases h; rfl

theorem put_ok {c c' : C} {d : List Nat} {n : Int} (h : send c d = (c', n)) (hn : 0 < n) : put c d = c' := by
  unfold put; rw [h]; dsimp only; rw [if_neg (by omega)]

theorem put_fail {c c' : C} {d : List Nat} {n : Int} (h : send c d = (c', n)) (hn : n ≤ 0) : put c d = close c' := by
  unfold put; rw [h]; dsimp only; rw [if_pos hn]

theorem send_all {c : C} {d : List Nat} {r : Int} {rs : List Int} (ho : c.isOpen = true) (h0 : d ≠ []) (ha : c.ans = r :: rs)
    (hr : d.length ≤ r) : send c d = ({ c with ans := rs, out := c.out ++ d }, (d.length : Int)) := by
  have hl : d.length ≠ 0 := fun x => h0 (List.length_eq_zero_iff.1 x)
  unfold send
  rw [if_neg (by rw [ho]; simp), if_neg h0, ha]
  dsimp only
  rw [if_neg (by omega), List.take_of_length_le (by omega)]
  congr 1
  omega

theorem send_refused {c : C} {d : List Nat} {r : Int} {rs : List Int} (ho : c.isOpen = true) (h0 : d ≠ []) (ha : c.ans = r :: rs)
    (hr : r ≤ 0) : send c d = ({ c with ans := rs }, r) := by
  unfold send
  rw [if_neg (by rw [ho]; simp), if_neg h0, ha]
  dsimp only
  rw [if_pos hr]

theorem send_none {c : C} {d : List Nat} (ho : c.isOpen = true) (h0 : d ≠ []) (ha : c.ans = []) : send c d = (c, -11) := by
  unfold send
  rw [if_neg (by rw [ho]; simp), if_neg h0, ha]

theorem send_empty {c : C} (ho : c.isOpen = true) : send c [] = (c, -1) := by
  unfold send
  rw [if_neg (by rw [ho]; simp), if_pos rfl]

/-- A write goes through whole or closes the connection. -/
theorem put_cases (c : C) (d : List Nat) (ho : c.isOpen = true) (hd : d.length < 18446744073709551616) (hn : NoShort c) :
    NoShort (put c d) ∧
    ((put c d).isOpen = true ∧ (put c d).out = c.out ++ d ∨ (put c d).isOpen = false ∧ (put c d).out = c.out) := by
  by_cases h0 : d = []
  · subst h0
    rw [put_fail (send_empty ho) (by decide)]
    exact ⟨hn, .inr ⟨rfl, rfl⟩⟩
  cases ha : c.ans with
  | nil => rw [put_fail (send_none ho h0 ha) (by decide)]; exact ⟨hn, .inr ⟨rfl, rfl⟩⟩
  | cons r rs =>
    have hrs : ∀ x ∈ rs, x ≤ 0 ∨ (18446744073709551616 : Int) ≤ x := fun x hx => hn x (by rw [ha]; exact List.mem_cons_of_mem _ hx)
    rcases hn r (by rw [ha]; simp) with h | h
    · rw [put_fail (send_refused ho h0 ha h) h]; exact ⟨hrs, .inr ⟨rfl, rfl⟩⟩
    · have hl : d.length ≠ 0 := fun x => h0 (List.length_eq_zero_iff.1 x)
      rw [put_ok (send_all ho h0 ha (by omega)) (by omega)]
      exact ⟨hrs, .inl ⟨ho, rfl⟩⟩

/-- Writes one after the other. -/
def puts (c : C) (ps : List (List Nat)) : C := ps.foldl put c

theorem puts_closed (ps : List (List Nat)) (c : C) (h : c.isOpen = false) : puts c ps = c := by
  induction ps generalizing c with
  | nil => rfl
  | cons p ps ih => show puts (put c p) ps = c; rw [put_closed c p h, ih c h]

theorem puts_cases : ∀ (ps : List (List Nat)) (c : C), c.isOpen = true → (∀ p ∈ ps, p.length < 18446744073709551616) → NoShort c →
    NoShort (puts c ps) ∧
    ((puts c ps).isOpen = true ∧ (puts c ps).out = c.out ++ ps.flatten ∨ (puts c ps).isOpen = false ∧ (puts c ps).out <+: c.out ++ ps.flatten)
  | [], c, ho, _, hn => ⟨hn, .inl ⟨ho, by simp [puts]⟩⟩
  | p :: ps, c, ho, hp, hn => by
    show NoShort (puts (put c p) ps) ∧ _
    obtain ⟨n1, h | h⟩ := put_cases c p ho (hp p (by simp)) hn
    · obtain ⟨n2, h2⟩ := puts_cases ps (put c p) h.1 (fun q hq => hp q (by simp [hq])) n1
      refine ⟨n2, ?_⟩
      rw [h.2, List.append_assoc] at h2
      exact h2
    · have e : puts c (p :: ps) = put c p := puts_closed ps _ h.1
      have e' : puts (put c p) ps = put c p := puts_closed ps _ h.1
      rw [e, e']
      exact ⟨n1, .inr ⟨h.1, by rw [h.2]; exact List.prefix_append _ _⟩⟩

/-- With an answer for every write, all of them "all of it", the connection stays open. -/
theorem puts_open : ∀ (ps : List (List Nat)) (c : C), c.isOpen = true → (∀ p ∈ ps, p ≠ [] ∧ p.length < 18446744073709551616) →
    ps.length ≤ c.ans.length → (∀ r ∈ c.ans, (18446744073709551616 : Int) ≤ r) →
    (puts c ps).isOpen = true ∧ (puts c ps).ans = c.ans.drop ps.length
  | [], c, ho, _, _, _ => ⟨ho, rfl⟩
  | p :: ps, c, ho, hp, hl, ha => by
    show (puts (put c p) ps).isOpen = true ∧ (puts (put c p) ps).ans = _
    cases hc : c.ans with
    | nil => rw [hc] at hl; cases hl
    | cons r rs =>
      have hr : (18446744073709551616 : Int) ≤ r := ha r (by rw [hc]; simp)
      have hp0 := hp p (by simp)
      have hl0 : p.length ≠ 0 := fun x => hp0.1 (List.length_eq_zero_iff.1 x)
      have key : (put c p).isOpen = true ∧ (put c p).ans = rs := by
        rw [put_ok (send_all ho hp0.1 hc (by have := hp0.2; omega)) (by omega)]
        exact ⟨ho, rfl⟩
      have ih := puts_open ps (put c p) key.1 (fun q hq => hp q (by simp [hq])) (by rw [key.2]; rw [hc] at hl; simpa using hl)
        (by rw [key.2]; intro x hx; exact ha x (by rw [hc]; exact List.mem_cons_of_mem _ hx))
      rw [key.2] at ih
      exact ih

/-- A chunk is three writes, of which the later ones do nothing after a failure. -/
theorem chunk_eq (c : C) (d : List Nat) : chunk c d = puts c [sizeLine d.length, d, crlf] := by
  show chunk c d = put (put (put c (sizeLine d.length)) d) crlf
  unfold chunk
  by_cases h1 : (send c (sizeLine d.length)).2 ≤ 0
  · rw [if_pos h1]
    have e : put c (sizeLine d.length) = close (send c (sizeLine d.length)).1 := by unfold put; rw [if_pos h1]
    rw [e, put_closed _ _ rfl, put_closed _ _ rfl]
  · rw [if_neg h1]
    have e : put c (sizeLine d.length) = (send c (sizeLine d.length)).1 := by unfold put; rw [if_neg h1]
    rw [e]
    dsimp only
    generalize (send c (sizeLine d.length)).1 = c1
    by_cases h2 : (send c1 d).2 ≤ 0
    · rw [if_pos h2]
      have e : put c1 d = close (send c1 d).1 := by unfold put; rw [if_pos h2]
      rw [e, put_closed _ _ rfl]
    · rw [if_neg h2]
      have e : put c1 d = (send c1 d).1 := by unfold put; rw [if_neg h2]
      rw [e]; rfl

/-- The writes of a response. -/
def Made.pieces : Made → List (List Nat)
  | .sized s r t d => [headText s r t d.length, d]
  | .chunks s r t ds => headText s r t 0 :: (ds.map fun d : List Nat => [sizeLine d.length, d, crlf]).flatten ++ [[48] ++ crlf ++ crlf]

theorem puts_append (c : C) (a b : List (List Nat)) : puts c (a ++ b) = puts (puts c a) b := by simp [puts]

theorem chunks_eq : ∀ (ds : List (List Nat)) (c : C), ds.foldl chunk c = puts c (ds.map fun d : List Nat => [sizeLine d.length, d, crlf]).flatten
  | [], _ => rfl
  | d :: ds, c => by
    rw [List.map_cons, List.flatten_cons, puts_append, ← chunk_eq, ← chunks_eq ds]; rfl

theorem make_eq (c : C) (m : Made) : make c m = puts c m.pieces := by
  cases m with
  | sized s r t d => rfl
  | chunks s r t ds =>
    show chunkEnd (ds.foldl chunk (headers c s r t 0)) = puts c ((headText s r t 0 :: _) ++ _)
    rw [puts_append, chunks_eq]; rfl

theorem pieces_text (m : Made) (hg : m.Good) : m.pieces.flatten = m.text := by
  cases m with
  | sized s r t d =>
    obtain ⟨h1, h2, h3, h4, h5, h6, h7, h8, h9⟩ := hg
    have hl : d.length ≠ 0 := fun x => h8 (List.length_eq_zero_iff.1 x)
    show headText s r t d.length ++ (d ++ []) = _
    rw [headText_whole s r t _ h2 h1 h7 h9, if_neg hl, List.append_nil]; rfl
  | chunks s r t ds =>
    obtain ⟨h1, h2, h3, h4, h5, h6, h7, h8⟩ := hg
    show (headText s r t 0 :: (ds.map fun d : List Nat => [sizeLine d.length, d, crlf]).flatten ++ [[48] ++ crlf ++ crlf]).flatten = _
    rw [List.flatten_append, List.flatten_cons, headText_whole s r t _ h2 h1 h7 (by omega), if_pos rfl]
    have e : ∀ ds : List (List Nat), (∀ d ∈ ds, d ≠ [] ∧ d.length < 18446744073709551616) →
        (ds.map fun d : List Nat => [sizeLine d.length, d, crlf]).flatten.flatten = (ds.map chunkText).flatten := by
      intro ds
      induction ds with
      | nil => intro _; rfl
      | cons d ds ih =>
        intro h
        rw [List.map_cons, List.flatten_cons, List.flatten_append, ih (fun x hx => h x (by simp [hx])), List.map_cons, List.flatten_cons]
        congr 1
        simp only [List.flatten_cons, List.flatten_nil, List.append_nil, chunkText, sizeLine_whole _ (h d (by simp)).2, List.append_assoc]
    rw [e ds h8]
    simp [Made.text, List.append_assoc]

theorem pieces_small (m : Made) (hg : m.Good) : ∀ p ∈ m.pieces, p ≠ [] ∧ p.length < 18446744073709551616 := by
  have head : ∀ s r t n, headText s r t n ≠ [] ∧ (headText s r t n).length < 18446744073709551616 := by
    intro s r t n
    unfold headText cut
    constructor
    · intro e
      have := congrArg List.length e
      rw [List.length_take] at this
      split at this <;> (rw [List.length_nil] at this; simp only [List.length_append] at this; have : tHttp.length = 9 := rfl; omega)
    · rw [List.length_take]; omega
  cases m with
  | sized s r t d =>
    obtain ⟨h1, h2, h3, h4, h5, h6, h7, h8, h9⟩ := hg
    intro p hp
    simp only [Made.pieces, List.mem_cons, List.not_mem_nil, or_false] at hp
    rcases hp with rfl | rfl
    · exact head _ _ _ _
    · exact ⟨h8, h9⟩
  | chunks s r t ds =>
    obtain ⟨h1, h2, h3, h4, h5, h6, h7, h8⟩ := hg
    intro p hp
    rcases List.mem_append.1 hp with hp | hp
    · rcases List.mem_cons.1 hp with rfl | hp
      · exact head _ _ _ _
      · obtain ⟨l, hl, hp⟩ := List.mem_flatten.1 hp
        obtain ⟨d, hd, rfl⟩ := List.mem_map.1 hl
        simp only [List.mem_cons, List.not_mem_nil, or_false] at hp
        have n := number_read d.length (h8 d hd).2
        rcases hp with rfl | rfl | rfl
        · rw [sizeLine_whole _ (h8 d hd).2]
          refine ⟨by simp [crlf], ?_⟩
          rw [List.length_append]
          have : crlf.length = 2 := rfl
          omega
        · exact h8 _ hd
        · exact ⟨by simp [crlf], by simp [crlf]⟩
    · rw [List.mem_singleton] at hp; subst hp; exact ⟨by simp, by decide⟩

/-- The bytes of responses one after the other. -/
def texts (ms : List Made) : List Nat := (ms.map Made.text).flatten

theorem makes_eq : ∀ (ms : List Made) (c : C), ms.foldl make c = puts c (ms.map Made.pieces).flatten
  | [], _ => rfl
  | m :: ms, c => by
    rw [List.map_cons, List.flatten_cons, puts_append, ← make_eq, ← makes_eq ms]; rfl

theorem pieces_texts : ∀ ms : List Made, (∀ m ∈ ms, m.Good) → (ms.map Made.pieces).flatten.flatten = texts ms
  | [], _ => rfl
  | m :: ms, h => by
    rw [List.map_cons, List.flatten_cons, List.flatten_append, pieces_text m (h m (by simp)), pieces_texts ms (fun x hx => h x (by simp [hx]))]
    rfl

theorem all_small (ms : List Made) (h : ∀ m ∈ ms, m.Good) : ∀ p ∈ (ms.map Made.pieces).flatten, p ≠ [] ∧ p.length < 18446744073709551616 := by
  intro p hp
  obtain ⟨l, hl, hp⟩ := List.mem_flatten.1 hp
  obtain ⟨m, hm, rfl⟩ := List.mem_map.1 hl
  exact pieces_small m (h m hm) p hp

theorem clientAll_texts : ∀ ms : List Made, (∀ m ∈ ms, m.Good) → clientAll ms.length (texts ms) = some (ms.map Made.message)
  | [], _ => rfl
  | m :: ms, h => by
    show clientAll (ms.length + 1) (m.text ++ texts ms) = _
    rw [clientAll, response_read m (h m (by simp))]
    dsimp only
    rw [clientAll_texts ms (fun x hx => h x (by simp [hx]))]; rfl

/-- **C131, partial.** Any responses one after the other on one connection, over a transport that refuses or takes whole
writes: what was sent is a prefix of the responses' bytes, and while the connection is open it is all of them: the client
reads exactly the messages the application gave, in order. Missing: writes that are taken in part
(`short_write_corrupts`). -/
theorem responses_exact_partial (ms : List Made) (ans : List Int) (hg : ∀ m ∈ ms, m.Good) (hn : ∀ r ∈ ans, r ≤ 0 ∨ 18446744073709551616 ≤ r) :
    (ms.foldl make { ans := ans }).out <+: texts ms ∧
    ((ms.foldl make { ans := ans }).isOpen = true → clientAll ms.length (ms.foldl make { ans := ans }).out = some (ms.map Made.message)) := by
  rw [makes_eq]
  obtain ⟨-, h⟩ := puts_cases (ms.map Made.pieces).flatten { ans := ans } rfl (fun p hp => (all_small ms hg p hp).2) hn
  rw [pieces_texts ms hg] at h
  rcases h with ⟨h1, h2⟩ | ⟨h1, h2⟩
  · have h2 : _ = texts ms := h2
    exact ⟨by rw [h2]; exact List.prefix_rfl, fun _ => by rw [h2]; exact clientAll_texts ms hg⟩
  · exact ⟨h2, fun h => by rw [h] at h1; cases h1⟩

/-- **C131, service.** Over a transport that takes everything, and often enough, nothing is closed, so every response is
read. -/
theorem responses_delivered (ms : List Made) (ans : List Int) (hg : ∀ m ∈ ms, m.Good) (ha : ∀ r ∈ ans, (18446744073709551616 : Int) ≤ r)
    (hl : ((ms.map Made.pieces).flatten).length ≤ ans.length) :
    (ms.foldl make { ans := ans }).isOpen = true ∧ clientAll ms.length (ms.foldl make { ans := ans }).out = some (ms.map Made.message) := by
  have h : (ms.foldl make { ans := ans }).isOpen = true := by
    rw [makes_eq]
    exact (puts_open _ { ans := ans } rfl (all_small ms hg) hl ha).1
  exact ⟨h, (responses_exact_partial ms ans hg (fun r hr => .inr (ha r hr))).2 h⟩

/-- **C131, after a failure.** Nothing is sent any more once the connection was closed. -/
theorem closed_silent (c : C) (h : c.isOpen = false) (m : Made) (s : Nat) (t : List Nat) : make c m = c ∧ bare c s = c ∧ page c t = c := by
  refine ⟨by rw [make_eq]; exact puts_closed _ c h, put_closed _ _ h, ?_⟩
  show put (put c _) _ = c
  rw [put_closed _ _ h, put_closed _ _ h]

/-- A static page that is not empty is such a response. -/
theorem page_is_response (c : C) (t : List Nat) : page c t = make c (.sized 200 (statusText 200) tHtml t) := rfl

/-! ## Findings -/

/-- The bytes of an answer without data: a header that announces chunks, and no chunk. -/
def bareText (s : Nat) : List Nat := statusLine s (statusText s) ++ crlf ++ tType ++ tPlain ++ crlf ++ tChunked ++ crlf ++ crlf

theorem statusText_plain (s : Nat) : Plain (statusText s) ∧ (statusText s).length ≤ 21 := by
  unfold statusText
  repeat' split
  all_goals exact ⟨by unfold Plain; decide, by decide⟩

theorem line_starts {c : Nat} (hc : c ≠ 13) (t l r : List Nat) (h : line (c :: t) = some (l, r)) : ∃ l', l = c :: l' := by
  rw [line, if_neg (fun x => hc x.1)] at h
  cases hl : line t with
  | none => rw [hl] at h; cases h
  | some p => rw [hl] at h; cases h; exact ⟨_, rfl⟩

/-- Something that begins with "H" is not a chunk. -/
theorem unchunk_H (f : Nat) (t : List Nat) : unchunk f (72 :: t) = none := by
  cases f with
  | zero => rfl
  | succ f =>
    rw [unchunk]
    cases h : line (72 :: t) with
    | none => rfl
    | some p =>
      obtain ⟨l, r⟩ := p
      obtain ⟨l', rfl⟩ := line_starts (by decide) t l r h
      dsimp only
      rfl

theorem client_unfinished (s : Nat) (r ct rest : List Nat) (h : 100 ≤ s) (h' : s ≤ 999) (hr : Plain r) (ht : Plain ct)
    (hu : unchunk (rest.length + 1) rest = none) :
    client (statusLine s r ++ crlf ++ tType ++ ct ++ crlf ++ tChunked ++ crlf ++ crlf ++ rest) = none := by
  have e : statusLine s r ++ crlf ++ tType ++ ct ++ crlf ++ tChunked ++ crlf ++ crlf ++ rest =
      statusLine s r ++ 13 :: 10 :: (([tType ++ ct, tChunked].map (· ++ [13, 10])).flatten ++ 13 :: 10 :: rest) := by
    simp [crlf, List.append_assoc]
  have hp : 13 ∉ tType ++ ct := by
    intro x; rcases List.mem_append.1 x with x | x
    · revert x; decide
    · exact ht x
  unfold client
  rw [e, line_app _ _ (statusLine_plain s r (by omega) hr)]
  dsimp only
  rw [section_app _ _ _ (by simp; omega) (by
    intro l hl'
    rcases List.mem_cons.1 hl' with rfl | hl'
    · exact ⟨by simp [tType], hp⟩
    · rw [List.mem_singleton] at hl'; subst hl'; exact ⟨by decide, by decide⟩)]
  dsimp only
  rw [framed_chunked, hu]
  split
  · split
    · rename_i h; cases h
    · rfl
  · rfl

/-- **Finding** (`bare_never_ends`): the answers 200 OK, 400, 404, 418, 500 and 503 announce chunks and send none, not even
the last: as it stands the message never ends, and no response that follows on the connection is ever read. -/
theorem bare_never_ends (s : Nat) (h : 100 ≤ s) (h' : s ≤ 999) (ans : List Int) (r : Int) (hr : 18446744073709551616 ≤ r) (ms : List Made) :
    (bare { ans := r :: ans } s).out = bareText s ∧ (bare { ans := r :: ans } s).isOpen = true ∧
    client (bareText s ++ texts ms) = none := by
  have sp := statusText_plain s
  have e : headText s (statusText s) tPlain 0 = bareText s := by
    have : tPlain.length = 10 := rfl
    rw [headText_whole s _ _ _ h' h (by omega) (by omega), if_pos rfl]; rfl
  have hl : (bareText s).length ≤ 1460 := by
    rw [← e]; unfold headText cut; rw [List.length_take]; omega
  have hne : bareText s ≠ [] := by unfold bareText; simp [crlf]
  have hl0 : (bareText s).length ≠ 0 := fun x => hne (List.length_eq_zero_iff.1 x)
  have hp : bare { ans := r :: ans } s = { ans := ans, out := [] ++ bareText s } := by
    show put _ (headText s (statusText s) tPlain 0) = _
    rw [e, put_ok (send_all rfl hne rfl (by omega)) (by omega)]
  refine ⟨by rw [hp]; rfl, by rw [hp], ?_⟩
  · apply client_unfinished s _ _ _ h h' sp.1 (by unfold Plain; decide)
    cases ms with
    | nil => rfl
    | cons m ms =>
      have : ∃ t, texts (m :: ms) = 72 :: t := by
        cases m with
        | sized s r t d => exact ⟨_, rfl⟩
        | chunks s r t d => exact ⟨_, rfl⟩
      obtain ⟨t, ht⟩ := this
      rw [ht]; exact unchunk_H _ t

/-- **Finding** (`empty_page_closes`): an empty static page is announced in chunks; the write of no bytes then fails and the
connection is closed, so the client never has a whole message. -/
theorem empty_page_closes (c : C) : (page c []).isOpen = false := by
  unfold page body headers put
  generalize (if (send c (headText 200 (statusText 200) tHtml ([] : List Nat).length)).2 ≤ 0 then _ else _) = c1
  unfold send
  by_cases h : c1.isOpen = false
  · rw [if_pos h]; rfl
  · rw [if_neg h, if_pos rfl]; rfl

/-- **Finding** (`empty_chunk_closes`): a chunk of no bytes closes the connection as well. -/
theorem empty_chunk_closes (c : C) : (chunk c []).isOpen = false := by
  rw [chunk_eq]
  show (put (put (put c (sizeLine 0)) []) crlf).isOpen = false
  have : (put (put c (sizeLine 0)) []).isOpen = false := by
    generalize put c (sizeLine 0) = c1
    unfold put send
    by_cases h : c1.isOpen = false
    · rw [if_pos h]; rfl
    · rw [if_neg h, if_pos rfl]; rfl
  rw [put_closed _ _ this, this]

/-- **Finding** (`long_type_cut`): a header that does not fit its buffer is cut without its end: whatever data follows (data
without CR, say), the client never has a whole header. -/
theorem long_type_cut (s : Nat) (r t d : List Nat) (n : Nat) (h : 100 ≤ s) (h' : s ≤ 999) (hr : Plain r) (hrl : r.length ≤ 1000)
    (ht : Plain t) (hl : 1460 ≤ t.length) (hd : 13 ∉ d) : client (headText s r t n ++ d) = none := by
  have h3 : (dec s).length = 3 := by rw [status_digits s h h']; rfl
  have l1 : tHttp.length = 9 := rfl
  have l2 : tType.length = 14 := rfl
  have l5 : crlf.length = 2 := rfl
  have e : ∃ k, headText s r t n = statusLine s r ++ 13 :: 10 :: (tType ++ t.take k) := by
    refine ⟨1459 - (statusLine s r ++ crlf ++ tType).length, ?_⟩
    have hs : (statusLine s r ++ crlf ++ tType).length ≤ 1459 := by
      unfold statusLine
      simp only [List.length_append, List.length_singleton]; omega
    have cutIt : ∀ x : List Nat, cut httpTxBuf (statusLine s r ++ crlf ++ tType ++ (t ++ x)) =
        statusLine s r ++ 13 :: 10 :: (tType ++ t.take (1459 - (statusLine s r ++ crlf ++ tType).length)) := by
      intro x
      show (_ ++ (t ++ x)).take 1459 = _
      rw [List.take_append, List.take_of_length_le hs, List.take_append_of_le_length (by omega)]
      simp [crlf]
    unfold headText
    split
    · rw [← cutIt (crlf ++ tChunked ++ crlf ++ crlf)]; congr 1; simp [statusLine, List.append_assoc]
    · rw [← cutIt (crlf ++ tLength ++ dec n ++ crlf ++ crlf)]; congr 1; simp [statusLine, List.append_assoc]
  obtain ⟨k, e⟩ := e
  have none_ : line ((tType ++ t.take k) ++ d) = none := by
    apply line_none
    intro x
    rcases List.mem_append.1 x with x | x
    · rcases List.mem_append.1 x with x | x
      · revert x; decide
      · exact ht (List.mem_of_mem_take x)
    · exact hd x
  unfold client
  rw [e, List.append_assoc, List.cons_append, List.cons_append, line_app _ _ (statusLine_plain s r (by omega) hr)]
  dsimp only
  rw [section_, none_]

/-- **Finding** (`short_write_corrupts`): the transport's buffer has room for 20 bytes of the header and later for the data:
nothing is closed, and what was sent is not a prefix of the response; the data follows in the middle of the header. -/
theorem short_write_corrupts :
    (make { ans := [20, 100] } (.sized 200 (statusText 200) tHtml [104, 105])).isOpen = true ∧
    (make { ans := [20, 100] } (.sized 200 (statusText 200) tHtml [104, 105])).out =
      [72, 84, 84, 80, 47, 49, 46, 49, 32, 50, 48, 48, 32, 79, 75, 13, 10, 67, 111, 110, 104, 105] ∧
    client (make { ans := [20, 100] } (.sized 200 (statusText 200) tHtml [104, 105])).out = none := by decide +kernel

/-! ## Examples -/

/-- Two responses on one connection, one in chunks. -/
def exTwo : List Made := [.sized 200 (statusText 200) tHtml [60, 104, 49, 62], .chunks 418 (statusText 418) tPlain [[97, 98], List.replicate 300 99]]

example : (∀ m ∈ exTwo, m.Good) ∧ ((exTwo.map Made.pieces).flatten).length = 10 := by
  constructor
  · intro m hm
    rcases List.mem_cons.1 hm with rfl | hm
    · exact ⟨by decide, by decide, by unfold Plain; decide, by unfold Plain; decide, by decide, by decide, by decide, by decide, by decide⟩
    · rw [List.mem_singleton] at hm; subst hm
      refine ⟨by decide, by decide, by unfold Plain; decide, by unfold Plain; decide, by decide, by decide, by decide, ?_⟩
      intro d hd
      rcases List.mem_cons.1 hd with rfl | hd
      · exact ⟨by decide, by decide⟩
      · rw [List.mem_singleton] at hd; subst hd; exact ⟨fun h => by (have := congrArg List.length h; rw [List.length_replicate] at this; (cases this)), by rw [List.length_replicate]; omega⟩
  · decide +kernel

example : clientAll 2 (exTwo.foldl make { ans := List.replicate 10 99999999999999999999 }).out =
    some [⟨200, statusText 200, tHtml, [60, 104, 49, 62]⟩, ⟨418, statusText 418, tPlain, [97, 98] ++ List.replicate 300 99⟩] := by
  decide +kernel

end Wolf.Http.Resp
