import Verif.Http.Request

/-! # C77: which requests reach a handler, and with what -/

namespace Wolf.Http

/-! ## Specification: a request, from RFC 9112, on the bytes -/

/-- `line` is the header field `name` (any case) with value `v`: optional spaces and tabs after the colon do
not belong to the value. -/
def IsField (name line v : List Nat) : Prop :=
  ∃ nm ws, line = nm ++ 58 :: (ws ++ v) ∧ nm.map lower = name ∧ (∀ c ∈ ws, c = 32 ∨ c = 9) ∧
    (∀ c, v.head? = some c → c ≠ 32 ∧ c ≠ 9)

/-- `v` is the decimal text of `k`. -/
def Decimal (v : List Nat) (k : Nat) : Prop :=
  v ≠ [] ∧ (∀ c ∈ v, 48 ≤ c ∧ c ≤ 57) ∧ v.foldl (fun a c => a * 10 + (c - 48)) 0 = k

/-- A header line: not empty, without line break and NUL. -/
def Line (l : List Nat) : Prop := l ≠ [] ∧ 0 ∉ l ∧ ¬ [13, 10] <:+: l

/-- The bytes of the request `r`: `raw` is the path before percent-decoding, `hasQ` tells if there is a
question mark, `ver` the version text, `x` the byte after its carriage return, `lines` the header lines,
`ended` tells if the blank line is there. -/
def bytesOf (r : Req) (raw : List Nat) (hasQ : Bool) (ver : List Nat) (x : Nat) (lines : List (List Nat))
    (ended : Bool) : List Nat :=
  r.method ++ 32 :: (raw ++ (if hasQ then 63 :: r.query else []) ++ 32 :: (ver ++ 13 :: x ::
    (lines.flatMap (· ++ [13, 10]) ++ (if ended then 13 :: 10 :: r.body else []))))

/-- The lines joined by CRLF. -/
def joined : List (List Nat) → List Nat
  | [] => []
  | [l] => l
  | l :: ls => l ++ 13 :: 10 :: joined ls

/-- `r` is a request the server should act on, with its fields as sent. -/
structure Good (r : Req) (raw : List Nat) (hasQ : Bool) (ver : List Nat) (lines : List (List Nat)) : Prop where
  method : r.method = GET ∨ r.method = POST
  rawOk : 32 ∉ raw ∧ 0 ∉ raw ∧ 63 ∉ raw ∧ raw.length < 128
  path : dec raw = .text r.path ∧ 13 ∉ r.path ∧ 10 ∉ r.path
  query : 32 ∉ r.query ∧ 0 ∉ r.query ∧ 13 ∉ r.query ∧ 10 ∉ r.query ∧ r.query.length < 256 ∧
    (hasQ = false → r.query = [])
  verOk : 13 ∉ ver ∧ 0 ∉ ver
  linesOk : ∀ l ∈ lines, Line l
  headers : r.headers = joined lines ∧ r.headers.length < 1024
  /-- no transfer coding -/
  te : ∀ l ∈ lines, ∀ v, ¬ IsField nameTE l v
  /-- at most one Content-Length, a decimal number, which is the length of the body; no body without it -/
  cl : (∃ a l b v, lines = a ++ l :: b ∧ IsField nameCL l v ∧ Decimal v r.body.length ∧
        ∀ l' ∈ a ++ b, ∀ v', ¬ IsField nameCL l' v') ∨
      (r.body = [] ∧ ∀ l ∈ lines, ∀ v, ¬ IsField nameCL l v)
  body : r.body.length < 1024

/-! ## Proofs -/

theorem bind_ok {α β : Type} {a : R α} {f : α → R β} {c : β} :
    a.bind f = .ok c ↔ ∃ x, a = .ok x ∧ f x = .ok c := by
  cases a <;> simp [R.bind]

theorem badIf_ok {b : Bool} {u : Unit} : badIf b = .ok u ↔ b = false := by
  cases b <;> simp [badIf]

theorem fits_ok {cap n : Nat} {u : Unit} : fits cap n = .ok u ↔ n < cap := by
  unfold fits; split <;> simp [*]

theorem load_ok {n : Nat} {p s : List Nat} : load n p = .ok s ↔ n ≤ p.length ∧ p.take n = s := by
  unfold load; split <;> simp [*]

theorem adv_ok {n : Nat} {p s : List Nat} : adv n p = .ok s ↔ n ≤ p.length ∧ p.drop n = s := by
  unfold adv; split <;> simp [*]

/-- The first occurrence of `c`, before any NUL. -/
theorem chr_ok (c : Nat) (hc : c ≠ 0) : ∀ (p u q : List Nat),
    chr c p = .ok (u, q) ↔ p = u ++ q ∧ q.head? = some c ∧ c ∉ u ∧ 0 ∉ u
  | [], u, q => by
      simp only [chr]
      constructor
      · intro h; cases h
      · rintro ⟨h1, h2, -, -⟩
        have := List.append_eq_nil_iff.1 h1.symm
        rw [this.2] at h2; cases h2
  | x :: t, u, q => by
      simp only [chr]
      by_cases hx : x = c
      · rw [if_pos hx]
        constructor
        · intro h
          cases h
          exact ⟨rfl, by rw [hx]; rfl, by simp, by simp⟩
        · rintro ⟨h1, h2, h3, h4⟩
          cases u with
          | nil => rw [h1]; rfl
          | cons y u =>
            rw [List.cons_append, List.cons.injEq] at h1
            exact absurd (List.mem_cons.2 (Or.inl (h1.1 ▸ hx).symm)) h3
      · rw [if_neg hx]
        by_cases h0 : x = 0
        · rw [if_pos h0]
          constructor
          · intro h; cases h
          · rintro ⟨h1, h2, h3, h4⟩
            cases u with
            | nil =>
              rw [List.nil_append] at h1
              rw [← h1] at h2
              exact absurd (Option.some.inj h2) hx
            | cons y u =>
              rw [List.cons_append, List.cons.injEq] at h1
              exact absurd (List.mem_cons.2 (Or.inl (h1.1 ▸ h0).symm)) h4
        · rw [if_neg h0, bind_ok]
          constructor
          · rintro ⟨⟨u', q'⟩, h, e⟩
            obtain ⟨h1, h2, h3, h4⟩ := (chr_ok c hc t u' q').1 h
            cases e
            refine ⟨by rw [h1]; rfl, h2, ?_, ?_⟩
            · rw [List.mem_cons]; rintro (e | e)
              · exact hx e.symm
              · exact h3 e
            · rw [List.mem_cons]; rintro (e | e)
              · exact h0 e.symm
              · exact h4 e
          · rintro ⟨h1, h2, h3, h4⟩
            cases u with
            | nil =>
              rw [List.nil_append] at h1
              rw [← h1] at h2
              exact absurd (Option.some.inj h2) hx
            | cons y u =>
              rw [List.cons_append, List.cons.injEq] at h1
              refine ⟨(u, q), (chr_ok c hc t u q).2 ⟨h1.2, h2, ?_, ?_⟩, ?_⟩
              · exact fun e => h3 (List.mem_cons_of_mem _ e)
              · exact fun e => h4 (List.mem_cons_of_mem _ e)
              · rw [h1.1]

theorem crlf_cons {x : Nat} {t : List Nat} (h : [13, 10] <:+: x :: t) :
    (x = 13 ∧ t.head? = some 10) ∨ [13, 10] <:+: t := by
  rcases List.infix_cons_iff.1 h with h | h
  · left
    obtain ⟨s, hs⟩ := h
    rw [List.cons_append, List.cons.injEq] at hs
    refine ⟨hs.1.symm, ?_⟩
    rw [← hs.2]; rfl
  · exact Or.inr h

/-- The first CRLF, before any NUL. -/
theorem str_ok : ∀ (p u q : List Nat),
    str p = .ok (u, q) ↔ p = u ++ q ∧ (∃ w, q = 13 :: 10 :: w) ∧ ¬ [13, 10] <:+: u ∧ 0 ∉ u
  | [], u, q => by
      simp only [str]
      constructor
      · intro h; cases h
      · rintro ⟨h1, ⟨w, hw⟩, -, -⟩
        have := List.append_eq_nil_iff.1 h1.symm
        rw [this.2] at hw; cases hw
  | x :: t, u, q => by
      simp only [str]
      by_cases hx : x = 13 ∧ t.head? = some 10
      · rw [if_pos hx]
        obtain ⟨w, hw⟩ : ∃ w, t = 10 :: w := by
          cases t with
          | nil => cases hx.2
          | cons a t => exact ⟨t, by rw [Option.some.inj hx.2]⟩
        constructor
        · intro h
          cases h
          refine ⟨rfl, ⟨w, by rw [hx.1, hw]⟩, ?_, by simp⟩
          intro h
          have := h.length_le
          simp at this
        · rintro ⟨h1, ⟨w', hw'⟩, h3, h4⟩
          cases u with
          | nil => rw [h1]; rfl
          | cons y u =>
            exfalso
            rw [List.cons_append, List.cons.injEq] at h1
            cases u with
            | nil =>
              rw [List.nil_append] at h1
              rw [h1.2, hw'] at hw
              cases hw
            | cons z u =>
              apply h3
              rw [hw, List.cons_append, List.cons.injEq] at h1
              rw [← h1.1, hx.1, ← h1.2.1]
              exact ⟨[], u, rfl⟩
      · rw [if_neg hx]
        by_cases h0 : x = 0
        · rw [if_pos h0]
          constructor
          · intro h; cases h
          · rintro ⟨h1, ⟨w, hw⟩, h3, h4⟩
            cases u with
            | nil =>
              rw [List.nil_append, hw, List.cons.injEq] at h1
              exact absurd ⟨h1.1, by rw [h1.2]; rfl⟩ hx
            | cons y u =>
              rw [List.cons_append, List.cons.injEq] at h1
              exact absurd (List.mem_cons.2 (Or.inl (h1.1 ▸ h0).symm)) h4
        · rw [if_neg h0, bind_ok]
          constructor
          · rintro ⟨⟨u', q'⟩, h, e⟩
            obtain ⟨h1, h2, h3, h4⟩ := (str_ok t u' q').1 h
            cases e
            refine ⟨by rw [h1]; rfl, h2, ?_, ?_⟩
            · intro hi
              rcases crlf_cons hi with ⟨e1, e2⟩ | hi
              · apply hx
                refine ⟨e1, ?_⟩
                cases u' with
                | nil => cases e2
                | cons a u' => rw [h1]; exact e2
              · exact h3 hi
            · rw [List.mem_cons]; rintro (e | e)
              · exact h0 e.symm
              · exact h4 e
          · rintro ⟨h1, ⟨w, hw⟩, h3, h4⟩
            cases u with
            | nil =>
              rw [List.nil_append, hw, List.cons.injEq] at h1
              exact absurd ⟨h1.1, by rw [h1.2]; rfl⟩ hx
            | cons y u =>
              rw [List.cons_append, List.cons.injEq] at h1
              refine ⟨(u, q), (str_ok t u q).2 ⟨h1.2, ⟨w, hw⟩, ?_, ?_⟩, ?_⟩
              · exact fun e => h3 (e.trans ⟨[y], [], by simp⟩)
              · exact fun e => h4 (List.mem_cons_of_mem _ e)
              · rw [h1.1]

/-- Neither outside the buffer nor out of budget. -/
def Safe {α : Type} (r : R α) : Prop := r ≠ .oob ∧ r ≠ .running

theorem safe_bind {α β : Type} {a : R α} {f : α → R β} (ha : Safe a) (hf : ∀ x, a = .ok x → Safe (f x)) :
    Safe (a.bind f) := by
  cases h : a with
  | oob => exact absurd h ha.1
  | running => exact absurd h ha.2
  | bad => simp [R.bind, Safe]
  | quiet => simp [R.bind, Safe]
  | ok x => exact hf x h

theorem safe_ok {α : Type} (a : α) : Safe (R.ok a) := by simp [Safe]
theorem safe_bad {α : Type} : Safe (R.bad : R α) := by simp [Safe]
theorem safe_badIf (b : Bool) : Safe (badIf b) := by cases b <;> simp [badIf, Safe]
theorem safe_fits {c n : Nat} (h : n < c) : Safe (fits c n) := by simp [fits, h, Safe]
theorem safe_load {n : Nat} {p : List Nat} (h : n ≤ p.length) : Safe (load n p) := by simp [load, h, Safe]
theorem safe_adv {n : Nat} {p : List Nat} (h : n ≤ p.length) : Safe (adv n p) := by simp [adv, h, Safe]

/-- No scan runs past the terminator. -/
theorem chr_safe (c : Nat) : ∀ p : List Nat, 0 ∈ p → Safe (chr c p)
  | [], h => by cases h
  | x :: t, h => by
      simp only [chr]
      split
      · exact safe_ok _
      · split
        · exact safe_bad
        · next h0 =>
          have hm : 0 ∈ t := by
            rcases List.mem_cons.1 h with e | e
            · exact absurd e.symm h0
            · exact e
          exact safe_bind (chr_safe c t hm) fun _ _ => safe_ok _

theorem str_safe : ∀ p : List Nat, 0 ∈ p → Safe (str p)
  | [], h => by cases h
  | x :: t, h => by
      simp only [str]
      split
      · exact safe_ok _
      · split
        · exact safe_bad
        · next h0 =>
          have hm : 0 ∈ t := by
            rcases List.mem_cons.1 h with e | e
            · exact absurd e.symm h0
            · exact e
          exact safe_bind (str_safe t hm) fun _ _ => safe_ok _

/-! ### Header fields -/

/-- Space or tab. -/
def isWs (c : Nat) : Bool := c == 32 || c == 9

theorem takeWhile_append_of {α : Type} {p : α → Bool} {a b : List α} (ha : ∀ x ∈ a, p x = true)
    (hb : ∀ c, b.head? = some c → p c = false) : (a ++ b).takeWhile p = a ∧ (a ++ b).dropWhile p = b := by
  induction a with
  | nil =>
    cases b with
    | nil => simp
    | cons x t => have := hb x rfl; simp [this]
  | cons x t ih =>
    have hx := ha x (List.mem_cons_self ..)
    have := ih (fun y hy => ha y (List.mem_cons_of_mem _ hy))
    simp [hx, this]

theorem head_dropWhile {α : Type} (p : α → Bool) (l : List α) (c : α) (h : (l.dropWhile p).head? = some c) :
    p c = false := by
  induction l with
  | nil => cases h
  | cons x t ih =>
    rw [List.dropWhile_cons] at h
    split at h
    · exact ih h
    · next hx => cases h; simpa using hx

theorem mem_takeWhile_holds {α : Type} (p : α → Bool) (l : List α) (c : α) (h : c ∈ l.takeWhile p) : p c = true := by
  induction l with
  | nil => cases h
  | cons x t ih =>
    rw [List.takeWhile_cons] at h
    split at h
    · next hx =>
      rcases List.mem_cons.1 h with e | e
      · rw [e]; exact hx
      · exact ih e
    · cases h

theorem drop_takeWhile {α : Type} (p : α → Bool) (l : List α) : l.drop (l.takeWhile p).length = l.dropWhile p := by
  induction l with
  | nil => rfl
  | cons x t ih =>
    by_cases hx : p x = true
    · simp [hx, ih]
    · simp [hx]

theorem isField_iff (name l v : List Nat) : IsField name l v ↔
    name.length + 1 ≤ l.length ∧ (l.take name.length).map lower = name ∧ l.getD name.length 0 = 58 ∧
      v = (l.drop (name.length + 1)).dropWhile isWs := by
  constructor
  · rintro ⟨nm, ws, h1, h2, h3, h4⟩
    have hl : nm.length = name.length := by rw [← h2, List.length_map]
    have hd : l.drop (name.length + 1) = ws ++ v := by
      rw [h1, ← hl, ← List.drop_drop, List.drop_left']
      · rfl
      · rfl
    refine ⟨?_, ?_, ?_, ?_⟩
    · rw [h1]; simp; omega
    · rw [h1, ← hl, List.take_left', h2]; rfl
    · rw [h1, ← hl, List.getD_eq_getElem?_getD, List.getElem?_append_right (Nat.le_refl _)]; simp
    · rw [hd]
      refine ((takeWhile_append_of ?_ ?_).2).symm
      · intro x hx; rcases h3 x hx with e | e <;> rw [e] <;> rfl
      · intro c hc; have := h4 c hc; simp [isWs, this]
  · rintro ⟨h1, h2, h3, h4⟩
    refine ⟨l.take name.length, (l.drop (name.length + 1)).takeWhile isWs, ?_, h2, ?_, ?_⟩
    · rw [h4, List.takeWhile_append_dropWhile]
      have hlt : name.length < l.length := by omega
      rw [List.getD_eq_getElem?_getD, List.getElem?_eq_getElem hlt, Option.getD_some] at h3
      rw [← h3, ← List.drop_eq_getElem_cons hlt, List.take_append_drop]
    · intro c hc
      have := mem_takeWhile_holds _ _ _ hc
      simpa [isWs] using this
    · intro c hc
      rw [h4] at hc
      have := head_dropWhile _ _ _ hc
      simpa [isWs] using this

theorem field_unique {name l v w : List Nat} (h : IsField name l v) (h' : IsField name l w) : v = w := by
  rw [((isField_iff _ _ _).1 h).2.2.2, ((isField_iff _ _ _).1 h').2.2.2]

/-- `http_header_value` on a line `l`. -/
theorem headerValue_spec (name l q : List Nat) (hn : name.map lower = name) :
    (∃ v k, IsField name l v ∧ headerValue (l ++ q) l.length name = .ok (some k) ∧ l.drop k = v) ∨
    ((∀ v, ¬ IsField name l v) ∧ headerValue (l ++ q) l.length name = .ok none) := by
  unfold headerValue
  by_cases h1 : l.length < name.length + 1
  · right
    rw [if_pos h1]
    exact ⟨fun v h => by have := ((isField_iff _ _ _).1 h).1; omega, rfl⟩
  · rw [if_neg h1]
    have hl : load l.length (l ++ q) = .ok l := load_ok.2 ⟨by simp, by simp⟩
    rw [hl]
    by_cases h2 : (l.take name.length).map lower = name
    · by_cases h3 : l.getD name.length 0 = 58
      · left
        refine ⟨(l.drop (name.length + 1)).dropWhile isWs,
          name.length + 1 + ((l.drop (name.length + 1)).takeWhile isWs).length,
          (isField_iff _ _ _).2 ⟨by omega, h2, h3, rfl⟩, ?_, ?_⟩
        · show (if _ then _ else if _ then _ else _) = _
          rw [if_neg (by rw [hn]; simpa using h2), if_neg (by simpa using h3)]
          rfl
        · rw [← List.drop_drop, drop_takeWhile]
      · right
        refine ⟨fun v h => h3 ((isField_iff _ _ _).1 h).2.2.1, ?_⟩
        show (if _ then _ else if _ then _ else _) = _
        rw [if_neg (by rw [hn]; simpa using h2), if_pos h3]
    · right
      refine ⟨fun v h => h2 ((isField_iff _ _ _).1 h).2.1, ?_⟩
      show (if _ then _ else _) = _
      rw [if_pos (by rw [hn]; exact h2)]

theorem nameCL_lower : nameCL.map lower = nameCL := by decide
theorem nameTE_lower : nameTE.map lower = nameTE := by decide

/-- A line is not both fields. -/
theorem not_both {l v w : List Nat} (h : IsField nameCL l v) (h' : IsField nameTE l w) : False := by
  obtain ⟨-, h1, -, -⟩ := (isField_iff _ _ _).1 h
  obtain ⟨-, h2, -, -⟩ := (isField_iff _ _ _).1 h'
  have e1 : ((l.take 14).map lower).head? = some 99 := by
    have : (l.take nameCL.length).map lower = (l.take 14).map lower := rfl
    rw [← this, h1]; rfl
  have e2 : ((l.take 17).map lower).head? = some 116 := by
    have : (l.take nameTE.length).map lower = (l.take 17).map lower := rfl
    rw [← this, h2]; rfl
  cases l with
  | nil => cases e1
  | cons x t =>
    have a : lower x = 99 := Option.some.inj e1
    have b : lower x = 116 := Option.some.inj e2
    omega

/-! ### The number -/

theorem foldl_ge : ∀ (v : List Nat) (a : Nat), a ≤ v.foldl (fun a c => a * 10 + (c - 48)) a
  | [], a => Nat.le_refl _
  | x :: t, a => by
      rw [List.foldl_cons]
      exact Nat.le_trans (by omega) (foldl_ge t _)

theorem digits_ok : ∀ (v : List Nat) (a k : Nat), digits v a = .ok k ↔
    (∀ c ∈ v, 48 ≤ c ∧ c ≤ 57) ∧ v.foldl (fun a c => a * 10 + (c - 48)) a = k ∧ (v ≠ [] → k ≤ 1024)
  | [], a, k => by simp [digits]
  | x :: t, a, k => by
      rw [digits]
      by_cases hx : 48 ≤ x ∧ x ≤ 57
      · rw [if_pos (show isDigit x = true from decide_eq_true hx)]
        by_cases hb : a * 10 + (x - 48) > 1024
        · rw [if_pos hb]
          constructor
          · intro h; cases h
          · rintro ⟨-, h2, h3⟩
            have := foldl_ge t (a * 10 + (x - 48))
            rw [List.foldl_cons] at h2
            have h4 := h3 (by simp)
            omega
        · rw [if_neg hb, digits_ok t]
          simp only [List.foldl_cons, List.forall_mem_cons]
          constructor
          · rintro ⟨h1, h2, h3⟩
            refine ⟨⟨hx, h1⟩, h2, fun _ => ?_⟩
            cases t with
            | nil => simp at h2; omega
            | cons y t => exact h3 (by simp)
          · rintro ⟨h1, h2, h3⟩
            exact ⟨h1.2, h2, fun _ => h3 (by simp)⟩
      · rw [if_neg (show ¬ isDigit x = true by unfold isDigit; rw [decide_eq_true_eq]; exact hx)]
        constructor
        · intro h; cases h
        · rintro ⟨h1, -, -⟩
          exact absurd (h1 x (List.mem_cons_self ..)) hx

theorem digits_safe : ∀ (v : List Nat) (a : Nat), Safe (digits v a)
  | [], a => safe_ok _
  | x :: t, a => by
      simp only [digits]
      split
      · split
        · exact safe_bad
        · exact digits_safe t _
      · exact safe_bad

/-! ### One header line -/

/-- What the framing headers of a line do. -/
inductive Fr (l : List Nat) : Hd → Hd → Prop
  | cl {h : Hd} {v : List Nat} {k : Nat} (f : IsField nameCL l v) (d : Decimal v k) (hk : k ≤ 1024)
      (hn : h.cl = none) : Fr l h { h with cl := some k }
  | te {h : Hd} {v : List Nat} (f : IsField nameTE l v) : Fr l h { h with te := true }
  | other {h : Hd} (f : ∀ v, ¬ IsField nameCL l v) (g : ∀ v, ¬ IsField nameTE l v) : Fr l h h

theorem load_line (l q : List Nat) : load l.length (l ++ q) = .ok l := load_ok.2 ⟨by simp, by simp⟩

theorem framing_ok (l q : List Nat) (h h' : Hd) : framing (l ++ q) l.length h = .ok h' ↔ Fr l h h' := by
  unfold framing
  rcases headerValue_spec nameCL l q nameCL_lower with ⟨v, k, f, e, dk⟩ | ⟨f, e⟩
  · rw [e]
    show (if _ then _ else _) = _ ↔ _
    cases hc : h.cl with
    | some c =>
      rw [if_pos (by rfl)]
      constructor
      · intro e; cases e
      · intro hf
        cases hf with
        | cl f' d hk hn => rw [hc] at hn; cases hn
        | te g => exact (not_both f g).elim
        | other f' _ => exact absurd f (f' _)
    | none =>
      rw [if_neg (by simp), load_line]
      show (if _ then _ else _) = _ ↔ _
      rw [dk]
      by_cases hv : v = []
      · rw [if_pos hv]
        constructor
        · intro e; cases e
        · intro hf
          cases hf with
          | cl f' d hk hn => exact absurd (field_unique f f' ▸ hv) d.1
          | te g => exact (not_both f g).elim
          | other f' _ => exact absurd f (f' _)
      · rw [if_neg hv, bind_ok]
        constructor
        · rintro ⟨c, hd, e⟩
          obtain ⟨d1, d2, d3⟩ := (digits_ok _ _ _).1 hd
          cases e
          exact .cl f ⟨hv, d1, d2⟩ (d3 hv) hc
        · intro hf
          cases hf with
          | cl f' d hk hn =>
            have := field_unique f f'
            subst this
            exact ⟨_, (digits_ok _ _ _).2 ⟨d.2.1, d.2.2, fun _ => hk⟩, rfl⟩
          | te g => exact (not_both f g).elim
          | other f' _ => exact absurd f (f' _)
  · rw [e]
    show (headerValue _ _ _).bind _ = _ ↔ _
    rcases headerValue_spec nameTE l q nameTE_lower with ⟨w, k, g, e', -⟩ | ⟨g, e'⟩
    · rw [e']
      constructor
      · intro e; cases e; exact .te g
      · intro hf
        cases hf with
        | cl f' _ _ _ => exact absurd f' (f _)
        | te _ => rfl
        | other _ g' => exact absurd g (g' _)
    · rw [e']
      constructor
      · intro e; cases e; exact .other f g
      · intro hf
        cases hf with
        | cl f' _ _ _ => exact absurd f' (f _)
        | te g' => exact absurd g' (g _)
        | other _ _ => rfl

theorem framing_safe (l q : List Nat) (h : Hd) : Safe (framing (l ++ q) l.length h) := by
  unfold framing
  refine safe_bind ?_ fun v hv => ?_
  · rcases headerValue_spec nameCL l q nameCL_lower with ⟨v, k, -, e, -⟩ | ⟨-, e⟩ <;> rw [e] <;> exact safe_ok _
  · cases v with
    | some k =>
      dsimp only
      split
      · exact safe_bad
      · rw [load_line]
        refine safe_bind (safe_ok _) fun line _ => ?_
        split
        · exact safe_bad
        · exact safe_bind (digits_safe _ _) fun _ _ => safe_ok _
    | none =>
      refine safe_bind ?_ fun w hw => ?_
      · rcases headerValue_spec nameTE l q nameTE_lower with ⟨v, k, -, e, -⟩ | ⟨-, e⟩ <;> rw [e] <;> exact safe_ok _
      · cases w <;> exact safe_ok _

/-- The stored headers after one more line. -/
def plus (a l : List Nat) : List Nat := if a = [] then l else a ++ [13, 10] ++ l

theorem keep_ok (l q : List Nat) (h h' : Hd) : keep (l ++ q) l.length h = .ok h' ↔
    (plus h.hdr l).length < 1024 ∧ h' = { h with hdr := plus h.hdr l } := by
  unfold keep plus
  by_cases he : h.hdr = []
  · simp only [he, List.length_nil, Nat.lt_irrefl, gt_iff_lt, if_false, if_true, load_line]
    rw [bind_ok]
    constructor
    · rintro ⟨_, h1, h2⟩
      rw [badIf_ok, decide_eq_false_iff_not] at h1
      rw [bind_ok] at h2
      obtain ⟨_, e, h2⟩ := h2
      cases e
      rw [bind_ok] at h2
      obtain ⟨_, -, h2⟩ := h2
      cases h2
      exact ⟨by omega, by simp⟩
    · rintro ⟨h1, h2⟩
      refine ⟨(), badIf_ok.2 (decide_eq_false (by omega)), ?_⟩
      show (fits _ _).bind _ = _
      rw [bind_ok]
      refine ⟨(), fits_ok.2 (by omega), ?_⟩
      rw [h2]; simp
  · have hp : h.hdr.length > 0 := by
      cases hh : h.hdr with
      | nil => exact absurd hh he
      | cons => simp
    simp only [he, hp, if_true, if_false, load_line]
    rw [bind_ok]
    constructor
    · rintro ⟨_, h1, h2⟩
      rw [badIf_ok, decide_eq_false_iff_not] at h1
      rw [bind_ok] at h2
      obtain ⟨_, e, h2⟩ := h2
      cases e
      rw [bind_ok] at h2
      obtain ⟨_, -, h2⟩ := h2
      cases h2
      exact ⟨by simp; omega, rfl⟩
    · rintro ⟨h1, h2⟩
      simp at h1
      refine ⟨(), badIf_ok.2 (decide_eq_false (by omega)), ?_⟩
      show (fits _ _).bind _ = _
      rw [bind_ok]
      refine ⟨(), fits_ok.2 (by omega), ?_⟩
      rw [h2]

theorem keep_safe (l q : List Nat) (h : Hd) : Safe (keep (l ++ q) l.length h) := by
  unfold keep
  dsimp only
  refine safe_bind (safe_badIf _) fun _ hb => ?_
  rw [badIf_ok, decide_eq_false_iff_not] at hb
  rw [load_line]
  refine safe_bind (safe_ok _) fun _ _ => ?_
  exact safe_bind (safe_fits (by omega)) fun _ _ => safe_ok _

/-! ### The header loop -/

/-- Lines collected one after the other. -/
inductive Coll : Hd → List (List Nat) → Hd → Prop
  | nil (h : Hd) : Coll h [] h
  | cons {h h1 h2 : Hd} {l : List Nat} {ls : List (List Nat)} (f : Fr l h h1) (n : (plus h1.hdr l).length < 1024)
      (r : Coll { h1 with hdr := plus h1.hdr l } ls h2) : Coll h (l :: ls) h2

/-- The header section and what follows. -/
def section_ (lines : List (List Nat)) (ended : Bool) (body : List Nat) : List Nat :=
  lines.flatMap (· ++ [13, 10]) ++ (if ended then 13 :: 10 :: body else [])

theorem len_plus (a l : List Nat) : l.length ≤ (plus a l).length := by
  unfold plus
  split
  · exact Nat.le_refl _
  · simp; omega

theorem headers_ok : ∀ (fuel : Nat) (s : List Nat) (h : Hd) (p' : List Nat) (h' : Hd), s.length < fuel →
    (headers fuel (s ++ [0]) h = .ok (p', h') ↔
      ∃ lines ended body, (∀ l ∈ lines, Line l) ∧ s = section_ lines ended body ∧
        (ended = false → body = []) ∧ p' = body ++ [0] ∧ Coll h lines h')
  | 0, s, h, p', h', hf => by omega
  | fuel + 1, s, h, p', h', hf => by
      unfold headers
      by_cases hs : s = []
      · rw [hs]
        rw [if_neg (by simp)]
        constructor
        · intro e; cases e
          exact ⟨[], false, [], by simp, rfl, fun _ => rfl, rfl, .nil _⟩
        · rintro ⟨lines, ended, body, -, h2, h3, h4, h5⟩
          cases lines with
          | nil =>
            cases ended with
            | true => cases h2
            | false =>
              rw [h3 rfl] at h4
              cases h5
              rw [h4]
          | cons l ls => simp [section_] at h2
      · have h1 : 1 < (s ++ [0]).length := by
          cases s with
          | nil => exact absurd rfl hs
          | cons => simp
        rw [if_pos h1, bind_ok]
        -- what a match of CRLF means inside `s`
        have inS : ∀ u q, s ++ [0] = u ++ q → (∃ w, q = 13 :: 10 :: w) → ∃ w, s = u ++ 13 :: 10 :: w ∧ q = 13 :: 10 :: (w ++ [0]) := by
          rintro u q e ⟨w, hw⟩
          rw [hw] at e
          have hne : w ≠ [] := by
            intro hw0
            rw [hw0] at e
            have := congrArg List.getLast? e
            simp at this
          obtain ⟨w', z, hz⟩ : ∃ w' z, w = w' ++ [z] := by
            rcases List.eq_nil_or_concat w with e | ⟨a, b, e⟩
            · exact absurd e hne
            · exact ⟨a, b, by rw [e, List.concat_eq_append]⟩
          rw [hz] at e
          have e' : s ++ [0] = (u ++ 13 :: 10 :: w') ++ [z] := by simpa using e
          obtain ⟨a, b⟩ := List.append_inj' e' rfl
          cases b
          exact ⟨w', a, by rw [hw, hz]⟩
        constructor
        · rintro ⟨⟨u, q⟩, hstr, hk⟩
          obtain ⟨e1, e2, e3, e4⟩ := (str_ok _ _ _).1 hstr
          obtain ⟨w, hw1, hw2⟩ := inS u q e1 e2
          have hadv : adv 2 q = .ok (w ++ [0]) := by rw [hw2]; exact adv_ok.2 ⟨by simp, rfl⟩
          dsimp only at hk
          by_cases hu : u.length = 0
          · rw [if_pos hu, hadv] at hk
            have hu' : u = [] := by simpa using hu
            cases hk
            rw [hu'] at hw1
            exact ⟨[], true, w, by simp, hw1, (by intro c; cases c), rfl, .nil _⟩
          · rw [if_neg hu, bind_ok] at hk
            obtain ⟨_, -, hk⟩ := hk
            rw [e1, bind_ok] at hk
            obtain ⟨h1', hfr, hk⟩ := hk
            rw [bind_ok] at hk
            obtain ⟨h2', hkp, hk⟩ := hk
            rw [hadv] at hk
            obtain ⟨k1, k2⟩ := (keep_ok _ _ _ _).1 hkp
            have hlen : w.length < fuel := by
              rw [hw1] at hf; simp at hf; omega
            obtain ⟨lines, ended, body, a1, a2, a3, a4, a5⟩ := (headers_ok fuel w h2' p' h' hlen).1 hk
            refine ⟨u :: lines, ended, body, ?_, ?_, a3, a4, ?_⟩
            · rw [List.forall_mem_cons]
              exact ⟨⟨by intro c; rw [c] at hu; exact hu rfl, e4, e3⟩, a1⟩
            · rw [hw1, a2]; simp [section_]
            · rw [k2] at a5
              exact .cons ((framing_ok _ _ _ _).1 hfr) k1 a5
        · rintro ⟨lines, ended, body, a1, a2, a3, a4, a5⟩
          cases lines with
          | nil =>
            cases ended with
            | false => exact absurd a2 hs
            | true =>
              have e : s ++ [0] = 13 :: 10 :: (body ++ [0]) := by rw [a2]; rfl
              refine ⟨([], s ++ [0]), (str_ok _ _ _).2 ⟨rfl, ⟨body ++ [0], e⟩, ?_, by simp⟩, ?_⟩
              · intro h; have := h.length_le; simp at this
              · cases a5
                dsimp only
                rw [if_pos (by rfl), e, a4]
                rfl
          | cons l ls =>
            rw [List.forall_mem_cons] at a1
            have e : s = l ++ 13 :: 10 :: section_ ls ended body := by rw [a2]; simp [section_]
            have e' : s ++ [0] = l ++ 13 :: 10 :: (section_ ls ended body ++ [0]) := by rw [e]; simp
            refine ⟨(l, 13 :: 10 :: (section_ ls ended body ++ [0])),
              (str_ok _ _ _).2 ⟨e', ⟨_, rfl⟩, a1.1.2.2, a1.1.2.1⟩, ?_⟩
            cases a5 with
            | cons f n r =>
              have hl : l.length ≠ 0 := by
                intro c; exact a1.1.1 (by simpa using c)
              dsimp only
              rw [if_neg hl, bind_ok]
              refine ⟨(), badIf_ok.2 (decide_eq_false (Nat.not_le_of_lt (Nat.lt_of_le_of_lt (len_plus _ l) n))), ?_⟩
              rw [e', bind_ok]
              refine ⟨_, (framing_ok _ _ _ _).2 f, ?_⟩
              rw [bind_ok]
              refine ⟨_, (keep_ok _ _ _ _).2 ⟨n, rfl⟩, ?_⟩
              rw [bind_ok]
              refine ⟨section_ ls ended body ++ [0], adv_ok.2 ⟨by simp, rfl⟩, ?_⟩
              refine (headers_ok fuel _ _ _ _ ?_).2 ⟨ls, ended, body, a1.2, rfl, a3, a4, r⟩
              rw [e] at hf; simp at hf; omega

theorem headers_safe : ∀ (fuel : Nat) (s : List Nat) (h : Hd), s.length < fuel → Safe (headers fuel (s ++ [0]) h)
  | 0, s, h, hf => by omega
  | fuel + 1, s, h, hf => by
      unfold headers
      split
      · refine safe_bind (str_safe _ (by simp)) fun r hr => ?_
        obtain ⟨u, q⟩ := r
        obtain ⟨e1, ⟨w, hw⟩, e3, e4⟩ := (str_ok _ _ _).1 hr
        dsimp only
        have hq : 2 ≤ q.length := by rw [hw]; simp
        split
        · exact safe_bind (safe_adv hq) fun _ _ => safe_ok _
        · refine safe_bind (safe_badIf _) fun _ _ => ?_
          rw [e1]
          refine safe_bind (framing_safe _ _ _) fun h1 _ => ?_
          refine safe_bind (keep_safe _ _ _) fun h2 _ => ?_
          refine safe_bind (safe_adv hq) fun p' hp' => ?_
          obtain ⟨-, hp'⟩ := adv_ok.1 hp'
          -- what is left ends in the terminator
          have hl : (s ++ [0]).length = u.length + q.length := by rw [e1]; simp
          have hd : p' = (s ++ [0]).drop (u.length + 2) := by
            rw [e1, ← List.drop_drop, List.drop_left' rfl, hp']
          by_cases hle : u.length + 2 ≤ s.length
          · rw [hd, List.drop_append_of_le_length hle]
            exact headers_safe fuel _ _ (by simp; omega)
          · exfalso
            have : w = [] := by
              have : w.length = 0 := by rw [hw] at hl; simp at hl; omega
              simpa using this
            rw [this] at hw
            rw [hw] at e1
            have := congrArg List.getLast? e1
            simp at this
      · exact safe_ok _

/-! ### What the collected state means -/

theorem coll_te {h h' : Hd} {ls : List (List Nat)} (c : Coll h ls h') :
    h'.te = false ↔ h.te = false ∧ ∀ l ∈ ls, ∀ v, ¬ IsField nameTE l v := by
  induction c with
  | nil h => simp
  | @cons h h1 h2 l ls f n r ih =>
    rw [ih, List.forall_mem_cons]
    cases f with
    | cl f d hk hn =>
      constructor
      · rintro ⟨a, b⟩; exact ⟨a, fun v hv => not_both f hv, b⟩
      · rintro ⟨a, -, b⟩; exact ⟨a, b⟩
    | te f =>
      constructor
      · rintro ⟨a, b⟩; cases a
      · rintro ⟨a, g, b⟩; exact absurd f (g _)
    | other f g =>
      constructor
      · rintro ⟨a, b⟩; exact ⟨a, g, b⟩
      · rintro ⟨a, -, b⟩; exact ⟨a, b⟩

/-- `Content-Length` fields of the lines. -/
def OneCL (ls : List (List Nat)) (k : Nat) : Prop :=
  ∃ a l b v, ls = a ++ l :: b ∧ IsField nameCL l v ∧ Decimal v k ∧ ∀ l' ∈ a ++ b, ∀ v', ¬ IsField nameCL l' v'

def NoCL (ls : List (List Nat)) : Prop := ∀ l ∈ ls, ∀ v, ¬ IsField nameCL l v

theorem coll_cl {h h' : Hd} {ls : List (List Nat)} (c : Coll h ls h') :
    (∀ k, h.cl = some k → h'.cl = some k ∧ NoCL ls) ∧
    (h.cl = none → (h'.cl = none ∧ NoCL ls) ∨ (∃ k, h'.cl = some k ∧ k ≤ 1024 ∧ OneCL ls k)) := by
  induction c with
  | nil h => exact ⟨fun k e => ⟨e, by simp [NoCL]⟩, fun e => Or.inl ⟨e, by simp [NoCL]⟩⟩
  | @cons h h1 h2 l ls f n r ih =>
    cases f with
    | @cl v k' f d hk hn =>
      refine ⟨fun k e => (by rw [hn] at e; cases e), fun _ => Or.inr ?_⟩
      obtain ⟨a, b⟩ := ih.1 k' rfl
      exact ⟨k', a, hk, [], l, ls, v, rfl, f, d, b⟩
    | te f =>
      have g : ∀ v, ¬ IsField nameCL l v := fun v hv => not_both hv f
      refine ⟨fun k e => ?_, fun e => ?_⟩
      · obtain ⟨a, b⟩ := ih.1 k e
        exact ⟨a, List.forall_mem_cons.2 ⟨g, b⟩⟩
      · rcases ih.2 e with ⟨a, b⟩ | ⟨k, a, hk, a', l', b', v', e1, e2, e3, e4⟩
        · exact Or.inl ⟨a, List.forall_mem_cons.2 ⟨g, b⟩⟩
        · refine Or.inr ⟨k, a, hk, l :: a', l', b', v', by rw [e1]; rfl, e2, e3, ?_⟩
          rw [List.cons_append, List.forall_mem_cons]
          exact ⟨g, e4⟩
    | other g _ =>
      refine ⟨fun k e => ?_, fun e => ?_⟩
      · obtain ⟨a, b⟩ := ih.1 k e
        exact ⟨a, List.forall_mem_cons.2 ⟨g, b⟩⟩
      · rcases ih.2 e with ⟨a, b⟩ | ⟨k, a, hk, a', l', b', v', e1, e2, e3, e4⟩
        · exact Or.inl ⟨a, List.forall_mem_cons.2 ⟨g, b⟩⟩
        · refine Or.inr ⟨k, a, hk, l :: a', l', b', v', by rw [e1]; rfl, e2, e3, ?_⟩
          rw [List.cons_append, List.forall_mem_cons]
          exact ⟨g, e4⟩

theorem joined_cons (l : List Nat) (ls : List (List Nat)) :
    joined (l :: ls) = l ++ ls.flatMap (fun x => 13 :: 10 :: x) := by
  induction ls generalizing l with
  | nil => simp [joined]
  | cons m ms ih =>
    rw [joined, ih]
    · simp
    · intro c; cases c

theorem coll_hdr {h h' : Hd} {ls : List (List Nat)} (c : Coll h ls h') (hne : ∀ l ∈ ls, l ≠ []) :
    h'.hdr = (if h.hdr = [] then joined ls else h.hdr ++ ls.flatMap (fun x => 13 :: 10 :: x)) ∧
    (h.hdr.length < 1024 → h'.hdr.length < 1024) := by
  induction c with
  | nil h => refine ⟨?_, fun h => h⟩; split
             · next e => rw [e]; rfl
             · simp
  | @cons h h1 h2 l ls f n r ih =>
    rw [List.forall_mem_cons] at hne
    have e1 : h1.hdr = h.hdr := by cases f <;> rfl
    have hp : plus h1.hdr l ≠ [] := by
      unfold plus
      split
      · exact hne.1
      · simp
    obtain ⟨i1, i2⟩ := ih hne.2
    dsimp only at i1 i2
    rw [if_neg hp] at i1
    refine ⟨?_, fun _ => i2 n⟩
    rw [i1, e1, plus]
    split
    · rw [joined_cons]
    · simp

/-- Conversely, the collection succeeds under these conditions. -/
theorem coll_exists : ∀ (ls : List (List Nat)) (h : Hd), (∀ l ∈ ls, l ≠ []) →
    (h.hdr ++ ls.flatMap (fun x => 13 :: 10 :: x)).length < 1024 + (if h.hdr = [] then 2 else 0) →
    ((NoCL ls) ∨ (h.cl = none ∧ ∃ k, k ≤ 1024 ∧ OneCL ls k)) → ∃ h', Coll h ls h'
  | [], h, _, _, _ => ⟨h, .nil h⟩
  | l :: ls, h, hne, hlen, hcl => by
      rw [List.forall_mem_cons] at hne
      have hl1 : (plus h.hdr l).length < 1024 := by
        unfold plus
        by_cases he : h.hdr = []
        · rw [if_pos he]; rw [if_pos he, he] at hlen; simp at hlen; omega
        · rw [if_neg he]; rw [if_neg he] at hlen; simp at hlen ⊢; omega
      have hp : plus h.hdr l ≠ [] := by
        unfold plus
        split
        · exact hne.1
        · simp
      have hlen' : (plus h.hdr l ++ ls.flatMap (fun x => 13 :: 10 :: x)).length < 1024 + (if plus h.hdr l = [] then 2 else 0) := by
        rw [if_neg hp]
        unfold plus
        by_cases he : h.hdr = []
        · rw [if_pos he]; rw [if_pos he, he] at hlen; simp at hlen ⊢; omega
        · rw [if_neg he]; rw [if_neg he] at hlen; simp at hlen ⊢; omega
      by_cases f : ∃ v, IsField nameCL l v
      · obtain ⟨v, f⟩ := f
        rcases hcl with hn | ⟨hn, k, hk, a, l', b, v', e1, e2, e3, e4⟩
        · exact absurd f (hn l (List.mem_cons_self ..) v)
        · cases a with
          | cons x a =>
            rw [List.cons_append, List.cons.injEq] at e1
            exact absurd f (e1.1 ▸ e4 x (by simp) v)
          | nil =>
            rw [List.nil_append, List.cons.injEq] at e1
            obtain ⟨e0, e1⟩ := e1
            subst e0; subst e1
            obtain ⟨h', c⟩ := coll_exists ls { h with cl := some k, hdr := plus h.hdr l } hne.2 hlen' (Or.inl (by simpa [NoCL] using e4))
            exact ⟨h', .cons (.cl e2 e3 hk hn) hl1 c⟩
      · have f' : ∀ v, ¬ IsField nameCL l v := fun v hv => f ⟨v, hv⟩
        have hcl' : (NoCL ls) ∨ (h.cl = none ∧ ∃ k, k ≤ 1024 ∧ OneCL ls k) := by
          rcases hcl with hn | ⟨hn, k, hk, a, l', b, v', e1, e2, e3, e4⟩
          · exact Or.inl fun x hx => hn x (List.mem_cons_of_mem _ hx)
          · refine Or.inr ⟨hn, k, hk, ?_⟩
            cases a with
            | nil =>
              rw [List.nil_append, List.cons.injEq] at e1
              exact absurd (e1.1 ▸ e2) (f' _)
            | cons x a =>
              rw [List.cons_append, List.cons.injEq] at e1
              exact ⟨a, l', b, v', e1.2, e2, e3, fun y hy => e4 y (by simp at hy ⊢; exact Or.inr hy)⟩
        by_cases g : ∃ v, IsField nameTE l v
        · obtain ⟨v, g⟩ := g
          obtain ⟨h', c⟩ := coll_exists ls { h with te := true, hdr := plus h.hdr l } hne.2 hlen' hcl'
          exact ⟨h', .cons (.te g) hl1 c⟩
        · obtain ⟨h', c⟩ := coll_exists ls { h with hdr := plus h.hdr l } hne.2 hlen' hcl'
          exact ⟨h', .cons (.other f' fun v hv => g ⟨v, hv⟩) hl1 c⟩

/-! ### Path, query, body -/

theorem decodePath_ok (raw path : List Nat) (hl : raw.length < 128) : decodePath raw = .ok path ↔
    dec raw = .text path ∧ 13 ∉ path ∧ 10 ∉ path := by
  unfold decodePath
  have hd := url_decode_correct raw (List.replicate (128 - raw.length) 0)
  cases hx : dec raw with
  | truncated =>
    rw [hx] at hd
    obtain ⟨m, h1, -⟩ := hd
    rw [h1]
    constructor
    · intro e; cases e
    · rintro ⟨e, -⟩; cases e
  | bad =>
    rw [hx] at hd
    obtain ⟨m, h1, -⟩ := hd
    rw [h1]
    constructor
    · intro e; cases e
    · rintro ⟨e, -⟩; cases e
  | text l =>
    rw [hx] at hd
    obtain ⟨j, h1, h2⟩ := hd
    have hll : l.length ≤ raw.length := by simp at h2; omega
    rw [h1]
    show (fits _ _).bind _ = _ ↔ _
    rw [bind_ok]
    have ld : load l.length (l ++ j ++ List.replicate (128 - raw.length) 0) = .ok l := by
      rw [List.append_assoc]; exact load_line _ _
    constructor
    · rintro ⟨_, -, h⟩
      rw [ld] at h
      obtain ⟨_, hb, h⟩ := bind_ok.1 (show (badIf _).bind _ = _ from h)
      rw [badIf_ok, Bool.or_eq_false_iff] at hb
      cases h
      exact ⟨rfl, by simpa using hb.1, by simpa using hb.2⟩
    · rintro ⟨e, e1, e2⟩
      cases e
      refine ⟨(), fits_ok.2 (by omega), ?_⟩
      rw [ld]
      show (badIf _).bind _ = _
      rw [bind_ok]
      exact ⟨(), badIf_ok.2 (by rw [Bool.or_eq_false_iff]; exact ⟨by simpa using e1, by simpa using e2⟩), rfl⟩

theorem decodePath_safe (raw : List Nat) (hl : raw.length < 128) : Safe (decodePath raw) := by
  unfold decodePath
  have hd := url_decode_correct raw (List.replicate (128 - raw.length) 0)
  cases hx : dec raw with
  | truncated => rw [hx] at hd; obtain ⟨m, h1, -⟩ := hd; rw [h1]; exact safe_bad
  | bad => rw [hx] at hd; obtain ⟨m, h1, -⟩ := hd; rw [h1]; exact safe_bad
  | text l =>
    rw [hx] at hd
    obtain ⟨j, h1, h2⟩ := hd
    have hll : l.length ≤ raw.length := by simp at h2; omega
    rw [h1]
    refine safe_bind (safe_fits (by omega)) fun _ _ => ?_
    refine safe_bind (safe_load (by simp)) fun _ _ => ?_
    exact safe_bind (safe_badIf _) fun _ _ => safe_ok _

theorem target_ok (t path query : List Nat) : target t = .ok (path, query) ↔
    ∃ raw hasQ, t = raw ++ (if hasQ then 63 :: query else []) ∧ 63 ∉ raw ∧ raw.length < 128 ∧
      dec raw = .text path ∧ 13 ∉ path ∧ 10 ∉ path ∧ 13 ∉ query ∧ 10 ∉ query ∧ query.length < 256 ∧
      (hasQ = false → query = []) := by
  unfold target
  dsimp only
  have hsplit : t = t.takeWhile (· ≠ 63) ++ t.dropWhile (· ≠ 63) := (List.takeWhile_append_dropWhile).symm
  have hraw : 63 ∉ t.takeWhile (· ≠ 63) := fun h => by
    have := mem_takeWhile_holds _ _ _ h; simp at this
  have hhead := head_dropWhile (· ≠ 63) t
  constructor
  · intro h
    obtain ⟨_, h1, h⟩ := bind_ok.1 h
    rw [badIf_ok, decide_eq_false_iff_not] at h1
    obtain ⟨_, -, h⟩ := bind_ok.1 h
    obtain ⟨p, hp, h⟩ := bind_ok.1 h
    obtain ⟨d1, d2, d3⟩ := (decodePath_ok _ _ (by omega)).1 hp
    cases hd : t.dropWhile (· ≠ 63) with
    | nil =>
      rw [hd] at h
      cases h
      exact ⟨t.takeWhile (· ≠ 63), false, by rw [← hd]; simp, hraw, by omega, d1, d2, d3, by simp, by simp,
        by simp, fun _ => rfl⟩
    | cons c q =>
      rw [hd] at h hhead
      have hc : c = 63 := by have := hhead c rfl; simpa using this
      obtain ⟨_, h2, h⟩ := bind_ok.1 h
      rw [badIf_ok, decide_eq_false_iff_not] at h2
      obtain ⟨_, h3, h⟩ := bind_ok.1 h
      rw [badIf_ok, Bool.or_eq_false_iff] at h3
      obtain ⟨_, -, h⟩ := bind_ok.1 h
      cases h
      refine ⟨t.takeWhile (· ≠ 63), true, ?_, hraw, by omega, d1, d2, d3, by simpa using h3.1, by simpa using h3.2,
        by omega, fun e => by cases e⟩
      rw [hd, hc] at hsplit
      exact hsplit
  · rintro ⟨raw, hasQ, e, h63, hlen, d1, d2, d3, q1, q2, q3, q4⟩
    have ht : t.takeWhile (· ≠ 63) = raw ∧ t.dropWhile (· ≠ 63) = (if hasQ then 63 :: query else []) := by
      rw [e]
      refine takeWhile_append_of ?_ ?_
      · intro x hx; simp; intro c; exact h63 (c ▸ hx)
      · intro c hc; cases hasQ with
        | true => cases hc; simp
        | false => cases hc
    rw [ht.1, ht.2]
    refine bind_ok.2 ⟨(), badIf_ok.2 (decide_eq_false (by omega)), ?_⟩
    refine bind_ok.2 ⟨(), fits_ok.2 hlen, ?_⟩
    refine bind_ok.2 ⟨path, (decodePath_ok _ _ hlen).2 ⟨d1, d2, d3⟩, ?_⟩
    cases hasQ with
    | false => rw [q4 rfl]; rfl
    | true =>
      refine bind_ok.2 ⟨(), badIf_ok.2 (decide_eq_false (by omega)), ?_⟩
      refine bind_ok.2 ⟨(), badIf_ok.2 (by rw [Bool.or_eq_false_iff]; exact ⟨by simpa using q1, by simpa using q2⟩), ?_⟩
      exact bind_ok.2 ⟨(), fits_ok.2 q3, rfl⟩

theorem target_safe (t : List Nat) : Safe (target t) := by
  unfold target
  dsimp only
  refine safe_bind (safe_badIf _) fun _ h1 => ?_
  rw [badIf_ok, decide_eq_false_iff_not] at h1
  refine safe_bind (safe_fits (by omega)) fun _ _ => ?_
  refine safe_bind (decodePath_safe _ (by omega)) fun _ _ => ?_
  split
  · exact safe_ok _
  · refine safe_bind (safe_badIf _) fun _ h2 => ?_
    rw [badIf_ok, decide_eq_false_iff_not] at h2
    refine safe_bind (safe_badIf _) fun _ _ => ?_
    exact safe_bind (safe_fits (by omega)) fun _ _ => safe_ok _

theorem bodyOf_ok (s b : List Nat) (h : Hd) (hs : s.length < 18446744073709551616) : bodyOf (s ++ [0]) h = .ok b ↔
    b = s ∧ h.te = false ∧ (h.cl = some s.length ∨ (h.cl = none ∧ s = [])) ∧ s.length < 1024 := by
  unfold bodyOf
  have hn : ((s ++ [0]).length + 18446744073709551615) % 18446744073709551616 = s.length := by
    simp only [List.length_append, List.length_singleton]
    omega
  rw [hn]
  have nil_iff : s = [] ↔ ¬ s.length > 0 := by
    cases s <;> simp
  constructor
  · intro e
    obtain ⟨_, h1, e⟩ := bind_ok.1 e
    rw [badIf_ok] at h1
    obtain ⟨_, h2, e⟩ := bind_ok.1 e
    rw [badIf_ok] at h2
    have hcl : h.cl = some s.length ∨ (h.cl = none ∧ s = []) := by
      cases hc : h.cl with
      | none => rw [hc] at h2; exact Or.inr ⟨rfl, nil_iff.2 (of_decide_eq_false h2)⟩
      | some c =>
        rw [hc] at h2
        have := of_decide_eq_false h2
        left; exact congrArg some (by omega)
    split at e
    · split at e
      · cases e
      · rw [load_line] at e
        obtain ⟨_, -, e⟩ := bind_ok.1 (show (fits _ _).bind _ = _ from e)
        cases e
        exact ⟨rfl, h1, hcl, by omega⟩
    · next h0 => cases e; exact ⟨(nil_iff.2 h0).symm, h1, hcl, by omega⟩
  · rintro ⟨e, h1, h2, h3⟩
    refine bind_ok.2 ⟨(), badIf_ok.2 h1, ?_⟩
    refine bind_ok.2 ⟨(), badIf_ok.2 ?_, ?_⟩
    · rcases h2 with h2 | ⟨h2, h4⟩
      · rw [h2]; simp
      · rw [h2]; simp [h4]
    · split
      · rw [if_neg (by omega), load_line]
        show (fits _ _).bind _ = _
        exact bind_ok.2 ⟨(), fits_ok.2 h3, by rw [e]⟩
      · next h0 => rw [e, nil_iff.2 h0]

theorem bodyOf_safe (p : List Nat) (h : Hd) (hp : p.length < 18446744073709551616) : Safe (bodyOf p h) := by
  unfold bodyOf
  dsimp only
  refine safe_bind (safe_badIf _) fun _ _ => ?_
  refine safe_bind (safe_badIf _) fun _ _ => ?_
  split
  · split
    · simp [Safe]
    · refine safe_bind (safe_load ?_) fun _ _ => ?_
      · omega
      · exact safe_bind (safe_fits (by omega)) fun _ _ => safe_ok _
  · exact safe_ok _

/-! ### The whole request -/

/-- The pieces before the header section. -/
theorem front {b u q : List Nat} {c : Nat} (e : b ++ [0] = u ++ q) (hc : q.head? = some c) (hc0 : c ≠ 0) :
    ∃ w, b = u ++ c :: w ∧ q = c :: (w ++ [0]) := by
  cases q with
  | nil => cases hc
  | cons x q =>
    cases hc
    rcases List.eq_nil_or_concat q with h | ⟨w, z, h⟩
    · rw [h] at e
      obtain ⟨-, e2⟩ := List.append_inj' e rfl
      cases e2
      exact absurd rfl hc0
    · rw [List.concat_eq_append] at h
      rw [h] at e
      have e' : b ++ [0] = (u ++ c :: w) ++ [z] := by simpa using e
      obtain ⟨e1, e2⟩ := List.append_inj' e' rfl
      cases e2
      exact ⟨w, e1, by rw [h]⟩

theorem chr_front (c : Nat) (hc : c ≠ 0) (b u q : List Nat) : chr c (b ++ [0]) = .ok (u, q) ↔
    ∃ w, b = u ++ c :: w ∧ q = c :: (w ++ [0]) ∧ c ∉ u ∧ 0 ∉ u := by
  rw [chr_ok c hc]
  constructor
  · rintro ⟨h1, h2, h3, h4⟩
    obtain ⟨w, a, b⟩ := front h1 h2 hc
    exact ⟨w, a, b, h3, h4⟩
  · rintro ⟨w, h1, h2, h3, h4⟩
    exact ⟨by rw [h1, h2]; simp, by rw [h2]; rfl, h3, h4⟩

/-- **No read or write outside** the receive buffer or a field of the request, and the header loop ends. -/
theorem request_safe (b : List Nat) (hb : b.length < 4294967296) : Safe (parseReq b) := by
  unfold parseReq
  refine safe_bind (safe_badIf _) fun _ _ => ?_
  refine safe_bind (chr_safe _ _ (by simp)) fun r1 h1 => ?_
  obtain ⟨u1, q1⟩ := r1
  obtain ⟨w1, e1, f1, -, -⟩ := (chr_front 32 (by decide) _ _ _).1 h1
  refine safe_bind (safe_badIf _) fun _ hm => ?_
  rw [badIf_ok, decide_eq_false_iff_not] at hm
  refine safe_bind (safe_fits (by omega)) fun _ _ => ?_
  dsimp only
  refine safe_bind (safe_adv (by rw [f1]; simp)) fun p1 a1 => ?_
  have hp1 : p1 = w1 ++ [0] := by rw [← (adv_ok.1 a1).2, f1]; rfl
  rw [hp1]
  refine safe_bind (chr_safe _ _ (by simp)) fun r2 h2 => ?_
  obtain ⟨u2, q2⟩ := r2
  obtain ⟨w2, e2, f2, -, -⟩ := (chr_front 32 (by decide) _ _ _).1 h2
  refine safe_bind (target_safe _) fun pq _ => ?_
  dsimp only
  refine safe_bind (safe_adv (by rw [f2]; simp)) fun p2 a2 => ?_
  have hp2 : p2 = w2 ++ [0] := by rw [← (adv_ok.1 a2).2, f2]; rfl
  rw [hp2]
  refine safe_bind (chr_safe _ _ (by simp)) fun r3 h3 => ?_
  obtain ⟨u3, q3⟩ := r3
  obtain ⟨w3, e3, f3, -, -⟩ := (chr_front 13 (by decide) _ _ _).1 h3
  dsimp only
  refine safe_bind (safe_adv (by rw [f3]; simp)) fun p3 a3 => ?_
  have hp3 : p3 = (w3 ++ [0]).drop 1 := by rw [← (adv_ok.1 a3).2, f3]; rfl
  have hlen : w3.length < b.length := by rw [e1, e2, e3]; simp; omega
  have hh : Safe (headers (b.length + 1) p3 ⟨none, false, []⟩) ∧
      ∀ x, headers (b.length + 1) p3 ⟨none, false, []⟩ = .ok x → x.1.length ≤ b.length + 1 := by
    cases w3 with
    | nil =>
      have : p3 = [] := by rw [hp3]; rfl
      rw [this]
      refine ⟨safe_ok _, fun x hx => ?_⟩
      cases hx
      simp
    | cons y w =>
      have : p3 = w ++ [0] := by rw [hp3]; rfl
      rw [this]
      refine ⟨headers_safe _ _ _ (by simp at hlen; omega), fun x hx => ?_⟩
      obtain ⟨lines, ended, body, -, g1, g3, g2, -⟩ := (headers_ok _ _ _ x.1 x.2 (by simp at hlen; omega)).1 hx
      rw [g2]
      have : body.length ≤ w.length ∨ body = [] := by
        cases ended with
        | true => left; rw [g1]; simp [section_]; omega
        | false => right; exact g3 rfl
      simp at hlen
      rcases this with h | h
      · simp; omega
      · rw [h]; simp
  refine safe_bind hh.1 fun ph hph => ?_
  have := hh.2 ph hph
  refine safe_bind (bodyOf_safe _ _ (by omega)) fun _ _ => ?_
  exact safe_bind (safe_badIf _) fun _ _ => safe_ok _

/-- **Exactly the requests of the specification are accepted, with exactly their fields**; `ended = false` is the
case of a request whose blank line never came, which the server takes as complete (see
`unfinished_request_is_served`). -/
theorem request_exact_partial (b : List Nat) (r : Req) (hb : b.length < 4294967296) : parseReq b = .ok r ↔
    ∃ raw hasQ ver x lines ended, b = bytesOf r raw hasQ ver x lines ended ∧ Good r raw hasQ ver lines ∧
      (ended = false → r.body = []) := by
  constructor
  · intro h
    unfold parseReq at h
    obtain ⟨_, -, h⟩ := bind_ok.1 h
    obtain ⟨⟨u1, q1⟩, h1, h⟩ := bind_ok.1 h
    obtain ⟨w1, e1, f1, n1, z1⟩ := (chr_front 32 (by decide) _ _ _).1 h1
    obtain ⟨_, -, h⟩ := bind_ok.1 h
    obtain ⟨_, -, h⟩ := bind_ok.1 h
    dsimp only at h
    obtain ⟨p1, a1, h⟩ := bind_ok.1 h
    have hp1 : p1 = w1 ++ [0] := by rw [← (adv_ok.1 a1).2, f1]; rfl
    rw [hp1] at h
    obtain ⟨⟨u2, q2⟩, h2, h⟩ := bind_ok.1 h
    obtain ⟨w2, e2, f2, n2, z2⟩ := (chr_front 32 (by decide) _ _ _).1 h2
    obtain ⟨⟨path, query⟩, ht, h⟩ := bind_ok.1 h
    obtain ⟨raw, hasQ, t1, t2, t3, t4, t5, t6, t7, t8, t9, t10⟩ := (target_ok _ _ _).1 ht
    dsimp only at h t1
    obtain ⟨p2, a2, h⟩ := bind_ok.1 h
    have hp2 : p2 = w2 ++ [0] := by rw [← (adv_ok.1 a2).2, f2]; rfl
    rw [hp2] at h
    obtain ⟨⟨u3, q3⟩, h3, h⟩ := bind_ok.1 h
    obtain ⟨w3, e3, f3, n3, z3⟩ := (chr_front 13 (by decide) _ _ _).1 h3
    dsimp only at h
    obtain ⟨p3, a3, h⟩ := bind_ok.1 h
    have hp3 : p3 = (w3 ++ [0]).drop 1 := by rw [← (adv_ok.1 a3).2, f3]; rfl
    obtain ⟨⟨p4, hd⟩, hh, h⟩ := bind_ok.1 h
    obtain ⟨body, hbd, h⟩ := bind_ok.1 h
    obtain ⟨_, hm, h⟩ := bind_ok.1 h
    rw [badIf_ok, decide_eq_false_iff_not] at hm
    cases h
    cases w3 with
    | nil =>
      exfalso
      have : p3 = [] := by rw [hp3]; rfl
      rw [this] at hh
      cases hh
      cases hbd
    | cons x w =>
      have : p3 = w ++ [0] := by rw [hp3]; rfl
      rw [this] at hh
      have hlen : w.length + 1 < b.length := by rw [e1, e2, e3]; simp; omega
      obtain ⟨lines, ended, bd, g1, g2, g3, g4, g5⟩ := (headers_ok _ _ _ p4 hd (by omega)).1 hh
      dsimp only at hbd
      rw [g4] at hbd
      have hbl : bd.length < 18446744073709551616 := by
        cases ended with
        | false => rw [g3 rfl]; simp
        | true =>
          have : bd.length ≤ w.length := by rw [g2]; simp [section_]; omega
          omega
      obtain ⟨b1, b2, b3, b4⟩ := (bodyOf_ok _ _ _ hbl).1 hbd
      have hne : ∀ l ∈ lines, l ≠ [] := fun l hl => (g1 l hl).1
      obtain ⟨c1, c2⟩ := coll_hdr g5 hne
      obtain ⟨c3, c4⟩ := coll_cl g5
      have c5 := (coll_te g5).1 b2
      refine ⟨raw, hasQ, u3, x, lines, ended, ?_, ?_, ?_⟩
      · rw [e1, e2, e3, g2, b1]
        simp [bytesOf, section_, t1]
      · have hraw : ∀ c ∈ raw, c ∈ u2 := fun c hc => by rw [t1]; exact List.mem_append_left _ hc
        have hq : ∀ c ∈ query, c ∈ u2 := fun c hc => by
          rw [t1]
          cases hasQ with
          | true => exact List.mem_append_right _ (List.mem_cons_of_mem _ hc)
          | false => rw [t10 rfl] at hc; cases hc
        refine ⟨?_, ⟨fun c => n2 (hraw _ c), fun c => z2 (hraw _ c), t2, t3⟩, ⟨t4, t5, t6⟩,
          ⟨fun c => n2 (hq _ c), fun c => z2 (hq _ c), t7, t8, t9, t10⟩, ⟨n3, z3⟩, g1, ⟨?_, ?_⟩, c5.2, ?_, ?_⟩
        · by_cases hg : u1 = GET
          · exact Or.inl hg
          · by_cases hg' : u1 = POST
            · exact Or.inr hg'
            · exact absurd ⟨hg, hg'⟩ hm
        · rw [if_pos (by rfl)] at c1; exact c1
        · exact c2 (by simp)
        · rw [b1]
          rcases c4 rfl with ⟨d1, d2⟩ | ⟨k, d1, d2, a', l', b', v', o1, o2, o3, o4⟩
          · right
            refine ⟨?_, d2⟩
            rcases b3 with b3 | b3
            · rw [d1] at b3; cases b3
            · exact b3.2
          · left
            rcases b3 with b3 | b3
            · rw [d1] at b3
              have := Option.some.inj b3
              exact ⟨a', l', b', v', o1, o2, this ▸ o3, o4⟩
            · rw [d1] at b3; cases b3.1
        · rw [b1]; exact b4
      · intro e; rw [b1]; exact g3 e
  · rintro ⟨raw, hasQ, ver, x, lines, ended, e, g, hend⟩
    obtain ⟨gm, ⟨r1, r2, r3, r4⟩, ⟨gp1, gp2, gp3⟩, ⟨q1, q2, q3, q4, q5, q6⟩, ⟨v1, v2⟩, gl, ⟨gh1, gh2⟩, gte, gcl, gb⟩ := g
    have gm' : 32 ∉ r.method ∧ 0 ∉ r.method ∧ r.method.length < 8 ∧ 3 ≤ r.method.length := by
      rcases gm with h | h <;> rw [h] <;> decide
    let w3 := section_ lines ended r.body
    let t := raw ++ (if hasQ then 63 :: r.query else [])
    let w2 := ver ++ 13 :: x :: w3
    let w1 := t ++ 32 :: w2
    have eb : b = r.method ++ 32 :: w1 := by
      rw [e]; simp [bytesOf, w1, t, w2, w3, section_]
    have ht : 32 ∉ t ∧ 0 ∉ t := by
      simp only [t]
      cases hasQ with
      | true => simp [r1, r2, q1, q2]
      | false => simp [r1, r2]
    unfold parseReq
    refine bind_ok.2 ⟨(), badIf_ok.2 (decide_eq_false ?_), ?_⟩
    · rw [eb]; simp; omega
    refine bind_ok.2 ⟨(r.method, 32 :: (w1 ++ [0])),
      (chr_front 32 (by decide) _ _ _).2 ⟨w1, eb, rfl, gm'.1, gm'.2.1⟩, ?_⟩
    refine bind_ok.2 ⟨(), badIf_ok.2 (decide_eq_false (Nat.not_le_of_lt gm'.2.2.1)), ?_⟩
    refine bind_ok.2 ⟨(), fits_ok.2 gm'.2.2.1, ?_⟩
    refine bind_ok.2 ⟨w1 ++ [0], adv_ok.2 ⟨by simp, rfl⟩, ?_⟩
    refine bind_ok.2 ⟨(t, 32 :: (w2 ++ [0])), (chr_front 32 (by decide) _ _ _).2 ⟨w2, rfl, rfl, ht.1, ht.2⟩, ?_⟩
    refine bind_ok.2 ⟨(r.path, r.query),
      (target_ok _ _ _).2 ⟨raw, hasQ, rfl, r3, r4, gp1, gp2, gp3, q3, q4, q5, q6⟩, ?_⟩
    refine bind_ok.2 ⟨w2 ++ [0], adv_ok.2 ⟨by simp, rfl⟩, ?_⟩
    refine bind_ok.2 ⟨(ver, 13 :: (x :: w3 ++ [0])),
      (chr_front 13 (by decide) _ _ _).2 ⟨x :: w3, rfl, rfl, v1, v2⟩, ?_⟩
    refine bind_ok.2 ⟨w3 ++ [0], adv_ok.2 ⟨by simp, rfl⟩, ?_⟩
    have hne : ∀ l ∈ lines, l ≠ [] := fun l hl => (gl l hl).1
    obtain ⟨h', hc⟩ : ∃ h', Coll ⟨none, false, []⟩ lines h' := by
      refine coll_exists lines _ hne ?_ ?_
      · show (lines.flatMap fun x => 13 :: 10 :: x).length < _
        rw [if_pos (by rfl)]
        cases hl : lines with
        | nil => simp
        | cons l ls =>
          rw [gh1, hl, joined_cons] at gh2
          simp only [List.length_append] at gh2
          simp only [List.flatMap_cons, List.length_append, List.length_cons]
          omega
      · rcases gcl with ⟨a, l, b', v, o1, o2, o3, o4⟩ | ⟨-, o⟩
        · exact Or.inr ⟨rfl, r.body.length, by omega, a, l, b', v, o1, o2, o3, o4⟩
        · exact Or.inl o
    obtain ⟨c1, -⟩ := coll_hdr hc hne
    rw [if_pos (by rfl)] at c1
    have c5 : h'.te = false := (coll_te hc).2 ⟨rfl, gte⟩
    have hlen : w3.length < b.length := by rw [eb]; simp [w1, w2]; omega
    refine bind_ok.2 ⟨(r.body ++ [0], h'), (headers_ok _ _ _ _ _ (by omega)).2 ⟨lines, ended, r.body, gl, rfl, hend, rfl, hc⟩, ?_⟩
    have c6 : h'.cl = some r.body.length ∨ (h'.cl = none ∧ r.body = []) := by
      rcases (coll_cl hc).2 rfl with ⟨d1, d2⟩ | ⟨k, d1, d2, a', l', b', v', o1, o2, o3, o4⟩
      · right
        refine ⟨d1, ?_⟩
        rcases gcl with ⟨a, l, b', v, p1, p2, -, -⟩ | ⟨p, -⟩
        · exact absurd p2 (d2 l (by rw [p1]; simp) v)
        · exact p
      · left
        rcases gcl with ⟨a, l, b'', v, p1, p2, p3, p4⟩ | ⟨-, p⟩
        · rw [d1]
          have : l' = l := by
            have hm : l' ∈ lines := by rw [o1]; simp
            rw [p1, List.mem_append, List.mem_cons] at hm
            rcases hm with hm | hm | hm
            · exact absurd o2 (p4 l' (List.mem_append_left _ hm) _)
            · exact hm
            · exact absurd o2 (p4 l' (List.mem_append_right _ hm) _)
          subst this
          have hv := field_unique o2 p2
          subst hv
          rw [← o3.2.2, ← p3.2.2]
        · exact absurd o2 (p l' (by rw [o1]; simp) _)
    refine bind_ok.2 ⟨r.body, (bodyOf_ok _ _ _ (by omega)).2 ⟨rfl, c5, c6, gb⟩, ?_⟩
    refine bind_ok.2 ⟨(), badIf_ok.2 (decide_eq_false ?_), ?_⟩
    · rintro ⟨h1, h2⟩
      rcases gm with h | h
      · exact h1 h
      · exact h2 h
    · cases r; simp only at gh1 c1 ⊢; rw [c1, gh1]

end Wolf.Http
