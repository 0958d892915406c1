import Verif.Http.RequestProps

/-! # C77, C78: the URL table and the arguments of a request

Model of `httpd_register_handler`, `httpd_register_static_page` (`src/http/httpd.c` 73–100) and
`httpd_get_request_arg` (565–607). -/

namespace Wolf.Http

/-- `strncpy(dst, path, HTTP_PATH_LEN)` with forced termination: at most 127 characters (79–80, 94–95); `path` is the
C string without its terminator. -/
def copyPath (path : List Nat) : List Nat := path.take 127

/-- `httpd_register_handler` (73–86): the first entry with an empty path; the static content of the entry stays. -/
def registerHandler (urls : List Url) (path : List Nat) : Option (List Url) :=
  match urls.findIdx? (fun u => u.path == []) with
  | none => none
  | some i => some (urls.modify i fun u => { u with path := copyPath path, handler := true })

/-- `httpd_register_static_page` (88–100). -/
def registerStatic (urls : List Url) (path content : List Nat) : Option (List Url) :=
  match urls.findIdx? (fun u => u.path == []) with
  | none => none
  | some i => some (urls.modify i fun _ => ⟨copyPath path, false, some content⟩)

/-- The table after `httpd_init`: `HTTPD_MAX_URLS` empty entries (`httpd.h` 21, `httpd.c` 617). -/
def emptyUrls : List Url := List.replicate 16 ⟨[], false, none⟩

/-- A registration call of the application. -/
inductive Reg where
  | handler (path : List Nat)
  | page (path content : List Nat)

def Reg.path : Reg → List Nat
  | .handler p => p
  | .page p _ => p

/-- The calls that succeed one after the other; a failing call changes nothing. -/
def regs : List Url → List Reg → List Url
  | urls, [] => urls
  | urls, .handler p :: t => regs ((registerHandler urls p).getD urls) t
  | urls, .page p c :: t => regs ((registerStatic urls p c).getD urls) t

/-! ## Specification -/

/-- What the request addresses: the decoded path, a C string for the handlers, so up to a NUL. -/
def addressed (r : Req) : List Nat := r.path.takeWhile (· ≠ 0)

/-! ## Dispatch -/

theorem serve_safe (urls : List Url) (b : List Nat) (hb : b.length < 4294967296) :
    serve urls b ≠ .oob ∧ serve urls b ≠ .running := by
  have hs := request_safe b hb
  unfold serve
  cases h : parseReq b with
  | oob => exact absurd h hs.1
  | running => exact absurd h hs.2
  | bad => simp
  | quiet => simp
  | ok r =>
    dsimp only
    split
    · simp
    · next i hi =>
      rw [List.findIdx?_eq_some_iff_getElem] at hi
      obtain ⟨hl, -⟩ := hi
      rw [List.getElem?_eq_getElem hl]
      dsimp only
      split
      · simp
      · split <;> simp

/-- Entry `i` is the first one with the addressed path. -/
def FirstFor (urls : List Url) (r : Req) (i : Nat) (u : Url) : Prop :=
  urls[i]? = some u ∧ u.path = addressed r ∧ ∀ j v, j < i → urls[j]? = some v → v.path ≠ addressed r

theorem find_iff (urls : List Url) (r : Req) (i : Nat) :
    urls.findIdx? (fun u => u.path == r.path.takeWhile (· ≠ 0)) = some i ↔ ∃ u, FirstFor urls r i u := by
  rw [List.findIdx?_eq_some_iff_getElem]
  constructor
  · rintro ⟨hl, h1, h2⟩
    refine ⟨urls[i], List.getElem?_eq_getElem hl, by simpa [addressed] using h1, fun j v hj hv => ?_⟩
    obtain ⟨hjl, e⟩ := List.getElem?_eq_some_iff.1 hv
    have := h2 j hj
    rw [e] at this
    simpa [addressed] using this
  · rintro ⟨u, h1, h2, h3⟩
    obtain ⟨hl, e⟩ := List.getElem?_eq_some_iff.1 h1
    refine ⟨hl, by rw [e]; simpa [addressed] using h2, fun j hj => ?_⟩
    have := h3 j urls[j] hj (List.getElem?_eq_getElem _)
    simpa [addressed] using this

/-- **A handler is called exactly for an acceptable request that addresses its entry**, and gets the fields as
sent. -/
theorem handler_exact (urls : List Url) (b : List Nat) (i : Nat) (r : Req) :
    serve urls b = .handle i r ↔ parseReq b = .ok r ∧ ∃ u, FirstFor urls r i u ∧ u.handler = true := by
  unfold serve
  cases h : parseReq b with
  | oob => simp
  | running => simp
  | bad => simp
  | quiet => simp
  | ok req =>
    dsimp only
    cases hf : urls.findIdx? (fun u => u.path == req.path.takeWhile (· ≠ 0)) with
    | none =>
      constructor
      · intro e; cases e
      · rintro ⟨e, u, hu, -⟩
        cases e
        rw [(find_iff urls r i).2 ⟨u, hu⟩] at hf
        cases hf
    | some k =>
      obtain ⟨u, hu⟩ := (find_iff urls req k).1 hf
      dsimp only
      rw [hu.1]
      dsimp only
      constructor
      · intro e
        split at e
        · next hh => cases e; exact ⟨rfl, u, hu, hh⟩
        · split at e <;> cases e
      · rintro ⟨e, u', hu', hh⟩
        cases e
        have := (find_iff urls r i).2 ⟨u', hu'⟩
        rw [hf] at this
        cases this
        have : u = u' := Option.some.inj (hu.1.symm.trans hu'.1)
        subst this
        rw [if_pos hh]

/-- A static page is sent only for the entry it was registered under. -/
theorem page_exact (urls : List Url) (b : List Nat) (c : List Nat) :
    serve urls b = .page c ↔
      ∃ r i u, parseReq b = .ok r ∧ FirstFor urls r i u ∧ u.handler = false ∧ u.content = some c := by
  unfold serve
  cases h : parseReq b with
  | oob => simp
  | running => simp
  | bad => simp
  | quiet => simp
  | ok req =>
    dsimp only
    cases hf : urls.findIdx? (fun u => u.path == req.path.takeWhile (· ≠ 0)) with
    | none =>
      constructor
      · intro e; cases e
      · rintro ⟨r, i, u, e, hu, -⟩
        cases e
        rw [(find_iff urls req i).2 ⟨u, hu⟩] at hf
        cases hf
    | some k =>
      obtain ⟨u, hu⟩ := (find_iff urls req k).1 hf
      dsimp only
      rw [hu.1]
      dsimp only
      constructor
      · intro e
        split at e
        · cases e
        · next hh =>
          cases hc : u.content with
          | none => rw [hc] at e; cases e
          | some c' => rw [hc] at e; cases e; exact ⟨req, k, u, rfl, hu, by simpa using hh, hc⟩
      · rintro ⟨r, i, u', e, hu', hh, hc⟩
        cases e
        have := (find_iff urls req i).2 ⟨u', hu'⟩
        rw [hf] at this
        cases this
        have : u = u' := Option.some.inj (hu.1.symm.trans hu'.1)
        subst this
        rw [if_neg (by simp [hh]), hc]

/-- Every entry with a path was registered under it (cut to 127 characters). -/
def Registered (done : List Reg) (urls : List Url) : Prop :=
  ∀ u ∈ urls, (u.handler = true → u.path ≠ [] → ∃ p, Reg.handler p ∈ done ∧ u.path = p.take 127) ∧
    (u.handler = false → ∀ c, u.content = some c → u.path ≠ [] → ∃ p, Reg.page p c ∈ done ∧ u.path = p.take 127)

theorem registered_mono {a b : List Reg} {urls : List Url} (h : Registered a urls) (hs : ∀ x ∈ a, x ∈ b) :
    Registered b urls := fun u hu => by
  obtain ⟨h1, h2⟩ := h u hu
  refine ⟨fun a b => ?_, fun a c b d => ?_⟩
  · obtain ⟨p, hp, e⟩ := h1 a b; exact ⟨p, hs _ hp, e⟩
  · obtain ⟨p, hp, e⟩ := h2 a c b d; exact ⟨p, hs _ hp, e⟩

theorem mem_modify {α : Type} {l : List α} {i : Nat} {f : α → α} {x : α} (h : x ∈ l.modify i f) :
    x ∈ l ∨ ∃ y ∈ l, x = f y := by
  obtain ⟨j, hj⟩ := List.getElem?_of_mem h
  rw [List.getElem?_modify] at hj
  cases hl : l[j]? with
  | none => rw [hl] at hj; cases hj
  | some y =>
    rw [hl] at hj
    have hy := List.mem_of_getElem? hl
    by_cases e : i = j
    · simp [e] at hj; exact Or.inr ⟨y, hy, hj.symm⟩
    · simp [e] at hj; exact Or.inl (hj ▸ hy)

theorem regs_ok : ∀ (cs : List Reg) (done : List Reg) (urls : List Url), Registered done urls →
    Registered (done ++ cs) (regs urls cs)
  | [], done, urls, h => by simpa [regs] using h
  | .handler p :: t, done, urls, h => by
      rw [regs, List.append_cons]
      refine regs_ok t _ _ ?_
      have h' : Registered (done ++ [.handler p]) urls := registered_mono h fun x hx => by simp [hx]
      unfold registerHandler
      split
      · exact h'
      · intro u hu
        rcases mem_modify hu with hu | ⟨y, hy, e⟩
        · exact h' u hu
        · rw [e]
          exact ⟨fun _ _ => ⟨p, by simp, rfl⟩, fun c => by cases c⟩
  | .page p c :: t, done, urls, h => by
      rw [regs, List.append_cons]
      refine regs_ok t _ _ ?_
      have h' : Registered (done ++ [.page p c]) urls := registered_mono h fun x hx => by simp [hx]
      unfold registerStatic
      split
      · exact h'
      · intro u hu
        rcases mem_modify hu with hu | ⟨y, hy, e⟩
        · exact h' u hu
        · rw [e]
          exact ⟨fun c => (by cases c), fun _ c' hc _ => ⟨p, by cases hc; simp, rfl⟩⟩

/-- **A handler sees only requests for the path it was registered under** (its first 127 characters), after any
history of registrations. -/
theorem handler_registered (cs : List Reg) (b : List Nat) (i : Nat) (r : Req)
    (h : serve (regs emptyUrls cs) b = .handle i r) (hne : addressed r ≠ []) :
    ∃ p, Reg.handler p ∈ cs ∧ addressed r = p.take 127 := by
  obtain ⟨-, u, hu, hh⟩ := (handler_exact _ _ _ _).1 h
  have hr := regs_ok cs [] emptyUrls (fun u hu => by
    have := List.eq_of_mem_replicate hu
    rw [this]
    exact ⟨fun c => (by cases c), fun _ c hc => (by cases hc)⟩)
  obtain ⟨p, hp, e⟩ := (hr u (List.mem_of_getElem? hu.1)).1 hh (hu.2.1 ▸ hne)
  exact ⟨p, by simpa using hp, by rw [← hu.2.1, e]⟩

/-! ## Where the server falls short -/

/-- "GET / HTTP/1.1" CR LF, and no blank line. -/
def exCut : List Nat := [71, 69, 84, 32, 47, 32, 72, 84, 84, 80, 47, 49, 46, 49, 13, 10]

/-- **Finding**: a request that stops before its blank line is served at once, as if it were complete; header lines
that arrive in a later segment are then taken as a new, bad request. -/
theorem unfinished_request_is_served :
    parseReq exCut = .ok ⟨GET, [47], [], [], []⟩ ∧ parseReq [72, 111, 115, 116, 58, 32, 97, 13, 10, 13, 10] = .bad := by
  decide +kernel

/-- "GET /%00x HTTP/1.1" CR LF CR LF. -/
def exNul : List Nat :=
  [71, 69, 84, 32, 47, 37, 48, 48, 120, 32, 72, 84, 84, 80, 47, 49, 46, 49, 13, 10, 13, 10]

/-- **Finding**: an encoded NUL ends the path for the lookup: `/%00x` reaches the handler of `/`. -/
theorem nul_ends_path :
    serve [⟨[47], true, none⟩] exNul = .handle 0 ⟨GET, [47, 0, 120], [], [], []⟩ := by
  decide +kernel

/-- A POST with header and body: "POST /a%20b?x=1 HTTP/1.1" CR LF "Content-Length: 2" CR LF CR LF "hi". -/
def exPost : List Nat :=
  [80, 79, 83, 84, 32, 47, 97, 37, 50, 48, 98, 63, 120, 61, 49, 32, 72, 84, 84, 80, 47, 49, 46, 49, 13, 10] ++
  [67, 111, 110, 116, 101, 110, 116, 45, 76, 101, 110, 103, 116, 104, 58, 32, 50, 13, 10, 13, 10, 104, 105]

example : serve [⟨[47], true, none⟩, ⟨[47, 97, 32, 98], true, none⟩] exPost =
    .handle 1 ⟨POST, [47, 97, 32, 98], [120, 61, 49],
      [67, 111, 110, 116, 101, 110, 116, 45, 76, 101, 110, 103, 116, 104, 58, 32, 50], [104, 105]⟩ := by
  decide +kernel

/-- The hypotheses of `handler_registered` are met after two registrations. -/
example : ∃ r, serve (regs emptyUrls [.page [47] [104], .handler [47, 97, 32, 98]]) exPost = .handle 1 r ∧
    addressed r = [47, 97, 32, 98] := by
  refine ⟨⟨POST, [47, 97, 32, 98], [120, 61, 49],
      [67, 111, 110, 116, 101, 110, 116, 45, 76, 101, 110, 103, 116, 104, 58, 32, 50], [104, 105]⟩, ?_, ?_⟩ <;>
  decide +kernel

/-! ## C78: arguments -/

/-- Result of `httpd_get_request_arg`: a stray access, loop budget exhausted, -1, or 0 with the string stored in
`value`. -/
inductive Arg where
  | oob
  | running
  | missing
  | value (v : List Nat)
deriving DecidableEq

/-- `p + strlen(p)`: the bytes before the NUL and the suffix from it. -/
def toNul : List Nat → Option (List Nat × List Nat)
  | [] => none
  | x :: t => if x = 0 then some ([], x :: t) else (toNul t).map fun r => (x :: r.1, r.2)

/-- `strchr(p, c)` without the error path of the request parser: `none` outside the buffer, `some none` for NULL. -/
def strchr (c : Nat) : List Nat → Option (Option (List Nat × List Nat))
  | [] => none
  | x :: t =>
    if x = c then some (some ([], x :: t))
    else if x = 0 then some none
    else (strchr c t).map fun o => o.map fun r => (x :: r.1, r.2)

/-- The end of the pair at `p` (580–583). -/
def pairEnd (p : List Nat) : Option (List Nat × List Nat) :=
  match strchr 38 p with
  | none => none
  | some (some r) => some r
  | some none => toNul p

/-- The end of the round (602–604). -/
def nextPair (q : List Nat) (k : List Nat → Arg) : Arg :=
  match q with
  | [] => .oob
  | x :: t => if x = 0 then .missing else k t

/-- The loop (579–605); `p` is the rest of the field `query` or `body`, up to the end of its array. -/
def argLoop : Nat → List Nat → List Nat → Nat → Arg
  | 0, _, _, _ => .running
  | fuel + 1, p, name, cap =>
    match p.head? with
    | none => .oob
    | some x =>
      if x = 0 then .missing
      else match pairEnd p, strchr 61 p with
      | none, _ => .oob
      | _, none => .oob
      | some (_, q), some sep =>
        let next : Arg := nextPair q fun t => argLoop fuel t name cap
        match sep with
        | none => next
        | some (k, s) =>
          if s.length > q.length then
            if k.length = name.length ∧ k = name then
              let n := s.length - 1 - q.length
              if n ≥ cap then .missing
              else if n ≤ (s.drop 1).length ∧ n < cap then .value ((s.drop 1).take n)
              else .oob
            else next
          else next

/-- `httpd_get_request_arg` (565–607) on the array `m` of the query (GET) or the body (POST), with `value` of `cap`
bytes. -/
def getArg (m name : List Nat) (cap : Nat) : Arg := argLoop (m.length + 1) m name cap

/-! ### Specification -/

/-- In `text`, after `pre`, there is the pair `name=v`: at a pair boundary, up to the next '&' or the end. -/
def PairAt (text pre name v : List Nat) : Prop :=
  ∃ post, text = pre ++ name ++ 61 :: (v ++ post) ∧ (pre = [] ∨ ∃ a, pre = a ++ [38]) ∧
    (post = [] ∨ ∃ a, post = 38 :: a) ∧ 38 ∉ name ∧ 61 ∉ name ∧ 38 ∉ v

/-- It is the first pair with this name. -/
def FirstPair (text name v : List Nat) : Prop :=
  ∃ pre, PairAt text pre name v ∧ ∀ pre' v', PairAt text pre' name v' → pre.length ≤ pre'.length

/-! ### Proof -/

theorem toNul_spec : ∀ (s rest : List Nat), 0 ∉ s → toNul (s ++ 0 :: rest) = some (s, 0 :: rest)
  | [], rest, _ => rfl
  | x :: t, rest, h => by
      rw [List.mem_cons, not_or] at h
      rw [List.cons_append, toNul, if_neg (fun e => h.1 e.symm), toNul_spec t rest h.2]
      rfl

theorem strchr_hit (c : Nat) : ∀ (a b rest : List Nat), c ∉ a → 0 ∉ a →
    strchr c (a ++ c :: b ++ rest) = some (some (a, c :: b ++ rest))
  | [], b, rest, _, _ => by simp [strchr]
  | x :: t, b, rest, h, h0 => by
      rw [List.mem_cons, not_or] at h h0
      rw [List.cons_append, List.cons_append, strchr, if_neg (fun e => h.1 e.symm), if_neg (fun e => h0.1 e.symm),
        strchr_hit c t b rest h.2 h0.2]
      rfl

theorem strchr_miss (c : Nat) (hc : c ≠ 0) : ∀ (a rest : List Nat), c ∉ a → 0 ∉ a →
    strchr c (a ++ 0 :: rest) = some none
  | [], rest, _, _ => by rw [List.nil_append, strchr, if_neg (fun e => hc e.symm), if_pos rfl]
  | x :: t, rest, h, h0 => by
      rw [List.mem_cons, not_or] at h h0
      rw [List.cons_append, strchr, if_neg (fun e => h.1 e.symm), if_neg (fun e => h0.1 e.symm),
        strchr_miss c hc t rest h.2 h0.2]
      rfl

/-- The first occurrence. -/
theorem split_first (c : Nat) : ∀ s : List Nat, c ∉ s ∨ ∃ a b, s = a ++ c :: b ∧ c ∉ a
  | [] => Or.inl (by simp)
  | x :: t => by
      by_cases h : x = c
      · exact Or.inr ⟨[], t, by rw [h]; rfl, by simp⟩
      · rcases split_first c t with h' | ⟨a, b, e, h'⟩
        · left; rw [List.mem_cons, not_or]; exact ⟨fun e => h e.symm, h'⟩
        · right; refine ⟨x :: a, b, by rw [e]; rfl, ?_⟩
          rw [List.mem_cons, not_or]; exact ⟨fun e => h e.symm, h'⟩

/-- One pair: `f` is the text up to the first '&' or the end. -/
theorem argLoop_pair (fuel : Nat) (f tl rest name : List Nat) (cap : Nat) (h38 : 38 ∉ f) (h0 : 0 ∉ f)
    (htl : tl = [] ∨ ∃ a, tl = 38 :: a ∧ 0 ∉ a) (hne : f ++ tl ≠ []) :
    argLoop (fuel + 1) (f ++ tl ++ 0 :: rest) name cap =
      if 61 ∈ f ∧ f.takeWhile (· ≠ 61) = name then
        if f.length - name.length - 1 ≥ cap then .missing else .value (f.drop (name.length + 1))
      else nextPair (tl ++ 0 :: rest) fun t => argLoop fuel t name cap := by
  have hz : 0 ∉ f ++ tl := by
    rw [List.mem_append, not_or]
    refine ⟨h0, ?_⟩
    rcases htl with h | ⟨a, h, h'⟩
    · rw [h]; simp
    · rw [h, List.mem_cons, not_or]; exact ⟨by decide, h'⟩
  have hend : pairEnd (f ++ tl ++ 0 :: rest) = some (f, tl ++ 0 :: rest) := by
    unfold pairEnd
    rcases htl with h | ⟨a, h, h'⟩
    · rw [h, List.append_nil, strchr_miss 38 (by decide) f rest h38 h0]
      exact toNul_spec f rest h0
    · rw [h, strchr_hit 38 f a (0 :: rest) h38 h0]
  have hhead : ∃ x, (f ++ tl ++ 0 :: rest).head? = some x ∧ x ≠ 0 := by
    cases hh : f ++ tl with
    | nil => exact absurd hh hne
    | cons x t =>
      refine ⟨x, rfl, fun e => hz ?_⟩
      rw [hh, e]; exact List.mem_cons_self ..
  obtain ⟨x, hx, hx0⟩ := hhead
  rw [argLoop, hx, hend]
  dsimp only
  rw [if_neg hx0]
  rcases split_first 61 f with hn | ⟨k, v, e, hk⟩
  · -- no '=' in the pair
    rw [if_neg (fun c => hn c.1)]
    rcases split_first 61 (f ++ tl) with hm | ⟨k, v, e, hk⟩
    · rw [strchr_miss 61 (by decide) _ rest hm hz]
    · have hk0 : 0 ∉ k := fun c => hz (by rw [e]; exact List.mem_append_left _ c)
      rw [e, strchr_hit 61 k v (0 :: rest) hk hk0]
      dsimp only
      rw [if_neg]
      -- the '=' lies behind the end of the pair
      have hle : f.length ≤ k.length := by
        rcases Nat.lt_or_ge k.length f.length with hlt | hge
        · exfalso
          apply hn
          have : (f ++ tl)[k.length]? = some 61 := by
            rw [e, List.getElem?_append_right (Nat.le_refl _)]; simp
          rw [List.getElem?_append_left hlt] at this
          exact List.mem_of_getElem? this
        · exact hge
      have hl := congrArg List.length e
      simp only [List.length_append, List.length_cons] at hl ⊢
      omega
  · have hk0 : 0 ∉ k := fun c => h0 (by rw [e]; exact List.mem_append_left _ c)
    have htw : f.takeWhile (· ≠ 61) = k := by
      rw [e]
      refine (takeWhile_append_of ?_ ?_).1
      · intro x hx; simp; exact fun c => hk (c ▸ hx)
      · intro c hc; cases hc; rfl
    have hm : 61 ∈ f := by rw [e]; simp
    have hs : strchr 61 (f ++ tl ++ 0 :: rest) = some (some (k, 61 :: (v ++ tl ++ 0 :: rest))) := by
      have := strchr_hit 61 k v (tl ++ 0 :: rest) hk hk0
      rw [e]; simpa using this
    rw [hs]
    dsimp only
    rw [if_pos (by simp; omega), htw]
    by_cases hkn : k = name
    · rw [if_pos (show k.length = name.length ∧ k = name from ⟨by rw [hkn], hkn⟩),
        if_pos (show 61 ∈ f ∧ k = name from ⟨hm, hkn⟩)]
      have hn : (61 :: (v ++ tl ++ 0 :: rest)).length - 1 - (tl ++ 0 :: rest).length = v.length := by
        simp only [List.length_cons, List.length_append]; omega
      have hfl : f.length - name.length - 1 = v.length := by
        rw [e, ← hkn]; simp only [List.length_cons, List.length_append]; omega
      have hfd : f.drop (name.length + 1) = v := by
        rw [e, ← hkn, ← List.drop_drop, List.drop_left' rfl]; rfl
      rw [hn, hfl, hfd]
      by_cases hc : v.length ≥ cap
      · rw [if_pos hc, if_pos hc]
      · rw [if_neg hc, if_neg hc, if_pos ⟨by simp, by omega⟩]
        simp [List.append_assoc]
    · rw [if_neg (fun c => hkn c.2), if_neg (fun c => hkn c.2)]

/-- Cutting at the first '&'. -/
theorem cut38 {f tl g u : List Nat} (hf : 38 ∉ f) (hg : 38 ∉ g) (ht : tl = [] ∨ ∃ a, tl = 38 :: a)
    (hu : u = [] ∨ ∃ a, u = 38 :: a) (e : f ++ tl = g ++ u) : f = g ∧ tl = u := by
  have key : ∀ (x y : List Nat), 38 ∉ x → (y = [] ∨ ∃ a, y = 38 :: a) →
      (x ++ y).takeWhile (· ≠ 38) = x ∧ (x ++ y).dropWhile (· ≠ 38) = y := fun x y hx hy =>
    takeWhile_append_of (fun z hz => by simp; exact fun c => hx (c ▸ hz)) (fun c hc => by
      rcases hy with h | ⟨a, h⟩
      · rw [h] at hc; cases hc
      · rw [h] at hc; cases hc; rfl)
  obtain ⟨a1, a2⟩ := key f tl hf ht
  obtain ⟨b1, b2⟩ := key g u hg hu
  rw [← e] at b1 b2
  exact ⟨a1.symm.trans b1, a2.symm.trans b2⟩

theorem pairAt_first {f tl name v0 v : List Nat} (h38 : 38 ∉ f) (htl : tl = [] ∨ ∃ a, tl = 38 :: a)
    (e : f = name ++ 61 :: v0) (hn : 61 ∉ name) : FirstPair (f ++ tl) name v ↔ v = v0 := by
  have h38' : 38 ∉ name ∧ 38 ∉ v0 := by
    rw [e, List.mem_append, List.mem_cons] at h38
    exact ⟨fun c => h38 (Or.inl c), fun c => h38 (Or.inr (Or.inr c))⟩
  have h0 : PairAt (f ++ tl) [] name v0 :=
    ⟨tl, by rw [e]; simp, Or.inl rfl, htl, h38'.1, hn, h38'.2⟩
  constructor
  · rintro ⟨pre, ⟨post, e1, -, e3, -, -, e6⟩, hmin⟩
    have : pre = [] := by have := hmin [] v0 h0; simpa using this
    rw [this, List.nil_append, e, List.append_assoc] at e1
    have e2 := List.append_cancel_left e1
    rw [List.cons_append, List.cons.injEq] at e2
    exact (cut38 h38'.2 e6 htl e3 e2.2).1.symm
  · rintro rfl
    exact ⟨[], h0, fun _ _ _ => Nat.zero_le _⟩

theorem pairAt_skip {f tl name pre v : List Nat} (h38 : 38 ∉ f) (htl : tl = [] ∨ ∃ a, tl = 38 :: a)
    (hno : ¬ (61 ∈ f ∧ f.takeWhile (· ≠ 61) = name)) :
    PairAt (f ++ tl) pre name v ↔ ∃ a pre', tl = 38 :: a ∧ pre = f ++ 38 :: pre' ∧ PairAt a pre' name v := by
  constructor
  · rintro ⟨post, e1, e2, e3, e4, e5, e6⟩
    rcases split_first 38 pre with hp | ⟨g, p', hp, hg⟩
    · have hpre : pre = [] := by
        rcases e2 with h | ⟨a, h⟩
        · exact h
        · exact absurd (by rw [h]; simp) hp
      exfalso
      rw [hpre, List.nil_append] at e1
      have e1' : f ++ tl = (name ++ 61 :: v) ++ post := by rw [e1]; simp
      obtain ⟨hf, -⟩ := cut38 h38 (by simp [e4, e6]) htl e3 e1'
      apply hno
      rw [hf]
      refine ⟨by simp, (takeWhile_append_of ?_ ?_).1⟩
      · intro x hx; simp; exact fun c => e5 (c ▸ hx)
      · intro c hc; cases hc; rfl
    · have e1' : f ++ tl = g ++ 38 :: (p' ++ name ++ 61 :: (v ++ post)) := by rw [e1, hp]; simp
      obtain ⟨hf, ht⟩ := cut38 h38 hg htl (Or.inr ⟨_, rfl⟩) e1'
      refine ⟨_, p', ht, by rw [hp, hf], post, rfl, ?_, e3, e4, e5, e6⟩
      rcases e2 with h | ⟨a, h⟩
      · rw [h] at hp
        have := congrArg List.length hp
        simp at this
      · rcases List.eq_nil_or_concat p' with h' | ⟨b, z, h'⟩
        · exact Or.inl h'
        · rw [List.concat_eq_append] at h'
          right
          rw [h, h'] at hp
          have hp' : a ++ [38] = (g ++ 38 :: b) ++ [z] := by simpa using hp
          obtain ⟨-, hz⟩ := List.append_inj' hp' rfl
          cases hz
          exact ⟨b, h'⟩
  · rintro ⟨a, pre', ht, hp, post, e1, e2, e3, e4, e5, e6⟩
    refine ⟨post, by rw [ht, hp, e1]; simp, Or.inr ?_, e3, e4, e5, e6⟩
    rcases e2 with h | ⟨b, h⟩
    · exact ⟨f, by rw [hp, h]⟩
    · exact ⟨f ++ 38 :: b, by rw [hp, h]; simp⟩

theorem firstPair_skip {f tl name v : List Nat} (h38 : 38 ∉ f) (htl : tl = [] ∨ ∃ a, tl = 38 :: a)
    (hno : ¬ (61 ∈ f ∧ f.takeWhile (· ≠ 61) = name)) :
    FirstPair (f ++ tl) name v ↔ ∃ a, tl = 38 :: a ∧ FirstPair a name v := by
  constructor
  · rintro ⟨pre, h, hmin⟩
    obtain ⟨a, pre', ht, hp, h'⟩ := (pairAt_skip h38 htl hno).1 h
    refine ⟨a, ht, pre', h', fun q w hq => ?_⟩
    have := hmin (f ++ 38 :: q) w ((pairAt_skip h38 htl hno).2 ⟨a, q, ht, rfl, hq⟩)
    rw [hp] at this
    simp at this
    exact this
  · rintro ⟨a, ht, pre', h', hmin⟩
    refine ⟨f ++ 38 :: pre', (pairAt_skip h38 htl hno).2 ⟨a, pre', ht, rfl, h'⟩, fun q w hq => ?_⟩
    obtain ⟨a2, q', ht2, hq2, h2⟩ := (pairAt_skip h38 htl hno).1 hq
    rw [ht] at ht2
    cases ht2
    have := hmin q' w h2
    rw [hq2]
    simp
    exact this

theorem argLoop_spec (rest name : List Nat) (cap : Nat) : ∀ (fuel : Nat) (s : List Nat), s.length < fuel → 0 ∉ s →
    (argLoop fuel (s ++ 0 :: rest) name cap = .missing ∨ ∃ v, argLoop fuel (s ++ 0 :: rest) name cap = .value v) ∧
    ∀ v, argLoop fuel (s ++ 0 :: rest) name cap = .value v ↔ FirstPair s name v ∧ v.length < cap
  | 0, s, hf, _ => by omega
  | fuel + 1, s, hf, h0 => by
      by_cases hs : s = []
      · have e : argLoop (fuel + 1) (s ++ 0 :: rest) name cap = .missing := by rw [hs]; rfl
        rw [e]
        refine ⟨Or.inl rfl, fun v => ⟨fun c => (by cases c), ?_⟩⟩
        rintro ⟨⟨pre, ⟨post, h, -⟩, -⟩, -⟩
        rw [hs] at h
        have := congrArg List.length h
        simp at this
      · obtain ⟨f, tl, e, hf38, htl⟩ : ∃ f tl, s = f ++ tl ∧ 38 ∉ f ∧ (tl = [] ∨ ∃ a, tl = 38 :: a) := by
          rcases split_first 38 s with h | ⟨a, b, e, h⟩
          · exact ⟨s, [], by simp, h, Or.inl rfl⟩
          · exact ⟨a, 38 :: b, e, h, Or.inr ⟨b, rfl⟩⟩
        have hf0 : 0 ∉ f := fun c => h0 (by rw [e]; exact List.mem_append_left _ c)
        have ht0 : ∀ a, tl = 38 :: a → 0 ∉ a := fun a ha c =>
          h0 (by rw [e, ha]; exact List.mem_append_right _ (List.mem_cons_of_mem _ c))
        have htl0 : tl = [] ∨ ∃ a, tl = 38 :: a ∧ 0 ∉ a := by
          rcases htl with h | ⟨a, h⟩
          · exact Or.inl h
          · exact Or.inr ⟨a, h, ht0 a h⟩
        rw [e, argLoop_pair fuel f tl rest name cap hf38 hf0 htl0 (e ▸ hs)]
        by_cases hm : 61 ∈ f ∧ f.takeWhile (· ≠ 61) = name
        · rw [if_pos hm]
          obtain ⟨k, v0, ef, hk⟩ : ∃ k v0, f = k ++ 61 :: v0 ∧ 61 ∉ k := by
            rcases split_first 61 f with h | h
            · exact absurd hm.1 h
            · obtain ⟨a, b, c, d⟩ := h; exact ⟨a, b, c, d⟩
          have hkn : k = name := by
            rw [← hm.2, ef]
            refine ((takeWhile_append_of ?_ ?_).1).symm
            · intro x hx; simp; exact fun c => hk (c ▸ hx)
            · intro c hc; cases hc; rfl
          rw [hkn] at ef hk
          have hlen : f.length - name.length - 1 = v0.length := by rw [ef]; simp
          have hdrop : f.drop (name.length + 1) = v0 := by rw [ef, ← List.drop_drop, List.drop_left' rfl]; rfl
          rw [hlen, hdrop]
          by_cases hc : v0.length ≥ cap
          · rw [if_pos hc]
            refine ⟨Or.inl rfl, fun v => ⟨fun c => (by cases c), ?_⟩⟩
            rintro ⟨h1, h2⟩
            rw [(pairAt_first hf38 htl ef hk).1 h1] at h2
            omega
          · rw [if_neg hc]
            refine ⟨Or.inr ⟨_, rfl⟩, fun v => ⟨fun c => ?_, ?_⟩⟩
            · cases c; exact ⟨(pairAt_first hf38 htl ef hk).2 rfl, by omega⟩
            · rintro ⟨h1, -⟩; rw [(pairAt_first hf38 htl ef hk).1 h1]
        · rw [if_neg hm]
          rcases htl with h | ⟨a, h⟩
          · subst h
            refine ⟨Or.inl rfl, fun v => ⟨fun c => (by cases c), ?_⟩⟩
            rintro ⟨h1, -⟩
            obtain ⟨a, ha, -⟩ := (firstPair_skip hf38 (Or.inl rfl) hm).1 h1
            cases ha
          · subst h
            have hl : a.length < fuel := by rw [e] at hf; simp at hf; omega
            obtain ⟨i1, i2⟩ := argLoop_spec rest name cap fuel a hl (ht0 a rfl)
            refine ⟨i1, fun v => ?_⟩
            refine (i2 v).trans ?_
            rw [firstPair_skip hf38 (Or.inr ⟨a, rfl⟩) hm]
            constructor
            · rintro ⟨x, y⟩; exact ⟨⟨a, rfl, x⟩, y⟩
            · rintro ⟨⟨a', ha, x⟩, y⟩; cases ha; exact ⟨x, y⟩

/-- **C78**: the call neither reads outside the field nor writes beyond `value`; it returns exactly the value of the
first pair with this name, if it fits, and -1 otherwise. `s` is the text of the query or body up to its NUL, `rest`
what follows in the array. -/
theorem get_arg_exact (s rest name : List Nat) (cap : Nat) (h0 : 0 ∉ s) :
    (getArg (s ++ 0 :: rest) name cap = .missing ∨ ∃ v, getArg (s ++ 0 :: rest) name cap = .value v) ∧
    ∀ v, getArg (s ++ 0 :: rest) name cap = .value v ↔ FirstPair s name v ∧ v.length < cap :=
  argLoop_spec rest name cap _ s (by simp; omega) h0

/-- "ab=1&a=2&a=3", argument "a". -/
example : getArg ([97, 98, 61, 49, 38, 97, 61, 50, 38, 97, 61, 51] ++ 0 :: [7, 7]) [97] 8 = .value [50] := by
  decide +kernel

example : FirstPair [97, 98, 61, 49, 38, 97, 61, 50, 38, 97, 61, 51] [97] [50] :=
  (((get_arg_exact _ [7, 7] [97] 8 (by decide)).2 [50]).1 (by decide +kernel)).1

end Wolf.Http
