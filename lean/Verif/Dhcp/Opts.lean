/-!
# C30: the DHCP option stream

Model of `dhcp_opt_stream_init`, `dhcp_opt_stream_next_region` and `dhcp_opt_stream_next`
(`src/wolfip.c` 8622–8787) and of the `while` loops by which `dhcp_parse_offer`, `dhcp_msg_type` and
`dhcp_parse_ack` consume the stream up to option 255 or the end.

Bytes are naturals. A region of the message is a list; a load goes through `cur[pos]?` and a store into
`part_buf` is checked against its size 257, so an access outside the region or the buffer is the result
`oob`. Loops have an iteration budget and running out of it is the result `running`.
-/
namespace Wolf.Dhcp

/-- The three regions of a received message that may carry options: `options` cut to the received length
(at most 312 bytes), `sname` (64) and `file` (128). src/wolfip.c 1155–1163, 8643–8653. -/
structure Regions where
  opts : List Nat
  sname : List Nat
  file : List Nat

/-- `struct dhcp_opt_stream` between calls (no option is in progress then): the current region, the
offset in it, and the overload value seen. src/wolfip.c 8622–8641. -/
structure Strm where
  cur : List Nat
  pos : Nat
  region : Nat
  ov : Nat
deriving DecidableEq

/-- Result of one call. `item c d` is option `c` with payload `d` (for 255: end, empty payload). -/
inductive Res where
  | oob
  | running
  | item (code : Nat) (data : List Nat) (st : Strm)
  | stop
  | bad
deriving DecidableEq

/-- `dhcp_opt_stream_init`. src/wolfip.c 8643–8661. -/
def Strm.init (m : Regions) : Strm := { cur := m.opts, pos := 0, region := 0, ov := 0 }

/-- `dhcp_opt_stream_next_region`. src/wolfip.c 8665–8689. -/
def nextRegion (m : Regions) (st : Strm) : Option Strm :=
  if st.region = 0 then
    if st.ov / 2 % 2 = 1 then some { st with cur := m.sname, pos := 0, region := 1 }
    else if st.ov % 2 = 1 then some { st with cur := m.file, pos := 0, region := 2 }
    else none
  else if st.region = 1 then
    if st.ov % 2 = 1 then some { st with cur := m.file, pos := 0, region := 2 } else none
  else none

/-- Is the option collected in `part_buf` complete? `part_buf[1]` is read only when it has been
written. src/wolfip.c 8709–8711, 8713–8714. -/
def complete (part : List Nat) : Bool := decide (2 ≤ part.length ∧ 2 + part.getD 1 0 ≤ part.length)

/-- Copy bytes of the current region into `part_buf` until the option is complete or the region ends.
src/wolfip.c 8709–8712. -/
def pull (cur : List Nat) (pos : Nat) (part : List Nat) : Option (Nat × List Nat) :=
  if _h : pos < cur.length ∧ complete part = false then
    if part.length < 257 then
      match cur[pos]? with
      | none => none
      | some b => pull cur (pos + 1) (part ++ [b])
    else none
  else some (pos, part)
termination_by cur.length - pos
decreasing_by omega

/-- Error exit: −1 in strict mode, else end of stream. -/
def fin (strict : Bool) : Res := if strict then .bad else .stop

/-- The loop while an option is in progress (`fill != NULL`); `p0` is `part_in_region0`.
src/wolfip.c 8703–8737. -/
def fillRun (m : Regions) (strict p0 : Bool) : Nat → Strm → List Nat → Res
  | 0, _, _ => .running
  | fuel + 1, st, part =>
    match pull st.cur st.pos part with
    | none => .oob
    | some (pos', part') =>
      if complete part' then
        if p0 && part'.getD 0 0 == 52 then
          if part'.getD 1 0 ≠ 1 ∨ part'.getD 2 0 < 1 ∨ part'.getD 2 0 > 3 then fin strict
          else .item (part'.getD 0 0) ((part'.drop 2).take (part'.getD 1 0))
                { st with pos := pos', ov := part'.getD 2 0 }
        else .item (part'.getD 0 0) ((part'.drop 2).take (part'.getD 1 0)) { st with pos := pos' }
      else
        match nextRegion m { st with pos := pos' } with
        | none => fin strict
        | some st' => fillRun m strict p0 fuel st' part'

/-- The loop with no option in progress. Three regions, so three rounds of `fillRun` suffice.
src/wolfip.c 8738–8786. -/
def mainRun (m : Regions) (strict : Bool) : Nat → Strm → Res
  | 0, _ => .running
  | fuel + 1, st =>
    if st.pos + 1 > st.cur.length then
      match nextRegion m st with
      | none => fin strict
      | some st' => mainRun m strict fuel st'
    else
      match st.cur[st.pos]? with
      | none => .oob
      | some c =>
        if c = 255 then .item 255 [] { st with pos := st.cur.length }
        else if c = 0 then mainRun m strict fuel { st with pos := st.pos + 1 }
        else if st.pos + 2 > st.cur.length then fillRun m strict (st.region == 0) 3 st []
        else
          match st.cur[st.pos + 1]? with
          | none => .oob
          | some l =>
            if st.pos + 2 + l > st.cur.length then fillRun m strict (st.region == 0) 3 st []
            else if st.region = 0 ∧ c = 52 then
              if l ≠ 1 then
                match nextRegion m st with
                | none => fin strict
                | some st' => mainRun m strict fuel st'
              else
                match st.cur[st.pos + 2]? with
                | none => .oob
                | some v =>
                  if v < 1 ∨ v > 3 then
                    match nextRegion m st with
                    | none => fin strict
                    | some st' => mainRun m strict fuel st'
                  else .item c ((st.cur.drop (st.pos + 2)).take l) { st with pos := st.pos + 2 + l, ov := v }
            else .item c ((st.cur.drop (st.pos + 2)).take l) { st with pos := st.pos + 2 + l }

/-- Iteration budget: the number of bytes there are, plus one for each region change and for the end. -/
def budget (m : Regions) : Nat := m.opts.length + m.sname.length + m.file.length + 4

/-- `dhcp_opt_stream_next`. -/
def next (m : Regions) (strict : Bool) (st : Strm) : Res := mainRun m strict (budget m) st

/-- How a scan ended. -/
inductive Fin where
  | sawEnd
  | stop
  | bad
deriving DecidableEq, Repr

/-- Result of a scan. -/
inductive Scan where
  | oob
  | running
  | done (items : List (Nat × List Nat)) (f : Fin)
deriving DecidableEq

def Scan.cons (x : Nat × List Nat) : Scan → Scan
  | .done l f => .done (x :: l) f
  | s => s

/-- The callers' loops: take options until option 255, the end of the stream or an error.
src/wolfip.c 8824–8837 and 8842–8866, 8905–8913, 8957–8979. -/
def scan (m : Regions) (strict : Bool) : Nat → Strm → Scan
  | 0, _ => .running
  | n + 1, st =>
    match next m strict st with
    | .oob => .oob
    | .running => .running
    | .stop => .done [] .stop
    | .bad => .done [] .bad
    | .item c d st' => if c = 255 then .done [] .sawEnd else (scan m strict n st').cons (c, d)

/-- All options of a message. -/
def options (m : Regions) (strict : Bool) : Scan := scan m strict (budget m) (Strm.init m)

/-! ## Specification: option lists of RFC 2132 -/

/-- The options in a byte string, and whether option 255 ended it. An option cut short by the end of the
string is not there. -/
def specParse (bs : List Nat) : List (Nat × List Nat) × Bool :=
  match bs with
  | [] => ([], false)
  | c :: t =>
    if c = 0 then specParse t
    else if c = 255 then ([], true)
    else
      match t with
      | [] => ([], false)
      | l :: t =>
        if l ≤ t.length then
          ((c, t.take l) :: (specParse (t.drop l)).1, (specParse (t.drop l)).2)
        else ([], false)
termination_by bs.length
decreasing_by all_goals (simp only [List.length_cons, List.length_drop]; omega)

/-- The bytes of an option cut short by the end of the string. -/
def specRest (bs : List Nat) : List Nat :=
  match bs with
  | [] => []
  | c :: t =>
    if c = 0 then specRest t
    else if c = 255 then []
    else
      match t with
      | [] => [c]
      | l :: t => if l ≤ t.length then specRest (t.drop l) else c :: l :: t
termination_by bs.length
decreasing_by all_goals (simp only [List.length_cons, List.length_drop]; omega)

/-- The overload value after a list of options: the value of the last option 52. -/
def overload (ov : Nat) : List (Nat × List Nat) → Nat
  | [] => ov
  | (c, d) :: t => overload (if c = 52 then d.headD 0 else ov) t

/-- The overload options of the `options` field are well-formed (RFC 2132 §9.3: length 1, value 1, 2 or
3), and no option 52 is cut by the end of that field. -/
def OverloadOk (opts : List Nat) : Prop :=
  (∀ d, (52, d) ∈ (specParse opts).1 → d = [1] ∨ d = [2] ∨ d = [3]) ∧
  (specRest opts).head? ≠ some 52

/-- The bytes that carry options: the options field followed by the fields selected by option 52. -/
def selected (m : Regions) : List Nat :=
  m.opts ++ (if overload 0 (specParse m.opts).1 / 2 % 2 = 1 then m.sname else []) ++
    (if overload 0 (specParse m.opts).1 % 2 = 1 then m.file else [])

/-! ## Safety -/

/-- The stream state points into one of the regions. -/
def InRegion (m : Regions) (st : Strm) : Prop :=
  st.pos ≤ st.cur.length ∧
  ((st.region = 0 ∧ st.cur = m.opts) ∨ (st.region = 1 ∧ st.cur = m.sname) ∨ (st.region = 2 ∧ st.cur = m.file))

/-- Bytes that can still be read. -/
def left (m : Regions) (st : Strm) : Nat :=
  st.cur.length - st.pos +
    (if st.region = 0 then m.sname.length + m.file.length else if st.region = 1 then m.file.length else 0)

theorem nextRegion_some (m : Regions) (st st' : Strm) (h : InRegion m st) (e : nextRegion m st = some st') :
    InRegion m st' ∧ st.region < st'.region ∧ st'.region ≤ 2 ∧ st'.ov = st.ov ∧ st'.pos = 0 ∧
    left m st' + (st.cur.length - st.pos) ≤ left m st := by
  rw [nextRegion] at e
  obtain ⟨h1, h2⟩ := h
  split at e
  · rename_i h0
    split at e
    · simp only [Option.some.injEq] at e
      subst e
      simp [InRegion, left, h0]
      omega
    split at e
    · simp only [Option.some.injEq] at e
      subst e
      simp [InRegion, left, h0]
      omega
    · simp at e
  split at e
  · rename_i h0 h1
    split at e
    · simp only [Option.some.injEq] at e
      subst e
      simp [InRegion, left, h1]
      omega
    · simp at e
  · simp at e

/-- `pull` stays inside the region and the buffer, and copies bytes until the option is complete. -/
theorem pull_ok (cur : List Nat) (hb : ∀ b ∈ cur, b < 256) : ∀ (d pos : Nat) (part : List Nat),
    cur.length - pos = d → pos ≤ cur.length → (∀ b ∈ part, b < 256) → (complete part = false ∨ part.length ≤ 257) →
    ∃ k, pull cur pos part = some (pos + k, part ++ (cur.drop pos).take k) ∧ pos + k ≤ cur.length ∧
      (complete part = false → part.length ≤ 256) ∧
      (complete (part ++ (cur.drop pos).take k) = true ∨ pos + k = cur.length) ∧
      (∀ j, j < k → complete (part ++ (cur.drop pos).take j) = false) ∧
      (part ++ (cur.drop pos).take k).length ≤ 257 := by
  intro d
  induction d with
  | zero =>
    intro pos part hd hp hpb hc
    have hlen : complete part = false → part.length ≤ 256 := by
      intro h
      simp only [complete, decide_eq_false_iff_not] at h
      by_cases h2 : 2 ≤ part.length
      · have : part.getD 1 0 < 256 := by
          rw [List.getD_eq_getElem?_getD, List.getElem?_eq_getElem (by omega)]
          exact hpb _ (List.getElem_mem _)
        omega
      · omega
    refine ⟨0, ?_, by omega, hlen, Or.inr (by omega), by omega, ?_⟩
    · rw [pull, dif_neg (by omega)]; simp
    · rcases hc with hc | hc
      · have := hlen hc; simp; omega
      · simpa using hc
  | succ d ih =>
    intro pos part hd hp hpb hc
    have hlen : complete part = false → part.length ≤ 256 := by
      intro h
      simp only [complete, decide_eq_false_iff_not] at h
      by_cases h2 : 2 ≤ part.length
      · have : part.getD 1 0 < 256 := by
          rw [List.getD_eq_getElem?_getD, List.getElem?_eq_getElem (by omega)]
          exact hpb _ (List.getElem_mem _)
        omega
      · omega
    by_cases hcm : complete part = true
    · refine ⟨0, ?_, by omega, hlen, Or.inl (by simpa using hcm), by omega, ?_⟩
      · rw [pull, dif_neg (by simp [hcm])]; simp
      · rcases hc with hc | hc
        · rw [hcm] at hc; simp at hc
        · simpa using hc
    · have hcf : complete part = false := by simpa using hcm
      have hlt : pos < cur.length := by omega
      have h256 := hlen hcf
      have hdrop : cur.drop pos = cur[pos] :: cur.drop (pos + 1) := List.drop_eq_getElem_cons hlt
      obtain ⟨k, e, h1, _, h3, h4, h5⟩ := ih (pos + 1) (part ++ [cur[pos]]) (by omega) (by omega)
        (by
          intro b hbm
          rcases List.mem_append.1 hbm with h | h
          · exact hpb b h
          · simp only [List.mem_singleton] at h; rw [h]; exact hb _ (List.getElem_mem _))
        (Or.inr (by simp; omega))
      have happ : ∀ j, part ++ (cur.drop pos).take (j + 1) = part ++ [cur[pos]] ++ (cur.drop (pos + 1)).take j := by
        intro j; rw [hdrop, List.take_succ_cons]; simp
      refine ⟨k + 1, ?_, by omega, hlen, ?_, ?_, ?_⟩
      · rw [pull, dif_pos ⟨hlt, hcf⟩, if_pos (by omega), List.getElem?_eq_getElem hlt]
        simp only
        rw [e, happ, Nat.add_assoc, Nat.add_comm 1 k]
      · rw [happ]
        rcases h3 with h3 | h3
        · exact Or.inl h3
        · exact Or.inr (by omega)
      · intro j hj
        cases j with
        | zero => simpa using hcf
        | succ j => rw [happ]; exact h4 j (by omega)
      · rw [happ]; exact h5

/-- Bytes of all regions are bytes. -/
def Bytes (m : Regions) : Prop := ∀ b, b ∈ m.opts ∨ b ∈ m.sname ∨ b ∈ m.file → b < 256

theorem inRegion_bytes (m : Regions) (hb : Bytes m) (st : Strm) (h : InRegion m st) : ∀ b ∈ st.cur, b < 256 := by
  intro b hbm
  rcases h.2 with ⟨_, e⟩ | ⟨_, e⟩ | ⟨_, e⟩ <;> rw [e] at hbm <;> apply hb <;> simp [hbm]

/-- What a safe call can return: no stray access, no endless loop, and an item only with progress. -/
def Safe (m : Regions) (n : Nat) : Res → Prop
  | .oob => False
  | .running => False
  | .item c _ st' => InRegion m st' ∧ (c ≠ 255 → left m st' < n)
  | .stop => True
  | .bad => True

theorem fin_safe (m : Regions) (n : Nat) (s : Bool) : Safe m n (fin s) := by
  cases s <;> simp [fin, Safe]

theorem fillRun_safe (m : Regions) (hb : Bytes m) (strict p0 : Bool) : ∀ (fuel : Nat) (st : Strm) (part : List Nat) (n : Nat),
    InRegion m st → (∀ b ∈ part, b < 256) → complete part = false → 3 ≤ fuel + st.region →
    left m st + part.length ≤ n → 0 < n →
    Safe m n (fillRun m strict p0 fuel st part) := by
  intro fuel
  induction fuel with
  | zero =>
    intro st part n h hpb hc hf hn
    rcases h.2 with ⟨e, _⟩ | ⟨e, _⟩ | ⟨e, _⟩ <;> omega
  | succ fuel ih =>
    intro st part n h hpb hc hf hn hn0
    obtain ⟨k, e, h1, h2, h3, h4, h5⟩ := pull_ok st.cur (inRegion_bytes m hb st h) _ st.pos part rfl h.1 hpb (Or.inl hc)
    rw [fillRun, e]
    simp only
    have hin : ∀ o, InRegion m { st with pos := st.pos + k, ov := o } := fun o => ⟨h1, h.2⟩
    have hl : ∀ o, left m { st with pos := st.pos + k, ov := o } + k = left m st := by
      intro o; simp only [left]; omega
    have hpb' : ∀ b ∈ part ++ (st.cur.drop st.pos).take k, b < 256 := by
      intro b hbm
      rcases List.mem_append.1 hbm with hm | hm
      · exact hpb b hm
      · exact inRegion_bytes m hb st h b (List.mem_of_mem_drop (List.mem_of_mem_take hm))
    by_cases hcm : complete (part ++ (st.cur.drop st.pos).take k) = true
    · rw [if_pos hcm]
      have hk : 0 < k := by
        rcases Nat.eq_zero_or_pos k with rfl | hk
        · simp [hc] at hcm
        · exact hk
      have hlt : ∀ o, left m { st with pos := st.pos + k, ov := o } < n := by
        intro o; have := hl o; omega
      split
      · split
        · exact fin_safe _ _ _
        · exact ⟨hin _, fun _ => hlt _⟩
      · exact ⟨hin st.ov, fun _ => hlt st.ov⟩
    · rw [if_neg hcm]
      have hpos : st.pos + k = st.cur.length := by
        rcases h3 with h3 | h3
        · exact absurd h3 hcm
        · exact h3
      have hlen : (part ++ (st.cur.drop st.pos).take k).length = part.length + k := by
        rw [List.length_append, List.length_take, List.length_drop]; omega
      cases hr : nextRegion m { st with pos := st.pos + k } with
      | none => exact fin_safe _ _ _
      | some st' =>
        obtain ⟨g1, g2, g3, _, g4, g5⟩ := nextRegion_some m _ st' (hin st.ov) hr
        simp only at g2 g5
        have := hl st.ov
        exact ih st' _ n g1 hpb' (by simpa using hcm) (by omega) (by rw [hlen]; omega) hn0

theorem mainRun_safe (m : Regions) (hb : Bytes m) (strict : Bool) : ∀ (fuel : Nat) (st : Strm) (n : Nat),
    InRegion m st → left m st + (3 - st.region) < fuel → left m st ≤ n →
    Safe m n (mainRun m strict fuel st) := by
  intro fuel
  induction fuel with
  | zero => intro st n h hf; omega
  | succ fuel ih =>
    intro st n h hf hn
    have hend : Safe m n (match nextRegion m st with
        | none => fin strict
        | some st' => mainRun m strict fuel st') := by
      cases hr : nextRegion m st with
      | none => exact fin_safe _ _ _
      | some st' =>
        obtain ⟨g1, g2, g3, _, _, g5⟩ := nextRegion_some m _ st' h hr
        exact ih st' n g1 (by omega) (by omega)
    rw [mainRun]
    split
    · exact hend
    rename_i hlt
    rw [List.getElem?_eq_getElem (show st.pos < st.cur.length by omega)]
    simp only
    split
    · exact ⟨⟨by simp, h.2⟩, by simp⟩
    split
    · refine ih _ n ⟨by simp only; omega, h.2⟩ ?_ ?_ <;> simp only [left] at * <;> omega
    have hfill : Safe m n (fillRun m strict (st.region == 0) 3 st []) := by
      apply fillRun_safe m hb strict _ 3 st [] n h (by simp) (by simp [complete]) (by omega) (by simpa using hn)
      simp only [left] at hn
      omega
    split
    · exact hfill
    rw [List.getElem?_eq_getElem (show st.pos + 1 < st.cur.length by omega)]
    simp only
    split
    · exact hfill
    rename_i hl
    have hitem : ∀ o, InRegion m { st with pos := st.pos + 2 + st.cur[st.pos + 1], ov := o } ∧
        left m { st with pos := st.pos + 2 + st.cur[st.pos + 1], ov := o } < n := by
      intro o
      refine ⟨⟨by simp only; omega, h.2⟩, ?_⟩
      simp only [left] at hn ⊢
      omega
    split
    · split
      · exact hend
      rename_i hl1
      rw [List.getElem?_eq_getElem (show st.pos + 2 < st.cur.length by omega)]
      simp only
      split
      · exact hend
      · exact ⟨(hitem _).1, fun _ => (hitem _).2⟩
    · exact ⟨(hitem st.ov).1, fun _ => (hitem st.ov).2⟩

theorem scan_safe (m : Regions) (hb : Bytes m) (strict : Bool) : ∀ (n : Nat) (st : Strm), InRegion m st →
    left m st < n → left m st + (3 - st.region) < budget m → ∃ l f, scan m strict n st = .done l f := by
  intro n
  induction n with
  | zero => intro st h hn; omega
  | succ n ih =>
    intro st h hn hbud
    have hs := mainRun_safe m hb strict (budget m) st (left m st) h hbud (Nat.le_refl _)
    rw [scan, next]
    cases hr : mainRun m strict (budget m) st with
    | oob => rw [hr] at hs; exact absurd hs id
    | running => rw [hr] at hs; exact absurd hs id
    | stop => exact ⟨[], .stop, rfl⟩
    | bad => exact ⟨[], .bad, rfl⟩
    | item c d st' =>
      rw [hr] at hs
      obtain ⟨h1, h2⟩ := hs
      simp only
      split
      · exact ⟨[], .sawEnd, rfl⟩
      · rename_i hc
        have h3 := h2 hc
        obtain ⟨l, f, e⟩ := ih st' h1 (by omega) (by
          have hreg : left m st' + 3 < budget m := by
            have : left m st ≤ m.opts.length + m.sname.length + m.file.length := by
              rcases h.2 with ⟨e1, e2⟩ | ⟨e1, e2⟩ | ⟨e1, e2⟩ <;> simp only [left, e1, e2] <;> simp <;> omega
            simp only [budget]
            omega
          omega)
        rw [e]
        exact ⟨(c, d) :: l, f, rfl⟩

/-- **C30, safety.** For every content and length of a received message, the option scan terminates
within a number of iterations bounded by the number of bytes, and neither reads outside the options,
sname and file fields nor writes outside its 257-byte buffer. -/
theorem dhcp_options_safe (m : Regions) (hb : Bytes m) (strict : Bool) :
    ∃ items f, options m strict = .done items f := by
  apply scan_safe m hb strict
  · exact ⟨by simp [Strm.init], Or.inl ⟨rfl, rfl⟩⟩
  · simp [left, Strm.init, budget]; omega
  · simp [left, Strm.init, budget]; omega

/-! ## Functional correctness -/

theorem specParse_pad (t : List Nat) : specParse (0 :: t) = specParse t := by rw [specParse.eq_def]; simp
theorem specRest_pad (t : List Nat) : specRest (0 :: t) = specRest t := by rw [specRest.eq_def]; simp
theorem specParse_end (t : List Nat) : specParse (255 :: t) = ([], true) := by rw [specParse.eq_def]; simp

theorem specParse_opt (c l : Nat) (d t : List Nat) (h0 : c ≠ 0) (h1 : c ≠ 255) (hl : d.length = l) :
    specParse (c :: l :: (d ++ t)) = ((c, d) :: (specParse t).1, (specParse t).2) := by
  rw [specParse.eq_def]
  simp only
  rw [if_neg h0, if_neg h1]
  rw [if_pos (by simp; omega)]
  subst hl
  simp

theorem specRest_opt (c l : Nat) (d t : List Nat) (h0 : c ≠ 0) (h1 : c ≠ 255) (hl : d.length = l) :
    specRest (c :: l :: (d ++ t)) = specRest t := by
  rw [specRest.eq_def]
  simp only
  rw [if_neg h0, if_neg h1]
  rw [if_pos (by simp; omega)]
  subst hl
  simp

theorem specParse_cut (c : Nat) (t : List Nat) (h0 : c ≠ 0) (h1 : c ≠ 255)
    (h : complete (c :: t) = false) : specParse (c :: t) = ([], false) ∧ specRest (c :: t) = c :: t := by
  rw [specParse.eq_def, specRest.eq_def]
  simp only
  rw [if_neg h0, if_neg h1, if_neg h0, if_neg h1]
  cases t with
  | nil => exact ⟨rfl, rfl⟩
  | cons l t =>
    simp only [complete, decide_eq_false_iff_not, List.length_cons, List.getD_cons_succ, List.getD_cons_zero] at h
    simp only
    rw [if_neg (by omega), if_neg (by omega)]
    exact ⟨rfl, rfl⟩

/-- Bytes of later regions, given the overload value. -/
def tails (m : Regions) (r ov : Nat) : List Nat :=
  if r = 0 then (if ov / 2 % 2 = 1 then m.sname else []) ++ (if ov % 2 = 1 then m.file else [])
  else if r = 1 then (if ov % 2 = 1 then m.file else []) else []

/-- Overload value at the end of the current region. -/
def ovEnd (st : Strm) : Nat :=
  if st.region = 0 then overload st.ov (specParse (st.cur.drop st.pos)).1 else st.ov

/-- All bytes still to be scanned. -/
def future (m : Regions) (st : Strm) : List Nat := st.cur.drop st.pos ++ tails m st.region (ovEnd st)

def OkSt (st : Strm) : Prop := st.region = 0 → OverloadOk (st.cur.drop st.pos)

/-- What a call should return when the bytes still to be scanned are `G`. -/
def Head (m : Regions) (strict : Bool) (G : List Nat) : Res → Prop
  | .item c d st' =>
    if c = 255 then specParse G = ([], true)
    else OkSt st' ∧ specParse G = ((c, d) :: (specParse (future m st')).1, (specParse (future m st')).2)
  | .stop => strict = false ∧ specParse G = ([], false)
  | .bad => strict = true ∧ specParse G = ([], false)
  | _ => False

theorem fin_head (m : Regions) (strict : Bool) (G : List Nat) (h : specParse G = ([], false)) :
    Head m strict G (fin strict) := by cases strict <;> simp [fin, Head, h]

theorem nextRegion_tails (m : Regions) (st : Strm) (h : InRegion m st) :
    (nextRegion m st = none → tails m st.region st.ov = []) ∧
    (∀ st', nextRegion m st = some st' → st'.region ≠ 0 ∧ tails m st.region st.ov = future m st') := by
  rcases h.2 with ⟨e, _⟩ | ⟨e, _⟩ | ⟨e, _⟩
  · rw [nextRegion, if_pos e, tails, if_pos e]
    refine ⟨?_, ?_⟩
    · split <;> (try split) <;> simp_all
    · intro st'
      split
      · rintro h; injection h with h; subst h; simp [future, tails, ovEnd]
      · split
        · rintro h; injection h with h; subst h; simp [future, tails]
        · simp
  · have e0 : ¬ st.region = 0 := by omega
    rw [nextRegion, if_neg e0, if_pos e, tails, if_neg e0, if_pos e]
    refine ⟨?_, ?_⟩
    · split <;> simp_all
    · intro st'
      split
      · rintro h; injection h with h; subst h; simp [future, tails]
      · simp
  · have e0 : ¬ st.region = 0 := by omega
    have e1 : ¬ st.region = 1 := by omega
    rw [nextRegion, if_neg e0, if_neg e1, tails, if_neg e0, if_neg e1]
    simp

theorem complete_mono (a b : List Nat) (h : complete a = true) : complete (a ++ b) = true := by
  simp only [complete, decide_eq_true_eq] at h ⊢
  have : (a ++ b).getD 1 0 = a.getD 1 0 := by
    rw [List.getD_eq_getElem?_getD, List.getD_eq_getElem?_getD, List.getElem?_append_left (by omega)]
  rw [this, List.length_append]
  omega

/-- The buffer is complete exactly when it holds code, length and payload, if it was not before the last
byte. -/
theorem complete_exact (a : List Nat) (b : Nat) (h : complete (a ++ [b]) = true) (hn : complete a = false) :
    ∃ c l d, a ++ [b] = c :: l :: d ∧ d.length = l := by
  cases a with
  | nil => simp [complete] at h
  | cons c a =>
    cases a with
    | nil =>
      simp [complete] at h
      exact ⟨c, b, [], rfl, by simp; omega⟩
    | cons l a =>
      simp [complete] at h hn
      exact ⟨c, l, a ++ [b], rfl, by simp; omega⟩

theorem fillRun_head (m : Regions) (hb : Bytes m) (strict p0 : Bool) : ∀ (fuel : Nat) (st : Strm) (part : List Nat) (c0 : Nat),
    InRegion m st → (∀ b ∈ part, b < 256) → complete part = false → 3 ≤ fuel + st.region →
    (st.region ≠ 0 ∨ complete (part ++ st.cur.drop st.pos) = false) →
    (part ++ st.cur.drop st.pos ++ tails m st.region st.ov).head? = some c0 →
    c0 ≠ 0 → c0 ≠ 255 → (p0 = true → c0 ≠ 52) →
    Head m strict (part ++ st.cur.drop st.pos ++ tails m st.region st.ov) (fillRun m strict p0 fuel st part) := by
  intro fuel
  induction fuel with
  | zero =>
    intro st part c0 h hpb hc hf
    rcases h.2 with ⟨e, _⟩ | ⟨e, _⟩ | ⟨e, _⟩ <;> omega
  | succ fuel ih =>
    intro st part c0 h hpb hc hf hreg hhead h0 h255 h52
    obtain ⟨k, e, h1, h2, h3, h4, h5⟩ := pull_ok st.cur (inRegion_bytes m hb st h) _ st.pos part rfl h.1 hpb (Or.inl hc)
    rw [fillRun, e]
    simp only
    have hpb' : ∀ b ∈ part ++ (st.cur.drop st.pos).take k, b < 256 := by
      intro b hbm
      rcases List.mem_append.1 hbm with hm | hm
      · exact hpb b hm
      · exact inRegion_bytes m hb st h b (List.mem_of_mem_drop (List.mem_of_mem_take hm))
    have hsplit : part ++ st.cur.drop st.pos =
        (part ++ (st.cur.drop st.pos).take k) ++ st.cur.drop (st.pos + k) := by
      rw [List.append_assoc, ← List.drop_drop (i := k), List.take_append_drop]
    by_cases hcm : complete (part ++ (st.cur.drop st.pos).take k) = true
    · rw [if_pos hcm]
      have hr : st.region ≠ 0 := by
        rcases hreg with hr | hr
        · exact hr
        · rw [hsplit, complete_mono _ _ hcm] at hr; simp at hr
      have hk : 0 < k := by
        rcases Nat.eq_zero_or_pos k with rfl | hk
        · simp [hc] at hcm
        · exact hk
      have hlast : ∃ b, (st.cur.drop st.pos).take k = (st.cur.drop st.pos).take (k - 1) ++ [b] := by
        refine ⟨(st.cur.drop st.pos)[k - 1]'(by rw [List.length_drop]; omega), ?_⟩
        have := List.take_append_getElem (l := st.cur.drop st.pos) (i := k - 1) (by rw [List.length_drop]; omega)
        rw [this]; congr 1; omega
      obtain ⟨b, hb'⟩ := hlast
      have hx : ∃ c l d, part ++ (st.cur.drop st.pos).take k = c :: l :: d ∧ d.length = l := by
        rw [hb', ← List.append_assoc] at hcm ⊢
        exact complete_exact _ b hcm (h4 (k - 1) (by omega))
      obtain ⟨c, l, d, hcd, hl⟩ := hx
      rw [hcd] at hsplit
      rw [hcd]
      rw [hsplit] at hhead ⊢
      simp only [List.cons_append, List.head?_cons, Option.some.injEq] at hhead
      subst hhead
      have hno : ¬ (p0 && (c :: l :: d).getD 0 0 == 52) = true := by
        simp only [List.getD_cons_zero, Bool.and_eq_true, beq_iff_eq, not_and]
        exact h52
      rw [if_neg hno]
      simp only [List.getD_cons_zero, List.getD_cons_succ, List.drop_succ_cons, List.drop_zero, Head]
      rw [if_neg h255, ← hl, List.take_length]
      refine ⟨fun hh => absurd hh hr, ?_⟩
      have hf : future m { st with pos := st.pos + k } = st.cur.drop (st.pos + k) ++ tails m st.region st.ov := by
        simp [future, ovEnd, hr]
      rw [hf]
      simp only [List.cons_append, List.append_assoc]
      rw [specParse_opt c d.length d _ h0 h255 rfl]
    · rw [if_neg hcm]
      have hpos : st.pos + k = st.cur.length := by
        rcases h3 with h3 | h3
        · exact absurd h3 hcm
        · exact h3
      have htk : (st.cur.drop st.pos).take k = st.cur.drop st.pos :=
        List.take_of_length_le (by rw [List.length_drop]; omega)
      rw [htk] at hcm hpb' ⊢
      have hin : InRegion m { st with pos := st.pos + k } := ⟨h1, h.2⟩
      obtain ⟨ht1, ht2⟩ := nextRegion_tails m _ hin
      cases hr : nextRegion m { st with pos := st.pos + k } with
      | none =>
        have ht := ht1 hr
        simp only at ht
        rw [ht, List.append_nil] at hhead ⊢
        apply fin_head
        cases hG : part ++ st.cur.drop st.pos with
        | nil => rw [hG] at hhead; simp at hhead
        | cons c t =>
          rw [hG] at hhead hcm
          simp only [List.head?_cons, Option.some.injEq] at hhead
          subst hhead
          exact (specParse_cut c t h0 h255 (by simpa using hcm)).1
      | some st' =>
        obtain ⟨g1, g2, g3, g3', g4, g5⟩ := nextRegion_some m _ st' hin hr
        obtain ⟨hr', ht⟩ := ht2 _ hr
        simp only at ht g2
        have hfu : future m st' = st'.cur.drop st'.pos ++ tails m st'.region st'.ov := by simp [future, ovEnd, hr']
        rw [ht, hfu, ← List.append_assoc] at hhead ⊢
        exact ih st' _ c0 g1 hpb' (by simpa using hcm) (by omega) (Or.inl hr') hhead h0 h255 h52

theorem mainRun_head (m : Regions) (hb : Bytes m) (strict : Bool) : ∀ (fuel : Nat) (st : Strm),
    InRegion m st → OkSt st → left m st + (3 - st.region) < fuel →
    Head m strict (future m st) (mainRun m strict fuel st) := by
  intro fuel
  induction fuel with
  | zero => intro st h _ hf; omega
  | succ fuel ih =>
    intro st h hok hf
    rw [mainRun]
    split
    · -- end of the region
      rename_i hend
      have hd : st.cur.drop st.pos = [] := List.drop_of_length_le (by omega)
      have hfu : future m st = tails m st.region st.ov := by
        rw [future, ovEnd, hd, specParse]; simp [overload]
      obtain ⟨ht1, ht2⟩ := nextRegion_tails m st h
      cases hr : nextRegion m st with
      | none => rw [hfu, ht1 hr]; exact fin_head _ _ _ (by rw [specParse])
      | some st' =>
        obtain ⟨g1, g2, g3, _, _, g5⟩ := nextRegion_some m _ st' h hr
        obtain ⟨hr', ht⟩ := ht2 _ hr
        rw [hfu, ht]
        exact ih st' g1 (fun hh => absurd hh hr') (by omega)
    rename_i hlt
    have hlt' : st.pos < st.cur.length := by omega
    rw [List.getElem?_eq_getElem hlt']
    have hdrop : st.cur.drop st.pos = st.cur[st.pos] :: st.cur.drop (st.pos + 1) := List.drop_eq_getElem_cons hlt'
    generalize hc : st.cur[st.pos] = c at *
    simp only
    split
    · rename_i h255
      simp only [Head, if_pos]
      rw [future, hdrop, h255, List.cons_append, specParse_end]
    rename_i h255
    split
    · rename_i h0
      have hfu : specParse (future m st) = specParse (future m { st with pos := st.pos + 1 }) := by
        simp only [future, ovEnd]
        rw [hdrop, h0, specParse_pad, List.cons_append, specParse_pad]
      have hok' : OkSt { st with pos := st.pos + 1 } := by
        intro hr
        have := hok hr
        rw [hdrop, h0, OverloadOk, specParse_pad, specRest_pad] at this
        exact this
      have := ih { st with pos := st.pos + 1 } ⟨by simp only; omega, h.2⟩ hok' (by simp only [left] at *; omega)
      generalize mainRun m strict fuel { st with pos := st.pos + 1 } = r at this ⊢
      cases r <;> simp only [Head, hfu] at this ⊢ <;> exact this
    rename_i h0
    have hfill : complete (st.cur.drop st.pos) = false →
        Head m strict (future m st) (fillRun m strict (st.region == 0) 3 st []) := by
      intro hcm
      rw [hdrop] at hcm
      obtain ⟨hp, hr⟩ := specParse_cut c _ h0 h255 hcm
      have hfu : future m st = [] ++ st.cur.drop st.pos ++ tails m st.region st.ov := by
        rw [future, ovEnd, hdrop, hp]; simp [overload]
      rw [hfu]
      apply fillRun_head m hb strict _ 3 st [] c h (by simp) (by simp [complete]) (by omega)
        (Or.inr (by rw [hdrop]; simpa using hcm)) (by rw [hdrop]; simp) h0 h255
      intro hreg h52
      have := hok (by simpa using hreg)
      rw [hdrop, OverloadOk, hr, List.head?_cons, h52] at this
      exact this.2 rfl
    split
    · apply hfill
      simp only [complete, decide_eq_false_iff_not, List.length_drop]; omega
    rename_i hlt2
    have hlt2' : st.pos + 1 < st.cur.length := by omega
    rw [List.getElem?_eq_getElem hlt2']
    have hdrop2 : st.cur.drop (st.pos + 1) = st.cur[st.pos + 1] :: st.cur.drop (st.pos + 2) :=
      List.drop_eq_getElem_cons hlt2'
    generalize hl : st.cur[st.pos + 1] = l at *
    simp only
    split
    · rename_i hcut
      apply hfill
      rw [hdrop, hdrop2]
      simp only [complete, decide_eq_false_iff_not, List.length_cons, List.length_drop, List.getD_cons_succ,
        List.getD_cons_zero]
      omega
    rename_i hfit
    have hsp : st.cur.drop (st.pos + 2) = (st.cur.drop (st.pos + 2)).take l ++ st.cur.drop (st.pos + 2 + l) := by
      rw [← List.drop_drop (i := l), List.take_append_drop]
    have hdl : ((st.cur.drop (st.pos + 2)).take l).length = l := by
      rw [List.length_take, List.length_drop]; omega
    have hsuf : st.cur.drop st.pos = c :: l :: ((st.cur.drop (st.pos + 2)).take l ++ st.cur.drop (st.pos + 2 + l)) := by
      rw [hdrop, hdrop2, ← hsp]
    have hitem : ∀ o, (st.region = 0 → o = if c = 52 then ((st.cur.drop (st.pos + 2)).take l).headD 0 else st.ov) →
        (st.region ≠ 0 → o = st.ov) →
        Head m strict (future m st)
          (.item c ((st.cur.drop (st.pos + 2)).take l) { st with pos := st.pos + 2 + l, ov := o }) := by
      intro o ho1 ho2
      simp only [Head]
      rw [if_neg h255]
      have hov : ovEnd st = ovEnd { st with pos := st.pos + 2 + l, ov := o } := by
        simp only [ovEnd]
        by_cases hr : st.region = 0
        · rw [if_pos hr, if_pos hr, hsuf, specParse_opt _ _ _ _ h0 h255 hdl, ho1 hr]
          simp only [overload]
        · rw [if_neg hr, if_neg hr, ho2 hr]
      refine ⟨?_, ?_⟩
      · intro hr
        have := hok hr
        rw [hsuf, OverloadOk, specParse_opt _ _ _ _ h0 h255 hdl, specRest_opt _ _ _ _ h0 h255 hdl] at this
        exact ⟨fun d hd => this.1 d (List.mem_cons_of_mem _ hd), this.2⟩
      · rw [future, hsuf, hov]
        simp only [List.cons_append, List.append_assoc]
        rw [specParse_opt _ _ _ _ h0 h255 hdl]
        rfl
    split
    · rename_i h52
      have hd := (hok h52.1).1 ((st.cur.drop (st.pos + 2)).take l) (by
        rw [hsuf, specParse_opt _ _ _ _ h0 h255 hdl, h52.2]; exact List.mem_cons_self)
      have hl1 : l = 1 := by
        rcases hd with hd | hd | hd <;> rw [hd] at hdl <;> simpa using hdl.symm
      have hlt3 : st.pos + 2 < st.cur.length := by omega
      rw [if_neg (by omega), List.getElem?_eq_getElem hlt3]
      have hhd : (st.cur.drop (st.pos + 2)).take l = [st.cur[st.pos + 2]] := by
        rw [hl1, List.drop_eq_getElem_cons hlt3, List.take_succ_cons, List.take_zero]
      have hv : ¬ (st.cur[st.pos + 2] < 1 ∨ st.cur[st.pos + 2] > 3) := by
        rw [hhd] at hd
        simp only [List.cons.injEq, and_true] at hd
        omega
      simp only
      rw [if_neg hv]
      apply hitem
      · intro _; rw [if_pos h52.2, hhd]; rfl
      · intro hr; exact absurd h52.1 hr
    · rename_i h52
      exact hitem st.ov (by intro hr; rw [if_neg (fun hc52 => h52 ⟨hr, hc52⟩)]) (by intro _; rfl)

theorem scan_head (m : Regions) (hb : Bytes m) (strict : Bool) : ∀ (n : Nat) (st : Strm), InRegion m st → OkSt st →
    left m st < n → left m st + (3 - st.region) < budget m →
    scan m strict n st = .done (specParse (future m st)).1
      (if (specParse (future m st)).2 then .sawEnd else if strict then .bad else .stop) := by
  intro n
  induction n with
  | zero => intro st h _ hn; omega
  | succ n ih =>
    intro st h hok hn hbud
    have hs := mainRun_safe m hb strict (budget m) st (left m st) h hbud (Nat.le_refl _)
    have hh := mainRun_head m hb strict (budget m) st h hok hbud
    rw [scan, next]
    cases hr : mainRun m strict (budget m) st with
    | oob => rw [hr] at hs; exact absurd hs id
    | running => rw [hr] at hs; exact absurd hs id
    | stop => rw [hr] at hh; simp only [Head] at hh; simp [hh.1, hh.2]
    | bad => rw [hr] at hh; simp only [Head] at hh; simp [hh.1, hh.2]
    | item c d st' =>
      rw [hr] at hs hh
      simp only [Head] at hh
      obtain ⟨h1, h2⟩ := hs
      simp only
      split
      · rename_i hc; rw [if_pos hc] at hh; rw [hh]; simp
      · rename_i hc
        rw [if_neg hc] at hh
        have h3 := h2 hc
        have e := ih st' h1 hh.1 (by omega) (by
          have hreg : left m st' + 3 < budget m := by
            have : left m st ≤ m.opts.length + m.sname.length + m.file.length := by
              rcases h.2 with ⟨e1, e2⟩ | ⟨e1, e2⟩ | ⟨e1, e2⟩ <;> simp only [left, e1, e2] <;> simp <;> omega
            simp only [budget]
            omega
          omega)
        rw [e, hh.2]
        rfl

/-- **C30, correctness.** When the overload options of the message are well-formed, the callers see
exactly the options of RFC 2132 in the concatenation of the options field and the fields that option 52
selects, in order, including options split across fields, up to option 255; and the scan reports
success exactly when option 255 is there. Without it a strict scan (offer, acknowledgement) fails. -/
theorem dhcp_options_exact (m : Regions) (hb : Bytes m) (strict : Bool) (ho : OverloadOk m.opts) :
    options m strict = .done (specParse (selected m)).1
      (if (specParse (selected m)).2 then .sawEnd else if strict then .bad else .stop) := by
  have := scan_head m hb strict (budget m) (Strm.init m) ⟨by simp [Strm.init], Or.inl ⟨rfl, rfl⟩⟩
    (fun _ => by simpa [Strm.init] using ho) (by simp [left, Strm.init, budget]; omega)
    (by simp [left, Strm.init, budget]; omega)
  have hf : future m (Strm.init m) = selected m := by
    simp [future, Strm.init, tails, ovEnd, selected]
  rw [hf] at this
  exact this

/-- A message whose option 12 starts in the options field and ends in sname. -/
def exSplit : Regions := { opts := [53, 1, 2, 52, 1, 2, 12, 3, 65], sname := [66, 67, 0, 255], file := [1, 2] }

theorem exSplit_hyps : Bytes exSplit ∧ OverloadOk exSplit.opts := by
  have h : specParse exSplit.opts = ([(53, [2]), (52, [2])], false) ∧ specRest exSplit.opts = [12, 3, 65] := by
    decide +kernel
  refine ⟨?_, ?_, ?_⟩
  · intro b hb; simp only [exSplit, List.mem_cons, List.not_mem_nil, or_false] at hb; omega
  · rw [h.1]; simp
  · rw [h.2]; simp

example : options exSplit true = .done [(53, [2]), (52, [2]), (12, [65, 66, 67])] .sawEnd := by decide +kernel

/-- An option running past the received bytes makes a strict scan fail. -/
example : options { opts := [53, 1, 5, 54, 4, 10, 0], sname := [], file := [] } true = .done [(53, [5])] .bad := by
  decide +kernel

/-- Option 255 in the options field ends the scan, so an overloaded field behind it is never read. -/
example : options { opts := [53, 1, 2, 52, 1, 1, 255], sname := [], file := [54, 4, 1, 2, 3, 4, 255] } true
    = .done [(53, [2]), (52, [1])] .sawEnd := by decide +kernel

end Wolf.Dhcp
