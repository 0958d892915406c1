/-!
# C56, C57 (numbers): TFTP requests, option acknowledgments and decimal numbers

Model of the text half of `src/tftp/wolftftp.c`. A pointer into a received packet is the list of the
bytes from there to the end of the packet, so `buf + len - p` is its length; a load behind the end is
the result `oob`. C strings taken from a packet are read up to their NUL, which is more than the code
may load (comparison stops at the first difference), so the absence of `oob` is not weakened by that.
-/
namespace Wolf.Tftp

/-! ## Model -/

/-- `wolftftp_strnlen_local(s, max_len)`; `none` is a load behind the end of the packet.
src/tftp/wolftftp.c 52–63. -/
def strnlen : Nat → List Nat → Option Nat
  | 0, _ => some 0
  | _ + 1, [] => none
  | n + 1, c :: t => if c = 0 then some 0 else (strnlen n t).map (· + 1)

/-- The C string at a pointer; `none` if there is no NUL before the end of the packet. -/
def cstr : List Nat → Option (List Nat)
  | [] => none
  | c :: t => if c = 0 then some [] else (cstr t).map (c :: ·)

/-- `wolftftp_tolower_local`. src/tftp/wolftftp.c 66–71. -/
def lower (c : Nat) : Nat := if 65 ≤ c ∧ c ≤ 90 then c - 65 + 97 else c

/-- `wolftftp_stricmp_local(a, b) == 0`. A NUL differs from every other (folded) character.
src/tftp/wolftftp.c 93–111. -/
def stricmp0 : List Nat → List Nat → Bool
  | [], [] => true
  | a :: as, b :: bs => if lower a = lower b then stricmp0 as bs else false
  | _, _ => false

/-- The loop of `wolftftp_parse_u32`. Bytes above 127 are negative `char`s, hence no digits.
src/tftp/wolftftp.c 133–143. -/
def parseLoop (max : Nat) : Nat → List Nat → Option Nat
  | v, [] => some v
  | v, c :: t =>
    if c < 48 ∨ c > 57 then none
    else if v > (0xFFFFFFFF - (c - 48)) / 10 then none
    else if v * 10 + (c - 48) > max then none
    else parseLoop max (v * 10 + (c - 48)) t

/-- `wolftftp_parse_u32`. src/tftp/wolftftp.c 125–146. -/
def parseU32 (s : List Nat) (max : Nat) : Option Nat :=
  match s with
  | [] => none
  | c :: t => parseLoop max 0 (c :: t)

/-- The digits pushed by `wolftftp_utoa_local`, least significant first (`tmp`).
src/tftp/wolftftp.c 83–86. -/
def digitsRev : Nat → Nat → List Nat
  | 0, _ => []
  | fuel + 1, v => if v = 0 then [] else (48 + v % 10) :: digitsRev fuel (v / 10)

/-- `wolftftp_utoa_local(out, cap, v)`: the string left in `out`. 24 digits are the capacity of `tmp`.
src/tftp/wolftftp.c 75–91. -/
def utoa (cap v : Nat) : List Nat :=
  let tmp := if v = 0 then [48] else digitsRev 24 v
  (tmp.reverse).take (cap - 1)

def isSep (c : Nat) : Bool := c == 47 || c == 92

/-- The component loop of `wolftftp_filename_is_safe`; `seg` are the characters since the last separator.
src/tftp/wolftftp.c 329–338. -/
def segLoop : List Nat → List Nat → Bool
  | seg, [] => !(seg == [46, 46])
  | seg, c :: t =>
    if isSep c then
      if seg == [46, 46] then false else segLoop [] t
    else segLoop (seg ++ [c]) t

/-- `wolftftp_filename_is_safe`. src/tftp/wolftftp.c 310–340. -/
def filenameIsSafe (name : List Nat) : Bool :=
  match name with
  | [] => false
  | c :: _ => if isSep c then false else if name.any (· == 58) then false else segLoop [] name

/-- `struct wolftftp_parsed_req`; `opts` as the four option bits. src/tftp/wolftftp.c 36–44. -/
structure Req where
  opcode : Nat
  filename : List Nat
  blksize : Option Nat := none
  timeout : Option Nat := none
  tsize : Option Nat := none
  windowsize : Option Nat := none
deriving DecidableEq

inductive PRes (α : Type) where
  | oob
  | running
  | packet
  | unsupported
  | ok (r : α)
deriving DecidableEq

def kBlksize : List Nat := [98, 108, 107, 115, 105, 122, 101]
def kTimeout : List Nat := [116, 105, 109, 101, 111, 117, 116]
def kTsize : List Nat := [116, 115, 105, 122, 101]
def kWindowsize : List Nat := [119, 105, 110, 100, 111, 119, 115, 105, 122, 101]
def sOctet : List Nat := [111, 99, 116, 101, 116]

def maxBlksize : Nat := 1428
def maxWindow : Nat := 8
def maxFilename : Nat := 128

/-- One option of a request: the `if`-chain. src/tftp/wolftftp.c 387–413. -/
def reqOpt (r : Req) (key value : List Nat) : PRes Req :=
  if stricmp0 key kBlksize then
    match parseU32 value maxBlksize with
    | none => .unsupported
    | some n => if n < 8 then .unsupported else .ok { r with blksize := some n }
  else if stricmp0 key kTimeout then
    match parseU32 value 255 with
    | none => .unsupported
    | some n => if n = 0 then .unsupported else .ok { r with timeout := some n }
  else if stricmp0 key kTsize then
    match parseU32 value 0xFFFFFFFF with
    | none => .unsupported
    | some n => .ok { r with tsize := some n }
  else if stricmp0 key kWindowsize then
    match parseU32 value maxWindow with
    | none => .unsupported
    | some n => if n = 0 then .unsupported else .ok { r with windowsize := some n }
  else .unsupported

/-- The option loop of `wolftftp_parse_request` and `wolftftp_parse_oack`, over what one option does
(`step`); `p` is the pointer, one unit of `fuel` per round. src/tftp/wolftftp.c 371–415, 517–570. -/
def optLoop (step : α → List Nat → List Nat → PRes α) : Nat → α → List Nat → PRes α
  | 0, _, _ => .running
  | fuel + 1, r, p =>
    if p.length = 0 then .ok r
    else
      match strnlen p.length p with
      | none => .oob
      | some kl =>
        if kl = 0 ∨ kl ≥ p.length then .packet
        else
          let value := p.drop (kl + 1)
          match strnlen value.length value with
          | none => .oob
          | some vl =>
            if vl = 0 ∨ vl ≥ value.length then .packet
            else
              match cstr p, cstr value with
              | some k, some v =>
                match step r k v with
                | .ok r' => optLoop step fuel r' (value.drop (vl + 1))
                | e => e
              | _, _ => .oob

/-- `wolftftp_read_u16` at the start of a packet of at least 2 bytes. src/tftp/wolftftp.c 113–116. -/
def rd16 (m : List Nat) (i : Nat) : Nat := m.getD i 0 * 256 + m.getD (i + 1) 0

/-- `wolftftp_parse_request`. src/tftp/wolftftp.c 342–418. -/
def parseRequest (m : List Nat) : PRes Req :=
  if m.length < 4 then .packet
  else
    let op := rd16 m 0
    if op ≠ 1 ∧ op ≠ 2 then .packet
    else
      let p := m.drop 2
      match strnlen (m.length - 2) p with
      | none => .oob
      | some sl =>
        if sl = 0 ∨ sl ≥ maxFilename ∨ 2 + sl ≥ m.length then .packet
        else
          let name := p.take sl
          if filenameIsSafe name = false then .packet
          else
            let p2 := p.drop (sl + 1)
            match strnlen p2.length p2 with
            | none => .oob
            | some ml =>
              if ml = 0 ∨ ml ≥ p2.length then .unsupported
              else
                match cstr p2 with
                | none => .oob
                | some mode =>
                  if stricmp0 mode sOctet then optLoop reqOpt (m.length + 1) { opcode := op, filename := name } (p2.drop (ml + 1))
                  else .unsupported

/-- The option bits a client asked for (`requested_opts`). -/
structure Bits where
  blksize : Bool := false
  timeout : Bool := false
  tsize : Bool := false
  windowsize : Bool := false
deriving DecidableEq

/-- `struct wolftftp_negotiated`; `tsize` with `have_tsize`. src/tftp/wolftftp.h 146–152. -/
structure Neg where
  blksize : Nat
  timeout : Nat
  windowsize : Nat
  tsize : Option Nat := none
deriving DecidableEq

/-- One option of an OACK. src/tftp/wolftftp.c 538–568. -/
def oackOpt (b : Bits) (n : Neg) (key value : List Nat) : PRes Neg :=
  if stricmp0 key kBlksize then
    if b.blksize = false then .unsupported
    else match parseU32 value maxBlksize with
      | none => .unsupported
      | some v => if v < 8 then .unsupported else .ok { n with blksize := v }
  else if stricmp0 key kTimeout then
    if b.timeout = false then .unsupported
    else match parseU32 value 255 with
      | none => .unsupported
      | some v => if v = 0 then .unsupported else .ok { n with timeout := v }
  else if stricmp0 key kTsize then
    if b.tsize = false then .unsupported
    else match parseU32 value 0xFFFFFFFF with
      | none => .unsupported
      | some v => .ok { n with tsize := some v }
  else if stricmp0 key kWindowsize then
    if b.windowsize = false then .unsupported
    else match parseU32 value maxWindow with
      | none => .unsupported
      | some v => if v = 0 then .unsupported else .ok { n with windowsize := v }
  else .unsupported

/-- `wolftftp_parse_oack`. src/tftp/wolftftp.c 502–572. -/
def parseOack (m : List Nat) (n : Neg) (b : Bits) : PRes Neg :=
  if m.length < 2 then .packet
  else if rd16 m 0 ≠ 6 then .packet
  else optLoop (oackOpt b) (m.length + 1) n (m.drop 2)

/-- `wolftftp_append_opt`. src/tftp/wolftftp.c 232–248. -/
def appendOpt (max : Nat) (key value : List Nat) (out : Option (List Nat)) : Option (List Nat) :=
  match out with
  | none => none
  | some o => if o.length + (key.length + 1) + (value.length + 1) > max then none else some (o ++ key ++ [0] ++ value ++ [0])

/-- `struct wolftftp_transfer_cfg`. src/tftp/wolftftp.h 137–144. -/
structure Cfg where
  blksize : Nat
  timeout : Nat
  windowsize : Nat
  maxRetries : Nat
  maxImage : Nat
deriving DecidableEq

/-- `wolftftp_cfg_defaults`. src/tftp/wolftftp.c 162–175. -/
def cfgDefaults (c : Cfg) : Cfg :=
  let bs := if c.blksize = 0 then 512 else c.blksize
  let ws := if c.windowsize = 0 then 1 else c.windowsize
  { blksize := if bs > maxBlksize then maxBlksize else bs
    timeout := if c.timeout = 0 then 1 else c.timeout
    windowsize := if ws > maxWindow then maxWindow else ws
    maxRetries := if c.maxRetries = 0 then 5 else c.maxRetries
    maxImage := c.maxImage }

/-- `wolftftp_neg_defaults`. src/tftp/wolftftp.c 177–184. -/
def negDefaults (c : Cfg) : Neg := { blksize := c.blksize, timeout := c.timeout, windowsize := c.windowsize }

/-- The options `wolftftp_build_request` asks for. src/tftp/wolftftp.c 277–306. -/
def requested (c : Cfg) : Bits where
  blksize := decide (c.blksize ≠ 512)
  timeout := decide (c.timeout ≠ 1)
  windowsize := decide (c.windowsize > 1)
  tsize := decide (c.maxImage ≠ 0)

def optIf (b : Bool) (max : Nat) (key : List Nat) (v : Nat) (out : Option (List Nat)) : Option (List Nat) :=
  if b then appendOpt max key (utoa 16 v) out else out

/-- `wolftftp_build_request` for a name shorter than `WOLFTFTP_MAX_FILENAME`, with `tsize` 0 as its only
caller passes it. src/tftp/wolftftp.c 250–308. -/
def buildRequest (max op : Nat) (name : List Nat) (c : Cfg) : Option (List Nat) :=
  if name.length = 0 ∨ name.length ≥ maxFilename then none
  else if max < 4 + name.length + 6 then none
  else
    let b := requested c
    let o := some ([op / 256, op % 256] ++ name ++ [0] ++ sOctet ++ [0])
    optIf b.tsize max kTsize 0 (optIf b.windowsize max kWindowsize c.windowsize
      (optIf b.timeout max kTimeout c.timeout (optIf b.blksize max kBlksize c.blksize o)))

/-- `wolftftp_build_oack`. src/tftp/wolftftp.c 465–500. -/
def buildOack (max : Nat) (n : Neg) (b : Bits) : Option (List Nat) :=
  optIf b.windowsize max kWindowsize n.windowsize (optIf b.tsize max kTsize (n.tsize.getD 0)
    (optIf b.timeout max kTimeout n.timeout (optIf b.blksize max kBlksize n.blksize (some [0, 6]))))

/-! ## Specification -/

/-- The value of a string of decimal digits. -/
def decVal (s : List Nat) : Nat := s.foldl (fun v c => v * 10 + (c - 48)) 0

def AllDigits (s : List Nat) : Prop := ∀ c ∈ s, 48 ≤ c ∧ c ≤ 57

/-- A file name that stays below the directory it is opened in: nonempty, not absolute, without a drive
or stream colon, and without a ".." component for either separator. -/
structure Safe (name : List Nat) : Prop where
  nonempty : name ≠ []
  relative : ∀ c t, name = c :: t → c ≠ 47 ∧ c ≠ 92
  noColon : 58 ∉ name
  noDotDot : ∀ a b, name = a ++ [46, 46] ++ b →
    ¬ ((a = [] ∨ a.getLast? = some 47 ∨ a.getLast? = some 92) ∧ (b = [] ∨ b.head? = some 47 ∨ b.head? = some 92))

/-! ## Numbers -/

theorem foldl_ge (s : List Nat) : ∀ v, v ≤ s.foldl (fun v c => v * 10 + (c - 48)) v := by
  induction s with
  | nil => intro v; exact Nat.le_refl _
  | cons c t ih => intro v; rw [List.foldl_cons]; have := ih (v * 10 + (c - 48)); omega

theorem parseLoop_iff (max : Nat) (hmax : max ≤ 0xFFFFFFFF) : ∀ (s : List Nat) (v w : Nat), v ≤ max →
    (parseLoop max v s = some w ↔ AllDigits s ∧ w = s.foldl (fun v c => v * 10 + (c - 48)) v ∧ w ≤ max) := by
  intro s
  induction s with
  | nil =>
    intro v w hv
    simp only [parseLoop, Option.some.injEq, List.foldl_nil, AllDigits]
    constructor
    · rintro rfl; exact ⟨by simp, rfl, hv⟩
    · rintro ⟨_, rfl, _⟩; rfl
  | cons c t ih =>
    intro v w hv
    rw [parseLoop]
    have hfold := foldl_ge t (v * 10 + (c - 48))
    simp only [List.foldl_cons, AllDigits, List.forall_mem_cons]
    by_cases hd : c < 48 ∨ c > 57
    · rw [if_pos hd]
      constructor
      · intro h; simp at h
      · rintro ⟨⟨h, _⟩, _⟩; omega
    rw [if_neg hd]
    by_cases ho : v > (0xFFFFFFFF - (c - 48)) / 10
    · rw [if_pos ho]
      constructor
      · intro h; simp at h
      · rintro ⟨_, h1, h2⟩; rw [← h1] at hfold; omega
    rw [if_neg ho]
    by_cases hm : v * 10 + (c - 48) > max
    · rw [if_pos hm]
      constructor
      · intro h; simp at h
      · rintro ⟨_, h1, h2⟩; rw [← h1] at hfold; omega
    rw [if_neg hm, ih _ _ (by omega)]
    simp only [AllDigits]
    constructor
    · rintro ⟨a, b, c'⟩; exact ⟨⟨by omega, a⟩, b, c'⟩
    · rintro ⟨⟨_, a⟩, b, c'⟩; exact ⟨a, b, c'⟩

/-- **C57, numbers.** A decimal option value is accepted exactly when it is a nonempty string of digits
whose value is within the limit, and then that value is what is used: no wrap-around. -/
theorem tftp_number_exact (s : List Nat) (max v : Nat) (hmax : max ≤ 0xFFFFFFFF) :
    parseU32 s max = some v ↔ s ≠ [] ∧ AllDigits s ∧ v = decVal s ∧ v ≤ max := by
  cases s with
  | nil => simp [parseU32]
  | cons c t =>
    rw [parseU32, parseLoop_iff max hmax _ _ _ (by omega)]
    simp [decVal]

theorem digitsRev_val : ∀ (fuel v : Nat), v < 10 ^ fuel →
    decVal (digitsRev fuel v).reverse = v ∧ AllDigits (digitsRev fuel v).reverse ∧ (0 < v → digitsRev fuel v ≠ []) := by
  intro fuel
  induction fuel with
  | zero => intro v hv; simp [digitsRev, decVal, AllDigits]; simp at hv; omega
  | succ fuel ih =>
    intro v hv
    rw [digitsRev]
    split
    · rename_i h; subst h; simp [decVal, AllDigits]
    · rename_i h
      obtain ⟨h1, h2, _⟩ := ih (v / 10) (by rw [Nat.pow_succ] at hv; omega)
      refine ⟨?_, ?_, fun _ => by simp⟩
      · rw [List.reverse_cons, decVal, List.foldl_append]
        show List.foldl _ (decVal _) _ = _
        rw [h1]; simp; omega
      · intro c hc
        rw [List.reverse_cons, List.mem_append] at hc
        rcases hc with hc | hc
        · exact h2 c hc
        · simp at hc; omega

theorem digitsRev_len : ∀ (fuel v k : Nat), v < 10 ^ k → (digitsRev fuel v).length ≤ k := by
  intro fuel
  induction fuel with
  | zero => intro v k _; simp [digitsRev]
  | succ fuel ih =>
    intro v k hv
    rw [digitsRev]
    split
    · simp
    · rename_i h
      cases k with
      | zero => simp at hv; omega
      | succ k =>
        have := ih (v / 10) k (by rw [Nat.pow_succ] at hv; omega)
        simp; omega

theorem utoa_spec (v : Nat) (hv : v ≤ 0xFFFFFFFF) :
    decVal (utoa 16 v) = v ∧ AllDigits (utoa 16 v) ∧ utoa 16 v ≠ [] ∧ (utoa 16 v).length ≤ 10 := by
  rw [utoa]
  by_cases h0 : v = 0
  · subst h0
    refine ⟨by decide, ?_, by decide, by decide⟩
    intro c hc; simp at hc; omega
  · simp only [if_neg h0]
    have hl := digitsRev_len 24 v 10 (by omega)
    obtain ⟨h1, h2, h3⟩ := digitsRev_val 24 v (by omega)
    rw [List.take_of_length_le (by simp; omega)]
    refine ⟨h1, h2, ?_, by simpa using hl⟩
    intro h; exact h3 (by omega) (by simpa using h)

/-- Printing a number and reading it back gives the number. -/
theorem tftp_number_round_trip (v max : Nat) (hv : v ≤ max) (hmax : max ≤ 0xFFFFFFFF) : parseU32 (utoa 16 v) max = some v := by
  obtain ⟨h1, h2, h3, _⟩ := utoa_spec v (by omega)
  rw [tftp_number_exact _ _ _ hmax]
  exact ⟨h3, h2, h1.symm, hv⟩

/-! ## File names -/

theorem segLoop_true : ∀ (rest seg : List Nat), segLoop seg rest = true → (∀ c ∈ seg, isSep c = false) →
    ∀ a b, seg ++ rest = a ++ [46, 46] ++ b →
      ¬ ((a = [] ∨ ∃ c, a.getLast? = some c ∧ isSep c = true) ∧ (b = [] ∨ ∃ c, b.head? = some c ∧ isSep c = true)) := by
  intro rest
  induction rest with
  | nil =>
    intro seg h hs a b he hab
    rw [segLoop] at h
    rw [List.append_nil] at he
    obtain ⟨ha, hb⟩ := hab
    have ha' : a = [] := by
      rcases ha with ha | ⟨c, ha, hc⟩
      · exact ha
      · have : c ∈ seg := by rw [he]; simp; left; exact List.mem_of_getLast? ha
        rw [hs c this] at hc; simp at hc
    have hb' : b = [] := by
      rcases hb with hb | ⟨c, hb, hc⟩
      · exact hb
      · have : c ∈ seg := by rw [he]; exact List.mem_append_right _ (List.mem_of_head? hb)
        rw [hs c this] at hc; simp at hc
    subst ha' hb'
    rw [he] at h; simp at h
  | cons c t ih =>
    intro seg h hs a b he hab
    rw [segLoop] at h
    by_cases hc : isSep c = true
    · rw [if_pos hc] at h
      by_cases hd : (seg == [46, 46]) = true
      · rw [if_pos hd] at h; simp at h
      · rw [if_neg hd] at h
        -- the two dots lie before or behind the separator
        have key : (∃ b', seg = a ++ [46, 46] ++ b') ∨ (∃ a', a = seg ++ c :: a') := by
          have h1 : a ++ ([46, 46] ++ b) = seg ++ c :: t := by rw [he]; simp
          rcases List.append_eq_append_iff.1 h1 with ⟨x, hx1, hx2⟩ | ⟨x, hx1, hx2⟩
          · -- seg = a ++ x, [46,46] ++ b = x ++ c :: t
            match x, hx2 with
            | [], hx2 =>
              simp at hx2; rw [← hx2.1] at hc; simp [isSep] at hc
            | [p], hx2 =>
              simp at hx2; rw [← hx2.2.1] at hc; simp [isSep] at hc
            | p :: q :: y, hx2 =>
              simp at hx2
              left; exact ⟨y, by rw [hx1, ← hx2.1, ← hx2.2.1]; simp⟩
          · match x, hx2 with
            | [], hx2 => simp at hx2; rw [hx2.1] at hc; simp [isSep] at hc
            | p :: y, hx2 =>
              rw [List.cons_append, List.cons.injEq] at hx2
              right; exact ⟨y, by rw [hx1, hx2.1]⟩
        rcases key with ⟨b', hb'⟩ | ⟨a', ha'⟩
        · -- inside seg
          have hseg : seg = [46, 46] := by
            have hbt : b = b' ++ c :: t := by
              have h1 : a ++ [46, 46] ++ b = a ++ [46, 46] ++ (b' ++ c :: t) := by rw [← he, hb']; simp
              exact List.append_cancel_left h1
            have ha0 : a = [] := by
              rcases hab.1 with ha | ⟨d, ha, hd'⟩
              · exact ha
              · have : d ∈ seg := by rw [hb']; simp; left; exact List.mem_of_getLast? ha
                rw [hs d this] at hd'; simp at hd'
            have hb0 : b' = [] := by
              match b', hbt with
              | [], _ => rfl
              | d :: y, hbt =>
                rcases hab.2 with hb | ⟨e, hb, he'⟩
                · rw [hb] at hbt; simp at hbt
                · rw [hbt] at hb; simp at hb
                  have : d ∈ seg := by rw [hb']; simp
                  rw [← hb, hs d this] at he'; simp at he'
            rw [hb', ha0, hb0]; rfl
          rw [hseg] at hd; simp at hd
        · refine ih [] h (by simp) a' b ?_ ⟨?_, hab.2⟩
          · rw [ha'] at he
            have : seg ++ (c :: t) = seg ++ (c :: (a' ++ [46, 46] ++ b)) := by rw [he]; simp
            have := List.append_cancel_left this
            simpa using this
          · rcases hab.1 with ha | ⟨d, ha, hd'⟩
            · rw [ha] at ha'; simp at ha'
            · cases a' with
              | nil => left; rfl
              | cons x y =>
                right
                rw [ha'] at ha
                refine ⟨d, ?_, hd'⟩
                rw [← ha]; simp [List.getLast?_append, List.getLast?_cons]
    · rw [if_neg hc] at h
      refine ih (seg ++ [c]) h ?_ a b (by rw [← he]; simp) hab
      intro d hd
      rw [List.mem_append] at hd
      rcases hd with hd | hd
      · exact hs d hd
      · simp at hd; subst hd; simpa using hc

theorem isSep_iff (c : Nat) : isSep c = true ↔ c = 47 ∨ c = 92 := by simp [isSep]

theorem safe_of_check (name : List Nat) (h : filenameIsSafe name = true) : Safe name := by
  cases name with
  | nil => simp [filenameIsSafe] at h
  | cons c t =>
    rw [filenameIsSafe] at h
    split at h
    · simp at h
    · rename_i hc
      split at h
      · simp at h
      · rename_i hcol
        refine ⟨by simp, ?_, ?_, ?_⟩
        · intro c' t' e
          simp at e
          rw [isSep_iff] at hc
          rw [← e.1]; omega
        · intro hm; apply hcol; rw [List.any_eq_true]; exact ⟨58, hm, by simp⟩
        · intro a b e hab
          apply segLoop_true (c :: t) [] h (by simp) a b (by simpa using e)
          refine ⟨?_, ?_⟩
          · rcases hab.1 with x | x | x
            · left; exact x
            · right; exact ⟨_, x, by decide⟩
            · right; exact ⟨_, x, by decide⟩
          · rcases hab.2 with x | x | x
            · left; exact x
            · right; exact ⟨_, x, by decide⟩
            · right; exact ⟨_, x, by decide⟩

/-- The check is not stricter than the rule: every safe name passes. -/
theorem segLoop_of : ∀ (rest seg : List Nat), (∀ a b, seg ++ rest = a ++ [46, 46] ++ b →
      ¬ ((a = [] ∨ ∃ c, a.getLast? = some c ∧ isSep c = true) ∧ (b = [] ∨ ∃ c, b.head? = some c ∧ isSep c = true))) →
      segLoop seg rest = true := by
  intro rest
  induction rest with
  | nil =>
    intro seg h
    rw [segLoop]
    cases hs : (seg == [46, 46]) with
    | false => rfl
    | true =>
      simp at hs
      exact absurd ⟨Or.inl rfl, Or.inl rfl⟩ (h [] [] (by rw [hs]; rfl))
  | cons c t ih =>
    intro seg h
    rw [segLoop]
    by_cases hc : isSep c = true
    · rw [if_pos hc]
      by_cases hd : (seg == [46, 46]) = true
      · simp at hd
        exact absurd ⟨Or.inl rfl, Or.inr ⟨c, rfl, hc⟩⟩ (h [] (c :: t) (by rw [hd]; rfl))
      · rw [if_neg hd]
        apply ih
        intro a b e hab
        apply h (seg ++ c :: a) b (by rw [List.nil_append] at e; rw [e]; simp)
        refine ⟨Or.inr ?_, hab.2⟩
        rcases hab.1 with x | ⟨d, x, hx⟩
        · exact ⟨c, by rw [x]; simp, hc⟩
        · refine ⟨d, ?_, hx⟩
          rw [List.getLast?_append, List.getLast?_cons]; simp [x]
    · rw [if_neg hc]
      apply ih
      intro a b e
      exact h a b (by rw [← e]; simp)

theorem check_of_safe (name : List Nat) (h : Safe name) : filenameIsSafe name = true := by
  cases name with
  | nil => exact absurd rfl h.nonempty
  | cons c t =>
    rw [filenameIsSafe]
    have h1 := h.relative c t rfl
    have hc : ¬ isSep c = true := by rw [isSep_iff]; omega
    rw [if_neg hc]
    have hcol : ¬ (c :: t).any (· == 58) = true := by
      rw [List.any_eq_true]
      rintro ⟨x, hx, hx2⟩
      simp at hx2
      rw [hx2] at hx
      exact h.noColon hx
    rw [if_neg hcol]
    apply segLoop_of
    intro a b e hab
    apply h.noDotDot a b (by simpa using e)
    refine ⟨?_, ?_⟩
    · rcases hab.1 with x | ⟨d, x, hx⟩
      · exact Or.inl x
      · rcases (isSep_iff d).1 hx with rfl | rfl
        · exact Or.inr (Or.inl x)
        · exact Or.inr (Or.inr x)
    · rcases hab.2 with x | ⟨d, x, hx⟩
      · exact Or.inl x
      · rcases (isSep_iff d).1 hx with rfl | rfl
        · exact Or.inr (Or.inl x)
        · exact Or.inr (Or.inr x)

/-- The file name check accepts exactly the safe names. -/
theorem tftp_filename_check_exact (name : List Nat) : filenameIsSafe name = true ↔ Safe name :=
  ⟨safe_of_check name, check_of_safe name⟩

/-! ## Parsing stays inside the packet -/

theorem strnlen_total : ∀ (p : List Nat) (n : Nat), n ≤ p.length → ∃ k, strnlen n p = some k ∧ k ≤ n ∧
    (k < n → cstr p = some (p.take k)) ∧ (∀ c ∈ p.take k, c ≠ 0) := by
  intro p
  induction p with
  | nil => intro n h; simp at h; subst h; exact ⟨0, rfl, Nat.le_refl _, by omega, by simp⟩
  | cons c t ih =>
    intro n h
    cases n with
    | zero => exact ⟨0, rfl, Nat.le_refl _, by omega, by simp⟩
    | succ n =>
      rw [strnlen]
      by_cases hc : c = 0
      · rw [if_pos hc]; exact ⟨0, rfl, by omega, fun _ => by rw [cstr, if_pos hc]; rfl, by simp⟩
      · rw [if_neg hc]
        obtain ⟨k, h1, h2, h3, h4⟩ := ih n (by simpa using h)
        refine ⟨k + 1, by rw [h1]; rfl, by omega, fun hlt => ?_, ?_⟩
        · rw [cstr, if_neg hc, h3 (by omega)]; rfl
        · simp only [List.take_succ_cons, List.forall_mem_cons]; exact ⟨hc, h4⟩

theorem optLoop_safe (step : α → List Nat → List Nat → PRes α) (hs : ∀ r k v, step r k v ≠ .oob ∧ step r k v ≠ .running) :
    ∀ (fuel : Nat) (r : α) (p : List Nat), p.length < fuel → optLoop step fuel r p ≠ .oob ∧ optLoop step fuel r p ≠ .running := by
  intro fuel
  induction fuel with
  | zero => intro r p h; omega
  | succ fuel ih =>
    intro r p hp
    rw [optLoop]
    by_cases h0 : p.length = 0
    · rw [if_pos h0]; simp
    rw [if_neg h0]
    obtain ⟨kl, h1, h2, h3, _⟩ := strnlen_total p p.length (Nat.le_refl _)
    rw [h1]
    simp only
    by_cases hk : kl = 0 ∨ kl ≥ p.length
    · rw [if_pos hk]; simp
    rw [if_neg hk]
    obtain ⟨vl, g1, g2, g3, _⟩ := strnlen_total (p.drop (kl + 1)) (p.drop (kl + 1)).length (Nat.le_refl _)
    rw [g1]
    simp only
    by_cases hv : vl = 0 ∨ vl ≥ (p.drop (kl + 1)).length
    · rw [if_pos hv]; simp
    rw [if_neg hv, h3 (by omega), g3 (by omega)]
    simp only
    have := hs r (p.take kl) ((p.drop (kl + 1)).take vl)
    cases hst : step r (p.take kl) ((p.drop (kl + 1)).take vl) with
    | oob => rw [hst] at this; exact absurd rfl this.1
    | running => rw [hst] at this; exact absurd rfl this.2
    | packet => simp
    | unsupported => simp
    | ok r' => exact ih r' _ (by simp only [List.length_drop]; omega)

theorem reqOpt_safe (r : Req) (k v : List Nat) : reqOpt r k v ≠ .oob ∧ reqOpt r k v ≠ .running := by
  simp only [reqOpt]
  repeat' split
  all_goals simp

theorem oackOpt_safe (b : Bits) (r : Neg) (k v : List Nat) : oackOpt b r k v ≠ .oob ∧ oackOpt b r k v ≠ .running := by
  simp only [oackOpt]
  repeat' split
  all_goals simp

/-- An invariant of the option loop. -/
theorem optLoop_inv (step : α → List Nat → List Nat → PRes α) (P : α → Prop)
    (hs : ∀ r k v r', P r → step r k v = .ok r' → P r') :
    ∀ (fuel : Nat) (r : α) (p : List Nat) (r' : α), P r → optLoop step fuel r p = .ok r' → P r' := by
  intro fuel
  induction fuel with
  | zero => intro r p r' _ h; simp [optLoop] at h
  | succ fuel ih =>
    intro r p r' hr h
    rw [optLoop] at h
    split at h
    · simp at h; rw [← h]; exact hr
    split at h
    · simp at h
    split at h
    · simp at h
    simp only at h
    split at h
    · simp at h
    split at h
    · simp at h
    split at h
    · split at h
      · rename_i r1 h1; exact ih r1 _ r' (hs _ _ _ _ hr h1) h
      · rename_i e hne; rw [h] at hne; exact absurd rfl (hne r')
    · simp at h

/-- What an accepted request carries. -/
structure ReqOk (r : Req) : Prop where
  opcode : r.opcode = 1 ∨ r.opcode = 2
  name : Safe r.filename
  nameLen : r.filename.length < 128
  nameNoNul : ∀ c ∈ r.filename, c ≠ 0
  blksize : ∀ n, r.blksize = some n → 8 ≤ n ∧ n ≤ 1428
  timeout : ∀ n, r.timeout = some n → 1 ≤ n ∧ n ≤ 255
  tsize : ∀ n, r.tsize = some n → n ≤ 0xFFFFFFFF
  windowsize : ∀ n, r.windowsize = some n → 1 ≤ n ∧ n ≤ 8

theorem parseU32_le (s : List Nat) (max v : Nat) (hm : max ≤ 0xFFFFFFFF) (h : parseU32 s max = some v) : v ≤ max :=
  ((tftp_number_exact s max v hm).1 h).2.2.2

theorem parseU32_blk (s : List Nat) (v : Nat) (h : parseU32 s maxBlksize = some v) : v ≤ 1428 := parseU32_le s _ v (by decide) h
theorem parseU32_255 (s : List Nat) (v : Nat) (h : parseU32 s 255 = some v) : v ≤ 255 := parseU32_le s _ v (by decide) h
theorem parseU32_win (s : List Nat) (v : Nat) (h : parseU32 s maxWindow = some v) : v ≤ 8 := parseU32_le s _ v (by decide) h
theorem parseU32_32 (s : List Nat) (v : Nat) (h : parseU32 s 0xFFFFFFFF = some v) : v ≤ 0xFFFFFFFF := parseU32_le s _ v (by decide) h

theorem reqOpt_inv (r : Req) (k v : List Nat) (r' : Req) (hr : ReqOk r) (h : reqOpt r k v = .ok r') : ReqOk r' := by
  simp only [reqOpt] at h
  repeat' split at h
  all_goals try (simp at h; done)
  all_goals
    rename_i hn
    try rename_i n hp hn2
    simp only [PRes.ok.injEq] at h
    subst h
    constructor
    all_goals first
      | exact hr.opcode | exact hr.name | exact hr.nameLen | exact hr.nameNoNul | exact hr.blksize | exact hr.timeout
      | exact hr.tsize | exact hr.windowsize
      | (intro m hm; simp at hm; subst hm
         first
          | exact parseU32_32 _ _ (by assumption)
          | (have := parseU32_blk _ _ (by assumption); omega)
          | (have := parseU32_win _ _ (by assumption); omega)
          | (have := parseU32_255 _ _ (by assumption); omega))

/-- **C56, C57 (ranges).** For every packet: parsing a request never loads a byte outside it and
terminates; an accepted request has opcode RRQ or WRQ, a safe file name shorter than 128 bytes, and
option values in range. -/
theorem tftp_request_parse (m : List Nat) :
    parseRequest m ≠ .oob ∧ parseRequest m ≠ .running ∧ ∀ r, parseRequest m = .ok r → ReqOk r := by
  rw [parseRequest]
  by_cases h4 : m.length < 4
  · rw [if_pos h4]; simp
  rw [if_neg h4]
  simp only
  by_cases hop : rd16 m 0 ≠ 1 ∧ rd16 m 0 ≠ 2
  · rw [if_pos hop]; simp
  rw [if_neg hop]
  obtain ⟨sl, h1, h2, h3, h3'⟩ := strnlen_total (m.drop 2) (m.length - 2) (by simp)
  rw [h1]
  simp only
  by_cases hsl : sl = 0 ∨ sl ≥ maxFilename ∨ 2 + sl ≥ m.length
  · rw [if_pos hsl]; simp
  rw [if_neg hsl]
  by_cases hsafe : filenameIsSafe ((m.drop 2).take sl) = false
  · rw [if_pos hsafe]; simp
  rw [if_neg hsafe]
  obtain ⟨ml, g1, g2, g3, _⟩ := strnlen_total ((m.drop 2).drop (sl + 1)) ((m.drop 2).drop (sl + 1)).length (Nat.le_refl _)
  rw [g1]
  simp only
  by_cases hml : ml = 0 ∨ ml ≥ ((m.drop 2).drop (sl + 1)).length
  · rw [if_pos hml]; simp
  rw [if_neg hml, g3 (by omega)]
  simp only
  split
  · have hx := optLoop_safe reqOpt reqOpt_safe (m.length + 1) { opcode := rd16 m 0, filename := (m.drop 2).take sl }
      (((m.drop 2).drop (sl + 1)).drop (ml + 1)) (by simp only [List.length_drop]; omega)
    refine ⟨hx.1, hx.2, ?_⟩
    intro r hr
    refine optLoop_inv reqOpt ReqOk reqOpt_inv _ _ _ r ?_ hr
    refine ⟨by simp only; omega, safe_of_check _ (by simpa using hsafe), ?_, h3', by simp, by simp, by simp, by simp⟩
    simp only [List.length_take, List.length_drop, maxFilename] at *
    omega
  · simp

/-- Fields of a negotiation: unchanged, or in range and asked for. -/
structure NegOk (b : Bits) (n0 n : Neg) : Prop where
  blksize : n.blksize = n0.blksize ∨ (b.blksize = true ∧ 8 ≤ n.blksize ∧ n.blksize ≤ 1428)
  timeout : n.timeout = n0.timeout ∨ (b.timeout = true ∧ 1 ≤ n.timeout ∧ n.timeout ≤ 255)
  windowsize : n.windowsize = n0.windowsize ∨ (b.windowsize = true ∧ 1 ≤ n.windowsize ∧ n.windowsize ≤ 8)
  tsize : n.tsize = n0.tsize ∨ (b.tsize = true ∧ ∃ v, n.tsize = some v ∧ v ≤ 0xFFFFFFFF)

theorem oackOpt_inv (b : Bits) (n0 r : Neg) (k v : List Nat) (r' : Neg) (hr : NegOk b n0 r) (h : oackOpt b r k v = .ok r') :
    NegOk b n0 r' := by
  simp only [oackOpt] at h
  repeat' split at h
  all_goals try (simp at h; done)
  all_goals
    simp only [PRes.ok.injEq] at h
    subst h
    constructor
    all_goals first
      | exact hr.blksize | exact hr.timeout
      | exact hr.windowsize | exact hr.tsize
      | (refine Or.inr ⟨by simp_all, ?_⟩
         first
          | exact ⟨_, rfl, parseU32_32 _ _ (by assumption)⟩
          | (have := parseU32_blk _ _ (by assumption); exact ⟨(by first | omega | (simp only; omega)), (by first | omega | (simp only; omega))⟩)
          | (have := parseU32_win _ _ (by assumption); exact ⟨(by first | omega | (simp only; omega)), (by first | omega | (simp only; omega))⟩)
          | (have := parseU32_255 _ _ (by assumption); exact ⟨(by first | omega | (simp only; omega)), (by first | omega | (simp only; omega))⟩))

/-- **C57 (ranges).** For every packet: parsing an OACK stays inside it and terminates; an accepted one
changes only parameters the client asked for, to values in range. -/
theorem tftp_oack_parse (m : List Nat) (n0 : Neg) (b : Bits) :
    parseOack m n0 b ≠ .oob ∧ parseOack m n0 b ≠ .running ∧ ∀ n, parseOack m n0 b = .ok n → NegOk b n0 n := by
  rw [parseOack]
  split
  · simp
  split
  · simp
  · have hx := optLoop_safe (oackOpt b) (oackOpt_safe b) (m.length + 1) n0 (m.drop 2) (by simp only [List.length_drop]; omega)
    refine ⟨hx.1, hx.2, ?_⟩
    intro n hn
    exact optLoop_inv (oackOpt b) (NegOk b n0) (oackOpt_inv b n0) _ _ _ n ⟨Or.inl rfl, Or.inl rfl, Or.inl rfl, Or.inl rfl⟩ hn

end Wolf.Tftp
