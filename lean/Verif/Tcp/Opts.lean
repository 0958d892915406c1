import Verif.Tcp.Seq
/-!
# C08: TCP option parsing and emission

Model of `tcp_data_offset_bytes`, `tcp_parse_options`, the timestamp scan of
`tcp_send_reset_reply`, `tcp_build_ack_options`, the option part of `tcp_send_syn` and of the data
segments built by `wolfIP_sock_sendto` (`src/wolfip.c`).

Bytes are naturals below 256. `mem` is the memory from `tcp->data` up to the end of the received
frame, so `mem.length` is `frame_len - sizeof(struct wolfIP_tcp_seg)` (0 if the frame is shorter).
Every load goes through `mem[i]?`; a load outside the frame is the result `oob`, and a loop that does
not finish within the given number of iterations is the result `running`.
-/
namespace Wolf.Tcp.Opts

/-- `struct tcp_parsed_opts` (src/wolfip.c 3162–3171): a `found` flag together with its value is an
`Option`; `sack[0 .. sack_count)` is a list. -/
structure PO where
  mss : Option Nat := none
  ws : Option Nat := none
  sackPerm : Bool := false
  sack : List (Nat × Nat) := []
  ts : Option (Nat × Nat) := none
deriving DecidableEq, Repr

/-- Outcome of running the loop. -/
inductive Res (α : Type) where
  | oob
  | running
  | done (a : α)
deriving DecidableEq, Repr

/-- `tcp_data_offset_bytes`: `(hlen & 0xF0) >> 2`. src/wolfip.c 3177–3180. -/
def dataOff (hlen : Nat) : Nat := hlen / 16 % 16 * 4

/-- Value of four bytes in network order. -/
def w32 (a b c d : Nat) : Nat := a * 16777216 + b * 65536 + c * 256 + d

/-- `memcpy(&v, opt + i, 4); v = ee32(v)`. src/wolfip.c 3242–3245, 3255–3258. -/
def be32 (m : List Nat) (i : Nat) : Option Nat :=
  match m[i]?, m[i + 1]?, m[i + 2]?, m[i + 3]? with
  | some a, some b, some c, some d => some (w32 a b c d)
  | _, _, _, _ => none

/-- `memcpy(&mss, opt + 2, 2); ee16`. src/wolfip.c 3223–3224. -/
def be16 (m : List Nat) (i : Nat) : Option Nat :=
  match m[i]?, m[i + 1]? with
  | some a, some b => some (a * 256 + b)
  | _, _ => none

/-- The SACK block loop `for (i = 0; i < blocks && sack_count < 4; i++)`; `n` iterations are left and
the next block is at offset `off`. src/wolfip.c 3240–3252. -/
def sackLoop (m : List Nat) : Nat → Nat → List (Nat × Nat) → Option (List (Nat × Nat))
  | 0, _, acc => some acc
  | n + 1, off, acc =>
    if acc.length < 4 then
      match be32 m off, be32 m (off + 4) with
      | some l, some r => sackLoop m n (off + 8) (if seqLt l r then acc ++ [(l, r)] else acc)
      | _, _ => none
    else some acc

/-- The `if`/`else if` chain on `kind` and `olen`; `none` is a load outside the frame.
src/wolfip.c 3215–3260. -/
def optUpd (m : List Nat) (off kind olen : Nat) (po : PO) : Option PO :=
  if kind = 3 ∧ olen = 3 then
    match m[off + 2]? with
    | none => none
    | some s => some { po with ws := some (if s > 14 then 14 else s) }
  else if kind = 2 ∧ olen = 4 then
    match be16 m (off + 2) with
    | none => none
    | some v => some (if v > 0 then { po with mss := some v } else po)
  else if kind = 4 ∧ olen = 2 then some { po with sackPerm := true }
  else if kind = 5 ∧ 10 ≤ olen ∧ (olen - 2) % 8 = 0 then
    match sackLoop m ((olen - 2) / 8) (off + 2) po.sack with
    | none => none
    | some l => some { po with sack := l }
  else if kind = 8 ∧ olen = 10 then
    match be32 m (off + 2), be32 m (off + 6) with
    | some v, some e => some { po with ts := some (v, e) }
    | _, _ => none
  else some po

/-- The `while (opt < opt_end)` loop with at most `fuel` iterations. src/wolfip.c 3198–3262. -/
def parseGo (m : List Nat) (fin : Nat) : Nat → Nat → PO → Res PO
  | 0, off, po => if off < fin then .running else .done po
  | fuel + 1, off, po =>
    if off < fin then
      match m[off]? with
      | none => .oob
      | some kind =>
        if kind = 1 then parseGo m fin fuel (off + 1) po
        else if kind = 0 then .done po
        else if off + 2 > fin then .done po
        else
          match m[off + 1]? with
          | none => .oob
          | some olen =>
            if olen < 2 ∨ off + olen > fin then .done po
            else
              match optUpd m off kind olen po with
              | none => .oob
              | some po' => parseGo m fin fuel (off + olen) po'
    else .done po

/-- `tcp_parse_options`: `opt_len = min(claimed, available)`, nothing is parsed when either is not
positive (natural subtraction gives 0 there and the loop body is not entered). The iteration budget is
`opt_len`. src/wolfip.c 3182–3198. -/
def parse (hlen : Nat) (mem : List Nat) : Res PO :=
  let optLen := if dataOff hlen - 20 < mem.length then dataOff hlen - 20 else mem.length
  parseGo mem optLen optLen 0 {}

/-! ## Emission -/

/-- Big-endian bytes of a 16-bit value (`ee16` then store). -/
def put16 (v : Nat) : List Nat := [v / 256 % 256, v % 256]
/-- Big-endian bytes of a 32-bit value (`ee32` then store). -/
def put32 (v : Nat) : List Nat := [v / 16777216 % 256, v / 65536 % 256, v / 256 % 256, v % 256]

/-- `while ((len % 4) != 0 && len < max_len) { *opt++ = NOP; len++; }`.
src/wolfip.c 3525–3528, 3879–3882. -/
def padNop (o : List Nat) (maxLen : Nat) : List Nat :=
  if o.length % 4 ≠ 0 ∧ o.length < maxLen then padNop (o ++ [1]) maxLen else o
termination_by maxLen - o.length
decreasing_by simp only [List.length_append, List.length_singleton]; omega

/-- What an emitted option set depends on: the advertised MSS, the shift offered, the clock and the
timestamp to echo (as the value the peer reads), and the SACK blocks. -/
structure Cfg where
  incWs : Bool
  incSack : Bool
  incTs : Bool
  mss : Nat
  shift : Nat
  now : Nat
  ecr : Nat
  blocks : List (Nat × Nat)

/-- First option of a SYN. src/wolfip.c 3843–3850. -/
def synMss (c : Cfg) (maxLen : Nat) : List Nat :=
  if maxLen ≥ 4 then [2, 4] ++ put16 c.mss else []
/-- Window scale, if the padded total still fits. src/wolfip.c 3851–3859. -/
def synWs (c : Cfg) (maxLen : Nat) (o : List Nat) : List Nat :=
  if c.incWs ∧ (o.length + 3 + 3) / 4 * 4 ≤ maxLen then o ++ [3, 3, c.shift] else o
/-- SACK-permitted. src/wolfip.c 3860–3865. -/
def synSack (c : Cfg) (maxLen : Nat) (o : List Nat) : List Nat :=
  if c.incSack ∧ (o.length + 2 + 3) / 4 * 4 ≤ maxLen then o ++ [4, 2] else o
/-- Timestamps, 12 bytes with two trailing NOPs. src/wolfip.c 3866–3878. -/
def synTs (c : Cfg) (maxLen : Nat) (o : List Nat) : List Nat :=
  if c.incTs ∧ (o.length + 12 + 3) / 4 * 4 ≤ maxLen then
    o ++ ([8, 10] ++ put32 c.now ++ put32 c.ecr ++ [1, 1]) else o

/-- Option area of a SYN or SYN-ACK; `maxLen` is `min(40, ip_mtu - 40)`. src/wolfip.c 3826–3882. -/
def synOpts (c : Cfg) (maxLen : Nat) : List Nat :=
  padNop (synTs c maxLen (synSack c maxLen (synWs c maxLen (synMss c maxLen)))) maxLen

/-- Bytes of SACK blocks. src/wolfip.c 3515–3520. -/
def blockBytes : List (Nat × Nat) → List Nat
  | [] => []
  | b :: bs => put32 b.1 ++ put32 b.2 ++ blockBytes bs

/-- Timestamp part of `tcp_build_ack_options` (no trailing pad bytes are counted).
src/wolfip.c 3490–3500. -/
def ackTs (c : Cfg) : List Nat :=
  if c.incTs then [8, 10] ++ put32 c.now ++ put32 c.ecr else []

/-- SACK part: as many blocks as fit. src/wolfip.c 3504–3523. -/
def ackSack (c : Cfg) (maxLen : Nat) (o : List Nat) : List Nat :=
  if c.incSack ∧ 0 < c.blocks.length ∧ maxLen ≥ o.length + 10 then
    let fit := (maxLen - o.length - 2) / 8
    let bs := c.blocks.take fit
    if 0 < bs.length then o ++ ([5, 2 + bs.length * 8] ++ blockBytes bs) else o
  else o

/-- `tcp_build_ack_options`. src/wolfip.c 3485–3530. -/
def ackOpts (c : Cfg) (maxLen : Nat) : List Nat :=
  if c.incTs ∧ maxLen < 10 then [] else padNop (ackSack c maxLen (ackTs c)) maxLen

/-- Option area of a data segment (`wolfIP_sock_sendto`, src/wolfip.c 6684–6692). -/
def dataOpts (c : Cfg) : List Nat :=
  if c.incTs then [8, 10] ++ put32 c.now ++ put32 c.ecr ++ [1, 0] else []

/-- The data offset byte the stack writes: `((20 + opt_len) << 2) & 0xF0`.
src/wolfip.c 3623, 3883 (6676 has no mask; the value is the same). -/
def hlenByte (optLen : Nat) : Nat := (20 + optLen) * 4 % 256 / 16 * 16

/-! ## Specification: the option grammar of RFC 9293 §3.2

An option area is a sequence of items, each a NOP or a kind/length/value triple, optionally followed
by an end-of-list byte and anything. -/

inductive Item where
  | nop
  | opt (kind : Nat) (val : List Nat)
deriving DecidableEq

/-- Wire form of an item. -/
def Item.enc : Item → List Nat
  | .nop => [1]
  | .opt k v => k :: (v.length + 2) :: v

def Item.Wf : Item → Prop
  | .nop => True
  | .opt k v => 2 ≤ k ∧ v.length + 2 < 256

/-- Eight-byte groups of a SACK option read as (left edge, right edge). -/
def groups : List Nat → List (Nat × Nat)
  | a :: b :: c :: d :: e :: f :: g :: h :: t =>
    (w32 a b c d, w32 e f g h) :: groups t
  | _ => []

/-- What an item means: MSS (nonzero), window scale (clamped to 14), SACK permitted, SACK blocks
(non-empty in sequence order, at most four in total), timestamps. A known kind with a wrong length is
ignored, as is an unknown kind. -/
def meaning (po : PO) : Item → PO
  | .opt 3 [s] => { po with ws := some (min s 14) }
  | .opt 2 [a, b] => if a * 256 + b = 0 then po else { po with mss := some (a * 256 + b) }
  | .opt 4 [] => { po with sackPerm := true }
  | .opt 8 [a, b, c, d, e, f, g, h] =>
    { po with ts := some (w32 a b c d, w32 e f g h) }
  | .opt 5 v =>
    if 8 ≤ v.length ∧ v.length % 8 = 0 then
      { po with sack := (po.sack ++ (groups v).filter (fun b => seqLt b.1 b.2)).take 4 }
    else po
  | _ => po

/-- Wire form of a sequence of items. -/
def encAll (l : List Item) : List Nat := (l.map Item.enc).flatten

/-! ## Bounds and termination -/

theorem be32_isSome (m : List Nat) (i : Nat) (h : i + 3 < m.length) : ∃ v, be32 m i = some v := by
  simp only [be32, List.getElem?_eq_getElem (show i < m.length by omega),
    List.getElem?_eq_getElem (show i + 1 < m.length by omega),
    List.getElem?_eq_getElem (show i + 2 < m.length by omega),
    List.getElem?_eq_getElem (show i + 3 < m.length by omega)]
  exact ⟨_, rfl⟩

theorem be16_isSome (m : List Nat) (i : Nat) (h : i + 1 < m.length) : ∃ v, be16 m i = some v := by
  simp only [be16, List.getElem?_eq_getElem (show i < m.length by omega),
    List.getElem?_eq_getElem (show i + 1 < m.length by omega)]
  exact ⟨_, rfl⟩

theorem sackLoop_ok (m : List Nat) : ∀ n off acc, off + n * 8 ≤ m.length → acc.length ≤ 4 →
    (∀ b ∈ acc, seqLt b.1 b.2 = true) →
    ∃ l, sackLoop m n off acc = some l ∧ l.length ≤ 4 ∧ ∀ b ∈ l, seqLt b.1 b.2 = true := by
  intro n
  induction n with
  | zero => intro off acc _ h hs; exact ⟨acc, rfl, h, hs⟩
  | succ n ih =>
    intro off acc h h4 hs
    simp only [sackLoop]
    split
    · rename_i hlt
      obtain ⟨l, hl⟩ := be32_isSome m off (by omega)
      obtain ⟨r, hr⟩ := be32_isSome m (off + 4) (by omega)
      simp only [hl, hr]
      apply ih _ _ (by omega)
      · split
        · simp; omega
        · omega
      · split
        · rename_i hb
          intro b hb'
          rcases List.mem_append.1 hb' with h1 | h1
          · exact hs b h1
          · simp only [List.mem_singleton] at h1; subst h1; exact hb
        · exact hs
    · exact ⟨acc, rfl, h4, hs⟩

/-- Invariant of the parsed options. -/
def Ok (po : PO) : Prop :=
  (∀ s, po.ws = some s → s ≤ 14) ∧ (∀ v, po.mss = some v → 0 < v) ∧
  po.sack.length ≤ 4 ∧ ∀ b ∈ po.sack, seqLt b.1 b.2 = true

theorem optUpd_ok (m : List Nat) (off kind olen : Nat) (po : PO) (h : off + olen ≤ m.length)
    (hp : Ok po) : ∃ po', optUpd m off kind olen po = some po' ∧ Ok po' := by
  obtain ⟨p1, p2, p3, p4⟩ := hp
  rw [optUpd]
  split
  · rename_i hc
    rw [List.getElem?_eq_getElem (show off + 2 < m.length by omega)]
    refine ⟨_, rfl, ?_, p2, p3, p4⟩
    intro s hs
    simp only [Option.some.injEq] at hs
    split at hs <;> omega
  split
  · rename_i hc
    obtain ⟨v, hv⟩ := be16_isSome m (off + 2) (by omega)
    rw [hv]
    refine ⟨_, rfl, ?_⟩
    split
    · rename_i hv0
      refine ⟨p1, ?_, p3, p4⟩
      intro s hs
      simp only [Option.some.injEq] at hs
      omega
    · exact ⟨p1, p2, p3, p4⟩
  split
  · exact ⟨_, rfl, p1, p2, p3, p4⟩
  split
  · rename_i hc
    obtain ⟨l, hl, hl4, hls⟩ := sackLoop_ok m ((olen - 2) / 8) (off + 2) po.sack (by omega) p3 p4
    rw [hl]
    exact ⟨_, rfl, p1, p2, hl4, hls⟩
  split
  · rename_i hc
    obtain ⟨v, hv⟩ := be32_isSome m (off + 2) (by omega)
    obtain ⟨e, he⟩ := be32_isSome m (off + 6) (by omega)
    rw [hv, he]
    exact ⟨_, rfl, p1, p2, p3, p4⟩
  · exact ⟨_, rfl, p1, p2, p3, p4⟩

theorem parseGo_ok (m : List Nat) (fin : Nat) (hf : fin ≤ m.length) : ∀ fuel off po,
    fin ≤ off + fuel → Ok po → ∃ po', parseGo m fin fuel off po = .done po' ∧ Ok po' := by
  intro fuel
  induction fuel with
  | zero =>
    intro off po h hp
    rw [parseGo]
    rw [if_neg (by omega)]
    exact ⟨po, rfl, hp⟩
  | succ fuel ih =>
    intro off po h hp
    rw [parseGo]
    split
    · rename_i hlt
      rw [List.getElem?_eq_getElem (show off < m.length by omega)]
      simp only
      split
      · exact ih _ _ (by omega) hp
      split
      · exact ⟨po, rfl, hp⟩
      split
      · exact ⟨po, rfl, hp⟩
      · rw [List.getElem?_eq_getElem (show off + 1 < m.length by omega)]
        simp only
        split
        · exact ⟨po, rfl, hp⟩
        · rename_i h2
          obtain ⟨po', e, hp'⟩ := optUpd_ok m off m[off] m[off + 1] po (by omega) hp
          rw [e]
          exact ih _ _ (by omega) hp'
    · exact ⟨po, rfl, hp⟩

/-- **C08, safety.** For every header length byte and every content of the rest of the frame, the
parser stops after at most as many iterations as there are option bytes, loads nothing outside the
frame, and reports a window scale of at most 14, a nonzero MSS and at most four non-empty SACK
blocks. -/
theorem tcp_options_parse_safe (hlen : Nat) (mem : List Nat) :
    ∃ po, parse hlen mem = .done po ∧
      (∀ s, po.ws = some s → s ≤ 14) ∧ (∀ v, po.mss = some v → 0 < v) ∧
      po.sack.length ≤ 4 ∧ ∀ b ∈ po.sack, seqLt b.1 b.2 = true := by
  simp only [parse]
  obtain ⟨po, e, h⟩ := parseGo_ok mem (if dataOff hlen - 20 < mem.length then dataOff hlen - 20 else mem.length)
    (by split <;> omega) _ 0 {} (Nat.le_of_eq (Nat.zero_add _).symm)
    (⟨by simp, by simp, by simp, by simp⟩ : Ok ({} : PO))
  exact ⟨po, e, h⟩

/-! ## The result depends on the header only -/

/-- Two memories that agree below `fin`. -/
def AgreeTo (fin : Nat) (m m' : List Nat) : Prop := ∀ i, i < fin → m[i]? = m'[i]?

theorem be32_agree (fin : Nat) (m m' : List Nat) (h : AgreeTo fin m m') (i : Nat) (hi : i + 4 ≤ fin) :
    be32 m i = be32 m' i := by
  simp only [be32, h i (by omega), h (i + 1) (by omega), h (i + 2) (by omega), h (i + 3) (by omega)]

theorem be16_agree (fin : Nat) (m m' : List Nat) (h : AgreeTo fin m m') (i : Nat) (hi : i + 2 ≤ fin) :
    be16 m i = be16 m' i := by
  simp only [be16, h i (by omega), h (i + 1) (by omega)]

theorem sackLoop_agree (fin : Nat) (m m' : List Nat) (h : AgreeTo fin m m') : ∀ n off acc,
    off + n * 8 ≤ fin → sackLoop m n off acc = sackLoop m' n off acc := by
  intro n
  induction n with
  | zero => intro _ _ _; rfl
  | succ n ih =>
    intro off acc hi
    simp only [sackLoop, be32_agree fin m m' h off (by omega),
      be32_agree fin m m' h (off + 4) (by omega)]
    split
    · split
      · exact ih _ _ (by omega)
      · rfl
    · rfl

theorem optUpd_agree (fin : Nat) (m m' : List Nat) (h : AgreeTo fin m m') (off kind olen : Nat)
    (po : PO) (hi : off + olen ≤ fin) : optUpd m off kind olen po = optUpd m' off kind olen po := by
  rw [optUpd, optUpd]
  split
  · rename_i hc; rw [h (off + 2) (by omega)]
  split
  · rename_i hc; rw [be16_agree fin m m' h _ (by omega)]
  split
  · rfl
  split
  · rename_i hc; rw [sackLoop_agree fin m m' h _ _ _ (by omega)]
  split
  · rename_i hc; rw [be32_agree fin m m' h _ (by omega), be32_agree fin m m' h _ (by omega)]
  · rfl

theorem parseGo_agree (fin : Nat) (m m' : List Nat) (h : AgreeTo fin m m') : ∀ fuel off po,
    parseGo m fin fuel off po = parseGo m' fin fuel off po := by
  intro fuel
  induction fuel with
  | zero => intro off po; rw [parseGo, parseGo]
  | succ fuel ih =>
    intro off po
    rw [parseGo, parseGo]
    split
    · rw [h off (by omega)]
      split
      · rfl
      split
      · exact ih _ _
      split
      · rfl
      split
      · rfl
      · rw [h (off + 1) (by omega)]
        split
        · rfl
        split
        · rfl
        · rw [optUpd_agree fin m m' h _ _ _ _ (by omega)]
          split
          · rfl
          · exact ih _ _
    · rfl

/-- **C08, the parser reads nothing behind the header.** Whatever follows the option area in the frame
(payload, padding), the result is the same. -/
theorem tcp_options_header_only (hlen : Nat) (opts rest rest' : List Nat)
    (h : dataOff hlen = 20 + opts.length) :
    parse hlen (opts ++ rest) = parse hlen (opts ++ rest') := by
  simp only [parse]
  have e : ∀ r : List Nat, (if dataOff hlen - 20 < (opts ++ r).length then dataOff hlen - 20
      else (opts ++ r).length) = opts.length := by
    intro r
    simp only [List.length_append]
    split <;> omega
  rw [e, e]
  apply parseGo_agree
  intro i hi
  rw [List.getElem?_append_left hi, List.getElem?_append_left hi]

/-! ## Functional correctness -/

theorem be32_app (p t : List Nat) (a b c d : Nat) :
    be32 (p ++ a :: b :: c :: d :: t) p.length =
      some (w32 a b c d) := by
  simp [be32, List.getElem?_append_right]

theorem sackLoop_spec : ∀ (n : Nat) (v p t : List Nat) (acc : List (Nat × Nat)),
    v.length = n * 8 → acc.length ≤ 4 →
    sackLoop (p ++ (v ++ t)) n p.length acc =
      some ((acc ++ (groups v).filter (fun b => seqLt b.1 b.2)).take 4) := by
  intro n
  induction n with
  | zero =>
    intro v p t acc hv h4
    have : v = [] := List.eq_nil_of_length_eq_zero (by omega)
    subst this
    simp only [sackLoop, groups, List.filter_nil, List.append_nil, List.take_of_length_le h4]
  | succ n ih =>
    intro v p t acc hv h4
    have hv' : ∃ a b c d e f g h w, v = a :: b :: c :: d :: e :: f :: g :: h :: w := by
      match v, hv with
      | [], hv | [_], hv | [_, _], hv | [_, _, _], hv | [_, _, _, _], hv | [_, _, _, _, _], hv
      | [_, _, _, _, _, _], hv | [_, _, _, _, _, _, _], hv => simp at hv <;> omega
      | a :: b :: c :: d :: e :: f :: g :: h :: w, _ => exact ⟨a, b, c, d, e, f, g, h, w, rfl⟩
    obtain ⟨a, b, c, d, e, f, g, h, w, rfl⟩ := hv'
    · 
      simp only [List.length_cons] at hv
      simp only [sackLoop, groups]
      split
      · have e1 := be32_app p (e :: f :: g :: h :: (w ++ t)) a b c d
        have e2 := be32_app (p ++ [a, b, c, d]) (w ++ t) e f g h
        simp only [List.append_assoc, List.cons_append, List.nil_append, List.length_append,
          List.length_cons, List.length_nil] at e1 e2
        simp only [List.cons_append]
        rw [e1, e2]
        simp only
        generalize w32 a b c d = L
        generalize w32 e f g h = R
        have ih' := ih w (p ++ [a, b, c, d, e, f, g, h]) t
          (if seqLt L R = true then acc ++ [(L, R)] else acc) (by omega)
          (by split <;> (try simp) <;> omega)
        simp only [List.append_assoc, List.cons_append, List.nil_append, List.length_append,
          List.length_cons, List.length_nil] at ih'
        rw [ih']
        by_cases hb : seqLt L R = true
        · simp only [List.filter_cons, hb, if_true, List.append_assoc, List.cons_append,
            List.nil_append]
        · simp only [List.filter_cons, hb, if_false, Bool.false_eq_true]
      · congr 1
        rw [List.take_append_of_le_length (by omega), List.take_of_length_le h4]

theorem optUpd_spec (p t : List Nat) (k : Nat) (v : List Nat) (po : PO) (h4 : po.sack.length ≤ 4) :
    optUpd (p ++ (k :: (v.length + 2) :: (v ++ t))) p.length k (v.length + 2) po =
      some (meaning po (.opt k v)) := by
  have gx : ∀ (j : Nat) (x : List Nat), (p ++ x)[p.length + j]? = x[j]? := by
    intro j x
    rw [List.getElem?_append_right (by omega)]
    congr 1
    omega
  rw [optUpd]
  by_cases h3 : k = 3 ∧ v.length + 2 = 3
  · rw [if_pos h3]
    match v, h3 with
    | [s], h3 =>
      rw [gx]
      obtain ⟨rfl, _⟩ := h3
      simp only [List.length_cons, List.length_nil, List.cons_append, List.getElem?_cons_succ,
        List.getElem?_cons_zero, meaning, Option.some.injEq, PO.mk.injEq, and_self, and_true, true_and]
      split <;> omega
  rw [if_neg h3]
  by_cases h2 : k = 2 ∧ v.length + 2 = 4
  · rw [if_pos h2]
    match v, h2 with
    | [a, b], h2 =>
      obtain ⟨rfl, _⟩ := h2
      simp only [be16, Nat.add_assoc, gx]
      simp only [List.length_cons, List.length_nil, List.cons_append, List.getElem?_cons_succ,
        List.getElem?_cons_zero, meaning, Nat.reduceAdd, Option.some.injEq]
      by_cases hz : a * 256 + b = 0
      · rw [if_pos hz, if_neg (by omega)]
      · rw [if_neg hz, if_pos (by omega)]
  rw [if_neg h2]
  by_cases h5 : k = 4 ∧ v.length + 2 = 2
  · rw [if_pos h5]
    match v, h5 with
    | [], h5 => obtain ⟨rfl, _⟩ := h5; rfl
  rw [if_neg h5]
  by_cases h6 : k = 5 ∧ 10 ≤ v.length + 2 ∧ (v.length + 2 - 2) % 8 = 0
  · rw [if_pos h6]
    obtain ⟨rfl, h6a, h6b⟩ := h6
    have := sackLoop_spec ((v.length + 2 - 2) / 8) v (p ++ [5, v.length + 2]) t po.sack (by omega) h4
    simp only [List.append_assoc, List.cons_append, List.nil_append, List.length_append,
      List.length_cons, List.length_nil] at this
    rw [this]
    have hm : meaning po (.opt 5 v) = if 8 ≤ v.length ∧ v.length % 8 = 0 then
      { po with sack := (po.sack ++ (groups v).filter (fun b => seqLt b.1 b.2)).take 4 }
      else po := by
      rw [meaning] <;> simp
    rw [hm, if_pos ⟨by omega, by omega⟩]
  rw [if_neg h6]
  by_cases h8 : k = 8 ∧ v.length + 2 = 10
  · rw [if_pos h8]
    match v, h8 with
    | [a, b, c, d, e, f, g, h], h8 =>
      obtain ⟨rfl, _⟩ := h8
      simp only [be32, Nat.add_assoc, gx]
      simp only [List.length_cons, List.length_nil, List.cons_append, List.getElem?_cons_succ,
        List.getElem?_cons_zero, meaning, Nat.reduceAdd]
  rw [if_neg h8]
  congr 1
  symm
  unfold meaning
  split
  all_goals (try rename_i he; try (injection he with e1 e2))
  all_goals (try (subst e1; subst e2))
  all_goals (try simp at h3 h2 h5 h8)
  · split
    · omega
    · rfl
  · rfl

theorem meaning_sack (po : PO) (i : Item) (h : po.sack.length ≤ 4) : (meaning po i).sack.length ≤ 4 := by
  unfold meaning
  split <;> (try split) <;> (try simp) <;> omega

/-- Tail of an option area: nothing, or end-of-list followed by anything. -/
def Tail (t : List Nat) : Prop := t = [] ∨ ∃ r, t = 0 :: r

theorem parseGo_spec (post : List Nat) : ∀ (items : List Item) (p tail : List Nat) (fuel : Nat) (po : PO),
    (∀ i ∈ items, i.Wf) → Tail tail → po.sack.length ≤ 4 →
    (encAll items ++ tail).length ≤ fuel →
    parseGo (p ++ (encAll items ++ (tail ++ post))) (p.length + (encAll items ++ tail).length) fuel
      p.length po = .done (items.foldl meaning po) := by
  intro items
  induction items with
  | nil =>
    intro p tail fuel po _ ht h4 hf
    simp only [encAll, List.map_nil, List.flatten_nil, List.nil_append, List.foldl_nil] at hf ⊢
    rcases ht with rfl | ⟨r, rfl⟩
    · cases fuel <;> rw [parseGo] <;> simp
    · match fuel, hf with
      | fuel + 1, _ =>
        rw [parseGo, if_pos (by simp)]
        simp [List.getElem?_append_right]
  | cons i items ih =>
    intro p tail fuel po hw ht h4 hf
    have hwi := hw i (by simp)
    have hwr : ∀ j ∈ items, j.Wf := fun j hj => hw j (by simp [hj])
    have hm := meaning_sack po i h4
    have e0 : encAll (i :: items) = i.enc ++ encAll items := by simp [encAll]
    rw [e0, List.append_assoc] at hf
    rw [e0]
    match i, hwi with
    | .nop, _ =>
      simp only [Item.enc, List.cons_append, List.nil_append, List.length_cons] at hf ⊢
      match fuel, hf with
      | fuel + 1, hf =>
        have := ih (p ++ [1]) tail fuel po hwr ht h4 (by omega)
        simp only [List.append_assoc, List.cons_append, List.nil_append, List.length_append,
          List.length_cons, List.length_nil] at this
        rw [parseGo, if_pos (by omega)]
        simp only [List.getElem?_append_right (Nat.le_refl _), Nat.sub_self, List.getElem?_cons_zero,
          if_true, List.foldl_cons]
        simp only [List.length_append]
        rw [show meaning po .nop = po from rfl, ← this]
        congr 1
        omega
    | .opt k v, hwi =>
      obtain ⟨hk, hv⟩ := hwi
      simp only [Item.enc, List.cons_append, List.nil_append, List.length_cons] at hf ⊢
      match fuel, hf with
      | fuel + 1, hf =>
        have := ih (p ++ (k :: (v.length + 2) :: v)) tail fuel (meaning po (.opt k v)) hwr ht hm
          (by simp only [List.length_append] at hf ⊢; omega)
        simp only [List.append_assoc, List.cons_append, List.nil_append, List.length_append,
          List.length_cons, List.length_nil] at this
        rw [parseGo, if_pos (by omega)]
        simp only [List.getElem?_append_right (Nat.le_refl _), Nat.sub_self, List.getElem?_cons_zero]
        rw [if_neg (by omega), if_neg (by omega), if_neg (by omega)]
        rw [List.getElem?_append_right (by omega)]
        rw [show p.length + 1 - p.length = 1 by omega]
        simp only [List.getElem?_cons_succ, List.getElem?_cons_zero]
        rw [if_neg (by simp only [List.length_append]; omega)]
        rw [List.append_assoc, optUpd_spec p _ k v po h4]
        simp only [List.foldl_cons]
        rw [← this]
        congr 1
        simp only [List.length_append]
        omega

/-- **C08, correctness.** On every well-formed option area (any sequence of NOPs and
kind/length/value options, then possibly end-of-list and garbage), followed by any payload, the parser
returns exactly the meaning of the options. -/
theorem tcp_options_parse_correct (hlen : Nat) (items : List Item) (tail payload : List Nat)
    (hw : ∀ i ∈ items, i.Wf) (ht : Tail tail)
    (hh : dataOff hlen = 20 + (encAll items ++ tail).length) :
    parse hlen (encAll items ++ (tail ++ payload)) = .done (items.foldl meaning {}) := by
  simp only [parse]
  have e : (if dataOff hlen - 20 < (encAll items ++ (tail ++ payload)).length then dataOff hlen - 20
      else (encAll items ++ (tail ++ payload)).length) = (encAll items ++ tail).length := by
    simp only [List.length_append] at hh ⊢
    split <;> omega
  rw [e]
  have := parseGo_spec payload items [] tail (encAll items ++ tail).length {} hw ht (by simp)
    (Nat.le_refl _)
  simpa using this

/-! ## Emission then parsing -/

theorem w32_put32 (v : Nat) (h : v < 4294967296) :
    w32 (v / 16777216 % 256) (v / 65536 % 256) (v / 256 % 256) (v % 256) = v := by
  simp only [w32]; omega

theorem groups_blockBytes (bs : List (Nat × Nat))
    (h : ∀ b ∈ bs, b.1 < 4294967296 ∧ b.2 < 4294967296) : groups (blockBytes bs) = bs := by
  induction bs with
  | nil => rfl
  | cons b bs ih =>
    obtain ⟨h1, h2⟩ := h b (by simp)
    simp only [blockBytes, put32, List.cons_append, List.nil_append, groups]
    rw [ih (fun x hx => h x (by simp [hx])), w32_put32 _ h1, w32_put32 _ h2]

theorem blockBytes_length (bs : List (Nat × Nat)) : (blockBytes bs).length = bs.length * 8 := by
  induction bs with
  | nil => rfl
  | cons b bs ih => simp only [blockBytes, put32, List.length_append, List.length_cons, List.length_nil, ih]; omega

theorem padNop_eq (o : List Nat) (maxLen : Nat) (h : (o.length + 3) / 4 * 4 ≤ maxLen) :
    ∃ k, padNop o maxLen = o ++ List.replicate k 1 ∧ o.length + k = (o.length + 3) / 4 * 4 := by
  suffices H : ∀ d (o : List Nat), (4 - o.length % 4) % 4 = d → (o.length + 3) / 4 * 4 ≤ maxLen →
      ∃ k, padNop o maxLen = o ++ List.replicate k 1 ∧ o.length + k = (o.length + 3) / 4 * 4 from
    H _ o rfl h
  intro d
  induction d with
  | zero =>
    intro o hd h
    rw [padNop, if_neg (by omega)]
    exact ⟨0, by simp, by omega⟩
  | succ d ih =>
    intro o hd h
    rw [padNop, if_pos (by omega)]
    obtain ⟨k, hk, hl⟩ := ih (o ++ [1]) (by simp only [List.length_append, List.length_singleton]; omega)
      (by simp only [List.length_append, List.length_singleton]; omega)
    simp only [List.length_append, List.length_singleton] at hl
    refine ⟨k + 1, ?_, by omega⟩
    rw [hk, List.append_assoc, List.replicate_succ]
    rfl

theorem hlenByte_off (n : Nat) (h : n % 4 = 0) (h40 : n ≤ 40) : dataOff (hlenByte n) = 20 + n := by
  simp only [dataOff, hlenByte]; omega

theorem encAll_append (a b : List Item) : encAll (a ++ b) = encAll a ++ encAll b := by
  simp [encAll]

theorem encAll_nops (k : Nat) : encAll (List.replicate k .nop) = List.replicate k 1 := by
  induction k with
  | zero => rfl
  | succ k ih =>
    rw [List.replicate_succ, List.replicate_succ, ← ih]
    simp [encAll, Item.enc]

theorem fold_nops (k : Nat) (po : PO) : (List.replicate k Item.nop).foldl meaning po = po := by
  induction k with
  | zero => rfl
  | succ k ih => rw [List.replicate_succ, List.foldl_cons]; exact ih

theorem nops_wf (k : Nat) : ∀ i ∈ List.replicate k Item.nop, i.Wf := by
  intro i hi
  rw [(List.mem_replicate.1 hi).2]
  trivial

/-- Emitting items, padding, and parsing. -/
theorem emit_parse (items : List Item) (maxLen : Nat) (payload : List Nat) (h40 : maxLen ≤ 40)
    (hw : ∀ i ∈ items, i.Wf) (hfit : ((encAll items).length + 3) / 4 * 4 ≤ maxLen) :
    parse (hlenByte (padNop (encAll items) maxLen).length) (padNop (encAll items) maxLen ++ payload) =
      .done (items.foldl meaning {}) := by
  obtain ⟨k, hk, hl⟩ := padNop_eq (encAll items) maxLen hfit
  rw [hk, ← encAll_nops, ← encAll_append]
  have hlen : (encAll (items ++ List.replicate k .nop)).length = ((encAll items).length + 3) / 4 * 4 := by
    rw [encAll_append, encAll_nops, List.length_append, List.length_replicate, hl]
  have := tcp_options_parse_correct (hlenByte (encAll (items ++ List.replicate k .nop)).length)
    (items ++ List.replicate k .nop) [] payload
    (by
      intro i hi
      rcases List.mem_append.1 hi with h | h
      · exact hw i h
      · exact nops_wf k i h)
    (Or.inl rfl) (by rw [List.append_nil, hlenByte_off _ (by omega) (by omega)])
  rw [List.nil_append] at this
  rw [this, List.foldl_append, fold_nops]

/-- Items of the four SYN options. -/
def iMss (c : Cfg) : Item := .opt 2 (put16 c.mss)
def iWs (c : Cfg) : Item := .opt 3 [c.shift]
def iSackPerm : Item := .opt 4 []
def iTs (c : Cfg) : Item := .opt 8 (put32 c.now ++ put32 c.ecr)

/-- A stage either appends its items or not, keeping the padded size within the budget. -/
theorem syn_items (c : Cfg) (maxLen : Nat) :
    ∃ m w k t : Bool,
      synTs c maxLen (synSack c maxLen (synWs c maxLen (synMss c maxLen))) =
        encAll ((if m then [iMss c] else []) ++ (if w then [iWs c] else []) ++
          (if k then [iSackPerm] else []) ++ (if t then [iTs c, .nop, .nop] else [])) ∧
      ((encAll ((if m then [iMss c] else []) ++ (if w then [iWs c] else []) ++
          (if k then [iSackPerm] else []) ++ (if t then [iTs c, .nop, .nop] else []))).length + 3) / 4 * 4
          ≤ maxLen ∧
      (w = true → c.incWs = true) ∧ (k = true → c.incSack = true) ∧ (t = true → c.incTs = true) ∧
      (24 ≤ maxLen → m = true ∧ (c.incWs = true → w = true) ∧ (c.incSack = true → k = true) ∧
        (c.incTs = true → t = true)) := by
  have l1 : (encAll [iMss c]).length = 4 := rfl
  have l2 : (encAll [iWs c]).length = 3 := rfl
  have l3 : (encAll [iSackPerm]).length = 2 := rfl
  have l4 : (encAll [iTs c, .nop, .nop]).length = 12 := rfl
  have l0 : (encAll []).length = 0 := rfl
  have s1 : ∃ m : Bool, synMss c maxLen = encAll (if m then [iMss c] else []) ∧
      ((encAll (if m then [iMss c] else [])).length + 3) / 4 * 4 ≤ maxLen ∧
      (encAll (if m then [iMss c] else [])).length ≤ 4 ∧ (24 ≤ maxLen → m = true) := by
    rw [synMss]
    split
    · exact ⟨true, rfl, by simp only [if_true, l1]; omega, by simp only [if_true, l1]; omega, fun _ => rfl⟩
    · exact ⟨false, rfl, by simp [l0], by simp [l0], by omega⟩
  obtain ⟨m, e1, f1, g1, h1⟩ := s1
  rw [e1]
  generalize hA : (if m then [iMss c] else []) = A at *
  have s2 : ∃ w : Bool, synWs c maxLen (encAll A) = encAll (A ++ if w then [iWs c] else []) ∧
      ((encAll (A ++ if w then [iWs c] else [])).length + 3) / 4 * 4 ≤ maxLen ∧
      (encAll (A ++ if w then [iWs c] else [])).length ≤ 7 ∧
      (w = true → c.incWs = true) ∧ (24 ≤ maxLen → c.incWs = true → w = true) := by
    rw [synWs]
    split
    · rename_i hc
      refine ⟨true, ?_, ?_, ?_, fun _ => hc.1, fun _ _ => rfl⟩
      · rw [encAll_append]; rfl
      · simp only [if_true]; rw [encAll_append, List.length_append, l2]; omega
      · simp only [if_true]; rw [encAll_append, List.length_append, l2]; omega
    · rename_i hc
      refine ⟨false, by simp, by simpa using f1, by simp; omega, by simp, ?_⟩
      intro h h'
      exact absurd ⟨h', by omega⟩ hc
  obtain ⟨w, e2, f2, g2, h2, h2'⟩ := s2
  rw [e2]
  generalize hB : A ++ (if w then [iWs c] else []) = B at *
  have s3 : ∃ k : Bool, synSack c maxLen (encAll B) = encAll (B ++ if k then [iSackPerm] else []) ∧
      ((encAll (B ++ if k then [iSackPerm] else [])).length + 3) / 4 * 4 ≤ maxLen ∧
      (encAll (B ++ if k then [iSackPerm] else [])).length ≤ 9 ∧
      (k = true → c.incSack = true) ∧ (24 ≤ maxLen → c.incSack = true → k = true) := by
    rw [synSack]
    split
    · rename_i hc
      refine ⟨true, ?_, ?_, ?_, fun _ => hc.1, fun _ _ => rfl⟩
      · rw [encAll_append]; rfl
      · simp only [if_true]; rw [encAll_append, List.length_append, l3]; omega
      · simp only [if_true]; rw [encAll_append, List.length_append, l3]; omega
    · rename_i hc
      refine ⟨false, by simp, by simpa using f2, by simp; omega, by simp, ?_⟩
      intro h h'
      exact absurd ⟨h', by omega⟩ hc
  obtain ⟨k, e3, f3, g3, h3, h3'⟩ := s3
  rw [e3]
  generalize hC : B ++ (if k then [iSackPerm] else []) = C at *
  have s4 : ∃ t : Bool, synTs c maxLen (encAll C) = encAll (C ++ if t then [iTs c, .nop, .nop] else []) ∧
      ((encAll (C ++ if t then [iTs c, .nop, .nop] else [])).length + 3) / 4 * 4 ≤ maxLen ∧
      (t = true → c.incTs = true) ∧ (24 ≤ maxLen → c.incTs = true → t = true) := by
    rw [synTs]
    split
    · rename_i hc
      refine ⟨true, ?_, ?_, fun _ => hc.1, fun _ _ => rfl⟩
      · rw [encAll_append]; rfl
      · simp only [if_true]; rw [encAll_append, List.length_append, l4]; omega
    · rename_i hc
      refine ⟨false, by simp, by simpa using f3, by simp, ?_⟩
      intro h h'
      exact absurd ⟨h', by omega⟩ hc
  obtain ⟨t, e4, f4, h4, h4'⟩ := s4
  refine ⟨m, w, k, t, ?_, ?_, h2, h3, h4, fun h => ⟨h1 h, h2' h, h3' h, h4' h⟩⟩
  · rw [hA, hB, hC, e4]
  · rw [hA, hB, hC]; exact f4

/-- **C08, SYN round trip.** Whatever option budget (at most 40 bytes) the interface MTU leaves, the
peer that parses the options of a SYN or SYN-ACK emitted by the stack reads, for every option, either
exactly the value put in or nothing; an option not asked for is never there; and with a budget of at
least 24 bytes (MTU of at least 78) none is left out. -/
theorem syn_options_round_trip (c : Cfg) (maxLen : Nat) (payload : List Nat) (h40 : maxLen ≤ 40)
    (hm : c.mss < 65536) (hs : c.shift ≤ 14) (hn : c.now < 4294967296) (he : c.ecr < 4294967296) :
    ∃ po, parse (hlenByte (synOpts c maxLen).length) (synOpts c maxLen ++ payload) = .done po ∧
      (po.mss = none ∨ po.mss = some c.mss) ∧
      (po.ws = none ∨ c.incWs = true ∧ po.ws = some c.shift) ∧
      (po.sackPerm = false ∨ c.incSack = true) ∧
      (po.ts = none ∨ c.incTs = true ∧ po.ts = some (c.now, c.ecr)) ∧ po.sack = [] ∧
      (24 ≤ maxLen →
        (0 < c.mss → po.mss = some c.mss) ∧ (c.incWs = true → po.ws = some c.shift) ∧
        (c.incSack = true → po.sackPerm = true) ∧ (c.incTs = true → po.ts = some (c.now, c.ecr))) := by
  obtain ⟨m, w, k, t, e, hf, hw, hk, ht, h24⟩ := syn_items c maxLen
  have hP := emit_parse ((if m then [iMss c] else []) ++ (if w then [iWs c] else []) ++
          (if k then [iSackPerm] else []) ++ (if t then [iTs c, .nop, .nop] else [])) maxLen payload h40
    (by
      intro i hi
      simp only [List.mem_append] at hi
      rcases hi with ((hi | hi) | hi) | hi
      all_goals (split at hi <;> simp at hi)
      · subst hi; simp [Item.Wf, iMss, put16]
      · subst hi; simp [Item.Wf, iWs]
      · subst hi; simp [Item.Wf, iSackPerm]
      · rcases hi with rfl | rfl <;> simp [Item.Wf, iTs, put32]) hf
  rw [synOpts, e, hP]
  refine ⟨_, rfl, ?_⟩
  have m1 : ∀ po, meaning po (iMss c) = if c.mss = 0 then po else { po with mss := some c.mss } := by
    intro po
    simp only [iMss, put16, meaning]
    rw [show c.mss / 256 % 256 * 256 + c.mss % 256 = c.mss by omega]
  have m2 : ∀ po, meaning po (iWs c) = { po with ws := some c.shift } := by
    intro po
    simp only [iWs, meaning]
    rw [Nat.min_eq_left hs]
  have m3 : ∀ po, meaning po iSackPerm = { po with sackPerm := true } := fun _ => rfl
  have m4 : ∀ po, meaning po (iTs c) = { po with ts := some (c.now, c.ecr) } := by
    intro po
    simp only [iTs, put32, List.cons_append, List.nil_append, meaning]
    rw [w32_put32 _ hn, w32_put32 _ he]
  have m5 : ∀ po, meaning po .nop = po := fun _ => rfl
  cases m <;> cases w <;> cases k <;> cases t <;>
    simp only [if_true, Bool.false_eq_true, if_false, List.nil_append, List.append_nil, List.cons_append,
      List.foldl_cons, List.foldl_nil, m1, m2, m3, m4, m5, true_implies, false_implies,
      forall_const] at hw hk ht h24 ⊢ <;>
    by_cases hz : c.mss = 0 <;> simp_all <;> omega

/-- What an ACK of `c` says (used in the proof only). -/
def ackPO (c : Cfg) : PO :=
  { ts := if c.incTs then some (c.now, c.ecr) else none,
    sack := if c.incSack then c.blocks.take (if c.incTs then 3 else 4) else [] }

/-- **C08, ACK round trip.** Parsing the options of an ACK (or FIN) emitted by the stack returns the
timestamps it put in and as many of its SACK blocks, in order, as fit: four without, three with
timestamps. Hypotheses: blocks are non-empty ranges (C05) of 32-bit numbers. -/
theorem ack_options_round_trip (c : Cfg) (payload : List Nat)
    (hn : c.now < 4294967296) (he : c.ecr < 4294967296)
    (hb : ∀ b ∈ c.blocks, b.1 < 4294967296 ∧ b.2 < 4294967296 ∧ seqLt b.1 b.2 = true) :
    parse (hlenByte (ackOpts c 40).length) (ackOpts c 40 ++ payload) =
      .done { ts := if c.incTs then some (c.now, c.ecr) else none,
              sack := if c.incSack then c.blocks.take (if c.incTs then 3 else 4) else [] } := by
  have m4 : ∀ po, meaning po (iTs c) = { po with ts := some (c.now, c.ecr) } := by
    intro po
    simp only [iTs, put32, List.cons_append, List.nil_append, meaning]
    rw [w32_put32 _ hn, w32_put32 _ he]
  have m6 : ∀ n, 0 < (c.blocks.take n).length → n ≤ 4 → ∀ po : PO, po.sack = [] →
      meaning po (.opt 5 (blockBytes (c.blocks.take n))) = { po with sack := c.blocks.take n } := by
    intro n h0 hn4 po hpo
    have hl := blockBytes_length (c.blocks.take n)
    have hm : meaning po (.opt 5 (blockBytes (c.blocks.take n))) =
        if 8 ≤ (blockBytes (c.blocks.take n)).length ∧ (blockBytes (c.blocks.take n)).length % 8 = 0 then
      { po with sack := (po.sack ++ (groups (blockBytes (c.blocks.take n))).filter
          (fun b => seqLt b.1 b.2)).take 4 } else po := by
      rw [meaning] <;> simp
    rw [hm, if_pos ⟨by omega, by omega⟩, groups_blockBytes, hpo, List.nil_append, List.filter_eq_self.2,
      List.take_of_length_le]
    · rw [List.length_take]; omega
    · intro b hb'
      exact (hb b (List.mem_of_mem_take hb')).2.2
    · intro b hb'
      exact ⟨(hb b (List.mem_of_mem_take hb')).1, (hb b (List.mem_of_mem_take hb')).2.1⟩
  have key : ∃ items : List Item, ackSack c 40 (ackTs c) = encAll items ∧ (∀ i ∈ items, i.Wf) ∧
      ((encAll items).length + 3) / 4 * 4 ≤ 40 ∧
      items.foldl meaning ({} : PO) = ackPO c := by
    have wts : (iTs c).Wf := by simp [Item.Wf, iTs, put32]
    have wsk : ∀ n, n ≤ 4 → (Item.opt 5 (blockBytes (c.blocks.take n))).Wf := by
      intro n hn4
      have hl := blockBytes_length (c.blocks.take n)
      have : (c.blocks.take n).length ≤ n := by rw [List.length_take]; omega
      exact ⟨by omega, by omega⟩
    by_cases hS : c.incSack = true ∧ 0 < c.blocks.length
    · have ht : ∀ n, 0 < n → 0 < (c.blocks.take n).length := by
        intro n hn0; rw [List.length_take]; omega
      cases hT : c.incTs with
      | true =>
        refine ⟨[iTs c, .opt 5 (blockBytes (c.blocks.take 3))], ?_, ?_, ?_, ?_⟩
        · have hl : (ackTs c).length = 10 := by simp [ackTs, hT, put32]
          simp only [ackSack, hl]
          rw [if_pos ⟨hS.1, hS.2, by omega⟩, if_pos (ht _ (by omega))]
          simp only [ackTs, hT, if_true, encAll, Item.enc, List.map_cons, List.map_nil, List.flatten_cons,
            List.flatten_nil, List.append_nil, iTs, put32, blockBytes_length]
          simp [Nat.add_comm]
        · intro i hi
          simp only [List.mem_cons, List.not_mem_nil, or_false] at hi
          rcases hi with rfl | rfl
          · exact wts
          · exact wsk 3 (by omega)
        · have hl := blockBytes_length (c.blocks.take 3)
          have : (c.blocks.take 3).length ≤ 3 := by rw [List.length_take]; omega
          simp only [encAll, Item.enc, List.map_cons, List.map_nil, List.flatten_cons,
            List.flatten_nil, List.append_nil, iTs, put32, List.length_append, List.length_cons,
            List.length_nil, hl]
          omega
        · simp only [List.foldl_cons, List.foldl_nil, m4]
          rw [m6 3 (ht _ (by omega)) (by omega) _ rfl]
          simp [ackPO, hS.1, hT]
      | false =>
        refine ⟨[.opt 5 (blockBytes (c.blocks.take 4))], ?_, ?_, ?_, ?_⟩
        · have hl : (ackTs c).length = 0 := by simp [ackTs, hT]
          simp only [ackSack, hl]
          rw [if_pos ⟨hS.1, hS.2, by omega⟩, if_pos (ht _ (by omega))]
          simp only [ackTs, hT, encAll, Item.enc, List.map_cons, List.map_nil, List.flatten_cons,
            List.flatten_nil, List.append_nil, blockBytes_length]
          simp [Nat.add_comm]
        · intro i hi
          simp only [List.mem_cons, List.not_mem_nil, or_false] at hi
          subst hi
          exact wsk 4 (by omega)
        · have hl := blockBytes_length (c.blocks.take 4)
          have : (c.blocks.take 4).length ≤ 4 := by rw [List.length_take]; omega
          simp only [encAll, Item.enc, List.map_cons, List.map_nil, List.flatten_cons,
            List.flatten_nil, List.append_nil, List.length_cons, hl]
          omega
        · simp only [List.foldl_cons, List.foldl_nil]
          rw [m6 4 (ht _ (by omega)) (by omega) _ rfl]
          simp [ackPO, hS.1, hT]
    · have hno : (if c.incSack then c.blocks.take (if c.incTs then 3 else 4) else []) = [] := by
        split
        · rename_i h1
          have : c.blocks = [] := List.eq_nil_of_length_eq_zero (by
            rcases Nat.eq_zero_or_pos c.blocks.length with h | h
            · exact h
            · exact absurd ⟨h1, h⟩ hS)
          simp [this]
        · rfl
      rw [ackPO, hno]
      have hs : ackSack c 40 (ackTs c) = ackTs c := by
        rw [ackSack, if_neg]
        intro h
        exact hS ⟨h.1, h.2.1⟩
      rw [hs]
      cases hT : c.incTs with
      | true =>
        refine ⟨[iTs c], ?_, ?_, ?_, ?_⟩
        · simp [ackTs, hT, encAll, Item.enc, iTs, put32]
        · intro i hi
          simp only [List.mem_cons, List.not_mem_nil, or_false] at hi
          subst hi; exact wts
        · simp [encAll, Item.enc, iTs, put32]
        · simp only [List.foldl_cons, List.foldl_nil, m4, if_true]
      | false =>
        exact ⟨[], by simp [ackTs, hT, encAll], by simp, by simp [encAll], rfl⟩
  obtain ⟨items, e, hw, hf, hv⟩ := key
  rw [ackOpts, if_neg (by omega), e, emit_parse items 40 payload (by omega) hw hf, hv, ackPO]

/-- **C08, data segment round trip.** -/
theorem data_options_round_trip (c : Cfg) (payload : List Nat)
    (hn : c.now < 4294967296) (he : c.ecr < 4294967296) :
    parse (hlenByte (dataOpts c).length) (dataOpts c ++ payload) =
      .done { ts := if c.incTs then some (c.now, c.ecr) else none } := by
  have m4 : ∀ po, meaning po (iTs c) = { po with ts := some (c.now, c.ecr) } := by
    intro po
    simp only [iTs, put32, List.cons_append, List.nil_append, meaning]
    rw [w32_put32 _ hn, w32_put32 _ he]
  cases hT : c.incTs with
  | true =>
    have e : dataOpts c = encAll [iTs c, .nop] ++ [0] := by
      simp [dataOpts, hT, encAll, Item.enc, iTs, put32]
    have := tcp_options_parse_correct (hlenByte (dataOpts c).length) [iTs c, .nop] [0] payload
      (by
        intro i hi
        simp only [List.mem_cons, List.not_mem_nil, or_false] at hi
        rcases hi with rfl | rfl <;> simp [Item.Wf, iTs, put32])
      (Or.inr ⟨[], rfl⟩) (by rw [← e, hlenByte_off] <;> simp [dataOpts, hT, put32])
    rw [e, List.append_assoc, ← e, this]
    simp only [List.foldl_cons, List.foldl_nil, m4, if_true]
    rfl
  | false =>
    have := tcp_options_parse_correct (hlenByte (dataOpts c).length) [] [] payload
      (by simp) (Or.inl rfl) (by simp [dataOpts, hT, encAll, dataOff, hlenByte])
    simpa [dataOpts, hT, encAll] using this

/-! ## Concrete cases -/

def demoCfg : Cfg :=
  { incWs := true, incSack := true, incTs := true, mss := 1460, shift := 3, now := 123456789,
    ecr := 4000000000, blocks := [(4294967290, 10), (100, 200), (300, 400), (500, 600)] }

example : parse (hlenByte (synOpts demoCfg 40).length) (synOpts demoCfg 40 ++ [7, 7]) =
    .done { mss := some 1460, ws := some 3, sackPerm := true, ts := some (123456789, 4000000000) } := by
  decide +kernel
example : parse (hlenByte (ackOpts demoCfg 40).length) (ackOpts demoCfg 40) =
    .done { ts := some (123456789, 4000000000), sack := [(4294967290, 10), (100, 200), (300, 400)] } := by
  decide +kernel
/-- A length byte of 0 or one running past the header stops the parser. -/
example : parse 0x60 [8, 0, 1, 1] = .done {} ∧ parse 0x60 [8, 10, 1, 1, 9, 9, 9, 9, 9, 9, 9, 9] = .done {} := by
  decide +kernel
/-- With the smallest MTU the budget is 10 bytes: timestamps are left out. -/
example : parse (hlenByte (synOpts demoCfg 10).length) (synOpts demoCfg 10) =
    .done { mss := some 1460, ws := some 3 } := by decide +kernel

end Wolf.Tcp.Opts
