import Verif.Drv.Cyw
import Verif.Link.Model
/-!
# C120: what the stack receives is exactly what the radio's packets carry
-/
namespace Wolf.Drv.Cyw

theorem getD_of {l : Bytes} {i x : Nat} (h : l[i]? = some x) : oct l i = x := by simp [oct, List.getD, h]

theorem some_oct {l : Bytes} {i : Nat} (h : i < l.length) : l[i]? = some (oct l i) := by
  simp [oct, List.getD, List.getElem?_eq_getElem h]

theorem ld_app {p rest : Bytes} {i : Nat} (h : i < p.length) : (p ++ rest)[i]? = some (oct p i) := by
  rw [List.getElem?_append_left h, some_oct h]

theorem compl16 (s c : Nat) (hs : s < 65536) (hc : c < 65536) : s ^^^ c = 65535 ↔ c + s = 65535 := by
  have k : ∀ s : Nat, s < 65536 → s ^^^ (65535 - s) = 65535 := by
    intro s hs
    apply Nat.eq_of_testBit_eq
    intro i
    have e : 65535 - s = 2 ^ 16 - (s + 1) := by omega
    have e2 : (65535 : Nat) = 2 ^ 16 - (0 + 1) := by omega
    rw [Nat.testBit_xor, e, Nat.testBit_two_pow_sub_succ (by omega : s < 2 ^ 16)]
    conv => rhs; rw [e2, Nat.testBit_two_pow_sub_succ (by omega : 0 < 2 ^ 16)]
    by_cases hi : i < 16
    · cases s.testBit i <;> simp [hi]
    · have : s.testBit i = false := Nat.testBit_lt_two_pow (Nat.lt_of_lt_of_le hs
        (Nat.pow_le_pow_right (by omega : 0 < 2) (by omega : 16 ≤ i)))
      simp [hi, this]
  constructor
  · intro h
    have h1 := k s hs
    have : c = 65535 - s := by
      have e : s ^^^ (s ^^^ c) = s ^^^ (s ^^^ (65535 - s)) := by rw [h, h1]
      rw [← Nat.xor_assoc, ← Nat.xor_assoc, Nat.xor_self, Nat.zero_xor, Nat.zero_xor] at e
      exact e
    omega
  · intro h
    have e : c = 65535 - s := by omega
    rw [e]; exact k s hs

/-- The header's length and its complement agree and the length is that of octets really read. -/
def hdrOk (p : Bytes) : Prop :=
  oct p 2 + 256 * oct p 3 + (oct p 0 + 256 * oct p 1) = 65535 ∧ 0 < oct p 0 + 256 * oct p 1 ∧
    oct p 0 + 256 * oct p 1 ≤ p.length

instance (p : Bytes) : Decidable (hdrOk p) := by unfold hdrOk; exact inferInstance

abbrev sizeOf' (p : Bytes) : Nat := oct p 0 + 256 * oct p 1

theorem oct_lt {p : Bytes} (hb : ∀ x ∈ p, x < 256) (i : Nat) : oct p i < 256 := by
  unfold oct
  by_cases h : i < p.length
  · rw [List.getD_eq_getElem?_getD, List.getElem?_eq_getElem h]
    exact hb _ (List.getElem_mem h)
  · rw [List.getD_eq_getElem?_getD, List.getElem?_eq_none (by omega)]
    show 0 < 256
    omega

theorem validate_spec {p rest : Bytes} (hl : 12 ≤ p.length) (hb : ∀ x ∈ p, x < 256) :
    validate (p ++ rest) p.length = some (if hdrOk p then some (sizeOf' p, oct p 5 % 16) else none) := by
  have h0 := oct_lt hb 0
  have h1 := oct_lt hb 1
  have h2 := oct_lt hb 2
  have h3 := oct_lt hb 3
  unfold validate
  rw [ld_app (by omega), ld_app (by omega), ld_app (by omega), ld_app (by omega), ld_app (by omega : 5 < p.length)]
  have hc := compl16 (oct p 0 + 256 * oct p 1) (oct p 2 + 256 * oct p 3) (by omega) (by omega)
  simp only [Option.bind_eq_bind, Option.bind_some, Option.pure_def]
  by_cases ho : hdrOk p
  · obtain ⟨a, b, d⟩ := ho
    rw [if_neg (by rintro (x | x); exact x (hc.2 a); omega), if_neg (by omega), if_pos ⟨a, b, d⟩]
  · rw [if_neg ho]
    by_cases hx : oct p 0 + 256 * oct p 1 ^^^ oct p 2 + 256 * oct p 3 ≠ 65535 ∨ oct p 0 + 256 * oct p 1 = 0
    · rw [if_pos hx]
    · rw [if_neg hx, if_pos]
      by_cases hy : p.length < oct p 0 + 256 * oct p 1
      · exact hy
      · refine absurd ⟨hc.1 ?_, ?_, ?_⟩ ho
        · apply Classical.byContradiction
          intro n; exact hx (Or.inl n)
        · have : ¬ oct p 0 + 256 * oct p 1 = 0 := fun n => hx (Or.inr n)
          omega
        · omega

theorem inner_eq (p : Bytes) : inner p = if hdrOk p ∧ oct p 7 + 4 ≤ sizeOf' p then
    some (oct p 5 % 16, (p.take (sizeOf' p)).drop (oct p 7)) else none := by
  unfold inner hdrOk sizeOf'
  dsimp only
  split <;> rename_i h
  · rw [if_pos ⟨⟨h.1, h.2.1, h.2.2.1⟩, h.2.2.2⟩]
  · rw [if_neg (fun k => h ⟨k.1.1, k.1.2.1, k.1.2.2, k.2⟩)]

/-- The sub-frame's octets are octets of the packet. -/
theorem oct_inner {p : Bytes} {size hl i : Nat} (hs : size ≤ p.length) (h : hl + i < size) :
    oct ((p.take size).drop hl) i = oct p (hl + i) := by
  unfold oct
  rw [List.getD_eq_getElem?_getD, List.getD_eq_getElem?_getD, List.getElem?_drop, List.getElem?_take_of_lt h]

theorem drop_inner {p : Bytes} {size hl k : Nat} : ((p.take size).drop hl).drop k = (p.take size).drop (hl + k) :=
  List.drop_drop

theorem slice_app {p rest : Bytes} {size off : Nat} (hs : size ≤ p.length) (ho : off ≤ size) :
    slice (p ++ rest) off (size - off) = some ((p.take size).drop off) := by
  unfold slice
  rw [if_pos (by rw [List.length_append]; omega), List.drop_append_of_le_length (by omega),
    List.take_append_of_le_length (by rw [List.length_drop]; omega), List.drop_take]

theorem slice_app' {p rest : Bytes} {size off i n : Nat} (hs : size ≤ p.length) (ho : off + i + n ≤ size) :
    slice (p ++ rest) (off + i) n = some ((((p.take size).drop off).drop i).take n) := by
  unfold slice
  rw [if_pos (by rw [List.length_append]; omega), List.drop_append_of_le_length (by omega),
    List.take_append_of_le_length (by rw [List.length_drop]; omega), List.drop_drop, List.drop_take, List.take_take,
    Nat.min_eq_left (by omega)]

theorem bdc_spec {p rest : Bytes} {size hl : Nat} (hs : size ≤ p.length) (hh : hl + 4 ≤ size) :
    let b := (p.take size).drop hl
    bdcPayload (p ++ rest) hl size = some (if 14 ≤ (unbdc b).length then
      some (hl + (4 + 4 * oct b 3), (unbdc b).length, typeOf (unbdc b)) else none) := by
  intro b
  have hb3 : oct b 3 = oct p (hl + 3) := oct_inner hs (by omega)
  have hlb : b.length = size - hl := by
    show ((p.take size).drop hl).length = _
    rw [List.length_drop, List.length_take]; omega
  have hlu : (unbdc b).length = size - hl - (4 + 4 * oct b 3) := by
    unfold unbdc; rw [List.length_drop, hlb]
  unfold bdcPayload
  rw [ld_app (by omega)]
  simp only [Option.bind_eq_bind, Option.bind_some, Option.pure_def]
  rw [← hb3]
  by_cases h : size < hl + (4 + 4 * oct b 3) + 14
  · rw [if_pos h, if_neg (by omega)]
  · have e : unbdc b = (p.take size).drop (hl + (4 + 4 * oct b 3)) := List.drop_drop
    rw [if_neg h, if_pos (by omega), ld_app (by omega), ld_app (by omega)]
    simp only [Option.bind_some]
    have e1 : sub32 size (hl + (4 + 4 * oct b 3)) = (unbdc b).length := by
      unfold sub32; rw [if_pos (by omega), hlu]; omega
    have e2 : typeOf (unbdc b) = 256 * oct p (hl + (4 + 4 * oct b 3) + 12) + oct p (hl + (4 + 4 * oct b 3) + 13) := by
      unfold typeOf
      rw [e, oct_inner (i := 12) hs (by omega), oct_inner (i := 13) hs (by omega)]
    rw [e1, e2, Nat.mul_comm 256]

theorem ld32_app {p rest : Bytes} {size off i : Nat} (hs : size ≤ p.length) (h : off + i + 3 < size) :
    ld32 (p ++ rest) (off + i) = some (be32 ((p.take size).drop off) i) := by
  unfold ld32 be32
  rw [ld_app (by omega), ld_app (by omega), ld_app (by omega), ld_app (by omega)]
  simp only [Option.bind_eq_bind, Option.bind_some, Option.pure_def]
  rw [oct_inner hs (by omega), oct_inner hs (by omega), oct_inner hs (by omega), oct_inner hs (by omega)]
  rfl

theorem event_spec {p rest : Bytes} {size hl : Nat} (l : Lk) (hs : size ≤ p.length) (hh : hl + 4 ≤ size) :
    let b := (p.take size).drop hl
    event (p ++ rest) hl (sub32 size hl) l =
      some (if 54 ≤ (unbdc b).length then linkAfter l (unbdc b) else l) := by
  intro b
  have hb3 : oct b 3 = oct p (hl + 3) := oct_inner hs (by omega)
  have hlb : b.length = size - hl := by
    show ((p.take size).drop hl).length = _
    rw [List.length_drop, List.length_take]; omega
  have hlu : (unbdc b).length = size - hl - (4 + 4 * oct b 3) := by
    unfold unbdc; rw [List.length_drop, hlb]
  have e1 : sub32 size hl = size - hl := by unfold sub32; rw [if_pos (by omega)]
  unfold event
  rw [e1, if_neg (by omega), ld_app (by omega)]
  simp only [Option.bind_eq_bind, Option.bind_some, Option.pure_def]
  rw [← hb3]
  by_cases h : size - hl < 4 + 4 * oct b 3 + 54
  · rw [if_pos h, if_neg (by omega)]
  · have e : unbdc b = (p.take size).drop (hl + (4 + 4 * oct b 3)) := List.drop_drop
    rw [if_neg h, if_pos (by omega), ld_app (by omega), ld_app (by omega)]
    simp only [Option.bind_some]
    rw [ld32_app hs (by omega), ld32_app hs (by omega), ← e]
    simp only [Option.bind_some]
    have e27 : oct p (hl + (4 + 4 * oct b 3) + 27) = oct (unbdc b) 27 := by
      rw [e, oct_inner (i := 27) hs (by omega)]
    rw [e27]
    have es : slice (p ++ rest) (hl + (4 + 4 * oct b 3) + 48) 6 = some (((unbdc b).drop 48).take 6) := by
      rw [slice_app' hs (by omega), ← e]
    unfold eventApply linkAfter
    rw [es]
    simp only [Option.bind_eq_bind, Option.bind_some, Option.pure_def]
    have hm : (oct p (hl + (4 + 4 * oct b 3) + 26) * 256 + oct (unbdc b) 27) % 2 = oct (unbdc b) 27 % 2 := by omega
    rw [hm]
    generalize be32 (unbdc b) 28 = ty
    generalize be32 (unbdc b) 32 = st
    generalize oct (unbdc b) 27 % 2 = fl
    by_cases h16 : ty = 16
    · subst h16
      by_cases hf : fl = 1 <;> simp [hf]
    by_cases h7 : ty = 7
    · subst h7
      by_cases hf : st = 0 <;> simp [hf]
    by_cases h46 : ty = 46
    · subst h46
      by_cases hf : st = 6 <;> simp [hf]
    simp [h16, h7, h46]
    split <;> rfl

/-- The link after a packet. -/
def linkNext (l : Lk) (p : Bytes) : Lk :=
  match eventIn p with
  | some e => linkAfter l e
  | none => l

/-- What one packet does, in terms of what it carries. -/
def specPacket (cfg : Cfg) (c : Cy) (p : Bytes) : Cy × Nx :=
  if ¬ hdrOk p then (c, .more)
  else
    let c1 := { c with txMax := (credit (oct p 8) (oct p 9) c.txMax).1, flow := oct p 8, lk := linkNext c.lk p }
    match frameIn p with
    | none => (c1, .more)
    | some f =>
      let c2 := { c1 with rx := c1.rx + 1 }
      if typeOf f < 0x600 then (c2, .more)
      else if typeOf f = 0x888E then
        match cfg.eap with
        | .off => (c2, .stop)
        | .stage => (eapolCb cfg c2 (f.drop 14), .stop)
        | .host => ({ c2 with sup := c2.sup ++ [f.drop 14] }, .stop)
      else if cfg.data then (dataCb c2 f, .stop)
      else (c2, .stop)

theorem packet_spec (cfg : Cfg) (c : Cy) {p rest : Bytes} (hi : c.iobuf = p ++ rest) (hl : 12 ≤ p.length)
    (hb : ∀ x ∈ p, x < 256) : packet cfg c p.length = some (specPacket cfg c p) := by
  unfold packet specPacket
  rw [hi, validate_spec hl hb]
  by_cases ho : hdrOk p
  case neg =>
    rw [if_neg ho, if_pos ho]; rfl
  rw [if_pos ho, if_neg (fun n => n ho)]
  have hs : sizeOf' p ≤ p.length := ho.2.2
  have l7 := ld_app (rest := rest) (by omega : 7 < p.length)
  have l8 := ld_app (rest := rest) (by omega : 8 < p.length)
  have l9 := ld_app (rest := rest) (by omega : 9 < p.length)
  simp only [Option.bind_eq_bind, Option.bind_some, Option.pure_def, l7, l8, l9]
  by_cases hh : oct p 7 + 4 ≤ sizeOf' p
  case neg =>
    have hk : hlenOk (oct p 7) (sizeOf' p) = false := by unfold hlenOk; exact decide_eq_false hh
    have hin : inner p = none := by rw [inner_eq, if_neg (fun k => hh k.2)]
    rw [hk]
    simp only [frameIn, linkNext, eventIn, hin]
    rfl
  have hk : hlenOk (oct p 7) (sizeOf' p) = true := by unfold hlenOk; exact decide_eq_true hh
  have hin : inner p = some (oct p 5 % 16, (p.take (sizeOf' p)).drop (oct p 7)) := by rw [inner_eq, if_pos ⟨ho, hh⟩]
  have hev := event_spec (rest := rest) c.lk hs hh
  have hbd := bdc_spec (rest := rest) hs hh
  dsimp only at hev hbd
  rw [hk, hev]
  simp only [Bool.not_true, Bool.false_eq_true, if_false, Option.bind_some]
  by_cases h1 : oct p 5 % 16 = 1
  · have hfr : frameIn p = none := by unfold frameIn; rw [hin]; dsimp only; rw [if_neg (fun k => by omega)]
    have hln : linkNext c.lk p = if 54 ≤ (unbdc ((p.take (sizeOf' p)).drop (oct p 7))).length then
        linkAfter c.lk (unbdc ((p.take (sizeOf' p)).drop (oct p 7))) else c.lk := by
      unfold linkNext eventIn
      rw [hin]
      dsimp only
      by_cases hx : 54 ≤ (unbdc ((p.take (sizeOf' p)).drop (oct p 7))).length
      · rw [if_pos ⟨h1, hx⟩, if_pos hx]
      · rw [if_neg (fun k => hx k.2), if_neg hx]
    rw [if_pos h1, hfr, hln]
    rfl
  · have hln : linkNext c.lk p = c.lk := by
      unfold linkNext eventIn
      rw [hin]
      dsimp only
      rw [if_neg (fun k => h1 k.1)]
    rw [if_neg h1, hln]
    by_cases h2 : oct p 5 % 16 = 2
    case neg =>
      have hfr : frameIn p = none := by unfold frameIn; rw [hin]; dsimp only; rw [if_neg (fun k => h2 k.1)]
      rw [if_neg h2, hfr]
      rfl
    rw [if_pos h2]
    unfold dataFrame
    dsimp only
    rw [hbd]
    by_cases hx : 14 ≤ (unbdc ((p.take (sizeOf' p)).drop (oct p 7))).length
    case neg =>
      have hfr : frameIn p = none := by unfold frameIn; rw [hin]; dsimp only; rw [if_neg (fun k => hx k.2)]
      rw [if_neg hx, hfr]
      rfl
    have hfr : frameIn p = some (unbdc ((p.take (sizeOf' p)).drop (oct p 7))) := by
      unfold frameIn; rw [hin]; dsimp only; rw [if_pos ⟨h2, hx⟩]
    have hb3 : ((p.take (sizeOf' p)).drop (oct p 7)).drop (4 + 4 * oct ((p.take (sizeOf' p)).drop (oct p 7)) 3) =
        unbdc ((p.take (sizeOf' p)).drop (oct p 7)) := rfl
    rw [if_pos hx, hfr]
    have hlu : (unbdc ((p.take (sizeOf' p)).drop (oct p 7))).length =
        sizeOf' p - (oct p 7 + (4 + 4 * oct ((p.take (sizeOf' p)).drop (oct p 7)) 3)) := by
      unfold unbdc; rw [List.length_drop, List.length_drop, List.length_take]; omega
    have eu : unbdc ((p.take (sizeOf' p)).drop (oct p 7)) =
        (p.take (sizeOf' p)).drop (oct p 7 + (4 + 4 * oct ((p.take (sizeOf' p)).drop (oct p 7)) 3)) := List.drop_drop
    generalize hu : unbdc ((p.take (sizeOf' p)).drop (oct p 7)) = u at *
    generalize ho' : oct p 7 + (4 + 4 * oct ((p.take (sizeOf' p)).drop (oct p 7)) 3) = off at *
    have s1 : slice (p ++ rest) off u.length = some u := by
      rw [hlu, slice_app hs (by omega), ← eu]
    have s2 : slice (p ++ rest) (off + 14) (sub32 u.length 14) = some (u.drop 14) := by
      have : sub32 u.length 14 = sizeOf' p - (off + 14) := by unfold sub32; rw [if_pos hx]; omega
      rw [this, slice_app hs (by omega), eu, List.drop_drop]
    simp only [Option.bind_eq_bind, Option.bind_some, s1, s2]
    by_cases ha : typeOf u < 0x600
    · rw [if_pos ha, if_pos ha]; rfl
    · rw [if_neg ha, if_neg ha]
      by_cases he : typeOf u = 0x888E
      · rw [if_pos he, if_pos he]
        cases cfg.eap <;> rfl
      · rw [if_neg he, if_neg he]
        cases cfg.data <;> rfl

/-! ## Specification: what the stack gets -/

/-- The octets of the packet the radio announces, if it announces one that can hold a header. -/
def packetOf (r : Rd) : Option Bytes :=
  if idle r ∨ rlenOf r < 12 then none else some ((List.range (rlenOf r)).map fun i => r.clk i % 256)

/-- The frame the stack gets for a packet when the link is `l` and its buffer holds `room` octets: the Ethernet frame
carried; for EAPOL, its payload under a header from the access point; nothing if no frame is carried, if it is not
Ethernet II, if nobody registered for it, if it is too long, or (EAPOL) before the first association. -/
def toStack (cfg : Cfg) (room : Nat) (l : Lk) (p : Bytes) : List Bytes :=
  match frameIn p with
  | none => []
  | some f =>
    if typeOf f < 0x600 ∨ scratchSz < f.length ∨ room < f.length then []
    else if typeOf f = 0x888E then
      if cfg.eap = .stage ∧ l.seen then [cfg.mac ++ l.bssid ++ [0x88, 0x8E] ++ f.drop 14] else []
    else if cfg.data then [f] else []

/-- The EAPOL payload the supplicant gets for a packet. -/
def toSup (cfg : Cfg) (p : Bytes) : List Bytes :=
  match frameIn p with
  | none => []
  | some f => if typeOf f = 0x888E ∧ cfg.eap = .host then [f.drop 14] else []

/-- The frames the stack gets for a sequence of packets. -/
def expected (cfg : Cfg) (room : Nat) : Lk → List Bytes → List Bytes
  | _, [] => []
  | l, p :: ps => toStack cfg room l p ++ expected cfg room (linkNext l p) ps

/-- The link after a sequence of packets. -/
def linkRun : Lk → List Bytes → Lk
  | l, [] => l
  | l, p :: ps => linkRun (linkNext l p) ps

/-! ## Proofs -/

structure Good (cfg : Cfg) (c : Cy) : Prop where
  buf : c.iobuf.length = iobufSz
  bss : c.lk.bssid.length = 6
  mac : cfg.mac.length = 6

theorem read_split (c : Cy) (r : Rd) (hb : c.iobuf.length = iobufSz) (hp : pad4 (rlenOf r) ≤ iobufSz) :
    ∃ rest, f2Read c.iobuf r.clk (rlenOf r) = some ((List.range (rlenOf r)).map (fun i => r.clk i % 256) ++ rest) ∧
      ((List.range (rlenOf r)).map (fun i => r.clk i % 256) ++ rest).length = iobufSz := by
  have hn : rlenOf r ≤ pad4 (rlenOf r) := by unfold pad4; omega
  unfold f2Read
  rw [if_pos (by omega)]
  refine ⟨((List.range (pad4 (rlenOf r) - rlenOf r)).map (fun i => r.clk (rlenOf r + i) % 256)) ++
    c.iobuf.drop (pad4 (rlenOf r)), ?_, ?_⟩
  · have : List.range (pad4 (rlenOf r)) = List.range (rlenOf r) ++
        (List.range (pad4 (rlenOf r) - rlenOf r)).map (rlenOf r + ·) := by
      rw [← List.range_add]; congr 1; omega
    rw [this, List.map_append, List.map_map, List.append_assoc]
    rfl
  · simp only [List.length_append, List.length_map, List.length_range, List.length_drop]
    omega

theorem linkAfter_bss (l : Lk) (e : Bytes) (h : l.bssid.length = 6) (he : 54 ≤ e.length) :
    (linkAfter l e).bssid.length = 6 := by
  have hj : ((e.drop 48).take 6).length = 6 := by rw [List.length_take, List.length_drop]; omega
  unfold linkAfter
  dsimp only
  repeat' split
  all_goals first | exact hj | exact h

theorem linkNext_bss (l : Lk) (p : Bytes) (h : l.bssid.length = 6) : (linkNext l p).bssid.length = 6 := by
  unfold linkNext
  split
  · rename_i e he
    refine linkAfter_bss l e h ?_
    unfold eventIn at he
    split at he
    · split at he
      · rename_i hc; cases he; exact hc.2
      · cases he
    · cases he
  · exact h

/-- A data packet is not an event. -/
theorem frame_no_event {p f : Bytes} (h : frameIn p = some f) : eventIn p = none := by
  unfold frameIn at h
  unfold eventIn
  split at h
  · rename_i ch b hi
    split at h
    · rename_i hc
      simp [hi, hc.1]
    · cases h
  · cases h

theorem frame_hdr {p f : Bytes} (h : frameIn p = some f) : hdrOk p ∧ 14 ≤ f.length := by
  unfold frameIn at h
  rw [inner_eq] at h
  by_cases hi : hdrOk p ∧ oct p 7 + 4 ≤ sizeOf' p
  · rw [if_pos hi] at h
    dsimp only at h
    split at h
    · rename_i hc; cases h; exact ⟨hi.1, hc.2⟩
    · cases h
  · rw [if_neg hi] at h
    cases h

theorem event_hdr {p e : Bytes} (h : eventIn p = some e) : hdrOk p := by
  unfold eventIn at h
  rw [inner_eq] at h
  by_cases hi : hdrOk p ∧ oct p 7 + 4 ≤ sizeOf' p
  · exact hi.1
  · rw [if_neg hi] at h
    cases h

/-- What one packet does to what the stack and the supplicant can see. -/
theorem spec_effect (cfg : Cfg) (c : Cy) (p : Bytes) (room : Nat) (hg : Good cfg c) (hs : c.stage = []) :
    let x := specPacket cfg c p
    x.1.iobuf = c.iobuf ∧ x.1.lk = linkNext c.lk p ∧ x.1.sup = c.sup ++ toSup cfg p ∧
      (x.2 = .more → x.1.stage = [] ∧ toStack cfg room c.lk p = []) ∧
      (toStack cfg room c.lk p =
        if x.1.stage = [] ∨ room < x.1.stage.length then [] else [x.1.stage]) := by
  intro x
  have hx : x = specPacket cfg c p := rfl
  unfold specPacket at hx
  by_cases ho : hdrOk p
  case neg =>
    rw [if_pos ho] at hx
    have hf : frameIn p = none := by
      cases h : frameIn p with
      | none => rfl
      | some f => exact absurd (frame_hdr h).1 ho
    have he : eventIn p = none := by
      cases h : eventIn p with
      | none => rfl
      | some f => exact absurd (event_hdr h) ho
    rw [hx]
    simp [toStack, toSup, linkNext, hf, he, hs]
  rw [if_neg (fun n => n ho)] at hx
  cases hf : frameIn p with
  | none =>
    rw [hf] at hx
    rw [hx]
    simp [toStack, toSup, hf, hs]
  | some f =>
    rw [hf] at hx
    dsimp only at hx
    have hl := (frame_hdr hf).2
    have hn : linkNext c.lk p = c.lk := by unfold linkNext; rw [frame_no_event hf]
    rw [hn] at hx
    by_cases ht : typeOf f < 0x600
    · rw [if_pos ht] at hx
      rw [hx]
      have h9 : ¬ typeOf f = 34958 := by omega
      simp [toStack, toSup, hf, hs, ht, hn, h9]
    rw [if_neg ht] at hx
    by_cases he : typeOf f = 0x888E
    · rw [if_pos he] at hx
      cases hm : cfg.eap with
      | off =>
        rw [hm] at hx
        rw [hx]
        simp [toStack, toSup, hf, hs, hm, hn, he]
      | host =>
        rw [hm] at hx
        rw [hx]
        simp [toStack, toSup, hf, hs, hm, hn, he]
      | stage =>
        rw [hm] at hx
        rw [hx]
        have hd : (f.drop 14).length + 14 = f.length := by rw [List.length_drop]; omega
        have hlen : (cfg.mac ++ c.lk.bssid ++ [0x88, 0x8E] ++ f.drop 14).length = f.length := by
          simp only [List.length_append, List.length_cons, List.length_nil, hg.mac, hg.bss, List.length_drop]; omega
        have hne : cfg.mac ++ c.lk.bssid ++ [0x88, 0x8E] ++ f.drop 14 ≠ [] := by
          intro e; rw [e] at hlen; simp only [List.length_nil] at hlen; omega
        unfold eapolCb
        rw [hd]
        by_cases hb : scratchSz < f.length
        · rw [if_pos hb]
          simp [toStack, toSup, hf, hs, hm, hn, he, hb]
        rw [if_neg hb]
        cases hk : c.lk.seen with
        | false => simp [toStack, toSup, hf, hs, hm, hn, he, hk]
        | true =>
          simp only [toStack, toSup, hf, hm, hn, hk]
          refine ⟨rfl, rfl, by simp, nofun, ?_⟩
          show _ = if (cfg.mac ++ c.lk.bssid ++ [0x88, 0x8E] ++ f.drop 14) = [] ∨
            room < (cfg.mac ++ c.lk.bssid ++ [0x88, 0x8E] ++ f.drop 14).length then [] else
            [cfg.mac ++ c.lk.bssid ++ [0x88, 0x8E] ++ f.drop 14]
          rw [hlen]
          by_cases hr : room < f.length
          · rw [if_pos (Or.inr (Or.inr hr)), if_pos (Or.inr hr)]
          · have n1 : ¬ (typeOf f < 1536 ∨ 1536 < f.length ∨ room < f.length) := by omega
            have n2 : ¬ (cfg.mac ++ c.lk.bssid ++ [0x88, 0x8E] ++ f.drop 14 = [] ∨ room < f.length) := by
              rintro (k | k)
              · exact hne k
              · exact hr k
            rw [if_neg n1, if_neg n2, if_pos he]
            simp
    · rw [if_neg he] at hx
      cases hd : cfg.data with
      | false =>
        rw [hd] at hx
        rw [hx]
        simp [toStack, toSup, hf, hs, hd, hn, he]
      | true =>
        rw [hd] at hx
        rw [hx]
        have hne : f ≠ [] := by intro e; rw [e] at hl; simp at hl
        unfold dataCb
        by_cases hb : scratchSz < f.length
        · simp [toStack, toSup, hf, hs, hd, hn, he, hb]
        · simp only [toStack, toSup, hf, hn, if_neg hb, if_pos, hd]
          refine ⟨trivial, trivial, by simp [he], nofun, ?_⟩
          by_cases hr : room < f.length
          · rw [if_pos (Or.inr (Or.inr hr)), if_pos (Or.inr hr)]
          · have n1 : ¬ (typeOf f < 1536 ∨ 1536 < f.length ∨ room < f.length) := by omega
            have n2 : ¬ (f = [] ∨ room < f.length) := by
              rintro (k | k)
              · exact hne k
              · exact hr k
            rw [if_neg n1, if_neg n2, if_neg he]

theorem linkRun_app (l : Lk) (a b : List Bytes) : linkRun l (a ++ b) = linkRun (linkRun l a) b := by
  induction a generalizing l with
  | nil => rfl
  | cons p a ih => exact ih _

theorem expected_app (cfg : Cfg) (room : Nat) (l : Lk) (a b : List Bytes) :
    expected cfg room l (a ++ b) = expected cfg room l a ++ expected cfg room (linkRun l a) b := by
  induction a generalizing l with
  | nil => rfl
  | cons p a ih =>
    show _ ++ expected cfg room _ (a ++ b) = _
    rw [ih, ← List.append_assoc]
    rfl

theorem poll_exact (cfg : Cfg) (rs : List Rd) (c : Cy) (hg : Good cfg c) (hs : c.stage = []) :
    ∃ c' rest used, poll cfg rs c = some (c', rest) ∧ rs = used ++ rest ∧ (rs ≠ [] → used ≠ []) ∧ Good cfg c' ∧
      c'.lk = linkRun c.lk (used.filterMap packetOf) ∧
      c'.sup = c.sup ++ (used.filterMap packetOf).flatMap (toSup cfg) ∧
      ∀ room, expected cfg room c.lk (used.filterMap packetOf) =
        if c'.stage = [] ∨ room < c'.stage.length then [] else [c'.stage] := by
  induction rs generalizing c with
  | nil => exact ⟨c, [], [], rfl, rfl, fun h => h, hg, rfl, by simp, fun room => by rw [if_pos (Or.inl hs)]; rfl⟩
  | cons r rs ih =>
    have skip : packetOf r = none → poll cfg (r :: rs) c = some (c, rs) → ∃ c' rest used,
        poll cfg (r :: rs) c = some (c', rest) ∧ r :: rs = used ++ rest ∧ (r :: rs ≠ [] → used ≠ []) ∧ Good cfg c' ∧
        c'.lk = linkRun c.lk (used.filterMap packetOf) ∧
        c'.sup = c.sup ++ (used.filterMap packetOf).flatMap (toSup cfg) ∧
        ∀ room, expected cfg room c.lk (used.filterMap packetOf) =
          if c'.stage = [] ∨ room < c'.stage.length then [] else [c'.stage] := by
      intro hn hp
      have hu : [r].filterMap packetOf = [] := by simp [hn]
      refine ⟨c, rs, [r], hp, rfl, fun _ => nofun, hg, ?_, ?_, ?_⟩
      · rw [hu]; rfl
      · rw [hu]; simp
      · intro room
        rw [hu, if_pos (Or.inl hs)]
        rfl
    by_cases hi : idle r = true
    · exact skip (by unfold packetOf; rw [if_pos (Or.inl hi)]) (by unfold poll; rw [if_pos hi])
    by_cases hk : rlenOk (rlenOf r) iobufSz = true
    case neg =>
      have hlt : rlenOf r < 12 := by
        have h2 : rlenOf r < 2048 := Nat.mod_lt _ (by omega)
        unfold rlenOk pad4 at hk
        simp only [Bool.and_eq_true, decide_eq_true_eq] at hk
        omega
      refine skip (by unfold packetOf; rw [if_pos (Or.inr hlt)]) ?_
      unfold poll
      rw [if_neg hi, if_pos (by simp [hk])]
    have hk' := hk
    unfold rlenOk at hk'
    simp only [Bool.and_eq_true, decide_eq_true_eq] at hk'
    obtain ⟨rest, hr, hlen⟩ := read_split c r hg.buf hk'.2
    have hpo : packetOf r = some ((List.range (rlenOf r)).map fun i => r.clk i % 256) := by
      unfold packetOf
      rw [if_neg (by rintro (k | k); exact hi k; omega)]
    generalize hp : ((List.range (rlenOf r)).map fun i => r.clk i % 256) = p at hr hlen hpo
    have hpl : p.length = rlenOf r := by rw [← hp, List.length_map, List.length_range]
    have hpb : ∀ x ∈ p, x < 256 := by
      intro x hx
      rw [← hp] at hx
      obtain ⟨i, _, e⟩ := List.mem_map.1 hx
      omega
    have hg1 : Good cfg { c with iobuf := p ++ rest } := ⟨hlen, hg.bss, hg.mac⟩
    have hpk := packet_spec cfg { c with iobuf := p ++ rest } rfl (by omega) hpb
    rw [hpl] at hpk
    have hstep : poll cfg (r :: rs) c = match (specPacket cfg { c with iobuf := p ++ rest } p).2 with
        | .more => poll cfg rs (specPacket cfg { c with iobuf := p ++ rest } p).1
        | .stop => some ((specPacket cfg { c with iobuf := p ++ rest } p).1, rs) := by
      rw [poll, if_neg hi, if_neg (by simp [hk]), hr]
      simp only [Option.bind_eq_bind, Option.bind_some, hpk]
      cases (specPacket cfg { c with iobuf := p ++ rest } p).2 <;> rfl
    have heff := fun room => spec_effect cfg { c with iobuf := p ++ rest } p room hg1 hs
    dsimp only at heff
    generalize specPacket cfg { c with iobuf := p ++ rest } p = x at hstep heff
    have hg2 : Good cfg x.1 := by
      refine ⟨?_, ?_, hg.mac⟩
      · rw [(heff 0).1]; exact hlen
      · rw [(heff 0).2.1]; exact linkNext_bss _ _ hg.bss
    have hl2 := (heff 0).2.1
    have hsu := (heff 0).2.2.1
    rw [hstep]
    cases hx : x.2 with
    | more =>
      obtain ⟨c', rest', used, e1, e2, e3, e4, e5, e6, e7⟩ := ih x.1 hg2 ((heff 0).2.2.2.1 hx).1
      refine ⟨c', rest', r :: used, e1, by rw [e2]; rfl, fun _ => nofun, e4, ?_, ?_, ?_⟩
      · rw [List.filterMap_cons, hpo, e5, hl2]
        rfl
      · rw [List.filterMap_cons, hpo, e6, hsu, List.flatMap_cons, List.append_assoc]
      · intro room
        rw [List.filterMap_cons, hpo, ← e7 room, hl2]
        show toStack cfg room c.lk p ++ _ = _
        rw [((heff room).2.2.2.1 hx).2]
        rfl
    | stop =>
      refine ⟨x.1, rs, [r], rfl, rfl, fun _ => nofun, hg2, ?_, ?_, ?_⟩
      · rw [List.filterMap_cons, hpo, hl2]; rfl
      · rw [List.filterMap_cons, hpo, hsu]; simp
      · intro room
        rw [List.filterMap_cons, hpo, ← (heff room).2.2.2.2]
        show toStack cfg room c.lk p ++ [] = _
        rw [List.append_nil]

/-- **C120.** Whatever the radio's status words and data are, polling the interface never reads or writes outside a
buffer, and the stack gets exactly the frames carried by the packets read, once each and in order (`expected`), each made
only of octets of the packet that carries it; the link state reported and what the supplicant gets are those the packets
say. After as many polls as there are status words, all have been read. -/
theorem cyw_rx_exact (cfg : Cfg) (room n : Nat) (rs : List Rd) (c : Cy) (hg : Good cfg c) (hs : c.stage = []) :
    ∃ c' rest used out, polls cfg room n rs c = some (c', rest, out) ∧ rs = used ++ rest ∧
      out = expected cfg room c.lk (used.filterMap packetOf) ∧
      c'.lk = linkRun c.lk (used.filterMap packetOf) ∧
      c'.sup = c.sup ++ (used.filterMap packetOf).flatMap (toSup cfg) ∧
      (rs.length ≤ n → rest = []) ∧ Good cfg c' ∧ c'.stage = [] := by
  induction n generalizing rs c with
  | zero =>
    exact ⟨c, rs, [], [], rfl, rfl, rfl, rfl, by simp, fun h => List.length_eq_zero_iff.1 (by omega), hg, hs⟩
  | succ n ih =>
    obtain ⟨c1, r1, u1, e1, e2, e3, e4, e5, e6, e7⟩ := poll_exact cfg rs c hg hs
    have hll : ∃ f, llPoll cfg room rs c = some ({ c1 with stage := [] }, r1, f) ∧
        (if f = [] then [] else [f]) = expected cfg room c.lk (u1.filterMap packetOf) := by
      rw [e7 room]
      unfold llPoll
      rw [e1]
      simp only [Option.bind_eq_bind, Option.bind_some, Option.pure_def]
      by_cases h0 : c1.stage.length = 0
      · have : c1.stage = [] := List.length_eq_zero_iff.1 h0
        rw [if_pos h0, if_pos (Or.inl this)]
        refine ⟨[], ?_, rfl⟩
        have : c1 = { c1 with stage := [] } := by cases c1; simp_all
        rw [← this]
      · have hne : c1.stage ≠ [] := fun e => h0 (by rw [e]; rfl)
        rw [if_neg h0]
        by_cases hr : room < c1.stage.length
        · rw [if_pos hr, if_pos (Or.inr hr)]
          exact ⟨[], rfl, rfl⟩
        · rw [if_neg hr, if_neg (by rintro (k | k); exact hne k; exact hr k)]
          refine ⟨c1.stage, ?_, if_neg hne⟩
          unfold slice
          rw [if_pos (by omega)]
          simp
    obtain ⟨f, h1, h2⟩ := hll
    obtain ⟨c', rest, u, out, k1, k2, k3, k4, k5, k6, k7, k8⟩ :=
      ih r1 { c1 with stage := [] } ⟨e4.buf, e4.bss, e4.mac⟩ rfl
    refine ⟨c', rest, u1 ++ u, (if f = [] then [] else [f]) ++ out, ?_, ?_, ?_, ?_, ?_, ?_, k7, k8⟩
    · unfold polls
      rw [h1]
      simp only [Option.bind_eq_bind, Option.bind_some, k1]
      rfl
    · rw [e2, k2, List.append_assoc]
    · rw [h2, List.filterMap_append, expected_app, k3, ← e5]
    · rw [List.filterMap_append, linkRun_app, ← e5, k4]
    · rw [List.filterMap_append, List.flatMap_append, k5, ← List.append_assoc, ← e6]
    · intro hn
      apply k6
      by_cases hr : rs = []
      · rw [hr] at e2
        have := List.append_eq_nil_iff.1 e2.symm
        rw [this.2]; simp
      · have h3 : 0 < u1.length := List.length_pos_iff.2 (e3 hr)
        have h4 : rs.length = u1.length + r1.length := by rw [e2, List.length_append]
        omega

/-- Every Ethernet frame a radio wraps is recovered: header of any length from 8 octets, its channel in the low bits of
octet 5, any words after the BDC header, any octets after the declared end. -/
theorem carried (hd bdc w f tr : Bytes) (h8 : 8 ≤ hd.length) (hf : 14 ≤ f.length) (hb : bdc.length = 4)
    (hw : w.length = 4 * oct bdc 3) (h7 : oct hd 7 = hd.length)
    (hs : oct hd 0 + 256 * oct hd 1 = (hd ++ bdc ++ w ++ f).length)
    (hc : oct hd 2 + 256 * oct hd 3 = 65535 - (hd ++ bdc ++ w ++ f).length)
    (hm : (hd ++ bdc ++ w ++ f).length ≤ 65535) (h5 : oct hd 5 % 16 = 2) :
    frameIn (hd ++ bdc ++ w ++ f ++ tr) = some f := by
  have ho : ∀ i, i < 8 → oct (hd ++ bdc ++ w ++ f ++ tr) i = oct hd i := by
    intro i hi
    refine getD_of ?_
    have : hd ++ bdc ++ w ++ f ++ tr = hd ++ (bdc ++ w ++ f ++ tr) := by simp
    rw [this, ld_app (by omega)]
  have hl : (hd ++ bdc ++ w ++ f).length = hd.length + 4 + w.length + f.length := by
    simp only [List.length_append, hb]
  have hok : hdrOk (hd ++ bdc ++ w ++ f ++ tr) := by
    unfold hdrOk
    rw [ho 0 (by omega), ho 1 (by omega), ho 2 (by omega), ho 3 (by omega), hs, hc]
    have := List.length_append (as := hd ++ bdc ++ w ++ f) (bs := tr)
    refine ⟨by omega, by omega, by omega⟩
  have hsz : sizeOf' (hd ++ bdc ++ w ++ f ++ tr) = (hd ++ bdc ++ w ++ f).length := by
    show oct _ 0 + 256 * oct _ 1 = _
    rw [ho 0 (by omega), ho 1 (by omega), hs]
  unfold frameIn
  rw [inner_eq, ho 7 (by omega), ho 5 (by omega), hsz, h7, if_pos ⟨hok, by omega⟩, h5]
  dsimp only
  have e1 : List.drop hd.length (List.take (hd ++ bdc ++ w ++ f).length (hd ++ bdc ++ w ++ f ++ tr)) = bdc ++ w ++ f := by
    rw [List.take_left]
    have : hd ++ bdc ++ w ++ f = hd ++ (bdc ++ w ++ f) := by simp
    rw [this, List.drop_left]
  have e2 : oct (bdc ++ w ++ f) 3 = oct bdc 3 := by
    refine getD_of ?_
    rw [List.append_assoc, ld_app (by omega)]
  have e3 : unbdc (bdc ++ w ++ f) = f := by
    unfold unbdc
    rw [e2]
    have : 4 + 4 * oct bdc 3 = (bdc ++ w).length := by rw [List.length_append]; omega
    rw [this, List.drop_left]
  rw [e1, e3, if_pos ⟨rfl, hf⟩]

/-- A frame handed to the stack or carried at all is a run of consecutive octets of its packet. -/
theorem frame_of_packet {p f : Bytes} (h : frameIn p = some f) : ∃ a b, p = a ++ f ++ b := by
  unfold frameIn at h
  rw [inner_eq] at h
  by_cases hi : hdrOk p ∧ oct p 7 + 4 ≤ sizeOf' p
  · rw [if_pos hi] at h
    dsimp only at h
    split at h
    · cases h
      generalize hk : 4 + 4 * oct ((p.take (sizeOf' p)).drop (oct p 7)) 3 = k
      unfold unbdc
      rw [hk, List.drop_drop]
      refine ⟨(p.take (sizeOf' p)).take (oct p 7 + k), p.drop (sizeOf' p), ?_⟩
      rw [List.take_append_drop, List.take_append_drop]
    · cases h
  · rw [if_neg hi] at h
    cases h

/-- `cyw43_wifi_attach` registers `ll->mtu = 1500` (cyw43439_wifi.c 168), which the stack reads as a frame length with the
Ethernet header (wolfip.c 1535–1555). -/
def attached : Link.Dev := { mtu := 1500 }

/-- **Finding.** With the MTU the port registers, every frame longer than 1500 octets is dropped: a peer's full-size
segments (1514 octets with the header) are never received. -/
theorem full_frames_dropped (cfg : Cfg) (l : Lk) (p f : Bytes) (hf : frameIn p = some f) (hl : 1500 < f.length) :
    toStack cfg (Link.frameMtu [attached] 0) l p = [] := by
  have e : Link.frameMtu [attached] 0 = 1500 := by decide +kernel
  rw [e]
  unfold toStack
  rw [hf]
  dsimp only
  rw [if_pos (Or.inr (Or.inr hl))]

/-- **Finding.** One call of `cyw43_poll` has no limit: frames that are not Ethernet II (the source says access points flood
them) are read in the same call for as long as they come. -/
theorem noise_unbounded (cfg : Cfg) (r : Rd) (p f : Bytes) (hp : packetOf r = some p) (hf : frameIn p = some f)
    (ht : typeOf f < 0x600) (n : Nat) (rs : List Rd) (c : Cy) (hg : Good cfg c) (hs : c.stage = []) :
    ∃ c', poll cfg (List.replicate n r ++ rs) c = poll cfg rs c' ∧ c'.rx = c.rx + n := by
  induction n generalizing c with
  | zero => exact ⟨c, rfl, rfl⟩
  | succ n ih =>
    unfold packetOf at hp
    by_cases hx : idle r ∨ rlenOf r < 12
    · rw [if_pos hx] at hp; cases hp
    rw [if_neg hx] at hp
    have hp' := Option.some.inj hp
    have hlt : rlenOf r < 2048 := Nat.mod_lt _ (by omega)
    have hpad : pad4 (rlenOf r) ≤ iobufSz := by unfold pad4; omega
    have hnl : ¬ rlenOf r < 12 := fun k => hx (Or.inr k)
    have hk : rlenOk (rlenOf r) iobufSz = true := by
      unfold rlenOk; simp only [Bool.and_eq_true, decide_eq_true_eq]; omega
    obtain ⟨rest, hr, hlen⟩ := read_split c r hg.buf hpad
    rw [hp'] at hr hlen
    have hpl : p.length = rlenOf r := by rw [← hp', List.length_map, List.length_range]
    have hpb : ∀ x ∈ p, x < 256 := by
      intro x hx
      rw [← hp'] at hx
      obtain ⟨i, _, e⟩ := List.mem_map.1 hx
      omega
    have hpk := packet_spec cfg { c with iobuf := p ++ rest } rfl (by omega) hpb
    rw [hpl] at hpk
    have hsp : ∃ d, specPacket cfg { c with iobuf := p ++ rest } p = (d, Nx.more) ∧ d.rx = c.rx + 1 ∧
        d.iobuf = p ++ rest ∧ d.lk = c.lk ∧ d.stage = [] := by
      unfold specPacket
      rw [if_neg (fun k => k (frame_hdr hf).1), hf]
      dsimp only
      rw [if_pos ht]
      refine ⟨_, rfl, rfl, rfl, ?_, hs⟩
      show linkNext c.lk p = c.lk
      unfold linkNext
      rw [frame_no_event hf]
    obtain ⟨d, k1, k2, k3, k4, k5⟩ := hsp
    obtain ⟨c', e1, e2⟩ := ih d ⟨by rw [k3]; exact hlen, by rw [k4]; exact hg.bss, hg.mac⟩ k5
    refine ⟨c', ?_, by omega⟩
    rw [← e1]
    show poll cfg (r :: (List.replicate n r ++ rs)) c = _
    rw [poll, if_neg (fun k => hx (Or.inl k)), if_neg (by simp [hk]), hr]
    simp only [Option.bind_eq_bind, Option.bind_some, hpk, k1]

/-! ## Non-vacuity -/

/-- A driver after start-up. -/
def c0 : Cy := ⟨List.replicate 2048 0, 1, 0, ⟨false, false, false, [0, 0, 0, 0, 0, 0]⟩, 0, [], []⟩

def cfg0 : Cfg := { eap := .stage, data := true, mac := [2, 0, 0, 0, 0, 1] }

example : Good cfg0 c0 := ⟨by decide +kernel, rfl, rfl⟩

/-- A radio announcing a packet. -/
def announce (p : Bytes) : Rd := { st := 256 + 512 * p.length, clk := fun i => p.getD i 7 }

/-- A data packet with a 12-octet header and an association event. -/
def dataPkt (f : Bytes) : Bytes :=
  [(16 + f.length) % 256, (16 + f.length) / 256, 255 - (16 + f.length) % 256, 255 - (16 + f.length) / 256, 0, 2, 0, 12,
   0, 5, 0, 0, 32, 0, 0, 0] ++ f

def assocPkt : Bytes :=
  [70, 0, 185, 255, 0, 1, 0, 12, 0, 6, 0, 0, 32, 0, 0, 0] ++ List.replicate 28 0 ++ [0, 0, 0, 7, 0, 0, 0, 0] ++
    List.replicate 12 0 ++ [170, 1, 2, 3, 4, 5]

def arpF : Bytes := List.replicate 6 255 ++ [9, 9, 9, 9, 9, 9, 8, 6, 1, 2, 3]
def eapF : Bytes := List.replicate 6 1 ++ [9, 9, 9, 9, 9, 9, 0x88, 0x8E, 1, 2, 3]

/-- An EAPOL frame before the association is lost, after it arrives; a packet whose lengths disagree is skipped; an ARP
frame arrives as it is; the link comes up. -/
example : (polls cfg0 1536 6 [announce (dataPkt eapF), announce assocPkt, announce (dataPkt eapF),
      announce (dataPkt arpF ++ [1, 2]), announce (1 :: dataPkt arpF), announce (dataPkt arpF)] c0).map
      (fun x => (x.2.2, x.1.lk.up, x.1.lk.bssid, x.1.txMax, x.2.1.length)) =
    some ([[2, 0, 0, 0, 0, 1, 170, 1, 2, 3, 4, 5, 0x88, 0x8E, 1, 2, 3], arpF, arpF], true, [170, 1, 2, 3, 4, 5], 6, 0) := by
  decide +kernel

example : frameIn (dataPkt arpF) = some arpF := by decide

end Wolf.Drv.Cyw
