import Verif.Drv.CywTx
/-!
# C122: a CYW43439 control request returns its own answer; keys do not stay in driver memory

Model of `cyw43_ioctl` and `cyw43_set_key` (src/port/rp2350_cyw43439/cyw43439_driver.c 905–993, 1473–1504). Status words
and octets from the radio are arbitrary. A load, copy or bus read outside a buffer gives `none`.
-/
namespace Wolf.Drv.CywIoctl
open Wolf.Drv.Cyw
open Wolf.Drv.CywTx (T ctlTx le4 padded hdr)

/-! ## Specification -/

/-- A 32-bit little-endian field. -/
def le32 (b : Bytes) (i : Nat) : Nat :=
  oct b i + 256 * oct b (i + 1) + 65536 * oct b (i + 2) + 16777216 * oct b (i + 3)

/-- The answer a packet carries: request number, status, data. Control channel, 16 octets of header. -/
def answerIn (p : Bytes) : Option (Nat × Nat × Bytes) :=
  match inner p with
  | some (ch, b) => if ch = 0 ∧ 16 ≤ b.length then some (le32 b 8 / 65536, le32 b 12, b.drop 16) else none
  | none => none

/-- The answer to request `id`. -/
def answerTo (id : Nat) (p : Bytes) : Option (Nat × Bytes) :=
  match answerIn p with
  | some (i, st, d) => if i = id then some (st, d) else none
  | none => none

/-- The caller's buffer after the data `d` came back: as much as both hold. -/
def back (data d : Bytes) : Bytes := d.take data.length ++ data.drop (d.take data.length).length

/-! ## The model -/

/-- Driver state: that of the receive path, the transmit counters and `g_ioctl_id`. `t.max` and `t.flow` are the
`g_tx_max` and `g_flow_ctl` in use. -/
structure K where
  iobuf : Bytes
  t : T
  id : Nat
  lk : Lk

/-- What `cyw43_ioctl` returns. -/
inductive Res where
  | err
  | timeout
  | status (st : Nat)
deriving DecidableEq

/-- The C value: `(int)rstatus`, or -1. -/
def Res.int : Res → Int
  | .err => -1
  | .timeout => -1
  | .status st => if st < 2147483648 then st else (st : Int) - 4294967296

/-- A little-endian 32-bit load. 837–841. -/
def ldle (buf : Bytes) (i : Nat) : Option Nat := do
  let a ← buf[i]?
  let b ← buf[i + 1]?
  let c ← buf[i + 2]?
  let d ← buf[i + 3]?
  return a + 256 * b + 65536 * c + 16777216 * d

/-- One packet in the buffer: `some none` inside means "keep waiting". 958–990. -/
def look (k : K) (rlen id : Nat) (data : Bytes) : Option (K × Option (Nat × Bytes)) := do
  let b0 ← k.iobuf[0]?
  let b1 ← k.iobuf[1]?
  let b2 ← k.iobuf[2]?
  let b3 ← k.iobuf[3]?
  let size := b0 + 256 * b1
  if size ^^^ (b2 + 256 * b3) ≠ 65535 ∨ size = 0 then return (k, none)
  if rlen < size then return (k, none)
  let h8 ← k.iobuf[8]?
  let h9 ← k.iobuf[9]?
  let k := { k with t := CywTx.rx k.t h8 h9 }
  let c5 ← k.iobuf[5]?
  let hlen ← k.iobuf[7]?
  if c5 % 16 ≠ 0 ∨ size < hlen + 16 then return (k, none)
  let rflags ← ldle k.iobuf (hlen + 8)
  let rstatus ← ldle k.iobuf (hlen + 12)
  if rflags / 65536 % 65536 ≠ id then return (k, none)
  if data.length = 0 then return (k, some (rstatus, data))
  let poff := hlen + 16
  let avail := if poff < size then size - poff else 0
  let n := if avail < data.length then avail else data.length
  let d ← slice k.iobuf poff n
  return (k, some (rstatus, d ++ data.drop n))

/-- The loop; the first argument is the tries left, 500 at the start. 943–991. -/
def wait (id : Nat) (data : Bytes) : Nat → List Rd → K → Option (K × List Rd × Res × Bytes)
  | 0, rs, k => some (k, rs, .timeout, data)
  | _ + 1, [], k => some (k, [], .timeout, data)
  | n + 1, r :: rs, k =>
    if idle r then wait id data n rs k
    else if !rlenOk (rlenOf r) iobufSz then wait id data n rs k
    else do
      let b ← f2Read k.iobuf r.clk (rlenOf r)
      let x ← look { k with iobuf := b } (rlenOf r) id data
      match x.2 with
      | none => wait id data n rs x.1
      | some y => return (x.1, rs, .status y.1, y.2)

/-- What the buffer holds after the request was built in it. 928–936. -/
def built (buf w : Bytes) : Option Bytes := if w.length ≤ buf.length then some (w ++ buf.drop w.length) else none

/-- `cyw43_ioctl`. `++g_ioctl_id` comes before the length check. 909–993. -/
def ioctl (k : K) (cmd : Nat) (set : Bool) (data : Bytes) (rs : List Rd) : Option (K × List Rd × Res × Bytes) :=
  let id := (k.id + 1) % 65536
  let k := { k with id := id }
  match ctlTx k.t cmd (id * 65536 + if set then 2 else 0) data with
  | none => some (k, rs, .err, data)
  | some t => do
    let b ← built k.iobuf (t.wire.getLastD [])
    wait id data 500 rs { k with t := t, iobuf := b }

/-! ## Proofs -/

theorem le32_lt {b : Bytes} (hb : ∀ x ∈ b, x < 256) (i : Nat) : le32 b i < 4294967296 := by
  have := oct_lt hb i
  have := oct_lt hb (i + 1)
  have := oct_lt hb (i + 2)
  have := oct_lt hb (i + 3)
  unfold le32
  omega

theorem ldle_app {p rest : Bytes} {size off i : Nat} (hs : size ≤ p.length) (h : off + i + 3 < size) :
    ldle (p ++ rest) (off + i) = some (le32 ((p.take size).drop off) i) := by
  unfold ldle le32
  rw [ld_app (by omega), ld_app (by omega), ld_app (by omega), ld_app (by omega)]
  simp only [Option.bind_eq_bind, Option.bind_some, Option.pure_def]
  rw [oct_inner hs (by omega), oct_inner hs (by omega), oct_inner hs (by omega), oct_inner hs (by omega)]
  rfl

/-- One packet: taken exactly when it is the answer to this request; the link state is not touched. -/
theorem look_spec (k : K) (id : Nat) (data : Bytes) {p rest : Bytes} (hi : k.iobuf = p ++ rest) (hl : 12 ≤ p.length)
    (hb : ∀ x ∈ p, x < 256) : ∃ k', look k p.length id data =
      some (k', (answerTo id p).map fun a => (a.1, back data a.2)) ∧ k'.iobuf = k.iobuf ∧ k'.lk = k.lk ∧ k'.id = k.id ∧
      k'.t.wire = k.t.wire ∧ k'.t.seq = k.t.seq := by
  have h0 := oct_lt hb 0
  have h1 := oct_lt hb 1
  have h2 := oct_lt hb 2
  have h3 := oct_lt hb 3
  have hc := compl16 (oct p 0 + 256 * oct p 1) (oct p 2 + 256 * oct p 3) (by omega) (by omega)
  have l0 := ld_app (rest := rest) (by omega : 0 < p.length)
  have l1 := ld_app (rest := rest) (by omega : 1 < p.length)
  have l2 := ld_app (rest := rest) (by omega : 2 < p.length)
  have l3 := ld_app (rest := rest) (by omega : 3 < p.length)
  have l5 := ld_app (rest := rest) (by omega : 5 < p.length)
  have l7 := ld_app (rest := rest) (by omega : 7 < p.length)
  have l8 := ld_app (rest := rest) (by omega : 8 < p.length)
  have l9 := ld_app (rest := rest) (by omega : 9 < p.length)
  unfold look
  rw [hi]
  simp only [Option.bind_eq_bind, Option.bind_some, Option.pure_def, l0, l1, l2, l3, l5, l7, l8, l9]
  by_cases ho : hdrOk p
  case neg =>
    have ha : answerTo id p = none := by
      unfold answerTo answerIn
      rw [inner_eq, if_neg (fun k => ho k.1)]
    rw [ha]
    by_cases hx : oct p 0 + 256 * oct p 1 ^^^ oct p 2 + 256 * oct p 3 ≠ 65535 ∨ oct p 0 + 256 * oct p 1 = 0
    · rw [if_pos hx]
      exact ⟨k, rfl, by rw [hi], rfl, rfl, rfl, rfl⟩
    · have hy : p.length < oct p 0 + 256 * oct p 1 := by
        apply Classical.byContradiction
        intro hy
        refine ho ⟨hc.1 ?_, ?_, by omega⟩
        · apply Classical.byContradiction
          intro n; exact hx (Or.inl n)
        · have : ¬ oct p 0 + 256 * oct p 1 = 0 := fun n => hx (Or.inr n)
          omega
      rw [if_neg hx, if_pos hy]
      exact ⟨k, rfl, by rw [hi], rfl, rfl, rfl, rfl⟩
  have hs : sizeOf' p ≤ p.length := ho.2.2
  have hpos := ho.2.1
  have hs2 : oct p 0 + 256 * oct p 1 ≤ p.length := ho.2.2
  rw [if_neg (by rintro (x | x); exact x (hc.2 ho.1); omega), if_neg (by omega)]
  have hbl : ((p.take (sizeOf' p)).drop (oct p 7)).length = sizeOf' p - oct p 7 := by
    rw [List.length_drop, List.length_take]; omega
  by_cases hx : oct p 5 % 16 ≠ 0 ∨ oct p 0 + 256 * oct p 1 < oct p 7 + 16
  · have ha : answerTo id p = none := by
      unfold answerTo answerIn
      rw [inner_eq]
      by_cases hh : hdrOk p ∧ oct p 7 + 4 ≤ sizeOf' p
      · rw [if_pos hh]
        dsimp only
        have : ¬ (oct p 5 % 16 = 0 ∧ 16 ≤ ((p.take (sizeOf' p)).drop (oct p 7)).length) := by
          rintro ⟨a, b⟩
          rw [hbl] at b
          rcases hx with hx | hx
          · exact hx a
          · have : sizeOf' p < oct p 7 + 16 := hx
            omega
        rw [if_neg this]
      · rw [if_neg hh]
    rw [if_pos hx, ha]
    exact ⟨_, rfl, rfl, rfl, rfl, rfl, rfl⟩
  have hc5 : oct p 5 % 16 = 0 := by
    apply Classical.byContradiction
    intro n; exact hx (Or.inl n)
  have hsz : oct p 7 + 16 ≤ sizeOf' p := Nat.le_of_not_lt (fun n => hx (Or.inr n))
  have hin : inner p = some (oct p 5 % 16, (p.take (sizeOf' p)).drop (oct p 7)) := by
    rw [inner_eq, if_pos ⟨ho, by omega⟩]
  rw [if_neg hx, ldle_app hs (by omega), ldle_app hs (by omega)]
  simp only [Option.bind_some]
  have hbb : ∀ x ∈ (p.take (sizeOf' p)).drop (oct p 7), x < 256 := fun x hx =>
    hb x (List.mem_of_mem_take (List.mem_of_mem_drop hx))
  have hmod : le32 ((p.take (sizeOf' p)).drop (oct p 7)) 8 / 65536 % 65536 =
      le32 ((p.take (sizeOf' p)).drop (oct p 7)) 8 / 65536 := by
    have := le32_lt hbb 8
    omega
  rw [hmod]
  have hA : answerTo id p = if le32 ((p.take (sizeOf' p)).drop (oct p 7)) 8 / 65536 = id then
      some (le32 ((p.take (sizeOf' p)).drop (oct p 7)) 12, ((p.take (sizeOf' p)).drop (oct p 7)).drop 16) else none := by
    unfold answerTo answerIn
    rw [hin]
    dsimp only
    rw [if_pos ⟨hc5, by rw [hbl]; omega⟩]
  by_cases hid : le32 ((p.take (sizeOf' p)).drop (oct p 7)) 8 / 65536 = id
  case neg =>
    rw [if_pos hid, hA, if_neg hid]
    exact ⟨_, rfl, rfl, rfl, rfl, rfl, rfl⟩
  rw [if_neg (fun n => n hid), hA, if_pos hid]
  by_cases hd0 : data.length = 0
  · rw [if_pos hd0]
    refine ⟨{ k with iobuf := p ++ rest, t := CywTx.rx k.t (oct p 8) (oct p 9) }, ?_, rfl, rfl, rfl, rfl, rfl⟩
    have : data = [] := List.length_eq_zero_iff.1 hd0
    simp [this, back]
  rw [if_neg hd0]
  have hav : (if oct p 7 + 16 < oct p 0 + 256 * oct p 1 then oct p 0 + 256 * oct p 1 - (oct p 7 + 16) else 0) =
      sizeOf' p - (oct p 7 + 16) := by
    show (if oct p 7 + 16 < sizeOf' p then sizeOf' p - (oct p 7 + 16) else 0) = _
    split <;> omega
  rw [hav]
  have hmin : (if sizeOf' p - (oct p 7 + 16) < data.length then sizeOf' p - (oct p 7 + 16) else data.length) =
      min data.length (sizeOf' p - (oct p 7 + 16)) := by
    split <;> omega
  rw [hmin, slice_app' hs (by omega)]
  simp only [Option.bind_some]
  refine ⟨{ k with iobuf := p ++ rest, t := CywTx.rx k.t (oct p 8) (oct p 9) }, ?_, rfl, rfl, rfl, rfl, rfl⟩
  have hdl : (((p.take (sizeOf' p)).drop (oct p 7)).drop 16).length = sizeOf' p - (oct p 7 + 16) := by
    rw [List.length_drop, hbl]; omega
  simp only [Option.map_some, back]
  generalize ((p.take (sizeOf' p)).drop (oct p 7)).drop 16 = D at hdl
  have e1 : D.take (min data.length (sizeOf' p - (oct p 7 + 16))) = D.take data.length := by
    rw [← hdl, List.take_eq_take_iff]
    omega
  rw [e1, List.length_take, hdl]

/-- The answer found among the first `n` status words, and the answer's place. -/
theorem wait_exact (id : Nat) (data : Bytes) (n : Nat) (rs : List Rd) (k : K) (hk : k.iobuf.length = iobufSz) :
    ∃ k' rest, wait id data n rs k = some (k', rest,
        match ((rs.take n).filterMap packetOf).findSome? (answerTo id) with
        | none => (.timeout, data)
        | some a => (.status a.1, back data a.2)) ∧
      k'.iobuf.length = iobufSz ∧ k'.lk = k.lk ∧ k'.id = k.id ∧ k'.t.wire = k.t.wire ∧ k'.t.seq = k.t.seq := by
  induction n generalizing rs k with
  | zero =>
    refine ⟨k, rs, ?_, hk, rfl, rfl, rfl, rfl⟩
    unfold wait
    simp
  | succ n ih =>
    cases rs with
    | nil =>
      refine ⟨k, [], ?_, hk, rfl, rfl, rfl, rfl⟩
      unfold wait
      simp
    | cons r rs =>
      have skip : packetOf r = none → wait id data (n + 1) (r :: rs) k = wait id data n rs k → ∃ k' rest,
          wait id data (n + 1) (r :: rs) k = some (k', rest,
            match (((r :: rs).take (n + 1)).filterMap packetOf).findSome? (answerTo id) with
            | none => (.timeout, data)
            | some a => (.status a.1, back data a.2)) ∧
          k'.iobuf.length = iobufSz ∧ k'.lk = k.lk ∧ k'.id = k.id ∧ k'.t.wire = k.t.wire ∧ k'.t.seq = k.t.seq := by
        intro h1 h2
        rw [h2, List.take_succ_cons, List.filterMap_cons, h1]
        exact ih rs k hk
      by_cases hi : idle r = true
      · exact skip (by unfold packetOf; rw [if_pos (Or.inl hi)]) (by rw [wait, if_pos hi])
      by_cases ho : rlenOk (rlenOf r) iobufSz = true
      case neg =>
        have hlt : rlenOf r < 12 := by
          have h2 : rlenOf r < 2048 := Nat.mod_lt _ (by omega)
          unfold rlenOk pad4 at ho
          simp only [Bool.and_eq_true, decide_eq_true_eq] at ho
          omega
        exact skip (by unfold packetOf; rw [if_pos (Or.inr hlt)]) (by rw [wait, if_neg hi, if_pos (by simp [ho])])
      have ho' := ho
      unfold rlenOk at ho'
      simp only [Bool.and_eq_true, decide_eq_true_eq] at ho'
      obtain ⟨rest, hr, hlen⟩ := read_split ⟨k.iobuf, 0, 0, k.lk, 0, [], []⟩ r hk ho'.2
      dsimp only at hr
      have hpo : packetOf r = some ((List.range (rlenOf r)).map fun i => r.clk i % 256) := by
        unfold packetOf
        rw [if_neg (by rintro (j | j); exact hi j; omega)]
      generalize hp : ((List.range (rlenOf r)).map fun i => r.clk i % 256) = p at hr hlen hpo
      have hpl : p.length = rlenOf r := by rw [← hp, List.length_map, List.length_range]
      have hpb : ∀ x ∈ p, x < 256 := by
        intro x hx
        rw [← hp] at hx
        obtain ⟨i, _, e⟩ := List.mem_map.1 hx
        omega
      obtain ⟨k1, q1, q2, q3, q4, q5, q6⟩ := look_spec { k with iobuf := p ++ rest } id data rfl (by omega) hpb
      rw [hpl] at q1
      rw [wait, if_neg hi, if_neg (by simp [ho]), hr]
      simp only [Option.bind_eq_bind, Option.bind_some, q1]
      rw [List.take_succ_cons, List.filterMap_cons, hpo]
      simp only [List.findSome?_cons]
      cases ha : answerTo id p with
      | some a =>
        refine ⟨k1, rs, rfl, ?_, q3, q4, q5, q6⟩
        rw [q2]; exact hlen
      | none =>
        obtain ⟨k', rest', w1, w2, w3, w4, w5, w6⟩ := ih rs k1 (by rw [q2]; exact hlen)
        exact ⟨k', rest', w1, w2, w3.trans q3, w4.trans q4, w5.trans q5, w6.trans q6⟩

/-- **C122.** Whatever the radio returns, a control request never reads or writes outside a buffer; among the first 500
status words it takes the first packet that answers this very request number, returns its status, and copies its data into
the caller's buffer as far as both reach, leaving the rest; with no such packet it fails and leaves the buffer as it was.
The request was written exactly once. -/
theorem ioctl_exact (k : K) (cmd : Nat) (set : Bool) (data : Bytes) (rs : List Rd) (hk : k.iobuf.length = iobufSz)
    (hd : data.length ≤ 2020) :
    ∃ k' rest w, ioctl k cmd set data rs = some (k', rest,
        match ((rs.take 500).filterMap packetOf).findSome? (answerTo ((k.id + 1) % 65536)) with
        | none => (.timeout, data)
        | some a => (.status a.1, back data a.2)) ∧
      k'.t.wire = k.t.wire ++ [w] ∧ w.length ≤ 2048 ∧ k'.lk = k.lk ∧ k'.id = (k.id + 1) % 65536 ∧
      k'.iobuf.length = iobufSz := by
  unfold ioctl
  dsimp only
  generalize hfl : ((k.id + 1) % 65536 * 65536 + if set = true then 2 else 0) = fl
  unfold ctlTx
  dsimp only
  rw [if_neg (by omega)]
  dsimp only
  generalize hw : padded (hdr 0 (12 + 16 + data.length) k.t.seq ++ le4 cmd ++ le4 (data.length % 65536) ++ le4 fl ++
    [0, 0, 0, 0] ++ data) = w
  have hwl : w.length ≤ 2048 := by
    rw [← hw]
    unfold padded pad4
    simp only [List.length_append, List.length_replicate, hdr, le4, List.length_cons, List.length_nil]
    omega
  have hlast : (k.t.wire ++ [w]).getLastD [] = w := by simp
  rw [hlast]
  unfold built
  rw [if_pos (by omega)]
  simp only [Option.bind_eq_bind, Option.bind_some]
  obtain ⟨k', rest, e1, e2, e3, e4, e5, e6⟩ := wait_exact ((k.id + 1) % 65536) data 500 rs
    { iobuf := w ++ k.iobuf.drop w.length, t := { k.t with seq := (k.t.seq + 1) % 256, wire := k.t.wire ++ [w] },
      id := (k.id + 1) % 65536, lk := k.lk }
    (by dsimp only; rw [List.length_append, List.length_drop]; omega)
  exact ⟨k', rest, w, e1, e5, hwl, e3, e4, e2⟩

/-- Requests are numbered modulo 65536. If every answer in the radio's queue is to one of the last 65536 requests, the
answer taken is to this one and not to an earlier one that timed out. -/
theorem answer_is_ours (j : Nat) (ps : List Bytes) (num : Bytes → Nat) (a : Nat × Bytes)
    (hn : ∀ p ∈ ps, ∀ x, answerIn p = some x → x.1 = num p % 65536 ∧ num p ≤ j ∧ j < num p + 65536)
    (h : ps.findSome? (answerTo (j % 65536)) = some a) :
    ∃ p ∈ ps, num p = j ∧ ∃ x, answerIn p = some x ∧ x.2 = a := by
  obtain ⟨p, hp, e⟩ := List.exists_of_findSome?_eq_some h
  refine ⟨p, hp, ?_⟩
  unfold answerTo at e
  split at e
  · rename_i i st d hx
    split at e
    · rename_i hi
      obtain ⟨n1, n2, n3⟩ := hn p hp _ hx
      dsimp only at n1
      refine ⟨by omega, _, hx, ?_⟩
      exact Option.some.inj e
    · cases e
  · cases e

/-- **Finding.** Every event that arrives while a control request waits is thrown away: the link state the driver reports
does not change, whatever the packets say. -/
theorem events_lost (k : K) (cmd : Nat) (set : Bool) (data : Bytes) (rs : List Rd) (hk : k.iobuf.length = iobufSz)
    (hd : data.length ≤ 2020) : ∃ x, ioctl k cmd set data rs = some x ∧ x.1.lk = k.lk := by
  obtain ⟨k', rest, w, e, _, _, h, _⟩ := ioctl_exact k cmd set data rs hk hd
  exact ⟨_, e, h⟩

/-- **Finding.** The status "error" (all ones) of the radio and a time-out are the same return value. -/
theorem error_is_timeout : Res.int (.status 4294967295) = Res.int .timeout := rfl

/-! ## Keys -/

/-- Field offsets of `wl_wsec_key` and its size. cyw43439_driver.c 270–279 (160 octets: index 0, length 4, data 8, algorithm
112, flags 116, address 154). -/
structure Lay where
  size : Nat
  idx : Nat
  len : Nat
  dat : Nat
  algo : Nat
  flags : Nat
  ea : Nat

/-- Store octets in a buffer. -/
def stores (buf : Bytes) (off : Nat) (b : Bytes) : Bytes := buf.take off ++ b ++ buf.drop (off + b.length)

/-- The structure built in `g_keybuf`. 1480–1497. -/
def keyStruct (L : Lay) (pairwise : Bool) (idx : Nat) (key bssid : Bytes) : Bytes :=
  let b := stores (stores (stores (stores (List.replicate L.size 0) L.idx (le4 idx)) L.len (le4 key.length)) L.dat key)
    L.algo (le4 4)
  if pairwise then stores (stores b L.flags (le4 2)) L.ea bssid else b

/-- State with `g_keybuf`. -/
structure KK where
  k : K
  keybuf : Bytes

/-- `cyw43_set_key` (`kt = 0`: pairwise); the radio is ready. `ret = none`: -1 without sending. 1473–1504. -/
def setKey (L : Lay) (s : KK) (pairwise : Bool) (idx : Nat) (key : Bytes) (rs : List Rd) :
    Option (KK × List Rd × Option Res) :=
  if 32 < key.length then some (s, rs, none)
  else if pairwise ∧ (s.k.lk.seen = false ∨ s.k.lk.bssid = [0, 0, 0, 0, 0, 0]) then
    some ({ s with keybuf := List.replicate L.size 0 }, rs, none)
  else do
    let x ← ioctl s.k 45 true (keyStruct L pairwise idx key s.k.lk.bssid) rs
    return ({ k := { x.1 with iobuf := List.replicate iobufSz 0 }, keybuf := List.replicate L.size 0 }, x.2.1, some x.2.2.1)

theorem stores_length (buf : Bytes) (off : Nat) (b : Bytes) (h : off + b.length ≤ buf.length) :
    (stores buf off b).length = buf.length := by
  unfold stores
  simp only [List.length_append, List.length_take, List.length_drop]
  omega

/-- Every field lies inside the structure. -/
structure LayOk (L : Lay) : Prop where
  size : L.size ≤ 2020
  idx : L.idx + 4 ≤ L.size
  len : L.len + 4 ≤ L.size
  dat : L.dat + 32 ≤ L.size
  algo : L.algo + 4 ≤ L.size
  flags : L.flags + 4 ≤ L.size
  ea : L.ea + 6 ≤ L.size

theorem keyStruct_length (L : Lay) (hL : LayOk L) (pw : Bool) (idx : Nat) (key bssid : Bytes) (hk : key.length ≤ 32)
    (hb : bssid.length = 6) : (keyStruct L pw idx key bssid).length = L.size := by
  have l4 : ∀ v, (le4 v).length = 4 := fun _ => rfl
  have := hL.idx
  have := hL.len
  have := hL.dat
  have := hL.algo
  have := hL.flags
  have := hL.ea
  have e0 : (List.replicate L.size 0).length = L.size := List.length_replicate ..
  have e1 : (stores (List.replicate L.size 0) L.idx (le4 idx)).length = L.size := by
    rw [stores_length _ _ _ (by rw [e0, l4]; omega), e0]
  have e2 : (stores (stores (List.replicate L.size 0) L.idx (le4 idx)) L.len (le4 key.length)).length = L.size := by
    rw [stores_length _ _ _ (by rw [e1, l4]; omega), e1]
  have e3 : (stores (stores (stores (List.replicate L.size 0) L.idx (le4 idx)) L.len (le4 key.length)) L.dat key).length =
      L.size := by
    rw [stores_length _ _ _ (by rw [e2]; omega), e2]
  have e4 : (stores (stores (stores (stores (List.replicate L.size 0) L.idx (le4 idx)) L.len (le4 key.length)) L.dat key)
      L.algo (le4 4)).length = L.size := by
    rw [stores_length _ _ _ (by rw [e3, l4]; omega), e3]
  unfold keyStruct
  dsimp only
  cases pw with
  | false => simpa using e4
  | true =>
    rw [if_pos rfl]
    have e5 := stores_length _ L.flags (le4 2) (by rw [e4, l4]; omega)
    rw [stores_length _ _ _ (by rw [e5, e4]; omega), e5, e4]

/-- The address field of a pairwise key is the access point's. -/
theorem keyStruct_ea (L : Lay) (hL : LayOk L) (idx : Nat) (key bssid : Bytes) (hk : key.length ≤ 32)
    (hb : bssid.length = 6) : ((keyStruct L true idx key bssid).drop L.ea).take 6 = bssid := by
  have h := keyStruct_length L hL true idx key bssid hk hb
  unfold keyStruct at h ⊢
  dsimp only at h ⊢
  rw [if_pos rfl] at h ⊢
  generalize stores (stores (stores (stores (stores (List.replicate L.size 0) L.idx (le4 idx)) L.len (le4 key.length))
    L.dat key) L.algo (le4 4)) L.flags (le4 2) = B at h ⊢
  have hB : L.ea ≤ B.length := by
    unfold stores at h
    simp only [List.length_append, List.length_take, List.length_drop] at h
    have := hL.ea
    omega
  unfold stores
  have ht : (B.take L.ea).length = L.ea := by rw [List.length_take]; omega
  rw [List.append_assoc, List.drop_left' ht, ← hb, List.take_left]

/-- **C122.** After `cyw43_set_key` returns, on every path and whatever the radio answered, the key is in neither buffer of
the driver: the key buffer is all zero, and the transfer buffer is all zero or was never written. A pairwise key is sent
only when an access point is known, and bound to its address. -/
theorem key_scrubbed (L : Lay) (hL : LayOk L) (s : KK) (pw : Bool) (idx : Nat) (key : Bytes) (rs : List Rd)
    (hk : s.k.iobuf.length = iobufSz) (hb : s.k.lk.bssid.length = 6) (hz : s.keybuf = List.replicate L.size 0) :
    ∃ s' rest ret, setKey L s pw idx key rs = some (s', rest, ret) ∧ s'.keybuf = List.replicate L.size 0 ∧
      (s'.k.iobuf = List.replicate iobufSz 0 ∨ s'.k.iobuf = s.k.iobuf ∧ s'.k.t.wire = s.k.t.wire) ∧
      (s'.k.t.wire ≠ s.k.t.wire → pw = true → s.k.lk.seen = true ∧ s.k.lk.bssid ≠ [0, 0, 0, 0, 0, 0]) := by
  unfold setKey
  by_cases h1 : 32 < key.length
  · rw [if_pos h1]
    exact ⟨s, rs, none, rfl, hz, Or.inr ⟨rfl, rfl⟩, fun h => absurd rfl h⟩
  rw [if_neg h1]
  by_cases h2 : pw ∧ (s.k.lk.seen = false ∨ s.k.lk.bssid = [0, 0, 0, 0, 0, 0])
  · rw [if_pos h2]
    exact ⟨_, rs, none, rfl, rfl, Or.inr ⟨rfl, rfl⟩, fun h => absurd rfl h⟩
  rw [if_neg h2]
  obtain ⟨k', rest, w, e, e2, _⟩ := ioctl_exact s.k 45 true (keyStruct L pw idx key s.k.lk.bssid) rs hk
    (by rw [keyStruct_length L hL pw idx key _ (by omega) hb]; exact hL.size)
  rw [e]
  refine ⟨_, _, _, rfl, rfl, Or.inl rfl, ?_⟩
  intro _ hp
  refine ⟨?_, fun hz => h2 ⟨hp, Or.inr hz⟩⟩
  cases hs : s.k.lk.seen with
  | true => rfl
  | false => exact absurd ⟨hp, Or.inl hs⟩ h2

/-! ## Non-vacuity -/

def k0 : K := ⟨List.replicate 2048 0, ⟨0, 1, 0, []⟩, 6, ⟨true, true, false, [1, 2, 3, 4, 5, 6]⟩⟩

/-- An answer to request `i` with status `st` and two octets of data. -/
def reply (i st : Nat) : Bytes :=
  [30, 0, 225, 255, 0, 0, 0, 12, 0, 9, 0, 0] ++ [1, 0, 0, 0, 2, 0, 0, 0, 0, 0, i, 0, st, 0, 0, 0] ++ [0xAA, 0xBB]

/-- A deauthentication event. -/
def deauth : Bytes :=
  [70, 0, 185, 255, 0, 1, 0, 12, 0, 6, 0, 0, 32, 0, 0, 0] ++ List.replicate 28 0 ++ [0, 0, 0, 5, 0, 0, 0, 0] ++
    List.replicate 18 0

/-- The late answer to request 6 is passed over, that to request 7 is taken; the event in between is lost, and a poll would
have seen it. -/
example : (ioctl k0 263 false [9, 9, 9] [announce (reply 6 1), announce deauth, announce (reply 7 3)]).map
    (fun x => (x.2.2, x.1.t.max, x.1.lk.up)) = some ((Res.status 3, [0xAA, 0xBB, 9]), 9, true) := by decide +kernel

example : (linkNext k0.lk deauth).up = false := by decide +kernel

/-- The layout in the source. -/
def wsec : Lay := { size := 160, idx := 0, len := 4, dat := 8, algo := 112, flags := 116, ea := 154 }

example : LayOk wsec := ⟨by decide, by decide, by decide, by decide, by decide, by decide, by decide⟩

end Wolf.Drv.CywIoctl
