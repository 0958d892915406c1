import Verif.Dhcp.Lease
/-!
# C103: the DHCP messages on the wire

Model of the message construction in `dhcp_send_discover`, `dhcp_send_request` and
`dhcp_send_decline` (`src/wolfip.c` 9146–9330, 9387–9440) and of the reading of a received datagram
into `struct dhcp_msg` by `dhcp_poll` (9099–9116) and `dhcp_opt_stream_init` (8643–8661).
-/
namespace Wolf.Dhcp

/-! ## Model -/

/-- `ee16` / `ee32` stored in a packed struct, and `DHCP_OPT_u32_to_data` (src/wolfip.c 8600–8606):
network byte order. -/
def be16 (v : Nat) : List Nat := [v / 256 % 256, v % 256]
def be32 (v : Nat) : List Nat := [v / 16777216 % 256, v / 65536 % 256, v / 256 % 256, v % 256]

/-- A store into the `options` array (312 bytes); `none` is an overrun. -/
def wr (o : List Nat) (off : Nat) (v : List Nat) : Option (List Nat) :=
  if off + v.length ≤ o.length then some (o.take off ++ v ++ o.drop (off + v.length)) else none

/-- `dhcp_elapsed_secs`. src/wolfip.c 8412–8427. -/
def elapsedSecs (tick start : Nat) : Nat :=
  let ms := if tick ≥ start then tick - start else tick
  if ms / 1000 > 65535 then 65535 else ms / 1000

/-- The fixed part of a message (`struct dhcp_msg`, src/wolfip.c 1155–1163), member by member: `op`,
`htype`, `hlen`, `hops`, `xid`, `secs`, `flags`, `ciaddr`, `yiaddr`, `siaddr`, `giaddr`, `chaddr`,
`sname`, `file`, `magic`. -/
def members (op flags ciaddr yiaddr xid secs : Nat) (mac : List Nat) : List (List Nat) :=
  [[op], [1], [6], [0], be32 xid, be16 secs, be16 flags, be32 ciaddr, be32 yiaddr, be32 0, be32 0,
    mac ++ List.replicate 10 0, List.replicate 64 0, List.replicate 128 0, be32 0x63825363]

/-- The one of a client message: the fields the three functions set, the others zero. -/
def header240 (flags ciaddr xid secs : Nat) (mac : List Nat) : List Nat :=
  (members 1 flags ciaddr 0 xid secs mac).flatten

/-- What the client state contributes to its messages besides `Cli`: the hardware address of the
primary interface and `dhcp_start_tick`. -/
structure Id where
  mac : List Nat
  start : Nat

/-- A datagram to a server: payload, destination address; the destination port is 67. -/
structure Out where
  payload : List Nat
  dst : Nat
deriving DecidableEq

/-- `dhcp_send_discover`, src/wolfip.c 9277–9318. -/
def mkDiscover (d : Cli) (i : Id) : Option Out := do
  let o := List.replicate 312 255
  let o ← wr o 0 [53, 1, 1]
  let o ← wr o 3 [55, 3, 1, 3, 6]
  let sz := 3 + 5 + 1
  some ⟨header240 0x8000 0 d.xid (elapsedSecs d.tick i.start) i.mac ++ o.take sz, 0xffffffff⟩

/-- `dhcp_send_request`, src/wolfip.c 9166–9232. -/
def mkRequest (d : Cli) (i : Id) : Option Out := do
  let renewing := decide (d.ph = .renew)
  let rebinding := decide (d.ph = .rebind)
  let flags := if !renewing && !rebinding then 0x8000 else 0
  let ciaddr := if renewing || rebinding then d.ip else 0
  let o := List.replicate 312 255
  let o ← wr o 0 [53, 1, 3]
  let o ← wr o 3 [55, 3, 1, 3, 6]
  let sz := 3 + 5
  let (o, sz) ← (if !renewing && !rebinding then do
      let o ← wr o sz ([54, 4] ++ be32 d.server)
      let sz := sz + 6
      let o ← wr o sz ([50, 4] ++ be32 d.offIp)
      some (o, sz + 6)
    else some (o, sz))
  let sz := sz + 1
  some ⟨header240 flags ciaddr d.xid (elapsedSecs d.tick i.start) i.mac ++ o.take sz,
    if renewing then d.server else 0xffffffff⟩

/-- `dhcp_send_decline`, src/wolfip.c 9397–9440. -/
def mkDecline (d : Cli) (i : Id) : Option Out := do
  let o := List.replicate 312 255
  let o ← wr o 0 [53, 1, 4]
  let sz := 3
  let (o, sz) ← (if d.server ≠ 0 then do
      let o ← wr o sz ([54, 4] ++ be32 d.server)
      some (o, sz + 6)
    else some (o, sz))
  let o ← wr o sz ([50, 4] ++ be32 d.offIp)
  let sz := sz + 6 + 1
  some ⟨header240 0 0 d.xid (elapsedSecs d.tick i.start) i.mac ++ o.take sz, 0xffffffff⟩

/-- A 32-bit field of `struct dhcp_msg`, in host order. -/
def rd32 (b : List Nat) (off : Nat) : Nat := u32 ((b.drop off).take 4)

/-- `dhcp_poll` reading the datagram `dg` into a `struct dhcp_msg` of 552 bytes filled with 0xBB
(src/wolfip.c 9103–9116), and the regions `dhcp_opt_stream_init` sets up (8643–8661; only used when
the length is at least 240). -/
def decode (mac dg : List Nat) : Msg :=
  let len := if dg.length > 552 then 552 else dg.length
  let b := dg.take 552 ++ List.replicate (552 - len) 0xbb
  { len := len, mine := decide (b.getD 2 0 = 6 ∧ (b.drop 28).take 6 = mac), op := b.getD 0 0,
    magic := rd32 b 236, mxid := rd32 b 4, yiaddr := rd32 b 16,
    regs := { opts := (b.drop 240).take (if len - 240 > 312 then 312 else len - 240),
              sname := (b.drop 44).take 64, file := (b.drop 108).take 128 } }

/-! ## Specification: RFC 2131 messages -/

/-- A DHCP message, as RFC 2131 figure 1 lays it out and RFC 2132 encodes its options. -/
structure Wire where
  op : Nat
  htype : Nat
  hlen : Nat
  hops : Nat
  xid : Nat
  secs : Nat
  flags : Nat
  ciaddr : Nat
  yiaddr : Nat
  siaddr : Nat
  giaddr : Nat
  chaddr : List Nat
  sname : List Nat
  file : List Nat
  magic : Nat
  options : List (Nat × List Nat)
  ended : Bool
deriving DecidableEq

/-- Big-endian number. -/
def num (b : List Nat) : Nat := b.foldl (fun a x => 256 * a + x) 0

/-- `n` octets from `off`. -/
def field (b : List Nat) (off n : Nat) : List Nat := (b.drop off).take n

/-- Reading a message off the wire. -/
def readWire (b : List Nat) : Option Wire :=
  if b.length < 240 then none
  else some
    { op := num (field b 0 1), htype := num (field b 1 1), hlen := num (field b 2 1),
      hops := num (field b 3 1), xid := num (field b 4 4), secs := num (field b 8 2),
      flags := num (field b 10 2), ciaddr := num (field b 12 4), yiaddr := num (field b 16 4),
      siaddr := num (field b 20 4), giaddr := num (field b 24 4), chaddr := field b 28 16,
      sname := field b 44 64, file := field b 108 128, magic := num (field b 236 4),
      options := (specParse (b.drop 240)).1, ended := (specParse (b.drop 240)).2 }

/-- A client's message of type `ty` with the given flags, client address and further options. -/
def clientWire (d : Cli) (i : Id) (flags ciaddr ty : Nat) (opts : List (Nat × List Nat)) : Wire :=
  { op := 1, htype := 1, hlen := 6, hops := 0, xid := d.xid,
    secs := min 65535 ((if i.start ≤ d.tick then d.tick - i.start else d.tick) / 1000),
    flags := flags, ciaddr := ciaddr, yiaddr := 0, siaddr := 0, giaddr := 0,
    chaddr := i.mac ++ List.replicate 10 0, sname := List.replicate 64 0, file := List.replicate 128 0,
    magic := 0x63825363, options := (53, [ty]) :: opts, ended := true }

/-! ## The messages the client sends -/

theorem num_be32 {v : Nat} (h : v < 2 ^ 32) : num (be32 v) = v := by
  show (256 * (256 * (256 * (256 * 0 + v / 16777216 % 256) + v / 65536 % 256) + v / 256 % 256) + v % 256) = v
  omega

theorem num_be16 {v : Nat} (h : v < 2 ^ 16) : num (be16 v) = v := by
  show (256 * (256 * 0 + v / 256 % 256) + v % 256) = v
  omega

theorem u32_be32 {v : Nat} (h : v < 2 ^ 32) : u32 (be32 v) = v := by
  show v / 16777216 % 256 * 16777216 + v / 65536 % 256 * 65536 + v / 256 % 256 * 256 + v % 256 = v
  omega

theorem elapsed_eq (tick start : Nat) : elapsedSecs tick start =
    min 65535 ((if start ≤ tick then tick - start else tick) / 1000) := by
  unfold elapsedSecs
  dsimp only
  rw [show (if tick ≥ start then tick - start else tick) = (if start ≤ tick then tick - start else tick)
    from rfl]
  generalize (if start ≤ tick then tick - start else tick) / 1000 = q
  split <;> omega

theorem field_at {ps : List (List Nat)} {ls : List Nat} (hl : ps.map List.length = ls) (k : Nat)
    {v : List Nat} (o : List Nat) {off n : Nat} (hk : ps[k]? = some v)
    (hoff : (ls.take k).sum = off) (hn : ls[k]? = some n) :
    field (ps.flatten ++ o) off n = v := by
  obtain ⟨hlt, he⟩ := List.getElem?_eq_some_iff.1 hk
  have h1 : ps = ps.take k ++ v :: ps.drop (k + 1) := by
    rw [← he, List.getElem_cons_drop, List.take_append_drop]
  have h2 : (ps.take k).flatten.length = off := by
    rw [List.length_flatten, List.map_take, hl]; exact hoff
  have h3 : v.length = n := by
    rw [← hl, List.getElem?_map, hk] at hn
    exact Option.some.inj hn
  rw [h1, List.flatten_append, List.flatten_cons]
  unfold field
  rw [List.append_assoc, List.drop_left' h2, List.append_assoc, List.take_left' h3]

theorem members_lens (op f c y x s : Nat) {mac : List Nat} (h : mac.length = 6) :
    (members op f c y x s mac).map List.length = [1, 1, 1, 1, 4, 2, 2, 4, 4, 4, 4, 16, 64, 128, 4] := by
  simp only [members, List.map_cons, List.map_nil, be32, be16, List.length_append, List.length_replicate,
    List.length_cons, List.length_nil, h, Nat.reduceAdd]

theorem members_len (op f c y x s : Nat) {mac : List Nat} (h : mac.length = 6) :
    (members op f c y x s mac).flatten.length = 240 := by
  rw [List.length_flatten, members_lens _ _ _ _ _ _ h]
  decide

/-- Reading a message built from its members. -/
theorem readWire_members {op f c y x s : Nat} {mac o : List Nat} (hm : mac.length = 6) (hf : f < 2 ^ 16)
    (hc : c < 2 ^ 32) (hy : y < 2 ^ 32) (hx : x < 2 ^ 32) (hs : s < 2 ^ 16) :
    readWire ((members op f c y x s mac).flatten ++ o) = some
      { op := op, htype := 1, hlen := 6, hops := 0, xid := x, secs := s, flags := f, ciaddr := c,
        yiaddr := y, siaddr := 0, giaddr := 0, chaddr := mac ++ List.replicate 10 0,
        sname := List.replicate 64 0, file := List.replicate 128 0, magic := 0x63825363,
        options := (specParse o).1, ended := (specParse o).2 } := by
  have hl := members_len op f c y x s hm
  have hd : ((members op f c y x s mac).flatten ++ o).drop 240 = o := List.drop_left' hl
  unfold readWire
  rw [if_neg (by rw [List.length_append]; omega), hd]
  have hls := members_lens op f c y x s hm
  have g : ∀ (k off n : Nat) (v : List Nat), (members op f c y x s mac)[k]? = some v →
      (([1, 1, 1, 1, 4, 2, 2, 4, 4, 4, 4, 16, 64, 128, 4] : List Nat).take k).sum = off →
      ([1, 1, 1, 1, 4, 2, 2, 4, 4, 4, 4, 16, 64, 128, 4] : List Nat)[k]? = some n →
      field ((members op f c y x s mac).flatten ++ o) off n = v :=
    fun k off n v h1 h2 h3 => field_at hls k o h1 h2 h3
  rw [g 0 0 1 [op] rfl (by decide) rfl, g 1 1 1 [1] rfl (by decide) rfl, g 2 2 1 [6] rfl (by decide) rfl,
    g 3 3 1 [0] rfl (by decide) rfl, g 4 4 4 (be32 x) rfl (by decide) rfl, g 5 8 2 (be16 s) rfl (by decide) rfl,
    g 6 10 2 (be16 f) rfl (by decide) rfl, g 7 12 4 (be32 c) rfl (by decide) rfl,
    g 8 16 4 (be32 y) rfl (by decide) rfl, g 9 20 4 (be32 0) rfl (by decide) rfl,
    g 10 24 4 (be32 0) rfl (by decide) rfl, g 11 28 16 (mac ++ List.replicate 10 0) rfl (by decide) rfl,
    g 12 44 64 (List.replicate 64 0) rfl (by decide) rfl,
    g 13 108 128 (List.replicate 128 0) rfl (by decide) rfl, g 14 236 4 (be32 0x63825363) rfl (by decide) rfl]
  rw [num_be32 hx, num_be16 hs, num_be16 hf, num_be32 hc, num_be32 hy, num_be32 (by decide : 0 < 2 ^ 32),
    num_be32 (by decide : 0x63825363 < 2 ^ 32)]
  simp [num]

/-- Storing behind what was stored before. -/
theorem wr_fresh {a : List Nat} {n off : Nat} {v : List Nat} (ho : a.length = off) (h : v.length ≤ n) :
    wr (a ++ List.replicate n 255) off v = some ((a ++ v) ++ List.replicate (n - v.length) 255) := by
  subst ho
  unfold wr
  rw [List.length_append, List.length_replicate, if_pos (by omega), List.take_left,
    ← List.drop_drop, List.drop_left, List.drop_replicate]

theorem take_fresh {a : List Nat} {n k : Nat} (h : 1 ≤ n) (hk : k = a.length + 1) :
    (a ++ List.replicate n 255).take k = a ++ [255] := by
  subst hk
  obtain ⟨m, rfl⟩ : ∃ m, n = m + 1 := ⟨n - 1, by omega⟩
  rw [List.replicate_succ, show a ++ 255 :: List.replicate m 255 = (a ++ [255]) ++ List.replicate m 255 by simp,
    List.take_left' (by simp)]

/-- The octets of an option list, with the end option. -/
def encOpts (l : List (Nat × List Nat)) : List Nat :=
  (l.flatMap (fun x => x.1 :: x.2.length :: x.2)) ++ [255]

/-- The options RFC 2132 allows between pad and end, other than overload. -/
def Plain (l : List (Nat × List Nat)) : Prop := ∀ x ∈ l, x.1 ≠ 0 ∧ x.1 ≠ 255 ∧ x.1 ≠ 52

theorem plain_iff {l : List (Nat × List Nat)} :
    Plain l ↔ ∀ c ∈ l.map (·.1), c ≠ 0 ∧ c ≠ 255 ∧ c ≠ 52 := by
  unfold Plain; rw [List.forall_mem_map]

theorem specParse_enc : ∀ {l : List (Nat × List Nat)}, Plain l → specParse (encOpts l) = (l, true)
  | [], _ => specParse_end []
  | x :: l, h => by
    have ih := specParse_enc (l := l) (fun y hy => h y (List.mem_cons_of_mem _ hy))
    have hx := h x List.mem_cons_self
    have e : encOpts (x :: l) = x.1 :: x.2.length :: (x.2 ++ encOpts l) := by
      simp [encOpts]
    rw [e, specParse_opt _ _ _ _ hx.1 hx.2.1 rfl, ih]

theorem specRest_enc : ∀ {l : List (Nat × List Nat)}, Plain l → specRest (encOpts l) = []
  | [], _ => by show specRest [255] = []; rw [specRest.eq_def]; simp
  | x :: l, h => by
    have ih := specRest_enc (l := l) (fun y hy => h y (List.mem_cons_of_mem _ hy))
    have hx := h x List.mem_cons_self
    have e : encOpts (x :: l) = x.1 :: x.2.length :: (x.2 ++ encOpts l) := by
      simp [encOpts]
    rw [e, specRest_opt _ _ _ _ hx.1 hx.2.1 rfl, ih]

/-- A client message with the options `l`. -/
theorem read_client {d : Cli} {i : Id} {f c ty : Nat} {l : List (Nat × List Nat)} (hm : i.mac.length = 6)
    (hf : f < 2 ^ 16) (hc : c < 2 ^ 32) (hx : d.xid < 2 ^ 32) (hl : Plain l) :
    readWire (header240 f c d.xid (elapsedSecs d.tick i.start) i.mac ++ encOpts ((53, [ty]) :: l)) =
      some (clientWire d i f c ty l) := by
  have hs : elapsedSecs d.tick i.start < 2 ^ 16 := by rw [elapsed_eq]; omega
  have hp : Plain ((53, [ty]) :: l) := by
    intro x hx
    rcases List.mem_cons.1 hx with rfl | h
    · exact ⟨(by decide : (53 : Nat) ≠ 0), (by decide : (53 : Nat) ≠ 255), (by decide : (53 : Nat) ≠ 52)⟩
    · exact hl x h
  unfold header240
  rw [readWire_members hm hf hc (by decide) hx hs, specParse_enc hp, elapsed_eq]
  rfl

theorem opt_some {α β : Type} (a : α) (f : α → Option β) : (do let x ← some a; f x) = f a := rfl

/-- **C103**: a DHCPDISCOVER is a well-formed message of type 1, broadcast, with the broadcast bit, our
transaction id and hardware address, asking for mask, router and name server. -/
theorem discover_wellformed {d : Cli} {i : Id} (hm : i.mac.length = 6) (hx : d.xid < 2 ^ 32) :
    ∃ b, mkDiscover d i = some ⟨b, 0xffffffff⟩ ∧ b.length = 249 ∧
      readWire b = some (clientWire d i 0x8000 0 1 [(55, [1, 3, 6])]) := by
  have e : mkDiscover d i = some ⟨header240 0x8000 0 d.xid (elapsedSecs d.tick i.start) i.mac ++
      encOpts [(53, [1]), (55, [1, 3, 6])], 0xffffffff⟩ := by
    unfold mkDiscover
    dsimp only
    rw [show List.replicate 312 255 = [] ++ List.replicate 312 255 from rfl,
      wr_fresh (a := []) (n := 312) (off := 0) (v := [53, 1, 1]) rfl (by decide), opt_some,
      wr_fresh (off := 3) (v := [55, 3, 1, 3, 6]) rfl (by decide), opt_some,
      take_fresh (a := [] ++ [53, 1, 1] ++ [55, 3, 1, 3, 6]) (k := 3 + 5 + 1)
        (n := 312 - [53, 1, 1].length - [55, 3, 1, 3, 6].length) (by decide) rfl]
    rfl
  refine ⟨_, e, ?_, read_client hm (by decide) (by decide) hx (plain_iff.2 (by decide))⟩
  rw [List.length_append, header240, members_len _ _ _ _ _ _ hm]
  rfl

/-- **C103**: while selecting, a DHCPREQUEST is broadcast with the broadcast bit and a zero client address,
and names the chosen server and the offered address. -/
theorem request_selecting_wellformed {d : Cli} {i : Id} (hm : i.mac.length = 6) (hx : d.xid < 2 ^ 32)
    (h1 : d.ph ≠ .renew) (h2 : d.ph ≠ .rebind) :
    ∃ b, mkRequest d i = some ⟨b, 0xffffffff⟩ ∧ b.length = 261 ∧
      readWire b = some (clientWire d i 0x8000 0 3
        [(55, [1, 3, 6]), (54, be32 d.server), (50, be32 d.offIp)]) := by
  have e : mkRequest d i = some ⟨header240 0x8000 0 d.xid (elapsedSecs d.tick i.start) i.mac ++
      encOpts [(53, [3]), (55, [1, 3, 6]), (54, be32 d.server), (50, be32 d.offIp)], 0xffffffff⟩ := by
    unfold mkRequest
    dsimp only
    rw [decide_eq_false h1, decide_eq_false h2]
    simp only [Bool.not_false, Bool.and_self, Bool.or_self, if_true, Bool.false_eq_true, if_false]
    rw [show List.replicate 312 255 = [] ++ List.replicate 312 255 from rfl,
      wr_fresh (a := []) (n := 312) (off := 0) (v := [53, 1, 3]) rfl (by decide), opt_some,
      wr_fresh (off := 3) (v := [55, 3, 1, 3, 6]) rfl (by decide), opt_some,
      wr_fresh (off := 3 + 5) (v := [54, 4] ++ be32 d.server) rfl (by simp [be32]), opt_some,
      wr_fresh (off := 3 + 5 + 6) (v := [50, 4] ++ be32 d.offIp) (by simp [be32]) (by simp [be32]), opt_some]
    show some _ = some _
    rw [take_fresh (k := 3 + 5 + 6 + 6 + 1) (by simp [be32]) (by simp [be32])]
    simp [encOpts, be32]
  refine ⟨_, e, ?_, read_client hm (by decide) (by decide) hx (plain_iff.2 (by simp))⟩
  rw [List.length_append, header240, members_len _ _ _ _ _ _ hm]
  simp [encOpts, be32]

/-- **C103**: while renewing or rebinding, a DHCPREQUEST carries the address in use, no server identifier, no
requested address and no broadcast bit; it is unicast to the server when renewing and broadcast when
rebinding. -/
theorem request_extending_wellformed {d : Cli} {i : Id} (hm : i.mac.length = 6) (hx : d.xid < 2 ^ 32)
    (hi : d.ip < 2 ^ 32) (h : d.ph = .renew ∨ d.ph = .rebind) :
    ∃ b, mkRequest d i = some ⟨b, if d.ph = .renew then d.server else 0xffffffff⟩ ∧ b.length = 249 ∧
      readWire b = some (clientWire d i 0 d.ip 3 [(55, [1, 3, 6])]) := by
  have e : mkRequest d i = some ⟨header240 0 d.ip d.xid (elapsedSecs d.tick i.start) i.mac ++
      encOpts [(53, [3]), (55, [1, 3, 6])], if d.ph = .renew then d.server else 0xffffffff⟩ := by
    unfold mkRequest
    dsimp only
    have hb : (!decide (d.ph = .renew) && !decide (d.ph = .rebind)) = false := by
      rcases h with h | h <;> rw [h] <;> rfl
    have hb' : (decide (d.ph = .renew) || decide (d.ph = .rebind)) = true := by
      rcases h with h | h <;> rw [h] <;> rfl
    rw [hb, hb']
    simp only [if_true, Bool.false_eq_true, if_false]
    rw [show List.replicate 312 255 = [] ++ List.replicate 312 255 from rfl,
      wr_fresh (a := []) (n := 312) (off := 0) (v := [53, 1, 3]) rfl (by decide), opt_some,
      wr_fresh (off := 3) (v := [55, 3, 1, 3, 6]) rfl (by decide), opt_some, opt_some]
    dsimp only
    rw [take_fresh (a := [] ++ [53, 1, 3] ++ [55, 3, 1, 3, 6]) (k := 3 + 5 + 1)
        (n := 312 - [53, 1, 3].length - [55, 3, 1, 3, 6].length) (by decide) rfl]
    simp [encOpts]
  refine ⟨_, e, ?_, read_client hm (by decide) hi hx (plain_iff.2 (by decide))⟩
  rw [List.length_append, header240, members_len _ _ _ _ _ _ hm]
  rfl

/-- **C103**: a DHCPDECLINE is broadcast and names the refused address, and the server when one is known. -/
theorem decline_wellformed {d : Cli} {i : Id} (hm : i.mac.length = 6) (hx : d.xid < 2 ^ 32) :
    ∃ b, mkDecline d i = some ⟨b, 0xffffffff⟩ ∧ b.length ≤ 256 ∧
      readWire b = some (clientWire d i 0 0 4
        ((if d.server = 0 then [] else [(54, be32 d.server)]) ++ [(50, be32 d.offIp)])) := by
  by_cases hz : d.server = 0
  · have e : mkDecline d i = some ⟨header240 0 0 d.xid (elapsedSecs d.tick i.start) i.mac ++
        encOpts [(53, [4]), (50, be32 d.offIp)], 0xffffffff⟩ := by
      unfold mkDecline
      dsimp only
      rw [show List.replicate 312 255 = [] ++ List.replicate 312 255 from rfl,
        wr_fresh (a := []) (n := 312) (off := 0) (v := [53, 1, 4]) rfl (by decide), opt_some,
        if_neg (fun h => h hz), opt_some]
      dsimp only
      rw [wr_fresh (off := 3) (v := [50, 4] ++ be32 d.offIp) rfl (by simp [be32]), opt_some]
      rw [take_fresh (by simp [be32]) (by simp [be32])]
      simp [encOpts, be32]
    rw [if_pos hz]
    refine ⟨_, e, ?_, read_client hm (by decide) (by decide) hx (plain_iff.2 (by simp))⟩
    rw [List.length_append, header240, members_len _ _ _ _ _ _ hm]
    simp [encOpts, be32]
  · have e : mkDecline d i = some ⟨header240 0 0 d.xid (elapsedSecs d.tick i.start) i.mac ++
        encOpts [(53, [4]), (54, be32 d.server), (50, be32 d.offIp)], 0xffffffff⟩ := by
      unfold mkDecline
      dsimp only
      rw [show List.replicate 312 255 = [] ++ List.replicate 312 255 from rfl,
        wr_fresh (a := []) (n := 312) (off := 0) (v := [53, 1, 4]) rfl (by decide), opt_some,
        if_pos hz, wr_fresh (off := 3) (v := [54, 4] ++ be32 d.server) rfl (by simp [be32]), opt_some, opt_some]
      dsimp only
      rw [wr_fresh (off := 3 + 6) (v := [50, 4] ++ be32 d.offIp) rfl (by simp [be32]), opt_some]
      rw [take_fresh (by simp [be32]) (by simp [be32])]
      simp [encOpts, be32]
    rw [if_neg hz]
    refine ⟨_, e, ?_, read_client hm (by decide) (by decide) hx (plain_iff.2 (by simp))⟩
    rw [List.length_append, header240, members_len _ _ _ _ _ _ hm]
    simp [encOpts, be32]

/-! ## Reading a reply -/

theorem getD_of_field {b : List Nat} {k x : Nat} (h : field b k 1 = [x]) : b.getD k 0 = x := by
  unfold field at h
  rw [List.getD_eq_getElem?_getD, show b[k]? = (b.drop k)[0]? by rw [List.getElem?_drop]; rfl]
  cases hd : b.drop k with
  | nil => rw [hd] at h; cases h
  | cons y t => rw [hd] at h; cases h; rfl

/-- What the client reads from a well-formed reply. -/
theorem decode_members {op f c y x s : Nat} {mac : List Nat} {o : List Nat} (hm : mac.length = 6)
    (hy : y < 2 ^ 32) (hx : x < 2 ^ 32) (ho : o.length ≤ 312) :
    decode mac ((members op f c y x s mac).flatten ++ o) =
      { len := 240 + o.length, mine := true, op := op, magic := 0x63825363, mxid := x, yiaddr := y,
        regs := { opts := o, sname := List.replicate 64 0, file := List.replicate 128 0 } } := by
  have hl := members_len op f c y x s hm
  have hls := members_lens op f c y x s hm
  have hlen : ((members op f c y x s mac).flatten ++ o).length = 240 + o.length := by
    rw [List.length_append, hl]
  unfold decode
  dsimp only
  rw [hlen, if_neg (by omega), List.take_of_length_le (by rw [hlen]; omega), List.append_assoc]
  generalize ho' : o ++ List.replicate (552 - (240 + o.length)) 187 = o'
  have g : ∀ (k off n : Nat) (v : List Nat), (members op f c y x s mac)[k]? = some v →
      (([1, 1, 1, 1, 4, 2, 2, 4, 4, 4, 4, 16, 64, 128, 4] : List Nat).take k).sum = off →
      ([1, 1, 1, 1, 4, 2, 2, 4, 4, 4, 4, 16, 64, 128, 4] : List Nat)[k]? = some n →
      field ((members op f c y x s mac).flatten ++ o') off n = v :=
    fun k off n v h1 h2 h3 => field_at hls k o' h1 h2 h3
  have h28 := g 11 28 16 (mac ++ List.replicate 10 0) rfl (by decide) rfl
  have hmac : (((members op f c y x s mac).flatten ++ o').drop 28).take 6 = mac := by
    have := congrArg (List.take 6) h28
    unfold field at this
    rw [List.take_take, List.take_left' hm] at this
    exact this
  have r32 : ∀ off v, v < 2 ^ 32 → field ((members op f c y x s mac).flatten ++ o') off 4 = be32 v →
      rd32 ((members op f c y x s mac).flatten ++ o') off = v := by
    intro off v hv h
    show u32 (field _ off 4) = v
    rw [h, u32_be32 hv]
  rw [hmac, getD_of_field (g 2 2 1 [6] rfl (by decide) rfl), getD_of_field (g 0 0 1 [op] rfl (by decide) rfl),
    r32 236 _ (by decide) (g 14 236 4 (be32 0x63825363) rfl (by decide) rfl),
    r32 4 _ hx (g 4 4 4 (be32 x) rfl (by decide) rfl), r32 16 _ hy (g 8 16 4 (be32 y) rfl (by decide) rfl),
    show (((members op f c y x s mac).flatten ++ o').drop 44).take 64 = List.replicate 64 0 from
      g 12 44 64 (List.replicate 64 0) rfl (by decide) rfl,
    show (((members op f c y x s mac).flatten ++ o').drop 108).take 128 = List.replicate 128 0 from
      g 13 108 128 (List.replicate 128 0) rfl (by decide) rfl]
  rw [show 240 + o.length - 240 = o.length by omega, if_neg (by omega), List.drop_left' hl, ← ho',
    List.take_left]
  simp

/-- Octets. -/
def OptBytes (l : List (Nat × List Nat)) : Prop :=
  ∀ x ∈ l, x.1 < 256 ∧ x.2.length < 256 ∧ ∀ b ∈ x.2, b < 256

theorem encOpts_bytes {l : List (Nat × List Nat)} (h : OptBytes l) : ∀ b ∈ encOpts l, b < 256 := by
  intro b hb
  rcases List.mem_append.1 hb with hb | hb
  · obtain ⟨x, hx, hb⟩ := List.mem_flatMap.1 hb
    obtain ⟨h1, h2, h3⟩ := h x hx
    rcases List.mem_cons.1 hb with rfl | hb
    · exact h1
    rcases List.mem_cons.1 hb with rfl | hb
    · exact h2
    · exact h3 b hb
  · rw [List.mem_singleton.1 hb]; decide

/-- The client's scan of the options `l` finds `l`. -/
theorem options_enc {l : List (Nat × List Nat)} (hp : Plain l) (hb : OptBytes l) (strict : Bool) {sn fl : List Nat}
    (hs : ∀ b ∈ sn, b < 256) (hf : ∀ b ∈ fl, b < 256) :
    options { opts := encOpts l, sname := sn, file := fl } strict = .done l .sawEnd := by
  have hov : ∀ (l : List (Nat × List Nat)) (ov : Nat), Plain l → overload ov l = ov := by
    intro l
    induction l with
    | nil => intro ov _; rfl
    | cons x l ih =>
      intro ov h
      obtain ⟨c, p⟩ := x
      rw [overload, if_neg (h (c, p) List.mem_cons_self).2.2]
      exact ih ov (fun y hy => h y (List.mem_cons_of_mem _ hy))
  have hsel : selected { opts := encOpts l, sname := sn, file := fl } = encOpts l := by
    unfold selected
    dsimp only
    rw [specParse_enc hp, hov l 0 hp]
    simp
  rw [dhcp_options_exact _ ?_ strict ?_, hsel, specParse_enc hp]
  · rfl
  · rintro b (h | h | h)
    · exact encOpts_bytes hb b h
    · exact hs b h
    · exact hf b h
  · constructor
    · intro d hd
      dsimp only at hd
      rw [specParse_enc hp] at hd
      exact absurd rfl (hp _ hd).2.2
    · dsimp only
      rw [specRest_enc hp]
      intro h; cases h

/-! ## An honest server -/

/-- A server with one address to lend. -/
structure Srv where
  sid : Nat
  ip : Nat
  mask : Nat
  gw : Nat
  dns : Nat
  lease : Nat

/-- The payload of the first option with code `c`. -/
def optOf (c : Nat) (w : Wire) : Option (List Nat) := (w.options.find? (fun x => x.1 = c)).map (·.2)

/-- The server's reply of type `ty` to `w`: same transaction, same hardware address, same flags. -/
def Srv.reply (v : Srv) (w : Wire) (ty : Nat) : List Nat :=
  (members 2 w.flags w.ciaddr v.ip w.xid 0 (w.chaddr.take 6)).flatten ++
    encOpts [(53, [ty]), (54, be32 v.sid), (51, be32 v.lease), (1, be32 v.mask), (3, be32 v.gw), (6, be32 v.dns)]

/-- What the server answers to a datagram (RFC 2131 §4.3): an offer to a DISCOVER; an acknowledgement to a
REQUEST that selects it and its offer, or that extends the lease it gave. -/
def Srv.answer (v : Srv) (dg : List Nat) : Option (List Nat) :=
  (readWire dg).bind fun w =>
    if w.op = 1 ∧ w.htype = 1 ∧ w.hlen = 6 ∧ w.magic = 0x63825363 ∧ w.ended = true then
      if optOf 53 w = some [1] then some (v.reply w 2)
      else if optOf 53 w = some [3] ∧
          ((optOf 54 w = some (be32 v.sid) ∧ optOf 50 w = some (be32 v.ip) ∧ w.ciaddr = 0) ∨
           (optOf 54 w = none ∧ optOf 50 w = none ∧ w.ciaddr = v.ip)) then some (v.reply w 5)
      else none
    else none

/-- The server's values are those of a usable network. -/
structure Srv.Ok (v : Srv) : Prop where
  sid : v.sid < 2 ^ 32
  ip : v.ip < 2 ^ 32
  mask : v.mask < 2 ^ 32 ∧ v.mask ≠ 0
  gw : v.gw < 2 ^ 32
  dns : v.dns < 2 ^ 32
  lease : v.lease < 2 ^ 32 ∧ v.lease ≠ 0
  usable : UsableHost v.ip v.mask

end Wolf.Dhcp
