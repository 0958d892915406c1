import Verif.Mcast.Props
import Verif.Csum.Checksum
/-! # C127: the membership report on the wire

`igmp_send_report` (src/wolfip.c 4473–4548) fills a zeroed 54-byte frame by stores at fixed offsets: 14 bytes of
Ethernet header, 24 of IP header with the Router Alert option, 16 of IGMPv3 report with one group record. The
model makes the same stores in the same order. Bytes are naturals below 256. Not modelled: the ESP branch
(4533–4545) and the VLAN tag added further down (C40). -/
namespace Wolf.Mcast.Wire
open Wolf.Csum

/-! ## Specification: what a multicast router makes of an IP packet (RFC 791, RFC 2113, RFC 3376 §4.2) -/

/-- Big-endian 16-bit field. -/
def f16 (p : List Nat) (o : Nat) : Nat := p.getD o 0 * 256 + p.getD (o + 1) 0
/-- Big-endian 32-bit field. -/
def f32 (p : List Nat) (o : Nat) : Nat := f16 p o * 65536 + f16 p (o + 2)

/-- The one's complement sum of the 16-bit words is minus zero (RFC 1071). -/
def SumOk (p : List Nat) : Prop := (words p).sum ≠ 0 ∧ (words p).sum % 65535 = 0

/-- The packet is an IGMPv3 report from `src` with exactly one record, of type `rtype` for `group`, with no sources,
that a router must accept: whole, both checksums right, link-local scope, carrying Router Alert, to 224.0.0.22. -/
structure Reports (p : List Nat) (src rtype group : Nat) : Prop where
  bytes : ∀ b ∈ p, b < 256
  version : p.getD 0 0 / 16 = 4
  ihl : p.getD 0 0 % 16 = 6
  total : f16 p 2 = p.length
  unfragmented : f16 p 6 = 0
  ttl : p.getD 8 0 = 1
  proto : p.getD 9 0 = 2
  header : SumOk (p.take 24)
  source : f32 p 12 = src
  dest : f32 p 16 = 0xE0000016
  alert : (p.drop 20).take 4 = [0x94, 4, 0, 0]
  message : SumOk (p.drop 24)
  whole : (p.drop 24).length = 8 + 8 * 1
  type : p.getD 24 0 = 0x22
  records : f16 p 30 = 1
  rtype : p.getD 32 0 = rtype
  aux : p.getD 33 0 = 0
  sources : f16 p 34 = 0
  group : f32 p 36 = group

/-- The Ethernet header in front of a packet for group address `dst` (RFC 1112 §6.4: 01-00-5E and the low 23 bits). -/
structure Framed (e : List Nat) (mac : List Nat) (dst : Nat) : Prop where
  dst : e.take 6 = [0x01, 0x00, 0x5e, dst / 65536 % 128, dst / 256 % 256, dst % 256]
  src : (e.drop 6).take 6 = mac
  type : e.drop 12 = [0x08, 0x00]

/-! ## Model -/

/-- One byte store. -/
def b (f : List Nat) (o v : Nat) : List Nat := f.set o (v % 256)
/-- `put_be16`. src/wolfip.c 1894–1898. -/
def be16 (f : List Nat) (o v : Nat) : List Nat := (f.set o (v / 256 % 256)).set (o + 1) (v % 256)
/-- `put_be32`. src/wolfip.c 1900–1904. -/
def be32 (f : List Nat) (o v : Nat) : List Nat :=
  (((f.set o (v / 16777216 % 256)).set (o + 1) (v / 65536 % 256)).set (o + 2) (v / 256 % 256)).set (o + 3) (v % 256)
/-- `ip_checksum_buf(f + o, len)`. src/wolfip.c 1877–1892. -/
def ckBuf (f : List Nat) (o len : Nat) : Nat := inv16 (fold (sum32 ((f.drop o).take len) 0))
/-- `mcast_ip_to_eth`. src/wolfip.c 1906–1914. -/
def mcastMac (g : Nat) : List Nat := [0x01, 0x00, 0x5e, g / 65536 % 128, g / 256 % 256, g % 256]

/-- The IP header stores. src/wolfip.c 4495–4511; `id` is what `ipcounter_next` gave (1847–1852). -/
def ipPart (ip id : Nat) : List Nat :=
  let f := List.replicate 54 0
  let f := b f 14 0x46
  let f := b f 15 0
  let f := be16 f 16 40
  let f := be16 f 18 id
  let f := be16 f 20 0
  let f := b f 22 1
  let f := b f 23 2
  let f := be32 f 26 ip
  let f := be32 f 30 0xE0000016
  let f := b f 34 0x94
  let f := b f 35 4
  let f := b f 36 0
  let f := b f 37 0
  be16 f 24 (ckBuf f 14 24)

/-- The IGMP stores. src/wolfip.c 4513–4525. -/
def igmpPart (f : List Nat) (rtype group : Nat) : List Nat :=
  let f := b f 38 0x22
  let f := b f 39 0
  let f := b f 42 0
  let f := b f 43 0
  let f := b f 44 0
  let f := b f 45 1
  let f := b f 46 rtype
  let f := b f 47 0
  let f := b f 48 0
  let f := b f 49 0
  let f := be32 f 50 group
  be16 f 40 (ckBuf f 38 16)

/-- `eth_output_add_header` with the group's MAC (src/wolfip.c 4452–4470), then the rest of the frame. -/
def ethPart (f mac : List Nat) : List Nat := mcastMac 0xE0000016 ++ mac ++ [0x08, 0x00] ++ f.drop 14

/-- `igmp_send_report` and `wolfIP_ll_send_frame` (1726–1790): what the driver is handed, or `none` when the report is
refused. `ip` is the interface address (`none`: no such interface), `mtu` its frame MTU. src/wolfip.c 4473–4548. -/
def sendReport (ip : Option Nat) (nonEth : Bool) (mac : List Nat) (mtu id group rtype : Nat) : Option (List Nat) :=
  if isMcast group = false then none
  else match ip with
    | none => none
    | some a =>
      if a = 0 then none
      else
        let f := igmpPart (ipPart a id) rtype group
        if 54 > mtu then none
        else if nonEth then some (f.drop 14)
        else some (ethPart f mac)

/-! ## Proofs -/

theorem inv16_lt (n : Nat) : inv16 n < 65536 := by simp only [inv16]; omega

/-- The header as a list, `c` being its checksum. -/
def hdr (ip id c : Nat) : List Nat :=
  [0x46, 0, 0, 40, id / 256 % 256, id % 256, 0, 0, 1, 2, c / 256 % 256, c % 256,
   ip / 16777216 % 256, ip / 65536 % 256, ip / 256 % 256, ip % 256, 0xE0, 0, 0, 0x16, 0x94, 4, 0, 0]

/-- The message as a list, `c` being its checksum. -/
def msg (rtype group c : Nat) : List Nat :=
  [0x22, 0, c / 256 % 256, c % 256, 0, 0, 0, 1, rtype % 256, 0, 0, 0,
   group / 16777216 % 256, group / 65536 % 256, group / 256 % 256, group % 256]

def hc (ip id : Nat) : Nat := inv16 (fold (sum32 (hdr ip id 0) 0))
def mc (rtype group : Nat) : Nat := inv16 (fold (sum32 (msg rtype group 0) 0))

theorem ipPart_eq (ip id : Nat) : ipPart ip id = List.replicate 14 0 ++ hdr ip id (hc ip id) ++ List.replicate 16 0 := by
  simp [ipPart, b, be16, be32, ckBuf, hdr, hc, List.replicate]

theorem igmpPart_eq (h : List Nat) (hl : h.length = 24) (rtype group : Nat) :
    igmpPart (List.replicate 14 0 ++ h ++ List.replicate 16 0) rtype group = List.replicate 14 0 ++ h ++ msg rtype group (mc rtype group) := by
  match h, hl with
  | [a0,a1,a2,a3,a4,a5,a6,a7,a8,a9,a10,a11,a12,a13,a14,a15,a16,a17,a18,a19,a20,a21,a22,a23], _ =>
    simp [igmpPart, b, be16, be32, ckBuf, msg, mc, List.replicate]

theorem sum_hdr (ip id c : Nat) (hc : c < 65536) : (words (hdr ip id c)).sum = (words (hdr ip id 0)).sum + c := by
  simp only [hdr, words, List.sum_cons, List.sum_nil]; omega

theorem sum_msg (r g c : Nat) (hc : c < 65536) : (words (msg r g c)).sum = (words (msg r g 0)).sum + c := by
  simp only [msg, words, List.sum_cons, List.sum_nil]; omega

theorem ok_of (z S : Nat) (h : fold (z + S) = 65535) : z + S ≠ 0 ∧ (z + S) % 65535 = 0 := (fold_ok_iff _).mp h

theorem hdr_bytes (ip id c : Nat) : Bytes (hdr ip id c) := by
  intro x hx; simp only [hdr, List.mem_cons, List.not_mem_nil, or_false] at hx; omega
theorem msg_bytes (r g c : Nat) : Bytes (msg r g c) := by
  intro x hx; simp only [msg, List.mem_cons, List.not_mem_nil, or_false] at hx; omega

theorem hdr_ok (ip id : Nat) : SumOk (hdr ip id (hc ip id)) := by
  have bd := wsum_bound (hdr ip id 0) (hdr_bytes ip id 0) (by simp [hdr])
  have e : hc ip id = inv16 (fold (words (hdr ip id 0)).sum) := by
    unfold hc; rw [sum32_eq _ 0 (by omega)]; simp [wsum]
  unfold SumOk
  rw [e, sum_hdr _ _ _ (inv16_lt _)]
  exact ok_of _ _ (fill_ok _)

theorem msg_ok (r g : Nat) : SumOk (msg r g (mc r g)) := by
  have bd := wsum_bound (msg r g 0) (msg_bytes r g 0) (by simp [msg])
  have e : mc r g = inv16 (fold (words (msg r g 0)).sum) := by
    unfold mc; rw [sum32_eq _ 0 (by omega)]; simp [wsum]
  unfold SumOk
  rw [e, sum_msg _ _ _ (inv16_lt _)]
  exact ok_of _ _ (fill_ok _)

theorem packet_ok (ip id r g : Nat) (hi : ip < 4294967296) (hr : r < 256) (hg : g < 4294967296) :
    Reports (hdr ip id (hc ip id) ++ msg r g (mc r g)) ip r g := by
  have l : (hdr ip id (hc ip id)).length = 24 := rfl
  have h1 := hdr_ok ip id
  have h2 := msg_ok r g
  have b1 := hdr_bytes ip id (hc ip id)
  have b2 := msg_bytes r g (mc r g)
  generalize hc ip id = c at *
  generalize mc r g = d at *
  refine ⟨?_, by simp [hdr], by simp [hdr], by simp [f16, hdr, msg], by simp [f16, hdr], by simp [hdr], by simp [hdr], ?_, ?_, ?_, by simp [hdr], ?_, by simp [hdr, msg], by simp [hdr, msg], by simp [f16, hdr, msg], ?_, by simp [hdr, msg], by simp [f16, hdr, msg], ?_⟩
  · intro x hx
    rcases List.mem_append.mp hx with h | h
    · exact b1 x h
    · exact b2 x h
  · rw [List.take_left' l]; exact h1
  · show (ip / 16777216 % 256 * 256 + ip / 65536 % 256) * 65536 + (ip / 256 % 256 * 256 + ip % 256) = ip
    omega
  · simp [f32, f16, hdr]
  · rw [List.drop_left' l]; exact h2
  · show r % 256 = r
    omega
  · show (g / 16777216 % 256 * 256 + g / 65536 % 256) * 65536 + (g / 256 % 256 * 256 + g % 256) = g
    omega

/-- **C127, the bytes.** Whatever address, identification, group and record type: a report that goes to the driver is
an IGMPv3 report a router must accept, naming the interface's address, the group and the record type; on an Ethernet
link it is addressed to the MAC of 224.0.0.22, otherwise the bare packet is handed over. It goes out exactly when the
group is multicast, the interface exists with an address, and 54 bytes fit its MTU. -/
theorem report_wire (ip : Option Nat) (nonEth : Bool) (mac : List Nat) (mtu id g r : Nat)
    (hi : ∀ a, ip = some a → a < 4294967296) (hg : g < 4294967296) (hr : r < 256) (hm : mac.length = 6) :
    (∀ f, sendReport ip nonEth mac mtu id g r = some f →
      ∃ a, ip = some a ∧
        (if nonEth then Reports f a r g
         else Framed (f.take 14) mac 0xE0000016 ∧ Reports (f.drop 14) a r g) ∧
        f.length = if nonEth then 40 else 54) ∧
    ((sendReport ip nonEth mac mtu id g r).isSome ↔ g / 2 ^ 28 = 14 ∧ (∃ a, ip = some a ∧ a ≠ 0) ∧ 54 ≤ mtu) := by
  have iff : isMcast g = false ↔ ¬ g / 2 ^ 28 = 14 := by simp [isMcast]
  unfold sendReport
  by_cases h1 : isMcast g = false
  · rw [if_pos h1]
    exact ⟨nofun, by simp, fun h => absurd h.1 (iff.mp h1)⟩
  rw [if_neg h1]
  have h1' : g / 2 ^ 28 = 14 := by
    by_cases e : g / 2 ^ 28 = 14
    · exact e
    · exact absurd (iff.mpr e) h1
  cases ip with
  | none => exact ⟨nofun, by simp, fun h => by obtain ⟨_, ⟨a, e, _⟩, _⟩ := h; cases e⟩
  | some a =>
    dsimp only
    by_cases h2 : a = 0
    · rw [if_pos h2]
      exact ⟨nofun, by simp, fun h => by obtain ⟨_, ⟨a', e, h3⟩, _⟩ := h; cases e; exact absurd h2 h3⟩
    rw [if_neg h2]
    by_cases h3 : 54 > mtu
    · rw [if_pos h3]
      exact ⟨nofun, by simp, fun h => by omega⟩
    rw [if_neg h3, ipPart_eq, igmpPart_eq _ rfl, List.append_assoc]
    have hd : (List.replicate 14 0 ++ (hdr a id (hc a id) ++ msg r g (mc r g))).drop 14 = hdr a id (hc a id) ++ msg r g (mc r g) :=
      List.drop_left' (List.length_replicate ..)
    have ok := packet_ok a id r g (hi a rfl) hr hg
    have len : (hdr a id (hc a id) ++ msg r g (mc r g)).length = 40 := rfl
    generalize hdr a id (hc a id) ++ msg r g (mc r g) = p at *
    refine ⟨?_, ?_⟩
    · intro f hf
      refine ⟨a, rfl, ?_⟩
      cases nonEth with
      | true =>
        simp only [if_true, Option.some.injEq] at hf
        rw [hd] at hf
        subst hf
        exact ⟨ok, len⟩
      | false =>
        simp only [Bool.false_eq_true, if_false, Option.some.injEq] at hf
        unfold ethPart at hf
        rw [hd] at hf
        subst hf
        have l14 : (mcastMac 0xE0000016 ++ mac ++ [0x08, 0x00]).length = 14 := by simp [mcastMac, hm]
        simp only [Bool.false_eq_true, if_false]
        rw [List.take_left' l14, List.drop_left' l14]
        refine ⟨⟨?_, ok⟩, by rw [List.length_append, l14, len]⟩
        match mac, hm with
        | [m0, m1, m2, m3, m4, m5], _ => exact ⟨rfl, rfl, rfl⟩
    · constructor
      · intro _; exact ⟨h1', ⟨a, rfl, h2⟩, by omega⟩
      · intro _; cases nonEth <;> rfl

/-- The record type of a report of the membership model (C42, C43). -/
def rtypeOf (r : Report) : Nat := if r.leave then 3 else 2

/-- The membership model's `report` records a report exactly when the driver is handed its frame (frame MTU at least
54): the reports of C42 and C43 are frames on the wire. -/
theorem report_is_frame (s : St) (i g : Nat) (leave nonEth : Bool) (mac : List Nat) (mtu id : Nat) (hm : 54 ≤ mtu) :
    report s i g leave = [⟨i, g, leave⟩] ∧ (sendReport s.ips[i]? nonEth mac mtu id g (rtypeOf ⟨i, g, leave⟩)).isSome ∨
    report s i g leave = [] ∧ sendReport s.ips[i]? nonEth mac mtu id g (rtypeOf ⟨i, g, leave⟩) = none := by
  unfold report sendReport
  cases h : s.ips[i]? with
  | none => right; simp
  | some a =>
    dsimp only
    by_cases h1 : isMcast g = false
    · right; rw [if_pos h1, if_pos h1]; exact ⟨rfl, rfl⟩
    rw [if_neg h1, if_neg h1]
    by_cases h2 : a = 0
    · right; rw [if_pos h2, if_pos h2]; exact ⟨rfl, rfl⟩
    rw [if_neg h2, if_neg h2, if_neg (by omega)]
    left; exact ⟨rfl, by cases nonEth <;> rfl⟩

/-- **Finding.** RFC 3376 §5.1 announces a new membership with a CHANGE_TO_EXCLUDE_MODE record (type 4); no report of
this stack carries one, so a router hears of a join only as a current-state record (type 2). -/
theorem join_record_is_current_state (r : Report) : rtypeOf r ≠ 4 := by
  unfold rtypeOf; split <;> omega

/-- **C127, group addresses.** The group's Ethernet address is 01:00:5e followed by a zero bit and the low 23 bits of the
group, so exactly the groups that agree in those 23 bits share it (RFC 1112 §6.4). -/
theorem group_mac (g h : Nat) :
    (mcastMac g).take 3 = [0x01, 0x00, 0x5e] ∧ (mcastMac g).length = 6 ∧ (mcastMac g).getD 3 0 < 128 ∧
    (mcastMac g = mcastMac h ↔ g % 8388608 = h % 8388608) := by
  refine ⟨rfl, rfl, by show g / 65536 % 128 < 128; omega, ?_⟩
  simp only [mcastMac, List.cons.injEq, true_and, and_true]
  omega

/-! ## Examples -/

/-- 10.0.0.2 joins 239.1.2.3: the frame of the report. -/
example : (sendReport (some 0x0A000002) false [2, 0, 0, 0, 0, 7] 1514 1 0xEF010203 2).map (fun f => f.drop 14) =
    some [0x46, 0, 0, 40, 0, 1, 0, 0, 1, 2, 0x3a, 0xb7, 10, 0, 0, 2, 224, 0, 0, 22, 0x94, 4, 0, 0,
          0x22, 0, 0xea, 0xf9, 0, 0, 0, 1, 2, 0, 0, 0, 239, 1, 2, 3] := by decide +kernel

end Wolf.Mcast.Wire
