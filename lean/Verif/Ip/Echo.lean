import Verif.Ip.Errors
/-!
# C63: echo requests

`icmp_input` (src/wolfip.c 8212–8314) reached from `ip_recv`. The Ethernet header of the reply (`eth_output_add_header`)
is not modelled.
-/
namespace Wolf.IpIn
open Wolf.Route (Ip Conf)
open Wolf.Csum (Bytes words put16 ipSet ipVerify icmpChecksum icmpFill)

/-- What answers the frame `f` arriving on interface `i`: the echo reply, if any (with `f`'s Ethernet header). -/
def echoed (n : Net) (i : Nat) (f : List Nat) (veto arp vetoIn vetoOut : Bool) (id : Nat) : Option (List Nat) :=
  match ipRecv n i f veto arp with
  | .deliver 1 g => match icmpIn n g vetoIn vetoOut id with | .reply r => some r | _ => none
  | _ => none

/-! ## Specification -/

/-- `r` is the right answer to the request `g` (no IP options in either): the addresses are exchanged, type and code are
0, identifier, sequence number and data are those of the request, no byte is added, and both checksums are right. -/
structure EchoAnswer (g r : List Nat) : Prop where
  len : r.length = g.length
  hdr : u8 r 14 = 0x45
  total : IpIn.tot r = IpIn.tot g
  src : IpIn.src r = IpIn.dst g
  dst : IpIn.dst r = IpIn.src g
  ttl : IpIn.ttl r = 64
  proto : IpIn.proto r = 1
  type : u8 r 34 = 0
  code : u8 r 35 = 0
  rest : r.drop 38 = g.drop 38
  sum : SumOk ((r.drop 14).take 20)
  icmpSum : SumOk ((r.drop 34).take (tot g - 20))

/-! ## Proof -/

theorem put16_drop (p : List Nat) (off v k : Nat) (h : off + 2 ≤ k) : (put16 p off v).drop k = p.drop k := by
  apply List.ext_getElem?
  intro j
  rw [List.getElem?_drop, List.getElem?_drop, Csum.put16_agrees _ _ _ _ (by omega) (by omega)]

theorem set_drop (p : List Nat) (i v k : Nat) (h : i < k) : (p.set i v).drop k = p.drop k := by
  apply List.ext_getElem?
  intro j
  rw [List.getElem?_drop, List.getElem?_drop, List.getElem?_set_ne (by omega)]

theorem set_bytes (p : List Nat) (i v : Nat) (hb : Bytes p) (hv : v < 256) : Bytes (p.set i v) := by
  intro x hx
  rcases List.mem_or_eq_of_mem_set hx with h | h
  · exact hb x h
  · rw [h]; exact hv

theorem put16_take_ge (p : List Nat) (off v n : Nat) (h : off + 1 < n) : (put16 p off v).take n = put16 (p.take n) off v := by
  rw [put16, put16, List.take_set, List.take_set]

/-- The ICMP part of the reply. -/
theorem echo_msg (m : List Nat) (hb : Bytes m) (L : Nat) (h8 : 8 ≤ L) (hl : L ≤ m.length) (hL : L ≤ 65535) :
    let z := put16 ((m.set 0 0).set 1 0) 2 0
    let r := put16 z 2 (icmpChecksum z L)
    SumOk (r.take L) ∧ r.length = m.length ∧ r.getD 0 0 = 0 ∧ r.getD 1 0 = 0 ∧ r.drop 4 = m.drop 4 := by
  intro z r
  have hb2 : Bytes ((m.set 0 0).set 1 0) := set_bytes _ _ _ (set_bytes _ _ _ hb (by omega)) (by omega)
  have htl : (((m.set 0 0).set 1 0).take L).length = L := by rw [List.length_take, List.length_set, List.length_set]; omega
  have e1 : r.take L = icmpFill (((m.set 0 0).set 1 0).take L) (((m.set 0 0).set 1 0).take L).length := by
    show (put16 z 2 (icmpChecksum z L)).take L = _
    rw [put16_take_ge _ _ _ _ (by omega), icmpFill, htl]
    have hz : z.take L = put16 (((m.set 0 0).set 1 0).take L) 2 0 := put16_take_ge _ _ _ _ (by omega)
    rw [hz]
    have : icmpChecksum z L = icmpChecksum (put16 (((m.set 0 0).set 1 0).take L) 2 0) L := by
      rw [icmpChecksum, icmpChecksum, ← hz, List.take_take, Nat.min_self]
    rw [this]
  have hic := Csum.icmp_checksum_verifies _ (Csum.bytes_take _ L hb2) (by rw [htl]; omega) (by rw [htl]; omega)
  have hfl : (icmpFill (((m.set 0 0).set 1 0).take L) (((m.set 0 0).set 1 0).take L).length).length = L := by
    rw [icmpFill]; rw [Csum.put16_length, Csum.put16_length, htl]
  have hfb : Bytes (icmpFill (((m.set 0 0).set 1 0).take L) (((m.set 0 0).set 1 0).take L).length) := by
    rw [icmpFill]
    exact Csum.put16_bytes _ _ _ (Csum.put16_bytes _ _ _ (Csum.bytes_take _ L hb2) (by omega)) (by rw [icmpChecksum, Csum.inv16]; omega)
  refine ⟨?_, ?_, ?_, ?_, ?_⟩
  · rw [e1]
    refine sumOk_of_icmp _ hfb (by rw [hfl]; omega) (by rw [hfl]; omega) ?_
    have := hic.1
    rw [hfl]
    rw [htl] at this ⊢
    exact this
  · show (put16 (put16 _ 2 0) 2 _).length = _
    rw [Csum.put16_length, Csum.put16_length, List.length_set, List.length_set]
  · show (put16 (put16 _ 2 0) 2 _).getD 0 0 = 0
    rw [List.getD_eq_getElem?_getD, Csum.put16_agrees _ _ _ _ (by omega) (by omega), Csum.put16_agrees _ _ _ _ (by omega) (by omega),
      List.getElem?_set_ne (by omega), List.getElem?_set_self (by omega)]; rfl
  · show (put16 (put16 _ 2 0) 2 _).getD 1 0 = 0
    rw [List.getD_eq_getElem?_getD, Csum.put16_agrees _ _ _ _ (by omega) (by omega), Csum.put16_agrees _ _ _ _ (by omega) (by omega),
      List.getElem?_set_self (by rw [List.length_set]; omega)]; rfl
  · show (put16 (put16 _ 2 0) 2 _).drop 4 = _
    rw [put16_drop _ _ _ _ (by omega), put16_drop _ _ _ _ (by omega), set_drop _ _ _ _ (by omega), set_drop _ _ _ _ (by omega)]

/-- The header of the reply before its checksum. -/
def echoHdr (f : List Nat) (id : Nat) : List Nat :=
  put16 (put16 (((f.drop 14).take 12 ++ ((f.drop 30).take 4 ++ (f.drop 26).take 4)).set 8 64) 4 (id % 65536)) 6 0x4000

theorem echoReply_eq (f : List Nat) (id : Nat) : echoReply f id = f.take 14 ++ ipSet (echoHdr f id) ++
    (put16 (put16 (((f.drop 34).set 0 0).set 1 0) 2 0) 2 (icmpChecksum (put16 (((f.drop 34).set 0 0).set 1 0) 2 0) (tot f - 20))) := rfl

theorem echo_answer (g : List Nat) (hb : Bytes g) (id : Nat) (h42 : 42 ≤ g.length) (hv : u8 g 14 = 0x45) (ht : 28 ≤ tot g) (hl : 14 + tot g ≤ g.length)
    (hp : proto g = 1) : EchoAnswer g (echoReply g id) := by
  have htl := tot_lt g hb
  obtain ⟨m1, m2, m3, m4, m5⟩ := echo_msg (g.drop 34) (bytes_drop _ _ hb) (tot g - 20) (by omega) (by rw [List.length_drop]; omega) (by omega)
  have hHl : (echoHdr g id).length = 20 := by
    rw [echoHdr, Csum.put16_length, Csum.put16_length, List.length_set, List.length_append, List.length_append]
    simp only [List.length_take, List.length_drop]; omega
  have hbase : ∀ k, k < 20 → ((g.drop 14).take 12 ++ ((g.drop 30).take 4 ++ (g.drop 26).take 4))[k]? =
      if k < 12 then g[14 + k]? else if k < 16 then g[18 + k]? else g[10 + k]? := by
    intro k hk
    have l1 : ((g.drop 14).take 12).length = 12 := by rw [List.length_take, List.length_drop]; omega
    have l2 : ((g.drop 30).take 4).length = 4 := by rw [List.length_take, List.length_drop]; omega
    by_cases c : k < 12
    · rw [if_pos c, List.getElem?_append_left (by omega), List.getElem?_take, if_pos c, List.getElem?_drop]
    · rw [if_neg c, List.getElem?_append_right (by omega), l1]
      by_cases d : k < 16
      · rw [if_pos d, List.getElem?_append_left (by omega), List.getElem?_take, if_pos (by omega), List.getElem?_drop]
        congr 1; omega
      · rw [if_neg d, List.getElem?_append_right (by omega), l2, List.getElem?_take, if_pos (by omega), List.getElem?_drop]
        congr 1; omega
  have hHb : Bytes (echoHdr g id) := by
    refine Csum.put16_bytes _ _ _ (Csum.put16_bytes _ _ _ (set_bytes _ _ _ ?_ (by omega)) (by omega)) (by omega)
    intro x hx
    rcases List.mem_append.mp hx with hx | hx
    · exact hb x (List.mem_of_mem_drop (List.mem_of_mem_take hx))
    rcases List.mem_append.mp hx with hx | hx <;> exact hb x (List.mem_of_mem_drop (List.mem_of_mem_take hx))
  have hget : ∀ k, k < 20 → k ≠ 4 → k ≠ 5 → k ≠ 6 → k ≠ 7 → k ≠ 8 → (echoHdr g id)[k]? =
      if k < 12 then g[14 + k]? else if k < 16 then g[18 + k]? else g[10 + k]? := by
    intro k hk k4 k5 k6 k7 k8
    rw [echoHdr, Csum.put16_agrees _ _ _ _ (by omega) (by omega), Csum.put16_agrees _ _ _ _ (by omega) (by omega), List.getElem?_set_ne (by omega), hbase k hk]
  have hg8 : (echoHdr g id)[8]? = some 64 := by
    rw [echoHdr, Csum.put16_agrees _ _ _ _ (by omega) (by omega), Csum.put16_agrees _ _ _ _ (by omega) (by omega), List.getElem?_set_self]
    rw [List.length_append, List.length_append]
    simp only [List.length_take, List.length_drop]; omega
  have h0 : (echoHdr g id).getD 0 0 = 0x45 := by
    rw [List.getD_eq_getElem?_getD, hget 0 (by omega) (by omega) (by omega) (by omega) (by omega) (by omega), if_pos (by omega), ← List.getD_eq_getElem?_getD]
    exact hv
  have hfill := Csum.ip_checksum_verifies (echoHdr g id) hHb (by rw [h0]) (by rw [h0]; decide) (by rw [h0, hHl]; decide)
  have hSl : (ipSet (echoHdr g id)).length = 20 := by rw [ipSet_length, hHl]
  have hSb : Bytes (ipSet (echoHdr g id)) := by
    rw [ipSet]
    exact Csum.put16_bytes _ _ _ (Csum.put16_bytes _ _ _ hHb (by omega)) (by rw [Csum.inv16]; omega)
  have hS : ∀ k, k < 20 → k ≠ 4 → k ≠ 5 → k ≠ 6 → k ≠ 7 → k ≠ 8 → k ≠ 10 → k ≠ 11 → (ipSet (echoHdr g id))[k]? =
      if k < 12 then g[14 + k]? else if k < 16 then g[18 + k]? else g[10 + k]? := by
    intro k hk k4 k5 k6 k7 k8 k10 k11
    rw [hfill.2 k k10 k11, hget k hk k4 k5 k6 k7 k8]
  have hS8 : (ipSet (echoHdr g id))[8]? = some 64 := by rw [hfill.2 8 (by omega) (by omega), hg8]
  have hSsum : SumOk (ipSet (echoHdr g id)) := by
    have := ipVerify_sum _ hSb hfill.1
    rw [List.getD_eq_getElem?_getD, hfill.2 0 (by omega) (by omega), ← List.getD_eq_getElem?_getD, h0, List.take_of_length_le (by rw [hSl]; decide)] at this
    exact this
  rw [echoReply_eq]
  generalize ipSet (echoHdr g id) = S at *
  generalize put16 (put16 (((g.drop 34).set 0 0).set 1 0) 2 0) 2 (icmpChecksum (put16 (((g.drop 34).set 0 0).set 1 0) 2 0) (tot g - 20)) = M at *
  have h14 : (g.take 14).length = 14 := by rw [List.length_take]; omega
  have hMl : M.length = g.length - 34 := by rw [m2, List.length_drop]
  have rS : ∀ k, k < 20 → (g.take 14 ++ S ++ M)[14 + k]? = S[k]? := by
    intro k hk
    rw [List.getElem?_append_left (by rw [List.length_append]; omega), List.getElem?_append_right (by omega), h14, Nat.add_sub_cancel_left]
  have rM : ∀ k, (g.take 14 ++ S ++ M)[34 + k]? = M[k]? := by
    intro k
    rw [List.getElem?_append_right (by rw [List.length_append]; omega), List.length_append, h14, hSl]
    congr 1; omega
  have dS : (g.take 14 ++ S ++ M).drop 14 = S ++ M := by rw [List.append_assoc, List.drop_left' h14]
  have dM : (g.take 14 ++ S ++ M).drop 34 = M := List.drop_left' (by rw [List.length_append, h14, hSl])
  generalize hR : g.take 14 ++ S ++ M = R at *
  have rU : ∀ k, k < 20 → k ≠ 4 → k ≠ 5 → k ≠ 6 → k ≠ 7 → k ≠ 8 → k ≠ 10 → k ≠ 11 →
      u8 R (14 + k) = u8 g (if k < 12 then 14 + k else if k < 16 then 18 + k else 10 + k) := by
    intro k hk k4 k5 k6 k7 k8 k10 k11
    rw [u8, u8, List.getD_eq_getElem?_getD, List.getD_eq_getElem?_getD, rS k hk, hS k hk k4 k5 k6 k7 k8 k10 k11]
    by_cases c : k < 12
    · rw [if_pos c, if_pos c]
    · rw [if_neg c, if_neg c]
      by_cases d : k < 16
      · rw [if_pos d, if_pos d]
      · rw [if_neg d, if_neg d]
  refine ⟨?_, ?_, ?_, ?_, ?_, ?_, ?_, ?_, ?_, ?_, ?_, ?_⟩
  · rw [← hR, List.length_append, List.length_append, h14, hSl, hMl]; omega
  · rw [← hv]; exact rU 0 (by omega) (by omega) (by omega) (by omega) (by omega) (by omega) (by omega) (by omega)
  · rw [tot, tot, u16, u16, show 16 = 14 + 2 from rfl, rU 2 (by omega) (by omega) (by omega) (by omega) (by omega) (by omega) (by omega) (by omega),
      show 14 + 2 + 1 = 14 + 3 from rfl, rU 3 (by omega) (by omega) (by omega) (by omega) (by omega) (by omega) (by omega) (by omega)]
    rfl
  · rw [src, dst, ipAt, ipAt, show 26 = 14 + 12 from rfl, rU 12 (by omega) (by omega) (by omega) (by omega) (by omega) (by omega) (by omega) (by omega),
      show 14 + 12 + 1 = 14 + 13 from rfl, rU 13 (by omega) (by omega) (by omega) (by omega) (by omega) (by omega) (by omega) (by omega),
      show 14 + 12 + 2 = 14 + 14 from rfl, rU 14 (by omega) (by omega) (by omega) (by omega) (by omega) (by omega) (by omega) (by omega),
      show 14 + 12 + 3 = 14 + 15 from rfl, rU 15 (by omega) (by omega) (by omega) (by omega) (by omega) (by omega) (by omega) (by omega)]
    rfl
  · rw [src, dst, ipAt, ipAt, show 30 = 14 + 16 from rfl, rU 16 (by omega) (by omega) (by omega) (by omega) (by omega) (by omega) (by omega) (by omega),
      show 14 + 16 + 1 = 14 + 17 from rfl, rU 17 (by omega) (by omega) (by omega) (by omega) (by omega) (by omega) (by omega) (by omega),
      show 14 + 16 + 2 = 14 + 18 from rfl, rU 18 (by omega) (by omega) (by omega) (by omega) (by omega) (by omega) (by omega) (by omega),
      show 14 + 16 + 3 = 14 + 19 from rfl, rU 19 (by omega) (by omega) (by omega) (by omega) (by omega) (by omega) (by omega) (by omega)]
    rfl
  · rw [ttl, u8, List.getD_eq_getElem?_getD, show 22 = 14 + 8 from rfl, rS 8 (by omega), hS8]; rfl
  · rw [proto, show 23 = 14 + 9 from rfl, rU 9 (by omega) (by omega) (by omega) (by omega) (by omega) (by omega) (by omega) (by omega)]
    exact hp
  · rw [u8, List.getD_eq_getElem?_getD, show 34 = 34 + 0 from rfl, rM 0, ← List.getD_eq_getElem?_getD, m3]
  · rw [u8, List.getD_eq_getElem?_getD, show 35 = 34 + 1 from rfl, rM 1, ← List.getD_eq_getElem?_getD, m4]
  · rw [show 38 = 34 + 4 from rfl, ← List.drop_drop, dM, m5, List.drop_drop]
  · rw [dS, List.take_left' hSl]; exact hSsum
  · rw [dM]; exact m1

/-- **C63.** Whenever a frame makes the stack send an echo reply: the frame was a well-formed datagram, an echo request
(type 8) with a correct ICMP checksum, to a unicast address of this host, from a unicast source, while no DHCP
transaction runs; and the reply answers exactly that request, byte for byte, without growing it. -/
theorem echo_exact (n : Net) (i : Nat) (f : List Nat) (veto arp vetoIn vetoOut : Bool) (id : Nat) (hb : Bytes f) (r : List Nat)
    (h : echoed n i f veto arp vetoIn vetoOut id = some r) :
    WellFormed n i f ∧ n.dhcp = false ∧ ¬ Bcast n (dst f) ∧ ¬ Mcast (dst f) ∧ dst f ≠ 0 ∧ (∃ c ∈ n.rt.confs, c.ip = dst f) ∧
    ∃ g, Delivered f g ∧ u8 g 34 = 8 ∧ SumOk ((g.drop 34).take (tot g - 20)) ∧ EchoAnswer g r := by
  rw [echoed] at h
  generalize hr : ipRecv n i f veto arp = o at h
  cases o with
  | deliver p g =>
    by_cases hp : p = 1
    · subst hp
      simp only at h
      obtain ⟨hw, _, hd, hk1, _⟩ := ip_delivers_only_wellformed n i f veto arp hb 1 g hr
      have hgb : Bytes g := by
        rcases ipRecv_eq n i f veto arp with e1 | ⟨h1, h2, h3, ⟨q, h4, h5⟩ | ⟨h4, h5⟩⟩
        · rw [hr] at e1; cases e1
        · rw [hr] at h5; rw [← h5] at h4; exact absurd h4 (forwardBlock_not_deliver n i f arp 1 g)
        · rw [hr] at h5
          obtain ⟨d1, _⟩ := dispatch_spec f 1 g h5.symm
          rw [d1]
          by_cases c : hlen f > 20
          · rw [if_pos c, strip_eq, ipSet]
            intro x hx
            rcases List.mem_append.mp hx with hx | hx
            · exact hb x (List.mem_of_mem_take hx)
            · exact Csum.put16_bytes _ _ _ (Csum.put16_bytes _ _ _ (bytes_drop _ _ (cut_bytes f hb (tot_lt f hb))) (by omega)) (by rw [Csum.inv16]; omega) x hx
          · rw [if_neg c]; exact hb
      generalize hi : icmpIn n g vetoIn vetoOut id = q at h
      rw [icmpIn] at hi
      by_cases c1 : g.length < 42
      · rw [if_pos c1] at hi; subst hi; cases h
      rw [if_neg c1] at hi
      by_cases c2 : tot g < 28
      · rw [if_pos c2] at hi; subst hi; cases h
      rw [if_neg c2] at hi
      by_cases c3 : g.length < 14 + tot g
      · rw [if_pos c3] at hi; subst hi; cases h
      rw [if_neg c3] at hi
      by_cases c4 : icmpChecksum (g.drop 34) (tot g - 20) ≠ 0
      · rw [if_pos c4] at hi; subst hi; cases h
      rw [if_neg c4] at hi
      by_cases c5 : vetoIn = true
      · rw [if_pos c5] at hi; subst hi; cases h
      rw [if_neg c5] at hi
      by_cases c6 : u8 g 34 = 0
      · rw [if_pos c6] at hi
        by_cases d1 : Route.isBroadcast n.rt (dst g) = true ∨ isMcast (dst g) = true
        · rw [if_pos d1] at hi; subst hi; cases h
        rw [if_neg d1] at hi
        by_cases d2 : isLocal n (dst g) = false
        · rw [if_pos d2] at hi; subst hi; cases h
        rw [if_neg d2] at hi; subst hi; cases h
      rw [if_neg c6] at hi
      by_cases c7 : n.dhcp = false ∧ u8 g 34 = 8
      · rw [if_pos c7] at hi
        by_cases d1 : Route.isBroadcast n.rt (dst g) = true ∨ isMcast (dst g) = true
        · rw [if_pos d1] at hi; subst hi; cases h
        rw [if_neg d1] at hi
        by_cases d2 : isLocal n (dst g) = false
        · rw [if_pos d2] at hi; subst hi; cases h
        rw [if_neg d2] at hi
        by_cases d3 : vetoOut = true
        · rw [if_pos d3] at hi; subst hi; cases h
        rw [if_neg d3] at hi
        subst hi
        simp only [Option.some.injEq] at h
        have d2' : isLocal n (dst f) = true := by rw [← hd.dst]; simpa using d2
        rw [isLocal, Bool.and_eq_true, bne_iff_ne, List.any_eq_true] at d2'
        obtain ⟨l1, c, hc, he⟩ := d2'
        have hpg : proto g = 1 := by rw [hd.proto, ← hk1]
        have hlt : ((g.drop 34).take (tot g - 20)).length = tot g - 20 := by rw [List.length_take, List.length_drop]; omega
        have htt := tot_lt g hgb
        refine ⟨hw, c7.1, ?_, ?_, l1, ⟨c, hc, by simpa using he⟩, g, hd, c7.2, ?_, ?_⟩
        · intro b; exact d1 (Or.inl (by rw [hd.dst]; exact (isBroadcast_iff n _).mpr b))
        · intro b; exact d1 (Or.inr (by rw [hd.dst]; exact (isMcast_iff _).mpr b))
        · refine sumOk_of_icmp _ (Csum.bytes_take _ _ (bytes_drop _ _ hgb)) (by rw [hlt]; omega) (by rw [hlt]; omega) ?_
          have c4' : icmpChecksum (g.drop 34) (tot g - 20) = 0 := by simpa using c4
          rw [hlt, icmpChecksum, List.take_take, Nat.min_self]
          exact c4'
        · rw [← h]
          exact echo_answer g hgb id (by omega) hd.noOpts (by omega) (by omega) hpg
      · rw [if_neg c7] at hi; subst hi; cases h
    · have : (match Out.deliver p g with
        | .deliver 1 g => match icmpIn n g vetoIn vetoOut id with | .reply r => some r | _ => none
        | _ => none) = none := by
        split
        · rename_i x; cases x; exact absurd rfl hp
        · rfl
      rw [this] at h; cases h
  | drop => cases h
  | oob => cases h
  | ttlExceeded => cases h
  | park o nh ip => cases h
  | forward o ip => cases h

/-- **C63, no ping-pong.** An echo reply is itself never answered, by any stack. -/
theorem echo_reply_unanswered (g r : List Nat) (h : EchoAnswer g r) (n : Net) (vetoIn vetoOut : Bool) (id : Nat) (q : List Nat) :
    icmpIn n r vetoIn vetoOut id ≠ .reply q := by
  intro e
  rw [icmpIn] at e
  by_cases c1 : r.length < 42
  · rw [if_pos c1] at e; cases e
  rw [if_neg c1] at e
  by_cases c2 : tot r < 28
  · rw [if_pos c2] at e; cases e
  rw [if_neg c2] at e
  by_cases c3 : r.length < 14 + tot r
  · rw [if_pos c3] at e; cases e
  rw [if_neg c3] at e
  by_cases c4 : icmpChecksum (r.drop 34) (tot r - 20) ≠ 0
  · rw [if_pos c4] at e; cases e
  rw [if_neg c4] at e
  by_cases c5 : vetoIn = true
  · rw [if_pos c5] at e; cases e
  rw [if_neg c5, if_pos h.type] at e
  by_cases d1 : Route.isBroadcast n.rt (dst r) = true ∨ isMcast (dst r) = true
  · rw [if_pos d1] at e; cases e
  rw [if_neg d1] at e
  by_cases d2 : isLocal n (dst r) = false
  · rw [if_pos d2] at e; cases e
  rw [if_neg d2] at e; cases e

/-- A ping from 10.0.0.2 to 10.0.0.1, code 7, with four bytes of data. -/
def framePing : List Nat :=
  [2, 0, 0, 0, 0, 1, 2, 0, 0, 0, 0, 2, 8, 0] ++ ipSet [0x45, 0, 0, 32, 0, 1, 0, 0, 9, 1, 0, 0, 10, 0, 0, 2, 10, 0, 0, 1] ++
    icmpFill [8, 7, 0, 0, 0, 1, 0, 2, 5, 6, 7, 8] 12

/-- Non-vacuity: it is answered. -/
theorem echo_example : (echoed net2 0 framePing false false false false 77).map (fun r => r.drop 26) =
    some ([10, 0, 0, 1, 10, 0, 0, 2] ++ icmpFill [0, 0, 0, 0, 0, 1, 0, 2, 5, 6, 7, 8] 12) := by
  decide +kernel

end Wolf.IpIn
