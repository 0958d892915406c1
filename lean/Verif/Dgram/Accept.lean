import Verif.Dgram.SendRaw
/-!
# C82: what send calls accept, and what the accepted frame is
-/
namespace Wolf.Dgram
open Wolf.Route (Ip Conf)
open Wolf.IpIn (Net u8 u16 ipAt tot src dst hlen isMcast Mcast Bcast SumOk ipBytes)
open Wolf.Csum (Bytes ipSet icmpFill put16 icmpChecksum)

/-! ## Specification -/

/-- The ICMP message `body` is the caller's `buf` with a correct checksum and, in an echo request, the id `id`. -/
structure IcmpMsg (buf body : List Nat) (id : Nat) : Prop where
  len : body.length = buf.length
  sum : SumOk body
  same : ∀ n : Nat, n ≠ 2 → n ≠ 3 → ¬ (u8 buf 0 = 8 ∧ (n = 4 ∨ n = 5)) → body[n]? = buf[n]?
  echo : u8 buf 0 = 8 → u16 body 4 = id

/-- The source address an ICMP socket uses: the one it is bound to, which must still be this host's; else the one it has
used before; else an address of this host (or none, if it has none). -/
def IcmpSrc (n : Net) (c : Ic) (sip : Ip) : Prop :=
  (c.blip ≠ 0 → sip = c.blip ∧ ∃ f ∈ n.rt.confs, f.ip = sip) ∧ (c.blip = 0 → c.lip ≠ 0 → sip = c.lip) ∧
  (c.blip = 0 → c.lip = 0 → sip = 0 ∨ ∃ f ∈ n.rt.confs, f.ip = sip)

/-! ## ICMP -/

theorem ipMtu_le (devs : List Link.Dev) (i : Nat) : Link.ipMtu devs i ≤ 1500 := by
  rw [Link.ipMtu]
  generalize Link.frameMtu devs i = m
  split
  · omega
  · split <;> omega

theorem icSend_frame (e : Env) (used : Bool) (c : Ic) (to : Option Ip) (buf : List Nat) (rnd tos id : Nat) (room : Bool) (g : List Nat)
    (h : (icSend e used c to buf rnd tos id room).2.2 = some g) :
    to.getD c.rip ≠ 0 ∧ ∃ c2, icRoute e.net { c with rip := to.getD c.rip, id := if c.id = 0 then (if rnd % 65536 = 0 then 1 else rnd % 65536) else c.id } = some c2 ∧
      (icSend e used c to buf rnd tos id room).1 = c2 ∧ (icSend e used c to buf rnd tos id room).2.1 = .sent buf.length ∧ used = true ∧ room = true ∧
      8 ≤ buf.length ∧ buf.length + 20 ≤ Link.ipMtu e.devs (if c2.ifIdx ≥ e.devs.length then 0 else c2.ifIdx) ∧
      g = List.replicate 14 0 ++ icHdr c2.lip c2.rip tos (20 + buf.length) id ++ icBody c2.id buf := by
  revert h
  rw [icSend]
  dsimp only
  by_cases h0 : to.getD c.rip = 0
  · rw [if_pos h0]; intro h; cases h
  rw [if_neg h0]
  generalize ({ c with rip := to.getD c.rip, id := if c.id = 0 then (if rnd % 65536 = 0 then 1 else rnd % 65536) else c.id } : Ic) = c1
  cases hr : icRoute e.net c1 with
  | none => intro h; cases h
  | some c2 =>
    dsimp only
    generalize hm : (if used = true then Link.ipMtu e.devs (if c2.ifIdx ≥ e.devs.length then 0 else c2.ifIdx) else 0) = mtu
    by_cases c3 : mtu ≤ 20 ∨ buf.length < 8 ∨ buf.length > mtu - 20
    · rw [if_pos c3]; intro h; cases h
    · rw [if_neg c3]
      cases used with
      | false => rw [if_neg (by simp)] at hm; exact absurd (Or.inl (by omega)) c3
      | true =>
        rw [if_pos rfl] at hm
        cases room with
        | false => rw [if_pos rfl]; intro h; cases h
        | true =>
          rw [if_neg (by simp)]
          intro h
          refine ⟨h0, c2, rfl, rfl, rfl, rfl, rfl, by omega, by omega, (Option.some.inj h).symm⟩

theorem addrFor_mem (n : Route.St) (i : Nat) : addrFor n i 0 = 0 ∨ ∃ f ∈ n.confs, f.ip = addrFor n i 0 := by
  rw [addrFor]
  by_cases c1 : (n.confs.getD i ⟨0, 0, 0⟩).ip ≠ 0
  · rw [if_pos c1]
    right
    rw [List.getD_eq_getElem?_getD] at c1 ⊢
    cases hf : n.confs[i]? with
    | none => rw [hf] at c1; exact absurd rfl c1
    | some f => exact ⟨f, List.mem_of_getElem? hf, rfl⟩
  · rw [if_neg c1]
    by_cases c2 : Sock.anyAddr n ≠ 0
    · rw [if_pos c2]
      right
      rw [Sock.anyAddr] at c2 ⊢
      cases hf : n.confs[Route.primaryIf n]? with
      | none =>
        rw [List.getD_eq_getElem?_getD, hf] at c2
        exact absurd rfl c2
      | some f =>
        rw [List.getD_eq_getElem?_getD, hf]
        exact ⟨f, List.mem_of_getElem? hf, rfl⟩
    · rw [if_neg c2]; exact Or.inl rfl

theorem icRoute_src (n : Net) (c c2 : Ic) (h : icRoute n c = some c2) : IcmpSrc n c c2.lip ∧ c2.rip = c.rip ∧ c2.id = c.id := by
  rw [icRoute] at h
  by_cases h1 : c.blip ≠ 0
  · rw [if_pos h1] at h
    by_cases h2 : IpIn.isLocal n c.blip = false
    · rw [if_pos h2] at h; cases h
    · rw [if_neg h2] at h
      have h := (Option.some.inj h).symm
      have hl := (isLocal_iff n c.blip).mp (by simpa using h2)
      refine ⟨⟨fun _ => ?_, fun c => absurd c h1, fun c => absurd c h1⟩, ?_, ?_⟩
      · rw [h]; exact ⟨rfl, hl.2⟩
      · rw [h]
      · rw [h]
  · rw [if_neg h1] at h
    have h := (Option.some.inj h).symm
    refine ⟨⟨fun c => absurd c h1, fun _ hl => ?_, fun _ hl => ?_⟩, ?_, ?_⟩
    · rw [h]; exact if_neg hl
    · rw [h]
      show (if c.lip = 0 then addrFor n.rt (routeFor n.rt c.rip) 0 else c.lip) = 0 ∨ ∃ f ∈ n.rt.confs, f.ip = (if c.lip = 0 then addrFor n.rt (routeFor n.rt c.rip) 0 else c.lip)
      rw [if_pos hl]; exact addrFor_mem _ _
    · rw [h]
    · rw [h]

theorem icBody_msg (sid : Nat) (hs : sid < 65536) (buf : List Nat) (hb : Bytes buf) (h8 : 8 ≤ buf.length) (hu : buf.length ≤ 65535) : IcmpMsg buf (icBody sid buf) sid := by
  have key : ∀ x : List Nat, Bytes x → x.length = buf.length →
      (icmpFill x buf.length).length = buf.length ∧ SumOk (icmpFill x buf.length) ∧ ∀ n, n ≠ 2 → n ≠ 3 → (icmpFill x buf.length)[n]? = x[n]? := by
    intro x hx hl
    have hic := Csum.icmp_checksum_verifies x hx (by omega) (by omega)
    have hlen : (icmpFill x x.length).length = x.length := by rw [icmpFill, Csum.put16_length, Csum.put16_length]
    have hbb : Bytes (icmpFill x x.length) := by
      rw [icmpFill]
      exact Csum.put16_bytes _ _ _ (Csum.put16_bytes _ _ _ hx (by omega)) (by rw [icmpChecksum, Csum.inv16]; omega)
    rw [← hl]
    refine ⟨hlen, IpIn.sumOk_of_icmp _ hbb (by omega) (by omega) (by rw [hlen]; exact hic.1), hic.2⟩
  rw [icBody]
  by_cases c : u8 buf 0 = 8
  · rw [if_pos c]
    obtain ⟨k1, k2, k3⟩ := key (put16 buf 4 sid) (Csum.put16_bytes _ _ _ hb hs) (Csum.put16_length _ _ _)
    refine ⟨k1, k2, ?_, ?_⟩
    · intro n n1 n2 n3
      rw [k3 n n1 n2, Csum.put16_agrees _ _ _ _ (by intro x; exact n3 ⟨c, Or.inl x⟩) (by intro x; exact n3 ⟨c, Or.inr x⟩)]
    · intro _
      rw [u16, u8, u8, List.getD_eq_getElem?_getD, List.getD_eq_getElem?_getD, k3 4 (by omega) (by omega), k3 5 (by omega) (by omega), put16,
        List.getElem?_set_ne (by omega), List.getElem?_set_self (by omega), List.getElem?_set_self (by rw [List.length_set]; omega)]
      show sid / 256 * 256 + sid % 256 = sid
      omega
  · rw [if_neg c]
    obtain ⟨k1, k2, k3⟩ := key buf hb rfl
    exact ⟨k1, k2, fun n n1 n2 _ => k3 n n1 n2, fun h => absurd h c⟩

/-- **C82, ICMP, accepted datagrams.** Whatever a send call on an ICMP socket accepts is a correct ICMP datagram to the address
given (or the connected peer), from the socket's address, TTL 64, not fragmented, which fits the MTU of the socket's
interface, whose message is the caller's with a correct checksum and, in an echo request, the socket's nonzero id. The call
then returns the length of the message. -/
theorem icmp_accept (s : IcSt) (k : Nat) (to : Option Ip) (buf : List Nat) (hb : Bytes buf) (rnd tos id : Nat) (room : Bool) (j : Nat) (g : List Nat)
    (hid : ∀ (sl : Slot Ic (List Nat)), s.tab[k]? = some sl → sl.cfg.id < 65536)
    (h : Ev.accepted j g ∈ (icStep s (.send k to buf rnd tos id room)).2.2) :
    j = k ∧ (icStep s (.send k to buf rnd tos id room)).2.1 = .sent buf.length ∧ 8 ≤ buf.length ∧ buf.length ≤ 1480 ∧
    ∃ sl sip body sid, s.tab[k]? = some sl ∧ sl.used = true ∧ to.getD sl.cfg.rip ≠ 0 ∧ Ip4 g (tos % 256) 64 1 sip (to.getD sl.cfg.rip) body ∧
      IcmpMsg buf body sid ∧ sid ≠ 0 ∧ sid < 65536 ∧ (sl.cfg.id ≠ 0 → sid = sl.cfg.id) ∧ IcmpSrc s.env.net sl.cfg sip ∧
      ∃ sl', (icStep s (.send k to buf rnd tos id room)).1.tab[k]? = some sl' ∧ sl'.cfg.id = sid ∧ sl'.tx = sl.tx ++ [g] ∧
        buf.length + 20 ≤ Link.ipMtu s.env.devs (if sl'.cfg.ifIdx ≥ s.env.devs.length then 0 else sl'.cfg.ifIdx) := by
  change Ev.accepted j g ∈ (icSendOp s k to buf rnd tos id room).2.2 at h
  show j = k ∧ (icSendOp s k to buf rnd tos id room).2.1 = _ ∧ _ ∧ _ ∧ ∃ sl sip body sid, _ ∧ _ ∧ _ ∧ _ ∧ _ ∧ _ ∧ _ ∧ _ ∧ _ ∧ ∃ sl', (icSendOp s k to buf rnd tos id room).1.tab[k]? = _ ∧ _
  rw [icSendOp] at h ⊢
  cases hk : s.tab[k]? with
  | none => rw [hk] at h; cases h
  | some sl =>
    rw [hk] at h
    dsimp only at h ⊢
    rw [mem_push] at h
    obtain ⟨hg, hj, _⟩ := h
    obtain ⟨h0, c2, hr, hc2, hres, hu, hroom, h8, hmtu, hgg⟩ := icSend_frame _ _ _ _ _ _ _ _ _ _ hg
    obtain ⟨hsrc, hrip, hsid⟩ := icRoute_src _ _ _ hr
    have hmle := ipMtu_le s.env.devs (if c2.ifIdx ≥ s.env.devs.length then 0 else c2.ifIdx)
    have hsid' : c2.id ≠ 0 ∧ c2.id < 65536 ∧ (sl.cfg.id ≠ 0 → c2.id = sl.cfg.id) := by
      rw [hsid]
      dsimp only
      have := hid sl hk
      by_cases a : sl.cfg.id = 0
      · rw [if_pos a]
        refine ⟨?_, ?_, fun x => absurd a x⟩ <;> split <;> omega
      · rw [if_neg a]; exact ⟨a, this, fun _ => rfl⟩
    have hmsg := icBody_msg c2.id hsid'.2.1 buf hb h8 (by omega)
    refine ⟨hj, hres, h8, by omega, sl, c2.lip, icBody c2.id buf, c2.id, rfl, hu, h0, ?_, hmsg, hsid'.1, hsid'.2.1, hsid'.2.2, hsrc, ?_⟩
    · rw [hgg, ← show c2.rip = to.getD sl.cfg.rip from hrip]
      exact ip4_frame (tos % 256) (20 + buf.length) id 64 1 c2.lip c2.rip (icBody c2.id buf) (by omega) (by omega) (by omega) (by rw [hmsg.len]) (by omega)
    · rw [hg, hc2]
      refine ⟨{ sl with cfg := c2, tx := sl.tx ++ [g] }, ?_, rfl, rfl, hmtu⟩
      show (s.tab.modify k (fun s => { s with cfg := c2, tx := s.tx ++ [g] }))[k]? = _
      rw [get_modify_eq _ _ _ _ hk]

/-- **C82, ICMP, accepts.** An open, unbound ICMP socket with a destination and a message of at least 8 bytes that fits the MTU
of every interface accepts it if there is room. -/
theorem icmp_accepts (s : IcSt) (k : Nat) (to : Option Ip) (buf : List Nat) (rnd tos id : Nat) (sl : Slot Ic (List Nat)) (hk : s.tab[k]? = some sl)
    (hu : sl.used = true) (hb : sl.cfg.blip = 0 ∨ ∃ f ∈ s.env.net.rt.confs, f.ip = sl.cfg.blip) (hd : to.getD sl.cfg.rip ≠ 0) (h8 : 8 ≤ buf.length)
    (hm : ∀ i, buf.length + 20 ≤ Link.ipMtu s.env.devs i) :
    (icStep s (.send k to buf rnd tos id true)).2.1 = .sent buf.length ∧ ∃ g, (icStep s (.send k to buf rnd tos id true)).2.2 = [.accepted k g] := by
  have hlt : k < s.tab.length := by rw [List.getElem?_eq_some_iff] at hk; exact hk.1
  show (icSendOp s k to buf rnd tos id true).2.1 = _ ∧ ∃ g, (icSendOp s k to buf rnd tos id true).2.2 = _
  rw [icSendOp, hk]
  dsimp only
  have key : (icSend s.env sl.used sl.cfg to buf rnd tos id true).2.1 = .sent buf.length ∧ ∃ g, (icSend s.env sl.used sl.cfg to buf rnd tos id true).2.2 = some g := by
    rw [icSend]
    dsimp only
    rw [if_neg hd]
    have hbl : ({ sl.cfg with rip := to.getD sl.cfg.rip, id := if sl.cfg.id = 0 then (if rnd % 65536 = 0 then 1 else rnd % 65536) else sl.cfg.id } : Ic).blip = sl.cfg.blip := rfl
    generalize ({ sl.cfg with rip := to.getD sl.cfg.rip, id := if sl.cfg.id = 0 then (if rnd % 65536 = 0 then 1 else rnd % 65536) else sl.cfg.id } : Ic) = c1 at hbl
    have hr : ∃ c2, icRoute s.env.net c1 = some c2 := by
      rw [icRoute]
      by_cases a : c1.blip ≠ 0
      · rw [if_pos a]
        have : IpIn.isLocal s.env.net c1.blip = true := by
          rw [isLocal_iff]
          refine ⟨a, ?_⟩
          rw [hbl]
          rcases hb with b | b
          · rw [hbl] at a; exact absurd b a
          · exact b
        rw [if_neg (by rw [this]; simp)]
        exact ⟨_, rfl⟩
      · rw [if_neg a]; exact ⟨_, rfl⟩
    obtain ⟨c2, hr⟩ := hr
    rw [hr]
    dsimp only
    rw [hu, if_pos rfl]
    have := hm (if c2.ifIdx ≥ s.env.devs.length then 0 else c2.ifIdx)
    rw [if_neg (by omega), if_neg (by simp)]
    exact ⟨rfl, _, rfl⟩
  obtain ⟨h1, g, h2⟩ := key
  refine ⟨h1, g, ?_⟩
  rw [h2]
  show (if k < s.tab.length then [Ev.accepted k g] else []) = _
  rw [if_pos hlt]

/-! ## Raw sockets -/

theorem rwSend_frame (n : Net) (c : Rw) (to : Option Ip) (buf : List Nat) (fl : Bool) (id : Nat) (room : Bool) (g : List Nat)
    (h : (rwSend n c to buf fl id room).2.2 = some g) :
    (rwSend n c to buf fl id room).2.1 = .sent buf.length ∧ buf.length ≠ 0 ∧ room = true ∧
      ((c.hdr = false ∧ to.getD c.rip ≠ 0 ∧ 34 + buf.length ≤ 1536 ∧ ∃ i : Nat,
        g = List.replicate 14 0 ++ rwHdr c (if c.blip ≠ 0 then c.blip else addrFor n.rt i c.lip) (to.getD c.rip) buf.length id ++ buf) ∨
       (c.hdr = true ∧ 20 ≤ buf.length ∧ 14 + buf.length ≤ 1536 ∧ g = rwOwn (to.getD c.rip) buf ∧ (to.getD c.rip = 0 → dst g ≠ 0))) := by
  revert h
  rw [rwSend]
  by_cases h0 : buf.length = 0
  · rw [if_pos h0]; intro h; cases h
  rw [if_neg h0]
  dsimp only
  generalize hdd : to.getD c.rip = d
  by_cases h1 : rwBig c.hdr buf.length = true
  · rw [if_pos h1]; intro h; cases h
  rw [if_neg h1]
  have hbig : ¬ (14 + buf.length + (if c.hdr then 0 else 20) > 1536) := by
    intro x; exact h1 (decide_eq_true x)
  cases hh : c.hdr with
  | true =>
    rw [if_pos rfl]
    rw [hh, if_pos rfl] at hbig
    by_cases h2 : buf.length < 20
    · rw [if_pos h2]; intro h; cases h
    rw [if_neg h2]
    generalize hg : rwOwn d buf = w
    generalize hd1 : (if d = 0 then dst w else d) = d1
    by_cases h3 : d1 = 0
    · rw [if_pos h3]; intro h; cases h
    rw [if_neg h3]
    cases room with
    | false => rw [if_pos rfl]; intro h; cases h
    | true =>
      rw [if_neg (by simp)]
      intro h
      have h := Option.some.inj h
      refine ⟨rfl, h0, rfl, Or.inr ⟨rfl, by omega, by omega, h.symm, ?_⟩⟩
      intro hd
      rw [if_pos hd] at hd1
      rw [← h, hd1]; exact h3
  | false =>
    rw [if_neg (by simp)]
    rw [hh, if_neg (by simp)] at hbig
    by_cases h3 : d = 0
    · rw [if_pos h3]; intro h; cases h
    rw [if_neg h3]
    cases room with
    | false => rw [if_pos rfl]; intro h; cases h
    | true =>
      rw [if_neg (by simp)]
      intro h
      exact ⟨rfl, h0, rfl, Or.inl ⟨rfl, h3, by omega, _, (Option.some.inj h).symm⟩⟩

theorem rwOwn_bytes (d : Ip) (hd : d ≠ 0) (buf : List Nat) (h20 : 20 ≤ buf.length) :
    (rwOwn d buf).length = 14 + buf.length ∧ dst (rwOwn d buf) = d ∧
    (∀ n, n ≠ 10 → n ≠ 11 → ¬ (16 ≤ n ∧ n < 20) → ((rwOwn d buf).drop 14)[n]? = buf[n]?) := by
  rw [rwOwn, if_neg hd]
  have h16 : (buf.take 16).length = 16 := by rw [List.length_take]; omega
  have hil : (ipBytes d).length = 4 := rfl
  have hxl : (buf.take 16 ++ ipBytes d ++ buf.drop 20).length = buf.length := by
    rw [List.length_append, List.length_append, h16, hil, List.length_drop]; omega
  have hget : ∀ k, k < 4 → (buf.take 16 ++ ipBytes d ++ buf.drop 20).getD (16 + k) 0 = (ipBytes d).getD k 0 := by
    intro k hk
    rw [List.getD_eq_getElem?_getD, List.append_assoc, List.getElem?_append_right (by omega), h16, Nat.add_sub_cancel_left,
      List.getElem?_append_left (by omega), ← List.getD_eq_getElem?_getD]
  have hoth : ∀ n, ¬ (16 ≤ n ∧ n < 20) → (buf.take 16 ++ ipBytes d ++ buf.drop 20)[n]? = buf[n]? := by
    intro n hn
    by_cases hn16 : n < 16
    · rw [List.append_assoc, List.getElem?_append_left (by omega), List.getElem?_take_of_lt hn16]
    · rw [List.getElem?_append_right (by rw [List.length_append, h16, hil]; omega), List.length_append, h16, hil, List.getElem?_drop, show 20 + (n - (16 + 4)) = n by omega]
  generalize hX : buf.take 16 ++ ipBytes d ++ buf.drop 20 = x at hxl hget hoth
  have hd14 : (List.replicate 14 0 ++ ipSet x).drop 14 = ipSet x := List.drop_left' List.length_replicate
  refine ⟨by rw [List.length_append, List.length_replicate, IpIn.ipSet_length, hxl], ?_, ?_⟩
  · have e : ∀ k, k < 4 → u8 (List.replicate 14 0 ++ ipSet x) (14 + (16 + k)) = (ipBytes d).getD k 0 := by
      intro k hk
      rw [u8_pad, List.getD_eq_getElem?_getD, ipSet_off _ _ (by omega) (by omega), ← List.getD_eq_getElem?_getD, hget k hk]
    exact ipAt_ipBytes _ 30 d (e 0 (by omega)) (e 1 (by omega)) (e 2 (by omega)) (e 3 (by omega))
  · intro n n1 n2 n3
    rw [hd14, ipSet_off _ _ n1 n2, hoth n n3]

/-- **C82, raw sockets, accepted datagrams.** What a send call on a raw socket accepts is: without IP_HDRINCL, a correct IPv4
datagram with the socket's protocol, TTL 64, to the address given (or the peer), from the bound address if there is one,
carrying exactly the caller's bytes; with IP_HDRINCL, the caller's datagram, byte for byte if neither the call nor the socket
names a destination, else with that destination and the header checksum changed and nothing else. It fits a frame, has a
destination, and the call returns the length given. -/
theorem raw_accept (s : RwSt) (k : Nat) (to : Option Ip) (buf : List Nat) (fl : Bool) (id : Nat) (room : Bool) (j : Nat) (g : List Nat)
    (h : Ev.accepted j g ∈ (rwStep s (.send k to buf fl id room)).2.2) :
    j = k ∧ (rwStep s (.send k to buf fl id room)).2.1 = .sent buf.length ∧ g.length ≤ 1536 ∧ dst g ≠ 0 ∧
    ∃ sl, s.tab[k]? = some sl ∧ sl.used = true ∧
      ((sl.cfg.hdr = false ∧ to.getD sl.cfg.rip ≠ 0 ∧ ∃ sip, (sl.cfg.blip ≠ 0 → sip = sl.cfg.blip) ∧ Ip4 g 0 64 (sl.cfg.proto % 256) sip (to.getD sl.cfg.rip) buf) ∨
       (sl.cfg.hdr = true ∧ 20 ≤ buf.length ∧ to.getD sl.cfg.rip = 0 ∧ g.drop 14 = buf) ∨
       (sl.cfg.hdr = true ∧ 20 ≤ buf.length ∧ to.getD sl.cfg.rip ≠ 0 ∧ dst g = to.getD sl.cfg.rip ∧ g.length = 14 + buf.length ∧
        ∀ n, n ≠ 10 → n ≠ 11 → ¬ (16 ≤ n ∧ n < 20) → (g.drop 14)[n]? = buf[n]?)) := by
  change Ev.accepted j g ∈ (rwSendOp s k to buf fl id room).2.2 at h
  show j = k ∧ (rwSendOp s k to buf fl id room).2.1 = _ ∧ _
  rw [rwSendOp] at h ⊢
  cases hk : s.tab[k]? with
  | none => rw [hk] at h; cases h
  | some sl =>
    rw [hk] at h
    dsimp only at h ⊢
    cases hu : sl.used with
    | false => rw [hu, if_pos rfl] at h; cases h
    | true =>
      rw [hu, if_neg (by simp)] at h
      rw [if_neg (by simp)]
      rw [mem_push] at h
      obtain ⟨hg, hj, _⟩ := h
      obtain ⟨hres, h0, _, hc | hc⟩ := rwSend_frame _ _ _ _ _ _ _ _ hg
      · obtain ⟨h1, h2, h3, i, h4⟩ := hc
        have h5 : Ip4 g 0 64 (sl.cfg.proto % 256) (if sl.cfg.blip ≠ 0 then sl.cfg.blip else addrFor s.env.net.rt i sl.cfg.lip) (to.getD sl.cfg.rip) buf := by
          rw [h4]
          have := ip4_frame 0 (buf.length + 20) id 64 (sl.cfg.proto % 256) (if sl.cfg.blip ≠ 0 then sl.cfg.blip else addrFor s.env.net.rt i sl.cfg.lip) (to.getD sl.cfg.rip) buf
            (by omega) (by omega) (by omega) (by omega) (by omega)
          exact this
        refine ⟨hj, hres, by rw [h5.len]; omega, by rw [h5.dst]; exact h2, sl, rfl, hu, Or.inl ⟨h1, h2, _, ?_, h5⟩⟩
        intro hb; rw [if_pos hb]
      · obtain ⟨h1, h2, h3, h4, h5⟩ := hc
        by_cases hd : to.getD sl.cfg.rip = 0
        · have h6 : g = List.replicate 14 0 ++ buf := by rw [h4, rwOwn, if_pos hd]
          refine ⟨hj, hres, ?_, h5 hd, sl, rfl, hu, Or.inr (Or.inl ⟨h1, h2, hd, ?_⟩)⟩
          · rw [h6, List.length_append, List.length_replicate]; omega
          · rw [h6]; exact List.drop_left' List.length_replicate
        · obtain ⟨b1, b2, b3⟩ := rwOwn_bytes (to.getD sl.cfg.rip) hd buf h2
          rw [← h4] at b1 b2 b3
          exact ⟨hj, hres, by omega, by rw [b2]; exact hd, sl, rfl, hu, Or.inr (Or.inr ⟨h1, h2, hd, b2, b1, b3⟩)⟩

/-! ## Packet sockets -/

/-- **C82, packet sockets, accepted frames.** What a send call on a packet socket accepts has the length and, from byte 14, the
bytes of the caller's frame; its destination MAC is the one in the address given (if it holds one), else the caller's; its
source MAC is that of the interface named in the address or else the socket's; its EtherType is that of the address, else
the socket's, else the caller's. The call returns the length. -/
theorem packet_accept (s : PkSt) (k : Nat) (to : Option Ll) (buf : List Nat) (room : Bool) (j : Nat) (g : List Nat)
    (hto : ∀ (a : Ll), to = some a → a.addr.length = 6) (hmac : ∀ (i : Nat) (d : Link.Dev), s.devs[i]? = some d → d.mac.length = 6)
    (h : Ev.accepted j g ∈ (pkStep s (.send k to buf room)).2.2) :
    j = k ∧ (pkStep s (.send k to buf room)).2.1 = .sent buf.length ∧ 14 ≤ buf.length ∧ buf.length ≤ 1536 ∧ g.length = buf.length ∧ g.drop 14 = buf.drop 14 ∧
    ∃ sl sl', s.tab[k]? = some sl ∧ sl.used = true ∧ (pkStep s (.send k to buf room)).1.tab[k]? = some sl' ∧ sl'.tx = sl.tx ++ [g] ∧
      (∀ a, to = some a → 0 ≤ a.ifindex → a.ifindex < (s.devs.length : Int) → (sl'.cfg.ifIdx : Int) = a.ifindex) ∧
      (to = none → sl.cfg.ifIdx < s.devs.length → sl'.cfg.ifIdx = sl.cfg.ifIdx) ∧
      (∀ a, to = some a → 6 ≤ a.halen → g.take 6 = a.addr) ∧ ((∀ a, to = some a → a.halen < 6) → g.take 6 = buf.take 6) ∧
      (∀ d, s.devs[sl'.cfg.ifIdx]? = some d → (g.drop 6).take 6 = d.mac) ∧
      (∀ a, to = some a → 0 < a.proto → a.proto < 65536 → etype g = a.proto) ∧
      ((∀ a, to = some a → a.proto = 0) → 0 < sl.cfg.proto → sl.cfg.proto < 65536 → etype g = sl.cfg.proto) ∧
      ((∀ a, to = some a → a.proto = 0) → sl.cfg.proto = 0 → etype g = etype buf) := by
  change Ev.accepted j g ∈ (pkSendOp s k to buf room).2.2 at h
  show j = k ∧ (pkSendOp s k to buf room).2.1 = _ ∧ _ ∧ _ ∧ _ ∧ _ ∧ ∃ sl sl', _ ∧ _ ∧ (pkSendOp s k to buf room).1.tab[k]? = _ ∧ _
  rw [pkSendOp] at h ⊢
  cases hk : s.tab[k]? with
  | none => rw [hk] at h; cases h
  | some sl =>
    rw [hk] at h
    dsimp only at h ⊢
    cases hu : sl.used with
    | false => rw [hu, if_pos rfl] at h; cases h
    | true =>
      rw [hu, if_neg (by simp)] at h
      rw [if_neg (by simp)]
      by_cases hlen : buf.length < 14 ∨ buf.length > 1536
      · rw [if_pos hlen] at h; cases h
      rw [if_neg hlen] at h ⊢
      cases room with
      | false => rw [if_pos rfl] at h; cases h
      | true =>
        rw [if_neg (by simp)] at h ⊢
        rw [mem_push] at h
        obtain ⟨hg, hj, _⟩ := h
        have hg := (Option.some.inj hg).symm
        have hif1 : ∀ a, to = some a → 0 ≤ a.ifindex → a.ifindex < (s.devs.length : Int) → ((pkIf s.devs.length sl.cfg to : Nat) : Int) = a.ifindex := by
          intro a ha b1 b2
          rw [pkIf.eq_def, ha]; dsimp only
          have e : (if 0 ≤ a.ifindex ∧ a.ifindex < (s.devs.length : Int) then a.ifindex.toNat else sl.cfg.ifIdx) = a.ifindex.toNat := if_pos ⟨b1, b2⟩
          rw [e, if_neg (by omega)]; omega
        have hif2 : to = none → sl.cfg.ifIdx < s.devs.length → pkIf s.devs.length sl.cfg to = sl.cfg.ifIdx := by
          intro ha b
          rw [pkIf.eq_def, ha]; dsimp only
          rw [if_neg (by omega)]
        generalize hi : pkIf s.devs.length sl.cfg to = i at hif1 hif2
        rw [pkBuild, hi] at hg
        generalize hD : pkDst to buf = dm at hg
        generalize hS : pkSrc s.devs i buf = sm at hg
        generalize hP : pkPr sl.cfg to = pr at hg
        have h6 : (buf.take 6).length = 6 := by rw [List.length_take]; omega
        have hDl : dm.length = 6 := by
          rw [← hD, pkDst.eq_def]
          cases hto' : to with
          | none => exact h6
          | some a => dsimp only; split; exact hto a hto'; exact h6
        have hSl : sm.length = 6 := by
          rw [← hS, pkSrc.eq_def]
          cases hd : s.devs[i]? with
          | none => dsimp only; rw [List.length_take, List.length_drop]; omega
          | some d => exact hmac i d hd
        have hTl : (pkType pr buf).length = 2 := by
          rw [pkType]; split
          · rfl
          · rw [List.length_take, List.length_drop]; omega
        generalize hT : pkType pr buf = ty at hg hTl
        have hety : etype g = ty.getD 0 0 * 256 + ty.getD 1 0 := by
          have e : ∀ n, n < 2 → u8 g (12 + n) = ty.getD n 0 := by
            intro n hn
            rw [hg, u8, List.getD_eq_getElem?_getD, List.append_assoc, List.append_assoc, List.getElem?_append_right (by omega), List.getElem?_append_right (by omega),
              List.getElem?_append_left (by omega), hDl, hSl, show 12 + n - 6 - 6 = n by omega, ← List.getD_eq_getElem?_getD]
          show u8 g 12 * 256 + u8 g 13 = _
          have e0 : u8 g 12 = ty.getD 0 0 := e 0 (by omega)
          have e1 : u8 g 13 = ty.getD 1 0 := e 1 (by omega)
          rw [e0, e1]
        refine ⟨hj, rfl, by omega, by omega, ?_, ?_, sl, { sl with cfg := { sl.cfg with ifIdx := i }, tx := sl.tx ++ [g] }, rfl, hu, ?_, rfl, hif1, hif2, ?_, ?_, ?_, ?_, ?_, ?_⟩
        · rw [hg, List.length_append, List.length_append, List.length_append, hDl, hSl, hTl, List.length_drop]; omega
        · rw [hg]; exact List.drop_left' (by rw [List.length_append, List.length_append, hDl, hSl, hTl])
        · show (s.tab.modify k _)[k]? = _
          rw [get_modify_eq _ _ _ _ hk]
          have hb : pkBuild s.devs sl.cfg to buf = g := by
            rw [pkBuild, hi, hD, hS, hP, hT]; exact hg.symm
          rw [hb]
        · intro a ha hl
          rw [hg, List.append_assoc, List.append_assoc, List.take_left' hDl, ← hD, pkDst.eq_def, ha]; exact if_pos hl
        · intro ha
          rw [hg, List.append_assoc, List.append_assoc, List.take_left' hDl, ← hD, pkDst.eq_def]
          cases hto' : to with
          | none => rfl
          | some a => exact if_neg (by have := ha a hto'; omega)
        · intro d hd
          dsimp only at hd
          rw [pkSrc.eq_def, hd] at hS
          rw [hg, List.append_assoc, List.append_assoc, List.drop_left' hDl, List.take_left' hSl, ← hS]
        · intro a ha p1 p2
          rw [pkPr.eq_def, ha] at hP
          dsimp only at hP
          rw [if_pos (by omega)] at hP
          rw [hety, ← hT, pkType, if_pos (by omega), ← hP]
          show a.proto / 256 * 256 + a.proto % 256 = _
          omega
        · intro ha p1 p2
          have hpr : pr = sl.cfg.proto := by
            rw [← hP, pkPr.eq_def]
            cases hto' : to with
            | none => rfl
            | some a => dsimp only; rw [if_neg (by rw [ha a hto']; simp)]
          rw [hety, ← hT, pkType, if_pos (by omega), hpr]
          show sl.cfg.proto / 256 * 256 + sl.cfg.proto % 256 = _
          omega
        · intro ha p1
          have hpr : pr = 0 := by
            rw [← hP, pkPr.eq_def]
            cases hto' : to with
            | none => exact p1
            | some a => dsimp only; rw [if_neg (by rw [ha a hto']; simp)]; exact p1
          have hf : ∀ n, n < 2 → ((buf.drop 12).take 2).getD n 0 = u8 buf (12 + n) := by
            intro n hn
            rw [List.getD_eq_getElem?_getD, List.getElem?_take_of_lt hn, List.getElem?_drop, ← List.getD_eq_getElem?_getD]; rfl
          rw [hety, ← hT, pkType, if_neg (by omega), hf 0 (by omega), hf 1 (by omega)]; rfl

end Wolf.Dgram
