import Verif.Dgram.Send
import Verif.Ip.Errors
/-!
# C82: raw and packet sockets, and what send calls put in the buffer
-/
namespace Wolf.Dgram
open Wolf.Route (Ip Conf)
open Wolf.IpIn (Net u8 u16 ipAt tot src dst hlen isMcast Mcast Bcast SumOk ipBytes)
open Wolf.Csum (Bytes ipSet icmpFill put16)

/-! ## Specification -/

/-- Interface and next hop of a raw datagram to `d`: what the routing table says; with SO_DONTROUTE the destination itself,
on the socket's interface `own`. -/
def RawHop (e : Env) (dontroute : Bool) (own : Nat) (d : Ip) (i : Nat) (nh : Ip) : Prop :=
  (dontroute = false ∧ (Route.lookup e.net.rt d = some (i, nh) ∨ (Route.lookup e.net.rt d = none ∧ nh = d))) ∨
  (dontroute = true ∧ nh = d ∧ (own < e.devs.length → i = own))

/-- Destination MAC of a raw datagram. -/
def RawMac (e : Env) (o : Tx) (i : Nat) (nh : Ip) (m : List Nat) : Prop :=
  (Route.isLoop e.net.rt i = true ∧ m = macOf e.devs i) ∨
  (Route.isLoop e.net.rt i = false ∧ nh = 0xFFFFFFFF#32 ∧ m = [255, 255, 255, 255, 255, 255]) ∨
  (Route.isLoop e.net.rt i = false ∧ nh ≠ 0xFFFFFFFF#32 ∧ o.mac i nh = some m)

/-! ## Flush of raw sockets -/

theorem ipSet_off (x : List Nat) (n : Nat) (h1 : n ≠ 10) (h2 : n ≠ 11) : (ipSet x)[n]? = x[n]? := by
  rw [ipSet]
  rw [Csum.put16_agrees _ _ _ _ h1 h2, Csum.put16_agrees _ _ _ _ h1 h2]

theorem rwHop_spec (e : Env) (c : Rw) (dr : Bool) (own : Nat) (hdr : c.dontroute = dr) (how : dr = true → own < e.devs.length → c.ifIdx = own) (d : Ip) :
    RawHop e dr own d (rwHop e c d).1 (rwHop e c d).2 ∧ (dr = true → own < e.devs.length → (rwHop e c d).1 = own) := by
  rw [rwHop]
  cases dr with
  | true =>
    rw [if_pos hdr]
    have : own < e.devs.length → (if c.ifIdx ≥ e.devs.length then rawRoute e.net c d c.dontroute else c.ifIdx) = own := by
      intro h
      have := how rfl h
      rw [if_neg (by omega)]; exact this
    exact ⟨Or.inr ⟨rfl, rfl, this⟩, fun _ => this⟩
  | false =>
    rw [if_neg (by rw [hdr]; simp)]
    refine ⟨Or.inl ⟨rfl, ?_⟩, fun h => by cases h⟩
    cases hl : Route.lookup e.net.rt d with
    | some p => exact Or.inl rfl
    | none => exact Or.inr ⟨rfl, rfl⟩

theorem rwMac_some (e : Env) (o : Tx) (p : Nat × Ip) (m : List Nat) (h : rwMac e o p = some m) : RawMac e o p.1 p.2 m := by
  rw [rwMac] at h
  by_cases c1 : Route.isLoop e.net.rt p.1 = true
  · rw [if_pos c1] at h; exact Or.inl ⟨c1, (Option.some.inj h).symm⟩
  rw [if_neg c1] at h
  by_cases c2 : p.2 = 0xFFFFFFFF#32
  · rw [if_pos c2] at h; exact Or.inr (Or.inl ⟨by simpa using c1, c2, (Option.some.inj h).symm⟩)
  · rw [if_neg c2] at h; exact Or.inr (Or.inr ⟨by simpa using c1, c2, h⟩)

theorem rwMac_none (e : Env) (o : Tx) (p : Nat × Ip) (h : rwMac e o p = none) : Route.isLoop e.net.rt p.1 = false ∧ p.2 ≠ 0xFFFFFFFF#32 ∧ o.mac p.1 p.2 = none := by
  rw [rwMac] at h
  by_cases c1 : Route.isLoop e.net.rt p.1 = true
  · rw [if_pos c1] at h; cases h
  rw [if_neg c1] at h
  by_cases c2 : p.2 = 0xFFFFFFFF#32
  · rw [if_pos c2] at h; cases h
  · rw [if_neg c2] at h; exact ⟨by simpa using c1, c2, h⟩

/-- What a flush keeps of a raw socket's settings. -/
def RwKeeps (e : Env) (c0 c : Rw) : Prop := c.hdr = c0.hdr ∧ c.dontroute = c0.dontroute ∧ (c0.dontroute = true → c0.ifIdx < e.devs.length → c.ifIdx = c0.ifIdx)

theorem rw_set_if (c : Rw) (i : Nat) : ({ c with ifIdx := i } : Rw).hdr = c.hdr ∧ ({ c with ifIdx := i } : Rw).dontroute = c.dontroute ∧ ({ c with ifIdx := i } : Rw).ifIdx = i := ⟨rfl, rfl, rfl⟩

theorem rwDec_keeps (e : Env) (o : Tx) (c0 : Rw) (k n : Nat) (c : Rw) (g : List Nat) (h : RwKeeps e c0 c) : RwKeeps e c0 (rwDec e o k n c g).1 := by
  obtain ⟨h1, h2, h3⟩ := h
  rw [rwDec]
  split
  · exact ⟨h1, h2, h3⟩
  · have hs := rwHop_spec e c c0.dontroute c0.ifIdx h2 h3 (dst g)
    generalize rwHop e c (dst g) = p at hs
    obtain ⟨a, b, d⟩ := rw_set_if c p.1
    dsimp only
    exact ⟨a.trans h1, b.trans h2, fun x y => d.trans (hs.2 x y)⟩

/-- What one attempt may do. -/
theorem rwDec_cases (e : Env) (o : Tx) (k n : Nat) (c : Rw) (g : List Nat) :
    (dst g = 0 ∧ (rwDec e o k n c g).2 = .skip) ∨
    (dst g ≠ 0 ∧ rwMac e o (rwHop e c (dst g)) = none ∧ (rwDec e o k n c g).2 = .stop (some (rwHop e c (dst g)))) ∨
    (dst g ≠ 0 ∧ ∃ m, rwMac e o (rwHop e c (dst g)) = some m ∧
      ((o.veto k n = true ∧ (rwDec e o k n c g).2 = .stop none) ∨
       (o.veto k n = false ∧ o.link k n = false ∧ (rwDec e o k n c g).2 = .skip) ∨
       (o.veto k n = false ∧ o.link k n = true ∧
        (rwDec e o k n c g).2 = .send (rwHop e c (dst g)).1 (withEth e.devs (rwHop e c (dst g)).1 m (if c.hdr then g else g.take 14 ++ ipSet (g.drop 14)))))) := by
  rw [rwDec]
  by_cases c0 : dst g = 0
  · rw [if_pos c0]; exact Or.inl ⟨c0, rfl⟩
  rw [if_neg c0]
  generalize rwHop e c (dst g) = p
  dsimp only
  cases hm : rwMac e o p with
  | none => exact Or.inr (Or.inl ⟨c0, rfl, rfl⟩)
  | some m =>
    dsimp only
    refine Or.inr (Or.inr ⟨c0, m, rfl, ?_⟩)
    cases hv : o.veto k n with
    | true => exact Or.inl ⟨rfl, rfl⟩
    | false =>
      cases hl : o.link k n with
      | false => exact Or.inr (Or.inl ⟨rfl, rfl, rfl⟩)
      | true => exact Or.inr (Or.inr ⟨rfl, rfl, rfl⟩)

/-- **C82, raw sockets.** One flush takes a prefix of the waiting datagrams, in order. Each is sent on the interface and to
the next hop the routing table gives for its destination (SO_DONTROUTE: the destination itself on the socket's interface),
behind an Ethernet header with that interface's MAC and the right destination MAC; a caller's own datagram (IP_HDRINCL) byte
for byte, others too but for the header checksum, which is computed again. One is lost only if it has no destination or the
driver refuses it. The flush stops early only at a veto or for an unknown MAC, which ARP then asks for. -/
theorem raw_flush (s : RwSt) (o : Tx) (k : Nat) (sl : Slot Rw (List Nat)) (hk : s.tab[k]? = some sl) :
    ∃ pre post, sl.tx = pre ++ post ∧ txOf (rwStep s (.flush o)).1.tab k = post ∧ leftOf k (rwStep s (.flush o)).2.2 = pre ∧
      (∀ i g h, Ev.sent k i g h ∈ (rwStep s (.flush o)).2.2 → dst g ≠ 0 ∧
        ∃ nh m p, RawHop s.env sl.cfg.dontroute sl.cfg.ifIdx (dst g) i nh ∧ RawMac s.env o i nh m ∧ h = m ++ macOf s.env.devs i ++ [8, 0] ++ p ∧
          (sl.cfg.hdr = true → p = g.drop 14) ∧ (14 ≤ g.length → ∀ n, n ≠ 10 → n ≠ 11 → p[n]? = (g.drop 14)[n]?) ∧
          (14 ≤ g.length → sl.cfg.hdr = false → p = ipSet (g.drop 14))) ∧
      (∀ g, Ev.lost k g ∈ (rwStep s (.flush o)).2.2 → dst g = 0 ∨ ∃ n, n < pre.length ∧ o.link k n = false) ∧
      (post = [] ∨ ∃ g rest, post = g :: rest ∧
        (o.veto k pre.length = true ∨ ∃ i nh, RawHop s.env sl.cfg.dontroute sl.cfg.ifIdx (dst g) i nh ∧ Route.isLoop s.env.net.rt i = false ∧
          nh ≠ 0xFFFFFFFF#32 ∧ o.mac i nh = none ∧ Ev.arp i nh ∈ (rwStep s (.flush o)).2.2)) := by
  obtain ⟨pre, post, e1, e2, e3, e4, e5, e6⟩ := flush_split (RwKeeps s.env sl.cfg) (rwDec s.env o) (fun k n c g h => rwDec_keeps s.env o sl.cfg k n c g h) s.tab k sl hk ⟨rfl, rfl, fun _ _ => rfl⟩
  refine ⟨pre, post, e1, e2, e3, ?_, ?_, ?_⟩
  · intro i g h hm
    obtain ⟨n, c, hc, hd⟩ := e4 i g h hm
    have hs := (rwHop_spec s.env c sl.cfg.dontroute sl.cfg.ifIdx hc.2.1 hc.2.2 (dst g)).1
    rcases rwDec_cases s.env o k n c g with ⟨_, h1⟩ | ⟨_, _, h1⟩ | ⟨h0, m, h1, ⟨_, h2⟩ | ⟨_, _, h2⟩ | ⟨_, _, h2⟩⟩
    · rw [h1] at hd; cases hd
    · rw [h1] at hd; cases hd
    · rw [h2] at hd; cases hd
    · rw [h2] at hd; cases hd
    · rw [h2] at hd
      injection hd with hi hh
      have hm2 := rwMac_some s.env o _ m h1
      rw [hi] at hh hs hm2
      refine ⟨h0, _, m, (if c.hdr then g else g.take 14 ++ ipSet (g.drop 14)).drop 14, hs, hm2, hh.symm, ?_, ?_, ?_⟩
      · intro hhd; rw [hc.1, if_pos hhd]
      · intro h14 n' n1 n2
        cases hx : c.hdr with
        | true => rfl
        | false =>
          have : (g.take 14).length = 14 := by rw [List.length_take]; omega
          rw [if_neg (by simp), List.drop_left' this, ipSet_off _ _ n1 n2]
      · intro h14 hx
        have : (g.take 14).length = 14 := by rw [List.length_take]; omega
        rw [hc.1, hx, if_neg (by simp), List.drop_left' this]
  · intro g hm
    obtain ⟨n, c, hn, hc, hd⟩ := e5 g hm
    rcases rwDec_cases s.env o k n c g with ⟨h0, _⟩ | ⟨_, _, h1⟩ | ⟨h0, m, h1, ⟨_, h2⟩ | ⟨_, h3, h2⟩ | ⟨_, _, h2⟩⟩
    · exact Or.inl h0
    · rw [h1] at hd; cases hd
    · rw [h2] at hd; cases hd
    · exact Or.inr ⟨n, hn, h3⟩
    · rw [h2] at hd; cases hd
  · rcases e6 with h | ⟨g, rest, c, o', h1, hc, h3, h4⟩
    · exact Or.inl h
    · refine Or.inr ⟨g, rest, h1, ?_⟩
      have hs := (rwHop_spec s.env c sl.cfg.dontroute sl.cfg.ifIdx hc.2.1 hc.2.2 (dst g)).1
      rcases rwDec_cases s.env o k pre.length c g with ⟨_, h5⟩ | ⟨_, h6, h5⟩ | ⟨h0, m, h5, ⟨h6, h7⟩ | ⟨_, _, h7⟩ | ⟨_, _, h7⟩⟩
      · rw [h5] at h3; cases h3
      · rw [h5] at h3
        injection h3 with h3
        obtain ⟨a, b, d⟩ := rwMac_none s.env o _ h6
        exact Or.inr ⟨_, _, hs, a, b, d, h4 _ _ h3.symm⟩
      · exact Or.inl h6
      · rw [h7] at h3; cases h3
      · rw [h7] at h3; cases h3

/-- **C82, packet sockets.** One flush empties the transmit buffer, in order: every frame goes out unchanged on the socket's
interface, except those the filter vetoes or the driver refuses, which are lost. -/
theorem packet_flush (s : PkSt) (o : Tx) (k : Nat) (sl : Slot Pk (Nat × List Nat)) (hk : s.tab[k]? = some sl) :
    txOf (pkStep s (.flush o)).1.tab k = [] ∧ leftOf k (pkStep s (.flush o)).2.2 = sl.tx ∧
      (∀ i g h, Ev.sent k i g h ∈ (pkStep s (.flush o)).2.2 → h = g ∧ i = if sl.cfg.ifIdx ≥ s.devs.length then 0 else sl.cfg.ifIdx) ∧
      (∀ g, Ev.lost k g ∈ (pkStep s (.flush o)).2.2 → ∃ n, n < sl.tx.length ∧ (o.veto k n = true ∨ o.link k n = false)) := by
  obtain ⟨pre, post, e1, e2, e3, e4, e5, e6⟩ := flush_split (fun c => c = sl.cfg) (pkDec s.devs o) (fun _ _ _ _ h => h) s.tab k sl hk rfl
  have hpost : post = [] := by
    rcases e6 with h | ⟨g, rest, c, o', _, _, h3, _⟩
    · exact h
    · exfalso
      rw [pkDec] at h3
      dsimp only at h3
      split at h3
      · cases h3
      · split at h3 <;> cases h3
  rw [hpost, List.append_nil] at e1
  rw [hpost] at e2
  refine ⟨e2, by rw [e1]; exact e3, ?_, ?_⟩
  · intro i g h hm
    obtain ⟨n, c, hc, hd⟩ := e4 i g h hm
    rw [hc, pkDec] at hd
    dsimp only at hd
    split at hd
    · cases hd
    · split at hd
      · injection hd with a b; exact ⟨b.symm, a.symm⟩
      · cases hd
  · intro g hm
    obtain ⟨n, c, hn, hc, hd⟩ := e5 g hm
    refine ⟨n, by rw [e1]; exact hn, ?_⟩
    rw [pkDec] at hd
    dsimp only at hd
    by_cases c1 : o.veto k n = true
    · exact Or.inl c1
    · rw [if_neg c1] at hd
      by_cases c2 : o.link k n = true
      · rw [if_pos c2] at hd; cases hd
      · exact Or.inr (by simpa using c2)

/-! ## What send calls put in the buffer -/

variable {C α : Type}

theorem ipAt_ipBytes (f : List Nat) (k : Nat) (a : Ip) (h0 : u8 f k = a.toNat / 16777216) (h1 : u8 f (k + 1) = a.toNat / 65536 % 256)
    (h2 : u8 f (k + 2) = a.toNat / 256 % 256) (h3 : u8 f (k + 3) = a.toNat % 256) : ipAt f k = a := by
  rw [ipAt, h0, h1, h2, h3]
  have h : a.toNat < 4294967296 := a.isLt
  have : a.toNat / 16777216 * 16777216 + a.toNat / 65536 % 256 * 65536 + a.toNat / 256 % 256 * 256 + a.toNat % 256 = a.toNat := by omega
  rw [this]
  simp

/-- The header of a sent datagram, before the checksum. -/
def hdr0 (tos len id ttl pr : Nat) (s d : Ip) : List Nat :=
  [0x45, tos, len / 256 % 256, len % 256, id / 256 % 256, id % 256, 0, 0, ttl, pr, 0, 0] ++ ipBytes s ++ ipBytes d

theorem hdr0_bytes (tos len id ttl pr : Nat) (s d : Ip) (h1 : tos < 256) (h2 : ttl < 256) (h3 : pr < 256) : Bytes (hdr0 tos len id ttl pr s d) := by
  intro x hx
  rw [hdr0, List.mem_append, List.mem_append] at hx
  rcases hx with (hx | hx) | hx
  · simp only [List.mem_cons, List.not_mem_nil, or_false] at hx
    rcases hx with h | h | h | h | h | h | h | h | h | h | h | h <;> omega
  · exact IpIn.ipBytes_bytes s x hx
  · exact IpIn.ipBytes_bytes d x hx

theorem u8_pad (x : List Nat) (k : Nat) : u8 (List.replicate 14 0 ++ x) (14 + k) = x.getD k 0 := by
  rw [u8, List.getD_eq_getElem?_getD, List.getElem?_append_right (by rw [List.length_replicate]; omega), List.length_replicate, Nat.add_sub_cancel_left,
    ← List.getD_eq_getElem?_getD]

theorem ip4_frame (tos len id ttl pr : Nat) (s d : Ip) (body : List Nat) (h1 : tos < 256) (h2 : ttl < 256) (h3 : pr < 256) (hl : len = 20 + body.length) (hs : len < 65536) :
    Ip4 (List.replicate 14 0 ++ ipSet (hdr0 tos len id ttl pr s d) ++ body) tos ttl pr s d body := by
  have hHb := hdr0_bytes tos len id ttl pr s d h1 h2 h3
  have hg0 : (hdr0 tos len id ttl pr s d).getD 0 0 = 69 := rfl
  have hlen20 : (hdr0 tos len id ttl pr s d).length = 20 := rfl
  have hfill := Csum.ip_checksum_verifies _ hHb (by rw [hg0]) (by rw [hg0]; decide) (by rw [hg0, hlen20]; decide)
  have hsetl : (ipSet (hdr0 tos len id ttl pr s d)).length = 20 := by rw [IpIn.ipSet_length, hlen20]
  have hsetb : Bytes (ipSet (hdr0 tos len id ttl pr s d)) := by
    rw [ipSet]
    exact Csum.put16_bytes _ _ _ (Csum.put16_bytes _ _ _ hHb (by omega)) (by rw [Csum.inv16]; omega)
  have hG : ∀ k, k < 20 → k ≠ 10 → k ≠ 11 → (ipSet (hdr0 tos len id ttl pr s d)).getD k 0 = (hdr0 tos len id ttl pr s d).getD k 0 := by
    intro k _ k1 k2
    rw [List.getD_eq_getElem?_getD, hfill.2 k k1 k2, ← List.getD_eq_getElem?_getD]
  have hHsum : SumOk (ipSet (hdr0 tos len id ttl pr s d)) := by
    have := IpIn.ipVerify_sum _ hsetb hfill.1
    rw [hG 0 (by omega) (by omega) (by omega), hg0] at this
    rw [show 69 % 16 * 4 = 20 from rfl, List.take_of_length_le (by omega)] at this
    exact this
  have e : ∀ k, k < 20 → k ≠ 10 → k ≠ 11 → u8 (List.replicate 14 0 ++ ipSet (hdr0 tos len id ttl pr s d) ++ body) (14 + k) = (hdr0 tos len id ttl pr s d).getD k 0 := by
    intro k hk k1 k2
    rw [List.append_assoc, u8_pad, IpIn.getD_append_left _ _ _ (by omega), hG k hk k1 k2]
  have hd14 : (List.replicate 14 0 ++ ipSet (hdr0 tos len id ttl pr s d) ++ body).drop 14 = ipSet (hdr0 tos len id ttl pr s d) ++ body := by
    rw [List.append_assoc]; exact List.drop_left' List.length_replicate
  generalize hX : (List.replicate 14 0 ++ ipSet (hdr0 tos len id ttl pr s d) ++ body) = g at *
  refine ⟨?_, e 0 (by omega) (by omega) (by omega), e 1 (by omega) (by omega) (by omega), ?_, ?_, e 8 (by omega) (by omega) (by omega), e 9 (by omega) (by omega) (by omega), ?_, ?_, ?_, ?_⟩
  · rw [← hX, List.length_append, List.length_append, hsetl, List.length_replicate]
  · have a : u8 g 16 = len / 256 % 256 := e 2 (by omega) (by omega) (by omega)
    have b : u8 g 17 = len % 256 := e 3 (by omega) (by omega) (by omega)
    show u8 g 16 * 256 + u8 g 17 = _
    rw [a, b]; omega
  · have a : u8 g 20 = 0 := e 6 (by omega) (by omega) (by omega)
    have b : u8 g 21 = 0 := e 7 (by omega) (by omega) (by omega)
    show u8 g 20 * 256 + u8 g 21 = _
    rw [a, b]
  · exact ipAt_ipBytes g 26 s (e 12 (by omega) (by omega) (by omega)) (e 13 (by omega) (by omega) (by omega)) (e 14 (by omega) (by omega) (by omega)) (e 15 (by omega) (by omega) (by omega))
  · exact ipAt_ipBytes g 30 d (e 16 (by omega) (by omega) (by omega)) (e 17 (by omega) (by omega) (by omega)) (e 18 (by omega) (by omega) (by omega)) (e 19 (by omega) (by omega) (by omega))
  · rw [hd14, List.take_left' hsetl]; exact hHsum
  · rw [show (34 : Nat) = 14 + 20 from rfl, ← List.drop_drop, hd14, List.drop_left' hsetl]

theorem mem_push (k : Nat) (c : C) (og : Option (List Nat)) (t : Tab C α) (j : Nat) (g : List Nat) :
    Ev.accepted j g ∈ (pushTx k c og t).2 ↔ og = some g ∧ j = k ∧ k < t.length := by
  unfold pushTx
  cases og with
  | none => simp
  | some x =>
    dsimp only
    by_cases h : k < t.length
    · rw [if_pos h, List.mem_singleton]
      constructor
      · intro e; cases e; exact ⟨rfl, rfl, h⟩
      · rintro ⟨a, b, _⟩; cases a; rw [b]
    · rw [if_neg h]
      constructor
      · intro e; cases e
      · rintro ⟨_, _, a⟩; exact absurd a h

end Wolf.Dgram
