import Verif.Dgram.Example
/-!
# C82: what ICMP, raw, packet and UDP sockets send
-/
namespace Wolf.Dgram
open Wolf.Route (Ip Conf)
open Wolf.IpIn (Net u8 u16 ipAt tot src dst hlen isMcast Mcast Bcast SumOk ipBytes)
open Wolf.Csum (Bytes ipSet icmpFill put16)

/-! ## Specification -/

/-- Interface `i` has no Ethernet header. -/
def NonEth (e : Env) (i : Nat) : Prop := (e.devs.getD i {}).nonEth = true

/-- Interface `i` and next hop `nh` of a UDP or ICMP datagram to `d`: the interface chosen with IP_MULTICAST_IF if it is UDP
multicast and one was chosen; else what the routing table says (C18, C19); without any interface the socket's own. -/
def Hop (e : Env) (udp : Bool) (own : Nat) (pin : Option Nat) (d : Ip) (i : Nat) (nh : Ip) : Prop :=
  (udp = true ∧ Mcast d ∧ pin = some i ∧ nh = d) ∨
  (¬ (udp = true ∧ Mcast d ∧ pin ≠ none) ∧
    (Route.lookup e.net.rt d = some (i, nh) ∨ (Route.lookup e.net.rt d = none ∧ nh = d ∧ i = if own ≥ e.devs.length then 0 else own)))

/-- The destination MAC for next hop `nh` on interface `i`: its own on the loopback interface, broadcast for a broadcast
address, the group's MAC for UDP multicast, else what ARP knows. -/
def MacFor (e : Env) (o : Tx) (udp : Bool) (d : Ip) (i : Nat) (nh : Ip) (m : List Nat) : Prop :=
  (Route.isLoop e.net.rt i = true ∧ m = macOf e.devs i) ∨
  (Route.isLoop e.net.rt i = false ∧ Bcast e.net nh ∧ m = [255, 255, 255, 255, 255, 255]) ∨
  (Route.isLoop e.net.rt i = false ∧ ¬ Bcast e.net nh ∧ udp = true ∧ Mcast d ∧ m = [1, 0, 0x5e, d.toNat / 65536 % 128, d.toNat / 256 % 256, d.toNat % 256]) ∨
  (Route.isLoop e.net.rt i = false ∧ ¬ Bcast e.net nh ∧ ¬ (udp = true ∧ Mcast d) ∧ o.mac i nh = some m)

/-- `h` is the queued datagram `g` as it goes out on interface `i` to next hop `nh`. -/
def Egress (e : Env) (o : Tx) (udp : Bool) (i : Nat) (nh : Ip) (g h : List Nat) : Prop :=
  (NonEth e i ∧ h = g) ∨ (¬ NonEth e i ∧ ∃ m, MacFor e o udp (dst g) i nh m ∧ h = m ++ macOf e.devs i ++ [8, 0] ++ g.drop 14)

/-- The next hop's MAC is needed and not known. -/
def NoMac (e : Env) (o : Tx) (udp : Bool) (d : Ip) (i : Nat) (nh : Ip) : Prop :=
  Route.isLoop e.net.rt i = false ∧ ¬ NonEth e i ∧ ¬ Bcast e.net nh ∧ ¬ (udp = true ∧ Mcast d) ∧ o.mac i nh = none

/-- The frames that left the transmit buffer of socket `k`, in order. -/
def leftOf {α : Type} (k : Nat) (es : List (Ev α)) : List (List Nat) :=
  es.filterMap (fun e => match e with
    | .sent j _ g _ => if j = k then some g else none
    | .lost j g => if j = k then some g else none
    | _ => none)

/-- An IPv4 datagram without options in the frame `g`. -/
structure Ip4 (g : List Nat) (tos ttl proto : Nat) (s d : Ip) (body : List Nat) : Prop where
  len : g.length = 34 + body.length
  version : u8 g 14 = 0x45
  tos : u8 g 15 = tos
  total : tot g = 20 + body.length
  frag : u16 g 20 = 0
  ttl : u8 g 22 = ttl
  proto : u8 g 23 = proto
  src : src g = s
  dst : dst g = d
  sum : SumOk ((g.drop 14).take 20)
  body : g.drop 34 = body

/-! ## Buffers are queues -/

/-- **C82, order.** In every history from start-up, whatever leaves the transmit buffer of a packet, raw or ICMP socket (sent
or lost) is the oldest frame accepted on that socket and still waiting, each once: replaying the events on a plain queue
never fails. So nothing is sent that no call had accepted, nothing twice, and not out of order. -/
theorem tap_sends_fifo (devs : List Link.Dev) (e : Env) (m : Nat) (k : Nat) (po : List PkOp) (ro : List RwOp) (io : List IcOp) :
    txReplay k [] (pkRun (pkInit devs m) po).2 = some (txOf (pkRun (pkInit devs m) po).1.tab k) ∧
    txReplay k [] (rwRun (rwInit e m) ro).2 = some (txOf (rwRun (rwInit e m) ro).1.tab k) ∧
    txReplay k [] (icRun (icInit e m) io).2 = some (txOf (icRun (icInit e m) io).1.tab k) := by
  have hz : ∀ {C α : Type} (z : C), txOf (List.replicate m (⟨false, z, [], []⟩ : Slot C α)) k = [] := by
    intro C α z
    rw [txOf, List.getElem?_replicate]; split <;> rfl
  refine ⟨?_, ?_, ?_⟩
  · have h := (pk_run_acc po (pkInit devs m) k).2
    rw [show txOf (pkInit devs m).tab k = [] from hz _] at h; exact h
  · have h := (rw_run_acc ro (rwInit e m) k).2
    rw [show txOf (rwInit e m).tab k = [] from hz _] at h; exact h
  · have h := (ic_run_acc io (icInit e m) k).2
    rw [show txOf (icInit e m).tab k = [] from hz _] at h; exact h

/-! ## The flush loops -/

variable {C α : Type}

theorem flushQ_split (R : C → Prop) (k : Nat) (dec : Nat → C → List Nat → C × Act) (hR : ∀ n c g, R c → R (dec n c g).1) :
    ∀ (q : List (List Nat)) (n : Nat) (c : C), R c →
    ∃ pre post, q = pre ++ post ∧ (flushQ (α := α) k dec n c q).2.1 = post ∧ leftOf k (flushQ (α := α) k dec n c q).2.2 = pre ∧
      (∀ i g h, Ev.sent k i g h ∈ (flushQ (α := α) k dec n c q).2.2 → ∃ m c', R c' ∧ (dec m c' g).2 = .send i h) ∧
      (∀ g, Ev.lost k g ∈ (flushQ (α := α) k dec n c q).2.2 → ∃ m c', n ≤ m ∧ m < n + pre.length ∧ R c' ∧ (dec m c' g).2 = .skip) ∧
      (post = [] ∨ ∃ g rest c' o, post = g :: rest ∧ R c' ∧ (dec (n + pre.length) c' g).2 = .stop o ∧
        ∀ i a, o = some (i, a) → Ev.arp i a ∈ (flushQ (α := α) k dec n c q).2.2) := by
  intro q
  induction q with
  | nil =>
    intro n c _
    exact ⟨[], [], rfl, rfl, rfl, fun _ _ _ h => (by cases h), fun _ h => (by cases h), Or.inl rfl⟩
  | cons g q ih =>
    intro n c hc
    rw [flushQ]
    cases hd : (dec n c g).2 with
    | stop o =>
      have hlast : ∀ es : List (Ev α), (∀ i a, o = some (i, a) → Ev.arp i a ∈ es) →
          (g :: q = [] ∨ ∃ g' rest c' o', g :: q = g' :: rest ∧ R c' ∧ (dec (n + ([] : List (List Nat)).length) c' g').2 = .stop o' ∧ ∀ i a, o' = some (i, a) → Ev.arp i a ∈ es) :=
        fun es h => Or.inr ⟨g, q, c, o, rfl, hc, hd, h⟩
      cases o with
      | none =>
        exact ⟨[], g :: q, rfl, rfl, rfl, fun _ _ _ h => (by cases h), fun _ h => (by cases h), hlast _ (by intro i a h; cases h)⟩
      | some p =>
        refine ⟨[], g :: q, rfl, rfl, rfl, ?_, ?_, hlast _ ?_⟩
        · intro i g' h hm; simp at hm
        · intro g' hm; simp at hm
        · intro i a h; cases h; exact List.mem_singleton.mpr rfl
    | skip =>
      obtain ⟨pre, post, e1, e2, e3, e4, e5, e6⟩ := ih (n + 1) (dec n c g).1 (hR _ _ _ hc)
      refine ⟨g :: pre, post, by rw [e1]; rfl, e2, ?_, ?_, ?_, ?_⟩
      · show leftOf k (Ev.lost k g :: _) = _
        rw [leftOf, List.filterMap_cons_some (b := g) (by simp)]
        exact congrArg _ e3
      · intro i g' h hm
        rcases List.mem_cons.mp hm with hm | hm
        · cases hm
        · exact e4 i g' h hm
      · intro g' hm
        rcases List.mem_cons.mp hm with hm | hm
        · cases hm; exact ⟨n, c, Nat.le_refl _, by simp, hc, hd⟩
        · obtain ⟨m, c', h1, h2, h3, h4⟩ := e5 g' hm
          exact ⟨m, c', by omega, by rw [List.length_cons]; omega, h3, h4⟩
      · rcases e6 with h | ⟨g', rest, c', o, h1, h2, h3, h4⟩
        · exact Or.inl h
        · refine Or.inr ⟨g', rest, c', o, h1, h2, ?_, fun i a h => List.mem_cons_of_mem _ (h4 i a h)⟩
          rw [List.length_cons, show n + (pre.length + 1) = n + 1 + pre.length by omega]; exact h3
    | send i0 h0 =>
      obtain ⟨pre, post, e1, e2, e3, e4, e5, e6⟩ := ih (n + 1) (dec n c g).1 (hR _ _ _ hc)
      refine ⟨g :: pre, post, by rw [e1]; rfl, e2, ?_, ?_, ?_, ?_⟩
      · show leftOf k (Ev.sent k i0 g h0 :: _) = _
        rw [leftOf, List.filterMap_cons_some (b := g) (by simp)]
        exact congrArg _ e3
      · intro i g' h hm
        rcases List.mem_cons.mp hm with hm | hm
        · cases hm; exact ⟨n, c, hc, hd⟩
        · exact e4 i g' h hm
      · intro g' hm
        rcases List.mem_cons.mp hm with hm | hm
        · cases hm
        · obtain ⟨m, c', h1, h2, h3, h4⟩ := e5 g' hm
          exact ⟨m, c', by omega, by rw [List.length_cons]; omega, h3, h4⟩
      · rcases e6 with h | ⟨g', rest, c', o, h1, h2, h3, h4⟩
        · exact Or.inl h
        · refine Or.inr ⟨g', rest, c', o, h1, h2, ?_, fun i a h => List.mem_cons_of_mem _ (h4 i a h)⟩
          rw [List.length_cons, show n + (pre.length + 1) = n + 1 + pre.length by omega]; exact h3

theorem left_slots (k : Nat) (f : Slot C α → Nat → List (Ev α)) (hf : ∀ s j, j ≠ k → leftOf k (f s j) = []) : ∀ (t : Tab C α) (a : Nat),
    leftOf k ((t.zipIdx a).flatMap (fun (s, j) => f s j)) = (match (if a ≤ k then t[k - a]? else none) with | some s => leftOf k (f s k) | none => []) := by
  intro t
  induction t with
  | nil => intro a; rw [List.zipIdx_nil, List.flatMap_nil]; split <;> simp_all [leftOf]
  | cons s t ih =>
    intro a
    rw [List.zipIdx_cons, List.flatMap_cons, show ∀ x y : List (Ev α), leftOf k (x ++ y) = leftOf k x ++ leftOf k y from fun x y => List.filterMap_append, ih]
    by_cases hk : a = k
    · subst hk
      rw [if_neg (by omega), if_pos (Nat.le_refl _), Nat.sub_self]
      simp
    · show leftOf k (f s a) ++ _ = _
      rw [hf s a hk, List.nil_append]
      by_cases hle : a ≤ k
      · rw [if_pos hle, if_pos (by omega)]
        have : k - a = (k - (a + 1)) + 1 := by omega
        rw [this, List.getElem?_cons_succ]
      · rw [if_neg hle, if_neg (by omega)]

theorem left_other (k j : Nat) (h : j ≠ k) (dec : Nat → C → List Nat → C × Act) (n : Nat) (c : C) (q : List (List Nat)) :
    leftOf k (flushQ (α := α) j dec n c q).2.2 = [] := by
  rw [leftOf, List.filterMap_eq_nil_iff]
  intro e he
  rcases flushQ_evs _ _ _ _ _ e he with ⟨i, a, h'⟩ | ⟨g, h'⟩ | ⟨i, g, h2, h'⟩ <;> subst h' <;> simp [h]

theorem flushTab_mem (dec : Nat → Nat → C → List Nat → C × Act) (t : Tab C α) (k : Nat) (sl : Slot C α) (hk : t[k]? = some sl) (e : Ev α) :
    e ∈ (flushQ (α := α) k (dec k) 0 sl.cfg sl.tx).2.2 → e ∈ (flushTab dec t).2 := by
  intro h
  rw [flushTab]
  simp only [List.mem_flatMap]
  exact ⟨(sl, k), List.mem_zipIdx_iff_getElem?.mpr hk, h⟩

theorem flushTab_of (dec : Nat → Nat → C → List Nat → C × Act) (t : Tab C α) (k : Nat) (sl : Slot C α) (hk : t[k]? = some sl) (e : Ev α)
    (he : (∃ i g h, e = .sent k i g h) ∨ (∃ g, e = .lost k g)) : e ∈ (flushTab dec t).2 → e ∈ (flushQ (α := α) k (dec k) 0 sl.cfg sl.tx).2.2 := by
  intro h
  rw [flushTab] at h
  simp only [List.mem_flatMap] at h
  obtain ⟨⟨s, j⟩, hm, hin⟩ := h
  have hj := List.mem_zipIdx_iff_getElem?.mp hm
  dsimp only at hin hj
  have : j = k := by
    rcases flushQ_evs _ _ _ _ _ e hin with ⟨i, a, h'⟩ | ⟨g, h'⟩ | ⟨i, g, h2, h'⟩ <;> subst h' <;> rcases he with ⟨i1, g1, h1, q⟩ | ⟨g1, q⟩ <;> cases q <;> rfl
  subst this
  rw [hk] at hj
  cases hj
  exact hin

/-- The shape of one flush of socket `k`. -/
theorem flush_split (R : C → Prop) (dec : Nat → Nat → C → List Nat → C × Act) (hR : ∀ k n c g, R c → R (dec k n c g).1) (t : Tab C α) (k : Nat) (sl : Slot C α)
    (hk : t[k]? = some sl) (hr : R sl.cfg) :
    ∃ pre post, sl.tx = pre ++ post ∧ txOf (flushTab dec t).1 k = post ∧ leftOf k (flushTab dec t).2 = pre ∧
      (∀ i g h, Ev.sent k i g h ∈ (flushTab dec t).2 → ∃ m c', R c' ∧ (dec k m c' g).2 = .send i h) ∧
      (∀ g, Ev.lost k g ∈ (flushTab dec t).2 → ∃ m c', m < pre.length ∧ R c' ∧ (dec k m c' g).2 = .skip) ∧
      (post = [] ∨ ∃ g rest c' o, post = g :: rest ∧ R c' ∧ (dec k pre.length c' g).2 = .stop o ∧ ∀ i a, o = some (i, a) → Ev.arp i a ∈ (flushTab dec t).2) := by
  obtain ⟨pre, post, e1, e2, e3, e4, e5, e6⟩ := flushQ_split (α := α) R k (dec k) (hR k) sl.tx 0 sl.cfg hr
  refine ⟨pre, post, e1, ?_, ?_, ?_, ?_, ?_⟩
  · rw [← e2, txOf]
    show ((t.zipIdx.map (fun (s, k) => flushSlot dec k s))[k]?.map Slot.tx).getD [] = _
    rw [get_map_zip, hk]; rfl
  · have h := left_slots k (fun (s : Slot C α) j => (flushQ (α := α) j (dec j) 0 s.cfg s.tx).2.2) (fun s j hj => left_other k j hj _ _ _ _) t 0
    rw [if_pos (Nat.zero_le _), Nat.sub_zero, hk] at h
    rw [← e3]; exact h
  · intro i g h hm
    exact e4 i g h (flushTab_of dec t k sl hk _ (Or.inl ⟨i, g, h, rfl⟩) hm)
  · intro g hm
    obtain ⟨m, c', _, h2, h3⟩ := e5 g (flushTab_of dec t k sl hk _ (Or.inr ⟨g, rfl⟩) hm)
    exact ⟨m, c', by omega, h3⟩
  · rcases e6 with h | ⟨g, rest, c', o, h1, h2, h3, h4⟩
    · exact Or.inl h
    · exact Or.inr ⟨g, rest, c', o, h1, h2, by rw [Nat.zero_add] at h3; exact h3, fun i a h => flushTab_mem dec t k sl hk _ (h4 i a h)⟩

/-! ## UDP and ICMP -/

theorem dgHop_spec (e : Env) (udp : Bool) (own : Nat) (pin : Option Nat) (d : Ip) : Hop e udp own pin d (dgHop e udp own pin d).1 (dgHop e udp own pin d).2 := by
  have hm := IpIn.isMcast_iff d
  have gen : ¬ (udp = true ∧ Mcast d ∧ pin ≠ none) →
      Hop e udp own pin d (match Route.lookup e.net.rt d with | some p => p | none => (if own ≥ e.devs.length then 0 else own, d)).1
        (match Route.lookup e.net.rt d with | some p => p | none => (if own ≥ e.devs.length then 0 else own, d)).2 := by
    intro hn
    refine Or.inr ⟨hn, ?_⟩
    cases hl : Route.lookup e.net.rt d with
    | some p => exact Or.inl rfl
    | none => exact Or.inr ⟨rfl, rfl, rfl⟩
  cases pin with
  | none => exact gen (by rintro ⟨_, _, h⟩; exact h rfl)
  | some j =>
    cases hb : (udp && isMcast d) with
    | true =>
      rw [Bool.and_eq_true] at hb
      have : dgHop e udp own (some j) d = (j, d) := by unfold dgHop; rw [hb.1, hb.2]; rfl
      rw [this]
      exact Or.inl ⟨hb.1, hm.mp hb.2, rfl, rfl⟩
    | false =>
      have hn : ¬ (udp = true ∧ Mcast d ∧ some j ≠ none) := by
        rintro ⟨a, b, _⟩
        rw [a, hm.mpr b] at hb; cases hb
      have := gen hn
      unfold dgHop
      rw [hb]
      exact this

theorem dgMac_some (e : Env) (o : Tx) (udp : Bool) (d : Ip) (p : Nat × Ip) (m : List Nat) (h : dgMac e o udp d p = some m) (hn : ¬ NonEth e p.1) :
    MacFor e o udp d p.1 p.2 m := by
  rw [dgMac] at h
  by_cases c1 : Route.isLoop e.net.rt p.1 = true
  · rw [if_pos c1] at h; exact Or.inl ⟨c1, (Option.some.inj h).symm⟩
  have c1' : Route.isLoop e.net.rt p.1 = false := by simpa using c1
  rw [if_neg c1, if_neg (show ¬ (e.devs.getD p.1 {}).nonEth = true from hn)] at h
  by_cases c2 : Route.isBroadcast e.net.rt p.2 = true
  · rw [if_pos c2] at h; exact Or.inr (Or.inl ⟨c1', (IpIn.isBroadcast_iff _ _).mp c2, (Option.some.inj h).symm⟩)
  have c2' : ¬ Bcast e.net p.2 := fun c => c2 ((IpIn.isBroadcast_iff _ _).mpr c)
  rw [if_neg c2] at h
  by_cases c3 : (udp && isMcast d) = true
  · rw [if_pos c3] at h
    rw [Bool.and_eq_true] at c3
    exact Or.inr (Or.inr (Or.inl ⟨c1', c2', c3.1, (IpIn.isMcast_iff _).mp c3.2, (Option.some.inj h).symm⟩))
  · rw [if_neg c3] at h
    refine Or.inr (Or.inr (Or.inr ⟨c1', c2', ?_, h⟩))
    rintro ⟨a, b⟩
    exact c3 (by rw [a, (IpIn.isMcast_iff _).mpr b]; rfl)

theorem dgMac_none (e : Env) (o : Tx) (udp : Bool) (d : Ip) (p : Nat × Ip) : dgMac e o udp d p = none ↔ NoMac e o udp d p.1 p.2 := by
  rw [dgMac]
  by_cases c1 : Route.isLoop e.net.rt p.1 = true
  · rw [if_pos c1]
    exact ⟨fun h => (by cases h), fun h => (by rw [h.1] at c1; cases c1)⟩
  rw [if_neg c1]
  by_cases c0 : (e.devs.getD p.1 {}).nonEth = true
  · rw [if_pos c0]
    exact ⟨fun h => (by cases h), fun h => absurd c0 h.2.1⟩
  rw [if_neg c0]
  by_cases c2 : Route.isBroadcast e.net.rt p.2 = true
  · rw [if_pos c2]
    exact ⟨fun h => (by cases h), fun h => absurd ((IpIn.isBroadcast_iff _ _).mp c2) h.2.2.1⟩
  rw [if_neg c2]
  by_cases c3 : (udp && isMcast d) = true
  · rw [if_pos c3]
    rw [Bool.and_eq_true] at c3
    exact ⟨fun h => (by cases h), fun h => absurd ⟨c3.1, (IpIn.isMcast_iff _).mp c3.2⟩ h.2.2.2.1⟩
  rw [if_neg c3]
  refine ⟨fun h => ⟨by simpa using c1, c0, fun c => c2 ((IpIn.isBroadcast_iff _ _).mpr c), ?_, h⟩, fun h => h.2.2.2.2⟩
  rintro ⟨a, b⟩
  exact c3 (by rw [a, (IpIn.isMcast_iff _).mpr b]; rfl)

/-- **C82, UDP and ICMP.** For every socket table, configuration and environment: one flush sends a prefix of the datagrams
waiting on the socket, in order, none of them lost; each goes out on the interface and to the next hop the routing table
gives for its destination (UDP multicast: the interface chosen), byte for byte behind an Ethernet header with that
interface's MAC as source and the right destination MAC (no Ethernet header where the link has none). It stops before the
end only because the filter vetoes the next datagram, the driver refuses it, or the next hop's MAC is not known, and then
ARP asks for it. -/
theorem datagram_flush (e : Env) (o : Tx) (udp : Bool) (ifOf : C → Nat) (pin : C → Option Nat) (t : Tab C α) (k : Nat) (sl : Slot C α) (hk : t[k]? = some sl) :
    ∃ pre post, sl.tx = pre ++ post ∧ txOf (flushTab (dgDec e o udp ifOf pin) t).1 k = post ∧ leftOf k (flushTab (dgDec e o udp ifOf pin) t).2 = pre ∧
      (∀ i g h, Ev.sent k i g h ∈ (flushTab (dgDec e o udp ifOf pin) t).2 →
        ∃ nh, Hop e udp (ifOf sl.cfg) (pin sl.cfg) (dst g) i nh ∧ Egress e o udp i nh g h) ∧
      (∀ g, Ev.lost k g ∉ (flushTab (dgDec e o udp ifOf pin) t).2) ∧
      (post = [] ∨ ∃ g rest, post = g :: rest ∧
        (o.veto k pre.length = true ∨ o.link k pre.length = false ∨
          ∃ i nh, Hop e udp (ifOf sl.cfg) (pin sl.cfg) (dst g) i nh ∧ NoMac e o udp (dst g) i nh ∧ Ev.arp i nh ∈ (flushTab (dgDec e o udp ifOf pin) t).2)) := by
  obtain ⟨pre, post, e1, e2, e3, e4, e5, e6⟩ := flush_split (fun c => c = sl.cfg) (dgDec e o udp ifOf pin) (fun _ _ _ _ h => h) t k sl hk rfl
  refine ⟨pre, post, e1, e2, e3, ?_, ?_, ?_⟩
  · intro i g h hm
    obtain ⟨m, c, hc, hd⟩ := e4 i g h hm
    subst hc
    rw [dgDec] at hd
    dsimp only at hd
    have hs := dgHop_spec e udp (ifOf sl.cfg) (pin sl.cfg) (dst g)
    cases hmac : dgMac e o udp (dst g) (dgHop e udp (ifOf sl.cfg) (pin sl.cfg) (dst g)) with
    | none => rw [hmac] at hd; cases hd
    | some mac =>
      rw [hmac] at hd
      dsimp only at hd
      split at hd
      · cases hd
      · split at hd
        · injection hd with hi hh
          rw [hi] at hh hs
          refine ⟨(dgHop e udp (ifOf sl.cfg) (pin sl.cfg) (dst g)).2, hs, ?_⟩
          by_cases c0 : (e.devs.getD i {}).nonEth = true
          · rw [if_pos c0] at hh; exact Or.inl ⟨c0, hh.symm⟩
          · rw [if_neg c0] at hh
            have hm2 := dgMac_some e o udp (dst g) _ mac hmac (by rw [hi]; exact c0)
            rw [hi] at hm2
            exact Or.inr ⟨c0, mac, hm2, hh.symm⟩
        · cases hd
  · intro g hm
    obtain ⟨m, c, _, _, hd⟩ := e5 g hm
    rw [dgDec] at hd
    dsimp only at hd
    split at hd
    · cases hd
    · split at hd
      · cases hd
      · split at hd <;> cases hd
  · rcases e6 with h | ⟨g, rest, c, o', h1, h2, h3, h4⟩
    · exact Or.inl h
    · refine Or.inr ⟨g, rest, h1, ?_⟩
      subst h2
      rw [dgDec] at h3
      dsimp only at h3
      have hs := dgHop_spec e udp (ifOf sl.cfg) (pin sl.cfg) (dst g)
      cases hmac : dgMac e o udp (dst g) (dgHop e udp (ifOf sl.cfg) (pin sl.cfg) (dst g)) with
      | none =>
        rw [hmac] at h3
        injection h3 with h3
        exact Or.inr (Or.inr ⟨_, _, hs, (dgMac_none e o udp (dst g) _).mp hmac, h4 _ _ h3.symm⟩)
      | some mac =>
        rw [hmac] at h3
        dsimp only at h3
        by_cases c1 : o.veto k pre.length = true
        · exact Or.inl c1
        · rw [if_neg c1] at h3
          by_cases c2 : o.link k pre.length = true
          · rw [if_pos c2] at h3; cases h3
          · exact Or.inr (Or.inl (by simpa using c2))

/-- **C82, progress.** If the filter and the driver take everything and the next hop of every datagram waiting on the socket
is known, one flush sends them all. -/
theorem datagram_drain (e : Env) (o : Tx) (udp : Bool) (ifOf : C → Nat) (pin : C → Option Nat) (t : Tab C α) (k : Nat) (sl : Slot C α) (hk : t[k]? = some sl)
    (hv : ∀ n, o.veto k n = false) (hl : ∀ n, o.link k n = true)
    (hm : ∀ g ∈ sl.tx, ∀ i nh, Hop e udp (ifOf sl.cfg) (pin sl.cfg) (dst g) i nh → ¬ NoMac e o udp (dst g) i nh) :
    txOf (flushTab (dgDec e o udp ifOf pin) t).1 k = [] ∧ leftOf k (flushTab (dgDec e o udp ifOf pin) t).2 = sl.tx := by
  obtain ⟨pre, post, e1, e2, e3, _, _, e6⟩ := datagram_flush e o udp ifOf pin t k sl hk
  rcases e6 with h | ⟨g, rest, h1, h2 | h2 | ⟨i, nh, h3, h4, _⟩⟩
  · rw [h] at e1 e2; rw [List.append_nil] at e1; exact ⟨e2, by rw [e3, e1]⟩
  · rw [hv] at h2; cases h2
  · rw [hl] at h2; cases h2
  · exact absurd h4 (hm g (by rw [e1, h1]; simp) i nh h3)

/-- **C82, ICMP.** The same for the flush of ICMP sockets. -/
theorem icmp_flush (s : IcSt) (o : Tx) (k : Nat) (sl : Slot Ic (List Nat)) (hk : s.tab[k]? = some sl) :
    ∃ pre post, sl.tx = pre ++ post ∧ txOf (icStep s (.flush o)).1.tab k = post ∧ leftOf k (icStep s (.flush o)).2.2 = pre ∧
      (∀ i g h, Ev.sent k i g h ∈ (icStep s (.flush o)).2.2 → ∃ nh, Hop s.env false sl.cfg.ifIdx none (dst g) i nh ∧ Egress s.env o false i nh g h) ∧
      (∀ g, Ev.lost k g ∉ (icStep s (.flush o)).2.2) ∧
      (post = [] ∨ ∃ g rest, post = g :: rest ∧
        (o.veto k pre.length = true ∨ o.link k pre.length = false ∨
          ∃ i nh, Hop s.env false sl.cfg.ifIdx none (dst g) i nh ∧ NoMac s.env o false (dst g) i nh ∧ Ev.arp i nh ∈ (icStep s (.flush o)).2.2)) :=
  datagram_flush s.env o false Ic.ifIdx (fun _ => none) s.tab k sl hk

end Wolf.Dgram
