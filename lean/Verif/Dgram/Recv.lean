import Verif.Dgram.Model
import Verif.Ip.Park
/-!
# C81: what ICMP, raw and packet sockets receive
-/
namespace Wolf.Dgram
open Wolf.Route (Ip Conf)
open Wolf.IpIn (Net u8 u16 ipAt tot src dst hlen isMcast Mcast Bcast SumOk octet1)
open Wolf.Csum (Bytes)

/-! ## Specification -/

/-- The frame carries a VLAN tag with the id of sub-interface `j` of interface `i`. -/
def SubOf (devs : List Link.Dev) (i : Nat) (g : List Nat) (j : Nat) : Prop :=
  ∃ d v, devs[j]? = some d ∧ d.vlan = some v ∧ v.parent = i ∧ v.vid = u16 g 14 % 4096

/-- No two interfaces are the same VLAN of the same parent (what `wolfIP_vlan_create` keeps, C30). -/
def VlansDistinct (devs : List Link.Dev) : Prop :=
  ∀ i g j j', SubOf devs i g j → SubOf devs i g j' → j = j'

/-- A packet socket's protocol admits EtherType `ty`. -/
def ProtoOk (c : Pk) (ty : Nat) : Prop := c.proto = 0 ∨ c.proto = ty

instance (c : Pk) (ty : Nat) : Decidable (ProtoOk c ty) := by unfold ProtoOk; infer_instance

/-- It listens on interface `i`: bound to it, or to none (index 0). -/
def OnIf (c : Pk) (i : Nat) : Prop := c.bind ≤ 0 ∨ c.bind = (i : Int)

instance (c : Pk) (i : Nat) : Decidable (OnIf c i) := by unfold OnIf; infer_instance

/-- The frame `g` from interface `i` reaches IP input as the frame `f` of interface `j`: as it is on a link without
Ethernet header; else the filter lets it pass, a VLAN tag is removed and names the interface, the EtherType is IPv4 and the
destination MAC is the interface's, broadcast, or an IPv4 multicast MAC with a group that is joined there (or one of the two
IGMP groups). -/
def Arrives (devs : List Link.Dev) (i : Nat) (g : List Nat) (o : Rx) (j : Nat) (f : List Nat) : Prop :=
  ∃ d, devs[i]? = some d ∧
    ((d.nonEth = true ∧ j = i ∧ f = g) ∨
     (d.nonEth = false ∧ o.vetoEth = false ∧ 14 ≤ g.length ∧
      ((etype g ≠ 0x8100 ∧ j = i ∧ f = g) ∨ (etype g = 0x8100 ∧ 18 ≤ g.length ∧ o.vetoSub = false ∧ SubOf devs i g j ∧ f = g.take 12 ++ g.drop 16)) ∧
      etype f = 0x0800 ∧
      ∃ e, devs[j]? = some e ∧
        (f.take 6 = e.mac ∨ f.take 6 = [255, 255, 255, 255, 255, 255] ∨
         (34 ≤ f.length ∧ u8 f 0 = 1 ∧ u8 f 1 = 0 ∧ u8 f 2 = 0x5e ∧ u8 f 3 / 128 = 0 ∧ Mcast (dst f) ∧
           (o.joined j (dst f) = true ∨ dst f = 0xE0000016#32 ∨ dst f = 0xE0000001#32)))))

/-- The header of the datagram in frame `f` is in order: lengths, version, checksum, not a fragment, a unicast source, and
no loopback address off the loopback interface. -/
structure HeadForm (n : Net) (i : Nat) (f : List Nat) : Prop where
  len : 34 ≤ f.length
  version : u8 f 14 / 16 = 4
  hdr : 20 ≤ hlen f ∧ 14 + hlen f ≤ f.length
  total : hlen f ≤ tot f ∧ 14 + tot f ≤ f.length
  sum : SumOk ((f.drop 14).take (hlen f))
  whole : u16 f 20 % 16384 = 0
  srcUni : ¬ Bcast n (src f) ∧ ¬ Mcast (src f)
  srcSet : src f ≠ 0 ∨ n.dhcp = true
  loopNet : Route.isLoop n.rt i = true ∨ (octet1 (src f) ≠ 127 ∧ octet1 (dst f) ≠ 127)

/-- What the raw socket's own settings admit. -/
def RawWants (c : Rw) (j : Nat) (f : List Nat) : Prop :=
  (c.proto = 0 ∨ c.proto = u8 f 23) ∧ (c.blip = 0 ∨ c.blip = dst f) ∧ (c.ifIdx = 0 ∨ c.ifIdx = j)

/-- What the ICMP socket's own settings admit: its address, its id, its peer (0 = any). -/
def IcmpWants (c : Ic) (h : List Nat) : Prop :=
  (c.lip = 0 ∨ c.lip = dst h) ∧ (c.id = 0 ∨ c.id = u16 h 38) ∧ (c.rip = 0 ∨ c.rip = src h)

/-- A correct ICMP message for sockets in the frame `h` (no IP options): complete, right checksum, not vetoed; an echo reply
must be for one of this host's unicast addresses, an echo request is answered by the stack and not shown (unless DHCP runs). -/
structure ForIcmp (n : Net) (h : List Nat) (veto : Bool) : Prop where
  len : 42 ≤ h.length
  total : 28 ≤ tot h ∧ 14 + tot h ≤ h.length
  sum : Csum.icmpChecksum (h.drop 34) (tot h - 20) = 0
  pass : veto = false
  reply : u8 h 34 = 0 → ¬ Bcast n (dst h) ∧ ¬ Mcast (dst h) ∧ dst h ≠ 0 ∧ ∃ c ∈ n.rt.confs, c.ip = dst h
  request : u8 h 34 = 8 → n.dhcp = true

/-! ## Every history: buffers are queues -/

theorem pk_step_acc (s : PkSt) (op : PkOp) : Accounts s.tab (pkStep s op).2.2 (pkStep s op).1.tab := by
  cases op with
  | frame i g o =>
    show Accounts s.tab (pkFrame s.devs i g o s.tab).2 (pkFrame s.devs i g o s.tab).1
    have htry : ∀ (r : Nat → Bool) (x : Nat × List Nat × Bool) (t : PkTab), Accounts t (pkTry r x t).2 (pkTry r x t).1 := by
      intro r x t
      rw [pkTry]
      split
      · exact acc_refl t
      · exact acc_deliver _ _ _ _
    rw [pkFrame]
    split
    · exact acc_refl _
    · exact htry _ _ _
    · exact acc_trans (htry _ _ _) (htry _ _ _)
  | socket proto => exact acc_open _ _
  | bind k i proto =>
    show Accounts s.tab (pkBindOp s k i proto).2.2 (pkBindOp s k i proto).1.tab
    rw [pkBindOp]
    cases s.tab[k]? with
    | none => exact acc_refl _
    | some t =>
      dsimp only
      split
      · exact acc_refl _
      · split
        · exact acc_refl _
        · exact acc_setCfg _ _ _
  | send k to buf room =>
    show Accounts s.tab (pkSendOp s k to buf room).2.2 (pkSendOp s k to buf room).1.tab
    rw [pkSendOp]
    cases s.tab[k]? with
    | none => exact acc_refl _
    | some t =>
      dsimp only
      split
      · exact acc_refl _
      · split
        · exact acc_refl _
        · split
          · exact acc_setCfg _ _ _
          · exact acc_pushTx _ _ _ _
  | recv k len =>
    show Accounts s.tab (pkRecvOp s k len).2.2 (pkRecvOp s k len).1.tab
    rw [pkRecvOp]
    cases s.tab[k]? with
    | none => exact acc_refl _
    | some t =>
      dsimp only
      split
      · exact acc_refl _
      · split
        · exact acc_refl _
        · exact acc_popRx _ _
  | close k =>
    show Accounts s.tab (pkCloseOp s k).2.2 (pkCloseOp s k).1.tab
    rw [pkCloseOp]
    cases s.tab[k]? with
    | none => exact acc_refl _
    | some t =>
      dsimp only
      split
      · exact acc_refl _
      · exact acc_close _ _ _
  | flush o => exact acc_flush _ _
  | reconf devs => exact acc_refl _

theorem rw_step_acc (s : RwSt) (op : RwOp) : Accounts s.tab (rwStep s op).2.2 (rwStep s op).1.tab := by
  cases op with
  | frame i g o =>
    show Accounts s.tab (rwFrame s.env i g o s.tab).2 (rwFrame s.env i g o s.tab).1
    rw [rwFrame]
    cases rawTap s.env i g o with
    | none => exact acc_refl _
    | some p => exact acc_deliver _ _ _ _
  | socket proto hdr => exact acc_open _ _
  | opt k hdr dr =>
    show Accounts s.tab (rwOptOp s k hdr dr).2.2 (rwOptOp s k hdr dr).1.tab
    rw [rwOptOp]
    cases s.tab[k]? with
    | none => exact acc_refl _
    | some t =>
      dsimp only
      split
      · exact acc_refl _
      · exact acc_setCfg _ _ _
  | bind k a =>
    show Accounts s.tab (rwBindOp s k a).2.2 (rwBindOp s k a).1.tab
    rw [rwBindOp]
    cases s.tab[k]? with
    | none => exact acc_refl _
    | some t =>
      dsimp only
      split
      · exact acc_refl _
      · split
        · exact acc_refl _
        · exact acc_setCfg _ _ _
  | connect k a =>
    show Accounts s.tab (rwConnectOp s k a).2.2 (rwConnectOp s k a).1.tab
    rw [rwConnectOp]
    cases s.tab[k]? with
    | none => exact acc_refl _
    | some t =>
      dsimp only
      split
      · exact acc_refl _
      · exact acc_setCfg _ _ _
  | send k to buf fl id room =>
    show Accounts s.tab (rwSendOp s k to buf fl id room).2.2 (rwSendOp s k to buf fl id room).1.tab
    rw [rwSendOp]
    cases s.tab[k]? with
    | none => exact acc_refl _
    | some t =>
      dsimp only
      split
      · exact acc_refl _
      · exact acc_pushTx _ _ _ _
  | recv k len =>
    show Accounts s.tab (rwRecvOp s k len).2.2 (rwRecvOp s k len).1.tab
    rw [rwRecvOp]
    cases s.tab[k]? with
    | none => exact acc_refl _
    | some t =>
      dsimp only
      split
      · exact acc_refl _
      · split
        · exact acc_refl _
        · exact acc_popRx _ _
  | close k =>
    show Accounts s.tab (rwCloseOp s k).2.2 (rwCloseOp s k).1.tab
    rw [rwCloseOp]
    cases s.tab[k]? with
    | none => exact acc_refl _
    | some t =>
      dsimp only
      split
      · exact acc_refl _
      · exact acc_close _ _ _
  | flush o => exact acc_flush _ _
  | reconf e => exact acc_refl _

theorem ic_step_acc (s : IcSt) (op : IcOp) : Accounts s.tab (icStep s op).2.2 (icStep s op).1.tab := by
  cases op with
  | frame i g o =>
    show Accounts s.tab (icFrame s.env i g o s.tab).2 (icFrame s.env i g o s.tab).1
    rw [icFrame]
    cases icmpTap s.env i g o with
    | none => exact acc_refl _
    | some p => exact acc_deliver _ _ _ _
  | socket => exact acc_open _ _
  | bind k a id veto =>
    show Accounts s.tab (icBindOp s k a id veto).2.2 (icBindOp s k a id veto).1.tab
    rw [icBindOp]
    cases s.tab[k]? with
    | none => exact acc_refl _
    | some t =>
      dsimp only
      generalize (if a ≠ 0 then a else addrFor s.env.net.rt (ifForLocal s.env.net.rt a) t.cfg.lip) = l
      split
      · exact acc_refl _
      · split
        · exact acc_refl _
        · split
          · exact acc_setCfg _ _ _
          · split
            · exact acc_setCfg _ _ _
            · exact acc_setCfg _ _ _
  | connect k a =>
    show Accounts s.tab (icConnectOp s k a).2.2 (icConnectOp s k a).1.tab
    rw [icConnectOp]
    cases s.tab[k]? with
    | none => exact acc_refl _
    | some t =>
      dsimp only
      split
      · exact acc_setCfg _ _ _
      · exact acc_setCfg _ _ _
  | send k to buf rnd tos id room =>
    show Accounts s.tab (icSendOp s k to buf rnd tos id room).2.2 (icSendOp s k to buf rnd tos id room).1.tab
    rw [icSendOp]
    cases s.tab[k]? with
    | none => exact acc_refl _
    | some t => exact acc_pushTx _ _ _ _
  | recv k len =>
    show Accounts s.tab (icRecvOp s k len).2.2 (icRecvOp s k len).1.tab
    rw [icRecvOp]
    cases s.tab[k]? with
    | none => exact acc_refl _
    | some t =>
      dsimp only
      split
      · exact acc_refl _
      · exact acc_popRx _ _
  | close k =>
    show Accounts s.tab (icCloseOp s k).2.2 (icCloseOp s k).1.tab
    rw [icCloseOp]
    cases s.tab[k]? with
    | none => exact acc_refl _
    | some t => exact acc_close _ _ _
  | flush o => exact acc_flush _ _
  | reconf e => exact acc_refl _

theorem pk_run_acc (ops : List PkOp) : ∀ s : PkSt, Accounts s.tab (pkRun s ops).2 (pkRun s ops).1.tab := by
  induction ops with
  | nil => intro s; exact acc_refl _
  | cons op ops ih => intro s; exact acc_trans (pk_step_acc s op) (ih _)

theorem rw_run_acc (ops : List RwOp) : ∀ s : RwSt, Accounts s.tab (rwRun s ops).2 (rwRun s ops).1.tab := by
  induction ops with
  | nil => intro s; exact acc_refl _
  | cons op ops ih => intro s; exact acc_trans (rw_step_acc s op) (ih _)

theorem ic_run_acc (ops : List IcOp) : ∀ s : IcSt, Accounts s.tab (icRun s ops).2 (icRun s ops).1.tab := by
  induction ops with
  | nil => intro s; exact acc_refl _
  | cons op ops ih => intro s; exact acc_trans (ic_step_acc s op) (ih _)

/-- **C81, reads.** In every history from start-up, whatever a packet, raw or ICMP socket is given is read in the order it
came, each entry once, and nothing else is read: replaying the events on a plain queue never fails, and what is left is
what the next reads return. -/
theorem tap_reads_fifo (devs : List Link.Dev) (e : Env) (m : Nat) (k : Nat) (po : List PkOp) (ro : List RwOp) (io : List IcOp) :
    rxReplay k [] (pkRun (pkInit devs m) po).2 = some (rxOf (pkRun (pkInit devs m) po).1.tab k) ∧
    rxReplay k [] (rwRun (rwInit e m) ro).2 = some (rxOf (rwRun (rwInit e m) ro).1.tab k) ∧
    rxReplay k [] (icRun (icInit e m) io).2 = some (rxOf (icRun (icInit e m) io).1.tab k) := by
  have hz : ∀ {C α : Type} (z : C), rxOf (List.replicate m (⟨false, z, [], []⟩ : Slot C α)) k = [] := by
    intro C α z
    rw [rxOf, List.getElem?_replicate]; split <;> rfl
  refine ⟨?_, ?_, ?_⟩
  · have h := (pk_run_acc po (pkInit devs m) k).1
    rw [show rxOf (pkInit devs m).tab k = [] from hz _] at h; exact h
  · have h := (rw_run_acc ro (rwInit e m) k).1
    rw [show rxOf (rwInit e m).tab k = [] from hz _] at h; exact h
  · have h := (ic_run_acc io (icInit e m) k).1
    rw [show rxOf (icInit e m).tab k = [] from hz _] at h; exact h

/-! ## Packet sockets -/

theorem pkTakes_wild (i : Nat) (g : List Nat) (c : Pk) : pkTakes i g true c = decide (ProtoOk c (etype g) ∧ OnIf c i) := by
  rw [pkTakes]
  by_cases h1 : c.proto ≠ 0 ∧ c.proto ≠ etype g
  · rw [if_pos h1, eq_comm, decide_eq_false_iff_not]
    rintro ⟨h | h, _⟩
    · exact h1.1 h
    · exact h1.2 h
  · rw [if_neg h1, if_pos rfl]
    have hp : ProtoOk c (etype g) := by
      unfold ProtoOk; by_cases a : c.proto = 0
      · exact Or.inl a
      · exact Or.inr (Classical.byContradiction (fun b => h1 ⟨a, b⟩))
    by_cases h2 : c.bind ≥ 0 ∧ c.bind ≠ (i : Int) ∧ c.bind ≠ 0
    · rw [decide_eq_true h2, decide_eq_false]
      · rfl
      · rintro ⟨_, h | h⟩ <;> omega
    · rw [decide_eq_false h2, decide_eq_true]
      · rfl
      · refine ⟨hp, ?_⟩
        unfold OnIf; omega

theorem pkTakes_only (i : Nat) (g : List Nat) (c : Pk) : pkTakes i g false c = decide (ProtoOk c (etype g) ∧ c.bind = (i : Int)) := by
  rw [pkTakes]
  by_cases h1 : c.proto ≠ 0 ∧ c.proto ≠ etype g
  · rw [if_pos h1, eq_comm, decide_eq_false_iff_not]
    rintro ⟨h | h, _⟩
    · exact h1.1 h
    · exact h1.2 h
  · rw [if_neg h1, if_neg (by simp)]
    have hp : ProtoOk c (etype g) := by
      unfold ProtoOk; by_cases a : c.proto = 0
      · exact Or.inl a
      · exact Or.inr (Classical.byContradiction (fun b => h1 ⟨a, b⟩))
    by_cases h2 : c.bind < 0 ∨ c.bind ≠ (i : Int)
    · rw [decide_eq_true h2, decide_eq_false]
      · rfl
      · rintro ⟨_, h⟩; omega
    · rw [decide_eq_false h2, decide_eq_true]
      · rfl
      · exact ⟨hp, by omega⟩

theorem copies_pkTry (room : Nat → Bool) (x : Nat × List Nat × Bool) (t : PkTab) (k : Nat) (sl : Slot Pk (Nat × List Nat)) (hk : t[k]? = some sl) :
    copies k (pkTry room x t).2 = if x.2.1.length ≤ 1536 ∧ x.2.1.length ≠ 0 ∧ sl.used = true ∧ pkTakes x.1 x.2.1 x.2.2 sl.cfg = true ∧ room k = true then [(x.1, x.2.1)] else [] := by
  rw [pkTry]
  by_cases h : x.2.1.length > 1536 ∨ x.2.1.length = 0
  · rw [if_pos h, if_neg]
    · rfl
    · rintro ⟨a, b, _⟩; omega
  · rw [if_neg h, copies_deliver, hk]
    dsimp only
    by_cases c : (sl.used && pkTakes x.1 x.2.1 x.2.2 sl.cfg && room k) = true
    · rw [if_pos c]
      simp only [Bool.and_eq_true] at c
      rw [if_pos ⟨by omega, by omega, c.1.1, c.1.2, c.2⟩]
    · rw [if_neg c, if_neg]
      rintro ⟨_, _, a, b, d⟩
      exact c (by rw [a, b, d]; rfl)

theorem pkTry_cfg (room : Nat → Bool) (x : Nat × List Nat × Bool) (t : PkTab) (k : Nat) (sl : Slot Pk (Nat × List Nat)) (hk : t[k]? = some sl) :
    ∃ sl', (pkTry room x t).1[k]? = some sl' ∧ sl'.used = sl.used ∧ sl'.cfg = sl.cfg := by
  rw [pkTry]
  split
  · exact ⟨sl, hk, rfl, rfl⟩
  · refine ⟨copyTo (pkTakes x.1 x.2.1 x.2.2) room (x.1, x.2.1) k sl, ?_, ?_, ?_⟩
    · show (t.zipIdx.map (fun (s, k) => copyTo (pkTakes x.1 x.2.1 x.2.2) room (x.1, x.2.1) k s))[k]? = _
      rw [get_map_zip, hk]; rfl
    · rw [copyTo]; split <;> rfl
    · rw [copyTo]; split <;> rfl

theorem isSub_iff (i vid : Nat) (d : Link.Dev) : Link.isSub i vid d = true ↔ ∃ v, d.vlan = some v ∧ v.parent = i ∧ v.vid = vid := by
  rw [Link.isSub]
  cases d.vlan with
  | none => constructor
            · intro h; cases h
            · rintro ⟨v, h, _⟩; cases h
  | some v => simp

theorem subOf_some (devs : List Link.Dev) (i j : Nat) (g : List Nat) (h : subOf devs i g = some j) : SubOf devs i g j := by
  rw [subOf, List.findIdx?_eq_some_iff_getElem] at h
  obtain ⟨hlt, hp, _⟩ := h
  rw [isSub_iff] at hp
  obtain ⟨v, h1, h2, h3⟩ := hp
  exact ⟨devs[j], v, List.getElem?_eq_getElem hlt, h1, h2, h3⟩

theorem subOf_none (devs : List Link.Dev) (i j : Nat) (g : List Nat) (h : subOf devs i g = none) : ¬ SubOf devs i g j := by
  rintro ⟨d, v, h1, h2, h3, h4⟩
  rw [subOf, List.findIdx?_eq_none_iff] at h
  have := h d (List.mem_of_getElem? h1)
  rw [(isSub_iff i _ d).mpr ⟨v, h2, h3, h4⟩] at this
  cases this

theorem subOf_of (devs : List Link.Dev) (hv : VlansDistinct devs) (i j : Nat) (g : List Nat) (h : SubOf devs i g j) : subOf devs i g = some j := by
  cases hs : subOf devs i g with
  | none => exact absurd h (subOf_none devs i j g hs)
  | some j' => rw [hv i g j' j (subOf_some devs i j' g hs) h]

theorem copies_two (room room2 : Nat → Bool) (x y : Nat × List Nat × Bool) (t : PkTab) (k : Nat) (sl : Slot Pk (Nat × List Nat)) (hk : t[k]? = some sl) :
    copies k ((pkTry room x t).2 ++ (pkTry room2 y (pkTry room x t).1).2) =
      (if x.2.1.length ≤ 1536 ∧ x.2.1.length ≠ 0 ∧ sl.used = true ∧ pkTakes x.1 x.2.1 x.2.2 sl.cfg = true ∧ room k = true then [(x.1, x.2.1)] else []) ++
      (if y.2.1.length ≤ 1536 ∧ y.2.1.length ≠ 0 ∧ sl.used = true ∧ pkTakes y.1 y.2.1 y.2.2 sl.cfg = true ∧ room2 k = true then [(y.1, y.2.1)] else []) := by
  obtain ⟨sl', h1, h2, h3⟩ := pkTry_cfg room x t k sl hk
  rw [copies_append, copies_pkTry room x t k sl hk, copies_pkTry room2 y _ k sl' h1, h2, h3]

/-- **C81, packet sockets, untagged frames.** A frame without VLAN tag which arrives on an Ethernet interface and passes the
filter is copied, whole and with its interface, to exactly the packet sockets whose protocol is 0 or the frame's EtherType
and which are bound to that interface or to index 0. -/
theorem packet_copies_plain (s : PkSt) (i : Nat) (g : List Nat) (o : Rx) (k : Nat) (sl : Slot Pk (Nat × List Nat)) (hk : s.tab[k]? = some sl)
    (d : Link.Dev) (hd : s.devs[i]? = some d) (he : d.nonEth = false) (hlen : 14 ≤ g.length ∧ g.length ≤ 1536) (hv : o.vetoEth = false)
    (ht : etype g ≠ 0x8100) (hr : o.room k = true) :
    copies k (pkStep s (.frame i g o)).2.2 = if sl.used = true ∧ ProtoOk sl.cfg (etype g) ∧ OnIf sl.cfg i then [(i, g)] else [] := by
  show copies k (pkFrame s.devs i g o s.tab).2 = _
  have htaps : taps s.devs i g o = [(i, g, true)] := by
    rw [taps, hd]; dsimp only
    rw [if_neg (by rw [he]; simp), if_neg (by omega), if_neg (by rw [hv]; simp), if_neg ht]
  rw [pkFrame, htaps]
  dsimp only
  rw [copies_pkTry _ _ _ _ _ hk]
  dsimp only
  rw [pkTakes_wild]
  by_cases c : sl.used = true ∧ ProtoOk sl.cfg (etype g) ∧ OnIf sl.cfg i
  · rw [if_pos c, if_pos ⟨by omega, by omega, c.1, decide_eq_true c.2, hr⟩]
  · rw [if_neg c, if_neg]
    rintro ⟨_, _, a, b, _⟩
    exact c ⟨a, of_decide_eq_true b⟩

/-- **C81, packet sockets, tagged frames.** A frame with the VLAN tag of sub-interface `j` of interface `i` is copied with its
tag to exactly the sockets of protocol 0 or 0x8100 bound to `i` or to index 0, and without the tag to exactly the sockets
bound to `j` whose protocol is 0 or the inner EtherType. -/
theorem packet_copies_vlan (s : PkSt) (i j : Nat) (g : List Nat) (o : Rx) (k : Nat) (sl : Slot Pk (Nat × List Nat)) (hk : s.tab[k]? = some sl)
    (d : Link.Dev) (hd : s.devs[i]? = some d) (he : d.nonEth = false) (hlen : 18 ≤ g.length ∧ g.length ≤ 1536) (hv : o.vetoEth = false) (hv2 : o.vetoSub = false)
    (ht : etype g = 0x8100) (hdis : VlansDistinct s.devs) (hsub : SubOf s.devs i g j) (hr : o.room k = true) (hr2 : o.room2 k = true) :
    copies k (pkStep s (.frame i g o)).2.2 =
      (if sl.used = true ∧ ProtoOk sl.cfg 0x8100 ∧ OnIf sl.cfg i then [(i, g)] else []) ++
      (if sl.used = true ∧ ProtoOk sl.cfg (etype (g.take 12 ++ g.drop 16)) ∧ sl.cfg.bind = (j : Int) then [(j, g.take 12 ++ g.drop 16)] else []) := by
  show copies k (pkFrame s.devs i g o s.tab).2 = _
  have htaps : taps s.devs i g o = [(i, g, true), (j, untag g, false)] := by
    rw [taps, hd]; dsimp only
    rw [if_neg (by rw [he]; simp), if_neg (by omega), if_neg (by rw [hv]; simp), if_pos ht, if_neg (by omega), subOf_of s.devs hdis i j g hsub]
    dsimp only
    rw [if_neg (by rw [hv2]; simp)]
  rw [pkFrame, htaps]
  dsimp only
  rw [copies_two _ _ _ _ _ _ _ hk]
  dsimp only
  have hul : (untag g).length = g.length - 4 := by
    rw [untag, List.length_append, List.length_take, List.length_drop]; omega
  rw [pkTakes_wild, pkTakes_only, ht, untag] at *
  congr 1
  · by_cases c : sl.used = true ∧ ProtoOk sl.cfg 0x8100 ∧ OnIf sl.cfg i
    · rw [if_pos c, if_pos ⟨by omega, by omega, c.1, decide_eq_true c.2, hr⟩]
    · rw [if_neg c, if_neg]
      rintro ⟨_, _, a, b, _⟩
      exact c ⟨a, of_decide_eq_true b⟩
  · by_cases c : sl.used = true ∧ ProtoOk sl.cfg (etype (g.take 12 ++ g.drop 16)) ∧ sl.cfg.bind = (j : Int)
    · rw [if_pos c, if_pos ⟨by omega, by omega, c.1, decide_eq_true c.2, hr2⟩]
    · rw [if_neg c, if_neg]
      rintro ⟨_, _, a, b, _⟩
      exact c ⟨a, of_decide_eq_true b⟩

theorem taps_cases (devs : List Link.Dev) (i : Nat) (g : List Nat) (o : Rx) :
    taps devs i g o = [] ∨ (14 ≤ g.length ∧ o.vetoEth = false ∧ (∃ d, devs[i]? = some d ∧ d.nonEth = false) ∧
      ((taps devs i g o = [(i, g, true)]) ∨ (∃ j, SubOf devs i g j ∧ etype g = 0x8100 ∧ 18 ≤ g.length ∧ o.vetoSub = false ∧ taps devs i g o = [(i, g, true), (j, untag g, false)]))) := by
  rw [taps]
  cases hd : devs[i]? with
  | none => exact Or.inl rfl
  | some d =>
    dsimp only
    by_cases h1 : d.nonEth = true
    · rw [if_pos h1]; exact Or.inl rfl
    rw [if_neg h1]
    by_cases h2 : g.length < 14
    · rw [if_pos h2]; exact Or.inl rfl
    rw [if_neg h2]
    by_cases h3 : o.vetoEth = true
    · rw [if_pos h3]; exact Or.inl rfl
    rw [if_neg h3]
    have hbase : 14 ≤ g.length ∧ o.vetoEth = false ∧ (∃ d', some d = some d' ∧ d'.nonEth = false) :=
      ⟨by omega, by cases h : o.vetoEth with | true => exact absurd h h3 | false => rfl, d, rfl, by cases h : d.nonEth with | true => exact absurd h h1 | false => rfl⟩
    by_cases h4 : etype g = 0x8100
    · rw [if_pos h4]
      by_cases h5 : g.length < 18
      · rw [if_pos h5]; exact Or.inl rfl
      rw [if_neg h5]
      cases hs : subOf devs i g with
      | none => exact Or.inl rfl
      | some j =>
        dsimp only
        by_cases h6 : o.vetoSub = true
        · rw [if_pos h6]; exact Or.inr ⟨hbase.1, hbase.2.1, hbase.2.2, Or.inl rfl⟩
        · rw [if_neg h6]
          refine Or.inr ⟨hbase.1, hbase.2.1, hbase.2.2, Or.inr ⟨j, subOf_some devs i j g hs, h4, by omega, ?_, rfl⟩⟩
          cases h : o.vetoSub with
          | true => exact absurd h h6
          | false => rfl
    · rw [if_neg h4]; exact Or.inr ⟨hbase.1, hbase.2.1, hbase.2.2, Or.inl rfl⟩

/-- **C81, packet sockets, nothing else.** Whatever a reception puts in the buffer of a packet socket is the frame that
arrived, with its interface, on a socket listening there for its EtherType; or that frame without its VLAN tag, on a socket
bound to the sub-interface. Frames that are vetoed, too short, or on a link without Ethernet are never copied. -/
theorem packet_only (s : PkSt) (i : Nat) (g : List Nat) (o : Rx) (k : Nat) (x : Nat × List Nat) (h : Ev.queued k x ∈ (pkStep s (.frame i g o)).2.2) :
    14 ≤ g.length ∧ o.vetoEth = false ∧ (∃ d, s.devs[i]? = some d ∧ d.nonEth = false) ∧ ∃ sl, s.tab[k]? = some sl ∧ sl.used = true ∧
      ((x = (i, g) ∧ ProtoOk sl.cfg (etype g) ∧ OnIf sl.cfg i) ∨
       (∃ j, SubOf s.devs i g j ∧ etype g = 0x8100 ∧ o.vetoSub = false ∧ x = (j, g.take 12 ++ g.drop 16) ∧ ProtoOk sl.cfg (etype (g.take 12 ++ g.drop 16)) ∧ sl.cfg.bind = (j : Int))) := by
  rw [← mem_copies] at h
  change x ∈ copies k (pkFrame s.devs i g o s.tab).2 at h
  rw [pkFrame] at h
  rcases taps_cases s.devs i g o with ht | ⟨h14, hv, hd, ht⟩
  · rw [ht] at h; cases h
  refine ⟨h14, hv, hd, ?_⟩
  cases hk : s.tab[k]? with
  | none =>
    exfalso
    have hnone : ∀ (room : Nat → Bool) (y : Nat × List Nat × Bool) (t : PkTab), t[k]? = none → copies k (pkTry room y t).2 = [] ∧ (pkTry room y t).1[k]? = none := by
      intro room y t htk
      rw [pkTry]
      split
      · exact ⟨rfl, htk⟩
      · refine ⟨by rw [copies_deliver, htk], ?_⟩
        show (t.zipIdx.map _)[k]? = none
        rw [get_map_zip, htk]; rfl
    rcases ht with ht | ⟨j, _, _, _, _, ht⟩
    · rw [ht] at h; dsimp only at h; rw [(hnone _ _ _ hk).1] at h; cases h
    · rw [ht] at h; dsimp only at h
      rw [copies_append, (hnone _ _ _ hk).1, (hnone _ _ _ (hnone _ _ _ hk).2).1] at h; cases h
  | some sl =>
    refine ⟨sl, rfl, ?_⟩
    rcases ht with ht | ⟨j, hj, hty, _, hvs, ht⟩
    · rw [ht] at h; dsimp only at h
      rw [copies_pkTry _ _ _ _ _ hk, pkTakes_wild] at h
      split at h
      · next c =>
        rw [List.mem_singleton] at h
        exact ⟨c.2.2.1, Or.inl ⟨h, of_decide_eq_true c.2.2.2.1⟩⟩
      · cases h
    · rw [ht] at h; dsimp only at h
      rw [copies_two _ _ _ _ _ _ _ hk, pkTakes_wild, pkTakes_only, List.mem_append] at h
      rcases h with h | h
      · split at h
        · next c =>
          rw [List.mem_singleton] at h
          exact ⟨c.2.2.1, Or.inl ⟨h, of_decide_eq_true c.2.2.2.1⟩⟩
        · cases h
      · split at h
        · next c =>
          rw [List.mem_singleton] at h
          exact ⟨c.2.2.1, Or.inr ⟨j, hj, hty, hvs, h, of_decide_eq_true c.2.2.2.1⟩⟩
        · cases h

/-- **C81, packet sockets, one copy.** If interface 0 is not a VLAN sub-interface and no interface is its own parent, a
reception puts at most one copy of the frame in the buffer of a socket. -/
theorem packet_once (s : PkSt) (i : Nat) (g : List Nat) (o : Rx) (k : Nat) (h0 : ∀ (d : Link.Dev), s.devs[0]? = some d → d.vlan = none)
    (hp : ∀ (j : Nat) (d : Link.Dev) (v : Link.Vlan), s.devs[j]? = some d → d.vlan = some v → v.parent ≠ j) : (copies k (pkStep s (.frame i g o)).2.2).length ≤ 1 := by
  show (copies k (pkFrame s.devs i g o s.tab).2).length ≤ 1
  have hone : ∀ (room : Nat → Bool) (y : Nat × List Nat × Bool) (t : PkTab), (copies k (pkTry room y t).2).length ≤ 1 := by
    intro room y t
    cases ht : t[k]? with
    | none =>
      rw [pkTry]; split
      · exact Nat.zero_le _
      · rw [copies_deliver, ht]; exact Nat.zero_le _
    | some sl => rw [copies_pkTry _ _ _ _ _ ht]; split <;> simp
  rw [pkFrame]
  rcases taps_cases s.devs i g o with ht | ⟨_, _, _, ht | ⟨j, ⟨dj, v, hj, hv, hpar, _⟩, _, _, _, ht⟩⟩
  · rw [ht]; exact Nat.zero_le _
  · rw [ht]; exact hone _ _ _
  · rw [ht]
    dsimp only
    cases hk : s.tab[k]? with
    | none =>
      have hnone : ∀ (room : Nat → Bool) (y : Nat × List Nat × Bool) (t : PkTab), t[k]? = none → copies k (pkTry room y t).2 = [] ∧ (pkTry room y t).1[k]? = none := by
        intro room y t htk
        rw [pkTry]
        split
        · exact ⟨rfl, htk⟩
        · refine ⟨by rw [copies_deliver, htk], ?_⟩
          show (t.zipIdx.map _)[k]? = none
          rw [get_map_zip, htk]; rfl
      rw [copies_append, (hnone _ _ _ hk).1, (hnone _ _ _ (hnone _ _ _ hk).2).1]; exact Nat.zero_le _
    | some sl =>
      rw [copies_two _ _ _ _ _ _ _ hk, pkTakes_wild, pkTakes_only]
      dsimp only
      have hij : i ≠ j := by
        intro c; subst c; exact hp i dj v hj hv hpar
      have hj0 : j ≠ 0 := by
        intro c; subst c
        rw [h0 dj hj] at hv; cases hv
      by_cases c1 : g.length ≤ 1536 ∧ g.length ≠ 0 ∧ sl.used = true ∧ decide (ProtoOk sl.cfg (etype g) ∧ OnIf sl.cfg i) = true ∧ o.room k = true
      · rw [if_pos c1, if_neg]
        · exact Nat.le_refl _
        · rintro ⟨_, _, _, c, _⟩
          have a := (of_decide_eq_true c1.2.2.2.1).2
          have b := (of_decide_eq_true c).2
          unfold OnIf at a; omega
      · rw [if_neg c1]; split <;> simp

/-- Slot `k` is an open packet socket bound to interface `j` with protocol `p`. -/
def PkBound (s : PkSt) (k j p : Nat) : Prop := ∃ sl, s.tab[k]? = some sl ∧ sl.used = true ∧ sl.cfg.bind = (j : Int) ∧ sl.cfg.proto = p

theorem get_modify_ne {β : Type} (l : List β) (j k : Nat) (f : β → β) (h : j ≠ k) : (l.modify j f)[k]? = l[k]? := by
  rw [List.getElem?_modify]; cases l[k]? <;> simp [h]

theorem get_modify_eq {β : Type} (l : List β) (k : Nat) (f : β → β) (x : β) (h : l[k]? = some x) : (l.modify k f)[k]? = some (f x) := by
  rw [List.getElem?_modify, h]; simp

theorem pkBound_step (s : PkSt) (op : PkOp) (k j p : Nat) (h : PkBound s k j p) (hop : (∀ i q, op ≠ .bind k i q) ∧ op ≠ .close k) : PkBound (pkStep s op).1 k j p := by
  obtain ⟨sl, hk, hu, hb, hp⟩ := h
  have keep : ∀ t : PkTab, t[k]? = some sl → ∀ m, PkBound { devs := m, tab := t } k j p := fun t ht m => ⟨sl, ht, hu, hb, hp⟩
  have hcfg : ∀ (k' : Nat) (t : Slot Pk (Nat × List Nat)) (i : Nat), s.tab[k']? = some t → PkBound { s with tab := setCfg k' { t.cfg with ifIdx := i } s.tab } k j p := by
    intro k' t i ht
    by_cases c : k' = k
    · subst c
      rw [hk] at ht
      have ht := Option.some.inj ht
      subst ht
      exact ⟨_, get_modify_eq _ _ _ _ hk, hu, hb, hp⟩
    · exact keep _ (by show (s.tab.modify k' _)[k]? = _; rw [get_modify_ne _ _ _ _ c]; exact hk) _
  cases op with
  | frame i g o =>
    show PkBound { s with tab := (pkFrame s.devs i g o s.tab).1 } k j p
    rw [pkFrame]
    split
    · exact keep _ hk _
    · next x _ =>
      obtain ⟨sl', h1, h2, h3⟩ := pkTry_cfg o.room x s.tab k sl hk
      exact ⟨sl', h1, by rw [h2]; exact hu, by rw [h3]; exact hb, by rw [h3]; exact hp⟩
    · next x y _ _ =>
      obtain ⟨sl', h1, h2, h3⟩ := pkTry_cfg o.room x s.tab k sl hk
      obtain ⟨sl'', h4, h5, h6⟩ := pkTry_cfg o.room2 y _ k sl' h1
      exact ⟨sl'', h4, by rw [h5, h2]; exact hu, by rw [h6, h3]; exact hb, by rw [h6, h3]; exact hp⟩
  | socket proto =>
    show PkBound { s with tab := (openSlot _ s.tab).1 } k j p
    rw [openSlot]
    cases hf : s.tab.findIdx? (fun s => !s.used) with
    | none => exact keep _ hk _
    | some n =>
      rw [List.findIdx?_eq_some_iff_getElem] at hf
      obtain ⟨hlt, hun, _⟩ := hf
      dsimp only
      rw [List.getElem?_eq_getElem hlt]
      dsimp only
      refine keep _ ?_ _
      have : n ≠ k := by
        intro c; subst c
        rw [List.getElem?_eq_getElem hlt] at hk
        have hk := Option.some.inj hk
        rw [hk, hu] at hun; cases hun
      rw [List.getElem?_set_ne this]; exact hk
  | bind k' i q =>
    have hne : k' ≠ k := fun c => hop.1 i q (by rw [c])
    show PkBound (pkBindOp s k' i q).1 k j p
    rw [pkBindOp]
    cases s.tab[k']? with
    | none => exact keep _ hk _
    | some t =>
      dsimp only
      split
      · exact keep _ hk _
      · split
        · exact keep _ hk _
        · exact keep _ (by show (s.tab.modify k' _)[k]? = _; rw [get_modify_ne _ _ _ _ hne]; exact hk) _
  | send k' to buf room =>
    show PkBound (pkSendOp s k' to buf room).1 k j p
    rw [pkSendOp]
    cases hk' : s.tab[k']? with
    | none => exact keep _ hk _
    | some t =>
      dsimp only
      split
      · exact keep _ hk _
      · split
        · exact keep _ hk _
        · split
          · exact hcfg k' t _ hk'
          · by_cases c : k' = k
            · subst c
              rw [hk] at hk'
              have hk' := Option.some.inj hk'
              subst hk'
              exact ⟨_, get_modify_eq _ _ _ _ hk, hu, hb, hp⟩
            · exact keep _ (by show (s.tab.modify k' _)[k]? = _; rw [get_modify_ne _ _ _ _ c]; exact hk) _
  | recv k' len =>
    show PkBound (pkRecvOp s k' len).1 k j p
    rw [pkRecvOp]
    cases hk' : s.tab[k']? with
    | none => exact keep _ hk _
    | some t =>
      dsimp only
      split
      · exact keep _ hk _
      · split
        · exact keep _ hk _
        · rw [popRx, hk']
          dsimp only
          cases hx : t.rx with
          | nil => exact keep _ hk _
          | cons y r =>
            by_cases c : k' = k
            · subst c
              rw [hk] at hk'
              have hk' := Option.some.inj hk'
              subst hk'
              have hlt : k' < s.tab.length := by rw [List.getElem?_eq_some_iff] at hk; exact hk.1
              exact ⟨_, List.getElem?_set_self hlt, hu, hb, hp⟩
            · exact keep _ (by show (s.tab.set k' _)[k]? = _; rw [List.getElem?_set_ne c]; exact hk) _
  | close k' =>
    have hne : k' ≠ k := fun c => hop.2 (by rw [c])
    show PkBound (pkCloseOp s k').1 k j p
    rw [pkCloseOp]
    cases s.tab[k']? with
    | none => exact keep _ hk _
    | some t =>
      dsimp only
      split
      · exact keep _ hk _
      · exact keep _ (by show (s.tab.set k' _)[k]? = _; rw [List.getElem?_set_ne hne]; exact hk) _
  | flush o =>
    have hc : ∀ (q : List (List Nat)) (n : Nat) (c : Pk), (flushQ (α := Nat × List Nat) k (pkDec s.devs o k) n c q).1 = c := by
      intro q
      induction q with
      | nil => intro n c; rfl
      | cons g q ih =>
        intro n c
        rw [flushQ]
        cases hd : (pkDec s.devs o k n c g).2 with
        | stop r => cases r <;> rfl
        | skip => exact ih _ _
        | send i h => exact ih _ _
    refine ⟨flushSlot (pkDec s.devs o) k sl, ?_, hu, ?_, ?_⟩
    · show (s.tab.zipIdx.map (fun (s', k) => flushSlot (pkDec s.devs o) k s'))[k]? = _
      rw [get_map_zip, hk]; rfl
    · rw [flushSlot, hc]; exact hb
    · rw [flushSlot, hc]; exact hp
  | reconf devs => exact ⟨sl, hk, hu, hb, hp⟩

theorem queued_from_frame (s : PkSt) (op : PkOp) (k : Nat) (x : Nat × List Nat) (h : Ev.queued k x ∈ (pkStep s op).2.2) : ∃ i g o, op = .frame i g o := by
  cases op with
  | frame i g o => exact ⟨i, g, o, rfl⟩
  | socket proto =>
    exfalso
    change Ev.queued k x ∈ (openSlot _ s.tab).2.2 at h
    rw [openSlot] at h
    cases hf : s.tab.findIdx? (fun s => !s.used) with
    | none => rw [hf] at h; cases h
    | some n =>
      rw [hf] at h; dsimp only at h
      cases hn : s.tab[n]? with
      | none => rw [hn] at h; cases h
      | some t => rw [hn] at h; simp at h
  | bind k' i q =>
    exfalso
    change Ev.queued k x ∈ (pkBindOp s k' i q).2.2 at h
    rw [pkBindOp] at h
    cases hk : s.tab[k']? with
    | none => rw [hk] at h; cases h
    | some t =>
      rw [hk] at h; dsimp only at h
      split at h
      · cases h
      · split at h <;> cases h
  | send k' to buf room =>
    exfalso
    change Ev.queued k x ∈ (pkSendOp s k' to buf room).2.2 at h
    rw [pkSendOp] at h
    cases hk : s.tab[k']? with
    | none => rw [hk] at h; cases h
    | some t =>
      rw [hk] at h; dsimp only at h
      split at h
      · cases h
      · split at h
        · cases h
        · split at h
          · cases h
          · simp only [pushTx] at h
            split at h
            · simp at h
            · cases h
  | recv k' len =>
    exfalso
    change Ev.queued k x ∈ (pkRecvOp s k' len).2.2 at h
    rw [pkRecvOp, popRx] at h
    cases hk : s.tab[k']? with
    | none => rw [hk] at h; cases h
    | some t =>
      rw [hk] at h; dsimp only at h
      split at h
      · cases h
      · cases hx : t.rx with
        | nil => rw [hx] at h; cases h
        | cons y r => rw [hx] at h; simp at h
  | close k' =>
    exfalso
    change Ev.queued k x ∈ (pkCloseOp s k').2.2 at h
    rw [pkCloseOp] at h
    cases hk : s.tab[k']? with
    | none => rw [hk] at h; cases h
    | some t =>
      rw [hk] at h; dsimp only at h
      split at h
      · cases h
      · simp only [closeSlot] at h
        split at h
        · simp at h
        · cases h
  | flush o =>
    exfalso
    change Ev.queued k x ∈ (flushTab _ s.tab).2 at h
    rw [flushTab] at h
    simp only [List.mem_flatMap] at h
    obtain ⟨p, _, he⟩ := h
    rcases flushQ_evs _ _ _ _ _ _ he with ⟨i, a, h⟩ | ⟨g, h⟩ | ⟨i, g, h', h⟩ <;> cases h
  | reconf devs => cases h

/-- **C81, packet sockets, bound.** After `bind` to interface `j` ≠ 0 and protocol `p`, and until the next bind or close of
that socket, everything put in its buffer came in on interface `j` (for a VLAN interface: without the tag) and, if `p` ≠ 0,
has EtherType `p`; whatever else happens, including sends, other sockets, flushes and reconfiguration. -/
theorem packet_bound (k j p : Nat) (hj : j ≠ 0) (ops : List PkOp) : ∀ s : PkSt, PkBound s k j p → (∀ op ∈ ops, (∀ i q, op ≠ .bind k i q) ∧ op ≠ .close k) →
    ∀ x, Ev.queued k x ∈ (pkRun s ops).2 → x.1 = j ∧ (p = 0 ∨ etype x.2 = p) := by
  induction ops with
  | nil => intro s _ _ x h; cases h
  | cons op ops ih =>
    intro s hb ho x h
    rw [pkRun] at h
    rcases List.mem_append.mp h with h | h
    · obtain ⟨i, g, o, rfl⟩ := queued_from_frame s op k x h
      obtain ⟨_, _, _, sl, hk, hu, hc⟩ := packet_only s i g o k x h
      obtain ⟨sl', hk', _, hb', hp'⟩ := hb
      rw [hk] at hk'
      have hk' := Option.some.inj hk'
      subst hk'
      rcases hc with ⟨hx, hpr, hon⟩ | ⟨j', _, _, _, hx, hpr, hon⟩
      · subst hx
        refine ⟨?_, ?_⟩
        · unfold OnIf at hon; rcases hon with c | c
          · omega
          · show i = j; omega
        · rw [ProtoOk, hp'] at hpr; rcases hpr with c | c
          · exact Or.inl c
          · exact Or.inr c.symm
      · subst hx
        refine ⟨by show j' = j; omega, ?_⟩
        rw [ProtoOk, hp'] at hpr; rcases hpr with c | c
        · exact Or.inl c
        · exact Or.inr c.symm
    · exact ih _ (pkBound_step s op k j p hb (ho op List.mem_cons_self)) (fun o' h' => ho o' (List.mem_cons_of_mem _ h')) x h

/-- **C81, packet sockets, recvfrom.** With a large enough buffer, `recvfrom` returns the oldest frame waiting, byte for
byte, with its EtherType, the interface it came in on and its source MAC, and takes it out; with a smaller buffer it returns
an error and the frame is gone; with nothing waiting it asks to try again. -/
theorem packet_recv (s : PkSt) (k len : Nat) (sl : Slot Pk (Nat × List Nat)) (hk : s.tab[k]? = some sl) (hu : sl.used = true) :
    (sl.rx = [] → pkStep s (.recv k len) = (s, .again, [])) ∧
    (∀ i f rest, sl.rx = (i, f) :: rest →
      (pkStep s (.recv k len)).2.1 = (if f.length ≤ len then .gotLl f (etype f) i ((f.drop 6).take 6) else .err) ∧
      (pkStep s (.recv k len)).2.2 = [.read k (i, f)] ∧ rxOf (pkStep s (.recv k len)).1.tab k = rest) := by
  have hlt : k < s.tab.length := by rw [List.getElem?_eq_some_iff] at hk; exact hk.1
  show (_ → pkRecvOp s k len = _) ∧ (∀ i f rest, _ → (pkRecvOp s k len).2.1 = _ ∧ (pkRecvOp s k len).2.2 = _ ∧ rxOf (pkRecvOp s k len).1.tab k = rest)
  rw [pkRecvOp, popRx, hk]
  dsimp only
  rw [hu]
  refine ⟨?_, ?_⟩
  · intro h; rw [h]; rfl
  · intro i f rest h
    rw [h]
    refine ⟨?_, rfl, ?_⟩
    · show pkRes len (i, f) = _
      rw [pkRes]
      by_cases c : f.length ≤ len
      · rw [if_pos c, if_neg (show ¬ f.length > len by omega)]
      · rw [if_neg c, if_pos (show f.length > len by omega)]
    · show rxOf (s.tab.set k _) k = rest
      rw [rxOf_set _ _ _ _ hlt, if_pos rfl]

end Wolf.Dgram
