import Verif.Dgram.Raw
/-!
# C81: ICMP sockets
-/
namespace Wolf.Dgram
open Wolf.Route (Ip Conf)
open Wolf.IpIn (Net u8 u16 ipAt tot src dst hlen isMcast Mcast Bcast SumOk octet1 WellFormed Delivered OptsParse optBytes)
open Wolf.Csum (Bytes)

/-- What `icmp_input` shows to the sockets. -/
def shown : IpIn.IcmpOut → Bool
  | .toSockets => true
  | .errorThenSockets => true
  | .drop => false
  | .reply _ => false

theorem isLocal_iff (n : Net) (a : Ip) : IpIn.isLocal n a = true ↔ a ≠ 0 ∧ ∃ c ∈ n.rt.confs, c.ip = a := by
  rw [IpIn.isLocal, Bool.and_eq_true, List.any_eq_true]
  constructor
  · rintro ⟨h, q, hq, he⟩; exact ⟨by simpa using h, q, hq, by simpa using he⟩
  · rintro ⟨h, q, hq, he⟩; exact ⟨by simpa using h, q, hq, by simpa using he⟩

theorem shown_iff (n : Net) (h : List Nat) (veto : Bool) (id : Nat) : shown (IpIn.icmpIn n h veto false id) = true ↔ ForIcmp n h veto := by
  generalize hr : IpIn.icmpIn n h veto false id = r
  rw [IpIn.icmpIn] at hr
  by_cases h1 : h.length < 42
  · rw [if_pos h1] at hr; rw [← hr]
    exact ⟨fun c => (by cases c), fun c => by have := c.len; omega⟩
  rw [if_neg h1] at hr
  by_cases h2 : tot h < 28
  · rw [if_pos h2] at hr; rw [← hr]
    exact ⟨fun c => (by cases c), fun c => by have := c.total; omega⟩
  rw [if_neg h2] at hr
  by_cases h3 : h.length < 14 + tot h
  · rw [if_pos h3] at hr; rw [← hr]
    exact ⟨fun c => (by cases c), fun c => by have := c.total; omega⟩
  rw [if_neg h3] at hr
  by_cases h4 : Csum.icmpChecksum (h.drop 34) (tot h - 20) ≠ 0
  · rw [if_pos h4] at hr; rw [← hr]
    exact ⟨fun c => (by cases c), fun c => absurd c.sum h4⟩
  rw [if_neg h4] at hr
  by_cases h5 : veto = true
  · rw [if_pos h5] at hr; rw [← hr]
    exact ⟨fun c => (by cases c), fun c => by have := c.pass; rw [h5] at this; cases this⟩
  rw [if_neg h5] at hr
  have base : (u8 h 34 = 0 → ¬ Bcast n (dst h) ∧ ¬ Mcast (dst h) ∧ dst h ≠ 0 ∧ ∃ c ∈ n.rt.confs, c.ip = dst h) → (u8 h 34 = 8 → n.dhcp = true) → ForIcmp n h veto :=
    fun a b => ⟨by omega, ⟨by omega, by omega⟩, Classical.byContradiction h4, by simpa using h5, a, b⟩
  by_cases h6 : u8 h 34 = 0
  · rw [if_pos h6] at hr
    by_cases h7 : Route.isBroadcast n.rt (dst h) = true ∨ isMcast (dst h) = true
    · rw [if_pos h7] at hr; rw [← hr]
      refine ⟨fun c => (by cases c), fun c => ?_⟩
      rcases h7 with q | q
      · exact absurd ((IpIn.isBroadcast_iff n _).mp q) (c.reply h6).1
      · exact absurd ((IpIn.isMcast_iff _).mp q) (c.reply h6).2.1
    rw [if_neg h7] at hr
    by_cases h8 : IpIn.isLocal n (dst h) = false
    · rw [if_pos h8] at hr; rw [← hr]
      refine ⟨fun c => (by cases c), fun c => ?_⟩
      have := (isLocal_iff n _).mpr (c.reply h6).2.2
      rw [h8] at this; cases this
    · rw [if_neg h8] at hr; rw [← hr]
      refine ⟨fun _ => base (fun _ => ?_) (fun c => by omega), fun _ => rfl⟩
      have := (isLocal_iff n _).mp (by simpa using h8)
      exact ⟨fun c => h7 (Or.inl ((IpIn.isBroadcast_iff n _).mpr c)), fun c => h7 (Or.inr ((IpIn.isMcast_iff _).mpr c)), this.1, this.2⟩
  · rw [if_neg h6] at hr
    by_cases h7 : n.dhcp = false ∧ u8 h 34 = 8
    · rw [if_pos h7] at hr
      have hf : shown r = false := by
        by_cases a1 : Route.isBroadcast n.rt (dst h) = true ∨ isMcast (dst h) = true
        · rw [if_pos a1] at hr; rw [← hr]; rfl
        rw [if_neg a1] at hr
        by_cases a2 : IpIn.isLocal n (dst h) = false
        · rw [if_pos a2] at hr; rw [← hr]; rfl
        rw [if_neg a2, if_neg (by simp)] at hr
        rw [← hr]; rfl
      rw [hf]
      refine ⟨fun c => (by cases c), fun c => ?_⟩
      have := c.request h7.2
      rw [h7.1] at this; cases this
    · rw [if_neg h7] at hr; rw [← hr]
      refine ⟨fun _ => base (fun c => absurd c h6) (fun c => ?_), fun _ => rfl⟩
      cases hd : n.dhcp with
      | true => rfl
      | false => exact absurd ⟨hd, c⟩ h7

theorem icTakes_iff (h : List Nat) (c : Ic) (hl : 14 + tot h ≤ h.length) : icTakes h c = true ↔ IcmpWants c h := by
  rw [icTakes, IcmpWants]
  by_cases h1 : c.lip ≠ 0 ∧ c.lip ≠ dst h
  · rw [if_pos h1]
    refine ⟨fun c => (by cases c), fun q => ?_⟩
    rcases q.1 with c | c
    · exact absurd c h1.1
    · exact absurd c h1.2
  rw [if_neg h1]
  by_cases h2 : c.id ≠ 0 ∧ c.id ≠ u16 h 38
  · rw [if_pos h2]
    refine ⟨fun c => (by cases c), fun q => ?_⟩
    rcases q.2.1 with c | c
    · exact absurd c h2.1
    · exact absurd c h2.2
  rw [if_neg h2]
  by_cases h3 : c.rip ≠ 0 ∧ c.rip ≠ src h
  · rw [if_pos h3]
    refine ⟨fun c => (by cases c), fun q => ?_⟩
    rcases q.2.2 with c | c
    · exact absurd c h3.1
    · exact absurd c h3.2
  rw [if_neg h3]
  have e1 : c.lip = 0 ∨ c.lip = dst h := by
    by_cases a : c.lip = 0
    · exact Or.inl a
    · exact Or.inr (Classical.byContradiction (fun b => h1 ⟨a, b⟩))
  have e3 : c.rip = 0 ∨ c.rip = src h := by
    by_cases a : c.rip = 0
    · exact Or.inl a
    · exact Or.inr (Classical.byContradiction (fun b => h3 ⟨a, b⟩))
  refine ⟨fun _ => ⟨e1, by omega, e3⟩, fun _ => ?_⟩
  rw [decide_eq_false (by omega)]; rfl

/-- What `ip_recv` gives the ICMP handler, out of its result. -/
def icmpPart : IpIn.Out → Option (List Nat)
  | .deliver p h => if p = 1 then some h else none
  | .drop => none
  | .oob => none
  | .ttlExceeded => none
  | .park _ _ _ => none
  | .forward _ _ => none

theorem icmpTap_eq (e : Env) (i : Nat) (g : List Nat) (o : Rx) :
    icmpTap e i g o = (ipFrame e.devs i g o).bind (fun p => (icmpPart (IpIn.ipRecv e.net p.1 p.2 o.vetoIp o.arp)).bind (fun h =>
      if shown (IpIn.icmpIn e.net h o.vetoIcmp false o.id) then some h else none)) := by
  rw [icmpTap]
  cases ipFrame e.devs i g o with
  | none => rfl
  | some p =>
    obtain ⟨j, f⟩ := p
    dsimp only [Option.bind]
    generalize IpIn.ipRecv e.net j f o.vetoIp o.arp = r
    cases r with
    | deliver q h =>
      match q with
      | 0 => rfl
      | 1 =>
        dsimp only [icmpPart]
        rw [if_pos rfl]
        show (match IpIn.icmpIn e.net h o.vetoIcmp false o.id with | .toSockets => some h | .errorThenSockets => some h | .drop => none | .reply _ => none) =
          (if shown (IpIn.icmpIn e.net h o.vetoIcmp false o.id) then some h else none)
        generalize IpIn.icmpIn e.net h o.vetoIcmp false o.id = m
        cases m <;> rfl
      | (q + 2) =>
        dsimp only [icmpPart]
        rw [if_neg (by omega)]
        rfl
    | drop => rfl
    | oob => rfl
    | ttlExceeded => rfl
    | park a b c => rfl
    | forward a b => rfl

theorem icmpPart_some (r : IpIn.Out) (h : List Nat) : icmpPart r = some h ↔ r = .deliver 1 h := by
  cases r with
  | deliver q g =>
    rw [icmpPart]
    by_cases c : q = 1
    · rw [if_pos c, c]
      exact ⟨fun e => by rw [Option.some.inj e], fun e => by cases e; rfl⟩
    · rw [if_neg c]
      exact ⟨fun e => (by cases e), fun e => by cases e; exact absurd rfl c⟩
  | drop => exact ⟨fun e => (by cases e), fun e => (by cases e)⟩
  | oob => exact ⟨fun e => (by cases e), fun e => (by cases e)⟩
  | ttlExceeded => exact ⟨fun e => (by cases e), fun e => (by cases e)⟩
  | park a b c => exact ⟨fun e => (by cases e), fun e => (by cases e)⟩
  | forward a b => exact ⟨fun e => (by cases e), fun e => (by cases e)⟩

theorem icmpTap_iff (e : Env) (i : Nat) (g : List Nat) (o : Rx) (h : List Nat) :
    icmpTap e i g o = some h ↔ ∃ j f, ipFrame e.devs i g o = some (j, f) ∧ IpIn.ipRecv e.net j f o.vetoIp o.arp = .deliver 1 h ∧ ForIcmp e.net h o.vetoIcmp := by
  rw [icmpTap_eq]
  cases hf : ipFrame e.devs i g o with
  | none =>
    refine ⟨fun c => (by cases c), ?_⟩
    rintro ⟨j, f, c, _⟩; cases c
  | some p =>
    obtain ⟨j, f⟩ := p
    dsimp only [Option.bind]
    constructor
    · intro hh
      cases hp : icmpPart (IpIn.ipRecv e.net j f o.vetoIp o.arp) with
      | none => rw [hp] at hh; cases hh
      | some h' =>
        rw [hp] at hh
        dsimp only at hh
        by_cases c : shown (IpIn.icmpIn e.net h' o.vetoIcmp false o.id) = true
        · rw [if_pos c] at hh
          have hh := Option.some.inj hh
          subst hh
          exact ⟨j, f, rfl, (icmpPart_some _ _).mp hp, (shown_iff _ _ _ _).mp c⟩
        · rw [if_neg c] at hh; cases hh
    · rintro ⟨j', f', e1, e2, e3⟩
      have e1 := Option.some.inj e1
      have a := congrArg Prod.fst e1
      have b := congrArg Prod.snd e1
      dsimp only at a b
      subst a; subst b
      rw [(icmpPart_some _ _).mpr e2]
      dsimp only
      rw [if_pos ((shown_iff _ _ _ _).mpr e3)]

/-- **C81, ICMP sockets, nothing else.** Whatever an ICMP socket is given is a well-formed ICMP datagram that reached this
host, without its IP options, with a correct ICMP checksum and complete; not an echo request (unless DHCP runs), and an echo
reply only if sent to this host; and the socket's address, id and peer admit it. -/
theorem icmp_only (s : IcSt) (hdis : VlansDistinct s.env.devs) (i : Nat) (g : List Nat) (hb : Bytes g) (o : Rx) (k : Nat) (x : List Nat)
    (h : Ev.queued k x ∈ (icStep s (.frame i g o)).2.2) :
    ∃ j f sl, Arrives s.env.devs i g o j f ∧ WellFormed s.env.net j f ∧ o.vetoIp = false ∧ IpIn.proto f = 1 ∧ Delivered f x ∧
      ForIcmp s.env.net x o.vetoIcmp ∧ s.tab[k]? = some sl ∧ sl.used = true ∧ IcmpWants sl.cfg x := by
  change Ev.queued k x ∈ (icFrame s.env i g o s.tab).2 at h
  rw [icFrame] at h
  cases ht : icmpTap s.env i g o with
  | none => rw [ht] at h; cases h
  | some y =>
    rw [ht] at h
    dsimp only at h
    rw [mem_deliver] at h
    obtain ⟨hx, sl, hk, hu, htk, _⟩ := h
    subst hx
    obtain ⟨j, f, hf, hrecv, hic⟩ := (icmpTap_iff _ _ _ _ _).mp ht
    have harr := (arrives_iff _ hdis i g hb o j f).mp hf
    obtain ⟨w, hv, hd, hp⟩ := IpIn.ip_delivers_only_wellformed _ j f _ _ (arrives_bytes harr hb) _ _ hrecv
    exact ⟨j, f, sl, harr, w, hv, hp.1.symm, hd, hic, hk, hu, (icTakes_iff _ _ hic.total.2).mp htk⟩

/-- **C81, ICMP sockets, nothing is lost.** Every well-formed ICMP datagram for this host (options that parse, one of its
addresses or a broadcast) which passes the filters is offered to the ICMP sockets without its IP options, and is put in the
buffer of every open socket whose address, id and peer admit it and which has room, provided it is a message for sockets:
complete, right checksum, and no echo request. -/
theorem icmp_all (s : IcSt) (hdis : VlansDistinct s.env.devs) (i : Nat) (g : List Nat) (hb : Bytes g) (o : Rx) (j : Nat) (f : List Nat)
    (ha : Arrives s.env.devs i g o j f) (w : WellFormed s.env.net j f) (hp : OptsParse (optBytes f)) (hv : o.vetoIp = false)
    (hd : dst f = 0 ∨ Bcast s.env.net (dst f) ∨ ∃ c ∈ s.env.net.rt.confs, c.ip = dst f) (hl : f.length ≤ 1536) (h1 : IpIn.proto f = 1) :
    ∃ x, Delivered f x ∧ (ForIcmp s.env.net x o.vetoIcmp → ∀ (k : Nat) (sl : Slot Ic (List Nat)), s.tab[k]? = some sl → sl.used = true → IcmpWants sl.cfg x → o.room k = true →
      Ev.queued k x ∈ (icStep s (.frame i g o)).2.2) := by
  obtain ⟨x, hx, hdel⟩ := IpIn.ip_delivers_all s.env.net j f o.arp (arrives_bytes ha hb) w hp hd hl (Or.inr (Or.inl h1))
  refine ⟨x, hdel, fun hic k sl hk hu hw hr => ?_⟩
  show Ev.queued k x ∈ (icFrame s.env i g o s.tab).2
  rw [h1] at hx
  have ht : icmpTap s.env i g o = some x :=
    (icmpTap_iff _ _ _ _ _).mpr ⟨j, f, (arrives_iff _ hdis i g hb o j f).mpr ha, by rw [hv]; exact hx, hic⟩
  rw [icFrame, ht]
  dsimp only
  rw [mem_deliver]
  exact ⟨rfl, sl, hk, hu, (icTakes_iff _ _ hic.total.2).mpr hw, hr⟩

/-- **C81, ICMP sockets, one copy.** -/
theorem icmp_once (s : IcSt) (i : Nat) (g : List Nat) (o : Rx) (k : Nat) : (copies k (icStep s (.frame i g o)).2.2).length ≤ 1 := by
  show (copies k (icFrame s.env i g o s.tab).2).length ≤ 1
  rw [icFrame]
  cases icmpTap s.env i g o with
  | none => exact Nat.zero_le _
  | some p =>
    dsimp only
    rw [copies_deliver]
    cases s.tab[k]? with
    | none => exact Nat.zero_le _
    | some sl => dsimp only; split <;> simp

/-! ## A bound ICMP socket -/

/-- Bound to address `a` with id `d`. -/
def IcIs (a : Ip) (d : Nat) (c : Ic) : Prop := c.blip = a ∧ c.lip = a ∧ c.id = d

theorem icRoute_is (n : Net) (a : Ip) (d : Nat) (ha : a ≠ 0) (c c' : Ic) (h : IcIs a d c) (hr : icRoute n c = some c') : IcIs a d c' := by
  rw [icRoute, if_pos (show c.blip ≠ 0 by rw [h.1]; exact ha)] at hr
  split at hr
  · cases hr
  · have hr := Option.some.inj hr
    rw [← hr]
    exact ⟨h.1, h.1, h.2.2⟩

/-- Packet size against the MTU. -/
theorem icSend_is (e : Env) (used : Bool) (a : Ip) (d : Nat) (ha : a ≠ 0) (hd : d ≠ 0) (c : Ic) (h : IcIs a d c) (to : Option Ip) (buf : List Nat) (rnd tos id : Nat) (room : Bool) :
    IcIs a d (icSend e used c to buf rnd tos id room).1 := by
  generalize hr : icSend e used c to buf rnd tos id room = r
  rw [icSend] at hr
  dsimp only at hr
  by_cases h1 : to.getD c.rip = 0
  · rw [if_pos h1] at hr; rw [← hr]; exact ⟨h.1, h.2.1, h.2.2⟩
  rw [if_neg h1, if_neg (show ¬ c.id = 0 by rw [h.2.2]; exact hd)] at hr
  have h' : IcIs a d { lip := c.lip, id := c.id, rip := to.getD c.rip, blip := c.blip, ifIdx := c.ifIdx } := ⟨h.1, h.2.1, h.2.2⟩
  generalize ({ lip := c.lip, id := c.id, rip := to.getD c.rip, blip := c.blip, ifIdx := c.ifIdx } : Ic) = c1 at hr h'
  cases hq : icRoute e.net c1 with
  | none => rw [hq] at hr; dsimp only at hr; rw [← hr]; exact h'
  | some c2 =>
    rw [hq] at hr
    dsimp only at hr
    have h2 := icRoute_is e.net a d ha c1 c2 h' hq
    generalize (if used = true then Link.ipMtu e.devs (if c2.ifIdx ≥ e.devs.length then 0 else c2.ifIdx) else 0) = mtu at hr
    by_cases h3 : mtu ≤ 20 ∨ buf.length < 8 ∨ buf.length > mtu - 20
    · rw [if_pos h3] at hr; rw [← hr]; exact h2
    rw [if_neg h3] at hr
    by_cases h4 : room = false
    · rw [if_pos h4] at hr; rw [← hr]; exact h2
    · rw [if_neg h4] at hr; rw [← hr]; exact h2

theorem icIs_step (s : IcSt) (op : IcOp) (k : Nat) (a : Ip) (d : Nat) (ha : a ≠ 0) (hd : d ≠ 0) (h : Has (IcIs a d) s.tab k) (hop : op ≠ .close k) :
    Has (IcIs a d) (icStep s op).1.tab k := by
  have hcfg : ∀ (j : Nat) (t : Slot Ic (List Nat)), s.tab[j]? = some t → j = k → IcIs a d t.cfg := by
    intro j t ht e
    obtain ⟨sl, hk, _, hp⟩ := h
    rw [e, hk] at ht
    have ht := Option.some.inj ht
    subst ht; exact hp
  cases op with
  | frame i g o =>
    show Has _ (icFrame s.env i g o s.tab).1 k
    rw [icFrame]
    split
    · exact h
    · exact has_deliver h _ _ _
  | socket => exact has_open h _
  | bind j b q veto =>
    show Has _ (icBindOp s j b q veto).1.tab k
    rw [icBindOp]
    cases hj : s.tab[j]? with
    | none => exact h
    | some t =>
      dsimp only
      generalize (if b ≠ 0 then b else addrFor s.env.net.rt (ifForLocal s.env.net.rt b) t.cfg.lip) = l
      by_cases c1 : b ≠ 0 ∧ IpIn.isLocal s.env.net b = false
      · rw [if_pos c1]; exact h
      rw [if_neg c1]
      by_cases c2 : t.cfg.id ≠ 0
      · rw [if_pos c2]; exact h
      rw [if_neg c2]
      have hne : j ≠ k := by
        intro e; have := hcfg j t hj e; rw [this.2.2] at c2; exact c2 hd
      split
      · exact has_setCfg h j _ (fun e => absurd e hne)
      · split
        · exact has_setCfg h j _ (fun e => absurd e hne)
        · exact has_setCfg h j _ (fun e => absurd e hne)
  | connect j b =>
    show Has _ (icConnectOp s j b).1.tab k
    rw [icConnectOp]
    cases hj : s.tab[j]? with
    | none => exact h
    | some t =>
      dsimp only
      have h0 : j = k → IcIs a d { t.cfg with rip := b } := fun e => by
        have := hcfg j t hj e; exact ⟨this.1, this.2.1, this.2.2⟩
      cases hq : icRoute s.env.net { t.cfg with rip := b } with
      | none => exact has_setCfg h j _ h0
      | some c => exact has_setCfg h j _ (fun e => icRoute_is _ a d ha _ _ (h0 e) hq)
  | send j to buf rnd tos id room =>
    show Has _ (icSendOp s j to buf rnd tos id room).1.tab k
    rw [icSendOp]
    cases hj : s.tab[j]? with
    | none => exact h
    | some t => exact has_pushTx h j _ _ (fun e => icSend_is _ _ a d ha hd _ (hcfg j t hj e) _ _ _ _ _ _)
  | recv j len =>
    show Has _ (icRecvOp s j len).1.tab k
    rw [icRecvOp]
    cases hj : s.tab[j]? with
    | none => exact h
    | some t =>
      dsimp only
      split
      · exact h
      · exact has_popRx h j
  | close j =>
    have hne : j ≠ k := fun c => hop (by rw [c])
    show Has _ (icCloseOp s j).1.tab k
    rw [icCloseOp]
    cases hj : s.tab[j]? with
    | none => exact h
    | some t => exact has_close h _ j hne
  | flush o => exact has_flush h _ (fun n c g hc => hc)
  | reconf e => exact h

theorem ic_queued_from_frame (s : IcSt) (op : IcOp) (k : Nat) (x : List Nat) (h : Ev.queued k x ∈ (icStep s op).2.2) : ∃ i g o, op = .frame i g o := by
  cases op with
  | frame i g o => exact ⟨i, g, o, rfl⟩
  | socket => exact absurd h (nq_open _ _ _ _)
  | bind j b q veto =>
    exfalso
    change _ ∈ (icBindOp s j b q veto).2.2 at h
    rw [icBindOp] at h
    cases hj : s.tab[j]? with
    | none => rw [hj] at h; cases h
    | some t =>
      rw [hj] at h; dsimp only at h
      generalize (if b ≠ 0 then b else addrFor s.env.net.rt (ifForLocal s.env.net.rt b) t.cfg.lip) = l at h
      split at h
      · cases h
      · split at h
        · cases h
        · split at h
          · cases h
          · split at h <;> cases h
  | connect j b =>
    exfalso
    change _ ∈ (icConnectOp s j b).2.2 at h
    rw [icConnectOp] at h
    cases hj : s.tab[j]? with
    | none => rw [hj] at h; cases h
    | some t =>
      rw [hj] at h; dsimp only at h
      split at h <;> cases h
  | send j to buf rnd tos id room =>
    exfalso
    change _ ∈ (icSendOp s j to buf rnd tos id room).2.2 at h
    rw [icSendOp] at h
    cases hj : s.tab[j]? with
    | none => rw [hj] at h; cases h
    | some t => rw [hj] at h; exact nq_push _ _ _ _ _ _ h
  | recv j len =>
    exfalso
    change _ ∈ (icRecvOp s j len).2.2 at h
    rw [icRecvOp] at h
    cases hj : s.tab[j]? with
    | none => rw [hj] at h; cases h
    | some t =>
      rw [hj] at h; dsimp only at h
      split at h
      · cases h
      · exact nq_pop _ _ _ _ h
  | close j =>
    exfalso
    change _ ∈ (icCloseOp s j).2.2 at h
    rw [icCloseOp] at h
    cases hj : s.tab[j]? with
    | none => rw [hj] at h; cases h
    | some t => rw [hj] at h; exact nq_close ({} : Ic) j s.tab k x h
  | flush o => exact absurd h (nq_flush _ _ _ _)
  | reconf e => cases h

/-- **C81, ICMP sockets, bound.** Until it is closed, an open ICMP socket bound to address `a` ≠ 0 with id `d` ≠ 0 is only
given messages to `a` with that id, whatever is called in between. -/
theorem icmp_bound (k : Nat) (a : Ip) (d : Nat) (ha : a ≠ 0) (hd : d ≠ 0) (ops : List IcOp) : ∀ s : IcSt, Has (IcIs a d) s.tab k →
    (∀ op ∈ ops, op ≠ .close k) → ∀ x, Ev.queued k x ∈ (icRun s ops).2 → dst x = a ∧ u16 x 38 = d := by
  induction ops with
  | nil => intro s _ _ x h; cases h
  | cons op ops ih =>
    intro s hb ho x h
    rw [icRun] at h
    rcases List.mem_append.mp h with h | h
    · obtain ⟨i, g, o, rfl⟩ := ic_queued_from_frame s op k x h
      change Ev.queued k x ∈ (icFrame s.env i g o s.tab).2 at h
      rw [icFrame] at h
      cases ht : icmpTap s.env i g o with
      | none => rw [ht] at h; cases h
      | some y =>
        rw [ht] at h
        dsimp only at h
        rw [mem_deliver] at h
        obtain ⟨hx, sl, hk, _, htk, _⟩ := h
        subst hx
        obtain ⟨_, _, _, _, hic⟩ := (icmpTap_iff _ _ _ _ _).mp ht
        obtain ⟨w1, w2, _⟩ := (icTakes_iff _ _ hic.total.2).mp htk
        obtain ⟨sl', hk', _, hp⟩ := hb
        rw [hk] at hk'
        have hk' := Option.some.inj hk'
        subst hk'
        rw [hp.2.1] at w1
        rw [hp.2.2] at w2
        refine ⟨?_, ?_⟩
        · rcases w1 with c | c
          · exact absurd c ha
          · exact c.symm
        · omega
    · exact ih _ (icIs_step s op k a d ha hd hb (ho op List.mem_cons_self)) (fun o' h' => ho o' (List.mem_cons_of_mem _ h')) x h

/-- **C81, ICMP sockets, recvfrom.** The oldest message waiting is returned, from the ICMP header to the end of the datagram,
with its source address, and taken out; if the buffer is too small the call fails and the message is gone. -/
theorem icmp_recv (s : IcSt) (k len : Nat) (sl : Slot Ic (List Nat)) (hk : s.tab[k]? = some sl) :
    (sl.rx = [] → icStep s (.recv k len) = (s, .again, [])) ∧
    (∀ x rest, sl.rx = x :: rest →
      (icStep s (.recv k len)).2.1 = (if tot x - 20 ≤ len then .gotIp ((x.drop 34).take (tot x - 20)) (src x) else .err) ∧
      (icStep s (.recv k len)).2.2 = [.read k x] ∧ rxOf (icStep s (.recv k len)).1.tab k = rest) := by
  have hlt : k < s.tab.length := by rw [List.getElem?_eq_some_iff] at hk; exact hk.1
  show (_ → icRecvOp s k len = _) ∧ (∀ x rest, _ → (icRecvOp s k len).2.1 = _ ∧ (icRecvOp s k len).2.2 = _ ∧ rxOf (icRecvOp s k len).1.tab k = rest)
  rw [icRecvOp, popRx, hk]
  dsimp only
  refine ⟨?_, ?_⟩
  · intro h; rw [h]
  · intro x rest h
    rw [h]
    refine ⟨?_, rfl, ?_⟩
    · show icRes len x = _
      rw [icRes]
      by_cases c : tot x - 20 ≤ len
      · rw [if_pos c, if_neg (by omega)]
      · rw [if_neg c, if_pos (by omega)]
    · show rxOf (s.tab.set k _) k = rest
      rw [rxOf_set _ _ _ _ hlt, if_pos rfl]

end Wolf.Dgram
