import Verif.Ip.Forward
/-!
# C23/C25: nothing that may be relayed is lost, and what happens to parked datagrams

The converse of `accepted_wf` and `forward_safe`: a well-formed datagram is not dropped by the input checks, and a
datagram that may be relayed and has a way out through another interface is sent at once, or parked until its next hop
is resolved. Exact effect of an address resolution on the parked datagrams; who may replace a parked datagram.
-/
namespace Wolf.IpIn
open Wolf.Route (Ip Conf)
open Wolf.Csum (words Bytes put16 ipSet ipVerify sum32 fold wsum)

/-! ## Acceptance -/

/-- The options parse: every option but End and NOP has a length byte, at least 2, that stays inside the area
(specification). -/
def OptsParse (o : List Nat) : Prop :=
  ∀ k t, OptAt o k → o[k]? = some t → t ≠ 0 → t ≠ 1 → ∃ l, o[k + 1]? = some l ∧ 2 ≤ l ∧ k + l ≤ o.length

theorem sum_ipVerify (ip : List Nat) (hb : Bytes ip) (hv : ip.getD 0 0 / 16 = 4) (hh : 20 ≤ ip.getD 0 0 % 16 * 4)
    (hs : SumOk (ip.take (ip.getD 0 0 % 16 * 4))) : ipVerify ip = true := by
  rw [ipVerify, if_neg (fun c => c hv)]
  simp only
  rw [if_neg (by omega), beq_iff_eq]
  generalize hH : ip.getD 0 0 % 16 * 4 = h at *
  have hl : (ip.take h).length ≤ 60 := by rw [List.length_take]; omega
  have b0 := Csum.wsum_bound (ip.take h) (Csum.bytes_take _ _ hb) (by omega)
  rw [Csum.sum32_eq _ 0 (by omega), Nat.zero_add]
  have := (Csum.fold_ok_iff (wsum (ip.take h))).mpr hs
  omega

/-- Every well-formed datagram passes the header checks. -/
theorem headOk_of (n : Net) (i : Nat) (f : List Nat) (hb : Bytes f) (w : WellFormed n i f) : headOk n i f = true := by
  have hhl : (f.drop 14).getD 0 0 = u8 f 14 := by rw [getD_drop]; rfl
  have hv : ipVerify (f.drop 14) = true := by
    refine sum_ipVerify _ (bytes_drop _ _ hb) (by rw [hhl]; exact w.version) ?_ ?_
    · rw [hhl]; exact w.hdr.1
    · rw [hhl]; exact w.sum
  have h1 := w.len
  have h2 := w.version
  have h3 := w.hdr
  have h4 := w.total
  have h5 := w.whole
  rw [headOk, if_neg (by omega), if_neg (by omega), if_neg (by omega), if_neg (by omega), if_neg (by omega),
    if_neg (by rw [hv]; exact Bool.noConfusion), if_neg (by omega)]
  rw [if_neg, if_neg, if_neg]
  · rintro ⟨c1, c2⟩
    rcases w.loopNet with h | ⟨ha, hb⟩
    · rw [h] at c1; cases c1
    · rcases c2 with c | c
      · exact hb ((isLoopNet_iff _).mp c)
      · exact ha ((isLoopNet_iff _).mp c)
  · rintro ⟨c1, c2⟩
    rcases w.srcSet with h | h
    · exact h c1
    · rw [h] at c2; cases c2
  · rintro (c | c)
    · exact w.srcUni.1 ((isBroadcast_iff n _).mp c)
    · exact w.srcUni.2 ((isMcast_iff _).mp c)

theorem optWalk_ok (f o : List Nat) (e : Nat) (he : ∀ j, 34 + j < e → o[j]? = f[34 + j]?) (hle : e ≤ f.length)
    (ho : 34 + o.length = e) (h40 : o.length ≤ 40)
    (hc : ∀ k, OptAt o k → o[k]? ≠ some 0x83 ∧ o[k]? ≠ some 0x89) (hp : OptsParse o) :
    ∀ (fuel k : Nat), OptAt o k → k ≤ o.length → o.length < k + fuel → optWalk f e fuel (34 + k) = .ok := by
  intro fuel
  induction fuel with
  | zero => intro k _ h1 h2; omega
  | succ fuel ih =>
    intro k hk h1 h2
    rw [optWalk]
    by_cases c1 : 34 + k ≥ e
    · rw [if_pos c1]
    rw [if_neg c1]
    have hg : f[34 + k]? = some f[34 + k] := List.getElem?_eq_getElem (by omega)
    have hok : o[k]? = f[34 + k]? := he k (by omega)
    have hcl := hc k hk
    rw [hg]
    rw [hg] at hok
    generalize f[34 + k] = t at *
    simp only
    by_cases c2 : t = 0
    · rw [if_pos c2]
    rw [if_neg c2]
    by_cases c3 : t = 1
    · rw [if_pos c3]
      subst c3
      exact ih (k + 1) (hk.nop hok) (by omega) (by omega)
    rw [if_neg c3]
    by_cases c4 : t = 0x83 ∨ t = 0x89
    · rcases c4 with c | c
      · rw [c] at hok; exact absurd hok hcl.1
      · rw [c] at hok; exact absurd hok hcl.2
    rw [if_neg c4]
    obtain ⟨l, g1, g2, g3⟩ := hp k t hk hok c2 c3
    rw [if_neg (by omega)]
    have hg1 := he (k + 1) (by omega)
    rw [show 34 + (k + 1) = 34 + k + 1 from by omega] at hg1
    rw [← hg1, g1]
    simp only
    have hm : (e - (34 + k)) % 256 = e - (34 + k) := Nat.mod_eq_of_lt (by omega)
    rw [if_neg (by omega), if_neg (by omega)]
    rw [Nat.add_assoc]
    exact ih (k + l) (hk.next hok c2 c3 g1) g3 (by omega)

/-- Options that parse and contain no source route pass the option walk. -/
theorem walkOf_ok (n : Net) (i : Nat) (f : List Nat) (w : WellFormed n i f) (hp : OptsParse (optBytes f)) : walkOf f = .ok := by
  have h1 := w.hdr
  rw [walkOf]
  by_cases hh : hlen f > 20
  · rw [if_pos hh]
    have hlen' : (optBytes f).length = hlen f - 20 := by rw [optBytes, List.length_drop, List.length_take]; omega
    have h60 : hlen f ≤ 60 := by rw [hlen]; omega
    refine optWalk_ok f (optBytes f) (14 + hlen f) ?_ h1.2 (by omega) (by omega) w.noRoute hp 64 0 .first (by omega) (by omega)
    intro j hj
    rw [optBytes, List.getElem?_drop, List.getElem?_take_of_lt (by omega)]
  · rw [if_neg hh]

/-- **C23, converse.** A well-formed datagram for this host whose options parse, of a protocol handled here, is handed
to that protocol. -/
theorem ip_delivers_all (n : Net) (i : Nat) (f : List Nat) (arp : Bool) (hb : Bytes f) (w : WellFormed n i f)
    (hp : OptsParse (optBytes f)) (hd : dst f = 0 ∨ Bcast n (dst f) ∨ ∃ c ∈ n.rt.confs, c.ip = dst f) (hl : f.length ≤ 1536)
    (h5 : proto f = 6 ∨ proto f = 1 ∨ proto f = 2) : ∃ g, ipRecv n i f false arp = .deliver (proto f) g ∧ Delivered f g := by
  have hu : forUs n (dst f) = true := by
    cases h : forUs n (dst f) with
    | true => rfl
    | false =>
      obtain ⟨g1, g2, g3⟩ := forUs_false h
      rcases hd with c | c | ⟨c, hc, he⟩
      · exact absurd c g1
      · exact absurd c g2
      · exact absurd he (g3 c hc)
  obtain ⟨g, hg⟩ := ip_delivers_wellformed n i f arp (headOk_of n i f hb w) (walkOf_ok n i f w hp) hu hl h5 hb
  exact ⟨g, hg, (ip_delivers_only_wellformed n i f false arp hb _ g hg).2.2.1⟩

/-! ## Relaying -/

/-- There is a way out through another interface than `i`: a connected subnet, or – without one – a longest matching
static route, none of which goes back through `i` (specification). -/
def Elsewhere (n : Net) (i : Nat) (d : Ip) : Prop :=
  (∃ j c, n.rt.confs[j]? = some c ∧ j ≠ i ∧ c.ip ≠ 0 ∧ c.mask ≠ 0 ∧ (d &&& c.mask) = (c.ip &&& c.mask)) ∨
  ((∃ r ∈ n.rt.routes, r.used = true ∧ Route.SamePrefix d r.pfx r.plen) ∧
    ∀ r ∈ n.rt.routes, r.used = true → Route.SamePrefix d r.pfx r.plen →
      (∀ r' ∈ n.rt.routes, r'.used = true → Route.SamePrefix d r'.pfx r'.plen → r'.plen ≤ r.plen) → r.ifIdx ≠ i)

/-- No address resolution is needed: a link without MAC addresses, the loopback, or a broadcast next hop. -/
def NoArp (n : Net) (out : Nat) (nh : Ip) : Prop := n.nonEth.getD out false = true ∨ Route.isLoop n.rt out = true ∨ Bcast n nh

theorem fwdScan_finds (inIf : Nat) (d : Ip) : ∀ (cs : List Conf) (j : Nat), (∀ c ∈ cs, c.ip ≠ d) →
    (∃ k c, cs[k]? = some c ∧ j + k ≠ inIf ∧ c.ip ≠ 0 ∧ Route.isLocalConf c d = true) → ∃ o, fwdScan inIf d cs j = some o := by
  intro cs
  induction cs with
  | nil => rintro j _ ⟨k, c, h, _⟩; simp at h
  | cons x xs ih =>
    rintro j hne ⟨k, c, h1, h2, h3, h4⟩
    have hrec : k ≠ 0 → ∃ o, fwdScan inIf d xs (j + 1) = some o := by
      intro hk
      obtain ⟨k', rfl⟩ := Nat.exists_eq_succ_of_ne_zero hk
      exact ih (j + 1) (fun c hc => hne c (List.mem_cons_of_mem _ hc)) ⟨k', c, by simpa using h1, by omega, h3, h4⟩
    rw [fwdScan]
    by_cases c1 : j = inIf
    · rw [if_pos c1]; exact hrec (fun e => by omega)
    rw [if_neg c1]
    by_cases c2 : x.ip = 0
    · rw [if_pos c2]
      refine hrec (fun e => ?_)
      subst e; simp at h1; subst h1; exact h3 c2
    rw [if_neg c2, if_neg (fun e => hne x List.mem_cons_self e.symm)]
    by_cases c4 : Route.isLocalConf x d = true
    · rw [if_pos c4]; exact ⟨j, rfl⟩
    rw [if_neg c4]
    refine hrec (fun e => ?_)
    subst e; simp at h1; subst h1; exact c4 h4

theorem egress_exists (n : Net) (i : Nat) (d : Ip) (hne : ∀ c ∈ n.rt.confs, c.ip ≠ d) (hi : i < n.rt.confs.length) (h : Elsewhere n i d) :
    ∃ out nh, egress n i d = some (out, nh) := by
  rw [egress]
  cases hf : forwardIf n i d with
  | some o => exact ⟨o, d, rfl⟩
  | none =>
    rcases h with ⟨j, c, h1, h2, h3, h4, h5⟩ | ⟨⟨r, r1, r2, r3⟩, h2⟩
    · rw [forwardIf] at hf
      have hj := get_lt h1
      rw [if_neg (by omega)] at hf
      obtain ⟨o, ho⟩ := fwdScan_finds i d n.rt.confs 0 hne ⟨j, c, h1, by omega, h3, by rw [Route.isLocalConf, if_neg h4, beq_iff_eq]; exact h5⟩
      rw [hf] at ho; cases ho
    · simp only
      have hs := Route.statScan_spec d n.rt.routes (fun _ => False) none (fun _ => id)
      cases hb : Route.statScan d n.rt.routes none with
      | none => rw [hb] at hs; exact absurd (Or.inr ⟨r, r1, r2, r3, rfl⟩) (hs _)
      | some b =>
        rw [hb] at hs
        obtain ⟨g2, g3⟩ := hs
        simp only
        rcases g2 with g2 | ⟨q, q1, q2, q3, q4⟩
        · exact g2.elim
        · have hq : b.ifIdx = q.ifIdx := congrArg Route.Cand.ifIdx q4
          have hqp : b.cand.plen = q.plen := congrArg Route.Cand.plen q4
          refine ⟨b.ifIdx, b.nexthop, if_neg ?_⟩
          rw [hq]
          refine h2 q q1 q2 q3 (fun r' e1 e2 e3 => ?_)
          have hg := g3 ⟨r'.plen, r'.order, r'.ifIdx, if r'.gw ≠ 0 then r'.gw else d⟩ (Or.inr ⟨r', e1, e2, e3, rfl⟩)
          simp only [Route.AtLeastAsGood] at hg
          omega

theorem rpfScan_none (inIf : Nat) (a : Ip) : ∀ (cs : List Conf) (j : Nat),
    (∀ k c, cs[k]? = some c → j + k ≠ inIf → c.ip ≠ 0 → Route.isLocalConf c a = false) → rpfScan inIf a cs j = false := by
  intro cs
  induction cs with
  | nil => intro j _; rfl
  | cons x xs ih =>
    intro j h
    have hrec := ih (j + 1) (fun k c hk hj => h (k + 1) c (by simpa using hk) (by omega))
    rw [rpfScan]
    by_cases c1 : j = inIf
    · rw [if_pos c1]; exact hrec
    rw [if_neg c1]
    by_cases c2 : x.ip = 0
    · rw [if_pos c2]; exact hrec
    rw [if_neg c2, if_neg (by rw [h 0 x rfl (by omega) c2]; exact Bool.noConfusion)]
    exact hrec

theorem rpf_pass (n : Net) (i : Nat) (f : List Nat) (hm : MayRelay n i f) : rpfDrop n i (src f) = false := by
  rw [rpfDrop, Bool.or_eq_false_iff, Bool.or_eq_false_iff, Bool.or_eq_false_iff]
  refine ⟨⟨⟨?_, ?_⟩, ?_⟩, ?_⟩
  · rcases hm.notLoop with h | h
    · rw [h, Bool.not_true, Bool.and_false]
    · cases hx : isLoopNet (src f) with
      | false => rfl
      | true => exact absurd ((isLoopNet_iff _).mp hx) h
  · cases hx : ((src f) &&& 0xFFFF0000#32) == 0xA9FE0000#32 with
    | false => rfl
    | true =>
      have := (linkLocal_iff _).mp hx
      rcases hm.notLinkLocal with h | h
      · exact absurd this.1 h
      · exact absurd this.2 h
  · rw [List.any_eq_false]
    intro c hc e
    rw [Bool.and_eq_true, bne_iff_ne, beq_iff_eq] at e
    exact hm.notSelf c hc e.1 e.2
  · refine rpfScan_none i _ _ 0 (fun k c hk hj hip => ?_)
    rw [Route.isLocalConf]
    by_cases c1 : c.mask = 0
    · rw [if_pos c1, beq_eq_false_iff_ne]
      exact hm.notSelf c (List.mem_of_getElem? hk) hip
    · rw [if_neg c1, beq_eq_false_iff_ne]
      exact hm.notElsewhere k c hk (by omega) hip c1

/-- What parking `p` does to the queue: nothing if the datagram does not fit the interface; else the first entry for
the same next hop and interface is replaced, else a free entry taken, else nothing (specification). -/
def Parks (l : List (Option Pend)) (mtu : Nat) (p : Pend) (l' : List (Option Pend)) : Prop :=
  (mtu < p.ip.length + 14 ∧ l' = l) ∨
  (p.ip.length + 14 ≤ mtu ∧
    ((∃ k q, l[k]? = some (some q) ∧ q.dest = p.dest ∧ q.ifIdx = p.ifIdx ∧ l' = l.set k (some p)) ∨
     ((∀ q, some q ∈ l → ¬ (q.dest = p.dest ∧ q.ifIdx = p.ifIdx)) ∧
       ((∃ k, l[k]? = some none ∧ l' = l.set k (some p)) ∨ (none ∉ l ∧ l' = l)))))

theorem findIdx?_spec {α : Type} (p : α → Bool) (l : List α) (k : Nat) (h : l.findIdx? p = some k) : ∃ x, l[k]? = some x ∧ p x = true := by
  rw [List.findIdx?_eq_some_iff_getElem] at h
  obtain ⟨h1, h2, _⟩ := h
  exact ⟨l[k], List.getElem?_eq_getElem h1, h2⟩

theorem queuePkt_parks (n : Net) (l : List (Option Pend)) (p : Pend) : Parks l (n.mtu.getD p.ifIdx 0) p (queuePkt n l p) := by
  rw [queuePkt]
  by_cases c : p.ip.length + 14 > n.mtu.getD p.ifIdx 0
  · rw [if_pos c]; exact Or.inl ⟨c, rfl⟩
  rw [if_neg c]
  refine Or.inr ⟨by omega, ?_⟩
  rw [pendSlot]
  cases h1 : l.findIdx? (fun e => match e with | some q => q.dest == p.dest && q.ifIdx == p.ifIdx | none => false) with
  | some k =>
    simp only
    obtain ⟨x, hx, hx'⟩ := findIdx?_spec _ _ _ h1
    cases x with
    | none => cases hx'
    | some q =>
      simp only [Bool.and_eq_true, beq_iff_eq] at hx'
      exact Or.inl ⟨k, q, hx, hx'.1, hx'.2, rfl⟩
  | none =>
    simp only
    refine Or.inr ⟨?_, ?_⟩
    · intro q hq e
      rw [List.findIdx?_eq_none_iff] at h1
      have := h1 (some q) hq
      simp only [Bool.and_eq_false_iff, beq_eq_false_iff_ne] at this
      rcases this with h | h
      · exact h e.1
      · exact h e.2
    · cases h2 : l.findIdx? (fun e => e.isNone) with
      | some k =>
        simp only
        obtain ⟨x, hx, hx'⟩ := findIdx?_spec _ _ _ h2
        rw [Option.isNone_iff_eq_none] at hx'
        subst hx'
        exact Or.inl ⟨k, hx, rfl⟩
      | none =>
        rw [List.findIdx?_eq_none_iff] at h2
        refine Or.inr ⟨fun hm => ?_, rfl⟩
        have := h2 none hm
        cases this

theorem resolved_iff (n : Net) (out : Nat) (nh : Ip) (arp : Bool) : resolved n out nh arp = true ↔ NoArp n out nh ∨ arp = true := by
  rw [resolved, Bool.or_eq_true, Bool.or_eq_true, Bool.or_eq_true, isBroadcast_iff, NoArp, isNonEth, or_assoc, or_assoc, or_assoc, or_assoc]

theorem step_forward (s : St) (i : Nat) (f : List Nat) (v a : Bool) (o : Nat) (ip : List Nat) (h : ipRecv s.net i f v a = .forward o ip) :
    step s (.frame i f v a) = ({ s with seen := s.seen + 1 }, [(o, ip, s.seen)]) := by
  rw [step]; simp only; rw [h]

theorem step_park (s : St) (i : Nat) (f : List Nat) (v a : Bool) (o : Nat) (nh : Ip) (ip : List Nat) (h : ipRecv s.net i f v a = .park o nh ip) :
    (step s (.frame i f v a)).2 = [] ∧ (step s (.frame i f v a)).1.net = s.net ∧
      (step s (.frame i f v a)).1.pend = queuePkt s.net s.pend ⟨nh, o, ip, s.seen⟩ := by
  rw [step]; simp only; rw [h]; exact ⟨rfl, rfl, rfl⟩

theorem ipRecv_block (n : Net) (i : Nat) (f : List Nat) (arp : Bool) (r : Out) (h1 : headOk n i f = true) (h2 : walkOf f = .ok)
    (h3 : forwardBlock n i f arp = some r) : ipRecv n i f false arp = r := by
  have n1 : ¬ headOk n i f = false := by rw [h1]; exact Bool.noConfusion
  have n2 : ¬ (false : Bool) = true := Bool.noConfusion
  generalize hr : ipRecv n i f false arp = q
  rw [ipRecv, if_neg n1, if_neg n2, h2] at hr
  rw [h3] at hr
  exact hr.symm

theorem block_of (n : Net) (i : Nat) (f : List Nat) (arp : Bool) (out : Nat) (nh : Ip) (h1 : forUs n (dst f) = false)
    (h2 : rpfDrop n i (src f) = false) (h3 : ¬ (isNonEth n i = false ∧ u8 f 0 % 2 = 1)) (h4 : egress n i (dst f) = some (out, nh)) (h5 : 2 ≤ ttl f) :
    forwardBlock n i f arp = some (if resolved n out nh arp = false then .park out nh (dgram f) else .forward out (relay (dgram f))) := by
  have n1 : ¬ forUs n (dst f) = true := by rw [h1]; exact Bool.noConfusion
  have n2 : ¬ rpfDrop n i (src f) = true := by rw [h2]; exact Bool.noConfusion
  rw [forwardBlock, if_neg n1, if_neg n2, if_neg h3, h4]
  simp only
  rw [if_neg (by omega)]
  split <;> rfl

/-- **C25, completeness.** A datagram that may be relayed, whose options parse, that the filter lets through and that
has a way out through another interface, is relayed: at once when its next hop needs no address resolution or is
resolved, and otherwise it is parked – unchanged – for exactly that next hop and interface. -/
theorem forward_complete (s : St) (i : Nat) (f : List Nat) (arp : Bool) (hb : Bytes f) (hi : i < s.net.rt.confs.length)
    (hm : MayRelay s.net i f) (hp : OptsParse (optBytes f)) (hr : Elsewhere s.net i (dst f)) :
    ∃ out nh, out ≠ i ∧ RouteOk s.net (dst f) out nh ∧
      ((NoArp s.net out nh ∨ arp = true) → ∃ ip, step s (.frame i f false arp) = ({ s with seen := s.seen + 1 }, [(out, ip, s.seen)]) ∧ Relayed (dgram f) ip) ∧
      (¬ (NoArp s.net out nh ∨ arp = true) → (step s (.frame i f false arp)).2 = [] ∧ (step s (.frame i f false arp)).1.net = s.net ∧
        Parks s.pend (s.net.mtu.getD out 0) ⟨nh, out, dgram f, s.seen⟩ (step s (.frame i f false arp)).1.pend) := by
  obtain ⟨out, nh, he⟩ := egress_exists s.net i (dst f) hm.notOurs.2.2 hi hr
  have hes := egress_spec s.net i (dst f) out nh he
  have hu : forUs s.net (dst f) = false := by
    cases hx : forUs s.net (dst f) with
    | false => rfl
    | true =>
      rw [forUs, Bool.or_eq_true, Bool.or_eq_true] at hx
      rcases hx with (c | c) | c
      · exact absurd (by simpa using c) hm.notOurs.1
      · exact absurd ((isBroadcast_iff _ _).mp c) hm.notOurs.2.1
      · rw [List.any_eq_true] at c
        obtain ⟨x, hx, e⟩ := c
        rw [Bool.and_eq_true, bne_iff_ne, beq_iff_eq] at e
        exact absurd e.2 (hm.notOurs.2.2 x hx)
  have hg : ¬ (isNonEth s.net i = false ∧ u8 f 0 % 2 = 1) := by
    rintro ⟨c1, c2⟩
    rcases hm.notGroup with h | h
    · rw [h] at c1; cases c1
    · omega
  have hrecv := ipRecv_block s.net i f arp _ (headOk_of _ _ _ hb hm.wf) (walkOf_ok _ _ _ hm.wf hp)
    (block_of s.net i f arp out nh hu (rpf_pass s.net i f hm) hg he hm.hops)
  refine ⟨out, nh, hes.1, hes.2, ?_, ?_⟩
  · intro hres
    have := (resolved_iff s.net out nh arp).mpr hres
    rw [this, if_neg Bool.noConfusion] at hrecv
    exact ⟨relay (dgram f), step_forward s i f false arp _ _ hrecv, dgram_relay s.net i f hb hm⟩
  · intro hres
    have : resolved s.net out nh arp = false := by
      cases h : resolved s.net out nh arp with
      | false => rfl
      | true => exact absurd ((resolved_iff s.net out nh arp).mp h) hres
    rw [this, if_pos rfl] at hrecv
    obtain ⟨e1, e2, e3⟩ := step_park s i f false arp _ _ _ hrecv
    refine ⟨e1, e2, ?_⟩
    rw [e3]
    exact queuePkt_parks s.net s.pend ⟨nh, out, dgram f, s.seen⟩

/-! ## Resolution -/

/-- **C25, resolution.** Learning the address `a` on interface `i` sends exactly the parked datagrams waiting for `a`
on `i` – those that still fit and have hops left – in queue order, and frees exactly their entries. -/
theorem learned_exact (s : St) (i : Nat) (a : Ip) :
    (step s (.learned i a)).2 = (s.pend.filterMap id).flatMap (fun (p : Pend) =>
        if p.dest = a ∧ p.ifIdx = i ∧ p.ip.length + 14 ≤ s.net.mtu.getD p.ifIdx 0 ∧ 2 ≤ p.ip.getD 8 0 then [(p.ifIdx, relay p.ip, p.id)] else []) ∧
    (∀ k : Nat, (step s (.learned i a)).1.pend[k]? = (s.pend[k]?).map (fun (e : Option Pend) => match e with
        | none => none
        | some p => if p.dest = a ∧ p.ifIdx = i then none else some p)) := by
  constructor
  · show flushOut s.net a i s.pend = _
    rw [flushOut]
    induction s.pend with
    | nil => rfl
    | cons x xs ih =>
      rw [List.flatMap_cons]
      cases x with
      | none => rw [List.filterMap_cons_none rfl, ← ih]; rfl
      | some p =>
        rw [show List.filterMap id (some p :: xs) = p :: List.filterMap id xs from rfl, List.flatMap_cons, ← ih]
        congr 1
        simp only [waits, Bool.and_eq_true, beq_iff_eq]
        rw [flushOne]
        by_cases c1 : p.dest = a ∧ p.ifIdx = i
        · rw [if_pos c1]
          by_cases c2 : p.ip.length + 14 > s.net.mtu.getD p.ifIdx 0
          · rw [if_pos c2, if_neg (by omega)]
          rw [if_neg c2]
          by_cases c3 : p.ip.getD 8 0 ≤ 1
          · rw [if_pos c3, if_neg (by omega)]
          · rw [if_neg c3, if_pos ⟨c1.1, c1.2, by omega, by omega⟩]
        · rw [if_neg c1, if_neg (fun c => c1 ⟨c.1, c.2.1⟩)]
  · intro k
    show (flushRest a i s.pend)[k]? = _
    rw [flushRest, List.getElem?_map]
    cases s.pend[k]? with
    | none => rfl
    | some e =>
      cases e with
      | none => rfl
      | some p =>
        simp only [Option.map_some, waits, Bool.and_eq_true, beq_iff_eq]

/-- **C25, no eviction.** A parked datagram leaves its place only when its own next hop is resolved on its own
interface, when that interface goes away, or when a later datagram for the same next hop and interface replaces it. -/
theorem parked_kept (s : St) (op : Op) (k : Nat) (p : Pend) (h : s.pend[k]? = some (some p)) (h' : (step s op).1.pend[k]? ≠ some (some p)) :
    op = .learned p.ifIdx p.dest ∨ op = .ifGone p.ifIdx ∨
      ∃ i f v a q, op = .frame i f v a ∧ (step s op).1.pend[k]? = some (some q) ∧ q.dest = p.dest ∧ q.ifIdx = p.ifIdx ∧ q.id = s.seen := by
  cases op with
  | learned i a =>
    rw [(learned_exact s i a).2 k, h] at h'
    simp only [Option.map_some] at h'
    by_cases c : p.dest = a ∧ p.ifIdx = i
    · exact Or.inl (by rw [c.1, c.2])
    · rw [if_neg c] at h'; exact absurd rfl h'
  | ifGone i =>
    refine Or.inr (Or.inl ?_)
    rw [step] at h'
    simp only at h'
    rw [List.getElem?_map, h] at h'
    simp only [Option.map_some] at h'
    by_cases c : p.ifIdx = i
    · rw [c]
    · rw [if_neg c] at h'; exact absurd rfl h'
  | reconf n => exact absurd h h'
  | frame i f v a =>
    refine Or.inr (Or.inr ⟨i, f, v, a, ?_⟩)
    rw [step] at h' ⊢
    simp only at h' ⊢
    cases hr : ipRecv s.net i f v a with
    | park o nh ip =>
      rw [hr] at h'
      simp only at h' ⊢
      have hk := get_lt h
      rcases queuePkt_parks s.net s.pend ⟨nh, o, ip, s.seen⟩ with ⟨_, e⟩ | ⟨_, ⟨j, q, g1, g2, g3, g4⟩ | ⟨_, ⟨j, g1, g2⟩ | ⟨_, e⟩⟩⟩
      · rw [e] at h'; exact absurd h h'
      · rw [g4] at h' ⊢
        by_cases c : j = k
        · subst c
          rw [h] at g1
          cases g1
          exact ⟨_, trivial, List.getElem?_set_self hk, g2.symm, g3.symm, rfl⟩
        · rw [List.getElem?_set_ne c] at h'; exact absurd h h'
      · rw [g2] at h'
        by_cases c : j = k
        · subst c; rw [h] at g1; cases g1
        · rw [List.getElem?_set_ne c] at h'; exact absurd h h'
      · rw [e] at h'; exact absurd h h'
    | forward o ip => rw [hr] at h'; exact absurd h h'
    | drop => rw [hr] at h'; exact absurd h h'
    | oob => rw [hr] at h'; exact absurd h h'
    | ttlExceeded => rw [hr] at h'; exact absurd h h'
    | deliver q g => rw [hr] at h'; exact absurd h h'

/-- The router of `net2` with its second interface a tunnel. -/
def netTun : Net := { net2 with nonEth := [false, true] }

/-- Non-vacuity: over a tunnel the datagram leaves without address resolution; on Ethernet it waits, a resolution on
the wrong interface or of another address does not release it, the right one does; a second datagram for the same hop
replaces it. -/
theorem park_example :
    (run (init netTun 4) [.frame 0 frameFwd false false]).2.map (fun e => (e.1, e.2.2)) = [(1, 0)] ∧
    (run (init net2 4) [.frame 0 frameFwd false false, .learned 0 0xC0A80109#32, .learned 1 0xC0A80108#32]).2 = [] ∧
    (run (init net2 4) [.frame 0 frameFwd false false, .frame 0 frameFwd false false, .learned 1 0xC0A80109#32]).2.map (fun e => (e.1, e.2.2)) = [(1, 1)] := by
  decide +kernel

/-- Non-vacuity of `forward_complete`: the frame of `forward_example` meets its hypotheses. -/
theorem forward_complete_applies : Elsewhere net2 0 (dst frameFwd) ∧ OptsParse (optBytes frameFwd) ∧ WellFormed net2 0 frameFwd ∧
    rpfDrop net2 0 (src frameFwd) = false ∧ 2 ≤ ttl frameFwd := by
  refine ⟨Or.inl ⟨1, ⟨0xC0A80101#32, 0xFFFFFF00#32, 0⟩, rfl, by decide, by decide +kernel, by decide +kernel, by decide +kernel⟩, ?_, ?_, by decide +kernel, by decide +kernel⟩
  · intro k t _ h
    rw [show optBytes frameFwd = [] from by decide +kernel] at h; cases h
  · have hb : Bytes frameFwd := by
      intro x hx
      exact of_decide_eq_true (List.all_eq_true.mp (show frameFwd.all (fun x => decide (x < 256)) = true by decide +kernel) x hx)
    exact accepted_wf net2 0 frameFwd hb (by decide +kernel) (by decide +kernel)

end Wolf.IpIn
