import Verif.Ip.Deliver
/-!
# C25: forwarding
-/
namespace Wolf.IpIn
open Wolf.Route (Ip Conf)
open Wolf.Csum (words Bytes put16 ipSet ipVerify sum32 fold wsum)

/-- Decrement and fresh checksum: exactly the relayed form. -/
theorem relay_spec (ip : List Nat) (hb : Bytes ip) (hv : ip.getD 0 0 / 16 = 4) (hh : 20 ≤ ip.getD 0 0 % 16 * 4) (hl : ip.getD 0 0 % 16 * 4 ≤ ip.length)
    (ht : 2 ≤ ip.getD 8 0) : Relayed ip (relay ip) := by
  have h8 : 8 < ip.length := by omega
  have ht2 : ip.getD 8 0 < 256 := by
    rw [List.getD_eq_getElem?_getD, List.getElem?_eq_getElem h8]; exact hb _ (List.getElem_mem h8)
  have hz : (ip.getD 8 0 + 255) % 256 = ip.getD 8 0 - 1 := by omega
  generalize hm : ip.set 8 ((ip.getD 8 0 + 255) % 256) = m at *
  have hrel : relay ip = ipSet m := by rw [relay, hm]
  have hml : m.length = ip.length := by rw [← hm, List.length_set]
  have hm0 : m.getD 0 0 = ip.getD 0 0 := by
    rw [List.getD_eq_getElem?_getD, ← hm, List.getElem?_set_ne (by omega), List.getD_eq_getElem?_getD]
  have hmb : Bytes m := by
    rw [← hm]; intro x hx
    rcases List.mem_or_eq_of_mem_set hx with h | h
    · exact hb x h
    · omega
  have hset := Csum.ip_checksum_verifies m hmb (by rw [hm0]; exact hv) (by rw [hm0]; exact hh) (by rw [hm0, hml]; exact hl)
  have hbs : Bytes (ipSet m) := by
    rw [ipSet]
    refine Csum.put16_bytes _ _ _ (Csum.put16_bytes _ _ _ hmb (by omega)) ?_
    rw [Csum.inv16]; omega
  have h8' : (ipSet m).getD 8 0 = ip.getD 8 0 - 1 := by
    rw [List.getD_eq_getElem?_getD, hset.2 8 (by omega) (by omega), ← hm, List.getElem?_set_self h8]; exact hz
  rw [hrel]
  refine ⟨by rw [ipSet_length, hml], by omega, by omega, ipVerify_sum _ hbs hset.1, ?_⟩
  intro k h1 h2 h3
  rw [hset.2 k h2 h3, ← hm, List.getElem?_set_ne (fun c => h1 c.symm)]

theorem rpfScan_false (inIf : Nat) (a : Ip) : ∀ (cs : List Conf) (j : Nat), rpfScan inIf a cs j = false →
    ∀ k c, cs[k]? = some c → j + k ≠ inIf → c.ip ≠ 0 → Route.isLocalConf c a = false := by
  intro cs
  induction cs with
  | nil => intro j _ k c h; simp at h
  | cons x xs ih =>
    intro j h k c hk hne hip
    rw [rpfScan] at h
    by_cases h1 : j = inIf
    · rw [if_pos h1] at h
      cases k with
      | zero => omega
      | succ k => exact ih (j + 1) h k c (by simpa using hk) (by omega) hip
    rw [if_neg h1] at h
    by_cases h2 : x.ip = 0
    · rw [if_pos h2] at h
      cases k with
      | zero => simp at hk; rw [hk] at h2; exact absurd h2 hip
      | succ k => exact ih (j + 1) h k c (by simpa using hk) (by omega) hip
    rw [if_neg h2] at h
    by_cases h3 : Route.isLocalConf x a = true
    · rw [if_pos h3] at h; cases h
    rw [if_neg h3] at h
    cases k with
    | zero => simp at hk; rw [← hk]; simpa using h3
    | succ k => exact ih (j + 1) h k c (by simpa using hk) (by omega) hip

theorem fwdScan_some (inIf : Nat) (d : Ip) : ∀ (cs : List Conf) (j o : Nat), fwdScan inIf d cs j = some o →
    o ≠ inIf ∧ ∃ k c, o = j + k ∧ cs[k]? = some c ∧ c.ip ≠ 0 ∧ c.ip ≠ d ∧ Route.isLocalConf c d = true := by
  intro cs
  induction cs with
  | nil => intro j o h; cases h
  | cons x xs ih =>
    intro j o h
    have hrec : fwdScan inIf d xs (j + 1) = some o → o ≠ inIf ∧ ∃ k c, o = j + k ∧ (x :: xs)[k]? = some c ∧ c.ip ≠ 0 ∧ c.ip ≠ d ∧ Route.isLocalConf c d = true := by
      intro h
      obtain ⟨h1, k, c, h2, h3⟩ := ih (j + 1) o h
      exact ⟨h1, k + 1, c, by omega, by simpa using h3⟩
    rw [fwdScan] at h
    by_cases h1 : j = inIf
    · rw [if_pos h1] at h; exact hrec h
    rw [if_neg h1] at h
    by_cases h2 : x.ip = 0
    · rw [if_pos h2] at h; exact hrec h
    rw [if_neg h2] at h
    by_cases h3 : d = x.ip
    · rw [if_pos h3] at h; cases h
    rw [if_neg h3] at h
    by_cases h4 : Route.isLocalConf x d = true
    · rw [if_pos h4] at h; cases h
      exact ⟨h1, 0, x, rfl, rfl, h2, fun c => h3 c.symm, h4⟩
    · rw [if_neg h4] at h; exact hrec h

/-- The chosen way out is never the way in, and is a right route. -/
theorem egress_spec (n : Net) (inIf : Nat) (d : Ip) (out : Nat) (nh : Ip) (h : egress n inIf d = some (out, nh)) : out ≠ inIf ∧ RouteOk n d out nh := by
  rw [egress] at h
  cases hf : forwardIf n inIf d with
  | some o =>
    rw [hf] at h; cases h
    rw [forwardIf] at hf
    by_cases h1 : n.rt.confs.length < 2
    · rw [if_pos h1] at hf; cases hf
    rw [if_neg h1] at hf
    obtain ⟨h2, k, c, h3, h4, h5, h6, h7⟩ := fwdScan_some inIf d _ _ _ hf
    refine ⟨h2, Or.inl ⟨rfl, c, by rw [h3, Nat.zero_add]; exact h4, h5, ?_⟩⟩
    rw [Route.isLocalConf] at h7
    by_cases h8 : c.mask = 0
    · rw [if_pos h8, beq_iff_eq] at h7; exact absurd h7 h6
    · rw [if_neg h8, beq_iff_eq] at h7; exact ⟨h8, h7⟩
  | none =>
    rw [hf] at h
    simp only at h
    have hs := Route.statScan_spec d n.rt.routes (fun _ => False) none (fun _ => id)
    cases hb : Route.statScan d n.rt.routes none with
    | none => rw [hb] at h; cases h
    | some b =>
      rw [hb] at h hs
      simp only at h
      by_cases h1 : b.ifIdx = inIf
      · rw [if_pos h1] at h; cases h
      rw [if_neg h1] at h
      cases h
      refine ⟨h1, Or.inr ?_⟩
      obtain ⟨h2, h3⟩ := hs
      rcases h2 with h2 | ⟨r, r1, r2, r3, r4⟩
      · exact h2.elim
      · refine ⟨r, r1, r2, r3, ?_, ?_, ?_⟩
        · have := congrArg Route.Cand.ifIdx r4; exact this.symm
        · have := congrArg Route.Cand.nexthop r4; exact this
        · intro r' q1 q2 q3
          have hg := h3 ⟨r'.plen, r'.order, r'.ifIdx, if r'.gw ≠ 0 then r'.gw else d⟩ (Or.inr ⟨r', q1, q2, q3, rfl⟩)
          have hp : b.cand.plen = r.plen := congrArg Route.Cand.plen r4
          simp only [Route.AtLeastAsGood] at hg
          omega

theorem forUs_false {n : Net} {d : Ip} (h : forUs n d = false) : d ≠ 0 ∧ ¬ Bcast n d ∧ ∀ c ∈ n.rt.confs, c.ip ≠ d := by
  rw [forUs, Bool.or_eq_false_iff, Bool.or_eq_false_iff] at h
  obtain ⟨⟨h1, h2⟩, h3⟩ := h
  have h1' : d ≠ 0 := by simpa using h1
  refine ⟨h1', fun c => ?_, fun c hc e => ?_⟩
  · rw [(isBroadcast_iff n d).mpr c] at h2; cases h2
  · rw [List.any_eq_false] at h3
    refine h3 c hc ?_
    rw [Bool.and_eq_true, bne_iff_ne, beq_iff_eq]
    exact ⟨by rw [e]; exact h1', e⟩

/-- What the forwarding block decides. -/
theorem forwardBlock_spec (n : Net) (i : Nat) (f : List Nat) (arp : Bool) (hw : WellFormed n i f) (r : Out) (h : forwardBlock n i f arp = some r) :
    r = .drop ∨ ∃ out nh, (out ≠ i ∧ RouteOk n (dst f) out nh) ∧
      ((r = .ttlExceeded ∧ ttl f ≤ 1 ∧ (dst f ≠ 0 ∧ ¬ Bcast n (dst f) ∧ ∀ c ∈ n.rt.confs, c.ip ≠ dst f) ∧ (isNonEth n i = true ∨ u8 f 0 % 2 = 0)) ∨
       (MayRelay n i f ∧ (r = .park out nh (dgram f) ∨ r = .forward out (relay (dgram f))))) := by
  rw [forwardBlock] at h
  by_cases h1 : forUs n (dst f) = true
  · rw [if_pos h1] at h; cases h
  rw [if_neg h1] at h
  have n1 := forUs_false (show forUs n (dst f) = false by simpa using h1)
  by_cases h2 : rpfDrop n i (src f) = true
  · rw [if_pos h2] at h; cases h; exact Or.inl rfl
  rw [if_neg h2] at h
  have h2' : rpfDrop n i (src f) = false := by simpa using h2
  rw [rpfDrop, Bool.or_eq_false_iff, Bool.or_eq_false_iff, Bool.or_eq_false_iff] at h2'
  obtain ⟨⟨⟨r1, r2⟩, r3⟩, r4⟩ := h2'
  by_cases h3 : isNonEth n i = false ∧ u8 f 0 % 2 = 1
  · rw [if_pos h3] at h; cases h
  rw [if_neg h3] at h
  have n3 : isNonEth n i = true ∨ u8 f 0 % 2 = 0 := by
    cases hx : isNonEth n i with
    | true => exact Or.inl rfl
    | false => right; have : ¬ u8 f 0 % 2 = 1 := fun c => h3 ⟨hx, c⟩; omega
  cases he : egress n i (dst f) with
  | none => rw [he] at h; cases h
  | some x =>
    obtain ⟨out, nh⟩ := x
    rw [he] at h
    simp only at h
    have hes := egress_spec n i (dst f) out nh he
    refine Or.inr ⟨out, nh, hes, ?_⟩
    by_cases h4 : ttl f ≤ 1
    · rw [if_pos h4] at h; cases h; exact Or.inl ⟨rfl, h4, n1, n3⟩
    rw [if_neg h4] at h
    refine Or.inr ⟨⟨hw, n1, n3, ?_, ?_, ?_, ?_, by omega⟩, ?_⟩
    · by_cases c : octet1 (src f) = 169
      · right; intro c2
        rw [(linkLocal_iff (src f)).mpr ⟨c, c2⟩] at r2; cases r2
      · exact Or.inl c
    · cases hx : Route.isLoop n.rt i with
      | true => exact Or.inl rfl
      | false =>
        right; intro c
        rw [(isLoopNet_iff (src f)).mpr c, hx] at r1; cases r1
    · intro c hc hip e
      rw [List.any_eq_false] at r3
      refine r3 c hc ?_
      rw [Bool.and_eq_true, bne_iff_ne, beq_iff_eq]; exact ⟨hip, e⟩
    · intro j c hc hj hip hm e
      have := rpfScan_false i (src f) _ _ r4 j c hc (by omega) hip
      rw [Route.isLocalConf, if_neg hm, beq_eq_false_iff_ne] at this
      exact this e
    · by_cases h5 : resolved n out nh arp = false
      · rw [if_pos h5] at h; cases h; exact Or.inl rfl
      · rw [if_neg h5] at h; cases h; exact Or.inr rfl

theorem dgram_relay (n : Net) (i : Nat) (f : List Nat) (hb : Bytes f) (hm : MayRelay n i f) : Relayed (dgram f) (relay (dgram f)) := by
  have hw := hm.wf
  have ht := hw.total
  have hh := hw.hdr
  have hl : (dgram f).length = tot f := by rw [dgram, List.length_take, List.length_drop]; omega
  have g : ∀ k, k < tot f → (dgram f).getD k 0 = u8 f (14 + k) := by
    intro k hk
    rw [dgram, getD_take _ _ _ hk, getD_drop]; rfl
  have g0 := g 0 (by omega)
  have g8 := g 8 (by omega)
  refine relay_spec _ (Csum.bytes_take _ _ (bytes_drop _ _ hb)) ?_ ?_ ?_ ?_
  · rw [g0]; exact hw.version
  · rw [g0]; exact hh.1
  · rw [g0, hl]; exact ht.1
  · rw [g8]; exact hm.hops

/-! ## Histories -/

/-- The frames received so far, with the configuration at that time (specification). -/
def hist (n : Net) : List Op → List (Net × Nat × List Nat)
  | [] => []
  | .frame i f _ _ :: ops => (n, i, f) :: hist n ops
  | .reconf n' :: ops => hist n' ops
  | .learned _ _ :: ops => hist n ops
  | .ifGone _ :: ops => hist n ops

/-- Every received frame is made of bytes. -/
def ByteOps (ops : List Op) : Prop := ∀ i f v a, Op.frame i f v a ∈ ops → Bytes f

/-- The datagram waiting as number `id` is arrival `id`, may be relayed and has a right way out. -/
def Good (h : List (Net × Nat × List Nat)) (p : Pend) : Prop :=
  ∃ n i f, h[p.id]? = some (n, i, f) ∧ Bytes f ∧ MayRelay n i f ∧ p.ifIdx ≠ i ∧ RouteOk n (dst f) p.ifIdx p.dest ∧ p.ip = dgram f

/-- What is sent as arrival `id` is that arrival, relayed. -/
def GoodSent (h : List (Net × Nat × List Nat)) (e : Sent) : Prop :=
  ∃ n i f, h[e.2.2]? = some (n, i, f) ∧ MayRelay n i f ∧ e.1 ≠ i ∧ (∃ nh, RouteOk n (dst f) e.1 nh) ∧ Relayed (dgram f) e.2.1

structure Inv (s : St) (h : List (Net × Nat × List Nat)) (out : List Sent) : Prop where
  seen : s.seen = h.length
  pend : ∀ (k : Nat) (p : Pend), s.pend[k]? = some (some p) → Good h p
  sent : ∀ e ∈ out, GoodSent h e
  distinct : ∀ (j k : Nat) (p q : Pend), s.pend[j]? = some (some p) → s.pend[k]? = some (some q) → p.id = q.id → j = k
  fresh : ∀ (k : Nat) (p : Pend), s.pend[k]? = some (some p) → ∀ e ∈ out, e.2.2 ≠ p.id
  once : (out.map (fun e => e.2.2)).Nodup

theorem get_lt {α : Type} {l : List α} {k : Nat} {x : α} (h : l[k]? = some x) : k < l.length := by
  rw [List.getElem?_eq_some_iff] at h; exact h.1

theorem get_app {α : Type} {l m : List α} {k : Nat} {x : α} (h : l[k]? = some x) : (l ++ m)[k]? = some x := by
  rw [List.getElem?_append_left (get_lt h)]; exact h

theorem Good.app {h m : List (Net × Nat × List Nat)} {p : Pend} (g : Good h p) : Good (h ++ m) p := by
  obtain ⟨n, i, f, h1, h2⟩ := g
  exact ⟨n, i, f, get_app h1, h2⟩

theorem GoodSent.app {h m : List (Net × Nat × List Nat)} {e : Sent} (g : GoodSent h e) : GoodSent (h ++ m) e := by
  obtain ⟨n, i, f, h1, h2⟩ := g
  exact ⟨n, i, f, get_app h1, h2⟩

theorem Good.id_lt {h : List (Net × Nat × List Nat)} {p : Pend} (g : Good h p) : p.id < h.length := by
  obtain ⟨n, i, f, h1, _⟩ := g; exact get_lt h1

theorem GoodSent.id_lt {h : List (Net × Nat × List Nat)} {e : Sent} (g : GoodSent h e) : e.2.2 < h.length := by
  obtain ⟨n, i, f, h1, _⟩ := g; exact get_lt h1

/-- Frames added to the history by one operation. -/
def added (n : Net) : Op → List (Net × Nat × List Nat)
  | .frame i f _ _ => [(n, i, f)]
  | .learned _ _ => []
  | .ifGone _ => []
  | .reconf _ => []

theorem hist_cons (n : Net) (op : Op) (ops : List Op) (s : St) (hs : s.net = n) : hist n (op :: ops) = added n op ++ hist (step s op).1.net ops := by
  cases op with
  | frame i f v a =>
    rw [hist, added]
    have : (step s (.frame i f v a)).1.net = n := by
      rw [step]; simp only
      split <;> exact hs
    rw [this]; rfl
  | learned => show hist n ops = [] ++ hist s.net ops; rw [hs]; rfl
  | ifGone => show hist n ops = [] ++ hist s.net ops; rw [hs]; rfl
  | reconf => rfl

/-- Sending one more datagram with a fresh id. -/
theorem nodup_snoc (out : List Sent) (e : Sent) (h : (out.map (fun e => e.2.2)).Nodup) (hf : ∀ x ∈ out, x.2.2 ≠ e.2.2) :
    ((out ++ [e]).map (fun e => e.2.2)).Nodup := by
  rw [List.map_append, List.nodup_append]
  refine ⟨h, by simp, ?_⟩
  intro a ha b hb
  simp only [List.map_cons, List.map_nil, List.mem_singleton] at hb
  obtain ⟨x, hx, hxa⟩ := List.mem_map.mp ha
  rw [hb, ← hxa]; exact hf x hx

theorem inv_step (s : St) (h : List (Net × Nat × List Nat)) (out : List Sent) (op : Op) (hi : Inv s h out) (hb : ∀ i f v a, op = .frame i f v a → Bytes f) :
    Inv (step s op).1 (h ++ added s.net op) (out ++ (step s op).2) := by
  cases op with
  | frame i f v a =>
    have hbf := hb i f v a rfl
    have hbase : Inv { s with seen := s.seen + 1 } (h ++ [(s.net, i, f)]) out :=
      ⟨by simp [hi.seen], fun k p hk => (hi.pend k p hk).app, fun e he => (hi.sent e he).app, hi.distinct, hi.fresh, hi.once⟩
    have hnew : (h ++ [(s.net, i, f)])[s.seen]? = some (s.net, i, f) := by rw [hi.seen]; simp
    rw [step, added]
    simp only
    generalize hr : ipRecv s.net i f v a = r
    have key : (∀ o ip, r = .forward o ip → MayRelay s.net i f ∧ o ≠ i ∧ (∃ nh, RouteOk s.net (dst f) o nh) ∧ ip = relay (dgram f)) ∧
        (∀ o nh ip, r = .park o nh ip → MayRelay s.net i f ∧ o ≠ i ∧ RouteOk s.net (dst f) o nh ∧ ip = dgram f) := by
      rcases ipRecv_eq s.net i f v a with e | ⟨h1, h2, h3, ⟨q, h4, h5⟩ | ⟨h4, h5⟩⟩
      · rw [hr] at e; subst e; exact ⟨fun _ _ c => Out.noConfusion c, fun _ _ _ c => Out.noConfusion c⟩
      · rw [hr] at h5; subst h5
        rcases forwardBlock_spec s.net i f a (accepted_wf s.net i f hbf h1 h3) r h4 with c | ⟨o', nh', ho, ⟨c, _⟩ | ⟨hm, c | c⟩⟩
        · subst c; exact ⟨fun _ _ c => Out.noConfusion c, fun _ _ _ c => Out.noConfusion c⟩
        · subst c; exact ⟨fun _ _ c => Out.noConfusion c, fun _ _ _ c => Out.noConfusion c⟩
        · subst c; exact ⟨fun _ _ c => Out.noConfusion c, fun _ _ _ c => (by cases c; exact ⟨hm, ho.1, ho.2, rfl⟩)⟩
        · subst c; exact ⟨fun _ _ c => (by cases c; exact ⟨hm, ho.1, ⟨_, ho.2⟩, rfl⟩), fun _ _ _ c => Out.noConfusion c⟩
      · rw [hr] at h5
        refine ⟨fun o ip c => ?_, fun o nh ip c => ?_⟩
        · rw [c] at h5
          exact absurd h5 (by rw [dispatch]; simp only; (repeat' split) <;> exact Out.noConfusion)
        · rw [c] at h5
          exact absurd h5 (by rw [dispatch]; simp only; (repeat' split) <;> exact Out.noConfusion)
    cases r with
    | forward o ip =>
      obtain ⟨k1, k2, k3, k4⟩ := key.1 o ip rfl
      have hfresh : ∀ x ∈ out, x.2.2 ≠ s.seen := fun x hx c => by
        have := (hi.sent x hx).id_lt; rw [← hi.seen] at this; omega
      refine ⟨hbase.seen, hbase.pend, ?_, hbase.distinct, ?_, nodup_snoc _ _ hi.once hfresh⟩
      · intro e he
        rcases List.mem_append.mp he with he | he
        · exact hbase.sent e he
        · rw [List.mem_singleton] at he; subst he
          exact ⟨s.net, i, f, hnew, k1, k2, k3, by rw [k4]; exact dgram_relay s.net i f hbf k1⟩
      · intro k p hk e he
        rcases List.mem_append.mp he with he | he
        · exact hi.fresh k p hk e he
        · rw [List.mem_singleton] at he; subst he
          have := (hi.pend k p hk).id_lt
          rw [← hi.seen] at this
          show s.seen ≠ p.id
          omega
    | park o nh ip =>
      obtain ⟨k1, k2, k3, k4⟩ := key.2 o nh ip rfl
      rw [List.append_nil]
      simp only
      have hgood : Good (h ++ [(s.net, i, f)]) ⟨nh, o, ip, s.seen⟩ := ⟨s.net, i, f, hnew, hbf, k1, k2, k3, k4⟩
      rw [queuePkt]
      by_cases hm : ip.length + 14 > s.net.mtu.getD o 0
      · rw [if_pos hm]; exact hbase
      rw [if_neg hm]
      simp only
      cases hsl : pendSlot nh o s.pend with
      | none => exact hbase
      | some j =>
        simp only
        have hget : ∀ (k : Nat) (p : Pend), (s.pend.set j (some ⟨nh, o, ip, s.seen⟩))[k]? = some (some p) →
            (k = j ∧ p = ⟨nh, o, ip, s.seen⟩) ∨ (k ≠ j ∧ s.pend[k]? = some (some p)) := by
          intro k p hk
          by_cases c : j = k
          · subst c
            left
            have hlt : j < s.pend.length := by
              have := get_lt hk; rwa [List.length_set] at this
            rw [List.getElem?_set_self hlt] at hk
            cases hk; exact ⟨rfl, rfl⟩
          · rw [List.getElem?_set_ne c] at hk
            exact Or.inr ⟨fun x => c x.symm, hk⟩
        refine ⟨hbase.seen, ?_, hbase.sent, ?_, ?_, hi.once⟩
        · intro k p hk
          rcases hget k p hk with ⟨_, c⟩ | ⟨_, c⟩
          · rw [c]; exact hgood
          · exact hbase.pend k p c
        · intro k l p q hp hq hid
          rcases hget k p hp with ⟨c1, c2⟩ | ⟨c1, c2⟩ <;> rcases hget l q hq with ⟨d1, d2⟩ | ⟨d1, d2⟩
          · rw [c1, d1]
          · have := (hi.pend l q d2).id_lt
            rw [c2] at hid; rw [← hi.seen] at this
            have : s.seen = q.id := hid
            omega
          · have := (hi.pend k p c2).id_lt
            rw [d2] at hid; rw [← hi.seen] at this
            have : p.id = s.seen := hid
            omega
          · exact hi.distinct k l p q c2 d2 hid
        · intro k p hk e he
          rcases hget k p hk with ⟨_, c⟩ | ⟨_, c⟩
          · rw [c]
            have := (hi.sent e he).id_lt
            rw [← hi.seen] at this
            show e.2.2 ≠ s.seen
            omega
          · exact hi.fresh k p c e he
    | drop => rw [List.append_nil]; exact hbase
    | oob => rw [List.append_nil]; exact hbase
    | ttlExceeded => rw [List.append_nil]; exact hbase
    | deliver => rw [List.append_nil]; exact hbase
  | learned i a =>
    rw [step, added, List.append_nil]
    simp only
    have hrest : ∀ (k : Nat) (p : Pend), (flushRest a i s.pend)[k]? = some (some p) → s.pend[k]? = some (some p) ∧ waits a i (some p) = false := by
      intro k p hk
      rw [flushRest, List.getElem?_map] at hk
      cases hx : s.pend[k]? with
      | none => rw [hx] at hk; cases hk
      | some e =>
        rw [hx] at hk
        simp only [Option.map_some, Option.some.injEq] at hk
        by_cases c : waits a i e = true
        · rw [if_pos c] at hk; cases hk
        · rw [if_neg c] at hk; subst hk; exact ⟨rfl, by simpa using c⟩
    have hout : ∀ e ∈ flushOut s.net a i s.pend, ∃ (k : Nat) (p : Pend), s.pend[k]? = some (some p) ∧ waits a i (some p) = true ∧ e = (p.ifIdx, relay p.ip, p.id) := by
      intro e he
      rw [flushOut, List.mem_flatMap] at he
      obtain ⟨x, hx, hx'⟩ := he
      obtain ⟨k, hk⟩ := List.getElem?_of_mem hx
      cases x with
      | none => cases hx'
      | some p =>
        simp only at hx'
        by_cases c : waits a i (some p) = true
        · rw [if_pos c, flushOne] at hx'
          by_cases c1 : p.ip.length + 14 > s.net.mtu.getD p.ifIdx 0
          · rw [if_pos c1] at hx'; cases hx'
          rw [if_neg c1] at hx'
          by_cases c2 : p.ip.getD 8 0 ≤ 1
          · rw [if_pos c2] at hx'; cases hx'
          rw [if_neg c2, List.mem_singleton] at hx'
          exact ⟨k, p, hk, c, hx'⟩
        · rw [if_neg c] at hx'; cases hx'
    refine ⟨hi.seen, fun k p hk => hi.pend k p (hrest k p hk).1, ?_, ?_, ?_, ?_⟩
    · intro e he
      rcases List.mem_append.mp he with he | he
      · exact hi.sent e he
      · obtain ⟨k, p, h1, h2, h3⟩ := hout e he
        obtain ⟨n, i', f, g1, g2, g3, g4, g5, g6⟩ := hi.pend k p h1
        rw [h3]
        exact ⟨n, i', f, g1, g3, g4, ⟨_, g5⟩, by simp only [g6]; exact dgram_relay n i' f g2 g3⟩
    · intro j k p q hp hq hid
      exact hi.distinct j k p q (hrest j p hp).1 (hrest k q hq).1 hid
    · intro k p hk e he
      rcases List.mem_append.mp he with he | he
      · exact hi.fresh k p (hrest k p hk).1 e he
      · obtain ⟨l, q, h1, h2, h3⟩ := hout e he
        intro c
        rw [h3] at c
        have := hi.distinct l k q p h1 (hrest k p hk).1 c
        subst this
        rw [(hrest l p hk).1] at h1; cases h1
        rw [(hrest l p hk).2] at h2; cases h2
    · rw [List.map_append, List.nodup_append]
      refine ⟨hi.once, ?_, ?_⟩
      · have hp : s.pend.Pairwise (fun x y => ∀ p q, x = some p → y = some q → p.id ≠ q.id) := by
          rw [List.pairwise_iff_getElem]
          intro j k hj hk hjk p q hp hq hid
          have := hi.distinct j k p q (by rw [List.getElem?_eq_getElem hj, hp]) (by rw [List.getElem?_eq_getElem hk, hq]) hid
          omega
        rw [List.Nodup, List.pairwise_map, flushOut, List.pairwise_flatMap]
        refine ⟨?_, hp.imp ?_⟩
        · intro x hx
          cases x with
          | none => exact List.Pairwise.nil
          | some p =>
            simp only
            rw [flushOne]
            (repeat' split) <;> simp
        · intro x y hxy e he e' he'
          cases x with
          | none => cases he
          | some p =>
            cases y with
            | none => cases he'
            | some q =>
              have one : ∀ (p : Pend) (e : Sent), e ∈ (if waits a i (some p) = true then flushOne s.net p else []) → e.2.2 = p.id := by
                intro p e he
                rw [flushOne] at he
                by_cases c0 : waits a i (some p) = true
                · rw [if_pos c0] at he
                  by_cases c1 : p.ip.length + 14 > s.net.mtu.getD p.ifIdx 0
                  · rw [if_pos c1] at he; cases he
                  rw [if_neg c1] at he
                  by_cases c2 : p.ip.getD 8 0 ≤ 1
                  · rw [if_pos c2] at he; cases he
                  rw [if_neg c2, List.mem_singleton] at he
                  rw [he]
                · rw [if_neg c0] at he; cases he
              rw [one p e he, one q e' he']
              exact hxy p q rfl rfl
      · intro x hx y hy
        obtain ⟨e, he, rfl⟩ := List.mem_map.mp hx
        obtain ⟨e', he', rfl⟩ := List.mem_map.mp hy
        obtain ⟨k, p, h1, h2, h3⟩ := hout e' he'
        rw [h3]; exact hi.fresh k p h1 e he
  | ifGone i =>
    rw [step, added, List.append_nil, List.append_nil]
    simp only
    have hrest : ∀ (k : Nat) (p : Pend), (s.pend.map (fun e => match e with | some p => if p.ifIdx = i then none else e | none => none))[k]? = some (some p) → s.pend[k]? = some (some p) := by
      intro k p hk
      rw [List.getElem?_map] at hk
      cases hx : s.pend[k]? with
      | none => rw [hx] at hk; cases hk
      | some e =>
        rw [hx] at hk
        simp only [Option.map_some, Option.some.injEq] at hk
        cases e with
        | none => cases hk
        | some q =>
          simp only at hk
          by_cases c : q.ifIdx = i
          · rw [if_pos c] at hk; cases hk
          · rw [if_neg c] at hk; rw [hk]
    exact ⟨hi.seen, fun k p hk => hi.pend k p (hrest k p hk), hi.sent, fun j k p q hp hq => hi.distinct j k p q (hrest j p hp) (hrest k q hq),
      fun k p hk => hi.fresh k p (hrest k p hk), hi.once⟩
  | reconf n =>
    rw [step, added, List.append_nil, List.append_nil]
    exact ⟨hi.seen, hi.pend, hi.sent, hi.distinct, hi.fresh, hi.once⟩

theorem inv_run (ops : List Op) : ∀ (s : St) (h : List (Net × Nat × List Nat)) (out : List Sent), Inv s h out → ByteOps ops →
    Inv (run s ops).1 (h ++ hist s.net ops) (out ++ (run s ops).2) := by
  induction ops with
  | nil => intro s h out hi _; rw [run, hist, List.append_nil, List.append_nil]; exact hi
  | cons op ops ih =>
    intro s h out hi hb
    rw [run]
    simp only
    rw [hist_cons s.net op ops s rfl, ← List.append_assoc, ← List.append_assoc]
    refine ih _ _ _ (inv_step s h out op hi ?_) (fun i f v a hm => hb i f v a (List.mem_cons_of_mem _ hm))
    intro i f v a hop
    exact hb i f v a (by rw [hop]; exact List.mem_cons_self)

theorem inv_init (n : Net) (slots : Nat) : Inv (init n slots) [] [] := by
  have : ∀ (k : Nat) (p : Pend), (init n slots).pend[k]? = some (some p) → False := by
    intro k p hk
    rw [init] at hk
    have := List.mem_of_getElem? hk
    rw [List.mem_replicate] at this
    cases this.2
  exact ⟨rfl, fun k p hk => (this k p hk).elim, fun e he => (List.not_mem_nil he).elim, fun j k p q hp => (this j p hp).elim,
    fun k p hk => (this k p hk).elim, List.Pairwise.nil⟩

/-- **C25.** Over every history of arriving frames, address resolutions, interface removals and reconfigurations,
whatever datagram the forwarder sends is one of the frames received, which under the configuration at its arrival
might be relayed; it leaves through another interface than it came from, along a right route, with its TTL lowered by
exactly one (and still positive), a correct header checksum and no other change. -/
theorem forward_safe (n : Net) (slots : Nat) (ops : List Op) (hb : ByteOps ops) :
    ∀ e ∈ (run (init n slots) ops).2, ∃ n' i f, (hist n ops)[e.2.2]? = some (n', i, f) ∧ MayRelay n' i f ∧ e.1 ≠ i ∧
      (∃ nh, RouteOk n' (dst f) e.1 nh) ∧ Relayed (dgram f) e.2.1 := by
  have := inv_run ops (init n slots) [] [] (inv_init n slots) hb
  rw [List.nil_append, List.nil_append] at this
  exact this.sent

/-- **C25, once.** No arrival is sent twice, whether at once or after waiting for address resolution. -/
theorem forward_once (n : Net) (slots : Nat) (ops : List Op) (hb : ByteOps ops) :
    ((run (init n slots) ops).2.map (fun e => e.2.2)).Nodup := by
  have := inv_run ops (init n slots) [] [] (inv_init n slots) hb
  rw [List.nil_append, List.nil_append] at this
  exact this.once

/-- A datagram from 10.0.0.2 to 192.168.1.9, TTL 5. -/
def frameFwd : List Nat :=
  [2, 0, 0, 0, 0, 1, 2, 0, 0, 0, 0, 2, 8, 0] ++ ipSet [0x45, 0, 0, 23, 0, 1, 0, 0, 5, 17, 0, 0, 10, 0, 0, 2, 192, 168, 1, 9] ++ [7, 8, 9, 0, 0, 0]

/-- Non-vacuity: one datagram relayed at once, one parked and relayed when the neighbour answers; the padding is not
relayed and the TTL is 4. -/
theorem forward_example :
    (run (init net2 4) [.frame 0 frameFwd false true, .frame 0 frameFwd false false, .learned 1 0xC0A80109#32]).2.map (fun e => (e.1, e.2.1.length, e.2.1.getD 8 0, e.2.2)) =
      [(1, 23, 4, 0), (1, 23, 4, 1)] := by
  decide +kernel

end Wolf.IpIn
