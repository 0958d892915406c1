import Verif.Dgram.Icmp
import Verif.Dgram.Example
/-!
# Creating, binding, connecting and closing ICMP, raw and packet sockets (C83)

What `socket`, `bind`, `connect`, `setsockopt` and `close` answer and which settings they leave. `Becomes t k sl t'` says
that of all sockets only `k` changed, to `sl`.
-/
namespace Wolf.Dgram
open Wolf.Route (Ip)
open Wolf.IpIn (Net)

variable {C α : Type}

/-! ## Specification -/

/-- In `t'` socket `k` is `sl` and every other socket is as in `t`. -/
def Becomes (t : Tab C α) (k : Nat) (sl : Slot C α) (t' : Tab C α) : Prop := t'[k]? = some sl ∧ ∀ j, j ≠ k → t'[j]? = t[j]?

/-- The address is one of the host's. -/
def Own (n : Net) (a : Ip) : Prop := a ≠ 0 ∧ ∃ c ∈ n.rt.confs, c.ip = a

/-- Another slot than `k` holds the echo id `id` on an address that overlaps `l` (one is the wildcard or both are equal). -/
def IdTaken (t : IcTab) (k : Nat) (l : Ip) (id : Nat) : Prop :=
  id ≠ 0 ∧ ∃ j sl, j ≠ k ∧ t[j]? = some sl ∧ sl.cfg.id = id ∧ (sl.cfg.lip = 0 ∨ l = 0 ∨ sl.cfg.lip = l)

/-- `p` is the interface that owns `a` (the first), the primary one if none does or `a` is the wildcard. -/
def LocalIf (n : Route.St) (a : Ip) (p : Nat) : Prop :=
  (∃ c, n.confs[p]? = some c ∧ c.ip = a ∧ a ≠ 0 ∧ ∀ j, j < p → ∀ d, n.confs[j]? = some d → d.ip ≠ a) ∨
  ((a = 0 ∨ ∀ c ∈ n.confs, c.ip ≠ a) ∧ p = Route.primaryIf n)

/-! ## Proofs -/

theorem becomes_setCfg (t : Tab C α) (k : Nat) (sl : Slot C α) (hk : t[k]? = some sl) (c : C) : Becomes t k { sl with cfg := c } (setCfg k c t) :=
  ⟨get_modify_eq t k _ sl hk, fun j hj => get_modify_ne t k j _ (fun e => hj e.symm)⟩

theorem becomes_set (t : Tab C α) (k : Nat) (sl : Slot C α) (hk : k < t.length) : Becomes t k sl (t.set k sl) :=
  ⟨by rw [List.getElem?_set_self hk], fun j hj => List.getElem?_set_ne (fun e => hj e.symm)⟩

theorem open_spec (new : C → C) (t : Tab C α) :
    ((openSlot new t).2.1 = none ∧ (openSlot new t).1 = t ∧ ∀ sl ∈ t, sl.used = true) ∨
    ∃ k sl, (openSlot new t).2.1 = some k ∧ t[k]? = some sl ∧ sl.used = false ∧ Becomes t k ⟨true, new sl.cfg, [], []⟩ (openSlot new t).1 := by
  unfold openSlot
  cases hf : t.findIdx? (fun s => !s.used) with
  | none =>
    refine Or.inl ⟨rfl, rfl, fun sl hs => ?_⟩
    have h := List.findIdx?_eq_none_iff.mp hf sl hs
    cases hu : sl.used with
    | true => rfl
    | false => rw [hu] at h; cases h
  | some k =>
    obtain ⟨hl, hp, -⟩ := List.findIdx?_eq_some_iff_getElem.mp hf
    have hk : t[k]? = some t[k] := List.getElem?_eq_getElem hl
    refine Or.inr ⟨k, t[k], ?_, hk, ?_, ?_⟩
    · dsimp only; rw [hk]
    · cases hu : t[k].used with
      | false => rfl
      | true => rw [hu] at hp; cases hp
    · dsimp only; rw [hk]; exact becomes_set t k _ hl

/-- `socket`: fails only when all sockets of the kind are in use; otherwise a socket that was not in use is opened with empty
buffers — a raw and a packet socket with exactly the protocol asked for (16 bits) and nothing else set, an ICMP socket with
interface 0 and whatever addresses the slot held (cleared by `close`) — and no other socket changes. -/
theorem tap_socket (ps : PkSt) (rs : RwSt) (is : IcSt) (proto : Nat) (hdr : Bool) :
    (((pkStep ps (.socket proto)).2.1 = .err ∧ (pkStep ps (.socket proto)).1.tab = ps.tab ∧ ∀ sl ∈ ps.tab, sl.used = true) ∨
      ∃ k sl, (pkStep ps (.socket proto)).2.1 = .fd k ∧ ps.tab[k]? = some sl ∧ sl.used = false ∧
        Becomes ps.tab k ⟨true, { proto := proto % 65536, bind := 0, ifIdx := 0 }, [], []⟩ (pkStep ps (.socket proto)).1.tab) ∧
    (((rwStep rs (.socket proto hdr)).2.1 = .err ∧ (rwStep rs (.socket proto hdr)).1.tab = rs.tab ∧ ∀ sl ∈ rs.tab, sl.used = true) ∨
      ∃ k sl, (rwStep rs (.socket proto hdr)).2.1 = .fd k ∧ rs.tab[k]? = some sl ∧ sl.used = false ∧
        Becomes rs.tab k ⟨true, { proto := proto % 65536, hdr := hdr, blip := 0, lip := 0, rip := 0, ifIdx := 0, dontroute := false }, [], []⟩
          (rwStep rs (.socket proto hdr)).1.tab) ∧
    (((icStep is .socket).2.1 = .err ∧ (icStep is .socket).1.tab = is.tab ∧ ∀ sl ∈ is.tab, sl.used = true) ∨
      ∃ k sl, (icStep is .socket).2.1 = .fd k ∧ is.tab[k]? = some sl ∧ sl.used = false ∧
        Becomes is.tab k ⟨true, { sl.cfg with ifIdx := 0 }, [], []⟩ (icStep is .socket).1.tab) := by
  refine ⟨?_, ?_, ?_⟩
  · rcases open_spec (fun _ => (⟨proto % 65536, 0, 0⟩ : Pk)) ps.tab with ⟨h1, h2, h3⟩ | ⟨k, sl, h1, h2, h3, h4⟩
    · refine Or.inl ⟨?_, h2, h3⟩
      simp only [pkStep, pkSocketOp, h1]
    · refine Or.inr ⟨k, sl, ?_, h2, h3, h4⟩
      simp only [pkStep, pkSocketOp, h1]
  · rcases open_spec (fun _ => ({ proto := proto % 65536, hdr := hdr } : Rw)) rs.tab with ⟨h1, h2, h3⟩ | ⟨k, sl, h1, h2, h3, h4⟩
    · refine Or.inl ⟨?_, h2, h3⟩
      simp only [rwStep, rwSocketOp, h1]
    · refine Or.inr ⟨k, sl, ?_, h2, h3, h4⟩
      simp only [rwStep, rwSocketOp, h1]
  · rcases open_spec (fun c : Ic => { c with ifIdx := 0 }) is.tab with ⟨h1, h2, h3⟩ | ⟨k, sl, h1, h2, h3, h4⟩
    · refine Or.inl ⟨?_, h2, h3⟩
      simp only [icStep, icSocketOp, h1]
    · refine Or.inr ⟨k, sl, ?_, h2, h3, h4⟩
      simp only [icStep, icSocketOp, h1]

/-- `close` of an open socket: it is free, its settings cleared and its buffers empty, and no other socket changes. -/
theorem tap_close (ps : PkSt) (rs : RwSt) (is : IcSt) (k : Nat) :
    (∀ sl, ps.tab[k]? = some sl → sl.used = true →
      (pkStep ps (.close k)).2.1 = .ok ∧ Becomes ps.tab k ⟨false, { proto := 0, bind := 0, ifIdx := 0 }, [], []⟩ (pkStep ps (.close k)).1.tab) ∧
    (∀ sl, rs.tab[k]? = some sl → sl.used = true →
      (rwStep rs (.close k)).2.1 = .ok ∧
      Becomes rs.tab k ⟨false, { proto := 0, hdr := false, blip := 0, lip := 0, rip := 0, ifIdx := 0, dontroute := false }, [], []⟩ (rwStep rs (.close k)).1.tab) ∧
    (∀ sl, is.tab[k]? = some sl →
      (icStep is (.close k)).2.1 = .ok ∧ Becomes is.tab k ⟨false, { lip := 0, id := 0, rip := 0, blip := 0, ifIdx := 0 }, [], []⟩ (icStep is (.close k)).1.tab) := by
  refine ⟨fun sl hk hu => ?_, fun sl hk hu => ?_, fun sl hk => ?_⟩
  · have hl := (List.getElem?_eq_some_iff.mp hk).1
    simp only [pkStep, pkCloseOp, hk, hu]
    exact ⟨rfl, becomes_set _ k _ hl⟩
  · have hl := (List.getElem?_eq_some_iff.mp hk).1
    simp only [rwStep, rwCloseOp, hk, hu]
    exact ⟨rfl, becomes_set _ k _ hl⟩
  · have hl := (List.getElem?_eq_some_iff.mp hk).1
    simp only [icStep, icCloseOp, hk]
    exact ⟨trivial, becomes_set _ k _ hl⟩

/-- `bind` on an open packet socket succeeds exactly for an existing interface; then the socket has that interface and that
protocol; a refused `bind` changes nothing. -/
theorem packet_bind (s : PkSt) (k : Nat) (sl : Slot Pk (Nat × List Nat)) (hk : s.tab[k]? = some sl) (hu : sl.used = true) (ifindex : Int) (proto : Nat) :
    (∀ i : Nat, ifindex = (i : Int) → i < s.devs.length →
      (pkStep s (.bind k ifindex proto)).2.1 = .ok ∧ Becomes s.tab k { sl with cfg := { proto := proto, bind := (i : Int), ifIdx := i } } (pkStep s (.bind k ifindex proto)).1.tab) ∧
    ((∀ i : Nat, ifindex = (i : Int) → ¬ i < s.devs.length) → (pkStep s (.bind k ifindex proto)).2.1 = .err ∧ (pkStep s (.bind k ifindex proto)).1 = s) := by
  obtain ⟨u, c, rx, tx⟩ := sl
  dsimp only at hu
  subst hu
  refine ⟨fun i hi hl => ?_, fun h => ?_⟩
  · have hc : ¬ (ifindex < 0 ∨ ifindex ≥ (s.devs.length : Int)) := by omega
    simp only [pkStep, pkBindOp, hk]
    rw [if_neg (by intro c; cases c), if_neg hc]
    refine ⟨rfl, ?_⟩
    have := becomes_setCfg s.tab k _ hk (⟨proto, ifindex, ifindex.toNat⟩ : Pk)
    subst hi
    exact this
  · have hc : ifindex < 0 ∨ ifindex ≥ (s.devs.length : Int) := by
      by_cases h0 : ifindex < 0
      · exact Or.inl h0
      · have := h ifindex.toNat (by omega)
        exact Or.inr (by omega)
    simp only [pkStep, pkBindOp, hk]
    rw [if_neg (by intro c; cases c), if_pos hc]
    exact ⟨rfl, rfl⟩

theorem ifForLocal_spec (n : Route.St) (a : Ip) : LocalIf n a (ifForLocal n a) := by
  unfold ifForLocal
  by_cases ha : a = 0
  · rw [if_pos ha]; exact Or.inr ⟨Or.inl ha, rfl⟩
  · rw [if_neg ha]
    cases hf : n.confs.findIdx? (fun c => c.ip == a) with
    | none =>
      refine Or.inr ⟨Or.inr (fun c hc e => ?_), rfl⟩
      have := List.findIdx?_eq_none_iff.mp hf c hc
      rw [e] at this
      simp at this
    | some p =>
      obtain ⟨hl, hp, hm⟩ := List.findIdx?_eq_some_iff_getElem.mp hf
      refine Or.inl ⟨n.confs[p], List.getElem?_eq_getElem hl, by simpa using hp, ha, fun j hj d hd => ?_⟩
      have hj : j < p := hj
      have h := hm j hj
      have hd' : n.confs[j]'(by omega) = d := by
        have := List.getElem?_eq_getElem (l := n.confs) (i := j) (by omega)
        rw [hd] at this
        exact (Option.some.inj this).symm
      rw [hd'] at h
      intro e
      rw [e] at h
      simp at h

/-- `bind` on an open raw socket succeeds exactly for the wildcard and the host's own addresses; then the socket receives
only what is sent to that address (`blip`), the address is its source address, and the interface is the one that owns it;
protocol, options and peer stay. A refused `bind` changes nothing. -/
theorem raw_bind (s : RwSt) (k : Nat) (sl : Slot Rw (List Nat)) (hk : s.tab[k]? = some sl) (hu : sl.used = true) (a : Ip) :
    ((a = 0 ∨ Own s.env.net a) → (rwStep s (.bind k a)).2.1 = .ok ∧
      ∃ i l, LocalIf s.env.net.rt a i ∧ (a ≠ 0 → l = a) ∧ (a = 0 → l = addrFor s.env.net.rt i sl.cfg.lip) ∧
        Becomes s.tab k { sl with cfg := { sl.cfg with ifIdx := i, blip := a, lip := l } } (rwStep s (.bind k a)).1.tab) ∧
    (¬ (a = 0 ∨ Own s.env.net a) → (rwStep s (.bind k a)).2.1 = .err ∧ (rwStep s (.bind k a)).1 = s) := by
  obtain ⟨u, c, rx, tx⟩ := sl
  dsimp only at hu
  subst hu
  have hiff := isLocal_iff s.env.net a
  refine ⟨fun h => ?_, fun h => ?_⟩
  · have hc : ¬ (a ≠ 0 ∧ IpIn.isLocal s.env.net a = false) := by
      rintro ⟨h0, hf⟩
      rcases h with h | h
      · exact h0 h
      · rw [hiff.mpr h] at hf; cases hf
    simp only [rwStep, rwBindOp, hk]
    rw [if_neg hc, if_neg (by intro c; cases c)]
    refine ⟨rfl, ifForLocal s.env.net.rt a, _, ifForLocal_spec _ _, ?_, ?_, becomes_setCfg s.tab k _ hk _⟩
    · intro h0; rw [if_pos h0]
    · intro h0; rw [if_neg (fun c => c h0)]
  · have hc : a ≠ 0 ∧ IpIn.isLocal s.env.net a = false := by
      refine ⟨fun e => h (Or.inl e), ?_⟩
      cases hb : IpIn.isLocal s.env.net a with
      | false => rfl
      | true => exact absurd (Or.inr (hiff.mp hb)) h
    simp only [rwStep, rwBindOp, hk]
    rw [if_pos hc]
    exact ⟨rfl, rfl⟩

/-- `setsockopt` on an open raw socket sets the option named; `connect` always succeeds and sets the peer, and of the other
settings changes only the interface and, without IP_HDRINCL, the source address: the bound one if there is one. -/
theorem raw_connect (s : RwSt) (k : Nat) (sl : Slot Rw (List Nat)) (hk : s.tab[k]? = some sl) (hu : sl.used = true) (a : Ip) (hdr dr : Bool) :
    ((rwStep s (.opt k hdr dr)).2.1 = .ok ∧ Becomes s.tab k { sl with cfg := { sl.cfg with hdr := hdr, dontroute := dr } } (rwStep s (.opt k hdr dr)).1.tab) ∧
    (rwStep s (.connect k a)).2.1 = .ok ∧
    ∃ i l, (sl.cfg.hdr = true → l = sl.cfg.lip) ∧ (sl.cfg.hdr = false → sl.cfg.blip ≠ 0 → l = sl.cfg.blip) ∧
      (sl.cfg.hdr = false → sl.cfg.blip = 0 → l = addrFor s.env.net.rt i sl.cfg.lip) ∧
      (sl.cfg.blip ≠ 0 → Own s.env.net sl.cfg.blip → LocalIf s.env.net.rt sl.cfg.blip i) ∧
      (sl.cfg.blip = 0 → sl.cfg.dontroute = false → i = routeFor s.env.net.rt a) ∧
      Becomes s.tab k { sl with cfg := { sl.cfg with rip := a, ifIdx := i, lip := l } } (rwStep s (.connect k a)).1.tab := by
  obtain ⟨u, c, rx, tx⟩ := sl
  dsimp only at hu
  subst hu
  refine ⟨?_, ?_, ?_⟩
  · simp only [rwStep, rwOptOp, hk]
    rw [if_neg (by intro c; cases c)]
    exact ⟨rfl, becomes_setCfg s.tab k _ hk _⟩
  · simp only [rwStep, rwConnectOp, hk]
    rw [if_neg (by intro c; cases c)]
  · refine ⟨rawRoute s.env.net c a c.dontroute,
      (if c.hdr then c.lip else if c.blip ≠ 0 then c.blip else addrFor s.env.net.rt (rawRoute s.env.net c a c.dontroute) c.lip),
      ?_, ?_, ?_, ?_, ?_, ?_⟩
    · intro h; rw [if_pos h]
    · intro h hb; rw [if_neg (by rw [h]; intro c; cases c), if_pos hb]
    · intro h hb; rw [if_neg (by rw [h]; intro c; cases c), if_neg (fun c => c hb)]
    · intro hb ho
      unfold rawRoute
      rw [if_pos ⟨hb, (isLocal_iff _ _).mpr ho⟩]
      exact ifForLocal_spec _ _
    · intro hb hd
      unfold rawRoute
      rw [if_neg (fun c => c.1 hb), if_neg (by rw [hd]; intro c; cases c)]
    · simp only [rwStep, rwConnectOp, hk]
      rw [if_neg (show ¬ (true = false) by intro c; cases c)]
      exact becomes_setCfg s.tab k _ hk _

theorem idInUse_iff (t : IcTab) (k : Nat) (l : Ip) (id : Nat) : idInUse t k l id = true ↔ IdTaken t k l id := by
  unfold idInUse IdTaken
  rw [Bool.and_eq_true, List.any_eq_true]
  refine and_congr (by simp) ⟨?_, ?_⟩
  · rintro ⟨⟨sl, j⟩, hm, hp⟩
    have hm' := List.mem_zipIdx_iff_getElem?.mp hm
    simp only [Bool.and_eq_true, Bool.or_eq_true, bne_iff_ne, beq_iff_eq] at hp
    obtain ⟨⟨h1, h2⟩, h3⟩ := hp
    refine ⟨j, sl, h1, hm', h2, ?_⟩
    rcases h3 with (h | h) | h
    · exact Or.inl h
    · exact Or.inr (Or.inl h)
    · exact Or.inr (Or.inr h)
  · rintro ⟨j, sl, h1, h2, h3, h4⟩
    refine ⟨(sl, j), List.mem_zipIdx_iff_getElem?.mpr h2, ?_⟩
    simp only [Bool.and_eq_true, Bool.or_eq_true, bne_iff_ne, beq_iff_eq]
    refine ⟨⟨h1, h3⟩, ?_⟩
    rcases h4 with h | h | h
    · exact Or.inl (Or.inl h)
    · exact Or.inl (Or.inr h)
    · exact Or.inr h

/-- `bind` on an ICMP socket succeeds exactly when the address is the wildcard or one of the host's, the socket has no id yet,
no other socket holds the id on an overlapping address, and the filter does not object; then the socket has that id, is bound to
that address and takes only what is sent to its local address. A refused `bind` changes at most the interface. -/
theorem icmp_bind (s : IcSt) (k : Nat) (sl : Slot Ic (List Nat)) (hk : s.tab[k]? = some sl) (a : Ip) (id : Nat) (veto : Bool) :
    ∃ i l, LocalIf s.env.net.rt a i ∧ (a ≠ 0 → l = a) ∧ (a = 0 → l = addrFor s.env.net.rt i sl.cfg.lip) ∧
      (((a = 0 ∨ Own s.env.net a) ∧ sl.cfg.id = 0 ∧ ¬ IdTaken s.tab k l id ∧ veto = false →
          (icStep s (.bind k a id veto)).2.1 = .ok ∧
          Becomes s.tab k { sl with cfg := { sl.cfg with ifIdx := i, lip := l, id := id, blip := a } } (icStep s (.bind k a id veto)).1.tab) ∧
       (¬ ((a = 0 ∨ Own s.env.net a) ∧ sl.cfg.id = 0 ∧ ¬ IdTaken s.tab k l id ∧ veto = false) →
          (icStep s (.bind k a id veto)).2.1 = .err ∧
          ((icStep s (.bind k a id veto)).1 = s ∨ Becomes s.tab k { sl with cfg := { sl.cfg with ifIdx := i } } (icStep s (.bind k a id veto)).1.tab))) := by
  have hiff := isLocal_iff s.env.net a
  have hid := idInUse_iff s.tab k (if a ≠ 0 then a else addrFor s.env.net.rt (ifForLocal s.env.net.rt a) sl.cfg.lip) id
  refine ⟨ifForLocal s.env.net.rt a, (if a ≠ 0 then a else addrFor s.env.net.rt (ifForLocal s.env.net.rt a) sl.cfg.lip), ifForLocal_spec _ _,
    fun h0 => by rw [if_pos h0], fun h0 => by rw [if_neg (fun c => c h0)], ?_, ?_⟩
  · rintro ⟨h1, h2, h3, h4⟩
    have hc : ¬ (a ≠ 0 ∧ IpIn.isLocal s.env.net a = false) := by
      rintro ⟨h0, hf⟩
      rcases h1 with h | h
      · exact h0 h
      · rw [hiff.mpr h] at hf; cases hf
    simp only [icStep, icBindOp, hk]
    rw [if_neg hc, if_neg (fun c => c h2), if_neg (fun c => h3 (hid.mp c)), if_neg (by rw [h4]; intro c; cases c)]
    exact ⟨rfl, becomes_setCfg s.tab k sl hk _⟩
  · intro hn
    simp only [icStep, icBindOp, hk]
    by_cases hc : a ≠ 0 ∧ IpIn.isLocal s.env.net a = false
    · rw [if_pos hc]; exact ⟨rfl, Or.inl rfl⟩
    · rw [if_neg hc]
      by_cases h2 : sl.cfg.id ≠ 0
      · rw [if_pos h2]; exact ⟨rfl, Or.inl rfl⟩
      · rw [if_neg h2]
        by_cases h3 : idInUse s.tab k (if a ≠ 0 then a else addrFor s.env.net.rt (ifForLocal s.env.net.rt a) sl.cfg.lip) id = true
        · rw [if_pos h3]; exact ⟨rfl, Or.inr (becomes_setCfg s.tab k sl hk _)⟩
        · rw [if_neg h3]
          by_cases h4 : veto = true
          · rw [if_pos h4]; exact ⟨rfl, Or.inr (becomes_setCfg s.tab k sl hk _)⟩
          · refine absurd ⟨?_, Decidable.not_not.mp h2, fun c => h3 (hid.mpr c), Bool.not_eq_true _ ▸ h4⟩ hn
            by_cases h0 : a = 0
            · exact Or.inl h0
            · refine Or.inr (hiff.mp ?_)
              cases hb : IpIn.isLocal s.env.net a with
              | true => rfl
              | false => exact absurd ⟨h0, hb⟩ hc

/-- `connect` on an ICMP socket: the peer becomes `a`; it fails exactly when the address the socket is bound to is no longer the
host's; otherwise the local address is the bound one, or else the one it had, or else the address of the interface towards `a`. -/
theorem icmp_connect (s : IcSt) (k : Nat) (sl : Slot Ic (List Nat)) (hk : s.tab[k]? = some sl) (a : Ip) :
    (sl.cfg.blip ≠ 0 → ¬ Own s.env.net sl.cfg.blip →
      (icStep s (.connect k a)).2.1 = .err ∧ Becomes s.tab k { sl with cfg := { sl.cfg with rip := a } } (icStep s (.connect k a)).1.tab) ∧
    ((sl.cfg.blip = 0 ∨ Own s.env.net sl.cfg.blip) → (icStep s (.connect k a)).2.1 = .ok ∧
      ∃ i l, (sl.cfg.blip ≠ 0 → l = sl.cfg.blip ∧ LocalIf s.env.net.rt sl.cfg.blip i) ∧
        (sl.cfg.blip = 0 → i = routeFor s.env.net.rt a ∧ (sl.cfg.lip ≠ 0 → l = sl.cfg.lip) ∧ (sl.cfg.lip = 0 → l = addrFor s.env.net.rt i 0)) ∧
        Becomes s.tab k { sl with cfg := { sl.cfg with rip := a, ifIdx := i, lip := l } } (icStep s (.connect k a)).1.tab) := by
  have hiff := isLocal_iff s.env.net sl.cfg.blip
  refine ⟨fun h0 hn => ?_, fun h => ?_⟩
  · have hl : IpIn.isLocal s.env.net sl.cfg.blip = false := by
      cases hb : IpIn.isLocal s.env.net sl.cfg.blip with
      | false => rfl
      | true => exact absurd (hiff.mp hb) hn
    have hr : icRoute s.env.net { sl.cfg with rip := a } = none := by
      unfold icRoute
      dsimp only
      rw [if_pos h0, if_pos hl]
    simp only [icStep, icConnectOp, hk, hr]
    exact ⟨trivial, becomes_setCfg s.tab k sl hk _⟩
  · by_cases h0 : sl.cfg.blip = 0
    · have hr : icRoute s.env.net { sl.cfg with rip := a } =
          some { sl.cfg with rip := a, ifIdx := routeFor s.env.net.rt a, lip := if sl.cfg.lip = 0 then addrFor s.env.net.rt (routeFor s.env.net.rt a) 0 else sl.cfg.lip } := by
        unfold icRoute
        dsimp only
        rw [if_neg (fun c => c h0)]
      simp only [icStep, icConnectOp, hk, hr]
      refine ⟨trivial, routeFor s.env.net.rt a, _, fun c => absurd h0 c, fun _ => ⟨rfl, ?_, ?_⟩, becomes_setCfg s.tab k sl hk _⟩
      · intro hl; rw [if_neg hl]
      · intro hl; rw [if_pos hl]
    · have ho : Own s.env.net sl.cfg.blip := h.resolve_left h0
      have hr : icRoute s.env.net { sl.cfg with rip := a } =
          some { sl.cfg with rip := a, ifIdx := ifForLocal s.env.net.rt sl.cfg.blip, lip := sl.cfg.blip } := by
        unfold icRoute
        dsimp only
        rw [if_pos h0, if_neg (by rw [hiff.mpr ho]; intro c; cases c)]
      simp only [icStep, icConnectOp, hk, hr]
      exact ⟨trivial, ifForLocal s.env.net.rt sl.cfg.blip, sl.cfg.blip, fun _ => ⟨rfl, ifForLocal_spec _ _⟩, fun c => absurd c h0,
        becomes_setCfg s.tab k sl hk _⟩

/-! ## Concrete cases -/

/-- The results of a history of calls on ICMP sockets. -/
def icResults (s : IcSt) : List IcOp → List Res
  | [] => []
  | op :: ops => (icStep s op).2.1 :: icResults (icStep s op).1 ops

def rwResults (s : RwSt) : List RwOp → List Res
  | [] => []
  | op :: ops => (rwStep s op).2.1 :: rwResults (rwStep s op).1 ops

def pkResults (s : PkSt) : List PkOp → List Res
  | [] => []
  | op :: ops => (pkStep s op).2.1 :: pkResults (pkStep s op).1 ops

/-- Two sockets are opened, a third refused; the second may not take the first's id on the same address, nor bind a foreign
address, but may take the id on the host's other address; it may not be bound twice; after the first is closed its id is free. -/
theorem icmp_setup_example :
    icResults (icInit exEnv 2) [.socket, .socket, .socket, .bind 0 0x0A000001#32 7 false, .bind 1 0x0A000001#32 7 false, .bind 1 0x0A000009#32 8 false,
      .bind 1 0x0A000101#32 7 false, .bind 1 0x0A000101#32 9 false, .connect 1 0x0A000002#32, .close 0, .socket, .bind 0 0x0A000001#32 7 false] =
      [.fd 0, .fd 1, .err, .ok, .err, .err, .ok, .err, .ok, .ok, .fd 0, .ok] := by decide +kernel

theorem raw_setup_example :
    rwResults (rwInit exEnv 1) [.socket 1 false, .bind 0 0x0A000009#32, .bind 0 0x0A000101#32, .opt 0 true false, .connect 0 0x0A000002#32, .close 0, .bind 0 0] =
      [.fd 0, .err, .ok, .ok, .ok, .ok, .err] := by decide +kernel

theorem packet_setup_example :
    pkResults (pkInit exDevs 1) [.socket 0, .bind 0 3 0, .bind 0 (-1) 0, .bind 0 2 0x0800, .close 0, .bind 0 0 0] = [.fd 0, .err, .err, .ok, .ok, .err] := by decide +kernel

/-- **Limit.** `send` without a bound id picks a random one without looking at the other sockets: two sockets can end up with
the same id on the same address, which `bind` would have refused, and both take each other's replies. -/
theorem icmp_random_id_limit :
    (icRun (icInit exEnv 2) [.socket, .bind 0 0x0A000001#32 0x1234 false, .socket, .send 1 (some 0x0A000002#32) [8, 0, 0, 0, 0, 0, 0, 0] 0x1234 0 1 false, .frame 0 exReply {}]).2 =
      [.reset 0, .reset 1, .queued 0 exReply, .queued 1 exReply] := by decide +kernel

end Wolf.Dgram
