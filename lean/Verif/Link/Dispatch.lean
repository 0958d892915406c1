import Verif.Link.Model

/-!
# C139: what a received frame is handed to

Model of `wolfIP_recv_on` (src/wolfip.c 10446–10561) after the VLAN demultiplexing of Link/Model, with its
packet filters, and of `wolfIP_recv` / `wolfIP_recv_ex` (10568–10603), built with ETHERNET, WOLFIP_VLAN,
IP_MULTICAST. Packet sockets (taps) are C81 (Dgram). What `ip_recv`, `arp_recv` and the 802.1X handler do
with the frame is not modelled here; they are the three outcomes.
-/
namespace Wolf.Link

/-- What the dispatch reads besides the frame: the device table, `ll->wifi_ops != NULL`,
`s->eapol_handler != NULL`, the membership table and the verdict of the Ethernet packet filter (true: let it pass). -/
structure Env where
  devs : List Dev
  wifi : Nat → Bool := fun _ => false
  eapolReg : Bool := false
  joined : Nat → Nat → Bool := fun _ _ => false
  filt : Nat → List Nat → Bool := fun _ _ => true

/-- A call made for a received frame: `ip_recv`, `arp_recv`, the 802.1X handler; interface and octets. -/
inductive Call where
  | ip (i : Nat) (f : List Nat)
  | arp (i : Nat) (f : List Nat)
  | eapol (i : Nat) (p : List Nat)
deriving DecidableEq, Repr

/-- `eth->type`, in host order. wolfip.c struct wolfIP_eth_frame. -/
def ethType (f : List Nat) : Nat := f.getD 12 0 * 256 + f.getD 13 0

/-- `ip->dst` of a frame, in host order: octets 30 to 33. src/wolfip.c 10542. -/
def ipDstOf (f : List Nat) : Nat :=
  ((f.getD 30 0 * 256 + f.getD 31 0) * 256 + f.getD 32 0) * 256 + f.getD 33 0

/-- `eth_is_ipv4_multicast_mac`. src/wolfip.c 1916–1920. -/
def isMcMac (f : List Nat) : Bool :=
  decide (f.getD 0 0 = 0x01) && decide (f.getD 1 0 = 0x00) && decide (f.getD 2 0 = 0x5e) && decide (f.getD 3 0 / 128 % 2 = 0)

/-- `wolfIP_ip_is_multicast`. src/wolfip.c 1863–1866. -/
def isMcIp (a : Nat) : Bool := decide (a / 0x10000000 % 16 = 0xE)

/-- The test of the destination address of an IPv4 frame. src/wolfip.c 10532–10552. -/
def macPass (e : Env) (j : Nat) (mac f : List Nat) : Bool :=
  if f.take 6 ≠ mac ∧ f.take 6 ≠ List.replicate 6 0xff then
    if f.length < ethHdr + 20 then false
    else if !isMcMac f || !isMcIp (ipDstOf f) ||
        (!e.joined j (ipDstOf f) && decide (ipDstOf f ≠ 0xE0000016) && decide (ipDstOf f ≠ 0xE0000001)) then false
    else true
  else true

/-- The EtherType branches. src/wolfip.c 10516–10556. -/
def classify (e : Env) (j : Nat) (d : Dev) (f : List Nat) : List Call :=
  if ethType f = 0x888E then
    if e.eapolReg && e.wifi j && decide (f.length > ethHdr) then [.eapol j (f.drop ethHdr)] else []
  else if ethType f = 0x0800 then
    if macPass e j d.mac f then [.ip j f] else []
  else if ethType f = 0x0806 then [.arp j f]
  else []

/-- `wolfIP_recv_on`: the calls made for the frame `w` received on interface `i`. src/wolfip.c 10446–10561. -/
def recvOn (e : Env) (i : Nat) (w : List Nat) : List Call :=
  match e.devs[i]? with
  | none => []
  | some d =>
    if d.nonEth then [.ip i w]
    else if w.length < ethHdr then []
    else if e.filt i w = false then []
    else
      match demux e.devs i w with
      | none => []
      | some (j, f) =>
        match e.devs[j]? with
        | none => []
        | some dj =>
          if ethType w = 0x8100 then
            if e.filt j f = false then [] else classify e j dj f
          else classify e j dj f

/-- `wolfIP_recv_ex` (and `wolfIP_recv`, with `i` the primary interface): a frame of a device without Ethernet
is copied behind 14 zero octets into a buffer of LINK_MTU octets. The second component is the number of octets
of that buffer written (0: not used). src/wolfip.c 10568–10603. -/
def recvEx (e : Env) (i : Nat) (w : List Nat) : List Call × Nat :=
  match e.devs[i]? with
  | some d =>
    if d.nonEth then
      if w.length > ipMtu e.devs i then ([], 0)
      else (recvOn e i (List.replicate ethHdr 0 ++ w), ethHdr + w.length)
    else (recvOn e i w, 0)
  | none => (recvOn e i w, 0)

/-! ## Specification -/

/-- What the interface `i` received as `w` is to the stack: `w` itself on `i`, or, if `w` carries an 802.1Q tag,
`w` without the tag on the first sub-interface of `i` with the tag's VLAN number. -/
inductive View (devs : List Dev) (i : Nat) (w : List Nat) : Nat → List Nat → Prop where
  | plain (h : ethType w ≠ 0x8100) : View devs i w i w
  | tagged (j : Nat) (c : Dev) (v : Vlan) (a b : List Nat) (t0 t1 : Nat)
      (hw : w = a ++ 0x81 :: 0x00 :: t0 :: t1 :: b) (ha : a.length = 12) (hb : 2 ≤ b.length)
      (hc : devs[j]? = some c) (hv : c.vlan = some v) (hp : v.parent = i) (hd : v.vid = (t0 * 256 + t1) % 4096)
      (first : ∀ (k : Nat) (c' : Dev) (v' : Vlan), k < j → devs[k]? = some c' → c'.vlan = some v' → ¬ (v'.parent = i ∧ v'.vid = (t0 * 256 + t1) % 4096)) :
      View devs i w j (a ++ b)

/-- The frame is addressed to the interface `j` with address `mac`: to the address itself, to all stations, or to
a multicast group the interface is in (224.0.0.1 and 224.0.0.22 always) with a multicast Ethernet address. -/
def ForMe (e : Env) (j : Nat) (mac f : List Nat) : Prop :=
  f.take 6 = mac ∨ f.take 6 = List.replicate 6 255 ∨
  (34 ≤ f.length ∧ f.take 3 = [1, 0, 0x5e] ∧ f.getD 3 0 < 128 ∧
    224 ≤ f.getD 30 0 ∧ f.getD 30 0 ≤ 239 ∧
    (e.joined j (ipDstOf f) = true ∨ ipDstOf f = 224 * 2 ^ 24 + 1 ∨ ipDstOf f = 224 * 2 ^ 24 + 22))

/-- Every element is an octet. -/
def Octets (w : List Nat) : Prop := ∀ x ∈ w, x < 256


/-! ## Proofs -/

theorem octets_getD {w : List Nat} (h : Octets w) (k : Nat) : w.getD k 0 < 256 := by
  rw [List.getD_eq_getElem?_getD]
  cases hk : w[k]? with
  | none => simp
  | some x => simpa using h x (List.mem_of_getElem? hk)

theorem octets_strip {w : List Nat} (h : Octets w) : Octets (w.take 12 ++ w.drop 16) := by
  intro x hx
  rcases List.mem_append.mp hx with h1 | h1
  · exact h x (List.mem_of_mem_take h1)
  · exact h x (List.mem_of_mem_drop h1)

theorem type_tag {w : List Nat} (h : Octets w) : ethType w = 0x8100 ↔ w.getD 12 0 = 0x81 ∧ w.getD 13 0 = 0x00 := by
  have h1 := octets_getD h 12
  have h2 := octets_getD h 13
  unfold ethType; omega

theorem isSub_iff {i vid : Nat} {c : Dev} : isSub i vid c = true ↔ ∃ v, c.vlan = some v ∧ v.parent = i ∧ v.vid = vid := by
  unfold isSub
  cases c.vlan <;> simp

theorem split4 (w : List Nat) (h : 18 ≤ w.length) :
    w = w.take 12 ++ w.getD 12 0 :: w.getD 13 0 :: w.getD 14 0 :: w.getD 15 0 :: w.drop 16 := by
  have e : w.drop 12 = w.getD 12 0 :: w.getD 13 0 :: w.getD 14 0 :: w.getD 15 0 :: w.drop 16 := by
    rw [List.drop_eq_getElem_cons (by omega), List.drop_eq_getElem_cons (by omega),
      List.drop_eq_getElem_cons (by omega), List.drop_eq_getElem_cons (by omega)]
    simp only [List.getD_eq_getElem?_getD]
    rw [List.getElem?_eq_getElem (by omega), List.getElem?_eq_getElem (by omega),
      List.getElem?_eq_getElem (by omega), List.getElem?_eq_getElem (by omega)]
    rfl
  calc w = w.take 12 ++ w.drop 12 := (List.take_append_drop 12 w).symm
    _ = _ := by rw [e]

theorem view_iff {devs : List Dev} {i : Nat} {d : Dev} {w : List Nat} (hd : devs[i]? = some d) (hn : d.nonEth = false)
    (ho : Octets w) (hl : 14 ≤ w.length) (j : Nat) (f : List Nat) :
    demux devs i w = some (j, f) ↔ View devs i w j f := by
  rw [demux.eq_def, hd]
  simp only [hn]
  rw [if_neg (by simp), if_neg (by omega)]
  constructor
  · intro h
    by_cases ht : w.getD 12 0 = 0x81 ∧ w.getD 13 0 = 0x00
    · rw [if_pos ht] at h
      by_cases h18 : w.length < 14 + 4
      · rw [if_pos h18] at h; exact absurd h (by simp)
      · rw [if_neg h18] at h
        split at h
        · exact absurd h (by simp)
        · rename_i j' hf
          obtain ⟨rfl, rfl⟩ : j' = j ∧ w.take 12 ++ w.drop 16 = f := by simpa using h
          obtain ⟨hlt, h1, h2⟩ := List.findIdx?_eq_some_iff_getElem.mp hf
          obtain ⟨v, hv, hp, hvid⟩ := isSub_iff.mp h1
          refine View.tagged j' devs[j'] v (w.take 12) (w.drop 16) (w.getD 14 0) (w.getD 15 0) ?_ ?_ ?_
            (List.getElem?_eq_getElem hlt) hv hp hvid ?_
          · have := split4 w (by omega)
            rw [ht.1, ht.2] at this; exact this
          · simp; omega
          · simp; omega
          · intro k c' v' hk hc hv' hh
            have hkl : k < devs.length := by omega
            rw [List.getElem?_eq_getElem hkl] at hc
            have hc' := Option.some.inj hc
            have := h2 k hk
            apply this
            rw [hc']
            exact isSub_iff.mpr ⟨v', hv', hh.1, hh.2⟩
    · rw [if_neg ht] at h
      obtain ⟨rfl, rfl⟩ : i = j ∧ w = f := by simpa using h
      exact View.plain (fun c => ht ((type_tag ho).mp c))
  · intro h
    cases h with
    | plain h => rw [if_neg (fun c => h ((type_tag ho).mpr c))]
    | tagged j c v a b t0 t1 hw ha hb hc hv hp hvid first =>
      have g : ∀ k, w.getD (12 + k) 0 = ((0x81 :: 0x00 :: t0 :: t1 :: b : List Nat)).getD k 0 := by
        intro k
        rw [hw, List.getD_eq_getElem?_getD, List.getD_eq_getElem?_getD,
          List.getElem?_append_right (by omega), ha]
        congr 2; omega
      have g0 : w.getD 12 0 = 0x81 := g 0
      have g1 : w.getD 13 0 = 0x00 := g 1
      have g2 : w.getD 14 0 = t0 := g 2
      have g3 : w.getD 15 0 = t1 := g 3
      have hlen : w.length = 16 + b.length := by rw [hw]; simp [ha]; omega
      rw [if_pos ⟨g0, g1⟩, if_neg (by omega), g2, g3]
      have ht : w.take 12 = a := by rw [hw, ← ha]; simp
      have hdr : w.drop 16 = b := by
        rw [hw, List.drop_append, ha]; simp [List.drop_eq_nil_of_le (show a.length ≤ 16 by omega)]
      obtain ⟨hlt, hcj⟩ := List.getElem?_eq_some_iff.mp hc
      have hf : devs.findIdx? (isSub i ((t0 * 256 + t1) % 4096)) = some j := by
        refine List.findIdx?_eq_some_iff_getElem.mpr ⟨hlt, ?_, ?_⟩
        · rw [hcj]; exact isSub_iff.mpr ⟨v, hv, hp, hvid⟩
        · intro k hk hs
          obtain ⟨v', hv', hh⟩ := isSub_iff.mp hs
          exact first k _ v' hk (List.getElem?_eq_getElem (by omega)) hv' hh
      rw [hf, ht, hdr]

/-- What an Ethernet interface does with a frame, whatever the branch: `c` is called iff the frame has a header,
the filters pass it, and `classify` of its view calls `c`. -/
theorem mem_recvOn {e : Env} {i : Nat} {d : Dev} {w : List Nat} (hd : e.devs[i]? = some d) (hn : d.nonEth = false)
    (ho : Octets w) (c : Call) :
    c ∈ recvOn e i w ↔ 14 ≤ w.length ∧ e.filt i w = true ∧
      ∃ j f dj, View e.devs i w j f ∧ e.devs[j]? = some dj ∧ e.filt j f = true ∧ c ∈ classify e j dj f := by
  unfold recvOn
  rw [hd]
  simp only [hn]
  rw [if_neg (by simp)]
  by_cases hl : w.length < 14
  · rw [if_pos hl]
    constructor
    · intro h; simp at h
    · intro h; omega
  rw [if_neg hl]
  by_cases hf : e.filt i w = false
  · rw [if_pos hf]; simp [hf]
  rw [if_neg hf]
  have hf' : e.filt i w = true := by simpa using hf
  have hl' : 14 ≤ w.length := by omega
  cases hx : demux e.devs i w with
  | none =>
    constructor
    · intro h; simp at h
    · rintro ⟨_, _, j, f, dj, hv, _⟩
      rw [(view_iff hd hn ho hl' j f).mpr hv] at hx
      simp at hx
  | some jf =>
    obtain ⟨j, f⟩ := jf
    have hv := (view_iff hd hn ho hl' j f).mp hx
    have uniq : ∀ j' f', View e.devs i w j' f' → j' = j ∧ f' = f := by
      intro j' f' h
      have := (view_iff hd hn ho hl' j' f').mpr h
      rw [hx] at this
      simp at this
      exact ⟨this.1.symm, this.2.symm⟩
    dsimp only
    cases hj : e.devs[j]? with
    | none =>
      constructor
      · intro h; simp at h
      · rintro ⟨_, _, j', f', dj, hv', hdj, _⟩
        rw [(uniq j' f' hv').1, hj] at hdj
        simp at hdj
    | some dj =>
      dsimp only
      have key : (c ∈ (if ethType w = 0x8100 then (if e.filt j f = false then [] else classify e j dj f) else classify e j dj f))
          ↔ (e.filt j f = true ∧ c ∈ classify e j dj f) := by
        by_cases ht : ethType w = 0x8100
        · rw [if_pos ht]
          cases e.filt j f <;> simp
        · rw [if_neg ht]
          cases hv with
          | plain _ => simp [hf']
          | tagged j c v a b t0 t1 hw ha hb hc hv hp hvid first =>
            exfalso; apply ht
            refine (type_tag ho).mpr ⟨?_, ?_⟩
            · rw [hw, List.getD_eq_getElem?_getD, List.getElem?_append_right (by omega), ha]; rfl
            · rw [hw, List.getD_eq_getElem?_getD, List.getElem?_append_right (by omega), ha]; rfl
      rw [key]
      constructor
      · rintro ⟨h1, h2⟩; exact ⟨hl', hf', j, f, dj, hv, hj, h1, h2⟩
      · rintro ⟨_, _, j', f', dj', hv', hdj, h1, h2⟩
        obtain ⟨rfl, rfl⟩ := uniq j' f' hv'
        rw [hj] at hdj
        obtain rfl := Option.some.inj hdj
        exact ⟨h1, h2⟩

theorem view_octets {devs : List Dev} {i j : Nat} {w f : List Nat} (h : View devs i w j f) (ho : Octets w) : Octets f := by
  cases h with
  | plain _ => exact ho
  | tagged j c v a b t0 t1 hw ha hb hc hv hp hvid first =>
    intro x hx
    apply ho; rw [hw]
    rcases List.mem_append.mp hx with h1 | h1
    · exact List.mem_append_left _ h1
    · apply List.mem_append_right; simp [h1]

theorem view_length {devs : List Dev} {i j : Nat} {w f : List Nat} (h : View devs i w j f) (hl : 14 ≤ w.length) : 14 ≤ f.length := by
  cases h with
  | plain _ => exact hl
  | tagged j c v a b t0 t1 hw ha hb hc hv hp hvid first => simp; omega

theorem take3 {f : List Nat} (h : 14 ≤ f.length) : f.take 3 = [1, 0, 0x5e] ↔ f.getD 0 0 = 1 ∧ f.getD 1 0 = 0 ∧ f.getD 2 0 = 0x5e := by
  match f, h with
  | a :: b :: c :: r, _ => simp

/-- The address test of the code is the specification's. -/
theorem macPass_iff {e : Env} {j : Nat} {mac f : List Nat} (ho : Octets f) (hl : 14 ≤ f.length) :
    macPass e j mac f = true ↔ ForMe e j mac f := by
  have o30 := octets_getD ho 30
  have o31 := octets_getD ho 31
  have o32 := octets_getD ho 32
  have o33 := octets_getD ho 33
  have o3 := octets_getD ho 3
  have hip : isMcIp (ipDstOf f) = true ↔ 224 ≤ f.getD 30 0 ∧ f.getD 30 0 ≤ 239 := by
    unfold isMcIp ipDstOf
    rw [decide_eq_true_iff]
    omega
  have hm : isMcMac f = true ↔ f.take 3 = [1, 0, 0x5e] ∧ f.getD 3 0 < 128 := by
    rw [take3 hl]
    unfold isMcMac
    simp only [Bool.and_eq_true, decide_eq_true_iff]
    constructor
    · rintro ⟨⟨⟨h0, h1⟩, h2⟩, h3⟩; exact ⟨⟨h0, h1, h2⟩, by omega⟩
    · rintro ⟨⟨h0, h1, h2⟩, h3⟩; exact ⟨⟨⟨h0, h1⟩, h2⟩, by omega⟩
  unfold macPass ForMe
  by_cases hc : f.take 6 ≠ mac ∧ f.take 6 ≠ List.replicate 6 0xff
  · rw [if_pos hc]
    by_cases h34 : f.length < 14 + 20
    · rw [if_pos h34]
      constructor
      · intro h; simp at h
      · rintro (h | h | h)
        · exact absurd h hc.1
        · exact absurd h hc.2
        · omega
    · rw [if_neg h34]
      have h34' : 34 ≤ f.length := by omega
      generalize ipDstOf f = a at *
      constructor
      · intro h
        right; right
        split at h
        · simp at h
        · rename_i hb
          simp only [Bool.or_eq_true, Bool.and_eq_true, Bool.not_eq_true', decide_eq_true_iff, not_or, not_and,
            Bool.not_eq_false] at hb
          obtain ⟨⟨h1, h2⟩, h3⟩ := hb
          obtain ⟨m1, m2⟩ := hm.mp h1
          obtain ⟨i1, i2⟩ := hip.mp h2
          refine ⟨h34', m1, m2, i1, i2, ?_⟩
          cases hjn : e.joined j a with
          | true => left; rfl
          | false =>
            right
            by_cases h22 : a = 0xE0000016
            · right; omega
            · left
              have := h3 ⟨hjn, h22⟩
              omega
      · rintro (h | h | ⟨_, m1, m2, i1, i2, h⟩)
        · exact absurd h hc.1
        · exact absurd h hc.2
        · rw [hm.mpr ⟨m1, m2⟩, hip.mpr ⟨i1, i2⟩]
          rcases h with h | h | h
          · simp [h]
          · have : a = 0xE0000001 := by omega
            simp [this]
          · have : a = 0xE0000016 := by omega
            simp [this]
  · rw [if_neg hc]
    constructor
    · intro _
      by_cases h1 : f.take 6 = mac
      · left; exact h1
      · right; left
        by_cases h2 : f.take 6 = List.replicate 6 255
        · exact h2
        · exact absurd ⟨h1, h2⟩ hc
    · intro _; rfl

/-! ## Theorems -/

/-- C139. An IPv4 frame, and only an IPv4 frame addressed to the interface it is seen on, is handed to IP, whole and without its VLAN tag. -/
theorem ip_exact {e : Env} {i : Nat} {d : Dev} {w : List Nat} (hd : e.devs[i]? = some d) (hn : d.nonEth = false)
    (ho : Octets w) (j : Nat) (f : List Nat) :
    .ip j f ∈ recvOn e i w ↔ 14 ≤ w.length ∧ e.filt i w = true ∧ View e.devs i w j f ∧ e.filt j f = true ∧
      ethType f = 0x0800 ∧ ∃ dj, e.devs[j]? = some dj ∧ ForMe e j dj.mac f := by
  rw [mem_recvOn hd hn ho]
  constructor
  · rintro ⟨hl, hf, j', f', dj, hv, hj, hf2, hc⟩
    unfold classify at hc
    split at hc
    · split at hc <;> simp at hc
    · split at hc
      · rename_i ht
        split at hc
        · rename_i hm
          simp at hc
          obtain ⟨rfl, rfl⟩ := hc
          exact ⟨hl, hf, hv, hf2, ht, dj, hj, (macPass_iff (view_octets hv ho) (view_length hv hl)).mp hm⟩
        · simp at hc
      · split at hc <;> simp at hc
  · rintro ⟨hl, hf, hv, hf2, ht, dj, hj, hm⟩
    refine ⟨hl, hf, j, f, dj, hv, hj, hf2, ?_⟩
    unfold classify
    rw [ht, if_neg (by decide), if_pos rfl, (macPass_iff (view_octets hv ho) (view_length hv hl)).mpr hm]
    simp

/-- C139. Every ARP frame, and nothing else, is handed to ARP. -/
theorem arp_exact {e : Env} {i : Nat} {d : Dev} {w : List Nat} (hd : e.devs[i]? = some d) (hn : d.nonEth = false)
    (ho : Octets w) (j : Nat) (f : List Nat) :
    .arp j f ∈ recvOn e i w ↔ 14 ≤ w.length ∧ e.filt i w = true ∧ View e.devs i w j f ∧ e.filt j f = true ∧
      ethType f = 0x0806 ∧ j < e.devs.length := by
  rw [mem_recvOn hd hn ho]
  constructor
  · rintro ⟨hl, hf, j', f', dj, hv, hj, hf2, hc⟩
    unfold classify at hc
    split at hc
    · split at hc <;> simp at hc
    · split at hc
      · split at hc <;> simp at hc
      · split at hc
        · rename_i ht
          simp at hc
          obtain ⟨rfl, rfl⟩ := hc
          exact ⟨hl, hf, hv, hf2, ht, (List.getElem?_eq_some_iff.mp hj).1⟩
        · simp at hc
  · rintro ⟨hl, hf, hv, hf2, ht, hj⟩
    refine ⟨hl, hf, j, f, e.devs[j], hv, List.getElem?_eq_getElem hj, hf2, ?_⟩
    unfold classify
    rw [ht, if_neg (by decide), if_neg (by decide), if_pos rfl]
    simp

/-- C139. The 802.1X handler is called exactly for a frame of type 0x888E with a payload, on a Wi-Fi interface, when registered, with the payload. -/
theorem eapol_exact {e : Env} {i : Nat} {d : Dev} {w : List Nat} (hd : e.devs[i]? = some d) (hn : d.nonEth = false)
    (ho : Octets w) (j : Nat) (p : List Nat) :
    .eapol j p ∈ recvOn e i w ↔ 14 ≤ w.length ∧ e.filt i w = true ∧ e.eapolReg = true ∧ e.wifi j = true ∧
      j < e.devs.length ∧ p ≠ [] ∧
      ∃ hdr, hdr.length = 14 ∧ View e.devs i w j (hdr ++ p) ∧ e.filt j (hdr ++ p) = true ∧ ethType (hdr ++ p) = 0x888E := by
  rw [mem_recvOn hd hn ho]
  constructor
  · rintro ⟨hl, hf, j', f', dj, hv, hj, hf2, hc⟩
    unfold classify at hc
    split at hc
    · rename_i ht
      split at hc
      · rename_i hg
        simp only [Bool.and_eq_true, decide_eq_true_iff] at hg
        simp at hc
        obtain ⟨rfl, rfl⟩ := hc
        have hgl := hg.2
        refine ⟨hl, hf, hg.1.1, hg.1.2, (List.getElem?_eq_some_iff.mp hj).1, ?_, f'.take 14, by simp; omega, ?_⟩
        · intro hnil
          have := congrArg List.length hnil
          simp at this; omega
        · rw [List.take_append_drop]; exact ⟨hv, hf2, ht⟩
      · simp at hc
    · split at hc
      · split at hc <;> simp at hc
      · split at hc <;> simp at hc
  · rintro ⟨hl, hf, hr, hwf, hj, hp, hdr, hh, hv, hf2, ht⟩
    refine ⟨hl, hf, j, hdr ++ p, e.devs[j], hv, List.getElem?_eq_getElem hj, hf2, ?_⟩
    unfold classify
    have hpl : 0 < p.length := List.length_pos_iff.mpr hp
    rw [if_pos ht, hr, hwf, if_pos (by simp; omega)]
    rw [← hh, List.drop_left]; simp

/-- C139. At most one of the three is called, for any frame on any interface. -/
theorem one_call (e : Env) (i : Nat) (w : List Nat) : (recvOn e i w).length ≤ 1 := by
  have hc : ∀ j d f, (classify e j d f).length ≤ 1 := by
    intro j d f
    unfold classify
    split
    · split <;> simp
    · split
      · split <;> simp
      · split <;> simp
  unfold recvOn
  split
  · simp
  · split
    · simp
    · split
      · simp
      · split
        · simp
        · split
          · simp
          · split
            · simp
            · split
              · split
                · simp
                · exact hc _ _ _
              · exact hc _ _ _

/-- C139. A frame with two VLAN tags reaches nobody. -/
theorem double_tag_dropped {e : Env} {i : Nat} {d : Dev} (hd : e.devs[i]? = some d) (hn : d.nonEth = false)
    (a b : List Nat) (t0 t1 : Nat) (ha : a.length = 12) (ho : Octets (a ++ 0x81 :: 0x00 :: t0 :: t1 :: 0x81 :: 0x00 :: b)) :
    recvOn e i (a ++ 0x81 :: 0x00 :: t0 :: t1 :: 0x81 :: 0x00 :: b) = [] := by
  rw [List.eq_nil_iff_forall_not_mem]
  intro c hc
  obtain ⟨hl, hf, j, f, dj, hv, hj, hf2, hcl⟩ := (mem_recvOn hd hn ho c).mp hc
  have hx := (view_iff hd hn ho hl j f).mpr hv
  have ht : ethType f = 0x8100 := by
    cases hv with
    | plain h =>
      exfalso; apply h
      refine (type_tag ho).mpr ⟨?_, ?_⟩
      · rw [List.getD_eq_getElem?_getD, List.getElem?_append_right (by omega), ha]; rfl
      · rw [List.getD_eq_getElem?_getD, List.getElem?_append_right (by omega), ha]; rfl
    | tagged j c v a' b' t0' t1' hw ha' hb hc' hv' hp hvid first =>
      obtain ⟨rfl, hr⟩ := List.append_inj hw (by omega)
      simp at hr
      obtain ⟨_, _, rfl⟩ := hr
      unfold ethType
      rw [List.getD_eq_getElem?_getD, List.getElem?_append_right (by omega),
        List.getD_eq_getElem?_getD, List.getElem?_append_right (by omega), ha]; simp
  unfold classify at hcl
  rw [ht] at hcl
  simp at hcl

theorem physMtu_bounds (d : Dev) : 64 ≤ physMtu d ∧ physMtu d ≤ 1536 := by
  unfold physMtu; dsimp only; repeat' split
  all_goals omega

theorem frameMtuF_le (devs : List Dev) : ∀ fuel i, frameMtuF devs fuel i ≤ 1536
  | 0, i => by unfold frameMtuF; omega
  | fuel + 1, i => by
    unfold frameMtuF
    split
    · omega
    · split
      · rename_i v _
        have := frameMtuF_le devs fuel v.parent
        dsimp only; split <;> omega
      · exact (physMtu_bounds _).2

/-- C139. A packet of a device without Ethernet never overruns the buffer it is framed in, whatever length the driver reports. -/
theorem frame_fits (e : Env) (i : Nat) (w : List Nat) : (recvEx e i w).2 ≤ 1536 := by
  have hm := frameMtuF_le e.devs (e.devs.length + 1) i
  unfold recvEx
  split
  · split
    · split
      · simp
      · rename_i hle
        unfold ipMtu frameMtu at hle
        dsimp only at hle ⊢
        repeat' split at hle
        all_goals omega
    · simp
  · simp

/-- C139. On a device without Ethernet every packet within the MTU goes to IP, unchanged, behind an all-zero header, and no other. -/
theorem point_to_point {e : Env} {i : Nat} {d : Dev} (hd : e.devs[i]? = some d) (hn : d.nonEth = true) (w : List Nat) :
    (recvEx e i w).1 = if w.length ≤ ipMtu e.devs i then [.ip i (List.replicate 14 0 ++ w)] else [] := by
  unfold recvEx recvOn
  rw [hd]
  simp only [hn, if_true]
  by_cases h : w.length > ipMtu e.devs i
  · rw [if_pos h, if_neg (by omega)]
  · rw [if_neg h, if_pos (by omega)]

/-- C139. On an Ethernet device `wolfIP_recv_ex` hands the frame on as it is. -/
theorem recvEx_eth {e : Env} {i : Nat} {d : Dev} (hd : e.devs[i]? = some d) (hn : d.nonEth = false) (w : List Nat) :
    (recvEx e i w).1 = recvOn e i w := by
  unfold recvEx; rw [hd]; simp [hn]

/-! ## Witnesses -/

/-- Two devices: a physical one (address 02:..:01) and its VLAN 7. -/
def dE : Env :=
  { devs := [{ mac := [2,0,0,0,0,1], send := true, poll := true },
      { mac := [2,0,0,0,0,1], vlan := some { parent := 0, vid := 7, pcp := 0, dei := 0 } },
      { nonEth := true, send := true, mtu := 64 }],
    wifi := fun i => decide (i = 0), eapolReg := true, joined := fun i g => decide (i = 0 ∧ g = 0xE0010203) }

/-- A frame of type `t` to `dst`. -/
def mk (dst : List Nat) (t0 t1 : Nat) (p : List Nat) : List Nat := dst ++ [2,0,0,0,0,9] ++ [t0, t1] ++ p

/-- ARP and 802.1X frames addressed to another station are taken: the destination address is looked at for IPv4 only. -/
theorem foreign_arp_taken :
    recvOn dE 0 (mk [2,0,0,0,0,5] 8 6 [1,2,3]) = [.arp 0 (mk [2,0,0,0,0,5] 8 6 [1,2,3])] ∧
    recvOn dE 0 (mk [2,0,0,0,0,5] 0x88 0x8E [1,2,3]) = [.eapol 0 [1,2,3]] ∧
    recvOn dE 0 (mk [2,0,0,0,0,5] 8 0 [1,2,3]) = [] := by
  decide +kernel

/-- The hypotheses of the theorems are met: own, tagged, multicast and point-to-point frames. -/
example : recvOn dE 0 (mk [2,0,0,0,0,1] 8 0 [0x45]) = [.ip 0 (mk [2,0,0,0,0,1] 8 0 [0x45])] := by decide +kernel
example : recvOn dE 0 (mk [2,0,0,0,0,1] 0x81 0 ([0xE0, 7, 8, 0] ++ [0x45])) = [.ip 1 (mk [2,0,0,0,0,1] 8 0 [0x45])] := by decide +kernel
example : recvOn dE 0 (mk [2,0,0,0,0,1] 0x81 0 ([0, 8, 8, 0] ++ [0x45])) = [] := by decide +kernel
example : recvOn dE 0 (mk [1,0,0x5e,1,2,3] 8 0 (List.replicate 16 0 ++ [224,1,2,3])) =
    [.ip 0 (mk [1,0,0x5e,1,2,3] 8 0 (List.replicate 16 0 ++ [224,1,2,3]))] := by decide +kernel
example : recvOn dE 0 (mk [1,0,0x5e,1,2,4] 8 0 (List.replicate 16 0 ++ [224,1,2,4])) = [] := by decide +kernel
example : recvEx dE 2 [0x45, 1] = ([.ip 2 (List.replicate 14 0 ++ [0x45, 1])], 16) := by decide +kernel
example : recvEx dE 2 (List.replicate 51 0) = ([], 0) := by decide +kernel

end Wolf.Link
