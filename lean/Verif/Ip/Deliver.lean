import Verif.Ip.Recv
/-!
# C23: what the upper layers are given
-/
namespace Wolf.IpIn
open Wolf.Route (Ip Conf)
open Wolf.Csum (words Bytes put16 ipSet ipVerify sum32 fold wsum)

theorem u8_of (f g : List Nat) (k : Nat) (h : g[k]? = f[k]?) : u8 g k = u8 f k := by
  rw [u8, u8, List.getD_eq_getElem?_getD, List.getD_eq_getElem?_getD, h]

theorem u8_some (f : List Nat) (k x : Nat) (h : f[k]? = some x) : u8 f k = x := by
  rw [u8, List.getD_eq_getElem?_getD, h]; rfl

theorem ipAt_of (f g : List Nat) (k : Nat) (h : ∀ j, k ≤ j → j < k + 4 → g[j]? = f[j]?) : ipAt g k = ipAt f k := by
  rw [ipAt, ipAt, u8_of f g k (h _ (by omega) (by omega)), u8_of f g (k + 1) (h _ (by omega) (by omega)),
    u8_of f g (k + 2) (h _ (by omega) (by omega)), u8_of f g (k + 3) (h _ (by omega) (by omega))]

theorem ipSet_length (ip : List Nat) : (ipSet ip).length = ip.length := by
  rw [ipSet]; simp only [Csum.put16_length]

/-- The packet before the checksum is filled in. -/
def cut (f : List Nat) : List Nat :=
  put16 ((f.take 34 ++ f.drop (14 + hlen f)).set 14 (u8 (f.take 34 ++ f.drop (14 + hlen f)) 14 / 16 * 16 + 5)) 16 (tot f - (hlen f - 20))

theorem strip_eq (f : List Nat) : strip f = f.take 14 ++ ipSet ((cut f).drop 14) := rfl

theorem cut_length (f : List Nat) (hl : 34 ≤ f.length) (hh : 20 ≤ hlen f) (hf : 14 + hlen f ≤ f.length) : (cut f).length = f.length - (hlen f - 20) := by
  rw [cut, Csum.put16_length, List.length_set, List.length_append, List.length_take, List.length_drop]; omega

theorem cut_get (f : List Nat) (k : Nat) (h1 : k ≠ 14) (h2 : k ≠ 16) (h3 : k ≠ 17) :
    (cut f)[k]? = (f.take 34 ++ f.drop (14 + hlen f))[k]? := by
  rw [cut, Csum.put16_agrees _ _ _ _ h2 (by omega), List.getElem?_set_ne (fun c => h1 c.symm)]

theorem cut_bytes (f : List Nat) (hb : Bytes f) (ht : tot f < 65536) : Bytes (cut f) := by
  rw [cut]
  refine Csum.put16_bytes _ _ _ ?_ (by omega)
  intro x hx
  rcases List.mem_or_eq_of_mem_set hx with h | h
  · rcases List.mem_append.mp h with h | h
    · exact hb x (List.mem_of_mem_take h)
    · exact hb x (List.mem_of_mem_drop h)
  · have : Bytes (f.take 34 ++ f.drop (14 + hlen f)) := by
      intro y hy
      rcases List.mem_append.mp hy with h | h
      · exact hb y (List.mem_of_mem_take h)
      · exact hb y (List.mem_of_mem_drop h)
    have := u8_lt _ this 14
    omega

theorem tot_lt (f : List Nat) (hb : Bytes f) : tot f < 65536 := by
  have h1 := u8_lt f hb 16
  have h2 := u8_lt f hb (16 + 1)
  rw [tot, u16]; omega

/-- Removing the options keeps the datagram. -/
theorem strip_delivered (f : List Nat) (hb : Bytes f) (hl : 34 ≤ f.length) (hv : u8 f 14 / 16 = 4) (hh : 20 ≤ hlen f ∧ 14 + hlen f ≤ f.length)
    (ht : hlen f ≤ tot f ∧ 14 + tot f ≤ f.length) : Delivered f (strip f) := by
  have ht16 := tot_lt f hb
  have hcl := cut_length f hl hh.1 hh.2
  have h0 : (cut f)[14]? = some 0x45 := by
    rw [cut, Csum.put16_agrees _ _ _ _ (by omega) (by omega), List.getElem?_set_self (by rw [List.length_append, List.length_take]; omega)]
    have : u8 (f.take 34 ++ f.drop (14 + hlen f)) 14 = u8 f 14 := by
      apply u8_of; rw [List.getElem?_append_left (by rw [List.length_take]; omega), List.getElem?_take_of_lt (by omega)]
    rw [this, hv]
  have h16 : u16 (cut f) 16 = tot f - (hlen f - 20) := by
    have e1 : (cut f)[16]? = some ((tot f - (hlen f - 20)) / 256) := by
      rw [cut, put16, List.getElem?_set_ne (by omega), List.getElem?_set_self]
      rw [List.length_set, List.length_append, List.length_take]; omega
    have e2 : (cut f)[16 + 1]? = some ((tot f - (hlen f - 20)) % 256) := by
      rw [cut, put16, List.getElem?_set_self]
      rw [List.length_set, List.length_set, List.length_append, List.length_take]; omega
    rw [u16, u8_some _ _ _ e1, u8_some _ _ _ e2]; omega
  have hg0 : ((cut f).drop 14).getD 0 0 = 0x45 := by
    rw [getD_drop, List.getD_eq_getElem?_getD, h0]; rfl
  have hcb : Bytes ((cut f).drop 14) := bytes_drop _ _ (cut_bytes f hb ht16)
  have hset := Csum.ip_checksum_verifies ((cut f).drop 14) hcb (by rw [hg0]) (by rw [hg0]; omega) (by rw [hg0, List.length_drop]; omega)
  have hbs : Bytes (ipSet ((cut f).drop 14)) := by
    rw [ipSet]
    refine Csum.put16_bytes _ _ _ (Csum.put16_bytes _ _ _ hcb (by omega)) ?_
    rw [Csum.inv16]; omega
  have l14 : (f.take 14).length = 14 := by rw [List.length_take]; omega
  -- reading the result
  have get : ∀ k, k ≠ 24 → k ≠ 25 → 14 ≤ k → (strip f)[k]? = (cut f)[k]? := by
    intro k h1 h2 h3
    rw [strip_eq, List.getElem?_append_right (by omega), l14, hset.2 (k - 14) (by omega) (by omega), List.getElem?_drop]
    congr 1; omega
  have old : ∀ k, k ≠ 14 → k ≠ 16 → k ≠ 17 → k ≠ 24 → k ≠ 25 → 14 ≤ k → k < 34 → (strip f)[k]? = f[k]? := by
    intro k h1 h2 h3 h4 h5 h6 h7
    rw [get k h4 h5 h6, cut_get f k h1 h2 h3, List.getElem?_append_left (by rw [List.length_take]; omega), List.getElem?_take_of_lt h7]
  have hlen' : (strip f).length = (cut f).length := by
    rw [strip_eq, List.length_append, l14, ipSet_length, List.length_drop]; omega
  have hdrop : (strip f).drop 14 = ipSet ((cut f).drop 14) := by rw [strip_eq, List.drop_left' l14]
  refine ⟨by omega, ?_, ?_, ?_, ?_, ?_, ?_, ?_, ?_, ?_, ?_⟩
  · -- payload
    apply List.ext_getElem?
    intro k
    rw [List.getElem?_drop, List.getElem?_drop, get _ (by omega) (by omega) (by omega), cut_get f _ (by omega) (by omega) (by omega),
      List.getElem?_append_right (by rw [List.length_take]; omega), List.getElem?_drop]
    congr 1
    rw [List.length_take]; omega
  · rw [strip_eq, List.take_left' l14]
  · rw [u8_of (cut f) (strip f) 14 (get 14 (by omega) (by omega) (by omega)), u8_some _ _ _ h0]
  · have : tot (strip f) = tot f - (hlen f - 20) := by
      rw [← h16, tot, u16, u16, u8_of _ _ 16 (get 16 (by omega) (by omega) (by omega)), u8_of _ _ (16 + 1) (get 17 (by omega) (by omega) (by omega))]
    omega
  · have : tot (strip f) = tot f - (hlen f - 20) := by
      rw [← h16, tot, u16, u16, u8_of _ _ 16 (get 16 (by omega) (by omega) (by omega)), u8_of _ _ (16 + 1) (get 17 (by omega) (by omega) (by omega))]
    omega
  · rw [hdrop]
    have := ipVerify_sum _ hbs hset.1
    have e : (ipSet ((cut f).drop 14)).getD 0 0 = 0x45 := by
      rw [List.getD_eq_getElem?_getD, hset.2 0 (by omega) (by omega), ← List.getD_eq_getElem?_getD, hg0]
    rw [e] at this
    exact this
  · exact u8_of _ _ _ (old 23 (by omega) (by omega) (by omega) (by omega) (by omega) (by omega) (by omega))
  · exact u8_of _ _ _ (old 22 (by omega) (by omega) (by omega) (by omega) (by omega) (by omega) (by omega))
  · exact ipAt_of _ _ _ (fun j h1 h2 => old j (by omega) (by omega) (by omega) (by omega) (by omega) (by omega) (by omega))
  · exact ipAt_of _ _ _ (fun j h1 h2 => old j (by omega) (by omega) (by omega) (by omega) (by omega) (by omega) (by omega))

/-- Without options the frame itself is handed on. -/
theorem plain_delivered (f : List Nat) (hl : 34 ≤ f.length) (hv : u8 f 14 / 16 = 4) (hh : hlen f = 20) (ht : hlen f ≤ tot f ∧ 14 + tot f ≤ f.length)
    (hs : SumOk ((f.drop 14).take (hlen f))) : Delivered f f := by
  have h5 : u8 f 14 = 0x45 := by rw [hlen] at hh; omega
  exact ⟨Nat.le_refl _, by rw [hh], rfl, h5, by omega, ht.2, by rw [hh] at hs; exact hs, rfl, rfl, rfl, rfl⟩

/-- What each handler is guaranteed about the frame it is given. -/
def HandlerOk (p : Nat) (f g : List Nat) : Prop :=
  p = proto f ∧ (p = 6 ∨ p = 1 ∨ p = 2 ∨ (p = 17 ∧ 42 ≤ g.length ∧ 8 ≤ u16 g 38 ∧ 34 + u16 g 38 ≤ g.length))

theorem dispatch_spec (f : List Nat) (p : Nat) (g : List Nat) (h : dispatch f = .deliver p g) :
    g = (if hlen f > 20 then strip f else f) ∧ ¬ (hlen f > 20 ∧ f.length > linkMtu) ∧
    p = proto g ∧ (p = 6 ∨ p = 1 ∨ p = 2 ∨ (p = 17 ∧ 42 ≤ g.length ∧ 8 ≤ u16 g 38 ∧ 34 + u16 g 38 ≤ g.length)) := by
  rw [dispatch] at h
  by_cases h1 : hlen f > 20 ∧ f.length > linkMtu
  · rw [if_pos h1] at h; cases h
  rw [if_neg h1] at h
  simp only at h
  generalize (if hlen f > 20 then strip f else f) = q at *
  by_cases h2 : proto q = 6
  · rw [if_pos h2] at h; cases h; exact ⟨rfl, h1, h2.symm, Or.inl rfl⟩
  rw [if_neg h2] at h
  by_cases h3 : proto q = 17
  · rw [if_pos h3] at h
    by_cases h4 : q.length < 42
    · rw [if_pos h4] at h; cases h
    rw [if_neg h4] at h
    by_cases h5 : u16 q 38 < 8
    · rw [if_pos h5] at h; cases h
    rw [if_neg h5] at h
    by_cases h6 : u16 q 38 > q.length - 34
    · rw [if_pos h6] at h; cases h
    rw [if_neg h6] at h
    cases h
    exact ⟨rfl, h1, h3.symm, Or.inr (Or.inr (Or.inr ⟨rfl, by omega, by omega, by omega⟩))⟩
  rw [if_neg h3] at h
  by_cases h4 : proto q = 1
  · rw [if_pos h4] at h; cases h; exact ⟨rfl, h1, h4.symm, Or.inr (Or.inl rfl)⟩
  rw [if_neg h4] at h
  by_cases h5 : proto q = 2
  · rw [if_pos h5] at h; cases h; exact ⟨rfl, h1, h5.symm, Or.inr (Or.inr (Or.inl rfl))⟩
  · rw [if_neg h5] at h; cases h

theorem forwardBlock_not_deliver (n : Net) (i : Nat) (f : List Nat) (arp : Bool) (p : Nat) (g : List Nat) : forwardBlock n i f arp ≠ some (.deliver p g) := by
  intro h
  rw [forwardBlock] at h
  by_cases h1 : forUs n (dst f) = true
  · rw [if_pos h1] at h; cases h
  rw [if_neg h1] at h
  by_cases h2 : rpfDrop n i (src f) = true
  · rw [if_pos h2] at h; cases h
  rw [if_neg h2] at h
  by_cases h3 : isNonEth n i = false ∧ u8 f 0 % 2 = 1
  · rw [if_pos h3] at h; cases h
  rw [if_neg h3] at h
  cases he : egress n i (dst f) with
  | none => rw [he] at h; cases h
  | some x =>
    rw [he] at h
    simp only at h
    by_cases h4 : ttl f ≤ 1
    · rw [if_pos h4] at h; cases h
    rw [if_neg h4] at h
    by_cases h5 : resolved n x.1 x.2 arp = false
    · rw [if_pos h5] at h; cases h
    · rw [if_neg h5] at h; cases h

/-- **C23.** Whatever bytes arrive on whatever interface under whatever configuration: if a handler is called, the
frame was a well-formed datagram, and the handler is given that datagram without its options, with consistent
lengths, inside the bytes received. -/
theorem ip_delivers_only_wellformed (n : Net) (i : Nat) (f : List Nat) (veto arp : Bool) (hb : Bytes f) (p : Nat) (g : List Nat)
    (h : ipRecv n i f veto arp = .deliver p g) :
    WellFormed n i f ∧ veto = false ∧ Delivered f g ∧ HandlerOk p f g := by
  rcases ipRecv_eq n i f veto arp with e | ⟨h1, h2, h3, ⟨r, h4, h5⟩ | ⟨h4, h5⟩⟩
  · rw [e] at h; cases h
  · rw [h5] at h; rw [h] at h4; exact absurd h4 (forwardBlock_not_deliver n i f arp p g)
  · rw [h5] at h
    have wf := accepted_wf n i f hb h1 h3
    obtain ⟨d1, d2, d3, d4⟩ := dispatch_spec f p g h
    have hd : Delivered f g := by
      rw [d1]
      by_cases c : hlen f > 20
      · rw [if_pos c]; exact strip_delivered f hb wf.len wf.version wf.hdr wf.total
      · rw [if_neg c]; exact plain_delivered f wf.len wf.version (by have := wf.hdr.1; omega) wf.total wf.sum
    exact ⟨wf, h2, hd, by rw [d3]; exact hd.proto, d4⟩

/-- **C23, memory.** No byte outside the frame is read while walking the options, and the walk ends. -/
theorem ip_never_oob (n : Net) (i : Nat) (f : List Nat) (veto arp : Bool) : ipRecv n i f veto arp ≠ .oob := by
  intro h
  rcases ipRecv_eq n i f veto arp with e | ⟨h1, h2, h3, ⟨r, h4, h5⟩ | ⟨h4, h5⟩⟩
  · rw [e] at h; cases h
  · rw [h5] at h; rw [h, forwardBlock] at h4
    by_cases a1 : forUs n (dst f) = true
    · rw [if_pos a1] at h4; cases h4
    rw [if_neg a1] at h4
    by_cases a2 : rpfDrop n i (src f) = true
    · rw [if_pos a2] at h4; cases h4
    rw [if_neg a2] at h4
    by_cases a3 : isNonEth n i = false ∧ u8 f 0 % 2 = 1
    · rw [if_pos a3] at h4; cases h4
    rw [if_neg a3] at h4
    cases he : egress n i (dst f) with
    | none => rw [he] at h4; cases h4
    | some x =>
      rw [he] at h4
      simp only at h4
      by_cases a4 : ttl f ≤ 1
      · rw [if_pos a4] at h4; cases h4
      rw [if_neg a4] at h4
      by_cases a5 : resolved n x.1 x.2 arp = false
      · rw [if_pos a5] at h4; cases h4
      · rw [if_neg a5] at h4; cases h4
  · rw [h5, dispatch] at h
    by_cases b1 : hlen f > 20 ∧ f.length > linkMtu
    · rw [if_pos b1] at h; cases h
    rw [if_neg b1] at h
    simp only at h
    generalize (if hlen f > 20 then strip f else f) = q at *
    revert h
    (repeat' split) <;> intro h <;> cases h

end Wolf.IpIn

namespace Wolf.IpIn
open Wolf.Csum (words Bytes put16 ipSet ipVerify sum32 fold wsum)

theorem dispatch_deliver (f : List Nat) (hp : proto (if hlen f > 20 then strip f else f) = proto f) (h4 : f.length ≤ linkMtu)
    (h5 : proto f = 6 ∨ proto f = 1 ∨ proto f = 2) : dispatch f = .deliver (proto f) (if hlen f > 20 then strip f else f) := by
  generalize hr : dispatch f = r
  rw [dispatch, if_neg (fun c => absurd c.2 (by omega))] at hr
  simp only at hr
  generalize (if hlen f > 20 then strip f else f) = g at *
  rcases h5 with c | c | c
  · rw [if_pos (hp.trans c)] at hr; rw [c]; exact hr.symm
  · rw [if_neg (by omega), if_neg (by omega), if_pos (hp.trans c)] at hr; rw [c]; exact hr.symm
  · rw [if_neg (by omega), if_neg (by omega), if_neg (by omega), if_pos (hp.trans c)] at hr; rw [c]; exact hr.symm

theorem ipRecv_keeps (n : Net) (i : Nat) (f : List Nat) (arp : Bool) (h1 : headOk n i f = true) (h2 : walkOf f = .ok)
    (h3 : forUs n (dst f) = true) (hp : proto (if hlen f > 20 then strip f else f) = proto f) (h4 : f.length ≤ linkMtu)
    (h5 : proto f = 6 ∨ proto f = 1 ∨ proto f = 2) : ipRecv n i f false arp ≠ .drop := by
  generalize hr : ipRecv n i f false arp = r
  have hf : forwardBlock n i f arp = none := by rw [forwardBlock, if_pos h3]
  have n1 : ¬ headOk n i f = false := by rw [h1]; exact Bool.noConfusion
  have n2 : ¬ (false : Bool) = true := Bool.noConfusion
  rw [ipRecv, if_neg n1, if_neg n2, h2] at hr
  rw [hf] at hr
  rw [dispatch_deliver f hp h4 h5] at hr
  rw [← hr]; exact Out.noConfusion

/-- Nothing well formed is lost: a well-formed datagram for this host whose options parse, of a protocol handled here
and with a sane UDP length, is handed on. -/
theorem ip_delivers_wellformed (n : Net) (i : Nat) (f : List Nat) (arp : Bool) (h1 : headOk n i f = true) (h2 : walkOf f = .ok)
    (h3 : forUs n (dst f) = true) (h4 : f.length ≤ linkMtu) (h5 : proto f = 6 ∨ proto f = 1 ∨ proto f = 2) (hb : Bytes f) :
    ∃ g, ipRecv n i f false arp = .deliver (proto f) g := by
  have wf := accepted_wf n i f hb h1 h2
  have hd : Delivered f (if hlen f > 20 then strip f else f) := by
    by_cases c : hlen f > 20
    · rw [if_pos c]; exact strip_delivered f hb wf.len wf.version wf.hdr wf.total
    · rw [if_neg c]; exact plain_delivered f wf.len wf.version (by have := wf.hdr.1; omega) wf.total wf.sum
  refine ⟨if hlen f > 20 then strip f else f, ?_⟩
  have hp := hd.proto
  rcases ipRecv_eq n i f false arp with e | ⟨_, _, _, ⟨r, e1, e2⟩ | ⟨e1, e2⟩⟩
  · exact absurd e (ipRecv_keeps n i f arp h1 h2 h3 hp h4 h5)
  · rw [forwardBlock, if_pos h3] at e1; cases e1
  · rw [e2]; exact dispatch_deliver f hp h4 h5

/-- Two interfaces, 10.0.0.1/8 and 192.168.1.1/24, and a default route through the second. -/
def net2 : Net :=
  { rt := { confs := [⟨0x0A000001#32, 0xFF000000#32, 0⟩, ⟨0xC0A80101#32, 0xFFFFFF00#32, 0⟩], routes := [⟨true, 0, 0xC0A801FE#32, 1, 0, 1⟩], gen := 2, loop := false }
    nonEth := [false, false], mtu := [1514, 1514] }

/-- A TCP datagram from 10.0.0.2 to 10.0.0.1 with a NOP, an unknown option and 3 payload bytes. -/
def frameOpts : List Nat :=
  [2, 0, 0, 0, 0, 1, 2, 0, 0, 0, 0, 2, 8, 0] ++ ipSet [0x46, 0, 0, 27, 0, 1, 0, 0, 64, 6, 0, 0, 10, 0, 0, 2, 10, 0, 0, 1, 1, 0x44, 3, 0] ++ [7, 8, 9]

/-- The same with a loose source route. -/
def frameLsrr : List Nat :=
  [2, 0, 0, 0, 0, 1, 2, 0, 0, 0, 0, 2, 8, 0] ++ ipSet [0x46, 0, 0, 27, 0, 1, 0, 0, 64, 6, 0, 0, 10, 0, 0, 2, 10, 0, 0, 1, 1, 0x83, 3, 0] ++ [7, 8, 9]

/-- Non-vacuity: a datagram with options is delivered, without them; with a source route it is dropped. -/
theorem ip_example :
    (∃ g, ipRecv net2 0 frameOpts false false = .deliver 6 g ∧ g.drop 34 = [7, 8, 9]) ∧ ipRecv net2 0 frameLsrr false false = .drop ∧
    headOk net2 0 frameLsrr = true := by
  refine ⟨⟨strip frameOpts, by decide +kernel, by decide +kernel⟩, by decide +kernel, by decide +kernel⟩

end Wolf.IpIn
