import Verif.Dgram.Raw
import Verif.Link.Dispatch

/-!
# C139/C81: the two models of the receive path agree

`Dgram.ipFrame` (which frames reach `ip_recv`, used for C81) and `Link.recvOn` (C139) model the same lines of
`wolfIP_recv_on`, src/wolfip.c 10446–10557, with different representations of addresses.
-/
namespace Wolf.Dgram
open Wolf.Route (Ip)
open Wolf.IpIn (Net u8 u16 ipAt tot src dst isMcast)
open Wolf.Csum (Bytes)

theorem etype_eq (g : List Nat) : etype g = Link.ethType g := rfl

theorem octets_of {g : List Nat} (hb : Bytes g) : Link.Octets g := fun x hx => hb x hx

theorem dst_eq (g : List Nat) (hb : Bytes g) : (dst g).toNat = Link.ipDstOf g := by
  have h0 := Link.octets_getD (octets_of hb) 30
  have h1 := Link.octets_getD (octets_of hb) 31
  have h2 := Link.octets_getD (octets_of hb) 32
  have h3 := Link.octets_getD (octets_of hb) 33
  unfold dst ipAt Link.ipDstOf u8
  rw [BitVec.toNat_ofNat]
  dsimp only [Nat.reduceAdd]
  omega

theorem mcast_eq (a : Ip) : isMcast a = Link.isMcIp a.toNat := by
  have hlt := a.isLt
  rw [Bool.eq_iff_iff, IpIn.isMcast_iff]
  unfold Link.isMcIp IpIn.Mcast IpIn.octet1
  rw [decide_eq_true_iff]
  omega

/-- The inputs of the two models describe the same reception: the same devices, groups and filter decisions. -/
structure Same (devs : List Link.Dev) (i : Nat) (g : List Nat) (o : Rx) (e : Link.Env) : Prop where
  table : e.devs = devs
  joined : ∀ j (a : Ip), e.joined j a.toNat = o.joined j a
  eth : e.filt i g = !o.vetoEth
  sub : ∀ j h, Link.demux devs i g = some (j, h) → etype g = 0x8100 → e.filt j h = !o.vetoSub

theorem ne_lit (a : Ip) (n : Nat) (hn : n < 2 ^ 32) : (a != BitVec.ofNat 32 n) = decide (a.toNat ≠ n) := by
  rw [Bool.eq_iff_iff, bne_iff_ne, decide_eq_true_iff]
  constructor
  · intro h c
    apply h; apply BitVec.eq_of_toNat_eq
    rw [c, BitVec.toNat_ofNat, Nat.mod_eq_of_lt hn]
  · intro h c
    apply h
    rw [c, BitVec.toNat_ofNat, Nat.mod_eq_of_lt hn]

theorem beq_dec (a b : Nat) : (a == b) = decide (a = b) := by
  rw [Bool.eq_iff_iff, beq_iff_eq, decide_eq_true_iff]

/-- The two address tests agree. -/
theorem mac_eq (d : Link.Dev) (j : Nat) (h : List Nat) (hb : Bytes h) (o : Rx) (e : Link.Env)
    (hj : ∀ j (a : Ip), e.joined j a.toNat = o.joined j a) : macOk d j h o.joined = Link.macPass e j d.mac h := by
  have h3 := Link.octets_getD (octets_of hb) 3
  have hm3 : (u8 h 3 / 128 == 0) = decide (h.getD 3 0 / 128 % 2 = 0) := by
    unfold u8
    rw [Bool.eq_iff_iff, beq_iff_eq, decide_eq_true_iff]
    omega
  unfold macOk Link.macPass
  have hbc : List.replicate 6 0xff = [255, 255, 255, 255, 255, 255] := rfl
  rw [hbc]
  by_cases hc : h.take 6 ≠ d.mac ∧ h.take 6 ≠ [255, 255, 255, 255, 255, 255]
  · rw [if_pos hc, if_pos hc]
    by_cases hl : h.length < 34
    · rw [if_pos hl, if_pos hl]
    · rw [if_neg hl, if_neg hl]
      rw [← dst_eq h hb, ← mcast_eq, hj j (dst h), hm3, ne_lit _ 0xE0000016 (by decide), ne_lit _ 0xE0000001 (by decide)]
      unfold Link.isMcMac u8
      rw [beq_dec, beq_dec, beq_dec]
      split
      · rename_i hx; rw [hx]; rfl
      · rename_i hx
        rw [Bool.not_eq_true] at hx
        rw [hx]; rfl
  · rw [if_neg hc, if_neg hc]

theorem demux_octets {devs : List Link.Dev} {i j : Nat} {g h : List Nat} (hx : Link.demux devs i g = some (j, h)) (hb : Bytes g) : Bytes h := by
  unfold Link.demux at hx
  dsimp only at hx
  repeat' split at hx
  all_goals first
    | (simp at hx; done)
    | (simp only [Option.some.injEq, Prod.mk.injEq] at hx
       obtain ⟨_, rfl⟩ := hx
       first | exact hb | exact Link.octets_strip (octets_of hb))

/-- C139 and C81 speak of the same frames: what the model of C81 gives to `ip_recv` is what the model of C139 gives to IP. -/
theorem ipFrame_eq_recvOn (devs : List Link.Dev) (i : Nat) (g : List Nat) (hb : Bytes g) (o : Rx) (e : Link.Env)
    (hs : Same devs i g o e) (j : Nat) (h : List Nat) :
    ipFrame devs i g o = some (j, h) ↔ Link.Call.ip j h ∈ Link.recvOn e i g := by
  unfold ipFrame Link.recvOn
  rw [hs.table]
  cases hd : devs[i]? with
  | none => simp
  | some d =>
    dsimp only
    by_cases hn : d.nonEth = true
    · rw [if_pos hn, if_pos hn]; simp [eq_comm]
    · rw [if_neg hn, if_neg hn, hs.eth]
      by_cases hl : g.length < 14
      · rw [if_pos hl]
        have hz : Link.demux devs i g = none := by
          rw [Link.demux.eq_def, hd]; dsimp only; rw [if_neg hn, if_pos hl]
        rw [hz]; simp
      · rw [if_neg hl]
        cases hv : o.vetoEth with
        | true => simp
        | false =>
          rw [if_neg (by simp), if_neg (by simp)]
          cases hx : Link.demux devs i g with
          | none => simp
          | some jh =>
            obtain ⟨j', h'⟩ := jh
            dsimp only
            have hbh := demux_octets hx hb
            have cl : ∀ dj : Link.Dev, (Link.Call.ip j h ∈ Link.classify e j' dj h') ↔
                (etype h' = 0x0800 ∧ macOk dj j' h' o.joined = true ∧ j' = j ∧ h' = h) := by
              intro dj
              rw [mac_eq dj j' h' hbh o e hs.joined, etype_eq]
              unfold Link.classify
              by_cases t1 : Link.ethType h' = 0x888E
              · rw [if_pos t1, t1]
                split <;> simp
              · rw [if_neg t1]
                by_cases t2 : Link.ethType h' = 0x0800
                · rw [if_pos t2, t2]
                  cases Link.macPass e j' dj.mac h' <;> simp [eq_comm]
                · rw [if_neg t2]
                  split <;> simp [t2]
            cases hj : devs[j']? with
            | none =>
              dsimp only
              split
              · simp
              · split <;> simp
            | some dj =>
              dsimp only
              rw [← etype_eq]
              have lhs : ((if etype h' ≠ 0x0800 then none else if macOk dj j' h' o.joined = true then some (j', h') else none) = some (j, h)) ↔
                  (etype h' = 0x0800 ∧ macOk dj j' h' o.joined = true ∧ j' = j ∧ h' = h) := by
                by_cases t : etype h' = 0x0800
                · cases macOk dj j' h' o.joined <;> simp [t]
                · simp [t]
              by_cases ht : etype g = 0x8100
              · rw [if_pos ht, hs.sub j' h' hx ht]
                cases hw : o.vetoSub with
                | true => simp [ht]
                | false =>
                  rw [if_neg (show ¬ (etype g = 0x8100 ∧ false = true) from fun c => Bool.noConfusion c.2),
                    if_neg (show ¬ ((!false) = false) from Bool.noConfusion), lhs, cl dj]
              · rw [if_neg ht, if_neg (show ¬ (etype g = 0x8100 ∧ o.vetoSub = true) from fun c => ht c.1), lhs, cl dj]

/-- `Same` is met: no filters and the same groups. -/
example : Same Link.dE.devs 0 (Link.mk [2, 0, 0, 0, 0, 1] 8 0 [0x45]) { joined := fun j a => Link.dE.joined j a.toNat } Link.dE :=
  ⟨rfl, fun _ _ => rfl, rfl, fun _ _ _ _ => rfl⟩

end Wolf.Dgram
