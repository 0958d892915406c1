import Verif.Dhcp.Config
/-!
# C32, C33: lease times, retransmission timers and termination of the DHCP client
-/
namespace Wolf.Dhcp

/-! ## Lease times -/

/-- **C32, order.** For every lease of at least a second and every T1, T2 a server sends, the renewal
time is at least one second, not after the rebinding time, which is not after the expiry; the order is
strict for leases of three seconds or more; and consistent server values are used as they are. -/
theorem lease_times_ordered (l t1 t2 : Nat) (hl : 0 < l) :
    1 ≤ (leaseTimes l t1 t2).1 ∧ (leaseTimes l t1 t2).1 ≤ (leaseTimes l t1 t2).2 ∧ (leaseTimes l t1 t2).2 ≤ l ∧
    (2 ≤ l → (leaseTimes l t1 t2).1 < (leaseTimes l t1 t2).2) ∧
    (3 ≤ l → (leaseTimes l t1 t2).2 < l) ∧
    (0 < t1 ∧ t1 < t2 ∧ t2 < l → leaseTimes l t1 t2 = (t1, t2)) := by
  by_cases hb : t1 = 0 ∨ t2 = 0 ∨ t1 ≥ l ∨ t2 ≥ l ∨ t2 ≤ t1
  · have h1 : ¬ (0 < t1 ∧ t1 < t2 ∧ t2 < l) := by omega
    simp only [leaseTimes, if_pos hb]
    refine ⟨?_, ?_, ?_, ?_, ?_, fun h => absurd h h1⟩ <;> (repeat' split) <;> omega
  · simp only [leaseTimes, if_neg hb]
    refine ⟨?_, ?_, ?_, ?_, ?_, fun _ => ?_⟩
    · split <;> omega
    · (repeat' split) <;> omega
    · (repeat' split) <;> omega
    · intro _; (repeat' split) <;> omega
    · intro _; (repeat' split) <;> omega
    · rw [if_neg (show ¬ t1 = 0 by omega), if_neg (show ¬ t2 ≤ t1 by omega), if_neg (show ¬ t2 > l by omega)]

/-- For a lease of two seconds rebinding starts only at the expiry. -/
example : leaseTimes 2 0 0 = (1, 2) ∧ leaseTimes 1 0 0 = (1, 1) ∧ leaseTimes 3600 0 0 = (1800, 3150) ∧
    leaseTimes 100 60 50 = (50, 87) ∧ leaseTimes 100 40 70 = (40, 70) := by decide

theorem backoff_le (c b : Nat) : backoff c b ≤ 64000 := by
  rw [backoff]
  generalize b * 2 ^ (if c > 16 then 16 else c) = x
  split <;> omega

theorem discoverDelay_le (c r : Nat) : discoverDelay c r ≤ 65000 := by
  have := backoff_le c 4000
  rw [discoverDelay]; split <;> omega

theorem renewDelay_bounds (r : Nat) : 1 ≤ renewDelay r ∧ (renewDelay r ≤ r ∨ renewDelay r = 1) ∧
    (60000 ≤ r → 60000 ≤ renewDelay r) := by
  simp only [renewDelay]; (repeat' split) <;> omega

/-! ## The invariant -/

/-- The deadline `t` of the armed timer fits the state. -/
def Due (d : Cli) (t : Nat) : Prop :=
  match d.ph with
  | .off => False
  | .disc => t ≤ d.tick + 65000
  | .req => t ≤ d.tick + 64199
  | .bound => d.renewAt ≤ t ∧ t ≤ max d.renewAt (d.tick + 1)
  | .renew => t ≤ max d.rebindAt (d.tick + 1)
  | .rebind => t ≤ max d.expires (d.tick + 1)
  | .dad => t ≤ d.tick + 1000

/-- Facts about the state that do not concern the timer heap. -/
structure Core (d : Cli) : Prop where
  noip : d.ph = .off ∨ d.ph = .disc → d.offIp = 0
  times : d.ph = .bound ∨ d.ph = .renew ∨ d.ph = .rebind ∨ d.ph = .dad →
    0 < d.renewAt ∧ d.renewAt ≤ d.rebindAt ∧ d.rebindAt ≤ d.expires
  count : d.ph = .off ∨ d.ph = .disc ∨ d.ph = .req → d.count ≤ 3
  probes : d.probes ≤ 3

/-- Exactly one timer, or none: with `s` set (no insertion ever failed) none only in the state off. -/
def HeapOk (s : Bool) (d : Cli) : Prop :=
  0 < d.nextId ∧
  ((d.heap = [] ∧ d.timer = 0 ∧ (s = true → d.ph = .off)) ∨
   ∃ t, d.heap = [(d.timer, t)] ∧ 0 < d.timer ∧ d.timer < d.nextId ∧ Due d t)

def CInv (s : Bool) (d : Cli) : Prop := Core d ∧ HeapOk s d

/-- No timer armed. -/
def Clean (d : Cli) : Prop := 0 < d.nextId ∧ d.heap = [] ∧ d.timer = 0

theorem sched_inv (s : Bool) (d : Cli) (e : Env) (w : Nat) (hc : Clean d) (hk : Core d) (hr : s = true → e.room = true)
    (hd : Due d (if w > d.tick then w else d.tick + 1)) : CInv s (sched d e w) := by
  obtain ⟨h1, h2, h3⟩ := hc
  rw [sched]
  split
  · refine ⟨⟨hk.noip, hk.times, hk.count, hk.probes⟩, Nat.succ_pos _, Or.inr ⟨_, by rw [h2]; rfl, h1, Nat.lt_succ_self _, hd⟩⟩
  · rename_i hn
    exact ⟨⟨hk.noip, hk.times, hk.count, hk.probes⟩, h1, Or.inl ⟨h2, rfl, fun hs => absurd (hr hs) hn⟩⟩

theorem heapCancel_clean (s : Bool) (d : Cli) (h : HeapOk s d) : Clean (heapCancel d) := by
  obtain ⟨h0, ⟨h1, h2, _⟩ | ⟨t, h1, h2, _, _⟩⟩ := h
  · rw [heapCancel, if_pos h2]; exact ⟨h0, h1, h2⟩
  · rw [heapCancel, if_neg (by omega)]
    refine ⟨h0, ?_, rfl⟩
    rw [h1]; simp

theorem heapCancel_fields (d : Cli) : ∃ h t, heapCancel d = { d with heap := h, timer := t } := by
  rw [heapCancel]; split
  · exact ⟨d.heap, d.timer, rfl⟩
  · exact ⟨_, _, rfl⟩

theorem cancelTimer_clean (s : Bool) (d : Cli) (h : HeapOk s d) : Clean (cancelTimer d) := by
  obtain ⟨h1, h2, h3⟩ := heapCancel_clean s d h
  exact ⟨h1, h2, h3⟩

theorem cancelTimer_eq (d : Cli) : ∃ h t, cancelTimer d =
    { d with heap := h, timer := t, count := 0, renewAt := 0, rebindAt := 0, expires := 0 } := by
  obtain ⟨h, t, e⟩ := heapCancel_fields d
  exact ⟨h, t, by rw [cancelTimer, e]⟩

/-- Setting fields the invariant does not mention. -/
theorem setPh_inv (s : Bool) (d : Cli) (e : Env) (w : Nat) : { sched d e w with ph := .disc } = sched { d with ph := .disc } e w := by
  rw [sched, sched]; split <;> rfl

theorem sendDiscover_inv (s : Bool) (d : Cli) (e : Env) (hc : Clean d) (hi : d.offIp = 0) (hn : d.count ≤ 3)
    (hp : d.probes ≤ 3) (hr : s = true → e.room = true) :
    CInv s (sendDiscover d e).1 ∧ (sendDiscover d e).1.ph = .disc ∧ (sendDiscover d e).1.count = d.count ∧
    (sendDiscover d e).1.tick = d.tick ∧
    (sendDiscover d e).1.sent = d.sent ++ (if e.sendOk then [1] else []) := by
  rw [sendDiscover]
  split
  · simp only
    rw [setPh_inv s]
    have hdl := discoverDelay_le d.count e.rnd
    refine ⟨sched_inv s _ e _ hc ⟨fun _ => hi, by simp, fun _ => hn, hp⟩ hr ?_, by simp, ?_, ?_, ?_⟩
    · simp only [Due]; split <;> omega
    · simp only [sched]; split <;> rfl
    · simp only [sched]; split <;> rfl
    · simp only [sched]; split <;> rfl
  · simp only
    refine ⟨sched_inv s _ e _ hc ⟨fun _ => hi, by simp, fun _ => hn, hp⟩ hr ?_, by simp, ?_, ?_, ?_⟩
    · simp only [Due]; split <;> omega
    · simp only [sched]; split <;> rfl
    · simp only [sched]; split <;> rfl
    · rw [List.append_nil]; simp only [sched]; split <;> rfl

theorem restart_inv (s : Bool) (d : Cli) (e : Env) (hc : Clean (cancelTimer d)) (hp : d.probes ≤ 3)
    (hr : s = true → e.room = true) :
    CInv s (restart d e) ∧ (restart d e).ph = .disc := by
  obtain ⟨h, t, eq⟩ := cancelTimer_eq d
  have := sendDiscover_inv s { deconfigure (cancelTimer d) with ph := .off } e ⟨hc.1, hc.2.1, hc.2.2⟩ rfl
    (by rw [deconfigure, eq]; exact Nat.zero_le _) (by rw [deconfigure, eq]; exact hp) hr
  exact ⟨this.1, this.2.1⟩

theorem sendRequest_req (s : Bool) (d : Cli) (e : Env) (hc : Clean d) (hph : d.ph ≠ .renew ∧ d.ph ≠ .rebind)
    (hn : d.count ≤ 3) (hp : d.probes ≤ 3) (hr : s = true → e.room = true) :
    CInv s (sendRequest d e).1 ∧ (sendRequest d e).1.ph = .req ∧ (sendRequest d e).1.count = d.count ∧
    (sendRequest d e).1.tick = d.tick ∧
    (sendRequest d e).1.sent = d.sent ++ (if e.sendOk then [3] else []) ∧ (sendRequest d e).2 = e.sendOk := by
  have hn' : ¬ (d.ph = .renew ∨ d.ph = .rebind) := by simp [hph]
  have hb := backoff_le d.count 2000
  simp only [sendRequest, if_neg hn']
  split
  · rename_i hs
    simp only
    rw [if_neg (by simp), if_neg (by simp)]
    refine ⟨sched_inv s _ e _ hc ⟨by simp, by simp, fun _ => hn, hp⟩ hr ?_, by simp, ?_, ?_, ?_, hs.symm⟩
    · simp only [Due]; split <;> omega
    · simp only [sched]; split <;> rfl
    · simp only [sched]; split <;> rfl
    · simp only [sched]; split <;> rfl
  · rename_i hs
    refine ⟨sched_inv s _ e _ hc ⟨by simp, by simp, fun _ => hn, hp⟩ hr ?_, by simp, ?_, ?_, ?_, by simpa using hs⟩
    · simp only [Due]; split <;> omega
    · simp only [sched]; split <;> rfl
    · simp only [sched]; split <;> rfl
    · rw [List.append_nil]; simp only [sched]; split <;> rfl

theorem sendRequest_renew (s : Bool) (d : Cli) (e : Env) (hc : Clean d) (hk : Core d)
    (hph : d.ph = .renew ∨ d.ph = .rebind) (hr : s = true → e.room = true) :
    CInv s (sendRequest d e).1 ∧ (sendRequest d e).1.ph = d.ph ∧ (sendRequest d e).1.tick = d.tick ∧
    (sendRequest d e).1.expires = d.expires ∧
    (d.ph = .rebind → ∀ t ∈ (sendRequest d e).1.heap, d.expires ≤ d.tick → t.2 = d.tick + 1) := by
  have ht := hk.times (by rcases hph with h | h <;> simp [h])
  simp only [sendRequest, if_pos hph]
  have hcl : Clean { d with sent := d.sent ++ [3] } := hc
  have hkl : Core { d with sent := d.sent ++ [3] } := ⟨hk.noip, hk.times, hk.count, hk.probes⟩
  split
  · simp only
    split
    · rename_i hrn
      rw [schedRenew, if_neg (by omega)]
      refine ⟨sched_inv s _ e _ hcl hkl hr ?_, by simp, ?_, ?_, ?_⟩
      · simp only [Due, hrn]
        have hb := renewDelay_bounds (if d.rebindAt > d.tick then d.rebindAt - d.tick else 0)
        generalize hx : renewDelay (if d.rebindAt > d.tick then d.rebindAt - d.tick else 0) = x at *
        split at hb <;> split <;> omega
      · simp only [sched]; split <;> rfl
      · simp only [sched]; split <;> rfl
      · intro h; rw [hrn] at h; simp at h
    · rename_i hrn
      have hrb : d.ph = .rebind := by rcases hph with h | h; exact absurd h hrn; exact h
      rw [if_pos hrb, schedRenew, if_neg (by omega)]
      have hb := renewDelay_bounds (if d.expires > d.tick then d.expires - d.tick else 0)
      refine ⟨sched_inv s _ e _ hcl hkl hr ?_, by simp, ?_, ?_, ?_⟩
      · simp only [Due, hrb]
        generalize hx : renewDelay (if d.expires > d.tick then d.expires - d.tick else 0) = x at *
        split at hb <;> split <;> omega
      · simp only [sched]; split <;> rfl
      · simp only [sched]; split <;> rfl
      · intro _ t htm hx
        rw [if_neg (show ¬ d.expires > d.tick by omega)] at htm
        simp only [sched, hc.2.1] at htm
        have h1 : renewDelay 0 = 1 := by decide
        split at htm
        · simp only [List.nil_append, List.mem_singleton] at htm
          rw [htm, h1]; simp
        · simp [hc.2.1] at htm
  · refine ⟨sched_inv s _ e _ hc hk hr ?_, by simp, ?_, ?_, ?_⟩
    · rcases hph with h | h <;> simp only [Due, h] <;> split <;> omega
    · simp only [sched]; split <;> rfl
    · simp only [sched]; split <;> rfl
    · intro _ t htm hx
      simp only [sched, hc.2.1] at htm
      split at htm
      · simp only [List.nil_append, List.mem_singleton] at htm
        rw [htm]; simp
      · simp [hc.2.1] at htm

theorem bump_inv (s : Bool) (r : Cli × Bool) (h : CInv s r.1) (hc : r.2 = true → r.1.ph = .off ∨ r.1.ph = .disc ∨ r.1.ph = .req → r.1.count + 1 ≤ 3) :
    CInv s (bump r) := by
  rw [bump]
  split
  · rename_i hb
    exact ⟨⟨h.1.noip, h.1.times, hc hb, h.1.probes⟩, h.2⟩
  · exact h

theorem timerCb_inv (s : Bool) (d : Cli) (e : Env) (t : Nat) (hk : Core d) (hid : 0 < d.nextId) (hh : d.heap = [])
    (hd : Due d t) (ht : t ≤ d.tick) (hr : s = true → e.room = true) : CInv s (timerCb d e) := by
  have hcl : Clean { d with timer := 0 } := ⟨hid, hh, rfl⟩
  have hkl : Core { d with timer := 0 } := ⟨hk.noip, hk.times, hk.count, hk.probes⟩
  have hclean : ∀ (x : Cli), x.nextId = d.nextId → x.heap = [] → x.timer = 0 → Clean x := by
    intro x h1 h2 h3; exact ⟨by rw [h1]; exact hid, h2, h3⟩
  have hrest : ∀ x : Cli, x.nextId = d.nextId → x.heap = [] → x.timer = 0 → x.probes ≤ 3 → CInv s (restart x e) := by
    intro x h1 h2 h3 h4
    refine (restart_inv s x e ?_ h4 hr).1
    obtain ⟨h, t, eq⟩ := cancelTimer_eq x
    rw [cancelTimer, heapCancel, if_pos h3]
    exact ⟨by simp only [h1]; exact hid, h2, h3⟩
  rw [timerCb]
  simp only
  split
  · rename_i hp
    split
    · rename_i hc
      have h := sendDiscover_inv s { d with timer := 0 } e hcl (hk.noip (Or.inr hp)) (hk.count (by simp [hp])) hk.probes hr
      apply bump_inv s _ h.1
      intro _ _; rw [h.2.2.1]; simp only at hc ⊢; omega
    · exact ⟨⟨fun _ => hk.noip (Or.inr hp), by simp, fun _ => hk.count (by simp [hp]), hk.probes⟩, hid,
        Or.inl ⟨hh, rfl, fun _ => rfl⟩⟩
  · rename_i hp
    split
    · rename_i hc
      have h := sendRequest_req s { d with timer := 0 } e hcl (by simp [hp]) (hk.count (by simp [hp])) hk.probes hr
      apply bump_inv s _ h.1
      intro _ _; rw [h.2.2.1]; simp only at hc ⊢; omega
    · exact ⟨⟨fun _ => rfl, by simp, fun _ => hk.count (by simp [hp]), hk.probes⟩, hid,
        Or.inl ⟨hh, rfl, fun _ => rfl⟩⟩
  · rename_i hp
    split
    · exact hrest _ rfl hh rfl hk.probes
    split
    · rename_i h1 h2
      exfalso
      simp only [Due, hp] at hd
      omega
    · have h := sendRequest_renew s { d with timer := 0, ph := .renew, count := 0, xid := e.rnd } e (hclean _ rfl hh rfl)
        ⟨by simp, fun _ => hk.times (by simp [hp]), by simp, hk.probes⟩ (by simp) hr
      apply bump_inv s _ h.1
      intro _ hx; rw [h.2.1] at hx; simp at hx
  · rename_i hp
    split
    · have h := sendRequest_renew s { d with timer := 0, ph := .rebind, count := 0 } e (hclean _ rfl hh rfl)
        ⟨by simp, fun _ => hk.times (by simp [hp]), by simp, hk.probes⟩ (by simp) hr
      apply bump_inv s _ h.1
      intro _ hx; rw [h.2.1] at hx; simp at hx
    · have h := sendRequest_renew s { d with timer := 0 } e hcl hkl (by simp [hp]) hr
      apply bump_inv s _ h.1
      intro _ hx; rw [h.2.1] at hx; simp [hp] at hx
  · rename_i hp
    split
    · exact hrest _ rfl hh rfl hk.probes
    · have h := sendRequest_renew s { d with timer := 0 } e hcl hkl (by simp [hp]) hr
      apply bump_inv s _ h.1
      intro _ hx; rw [h.2.1] at hx; simp [hp] at hx
  · rename_i hp
    split
    · rename_i hpr
      split
      · apply sched_inv s { d with timer := 0, probes := d.probes + 1 } e _ (hclean _ rfl hh rfl) ⟨by simp [hp], fun _ => hk.times (by simp [hp]), by simp [hp], by simp only at hpr ⊢; omega⟩ hr
        simp only [Due, hp]; split <;> omega
      · apply sched_inv s _ e _ hcl hkl hr
        simp only [Due, hp]; split <;> omega
    · apply sched_inv s { d with timer := 0, probes := 0, ph := .bound } e _ (hclean _ rfl hh rfl) ⟨by simp, fun _ => hk.times (by simp [hp]), by simp, by simp⟩ hr
      simp only [Due]; split <;> omega
  · rename_i hp
    simp [Due, hp] at hd

theorem commit_inv (s : Bool) (d : Cli) (e : Env) (a : Cand) (srv ip mask : Nat) (h : CInv s d) (hl : a.lease ≠ 0)
    (hr : s = true → e.room = true) : CInv s (commit d e a srv ip mask) := by
  have hc := cancelTimer_clean s { d with server := srv, ip := ip, mask := mask, gw := a.gw.getD d.gw, dns := if d.dns = 0 ∧ a.dns ≠ 0 then a.dns else d.dns } (by
    obtain ⟨h0, h1⟩ := h.2
    exact ⟨h0, h1⟩)
  obtain ⟨hp, t, eq⟩ := cancelTimer_eq { d with server := srv, ip := ip, mask := mask, gw := a.gw.getD d.gw, dns := if d.dns = 0 ∧ a.dns ≠ 0 then a.dns else d.dns }
  simp only [commit]
  rw [eq] at hc ⊢
  obtain ⟨hc1, hc2, hc3⟩ := hc
  simp only at hc1 hc2 hc3
  subst hc2 hc3
  simp only
  have hlt := lease_times_ordered a.lease a.t1 a.t2 (by omega)

  have hclean : ∀ (x : Cli) (w : Nat), x.nextId > 0 → x.heap = [] → Clean (heapCancel (sched x e w)) := by
    intro x w h1 h2
    rw [sched]
    split
    · rw [heapCancel, if_neg (by simp only; omega)]
      exact ⟨Nat.succ_pos _, by rw [h2]; simp, rfl⟩
    · rw [heapCancel, if_pos rfl]; exact ⟨h1, h2, rfl⟩
  have hfields : ∀ (x : Cli) (w : Nat), ∃ hh tt nn, heapCancel (sched x e w) = { x with heap := hh, timer := tt, nextId := nn } := by
    intro x w
    obtain ⟨h1, t1, e1⟩ := heapCancel_fields (sched x e w)
    rw [e1, sched]
    split <;> exact ⟨_, _, _, rfl⟩
  have main : ∀ (x : Cli) (w : Nat), x.nextId > 0 → x.heap = [] → x.ph = .dad → x.probes = 0 →
      0 < x.renewAt ∧ x.renewAt ≤ x.rebindAt ∧ x.rebindAt ≤ x.expires →
      CInv s (sched (if e.probeOk then { heapCancel (sched x e w) with probes := 1 } else heapCancel (sched x e w)) e
        ((heapCancel (sched x e w)).tick + 1000)) := by
    intro x w h1 h2 h3 h4 h5
    have c := hclean x w h1 h2
    obtain ⟨hh, tt, nn, ex⟩ := hfields x w
    rw [ex] at c ⊢
    split
    · refine sched_inv s { x with heap := hh, timer := tt, nextId := nn, probes := 1 } e _ c ⟨by simp [h3], fun _ => h5, by simp [h3], by simp⟩ hr ?_
      simp only [Due, h3]; split <;> omega
    · refine sched_inv s { x with heap := hh, timer := tt, nextId := nn } e _ c ⟨by simp [h3], fun _ => h5, by simp [h3], by simp [h4]⟩ hr ?_
      simp only [Due, h3]; split <;> omega
  simp only [schedLease, if_neg hl]
  apply main
  · exact hc1
  · rfl
  · rfl
  · rfl
  · simp only; omega

theorem parseOffer_inv (s : Bool) (d : Cli) (m : Msg) (h : CInv s d) (hp : d.ph = .disc) :
    ((parseOffer d m).2 = false → CInv s (parseOffer d m).1) ∧
    ((parseOffer d m).2 = true → Clean (parseOffer d m).1 ∧ (parseOffer d m).1.ph = .req ∧ (parseOffer d m).1.count = 0 ∧
      (parseOffer d m).1.probes ≤ 3 ∧ (parseOffer d m).1.tick = d.tick) := by
  have hinv : ∀ srv, CInv s { d with server := srv } := by
    intro srv
    exact ⟨⟨h.1.noip, h.1.times, h.1.count, h.1.probes⟩, h.2⟩
  have h0 : CInv s d := hinv d.server
  simp only [parseOffer]
  split
  · exact ⟨fun _ => h0, by simp⟩
  split
  · split
    · exact ⟨fun _ => h0, by simp⟩
    · split
      · exact ⟨fun _ => h0, by simp⟩
      split
      · rename_i hc
        exact absurd (h.1.noip (Or.inr hp)) hc.2
      · exact ⟨fun _ => h0, by simp⟩
    · split
      · exact ⟨fun _ => hinv _, by simp⟩
      split
      · refine ⟨by simp, fun _ => ?_⟩
        rename_i l _ _ _ _
        have hc := cancelTimer_clean s { d with server := (offerOpts l (d.server, false, 4294967040)).1.1, offIp := m.yiaddr, offMask := (offerOpts l (d.server, false, 4294967040)).1.2.2 } h.2
        obtain ⟨hh, t, eq⟩ := cancelTimer_eq { d with server := (offerOpts l (d.server, false, 4294967040)).1.1, offIp := m.yiaddr, offMask := (offerOpts l (d.server, false, 4294967040)).1.2.2 }
        refine ⟨⟨hc.1, hc.2.1, hc.2.2⟩, rfl, rfl, ?_, ?_⟩
        · simp only; rw [eq]; exact h.1.probes
        · simp only; rw [eq]
      · exact ⟨fun _ => hinv _, by simp⟩
  · exact ⟨fun _ => h0, by simp⟩

/-- Every event of a history in which no timer insertion failed has room. -/
def Roomy (s : Bool) : Ev → Prop
  | .init e _ _ => s = true → e.room = true
  | .advance _ => True
  | .fire _ e => s = true → e.room = true
  | .recv e _ => s = true → e.room = true
  | .claim e => s = true → e.room = true

theorem clean_of_off (s : Bool) (d : Cli) (h : HeapOk s d) (hp : d.ph = .off) : Clean d := by
  obtain ⟨h0, ⟨h1, h2, _⟩ | ⟨t, _, _, _, h4⟩⟩ := h
  · exact ⟨h0, h1, h2⟩
  · simp [Due, hp] at h4

theorem step_inv (s : Bool) (d : Cli) (ev : Ev) (h : CInv s d) (hr : Roomy s ev) : CInv s (d.step ev) := by
  cases ev with
  | init e ok x =>
    simp only [Cli.step, clientInit]
    split
    · exact h
    rename_i hp
    have hp : d.ph = .off := by
      rcases Classical.em (d.ph = .off) with h | h
      · exact h
      · exact absurd h hp
    split
    · exact (sendDiscover_inv s { d with xid := x } e (clean_of_off s d h.2 hp) (h.1.noip (Or.inl hp))
        (h.1.count (Or.inl hp)) h.1.probes hr).1
    · exact ⟨⟨h.1.noip, h.1.times, h.1.count, h.1.probes⟩, h.2⟩
  | advance now =>
    simp only [Cli.step]
    split
    · rename_i hn
      refine ⟨⟨h.1.noip, h.1.times, h.1.count, h.1.probes⟩, h.2.1, ?_⟩
      rcases h.2.2 with h' | ⟨t, h1, h2, h3, h4⟩
      · exact Or.inl h'
      · refine Or.inr ⟨t, h1, h2, h3, ?_⟩
        cases hp : d.ph <;> simp only [Due, hp] at h4 ⊢ <;> omega
    · exact h
  | claim e =>
    simp only [Cli.step, conflict]
    split
    · obtain ⟨hh, t, eq⟩ := cancelTimer_eq { d with probes := 0 }
      have hc := cancelTimer_clean s { d with probes := 0 } h.2
      refine (sendDiscover_inv s { deconfigure (cancelTimer { d with probes := 0 }) with ph := .off, count := 0 } e
        ⟨hc.1, hc.2.1, hc.2.2⟩ rfl (Nat.zero_le _) ?_ hr).1
      rw [eq]; exact Nat.zero_le _
    · exact h
  | fire id e =>
    simp only [Cli.step]
    rcases h.2.2 with ⟨h1, h2, _⟩ | ⟨t, h1, h2, h3, h4⟩
    · rw [h1]; simpa using h
    · rw [h1]
      by_cases hid : d.timer = id
      · simp only [List.find?_cons, hid, decide_true]
        split
        · rename_i ht
          refine timerCb_inv s { d with heap := [(id, t)].filter (fun y => y.1 ≠ id) } e t
            ⟨h.1.noip, h.1.times, h.1.count, h.1.probes⟩ h.2.1 (by simp) ?_ ht hr
          exact h4
        · exact h
      · simp only [List.find?_cons, hid, decide_false, List.find?_nil]
        exact h
  | recv e m =>
    simp only [Cli.step, poll]
    split
    · exact h
    split
    · rename_i hp
      obtain ⟨a, b⟩ := parseOffer_inv s d m h hp
      split
      · rename_i hb
        obtain ⟨b1, b2, b3, b4, _⟩ := b hb
        exact (sendRequest_req s _ e b1 (by simp [b2]) (by omega) b4 hr).1
      · rename_i hb; exact a (by simpa using hb)
    split
    · split
      · exact (restart_inv s d e (cancelTimer_clean s d h.2) h.1.probes hr).1
      · rcases parseAck_cases d e m with ⟨h', _⟩ | ⟨post, a, srv, h1, h2, h3, _, h5, _⟩
        · rw [h']; exact h
        · rw [h2]
          refine commit_inv s d e a srv _ _ h ?_ hr
          have := h1.lease
          rw [← h5] at this
          exact this
    · exact h

theorem run_inv (s : Bool) : ∀ (l : List Ev) (d : Cli), CInv s d → (∀ ev ∈ l, Roomy s ev) → CInv s (d.run l) := by
  intro l
  induction l with
  | nil => intro d h _; exact h
  | cons ev t ih =>
    intro d h hr
    rw [List.forall_mem_cons] at hr
    exact ih _ (step_inv s d ev h hr.1) hr.2

theorem start_inv (s : Bool) (ip mask gw dns : Nat) (pinned : Bool) (tick : Nat) :
    CInv s (Cli.start ip mask gw dns pinned tick) :=
  ⟨⟨fun _ => rfl, by simp [Cli.start], by simp [Cli.start], by simp [Cli.start]⟩, by simp [Cli.start],
    Or.inl ⟨rfl, rfl, fun _ => rfl⟩⟩

/-! ## C33 -/

/-- **C33, a timer is always armed.** In every history of timer expirations, send and probe failures,
received messages, address claims and restarts in which the timer heap had room, a client that is not off
has exactly one armed timer, whose deadline is bounded by the state it is in: 65 s ahead at most while
discovering, 64.2 s while requesting, one second while probing, the renewal time when bound, and the
rebinding and expiry times while renewing and rebinding (or the next tick, if those have passed). -/
theorem dhcp_timer_armed_partial (ip mask gw dns : Nat) (pinned : Bool) (tick : Nat) (l : List Ev)
    (hr : ∀ ev ∈ l, Roomy true ev) (d : Cli) (hd : d = (Cli.start ip mask gw dns pinned tick).run l) (hp : d.ph ≠ .off) :
    ∃ t, d.heap = [(d.timer, t)] ∧
      (d.ph = .disc → t ≤ d.tick + 65000) ∧ (d.ph = .req → t ≤ d.tick + 64199) ∧ (d.ph = .dad → t ≤ d.tick + 1000) ∧
      (d.ph = .bound → d.renewAt ≤ t ∧ t ≤ max d.renewAt (d.tick + 1)) ∧
      (d.ph = .renew → t ≤ max d.rebindAt (d.tick + 1)) ∧ (d.ph = .rebind → t ≤ max d.expires (d.tick + 1)) := by
  have h := run_inv true l _ (start_inv true ip mask gw dns pinned tick) hr
  rw [← hd] at h
  rcases h.2.2 with ⟨_, _, h'⟩ | ⟨t, h1, h2, h3, h4⟩
  · exact absurd (h' rfl) hp
  · refine ⟨t, h1, ?_, ?_, ?_, ?_, ?_, ?_⟩ <;> (intro hx; simpa only [Due, hx] using h4)

/-- In every history at all, there is at most one entry of the client in the heap, and none when it is
off: a timer of an earlier acquisition never fires into a later one. -/
theorem dhcp_at_most_one_timer (ip mask gw dns : Nat) (pinned : Bool) (tick : Nat) (l : List Ev)
    (d : Cli) (hd : d = (Cli.start ip mask gw dns pinned tick).run l) :
    d.heap.length ≤ 1 ∧ (d.ph = .off → d.heap = []) := by
  have h := run_inv false l _ (start_inv false ip mask gw dns pinned tick) (by
    intro ev _; cases ev <;> simp [Roomy])
  rw [← hd] at h
  rcases h.2.2 with ⟨h1, _, _⟩ | ⟨t, h1, h2, h3, h4⟩
  · rw [h1]; simp
  · rw [h1]; refine ⟨by simp, fun hp => ?_⟩
    simp [Due, hp] at h4

/-- Without room in the heap the client can be left waiting with no timer: the full statement of C33
needs the room. -/
theorem dhcp_timer_lost_when_heap_full :
    let d := (Cli.start 0 0 0 0 false 100).run [.init { exEnv with room := false } true 42]
    d.ph = .disc ∧ d.heap = [] := by decide +kernel

/-- Only timer expirations and the passing of time. -/
def Quiet : Ev → Prop
  | .advance _ => True
  | .fire _ _ => True
  | _ => False

theorem fire_cases (s : Bool) (d : Cli) (id : Nat) (e : Env) (h : CInv s d) :
    d.step (.fire id e) = d ∨ ∃ t, d.heap = [(id, t)] ∧ d.timer = id ∧ t ≤ d.tick ∧ d.step (.fire id e) = timerCb { d with heap := [] } e := by
  simp only [Cli.step]
  rcases h.2.2 with ⟨h1, h2, _⟩ | ⟨t, h1, h2, h3, h4⟩
  · rw [h1]; left; rfl
  · rw [h1]
    by_cases hid : d.timer = id
    · simp only [List.find?_cons, hid, decide_true]
      split
      · rename_i ht
        right
        exact ⟨t, rfl, trivial, ht, by simp⟩
      · left; rfl
    · simp only [List.find?_cons, hid, decide_false, List.find?_nil]
      left; trivial

theorem quiet_bound (s : Bool) : ∀ (l : List Ev) (d : Cli), CInv s d → (∀ ev ∈ l, Quiet ev) → (∀ ev ∈ l, Roomy s ev) →
    (d.ph = .disc ∨ d.ph = .off →
      ((d.run l).ph = .disc ∨ (d.run l).ph = .off) ∧ ∃ k, (d.run l).sent = d.sent ++ List.replicate k 1 ∧ k + d.count = (d.run l).count) ∧
    (d.ph = .req ∨ d.ph = .off →
      ((d.run l).ph = .req ∨ (d.run l).ph = .off) ∧ ∃ k, (d.run l).sent = d.sent ++ List.replicate k 3 ∧ k + d.count = (d.run l).count) := by
  intro l
  induction l with
  | nil =>
    intro d h _ _
    exact ⟨fun hp => ⟨hp, 0, by simp [Cli.run], by simp [Cli.run]⟩, fun hp => ⟨hp, 0, by simp [Cli.run], by simp [Cli.run]⟩⟩
  | cons ev t ih =>
    intro d h hq hr
    rw [List.forall_mem_cons] at hq hr
    have hs := step_inv s d ev h hr.1
    obtain ⟨i1, i2⟩ := ih _ hs hq.2 hr.2
    have hrun : d.run (ev :: t) = (d.step ev).run t := rfl
    rw [hrun]
    -- what one quiet event does
    have one : (d.ph = .disc ∨ d.ph = .off → ((d.step ev).ph = .disc ∨ (d.step ev).ph = .off) ∧
          ∃ k, (d.step ev).sent = d.sent ++ List.replicate k 1 ∧ k + d.count = (d.step ev).count) ∧
        (d.ph = .req ∨ d.ph = .off → ((d.step ev).ph = .req ∨ (d.step ev).ph = .off) ∧
          ∃ k, (d.step ev).sent = d.sent ++ List.replicate k 3 ∧ k + d.count = (d.step ev).count) := by
      have triv : ∀ x : Cli, x.ph = d.ph → x.sent = d.sent → x.count = d.count → (d.ph = .disc ∨ d.ph = .off → (x.ph = .disc ∨ x.ph = .off) ∧
          ∃ k, x.sent = d.sent ++ List.replicate k 1 ∧ k + d.count = x.count) ∧
        (d.ph = .req ∨ d.ph = .off → (x.ph = .req ∨ x.ph = .off) ∧
          ∃ k, x.sent = d.sent ++ List.replicate k 3 ∧ k + d.count = x.count) := by
        intro x h1 h2 h3
        rw [h1, h2, h3]
        exact ⟨fun hp => ⟨hp, 0, by simp, by simp⟩, fun hp => ⟨hp, 0, by simp, by simp⟩⟩
      cases ev with
      | advance now => simp only [Cli.step]; split <;> exact triv _ rfl rfl rfl
      | fire id e =>
        have hr1 : s = true → e.room = true := hr.1
        rcases fire_cases s d id e h with h' | ⟨tt, h1, h2, h3, h4⟩
        · rw [h']; exact triv _ rfl rfl rfl
        · rw [h4]
          have hcl : Clean { d with heap := [], timer := 0 } := ⟨h.2.1, rfl, rfl⟩
          refine ⟨fun hp => ?_, fun hp => ?_⟩
          · rcases hp with hp | hp
            · simp only [timerCb, hp]
              split
              · have g := sendDiscover_inv s { d with heap := [], timer := 0 } e hcl (h.1.noip (Or.inr hp)) (h.1.count (by simp [hp])) h.1.probes hr1
                obtain ⟨_, g2, g3, _, g5⟩ := g
                have hf : ∀ x : Cli, (sendDiscover x e).2 = e.sendOk := by
                  intro x; simp only [sendDiscover]; split <;> simp_all
                simp only [hp] at g2 g3 g5
                simp only [bump, hf]
                split
                · rename_i hso
                  rw [if_pos hso] at g5
                  refine ⟨Or.inl g2, 1, by simpa using g5, by simp only [g3]; omega⟩
                · rename_i hso
                  rw [if_neg hso] at g5
                  refine ⟨Or.inl g2, 0, by simpa using g5, by simp only [g3]; omega⟩
              · exact ⟨Or.inr rfl, 0, by simp, by simp⟩
            · rcases h.2.2 with ⟨e1, _, _⟩ | ⟨t', _, _, _, e4⟩
              · rw [e1] at h1; simp at h1
              · simp [Due, hp] at e4
          · rcases hp with hp | hp
            · simp only [timerCb, hp]
              split
              · have g := sendRequest_req s { d with heap := [], timer := 0 } e hcl (by simp [hp]) (h.1.count (by simp [hp])) h.1.probes hr1
                obtain ⟨_, g2, g3, _, g5, g6⟩ := g
                simp only [hp] at g2 g3 g5 g6
                simp only [bump, g6]
                split
                · rename_i hso
                  rw [if_pos hso] at g5
                  refine ⟨Or.inl g2, 1, by simpa using g5, by simp only [g3]; omega⟩
                · rename_i hso
                  rw [if_neg hso] at g5
                  refine ⟨Or.inl g2, 0, by simpa using g5, by simp only [g3]; omega⟩
              · exact ⟨Or.inr rfl, 0, by simp [deconfigure], by simp [deconfigure]⟩
            · rcases h.2.2 with ⟨e1, _, _⟩ | ⟨t', _, _, _, e4⟩
              · rw [e1] at h1; simp at h1
              · simp [Due, hp] at e4
      | init e ok x => simp [Quiet] at hq
      | recv e m => simp [Quiet] at hq
      | claim e => simp [Quiet] at hq
    refine ⟨fun hp => ?_, fun hp => ?_⟩
    · obtain ⟨a, k, b, c⟩ := one.1 hp
      obtain ⟨a', k', b', c'⟩ := i1 a
      exact ⟨a', k + k', by rw [b', b, List.append_assoc, List.replicate_append_replicate], by omega⟩
    · obtain ⟨a, k, b, c⟩ := one.2 hp
      obtain ⟨a', k', b', c'⟩ := i2 a
      exact ⟨a', k + k', by rw [b', b, List.append_assoc, List.replicate_append_replicate], by omega⟩

/-- **C33, retransmissions are bounded.** From any reachable state in which the client is discovering
(requesting), however long no server answers, it sends at most three more DISCOVERs (REQUESTs). -/
theorem dhcp_retransmissions_bounded (ip mask gw dns : Nat) (pinned : Bool) (tick : Nat) (h : List Ev) (l : List Ev)
    (d : Cli) (hd : d = (Cli.start ip mask gw dns pinned tick).run h) (hq : ∀ ev ∈ l, Quiet ev)
    (hp : d.ph = .disc ∨ d.ph = .req) :
    ∃ k ty, (d.run l).sent = d.sent ++ List.replicate k ty ∧ k ≤ 3 := by
  have hall : ∀ l' : List Ev, ∀ ev ∈ l', Roomy false ev := by intro l' ev _; cases ev <;> simp [Roomy]
  have hi := run_inv false h _ (start_inv false ip mask gw dns pinned tick) (hall h)
  rw [← hd] at hi
  have hi' := run_inv false l d hi (hall l)
  obtain ⟨a, b⟩ := quiet_bound false l d hi hq (hall l)
  rcases hp with hp | hp
  · obtain ⟨g, k, e1, e2⟩ := a (Or.inl hp)
    have := hi'.1.count (by rcases g with g | g <;> simp [g])
    exact ⟨k, 1, e1, by omega⟩
  · obtain ⟨g, k, e1, e2⟩ := b (Or.inl hp)
    have := hi'.1.count (by rcases g with g | g <;> simp [g])
    exact ⟨k, 3, e1, by omega⟩

/-- A timer event that takes place: the clock reaches `now` and the armed timer fires. -/
def fireAt (d : Cli) (x : Nat × Env) : Cli := (d.step (.advance x.1)).step (.fire d.timer x.2)

/-- Timer events, each late enough for the timer then armed, with room in the heap. -/
def Effective : Cli → List (Nat × Env) → Prop
  | _, [] => True
  | d, x :: t => (∀ y ∈ d.heap, y.2 ≤ x.1) ∧ d.tick ≤ x.1 ∧ x.2.room = true ∧ Effective (fireAt d x) t

theorem fireAt_eq (d : Cli) (x : Nat × Env) (h : CInv true d) (hp : d.ph ≠ .off) (h1 : ∀ y ∈ d.heap, y.2 ≤ x.1)
    (h2 : d.tick ≤ x.1) (h3 : x.2.room = true) :
    CInv true (fireAt d x) ∧ fireAt d x = timerCb { d with heap := [], tick := x.1 } x.2 := by
  have ha : d.step (.advance x.1) = { d with tick := x.1 } := by simp [Cli.step, h2]
  have hi := step_inv true d (.advance x.1) h trivial
  have hf := step_inv true _ (.fire d.timer x.2) hi (fun _ => h3)
  refine ⟨hf, ?_⟩
  rw [fireAt, ha]
  rcases h.2.2 with ⟨_, _, e⟩ | ⟨t, e1, e2, _, _⟩
  · exact absurd (e rfl) hp
  · have := h1 (d.timer, t) (by rw [e1]; simp)
    simp only at this
    simp [Cli.step, e1, this]

/-- **C33, termination.** If no server ever answers and sending works, four timer events take a
discovering or requesting client to the state off. -/
theorem dhcp_unanswered_terminates (d : Cli) (h : CInv true d) (hp : d.ph = .disc ∨ d.ph = .req)
    (l : List (Nat × Env)) (he : Effective d l) (hs : ∀ x ∈ l, x.2.sendOk = true) (hl : l.length = 4 - d.count) :
    (l.foldl fireAt d).ph = .off := by
  have hc := h.1.count (by rcases hp with hp | hp <;> simp [hp])
  induction l generalizing d with
  | nil => simp at hl; omega
  | cons x t ih =>
    obtain ⟨e1, e2, e3, e4⟩ := he
    rw [List.forall_mem_cons] at hs
    simp only [List.length_cons] at hl
    have hoff : d.ph ≠ .off := by rcases hp with hp | hp <;> simp [hp]
    obtain ⟨hi, eq⟩ := fireAt_eq d x h hoff e1 e2 e3
    have hcl : Clean { d with heap := [], timer := 0, tick := x.1 } := ⟨h.2.1, rfl, rfl⟩
    rw [List.foldl_cons]
    by_cases hc3 : d.count < 3
    · have hph : (fireAt d x).ph = d.ph ∧ (fireAt d x).count = d.count + 1 := by
        rw [eq]
        rcases hp with hp | hp
        · have g := sendDiscover_inv true { d with heap := [], timer := 0, tick := x.1 } x.2 hcl (h.1.noip (Or.inr hp)) hc h.1.probes (fun _ => e3)
          have hf : (sendDiscover { d with heap := [], timer := 0, tick := x.1 } x.2).2 = true := by
            simp only [sendDiscover]; rw [if_pos hs.1]
          simp only [timerCb, hp, if_pos hc3, bump]
          simp only [hp] at g hf
          rw [if_pos hf]
          exact ⟨g.2.1, by simp only [g.2.2.1]⟩
        · have g := sendRequest_req true { d with heap := [], timer := 0, tick := x.1 } x.2 hcl (by simp [hp]) hc h.1.probes (fun _ => e3)
          simp only [timerCb, hp, if_pos hc3, bump]
          simp only [hp] at g
          rw [if_pos (by rw [g.2.2.2.2.2, hs.1])]
          exact ⟨g.2.1, by simp only [g.2.2.1]⟩
      exact ih _ hi (by rw [hph.1]; exact hp) e4 hs.2 (by omega) (by omega)
    · have : t = [] := List.length_eq_zero_iff.1 (by omega)
      subst this
      rw [List.foldl_nil, eq]
      rcases hp with hp | hp <;> simp only [timerCb, hp, if_neg hc3]

/-- Starting the client again after an unanswered acquisition does not reset the retransmission count
(src/wolfip.c 9350–9386): the second attempt sends one DISCOVER and gives up at its first timeout. -/
theorem dhcp_second_attempt_gives_up :
    let w (n : Nat) : List Ev := [.advance n, .fire 1 exEnv, .fire 2 exEnv, .fire 3 exEnv, .fire 4 exEnv, .fire 5 exEnv]
    let d := (Cli.start 0 0 0 0 false 100).run ([.init exEnv true 42] ++ w 100000 ++ w 200000 ++ w 300000 ++ w 400000)
    let d' := d.step (.init exEnv true 43)
    d.ph = .off ∧ d.sent = [1, 1, 1, 1] ∧ d'.ph = .disc ∧ (d'.run (w 500000)).ph = .off ∧ (d'.run (w 500000)).sent = [1, 1, 1, 1, 1] := by
  decide +kernel

/-! ## C32: the lease is given up -/

/-- Lease order in every reachable state. -/
theorem dhcp_lease_times_reachable (ip mask gw dns : Nat) (pinned : Bool) (tick : Nat) (l : List Ev) (d : Cli)
    (hd : d = (Cli.start ip mask gw dns pinned tick).run l)
    (hp : d.ph = .bound ∨ d.ph = .renew ∨ d.ph = .rebind ∨ d.ph = .dad) :
    0 < d.renewAt ∧ d.renewAt ≤ d.rebindAt ∧ d.rebindAt ≤ d.expires := by
  have h := run_inv false l _ (start_inv false ip mask gw dns pinned tick) (by intro ev _; cases ev <;> simp [Roomy])
  rw [← hd] at h
  exact h.1.times hp

/-- Timer events needed to give up an expired lease. -/
def rank (d : Cli) : Nat :=
  match d.ph with
  | .bound => 1
  | .rebind => 1
  | .renew => 2
  | .dad => 5 - d.probes
  | _ => 0

/-- The lease has expired and is still held, or the address is gone and the client is discovering. -/
def Going (d : Cli) : Prop :=
  (0 < rank d ∧ d.expires ≤ d.tick) ∨ (rank d = 0 ∧ d.conf = (0, 0, 0) ∧ (d.ph = .disc ∨ d.ph = .off))

theorem fireAt_going (d : Cli) (x : Nat × Env) (h : CInv true d) (hg : Going d) (h1 : ∀ y ∈ d.heap, y.2 ≤ x.1)
    (h2 : d.tick ≤ x.1) (h3 : x.2.room = true) (h4 : x.2.probeOk = true) :
    CInv true (fireAt d x) ∧ Going (fireAt d x) ∧ rank (fireAt d x) + 1 ≤ max (rank d) 1 := by
  by_cases hoff : d.ph = .off
  · have hcl := clean_of_off true d h.2 hoff
    have hi := step_inv true d (.advance x.1) h trivial
    have e : fireAt d x = { d with tick := x.1 } := by
      simp [fireAt, Cli.step, h2, hcl.2.1]
    have ha : d.step (.advance x.1) = { d with tick := x.1 } := by simp [Cli.step, h2]
    rw [ha] at hi
    rw [e]
    refine ⟨hi, ?_, by simp [rank, hoff]⟩
    rcases hg with hg | hg
    · simp [rank, hoff] at hg
    · exact Or.inr ⟨by simp [rank, hoff], hg.2.1, by simp [hoff]⟩
  obtain ⟨hi, eq⟩ := fireAt_eq d x h hoff h1 h2 h3
  refine ⟨hi, ?_⟩
  have hcl : Clean { d with heap := [], timer := 0, tick := x.1 } := ⟨h.2.1, rfl, rfl⟩
  have hrest : ∀ y : Cli, Going (restart y x.2) ∧ rank (restart y x.2) = 0 := by
    intro y
    have hph : (restart y x.2).ph = .disc := by
      rw [restart, sendDiscover]; split <;> simp
    have hr0 : rank (restart y x.2) = 0 := by simp [rank, hph]
    exact ⟨Or.inr ⟨hr0, restart_conf _ _, Or.inl hph⟩, hr0⟩
  rw [eq]
  have hsent := sendRequest_renew true
  cases hp : d.ph with
  | off => exact absurd hp hoff
  | disc =>
    rcases hg with hg | hg
    · simp [rank, hp] at hg
    · have hgo : ∀ y : Cli, y.conf = (0, 0, 0) → (y.ph = .disc ∨ y.ph = .off) → Going y ∧ rank y + 1 ≤ max (rank d) 1 := by
        intro y a b
        have : rank y = 0 := by rcases b with b | b <;> simp [rank, b]
        exact ⟨Or.inr ⟨this, a, b⟩, by omega⟩
      simp only [timerCb, hp]
      split
      · apply hgo
        · rw [bump_conf, sendDiscover_conf]; exact hg.2.1
        · left
          simp only [bump]
          split <;> (simp only [sendDiscover]; split <;> simp)
      · exact hgo _ hg.2.1 (Or.inr rfl)
  | req =>
    rcases hg with hg | hg
    · simp [rank, hp] at hg
    · rcases hg.2.2 with e | e <;> rw [hp] at e <;> simp at e
  | bound =>
    have ht := h.1.times (by simp [hp])
    rcases hg with hg | hg
    · simp only [timerCb, hp]
      rw [if_pos (by omega)]
      have := hrest { d with heap := [], timer := 0, tick := x.1 }
      simp only [hp] at this
      exact ⟨this.1, by rw [this.2]; omega⟩
    · simp [rank, hp] at hg
  | rebind =>
    have ht := h.1.times (by simp [hp])
    rcases hg with hg | hg
    · simp only [timerCb, hp]
      rw [if_pos (by omega)]
      have := hrest { d with heap := [], timer := 0, tick := x.1 }
      simp only [hp] at this
      exact ⟨this.1, by rw [this.2]; omega⟩
    · simp [rank, hp] at hg
  | renew =>
    have ht := h.1.times (by simp [hp])
    rcases hg with hg | hg
    · simp only [timerCb, hp]
      rw [if_pos (by omega)]
      have g := sendRequest_renew true { d with heap := [], timer := 0, tick := x.1, ph := .rebind, count := 0 } x.2
        ⟨h.2.1, rfl, rfl⟩ ⟨by simp, fun _ => ht, by simp, h.1.probes⟩ (by simp) (fun _ => h3)
      obtain ⟨_, g2, g3, g4, _⟩ := g
      have hb : ∀ r : Cli × Bool, (bump r).ph = r.1.ph ∧ (bump r).tick = r.1.tick ∧ (bump r).expires = r.1.expires := by
        intro r; simp only [bump]; split <;> exact ⟨rfl, rfl, rfl⟩
      have hr : rank (bump (sendRequest { d with heap := [], timer := 0, tick := x.1, ph := .rebind, count := 0 } x.2)) = 1 := by
        simp only [rank, (hb _).1, g2]
      refine ⟨Or.inl ⟨by rw [hr]; omega, ?_⟩, by rw [hr]; simp only [rank, hp]; omega⟩
      rw [(hb _).2.1, (hb _).2.2, g3, g4]
      simp only; omega
    · simp [rank, hp] at hg
  | dad =>
    have ht := h.1.times (by simp [hp])
    have hpr := h.1.probes
    rcases hg with hg | hg
    · simp only [timerCb, hp]
      have hs : ∀ (y : Cli) (w : Nat), (sched y x.2 w).ph = y.ph ∧ (sched y x.2 w).tick = y.tick ∧
          (sched y x.2 w).expires = y.expires ∧ (sched y x.2 w).probes = y.probes := by
        intro y w; simp only [sched]; split <;> exact ⟨rfl, rfl, rfl, rfl⟩
      split
      · rename_i hlt
        have hr : rank (sched { d with heap := [], timer := 0, tick := x.1, ph := .dad, probes := d.probes + 1 } x.2 (x.1 + 1000)) = 4 - d.probes := by
          simp only [rank, (hs _ _).1, (hs _ _).2.2.2]; omega
        refine ⟨Or.inl ⟨by rw [hr]; omega, ?_⟩, by rw [hr]; simp only [rank, hp]; omega⟩
        rw [(hs _ _).2.1, (hs _ _).2.2.1]; simp only; omega
      · rename_i hlt
        have hr : rank (sched { d with heap := [], timer := 0, tick := x.1, ph := .bound, probes := 0 } x.2 d.renewAt) = 1 := by
          simp only [rank, (hs _ _).1]
        refine ⟨Or.inl ⟨by rw [hr]; omega, ?_⟩, by rw [hr]; simp only [rank, hp]; omega⟩
        rw [(hs _ _).2.1, (hs _ _).2.2.1]; simp only; omega
    · simp only [rank, hp] at hg; omega

/-- **C32, giving up the lease.** Once the lease has expired, the address, mask and gateway are cleared
after at most two timer events when the client was renewing, one when it was bound or rebinding, and five
when it was still probing the address, and they stay cleared until an acknowledgement is received. The
full statement asks for the next timer event in every state; see `expired_lease_survives_a_timer_event`. -/
theorem dhcp_expired_lease_given_up_partial (d : Cli) (h : CInv true d)
    (hp : d.ph = .bound ∨ d.ph = .renew ∨ d.ph = .rebind ∨ d.ph = .dad) (hx : d.expires ≤ d.tick)
    (l : List (Nat × Env)) (he : Effective d l) (hok : ∀ x ∈ l, x.2.probeOk = true)
    (hl : (if d.ph = .dad then 5 else if d.ph = .renew then 2 else 1) ≤ l.length) :
    (l.foldl fireAt d).conf = (0, 0, 0) := by
  have main : ∀ (l : List (Nat × Env)) (d : Cli), CInv true d → Going d → Effective d l → (∀ x ∈ l, x.2.probeOk = true) →
      rank d ≤ l.length → (l.foldl fireAt d).conf = (0, 0, 0) := by
    intro l
    induction l with
    | nil =>
      intro d _ hg _ _ hr
      rcases hg with hg | hg
      · simp at hr; omega
      · exact hg.2.1
    | cons x t ih =>
      intro d hi hg he hok hr
      obtain ⟨e1, e2, e3, e4⟩ := he
      rw [List.forall_mem_cons] at hok
      obtain ⟨a, b, c⟩ := fireAt_going d x hi hg e1 e2 e3 hok.1
      refine ih _ a b e4 hok.2 ?_
      simp only [List.length_cons] at hr
      omega
  have hr := h.1.probes
  refine main l d h (Or.inl ⟨?_, hx⟩) he hok ?_
  · rcases hp with hp | hp | hp | hp <;> simp only [rank, hp] <;> omega
  · rcases hp with hp | hp | hp | hp <;> simp [hp] at hl <;> simp only [rank, hp] <;> omega

/-- A renewing client: lease of 3600 s obtained at time 100, all probes unanswered, first renewal sent. -/
def exRenew : Cli :=
  exReq.run [.recv exEnv exAck, .advance 1100, .fire 4 exEnv, .advance 2100, .fire 5 exEnv, .advance 3100, .fire 6 exEnv,
    .advance 1800100, .fire 7 exEnv]

/-- The next timer event after the expiry need not remove the address: a renewing client whose clock jumps
past the expiry first starts rebinding and keeps the address until the timer event after that. -/
theorem expired_lease_survives_a_timer_event :
    exRenew.ph = .renew ∧ exRenew.expires = 3600100 ∧
    (fireAt exRenew (9000000, exEnv)).conf = (167772169, 4294967040, 167772161) ∧
    (fireAt (fireAt exRenew (9000000, exEnv)) (9000001, exEnv)).conf = (0, 0, 0) := by decide +kernel

theorem exRenew_inv : CInv true exRenew := by
  have : exRenew = (Cli.start 0 0 0 0 false 100).run ([.init exEnv true 42, .recv exEnv exOffer] ++
    [.recv exEnv exAck, .advance 1100, .fire 4 exEnv, .advance 2100, .fire 5 exEnv, .advance 3100, .fire 6 exEnv,
    .advance 1800100, .fire 7 exEnv]) := by rw [Cli.run, List.foldl_append]; rfl
  rw [this]
  apply run_inv true _ _ (start_inv true _ _ _ _ _ _)
  intro ev hev
  simp only [List.mem_append, List.mem_cons, List.not_mem_nil, or_false] at hev
  rcases hev with (rfl | rfl) | (rfl | rfl | rfl | rfl | rfl | rfl | rfl | rfl | rfl) <;> simp [Roomy, exEnv]

/-- The hypotheses of `dhcp_expired_lease_given_up_partial` are met. -/
example : Effective { exRenew with tick := 9000000 } [(9000000, exEnv), (9000001, exEnv)] := by
  have h : exRenew.heap = [(8, 2475100)] := by decide +kernel
  have h2 : (fireAt { exRenew with tick := 9000000 } (9000000, exEnv)).heap = [(9, 9000001)] ∧
    (fireAt { exRenew with tick := 9000000 } (9000000, exEnv)).tick = 9000000 := by decide +kernel
  refine ⟨by simp [h], by simp, rfl, ?_, ?_, rfl, trivial⟩
  · rw [h2.1]; simp
  · rw [h2.2]; omega

end Wolf.Dhcp
