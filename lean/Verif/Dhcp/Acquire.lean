import Verif.Dhcp.Wire
/-!
# C103: with an honest server the client acquires, and keeps, a lease
-/
namespace Wolf.Dhcp

/-- The options of the server's replies. -/
def Srv.opts (v : Srv) : List (Nat × List Nat) :=
  [(54, be32 v.sid), (51, be32 v.lease), (1, be32 v.mask), (3, be32 v.gw), (6, be32 v.dns)]

theorem be32_bytes (v : Nat) : ∀ b ∈ be32 v, b < 256 := by
  intro b hb
  simp only [be32, List.mem_cons, List.not_mem_nil, or_false] at hb
  omega

theorem be32_len (v : Nat) : (be32 v).length = 4 := rfl

/-- The server's reply as the client reads it. -/
theorem reply_decoded {v : Srv} (hv : v.Ok) {w : Wire} {mac : List Nat} (hm : mac.length = 6)
    (hw : w.chaddr.take 6 = mac) (hx : w.xid < 2 ^ 32) {ty : Nat} (ht : ty < 256) :
    ∃ m, decode mac (v.reply w ty) = m ∧ m.mine = true ∧ m.op = 2 ∧ m.magic = 0x63825363 ∧ m.mxid = w.xid ∧
      m.yiaddr = v.ip ∧ 240 ≤ m.len ∧ ∀ strict, options m.regs strict = .done ((53, [ty]) :: v.opts) .sawEnd := by
  unfold Srv.reply
  rw [hw, decode_members hm hv.ip hx (by simp [encOpts, be32])]
  refine ⟨_, rfl, rfl, rfl, rfl, rfl, rfl, by dsimp only; omega, fun strict => ?_⟩
  refine options_enc (plain_iff.2 (by simp)) ?_ strict ?_ ?_
  · intro x hx
    simp only [List.mem_cons, List.not_mem_nil, or_false] at hx
    rcases hx with rfl | rfl | rfl | rfl | rfl | rfl
    · exact ⟨(by decide : 53 < 256), (by decide : 1 < 256), fun b hb => by rw [List.mem_singleton.1 hb]; exact ht⟩
    all_goals exact ⟨by simp, (by decide : 4 < 256), be32_bytes _⟩
  · intro b hb; rw [List.eq_of_mem_replicate hb]; decide
  · intro b hb; rw [List.eq_of_mem_replicate hb]; decide

theorem optOf53 (d : Cli) (i : Id) (f c ty : Nat) (l : List (Nat × List Nat)) :
    optOf 53 (clientWire d i f c ty l) = some [ty] := rfl

/-- The server answers a DISCOVER of ours with an offer. -/
theorem answers_discover {v : Srv} {d : Cli} {i : Id} {b : List Nat}
    (h : readWire b = some (clientWire d i 0x8000 0 1 [(55, [1, 3, 6])])) :
    v.answer b = some (v.reply (clientWire d i 0x8000 0 1 [(55, [1, 3, 6])]) 2) := by
  unfold Srv.answer
  rw [h, Option.bind_some, if_pos ⟨rfl, rfl, rfl, rfl, rfl⟩,
    if_pos (show optOf 53 _ = some [1] from rfl)]

/-- It answers a REQUEST that selects its offer with an acknowledgement. -/
theorem answers_select {v : Srv} {d : Cli} {i : Id} {b : List Nat} (hs : d.server = v.sid) (ho : d.offIp = v.ip)
    (h : readWire b = some (clientWire d i 0x8000 0 3
      [(55, [1, 3, 6]), (54, be32 d.server), (50, be32 d.offIp)])) :
    v.answer b = some (v.reply (clientWire d i 0x8000 0 3
      [(55, [1, 3, 6]), (54, be32 d.server), (50, be32 d.offIp)]) 5) := by
  unfold Srv.answer
  rw [h, Option.bind_some, if_pos ⟨rfl, rfl, rfl, rfl, rfl⟩, optOf53,
    if_neg (by decide : ¬ (some [3] = some [1])),
    if_pos ⟨rfl, Or.inl ⟨by rw [← hs]; rfl, by rw [← ho]; rfl, rfl⟩⟩]

/-- It answers a REQUEST that extends its lease with an acknowledgement. -/
theorem answers_extend {v : Srv} {d : Cli} {i : Id} {b : List Nat} (hi : d.ip = v.ip)
    (h : readWire b = some (clientWire d i 0 d.ip 3 [(55, [1, 3, 6])])) :
    v.answer b = some (v.reply (clientWire d i 0 d.ip 3 [(55, [1, 3, 6])]) 5) := by
  unfold Srv.answer
  rw [h, Option.bind_some, if_pos ⟨rfl, rfl, rfl, rfl, rfl⟩, optOf53,
    if_neg (by decide : ¬ (some [3] = some [1])),
    if_pos ⟨rfl, Or.inr ⟨rfl, rfl, hi⟩⟩]

/-- The offer is accepted and remembered. -/
theorem offer_accepted {v : Srv} (hv : v.Ok) {d : Cli} {m : Msg} (h1 : m.op = 2) (h2 : m.magic = 0x63825363)
    (h3 : m.mxid = d.xid) (h4 : m.yiaddr = v.ip) (h5 : 240 ≤ m.len)
    (h6 : ∀ strict, options m.regs strict = .done ((53, [2]) :: v.opts) .sawEnd) :
    parseOffer d m =
      ({ cancelTimer { d with server := v.sid, offIp := v.ip, offMask := v.mask } with ph := .req }, true) := by
  have hh : header d m = true := (header_iff d m).2 ⟨h5, h1, h2, h3⟩
  have ho : offerOpts v.opts (d.server, false, 4294967040) = ((v.sid, true, v.mask), true) := by
    unfold Srv.opts
    simp [offerOpts, be32_len, u32_be32 hv.sid, u32_be32 hv.mask.1]
  have hf : findType 2 false ((53, [2]) :: v.opts) = .rest v.opts :=
    findType_of_split 2 false [] v.opts (by simp)
  unfold parseOffer
  rw [hh, h6 true]
  dsimp only
  rw [hf]
  dsimp only
  rw [ho, if_neg (by decide), if_neg (by simp), h4, if_pos ((sane_iff _ _).2 hv.usable)]

/-- The acknowledgement is one the client accepts. -/
theorem ack_ok {v : Srv} (hv : v.Ok) {d : Cli} {m : Msg} (h1 : m.op = 2) (h2 : m.magic = 0x63825363)
    (h3 : m.mxid = d.xid) (h4 : m.yiaddr = v.ip) (h5 : 240 ≤ m.len) (hs : d.server = v.sid)
    (h6 : ∀ strict, options m.regs strict = .done ((53, [5]) :: v.opts) .sawEnd) :
    AckOk d m v.opts ∧ ¬ IsNak d m ∧ ackIp m v.opts = v.ip ∧ ackMask d v.opts = v.mask ∧
      lastVal 3 v.opts = some v.gw ∧ lastVal 51 v.opts = some v.lease := by
  have l1 : lastVal 1 v.opts = some v.mask := by simp [lastVal, optVals, Srv.opts, u32_be32 hv.mask.1]
  have l50 : lastVal 50 v.opts = none := by simp [lastVal, optVals, Srv.opts]
  have l3 : lastVal 3 v.opts = some v.gw := by simp [lastVal, optVals, Srv.opts, u32_be32 hv.gw]
  have l51 : lastVal 51 v.opts = some v.lease := by simp [lastVal, optVals, Srv.opts, u32_be32 hv.lease.1]
  have o54 : optVals 54 v.opts = [be32 v.sid] := by simp [optVals, Srv.opts]
  have hip : ackIp m v.opts = v.ip := by unfold ackIp; rw [l50]; exact h4
  have hma : ackMask d v.opts = v.mask := by unfold ackMask; rw [l1]; rfl
  refine ⟨⟨⟨h5, h1, h2, h3⟩, ⟨[], h6 true, by simp⟩, ?_, ⟨by rw [o54]; simp, ?_⟩, ?_, ?_, ?_⟩, ?_, hip, hma, l3, l51⟩
  · intro x hx _
    simp only [Srv.opts, List.mem_cons, List.not_mem_nil, or_false] at hx
    rcases hx with rfl | rfl | rfl | rfl | rfl <;> exact Nat.le_refl 4
  · intro _ p hp
    rw [o54, List.mem_singleton] at hp
    rw [hp, u32_be32 hv.sid, hs]
  · rw [l51]; exact hv.lease.2
  · rw [hma]; exact hv.mask.2
  · rw [hip, hma]; exact hv.usable
  · rintro ⟨_, items, f, hi, ht, _⟩
    rw [h6 false] at hi
    injection hi with hi _
    rw [← hi] at ht
    simp [Srv.opts] at ht

/-! ## Acquiring a lease -/

theorem cancelTimer_more (d : Cli) : (cancelTimer d).xid = d.xid ∧ (cancelTimer d).server = d.server ∧
    (cancelTimer d).offIp = d.offIp ∧ (cancelTimer d).tick = d.tick := by
  obtain ⟨h, t, e⟩ := cancelTimer_eq d
  rw [e]; exact ⟨rfl, rfl, rfl, rfl⟩

theorem sendDiscover_more (d : Cli) (e : Env) : (sendDiscover d e).1.xid = d.xid ∧
    (sendDiscover d e).1.ph = .disc := by
  rw [sendDiscover]; split <;> dsimp only <;> unfold sched <;> split <;> exact ⟨rfl, rfl⟩

theorem sendRequest_more (d : Cli) (e : Env) (h : d.ph = .req) : (sendRequest d e).1.xid = d.xid ∧
    (sendRequest d e).1.server = d.server ∧ (sendRequest d e).1.offIp = d.offIp ∧ (sendRequest d e).1.ph = .req := by
  have hn : ¬ (d.ph = .renew ∨ d.ph = .rebind) := by rw [h]; simp
  simp only [sendRequest, if_neg hn]
  split
  · simp only
    rw [if_neg (by simp), if_neg (by simp)]
    simp only [sched]; split <;> exact ⟨rfl, rfl, rfl, rfl⟩
  · simp only [sched]; split <;> exact ⟨rfl, rfl, rfl, rfl⟩

/-- **C103, acquisition.** A client that is off is started, and an honest server answers each of its messages.
Then: the DISCOVER is answered; the answer makes the client ask for what was offered; that request is answered;
and the answer puts the offered address, mask and router on the interface, to be probed. -/
theorem dhcp_acquires {v : Srv} (hv : v.Ok) {d : Cli} (hp : d.ph = .off) {i : Id} (hm : i.mac.length = 6)
    {x : Nat} (hx : x < 2 ^ 32) (e0 e1 e2 : Env) :
    ∃ o1 b1 o2 b2,
      mkDiscover (d.step (.init e0 true x)) i = some o1 ∧ v.answer o1.payload = some b1 ∧
      mkRequest ((d.step (.init e0 true x)).step (.recv e1 (decode i.mac b1))) i = some o2 ∧
      v.answer o2.payload = some b2 ∧
      (((d.step (.init e0 true x)).step (.recv e1 (decode i.mac b1))).step (.recv e2 (decode i.mac b2))).conf =
        (v.ip, v.mask, v.gw) ∧
      (((d.step (.init e0 true x)).step (.recv e1 (decode i.mac b1))).step (.recv e2 (decode i.mac b2))).ph = .dad := by
  have hi : d.step (.init e0 true x) = (sendDiscover { d with xid := x } e0).1 := by
    show clientInit d e0 true x = _
    unfold clientInit
    rw [if_neg (fun h => h hp), if_pos rfl]
  obtain ⟨hx1, hp1⟩ := sendDiscover_more { d with xid := x } e0
  rw [hi]
  generalize (sendDiscover { d with xid := x } e0).1 = d1 at hx1 hp1
  dsimp only at hx1
  obtain ⟨p1, ho1, _, hr1⟩ := discover_wellformed (d := d1) hm (by rw [hx1]; exact hx)
  have ha1 := answers_discover (v := v) hr1
  obtain ⟨m1, hd1, k1, k2, k3, k4, k5, k6, k7⟩ := reply_decoded hv (w := clientWire d1 i 0x8000 0 1 [(55, [1, 3, 6])])
    hm (List.take_left' hm) (show d1.xid < 2 ^ 32 by rw [hx1]; exact hx) (show 2 < 256 by decide)
  have hoff := offer_accepted hv (d := d1) k2 k3 k4 k5 k6 k7
  obtain ⟨c1, c2, c3, c4⟩ := cancelTimer_more { d1 with server := v.sid, offIp := v.ip, offMask := v.mask }
  have hs2 : d1.step (.recv e1 m1) = (sendRequest
      { cancelTimer { d1 with server := v.sid, offIp := v.ip, offMask := v.mask } with ph := .req } e1).1 := by
    show poll d1 e1 m1 = _
    unfold poll
    rw [if_neg (by rw [k1]; decide), if_pos hp1, hoff, if_pos rfl]
  obtain ⟨r1, r2, r3, r4⟩ := sendRequest_more
    { cancelTimer { d1 with server := v.sid, offIp := v.ip, offMask := v.mask } with ph := .req } e1 rfl
  rw [← hs2] at r1 r2 r3 r4
  dsimp only at r1 r2 r3 c1 c2 c3
  rw [c1] at r1
  rw [c2] at r2
  rw [c3] at r3
  generalize hd2 : d1.step (.recv e1 m1) = d2 at r1 r2 r3 r4
  have hx2 : d2.xid < 2 ^ 32 := by rw [r1, hx1]; exact hx
  obtain ⟨p2, ho2, _, hr2⟩ := request_selecting_wellformed (d := d2) hm hx2 (by rw [r4]; decide) (by rw [r4]; decide)
  have ha2 := answers_select (v := v) r2 r3 hr2
  obtain ⟨m2, hdm2, q1, q2, q3, q4, q5, q6, q7⟩ := reply_decoded hv
    (w := clientWire d2 i 0x8000 0 3 [(55, [1, 3, 6]), (54, be32 d2.server), (50, be32 d2.offIp)])
    hm (List.take_left' hm) hx2 (show 5 < 256 by decide)
  obtain ⟨hack, hnak, e5, e6, e7, _⟩ := ack_ok hv (d := d2) q2 q3 q4 q5 q6 r2 q7
  have hfin := dhcp_ack_applied d2 e2 m2 v.opts q1 (Or.inl r4) hack hnak
  rw [e5, e6, e7] at hfin
  refine ⟨⟨p1, 0xffffffff⟩, _, ⟨p2, 0xffffffff⟩, _, ho1, ha1, ?_, ha2, ?_, ?_⟩
  · rw [hd1, hd2]; exact ho2
  · rw [hd1, hd2, hdm2]; exact hfin.1
  · rw [hd1, hd2, hdm2]; exact hfin.2

theorem dad_fire {d : Cli} (h : CInv true d) (hp : d.ph = .dad) {x : Nat × Env} (h1 : ∀ y ∈ d.heap, y.2 ≤ x.1)
    (h2 : d.tick ≤ x.1) (h3 : x.2.room = true) (h4 : x.2.probeOk = true) :
    CInv true (fireAt d x) ∧ (fireAt d x).conf = d.conf ∧
      (d.probes < 3 → (fireAt d x).ph = .dad ∧ (fireAt d x).probes = d.probes + 1) ∧
      (¬ d.probes < 3 → (fireAt d x).ph = .bound) := by
  obtain ⟨hi, he⟩ := fireAt_eq d x h (by rw [hp]; decide) h1 h2 h3
  refine ⟨hi, ?_⟩
  rw [he, timerCb]
  simp only [hp, h4, if_true, sched, h3]
  split
  · rename_i hlt
    exact ⟨rfl, fun _ => ⟨rfl, rfl⟩, fun h => absurd hlt h⟩
  · rename_i hlt
    exact ⟨rfl, fun h => absurd h hlt, fun _ => rfl⟩

/-- **C103, probing.** An address that nobody claims is in use at the latest at the fourth timer event: the
client is bound, with the configuration it acquired. -/
theorem dhcp_probed_then_bound : ∀ (l : List (Nat × Env)) {d : Cli}, CInv true d → d.ph = .dad →
    Effective d l → (∀ x ∈ l, x.2.probeOk = true) → l.length = 4 - d.probes →
    (l.foldl fireAt d).ph = .bound ∧ (l.foldl fireAt d).conf = d.conf
  | [], d, h, _, _, _, hl => by
    have := h.1.probes
    simp only [List.length_nil] at hl
    omega
  | x :: l, d, h, hp, he, hs, hl => by
    have hpr := h.1.probes
    obtain ⟨h1, h2, h3, h4⟩ := he
    obtain ⟨hi, hc, ha, hb⟩ := dad_fire h hp h1 h2 h3 (hs x List.mem_cons_self)
    rw [List.foldl_cons]
    simp only [List.length_cons] at hl
    by_cases hlt : d.probes < 3
    · obtain ⟨hp', hn⟩ := ha hlt
      have := dhcp_probed_then_bound l hi hp' h4 (fun y hy => hs y (List.mem_cons_of_mem _ hy)) (by omega)
      exact ⟨this.1, this.2.trans hc⟩
    · have : l = [] := List.length_eq_zero_iff.1 (by omega)
      subst this
      exact ⟨hb hlt, hc⟩

theorem commit_expires (d : Cli) (e : Env) (a : Cand) (srv ip mask : Nat) (hl : a.lease ≠ 0) :
    (commit d e a srv ip mask).expires = d.tick + a.lease * 1000 ∧
    (commit d e a srv ip mask).server = srv ∧ (commit d e a srv ip mask).tick = d.tick := by
  have hs : ∀ (x : Cli) (w : Nat), (sched x e w).expires = x.expires ∧ (sched x e w).server = x.server ∧
      (sched x e w).tick = x.tick := by
    intro x w; unfold sched; split <;> exact ⟨rfl, rfl, rfl⟩
  have hc : ∀ x : Cli, (heapCancel x).expires = x.expires ∧ (heapCancel x).server = x.server ∧
      (heapCancel x).tick = x.tick := by
    intro x; obtain ⟨h, t, e1⟩ := heapCancel_fields x; rw [e1]; exact ⟨rfl, rfl, rfl⟩
  have hi : ∀ (x : Cli), (if e.probeOk = true then { x with probes := 1 } else x).expires = x.expires ∧
      (if e.probeOk = true then { x with probes := 1 } else x).server = x.server ∧
      (if e.probeOk = true then { x with probes := 1 } else x).tick = x.tick := by
    intro x; split <;> exact ⟨rfl, rfl, rfl⟩
  obtain ⟨h, t, eq⟩ := cancelTimer_eq { d with server := srv, ip := ip, mask := mask, gw := a.gw.getD d.gw, dns := (if d.dns = 0 ∧ a.dns ≠ 0 then a.dns else d.dns) }
  unfold commit
  dsimp only
  rw [(hs _ _).1, (hs _ _).2.1, (hs _ _).2.2, (hi _).1, (hi _).2.1, (hi _).2.2, (hc _).1, (hc _).2.1, (hc _).2.2,
    schedLease, if_neg hl, (hs _ _).1, (hs _ _).2.1, (hs _ _).2.2, eq]
  exact ⟨rfl, rfl, rfl⟩

/-- **C103, extension.** A client that renews or rebinds a lease with the server it has it from is answered, and
the answer prolongs the lease by the full lease time from now on and leaves the address in place. The address is
probed again, and during that time the client does not count as bound. -/
theorem dhcp_extends {v : Srv} (hv : v.Ok) {d : Cli} (hp : d.ph = .renew ∨ d.ph = .rebind) (hs : d.server = v.sid)
    (hip : d.ip = v.ip) {i : Id} (hm : i.mac.length = 6) (hx : d.xid < 2 ^ 32) (e : Env) :
    ∃ o b, mkRequest d i = some o ∧ v.answer o.payload = some b ∧
      (d.step (.recv e (decode i.mac b))).conf = (v.ip, v.mask, v.gw) ∧
      (d.step (.recv e (decode i.mac b))).expires = d.tick + v.lease * 1000 ∧
      (d.step (.recv e (decode i.mac b))).server = v.sid ∧
      (d.step (.recv e (decode i.mac b))).ph = .dad := by
  obtain ⟨p, ho, _, hr⟩ := request_extending_wellformed (d := d) hm hx (by rw [hip]; exact hv.ip) hp
  have ha := answers_extend (v := v) hip hr
  obtain ⟨m, hdm, q1, q2, q3, q4, q5, q6, q7⟩ := reply_decoded hv (w := clientWire d i 0 d.ip 3 [(55, [1, 3, 6])])
    hm (List.take_left' hm) hx (show 5 < 256 by decide)
  obtain ⟨hack, hnak, e5, e6, e7, e8⟩ := ack_ok hv (d := d) q2 q3 q4 q5 q6 hs q7
  have hp' : d.ph = .req ∨ d.ph = .renew ∨ d.ph = .rebind := Or.inr hp
  have hfin := dhcp_ack_applied d e m v.opts q1 hp' hack hnak
  rw [e5, e6, e7] at hfin
  refine ⟨⟨p, _⟩, _, ho, ha, ?_⟩
  rw [hdm]
  refine ⟨hfin.1, ?_⟩
  have hstep : d.step (.recv e m) = parseAck d e m := by
    show poll d e m = _
    unfold poll
    rw [if_neg (by rw [q1]; decide), if_neg (by rcases hp with h | h <;> rw [h] <;> decide), if_pos hp',
      if_neg (fun h => hnak ((msgType_nak d m).1 h))]
  rcases parseAck_cases d e m with ⟨_, h⟩ | ⟨post', a, srv, h1, h2, _, h4, h5, _⟩
  · exact absurd ⟨_, hack⟩ h
  · have : post' = v.opts := by
      obtain ⟨p1, e1, f1⟩ := h1.opts
      have e1 := (Scan.done.inj ((q7 true).symm.trans e1)).1
      have a1 := findType_of_split 5 true p1 post' f1
      rw [← e1, show findType 5 true ((53, [5]) :: v.opts) = .rest v.opts from
        findType_of_split 5 true [] v.opts (by simp)] at a1
      exact (Found.rest.inj a1).symm
    subst this
    rw [e8] at h5
    injection h5 with h5
    have h54 : lastVal 54 v.opts = some v.sid := by simp [lastVal, optVals, Srv.opts, u32_be32 hv.sid]
    rw [h54] at h4
    injection h4 with h4
    obtain ⟨c1, c2, _⟩ := commit_expires d e a srv (ackIp m v.opts) (ackMask d v.opts) (by rw [h5]; exact hv.lease.2)
    refine ⟨?_, ?_, hfin.2⟩
    · rw [hstep, h2, c1, h5]
    · rw [hstep, h2, c2, h4]

/-! ## The hypotheses are met -/

def exSrv : Srv := { sid := 0xc0a80001, ip := 0xc0a80064, mask := 0xffffff00, gw := 0xc0a80001, dns := 0x08080808,
                     lease := 3600 }

theorem exSrv_ok : exSrv.Ok :=
  ⟨by decide, by decide, ⟨by decide, by decide⟩, by decide, by decide, ⟨by decide, by decide⟩, by
    refine ⟨by decide, by decide, by decide, by decide⟩⟩

/-- A fresh client on an unconfigured interface acquires 192.168.0.100 from that server. -/
example : ∃ o1 b1 o2 b2,
    mkDiscover ((Cli.start 0 0 0 0 false 100).step (.init exEnv true 42)) ⟨[2, 0, 0, 0, 0, 1], 100⟩ = some o1 ∧
    exSrv.answer o1.payload = some b1 ∧
    mkRequest (((Cli.start 0 0 0 0 false 100).step (.init exEnv true 42)).step
      (.recv exEnv (decode [2, 0, 0, 0, 0, 1] b1))) ⟨[2, 0, 0, 0, 0, 1], 100⟩ = some o2 ∧
    exSrv.answer o2.payload = some b2 ∧
    ((((Cli.start 0 0 0 0 false 100).step (.init exEnv true 42)).step
      (.recv exEnv (decode [2, 0, 0, 0, 0, 1] b1))).step (.recv exEnv (decode [2, 0, 0, 0, 0, 1] b2))).conf =
      (0xc0a80064, 0xffffff00, 0xc0a80001) := by
  obtain ⟨o1, b1, o2, b2, h1, h2, h3, h4, h5, _⟩ := dhcp_acquires exSrv_ok (d := Cli.start 0 0 0 0 false 100) rfl
    (i := ⟨[2, 0, 0, 0, 0, 1], 100⟩) rfl (x := 42) (by decide) exEnv exEnv exEnv
  exact ⟨o1, b1, o2, b2, h1, h2, h3, h4, h5⟩

end Wolf.Dhcp
