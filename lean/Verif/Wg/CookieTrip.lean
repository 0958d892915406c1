import Verif.Wg.CookieJar

/-!
# C80: the load estimate and the whole exchange
-/

namespace Wolf.Wg.Cookie

/-! ## The load estimate -/

/-- Messages passed on. -/
def isProcessed (o : Out) : Bool := match o with | .processed .. => true | _ => false

/-- A cycle: events without a poll. -/
def NoPoll (es : List Ev) : Prop := ∀ e ∈ es, ∀ n, e ≠ .poll n

theorem load_step (c : Crypto) (d : Dev) (e : Ev) (h : ∀ n, e ≠ .poll n) (hp : d.perCycle < 65536) :
    (step c d e).1.underLoad = d.underLoad ∧
    (step c d e).1.perCycle = (d.perCycle + (step c d e).2.countP isProcessed) % 65536 := by
  have triv : ∀ (x : Dev × List Out), x.1.underLoad = d.underLoad → x.1.perCycle = d.perCycle →
      (∀ o ∈ x.2, isProcessed o = false) →
      x.1.underLoad = d.underLoad ∧ x.1.perCycle = (d.perCycle + x.2.countP isProcessed) % 65536 := by
    intro x h1 h2 h3
    refine ⟨h1, ?_⟩
    rw [h2, List.countP_eq_zero.mpr (fun o ho hc => by rw [h3 o ho] at hc; cases hc), Nat.add_zero,
      Nat.mod_eq_of_lt hp]
  cases e with
  | poll n => exact absurd rfl (h n)
  | hs data off ip port r1 r2 =>
    by_cases hp' : Passes c d data off ip port r1 r2
    · show (onHs c d data off ip port r1 r2).1.underLoad = _ ∧ (onHs c d data off ip port r1 r2).1.perCycle =
        (d.perCycle + (onHs c d data off ip port r1 r2).2.countP isProcessed) % 65536
      by_cases h0 : data.length < off + 2 * ckLen
      · exact absurd hp' (onHs_drop_no _ _ _ _ _ _ _ _ (onHs_short c d data off ip port r1 r2 h0))
      by_cases h1 : validate c d.checker data off ip port d.now = .invalid
      · exact absurd hp' (onHs_drop_no _ _ _ _ _ _ _ _ (onHs_invalid c d data off ip port r1 r2 h1))
      by_cases h2 : d.underLoad = true ∧ validate c d.checker data off ip port d.now ≠ .withCookie
      · exact absurd hp' (onHs_reply_no c d data off ip port r1 r2 h0 h1 h2)
      · rw [fst_of (onHs_pass c d data off ip port r1 r2 h0 h1 h2),
          snd_of (onHs_pass c d data off ip port r1 r2 h0 h1 h2)]
        exact ⟨rfl, rfl⟩
    · have k := refused_effect c d data off ip port r1 r2 hp'
      refine triv _ k.load k.perCycle ?_
      intro o ho
      rcases k.outs o ho with ⟨s, e⟩ | ⟨r, e⟩ <;> rw [e] <;> rfl
  | cookie r =>
    rcases onCookie_cases c d r with e | ⟨i', p, ck, h1, h2, h3, h4, h5, e⟩
    · refine triv _ (congrArg Dev.underLoad (fst_of e)) (congrArg Dev.perCycle (fst_of e)) ?_
      intro o ho
      rw [show (step c d (.cookie r)).2 = [] from snd_of e] at ho
      exact absurd ho List.not_mem_nil
    · refine triv _ (show (onCookie c d r).1.underLoad = _ by rw [fst_of e]; rfl)
        (show (onCookie c d r).1.perCycle = _ by rw [fst_of e]; rfl) ?_
      intro o ho
      rw [show (step c d (.cookie r)).2 = [.took d.now i' ck] from snd_of e] at ho
      rw [List.eq_of_mem_singleton ho]
      rfl
  | send i body =>
    refine triv _ ?_ ?_ ?_ <;> simp only [step]
    · split <;> rfl
    · split <;> rfl
    · split
      · intro o ho; exact absurd ho List.not_mem_nil
      · intro o ho; rw [List.eq_of_mem_singleton ho]; rfl
  | index i idx =>
    refine triv _ ?_ ?_ ?_ <;> simp only [step]
    · split <;> rfl
    · split <;> rfl
    · split <;> (intro o ho; exact absurd ho List.not_mem_nil)
  | addPeer i pub =>
    refine triv _ ?_ ?_ ?_ <;> simp only [step]
    · split <;> rfl
    · split <;> rfl
    · split
      · intro o ho; exact absurd ho List.not_mem_nil
      · intro o ho; rw [List.eq_of_mem_singleton ho]; rfl

theorem load_run (c : Crypto) (d : Dev) (es : List Ev) (h : NoPoll es) (hp : d.perCycle < 65536) :
    (run c d es).1.underLoad = d.underLoad ∧
    (run c d es).1.perCycle = (d.perCycle + (run c d es).2.countP isProcessed) % 65536 := by
  induction es generalizing d with
  | nil => exact ⟨rfl, (Nat.mod_eq_of_lt hp).symm⟩
  | cons e es ih =>
    obtain ⟨h1, h2⟩ := load_step c d e (h e List.mem_cons_self) hp
    have hp' : (step c d e).1.perCycle < 65536 := by rw [h2]; exact Nat.mod_lt _ (by decide)
    obtain ⟨h3, h4⟩ := ih _ (fun x hx => h x (List.mem_cons_of_mem _ hx)) hp'
    refine ⟨h3.trans h1, ?_⟩
    show (run c (step c d e).1 es).1.perCycle =
      (d.perCycle + ((step c d e).2 ++ (run c (step c d e).1 es).2).countP isProcessed) % 65536
    rw [h4, h2, List.countP_append, Nat.mod_add_mod, Nat.add_assoc]

/-- **When the device considers itself under load**: after a poll, exactly if the number of
handshake messages passed on since the poll before – counted modulo 2^16 – was at least 8; and
between polls that verdict does not change. -/
theorem under_load_exact (c : Crypto) (d : Dev) (t : Nat) (es : List Ev) (t' : Nat) (fs : List Ev)
    (he : NoPoll es) (hf : NoPoll fs) :
    (run c d (.poll t :: es ++ .poll t' :: fs)).1.underLoad =
      decide ((run c (step c d (.poll t)).1 es).2.countP isProcessed % 65536 ≥ maxPeers) := by
  rw [List.cons_append, run, run_append]
  dsimp only
  obtain ⟨_, h2⟩ := load_run c (step c d (.poll t)).1 es he (show (0 : Nat) < 65536 by decide)
  have h0 : (step c d (.poll t)).1.perCycle = 0 := rfl
  rw [h0, Nat.zero_add] at h2
  generalize (run c (step c d (.poll t)).1 es).1 = d1 at h2
  rw [run]
  dsimp only
  have h3 := (load_run c (step c d1 (.poll t')).1 fs hf (show (0 : Nat) < 65536 by decide)).1
  rw [h3]
  show decide (d1.perCycle ≥ maxPeers) = _
  rw [h2]

/-- Finding: the load verdict is dropped after one cycle in which no message carried a cookie,
whatever their number – so under a constant flood every second cycle runs without the gate. -/
theorem flood_every_second_cycle_open (c : Crypto) (d : Dev) (t : Nat) (es : List Ev) (t' : Nat)
    (he : NoPoll es)
    (hno : ∀ o ∈ (run c (step c d (.poll t)).1 es).2, isProcessed o = false) :
    (run c d (.poll t :: es ++ [.poll t'])).1.underLoad = false := by
  rw [under_load_exact c d t es t' [] he (fun e h => absurd h List.not_mem_nil),
    List.countP_eq_zero.mpr (fun o ho hc => by rw [hno o ho] at hc; cases hc)]
  rfl

/-! ## The exchange -/

/-- What the primitives must satisfy for the exchange to work: they do not fail, MACs have their
length, decryption undoes encryption. -/
structure Sane (c : Crypto) : Prop where
  mac : ∀ k m, ∃ t, c.mac k m = some t ∧ t.length = ckLen
  enc : ∀ k n p a, ∃ x, c.enc k n p a = some x ∧ c.dec k n x a = some p

theorem Sane.macs {c : Crypto} (h : Sane c) (k m : Bytes) : c.mac k m ≠ none := by
  obtain ⟨t, e, _⟩ := h.mac k m
  rw [e]
  intro x
  cases x

theorem mac_fields (body m1 m2 : Bytes) (h1 : m1.length = ckLen) (h2 : m2.length = ckLen) :
    (body ++ m1 ++ m2).take body.length = body ∧ mac1 (body ++ m1 ++ m2) body.length = m1 ∧
    mac2 (body ++ m1 ++ m2) body.length = m2 ∧
    (body ++ m1 ++ m2).take (body.length + ckLen) = body ++ m1 ∧
    (body ++ m1 ++ m2).length = body.length + 2 * ckLen := by
  refine ⟨?_, ?_, ?_, ?_, ?_⟩
  · rw [List.append_assoc, List.take_left' rfl]
  · unfold mac1
    rw [List.append_assoc, List.drop_left' rfl, List.take_left' h1]
  · unfold mac2
    rw [List.drop_left' (by rw [List.length_append, h1]), List.take_of_length_le (by omega)]
  · rw [List.take_left' (by rw [List.length_append, h1])]
  · rw [List.length_append, List.length_append, h1, h2]

/-- What a peer sends is accepted as far as the first MAC goes, if it knows the public key. -/
theorem sent_mac1_ok (c : Crypto) (k : Checker) (pub body m1 m2 : Bytes)
    (hk : k.mac1Key = c.mac1Key pub) (hm : c.mac (c.mac1Key pub) body = some m1)
    (h1 : m1.length = ckLen) (h2 : m2.length = ckLen) :
    Mac1Ok c k (body ++ m1 ++ m2) body.length := by
  obtain ⟨f1, f2, _, _, f5⟩ := mac_fields body m1 m2 h1 h2
  exact ⟨by rw [f5]; exact Nat.le_refl _, by rw [hk, f1, f2]; exact hm⟩

theorem addMacs_shape (c : Crypto) (j : Jar) (body : Bytes) (now : Nat) (hs : Sane c) :
    ∃ m1 m2, c.mac j.mac1Key body = some m1 ∧ m1.length = ckLen ∧ m2.length = ckLen ∧
      addMacs c j body now = ({ j with last := m1, sent := true }, body ++ m1 ++ m2) ∧
      (j.valid = true → sub64 now j.birth ≤ maxAge → c.mac j.cookie (body ++ m1) = some m2) := by
  obtain ⟨m1, e1, l1⟩ := hs.mac j.mac1Key body
  unfold addMacs
  rw [e1]
  dsimp only
  by_cases h : j.valid = true ∧ sub64 now j.birth ≤ maxAge
  · rw [if_pos h]
    obtain ⟨m2, e2, l2⟩ := hs.mac j.cookie (body ++ m1)
    rw [e2]
    exact ⟨m1, m2, rfl, l1, l2, rfl, fun _ _ => e2⟩
  · rw [if_neg h]
    exact ⟨m1, List.replicate ckLen 0, rfl, l1, List.length_replicate, rfl, fun a b => absurd ⟨a, b⟩ h⟩

/-- The cookie held by peer entry `i` survives everything but a new cookie or a new peer. -/
theorem jar_kept (c : Crypto) (d : Dev) (es : List Ev) (i : Nat) (j : Jar) (hj : jarOf d i = some j)
    (hno : ∀ o ∈ (run c d es).2, (∀ t ck, o ≠ .took t i ck) ∧ o ≠ .fresh i) :
    ∃ j', jarOf (run c d es).1 i = some j' ∧ j'.cookie = j.cookie ∧ j'.valid = j.valid ∧
      j'.birth = j.birth ∧ j'.mac1Key = j.mac1Key := by
  induction es generalizing d j with
  | nil => exact ⟨j, hj, rfl, rfl, rfl, rfl⟩
  | cons e es ih =>
    obtain ⟨j1, h1, h⟩ := jar_step c d e i j hj
    have hno1 : ∀ o ∈ (step c d e).2, (∀ t ck, o ≠ .took t i ck) ∧ o ≠ .fresh i :=
      fun o ho => hno o (List.mem_append_left _ ho)
    obtain ⟨j', a1, a2, a3, a4, a5⟩ := ih _ j1 h1 (fun o ho => hno o (List.mem_append_right _ ho))
    have hk : j1.cookie = j.cookie ∧ j1.valid = j.valid ∧ j1.birth = j.birth ∧ j1.mac1Key = j.mac1Key := by
      rcases h with ⟨pub, _, e1, e2⟩ | ⟨ck, e2, e3, e1⟩ | ⟨body, _, e1, e2⟩ | ⟨e1, e2⟩
      · rw [e2] at hno1
        exact absurd rfl (hno1 _ (List.mem_singleton.mpr rfl)).2
      · rw [e2] at hno1
        exact absurd rfl ((hno1 _ (List.mem_singleton.mpr rfl)).1 _ _)
      · rw [e1]
        rcases addMacs_jar c j body d.now with h | ⟨m, h⟩ <;> rw [h] <;> exact ⟨rfl, rfl, rfl, rfl⟩
      · rw [e1]; exact ⟨rfl, rfl, rfl, rfl⟩
    exact ⟨j', a1, a2.trans hk.1, a3.trans hk.2.1, a4.trans hk.2.2.1, a5.trans hk.2.2.2⟩

/-- Sending from a known jar. -/
theorem send_known (c : Crypto) (d : Dev) (i : Nat) (j : Jar) (body : Bytes) (hj : jarOf d i = some j) :
    (step c d (.send i body)).2 = [.sent d.now i (addMacs c j body d.now).2 body.length] ∧
    jarOf (step c d (.send i body)).1 i = some (addMacs c j body d.now).1 ∧
    (step c d (.send i body)).1.now = d.now ∧
    (step c d (.send i body)).1.peers.length = d.peers.length ∧
    ∀ (k : Nat) (p : Peer), (step c d (.send i body)).1.peers[k]? = some p →
      ∃ p0 : Peer, d.peers[k]? = some p0 ∧ p.index = p0.index ∧ p.active = p0.active := by
  have hp : ∃ p, d.peers[i]? = some p ∧ p.jar = j := by
    unfold jarOf at hj
    cases hq : d.peers[i]? with
    | none => rw [hq] at hj; cases hj
    | some p => rw [hq] at hj; exact ⟨p, rfl, Option.some.inj hj⟩
  obtain ⟨p, hp, hpj⟩ := hp
  have hst : step c d (.send i body) = (putJar d i p (addMacs c j body d.now).1,
      [.sent d.now i (addMacs c j body d.now).2 body.length]) := by
    simp only [step, hp, hpj]
  rw [hst]
  have hl := (List.getElem?_eq_some_iff.mp hp).1
  refine ⟨rfl, ?_, rfl, ?_, ?_⟩
  · rw [jarOf_set d i i _ _ rfl, if_pos ⟨rfl, hl⟩]
  · simp [putJar]
  · intro k q hq
    simp only [putJar, List.getElem?_set] at hq
    by_cases hk : i = k
    · subst hk
      rw [if_pos rfl, if_pos hl] at hq
      have := Option.some.inj hq
      subst this
      exact ⟨p, hp, rfl, rfl⟩
    · rw [if_neg hk] at hq
      exact ⟨q, hq, rfl, rfl⟩

/-- The responder's reply, taken by the initiator: the cookie of the initiator's address. -/
theorem take_cookie (c : Crypto) (d : Dev) (i : Nat) (p : Peer) (r : Reply) (ck : Bytes)
    (hp : d.peers[i]? = some p) (ha : p.active = true) (hs : p.jar.sent = true)
    (hi : p.index = le32 r.idx)
    (huniq : ∀ k q, d.peers[k]? = some q → q.index = p.index → k = i)
    (hd : c.dec p.jar.decKey r.nonce r.ct p.jar.last = some ck) :
    (step c d (.cookie r)) =
      (putJar d i p { p.jar with cookie := ck, valid := true, birth := d.now, sent := false },
        [.took d.now i ck]) := by
  show onCookie c d r = _
  rcases onCookie_cases c d r with e | ⟨i', p', ck', h1, h2, h3, h4, h5, e⟩
  · exfalso
    unfold onCookie target at e
    cases ht : d.peers.findIdx? (fun p => p.active && p.jar.sent && p.index == le32 r.idx) with
    | none =>
      rw [List.findIdx?_eq_none_iff] at ht
      have := ht p (List.mem_of_getElem? hp)
      simp [ha, hs, hi] at this
    | some k =>
      rw [ht] at e
      dsimp only at e
      rw [List.findIdx?_eq_some_iff_getElem] at ht
      obtain ⟨hk, hq, _⟩ := ht
      have hqi : d.peers[k].index = p.index := by
        have : (d.peers[k].active = true ∧ d.peers[k].jar.sent = true) ∧ d.peers[k].index = le32 r.idx := by
          simpa [Bool.and_eq_true, beq_iff_eq] using hq
        rw [hi]; exact this.2
      have := huniq k _ (List.getElem?_eq_getElem hk) hqi
      subst this
      rw [hp] at e
      dsimp only at e
      unfold consume at e
      rw [if_neg (show ¬ p.jar.sent = false from by rw [hs]; decide), hd] at e
      have := snd_of e
      cases this
  · have : i' = i := huniq i' p' h1 (by rw [h4, hi])
    subst this
    rw [hp] at h1
    have := Option.some.inj h1
    subst this
    rw [hd] at h5
    have := Option.some.inj h5
    subst this
    exact e

/-- **The exchange works.**  A device sends a handshake message to a peer under load, from an
address, and gets the cookie reply; any history later in which the peer entry accepted no other
cookie, within 120 s, it sends another handshake message.  If it arrives from the same address
while the responder's secret – whatever happened there in between – is at most 120 s old, it
passes the responder's gate even under load. -/
theorem cookie_round_trip (c : Crypto) (hs : Sane c) (pub : Bytes)
    -- the initiator `a`, its peer entry `i` for the responder, and the first message
    (a : Dev) (i : Nat) (p : Peer) (hp : a.peers[i]? = some p) (hact : p.active = true)
    (hk1 : p.jar.mac1Key = c.mac1Key pub) (hk2 : p.jar.decKey = c.cookieKey pub)
    (huniq : ∀ k q, a.peers[k]? = some q → q.index = p.index → k = i)
    (body1 : Bytes) (hlen : 8 ≤ body1.length) (hidx : le32 ((body1.drop 4).take 4) = p.index)
    (msg1 : Bytes)
    (hsend1 : (step c a (.send i body1)).2 = [.sent a.now i msg1 body1.length])
    -- the responder `b`, under load, to which the message comes from `ip`, `port`
    (b : Dev) (hb1 : b.checker.mac1Key = c.mac1Key pub) (hb2 : b.checker.encKey = c.cookieKey pub)
    (hbl : b.underLoad = true) (hbn : b.now < 2 ^ 64 - 200000) (hbb : b.checker.birth ≤ b.now ∨
      b.checker.birth = 2 ^ 64 - 1 - maxAge - 1)
    (ip port : Nat) (r1 r2 : Rng) (hr1 : r1.ok = true) (hr2 : r2.ok = true)
    (hnp : ¬ Passes c b msg1 body1.length ip port r1 r2)
    -- its reply comes back
    (rep : Reply) (hrep : Out.reply b.now ip port rep ∈ (step c b (.hs msg1 body1.length ip port r1 r2)).2)
    -- the initiator goes on, and sends a second message
    (es : List Ev) (hno : ∀ o ∈ (run c (step c (step c a (.send i body1)).1 (.cookie rep)).1 es).2,
      (∀ t ck, o ≠ .took t i ck) ∧ o ≠ .fresh i)
    (ha : a.now < 2 ^ 64 - 200000) (hce : ClockOk a.now es)
    (hage : (run c (step c (step c a (.send i body1)).1 (.cookie rep)).1 es).1.now ≤ a.now + maxAge)
    (body2 msg2 : Bytes)
    (hsend2 : (step c (run c (step c (step c a (.send i body1)).1 (.cookie rep)).1 es).1 (.send i body2)).2 =
      [.sent (run c (step c (step c a (.send i body1)).1 (.cookie rep)).1 es).1.now i msg2 body2.length])
    (hnz : mac2 msg2 body2.length ≠ List.replicate ckLen 0)
    -- the responder goes on, its secret still fresh at the end
    (fs : List Ev) (hcf : ClockOk b.now fs)
    (hfresh : (run c (step c b (.hs msg1 body1.length ip port r1 r2)).1 fs).1.now ≤
      (step c b (.hs msg1 body1.length ip port r1 r2)).1.checker.birth + maxAge)
    (r3 r4 : Rng) :
    Passes c (run c (step c b (.hs msg1 body1.length ip port r1 r2)).1 fs).1 msg2 body2.length ip port r3 r4 := by
  have hj : jarOf a i = some p.jar := by unfold jarOf; rw [hp]; rfl
  -- the first message
  obtain ⟨m1, m2, e1, l1, l2, e2, _⟩ := addMacs_shape c p.jar body1 a.now hs
  obtain ⟨s1, s2, s3, s4, s5⟩ := send_known c a i p.jar body1 hj
  rw [hsend1, e2] at s1
  have hmsg1 : msg1 = body1 ++ m1 ++ m2 := by
    injection s1 with x _
    injection x
  rw [e2] at s2
  have hm1ok : Mac1Ok c b.checker msg1 body1.length := by
    rw [hmsg1]
    exact sent_mac1_ok c b.checker pub body1 m1 m2 hb1 (by rw [← hk1]; exact e1) l1 l2
  -- the reply
  have hmac1 : mac1 msg1 body1.length = m1 := by
    rw [hmsg1]; exact (mac_fields body1 m1 m2 l1 l2).2.1
  have hncook : ¬ (CookieOk c b.checker.secret msg1 body1.length ip port ∧ sub64 b.now b.checker.birth ≤ maxAge) := by
    intro h
    exact hnp ((gate_exact c b msg1 body1.length ip port r1 r2).mpr ⟨hm1ok, fun _ => h⟩)
  obtain ⟨b', outs, ck, ct, t1, t2, t3, t4, t5, t6⟩ := reply_exact c b msg1 body1.length ip port r1 r2 hbl
    hm1ok hncook hr1 hr2 hs.macs (fun k n p a h => by
      obtain ⟨x, hx, _⟩ := hs.enc k n p a
      rw [hx] at h; cases h)
  have hone : rep = ⟨(msg1.drop 4).take 4, r2.bytes, ct⟩ := by
    have k := refused_effect c b msg1 body1.length ip port r1 r2 hnp
    rw [t1] at hrep
    have hc1 := k.one
    rw [t1] at hc1
    have m1' : Out.reply b.now ip port rep ∈ outs.filter (fun o => match o with | .reply .. => true | _ => false) :=
      List.mem_filter.mpr ⟨hrep, rfl⟩
    have m2' : Out.reply b.now ip port ⟨(msg1.drop 4).take 4, r2.bytes, ct⟩ ∈
        outs.filter (fun o => match o with | .reply .. => true | _ => false) :=
      List.mem_filter.mpr ⟨t6, rfl⟩
    revert m1' m2' hc1
    generalize outs.filter (fun o => match o with | .reply .. => true | _ => false) = l
    intro hc1 m1' m2'
    match l, hc1, m1', m2' with
    | [], _, h, _ => exact absurd h List.not_mem_nil
    | [x], _, h, h' =>
      have a1 := List.eq_of_mem_singleton h
      have a2 := List.eq_of_mem_singleton h'
      have := a1.trans a2.symm
      injection this
    | x :: y :: l, hc1, _, _ => simp at hc1
  -- taken by the initiator
  generalize ha1 : (step c a (.send i body1)).1 = a1 at s2 s3 s4 s5 hno hage hsend2
  have hp1 : ∃ q, a1.peers[i]? = some q ∧ q.jar = { p.jar with last := m1, sent := true } ∧
      q.index = p.index ∧ q.active = p.active := by
    unfold jarOf at s2
    cases hq : a1.peers[i]? with
    | none => rw [hq] at s2; cases s2
    | some q =>
      rw [hq] at s2
      obtain ⟨p0, x1, x2, x3⟩ := s5 i q hq
      rw [hp] at x1
      have := Option.some.inj x1
      subst this
      exact ⟨q, rfl, Option.some.inj s2, x2, x3⟩
  obtain ⟨q, hq, hqj, hqi, hqa⟩ := hp1
  have hidx' : q.index = le32 rep.idx := by
    rw [hqi, hone, ← hidx]
    show le32 _ = le32 ((msg1.drop 4).take 4)
    rw [hmsg1, List.append_assoc, List.drop_append_of_le_length (by omega),
      List.take_append_of_le_length (by rw [List.length_drop]; omega)]
  have hdec : c.dec q.jar.decKey rep.nonce rep.ct q.jar.last = some ck := by
    obtain ⟨x, hx1, hx2⟩ := hs.enc b.checker.encKey r2.bytes ck (mac1 msg1 body1.length)
    rw [t3] at hx1
    have := Option.some.inj hx1
    subst this
    rw [hqj, hone]
    show c.dec p.jar.decKey r2.bytes ct m1 = some ck
    rw [hk2, ← hb2, ← hmac1]
    exact hx2
  have htake := take_cookie c a1 i q rep ck hq (by rw [hqa]; exact hact) (by rw [hqj]) hidx'
    (fun k q' hq' hi' => by
      obtain ⟨p0, x1, x2, _⟩ := s5 k q' hq'
      exact huniq k p0 x1 (by rw [← x2, hi', hqi])) hdec
  rw [htake] at hno hage hsend2
  generalize ha2 : putJar a1 i q { q.jar with cookie := ck, valid := true, birth := a1.now, sent := false } = a2 at hno hage hsend2
  have hj2 : jarOf a2 i = some { q.jar with cookie := ck, valid := true, birth := a1.now, sent := false } := by
    rw [jarOf_set a1 i i { q with jar := { q.jar with cookie := ck, valid := true, birth := a1.now, sent := false } } a2 (by rw [← ha2]; rfl),
      if_pos ⟨rfl, (List.getElem?_eq_some_iff.mp hq).1⟩]
  have hn2 : a2.now = a.now := by rw [← ha2, ← s3]; rfl
  -- kept
  obtain ⟨j', k1, k2, k3, k4, k5⟩ := jar_kept c a2 es i _ hj2 hno
  have hnow := (clock_mono c a2 es (by rw [hn2]; exact hce))
  -- the second message
  obtain ⟨n1, n2, f1, g1, g2, f2, f3⟩ := addMacs_shape c j' body2 (run c a2 es).1.now hs
  obtain ⟨u1, _⟩ := send_known c (run c a2 es).1 i j' body2 k1
  rw [hsend2, f2] at u1
  have hmsg2 : msg2 = body2 ++ n1 ++ n2 := by
    injection u1 with x _
    injection x
  have hn2c : c.mac ck (body2 ++ n1) = some n2 := by
    rw [← show j'.cookie = ck from k2]
    apply f3 k3
    have hb4 : j'.birth = a.now := k4.trans s3
    have h1 := hnow.1
    have h2 := hnow.2 (by rw [hn2]; exact ha)
    rw [hn2] at h1
    rw [hb4, sub64_le h1 (by omega)]
    dsimp only at hage
    omega
  -- the responder's secret is unchanged
  have hb'n : b'.now = b.now := by
    have := (refused_effect c b msg1 body1.length ip port r1 r2 hnp).now
    rw [t1] at this
    exact this
  have hb'key : b'.checker.mac1Key = c.mac1Key pub := by
    have := (refused_effect c b msg1 body1.length ip port r1 r2 hnp).keys.1
    rw [t1] at this
    exact this.trans hb1
  rw [t1] at hfresh ⊢
  dsimp only at hfresh ⊢
  have hb'b : b'.checker.birth ≤ b'.now := by
    rw [hb'n]
    rcases t5 with x | ⟨_, x, _⟩
    · rcases hbb with y | y
      · rw [x]; exact y
      · rw [x, y] at t4
        have := sub64_never hbn
        omega
    · rw [x]; exact Nat.le_refl _
  have hst := secret_stable c b' fs (by rw [hb'n]; exact hcf) (by rw [hb'n]; exact hbn) hb'b hfresh
  have hclk := clock_mono c b' fs (by rw [hb'n]; exact hcf)
  rw [gate_exact, hst, hmsg2]
  obtain ⟨w1, w2, w3, w4, w5⟩ := mac_fields body2 n1 n2 g1 g2
  refine ⟨sent_mac1_ok c b'.checker pub body2 n1 n2 hb'key (by
    rw [← f1, show j'.mac1Key = c.mac1Key pub from k5.trans (by rw [hqj]; exact hk1)]) g1 g2, fun _ => ⟨⟨?_, ck, t2, ?_⟩, ?_⟩⟩
  · rw [← hmsg2]; exact hnz
  · rw [w3, w4]; exact hn2c
  · have h2 := hclk.2 (by rw [hb'n]; exact hbn)
    have h1 := hclk.1
    rw [sub64_le (by omega) (by omega)]
    omega

/-! ## A concrete exchange -/

/-- Toy primitives that satisfy what is assumed. -/
def toy : Crypto where
  mac k m := some (List.replicate 30 1 ++ [(k.sum + 3 * k.length + 5 * m.sum) % 256, (k.sum * 7 + m.length) % 256])
  mac1Key pub := 1 :: pub
  cookieKey pub := 2 :: pub
  enc _ _ p a := some (p ++ a)
  dec _ _ x a := if x.drop (x.length - a.length) = a then some (x.take (x.length - a.length)) else none

theorem toy_sane : Sane toy := by
  refine ⟨fun k m => ⟨_, rfl, rfl⟩, fun k n p a => ⟨_, rfl, ?_⟩⟩
  show (if (p ++ a).drop ((p ++ a).length - a.length) = a then
    some ((p ++ a).take ((p ++ a).length - a.length)) else none) = some p
  have : (p ++ a).length - a.length = p.length := by rw [List.length_append]; omega
  rw [this, List.drop_left' rfl, List.take_left' rfl, if_pos rfl]

/-- An initiator with one peer, whose public key is `[9, 9]`. -/
def exA : Dev := { checker := checkerInit toy [5], now := 1000, peers := [⟨true, 77, jarInit toy [9, 9]⟩] }
/-- The responder, under load, with no secret yet. -/
def exB : Dev := { checker := checkerInit toy [9, 9], underLoad := true, now := 5000 }
def exBody1 : Bytes := [1, 0, 0, 0, 77, 0, 0, 0, 3]
def exBody2 : Bytes := [1, 0, 0, 0, 78, 0, 0, 0, 4]
def exMsg1 : Bytes := (addMacs toy (jarInit toy [9, 9]) exBody1 1000).2
def exR1 : Rng := ⟨[4, 4, 4], true⟩
def exR2 : Rng := ⟨[6], true⟩
def exB1 : Dev := (step toy exB (.hs exMsg1 9 10 20 exR1 exR2)).1
def exRep : Reply := ⟨[77, 0, 0, 0], [6], (((step toy exB (.hs exMsg1 9 10 20 exR1 exR2)).2.filterMap
  (fun o => match o with | .reply _ _ _ r => some r.ct | _ => none)).headD [])⟩
def exA2 : Dev := (step toy (step toy exA (.send 0 exBody1)).1 (.cookie exRep)).1
def exMsg2 (t : Nat) : Bytes := ((step toy (step toy exA2 (.poll t)).1 (.send 0 exBody2)).2.filterMap
  (fun o => match o with | .sent _ _ m _ => some m | _ => none)).headD []

/-- The first message is answered with a cookie; with it the second passes 119 s later, but not
from another port, nor once the responder has drawn a new secret, nor without it. -/
example : (step toy exB (.hs exMsg1 9 10 20 exR1 exR2)).2 =
      [.rotated 5000 [4, 4, 4], .reply 5000 10 20 exRep] ∧
    Out.processed 124000 (exMsg2 120000) 9 10 20 ∈
      (step toy (step toy { exB1 with perCycle := 9 } (.poll 124000)).1 (.hs (exMsg2 120000) 9 10 20 exR1 exR2)).2 ∧
    Out.processed 124000 (exMsg2 120000) 9 10 21 ∉
      (step toy (step toy { exB1 with perCycle := 9 } (.poll 124000)).1 (.hs (exMsg2 120000) 9 10 21 exR1 exR2)).2 ∧
    Out.processed 125001 (exMsg2 120000) 9 10 20 ∉
      (step toy (step toy { exB1 with perCycle := 9 } (.poll 125001)).1 (.hs (exMsg2 120000) 9 10 20 exR1 exR2)).2 ∧
    mac2 (exMsg2 121000) 9 ≠ List.replicate 32 0 ∧ mac2 (exMsg2 121001) 9 = List.replicate 32 0 := by
  decide +kernel

/-- The round-trip theorem applies to it. -/
example (r3 r4 : Rng) : Passes toy (run toy exB1 [.poll 124000]).1 (exMsg2 120000) 9 10 20 r3 r4 :=
  cookie_round_trip toy toy_sane [9, 9] exA 0 ⟨true, 77, jarInit toy [9, 9]⟩ rfl rfl rfl rfl
    (fun k q hq _ => by
      have := (List.getElem?_eq_some_iff.mp hq).1
      have : k < 1 := this
      omega)
    exBody1 (by decide) (by decide) exMsg1 (by decide +kernel) exB rfl rfl rfl (by decide) (Or.inr rfl) 10 20 exR1 exR2
    rfl rfl (by unfold Passes; decide +kernel) exRep (by decide +kernel) [.poll 120000]
    (fun o ho => absurd (show o ∈ ([] : List Out) from ho) List.not_mem_nil) (by decide) ⟨by decide, by decide, trivial⟩ (by decide +kernel) exBody2 (exMsg2 120000)
    (by decide +kernel) (by decide +kernel) [.poll 124000] ⟨by decide, by decide, trivial⟩
    (by decide +kernel) r3 r4

/-- Finding: a flood of 65536 messages passed on in one cycle is not recognised as load – the
counter is 16 bits wide. -/
theorem load_counter_wraps (c : Crypto) (d : Dev) (t : Nat) (es : List Ev) (t' : Nat)
    (he : NoPoll es)
    (hn : (run c (step c d (.poll t)).1 es).2.countP isProcessed = 65536) :
    (run c d (.poll t :: es ++ [.poll t'])).1.underLoad = false := by
  rw [under_load_exact c d t es t' [] he (fun e h => absurd h List.not_mem_nil), hn]
  rfl

end Wolf.Wg.Cookie
