import Verif.Wg.CookieHist

/-!
# C80: the initiator's side – cookies taken, second MACs attached, and the round trip
-/

namespace Wolf.Wg.Cookie

/-- The jar of peer `i`. -/
def jarOf (d : Dev) (i : Nat) : Option Jar := (d.peers[i]?).map Peer.jar

theorem jarOf_set (d : Dev) (i j : Nat) (p : Peer) (k : Dev) (hk : k.peers = d.peers.set i p) :
    jarOf k j = if i = j ∧ i < d.peers.length then some p.jar else jarOf d j := by
  unfold jarOf
  rw [hk, List.getElem?_set]
  by_cases h : i = j
  · subst h
    by_cases hl : i < d.peers.length
    · simp [hl]
    · simp [hl]
  · simp [h]

theorem hs_peers (c : Crypto) (d : Dev) (data : Bytes) (off ip port : Nat) (r1 r2 : Rng) :
    (onHs c d data off ip port r1 r2).1.peers = d.peers ∧
    ∀ o ∈ (onHs c d data off ip port r1 r2).2, (∃ t x a b e, o = .processed t x a b e) ∨
      (∃ t s, o = .rotated t s) ∨ ∃ t a b r, o = .reply t a b r := by
  by_cases hp : Passes c d data off ip port r1 r2
  · by_cases h0 : data.length < off + 2 * ckLen
    · exact absurd hp (onHs_drop_no _ _ _ _ _ _ _ _ (onHs_short c d data off ip port r1 r2 h0))
    by_cases h1 : validate c d.checker data off ip port d.now = .invalid
    · exact absurd hp (onHs_drop_no _ _ _ _ _ _ _ _ (onHs_invalid c d data off ip port r1 r2 h1))
    by_cases h2 : d.underLoad = true ∧ validate c d.checker data off ip port d.now ≠ .withCookie
    · exact absurd hp (onHs_reply_no c d data off ip port r1 r2 h0 h1 h2)
    · rw [onHs_pass c d data off ip port r1 r2 h0 h1 h2]
      exact ⟨rfl, fun o ho => Or.inl ⟨_, _, _, _, _, List.eq_of_mem_singleton ho⟩⟩
  · have h := refused_effect c d data off ip port r1 r2 hp
    exact ⟨h.peers, fun o ho => Or.inr ((h.outs o ho).imp (fun ⟨s, e⟩ => ⟨_, s, e⟩)
      (fun ⟨r, e⟩ => ⟨_, _, _, r, e⟩))⟩

/-- What `wg_handle_cookie` does. -/
theorem onCookie_cases (c : Crypto) (d : Dev) (r : Reply) :
    onCookie c d r = (d, []) ∨
    ∃ i p ck, d.peers[i]? = some p ∧ p.active = true ∧ p.jar.sent = true ∧ p.index = le32 r.idx ∧
      c.dec p.jar.decKey r.nonce r.ct p.jar.last = some ck ∧
      onCookie c d r = (putJar d i p { p.jar with cookie := ck, valid := true, birth := d.now, sent := false },
        [.took d.now i ck]) := by
  unfold onCookie target
  cases ht : d.peers.findIdx? (fun p => p.active && p.jar.sent && p.index == le32 r.idx) with
  | none => exact Or.inl rfl
  | some i =>
    dsimp only
    rw [List.findIdx?_eq_some_iff_getElem] at ht
    obtain ⟨hi, hp, _⟩ := ht
    rw [List.getElem?_eq_getElem hi]
    dsimp only
    have hp' : (d.peers[i].active = true ∧ d.peers[i].jar.sent = true) ∧ d.peers[i].index = le32 r.idx := by
      simpa [Bool.and_eq_true, beq_iff_eq] using hp
    unfold consume
    rw [if_neg (show ¬ d.peers[i].jar.sent = false from by rw [hp'.1.2]; decide)]
    cases hd : c.dec d.peers[i].jar.decKey r.nonce r.ct d.peers[i].jar.last with
    | none => exact Or.inl rfl
    | some ck =>
      exact Or.inr ⟨i, d.peers[i], ck, List.getElem?_eq_getElem hi, hp'.1.1, hp'.1.2, hp'.2, hd, rfl⟩

/-- **A cookie is taken only from a reply that authenticates against the last message sent** to
that peer, whose sender index it names; it uses that message up, and nothing else changes. -/
theorem cookie_accepted_only (c : Crypto) (d : Dev) (r : Reply) (t i : Nat) (ck : Bytes)
    (h : Out.took t i ck ∈ (step c d (.cookie r)).2) :
    t = d.now ∧ ∃ p, d.peers[i]? = some p ∧ p.active = true ∧ p.jar.sent = true ∧
      p.index = le32 r.idx ∧ c.dec p.jar.decKey r.nonce r.ct p.jar.last = some ck ∧
      (step c d (.cookie r)).1 =
        putJar d i p { p.jar with cookie := ck, valid := true, birth := d.now, sent := false } := by
  have h : Out.took t i ck ∈ (onCookie c d r).2 := h
  show t = d.now ∧ ∃ p, d.peers[i]? = some p ∧ p.active = true ∧ p.jar.sent = true ∧
      p.index = le32 r.idx ∧ c.dec p.jar.decKey r.nonce r.ct p.jar.last = some ck ∧
      (onCookie c d r).1 =
        putJar d i p { p.jar with cookie := ck, valid := true, birth := d.now, sent := false }
  rcases onCookie_cases c d r with e | ⟨i', p, ck', h1, h2, h3, h4, h5, e⟩
  · rw [e] at h; exact absurd h List.not_mem_nil
  · rw [e] at h ⊢
    have := List.eq_of_mem_singleton h
    injection this with a1 a2 a3
    subst a1; subst a2; subst a3
    exact ⟨rfl, p, h1, h2, h3, h4, h5, rfl⟩

theorem addMacs_jar (c : Crypto) (j : Jar) (body : Bytes) (now : Nat) :
    (addMacs c j body now).1 = j ∨
    ∃ m, (addMacs c j body now).1 = { j with last := m, sent := true } := by
  unfold addMacs
  split
  · exact Or.inl rfl
  · right
    dsimp only
    split
    · split <;> exact ⟨_, rfl⟩
    · exact ⟨_, rfl⟩

/-- What one event does to the jar of one peer. -/
theorem jar_step (c : Crypto) (d : Dev) (e : Ev) (i : Nat) (j : Jar) (hj : jarOf d i = some j) :
    ∃ j', jarOf (step c d e).1 i = some j' ∧
      ((∃ pub, e = .addPeer i pub ∧ j' = jarInit c pub ∧ (step c d e).2 = [Out.fresh i]) ∨
       (∃ ck, (step c d e).2 = [Out.took d.now i ck] ∧ j.sent = true ∧
          j' = { j with cookie := ck, valid := true, birth := d.now, sent := false }) ∨
       (∃ body, e = .send i body ∧ j' = (addMacs c j body d.now).1 ∧
          (step c d e).2 = [.sent d.now i (addMacs c j body d.now).2 body.length]) ∨
       (j' = j ∧ ∀ o ∈ (step c d e).2, (∀ t m b, o ≠ .sent t i m b) ∧ (∀ t ck, o ≠ .took t i ck) ∧ o ≠ .fresh i)) := by
  have hlen : ∀ (q : Peer), d.peers[i]? = some q → i < d.peers.length := by
    intro q hq
    exact (List.getElem?_eq_some_iff.mp hq).1
  cases e with
  | poll n =>
    exact ⟨j, hj, Or.inr (Or.inr (Or.inr ⟨rfl, fun o ho => absurd ho List.not_mem_nil⟩))⟩
  | hs data off ip port r1 r2 =>
    obtain ⟨h1, h2⟩ := hs_peers c d data off ip port r1 r2
    refine ⟨j, ?_, Or.inr (Or.inr (Or.inr ⟨rfl, ?_⟩))⟩
    · show jarOf (onHs c d data off ip port r1 r2).1 i = some j
      unfold jarOf
      rw [h1]
      exact hj
    · intro o ho
      rcases h2 o ho with ⟨_, _, _, _, _, e⟩ | ⟨_, _, e⟩ | ⟨_, _, _, _, e⟩ <;> subst e <;>
        refine ⟨?_, ?_, ?_⟩ <;> intros <;> intro h <;> cases h
  | cookie r =>
    show ∃ j', jarOf (onCookie c d r).1 i = some j' ∧ _
    rcases onCookie_cases c d r with e | ⟨i', p, ck, h1, h2, h3, h4, h5, e⟩
    · refine ⟨j, by rw [e]; exact hj, Or.inr (Or.inr (Or.inr ⟨rfl, ?_⟩))⟩
      intro o ho
      have ho : o ∈ (onCookie c d r).2 := ho
      rw [e] at ho
      exact absurd ho List.not_mem_nil
    · rw [fst_of e, jarOf_set d i' i _ _ rfl]
      by_cases hi : i' = i
      · subst hi
        rw [if_pos ⟨rfl, hlen p h1⟩]
        have hjp : p.jar = j := by
          unfold jarOf at hj
          rw [h1] at hj
          exact Option.some.inj hj
        refine ⟨_, rfl, Or.inr (Or.inl ⟨ck, ?_, by rw [← hjp]; exact h3, by rw [hjp]⟩)⟩
        exact snd_of e
      · rw [if_neg (fun h => hi h.1)]
        refine ⟨j, hj, Or.inr (Or.inr (Or.inr ⟨rfl, ?_⟩))⟩
        intro o ho
        have ho : o ∈ (onCookie c d r).2 := ho
        rw [e] at ho
        have := List.eq_of_mem_singleton ho
        subst this
        refine ⟨fun _ _ _ h => by (cases h), fun t ck h => ?_, fun h => by (cases h)⟩
        injection h with _ a _
        exact hi a
  | send i' body =>
    simp only [step]
    cases hp : d.peers[i']? with
    | none =>
      exact ⟨j, hj, Or.inr (Or.inr (Or.inr ⟨rfl, fun o ho => absurd ho List.not_mem_nil⟩))⟩
    | some p =>
      dsimp only
      rw [jarOf_set d i' i _ _ rfl]
      by_cases hi : i' = i
      · subst hi
        rw [if_pos ⟨rfl, hlen p hp⟩]
        have hjp : p.jar = j := by
          unfold jarOf at hj
          rw [hp] at hj
          exact Option.some.inj hj
        rw [hjp]
        exact ⟨_, rfl, Or.inr (Or.inr (Or.inl ⟨body, rfl, rfl, rfl⟩))⟩
      · rw [if_neg (fun h => hi h.1)]
        refine ⟨j, hj, Or.inr (Or.inr (Or.inr ⟨rfl, ?_⟩))⟩
        intro o ho
        have := List.eq_of_mem_singleton ho
        subst this
        refine ⟨fun _ _ _ h => ?_, fun t ck h => by (cases h), fun h => by (cases h)⟩
        injection h with _ a _
        exact hi a
  | index i' idx =>
    simp only [step]
    cases hp : d.peers[i']? with
    | none =>
      exact ⟨j, hj, Or.inr (Or.inr (Or.inr ⟨rfl, fun o ho => absurd ho List.not_mem_nil⟩))⟩
    | some p =>
      dsimp only
      rw [jarOf_set d i' i _ _ rfl]
      refine ⟨j, ?_, Or.inr (Or.inr (Or.inr ⟨rfl, fun o ho => absurd ho List.not_mem_nil⟩))⟩
      split
      · next h =>
        obtain ⟨rfl, _⟩ := h
        unfold jarOf at hj
        rw [hp] at hj
        exact hj
      · exact hj
  | addPeer i' pub =>
    simp only [step]
    cases hp : d.peers[i']? with
    | none =>
      exact ⟨j, hj, Or.inr (Or.inr (Or.inr ⟨rfl, fun o ho => absurd ho List.not_mem_nil⟩))⟩
    | some p =>
      dsimp only
      rw [jarOf_set d i' i _ _ rfl]
      by_cases hi : i' = i
      · subst hi
        rw [if_pos ⟨rfl, hlen p hp⟩]
        exact ⟨_, rfl, Or.inl ⟨pub, rfl, rfl, rfl⟩⟩
      · rw [if_neg (fun h => hi h.1)]
        refine ⟨j, hj, Or.inr (Or.inr (Or.inr ⟨rfl, ?_⟩))⟩
        intro o ho
        have := List.eq_of_mem_singleton ho
        subst this
        refine ⟨fun _ _ _ h => by (cases h), fun t ck h => by (cases h), fun h => ?_⟩
        injection h with a
        exact hi a

theorem jar_run (c : Crypto) (d : Dev) (es : List Ev) (i : Nat) (j : Jar) (hj : jarOf d i = some j) :
    ∃ j', jarOf (run c d es).1 i = some j' := by
  induction es generalizing d j with
  | nil => exact ⟨j, hj⟩
  | cons e es ih =>
    obtain ⟨j1, h1, _⟩ := jar_step c d e i j hj
    exact ih _ j1 h1

/-! ## One cookie per message -/

/-- Cookies accepted from peer `i`. -/
def tookBy (i : Nat) (o : Out) : Bool := match o with | .took _ k _ => k == i | _ => false
/-- Handshake messages sent to peer `i`. -/
def sentTo (i : Nat) (o : Out) : Bool := match o with | .sent _ k _ _ => k == i | _ => false

theorem none_of (i : Nat) (l : List Out)
    (h : ∀ o ∈ l, (∀ t m b, o ≠ .sent t i m b) ∧ (∀ t ck, o ≠ .took t i ck) ∧ o ≠ .fresh i) :
    l.countP (tookBy i) = 0 ∧ l.countP (sentTo i) = 0 := by
  constructor
  · rw [List.countP_eq_zero]
    intro o ho hc
    cases o with
    | took t k ck =>
      have : k = i := by simpa [tookBy] using hc
      subst this
      exact (h _ ho).2.1 t ck rfl
    | _ => exact Bool.noConfusion hc
  · rw [List.countP_eq_zero]
    intro o ho hc
    cases o with
    | sent t k m b =>
      have : k = i := by simpa [sentTo] using hc
      subst this
      exact (h _ ho).1 t m b rfl
    | _ => exact Bool.noConfusion hc

/-- **At most one cookie is accepted per message sent**: over every history, the cookies accepted
from a peer are no more than the handshake messages sent to it (plus one if a message sent before
is still unanswered).  A replayed cookie reply is never accepted twice. -/
theorem one_cookie_per_message (c : Crypto) (d : Dev) (es : List Ev) (i : Nat) (j : Jar)
    (hj : jarOf d i = some j) :
    (run c d es).2.countP (tookBy i) ≤ (run c d es).2.countP (sentTo i) + (if j.sent then 1 else 0) := by
  induction es generalizing d j with
  | nil => exact Nat.zero_le _
  | cons e es ih =>
    obtain ⟨j1, h1, h⟩ := jar_step c d e i j hj
    have hr := ih _ j1 h1
    show ((step c d e).2 ++ (run c (step c d e).1 es).2).countP (tookBy i) ≤
      ((step c d e).2 ++ (run c (step c d e).1 es).2).countP (sentTo i) + _
    rw [List.countP_append, List.countP_append]
    rcases h with ⟨pub, _, e1, e2⟩ | ⟨ck, e2, e3, e1⟩ | ⟨body, _, e1, e2⟩ | ⟨e1, e2⟩
    · rw [e2]
      rw [e1] at hr
      have : (jarInit c pub).sent = false := rfl
      rw [this] at hr
      simp [tookBy, sentTo] at hr ⊢
      omega
    · rw [e2, e3]
      rw [e1] at hr
      simp [tookBy, sentTo] at hr ⊢
      omega
    · rw [e2]
      simp [tookBy, sentTo]
      have : (if j1.sent then 1 else 0) ≤ 1 := by split <;> omega
      omega
    · obtain ⟨a, b⟩ := none_of i _ e2
      rw [a, b]
      rw [e1] at hr
      omega

/-! ## Second MACs -/

/-- One observation: an accepted cookie replaces the one held, setting up the peer drops it. -/
def note (i : Nat) (a : Option (Nat × Bytes)) : Out → Option (Nat × Bytes)
  | .took t k ck => if k = i then some (t, ck) else a
  | .fresh k => if k = i then none else a
  | .processed .. => a
  | .rotated .. => a
  | .reply .. => a
  | .sent .. => a

/-- The cookie last accepted from peer `i`, and when, given the one held before. -/
def scan (i : Nat) (a : Option (Nat × Bytes)) (l : List Out) : Option (Nat × Bytes) :=
  l.foldl (note i) a

theorem scan_append (i : Nat) (a : Option (Nat × Bytes)) (l m : List Out) :
    scan i a (l ++ m) = scan i (scan i a l) m := List.foldl_append

theorem scan_other (i : Nat) (a : Option (Nat × Bytes)) (l : List Out)
    (h : ∀ o ∈ l, (∀ t ck, o ≠ .took t i ck) ∧ o ≠ .fresh i) : scan i a l = a := by
  induction l with
  | nil => rfl
  | cons o l ih =>
    have h1 := h o List.mem_cons_self
    have ih := ih (fun x hx => h x (List.mem_cons_of_mem _ hx))
    have : note i a o = a := by
      cases o with
      | took t k ck => exact if_neg (fun e => h1.1 t ck (by rw [e]))
      | fresh k => exact if_neg (fun e => h1.2 (by rw [e]))
      | _ => rfl
    show l.foldl (note i) (note i a o) = a
    rw [this]
    exact ih

/-- The jar holds exactly the cookie last accepted. -/
def JInv (j : Jar) (a : Option (Nat × Bytes)) : Prop :=
  a = if j.valid then some (j.birth, j.cookie) else none

theorem jinv_run (c : Crypto) (d : Dev) (es : List Ev) (i : Nat) (j : Jar) (a : Option (Nat × Bytes))
    (hj : jarOf d i = some j) (ha : JInv j a) :
    ∃ j', jarOf (run c d es).1 i = some j' ∧ JInv j' (scan i a (run c d es).2) := by
  induction es generalizing d j a with
  | nil => exact ⟨j, hj, ha⟩
  | cons e es ih =>
    obtain ⟨j1, h1, h⟩ := jar_step c d e i j hj
    show ∃ j', jarOf (run c (step c d e).1 es).1 i = some j' ∧
      JInv j' (scan i a ((step c d e).2 ++ (run c (step c d e).1 es).2))
    rw [scan_append]
    apply ih _ j1 _ h1
    rcases h with ⟨pub, _, e1, e2⟩ | ⟨ck, e2, e3, e1⟩ | ⟨body, _, e1, e2⟩ | ⟨e1, e2⟩
    · rw [e2, e1]
      simp [scan, note, JInv, jarInit]
    · rw [e2, e1]
      simp [scan, note, JInv]
    · rw [e2, e1]
      show JInv _ a
      rcases addMacs_jar c j body d.now with h | ⟨m, h⟩
      · rw [h]; exact ha
      · rw [h]; exact ha
    · rw [e1, scan_other i a _ (fun o ho => ⟨(e2 o ho).2.1, (e2 o ho).2.2⟩)]
      exact ha

/-- `birth ≤ now` for the cookie held. -/
theorem birth_run (c : Crypto) (d : Dev) (es : List Ev) (i : Nat) (j : Jar)
    (hc : ClockOk d.now es) (hj : jarOf d i = some j) (hb : j.birth ≤ d.now) :
    ∃ j', jarOf (run c d es).1 i = some j' ∧ j'.birth ≤ (run c d es).1.now := by
  induction es generalizing d j with
  | nil => exact ⟨j, hj, hb⟩
  | cons e es ih =>
    obtain ⟨j1, h1, h⟩ := jar_step c d e i j hj
    obtain ⟨k1, k2, _⟩ := clockOk_step (c := c) hc
    apply ih _ j1 k1 h1
    rcases h with ⟨pub, _, e1, e2⟩ | ⟨ck, e2, e3, e1⟩ | ⟨body, _, e1, e2⟩ | ⟨e1, e2⟩
    · rw [e1]; exact Nat.zero_le _
    · rw [e1]; exact k2
    · rw [e1]
      rcases addMacs_jar c j body d.now with h | ⟨m, h⟩
      · rw [h]; exact Nat.le_trans hb k2
      · rw [h]; exact Nat.le_trans hb k2
    · rw [e1]; exact Nat.le_trans hb k2

/-- The second MAC a handshake message must carry: keyed with the cookie held, if that is at most
120 s old; zero otherwise. -/
def wantMac2 (c : Crypto) (held : Option (Nat × Bytes)) (now : Nat) (msg : Bytes) : Option Bytes :=
  match held with
  | none => some (List.replicate ckLen 0)
  | some (t, ck) => if now ≤ t + maxAge then c.mac ck msg else some (List.replicate ckLen 0)

/-- **Every handshake message sent carries the right MACs.**  After any history of a device that
held no cookie from peer `i`: the next message sent to it is its body, the MAC of the body under
the peer's key, and a second MAC that is keyed with the cookie last accepted from that peer if
that was at most 120 s ago and zero otherwise. -/
theorem sent_message_exact (c : Crypto) (d : Dev) (es : List Ev) (i : Nat) (j : Jar) (body : Bytes)
    (hj : jarOf d i = some j) (hv : j.valid = false) (hb : j.birth ≤ d.now)
    (hc : ClockOk d.now es) (hn : d.now < 2 ^ 64 - 200000)
    (hmac : ∀ k m, c.mac k m ≠ none) :
    ∃ j' m1 m2, jarOf (run c d es).1 i = some j' ∧
      c.mac j'.mac1Key body = some m1 ∧
      wantMac2 c (scan i none (run c d es).2) (run c d es).1.now (body ++ m1) = some m2 ∧
      (step c (run c d es).1 (.send i body)).2 =
        [.sent (run c d es).1.now i (body ++ m1 ++ m2) body.length] := by
  obtain ⟨j', h1, h2⟩ := jinv_run c d es i j none hj (by rw [JInv, hv]; rfl)
  obtain ⟨j'', h3, h4⟩ := birth_run c d es i j hc hj hb
  rw [h1] at h3
  have h3 := Option.some.inj h3
  subst h3
  have hnow := (clock_mono c d es hc).2 hn
  generalize hx : run c d es = x at h1 h2 h4 hnow
  have hp : ∃ p, x.1.peers[i]? = some p ∧ p.jar = j' := by
    unfold jarOf at h1
    cases hq : x.1.peers[i]? with
    | none => rw [hq] at h1; cases h1
    | some p => rw [hq] at h1; exact ⟨p, rfl, Option.some.inj h1⟩
  obtain ⟨p, hp, hpj⟩ := hp
  cases hm : c.mac j'.mac1Key body with
  | none => exact absurd hm (hmac _ _)
  | some m1 =>
    have hs : ∀ m2, (addMacs c j' body x.1.now).2 = body ++ m1 ++ m2 →
        (step c x.1 (.send i body)).2 = [.sent x.1.now i (body ++ m1 ++ m2) body.length] := by
      intro m2 h
      simp only [step, hp, hpj]
      rw [h]
    have key : ∀ (fresh : Prop) [Decidable fresh], (fresh ↔ (j'.valid = true ∧ sub64 x.1.now j'.birth ≤ maxAge)) →
        (addMacs c j' body x.1.now).2 = (if fresh then
          (match c.mac j'.cookie (body ++ m1) with
            | none => body ++ m1 ++ List.replicate ckLen 0
            | some m2 => body ++ m1 ++ m2) else body ++ m1 ++ List.replicate ckLen 0) := by
      intro fresh _ hf
      unfold addMacs
      rw [hm]
      dsimp only
      by_cases h : fresh
      · rw [if_pos h, if_pos (hf.mp h)]
        cases c.mac j'.cookie (body ++ m1) <;> rfl
      · rw [if_neg h, if_neg (fun k => h (hf.mpr k))]
    rw [JInv] at h2
    by_cases hval : j'.valid = true
    · rw [if_pos hval] at h2
      by_cases hage : x.1.now ≤ j'.birth + maxAge
      · have hk := key True (by
          refine ⟨fun _ => ⟨hval, ?_⟩, fun _ => trivial⟩
          rw [sub64_le h4 (by omega)]; omega)
        rw [if_pos trivial] at hk
        cases hm2 : c.mac j'.cookie (body ++ m1) with
        | none => exact absurd hm2 (hmac _ _)
        | some m2 =>
          rw [hm2] at hk
          refine ⟨j', m1, m2, h1, hm, ?_, hs m2 hk⟩
          rw [h2]
          unfold wantMac2
          dsimp only
          rw [if_pos hage]
          exact hm2
      · have hk := key False (by
          refine ⟨fun h => h.elim, fun h => ?_⟩
          have := h.2
          rw [sub64_le h4 (by omega)] at this
          omega)
        rw [if_neg id] at hk
        refine ⟨j', m1, _, h1, hm, ?_, hs _ hk⟩
        rw [h2]
        unfold wantMac2
        dsimp only
        rw [if_neg hage]
    · rw [if_neg hval] at h2
      have hk := key False ⟨fun h => h.elim, fun h => absurd h.1 hval⟩
      rw [if_neg id] at hk
      refine ⟨j', m1, _, h1, hm, ?_, hs _ hk⟩
      rw [h2]
      rfl

end Wolf.Wg.Cookie
