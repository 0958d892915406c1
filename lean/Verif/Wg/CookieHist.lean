import Verif.Wg.CookieProps

/-!
# C80: the cookie exchange over histories
-/

namespace Wolf.Wg.Cookie

/-- The clock never runs backwards and stays clear of the end of 64 bits. -/
def ClockOk : Nat → List Ev → Prop
  | _, [] => True
  | t, .poll n :: es => t ≤ n ∧ n < 2 ^ 64 - 200000 ∧ ClockOk n es
  | t, .hs .. :: es => ClockOk t es
  | t, .cookie .. :: es => ClockOk t es
  | t, .send .. :: es => ClockOk t es
  | t, .index .. :: es => ClockOk t es
  | t, .addPeer .. :: es => ClockOk t es

theorem sub64_le {a b : Nat} (h : b ≤ a) (ha : a < 2 ^ 64) : sub64 a b = a - b := by
  unfold sub64
  rw [Nat.mod_eq_of_lt (show b < 2 ^ 64 by omega), show a + 2 ^ 64 - b = (a - b) + 2 ^ 64 by omega,
    Nat.add_mod_right, Nat.mod_eq_of_lt (by omega)]

theorem sub64_never {a : Nat} (ha : a < 2 ^ 64 - 200000) :
    sub64 a (2 ^ 64 - 1 - maxAge - 1) > maxAge := by
  unfold sub64
  omega

/-- How the checker may change in one event. -/
inductive CkStep (now : Nat) (k : Checker) (outs : List Out) : Checker → Prop where
  | same : CkStep now k outs k
  | garbled (s : Bytes) : sub64 now k.birth > maxAge → CkStep now k outs { k with secret := s }
  | fresh (s : Bytes) : sub64 now k.birth > maxAge → Out.rotated now s ∈ outs →
      CkStep now k outs { k with secret := s, birth := now }

theorem ck_createReply (c : Crypto) (k : Checker) (now : Nat) (data : Bytes)
    (off ip port : Nat) (r1 r2 : Rng) :
    CkStep now k (createReply c k now data off ip port r1 r2).2
      (createReply c k now data off ip port r1 r2).1 := by
  obtain ⟨_, _, _, _, h5, h6, h7⟩ := createReply_spec c k now data off ip port r1 r2
  revert h5 h6 h7
  generalize createReply c k now data off ip port r1 r2 = y
  generalize hage : sub64 now k.birth = age
  intro h5 h6 h7
  by_cases ha : age > maxAge
  · have ha' : sub64 now k.birth > maxAge := by rw [hage]; exact ha
    cases hr : r1.ok with
    | false => rw [h6 ha hr]; exact .garbled _ ha'
    | true =>
      obtain ⟨e1, e2⟩ := h7 ha hr
      rw [e1]; exact .fresh _ ha' e2
  · rw [h5 (by omega)]; exact .same

theorem ck_of_reply (d : Dev) (x : Dev × List Out) (y : Checker × List Out)
    (hy : CkStep d.now d.checker y.2 y.1)
    (hx : x = ({ d with checker := y.1 }, y.2)) :
    CkStep d.now d.checker x.2 x.1.checker ∧ x.1.now = d.now := by
  subst hx
  exact ⟨hy, rfl⟩

theorem ck_hs (c : Crypto) (d : Dev) (data : Bytes) (off ip port : Nat) (r1 r2 : Rng) :
    CkStep d.now d.checker (onHs c d data off ip port r1 r2).2
      (onHs c d data off ip port r1 r2).1.checker ∧
    (onHs c d data off ip port r1 r2).1.now = d.now := by
  by_cases hp : Passes c d data off ip port r1 r2
  · by_cases h0 : data.length < off + 2 * ckLen
    · exact absurd hp (onHs_drop_no _ _ _ _ _ _ _ _ (onHs_short c d data off ip port r1 r2 h0))
    by_cases h1 : validate c d.checker data off ip port d.now = .invalid
    · exact absurd hp (onHs_drop_no _ _ _ _ _ _ _ _ (onHs_invalid c d data off ip port r1 r2 h1))
    by_cases h2 : d.underLoad = true ∧ validate c d.checker data off ip port d.now ≠ .withCookie
    · exact absurd hp (onHs_reply_no c d data off ip port r1 r2 h0 h1 h2)
    · rw [fst_of (onHs_pass c d data off ip port r1 r2 h0 h1 h2)]
      exact ⟨.same, rfl⟩
  · rcases refused_cases c d data off ip port r1 r2 hp with e | ⟨_, e⟩
    · have e : onHs c d data off ip port r1 r2 = (d, []) := e
      rw [e]
      exact ⟨.same, rfl⟩
    · exact ck_of_reply d _ _ (ck_createReply c d.checker d.now data off ip port r1 r2) e

/-- What one event does to the checker and the clock. -/
theorem ck_step (c : Crypto) (d : Dev) (e : Ev) :
    (∃ n, e = .poll n ∧ (step c d e).1.checker = d.checker ∧ (step c d e).1.now = n) ∨
    ((∀ n, e ≠ .poll n) ∧ CkStep d.now d.checker (step c d e).2 (step c d e).1.checker ∧
      (step c d e).1.now = d.now) := by
  cases e with
  | poll n => exact Or.inl ⟨n, rfl, rfl, rfl⟩
  | hs data off ip port r1 r2 =>
    exact Or.inr ⟨fun n h => by (cases h), ck_hs c d data off ip port r1 r2⟩
  | cookie r =>
    refine Or.inr ⟨fun n h => by (cases h), ?_⟩
    simp only [step, onCookie]
    split
    · exact ⟨.same, rfl⟩
    · split
      · exact ⟨.same, rfl⟩
      · split <;> exact ⟨.same, rfl⟩
  | send i body =>
    refine Or.inr ⟨fun n h => by (cases h), ?_⟩
    simp only [step]
    split <;> exact ⟨.same, rfl⟩
  | index i idx =>
    refine Or.inr ⟨fun n h => by (cases h), ?_⟩
    simp only [step]
    split <;> exact ⟨.same, rfl⟩
  | addPeer i pub =>
    refine Or.inr ⟨fun n h => by (cases h), ?_⟩
    simp only [step]
    split <;> exact ⟨.same, rfl⟩

theorem clockOk_step {c : Crypto} {d : Dev} {e : Ev} {es : List Ev} (h : ClockOk d.now (e :: es)) :
    ClockOk (step c d e).1.now es ∧ d.now ≤ (step c d e).1.now ∧
      (d.now < 2 ^ 64 - 200000 → (step c d e).1.now < 2 ^ 64 - 200000) := by
  rcases ck_step c d e with ⟨n, rfl, _, hn⟩ | ⟨hne, _, hn⟩
  · rw [hn]
    exact ⟨h.2.2, h.1, fun _ => h.2.1⟩
  · rw [hn]
    refine ⟨?_, Nat.le_refl _, id⟩
    cases e with
    | poll n => exact absurd rfl (hne n)
    | _ => exact h

theorem clock_mono (c : Crypto) (d : Dev) (es : List Ev) (h : ClockOk d.now es) :
    d.now ≤ (run c d es).1.now ∧ (d.now < 2 ^ 64 - 200000 → (run c d es).1.now < 2 ^ 64 - 200000) := by
  induction es generalizing d with
  | nil => exact ⟨Nat.le_refl _, id⟩
  | cons e es ih =>
    obtain ⟨h1, h2, h3⟩ := clockOk_step (c := c) h
    obtain ⟨a1, a2⟩ := ih _ h1
    exact ⟨Nat.le_trans h2 a1, fun hl => a2 (h3 hl)⟩

/-- **While a secret is at most 120 s old it is the secret**: whatever messages arrive, no event
replaces it, so every cookie handed out under it stays good. -/
theorem secret_stable (c : Crypto) (d : Dev) (es : List Ev) (hc : ClockOk d.now es)
    (hn : d.now < 2 ^ 64 - 200000) (hb : d.checker.birth ≤ d.now)
    (hend : (run c d es).1.now ≤ d.checker.birth + maxAge) :
    (run c d es).1.checker = d.checker := by
  induction es generalizing d with
  | nil => rfl
  | cons e es ih =>
    obtain ⟨h1, h2, h3⟩ := clockOk_step (c := c) hc
    have hm := (clock_mono c _ es h1).1
    have hend' : (run c (step c d e).1 es).1.now ≤ d.checker.birth + maxAge := hend
    have hk : (step c d e).1.checker = d.checker := by
      rcases ck_step c d e with ⟨_, _, hk, _⟩ | ⟨_, hk, _⟩
      · exact hk
      · have hage : ¬ sub64 d.now d.checker.birth > maxAge := by
          rw [sub64_le hb (by omega)]; omega
        generalize (step c d e).1.checker = k at hk
        cases hk with
        | same => rfl
        | garbled s h => exact absurd h hage
        | fresh s h _ => exact absurd h hage
    show (run c (step c d e).1 es).1.checker = d.checker
    rw [ih _ h1 (h3 hn) (by rw [hk]; omega) (by rw [hk]; exact hend'), hk]

/-- The secret is the one never set, or one drawn at its birth date, or too old to count. -/
def SInv (d : Dev) (tr : List Out) : Prop :=
  d.checker.birth = 2 ^ 64 - 1 - maxAge - 1 ∨
  (d.checker.birth ≤ d.now ∧
    (Out.rotated d.checker.birth d.checker.secret ∈ tr ∨ d.now > d.checker.birth + maxAge))

theorem sinv_step (c : Crypto) (d : Dev) (e : Ev) (es : List Ev) (tr : List Out)
    (hc : ClockOk d.now (e :: es)) (hn : d.now < 2 ^ 64 - 200000) (h : SInv d tr) :
    SInv (step c d e).1 (tr ++ (step c d e).2) := by
  obtain ⟨_, h2, _⟩ := clockOk_step (c := c) hc
  unfold SInv
  rcases ck_step c d e with ⟨_, _, hk, _⟩ | ⟨_, hk, hnow⟩
  · rw [hk]
    rcases h with h | ⟨a, b⟩
    · exact Or.inl h
    · refine Or.inr ⟨by omega, ?_⟩
      rcases b with b | b
      · exact Or.inl (List.mem_append_left _ b)
      · exact Or.inr (by omega)
  · rw [hnow]
    revert hk
    generalize (step c d e).1.checker = k
    intro hk
    cases hk with
    | same =>
      rcases h with h | ⟨a, b⟩
      · exact Or.inl h
      · exact Or.inr ⟨a, b.imp (List.mem_append_left _) id⟩
    | garbled s hage =>
      rcases h with h | ⟨a, b⟩
      · exact Or.inl h
      · refine Or.inr ⟨a, Or.inr ?_⟩
        rw [sub64_le a (by omega)] at hage
        show d.now > d.checker.birth + maxAge
        omega
    | fresh s hage hr => exact Or.inr ⟨Nat.le_refl _, Or.inl (List.mem_append_right _ hr)⟩

theorem sinv_run (c : Crypto) (d : Dev) (es : List Ev) (tr : List Out)
    (hc : ClockOk d.now es) (hn : d.now < 2 ^ 64 - 200000) (h : SInv d tr) :
    SInv (run c d es).1 (tr ++ (run c d es).2) := by
  induction es generalizing d tr with
  | nil => simpa [run] using h
  | cons e es ih =>
    obtain ⟨h1, _, h3⟩ := clockOk_step (c := c) hc
    have := ih _ _ h1 (h3 hn) (sinv_step c d e es tr hc hn h)
    simpa [run, List.append_assoc] using this

/-- **Under load only the holders of a recent cookie get through.**  Over every history of a
device that started with no secret: when it is under load, a handshake message that is passed on
carries a right first MAC and a second MAC keyed with the cookie of the very address it came
from, under a secret the device itself drew at most 120 s ago. -/
theorem under_load_needs_recent_cookie (c : Crypto) (pub : Bytes) (t0 : Nat) (load : Bool)
    (n : Nat) (peers : List Peer) (es : List Ev) (data : Bytes) (off ip port : Nat) (r1 r2 : Rng)
    (ht : t0 < 2 ^ 64 - 200000) (hc : ClockOk t0 es)
    (hl : (run c ⟨checkerInit c pub, load, n, t0, peers⟩ es).1.underLoad = true)
    (hp : Passes c (run c ⟨checkerInit c pub, load, n, t0, peers⟩ es).1 data off ip port r1 r2) :
    c.mac (c.mac1Key pub) (data.take off) = some (mac1 data off) ∧
    ∃ t s, Out.rotated t s ∈ (run c ⟨checkerInit c pub, load, n, t0, peers⟩ es).2 ∧
      t ≤ (run c ⟨checkerInit c pub, load, n, t0, peers⟩ es).1.now ∧
      (run c ⟨checkerInit c pub, load, n, t0, peers⟩ es).1.now ≤ t + maxAge ∧
      CookieOk c s data off ip port := by
  have hs := sinv_run c ⟨checkerInit c pub, load, n, t0, peers⟩ es [] hc ht (Or.inl rfl)
  have hnow := (clock_mono c ⟨checkerInit c pub, load, n, t0, peers⟩ es hc).2 ht
  have hkey : ∀ (es : List Ev) (d : Dev), (run c d es).1.checker.mac1Key = d.checker.mac1Key := by
    intro es
    induction es with
    | nil => intro d; rfl
    | cons e es ih =>
      intro d
      show (run c (step c d e).1 es).1.checker.mac1Key = _
      rw [ih]
      rcases ck_step c d e with ⟨_, _, hk, _⟩ | ⟨_, hk, _⟩
      · rw [hk]
      · generalize (step c d e).1.checker = k at hk
        cases hk <;> rfl
  have hkey := hkey es ⟨checkerInit c pub, load, n, t0, peers⟩
  rw [List.nil_append] at hs
  generalize run c ⟨checkerInit c pub, load, n, t0, peers⟩ es = x at hs hnow hl hp hkey
  obtain ⟨g1, g2⟩ := (gate_exact c x.1 data off ip port r1 r2).mp hp
  obtain ⟨g2, g3⟩ := g2 hl
  have hkey : x.1.checker.mac1Key = c.mac1Key pub := hkey
  refine ⟨by rw [← hkey]; exact g1.2, ?_⟩
  rcases hs with h | ⟨a, b⟩
  · rw [h] at g3
    have := sub64_never hnow
    omega
  · rw [sub64_le a (by omega)] at g3
    rcases b with b | b
    · exact ⟨_, _, b, a, by omega, g2⟩
    · omega

end Wolf.Wg.Cookie
