import Verif.Wg.Cookie

/-!
# C80: the load gate and the cookie exchange
-/

namespace Wolf.Wg.Cookie

/-! ## Specification -/

/-- The first MAC is right: it is the MAC of everything before it under the key derived from the
receiver's public key. -/
def Mac1Ok (c : Crypto) (k : Checker) (data : Bytes) (off : Nat) : Prop :=
  off + 2 * ckLen ≤ data.length ∧ c.mac k.mac1Key (data.take off) = some (mac1 data off)

/-- The second MAC is keyed with the cookie that belongs to the sender's address under `secret`. -/
def CookieOk (c : Crypto) (secret data : Bytes) (off ip port : Nat) : Prop :=
  mac2 data off ≠ List.replicate ckLen 0 ∧
  ∃ ck, c.mac secret (srcData ip port) = some ck ∧
    c.mac ck (data.take (off + ckLen)) = some (mac2 data off)

/-- What the validation returns, in these terms. -/
theorem validate_exact (c : Crypto) (k : Checker) (data : Bytes) (off ip port now : Nat) :
    (validate c k data off ip port now ≠ .invalid ↔ Mac1Ok c k data off) ∧
    (validate c k data off ip port now = .withCookie ↔
      Mac1Ok c k data off ∧ CookieOk c k.secret data off ip port ∧ sub64 now k.birth ≤ maxAge) := by
  unfold validate Mac1Ok CookieOk
  by_cases h0 : off + 2 * ckLen > data.length
  · rw [if_pos h0]
    exact ⟨⟨fun h => absurd rfl h, fun h => absurd h.1 (by omega)⟩,
      ⟨fun h => by (cases h), fun h => absurd h.1.1 (by omega)⟩⟩
  rw [if_neg h0]
  have h0' : off + 2 * ckLen ≤ data.length := by omega
  cases h1 : c.mac k.mac1Key (data.take off) with
  | none =>
    dsimp only
    exact ⟨⟨fun h => absurd rfl h, fun h => by (cases h.2)⟩,
      ⟨fun h => by (cases h), fun h => by (cases h.1.2)⟩⟩
  | some m1 =>
    dsimp only
    by_cases h2 : m1 ≠ mac1 data off
    · rw [if_pos h2]
      exact ⟨⟨fun h => absurd rfl h, fun h => absurd (Option.some.inj h.2) h2⟩,
        ⟨fun h => by (cases h), fun h => absurd (Option.some.inj h.1.2) h2⟩⟩
    rw [if_neg h2]
    have h2' : m1 = mac1 data off := Decidable.of_not_not h2
    have hm : off + 2 * ckLen ≤ data.length ∧ some m1 = some (mac1 data off) :=
      ⟨h0', congrArg some h2'⟩
    by_cases h3 : mac2 data off = List.replicate ckLen 0
    · rw [if_pos h3]
      exact ⟨⟨fun _ => hm, fun _ h => by (cases h)⟩,
        ⟨fun h => by (cases h), fun h => absurd h3 h.2.1.1⟩⟩
    rw [if_neg h3]
    by_cases h4 : sub64 now k.birth > maxAge
    · rw [if_pos h4]
      exact ⟨⟨fun _ => hm, fun _ h => by (cases h)⟩,
        ⟨fun h => by (cases h), fun h => absurd h.2.2 (by omega)⟩⟩
    rw [if_neg h4]
    cases h5 : c.mac k.secret (srcData ip port) with
    | none =>
      dsimp only
      refine ⟨⟨fun _ => hm, fun _ h => by (cases h)⟩, ⟨fun h => by (cases h), fun h => ?_⟩⟩
      obtain ⟨_, ⟨_, ck, e, _⟩, _⟩ := h
      cases e
    | some ck =>
      dsimp only
      cases h6 : c.mac ck (data.take (off + ckLen)) with
      | none =>
        dsimp only
        refine ⟨⟨fun _ => hm, fun _ h => by (cases h)⟩, ⟨fun h => by (cases h), fun h => ?_⟩⟩
        obtain ⟨_, ⟨_, ck', e, e'⟩, _⟩ := h
        cases e
        rw [h6] at e'
        cases e'
      | some m2 =>
        dsimp only
        by_cases h7 : m2 = mac2 data off
        · rw [if_pos h7]
          refine ⟨⟨fun _ => hm, fun _ h => by (cases h)⟩, ⟨fun _ => ?_, fun _ => rfl⟩⟩
          refine ⟨hm, ⟨h3, ck, rfl, ?_⟩, by omega⟩
          rw [h6, h7]
        · rw [if_neg h7]
          refine ⟨⟨fun _ => hm, fun _ h => by (cases h)⟩, ⟨fun h => by (cases h), fun h => ?_⟩⟩
          obtain ⟨_, ⟨_, ck', e, e'⟩, _⟩ := h
          cases e
          rw [h6] at e'
          exact absurd (Option.some.inj e') h7

/-- A message passes the gate. -/
def Passes (c : Crypto) (d : Dev) (data : Bytes) (off ip port : Nat) (r1 r2 : Rng) : Prop :=
  Out.processed d.now data off ip port ∈ (step c d (.hs data off ip port r1 r2)).2

/-- Everything about `replyWith` that does not depend on why the secret was stale. -/
theorem replyWith_spec (c : Crypto) (k : Checker) (stale : Bool) (now : Nat) (data : Bytes)
    (off ip port : Nat) (r1 r2 : Rng) :
    let x := replyWith c k stale now data off ip port r1 r2
    (∀ o ∈ x.2, (o = .rotated now r1.bytes ∧ stale = true ∧ r1.ok = true) ∨ ∃ r, o = .reply now ip port r) ∧
    (x.2.filter (fun o => match o with | .reply .. => true | _ => false)).length ≤ 1 ∧
    x.1.mac1Key = k.mac1Key ∧ x.1.encKey = k.encKey ∧ (stale = false → x.1 = k) ∧
    (stale = true → r1.ok = false → x.1 = { k with secret := r1.bytes }) ∧
    (stale = true → r1.ok = true →
      x.1 = { k with secret := r1.bytes, birth := now } ∧ Out.rotated now r1.bytes ∈ x.2) := by
  dsimp only
  unfold replyWith
  cases stale with
  | false =>
    rw [if_neg (show ¬ (false = true ∧ r1.ok = false) from fun h => by cases h.1)]
    dsimp only [Bool.false_eq_true, if_false]
    rw [if_neg (show ¬ (false = true) from fun h => by cases h),
      if_neg (show ¬ (false = true) from fun h => by cases h)]
    split
    · simp
    · split
      · simp
      · split
        · simp
        · simp
  | true =>
    cases hr : r1.ok with
    | false =>
      rw [if_pos ⟨rfl, rfl⟩]
      simp
    | true =>
      rw [if_neg (show ¬ (true = true ∧ true = false) from fun h => by cases h.2)]
      dsimp only
      rw [if_pos rfl, if_pos rfl]
      split
      · simp
      · split
        · simp
        · split
          · simp
          · simp

/-- The same about the whole function. -/
theorem createReply_spec (c : Crypto) (k : Checker) (now : Nat) (data : Bytes)
    (off ip port : Nat) (r1 r2 : Rng) :
    (∀ o ∈ (createReply c k now data off ip port r1 r2).2,
      (o = .rotated now r1.bytes ∧ sub64 now k.birth > maxAge ∧ r1.ok = true) ∨
        ∃ r, o = .reply now ip port r) ∧
    ((createReply c k now data off ip port r1 r2).2.filter
      (fun o => match o with | .reply .. => true | _ => false)).length ≤ 1 ∧
    (createReply c k now data off ip port r1 r2).1.mac1Key = k.mac1Key ∧
    (createReply c k now data off ip port r1 r2).1.encKey = k.encKey ∧
    (sub64 now k.birth ≤ maxAge → (createReply c k now data off ip port r1 r2).1 = k) ∧
    (sub64 now k.birth > maxAge → r1.ok = false →
      (createReply c k now data off ip port r1 r2).1 = { k with secret := r1.bytes }) ∧
    (sub64 now k.birth > maxAge → r1.ok = true →
      (createReply c k now data off ip port r1 r2).1 = { k with secret := r1.bytes, birth := now } ∧
      Out.rotated now r1.bytes ∈ (createReply c k now data off ip port r1 r2).2) := by
  unfold createReply
  have hs : (decide (sub64 now k.birth > maxAge) = true ↔ sub64 now k.birth > maxAge) := decide_eq_true_iff
  revert hs
  generalize decide (sub64 now k.birth > maxAge) = st
  generalize sub64 now k.birth = age
  intro hs
  obtain ⟨k1, k2, k3, k4, k5, k6, k7⟩ := replyWith_spec c k st now data off ip port r1 r2
  refine ⟨fun o ho => (k1 o ho).imp (fun h => ⟨h.1, hs.mp h.2.1, h.2.2⟩) id, k2, k3, k4, ?_, ?_, ?_⟩
  · intro h
    apply k5
    cases st with
    | false => rfl
    | true => exact absurd (hs.mp rfl) (by omega)
  · intro h
    exact k6 (hs.mpr h)
  · intro h
    exact k7 (hs.mpr h)

theorem createReply_no_processed (c : Crypto) (k : Checker) (now : Nat) (data : Bytes)
    (off ip port : Nat) (r1 r2 : Rng) (o : Out)
    (ho : o ∈ (createReply c k now data off ip port r1 r2).2) :
    (∃ s, o = .rotated now s) ∨ ∃ r, o = .reply now ip port r := by
  rcases (createReply_spec c k now data off ip port r1 r2).1 o ho with h | h
  · exact Or.inl ⟨_, h.1⟩
  · exact Or.inr h

/-- What happens to a handshake message, by the outcome of the validation. -/
theorem onHs_short (c : Crypto) (d : Dev) (data : Bytes) (off ip port : Nat) (r1 r2 : Rng)
    (h0 : data.length < off + 2 * ckLen) : onHs c d data off ip port r1 r2 = (d, []) := by
  unfold onHs
  rw [if_pos h0]

theorem onHs_invalid (c : Crypto) (d : Dev) (data : Bytes) (off ip port : Nat) (r1 r2 : Rng)
    (h1 : validate c d.checker data off ip port d.now = .invalid) :
    onHs c d data off ip port r1 r2 = (d, []) := by
  unfold onHs
  split
  · rfl
  · dsimp only
    rw [if_pos h1]

theorem onHs_reply (c : Crypto) (d : Dev) (data : Bytes) (off ip port : Nat) (r1 r2 : Rng)
    (h0 : ¬ data.length < off + 2 * ckLen)
    (h1 : ¬ validate c d.checker data off ip port d.now = .invalid)
    (h2 : d.underLoad = true ∧ validate c d.checker data off ip port d.now ≠ .withCookie) :
    onHs c d data off ip port r1 r2 =
      ({ d with checker := (createReply c d.checker d.now data off ip port r1 r2).1 },
        (createReply c d.checker d.now data off ip port r1 r2).2) := by
  unfold onHs
  rw [if_neg h0]
  dsimp only
  rw [if_neg h1, if_pos h2]

theorem onHs_pass (c : Crypto) (d : Dev) (data : Bytes) (off ip port : Nat) (r1 r2 : Rng)
    (h0 : ¬ data.length < off + 2 * ckLen)
    (h1 : ¬ validate c d.checker data off ip port d.now = .invalid)
    (h2 : ¬ (d.underLoad = true ∧ validate c d.checker data off ip port d.now ≠ .withCookie)) :
    onHs c d data off ip port r1 r2 =
      ({ d with perCycle := (d.perCycle + 1) % 65536 }, [.processed d.now data off ip port]) := by
  unfold onHs
  rw [if_neg h0]
  dsimp only
  rw [if_neg h1, if_neg h2]

theorem fst_of {α β : Type} {x : α × β} {a : α} {b : β} (h : x = (a, b)) : x.1 = a := by
  subst h; rfl

theorem snd_of {α β : Type} {x : α × β} {a : α} {b : β} (h : x = (a, b)) : x.2 = b := by
  subst h; rfl

theorem passes_iff (c : Crypto) (d : Dev) (data : Bytes) (off ip port : Nat) (r1 r2 : Rng) :
    Passes c d data off ip port r1 r2 ↔
      Out.processed d.now data off ip port ∈ (onHs c d data off ip port r1 r2).2 := Iff.rfl

theorem createReply_no (c : Crypto) (k : Checker) (now : Nat) (data : Bytes) (off ip port : Nat)
    (r1 r2 : Rng) :
    ¬ Out.processed now data off ip port ∈ (createReply c k now data off ip port r1 r2).2 := by
  intro h'
  have := createReply_no_processed c k now data off ip port r1 r2 _ h'
  rcases this with ⟨s, e⟩ | ⟨r, e⟩
  · exact Out.noConfusion e
  · exact Out.noConfusion e

theorem onHs_reply_no (c : Crypto) (d : Dev) (data : Bytes) (off ip port : Nat) (r1 r2 : Rng)
    (h0 : ¬ data.length < off + 2 * ckLen)
    (h1 : ¬ validate c d.checker data off ip port d.now = .invalid)
    (h2 : d.underLoad = true ∧ validate c d.checker data off ip port d.now ≠ .withCookie) :
    ¬ Passes c d data off ip port r1 r2 := by
  rw [passes_iff, snd_of (onHs_reply c d data off ip port r1 r2 h0 h1 h2)]
  exact createReply_no c d.checker d.now data off ip port r1 r2

theorem onHs_pass_yes (c : Crypto) (d : Dev) (data : Bytes) (off ip port : Nat) (r1 r2 : Rng)
    (h0 : ¬ data.length < off + 2 * ckLen)
    (h1 : ¬ validate c d.checker data off ip port d.now = .invalid)
    (h2 : ¬ (d.underLoad = true ∧ validate c d.checker data off ip port d.now ≠ .withCookie)) :
    Passes c d data off ip port r1 r2 := by
  show Out.processed d.now data off ip port ∈ (onHs c d data off ip port r1 r2).2
  rw [onHs_pass c d data off ip port r1 r2 h0 h1 h2]
  exact List.mem_singleton.mpr rfl

theorem onHs_drop_no (c : Crypto) (d : Dev) (data : Bytes) (off ip port : Nat) (r1 r2 : Rng)
    (h : onHs c d data off ip port r1 r2 = (d, [])) : ¬ Passes c d data off ip port r1 r2 := by
  intro h'
  have h' : Out.processed d.now data off ip port ∈ (onHs c d data off ip port r1 r2).2 := h'
  rw [h] at h'
  exact List.not_mem_nil h'

/-- **The gate, exactly.**  In normal operation a handshake message is passed on iff its first
MAC is right; under load iff moreover its second MAC is keyed with the cookie of the address it
came from, under a secret at most 120 s old. -/
theorem gate_exact (c : Crypto) (d : Dev) (data : Bytes) (off ip port : Nat) (r1 r2 : Rng) :
    Passes c d data off ip port r1 r2 ↔
      Mac1Ok c d.checker data off ∧
      (d.underLoad = true → CookieOk c d.checker.secret data off ip port ∧
        sub64 d.now d.checker.birth ≤ maxAge) := by
  obtain ⟨v1, v2⟩ := validate_exact c d.checker data off ip port d.now
  by_cases h0 : data.length < off + 2 * ckLen
  · exact ⟨fun h => absurd h (onHs_drop_no _ _ _ _ _ _ _ _ (onHs_short c d data off ip port r1 r2 h0)),
      fun h => absurd h.1.1 (by omega)⟩
  by_cases h1 : validate c d.checker data off ip port d.now = .invalid
  · exact ⟨fun h => absurd h (onHs_drop_no _ _ _ _ _ _ _ _ (onHs_invalid c d data off ip port r1 r2 h1)),
      fun h => absurd h1 (v1.mpr h.1)⟩
  by_cases h2 : d.underLoad = true ∧ validate c d.checker data off ip port d.now ≠ .withCookie
  · exact ⟨fun h => absurd h (onHs_reply_no c d data off ip port r1 r2 h0 h1 h2),
      fun h => absurd (v2.mpr ⟨h.1, h.2 h2.1⟩) h2.2⟩
  · refine ⟨fun _ => ⟨v1.mp h1, fun hu => ?_⟩, fun _ => onHs_pass_yes c d data off ip port r1 r2 h0 h1 h2⟩
    have : validate c d.checker data off ip port d.now = .withCookie :=
      Decidable.of_not_not (fun hn => h2 ⟨hu, hn⟩)
    exact (v2.mp this).2

/-- How a refused message is handled. -/
theorem refused_cases (c : Crypto) (d : Dev) (data : Bytes) (off ip port : Nat) (r1 r2 : Rng)
    (h : ¬ Passes c d data off ip port r1 r2) :
    step c d (.hs data off ip port r1 r2) = (d, []) ∨
    ((d.underLoad = true ∧ Mac1Ok c d.checker data off) ∧
      step c d (.hs data off ip port r1 r2) =
        ({ d with checker := (createReply c d.checker d.now data off ip port r1 r2).1 },
          (createReply c d.checker d.now data off ip port r1 r2).2)) := by
  obtain ⟨v1, _⟩ := validate_exact c d.checker data off ip port d.now
  by_cases h0 : data.length < off + 2 * ckLen
  · exact Or.inl (onHs_short c d data off ip port r1 r2 h0)
  by_cases h1 : validate c d.checker data off ip port d.now = .invalid
  · exact Or.inl (onHs_invalid c d data off ip port r1 r2 h1)
  by_cases h2 : d.underLoad = true ∧ validate c d.checker data off ip port d.now ≠ .withCookie
  · exact Or.inr ⟨⟨h2.1, v1.mp h1⟩, onHs_reply c d data off ip port r1 r2 h0 h1 h2⟩
  · exact absurd (onHs_pass_yes c d data off ip port r1 r2 h0 h1 h2) h

/-- What a refused message may do to the device. -/
structure Refused (c : Crypto) (d : Dev) (data : Bytes) (off ip port : Nat)
    (x : Dev × List Out) : Prop where
  peers : x.1.peers = d.peers
  perCycle : x.1.perCycle = d.perCycle
  load : x.1.underLoad = d.underLoad
  now : x.1.now = d.now
  keys : x.1.checker.mac1Key = d.checker.mac1Key ∧ x.1.checker.encKey = d.checker.encKey
  outs : ∀ o ∈ x.2, (∃ s, o = .rotated d.now s) ∨ ∃ r, o = .reply d.now ip port r
  one : (x.2.filter (fun o => match o with | .reply .. => true | _ => false)).length ≤ 1
  why : x.2 ≠ [] → d.underLoad = true ∧ Mac1Ok c d.checker data off

theorem refused_of (c : Crypto) (d : Dev) (data : Bytes) (off ip port : Nat)
    (x : Dev × List Out) (y : Checker × List Out)
    (k1 : ∀ o ∈ y.2, (∃ s, o = .rotated d.now s) ∨ ∃ r, o = .reply d.now ip port r)
    (k2 : (y.2.filter (fun o => match o with | .reply .. => true | _ => false)).length ≤ 1)
    (k3 : y.1.mac1Key = d.checker.mac1Key) (k4 : y.1.encKey = d.checker.encKey)
    (h : x = (d, []) ∨ ((d.underLoad = true ∧ Mac1Ok c d.checker data off) ∧
      x = ({ d with checker := y.1 }, y.2))) : Refused c d data off ip port x := by
  rcases h with h | ⟨hm, h⟩
  · subst h
    exact ⟨rfl, rfl, rfl, rfl, ⟨rfl, rfl⟩, fun o ho => absurd ho List.not_mem_nil, Nat.zero_le _,
      fun h => absurd rfl h⟩
  · subst h
    exact ⟨rfl, rfl, rfl, rfl, ⟨k3, k4⟩, k1, k2, fun _ => hm⟩

/-- **A message that does not pass costs the device nothing but (at most) one cookie reply to
the address it came from**, and that only if its first MAC is right and the device is under
load: no peer, index, counter or load state changes. -/
theorem refused_effect (c : Crypto) (d : Dev) (data : Bytes) (off ip port : Nat) (r1 r2 : Rng)
    (h : ¬ Passes c d data off ip port r1 r2) :
    Refused c d data off ip port (step c d (.hs data off ip port r1 r2)) := by
  have k := createReply_spec c d.checker d.now data off ip port r1 r2
  exact refused_of c d data off ip port _ _
    (createReply_no_processed c d.checker d.now data off ip port r1 r2) k.2.1 k.2.2.1 k.2.2.2.1
    (refused_cases c d data off ip port r1 r2 h)

theorem sub64_self (a : Nat) : sub64 a a = 0 := by
  unfold sub64
  have : a % 2 ^ 64 < 2 ^ 64 := Nat.mod_lt _ (by decide)
  have h2 : a % 2 ^ 64 ≤ a := Nat.mod_le _ _
  have h3 := Nat.div_add_mod a (2 ^ 64)
  have : a + 2 ^ 64 - a % 2 ^ 64 = 2 ^ 64 * (a / 2 ^ 64 + 1) := by
    rw [Nat.mul_add, Nat.mul_one]; omega
  rw [this, Nat.mul_mod_right]

/-- The reply, when nothing fails. -/
theorem replyWith_ok (c : Crypto) (k : Checker) (stale : Bool) (now : Nat) (data : Bytes)
    (off ip port : Nat) (r1 r2 : Rng) (hr1 : r1.ok = true) (hr2 : r2.ok = true)
    (hmac : ∀ k m, c.mac k m ≠ none) (henc : ∀ k n p a, c.enc k n p a ≠ none) :
    ∃ ck ct, c.mac (replyWith c k stale now data off ip port r1 r2).1.secret (srcData ip port) = some ck ∧
      c.enc k.encKey r2.bytes ck (mac1 data off) = some ct ∧
      Out.reply now ip port ⟨(data.drop 4).take 4, r2.bytes, ct⟩ ∈
        (replyWith c k stale now data off ip port r1 r2).2 := by
  unfold replyWith
  rw [if_neg (show ¬ (stale = true ∧ r1.ok = false) from fun h => by rw [hr1] at h; cases h.2)]
  dsimp only
  generalize hk : (if stale = true then ({ k with secret := r1.bytes, birth := now } : Checker) else k) = k'
  have he : k'.encKey = k.encKey := by rw [← hk]; cases stale <;> rfl
  cases h5 : c.mac k'.secret (srcData ip port) with
  | none => exact absurd h5 (hmac _ _)
  | some ck =>
    dsimp only
    rw [if_neg (show ¬ r2.ok = false from by rw [hr2]; decide), he]
    cases h6 : c.enc k.encKey r2.bytes ck (mac1 data off) with
    | none => exact absurd h6 (henc _ _ _ _)
    | some ct => exact ⟨ck, ct, h5, h6, List.mem_append_right _ (List.mem_singleton.mpr rfl)⟩

/-- **A cookie reply, exactly.**  Under load, a message with a right first MAC but without a
valid cookie is answered – to its source address – with the encryption, under the key derived
from the device's public key and bound to the message's first MAC, of the cookie of that address
under the secret then in force, which is at most 120 s old; the receiver index is the message's
sender index.  (If the primitives and the generator do not fail.) -/
theorem reply_exact (c : Crypto) (d : Dev) (data : Bytes) (off ip port : Nat) (r1 r2 : Rng)
    (hload : d.underLoad = true) (hm : Mac1Ok c d.checker data off)
    (hn : ¬ (CookieOk c d.checker.secret data off ip port ∧ sub64 d.now d.checker.birth ≤ maxAge))
    (hr1 : r1.ok = true) (hr2 : r2.ok = true)
    (hmac : ∀ k m, c.mac k m ≠ none) (henc : ∀ k n p a, c.enc k n p a ≠ none) :
    ∃ d' outs ck ct, step c d (.hs data off ip port r1 r2) = (d', outs) ∧
      c.mac d'.checker.secret (srcData ip port) = some ck ∧
      c.enc d.checker.encKey r2.bytes ck (mac1 data off) = some ct ∧
      sub64 d.now d'.checker.birth ≤ maxAge ∧
      (d'.checker = d.checker ∨
        d'.checker.secret = r1.bytes ∧ d'.checker.birth = d.now ∧ Out.rotated d.now r1.bytes ∈ outs) ∧
      Out.reply d.now ip port ⟨(data.drop 4).take 4, r2.bytes, ct⟩ ∈ outs := by
  have hp : ¬ Passes c d data off ip port r1 r2 := by
    rw [gate_exact]
    exact fun h => hn (h.2 hload)
  obtain ⟨v1, v2⟩ := validate_exact c d.checker data off ip port d.now
  have hw : validate c d.checker data off ip port d.now ≠ .withCookie := fun e => hn (v2.mp e).2
  have h0 : ¬ data.length < off + 2 * ckLen := by have := hm.1; omega
  have e := onHs_reply c d data off ip port r1 r2 h0 (v1.mpr hm) ⟨hload, hw⟩
  have key : ∀ (stale : Bool), stale = decide (sub64 d.now d.checker.birth > maxAge) →
      ∃ d' outs ck ct, onHs c d data off ip port r1 r2 = (d', outs) ∧
      c.mac d'.checker.secret (srcData ip port) = some ck ∧
      c.enc d.checker.encKey r2.bytes ck (mac1 data off) = some ct ∧
      (stale = false ∧ d'.checker = d.checker ∨
        d'.checker.secret = r1.bytes ∧ d'.checker.birth = d.now ∧ Out.rotated d.now r1.bytes ∈ outs) ∧
      Out.reply d.now ip port ⟨(data.drop 4).take 4, r2.bytes, ct⟩ ∈ outs := by
    intro stale hst
    unfold createReply at e
    rw [← hst] at e
    obtain ⟨ck, ct, a1, a2, a3⟩ := replyWith_ok c d.checker stale d.now data off ip port r1 r2 hr1 hr2 hmac henc
    have k := (replyWith_spec c d.checker stale d.now data off ip port r1 r2).2.2.2.2
    refine ⟨_, _, ck, ct, e, a1, a2, ?_, a3⟩
    cases stale with
    | false => exact Or.inl ⟨rfl, k.1 rfl⟩
    | true =>
      obtain ⟨b1, b2⟩ := k.2.2 rfl hr1
      refine Or.inr ⟨?_, ?_, b2⟩
      · dsimp only; rw [b1]
      · dsimp only; rw [b1]
  obtain ⟨d', outs, ck, ct, a1, a2, a3, a4, a5⟩ := key _ rfl
  refine ⟨d', outs, ck, ct, a1, a2, a3, ?_, ?_, a5⟩
  · rcases a4 with ⟨b1, b2⟩ | ⟨_, b2, _⟩
    · rw [b2]
      have := of_decide_eq_false b1
      omega
    · rw [b2, sub64_self]; exact Nat.zero_le _
  · rcases a4 with ⟨_, b2⟩ | b
    · exact Or.inl b2
    · exact Or.inr b

end Wolf.Wg.Cookie
