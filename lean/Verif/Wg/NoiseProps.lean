import Verif.Wg.Noise
import Verif.Supp.Cmac

/-!
# The Noise handshake: agreement, authentication, binding (C100, C101)
-/

namespace Wolf.Wg.Noise

/-! ## The specification: Noise_IKpsk2

The chaining key and the transcript hash as folds over what was mixed in; the seals and the session
keys as closed expressions in them.  Nothing here refers to the state machine of the code. -/

/-- The chaining key after mixing in `xs`. -/
def chain (P : Prim) (xs : List Bytes) : Bytes :=
  xs.foldl (fun c x => P.hmac (P.hmac c x) [1]) (P.hash construction)

/-- The transcript hash after the messages `ys`, towards a responder with static key `rs`. -/
def transcript (P : Prim) (rs : Bytes) (ys : List Bytes) : Bytes :=
  (identifier :: rs :: ys).foldl (fun h y => P.hash (h ++ y)) (P.hash construction)

/-- The second output of the KDF on mixing `x` into the chain `xs`. -/
def second (P : Prim) (xs : List Bytes) (x : Bytes) : Bytes :=
  P.hmac (P.hmac (chain P xs) x) (chain P (xs ++ [x]) ++ [2])

/-- The third output. -/
def third (P : Prim) (xs : List Bytes) (x : Bytes) : Bytes :=
  P.hmac (P.hmac (chain P xs) x) (second P xs x ++ [3])

/-- Sealing with the zero nonce. -/
def sealed (P : Prim) (key plain aad : Bytes) : Bytes := P.enc key (List.replicate 16 0) plain aad

/-- The sealed static key of the initiator `si` in message 1: responder static `rs`, ephemeral `e`,
`es = DH(e, rs)`. -/
def specStatic (P : Prim) (rs e es si : Bytes) : Bytes :=
  sealed P (second P [e] es) si (transcript P rs [e])

/-- The sealed time stamp `t` in message 1: `ss = DH(si, rs)`. -/
def specTs (P : Prim) (rs e es si ss t : Bytes) : Bytes :=
  sealed P (second P [e, es] ss) t (transcript P rs [e, specStatic P rs e es si])

/-- Everything both ends have mixed into the chain at the end of the handshake, in order. -/
def specMixed (e es ss e' ee se psk : Bytes) : List Bytes := [e, es, ss, e', ee, se, psk]

/-- The transcript before the confirmation of message 2. -/
def specPre (P : Prim) (rs e es si ss t e' ee se psk : Bytes) : List Bytes :=
  [e, specStatic P rs e es si, specTs P rs e es si ss t, e', second P [e, es, ss, e', ee, se] psk]

/-- The confirmation in message 2. -/
def specEmpty (P : Prim) (rs e es si ss t e' ee se psk : Bytes) : Bytes :=
  sealed P (third P [e, es, ss, e', ee, se] psk) [] (transcript P rs (specPre P rs e es si ss t e' ee se psk))

/-- The two session keys: initiator to responder, responder to initiator (the first two outputs of
the KDF on the empty string). -/
def specKeys (P : Prim) (xs : List Bytes) : Bytes × Bytes := (chain P (xs ++ [[]]), second P xs [])

/-! ## Lemmas -/

theorem chain_snoc (P : Prim) (xs : List Bytes) (x : Bytes) :
    chain P (xs ++ [x]) = P.hmac (P.hmac (chain P xs) x) [1] := by
  simp [chain, List.foldl_append]

theorem kdf1_chain (P : Prim) (xs : List Bytes) (x : Bytes) :
    kdf1 P (chain P xs) x = chain P (xs ++ [x]) := by rw [chain_snoc]; rfl

theorem kdf2_chain (P : Prim) (xs : List Bytes) (x : Bytes) :
    kdf2 P (chain P xs) x = (chain P (xs ++ [x]), second P xs x) := by
  unfold second; rw [chain_snoc]; rfl

theorem kdf3_chain (P : Prim) (xs : List Bytes) (x : Bytes) :
    kdf3 P (chain P xs) x = (chain P (xs ++ [x]), second P xs x, third P xs x) := by
  unfold third second; rw [chain_snoc]; rfl

theorem hash_transcript (P : Prim) (rs : Bytes) (ys : List Bytes) (y : Bytes) :
    P.hash (transcript P rs ys ++ y) = transcript P rs (ys ++ [y]) := by
  simp [transcript, List.foldl_append]

theorem transcript_nil (P : Prim) (rs : Bytes) :
    P.hash (P.hash (P.hash construction ++ identifier) ++ rs) = transcript P rs [] := rfl

theorem aeadEnc_sealed (P : Prim) (k p a : Bytes) : aeadEnc P k 0 p a = sealed P k p a := by
  unfold aeadEnc sealed mkNonce; rfl

theorem aeadDec_some {P : Prim} (G : P.Good) {k c a p : Bytes} :
    aeadDec P k 0 c a = some p ↔ c = sealed P k p a := by
  unfold aeadDec
  have hn : mkNonce 0 = List.replicate 16 0 := by decide
  constructor
  · intro h
    split at h
    · cases h
    · exact (G.dec_only _ _ _ _ _ h).trans (by rw [hn]; rfl)
  · rintro rfl
    have : ¬ (sealed P k p a).length < 16 := by unfold sealed; rw [G.enc_len]; omega
    rw [if_neg this, hn]; exact G.dec_enc ..

theorem call_some {α : Type} {ok : Nat → Bool} {n : Nat} {x y : α} :
    call ok n x = some y ↔ ok n = true ∧ x = y := by
  unfold call; split <;> simp_all

theorem gate_some {α : Type} {b : Bool} {x : Option α} {y : α} :
    (if b = true then x else none) = some y ↔ b = true ∧ x = some y := by
  split <;> simp_all

/-! ## What each step does -/

/-- Message 1 is the specified one, and the state behind it is the specified chain and transcript. -/
theorem createInit_sound {P : Prim} {ok : Nat → Bool} {d : Dev} {hs hs' : Hs} {r : Rnd} {m : Msg1}
    (h : createInit P ok d hs r = (hs', some m)) :
    ∃ e es i, r.eph = some e ∧ r.idx = some i ∧ i ≠ 0 ∧ P.dh e hs.remStatic = some es ∧
      m = ⟨i, P.pub e, specStatic P hs.remStatic (P.pub e) es d.pubKey,
        specTs P hs.remStatic (P.pub e) es d.pubKey hs.ss (timestamp d.now)⟩ ∧
      hs' = { hs with
        st := .createdInit, ephPriv := e, locIdx := i, ck := chain P [P.pub e, es, hs.ss],
        hash := transcript P hs.remStatic [P.pub e, specStatic P hs.remStatic (P.pub e) es d.pubKey,
          specTs P hs.remStatic (P.pub e) es d.pubKey hs.ss (timestamp d.now)] } := by
  unfold createInit at h
  dsimp only at h
  repeat' split at h
  all_goals try (injection h with _ h2; cases h2; done)
  rename_i _ c0 a0 _ h0 a1 _ h1 a2 _ e he _ c1 a3 _ h2 a4 _ es a5 _ k a6 _ st a7 _ h3 a8 _ k' a9 _
    ts a10 _ h4 a11 hi
  rw [call_some] at a0 a1 a2 a3 a4 a6 a7 a8 a9 a10 a11
  rw [gate_some] at a5
  obtain ⟨-, rfl⟩ := a0; obtain ⟨-, rfl⟩ := a1; obtain ⟨-, rfl⟩ := a2; obtain ⟨-, rfl⟩ := a3
  obtain ⟨-, rfl⟩ := a4; obtain ⟨-, a5⟩ := a5; obtain ⟨-, rfl⟩ := a6; obtain ⟨-, rfl⟩ := a7
  obtain ⟨-, rfl⟩ := a8; obtain ⟨-, rfl⟩ := a9; obtain ⟨-, rfl⟩ := a10; obtain ⟨-, rfl⟩ := a11
  injection h with hh hm
  injection hm with hm
  have hidx : r.idx = some (newIndex r) := by
    unfold newIndex at hi ⊢
    cases hr : r.idx with
    | none => rw [hr] at hi; exact absurd rfl hi
    | some _ => rfl
  exact ⟨e, es, newIndex r, he, hidx, hi, a5, hm.symm, hh.symm⟩

/-- ... and every such message is produced, if the random source and the primitives work. -/
theorem createInit_complete (P : Prim) {d : Dev} {hs : Hs} {r : Rnd} {e es : Bytes} {i : Nat}
    (he : r.eph = some e) (hi : r.idx = some i) (h0 : i ≠ 0) (hd : P.dh e hs.remStatic = some es) :
    createInit P (fun _ => true) d hs r =
      ({ hs with
        st := .createdInit, ephPriv := e, locIdx := i, ck := chain P [P.pub e, es, hs.ss],
        hash := transcript P hs.remStatic [P.pub e, specStatic P hs.remStatic (P.pub e) es d.pubKey,
          specTs P hs.remStatic (P.pub e) es d.pubKey hs.ss (timestamp d.now)] },
       some ⟨i, P.pub e, specStatic P hs.remStatic (P.pub e) es d.pubKey,
        specTs P hs.remStatic (P.pub e) es d.pubKey hs.ss (timestamp d.now)⟩) := by
  have hn : newIndex r = i := by unfold newIndex; rw [hi]; rfl
  simp only [createInit, call, he, hd, hn, if_true, if_neg h0]
  rfl

/-! ### The comparisons -/

/-- `wg_memcmp` is exact. -/
theorem differs_false {a b : Bytes} {n : Nat} (ha : a.length = n) (hb : b.length = n) :
    differs a b n = false ↔ a = b := by
  have := Supp.constCompare_exact (a := a) (b := b) ha hb
  unfold Supp.constCompare at this
  rw [← this]
  unfold differs
  simp

/-- `memcmp` is the lexicographic order. -/
theorem memLe_false : ∀ {a b : Bytes}, a.length = b.length → (memLe a b = false ↔ b < a)
  | [], [], _ => by simp [memLe]
  | a :: as, b :: bs, h => by
    have ih := memLe_false (a := as) (b := bs) (by simpa using h)
    rw [List.cons_lt_cons_iff]
    simp only [memLe, Bool.or_eq_false_iff, Bool.and_eq_false_iff, decide_eq_false_iff_not, ih]
    by_cases hb : bs < as
    · simp only [hb, or_true, and_true]; omega
    · simp only [hb, or_false, and_false]; omega

/-- The sizes of the C fields. -/
structure Dev.Sized (d : Dev) : Prop where
  pub : ∀ p ∈ d.peers, p.pubKey.length = 65
  latest : ∀ p ∈ d.peers, p.latest.length = 12

structure Msg1.Sized (m : Msg1) : Prop where
  static : m.static.length = 65 + 16
  ts : m.ts.length = 12 + 16

/-- Peer `i` is the first active peer with static key `si`. -/
def Configured (d : Dev) (i : Nat) (p : Peer) (si : Bytes) : Prop :=
  d.peers[i]? = some p ∧ p.active = true ∧ p.pubKey = si ∧
    ∀ j q, j < i → d.peers[j]? = some q → ¬ (q.active = true ∧ q.pubKey = si)

theorem findPeer_some {d : Dev} (hd : d.Sized) {si : Bytes} (hl : si.length = 65) {i : Nat} {p : Peer}
    (hp : d.peers[i]? = some p) : findPeer d.peers si = some i ↔ Configured d i p si := by
  have key : ∀ q ∈ d.peers, ((q.active && !differs q.pubKey si 65) = true ↔
      q.active = true ∧ q.pubKey = si) := by
    intro q hq
    rw [Bool.and_eq_true, Bool.not_eq_true', differs_false (hd.pub q hq) hl]
  obtain ⟨hi, hpe⟩ := List.getElem?_eq_some_iff.1 hp
  unfold findPeer Configured
  rw [List.findIdx?_eq_some_iff_getElem]
  constructor
  · rintro ⟨h, h1, h2⟩
    rw [key _ (List.getElem_mem _), hpe] at h1
    refine ⟨hp, h1.1, h1.2, ?_⟩
    intro j q hj hq hc
    obtain ⟨hj', hje⟩ := List.getElem?_eq_some_iff.1 hq
    apply h2 j hj
    rw [key _ (List.getElem_mem _), hje]
    exact hc
  · rintro ⟨-, h1, h2, h3⟩
    refine ⟨hi, ?_, ?_⟩
    · rw [key _ (List.getElem_mem _), hpe]; exact ⟨h1, h2⟩
    · intro j hj hc
      rw [key _ (List.getElem_mem _)] at hc
      exact h3 j _ hj (List.getElem?_eq_getElem (by omega)) hc

/-- What makes an initiation acceptable to device `d`: it is the specified message for an ephemeral
key on the curve, sent by the configured peer `i` (whose static key `si` is sealed inside), stamped
with a time `t` later than the latest seen from that peer, and the peer was not heard of in the last
five seconds. -/
structure Acceptable (P : Prim) (d : Dev) (m : Msg1) (i : Nat) (p : Peer) (es si t : Bytes) : Prop where
  conf : Configured d i p si
  dh : P.dh d.priv m.eph = some es
  static : m.static = specStatic P d.pubKey m.eph es si
  ts : m.ts = specTs P d.pubKey m.eph es si p.hs.ss t
  newer : p.latest < t
  rate : p.lastInit = 0 ∨ 5000 ≤ sub64 d.now p.lastInit

/-- The peer after accepting it. -/
def accepted (P : Prim) (d : Dev) (m : Msg1) (p : Peer) (es t : Bytes) : Peer :=
  { p with
    hs := { p.hs with
      hash := transcript P d.pubKey [m.eph, m.static, m.ts], ck := chain P [m.eph, es, p.hs.ss],
      remEph := m.eph, remIdx := m.sender, st := .consumedInit },
    latest := t, lastInit := d.now }

theorem sealed_len {P : Prim} (G : P.Good) (k p a : Bytes) : (sealed P k p a).length = p.length + 16 :=
  G.enc_len ..

/-- **C101**: an initiation is accepted only if it is acceptable, whatever fails. -/
theorem consumeInit_sound {P : Prim} (G : P.Good) {ok : Nat → Bool} {d : Dev} (hd : d.Sized)
    {m : Msg1} (hm : m.Sized) {i : Nat} {p' : Peer} (h : consumeInit P ok d m = some (i, p')) :
    ∃ p es si t, Acceptable P d m i p es si t ∧ p' = accepted P d m p es t := by
  unfold consumeInit at h
  dsimp only at h
  repeat' split at h
  all_goals try (cases h; done)
  rename_i _ c0 a0 _ h0 a1 _ h1 a2 _ c1 a3 _ h2 a4 _ es a5 _ k a6 _ si a7 _ h3 a8 _ j aj _ p ap hr
    _ k' a9 _ t a10 _ h4 a11 hle
  rw [call_some] at a0 a1 a2 a3 a4 a6 a8 a9 a11
  rw [gate_some] at a5 a7 a10
  obtain ⟨-, rfl⟩ := a0; obtain ⟨-, rfl⟩ := a1; obtain ⟨-, rfl⟩ := a2; obtain ⟨-, rfl⟩ := a3
  obtain ⟨-, rfl⟩ := a4; obtain ⟨-, a5⟩ := a5; obtain ⟨-, rfl⟩ := a6; obtain ⟨-, a7⟩ := a7
  obtain ⟨-, rfl⟩ := a8; obtain ⟨-, rfl⟩ := a9; obtain ⟨-, a10⟩ := a10; obtain ⟨-, rfl⟩ := a11
  rw [aeadDec_some G] at a7 a10
  injection h with h
  injection h with h1 h2
  subst h1
  have hsi : si.length = 65 := by
    have := hm.static; rw [a7, sealed_len G] at this; omega
  have hpm := List.mem_of_getElem? ap
  have htl : t.length = p.latest.length := by
    have := hm.ts; rw [a10, sealed_len G] at this; rw [hd.latest p hpm]; omega
  have hst : m.static = specStatic P d.pubKey m.eph es si := a7
  refine ⟨p, es, si, t, ⟨(findPeer_some hd hsi ap).1 aj, a5, hst, ?_, ?_, ?_⟩, ?_⟩
  · unfold specTs
    rw [← hst]
    exact a10
  · exact (memLe_false htl).1 (by simpa using hle)
  · omega
  · rw [← h2]; rfl

/-- **C101**: ... and every acceptable initiation is accepted, if the primitives work. -/
theorem consumeInit_complete {P : Prim} (G : P.Good) {d : Dev} (hd : d.Sized)
    {m : Msg1} (hm : m.Sized) {i : Nat} {p : Peer} {es si t : Bytes}
    (h : Acceptable P d m i p es si t) :
    consumeInit P (fun _ => true) d m = some (i, accepted P d m p es t) := by
  obtain ⟨hc, hdh, hst, hts, hnew, hrate⟩ := h
  have hpm := List.mem_of_getElem? hc.1
  have hsi : si.length = 65 := by rw [← hc.2.2.1]; exact hd.pub p hpm
  have htl : t.length = p.latest.length := by
    have := hm.ts; rw [hts] at this
    unfold specTs at this
    rw [sealed_len G] at this; rw [hd.latest p hpm]; omega
  have e1 : aeadDec P (kdf2 P (kdf1 P (P.hash construction) m.eph) es).2 0 m.static
      (P.hash (P.hash (P.hash (P.hash construction ++ identifier) ++ d.pubKey) ++ m.eph)) = some si :=
    (aeadDec_some G).2 hst
  have e2 : aeadDec P (kdf2 P (kdf2 P (kdf1 P (P.hash construction) m.eph) es).1 p.hs.ss).2 0 m.ts
      (P.hash (P.hash (P.hash (P.hash (P.hash construction ++ identifier) ++ d.pubKey) ++ m.eph) ++
        m.static)) = some t := by
    refine (aeadDec_some G).2 ?_
    unfold specTs at hts
    rw [← hst] at hts
    exact hts
  have e3 := (findPeer_some hd hsi hc.1).2 hc
  have e4 : ¬ (p.lastInit > 0 ∧ sub64 d.now p.lastInit < 5000) := by omega
  have e5 : ¬ memLe t p.latest = true := by rw [(memLe_false htl).2 hnew]; decide
  simp only [consumeInit, call, hdh, if_true, e1, e3, hc.1, if_neg e4, e2, if_neg e5]
  rfl

/-- The response is the specified one. -/
theorem createResp_sound {P : Prim} {ok : Nat → Bool} {hs hs' : Hs} {r : Rnd} {m : Msg2}
    {xs ys : List Bytes} {rs : Bytes} (hck : hs.ck = chain P xs) (hh : hs.hash = transcript P rs ys)
    (h : createResp P ok hs r = (hs', some m)) :
    ∃ e ee se i, hs.st = .consumedInit ∧ r.eph = some e ∧ r.idx = some i ∧ i ≠ 0 ∧
      P.dh e hs.remEph = some ee ∧ P.dh e hs.remStatic = some se ∧
      m = ⟨i, hs.remIdx, P.pub e, sealed P (third P (xs ++ [P.pub e, ee, se]) hs.psk) []
        (transcript P rs (ys ++ [P.pub e, second P (xs ++ [P.pub e, ee, se]) hs.psk]))⟩ ∧
      hs' = { hs with
        st := .createdResp, ephPriv := e, locIdx := i,
        ck := chain P (xs ++ [P.pub e, ee, se, hs.psk]),
        hash := transcript P rs (ys ++ [P.pub e, second P (xs ++ [P.pub e, ee, se]) hs.psk, m.empty]) } := by
  unfold createResp at h
  dsimp only at h
  repeat' split at h
  all_goals try (injection h with _ h2; cases h2; done)
  rename_i hst _ e he _ c1 a0 _ h1 a1 _ ee a2 _ c2 a3 _ se a4 _ c3 a5 _ k a6 _ h2 a7 _ em a8 _ h3 a9 hi
  rw [call_some] at a0 a1 a3 a5 a6 a7 a8 a9
  rw [gate_some] at a2 a4
  rw [hck, kdf1_chain] at a0
  rw [hh, hash_transcript] at a1
  obtain ⟨-, rfl⟩ := a0; obtain ⟨-, rfl⟩ := a1
  rw [kdf1_chain] at a3
  obtain ⟨-, rfl⟩ := a3
  rw [kdf1_chain] at a5
  obtain ⟨-, rfl⟩ := a5
  rw [kdf3_chain] at a6
  obtain ⟨-, rfl⟩ := a6
  rw [hash_transcript] at a7
  obtain ⟨-, rfl⟩ := a7
  rw [aeadEnc_sealed] at a8
  obtain ⟨-, rfl⟩ := a8
  rw [hash_transcript] at a9
  obtain ⟨-, rfl⟩ := a9
  injection h with hh' hm
  injection hm with hm
  have hidx : r.idx = some (newIndex r) := by
    unfold newIndex at hi ⊢
    cases hr : r.idx with
    | none => rw [hr] at hi; exact absurd rfl hi
    | some _ => rfl
  refine ⟨e, ee, se, newIndex r, Decidable.not_not.1 hst, he, hidx, hi, a2.2, a4.2, ?_, ?_⟩
  · rw [← hm]; simp only [List.append_assoc, List.cons_append, List.nil_append]
  · rw [← hh', ← hm]; simp only [List.append_assoc, List.cons_append, List.nil_append]

/-- ... and it is produced, if the random source and the primitives work. -/
theorem createResp_complete (P : Prim) {hs : Hs} {r : Rnd} {xs ys : List Bytes} {rs e ee se : Bytes}
    {i : Nat} (hck : hs.ck = chain P xs) (hh : hs.hash = transcript P rs ys)
    (hst : hs.st = .consumedInit) (he : r.eph = some e) (hi : r.idx = some i) (h0 : i ≠ 0)
    (hee : P.dh e hs.remEph = some ee) (hse : P.dh e hs.remStatic = some se) :
    createResp P (fun _ => true) hs r =
      ({ hs with
        st := .createdResp, ephPriv := e, locIdx := i,
        ck := chain P (xs ++ [P.pub e, ee, se, hs.psk]),
        hash := transcript P rs (ys ++ [P.pub e, second P (xs ++ [P.pub e, ee, se]) hs.psk,
          sealed P (third P (xs ++ [P.pub e, ee, se]) hs.psk) []
            (transcript P rs (ys ++ [P.pub e, second P (xs ++ [P.pub e, ee, se]) hs.psk]))]) },
       some ⟨i, hs.remIdx, P.pub e, sealed P (third P (xs ++ [P.pub e, ee, se]) hs.psk) []
        (transcript P rs (ys ++ [P.pub e, second P (xs ++ [P.pub e, ee, se]) hs.psk]))⟩) := by
  have hn : newIndex r = i := by unfold newIndex; rw [hi]; rfl
  simp only [createResp, call, hst, ne_eq, not_true_eq_false, he, hee, hse, hn, if_true, if_false,
    if_neg h0, hck, hh, kdf1_chain, kdf3_chain, hash_transcript, aeadEnc_sealed, List.append_assoc,
    List.cons_append, List.nil_append]

/-- **C101**: a response is accepted only in answer to an initiation, and only if its confirmation
is the seal of the empty text under the key derived from both ephemeral exchanges and the pre-shared
key, over the whole transcript. -/
theorem consumeResp_sound {P : Prim} (G : P.Good) {ok : Nat → Bool} {priv : Bytes} {hs hs' : Hs}
    {m : Msg2} (hm : m.empty.length = 16)
    {xs ys : List Bytes} {rs : Bytes} (hck : hs.ck = chain P xs) (hh : hs.hash = transcript P rs ys)
    (h : consumeResp P ok priv hs m = some hs') :
    ∃ ee se, hs.st = .createdInit ∧ P.dh hs.ephPriv m.eph = some ee ∧ P.dh priv m.eph = some se ∧
      m.empty = sealed P (third P (xs ++ [m.eph, ee, se]) hs.psk) []
        (transcript P rs (ys ++ [m.eph, second P (xs ++ [m.eph, ee, se]) hs.psk])) ∧
      hs' = { hs with
        st := .consumedResp, remIdx := m.sender,
        ck := chain P (xs ++ [m.eph, ee, se, hs.psk]),
        hash := transcript P rs (ys ++ [m.eph, second P (xs ++ [m.eph, ee, se]) hs.psk, m.empty]) } := by
  unfold consumeResp at h
  repeat' split at h
  all_goals try (cases h; done)
  rename_i hst _ c1 a0 _ h1 a1 _ ee a2 _ c2 a3 _ se a4 _ c3 a5 _ k a6 _ h2 a7 _ em a8 _ h3 a9
  rw [call_some] at a0 a1 a3 a5 a6 a7 a9
  rw [gate_some] at a2 a4 a8
  rw [hck, kdf1_chain] at a0
  rw [hh, hash_transcript] at a1
  obtain ⟨-, rfl⟩ := a0; obtain ⟨-, rfl⟩ := a1
  rw [kdf1_chain] at a3
  obtain ⟨-, rfl⟩ := a3
  rw [kdf1_chain] at a5
  obtain ⟨-, rfl⟩ := a5
  rw [kdf3_chain] at a6
  obtain ⟨-, rfl⟩ := a6
  rw [hash_transcript] at a7
  obtain ⟨-, rfl⟩ := a7
  rw [aeadDec_some G] at a8
  obtain ⟨-, a8⟩ := a8
  rw [hash_transcript] at a9
  obtain ⟨-, rfl⟩ := a9
  injection h with h
  have hem : em = [] := by
    have := hm; rw [a8, sealed_len G] at this
    exact List.eq_nil_of_length_eq_zero (by omega)
  subst hem
  refine ⟨ee, se, Decidable.not_not.1 hst, a2.2, a4.2, ?_, ?_⟩
  · rw [a8]; simp only [List.append_assoc, List.cons_append, List.nil_append]
  · rw [← h]; simp only [List.append_assoc, List.cons_append, List.nil_append]

/-- **C101**: ... and every such response is accepted, if the primitives work. -/
theorem consumeResp_complete {P : Prim} (G : P.Good) {priv : Bytes} {hs : Hs}
    {m : Msg2} {xs ys : List Bytes} {rs ee se : Bytes} (hck : hs.ck = chain P xs)
    (hh : hs.hash = transcript P rs ys) (hst : hs.st = .createdInit)
    (hee : P.dh hs.ephPriv m.eph = some ee) (hse : P.dh priv m.eph = some se)
    (hem : m.empty = sealed P (third P (xs ++ [m.eph, ee, se]) hs.psk) []
        (transcript P rs (ys ++ [m.eph, second P (xs ++ [m.eph, ee, se]) hs.psk]))) :
    consumeResp P (fun _ => true) priv hs m = some { hs with
        st := .consumedResp, remIdx := m.sender,
        ck := chain P (xs ++ [m.eph, ee, se, hs.psk]),
        hash := transcript P rs (ys ++ [m.eph, second P (xs ++ [m.eph, ee, se]) hs.psk, m.empty]) } := by
  have hd := (aeadDec_some G).2 hem
  simp only [consumeResp, call, hst, ne_eq, not_true_eq_false, hee, hse, if_true, if_false, hd,
    hck, hh, kdf1_chain, kdf3_chain, hash_transcript, List.append_assoc, List.cons_append,
    List.nil_append]

/-- Only a completed handshake gives keys, and these are the specified ones for its role; the key
material of the handshake is erased. -/
theorem beginSession_sound {P : Prim} {ok : Bool} {hs hs' : Hs} {k : Session} {xs : List Bytes}
    (hck : hs.ck = chain P xs) (h : beginSession P ok hs = (hs', some k)) :
    (hs.st = .consumedResp ∧
        k = ⟨(specKeys P xs).1, (specKeys P xs).2, hs.locIdx, hs.remIdx, true⟩ ∨
      hs.st = .createdResp ∧
        k = ⟨(specKeys P xs).2, (specKeys P xs).1, hs.locIdx, hs.remIdx, false⟩) ∧
    hs'.st = .zeroed ∧ hs'.ck = List.replicate 32 0 ∧ hs'.ephPriv = List.replicate 32 0 ∧
    hs'.hash = List.replicate 32 0 := by
  unfold beginSession at h
  rw [hck, kdf2_chain] at h
  cases ok <;> cases hs' : hs.st <;> simp [hs', Prod.ext_iff] at h ⊢
  · obtain ⟨rfl, rfl⟩ := h; exact ⟨rfl, rfl, rfl, rfl, rfl⟩
  · obtain ⟨rfl, rfl⟩ := h; exact ⟨rfl, rfl, rfl, rfl, rfl⟩

theorem beginSession_complete (P : Prim) {hs : Hs} {xs : List Bytes} (hck : hs.ck = chain P xs) :
    (hs.st = .consumedResp → (beginSession P true hs).2 =
      some ⟨(specKeys P xs).1, (specKeys P xs).2, hs.locIdx, hs.remIdx, true⟩) ∧
    (hs.st = .createdResp → (beginSession P true hs).2 =
      some ⟨(specKeys P xs).2, (specKeys P xs).1, hs.locIdx, hs.remIdx, false⟩) := by
  unfold beginSession
  rw [hck, kdf2_chain]
  constructor <;> intro h <;> simp [h, specKeys]

/-! ## Agreement -/

theorem timestamp_len (n : Nat) : (timestamp n).length = 12 := rfl

/-- An initiator (static private key `si`) and a responder (`sr`) configured for each other, with the
same pre-shared key and the peer's static exchange precomputed as `wg_noise_handshake_init` does. -/
structure Paired (P : Prim) (dI dR : Dev) (hs : Hs) (n : Nat) (p : Peer) (ss : Bytes) : Prop where
  pubI : dI.pubKey = P.pub dI.priv
  pubR : dR.pubKey = P.pub dR.priv
  len : (P.pub dI.priv).length = 65
  sizedR : dR.Sized
  remI : hs.remStatic = dR.pubKey
  remR : p.hs.remStatic = dI.pubKey
  conf : Configured dR n p dI.pubKey
  dh : P.dh dI.priv dR.pubKey = some ss
  ssI : hs.ss = ss
  ssR : p.hs.ss = ss
  psk : hs.psk = p.hs.psk

/-- The outcome of a handshake: what both ends hold. -/
structure Outcome where
  m1 : Msg1
  m2 : Msg2
  kI : Session
  kR : Session

/-- Both ends run to the end, over a network that delivers (with `okI`, `okR` saying which calls of
primitives succeed). -/
def runHandshake (P : Prim) (ok : Nat → Bool) (dI dR : Dev) (hs : Hs) (rI rR : Rnd) : Option Outcome :=
  match createInit P ok dI hs rI with
  | (_, none) => none
  | (hI, some m1) =>
  match consumeInit P ok dR m1 with
  | none => none
  | some (_, p') =>
  match createResp P ok p'.hs rR with
  | (_, none) => none
  | (hR, some m2) =>
  match consumeResp P ok dI.priv hI m2 with
  | none => none
  | some hI =>
  match (beginSession P (ok 0) hI).2, (beginSession P (ok 0) hR).2 with
  | some kI, some kR => some ⟨m1, m2, kI, kR⟩
  | _, _ => none

/-- **C100**: two ends configured for each other complete the handshake, whatever their random keys
and indices, and hold the same two keys, crossed, which are those of Noise IKpsk2; each addresses the
other by the index the other chose. -/
theorem handshake_agrees {P : Prim} (G : P.Good) {dI dR : Dev} {hs : Hs} {n : Nat} {p : Peer}
    {ss : Bytes} (C : Paired P dI dR hs n p ss)
    {rI rR : Rnd} {ei er es ee se : Bytes} {i j : Nat}
    (hei : rI.eph = some ei) (hi : rI.idx = some i) (hi0 : i ≠ 0)
    (her : rR.eph = some er) (hj : rR.idx = some j) (hj0 : j ≠ 0)
    (hes : P.dh ei dR.pubKey = some es) (hee : P.dh ei (P.pub er) = some ee)
    (hse : P.dh dI.priv (P.pub er) = some se)
    (hnew : p.latest < timestamp dI.now)
    (hrate : p.lastInit = 0 ∨ 5000 ≤ sub64 dR.now p.lastInit) :
    ∃ o, runHandshake P (fun _ => true) dI dR hs rI rR = some o ∧
      let T := specKeys P (specMixed (P.pub ei) es ss (P.pub er) ee se hs.psk)
      o.m1 = ⟨i, P.pub ei, specStatic P dR.pubKey (P.pub ei) es dI.pubKey,
        specTs P dR.pubKey (P.pub ei) es dI.pubKey ss (timestamp dI.now)⟩ ∧
      o.m2 = ⟨j, i, P.pub er, specEmpty P dR.pubKey (P.pub ei) es dI.pubKey ss (timestamp dI.now)
        (P.pub er) ee se hs.psk⟩ ∧
      o.kI = ⟨T.1, T.2, i, j, true⟩ ∧ o.kR = ⟨T.2, T.1, j, i, false⟩ := by
  have h1 := createInit_complete P (d := dI) (hs := hs) (r := rI) hei hi hi0 (by rw [C.remI]; exact hes)
  rw [C.remI, C.ssI] at h1
  have hs1 : Msg1.Sized ⟨i, P.pub ei, specStatic P dR.pubKey (P.pub ei) es dI.pubKey,
      specTs P dR.pubKey (P.pub ei) es dI.pubKey ss (timestamp dI.now)⟩ := by
    refine ⟨?_, ?_⟩
    · show (specStatic ..).length = _
      unfold specStatic; rw [sealed_len G, C.pubI, C.len]
    · show (specTs ..).length = _
      unfold specTs; rw [sealed_len G, timestamp_len]
  have hacc : Acceptable P dR ⟨i, P.pub ei, specStatic P dR.pubKey (P.pub ei) es dI.pubKey,
      specTs P dR.pubKey (P.pub ei) es dI.pubKey ss (timestamp dI.now)⟩ n p es dI.pubKey
      (timestamp dI.now) := by
    refine ⟨C.conf, ?_, rfl, ?_, hnew, hrate⟩
    · show P.dh dR.priv (P.pub ei) = some es
      rw [← G.dh_comm, ← C.pubR]; exact hes
    · show specTs .. = _; rw [C.ssR]
  have h2 := consumeInit_complete G C.sizedR hs1 hacc
  have h3 := createResp_complete P (hs := (accepted P dR ⟨i, P.pub ei,
      specStatic P dR.pubKey (P.pub ei) es dI.pubKey,
      specTs P dR.pubKey (P.pub ei) es dI.pubKey ss (timestamp dI.now)⟩ p es (timestamp dI.now)).hs)
    (r := rR) (xs := [P.pub ei, es, ss])
    (ys := [P.pub ei, specStatic P dR.pubKey (P.pub ei) es dI.pubKey,
      specTs P dR.pubKey (P.pub ei) es dI.pubKey ss (timestamp dI.now)]) (rs := dR.pubKey)
    (e := er) (ee := ee) (se := se) (i := j)
    (by show chain P [P.pub ei, es, p.hs.ss] = _; rw [C.ssR]) rfl rfl her hj hj0
    (by show P.dh er (P.pub ei) = some ee; rw [← G.dh_comm]; exact hee)
    (by show P.dh er p.hs.remStatic = some se; rw [C.remR, C.pubI, ← G.dh_comm]; exact hse)
  unfold runHandshake
  rw [h1]
  dsimp only
  rw [h2]
  dsimp only
  rw [h3]
  dsimp only
  have hp : (accepted P dR ⟨i, P.pub ei,
      specStatic P dR.pubKey (P.pub ei) es dI.pubKey,
      specTs P dR.pubKey (P.pub ei) es dI.pubKey ss (timestamp dI.now)⟩ p es (timestamp dI.now)).hs.psk
      = hs.psk := C.psk.symm
  rw [hp]
  rw [consumeResp_complete G (xs := [P.pub ei, es, ss])
    (ys := [P.pub ei, specStatic P dR.pubKey (P.pub ei) es dI.pubKey,
      specTs P dR.pubKey (P.pub ei) es dI.pubKey ss (timestamp dI.now)]) (rs := dR.pubKey)
    (ee := ee) (se := se) rfl rfl rfl hee hse rfl]
  dsimp only
  exact ⟨⟨_, _, _, _⟩, rfl, rfl, rfl, rfl, rfl⟩

/-! ## Binding -/

/-- The HMAC queries made in computing `chain P (pre ++ xs)` from the value `c` of `chain P pre`. -/
def queries (P : Prim) : Bytes → List Bytes → List (Bytes × Bytes)
  | _, [] => []
  | c, x :: xs => (c, x) :: (P.hmac c x, [1]) :: queries P (P.hmac (P.hmac c x) [1]) xs

/-- Two of the queries collide. -/
def Collision (P : Prim) (qs : List (Bytes × Bytes)) : Prop :=
  ∃ q ∈ qs, ∃ q' ∈ qs, q ≠ q' ∧ P.hmac q.1 q.2 = P.hmac q'.1 q'.2

theorem Collision.mono {P : Prim} {a b : List (Bytes × Bytes)} (h : ∀ q ∈ a, q ∈ b)
    (c : Collision P a) : Collision P b := by
  obtain ⟨q, hq, q', hq', h1⟩ := c
  exact ⟨q, h q hq, q', h q' hq', h1⟩

/-- Two chains of the same length that end alike: either they mixed in the same, or two of the
queries made on the way collide. -/
theorem fold_bind (P : Prim) : ∀ (xs ys : List Bytes) (c c' : Bytes), xs.length = ys.length →
    xs.foldl (fun c x => P.hmac (P.hmac c x) [1]) c = ys.foldl (fun c x => P.hmac (P.hmac c x) [1]) c' →
    (c = c' ∧ xs = ys) ∨ Collision P (queries P c xs ++ queries P c' ys)
  | [], [], _, _, _, h => .inl ⟨h, rfl⟩
  | x :: xs, y :: ys, c, c', hl, h => by
    rcases fold_bind P xs ys _ _ (by simpa using hl) h with ⟨h1, h2⟩ | h1
    · by_cases e1 : P.hmac c x = P.hmac c' y
      · by_cases e2 : (c, x) = (c', y)
        · injection e2 with e2 e3
          exact .inl ⟨e2, by rw [e3, h2]⟩
        · exact .inr ⟨(c, x), by simp [queries], (c', y), by simp [queries], e2, e1⟩
      · refine .inr ⟨(P.hmac c x, [1]), by simp [queries], (P.hmac c' y, [1]), by simp [queries], ?_, h1⟩
        intro e; injection e with e; exact e1 e
    · refine .inr (h1.mono ?_)
      intro q hq
      simp only [queries, List.mem_append, List.mem_cons] at hq ⊢
      rcases hq with hq | hq
      · exact .inl (.inr (.inr hq))
      · exact .inr (.inr (.inr hq))

/-- **C101**: session keys bind the whole handshake.  If the keys of two completed handshakes (of
anyone, with anyone) coincide, then both used the same ephemeral keys, the same three exchanges, the
same static exchange and the same pre-shared key -- or two of the thirty-two HMAC queries made in
them collide. -/
theorem keys_bind {P : Prim} {e es ss e' ee se psk f fs rs f' ff rf qsk : Bytes}
    (h : (specKeys P (specMixed e es ss e' ee se psk)).1 =
      (specKeys P (specMixed f fs rs f' ff rf qsk)).1) :
    (e = f ∧ es = fs ∧ ss = rs ∧ e' = f' ∧ ee = ff ∧ se = rf ∧ psk = qsk) ∨
    Collision P
      (queries P (P.hash construction) (specMixed e es ss e' ee se psk ++ [[]]) ++
        queries P (P.hash construction) (specMixed f fs rs f' ff rf qsk ++ [[]])) := by
  rcases fold_bind P (specMixed e es ss e' ee se psk ++ [[]]) (specMixed f fs rs f' ff rf qsk ++ [[]])
    (P.hash construction) (P.hash construction) rfl h with ⟨-, h1⟩ | h1
  · left
    simpa [specMixed] using h1
  · exact .inr h1

/-- The number of those queries. -/
example (P : Prim) (e es ss e' ee se psk f fs rs f' ff rf qsk : Bytes) :
    (queries P (P.hash construction) (specMixed e es ss e' ee se psk ++ [[]]) ++
        queries P (P.hash construction) (specMixed f fs rs f' ff rf qsk ++ [[]])).length = 32 := rfl

/-! ## An initiation is accepted once -/

/-- **C101**: a peer's time stamps increase strictly along the accepted initiations. -/
theorem stamps_increase {P : Prim} (G : P.Good) {ok : Nat → Bool} {d : Dev} (hd : d.Sized)
    {m : Msg1} (hm : m.Sized) {i : Nat} {p p' : Peer} (hp : d.peers[i]? = some p)
    (h : consumeInit P ok d m = some (i, p')) : p.latest < p'.latest := by
  obtain ⟨r, es, si, t, A, rfl⟩ := consumeInit_sound G hd hm h
  have := A.conf.1
  rw [hp] at this; injection this with this; subst this
  exact A.newer

/-- **C101**: an accepted initiation is refused ever after, as long as the peer's latest time stamp
does not go back. -/
theorem same_refused {P : Prim} (G : P.Good) {ok ok' : Nat → Bool} {d d' : Dev} (hd : d.Sized)
    (hd' : d'.Sized) {m : Msg1} (hm : m.Sized) {i : Nat} {p' q : Peer}
    (h : consumeInit P ok d m = some (i, p')) (hk : d'.priv = d.priv) (hp : d'.pubKey = d.pubKey)
    (hq : d'.peers[i]? = some q) (hl : ¬ q.latest < p'.latest) (hss : q.hs.ss = p'.hs.ss) (p'' : Peer) :
    ¬ consumeInit P ok' d' m = some (i, p'') := by
  intro h'
  have hlt := stamps_increase G hd' hm hq h'
  obtain ⟨r, es, si, t, A, rfl⟩ := consumeInit_sound G hd' hm h'
  obtain ⟨r₀, es₀, si₀, t₀, A₀, rfl⟩ := consumeInit_sound G hd hm h
  have := A.conf.1
  rw [hq] at this; injection this with this; subst this
  have e1 : es = es₀ := by
    have := A.dh; rw [hk, A₀.dh] at this; injection this with this; exact this.symm
  subst e1
  have e2 : si = si₀ := by
    have := A.static; rw [hp, A₀.static] at this
    unfold specStatic sealed at this
    have h2 := congrArg (fun c => P.dec (second P [m.eph] es) (List.replicate 16 0) c (transcript P d.pubKey [m.eph])) this
    simpa [G.dec_enc] using h2.symm
  subst e2
  have e3 : t = t₀ := by
    have := A.ts; rw [hp, hss, A₀.ts] at this
    unfold specTs sealed at this
    have h2 := congrArg (fun c => P.dec (second P [m.eph, es] r₀.hs.ss) (List.replicate 16 0) c
      (transcript P d.pubKey [m.eph, specStatic P d.pubKey m.eph es si])) this
    simpa [G.dec_enc, accepted] using h2.symm
  subst e3
  exact hl hlt

/-! ## Examples: a toy set of primitives, and a handshake in it -/

def toy : Prim where
  hash x := List.replicate 32 (x.foldl (fun a b => 31 * a + b + 7) 5 % 65537)
  hmac k x := List.replicate 32 ((k ++ 99 :: x).foldl (fun a b => 37 * a + b + 3) 11 % 65537)
  enc k n p a := p ++ List.replicate 16 ((k ++ n ++ p ++ a).foldl (fun a b => 41 * a + b) 1 % 65537)
  dec k n c a :=
    let p := c.take (c.length - 16)
    if c = p ++ List.replicate 16 ((k ++ n ++ p ++ a).foldl (fun a b => 41 * a + b) 1 % 65537) then some p
    else none
  dh a B := if B.getD 0 0 = 0 then none else some (List.replicate 32 ((a.sum + 1) * B.getD 0 0))
  pub a := List.replicate 65 (a.sum + 1)


theorem toy_good : toy.Good where
  hash_len _ := List.length_replicate
  hmac_len _ _ := List.length_replicate
  enc_len k n p a := by show (p ++ List.replicate 16 _).length = _; simp
  dec_enc k n p a := by
    show (if _ then _ else _) = _
    have : (p ++ List.replicate 16 ((k ++ n ++ p ++ a).foldl (fun a b => 41 * a + b) 1 % 65537)).take
        ((p ++ List.replicate 16 ((k ++ n ++ p ++ a).foldl (fun a b => 41 * a + b) 1 % 65537)).length - 16)
        = p := by
      rw [List.length_append, List.length_replicate, Nat.add_sub_cancel, List.take_left]
    simp only [toy, this, if_true]
  dec_only k n c a p h := by
    unfold toy at h ⊢
    dsimp only at h ⊢
    split at h
    · rename_i hc
      injection h with h
      rw [← h]
      exact hc
    · cases h
  dh_comm a b := by
    show (if (List.replicate 65 (b.sum + 1)).getD 0 0 = 0 then none else some _) =
      (if (List.replicate 65 (a.sum + 1)).getD 0 0 = 0 then none else some _)
    have : ∀ x : Nat, (List.replicate 65 x).getD 0 0 = x := fun _ => rfl
    simp only [this]
    rw [if_neg (by omega), if_neg (by omega)]
    show some (List.replicate 32 ((a.sum + 1) * (b.sum + 1))) = some (List.replicate 32 ((b.sum + 1) * (a.sum + 1)))
    rw [Nat.mul_comm]

def toyI : Dev := ⟨[3, 4], toy.pub [3, 4], [], 1700000000123⟩
def toyHsI : Hs := hsInit toy true [3, 4] (toy.pub [9]) (some (List.replicate 32 77))
def toyPeer : Peer := ⟨toy.pub [3, 4], hsInit toy true [9] (toy.pub [3, 4]) (some (List.replicate 32 77)),
  timestamp 1700000000122, 1000, true⟩
def toyR : Dev := ⟨[9], toy.pub [9], [{ toyPeer with active := false }, { toyPeer with pubKey := zeros 65 }, toyPeer], 6000⟩

/-- The hypotheses of `handshake_agrees` are met. -/
example : Paired toy toyI toyR toyHsI 2 toyPeer (List.replicate 32 80) where
  pubI := rfl
  pubR := rfl
  len := List.length_replicate
  sizedR := ⟨by decide +kernel, by decide +kernel⟩
  remI := rfl
  remR := rfl
  conf := ⟨rfl, rfl, rfl, by
    intro j q hj hq
    have : j = 0 ∨ j = 1 := by omega
    rcases this with rfl | rfl
    · injection hq with hq; subst hq; exact fun h => absurd h.1 (by decide)
    · injection hq with hq; subst hq; exact fun h => absurd h.2 (by decide +kernel)⟩
  dh := by decide +kernel
  ssI := by decide +kernel
  ssR := by decide +kernel
  psk := by decide +kernel

/-- ... the handshake completes, and a flipped pre-shared key at one end prevents it. -/
example : ((runHandshake toy (fun _ => true) toyI toyR toyHsI ⟨some [5], some 17⟩ ⟨some [6], some 18⟩).map
    fun o => (decide (o.kI.send = o.kR.recv), decide (o.kI.recv = o.kR.send), decide (o.kI.send = o.kI.recv), o.kI.remIdx, o.kR.remIdx)) =
    some (true, true, false, 18, 17) := by decide +kernel

example : (runHandshake toy (fun _ => true) toyI toyR { toyHsI with psk := zeros 32 }
    ⟨some [5], some 17⟩ ⟨some [6], some 18⟩).isNone = true := by decide +kernel

/-- A replay of the initiation is refused. -/
example : ((createInit toy (fun _ => true) toyI toyHsI ⟨some [5], some 17⟩).2.map fun m =>
    ((consumeInit toy (fun _ => true) toyR m).map fun r => (r.1,
      (consumeInit toy (fun _ => true) { toyR with peers := toyR.peers.set r.1 r.2, now := 20000 } m).isNone)))
    = some (some (2, true)) := by decide +kernel

end Wolf.Wg.Noise
