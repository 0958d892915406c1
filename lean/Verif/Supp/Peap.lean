import Verif.Supp.Model
import Verif.Supp.Tls
import Verif.Supp.MschapProps

/-!
# PEAP sessions (C89)

Model of the PEAP part of `src/supplicant/supplicant.c` (`supp_handle_peap_request` with the inner
method, `supp_handle_eap_request`, `supp_handle_eap_success`) from a kicked supplicant in PEAP mode
until the key handshake starts.  wolfSSL is an oracle: what `wolfSSL_connect`, `wolfSSL_read` and
`wolfSSL_write` return, and what they leave in the fragment buffers, are inputs (`Tun`).  EAP
framing is below this model (`Verif.Supp.Frame`): an input is a parsed EAP packet.
-/

namespace Wolf.Supp.Peap

/-- What `wolfSSL_connect` reports, eap_tls_engine.c 262-276. -/
inductive Conn where
  | done | want | fail
  deriving DecidableEq, Repr

/-- What the TLS library, the random generator and the integrator do during one call. -/
structure Tun where
  conn : Conn
  /-- the fragment buffers after the library ran -/
  io : Io
  /-- `wolfSSL_read` into 512 bytes; `none` for a result ≤ 0 -/
  read : Option Bytes
  /-- `wolfSSL_write` returns > 0 -/
  write : Bool
  /-- `wc_RNG_GenerateBlock` of 16 bytes -/
  rnd : Option Bytes
  /-- `ops.send_eapol` returns 0 and the frame could be built -/
  send : Bool
  /-- `eap_tls_engine_export_msk`, first 32 bytes -/
  msk : Option Bytes

/-- The part of `struct wolfip_supplicant` a PEAP session uses, supplicant.h 212-260. -/
structure PS where
  st : St
  io : Io
  hs : Bool          -- `eap_tls.handshake_complete`
  efail : Bool       -- `eap_tls.failed`
  user : Bytes       -- `inner_identity`
  pw : Bytes         -- `password`
  auth : Bytes
  peer : Bytes
  nt : Bytes
  haveNt : Bool
  pmk : Bytes

/-- After `wolfip_supplicant_init` and `wolfip_supplicant_kick`, supplicant.c 1172-1181, 1260-1320,
1441-1448. -/
def PS.start (user pw : Bytes) : PS :=
  ⟨.identWait, Io.init, false, false, user, pw, zeros 16, zeros 16, zeros 24, false, zeros 32⟩

/-- What leaves the supplicant: an inner message put into the tunnel, an EAP frame. -/
inductive PEv where
  | inner (b : Bytes)
  | frame
  deriving DecidableEq, Repr

/-- A received EAP packet. -/
inductive PIn where
  | ident (t : Tun)
  | tls (d : Bytes) (t : Tun)
  | peap (d : Bytes) (t : Tun)
  | otherReq (t : Tun)
  | success (t : Tun)
  | failure

/-- `eap_tls_engine_step`, eap_tls_engine.c 246-277. -/
def engStep (s : PS) (t : Tun) : PS × Bool :=
  if s.efail then (s, false)
  else if s.hs then (s, true)
  else match t.conn with
    | .done => ({ s with io := t.io, hs := true }, true)
    | .want => ({ s with io := t.io }, true)
    | .fail => ({ s with io := t.io, efail := true }, false)

/-- The challenge arm of `peap_phase2_mschapv2`, supplicant.c 314-338. -/
def onChal (P : Prims) (s : PS) (cap : Nat) (c : Chal) (rnd : Option Bytes) : PS × Option Bytes :=
  let s := { s with auth := c.auth }
  match rnd with
  | none => (s, none)
  | some r =>
    let s := { s with peer := r }
    match genNt P s.auth s.peer s.user s.pw with
    | none => (s, none)
    | some n =>
      let s := { s with nt := n, haveNt := true }
      (s, buildResp cap c.id s.peer s.nt s.user)

/-- The Success arm, supplicant.c 339-356. -/
def onSucc (P : Prims) (s : PS) (cap : Nat) (plain : Bytes) : Option Bytes :=
  match extractAuth plain with
  | .error _ => none
  | .ok r =>
    if s.haveNt = false then none
    else if verify P s.pw s.nt s.peer s.auth s.user r then buildAck cap
    else none

/-- `peap_phase2_mschapv2`, supplicant.c 306-358. -/
def innerMs (P : Prims) (s : PS) (cap : Nat) (plain : Bytes) (rnd : Option Bytes) :
    PS × Option Bytes :=
  match parseChal plain with
  | .ok c => onChal P s cap c rnd
  | .error _ => (s, onSucc P s cap plain)

/-- The Result TLV answer, supplicant.c 376-392: "Success". -/
def resultTlv (id : Nat) : Bytes := [2, id, 0, 11, 33, 128, 3, 0, 2, 0, 1]

/-- `peap_phase2_build_inner`, supplicant.c 364-413. -/
def buildInner (P : Prims) (s : PS) (cap : Nat) (plain : Bytes) (rnd : Option Bytes) :
    PS × Option Bytes :=
  if 11 ≤ plain.length ∧ plain.getD 0 0 = 1 ∧ plain.getD 4 0 = 33 then
    if cap < 11 then (s, none) else (s, some (resultTlv (plain.getD 1 0)))
  else if plain.getD 0 0 = 1 then
    if s.user.length + 1 > cap then (s, none) else (s, some (1 :: s.user))
  else if plain.getD 0 0 = 26 then innerMs P s cap plain rnd
  else (s, none)

/-- The last lines of the handlers: a fragment or an acknowledgement, supplicant.c 471-475. -/
def answer (s : PS) (t : Tun) (out : List PEv) : PS × Bool × List PEv :=
  if t.send then (s, true, out ++ [.frame]) else (s, false, out)

/-- The phase-2 arm of `supp_handle_peap_request`, supplicant.c 444-469; the reply buffer holds 256
bytes. -/
def phase2 (P : Prims) (s : PS) (t : Tun) : PS × Bool × List PEv :=
  match t.read with
  | none => answer s t []
  | some plain =>
    match buildInner P { s with io := t.io } 256 plain t.rnd with
    | (s', none) => (s', false, [])
    | (s', some b) => if t.write then answer s' t [.inner b] else (s', false, [])

/-- An engine step, then the answer. -/
def engAnswer (s : PS) (t : Tun) : PS × Bool × List PEv :=
  match engStep s t with
  | (s', false) => (s', false, [])
  | (s', true) => answer s' t []

/-- `supp_handle_peap_request`, supplicant.c 418-476. -/
def peapReq (P : Prims) (s : PS) (d : Bytes) (t : Tun) : PS × Bool × List PEv :=
  if s.st ≠ .tlsProg then (s, false, [])
  else match rxFragment s.io d with
    | (io, .error _) => ({ s with io := io }, false, [])
    | (io, .ok true) => engAnswer { s with io := io } t
    | (io, .ok false) =>
      if io.rxComplete = false then answer { s with io := io } t []
      else if s.hs = false then engAnswer { s with io := io } t
      else phase2 P { s with io := io } t

/-- The EAP-TLS arm of `supp_handle_eap_request`, supplicant.c 497-533. -/
def tlsReq (s : PS) (d : Bytes) (t : Tun) : PS × Bool × List PEv :=
  if s.st ≠ .tlsProg then (s, false, [])
  else match rxFragment s.io d with
    | (io, .error _) => ({ s with io := io }, false, [])
    | (io, .ok true) => engAnswer { s with io := io } t
    | (io, .ok false) =>
      if io.rxComplete = false then answer { s with io := io } t []
      else engAnswer { s with io := io } t

/-- The Identity arm, supplicant.c 484-495. -/
def identReq (s : PS) (t : Tun) : PS × Bool × List PEv :=
  if s.st = .identWait ∨ s.st = .tlsProg then
    if t.send then ({ s with st := .tlsProg }, true, [.frame]) else (s, false, [])
  else (s, false, [])

/-- `supp_handle_eap_success`, supplicant.c 548-576. -/
def succReq (s : PS) (t : Tun) : PS × Bool × List PEv :=
  if s.st ≠ .tlsProg then (s, false, [])
  else if s.hs = false then (s, false, [])
  else match t.msk with
    | none => (s, false, [])
    | some k => ({ s with pmk := k, st := .m1Wait }, true, [])

/-- `if (ret != 0) s->state = SUPP_STATE_FAILED`, supplicant.c 594-602. -/
def orFail : PS × Bool × List PEv → PS × List PEv
  | (s, true, es) => (s, es)
  | (s, false, es) => ({ s with st := .failed }, es)

/-- `supp_rx_eap`, supplicant.c 580-610, on a parsed packet. -/
def pstep (P : Prims) (s : PS) : PIn → PS × List PEv
  | .ident t => orFail (identReq s t)
  | .tls d t => orFail (tlsReq s d t)
  | .peap d t => orFail (peapReq P s d t)
  | .otherReq _ => ({ s with st := .failed }, [])
  | .success t => orFail (succReq s t)
  | .failure => ({ s with st := .failed }, [])

/-- The state after a history. -/
def prun (P : Prims) (s : PS) (h : List PIn) : PS := h.foldl (fun s i => (pstep P s i).1) s

/-! ## Specification -/

/-- The tunnel plaintext an input makes the supplicant read. -/
def PIn.plain : PIn → Option Bytes
  | .peap _ t => t.read
  | _ => none

/-- In the session so far the supplicant has put `b` into the tunnel in answer to input `i`, which
came after the history `pre`. -/
def Said (P : Prims) (s0 : PS) (pre : List PIn) (i : PIn) (b : Bytes) : Prop :=
  .inner b ∈ (pstep P (prun P s0 pre) i).2

/-- The server has proved that it knows `pw`: in answer to the challenge it sent as input `j`, the
supplicant told it the fresh challenge `peer`, and the message `msg` carries RFC 2759's authenticator
response for exactly these. -/
def Proved (P : Prims) (s0 : PS) (user pw : Bytes) (pre : List PIn) (j : PIn) (msg : Bytes) : Prop :=
  ∃ c id peer nt resp plain t d r,
    j = .peap d t ∧ t.read = some plain ∧ ChalMsg plain c ∧ t.rnd = some peer ∧
    GenerateNTResponse P c.auth peer user pw = some nt ∧
    Said P s0 pre j resp ∧ resp = [26, 2, id] ++ wr16 (54 + user.length) ++ [49] ++ peer ++
      List.replicate 8 0 ++ nt ++ [0] ++ user ∧
    extractAuth msg = .ok r ∧
    GenerateAuthenticatorResponse P pw nt peer c.auth user = some r

/-! ## Proofs -/

/-- The effect of an input on the parts the inner method uses, when it does not fail. -/
structure Same (s s' : PS) : Prop where
  user : s'.user = s.user
  pw : s'.pw = s.pw
  auth : s'.auth = s.auth
  peer : s'.peer = s.peer
  nt : s'.nt = s.nt
  have' : s'.haveNt = s.haveNt

theorem Same.refl (s : PS) : Same s s := ⟨rfl, rfl, rfl, rfl, rfl, rfl⟩

theorem engStep_same (s : PS) (t : Tun) : Same s (engStep s t).1 := by
  unfold engStep
  split
  · exact .refl s
  · split
    · exact .refl s
    · cases t.conn <;> exact ⟨rfl, rfl, rfl, rfl, rfl, rfl⟩

theorem answer_fst (s : PS) (t : Tun) (out : List PEv) : (answer s t out).1 = s := by
  unfold answer; split <;> rfl

theorem answer_inner (s : PS) (t : Tun) (out : List PEv) (b : Bytes) :
    .inner b ∈ (answer s t out).2.2 ↔ .inner b ∈ out := by
  unfold answer
  split
  · simp
  · exact Iff.rfl

theorem engAnswer_same (s : PS) (t : Tun) :
    Same s (engAnswer s t).1 ∧ ∀ b, .inner b ∉ (engAnswer s t).2.2 := by
  have h := engStep_same s t
  unfold engAnswer
  generalize engStep s t = q at h
  obtain ⟨s', ok⟩ := q
  cases ok with
  | false => exact ⟨h, fun b hb => by cases hb⟩
  | true =>
    refine ⟨?_, fun b hb => ?_⟩
    · show Same s (answer s' t []).1
      rw [answer_fst]; exact h
    · have := (answer_inner s' t [] b).mp hb
      cases this

/-- The three ways an input acts on the inner method. -/
inductive Acts (P : Prims) (s : PS) (i : PIn) (s' : PS) (es : List PEv) : Prop where
  /-- nothing about the inner method changes; any inner message is not a response -/
  | quiet (h : Same s s')
      (out : ∀ b, .inner b ∈ es →
        s.st = .tlsProg ∧ s.hs = true ∧
        ((∃ id, b = resultTlv id) ∨ b = 1 :: s.user ∨
        ∃ plain, i.plain = some plain ∧ onSucc P s 256 plain = some b))
  /-- a challenge was answered -/
  | chal (d : Bytes) (t : Tun) (plain : Bytes) (c : Chal) (r n b : Bytes)
      (hi : i = .peap d t) (hr : t.read = some plain) (hc : parseChal plain = .ok c)
      (hrnd : t.rnd = some r) (hn : genNt P c.auth r s.user s.pw = some n)
      (hb : buildResp 256 c.id r n s.user = some b)
      (h1 : s'.user = s.user) (h2 : s'.pw = s.pw) (h3 : s'.auth = c.auth) (h4 : s'.peer = r)
      (h5 : s'.nt = n) (hout : .inner b ∈ es) (honly : ∀ b', .inner b' ∈ es → b' = b)
  /-- the session failed -/
  | fails (hf : s'.st = .failed) (h1 : s'.user = s.user) (h2 : s'.pw = s.pw)
      (hout : ∀ b, .inner b ∉ es)

theorem same_failed {s s' : PS} (h : Same s s') : Same s { s' with st := .failed } :=
  ⟨h.1, h.2, h.3, h.4, h.5, h.6⟩

theorem acts_orFail {P : Prims} {s : PS} {i : PIn} {q : PS × Bool × List PEv}
    (h : Acts P s i q.1 q.2.2) : Acts P s i (orFail q).1 (orFail q).2 := by
  obtain ⟨s', ok, es⟩ := q
  cases ok with
  | true => exact h
  | false =>
    cases h with
    | quiet h out => exact .quiet (same_failed h) out
    | chal d t plain c r n b hi hr hc hrnd hn hb h1 h2 h3 h4 h5 hout honly =>
      exact .chal d t plain c r n b hi hr hc hrnd hn hb h1 h2 h3 h4 h5 hout honly
    | fails hf h1 h2 hout => exact .fails rfl h1 h2 hout

theorem acts_same {P : Prims} {s : PS} {i : PIn} {s' : PS} {es : List PEv} (h : Same s s')
    (hn : ∀ b, .inner b ∉ es) : Acts P s i s' es := .quiet h (fun b hb => absurd hb (hn b))

/-- The inner method on one message. -/
theorem buildInner_cases (P : Prims) (s : PS) (cap : Nat) (plain : Bytes) (rnd : Option Bytes) :
    (Same s (buildInner P s cap plain rnd).1 ∧ (buildInner P s cap plain rnd).1.io = s.io ∧
      ∀ b, (buildInner P s cap plain rnd).2 = some b →
        (∃ id, b = resultTlv id) ∨ b = 1 :: s.user ∨ onSucc P s cap plain = some b) ∨
    ((buildInner P s cap plain rnd).2 = none ∧ (buildInner P s cap plain rnd).1.user = s.user ∧
      (buildInner P s cap plain rnd).1.pw = s.pw) ∨
    ∃ c r n b, parseChal plain = .ok c ∧ rnd = some r ∧ genNt P c.auth r s.user s.pw = some n ∧
      buildResp cap c.id r n s.user = some b ∧
      buildInner P s cap plain rnd =
        ({ s with auth := c.auth, peer := r, nt := n, haveNt := true }, some b) := by
  unfold buildInner
  split
  · split
    · exact Or.inl ⟨.refl s, rfl, fun b hb => by cases hb⟩
    · refine Or.inl ⟨.refl s, rfl, fun b hb => ?_⟩
      exact Or.inl ⟨_, (Option.some.inj hb).symm⟩
  · split
    · split
      · exact Or.inl ⟨.refl s, rfl, fun b hb => by cases hb⟩
      · refine Or.inl ⟨.refl s, rfl, fun b hb => ?_⟩
        exact Or.inr (Or.inl (Option.some.inj hb).symm)
    · split
      · unfold innerMs
        cases hp : parseChal plain with
        | error e => exact Or.inl ⟨.refl s, rfl, fun b hb => Or.inr (Or.inr hb)⟩
        | ok c =>
          dsimp only
          unfold onChal
          dsimp only
          cases rnd with
          | none => exact Or.inr (Or.inl ⟨rfl, rfl, rfl⟩)
          | some r =>
            dsimp only
            cases hn : genNt P c.auth r s.user s.pw with
            | none => exact Or.inr (Or.inl ⟨rfl, rfl, rfl⟩)
            | some n =>
              dsimp only
              cases hb : buildResp cap c.id r n s.user with
              | none => exact Or.inr (Or.inl ⟨rfl, rfl, rfl⟩)
              | some b => exact Or.inr (Or.inr ⟨c, r, n, b, rfl, rfl, hn, hb, rfl⟩)
      · exact Or.inl ⟨.refl s, rfl, fun b hb => by cases hb⟩

theorem onSucc_io (P : Prims) (s : PS) (io io' : Io) (cap : Nat) (plain : Bytes) :
    onSucc P { s with io := io } cap plain = onSucc P s cap plain := rfl

theorem phase2_acts (P : Prims) (s : PS) (io : Io) (d : Bytes) (t : Tun)
    (hst : s.st = .tlsProg) (hhs : s.hs = true) :
    Acts P s (.peap d t) (orFail (phase2 P { s with io := io } t)).1
      (orFail (phase2 P { s with io := io } t)).2 := by
  unfold phase2
  cases hr : t.read with
  | none =>
    apply acts_orFail
    dsimp only
    rw [answer_fst]
    refine acts_same ⟨rfl, rfl, rfl, rfl, rfl, rfl⟩ (fun b hb => ?_)
    have := (answer_inner _ t [] b).mp hb
    cases this
  | some plain =>
    dsimp only
    have hb := buildInner_cases P { s with io := t.io } 256 plain t.rnd
    generalize buildInner P { s with io := t.io } 256 plain t.rnd = q at hb
    obtain ⟨s', ob⟩ := q
    rcases hb with ⟨hs, _, ho⟩ | ⟨hn, h1, h2⟩ | ⟨c, r, n, b, hc, hrnd, hn, hbr, he⟩
    · have hs' : Same s s' := ⟨hs.1, hs.2, hs.3, hs.4, hs.5, hs.6⟩
      apply acts_orFail
      cases ob with
      | none => exact acts_same hs' (fun b hb => by cases hb)
      | some b =>
        dsimp only
        split
        · rw [answer_fst]
          refine .quiet hs' (fun b' hb' => ?_)
          have := (answer_inner s' t [.inner b] b').mp hb'
          have e : b' = b := by
            have := List.eq_of_mem_singleton this
            injection this
          subst e
          refine ⟨hst, hhs, ?_⟩
          rcases ho b' rfl with h | h | h
          · exact Or.inl h
          · exact Or.inr (Or.inl h)
          · exact Or.inr (Or.inr ⟨plain, hr, h⟩)
        · exact acts_same hs' (fun b hb => by cases hb)
    · dsimp only at hn
      subst hn
      exact .fails rfl h1 h2 (fun b hb => by cases hb)
    · injection he with he1 he2
      subst he1 he2
      dsimp only
      split
      · apply acts_orFail
        rw [answer_fst]
        refine .chal d t plain c r n b rfl hr hc hrnd hn hbr rfl rfl rfl rfl rfl
          ((answer_inner _ t [.inner b] b).mpr List.mem_cons_self) (fun b' hb' => ?_)
        have := List.eq_of_mem_singleton ((answer_inner _ t [.inner b] b').mp hb')
        injection this
      · exact .fails rfl rfl rfl (fun b hb => by cases hb)

theorem same_io {s s' : PS} {io : Io} (h : Same { s with io := io } s') : Same s s' :=
  ⟨h.1, h.2, h.3, h.4, h.5, h.6⟩

theorem rest_acts (P : Prims) (s : PS) (io : Io) (i : PIn) (t : Tun) :
    Acts P s i (orFail (engAnswer { s with io := io } t)).1
      (orFail (engAnswer { s with io := io } t)).2 := by
  apply acts_orFail
  have h := engAnswer_same { s with io := io } t
  exact acts_same (same_io h.1) h.2

theorem ans_acts (P : Prims) (s : PS) (io : Io) (i : PIn) (t : Tun) :
    Acts P s i (orFail (answer { s with io := io } t [])).1
      (orFail (answer { s with io := io } t [])).2 := by
  apply acts_orFail
  rw [answer_fst]
  refine acts_same ⟨rfl, rfl, rfl, rfl, rfl, rfl⟩ (fun b hb => ?_)
  have := (answer_inner _ t [] b).mp hb
  cases this

theorem err_acts (P : Prims) (s : PS) (io : Io) (i : PIn) :
    Acts P s i (orFail ({ s with io := io }, false, [])).1
      (orFail ({ s with io := io }, false, [])).2 :=
  .fails rfl rfl rfl (fun b hb => by cases hb)

/-- Every input acts in one of the three ways. -/
theorem step_acts (P : Prims) (s : PS) (i : PIn) : Acts P s i (pstep P s i).1 (pstep P s i).2 := by
  have same : Same s { s with st := .failed } := ⟨rfl, rfl, rfl, rfl, rfl, rfl⟩
  cases i with
  | ident t =>
    apply acts_orFail
    unfold identReq
    split
    · split
      · exact acts_same ⟨rfl, rfl, rfl, rfl, rfl, rfl⟩ (fun b hb => by
          have := List.eq_of_mem_singleton hb
          cases this)
      · exact acts_same (.refl s) (fun b hb => by cases hb)
    · exact acts_same (.refl s) (fun b hb => by cases hb)
  | tls d t =>
    show Acts P s _ (orFail (tlsReq s d t)).1 (orFail (tlsReq s d t)).2
    unfold tlsReq
    split
    · exact err_acts P s s.io _
    · generalize rxFragment s.io d = q
      obtain ⟨io, r⟩ := q
      match r with
      | .error e => exact err_acts P s io _
      | .ok true => exact rest_acts P s io _ t
      | .ok false =>
        dsimp only
        split
        · exact ans_acts P s io _ t
        · exact rest_acts P s io _ t
  | peap d t =>
    show Acts P s _ (orFail (peapReq P s d t)).1 (orFail (peapReq P s d t)).2
    unfold peapReq
    split
    · exact err_acts P s s.io _
    · next hst =>
      generalize rxFragment s.io d = q
      obtain ⟨io, r⟩ := q
      match r with
      | .error e => exact err_acts P s io _
      | .ok true => exact rest_acts P s io _ t
      | .ok false =>
        dsimp only
        split
        · exact ans_acts P s io _ t
        · split
          · exact rest_acts P s io _ t
          · next hh =>
            exact phase2_acts P s io d t (Decidable.not_not.mp hst) (by simpa using hh)
  | otherReq t => exact acts_same same (fun b hb => by cases hb)
  | success t =>
    apply acts_orFail
    unfold succReq
    split
    · exact acts_same (.refl s) (fun b hb => by cases hb)
    · split
      · exact acts_same (.refl s) (fun b hb => by cases hb)
      · split
        · exact acts_same (.refl s) (fun b hb => by cases hb)
        · exact acts_same ⟨rfl, rfl, rfl, rfl, rfl, rfl⟩ (fun b hb => by cases hb)
  | failure => exact acts_same same (fun b hb => by cases hb)

/-- A failed session stays failed and says nothing. -/
theorem failed_stays (P : Prims) (s : PS) (i : PIn) (h : s.st = .failed) :
    (pstep P s i).1.st = .failed ∧ (pstep P s i).2 = [] := by
  cases i with
  | ident t =>
    show (orFail (identReq s t)).1.st = _ ∧ (orFail (identReq s t)).2 = _
    unfold identReq
    rw [if_neg (by rw [h]; rintro (c | c) <;> cases c)]
    exact ⟨rfl, rfl⟩
  | tls d t =>
    show (orFail (tlsReq s d t)).1.st = _ ∧ (orFail (tlsReq s d t)).2 = _
    unfold tlsReq
    rw [if_pos (by rw [h]; intro c; cases c)]
    exact ⟨rfl, rfl⟩
  | peap d t =>
    show (orFail (peapReq P s d t)).1.st = _ ∧ (orFail (peapReq P s d t)).2 = _
    unfold peapReq
    rw [if_pos (by rw [h]; intro c; cases c)]
    exact ⟨rfl, rfl⟩
  | otherReq t => exact ⟨rfl, rfl⟩
  | success t =>
    show (orFail (succReq s t)).1.st = _ ∧ (orFail (succReq s t)).2 = _
    unfold succReq
    rw [if_pos (by rw [h]; intro c; cases c)]
    exact ⟨rfl, rfl⟩
  | failure => exact ⟨rfl, rfl⟩

theorem prun_snoc (P : Prims) (s : PS) (h : List PIn) (i : PIn) :
    prun P s (h ++ [i]) = (pstep P (prun P s h) i).1 := by
  unfold prun
  rw [List.foldl_append]
  rfl

/-- Induction over histories, last input first. -/
theorem hist_ind {α : Type} {Q : List α → Prop} (h0 : Q []) (h1 : ∀ l a, Q l → Q (l ++ [a])) :
    ∀ l, Q l := by
  intro l
  rw [← List.reverse_reverse l]
  induction l.reverse with
  | nil => exact h0
  | cons a r ih => rw [List.reverse_cons]; exact h1 _ _ ih

/-- The challenge the context remembers is the last one answered. -/
def LastChal (P : Prims) (s0 : PS) (h : List PIn) (s : PS) : Prop :=
  ∃ pre d t post plain c b,
    h = pre ++ .peap d t :: post ∧ t.read = some plain ∧ parseChal plain = .ok c ∧
    t.rnd = some s.peer ∧ genNt P c.auth s.peer s.user s.pw = some s.nt ∧ s.auth = c.auth ∧
    buildResp 256 c.id s.peer s.nt s.user = some b ∧ Said P s0 pre (.peap d t) b ∧
    ∀ p1 j p2, post = p1 ++ j :: p2 → ∀ b', Said P s0 (pre ++ .peap d t :: p1) j b' →
      b'.take 2 ≠ [26, 2]

theorem onSucc_ack {P : Prims} {s : PS} {plain b : Bytes} (h : onSucc P s 256 plain = some b) :
    b = [26, 3] ∧ s.haveNt = true ∧ ∃ r, extractAuth plain = .ok r ∧
      verify P s.pw s.nt s.peer s.auth s.user r = true := by
  unfold onSucc at h
  split at h
  · cases h
  · next r hr =>
    split at h
    · cases h
    · next hv =>
      split at h
      · next hok =>
        unfold buildAck at h
        rw [if_neg (by decide)] at h
        exact ⟨(Option.some.inj h).symm, by simpa using hv, r, hr, hok⟩
      · cases h

/-- The invariant of a session. -/
theorem session_inv (P : Prims) (user pw : Bytes) (h : List PIn) :
    (prun P (.start user pw) h).user = user ∧ (prun P (.start user pw) h).pw = pw ∧
    ((prun P (.start user pw) h).st ≠ .failed → (prun P (.start user pw) h).haveNt = true →
      LastChal P (.start user pw) h (prun P (.start user pw) h)) := by
  generalize hs0 : PS.start user pw = s0
  have hu : s0.user = user := by rw [← hs0]; rfl
  have hp : s0.pw = pw := by rw [← hs0]; rfl
  have hh : s0.haveNt = false := by rw [← hs0]; rfl
  refine hist_ind (Q := fun h => (prun P s0 h).user = user ∧ (prun P s0 h).pw = pw ∧
    ((prun P s0 h).st ≠ .failed → (prun P s0 h).haveNt = true → LastChal P s0 h (prun P s0 h)))
    ?_ ?_ h
  · refine ⟨hu, hp, fun _ c => ?_⟩
    rw [show prun P s0 [] = s0 from rfl, hh] at c
    cases c
  · intro h i ih
    obtain ⟨ih1, ih2, ih3⟩ := ih
    rw [prun_snoc]
    have ha := step_acts P (prun P s0 h) i
    have hfs := failed_stays P (prun P s0 h) i
    have hsaid : ∀ b, .inner b ∈ (pstep P (prun P s0 h) i).2 ↔ Said P s0 h i b := fun b => Iff.rfl
    generalize hq : pstep P (prun P s0 h) i = q at ha hfs hsaid
    obtain ⟨s', es⟩ := q
    dsimp only at ha hfs hsaid ⊢
    cases ha with
    | quiet hsm out =>
      refine ⟨by rw [hsm.user, ih1], by rw [hsm.pw, ih2], fun hst hv => ?_⟩
      have hst0 : (prun P s0 h).st ≠ .failed := fun c => hst (hfs c).1
      rw [hsm.have'] at hv
      obtain ⟨pre, d, t, post, plain, c, b, e1, e2, e3, e4, e5, e6, e7, e8, e9⟩ := ih3 hst0 hv
      refine ⟨pre, d, t, post ++ [i], plain, c, b, ?_, e2, e3, ?_, ?_, ?_, ?_, e8, ?_⟩
      · rw [e1, List.append_assoc]; rfl
      · rw [hsm.peer]; exact e4
      · rw [hsm.peer, hsm.user, hsm.pw, hsm.nt]; exact e5
      · rw [hsm.auth]; exact e6
      · rw [hsm.peer, hsm.user, hsm.nt]; exact e7
      · intro p1 j p2 hpost b' hb'
        rcases List.eq_nil_or_concat p2 with hn | ⟨p2', x, hx⟩
        · subst hn
          have hij := List.append_inj' hpost rfl
          have : i = j := List.cons.inj hij.2 |>.1
          subst this
          rw [← hij.1, ← e1] at hb'
          have hmem := (hsaid b').mpr hb'
          obtain ⟨_, _, ho⟩ := out b' hmem
          rcases ho with ⟨id, hid⟩ | hid | ⟨pl, _, hid⟩
          · rw [hid]; intro cc; cases cc
          · rw [hid]
            intro cc
            cases (prun P s0 h).user with
            | nil => cases cc
            | cons a as => cases cc
          · rw [(onSucc_ack hid).1]; intro cc; cases cc
        · rw [List.concat_eq_append] at hx
          subst hx
          have hpost' : post ++ [i] = (p1 ++ j :: p2') ++ [x] := by
            rw [hpost, List.append_assoc]; rfl
          exact e9 p1 j p2' (List.append_inj' hpost' rfl).1 b' hb'
    | chal d t plain c r n b hi hr hc hrnd hn hb h1 h2 h3 h4 h5 hout honly =>
      refine ⟨by rw [h1, ih1], by rw [h2, ih2], fun hst hv => ?_⟩
      refine ⟨h, d, t, [], plain, c, b, by rw [hi], hr, hc, ?_, ?_, h3, ?_, ?_, ?_⟩
      · rw [h4]; exact hrnd
      · rw [h4, h1, h2, h5]; exact hn
      · rw [h4, h5, h1]; exact hb
      · rw [← hi]; exact (hsaid b).mp hout
      · intro p1 j p2 hpost
        have := congrArg List.length hpost
        simp at this
    | fails hf h1 h2 hout =>
      exact ⟨by rw [h1, ih1], by rw [h2, ih2], fun hst => absurd hf hst⟩


/-- **C89 (partial).**  In every PEAP session, whatever the TLS library, the random generator and
the integrator do: the supplicant acknowledges the server's Success message inside the tunnel only if
that message carries RFC 2759's proof of knowledge of the configured password, for the last challenge
the supplicant answered in this session and the random challenge it sent in that answer.

Missing from the full claim: the proof is not needed to go on to the key handshake
(`peap_success_unproved`) nor to answer a Result TLV with "Success" (`result_tlv_unproved`). -/
theorem inner_ack_proved_partial (P : Prims) (user pw : Bytes) (h : List PIn) (i : PIn)
    (hack : Said P (.start user pw) h i [26, 3]) :
    ∃ pre j post msg, h = pre ++ j :: post ∧ i.plain = some msg ∧
      Proved P (.start user pw) user pw pre j msg ∧
      ∀ p1 k p2, post = p1 ++ k :: p2 → ∀ b, Said P (.start user pw) (pre ++ j :: p1) k b →
        b.take 2 ≠ [26, 2] := by
  have hinv := session_inv P user pw h
  have ha := step_acts P (prun P (.start user pw) h) i
  have hfs := failed_stays P (prun P (.start user pw) h) i
  generalize hs0 : PS.start user pw = s0 at *
  unfold Said at hack
  cases ha with
  | quiet hsm out =>
    obtain ⟨hst, _, ho⟩ := out _ hack
    rcases ho with ⟨id, hid⟩ | hid | ⟨plain, hpl, hid⟩
    · cases hid
    · cases hid
    · obtain ⟨_, hv, r, hr, hver⟩ := onSucc_ack hid
      obtain ⟨pre, d, t, post, plain', c, b, e1, e2, e3, e4, e5, e6, e7, e8, e9⟩ :=
        hinv.2.2 (by rw [hst]; intro c; cases c) hv
      have hvx := (verify_exact P _ _ _ _ _ r).mp hver
      have hnt := nt_response_exact P c.auth (prun P s0 h).peer (prun P s0 h).user (prun P s0 h).pw
      rw [if_pos ⟨hvx.2.1, hvx.2.2.1⟩, e5] at hnt
      have hr42 : r.take 42 = r := by
        obtain ⟨_, _, pr, rest, _, _, hl, _⟩ := (authresp_extracted plain r).1.mp hr
        rw [← hl]; exact List.take_length
      refine ⟨pre, .peap d t, post, plain, e1, hpl, ?_, e9⟩
      refine ⟨c, c.id, (prun P s0 h).peer, (prun P s0 h).nt, b, plain', t, d, r, rfl, e2,
        ((challenge_parsed plain').1 c).mp e3, e4, ?_, e8, ?_, hr, ?_⟩
      · rw [← hinv.1, ← hinv.2.1]; exact hnt.symm
      · have : b = [26, 2, c.id] ++ wr16 (55 + (prun P s0 h).user.length - 1) ++ [49] ++
            (prun P s0 h).peer ++ List.replicate 8 0 ++ (prun P s0 h).nt ++ [0] ++
            (prun P s0 h).user := by
          unfold buildResp at e7
          dsimp only at e7
          split at e7
          · cases e7
          · exact (Option.some.inj e7).symm
        rw [this, hinv.1]
        rw [show 55 + user.length - 1 = 54 + user.length from by omega]
      · have := hvx.2.2.2
        rw [hr42, hinv.1, hinv.2.1, e6] at this
        exact this
  | chal d t plain c r n b hi hr hc hrnd hn hb h1 h2 h3 h4 h5 hout honly =>
    have e := honly _ hack
    unfold buildResp at hb
    dsimp only at hb
    split at hb
    · cases hb
    · have hb' := Option.some.inj hb
      rw [← e] at hb'
      cases hb'
  | fails hf h1 h2 hout => exact absurd hack (hout _)

/-- What the engine step does to the handshake flag. -/
theorem engStep_hs (s : PS) (t : Tun) : (engStep s t).1.st = s.st ∧ (engStep s t).1.pmk = s.pmk ∧
    ((engStep s t).1.hs = true → s.hs = true ∨ t.conn = .done) := by
  unfold engStep
  split
  · exact ⟨rfl, rfl, fun h => Or.inl h⟩
  · split
    · exact ⟨rfl, rfl, fun h => Or.inl h⟩
    · next h =>
      cases hc : t.conn with
      | done => exact ⟨rfl, rfl, fun _ => Or.inr rfl⟩
      | want => exact ⟨rfl, rfl, fun c => Or.inl c⟩
      | fail => exact ⟨rfl, rfl, fun c => Or.inl c⟩

/-- What an input made the TLS library report. -/
def PIn.conn : PIn → Option Conn
  | .peap _ t | .tls _ t => some t.conn
  | _ => none

/-- What one input does to the state, the handshake flag and the master key. -/
structure Outer (s : PS) (i : PIn) (s' : PS) : Prop where
  hs : s'.hs = true → s.hs = true ∨ i.conn = some .done
  st : s'.st = .m1Wait → s'.st = s.st ∧ s'.pmk = s.pmk ∨
    s.st = .tlsProg ∧ s.hs = true ∧ ∃ t, i = .success t ∧ t.msk = some s'.pmk

theorem engAnswer_outer (s : PS) (io : Io) (t : Tun) (i : PIn) (hi : i.conn = some t.conn) :
    Outer s i (orFail (engAnswer { s with io := io } t)).1 := by
  have h := engStep_hs { s with io := io } t
  unfold engAnswer
  generalize engStep { s with io := io } t = q at h
  obtain ⟨s', ok⟩ := q
  obtain ⟨h1, h2, h3⟩ := h
  have h3' : s'.hs = true → s.hs = true ∨ i.conn = some .done := fun c =>
    (h3 c).imp id (fun e => by rw [hi, e])
  cases ok with
  | false => exact ⟨h3', fun c => by cases c⟩
  | true =>
    dsimp only
    unfold answer
    split
    · exact ⟨h3', fun _ => Or.inl ⟨h1, h2⟩⟩
    · exact ⟨h3', fun c => by cases c⟩

theorem buildInner_outer (P : Prims) (s : PS) (cap : Nat) (plain : Bytes) (rnd : Option Bytes) :
    (buildInner P s cap plain rnd).1.st = s.st ∧ (buildInner P s cap plain rnd).1.pmk = s.pmk ∧
    (buildInner P s cap plain rnd).1.hs = s.hs := by
  unfold buildInner innerMs onChal
  dsimp only
  split
  · split <;> exact ⟨rfl, rfl, rfl⟩
  · split
    · split <;> exact ⟨rfl, rfl, rfl⟩
    · split
      · split
        · split
          · exact ⟨rfl, rfl, rfl⟩
          · split <;> exact ⟨rfl, rfl, rfl⟩
        · exact ⟨rfl, rfl, rfl⟩
      · exact ⟨rfl, rfl, rfl⟩

theorem answer_outer (s : PS) (io : Io) (t : Tun) (i : PIn) :
    Outer s i (orFail (answer { s with io := io } t [])).1 := by
  unfold answer
  split
  · exact ⟨fun c => Or.inl c, fun _ => Or.inl ⟨rfl, rfl⟩⟩
  · exact ⟨fun c => Or.inl c, fun c => by cases c⟩

theorem phase2_outer (P : Prims) (s : PS) (io : Io) (t : Tun) (i : PIn) :
    Outer s i (orFail (phase2 P { s with io := io } t)).1 := by
  unfold phase2
  cases t.read with
  | none => exact answer_outer s io t i
  | some plain =>
    dsimp only
    have h := buildInner_outer P { s with io := t.io } 256 plain t.rnd
    generalize buildInner P { s with io := t.io } 256 plain t.rnd = q at h
    obtain ⟨s', ob⟩ := q
    obtain ⟨h1, h2, h3⟩ := h
    dsimp only at h1 h2 h3
    cases ob with
    | none => exact ⟨fun c => Or.inl (by rw [← h3]; exact c), fun c => by cases c⟩
    | some b =>
      dsimp only
      split
      · unfold answer
        split
        · exact ⟨fun c => Or.inl (by rw [← h3]; exact c), fun _ => Or.inl ⟨h1, h2⟩⟩
        · exact ⟨fun c => Or.inl (by rw [← h3]; exact c), fun c => by cases c⟩
      · exact ⟨fun c => Or.inl (by rw [← h3]; exact c), fun c => by cases c⟩

theorem fail_outer (s : PS) (io : Io) (i : PIn) :
    Outer s i (orFail ({ s with io := io }, false, [])).1 :=
  ⟨fun c => Or.inl c, fun c => by cases c⟩

theorem step_outer (P : Prims) (s : PS) (i : PIn) : Outer s i (pstep P s i).1 := by
  cases i with
  | ident t =>
    show Outer s _ (orFail (identReq s t)).1
    unfold identReq
    split
    · split
      · exact ⟨fun c => Or.inl c, fun c => by cases c⟩
      · exact fail_outer s s.io _
    · exact fail_outer s s.io _
  | tls d t =>
    show Outer s _ (orFail (tlsReq s d t)).1
    unfold tlsReq
    split
    · exact fail_outer s s.io _
    · generalize rxFragment s.io d = q
      obtain ⟨io, r⟩ := q
      match r with
      | .error e => exact fail_outer s io _
      | .ok true => exact engAnswer_outer s io t _ rfl
      | .ok false =>
        dsimp only
        split
        · exact answer_outer s io t _
        · exact engAnswer_outer s io t _ rfl
  | peap d t =>
    show Outer s _ (orFail (peapReq P s d t)).1
    unfold peapReq
    split
    · exact fail_outer s s.io _
    · generalize rxFragment s.io d = q
      obtain ⟨io, r⟩ := q
      match r with
      | .error e => exact fail_outer s io _
      | .ok true => exact engAnswer_outer s io t _ rfl
      | .ok false =>
        dsimp only
        split
        · exact answer_outer s io t _
        · split
          · exact engAnswer_outer s io t _ rfl
          · exact phase2_outer P s io t _
  | otherReq t => exact fail_outer s s.io _
  | success t =>
    show Outer s _ (orFail (succReq s t)).1
    unfold succReq
    split
    · exact fail_outer s s.io _
    · next hst =>
      split
      · exact fail_outer s s.io _
      · next hh =>
        cases hm : t.msk with
        | none => exact fail_outer s s.io _
        | some k =>
          exact ⟨fun c => Or.inl c, fun _ => Or.inr ⟨Decidable.not_not.mp hst, by simpa using hh,
            t, rfl, hm⟩⟩
  | failure => exact fail_outer s s.io _

/-- **C89.**  In every session the supplicant goes on to the key handshake only on an EAP-Success,
only after the TLS library reported a completed handshake (the server's certificate was accepted)
in answer to a request of this session, and with the key exported from that tunnel. -/
theorem peap_needs_tunnel (P : Prims) (user pw : Bytes) (h : List PIn)
    (hst : (prun P (.start user pw) h).st = .m1Wait) :
    ∃ pre j mid t post, h = pre ++ j :: mid ++ .success t :: post ∧ j.conn = some .done ∧
      t.msk = some (prun P (.start user pw) h).pmk := by
  generalize hs0 : PS.start user pw = s0 at *
  have key : ∀ h : List PIn, ((prun P s0 h).hs = true → ∃ pre j mid, h = pre ++ j :: mid ∧
        j.conn = some .done) ∧
      ((prun P s0 h).st = .m1Wait → ∃ pre j mid t post, h = pre ++ j :: mid ++ .success t :: post ∧
        j.conn = some .done ∧ t.msk = some (prun P s0 h).pmk) := by
    refine hist_ind ?_ ?_
    · refine ⟨fun c => ?_, fun c => ?_⟩
      · rw [← hs0] at c; cases c
      · rw [← hs0] at c; cases c
    · intro l a ih
      rw [prun_snoc]
      have ho := step_outer P (prun P s0 l) a
      generalize (pstep P (prun P s0 l) a).1 = s' at ho
      refine ⟨fun c => ?_, fun c => ?_⟩
      · rcases ho.hs c with h1 | h1
        · obtain ⟨pre, j, mid, e1, e2⟩ := ih.1 h1
          exact ⟨pre, j, mid ++ [a], by rw [e1]; simp, e2⟩
        · exact ⟨l, a, [], by simp, h1⟩
      · rcases ho.st c with ⟨h1, h2⟩ | ⟨_, h2, t, h3, h4⟩
        · obtain ⟨pre, j, mid, t, post, e1, e2, e3⟩ := ih.2 (h1 ▸ c)
          exact ⟨pre, j, mid, t, post ++ [a], by rw [e1]; simp, e2, by rw [h2]; exact e3⟩
        · obtain ⟨pre, j, mid, e1, e2⟩ := ih.1 h2
          exact ⟨pre, j, mid, t, [], by rw [e1, h3], e2, h4⟩
  exact (key h).2 hst

/-- **C89.**  A Success message that does not carry the proof ends the session: nothing is sent, and
the supplicant never leaves the failed state. -/
theorem wrong_proof_fails (P : Prims) (s : PS) (d : Bytes) (t : Tun) (msg : Bytes) (h : List PIn)
    (hst : s.st = .tlsProg) (hhs : s.hs = true) (hfr : (rxFragment s.io d).2 = .ok false)
    (hcomp : (rxFragment s.io d).1.rxComplete = true) (hr : t.read = some msg)
    (h26 : msg.getD 0 0 = 26) (h3 : msg.getD 1 0 = 3)
    (hbad : ∀ r, extractAuth msg = .ok r →
      GenerateAuthenticatorResponse P s.pw s.nt s.peer s.auth s.user ≠ some r) :
    (pstep P s (.peap d t)).2 = [] ∧ (prun P (pstep P s (.peap d t)).1 h).st = .failed := by
  have hno : parseChal msg = .error .reject := by
    rw [parseChal_eq]
    split
    · rfl
    · rw [if_neg (fun c => by have := c.2.1; rw [h3] at this; cases this)]
  have hsucc : ∀ io, onSucc P { s with io := io } 256 msg = none := by
    intro io
    cases ho : onSucc P { s with io := io } 256 msg with
    | none => rfl
    | some b =>
      obtain ⟨_, _, r, hr', hv⟩ := onSucc_ack ho
      have hx := (verify_exact P _ _ _ _ _ r).mp hv
      obtain ⟨_, _, pr, rest, _, _, hl, _⟩ := (authresp_extracted msg r).1.mp hr'
      have h42 : r.take 42 = r := by rw [← hl]; exact List.take_length
      rw [h42] at hx
      exact absurd hx.2.2.2 (hbad r hr')
  have hinner : ∀ io, buildInner P { s with io := io } 256 msg t.rnd = ({ s with io := io }, none) := by
    intro io
    unfold buildInner
    rw [if_neg (by rw [h26]; intro c; exact absurd c.2.1 (by decide)), if_neg (by rw [h26]; decide),
      if_pos h26]
    unfold innerMs
    rw [hno]
    dsimp only
    rw [hsucc io]
  have hstep : pstep P s (.peap d t) = ({ s with io := t.io, st := .failed }, []) := by
    show orFail (peapReq P s d t) = _
    unfold peapReq
    rw [if_neg (fun c => c hst)]
    generalize rxFragment s.io d = q at hfr hcomp
    obtain ⟨io, r⟩ := q
    dsimp only at hfr hcomp
    subst hfr
    dsimp only
    rw [if_neg (by rw [hcomp]; decide), if_neg (by rw [hhs]; decide)]
    unfold phase2
    rw [hr]
    dsimp only
    rw [hinner t.io]
    rfl
  rw [hstep]
  refine ⟨rfl, ?_⟩
  refine hist_ind (Q := fun h => (prun P { s with io := t.io, st := .failed } h).st = .failed)
    rfl (fun l a ih => ?_) h
  rw [prun_snoc]
  exact (failed_stays P _ a ih).1

/-! ## What is missing -/

/-- A call in which everything the library is asked for succeeds and nothing is read. -/
def okTun : Tun := ⟨.done, Io.init, none, true, some (List.replicate 16 5), true,
  some (List.replicate 32 9)⟩

/-- The packets of a server that has a certificate but not the password: identity request, TLS
start, the handshake's last message, EAP-Success. -/
def rogue : List PIn :=
  [.ident okTun, .peap [32] { okTun with conn := .want }, .peap [0, 1] okTun, .success okTun]

/-- **C89, what is missing.**  Whatever the user name and the password: a server whose certificate is
accepted and which skips the inner authentication altogether gets the supplicant to the key
handshake, with the key of the tunnel; no inner message was ever exchanged. -/
theorem peap_success_unproved (P : Prims) (user pw : Bytes) :
    (prun P (.start user pw) rogue).st = .m1Wait ∧
    (prun P (.start user pw) rogue).pmk = List.replicate 32 9 ∧
    (prun P (.start user pw) rogue).haveNt = false ∧
    ∀ pre i post b, rogue = pre ++ i :: post → ¬ Said P (.start user pw) pre i b := by
  refine ⟨rfl, rfl, rfl, ?_⟩
  intro pre i post b he hs
  match pre, he with
  | [], he => cases he; exact absurd hs (by unfold Said; intro c; cases c with | tail _ h => cases h)
  | [_], he => cases he; exact absurd hs (by unfold Said; intro c; cases c with | tail _ h => cases h)
  | [_, _], he => cases he; exact absurd hs (by unfold Said; intro c; cases c with | tail _ h => cases h)
  | [_, _, _], he => cases he; exact absurd hs (by unfold Said; intro c; cases c)
  | _ :: _ :: _ :: _ :: _ :: _, he => cases he

/-- A tunnel message asking for the result: Result TLV "Failure". -/
def tlvFail : Bytes := [1, 4, 0, 11, 33, 128, 3, 0, 2, 0, 2]

/-- **C89, what is missing.**  Without any inner authentication the supplicant answers a Result TLV,
even one that says "Failure", with "Success". -/
theorem result_tlv_unproved (P : Prims) (user pw : Bytes) :
    Said P (.start user pw) [.ident okTun, .peap [32] okTun]
      (.peap [0, 1] { okTun with read := some tlvFail }) (resultTlv 4) := by
  unfold Said
  exact List.mem_cons_self

/-! ## A session that meets the hypotheses -/

/-- Primitives for the example. -/
def toyPrims : Prims where
  sha m := some ((m.foldl (fun a x => (a * 31 + x) % 251) 7) :: List.replicate 19 171)
  md4 m := (m.foldl (fun a x => (a * 17 + x) % 241) 3) :: List.replicate 15 1
  des k b := some (((k.foldl (fun a x => (a * 13 + x) % 239) (b.headD 0)) % 256) :: List.replicate 7 2)
  sha_len := by intro m d h; cases h; rfl
  sha_bytes := by
    intro m d h x hx
    cases h
    rcases List.mem_cons.mp hx with c | c
    · rw [c]
      cases hm : m.reverse with
      | nil =>
        have := List.reverse_eq_nil_iff.mp hm
        subst this; decide
      | cons a r =>
        have : m = r.reverse ++ [a] := by
          rw [← List.reverse_reverse m, hm, List.reverse_cons]
        rw [this, List.foldl_append]
        exact Nat.lt_trans (Nat.mod_lt _ (by decide)) (by decide)
    · rw [List.eq_of_mem_replicate c]; decide
  md4_len := by intro m; rfl
  md4_bytes := by
    intro m x hx
    rcases List.mem_cons.mp hx with c | c
    · rw [c]
      cases hm : m.reverse with
      | nil =>
        have := List.reverse_eq_nil_iff.mp hm
        subst this; decide
      | cons a r =>
        have : m = r.reverse ++ [a] := by
          rw [← List.reverse_reverse m, hm, List.reverse_cons]
        rw [this, List.foldl_append]
        exact Nat.lt_trans (Nat.mod_lt _ (by decide)) (by decide)
    · rw [List.eq_of_mem_replicate c]; decide
  des_len := by intro k b c h; cases h; rfl

/-- The server's challenge. -/
def exChal : Bytes := [26, 1, 7, 0, 23, 16] ++ List.replicate 16 9 ++ [97, 112]

/-- The history up to the answered challenge. -/
def exHist : List PIn :=
  [.ident okTun, .peap [32] okTun, .peap [0, 1] { okTun with read := some exChal }]

/-- The honest server's Success message. -/
def exSucc : Bytes := [26, 3, 7, 0, 47] ++
  ((GenerateNTResponse toyPrims (List.replicate 16 9) (List.replicate 16 5) (ascii "bob")
      (ascii "secret")).bind (fun nt => GenerateAuthenticatorResponse toyPrims (ascii "secret") nt
      (List.replicate 16 5) (List.replicate 16 9) (ascii "bob"))).getD []

/-- The supplicant acknowledges the honest server. -/
example : Said toyPrims (.start (ascii "bob") (ascii "secret")) exHist
    (.peap [0, 1] { okTun with read := some exSucc }) [26, 3] := by
  unfold Said
  decide +kernel

/-- A server with another password is refused. -/
example : (pstep toyPrims (prun toyPrims (.start (ascii "bob") (ascii "secres")) exHist)
    (.peap [0, 1] { okTun with read := some exSucc })).1.st = .failed := by decide +kernel

end Wolf.Supp.Peap
