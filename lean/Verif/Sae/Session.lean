import Verif.Sae.Hnp
import Verif.Sae.Sswu

/-!
# The SAE exchange at the supplicant's interface (C93, C94)

`supp_init_sae`, `wolfip_supplicant_kick` and `wolfip_supplicant_rx_auth_frame`
of supplicant.c, restricted to a session in SAE mode without an installed PMK,
running on the real `sae_crypto.c` model.
-/

namespace Wolf.Sae

/-- `supp_init_sae` (supplicant.c:1116-1162) after `sae_ctx_init`; both ways of
computing the password element are compiled in. -/
def suppInit (h : Prims) (g : Grp) (cv : Curve) (h2e : Bool) (pw ssid staMac apMac : Bytes)
    (rng : Nat → Option (Nat × UInt8)) : Option Ctx :=
  let c := ctxInit g cv
  if h2e then
    (computePt h c pw none ssid).bind fun c =>
    (computePweH2e h c staMac apMac).map fun c => { c with h2e := true }
  else computePweHnp h c pw staMac apMac rng

/-- The states of the SAE part of the session (supplicant.h). -/
inductive SSt where
  | idle | commitSent | confirmSent | m1Wait | failed
deriving DecidableEq, Repr

/-- The fields of `struct wolfip_supplicant` used by the exchange. -/
structure Sess where
  st : SSt
  h2e : Bool
  c : Ctx
  pmk : Bytes

/-- The six-octet header (`sae_auth_hdr_write`, supplicant.c:1348-1355). -/
def authHdr (seq status : Nat) : Bytes := [3, 0] ++ le16 seq ++ le16 status

/-- A little-endian field (`sae_auth_hdr_read`, supplicant.c:1357-1363). -/
def rdLe (f : Bytes) (i : Nat) : Nat := (f.getD i 0).toNat + 256 * (f.getD (i + 1) 0).toNat

/-- The status code of a commit: 126 (`SAE_STATUS_H2E`) or 0. -/
def commitStatus (h2e : Bool) : Nat := if h2e then 126 else 0

/-- `wolfip_supplicant_kick` in SAE mode (supplicant.c:1413-1457) with
`supp_sae_send_commit_frame` (1366-1380): result, and the frame handed to
`send_auth_frame` (whose outcome is `sendOk`). -/
def kick (s : Sess) (rs ms : List Bytes) (sendOk : Bool) : Sess × Bool × Option Bytes :=
  if s.st ≠ .idle then (s, false, none)
  else
    match generateCommit s.c rs ms with
    | (c, false) => ({ s with c := c }, false, none)
    | (c, true) =>
      match serializeCommit c 200 with
      | none => ({ s with c := c }, false, none)
      | some body =>
        let f := authHdr 1 (commitStatus s.h2e) ++ body
        if sendOk then ({ s with c := c, st := .commitSent }, true, some f)
        else ({ s with c := c }, false, some f)

/-- The commit branch of `wolfip_supplicant_rx_auth_frame`
(supplicant.c:1484-1501).  After a failed derivation the context is not used
any more; its two changed length fields are not recorded. -/
def rxCommit (h : Prims) (s : Sess) (body : Bytes) (sendOk : Bool) : Sess × Bool × Option Bytes :=
  match parsePeerCommit s.c body with
  | (c, false) => ({ s with c := c, st := .failed }, false, none)
  | (c, true) =>
    match deriveKeys h c with
    | none => ({ s with c := c, st := .failed }, false, none)
    | some c =>
      match computeConfirm h c 1 64 with
      | none => ({ s with c := c, st := .failed }, false, none)
      | some mac =>
        let f := authHdr 2 0 ++ le16 1 ++ mac
        if sendOk then ({ s with c := c, st := .confirmSent }, true, some f)
        else ({ s with c := c, st := .failed }, false, some f)

/-- `wolfip_supplicant_rx_auth_frame` (supplicant.c:1460-1524). -/
def rxAuth (h : Prims) (s : Sess) (f : Bytes) (sendOk : Bool) : Sess × Bool × Option Bytes :=
  if f.length < 6 then (s, false, none)
  else if rdLe f 0 ≠ 3 then (s, false, none)
  else if rdLe f 4 ≠ (if rdLe f 2 = 1 then commitStatus s.h2e else 0) then
    ({ s with st := .failed }, false, none)
  else if rdLe f 2 = 1 then
    if s.st ≠ .commitSent then (s, false, none) else rxCommit h s (f.drop 6) sendOk
  else if rdLe f 2 = 2 then
    if s.st ≠ .confirmSent then (s, false, none)
    else if f.length < 8 + s.c.kckLen then (s, false, none)
    else if verifyConfirm h s.c (rdLe f 6) (f.drop 8) then
      ({ s with pmk := s.c.pmk, st := .m1Wait }, true, none)
    else ({ s with st := .failed }, false, none)
  else (s, false, none)

section
variable {g : Grp} {cv : Curve} [Fact cv.p.Prime]

/-- Both ends initialise to the same password element. -/
theorem init_same {h : Prims} (hh : h.Good) (hs : Setup g cv) {h2e : Bool}
    (hnp : h2e = false → HuntOk g cv) {z : Nat} (hh2e : h2e = true → H2eOk g cv z)
    {pw ssid m1 m2 : Bytes} (hlen : m1.length = m2.length)
    {rng rng' : Nat → Option (Nat × UInt8)}
    (hr : ∀ k, 1 ≤ k → k ≤ 40 → ∃ r bit, rng k = some (r, bit) ∧ r % cv.p ≠ 0)
    (hr' : ∀ k, 1 ≤ k → k ≤ 40 → ∃ r bit, rng' k = some (r, bit) ∧ r % cv.p ≠ 0)
    {c d : Ctx} (hc : suppInit h g cv h2e pw ssid m1 m2 rng = some c)
    (hd : suppInit h g cv h2e pw ssid m2 m1 rng' = some d) :
    ∃ A, HasPwe g cv c A ∧ HasPwe g cv d A ∧ c.h2e = h2e ∧ d.h2e = h2e ∧
      c.haveCommit = false ∧ d.haveCommit = false := by
  unfold suppInit at hc hd
  cases h2e with
  | true =>
    simp only [if_true] at hc hd
    rw [Option.bind_eq_some_iff] at hc hd
    obtain ⟨e, he, hc⟩ := hc
    obtain ⟨e', he', hd⟩ := hd
    rw [he] at he'
    have := Option.some.inj he'
    subst this
    obtain ⟨c1, e1, rfl⟩ := Option.map_eq_some_iff.1 hc
    obtain ⟨d1, e2, rfl⟩ := Option.map_eq_some_iff.1 hd
    have hpl : pw.length ≤ 128 := by
      unfold computePt at he
      dsimp only at he
      split at he
      · cases he
      · rename_i hn; simp at hn; omega
    obtain ⟨P, _, hz, hnz⟩ := pt_computed (h := h) hs (hh2e rfl) (c := ctxInit g cv) rfl rfl
      (pw := pw) (id := none) (ssid := ssid) (by simpa using hpl)
    have hP0 : P ≠ 0 := by
      intro k; rw [hz k] at he; cases he
    obtain ⟨x, y, rP, hrun⟩ := hnz hP0
    rw [he] at hrun
    have := Option.some.inj hrun
    subst this
    obtain ⟨x1, y1, r1, p1⟩ := h2e_pwe_computed (h := h) hs
      (c := { ctxInit g cv with ptX := x, ptY := y, havePt := true }) rfl rfl rfl rP hP0 m1 m2
    obtain ⟨x2, y2, r2, p2⟩ := h2e_pwe_computed (h := h) hs
      (c := { ctxInit g cv with ptX := x, ptY := y, havePt := true }) rfl rfl rfl rP hP0 m2 m1
    rw [e1] at r1
    rw [e2] at r2
    have q1 := Option.some.inj r1
    have q2 := Option.some.inj r2
    subst q1
    subst q2
    rw [h2eVal_comm h hlen.symm] at p2
    exact ⟨_, ⟨p1.grp, p1.crv, p1.pwe, p1.rep, p1.ne⟩, ⟨p2.grp, p2.crv, p2.pwe, p2.rep, p2.ne⟩,
      rfl, rfl, rfl, rfl⟩
  | false =>
    simp only [Bool.false_eq_true, if_false] at hc hd
    have ho := hnp rfl
    have hpw : PwOk pw := by
      unfold computePweHnp at hc
      split at hc
      · cases hc
      · rename_i hn; exact ⟨by omega, by omega⟩
    obtain ⟨s1, n1⟩ := hnp_computes_pwe hh hs ho (c := ctxInit g cv) rfl rfl hpw m1 m2 hr
    have hsym := hnp_symmetric hh hs ho (c := ctxInit g cv) (d := ctxInit g cv) rfl rfl rfl rfl hpw
      hlen hr hr'
    by_cases hv : ∃ k, 1 ≤ k ∧ k ≤ 40 ∧ ValidAt h cv g.primeLen (macConcat m1 m2) pw k
    · obtain ⟨x, y, e1, i1⟩ := s1 hv
      obtain ⟨s2, _⟩ := hnp_computes_pwe hh hs ho (c := ctxInit g cv) rfl rfl hpw m2 m1 hr'
      rw [macConcat_comm hlen.symm] at s2
      obtain ⟨x', y', e2, i2⟩ := s2 hv
      obtain ⟨rfl, rfl⟩ := isPwe_unique hs i1 i2
      rw [hc] at e1
      rw [hd] at e2
      have q1 := Option.some.inj e1
      have q2 := Option.some.inj e2
      subst q1
      subst q2
      obtain ⟨A, hA⟩ := hnp_hasPwe hs (c := ctxInit g cv) rfl rfl i1
      exact ⟨A, hA, hA, rfl, rfl, rfl, rfl⟩
    · rw [n1 (fun k a b e => hv ⟨k, a, b, e⟩)] at hc
      cases hc

/-! ## Frames -/

theorem rdLe_hdr (seq status : Nat) (rest : Bytes) (h1 : seq < 65536) (h2 : status < 65536) :
    rdLe (authHdr seq status ++ rest) 0 = 3 ∧ rdLe (authHdr seq status ++ rest) 2 = seq ∧
    rdLe (authHdr seq status ++ rest) 4 = status ∧ (authHdr seq status ++ rest).drop 6 = rest ∧
    6 ≤ (authHdr seq status ++ rest).length := by
  refine ⟨by simp [rdLe, authHdr, le16], ?_, ?_, by simp [authHdr, le16], by simp [authHdr, le16]⟩
  · simp [rdLe, authHdr, le16]; omega
  · simp [rdLe, authHdr, le16]; omega

theorem kick_some {s s1 : Sess} {rs ms : List Bytes} {ok : Bool} {f : Option Bytes}
    (hk : kick s rs ms ok = (s1, true, f)) :
    s.st = .idle ∧ ∃ c body, generateCommit s.c rs ms = (c, true) ∧
      serializeCommit c 200 = some body ∧ s1 = { s with c := c, st := .commitSent } ∧
      f = some (authHdr 1 (commitStatus s.h2e) ++ body) := by
  unfold kick at hk
  split at hk
  · cases (Prod.mk.inj (Prod.mk.inj hk).2).1
  · rename_i hst
    refine ⟨by simpa using hst, ?_⟩
    split at hk
    · cases (Prod.mk.inj (Prod.mk.inj hk).2).1
    · rename_i c hc
      split at hk
      · cases (Prod.mk.inj (Prod.mk.inj hk).2).1
      · rename_i body hb
        dsimp only at hk
        split at hk
        · obtain ⟨a, b⟩ := Prod.mk.inj hk
          exact ⟨c, body, hc, hb, a.symm, (Prod.mk.inj b).2.symm⟩
        · cases (Prod.mk.inj (Prod.mk.inj hk).2).1

theorem rx_commit_eq {h : Prims} {s : Sess} (hst : s.st = .commitSent) (body : Bytes) (ok : Bool) :
    rxAuth h s (authHdr 1 (commitStatus s.h2e) ++ body) ok = rxCommit h s body ok := by
  have hstat : commitStatus s.h2e < 65536 := by unfold commitStatus; split <;> omega
  obtain ⟨a, b, c, d, e⟩ := rdLe_hdr 1 (commitStatus s.h2e) body (by omega) hstat
  unfold rxAuth
  rw [a, b, c, d, if_neg (by omega), if_neg (by simp), if_neg (by simp), if_pos rfl,
    if_neg (by rw [hst]; simp)]

theorem rx_confirm_eq {h : Prims} {s : Sess} (hst : s.st = .confirmSent) {mac : Bytes}
    (hv : verifyConfirm h s.c 1 mac = true) (ok : Bool) :
    rxAuth h s (authHdr 2 0 ++ le16 1 ++ mac) ok =
      ({ s with pmk := s.c.pmk, st := .m1Wait }, true, none) := by
  rw [List.append_assoc]
  obtain ⟨a, b, c, d, e⟩ := rdLe_hdr 2 0 (le16 1 ++ mac) (by omega) (by omega)
  have hl : mac.length = s.c.kckLen := by
    unfold verifyConfirm at hv
    split at hv
    · cases hv
    · split at hv
      · cases hv
      · rename_i hn; simpa using hn
  have h6 : rdLe (authHdr 2 0 ++ (le16 1 ++ mac)) 6 = 1 := by simp [rdLe, authHdr, le16]
  have h8 : (authHdr 2 0 ++ (le16 1 ++ mac)).drop 8 = mac := by simp [authHdr, le16]
  unfold rxAuth
  rw [a, b, c, h6, h8, if_neg (by omega), if_neg (by simp), if_neg (by simp), if_neg (by simp),
    if_pos rfl, if_neg (by rw [hst]; simp), if_neg (by simp [authHdr, le16, hl]; omega),
    if_pos hv]

/-- C93.  **Two supplicants with the same password complete the exchange with
the same master key.**  Two sessions of the same group and mode, initialised
with the same passphrase and network name and with each other's addresses
(whatever randomness either uses), and kicked: unless the two commit frames
happen to be identical, each accepts the other's commit frame and answers with
a confirm frame, each accepts that confirm frame, and both then wait for the
4-way handshake with the same 32-octet master key. -/
theorem sae_sessions_agree {h : Prims} (hh : h.Good) (hs : Setup g cv) (hpl : g.primeLen ≤ 66)
    {h2e : Bool} (hnp : h2e = false → HuntOk g cv) {z : Nat} (hh2e : h2e = true → H2eOk g cv z)
    {pw ssid m1 m2 : Bytes} (hlen : m1.length = m2.length)
    {rng rng' : Nat → Option (Nat × UInt8)}
    (hr : ∀ k, 1 ≤ k → k ≤ 40 → ∃ r bit, rng k = some (r, bit) ∧ r % cv.p ≠ 0)
    (hr' : ∀ k, 1 ≤ k → k ≤ 40 → ∃ r bit, rng' k = some (r, bit) ∧ r % cv.p ≠ 0)
    {c d : Ctx} (hc : suppInit h g cv h2e pw ssid m1 m2 rng = some c)
    (hd : suppInit h g cv h2e pw ssid m2 m1 rng' = some d)
    {rs ms rs' ms' : List Bytes} {pc pd : Bytes} {s1 t1 : Sess} {ok ok' : Bool} {f f' : Bytes}
    (ks : kick ⟨.idle, h2e, c, pc⟩ rs ms ok = (s1, true, some f))
    (kt : kick ⟨.idle, h2e, d, pd⟩ rs' ms' ok' = (t1, true, some f'))
    (hne : f ≠ f') :
    ∃ s2 t2 s3 t3 q q',
      rxAuth h s1 f' true = (s2, true, some q) ∧ rxAuth h t1 f true = (t2, true, some q') ∧
      (∀ b, rxAuth h s2 q' b = (s3, true, none)) ∧ (∀ b, rxAuth h t2 q b = (t3, true, none)) ∧
      s3.st = .m1Wait ∧ t3.st = .m1Wait ∧ s3.pmk = t3.pmk ∧ s3.pmk.length = 32 := by
  obtain ⟨A, hA, hB, hm1, hm2, _, _⟩ := init_same hh hs hnp hh2e hlen hr hr' hc hd
  obtain ⟨_, c1, b1, gc, sc, es, ef⟩ := kick_some ks
  obtain ⟨_, d1, b2, gd, sd, et, ef'⟩ := kick_some kt
  dsimp only at gc gd es et ef ef'
  have ef := Option.some.inj ef
  have ef' := Option.some.inj ef'
  subst es et ef ef'
  obtain ⟨mc, md, a1, a2, a3⟩ := sae_agreement hh hs hA hB (by rw [hm1, hm2]) gc gd
    (cap := 200) (by omega)
  rw [sc] at a1
  rw [sd] at a2
  have a1 := Option.some.inj a1
  have a2 := Option.some.inj a2
  subst a1 a2
  obtain ⟨c2, d2, c3, d3, p1, p2, k1, k2, e1, e2, e3, e4, v1, v2⟩ :=
    a3 (fun e => hne (by rw [e])) [] []
  rw [List.append_nil] at p1 p2
  obtain ⟨mac, w1, w2⟩ := v1 1
  obtain ⟨mac', w3, w4⟩ := v2 1
  refine ⟨⟨.confirmSent, h2e, c3, pc⟩, ⟨.confirmSent, h2e, d3, pd⟩,
    ⟨.m1Wait, h2e, c3, c3.pmk⟩, ⟨.m1Wait, h2e, d3, d3.pmk⟩,
    authHdr 2 0 ++ le16 1 ++ mac, authHdr 2 0 ++ le16 1 ++ mac',
    ?_, ?_, ?_, ?_, rfl, rfl, e2, e4⟩
  · rw [rx_commit_eq (s := ⟨.commitSent, h2e, c1, pc⟩) rfl]
    unfold rxCommit
    dsimp only
    rw [p1]
    dsimp only
    rw [k1]
    dsimp only
    rw [w1]
    rfl
  · rw [rx_commit_eq (s := ⟨.commitSent, h2e, d1, pd⟩) rfl]
    unfold rxCommit
    dsimp only
    rw [p2]
    dsimp only
    rw [k2]
    dsimp only
    rw [w3]
    rfl
  · intro b
    exact rx_confirm_eq (s := ⟨.confirmSent, h2e, c3, pc⟩) rfl w4 b
  · intro b
    exact rx_confirm_eq (s := ⟨.confirmSent, h2e, d3, pd⟩) rfl w2 b

end

/-! ## Nothing but a verified confirm hands a key to the 4-way handshake -/

/-- A session fed with frames (and the outcome of the send callback). -/
def feed (h : Prims) (s : Sess) (fs : List (Bytes × Bool)) : Sess :=
  fs.foldl (fun s e => (rxAuth h s e.1 e.2).1) s

/-- `f` is a commit frame whose body `c` accepts and from which it derives `d`. -/
def CommitFrame (h : Prims) (h2e : Bool) (c : Ctx) (f : Bytes) (d : Ctx) : Prop :=
  rdLe f 0 = 3 ∧ rdLe f 2 = 1 ∧ rdLe f 4 = commitStatus h2e ∧ Acceptable c (f.drop 6) ∧
  deriveKeys h { c with
    peerScalar := commitScalar c.grp.primeLen (f.drop 6)
    peerElem := affine (commitX c.grp.primeLen (f.drop 6)) (commitY c.grp.primeLen (f.drop 6)) }
    = some d

/-- `f` is a confirm frame with the HMAC of the peer's view under `d`'s key. -/
def ConfirmFrame (h : Prims) (d : Ctx) (f : Bytes) : Prop :=
  rdLe f 0 = 3 ∧ rdLe f 2 = 2 ∧ rdLe f 4 = 0 ∧
  f.drop 8 = h.hmac d.macHash d.kck (peerTranscript d (rdLe f 6))

theorem rxCommit_state {h : Prims} {s : Sess} {body : Bytes} {b : Bool}
    (hst : (rxCommit h s body b).1.st ≠ .failed) (hp : 0 < s.c.cv.p) :
    (rxCommit h s body b).1.st = .confirmSent ∧ (rxCommit h s body b).1.h2e = s.h2e ∧
    Acceptable s.c body ∧
    deriveKeys h { s.c with
      peerScalar := commitScalar s.c.grp.primeLen body
      peerElem := affine (commitX s.c.grp.primeLen body) (commitY s.c.grp.primeLen body) }
      = some (rxCommit h s body b).1.c := by
  have hex := parse_exact s.c body hp
  generalize hr : rxCommit h s body b = r at hst ⊢
  unfold rxCommit at hr
  split at hr
  · subst hr; exact absurd rfl hst
  · rename_i c hc
    rw [hc] at hex
    have hacc := hex.1.1 rfl
    have hcc := hex.2 rfl
    dsimp only at hcc
    split at hr
    · subst hr; exact absurd rfl hst
    · rename_i c' hc'
      split at hr
      · subst hr; exact absurd rfl hst
      · dsimp only at hr
        split at hr
        · subst hr
          refine ⟨rfl, rfl, hacc, ?_⟩
          rw [← hcc]; exact hc'
        · subst hr; exact absurd rfl hst

/-- C94.  **A key reaches the 4-way handshake only through a verified
confirm.**  Take a session that has just sent its commit and feed it any frames
whatsoever.  If it ever waits for the 4-way handshake, then among the frames
there is a commit that meets the standard's conditions, and later a confirm
whose tag is the HMAC, under the confirmation key derived from that commit, of
the transcript with the peer's numbers first; and the master key is the one
derived with that confirmation key. -/
theorem sae_key_needs_confirm {h : Prims} (hh : h.Good) {s : Sess} (hst : s.st = .commitSent)
    (hp : 0 < s.c.cv.p) (hk : HashOk s.c.grp) (fs : List (Bytes × Bool))
    (hm : (feed h s fs).st = .m1Wait) :
    ∃ pre mid post f1 f2 d, fs = pre ++ [f1] ++ mid ++ [f2] ++ post ∧
      CommitFrame h s.h2e s.c f1.1 d ∧ ConfirmFrame h d f2.1 ∧ (feed h s fs).pmk = d.pmk := by
  have key : ∀ fs : List (Bytes × Bool), (feed h s fs).h2e = s.h2e ∧
      ((feed h s fs).st = .idle → False) ∧
      ((feed h s fs).st = .commitSent → (feed h s fs).c = s.c) ∧
      ((feed h s fs).st = .confirmSent → ∃ pre mid f1, fs = pre ++ [f1] ++ mid ∧
        CommitFrame h s.h2e s.c f1.1 (feed h s fs).c) ∧
      ((feed h s fs).st = .m1Wait → ∃ pre mid post f1 f2 d,
        fs = pre ++ [f1] ++ mid ++ [f2] ++ post ∧ CommitFrame h s.h2e s.c f1.1 d ∧
        ConfirmFrame h d f2.1 ∧ (feed h s fs).pmk = d.pmk) := by
    intro fs
    induction fs using List.reverseRecOn with
    | nil =>
      refine ⟨rfl, ?_, fun _ => rfl, ?_, ?_⟩ <;> intro c <;>
        (change s.st = _ at c; rw [hst] at c; cases c)
    | append_singleton l e ih =>
      have hf : feed h s (l ++ [e]) = (rxAuth h (feed h s l) e.1 e.2).1 := by
        simp [feed, List.foldl_append]
      rw [hf]
      generalize feed h s l = t at ih
      obtain ⟨i0, i1, i2, i3, i4⟩ := ih
      have same : ∀ t', t' = t → t'.h2e = s.h2e ∧ (t'.st = .idle → False) ∧
          (t'.st = .commitSent → t'.c = s.c) ∧
          (t'.st = .confirmSent → ∃ pre mid f1, l ++ [e] = pre ++ [f1] ++ mid ∧
            CommitFrame h s.h2e s.c f1.1 t'.c) ∧
          (t'.st = .m1Wait → ∃ pre mid post f1 f2 d,
            l ++ [e] = pre ++ [f1] ++ mid ++ [f2] ++ post ∧ CommitFrame h s.h2e s.c f1.1 d ∧
            ConfirmFrame h d f2.1 ∧ t'.pmk = d.pmk) := by
        rintro t' rfl
        refine ⟨i0, i1, i2, fun k => ?_, fun k => ?_⟩
        · obtain ⟨pre, mid, f1, a, b⟩ := i3 k
          exact ⟨pre, mid ++ [e], f1, by rw [a]; simp, b⟩
        · obtain ⟨pre, mid, post, f1, f2, d, a, b⟩ := i4 k
          exact ⟨pre, mid, post ++ [e], f1, f2, d, by rw [a]; simp, b⟩
      have dead : ∀ t' : Sess, t'.st = .failed → t'.h2e = t.h2e → t'.h2e = s.h2e ∧
          (t'.st = .idle → False) ∧
          (t'.st = .commitSent → t'.c = s.c) ∧
          (t'.st = .confirmSent → ∃ pre mid f1, l ++ [e] = pre ++ [f1] ++ mid ∧
            CommitFrame h s.h2e s.c f1.1 t'.c) ∧
          (t'.st = .m1Wait → ∃ pre mid post f1 f2 d,
            l ++ [e] = pre ++ [f1] ++ mid ++ [f2] ++ post ∧ CommitFrame h s.h2e s.c f1.1 d ∧
            ConfirmFrame h d f2.1 ∧ t'.pmk = d.pmk) := by
        intro t' hf' h2
        refine ⟨by rw [h2, i0], ?_, ?_, ?_, ?_⟩ <;> intro k <;> rw [hf'] at k <;> cases k
      generalize hr : rxAuth h t e.1 e.2 = r
      unfold rxAuth at hr
      split at hr
      · exact same _ (by rw [← hr])
      split at hr
      · exact same _ (by rw [← hr])
      rename_i hlen halg
      by_cases hstat : rdLe e.1 4 ≠ (if rdLe e.1 2 = 1 then commitStatus t.h2e else 0)
      · rw [if_pos hstat] at hr
        exact dead _ (by rw [← hr]) (by rw [← hr])
      rw [if_neg hstat] at hr
      split at hr
      · rename_i hseq
        split at hr
        · exact same _ (by rw [← hr])
        rename_i hcs
        have hcs : t.st = .commitSent := by simpa using hcs
        have htc := i2 hcs
        rw [if_pos hseq] at hstat
        subst hr
        by_cases hfail : (rxCommit h t (e.1.drop 6) e.2).1.st = .failed
        · have h2 : (rxCommit h t (e.1.drop 6) e.2).1.h2e = t.h2e := by
            unfold rxCommit
            split
            · rfl
            · split
              · rfl
              · split
                · rfl
                · dsimp only; split <;> rfl
          exact dead _ hfail h2
        · obtain ⟨r1, r2, r3, r4⟩ := rxCommit_state hfail (by rw [htc]; exact hp)
          rw [htc] at r3 r4
          refine ⟨by rw [r2, i0], ?_, ?_, ?_, ?_⟩ <;> intro k <;> rw [r1] at k
          · cases k
          · cases k
          · exact ⟨l, [], e, by simp, Classical.not_not.1 halg, hseq,
              by rw [← i0]; exact Classical.not_not.1 hstat, r3, r4⟩
          · cases k
      · rename_i hseq
        split at hr
        · rename_i hseq2
          split at hr
          · exact same _ (by rw [← hr])
          rename_i hcs
          have hcs : t.st = .confirmSent := by simpa using hcs
          split at hr
          · exact same _ (by rw [← hr])
          split at hr
          · rename_i hv
            subst hr
            rw [if_neg hseq] at hstat
            obtain ⟨pre, mid, f1, a, b⟩ := i3 hcs
            refine ⟨i0, ?_, ?_, ?_, ?_⟩
            · intro k; cases k
            · intro k; cases k
            · intro k; cases k
            · intro _
              refine ⟨pre, mid, [], f1, e, t.c, by rw [a]; simp, b,
                ⟨Classical.not_not.1 halg, hseq2, Classical.not_not.1 hstat, ?_⟩, rfl⟩
              obtain ⟨b1, b2, b3, b4, b5⟩ := b
              obtain ⟨_, _, _, _, _, _, kl, kz, _, kk, _⟩ := derive_keep hh (by exact hk) b5
              have hfit := fits_of_verify hv
              have hx := ((verify_exact hh hfit (by omega) (by omega) _ _).1 hv).2
              rw [hx, List.take_of_length_le (l := t.c.kck) (by omega),
                List.take_of_length_le (by rw [hh.hmac_len _ _ _ (by omega)]; omega)]
          · exact dead _ (by rw [← hr]) (by rw [← hr])
        · exact same _ (by rw [← hr])
  exact (key fs).2.2.2.2 hm

end Wolf.Sae
