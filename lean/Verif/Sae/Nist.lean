import Verif.Sae.P256
import Verif.Sae.P384

/-!
# The SAE theorems for the groups of the table

`wcCurve` is what `wc_ecc_get_curve_params` gives `sae_ctx_init` for the groups
19 and 20.  With the certificates of the two curves the hypotheses on the curve
disappear from the statements.
-/

namespace Wolf.Sae

/-- The parameters `sae_ctx_init` copies (sae_crypto.c:196-199) for a group. -/
def wcCurve (id : Nat) : Option Curve :=
  if id = 19 then some cv256 else if id = 20 then some cv384 else none

/-- Every curve the code can select satisfies the hypotheses. -/
theorem nist_ok {id : Nat} {g : Grp} {cv : Curve} (hc : wcCurve id = some cv)
    (hg : saeGroup id = some g) : ∃ u v z t w n, CurveOk g cv u v z t w n := by
  unfold wcCurve at hc
  split at hc
  · rename_i e
    subst e
    have := Option.some.inj hc
    subst this
    exact ⟨_, _, _, _, _, _, ok256 hg⟩
  split at hc
  · rename_i e
    subst e
    have := Option.some.inj hc
    subst this
    exact ⟨_, _, _, _, _, _, ok384 hg⟩
  · cases hc

/-- C93 for the real groups: no hypothesis on the curve is left. -/
theorem sae_sessions_agree_nist {id : Nat} {g : Grp} {cv : Curve} (hcv : wcCurve id = some cv)
    (hg : saeGroup id = some g) {h : Prims} (hh : h.Good) {h2e : Bool}
    {pw ssid m1 m2 : Bytes} (hlen : m1.length = m2.length)
    {rng rng' : Nat → Option (Nat × UInt8)}
    (hr : ∀ k, 1 ≤ k → k ≤ 40 → ∃ r bit, rng k = some (r, bit) ∧ r % cv.p ≠ 0)
    (hr' : ∀ k, 1 ≤ k → k ≤ 40 → ∃ r bit, rng' k = some (r, bit) ∧ r % cv.p ≠ 0)
    {c d : Ctx} (hc : suppInit h g cv h2e pw ssid m1 m2 rng = some c)
    (hd : suppInit h g cv h2e pw ssid m2 m1 rng' = some d)
    {rs ms rs' ms' : List Bytes} {pc pd : Bytes} {s1 t1 : Sess} {ok ok' : Bool} {f f' : Bytes}
    (ks : kick ⟨.idle, h2e, c, pc⟩ rs ms ok = (s1, true, some f))
    (kt : kick ⟨.idle, h2e, d, pd⟩ rs' ms' ok' = (t1, true, some f'))
    (hne : f ≠ f') :
    ∃ s2 t2 s3 t3 q q',
      rxAuth h s1 f' true = (s2, true, some q) ∧ rxAuth h t1 f true = (t2, true, some q') ∧
      (∀ b, rxAuth h s2 q' b = (s3, true, none)) ∧ (∀ b, rxAuth h t2 q b = (t3, true, none)) ∧
      s3.st = .m1Wait ∧ t3.st = .m1Wait ∧ s3.pmk = t3.pmk ∧ s3.pmk.length = 32 := by
  obtain ⟨u, v, z, t, w, n, k⟩ := nist_ok hcv hg
  haveI : Fact cv.p.Prime := ⟨k.pp⟩
  exact sae_sessions_agree hh k.setup k.pl (fun _ => k.hunt) (z := z) (fun _ => k.h2e) hlen
    hr hr' hc hd ks kt hne

/-- C95 for the real groups: hunting and pecking computes the standard's
password element, or finds none exactly when the 40 counters give none. -/
theorem hnp_computes_pwe_nist {id : Nat} {g : Grp} {cv : Curve} (hcv : wcCurve id = some cv)
    (hg : saeGroup id = some g) {h : Prims} (hh : h.Good) {pw : Bytes} (hpw : PwOk pw)
    (macA macB : Bytes) {rng : Nat → Option (Nat × UInt8)}
    (hr : ∀ k, 1 ≤ k → k ≤ 40 → ∃ r bit, rng k = some (r, bit) ∧ r % cv.p ≠ 0) :
    ((∃ k, 1 ≤ k ∧ k ≤ 40 ∧ ValidAt h cv g.primeLen (macConcat macA macB) pw k) →
      ∃ x y, computePweHnp h (ctxInit g cv) pw macA macB rng =
          some { ctxInit g cv with pweX := x, pweY := y, havePwe := true } ∧
        IsPwe h cv g.primeLen (macConcat macA macB) pw x y) ∧
    ((∀ k, 1 ≤ k → k ≤ 40 → ¬ ValidAt h cv g.primeLen (macConcat macA macB) pw k) →
      computePweHnp h (ctxInit g cv) pw macA macB rng = none) := by
  obtain ⟨u, v, z, t, w, n, k⟩ := nist_ok hcv hg
  haveI : Fact cv.p.Prime := ⟨k.pp⟩
  exact hnp_computes_pwe hh k.setup k.hunt rfl rfl hpw macA macB hr

/-- C96 for the real groups: the secret element is the sum of the two SWU
images of RFC 9380, and `sae_compute_pt` fails only if that sum is the
identity. -/
theorem pt_computed_nist {id : Nat} {g : Grp} {cv : Curve} [Fact cv.p.Prime]
    (hcv : wcCurve id = some cv) (hg : saeGroup id = some g) {h : Prims} {pw : Bytes}
    {pwid : Option Bytes} {ssid : Bytes} (hlen : pw.length + (pwid.getD []).length ≤ 128) :
    ∃ z A, sswuZ id cv.p = some z ∧ IsPt h g cv z pw (pwid.getD []) ssid A ∧
      (A = 0 → computePt h (ctxInit g cv) pw pwid ssid = none) ∧
      (A ≠ 0 → ∃ x y, Rep (affine x y) A ∧ computePt h (ctxInit g cv) pw pwid ssid =
        some { ctxInit g cv with ptX := x, ptY := y, havePt := true }) := by
  obtain ⟨u, v, z, t, w, n, k⟩ := nist_ok hcv hg
  obtain ⟨A, h1, h2, h3⟩ := pt_computed (h := h) k.setup k.h2e (c := ctxInit g cv) rfl rfl
    (pw := pw) (id := pwid) (ssid := ssid) hlen
  refine ⟨z, A, ?_, h1, h2, h3⟩
  have e : g.groupId = id := by
    have := List.find?_some hg
    simpa using this
  rw [← e]
  exact k.zgrp

/-- The groups the statements range over are there. -/
example : (wcCurve 19).isSome ∧ (saeGroup 19).isSome ∧ (wcCurve 20).isSome ∧ (saeGroup 20).isSome :=
  ⟨rfl, rfl, rfl, rfl⟩

end Wolf.Sae
