import Verif.Supp.Life

/-!
# The PMKSA cache (C69)

Where a cached or reconnected PMK comes from, and that a PSK session uses the PMK of its own
passphrase and SSID.
-/

namespace Wolf.Supp

theorem blame_pmk (s : S) (x : Fault) : (s.blame x).pmk = s.pmk := by cases x <;> rfl

theorem failIf_pmk (r : S × Bool × List Ev) : (failIf r).1.pmk = r.1.pmk := by
  unfold failIf; split <;> rfl

theorem rxEap_pmk (s : S) (f : Bytes) (e : Env) (hm : s.mode = .psk) :
    (rxEap s f e).1.pmk = s.pmk := by
  unfold rxEap
  split
  · exact blame_pmk s _
  · split
    · rfl
    · split
      · exact blame_pmk s _
      · split
        · rw [failIf_pmk]
          unfold eapRequest
          (repeat' split) <;> rfl
        · split
          · rw [failIf_pmk]
            unfold eapSuccess
            rw [if_pos (by rw [hm]; intro c; rcases c with c | c <;> cases c)]
          · split <;> rfl

theorem rx_pmk (C : Crypto) (s : S) (f : Bytes) (now : Nat) (e : Env) (hm : s.mode = .psk) :
    (rx C s f now e).1.pmk = s.pmk := by
  unfold rx
  split
  · rfl
  · split
    · exact blame_pmk s _
    · split
      · exact rxEap_pmk s f e hm
      · split
        · rfl
        · unfold rxKey
          split
          · exact blame_pmk s _
          · split
            · rfl
            · split
              · rfl
              · split
                · exact blame_pmk s _
                unfold dispatch
                split
                · rw [failIf_pmk]
                  unfold handleM1
                  split
                  · rfl
                  · dsimp only
                    split
                    · rfl
                    · split
                      · rfl
                      · split <;> rfl
                · split
                  · next t es hm =>
                    unfold m1Again at hm
                    split at hm
                    · cases hm
                    · split at hm
                      · split at hm <;> (cases hm; rfl)
                      · cases hm; rfl
                  · rw [failIf_pmk]
                    unfold handleM3
                    split
                    · rfl
                    · split
                      · rfl
                      · split
                        · rfl
                        · split
                          · rfl
                          · split
                            · exact blame_pmk s _
                            · dsimp only
                              split
                              · rfl
                              · split <;> rfl
                · split
                  · unfold handleGroup
                    split
                    · rfl
                    · split
                      · rfl
                      · split
                        · rfl
                        · split
                          · exact blame_pmk s _
                          · split <;> rfl
                  · rfl
                all_goals rfl

theorem kick_pmk (s : S) (now : Nat) (e : Env) : (kick s now e).1.pmk = s.pmk := by
  unfold kick
  split
  · rfl
  · dsimp only
    split
    · split <;> rfl
    · split <;> rfl
    · split
      · rfl
      · split <;> rfl
    · rfl

theorem tick_pmk (C : Crypto) (s : S) (now : Nat) (e : Env) : (tick C s now e).1.pmk = s.pmk := by
  unfold tick
  split
  · rfl
  · split
    · rfl
    · split
      · rfl
      · split
        · rfl
        · split
          · rfl
          · dsimp only
            split <;> rfl

theorem rxAuth_pmk (s : S) (f : Bytes) (e : Env) (hm : s.mode = .psk) : (rxAuth s f e).1 = s := by
  unfold rxAuth
  split
  · rfl
  · rw [if_pos (by rw [hm]; intro c; cases c)]

theorem installPmk_pmk (s : S) (k : Bytes) (hm : s.mode = .psk) : (installPmk s k).1 = s := by
  unfold installPmk
  split
  · rfl
  · rw [if_pos (by rw [hm]; intro c; cases c)]

/-- No call but `init`, `deinit` and `reconnect` changes the PMK of a PSK session. -/
theorem step_pmk (C : Crypto) (s : S) (o : Op) (hm : s.mode = .psk) (ho : o.restarts = false) :
    (step C s o).1.pmk = s.pmk := by
  cases o with
  | init c e => cases ho
  | deinit => cases ho
  | kick now e => exact kick_pmk s now e
  | rx f now e => exact rx_pmk C s f now e hm
  | rxAuth f e =>
    show (rxAuth s f e).1.pmk = _
    rw [rxAuth_pmk s f e hm]
  | tick now e => exact tick_pmk C s now e
  | installPmk k =>
    show (installPmk s k).1.pmk = _
    rw [installPmk_pmk s k hm]
  | clear => rfl
  | reconnect => cases ho

/-- The identity of the association. -/
structure SameId (s t : S) : Prop where
  ssid : t.ssid = s.ssid
  apMac : t.apMac = s.apMac
  mode : t.mode = s.mode
  pp : t.havePpHash = s.havePpHash ∧ t.ppHash = s.ppHash

/-- A completed 4-way handshake. -/
def Completes (s t : S) : Prop := s.st = .m3Wait ∧ t.st = .auth

/-- What a call that is not a restart does to the association's identity and to the cache. -/
theorem step_cache (C : Crypto) (s : S) (o : Op) (ho : o.restarts = false) :
    SameId s (step C s o).1 ∧
    ((step C s o).1.cache = s.cache ∨
     (o = .clear ∧ (step C s o).1.cache.magic = false) ∨
     (Completes s (step C s o).1 ∧ (step C s o).1.cache = s.remember.cache)) := by
  have hsame : Same s (step C s o).1 → SameId s (step C s o).1 :=
    fun h => ⟨h.ssid, h.apMac, h.mode, h.pp⟩
  cases step_case C s o with
  | rx f now e _ hr =>
    cases hr with
    | passive hp => exact ⟨hsame hp.same, Or.inl hp.cache⟩
    | m1Fail _ _ hc hr _ => exact ⟨⟨hr.1, hr.2.1, hr.2.2.1, hr.2.2.2.2.1, hr.2.2.2.2.2.1⟩, Or.inl hc⟩
    | m1 h _ =>
      have hr := h.rest
      exact ⟨⟨hr.2.2.2.1, hr.2.2.2.2.1, hr.2.1, hr.2.2.2.2.2.1, hr.2.2.2.2.2.2.1⟩,
        Or.inl hr.2.2.2.2.2.2.2.2.1⟩
    | m3 g hs hg hev hst hr =>
      refine ⟨⟨hr.2.2.2.1, hr.2.2.2.2.1, hr.2.2.1, hr.2.2.2.2.2.2.1, hr.2.2.2.2.2.2.2.1⟩, ?_⟩
      rcases hst with hst | hst
      · exact Or.inr (Or.inr ⟨⟨hs, hst.1⟩, hst.2.2.2.1⟩)
      · exact Or.inl hst.2
    | group g hs hg hev hst => rw [hst]; exact ⟨⟨rfl, rfl, rfl, rfl, rfl⟩, Or.inl rfl⟩
    | groupFail g hs hg hev hst => rw [hst]; exact ⟨⟨rfl, rfl, rfl, rfl, rfl⟩, Or.inl rfl⟩
  | passive _ hp => exact ⟨hsame hp.same, Or.inl hp.cache⟩
  | clear hc h1 _ _ =>
    refine ⟨hsame h1, Or.inr (Or.inl ⟨hc, ?_⟩)⟩
    rw [hc]; rfl
  | restart h _ _ => rw [ho] at h; cases h

/-! ## A PSK session uses the PMK of its own passphrase -/

/-- `k` is the PMK of some passphrase with this hash, on this network. -/
def PmkOf (C : Crypto) (hash ssid k : Bytes) : Prop :=
  ∃ p, C.hash p = some hash ∧ C.pmk p ssid = some k

/-- Recorded hashes belong to the PMKs they are stored with. -/
structure Bound (C : Crypto) (s : S) : Prop where
  now : s.havePpHash = true → s.mode = .psk ∧ PmkOf C s.ppHash s.ssid s.pmk
  cache : s.cache.magic = true → s.cache.havePp = true →
    PmkOf C s.cache.ppHash s.cache.ssid s.cache.pmk

theorem bound_init (C : Crypto) (s : S) (c : Cfg) (e : Env) (hb : Bound C s) :
    Bound C (init C s c e).1 := by
  unfold init
  split
  · exact hb
  · dsimp only
    have hcache : (restore s.cache c).1.magic = true → (restore s.cache c).1.havePp = true →
        PmkOf C (restore s.cache c).1.ppHash (restore s.cache c).1.ssid (restore s.cache c).1.pmk := by
      unfold restore
      split
      · exact hb.cache
      · intro h; cases h
    have hhit : (restore s.cache c).2 = true →
        (restore s.cache c).1.magic = true ∧ (restore s.cache c).1.ssid = c.ssid := by
      unfold restore
      split
      · next h => intro _; exact h
      · intro h; cases h
    split
    · exact ⟨fun h => (by cases h), fun h => (by cases h)⟩
    · next s2 h =>
      split at h
      · next hm =>
        unfold initPsk at h
        split at h
        · have := Option.some.inj h
          subst this
          exact ⟨fun h => (by cases h), hcache⟩
        · cases h
        · next p _ _ =>
          have key : ∀ s1 : S, s1.cache = (restore s.cache c).1 → s1.ssid = c.ssid →
              s1.mode = .psk → (s1.havePpHash = true → C.hash p = some s1.ppHash) →
              ∀ t, pickPmk C s1 p (restore s.cache c).2 = some t →
              Bound C { t with ownIe := Supp.ownIe c, apIe := theApIe c } := by
            intro s1 h1 h2 h3 h4 t ht
            unfold pickPmk at ht
            split at ht
            · next hc =>
              have := Option.some.inj ht
              subst this
              refine ⟨fun _ => ⟨h3, ?_⟩, ?_⟩
              · show PmkOf C s1.ppHash s1.ssid s1.cache.pmk
                rw [hc.2.2.2, h1, h2, ← (hhit hc.2.1).2]
                exact hcache (hhit hc.2.1).1 (h1 ▸ hc.2.2.1)
              · show s1.cache.magic = true → s1.cache.havePp = true →
                  PmkOf C s1.cache.ppHash s1.cache.ssid s1.cache.pmk
                rw [h1]; exact hcache
            · rw [Option.map_eq_some_iff] at ht
              obtain ⟨k, hk, hkt⟩ := ht
              subst hkt
              refine ⟨fun hp => ⟨h3, p, h4 hp, hk⟩, ?_⟩
              show s1.cache.magic = true → s1.cache.havePp = true →
                  PmkOf C s1.cache.ppHash s1.cache.ssid s1.cache.pmk
              rw [h1]; exact hcache
          unfold hashPass at h
          split at h
          · next hh hhash =>
            exact key { freshCtx c (restore s.cache c).1 with
              fault := s.fault, ppHash := hh, havePpHash := true } rfl rfl hm (fun _ => hhash) s2 h
          · exact key { freshCtx c (restore s.cache c).1 with fault := s.fault } rfl rfl hm
              (fun h => (by cases h)) s2 h
      · unfold initOther at h
        split at h
        · have := Option.some.inj h
          subst this
          exact ⟨fun h => (by cases h), hcache⟩
        · cases h

theorem reconnect_frame (s : S) :
    (reconnect s).1.cache = s.cache ∧ SameId s (reconnect s).1 := by
  unfold reconnect
  split
  · exact ⟨rfl, rfl, rfl, rfl, rfl, rfl⟩
  · split
    · exact ⟨rfl, rfl, rfl, rfl, rfl, rfl⟩
    · split
      · exact ⟨rfl, rfl, rfl, rfl, rfl, rfl⟩
      · next t ht =>
        unfold addPmkid at ht
        split at ht
        · cases ht; exact ⟨rfl, rfl, rfl, rfl, rfl, rfl⟩
        · split at ht
          · cases ht; exact ⟨rfl, rfl, rfl, rfl, rfl, rfl⟩
          · cases ht

theorem bound_step (C : Crypto) (s : S) (o : Op) (hb : Bound C s)
    (hr : o = .reconnect → s.mode ≠ .psk) : Bound C (step C s o).1 := by
  by_cases ho : o.restarts = true
  · cases o with
    | init c e => exact bound_init C s c e hb
    | deinit => exact ⟨fun h => (by cases h), fun h => (by cases h)⟩
    | reconnect =>
      show Bound C (reconnect s).1
      have h := reconnect_frame s
      refine ⟨fun hp => ?_, by rw [h.1]; exact hb.cache⟩
      rw [h.2.pp.1] at hp
      exact absurd (hb.now hp).1 (hr rfl)
    | _ => cases ho
  · have ho' : o.restarts = false := by simpa using ho
    obtain ⟨hid, hc⟩ := step_cache C s o ho'
    refine ⟨fun hp => ?_, ?_⟩
    · rw [hid.pp.1] at hp
      have hn := hb.now hp
      rw [hid.mode, hid.pp.2, hid.ssid, step_pmk C s o hn.1 ho']
      exact hn
    · rcases hc with hc | ⟨_, hc⟩ | ⟨_, hc⟩
      · rw [hc]; exact hb.cache
      · rw [hc]; intro h; cases h
      · rw [hc]
        intro _ hp
        have hp' : s.havePpHash = true := hp
        show PmkOf C (if s.havePpHash then s.ppHash else s.cache.ppHash) s.ssid s.pmk
        rw [if_pos hp']
        exact (hb.now hp').2

/-- No PMKSA reconnect was made by a PSK session. -/
def NoPskReconnect (C : Crypto) (ops : List Op) : Prop :=
  ∀ a b, ops = a ++ Op.reconnect :: b → (run C a).mode ≠ .psk

theorem run_bound (C : Crypto) (ops : List Op) : NoPskReconnect C ops → Bound C (run C ops) := by
  refine snoc_ind (P := fun ops => NoPskReconnect C ops → Bound C (run C ops)) ?_ ?_ ops
  · intro _; exact ⟨fun h => (by cases h), fun h => (by cases h)⟩
  · intro l o ih h
    rw [run_eq, runFrom_snoc]
    refine bound_step C _ o (ih fun a b hab => h a (b ++ [o]) (by rw [hab, List.append_assoc]; rfl)) ?_
    intro hr
    exact h l [] (by rw [hr])

theorem runFrom_psk (C : Crypto) (ops : List Op) : ∀ s : S, s.mode = .psk →
    (∀ o ∈ ops, o.restarts = false) →
    (runFrom C s ops).pmk = s.pmk ∧ (runFrom C s ops).mode = .psk := by
  induction ops with
  | nil => intro s h _; exact ⟨rfl, h⟩
  | cons o r ih =>
    intro s h hr
    have ho := hr o (List.mem_cons_self ..)
    have hm : (step C s o).1.mode = .psk := (step_cache C s o ho).1.mode.trans h
    have := ih (step C s o).1 hm (fun x hx => hr x (List.mem_cons_of_mem _ hx))
    exact ⟨this.1.trans (step_pmk C s o h ho), this.2⟩

/-- The PMK a successful PSK `init` leaves. -/
theorem init_pmk (C : Crypto) (s : S) (c : Cfg) (e : Env) (p : Bytes) (hb : Bound C s)
    (hm : c.mode = .psk) (hk : c.pskPmk = none) (hp : c.pass = some p)
    (hok : (init C s c e).2.1 = true) :
    (init C s c e).1.mode = .psk ∧
    (C.pmk p c.ssid = some (init C s c e).1.pmk ∨
     ∃ h, C.hash p = some h ∧ PmkOf C h c.ssid (init C s c e).1.pmk) := by
  have hbi := bound_init C s c e hb
  revert hok hbi
  unfold init
  by_cases hv : validCfg c = false
  · rw [if_pos hv]
    intro h; cases h
  · rw [if_neg hv]
    dsimp only
    rw [if_pos hm]
    unfold initPsk
    rw [hk, hp]
    dsimp only
    have key : ∀ s1 : S, s1.ssid = c.ssid → s1.mode = .psk →
        (s1.havePpHash = true → C.hash p = some s1.ppHash) →
        ∀ t, pickPmk C s1 p (restore s.cache c).2 = some t →
        Bound C { t with ownIe := Supp.ownIe c, apIe := theApIe c } →
        t.mode = .psk ∧ (C.pmk p c.ssid = some t.pmk ∨
          ∃ h, C.hash p = some h ∧ PmkOf C h c.ssid t.pmk) := by
      intro s1 h2 h3 h4 t ht hbt
      unfold pickPmk at ht
      split at ht
      · next hc =>
        have := Option.some.inj ht
        subst this
        refine ⟨h3, Or.inr ⟨s1.ppHash, h4 hc.1, ?_⟩⟩
        have := (hbt.now hc.1).2
        rw [← h2]
        exact this
      · rw [Option.map_eq_some_iff] at ht
        obtain ⟨k, hk, hkt⟩ := ht
        subst hkt
        exact ⟨h3, Or.inl (by rw [← h2]; exact hk)⟩
    split
    · intro h; cases h
    · next s2 h =>
      intro _ hb2
      unfold hashPass at h
      split at h
      · next hh hhash =>
        exact key { freshCtx c (restore s.cache c).1 with
          fault := s.fault, ppHash := hh, havePpHash := true } rfl hm (fun _ => hhash) s2 h hb2
      · exact key { freshCtx c (restore s.cache c).1 with fault := s.fault } rfl hm
          (fun h => (by cases h)) s2 h hb2

/-- **C69, a PSK session uses the PMK of its own passphrase and SSID.**  Whatever was called before
(other networks, other passphrases, cached PMKSAs, SAE or enterprise sessions), as long as no PSK
session used `pmksa_reconnect`: after a successful PSK `init` with passphrase `p` the PMK is, and
until the next restart remains, the one PBKDF2 gives for `p` and the configured SSID - assuming the
passphrase hash has no collision with `p`. -/
theorem psk_pmk_is_own (C : Crypto) (ops later : List Op) (c : Cfg) (e : Env) (p : Bytes)
    (hno : NoPskReconnect C ops) (hm : c.mode = .psk) (hk : c.pskPmk = none)
    (hp : c.pass = some p) (hinj : ∀ q, C.hash q = C.hash p → C.hash p ≠ none → q = p)
    (hok : (step C (run C ops) (.init c e)).2.1 = true)
    (hl : ∀ o ∈ later, o.restarts = false) :
    C.pmk p c.ssid = some (run C (ops ++ Op.init c e :: later)).pmk := by
  have hi := init_pmk C (run C ops) c e p (run_bound C ops hno) hm hk hp hok
  have he : run C (ops ++ Op.init c e :: later) = runFrom C (init C (run C ops) c e).1 later := by
    rw [run_eq, runFrom_append]; rfl
  rw [he, (runFrom_psk C later _ hi.1 hl).1]
  rcases hi.2 with h | ⟨h, hh, q, hq, hqp⟩
  · exact h
  · have := hinj q (hq.trans hh.symm) (by rw [hh]; intro c; cases c)
    rw [this] at hqp
    exact hqp

/-! ## Where a cache entry comes from -/

/-- The call removes or replaces the cache entry. -/
def Op.forgets : Op → Bool
  | .deinit => true
  | .clear => true
  | .init _ _ => false
  | .kick _ _ => false
  | .rx _ _ _ => false
  | .rxAuth _ _ => false
  | .tick _ _ => false
  | .installPmk _ => false
  | .reconnect => false

theorem init_cache (C : Crypto) (s : S) (c : Cfg) (e : Env) :
    (init C s c e).1.cache = s.cache ∨ (init C s c e).1.cache = .zero := by
  unfold init
  split
  · exact Or.inl rfl
  · dsimp only
    have hre : (restore s.cache c).1 = s.cache ∨ (restore s.cache c).1 = .zero := by
      unfold restore
      split
      · exact Or.inl rfl
      · exact Or.inr rfl
    split
    · exact Or.inr rfl
    · next s2 h =>
      split at h
      · obtain ⟨k, hh, hb, he⟩ := initPsk_eq h
        subst he
        exact hre
      · unfold initOther at h
        split at h
        · have := Option.some.inj h
          subst this
          exact hre
        · cases h

/-- **C69, provenance.**  Whatever the history: if the cache holds an entry, then an earlier call in
it completed a 4-way handshake, the entry is that association's SSID, AP address and PMK, it carries
a PMKID only if that was a WPA3-SAE association, and the cache has not been cleared (nor the context
deinitialised) since. -/
theorem cache_provenance (C : Crypto) (ops : List Op) : (run C ops).cache.magic = true →
    ∃ a o b, ops = a ++ o :: b ∧ Completes (run C a) (run C (a ++ [o])) ∧
      (run C ops).cache.ssid = (run C a).ssid ∧ (run C ops).cache.bssid = (run C a).apMac ∧
      (run C ops).cache.pmk = (run C a).pmk ∧
      ((run C ops).cache.havePmkid = true → (run C a).mode = .sae ∧
        (run C ops).cache.pmkid = (run C a).saePmkid) ∧
      ∀ x ∈ b, x.forgets = false := by
  refine snoc_ind (P := fun ops => (run C ops).cache.magic = true →
    ∃ a o b, ops = a ++ o :: b ∧ Completes (run C a) (run C (a ++ [o])) ∧
      (run C ops).cache.ssid = (run C a).ssid ∧ (run C ops).cache.bssid = (run C a).apMac ∧
      (run C ops).cache.pmk = (run C a).pmk ∧
      ((run C ops).cache.havePmkid = true → (run C a).mode = .sae ∧
        (run C ops).cache.pmkid = (run C a).saePmkid) ∧
      ∀ x ∈ b, x.forgets = false) ?_ ?_ ops
  · intro h; cases h
  · intro l o ih h
    have hs : run C (l ++ [o]) = (step C (run C l) o).1 := by rw [run_eq, runFrom_snoc]; rfl
    have keep : (step C (run C l) o).1.cache = (run C l).cache → o.forgets = false →
        ∃ a o' b, l ++ [o] = a ++ o' :: b ∧ Completes (run C a) (run C (a ++ [o'])) ∧
      (run C (l ++ [o])).cache.ssid = (run C a).ssid ∧
      (run C (l ++ [o])).cache.bssid = (run C a).apMac ∧
      (run C (l ++ [o])).cache.pmk = (run C a).pmk ∧
      ((run C (l ++ [o])).cache.havePmkid = true → (run C a).mode = .sae ∧
        (run C (l ++ [o])).cache.pmkid = (run C a).saePmkid) ∧
      ∀ x ∈ b, x.forgets = false := by
      intro hc hf
      rw [hs, hc] at h
      obtain ⟨a, o', b, h1, h2, h3, h4, h5, h6, h7⟩ := ih h
      refine ⟨a, o', b ++ [o], by rw [h1, List.append_assoc]; rfl, h2, ?_, ?_, ?_, ?_, ?_⟩
      · rw [hs, hc]; exact h3
      · rw [hs, hc]; exact h4
      · rw [hs, hc]; exact h5
      · rw [hs, hc]; exact h6
      · intro x hx
        rcases List.mem_append.mp hx with hx | hx
        · exact h7 x hx
        · rw [List.mem_singleton.mp hx]; exact hf
    by_cases ho : o.restarts = true
    · cases o with
      | init c e =>
        rcases init_cache C (run C l) c e with hc | hc
        · exact keep hc rfl
        · rw [hs] at h
          have h' : (init C (run C l) c e).1.cache.magic = true := h
          rw [hc] at h'
          cases h'
      | deinit => rw [hs] at h; cases h
      | reconnect => exact keep (reconnect_frame _).1 rfl
      | _ => cases ho
    · have ho' : o.restarts = false := by simpa using ho
      rcases (step_cache C (run C l) o ho').2 with hc | ⟨_, hc⟩ | ⟨hcp, hc⟩
      · by_cases hf : o.forgets = true
        · cases o with
          | clear => rw [hs] at h; cases h
          | deinit => rw [hs] at h; cases h
          | _ => cases hf
        · exact keep hc (by simpa using hf)
      · rw [hs, hc] at h; cases h
      · refine ⟨l, o, [], rfl, ?_, ?_, ?_, ?_, ?_, ?_⟩
        · rw [hs]; exact hcp
        · rw [hs, hc]; rfl
        · rw [hs, hc]; rfl
        · rw [hs, hc]; rfl
        · rw [hs, hc]
          intro hp
          have hm : (run C l).mode = .sae := of_decide_eq_true hp
          refine ⟨hm, ?_⟩
          show (if (run C l).mode = .sae then _ else _) = _
          rw [if_pos hm]
        · intro x hx; cases hx

/-- **C69, fast reconnect.**  `pmksa_reconnect` succeeds only if an earlier call completed a 4-way
handshake of a WPA3-SAE association with this very SSID and this very AP, the cache not having been
cleared since; it then makes that handshake's PMK the current one, and leaves no key, nonce or replay
counter of the previous session in use. -/
theorem reconnect_provenance (C : Crypto) (ops : List Op)
    (h : (step C (run C ops) .reconnect).2.1 = true) :
    ∃ a o b, ops = a ++ o :: b ∧ Completes (run C a) (run C (a ++ [o])) ∧
      (run C a).mode = .sae ∧ (run C a).ssid = (run C ops).ssid ∧
      (run C a).apMac = (run C ops).apMac ∧
      (step C (run C ops) .reconnect).1.pmk = (run C a).pmk ∧
      (∀ x ∈ b, x.forgets = false) ∧
      (step C (run C ops) .reconnect).1.st = .idle ∧
      (step C (run C ops) .reconnect).1.havePtk = false ∧
      (step C (run C ops) .reconnect).1.haveReplay = false := by
  have hx : (run C ops).cache.magic = true ∧ (run C ops).cache.havePmkid = true ∧
      (run C ops).cache.ssid = (run C ops).ssid ∧ (run C ops).cache.bssid = (run C ops).apMac ∧
      (step C (run C ops) .reconnect).1.pmk = (run C ops).cache.pmk ∧
      (step C (run C ops) .reconnect).1.st = .idle ∧
      (step C (run C ops) .reconnect).1.havePtk = false ∧
      (step C (run C ops) .reconnect).1.haveReplay = false := by
    revert h
    show (reconnect (run C ops)).2.1 = true → _ ∧ _ ∧ _ ∧ _ ∧
      (reconnect (run C ops)).1.pmk = _ ∧ (reconnect (run C ops)).1.st = _ ∧
      (reconnect (run C ops)).1.havePtk = _ ∧ (reconnect (run C ops)).1.haveReplay = _
    generalize run C ops = s
    unfold reconnect
    split
    · intro h; cases h
    · next h1 =>
      split
      · intro h; cases h
      · next h2 =>
        split
        · intro h; cases h
        · next t ht =>
          intro _
          have hc : t.cache = s.cache := by
            unfold addPmkid at ht
            split at ht
            · cases ht; rfl
            · split at ht
              · cases ht; rfl
              · cases ht
          refine ⟨?_, ?_, ?_, ?_, by rw [← hc], rfl, rfl, rfl⟩
          · exact ne_false' (fun c => h1 (Or.inl c))
          · exact ne_false' (fun c => h1 (Or.inr c))
          · exact Classical.not_not.mp (fun c => h2 (Or.inl c))
          · exact Classical.not_not.mp (fun c => h2 (Or.inr c))
  obtain ⟨h1, h2, h3, h4, h5, h6⟩ := hx
  obtain ⟨a, o, b, g1, g2, g3, g4, g5, g6, g7⟩ := cache_provenance C ops h1
  exact ⟨a, o, b, g1, g2, (g6 h2).1, g3.symm.trans h3, g4.symm.trans h4, h5.trans g5, g7, h6⟩

/-- **C69, forgetting.**  After `deinit` no key of any session remains (PMK, PTK and cache are zero);
after `pmksa_clear` no later `init` or `reconnect` can use the cached PMK until another handshake has
completed: the entry is gone. -/
theorem deinit_erases (C : Crypto) (s : S) :
    (step C s .deinit).1 = { S.zero with fault := s.fault } ∧
    (step C s .clear).1.cache.magic = false ∧ (step C s .clear).1.cache.pmk = [] := ⟨rfl, rfl, rfl⟩

end Wolf.Supp
