/-
C10: retransmission-timeout estimator, exponential backoff and zero-window
probe pacing (src/wolfip.c 157-171, 3921-3928, 4117-4125, 4274-4291,
4892-4935, 5906-5945, 6034-6058).
-/
namespace Wolf.Tcp.Rto

/- Constants: src/wolfip.c 165-171, 156-157. -/
local notation "RTO_MIN" => (1000 : Nat)
local notation "RTO_MAX" => (60000 : Nat)
local notation "RTO_G" => (1 : Nat)
local notation "BACKOFF_CAP" => (64000 : Nat)
local notation "PERSIST_MIN" => (1000 : Nat)
local notation "PERSIST_MAX" => (60000 : Nat)
local notation "CTRL_MAXRTX" => (8 : Nat)
local notation "RTO_MAX_BACKOFF" => (15 : Nat)

/-- `uint32_t` truncation. -/
def u32 (n : Nat) : Nat := n % 4294967296

/-- The per-socket estimator and backoff fields (`struct tcpsocket`:
srtt, rttvar, rto, rtt, rto_initialized, rto_backoff, ctrl_rto_retries,
persist_backoff). -/
structure St where
  init : Bool
  srtt : Nat
  rttvar : Nat
  rtt : Nat
  rto : Nat
  rtoBackoff : Nat
  ctrlRetries : Nat
  persistBackoff : Nat
deriving Repr, DecidableEq

/-- State of a fresh socket: src/wolfip.c 3066-3090 (and 4024-4030). -/
def fresh : St := ⟨false, 0, 0, 0, RTO_MIN, 0, 0, 0⟩

/-- `tcp_rto_clamp`, src/wolfip.c 4892-4899. -/
def clamp (x : Nat) : Nat :=
  if x < RTO_MIN then RTO_MIN else if x > RTO_MAX then RTO_MAX else x

/-- `tcp_rto_update_from_sample`, src/wolfip.c 4906-4935.  All arithmetic is
`uint32_t`; subtraction is guarded in the source by the comparison. -/
def sample (t : St) (sampleMs : Nat) : St :=
  let s := if sampleMs = 0 then 1 else sampleMs
  let (srtt, rttvar) :=
    if t.init then
      let srttMs := t.srtt / 8
      let err := if srttMs > s then srttMs - s else s - srttMs
      (u32 (u32 (7 * t.srtt) + u32 (s * 8)) / 8, u32 (u32 (3 * t.rttvar) + u32 (err * 4)) / 4)
    else (u32 (s * 8), u32 (s * 2))
  let srttMs := srtt / 8
  let rto := u32 (srttMs + (if rttvar > RTO_G then rttvar else RTO_G))
  { t with init := true, srtt := srtt, rttvar := rttvar, rtt := srttMs, rto := clamp rto }

/-- `tcp_backoff_rto_ms`, src/wolfip.c 3921-3928 (64-bit shift, which is
undefined for counts >= 64; `shift_defined` below shows that never happens). -/
def backoff (rto retries : Nat) : Nat :=
  let r := (rto * 2 ^ retries) % 2 ^ 64
  if r > BACKOFF_CAP then BACKOFF_CAP else r

/-- `tcp_persist_interval_ms`, src/wolfip.c 4117-4125. -/
def persistInterval (t : St) : Nat :=
  let i := (t.rto * 2 ^ t.persistBackoff) % 2 ^ 64
  let i := if i < PERSIST_MIN then PERSIST_MIN else i
  if i > PERSIST_MAX then PERSIST_MAX else i

/-- The events that touch these fields. -/
inductive Ev where
  /-- an RTT sample (4860, 5266) -/
  | rttSample (ms : Nat)
  /-- data retransmission timeout with something to retransmit (6032-6058) -/
  | dataTimeout
  /-- data timeout with nothing pending (6059-6061) -/
  | idleTimeout
  /-- forward ACK: src/wolfip.c 5192 -/
  | forwardAck
  /-- control RTO fires (5906-5945); `queued` = the SYN/FIN could be queued -/
  | ctrlTimeout (queued : Bool)
  /-- `tcp_ctrl_rto_stop` (3907-3917) -/
  | ctrlStop
  /-- zero-window probe timer fires and a probe is sent (4286-4290) -/
  | probe
  /-- `tcp_persist_stop` (4127-4137) -/
  | persistStop
  /-- listener revert / reuse of the slot (4024-4030) -/
  | reset

/-- Effect of one event; `none` = the connection was closed / reverted because
the retry budget is exhausted (5909-5924, 6034-6038). -/
def step (t : St) : Ev → Option St
  | .rttSample ms => some (sample t ms)
  | .dataTimeout =>
      if t.rtoBackoff ≥ RTO_MAX_BACKOFF then none
      else some { t with rtoBackoff := t.rtoBackoff + 1 }
  | .idleTimeout => some { t with rtoBackoff := 0 }
  | .forwardAck => some { t with rtoBackoff := 0 }
  | .ctrlTimeout queued =>
      if t.ctrlRetries ≥ CTRL_MAXRTX then none
      else some (if queued then { t with ctrlRetries := t.ctrlRetries + 1 } else t)
  | .ctrlStop => some { t with ctrlRetries := 0 }
  | .probe => some (if t.persistBackoff < 10 then
      { t with persistBackoff := t.persistBackoff + 1 } else t)
  | .persistStop => some { t with persistBackoff := 0 }
  | .reset => some fresh

/-- Run a history; stops at the first close. -/
def run : St → List Ev → Option St
  | t, [] => some t
  | t, e :: es => match step t e with
    | none => none
    | some t' => run t' es

/-! ### Proofs -/

theorem clamp_bounds (x : Nat) : RTO_MIN ≤ clamp x ∧ clamp x ≤ RTO_MAX := by
  unfold clamp; split
  · omega
  · split <;> omega

def Inv (t : St) : Prop :=
  RTO_MIN ≤ t.rto ∧ t.rto ≤ RTO_MAX ∧ t.rtoBackoff ≤ RTO_MAX_BACKOFF ∧
  t.ctrlRetries ≤ CTRL_MAXRTX ∧ t.persistBackoff ≤ 10

theorem sample_rto (t : St) (ms : Nat) :
    RTO_MIN ≤ (sample t ms).rto ∧ (sample t ms).rto ≤ RTO_MAX ∧
    (sample t ms).rtoBackoff = t.rtoBackoff ∧ (sample t ms).ctrlRetries = t.ctrlRetries ∧
    (sample t ms).persistBackoff = t.persistBackoff := by
  have h := fun x => clamp_bounds x
  simp only [sample]
  exact ⟨(h _).1, (h _).2, trivial, trivial, trivial⟩

theorem inv_step {t t' : St} (e : Ev) (h : Inv t) (hs : step t e = some t') : Inv t' := by
  obtain ⟨h1, h2, h3, h4, h5⟩ := h
  cases e with
  | rttSample ms =>
      simp only [step, Option.some.injEq] at hs; subst hs
      obtain ⟨a, b, c, d, e⟩ := sample_rto t ms
      exact ⟨a, b, by omega, by omega, by omega⟩
  | dataTimeout =>
      simp only [step] at hs
      split at hs
      · cases hs
      · simp only [Option.some.injEq] at hs; subst hs
        exact ⟨h1, h2, by show t.rtoBackoff + 1 ≤ _; omega, h4, h5⟩
  | ctrlTimeout q =>
      simp only [step] at hs
      split at hs
      · cases hs
      · simp only [Option.some.injEq] at hs
        split at hs <;> subst hs
        · exact ⟨h1, h2, h3, by show t.ctrlRetries + 1 ≤ _; omega, h5⟩
        · exact ⟨h1, h2, h3, h4, h5⟩
  | probe =>
      simp only [step, Option.some.injEq] at hs
      split at hs <;> subst hs
      · exact ⟨h1, h2, h3, h4, by show t.persistBackoff + 1 ≤ _; omega⟩
      · exact ⟨h1, h2, h3, h4, h5⟩
  | reset =>
      simp only [step, Option.some.injEq] at hs; subst hs
      simp [Inv, fresh]
  | idleTimeout => simp only [step, Option.some.injEq] at hs; subst hs; exact ⟨h1, h2, Nat.zero_le _, h4, h5⟩
  | forwardAck => simp only [step, Option.some.injEq] at hs; subst hs; exact ⟨h1, h2, Nat.zero_le _, h4, h5⟩
  | ctrlStop => simp only [step, Option.some.injEq] at hs; subst hs; exact ⟨h1, h2, h3, Nat.zero_le _, h5⟩
  | persistStop => simp only [step, Option.some.injEq] at hs; subst hs; exact ⟨h1, h2, h3, h4, Nat.zero_le _⟩

theorem inv_run : ∀ (es : List Ev) {t t' : St}, Inv t → run t es = some t' → Inv t'
  | [], t, t', h, hr => by simp only [run, Option.some.injEq] at hr; exact hr ▸ h
  | e :: es, t, t', h, hr => by
      simp only [run] at hr
      cases hs : step t e with
      | none => rw [hs] at hr; simp at hr
      | some u => rw [hs] at hr; exact inv_run es (inv_step e h hs) hr

theorem inv_fresh : Inv fresh := by simp [Inv, fresh]

/-- **C10 (1)**: after any history of RTT samples, timeouts, acknowledgments and
probes the retransmission timeout is between 1 s and 60 s, and every shift
count used is small enough for the 64-bit shift to be defined. -/
theorem rto_in_bounds (es : List Ev) (t : St) (h : run fresh es = some t) :
    1000 ≤ t.rto ∧ t.rto ≤ 60000 ∧
    t.rtoBackoff ≤ 15 ∧ t.ctrlRetries ≤ 8 ∧ t.persistBackoff ≤ 10 := inv_run es inv_fresh h

theorem backoff_eq {rto n : Nat} (hr : rto ≤ 60000) (hn : n ≤ 15) :
    backoff rto n = min (rto * 2 ^ n) 64000 := by
  have h2 : (2 : Nat) ^ n ≤ 2 ^ 15 := Nat.pow_le_pow_right (by omega) hn
  have h3 : rto * 2 ^ n ≤ 60000 * 2 ^ 15 := Nat.mul_le_mul hr h2
  have h4 : rto * 2 ^ n % 2 ^ 64 = rto * 2 ^ n := Nat.mod_eq_of_lt (by omega)
  simp only [backoff, h4]
  split <;> omega

/-- **C10 (2)**: in every reachable state the backed-off timeout that is armed
after `n` consecutive losses is exactly `min (rto * 2^n) 64 s`: it is at least
the base timeout or the cap, never above 64 s, at least 1 s, and doubles (up to
the cap) with each further loss, so it never decreases. -/
theorem backoff_bounds_and_monotone (es : List Ev) (t : St) (h : run fresh es = some t)
    (n : Nat) (hn : n ≤ 15) :
    backoff t.rto n = min (t.rto * 2 ^ n) 64000 ∧
    1000 ≤ backoff t.rto n ∧ backoff t.rto n ≤ 64000 ∧
    (n + 1 ≤ 15 → backoff t.rto (n + 1) = min (2 * backoff t.rto n) 64000) ∧
    (∀ m, m ≤ n → backoff t.rto m ≤ backoff t.rto n) := by
  obtain ⟨h1, h2, -⟩ := rto_in_bounds es t h
  have e := fun k (hk : k ≤ 15) => backoff_eq (rto := t.rto) h2 hk
  have hp : 1 ≤ 2 ^ n := Nat.one_le_two_pow
  have hlow : t.rto ≤ t.rto * 2 ^ n := Nat.le_mul_of_pos_right _ hp
  refine ⟨e n hn, ?_, ?_, ?_, ?_⟩
  · rw [e n hn]; omega
  · rw [e n hn]; omega
  · intro h'; rw [e n hn, e (n+1) h', Nat.pow_succ, ← Nat.mul_assoc]; omega
  · intro m hm
    rw [e n hn, e m (by omega)]
    have : t.rto * 2 ^ m ≤ t.rto * 2 ^ n :=
      Nat.mul_le_mul_left _ (Nat.pow_le_pow_right (by omega) hm)
    omega

/-- **C10 (3)**: zero-window probes are always spaced between 1 s and 60 s. -/
theorem persist_interval_bounds (t : St) :
    1000 ≤ persistInterval t ∧ persistInterval t ≤ 60000 := by
  simp only [persistInterval]
  generalize (t.rto * 2 ^ t.persistBackoff) % 2 ^ 64 = x
  split <;> split <;> omega

/-- Consecutive probes back off: the next interval is the doubled one (capped),
in every reachable state with the timeout unchanged. -/
theorem persist_interval_doubles (es : List Ev) (t t' : St) (h : run fresh es = some t)
    (hp : step t .probe = some t') :
    persistInterval t' = min (2 * persistInterval t) 60000 := by
  obtain ⟨h1, h2, -, -, h5⟩ := rto_in_bounds es t h
  have key : ∀ k, k ≤ 10 → ∀ u : St, u.rto = t.rto → u.persistBackoff = k →
      persistInterval u = min (t.rto * 2 ^ k) 60000 := by
    intro k hk u hu hb
    have hq : (2 : Nat) ^ k ≤ 2 ^ 10 := Nat.pow_le_pow_right (by omega) hk
    have hq1 : 1 ≤ 2 ^ k := Nat.one_le_two_pow
    have hle : t.rto * 2 ^ k ≤ 60000 * 2 ^ 10 := Nat.mul_le_mul h2 hq
    have hge : t.rto ≤ t.rto * 2 ^ k := Nat.le_mul_of_pos_right _ hq1
    simp only [persistInterval, hu, hb]
    rw [Nat.mod_eq_of_lt (show t.rto * 2 ^ k < 2 ^ 64 by omega)]
    split <;> split <;> omega
  simp only [step, Option.some.injEq] at hp
  rw [key t.persistBackoff h5 t rfl rfl]
  split at hp <;> subst hp
  · rw [key (t.persistBackoff + 1) (by omega) { t with persistBackoff := t.persistBackoff + 1 } rfl rfl,
      Nat.pow_succ, ← Nat.mul_assoc]; omega
  · rw [key t.persistBackoff h5 t rfl rfl]
    have : t.persistBackoff = 10 := by omega
    rw [this]; omega

/-! ### The estimator tracks the samples -/

/-- Feed a list of RTT samples to a fresh socket. -/
def samples (l : List Nat) : St := l.foldl sample fresh

/-- A sample of 0 ms counts as 1 ms. -/
theorem zero_as_one (m : Nat) : ∃ k, max 1 m = k ∧ ¬ k = 0 ∧ ∀ t, sample t m = sample t k := by
  by_cases h : m = 0
  · subst h; exact ⟨1, rfl, by omega, fun t => by simp [sample]⟩
  · exact ⟨m, by omega, h, fun _ => rfl⟩

theorem samples_est (lo hi : Nat) (hlo : 1 ≤ lo) (hhi : hi ≤ 67108863) :
    ∀ (l : List Nat) (t : St), t.init = true →
      8 * lo ≤ t.srtt → t.srtt ≤ 8 * hi → t.rttvar ≤ 4 * hi →
      t.rtt = t.srtt / 8 → (∀ m ∈ l, lo ≤ max 1 m ∧ max 1 m ≤ hi) →
      lo ≤ (l.foldl sample t).rtt ∧ (l.foldl sample t).rtt ≤ hi ∧
      (l ≠ [] → (l.foldl sample t).rto = clamp ((l.foldl sample t).rtt +
        max 1 (l.foldl sample t).rttvar)) ∧ (l.foldl sample t).rttvar ≤ 4 * hi
  | [], t, _, h1, h2, h3, h4, _ => by
      refine ⟨?_, ?_, fun h => absurd rfl h, h3⟩ <;> simp only [List.foldl_nil] <;> omega
  | m0 :: l, t, hi0, h1, h2, h3, h4, h5 => by
      obtain ⟨m, hm, hm0, hsm⟩ := zero_as_one m0
      have hm := hm ▸ h5 m0 (List.mem_cons_self ..)
      have hl : ∀ x ∈ l, lo ≤ max 1 x ∧ max 1 x ≤ hi := fun x hx => h5 x (List.mem_cons_of_mem _ hx)
      rw [List.foldl_cons, hsm]
      let err := if t.srtt / 8 > m then t.srtt / 8 - m else m - t.srtt / 8
      have herr : err ≤ hi := by
        show (if t.srtt / 8 > m then t.srtt / 8 - m else m - t.srtt / 8) ≤ hi
        split <;> omega
      have e1 : (sample t m).srtt = (7 * t.srtt + m * 8) / 8 := by
        simp only [sample, hi0, if_true, if_neg hm0, u32]
        omega
      have e2 : (sample t m).rttvar = (3 * t.rttvar + err * 4) / 4 := by
        simp only [sample, hi0, if_true, if_neg hm0, u32]
        show ((3 * t.rttvar) % 4294967296 + (err * 4) % 4294967296) % 4294967296 / 4 = _
        omega
      have e3 : (sample t m).rtt = (sample t m).srtt / 8 := by simp only [sample]
      have e4 : (sample t m).init = true := by simp only [sample]
      have e5 : (sample t m).rto = clamp (u32 ((sample t m).srtt / 8 +
          (if (sample t m).rttvar > RTO_G then (sample t m).rttvar else RTO_G))) := by
        simp only [sample]
      have ih := samples_est lo hi hlo hhi l (sample t m) e4
        (by rw [e1]; omega) (by rw [e1]; omega) (by rw [e2]; omega) e3 hl
      obtain ⟨a, b, c, d⟩ := ih
      refine ⟨a, b, fun _ => ?_, d⟩
      cases l with
      | nil =>
          show (sample t m).rto = clamp ((sample t m).rtt + max 1 (sample t m).rttvar)
          rw [e5, e3]
          have hs8 : (sample t m).srtt ≤ 8 * hi := by rw [e1]; omega
          have hv : (sample t m).rttvar ≤ 4 * hi := by rw [e2]; omega
          generalize (sample t m).srtt = x at *
          generalize (sample t m).rttvar = y at *
          congr 1
          simp only [u32]
          split
          · rw [Nat.mod_eq_of_lt (by omega)]; omega
          · rw [Nat.mod_eq_of_lt (by omega)]; omega
      | cons x l' => exact c (by simp)

/-- **C10 (4)**: as long as samples are below about 18 hours (67 108 863 ms),
the 32-bit fixed-point arithmetic never overflows and the smoothed RTT lies
between the smallest and the largest sample fed in (0 ms counts as 1 ms); the timeout is the clamped
sum of it and the variance term. -/
theorem rtt_estimate_within_samples (l : List Nat) (lo hi : Nat) (hne : l ≠ [])
    (hlo : 1 ≤ lo) (hhi : hi ≤ 67108863) (hall : ∀ m ∈ l, lo ≤ max 1 m ∧ max 1 m ≤ hi) :
    lo ≤ (samples l).rtt ∧ (samples l).rtt ≤ hi ∧
    (samples l).rto = min 60000 (max 1000 ((samples l).rtt + max 1 (samples l).rttvar)) := by
  have hcl : ∀ x, clamp x = min 60000 (max 1000 x) := by
    intro x; simp only [clamp]; split
    · omega
    · split <;> omega
  cases l with
  | nil => exact absurd rfl hne
  | cons m0 l =>
      obtain ⟨m, hm, hm0, hsm⟩ := zero_as_one m0
      have hm := hm ▸ hall m0 (List.mem_cons_self ..)
      unfold samples
      rw [List.foldl_cons, hsm]
      have e1 : (sample fresh m).srtt = 8 * m := by
        simp only [sample, fresh, if_neg hm0, u32]
        simp; omega
      have e2 : (sample fresh m).rttvar = 2 * m := by
        simp only [sample, fresh, if_neg hm0, u32]
        simp; omega
      have e3 : (sample fresh m).rtt = (sample fresh m).srtt / 8 := by simp only [sample]
      have e4 : (sample fresh m).init = true := by simp only [sample]
      have e5 : (sample fresh m).rto = clamp (u32 ((sample fresh m).srtt / 8 +
          (if (sample fresh m).rttvar > RTO_G then (sample fresh m).rttvar else RTO_G))) := by
        simp only [sample]
      have := samples_est lo hi hlo hhi l (sample fresh m) e4 (by rw [e1]; omega)
        (by rw [e1]; omega) (by rw [e2]; omega) e3
        (fun x hx => hall x (List.mem_cons_of_mem _ hx))
      obtain ⟨a, b, c, -⟩ := this
      refine ⟨a, b, ?_⟩
      cases l with
      | nil =>
          show (sample fresh m).rto = min 60000 (max 1000 ((sample fresh m).rtt +
            max 1 (sample fresh m).rttvar))
          rw [e5, e3, e1, e2, hcl]
          have : u32 (8 * m / 8 + if 2 * m > RTO_G then 2 * m else RTO_G) =
              8 * m / 8 + max 1 (2 * m) := by
            simp only [u32]; split
            · rw [Nat.mod_eq_of_lt (by omega)]; omega
            · omega
          rw [this]
      | cons x l' => rw [← hcl]; exact c (by simp)

/-- A reachable non-trivial state: after samples 200, 900, three timeouts and a
probe the timeout, the backoff and the probe interval are these. -/
example : ∃ t, run fresh [.rttSample 200, .rttSample 900, .dataTimeout, .dataTimeout,
    .dataTimeout, .probe] = some t ∧ t.rtt = 287 ∧ t.rto = 1287 ∧ backoff t.rto 3 = 10296 ∧
    persistInterval t = 2574 :=
  ⟨_, rfl, by decide, by decide, by decide, by decide⟩

/-- The bound on the samples is not idle: a sample near 2^29 ms makes the
32-bit computation wrap and the estimate fall far below every sample (it is
still within the RTO clamp). -/
theorem rtt_estimate_can_wrap : (samples [536870913, 536870913]).rtt < 100000000 := by decide

end Wolf.Tcp.Rto
