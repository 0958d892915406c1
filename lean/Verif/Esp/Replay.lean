/-
ESP anti-replay window and outbound sequence numbers (C51, C52, C61).
Models src/wolfesp.c: `esp_replay_init` (wolfesp.h 67-72), `esp_replay_check`
(1298-1346), `esp_replay_commit` (1352-1377), the parts of `esp_transport_unwrap`
that consult them (1490-1590), the sequence part of `esp_transport_wrap`
(1747-1756), and state persistence (`esp_state_save` 46-53, `esp_state_restore`
59-76).
-/
namespace Wolf.Esp

/-- `ESP_REPLAY_WIN`, wolfesp.h 57. -/
abbrev win : Nat := 64

/-- `struct replay_t` (wolfesp.h 59-63): 64-bit inbound bitmap, highest inbound
sequence number, last outbound sequence number (both 32-bit). -/
structure Replay where
  bitmap : BitVec 64
  hi : Nat
  oseq : Nat
deriving Repr, DecidableEq

/-- `esp_replay_init`, wolfesp.h 67-72. -/
def Replay.init : Replay := { bitmap := 0#64, hi := win, oseq := 0 }

/-- `seq_low` of `esp_replay_check`, wolfesp.c 1312-1322. -/
def seqLow (hi : Nat) : Nat := if hi ≥ win - 1 then hi - (win - 1) else 1

/-- `esp_replay_check`, wolfesp.c 1304-1346; `true` = return value 0. -/
def check (r : Replay) (seq : Nat) : Bool :=
  if seq = 0 then false
  else if seq < seqLow r.hi then false
  else if seq ≤ r.hi then
    if (r.bitmap &&& (1#64 <<< (r.hi - seq))) ≠ 0#64 then false else true
  else true

/-- `esp_replay_commit`, wolfesp.c 1352-1377. -/
def commit (r : Replay) (seq : Nat) : Replay :=
  if seq ≤ r.hi then { r with bitmap := r.bitmap ||| (1#64 <<< (r.hi - seq)) }
  else
    let diff := seq - r.hi
    { r with bitmap := if diff < win then (r.bitmap <<< diff) ||| 1#64 else 1#64, hi := seq }

/-- What the rest of `esp_transport_unwrap` decided about one inbound packet that
matched an SA with integrity protection (icv_len ≠ 0): the sequence number it
carries, whether it is long enough and its ICV/AEAD tag verified
(wolfesp.c 1503-1583), and whether the decrypted trailer and padding are
well-formed (1592-1627). -/
structure InPkt where
  seq : Nat
  authentic : Bool
  trailerOk : Bool
deriving Repr, DecidableEq

/-- The replay-relevant control flow of `esp_transport_unwrap` (wolfesp.c
1496-1627): check, authenticate, commit, then trailer checks.  Second component:
the packet is passed on. -/
def unwrap (r : Replay) (p : InPkt) : Replay × Bool :=
  if !check r p.seq then (r, false)
  else if !p.authentic then (r, false)
  else (commit r p.seq, p.trailerOk)

/-- The sequence-number part of `esp_transport_wrap` (wolfesp.c 1747-1756):
`oseq++` as a 32-bit counter, undone and refused when it wraps to 0. -/
def nextOseq (r : Replay) : Replay × Option Nat :=
  let o := (r.oseq + 1) % 2 ^ 32
  if o = 0 then ({ r with oseq := (o + (2 ^ 32 - 1)) % 2 ^ 32 }, none)
  else ({ r with oseq := o }, some o)

/-- What `esp_state_save` hands to the application (wolfesp.c 46-53): the callback
type takes the bitmap as `uint32_t` (wolfesp.h 111-114), so the 64-bit bitmap is
truncated. -/
def save (r : Replay) : Nat × Nat × BitVec 32 := (r.oseq, r.hi, r.bitmap.setWidth 32)

/-- `esp_state_restore` (wolfesp.c 59-76) with a callback returning 0: the 32-bit
bitmap is stored into the 64-bit field. -/
def restore (s : Nat × Nat × BitVec 32) : Replay :=
  { oseq := s.1, hi := s.2.1, bitmap := s.2.2.setWidth 64 }

/-! ## Specification -/

/-- Sequence number `q` passes anti-replay given the list of sequence numbers of
packets already authenticated on this SA: it is nonzero, new, and less than 64
below the highest one authenticated (every 1 ≤ q counts as inside the initial
window). -/
def Fresh (seen : List Nat) (q : Nat) : Prop :=
  q ≠ 0 ∧ q ∉ seen ∧ ∀ h ∈ seen, h < q + 64

/-- Inbound history: `(replay state, authenticated numbers, delivered numbers)`. -/
def runIn : Replay → List Nat → List Nat → List InPkt → Replay × List Nat × List Nat
  | r, auth, del, [] => (r, auth, del)
  | r, auth, del, p :: ps =>
    let u := unwrap r p
    runIn u.1 (if check r p.seq && p.authentic then p.seq :: auth else auth)
      (if u.2 then p.seq :: del else del) ps

/-! ## Bit lemmas -/

theorem and_bit_ne_zero (x : BitVec 64) (b : Nat) (hb : b < 64) :
    (x &&& (1#64 <<< b)) ≠ 0#64 ↔ x.getLsbD b = true := by
  cases hx : x.getLsbD b
  · have : x &&& (1#64 <<< b) = 0#64 := by
      apply BitVec.eq_of_getLsbD_eq
      intro i hi
      simp only [BitVec.getLsbD_and, BitVec.getLsbD_shiftLeft]
      by_cases hib : i = b
      · subst hib; simp [hx]
      · by_cases h2 : i < b
        · simp [h2]
        · have : i - b ≠ 0 := by omega
          simp [this]
    simp [this]
  · simp only [ne_eq, iff_true]
    intro h
    have h2 := congrArg (fun v => BitVec.getLsbD v b) h
    rw [BitVec.getLsbD_eq_getElem hb] at hx
    simp [hx, hb] at h2

theorem getLsbD_or_bit (x : BitVec 64) (b i : Nat) (hi : i < 64) :
    (x ||| (1#64 <<< b)).getLsbD i = true ↔ (x.getLsbD i = true ∨ i = b) := by
  simp only [BitVec.getLsbD_or, BitVec.getLsbD_shiftLeft, hi]
  by_cases h : i = b
  · subst h; simp
  · by_cases h2 : i < b
    · simp [h2, h]
    · have : i - b ≠ 0 := by omega
      simp [h2, h, this]

theorem getLsbD_shl_or_one (x : BitVec 64) (d i : Nat) (hd : 0 < d) (hi : i < 64) :
    ((x <<< d) ||| 1#64).getLsbD i = true ↔ (i = 0 ∨ (d ≤ i ∧ x.getLsbD (i - d) = true)) := by
  simp only [BitVec.getLsbD_or, BitVec.getLsbD_shiftLeft, hi]
  by_cases h : i = 0
  · subst h; simp
  · by_cases h2 : i < d
    · simp [h2, h]; omega
    · have : d ≤ i := by omega
      simp [h2, h, this]

theorem getLsbD_one (i : Nat) : (1#64).getLsbD i = true ↔ i = 0 := by
  simp

/-! ## Invariant -/

structure Good (r : Replay) (auth : List Nat) : Prop where
  hi64 : 64 ≤ r.hi
  le : ∀ h ∈ auth, h ≤ r.hi
  attained : r.hi = 64 ∨ r.hi ∈ auth
  pos : 0 ∉ auth
  bits : ∀ q, q ≤ r.hi → r.hi < q + 64 → (r.bitmap.getLsbD (r.hi - q) = true ↔ q ∈ auth)

theorem good_init (o : Nat) : Good { Replay.init with oseq := o } [] :=
  ⟨Nat.le_refl _, by simp, Or.inl rfl, by simp, by simp [Replay.init]⟩

theorem check_exact (r : Replay) (auth : List Nat) (hg : Good r auth) (q : Nat) :
    check r q = true ↔ Fresh auth q := by
  have h64 := hg.hi64
  have hlow : seqLow r.hi = r.hi - 63 := by simp only [seqLow, win]; split <;> omega
  simp only [check, hlow]
  split
  · subst_vars; simp [Fresh]
  · rename_i h0
    split
    · rename_i hlt
      simp only [Bool.false_eq_true, false_iff]
      rintro ⟨_, _, h3⟩
      rcases hg.attained with h | h
      · omega
      · have := h3 _ h; omega
    · rename_i hge
      split
      · rename_i hle
        have hb := hg.bits q hle (by omega)
        have ha := and_bit_ne_zero r.bitmap (r.hi - q) (by omega)
        split
        · rename_i hs
          simp only [Bool.false_eq_true, false_iff]
          rintro ⟨_, h2, _⟩
          exact h2 (hb.mp (ha.mp hs))
        · rename_i hs
          simp only [true_iff]
          refine ⟨h0, fun h => hs (ha.mpr (hb.mpr h)), fun h hh => ?_⟩
          have := hg.le h hh
          omega
      · rename_i hgt
        simp only [true_iff]
        refine ⟨h0, fun h => absurd (hg.le q h) hgt, fun h hh => ?_⟩
        have := hg.le h hh
        omega

/-- The shift counts used by check and commit are below 64 (no undefined shift)
whenever the number passes the range test; `commit` runs only after `check`. -/
theorem good_commit (r : Replay) (auth : List Nat) (hg : Good r auth) (q : Nat)
    (hc : check r q = true) : Good (commit r q) (q :: auth) := by
  have hf := (check_exact r auth hg q).mp hc
  obtain ⟨f0, f1, f2⟩ := hf
  have h64 := hg.hi64
  have hq : r.hi < q + 64 := by
    rcases hg.attained with h | h
    · omega
    · exact f2 _ h
  simp only [commit]
  split
  · rename_i hle
    refine ⟨h64, ?_, ?_, ?_, ?_⟩
    · intro h hh
      rcases List.mem_cons.mp hh with rfl | hh
      · exact hle
      · exact hg.le h hh
    · rcases hg.attained with h | h
      · exact Or.inl h
      · exact Or.inr (List.mem_cons_of_mem _ h)
    · intro hh
      rcases List.mem_cons.mp hh with h | hh
      · exact f0 h.symm
      · exact hg.pos hh
    · intro x hx1 hx2
      simp only at hx1 hx2 ⊢
      rw [getLsbD_or_bit _ _ _ (by omega), hg.bits x hx1 hx2, List.mem_cons]
      constructor
      · rintro (h | h)
        · exact Or.inr h
        · left; omega
      · rintro (h | h)
        · right; omega
        · exact Or.inl h
  · rename_i hgt
    refine ⟨by simp only; omega, ?_, Or.inr (by simp), ?_, ?_⟩
    · intro h hh
      rcases List.mem_cons.mp hh with rfl | hh
      · exact Nat.le_refl _
      · have := hg.le h hh
        simp only
        omega
    · intro hh
      rcases List.mem_cons.mp hh with h | hh
      · exact f0 h.symm
      · exact hg.pos hh
    · intro x hx1 hx2
      simp only at hx1 hx2 ⊢
      rw [List.mem_cons]
      split
      · rename_i hd
        rw [getLsbD_shl_or_one _ _ _ (by omega) (by omega)]
        constructor
        · rintro (h | ⟨h1, h2⟩)
          · left; omega
          · right
            have e : q - x - (q - r.hi) = r.hi - x := by omega
            rw [e] at h2
            exact (hg.bits x (by omega) (by omega)).mp h2
        · rintro (h | h)
          · left; omega
          · right
            have hxl := hg.le x h
            have e : q - x - (q - r.hi) = r.hi - x := by omega
            refine ⟨by omega, ?_⟩
            rw [e]
            exact (hg.bits x hxl (by omega)).mpr h
      · rename_i hd
        rw [getLsbD_one]
        constructor
        · intro h; left; omega
        · rintro (h | h)
          · omega
          · have hxl := hg.le x h
            simp only [win] at hd
            omega

theorem unwrap_good (r : Replay) (auth : List Nat) (hg : Good r auth) (p : InPkt) :
    Good (unwrap r p).1 (if check r p.seq && p.authentic then p.seq :: auth else auth) := by
  simp only [unwrap]
  cases hc : check r p.seq
  · simpa using hg
  · cases ha : p.authentic
    · simpa using hg
    · simpa using good_commit r auth hg p.seq hc

theorem runIn_good (ps : List InPkt) : ∀ (r : Replay) (auth del : List Nat), Good r auth →
    Good (runIn r auth del ps).1 (runIn r auth del ps).2.1 := by
  induction ps with
  | nil => intro r a d h; exact h
  | cons p ps ih => intro r a d h; exact ih _ _ _ (unwrap_good r a h p)

/-- Delivered numbers are authenticated ones, and both lists never repeat. -/
theorem runIn_nodup (ps : List InPkt) : ∀ (r : Replay) (auth del : List Nat), Good r auth →
    auth.Nodup → del.Nodup → (∀ x ∈ del, x ∈ auth) →
    (runIn r auth del ps).2.1.Nodup ∧ (runIn r auth del ps).2.2.Nodup ∧
    (∀ x ∈ (runIn r auth del ps).2.2, x ∈ (runIn r auth del ps).2.1) := by
  induction ps with
  | nil => intro r a d _ h1 h2 h3; exact ⟨h1, h2, h3⟩
  | cons p ps ih =>
    intro r a d hg h1 h2 h3
    have hg' := unwrap_good r a hg p
    simp only [runIn]
    have hu : (unwrap r p).2 = (check r p.seq && p.authentic && p.trailerOk) := by
      simp only [unwrap]
      cases check r p.seq <;> cases p.authentic <;> simp
    rw [hu]
    cases hc : check r p.seq
    · simp only [hc] at hg'
      exact ih _ _ _ (by simpa using hg') (by simpa using h1) (by simpa using h2) (by simpa using h3)
    · have hnot := ((check_exact r a hg p.seq).mp hc).2.1
      cases ha : p.authentic
      · simp only [hc, ha] at hg'
        exact ih _ _ _ (by simpa using hg') (by simpa using h1) (by simpa using h2) (by simpa using h3)
      · simp only [hc, ha] at hg'
        have hn1 : (p.seq :: a).Nodup := List.nodup_cons.mpr ⟨hnot, h1⟩
        cases ht : p.trailerOk
        · exact ih _ _ _ (by simpa using hg') (by simpa using hn1) (by simpa using h2)
            (by intro x hx; simp only [Bool.and_false, Bool.false_eq_true, ↓reduceIte] at hx
                simpa using Or.inr (h3 x hx))
        · refine ih _ _ _ (by simpa using hg') (by simpa using hn1) ?_ ?_
          · simp only [Bool.and_self, ↓reduceIte]
            exact List.nodup_cons.mpr ⟨fun h => hnot (h3 _ h), h2⟩
          · intro x hx
            simp only [Bool.and_self, ↓reduceIte, List.mem_cons] at hx ⊢
            rcases hx with h | h
            · exact Or.inl h
            · exact Or.inr (h3 x h)

/-! ## C51 -/

/-- **C51, exactness.** After any inbound history on a fresh SA, a packet is
passed on iff it authenticates, has a well-formed trailer, and its sequence number
is fresh: nonzero, not among the authenticated numbers, and not 64 or more below
the highest of them. -/
theorem esp_replay_exact (ps : List InPkt) (p : InPkt) :
    (unwrap (runIn Replay.init [] [] ps).1 p).2 = true ↔
      Fresh (runIn Replay.init [] [] ps).2.1 p.seq ∧ p.authentic = true ∧ p.trailerOk = true := by
  have hg := runIn_good ps Replay.init [] [] (good_init 0)
  rw [← check_exact _ _ hg]
  simp only [unwrap]
  cases check (runIn Replay.init [] [] ps).1 p.seq <;> cases p.authentic <;> simp

/-- **C51, at most once.** No sequence number is delivered twice on one SA. -/
theorem esp_replay_at_most_once (ps : List InPkt) : (runIn Replay.init [] [] ps).2.2.Nodup :=
  (runIn_nodup ps Replay.init [] [] (good_init 0) List.nodup_nil List.nodup_nil (by simp)).2.1

/-- **C51, forgeries are harmless.** A packet that fails authentication leaves the
window exactly as it was, whatever state the SA is in. -/
theorem esp_forgery_no_effect (r : Replay) (p : InPkt) (h : p.authentic = false) :
    unwrap r p = (r, false) := by
  simp only [unwrap, h]
  split <;> rfl

example : (runIn Replay.init [] [] [⟨1, true, true⟩, ⟨1, true, true⟩, ⟨64, true, true⟩,
    ⟨200, false, true⟩, ⟨100, true, true⟩, ⟨36, true, true⟩, ⟨37, true, true⟩, ⟨0, true, true⟩,
    ⟨99, true, false⟩, ⟨99, true, true⟩]).2.2 = [37, 100, 64, 1] := by decide +kernel

/-! ## C52 -/

/-- Outbound history: the sequence numbers put on the wire, oldest first, for `n`
send attempts. -/
def runOut : Replay → Nat → List (Option Nat)
  | _, 0 => []
  | r, n + 1 => (nextOseq r).2 :: runOut (nextOseq r).1 n

theorem nextOseq_spec (r : Replay) (h : r.oseq < 2 ^ 32) :
    (r.oseq + 1 < 2 ^ 32 → nextOseq r = ({ r with oseq := r.oseq + 1 }, some (r.oseq + 1))) ∧
    (r.oseq + 1 = 2 ^ 32 → nextOseq r = (r, none)) := by
  constructor
  · intro h1
    simp only [nextOseq, Nat.mod_eq_of_lt h1]
    simp
  · intro h1
    simp only [nextOseq, h1]
    cases r with
    | mk b hi o =>
      simp only at h1
      simp
      omega

theorem runOut_small (n : Nat) : ∀ (k : Nat) (r : Replay), k < n → r.oseq + k + 1 < 2 ^ 32 →
    (runOut r n)[k]? = some (some (r.oseq + k + 1)) := by
  induction n with
  | zero => intro k r hk _; omega
  | succ n ih =>
    intro k r hk hb
    have hs := (nextOseq_spec r (by omega)).1 (by omega)
    rw [runOut, hs]
    cases k with
    | zero => rfl
    | succ k =>
      rw [List.getElem?_cons_succ, ih k _ (by omega) (by simp only; omega)]
      simp only [Option.some.injEq]
      omega

theorem runOut_big (n : Nat) : ∀ (k : Nat) (r : Replay), k < n → r.oseq < 2 ^ 32 →
    2 ^ 32 ≤ r.oseq + k + 1 → (runOut r n)[k]? = some none := by
  induction n with
  | zero => intro k r hk _ _; omega
  | succ n ih =>
    intro k r hk hr hb
    by_cases h1 : r.oseq + 1 < 2 ^ 32
    · rw [runOut, (nextOseq_spec r hr).1 h1]
      cases k with
      | zero => omega
      | succ k =>
        rw [List.getElem?_cons_succ]
        exact ih k _ (by omega) h1 (by simp only; omega)
    · rw [runOut, (nextOseq_spec r hr).2 (by omega)]
      cases k with
      | zero => rfl
      | succ k =>
        rw [List.getElem?_cons_succ]
        exact ih k r (by omega) hr (by omega)

/-- **C52.** The `k`-th send attempt (k = 0, 1, …) on a fresh SA carries sequence
number k+1 as long as that fits in 32 bits, and is refused for ever after: no
number is ever reused. -/
theorem esp_oseq_exact (n k : Nat) (hk : k < n) :
    (k + 1 < 2 ^ 32 → (runOut Replay.init n)[k]? = some (some (k + 1))) ∧
    (2 ^ 32 ≤ k + 1 → (runOut Replay.init n)[k]? = some none) := by
  have gen : ∀ r : Replay, r.oseq = 0 →
      (k + 1 < 2 ^ 32 → (runOut r n)[k]? = some (some (k + 1))) ∧
      (2 ^ 32 ≤ k + 1 → (runOut r n)[k]? = some none) := by
    intro r h0
    constructor
    · intro h
      rw [runOut_small n k r hk (by omega)]
      simp only [Option.some.injEq]
      omega
    · intro h
      exact runOut_big n k r hk (by omega) (by omega)
  exact gen _ rfl

/-- Inbound processing never touches the outbound counter and vice versa. -/
theorem esp_directions_independent (r : Replay) (p : InPkt) :
    (unwrap r p).1.oseq = r.oseq ∧ (nextOseq r).1.bitmap = r.bitmap ∧ (nextOseq r).1.hi = r.hi := by
  refine ⟨?_, ?_, ?_⟩
  · simp only [unwrap, commit]
    repeat' split
    all_goals rfl
  · have : ∀ (c : Prop) [Decidable c] (a b : Nat) (o : Option Nat),
        (if c then (({ r with oseq := a } : Replay), (none : Option Nat))
          else ({ r with oseq := b }, o)).1.bitmap = r.bitmap := by
      intro c _ a b o; split <;> rfl
    exact this _ _ _ _
  · have : ∀ (c : Prop) [Decidable c] (a b : Nat) (o : Option Nat),
        (if c then (({ r with oseq := a } : Replay), (none : Option Nat))
          else ({ r with oseq := b }, o)).1.hi = r.hi := by
      intro c _ a b o; split <;> rfl
    exact this _ _ _ _

example : runOut { Replay.init with oseq := 2 ^ 32 - 3 } 4
    = [some (2 ^ 32 - 2), some (2 ^ 32 - 1), none, none] := by decide +kernel

/-! ## C61: persistence across a restart -/

/-- What the persistence interface promises: after saving and restoring, exactly
the same sequence numbers are acceptable. -/
def PersistenceFaithful : Prop :=
  ∀ (ps : List InPkt) (q : Nat),
    check (restore (save (runIn Replay.init [] [] ps).1)) q =
    check (runIn Replay.init [] [] ps).1 q

/-- **C61 is violated.** The callbacks carry only 32 of the 64 bitmap bits: after a
restart a sequence number already delivered (1, with 60 the highest-but-window
start 64) is accepted again. -/
theorem esp_persisted_replay_accepted : ¬ PersistenceFaithful := by
  intro h
  have := h [⟨1, true, true⟩] 1
  revert this
  decide +kernel

/-- The same with an explicit packet history: number 1 is delivered, the state is
saved and restored, and the replay of number 1 is delivered again. -/
theorem esp_replay_delivered_after_restore :
    let r := (runIn Replay.init [] [] [⟨1, true, true⟩]).1
    (unwrap r ⟨1, true, true⟩).2 = false ∧
    (unwrap (restore (save r)) ⟨1, true, true⟩).2 = true := by decide +kernel

/-- **C61, the part that holds.** The outbound counter and the highest number
survive a restart, numbers below the window stay rejected, and every number less
than 32 below the highest one is judged as before. -/
theorem esp_persistence_partial (r : Replay) (q : Nat) :
    (restore (save r)).oseq = r.oseq ∧ (restore (save r)).hi = r.hi ∧
    (q < seqLow r.hi ∨ r.hi < q + 32 → check (restore (save r)) q = check r q) := by
  refine ⟨rfl, rfl, ?_⟩
  intro h
  show (if q = 0 then false else if q < seqLow r.hi then false
    else if q ≤ r.hi then
      if (BitVec.setWidth 64 (BitVec.setWidth 32 r.bitmap)) &&& 1#64 <<< (r.hi - q) ≠ 0#64
      then false else true
    else true) = check r q
  simp only [check]
  by_cases h1 : q = 0
  · rw [if_pos h1, if_pos h1]
  · rw [if_neg h1, if_neg h1]
    by_cases h2 : q < seqLow r.hi
    · rw [if_pos h2, if_pos h2]
    · rw [if_neg h2, if_neg h2]
      by_cases h3 : q ≤ r.hi
      · rw [if_pos h3, if_pos h3]
        have hd : r.hi - q < 32 := by omega
        have e : ((BitVec.setWidth 64 (BitVec.setWidth 32 r.bitmap)) &&& 1#64 <<< (r.hi - q) ≠ 0#64) ↔
            (r.bitmap &&& 1#64 <<< (r.hi - q) ≠ 0#64) := by
          rw [and_bit_ne_zero _ _ (by omega), and_bit_ne_zero _ _ (by omega)]
          simp only [BitVec.getLsbD_setWidth]
          simp [hd]
          omega
        by_cases h4 : (r.bitmap &&& 1#64 <<< (r.hi - q) ≠ 0#64)
        · rw [if_pos h4, if_pos (e.mpr h4)]
        · rw [if_neg h4, if_neg (fun h5 => h4 (e.mp h5))]
      · rw [if_neg h3, if_neg h3]

end Wolf.Esp
