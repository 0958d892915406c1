import Verif.Fifo.Refine
/-!
# C01, C02 – packet buffers

`specStep`/`specRun` (file `Refine.lean`, top) are the specification: a list of packets, oldest
first; a push may be refused but then changes nothing.
-/
namespace Wolf.Fifo

/-- **C01 is false of the code as written.**  With the default receive buffer (20480 bytes,
`config.h`), 128 stored packets of 143 bytes end one byte before the end of the buffer; the next
enqueue sees the aligned head at 0 = tail, takes the buffer for empty and overwrites the oldest
packets while reporting success.  The history below gets an answer no FIFO can give: the first
dequeue returns the newest packet, 128 accepted packets are gone. -/
theorem fifo_not_exact :
    ¬ ∀ ops : List Op, (specRun [] ops (run (init 20480) ops).2).isSome := by
  intro h
  have := h (List.replicate 128 (.push (List.replicate 143 0)) ++
    [.push (List.replicate 143 1), .pop])
  revert this
  decide +kernel

/-- The second way to lose packets: an enqueue that exactly fills the gap up to the tail without a
wrap mark makes `head = tail`, i.e. "empty" (64-byte buffer for brevity). -/
theorem fifo_exact_fill_lost :
    (run (init 64) [.push (List.replicate 14 1), .push (List.replicate 14 2), .pop,
      .push (List.replicate 14 3), .pop]).2 =
    [.pushed true, .pushed true, .popped (some (List.replicate 14 1)), .pushed true, .popped none] := by
  decide +kernel

/-- **C01, partial.** For every buffer size (a multiple of four, as all buffers of the stack are) and
every history in which no accepted push meets the `Hazard` situation, every answer is that of a list
of packets: packets come out exactly once, in order, with their bytes; refused pushes change nothing;
in-place updates change exactly the addressed packet.  Missing for the full C01: the hazardous pushes,
for which it is false (`fifo_not_exact`). -/
theorem fifo_exact_partial (size : Nat) (h4 : size % 4 = 0) (h16 : 16 ≤ size) (h32 : size < 2^32)
    (ops : List Op) (hs : SafeRun (init size) ops) :
    ∃ q, specRun [] ops (run (init size) ops).2 = some q :=
  let ⟨q, h, _⟩ := run_refines (init_rep size h4 h16 h32) hs
  ⟨q, h⟩

/-- **C01, partial, with a hypothesis on the traffic only**: if every packet length is a multiple of
four, the buffer is an exact FIFO for all histories. -/
theorem fifo_exact_aligned_partial (size : Nat) (h4 : size % 4 = 0) (h16 : 16 ≤ size)
    (h32 : size < 2^32) (ops : List Op)
    (hl : ∀ d, Op.push d ∈ ops → d.length % 4 = 0) :
    ∃ q, specRun [] ops (run (init size) ops).2 = some q := by
  apply fifo_exact_partial size h4 h16 h32
  apply safeRun_of_aligned (init_rep size h4 h16 h32) rfl (by simp)
  intro op hop
  cases op with
  | push d => exact hl d hop
  | _ => trivial

/-- Packets accepted by a history. -/
def accepted : List Op → List Out → List Pkt
  | .push d :: ops, .pushed true :: os => d :: accepted ops os
  | _ :: ops, _ :: os => accepted ops os
  | _, _ => []

/-- Packets delivered by a history. -/
def delivered : List Out → List Pkt
  | .popped (some p) :: os => p :: delivered os
  | _ :: os => delivered os
  | [] => []

/-- Histories without in-place rewriting (all socket kinds except TCP transmit). -/
def noRewrite : Op → Bool
  | .rewrite .. => false
  | _ => true

theorem specRun_conserve : ∀ (ops : List Op) (os : List Out) (q q' : List Pkt),
    (∀ op ∈ ops, noRewrite op = true) → specRun q ops os = some q' →
    q ++ accepted ops os = delivered os ++ q'
  | [], [], q, q', _, h => by simp [specRun] at h; subst h; simp [accepted, delivered]
  | [], _ :: _, _, _, _, h => by simp [specRun] at h
  | _ :: _, [], _, _, _, h => by simp [specRun] at h
  | op :: ops, o :: os, q, q', hn, h => by
    simp only [specRun] at h
    cases h1 : specStep q op o with
    | none => simp [h1] at h
    | some q1 =>
      simp only [h1, Option.bind_some] at h
      have ih := specRun_conserve ops os q1 q' (fun x hx => hn x (List.mem_cons_of_mem _ hx)) h
      have hn0 := hn op (by simp)
      cases op with
      | push d =>
        cases o <;> try (simp [specStep] at h1; done)
        rename_i b
        cases b
        · simp [specStep] at h1; subst h1; simpa [accepted, delivered] using ih
        · simp [specStep] at h1; subst h1; simpa [accepted, delivered] using ih
      | pop =>
        cases o <;> try (simp [specStep] at h1; done)
        rename_i r
        simp only [specStep] at h1
        split at h1
        · rename_i hr
          simp at h1; subst h1
          cases q with
          | nil => simp at hr; subst hr; simpa [accepted, delivered] using ih
          | cons a q => simp at hr; subst hr; simpa [accepted, delivered] using ih
        · simp at h1
      | peek =>
        cases o <;> try (simp [specStep] at h1; done)
        simp only [specStep] at h1
        split at h1
        · simp at h1; subst h1; simpa [accepted, delivered] using ih
        · simp at h1
      | len =>
        cases o <;> try (simp [specStep] at h1; done)
        simp only [specStep] at h1
        split at h1
        · simp at h1; subst h1; simpa [accepted, delivered] using ih
        · simp at h1
      | rewrite => simp [noRewrite] at hn0

/-- **C01, partial, conservation form**: what was delivered is at every moment a prefix of what was
accepted. -/
theorem fifo_delivers_accepted_prefix_partial (size : Nat) (h4 : size % 4 = 0) (h16 : 16 ≤ size)
    (h32 : size < 2^32) (ops : List Op) (hs : SafeRun (init size) ops)
    (hn : ∀ op ∈ ops, noRewrite op = true) :
    delivered (run (init size) ops).2 <+: accepted ops (run (init size) ops).2 := by
  obtain ⟨q, h, _⟩ := run_refines (init_rep size h4 h16 h32) hs
  have := specRun_conserve _ _ _ _ hn h
  simp only [List.nil_append] at this
  exact ⟨q, this.symm⟩

/-- **C01, partial, walks**: after a safe history the descriptor walk (`fifo_peek`/`fifo_next`
with the code's own step budget) visits exactly the stored packets, in order. -/
theorem fifo_walk_exact_partial (size : Nat) (h4 : size % 4 = 0) (h16 : 16 ≤ size)
    (h32 : size < 2^32) (ops : List Op) (hs : SafeRun (init size) ops) :
    ∃ q, specRun [] ops (run (init size) ops).2 = some q ∧
      (walk (run (init size) ops).1).1.map (payload (run (init size) ops).1.mem) = q := by
  obtain ⟨q, h, hr⟩ := run_refines (init_rep size h4 h16 h32) hs
  refine ⟨q, h, ?_⟩
  have h1 := walk_payloads hr
  obtain ⟨_, _, _, _, hm, _⟩ := walk_spec hr
  rw [hm] at h1; exact h1

/-- Concrete case meeting the hypotheses: a history that wraps around the end of the buffer, with
unaligned lengths, and is safe. -/
example : SafeRun (init 96) [.push (List.replicate 13 1), .push (List.replicate 30 2), .pop,
    .push (List.replicate 9 3), .rewrite 1 1 7 (List.replicate 9 4), .pop, .pop, .pop] := by
  repeat' (first | apply And.intro | trivial | decide +kernel)

example : (run (init 96) [.push (List.replicate 13 1), .push (List.replicate 30 2), .pop,
    .push (List.replicate 9 3), .rewrite 1 1 7 (List.replicate 9 4), .pop, .pop, .pop]).2 =
    [.pushed true, .pushed true, .popped (some (List.replicate 13 1)), .pushed true, .rewrote true,
     .popped (some (List.replicate 30 2)), .popped (some (List.replicate 9 4)), .popped none] := by
  decide +kernel

/-! ### bounds -/

theorem step_tail_lt {f : Fifo} (op : Op) (hs : 0 < f.size) (h : f.tail < f.size) :
    (step f op).1.tail < (step f op).1.size ∧ (step f op).1.size = f.size := by
  have hat : ∀ f : Fifo, 0 < f.size → f.tail < f.size →
      (alignTail f).tail < f.size ∧ (alignTail f).size = f.size := by
    intro f hs h
    unfold alignTail
    split
    · exact ⟨h, rfl⟩
    · refine ⟨?_, rfl⟩
      have hx : ∀ a : Nat, (if a + 16 > f.size then 0 else a) < f.size := by
        intro a; split <;> omega
      exact hx _
  have hpk : (peek f).2.tail < f.size ∧ (peek f).2.size = f.size := by
    unfold peek
    split
    · exact ⟨h, rfl⟩
    · simp only; split <;> exact hat f hs h
  cases op with
  | push d =>
    simp only [step]
    cases hp : push f d with
    | none => exact ⟨h, rfl⟩
    | some f' =>
      unfold push at hp
      split at hp
      · simp at hp
      · simp at hp; subst hp; exact ⟨h, rfl⟩
  | pop =>
    simp only [step]
    unfold pop
    split
    · exact ⟨h, rfl⟩
    · simp only
      have ha := hat f hs h
      split
      · exact ⟨by rw [ha.2]; exact ha.1, ha.2⟩
      · refine ⟨?_, ha.2⟩
        have hx : ∀ a : Nat, (if a ≥ (alignTail f).size then a % (alignTail f).size else a)
            < (alignTail f).size := by
          intro a; split
          · exact Nat.mod_lt _ (by omega)
          · omega
        exact hx _
  | peek =>
    simp only [step]; exact ⟨by rw [hpk.2]; exact hpk.1, hpk.2⟩
  | len =>
    have : (step f .len).1 = alignTail f := by
      simp only [step]; unfold len; simp only; repeat' split
      all_goals rfl
    rw [this]
    have ha := hat f hs h
    exact ⟨by rw [ha.2]; exact ha.1, ha.2⟩
  | rewrite i fl ts bs =>
    have h1 : (walk f).2 = (peek f).2 := rfl
    simp only [step]
    repeat' split
    all_goals exact ⟨by rw [← h1] at hpk; simp only [hpk.2]; exact hpk.1, hpk.2⟩

theorem run_tail_lt {ops : List Op} {f : Fifo} (hs : 0 < f.size) (h : f.tail < f.size) :
    (run f ops).1.tail < (run f ops).1.size ∧ (run f ops).1.size = f.size := by
  induction ops generalizing f with
  | nil => exact ⟨h, rfl⟩
  | cons op ops ih =>
    have h1 := step_tail_lt op hs h
    have h2 := ih (f := (step f op).1) (by omega) h1.1
    simp only [run]
    exact ⟨h2.1, by rw [h2.2, h1.2]⟩

/-- **C02, first half.** After any history whatever, the admission check answers exactly whether the
enqueue of that many bytes would succeed. -/
theorem fifo_admission_exact (size : Nat) (h : 0 < size) (ops : List Op) (data : List UInt8) :
    let f := (run (init size) ops).1
    canPushLen f data.length = true ↔ (step f (.push data)).2 = .pushed true := by
  intro f
  have ht := run_tail_lt (ops := ops) (f := init size) h h
  rw [canPush_eq data (Nat.le_of_lt ht.1)]
  simp only [step]
  cases push f data <;> simp

/-- **C02, second half.** After any history, the reported maximum payload for frames of
`base + payload` bytes is the largest payload in `[1, cap]` whose enqueue would succeed, and 0 if
there is none. -/
theorem fifo_max_payload_exact (size : Nat) (h : 0 < size) (ops : List Op) (base cap : Nat) :
    let f := (run (init size) ops).1
    let fits := fun n => ∀ data : List UInt8, data.length = base + n → (step f (.push data)).2 = .pushed true
    let m := maxPushPayload f base cap
    m ≤ cap ∧ (m = 0 ∨ fits m) ∧ ∀ k, 1 ≤ k → k ≤ cap → fits k → k ≤ m := by
  intro f fits m
  have hfit : ∀ n, fits n ↔ canPushLen f (base + n) = true := by
    intro n
    constructor
    · intro hf
      have := hf (List.replicate (base + n) 0) (by simp)
      have h2 := (fifo_admission_exact size h ops (List.replicate (base + n) 0)).2 this
      simpa using h2
    · intro hc data hd
      apply (fifo_admission_exact size h ops data).1
      rw [hd]; exact hc
  by_cases hc : cap = 0
  · have : m = 0 := by show maxPushPayload f base cap = 0; simp [maxPushPayload, hc]
    refine ⟨by omega, Or.inl this, fun k h1 h2 => by omega⟩
  · have hm : m = searchLoop (fun mid => canPushLen f (base + mid)) 1 cap 0 := by
      show maxPushPayload f base cap = _; simp [maxPushPayload, hc]
    have := searchLoop_spec (ok := fun mid => canPushLen f (base + mid))
      (fun a b hab hb => canPush_mono (by omega) hb) _ 1 cap 0 rfl (by omega) rfl (Or.inl rfl) (by omega)
    rw [← hm] at this
    refine ⟨this.2.1, ?_, ?_⟩
    · rcases this.1 with h0 | h0
      · exact Or.inl h0
      · exact Or.inr ((hfit m).2 h0)
    · intro k h1 h2 h3
      exact this.2.2 k h1 h2 ((hfit k).1 h3)

/-- Concrete case: after a push the 64-byte buffer takes at most 14 more payload bytes behind a
2-byte base. -/
example : maxPushPayload (run (init 64) [.push (List.replicate 14 1)]).1 2 40 = 14 := by
  decide +kernel

/-- No write ever falls outside the buffer, after any history (safe or not). -/
theorem fifo_push_in_bounds (size : Nat) (h : 0 < size) (ops : List Op) (data : List UInt8) :
    let f := (run (init size) ops).1
    ∀ i, size ≤ i → (step f (.push data)).1.mem i = f.mem i := by
  intro f i hi
  have ht := run_tail_lt (ops := ops) (f := init size) h h
  have hsz : f.size = size := ht.2
  have htl : f.tail < f.size := ht.1
  simp only [step]
  cases hp : push f data with
  | none => rfl
  | some f' =>
    unfold push at hp
    split at hp
    · simp at hp
    · rename_i pos w hpl
      simp at hp; subst hp
      have hb : pos + 16 + data.length ≤ f.size := by
        unfold place descSize at hpl
        simp only at hpl
        generalize (if f.hWrap ≠ 0 ∧ alignHead f.head f.size = f.hWrap then 0
          else alignHead f.head f.size) = hd at hpl
        unfold fitCheck at hpl
        repeat' split at hpl
        all_goals first
          | (simp only [Option.some.injEq, Prod.mk.injEq] at hpl; omega)
          | (exfalso; simp at hpl; done)
      simp only
      rw [← mem_write_out (by omega)]

/-- An empty buffer accepts every packet that, with its descriptor, takes less than half of it. -/
theorem fifo_empty_accepts (size : Nat) (h4 : size % 4 = 0) (h16 : 16 ≤ size)
    (h32 : size < 2^32) (ops : List Op) (hs : SafeRun (init size) ops)
    (hq : specRun [] ops (run (init size) ops).2 = some []) (data : List UInt8)
    (hd : 2 * (16 + data.length) + 3 ≤ size) :
    (step (run (init size) ops).1 (.push data)).2 = .pushed true := by
  apply (fifo_admission_exact size (by omega) ops data).1
  obtain ⟨q, h, hr⟩ := run_refines (init_rep size h4 h16 h32) hs
  rw [hq] at h; cases h
  have hsz : (run (init size) ops).1.size = size :=
    (run_tail_lt (ops := ops) (f := init size) (by show 0 < size; omega) (by show 0 < size; omega)).2
  have htl := hr.tail_lt
  have he := (hr.isEmpty_iff).2 rfl
  generalize (run (init size) ops).1 = f at *
  simp only [isEmpty, Bool.and_eq_true, beq_iff_eq] at he
  obtain ⟨hht, hw⟩ := he
  have h1 := al_ge f.head
  have h2 := al_lt f.head
  unfold canPushLen spaceAt alignHead descSize
  simp only [hw, ne_eq, not_true, false_and, if_false, and_true, true_and]
  repeat' split
  all_goals first | rfl | (exfalso; omega) | (simp; omega)

end Wolf.Fifo
