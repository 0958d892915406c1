import Verif.Fifo.Walk
/-! Step-by-step refinement of the FIFO to a list of packets. -/
namespace Wolf.Fifo

/-- Specification: a plain list of packets, oldest first.  `specStep q op o` is the new list if `o`
is a correct answer to `op` in state `q`, and `none` if the answer is wrong. A push may be refused
(the buffer is finite) but must then change nothing. -/
def specStep (q : List Pkt) : Op → Out → Option (List Pkt)
  | .push d, .pushed true => some (q ++ [d])
  | .push _, .pushed false => some q
  | .pop, .popped r => if r = q.head? then some q.tail else none
  | .peek, .peeked r => if r = q.head? then some q else none
  | .len, .lenIs n => if (n = 0 ↔ q = []) then some q else none
  | .rewrite i _ _ bs, .rewrote true => if q[i]?.map List.length = some bs.length then some (q.set i bs) else none
  | .rewrite i _ _ bs, .rewrote false => if q[i]?.map List.length = some bs.length then none else some q
  | _, _ => none

/-- Check a whole history against the specification. -/
def specRun (q : List Pkt) : List Op → List Out → Option (List Pkt)
  | [], [] => some q
  | op :: ops, o :: os => (specStep q op o).bind fun q' => specRun q' ops os
  | _, _ => none

/-- No push of the run meets the `Hazard` situation. -/
def SafeRun (f : Fifo) : List Op → Prop
  | [] => True
  | op :: ops => (match op with | .push d => ¬ Hazard f d.length | _ => True) ∧
      SafeRun (step f op).1 ops

/-- In-place rewrite of the packet at offset `p`. -/
def wr2 (m : Nat → UInt8) (p fl ts : Nat) (bs : List UInt8) : Nat → UInt8 :=
  wr (wr m (p + 8) (le32 fl ++ le32 ts)) (p + descSize) bs

theorem wr2_out {m p fl ts} {bs : List UInt8} {i} (h : i < p + 8 ∨ p + 16 + bs.length ≤ i) :
    m i = wr2 m p fl ts bs i := by
  unfold wr2
  rw [wr_out (by simp only [descSize]; omega),
    wr_out (by simp only [List.length_append, le32_length]; omega)]

theorem wr2_At {m p fl ts} {bs q : List UInt8} (h : At m p q) (hl : bs.length = q.length) :
    At (wr2 m p fl ts bs) p bs := by
  have h1 : descLen (wr2 m p fl ts bs) p = bs.length := by
    rw [hl, ← h.1]; unfold descLen; symm; apply rd32_congr
    intro i h1 h2; exact wr2_out (by omega)
  refine ⟨h1, ?_⟩
  unfold payload
  rw [h1]
  unfold wr2
  exact rd_wr _ _ _

theorem Chain.set {m fl ts} {bs : List UInt8} : ∀ {ps s e i} {q : Pkt}, Chain m s ps e → ps[i]? = some q →
    bs.length = q.length → ∃ p, (poss s ps)[i]? = some p ∧
      Chain (wr2 m p fl ts bs) s (ps.set i bs) e ∧ s ≤ p ∧ p + 16 + bs.length ≤ e ∧ At m p q
  | [], _, _, _, _, _, h, _ => by simp at h
  | p :: ps, s, e, 0, q, hc, hq, hl => by
    simp at hq; subst hq
    have := hc.lt
    have := al_ge s
    refine ⟨al s, by simp [poss], ?_, by omega, by omega, hc.1⟩
    simp only [List.set_cons_zero]
    refine ⟨wr2_At hc.1 hl, ?_⟩
    rw [hl]
    exact hc.2.congr fun i h1 h2 => wr2_out (by omega)
  | p :: ps, s, e, i+1, q, hc, hq, hl => by
    simp at hq
    obtain ⟨pos, hp, hch, h1, h2, h3⟩ := Chain.set (fl := fl) (ts := ts) hc.2 hq hl
    have := al_ge s
    refine ⟨pos, by simpa [poss] using hp, ?_, by omega, h2, h3⟩
    simp only [List.set_cons_succ]
    refine ⟨At_congr (fun j h4 h5 _ => wr2_out (by omega)) hc.1, hch⟩

theorem walk_payloads {f ps} (h : Rep f ps) : (walk f).1.map (payload (walk f).2.mem) = ps := by
  obtain ⟨fr, sd, rfl, hR, hm, hw, hcase⟩ := walk_spec h
  rw [hw, hm, List.map_append]
  rcases hcase with ⟨rfl, hA⟩ | ⟨e, _, hc, hd, _⟩
  · have := poss_payload hA.2.2
    rw [hm] at this
    simpa [poss] using this
  · rw [poss_payload hc, poss_payload hd]

theorem rewrite_rep {f ps i fl ts} {bs q : Pkt} (h : Rep f ps) (hq : ps[i]? = some q)
    (hl : bs.length = q.length) :
    ∃ p, (walk f).1[i]? = some p ∧ At (walk f).2.mem p q ∧
      Rep { (walk f).2 with mem := wr2 (walk f).2.mem p fl ts bs } (ps.set i bs) := by
  obtain ⟨fr, sd, rfl, hR, hm, hw, hcase⟩ := walk_spec h
  rcases hcase with ⟨rfl, hA⟩ | ⟨e, hfne, hc, hd, hht, hes, hrep⟩
  · obtain ⟨p, hp, hch, _, _, hat⟩ := Chain.set (fl := fl) (ts := ts) hA.2.2 hq hl
    refine ⟨p, by rw [hw]; simpa [poss] using hp, hat, ?_⟩
    obtain ⟨h4, h16, h32, _⟩ := hR
    exact ⟨h4, h16, h32, Or.inl ⟨hA.1, hA.2.1, hch⟩⟩
  · rw [← hm] at hc hd
    by_cases hi : i < fr.length
    · rw [List.getElem?_append_left hi] at hq
      obtain ⟨p, hp, hch, h1, h2, hat⟩ := Chain.set (fl := fl) (ts := ts) hc hq hl
      refine ⟨p, ?_, hat, ?_⟩
      · rw [hw, List.getElem?_append_left (by rw [poss_length]; exact hi)]; exact hp
      · rw [List.set_append_left _ _ hi]
        have hd' := hd.congr (m' := wr2 (walk f).2.mem p fl ts bs) fun j h3 h4 => wr2_out (by omega)
        exact hrep _ _ hch _ hd' (by simp) rfl
    · have hi' : fr.length ≤ i := by omega
      rw [List.getElem?_append_right hi'] at hq
      obtain ⟨p, hp, hch, h1, h2, hat⟩ := Chain.set (fl := fl) (ts := ts) hd hq hl
      refine ⟨p, ?_, hat, ?_⟩
      · rw [hw, List.getElem?_append_right (by rw [poss_length]; exact hi'), poss_length]; exact hp
      · rw [List.set_append_right _ _ hi']
        have hc' := hc.congr (m' := wr2 (walk f).2.mem p fl ts bs) fun j h3 h4 => wr2_out (by omega)
        exact hrep _ _ hc' _ hch rfl (by simp)

theorem walk_Rep {f ps} (h : Rep f ps) : Rep (walk f).2 ps := by
  obtain ⟨_, _, _, hR, _⟩ := walk_spec h; exact hR

theorem len_zero {f ps} (h : Rep f ps) : ((len f).1 = 0 ↔ ps = []) ∧ Rep (len f).2 ps := by
  cases ps with
  | nil =>
    unfold len; rw [alignTail_nil h]; simp only
    rw [if_pos (h.isEmpty_iff.2 rfl)]; simp [h]
  | cons p ps =>
    have hR := alignTail_Rep h
    have ht := hR.tail_lt
    obtain ⟨⟨hm, hs, hh, h0⟩, hcase⟩ := alignTail_rep h
    obtain ⟨h4, h16, h32, _⟩ := id h
    unfold len; simp only
    generalize hg : alignTail f = g at *
    rw [if_neg (notEmpty hR)]
    have hB : g.hWrap > 0 → g.tail < g.hWrap := by
      intro hpos
      rcases hcase with hA | ⟨fr, sd, e, rfl, hw, hw', hws, hwm, hc, hae, hd, hht, h1, h2⟩ |
        ⟨fr, sd, e, rfl, hw, hw', hes, hae, hc, hd, hht, hne⟩
      · have := hA.1; omega
      · have := hc.lt; have := al_ge g.tail; have := al_ge e; omega
      · omega
    refine ⟨?_, ?_⟩
    · simp only [reduceCtorEq, iff_false]
      repeat' split
      all_goals simp only at *
      all_goals omega
    · repeat' split
      all_goals exact hR

theorem step_refines {f ps op} (h : Rep f ps)
    (hz : match op with | .push d => ¬ Hazard f d.length | _ => True) :
    ∃ ps', specStep ps op (step f op).2 = some ps' ∧ Rep (step f op).1 ps' := by
  cases op with
  | push d =>
    simp only [step]
    cases hp : push f d with
    | none => exact ⟨ps, rfl, h⟩
    | some f' => exact ⟨ps ++ [d], rfl, push_rep h hz hp⟩
  | pop =>
    simp only [step]
    cases ps with
    | nil => rw [pop_nil h]; exact ⟨[], rfl, h⟩
    | cons p ps =>
      rw [pop_cons h]
      obtain ⟨hr, hm, _⟩ := popAligned_rep h
      have := (alignTail_At h).2
      refine ⟨ps, ?_, hr⟩
      simp [specStep, hm, this]
  | peek =>
    simp only [step]
    cases ps with
    | nil => rw [peek_nil h]; exact ⟨[], rfl, h⟩
    | cons p ps =>
      rw [peek_cons h]
      have := (alignTail_At h).2
      refine ⟨p :: ps, ?_, alignTail_Rep h⟩
      simp [specStep, (alignTail_rep h).1.1, this]
  | len =>
    simp only [step]
    obtain ⟨h1, h2⟩ := len_zero h
    exact ⟨ps, by simp [specStep, h1], h2⟩
  | rewrite i fl ts bs =>
    simp only [step]
    have hmap := walk_payloads h
    have hlen : (walk f).1.length = ps.length := by
      have := congrArg List.length hmap; simpa using this
    cases hq : ps[i]? with
    | none =>
      have : (walk f).1[i]? = none := by
        rw [List.getElem?_eq_none_iff] at hq ⊢; omega
      simp only [this]
      exact ⟨ps, by simp [specStep, hq], walk_Rep h⟩
    | some q =>
      have hi : i < (walk f).1.length := by
        rw [hlen]; exact (List.getElem?_eq_some_iff.1 hq).1
      have hp : (walk f).1[i]? = some (walk f).1[i] := List.getElem?_eq_getElem hi
      have hpay : payload (walk f).2.mem (walk f).1[i] = q := by
        have h1 : ((walk f).1.map (payload (walk f).2.mem))[i]? = some q := by rw [hmap]; exact hq
        rw [List.getElem?_map, hp] at h1
        simpa using h1
      have hdl : descLen (walk f).2.mem (walk f).1[i] = q.length := by
        rw [← payload_length, hpay]
      simp only [hp, hdl]
      by_cases hl : q.length = bs.length
      · obtain ⟨p, hp', _, hr⟩ := rewrite_rep (fl := fl) (ts := ts) h hq hl.symm
        rw [hp] at hp'; cases hp'
        rw [if_pos hl]
        exact ⟨ps.set i bs, by simp [specStep, hq, hl], hr⟩
      · rw [if_neg hl]
        exact ⟨ps, by simp [specStep, hq, hl], walk_Rep h⟩

theorem run_refines {ops f ps} (h : Rep f ps) (hs : SafeRun f ops) :
    ∃ ps', specRun ps ops (run f ops).2 = some ps' ∧ Rep (run f ops).1 ps' := by
  induction ops generalizing f ps with
  | nil => exact ⟨ps, rfl, h⟩
  | cons op ops ih =>
    obtain ⟨hz, hs⟩ := hs
    obtain ⟨ps', h1, h2⟩ := step_refines h hz
    obtain ⟨ps'', h3, h4⟩ := ih h2 hs
    refine ⟨ps'', ?_, h4⟩
    simp [run, specRun, h1, h3]

/-! ### Payload lengths that are multiples of four are always safe -/

theorem Chain.end_mod {m} : ∀ {ps s e}, Chain m s ps e → s % 4 = 0 → (∀ p ∈ ps, p.length % 4 = 0) →
    e % 4 = 0
  | [], _, _, h, hs, _ => by simp [Chain] at h; omega
  | p :: ps, s, e, h, hs, hp => by
    refine Chain.end_mod h.2 ?_ (fun q hq => hp q (List.mem_cons_of_mem _ hq))
    have := hp p (by simp); have := al_mod s; omega

theorem no_hazard_aligned {f ps len} (h : Rep f ps) (ht : f.tail % 4 = 0)
    (hp : ∀ p ∈ ps, p.length % 4 = 0) : ¬ Hazard f len := by
  intro hz
  unfold Hazard at hz
  split at hz
  · exact hz
  · rename_i pos w hpl
    obtain ⟨h4, h16, h32, h⟩ := id h
    rcases h with ⟨hw, hs, hc⟩ | ⟨fr, sd, e, rfl, hw, hws, hm, hc, ha, hd, hht, h1, h2⟩ |
      ⟨fr, sd, e, rfl, hw, hes, hae, hc, hd, hht, hne⟩
    · have hmod := hc.end_mod ht hp
      have hle := hc.le
      have hpc := place_cases hpl h16 (Or.inl hw)
      have hah : alignHead f.head f.size = f.head := by
        unfold alignHead; simp only [al_of_mod hmod]; rw [if_neg (by omega)]
      rw [hah] at hpc
      rw [al_of_mod hmod] at hz
      rcases hpc with hh | hh | hh | hh <;> omega
    · have htw : f.tail ≤ f.hWrap := by have := hc.le; have := al_ge e; omega
      have hpc := place_cases hpl h16 (Or.inr htw)
      rcases hpc with hh | hh | hh | hh <;> omega
    · have hmod := hc.end_mod ht (fun p hq => hp p (List.mem_append_left _ hq))
      rw [al_of_mod hmod] at hae; omega

theorem aligned_step {f ps op} (h : Rep f ps) (ht : f.tail % 4 = 0)
    (hp : ∀ p ∈ ps, p.length % 4 = 0)
    (hop : match op with | .push d => d.length % 4 = 0 | _ => True) :
    ∃ ps', Rep (step f op).1 ps' ∧ (step f op).1.tail % 4 = 0 ∧ ∀ p ∈ ps', p.length % 4 = 0 := by
  cases op with
  | push d =>
    simp only [step]
    cases hpu : push f d with
    | none => exact ⟨ps, h, ht, hp⟩
    | some f' =>
      refine ⟨ps ++ [d], push_rep h (no_hazard_aligned h ht hp) hpu, ?_, ?_⟩
      · have : f'.tail = f.tail := by
          unfold push at hpu; split at hpu
          · simp at hpu
          · simp at hpu; subst hpu; rfl
        simp only [this]; exact ht
      · intro p hq
        rcases List.mem_append.1 hq with hq | hq
        · exact hp p hq
        · simp at hq; subst hq; exact hop
  | pop =>
    simp only [step]
    cases ps with
    | nil => rw [pop_nil h]; exact ⟨[], h, ht, hp⟩
    | cons p ps =>
      rw [pop_cons h]
      refine ⟨ps, (popAligned_rep h).1, ?_, fun q hq => hp q (List.mem_cons_of_mem _ hq)⟩
      have hal := hp p (by simp)
      have hat := alignTail_At h
      obtain ⟨⟨hm, hs, hh, h0⟩, hcase⟩ := alignTail_rep h
      have hdl : descLen (alignTail f).mem (alignTail f).tail = p.length := by rw [hm]; exact hat.1
      obtain ⟨h4, h16, h32, _⟩ := id h
      have hwm4 : (alignTail f).hWrap % 4 = 0 := by
        rcases hcase with hA | ⟨fr, sd, e, rfl, hw, hw', hws, hwm, hc, hae, hd, hht, h1, h2⟩ |
          ⟨fr, sd, e, rfl, hw, hw', hes, hae, hc, hd, hht, hne⟩
        · rw [hA.1]
        · omega
        · omega
      simp only [popAligned, popCur, hdl, descSize]
      generalize (alignTail f).hWrap = w at *
      generalize (alignTail f).tail = t at *
      generalize (alignTail f).size = z at *
      have hz4 : z % 4 = 0 := by omega
      have hmm : ∀ x, x % 4 = 0 → x % z % 4 = 0 := by
        intro x hx
        obtain ⟨k, rfl⟩ := Nat.dvd_of_mod_eq_zero hz4
        obtain ⟨j, rfl⟩ := Nat.dvd_of_mod_eq_zero hx
        rw [Nat.mul_mod_mul_left]; omega
      repeat' split
      all_goals first | omega | (apply hmm; omega)
  | peek =>
    simp only [step]
    cases ps with
    | nil => rw [peek_nil h]; exact ⟨[], h, ht, hp⟩
    | cons p ps =>
      rw [peek_cons h]
      exact ⟨p :: ps, alignTail_Rep h, (alignTail_rep h).1.2.2.2, hp⟩
  | len =>
    obtain ⟨_, h2⟩ := len_zero h
    refine ⟨ps, h2, ?_, hp⟩
    have : (len f).2 = alignTail f := by unfold len; simp only; repeat' split
                                         all_goals rfl
    show (len f).2.tail % 4 = 0
    rw [this]
    cases ps with
    | nil => rw [alignTail_nil h]; exact ht
    | cons p ps => exact (alignTail_rep h).1.2.2.2
  | rewrite i fl ts bs =>
    obtain ⟨ps', h1, h2⟩ := step_refines (op := .rewrite i fl ts bs) h trivial
    refine ⟨ps', h2, ?_, ?_⟩
    · have hw2 : (walk f).2.tail % 4 = 0 := by
        have : (walk f).2 = (peek f).2 := rfl
        rw [this]
        cases ps with
        | nil => rw [peek_nil h]; exact ht
        | cons p ps => rw [peek_cons h]; exact (alignTail_rep h).1.2.2.2
      simp only [step]
      repeat' split
      all_goals exact hw2
    · intro p hq
      cases ho : (step f (.rewrite i fl ts bs)).2 with
      | rewrote b =>
        rw [ho] at h1
        cases b with
        | true =>
          simp only [specStep] at h1
          split at h1
          · simp at h1; subst h1
            rename_i hx
            rcases List.mem_or_eq_of_mem_set hq with hq | rfl
            · exact hp p hq
            · cases hqi : ps[i]? with
              | none => simp [hqi] at hx
              | some q =>
                simp [hqi] at hx
                have := hp q (List.mem_of_getElem? hqi)
                omega
          · simp at h1
        | false =>
          simp only [specStep] at h1
          split at h1
          · simp at h1
          · simp at h1; subst h1; exact hp p hq
      | _ => rw [ho] at h1; simp [specStep] at h1

theorem safeRun_of_aligned {ops f ps} (h : Rep f ps) (ht : f.tail % 4 = 0)
    (hp : ∀ p ∈ ps, p.length % 4 = 0)
    (hop : ∀ op ∈ ops, match op with | .push d => d.length % 4 = 0 | _ => True) :
    SafeRun f ops := by
  induction ops generalizing f ps with
  | nil => trivial
  | cons op ops ih =>
    obtain ⟨ps', h1, h2, h3⟩ := aligned_step h ht hp (hop op (by simp))
    refine ⟨?_, ih h1 h2 h3 (fun o ho => hop o (List.mem_cons_of_mem _ ho))⟩
    cases op with
    | push d => exact no_hazard_aligned h ht hp
    | _ => trivial

/-! ### Admission check -/

theorem canPush_eq {f : Fifo} (data : List UInt8) (ht : f.tail ≤ f.size) :
    canPushLen f data.length = (push f data).isSome := by
  have h1 : (push f data).isSome = (place f data.length).isSome := by
    unfold push; split <;> simp_all
  rw [h1]
  unfold canPushLen place descSize
  generalize alignHead f.head f.size = h
  simp only
  generalize spaceAt h f.tail f.size f.hWrap = sp
  generalize (if f.hWrap ≠ 0 ∧ h = f.hWrap then 0 else h) = hd
  by_cases hn : 16 + data.length > f.size
  · rw [if_pos hn]
    symm
    rw [Option.isSome_eq_false_iff, Option.isNone_iff_eq_none]
    split
    · rfl
    · split
      · split
        · rfl
        · omega
      · unfold fitCheck
        repeat' split
        all_goals first | rfl | omega
  · rw [if_neg hn]
    split
    · rfl
    · split
      · split
        · rfl
        · unfold fitCheck
          repeat' split
          all_goals simp_all
      · unfold fitCheck
        repeat' split
        all_goals simp_all

theorem canPush_mono {f : Fifo} {a b : Nat} (hab : a ≤ b) (h : canPushLen f b = true) :
    canPushLen f a = true := by
  unfold canPushLen descSize at *
  generalize alignHead f.head f.size = hd at *
  generalize spaceAt hd f.tail f.size f.hWrap = sp at *
  simp only at *
  generalize (if f.hWrap ≠ 0 ∧ hd = f.hWrap then 0 else hd) = hd' at *
  repeat' split at h
  all_goals repeat' split
  all_goals simp at *
  all_goals omega

theorem searchLoop_spec {ok : Nat → Bool} (hmono : ∀ a b, a ≤ b → ok b = true → ok a = true) :
    ∀ n lo hi best, hi + 1 - lo = n → 1 ≤ lo → best + 1 = lo → (best = 0 ∨ ok best = true) →
    best ≤ hi →
    (searchLoop ok lo hi best = 0 ∨ ok (searchLoop ok lo hi best) = true) ∧
    searchLoop ok lo hi best ≤ hi ∧
    ∀ k, 1 ≤ k → k ≤ hi → ok k = true → k ≤ searchLoop ok lo hi best := by
  intro n
  induction n using Nat.strongRecOn with
  | _ n ih =>
    intro lo hi best hn hlo hb hok hbh
    unfold searchLoop
    split
    · rename_i hle
      simp only
      split
      · rename_i hmid
        exact ih (hi + 1 - (lo + (hi - lo) / 2 + 1)) (by omega) _ _ _ rfl (by omega) rfl
          (Or.inr hmid) (by omega)
      · rename_i hmid
        rw [if_neg (by omega)]
        have := ih (lo + (hi - lo) / 2 - 1 + 1 - lo) (by omega) lo (lo + (hi - lo) / 2 - 1) best rfl
          hlo hb hok (by omega)
        refine ⟨this.1, by omega, ?_⟩
        intro k h1 h2 h3
        by_cases hk : k ≤ lo + (hi - lo) / 2 - 1
        · exact this.2.2 k h1 hk h3
        · exact absurd (hmono _ _ (by omega) h3) hmid
    · rename_i hle
      refine ⟨hok, hbh, ?_⟩
      intro k h1 h2 h3; omega

end Wolf.Fifo
