import Verif.Fifo.Proof
/-! Descriptor walks (`fifo_peek`/`fifo_next`), in-place rewrites, admission check. -/
namespace Wolf.Fifo

/-- Offsets of the descriptors of a chain. -/
def poss : Nat → List Pkt → List Nat
  | _, [] => []
  | s, p :: ps => al s :: poss (al s + 16 + p.length) ps

theorem poss_length : ∀ s ps, (poss s ps).length = ps.length
  | _, [] => rfl
  | s, p :: ps => by simp [poss, poss_length]

theorem poss_payload {m} : ∀ {s ps e}, Chain m s ps e → (poss s ps).map (payload m) = ps
  | _, [], _, _ => rfl
  | s, p :: ps, e, h => by simp [poss, h.1.2, poss_payload h.2]

theorem poss_descLen {m} : ∀ {s ps e}, Chain m s ps e → (poss s ps).map (descLen m) = ps.map List.length
  | _, [], _, _ => rfl
  | s, p :: ps, e, h => by simp [poss, h.1.1, poss_descLen h.2]

theorem chain_count {m} : ∀ {s ps e}, Chain m s ps e → s + 16 * ps.length ≤ e
  | _, [], _, h => by simp [Chain] at h; simp; omega
  | s, p :: ps, e, h => by
    have := chain_count h.2; have := al_ge s; simp only [List.length_cons]; omega

/-- The stop position computed by `next`. -/
def stopPos (f : Fifo) : Nat :=
  let stop := alignHead f.head f.size
  if f.hWrap ≠ 0 ∧ stop = f.hWrap then 0 else stop

/-- The wrap/stop decision of `next` for the candidate position `np`. -/
def nextAt (f : Fifo) (pos np : Nat) : Option Nat :=
  if (if f.hWrap ≠ 0 ∧ pos < f.hWrap ∧ np ≥ f.hWrap then 0 else if np ≥ f.size then 0 else np)
      = stopPos f then none
  else some (if f.hWrap ≠ 0 ∧ pos < f.hWrap ∧ np ≥ f.hWrap then 0 else if np ≥ f.size then 0 else np)

/-- Value of `next` at a descriptor whose packet ends inside the buffer. -/
theorem next_eq {f : Fifo} {pos e : Nat} {p : Pkt} (ha : At f.mem pos p)
    (he : pos + 16 + p.length = e) (hb : al e ≤ f.size) : next f pos = nextAt f pos (al e) := by
  subst he
  have h0 := al_ge (pos + 16 + p.length)
  unfold next
  rw [if_neg (by omega)]
  simp only [ha.1, descSize]
  rw [if_neg (by omega)]
  have e : pos + (16 + p.length) = pos + 16 + p.length := by omega
  rw [e, if_neg (by omega)]
  have e2 : pos + (al (pos + 16 + p.length) - pos) = al (pos + 16 + p.length) := by omega
  rw [e2]
  rfl

/-- Walk over a chain that stays below `bound`, continuing after it. -/
theorem walkFrom_chain {f : Fifo} {bound : Nat} (hbs : bound ≤ f.size)
    (hbw : f.hWrap = 0 ∨ bound ≤ f.hWrap) :
    ∀ (ps : List Pkt) (s e n : Nat) (p : Pkt), Chain f.mem s (p :: ps) e → al e ≤ bound →
      (∀ q ∈ (poss s (p :: ps)).tail, q ≠ stopPos f) →
      ps.length < n →
      ∃ last, walkFrom f n (some (al s)) =
        poss s (p :: ps) ++ walkFrom f (n - (ps.length + 1)) (next f last) ∧
        (∃ pk, At f.mem last pk ∧ last + 16 + pk.length = e)
  | [], s, e, n, p, hc, hb, hq, hn => by
    obtain ⟨ha, hc⟩ := hc
    simp [Chain] at hc
    cases n with
    | zero => simp at hn
    | succ n => exact ⟨al s, by simp [walkFrom, poss], p, ha, hc⟩
  | q :: ps, s, e, n, p, hc, hb, hq, hn => by
    cases n with
    | zero => simp at hn
    | succ n =>
      obtain ⟨ha, hc⟩ := hc
      have hl := hc.lt
      have hge := al_ge e
      have hx : al (al s + 16 + p.length) ≠ stopPos f := hq _ (by simp [poss])
      have hnx : next f (al s) = some (al (al s + 16 + p.length)) := by
        rw [next_eq ha rfl (by omega)]
        have c1 : ¬ (f.hWrap ≠ 0 ∧ al s < f.hWrap ∧ al (al s + 16 + p.length) ≥ f.hWrap) := by omega
        have c2 : ¬ (al (al s + 16 + p.length) ≥ f.size) := by omega
        unfold nextAt
        rw [if_neg c1, if_neg c2, if_neg hx]
      obtain ⟨last, hw, hlast⟩ := walkFrom_chain hbs hbw ps (al s + 16 + p.length) e n q hc hb
        (fun r hr => hq r (by
          simp only [poss, List.tail_cons] at hr ⊢
          exact List.mem_cons_of_mem _ hr)) (by simp only [List.length_cons] at hn; omega)
      refine ⟨last, ?_, hlast⟩
      rw [walkFrom, hnx, hw]
      simp only [poss, List.length_cons, List.cons_append]
      congr 4
      omega

theorem poss_mem_lt {m} : ∀ {ps s e}, Chain m s ps e → ∀ q ∈ poss s ps, al s ≤ q ∧ q + 16 ≤ e ∧ q % 4 = 0
  | [], _, _, _, q, hq => by simp [poss] at hq
  | p :: ps, s, e, h, q, hq => by
    have hl := h.lt
    simp only [poss, List.mem_cons] at hq
    rcases hq with rfl | hq
    · exact ⟨Nat.le_refl _, by omega, al_mod s⟩
    · have := poss_mem_lt h.2 q hq
      have := al_ge (al s + 16 + p.length)
      omega

theorem poss_tail_gt {m} {p ps s e} (h : Chain m s (p :: ps) e) :
    ∀ q ∈ (poss s (p :: ps)).tail, al s < q := by
  intro q hq
  simp only [poss, List.tail_cons] at hq
  have := poss_mem_lt h.2 q hq
  have := al_ge (al s + 16 + p.length)
  omega

/-- The offsets of the packets of a wrapped or straight buffer after alignment of the tail. -/
theorem walk_spec {f ps} (h : Rep f ps) :
    ∃ fr sd, ps = fr ++ sd ∧ Rep (walk f).2 ps ∧ (walk f).2.mem = f.mem ∧
      (walk f).1 = poss (walk f).2.tail fr ++ poss 0 sd ∧
      ((sd = [] ∧ RepA (walk f).2 ps) ∨
       (∃ e, fr ≠ [] ∧ Chain f.mem (walk f).2.tail fr e ∧ Chain f.mem 0 sd (walk f).2.head ∧
          (walk f).2.head ≤ (walk f).2.tail ∧ e ≤ f.size ∧
          (∀ m',
            ∀ fr', Chain m' (walk f).2.tail fr' e → ∀ sd', Chain m' 0 sd' (walk f).2.head →
              fr'.length = fr.length → sd'.length = sd.length → Rep { (walk f).2 with mem := m' } (fr' ++ sd')))) := by
  cases ps with
  | nil =>
    refine ⟨[], [], rfl, ?_⟩
    have hw : walk f = ([], f) := by
      unfold walk; rw [peek_nil h]; simp only
      cases descBudget f <;> rfl
    rw [hw]
    refine ⟨h, rfl, rfl, Or.inl ⟨rfl, ?_⟩⟩
    obtain ⟨_, _, _, hA | hB | hC⟩ := h
    · exact hA
    · obtain ⟨fr, sd, e, hps, hw, hws, hm, hc, ha, hd, hht, h1, h2⟩ := hB
      have := List.append_eq_nil_iff.1 hps.symm
      exact absurd this.1 (h2 (h1 this.2)).1
    · obtain ⟨fr, sd, e, hps, _, _, _, _, _, _, hne⟩ := hC
      exact absurd (List.append_eq_nil_iff.1 hps.symm).2 hne
  | cons p ps =>
    have hR := alignTail_Rep h
    obtain ⟨⟨hm, hs, hh, h0⟩, hcase⟩ := alignTail_rep h
    obtain ⟨h4, h16, h32, _⟩ := id h
    have hwalk : walk f = (walkFrom (alignTail f) (descBudget (alignTail f)) (some (alignTail f).tail),
        alignTail f) := by
      unfold walk; rw [peek_cons h]
    rw [hwalk]
    simp only
    generalize hg : alignTail f = g at *
    have hbud : descBudget g = g.size / 16 + 2 := by
      unfold descBudget; rw [if_neg (by simp only [descSize]; omega)]
    have hgt : al g.tail = g.tail := al_of_mod h0
    have hahd := al_ge g.head
    rcases hcase with hA | ⟨fr, sd, e, rfl, hw, hw', hws, hwm, hc, hae, hd, hht, h1, h2⟩ |
      ⟨fr, sd, e, rfl, hw, hw', hes, hae, hc, hd, hht, hne⟩
    · refine ⟨p :: ps, [], by simp, hR, hm, ?_, Or.inl ⟨rfl, hA⟩⟩
      obtain ⟨hw, hs', hc⟩ := hA
      have hcnt := chain_count hc
      have halle : al g.head ≤ g.size := by have := al_mono (Nat.le_of_lt hs'); rw [al_of_mod (by omega : g.size % 4 = 0)] at this; exact this
      have hstop : stopPos g = if g.size ≤ al g.head then 0 else al g.head := by
        unfold stopPos alignHead; simp [hw]
      obtain ⟨last, hwf, pk, hap, hlast⟩ := walkFrom_chain (f := g) (bound := g.size) (Nat.le_refl _)
        (Or.inl hw) ps g.tail g.head (descBudget g) p hc halle (by
          intro q hq
          have h1 := poss_tail_gt hc q hq
          have h2 := poss_mem_lt hc q (List.mem_of_mem_tail hq)
          rw [hstop]; split <;> omega) (by simp only [List.length_cons] at hcnt; omega)
      rw [hgt] at hwf
      rw [hwf, next_eq hap hlast (by omega), nextAt]
      simp only [hw, ne_eq, not_true, false_and, if_false, hstop, ge_iff_le, if_true]
      cases descBudget g - (ps.length + 1) <;> simp [walkFrom, poss]
    · refine ⟨p :: fr, sd, rfl, hR, hm, ?_, Or.inr ⟨e, by simp, hc, by rw [hh]; exact hd, by omega, by have := al_ge e; omega, ?_⟩⟩
      · have hcnt := chain_count hc
        have hcntd := chain_count hd
        have hl := hc.lt
        have hge := al_ge e
        have hpin : al g.head ≤ g.tail := by have := al_mono hht; rw [hgt, ← hh] at this; exact this
        have hstop : stopPos g = al g.head := by
          have h1 : alignHead g.head g.size = al g.head := by
            unfold alignHead; simp only; rw [if_neg (by omega)]
          unfold stopPos; rw [h1]; simp only; rw [if_neg (by omega)]
        have hc' : Chain g.mem g.tail (p :: fr) e := by rw [hm]; exact hc
        obtain ⟨last, hwf, pk, hap, hlast⟩ := walkFrom_chain (f := g) (bound := g.hWrap) (by omega)
          (Or.inr (Nat.le_refl _)) fr g.tail e (descBudget g) p hc' (by omega) (by
            intro q hq
            have h1 := poss_tail_gt hc q hq
            rw [hstop]; omega) (by simp only [List.length_cons] at hcnt; omega)
        rw [hgt] at hwf
        rw [hwf, next_eq hap hlast (by omega), nextAt]
        have c1 : g.hWrap ≠ 0 ∧ last < g.hWrap ∧ al e ≥ g.hWrap := by omega
        simp only [if_pos c1, hstop]
        cases sd with
        | nil =>
          simp [Chain] at hd
          rw [hh, ← hd]
          simp [al, poss]
          cases descBudget g - (fr.length + 1) <;> rfl
        | cons q sd =>
          have hd' : Chain g.mem 0 (q :: sd) g.head := by rw [hm, hh]; exact hd
          have hldd := hd'.lt
          rw [if_neg (by omega)]
          obtain ⟨last2, hwf2, pk2, hap2, hlast2⟩ := walkFrom_chain (f := g) (bound := g.tail)
            (by omega)
            (Or.inr (by omega)) sd 0 g.head (descBudget g - (fr.length + 1)) q hd' hpin (by
              intro r hr
              have h2 := poss_mem_lt hd' r (List.mem_of_mem_tail hr)
              rw [hstop]; omega) (by simp only [List.length_cons] at hcnt hcntd; omega)
          have : al 0 = 0 := rfl
          rw [this] at hwf2
          rw [hwf2, next_eq hap2 hlast2 (by omega), nextAt]
          have c2 : ¬ (g.hWrap ≠ 0 ∧ last2 < g.hWrap ∧ al g.head ≥ g.hWrap) := by omega
          have c3 : ¬ (al g.head ≥ g.size) := by omega
          rw [if_neg c2, if_neg c3, if_pos hstop.symm]
          cases descBudget g - (fr.length + 1) - (sd.length + 1) <;> simp [walkFrom]
      · intro m' fr' hcf sd' hcs hlf hls
        refine ⟨by simp only; omega, by simp only; omega, by simp only; omega, Or.inr (Or.inl
          ⟨fr', sd', e, rfl, by simp only; omega, by simp only; omega, by simp only; omega, hcf,
            by simp only; omega, hcs, by simp only; omega, ?_, ?_⟩)⟩
        · simp only
          rintro rfl
          have : sd = [] := List.length_eq_zero_iff.1 (by simpa using hls.symm)
          rw [hw', hs]; exact h1 this
        · simp only
          intro hx
          refine ⟨?_, by rw [hs]; exact h2 (by omega)⟩
          rintro rfl
          simp at hlf
    · refine ⟨p :: fr, sd, rfl, hR, hm, ?_, Or.inr ⟨e, by simp, hc, by rw [hh]; exact hd, by have := al_ge f.head; omega, by omega, ?_⟩⟩
      · have hcnt := chain_count hc
        have hcntd := chain_count hd
        have hl := hc.lt
        have hge := al_ge e
        have hpin : al g.head < g.tail := by rw [hh]; exact hht
        have hstop : stopPos g = al g.head := by
          have h1 : alignHead g.head g.size = al g.head := by
            unfold alignHead; simp only; rw [if_neg (by omega)]
          unfold stopPos; rw [h1]; simp only; rw [if_neg (by omega)]
        have hc' : Chain g.mem g.tail (p :: fr) e := by rw [hm]; exact hc
        obtain ⟨last, hwf, pk, hap, hlast⟩ := walkFrom_chain (f := g) (bound := g.size) (by omega)
          (Or.inl hw') fr g.tail e (descBudget g) p hc' (by omega) (by
            intro q hq
            have h1 := poss_tail_gt hc q hq
            rw [hstop]; omega) (by simp only [List.length_cons] at hcnt; omega)
        rw [hgt] at hwf
        rw [hwf, next_eq hap hlast (by omega), nextAt]
        simp only [hw', ne_eq, not_true, false_and, if_false, hstop]
        rw [if_pos (by omega : al e ≥ g.size)]
        cases sd with
        | nil => exact absurd rfl hne
        | cons q sd =>
          have hd' : Chain g.mem 0 (q :: sd) g.head := by rw [hm, hh]; exact hd
          have hldd := hd'.lt
          rw [if_neg (by omega)]
          obtain ⟨last2, hwf2, pk2, hap2, hlast2⟩ := walkFrom_chain (f := g) (bound := g.size)
            (by omega)
            (Or.inl hw') sd 0 g.head (descBudget g - (fr.length + 1)) q hd' (by omega) (by
              intro r hr
              have h2 := poss_mem_lt hd' r (List.mem_of_mem_tail hr)
              rw [hstop]; omega) (by simp only [List.length_cons] at hcnt hcntd; omega)
          have : al 0 = 0 := rfl
          rw [this] at hwf2
          rw [hwf2, next_eq hap2 hlast2 (by omega), nextAt]
          simp only [hw', ne_eq, not_true, false_and, if_false]
          have c3 : ¬ (al g.head ≥ g.size) := by omega
          rw [if_neg c3, if_pos hstop.symm]
          cases descBudget g - (fr.length + 1) - (sd.length + 1) <;> simp [walkFrom]
      · intro m' fr' hcf sd' hcs hlf hls
        refine ⟨by simp only; omega, by simp only; omega, by simp only; omega, Or.inr (Or.inr
          ⟨fr', sd', e, rfl, by simp only; omega, by simp only; omega, by simp only; omega, hcf,
            hcs, by simp only; rw [hh]; omega, ?_⟩)⟩
        rintro rfl
        exact hne (List.length_eq_zero_iff.1 (by simpa using hls.symm))

end Wolf.Fifo
