import Verif.Fifo.Lemmas
/-! Refinement proof of the packet FIFO. -/
namespace Wolf.Fifo

abbrev Pkt := List UInt8

/-- Straight layout: packets from `tail` to `head`. -/
def RepA (f : Fifo) (ps : List Pkt) : Prop :=
  f.hWrap = 0 ∧ f.head < f.size ∧ Chain f.mem f.tail ps f.head

/-- Wrapped layout with an explicit wrap mark. -/
def RepB (f : Fifo) (ps : List Pkt) : Prop :=
  ∃ fr sd e, ps = fr ++ sd ∧ f.hWrap ≠ 0 ∧ f.hWrap ≤ f.size ∧ f.hWrap % 4 = 0 ∧
    Chain f.mem f.tail fr e ∧ al e = f.hWrap ∧ Chain f.mem 0 sd f.head ∧ f.head ≤ f.tail ∧
    (sd = [] → f.hWrap = f.size) ∧ (f.hWrap = f.size → fr ≠ [] ∧ e = f.size)

/-- Wrapped layout without mark (last packet of the front part ends in the last word). -/
def RepC (f : Fifo) (ps : List Pkt) : Prop :=
  ∃ fr sd e, ps = fr ++ sd ∧ f.hWrap = 0 ∧ e < f.size ∧ al e = f.size ∧
    Chain f.mem f.tail fr e ∧ Chain f.mem 0 sd f.head ∧ al f.head < f.tail ∧ sd ≠ []

/-- The buffer `f` holds exactly the packets `ps`, oldest first. -/
def Rep (f : Fifo) (ps : List Pkt) : Prop :=
  f.size % 4 = 0 ∧ 16 ≤ f.size ∧ f.size < 2^32 ∧ (RepA f ps ∨ RepB f ps ∨ RepC f ps)

theorem Rep.tail_lt {f ps} (h : Rep f ps) : f.tail < f.size := by
  obtain ⟨h4, h16, _, h | h | h⟩ := h
  · have := h.2.2.le; have := h.2.1; omega
  · obtain ⟨fr, sd, e, _, hw, hws, hm, hc, ha, hd, hht, h1, h2⟩ := h
    have hle := hc.le
    cases fr with
    | nil =>
      have hws' : f.hWrap ≠ f.size := fun h => (h2 h).1 rfl
      simp [Chain] at hc; have := al_ge e; omega
    | cons p fr =>
      have := hc.al_le (by simp); have := al_ge f.tail; have := al_ge e; omega
  · obtain ⟨fr, sd, e, _, hw, hes, hae, hc, hd, hht, hne⟩ := h
    have := hc.le; omega

theorem Rep.isEmpty_iff {f ps} (h : Rep f ps) : isEmpty f = true ↔ ps = [] := by
  unfold isEmpty
  obtain ⟨h4, h16, _, h | h | h⟩ := h
  · obtain ⟨hw, hs, hc⟩ := h
    cases ps with
    | nil => simp [Chain] at hc; simp [hw, hc]
    | cons p ps => have := hc.lt; have := al_ge f.tail; simp; intro; omega
  · obtain ⟨fr, sd, e, hps, hw, hws, hm, hc, ha, hd, hht, h1, h2⟩ := h
    simp [hw]
    rintro rfl
    have := List.append_eq_nil_iff.1 hps.symm
    exact (h2 (h1 this.2)).1 this.1
  · obtain ⟨fr, sd, e, hps, hw, hes, hae, hc, hd, hht, hne⟩ := h
    have := al_ge f.head
    have : f.head ≠ f.tail := by omega
    simp [this]
    rintro rfl
    exact hne (List.append_eq_nil_iff.1 hps.symm).2

theorem init_rep (size : Nat) (h4 : size % 4 = 0) (h16 : 16 ≤ size) (hs : size < 2^32) :
    Rep (init size) [] := by
  refine ⟨h4, h16, hs, Or.inl ⟨rfl, ?_, rfl⟩⟩
  show 0 < size; omega

theorem alignTailCur_front {tail hWrap size} (ht : al tail + 16 ≤ size)
    (hw : hWrap = 0 ∨ al tail + 16 ≤ hWrap) : alignTailCur tail hWrap size = (al tail, hWrap) := by
  have c1 : ¬ (hWrap ≠ 0 ∧ al tail ≥ hWrap) := by omega
  have c2 : ¬ (hWrap ≠ 0 ∧ al tail < hWrap ∧ al tail + 16 > hWrap) := by omega
  have c3 : ¬ (size > 0 ∧ al tail ≥ size) := by omega
  have c4 : ¬ (al tail + 16 > size) := by omega
  simp only [alignTailCur, descSize, if_neg c1, if_neg c2, if_neg c3, if_neg c4]

theorem alignTailCur_wrapB {tail hWrap size} (h0 : hWrap ≠ 0) (h1 : hWrap ≤ al tail)
    (hs : 16 ≤ size) : alignTailCur tail hWrap size = (0, 0) := by
  have c1 : (hWrap ≠ 0 ∧ al tail ≥ hWrap) := by omega
  have c3 : ¬ (size > 0 ∧ 0 ≥ size) := by omega
  simp only [alignTailCur, descSize, if_pos c1, ne_eq, not_true, false_and, if_false, if_neg c3]
  rw [if_neg (by omega)]

theorem alignTailCur_wrapC {tail size} (h1 : al tail = size)
    (hs : 16 ≤ size) : alignTailCur tail 0 size = (0, 0) := by
  unfold alignTailCur descSize
  simp [h1]

/-- Result of `alignTail` on a non-empty buffer: aligned tail that points at the first packet. -/
theorem alignTail_rep {f p ps} (h : Rep f (p :: ps)) :
    ((alignTail f).mem = f.mem ∧ (alignTail f).size = f.size ∧ (alignTail f).head = f.head ∧
    (alignTail f).tail % 4 = 0) ∧
    (RepA (alignTail f) (p :: ps) ∨
      (∃ fr sd e, ps = fr ++ sd ∧ f.hWrap ≠ 0 ∧ (alignTail f).hWrap = f.hWrap ∧ f.hWrap ≤ f.size ∧
        f.hWrap % 4 = 0 ∧
        Chain f.mem (alignTail f).tail (p :: fr) e ∧ al e = f.hWrap ∧ Chain f.mem 0 sd f.head ∧
        f.head ≤ (alignTail f).tail ∧ (sd = [] → f.hWrap = f.size) ∧
        (f.hWrap = f.size → e = f.size)) ∨
      (∃ fr sd e, ps = fr ++ sd ∧ f.hWrap = 0 ∧ (alignTail f).hWrap = 0 ∧ e < f.size ∧
        al e = f.size ∧ Chain f.mem (alignTail f).tail (p :: fr) e ∧ Chain f.mem 0 sd f.head ∧
        al f.head < (alignTail f).tail ∧ sd ≠ [])) := by
  have hne : isEmpty f = false := by
    cases he : isEmpty f with
    | false => rfl
    | true => exact absurd (h.isEmpty_iff.1 he) (by simp)
  have hlt := h.tail_lt
  have hat := al_ge f.tail
  obtain ⟨h4, h16, h32, h | h | h⟩ := h
  · obtain ⟨hw, hs, hc⟩ := h
    have hl := hc.lt
    have : alignTail f = { f with tail := al f.tail } := by
      unfold alignTail; rw [if_neg (by simp [hne]), alignTailCur_front (by omega) (by omega)]
    rw [this]
    exact ⟨⟨rfl, rfl, rfl, al_mod _⟩, Or.inl ⟨hw, hs, hc.realign (by simp)⟩⟩
  · obtain ⟨fr, sd, e, hps, hw, hws, hm, hc, ha, hd, hht, h1, h2⟩ := h
    cases fr with
    | nil =>
      simp at hps; subst hps
      simp [Chain] at hc; subst hc
      have : alignTail f = { f with tail := 0, hWrap := 0 } := by
        unfold alignTail
        rw [if_neg (by simp [hne]), alignTailCur_wrapB hw (by omega) h16]
      rw [this]
      exact ⟨⟨rfl, rfl, rfl, rfl⟩, Or.inl ⟨rfl, by simp only; omega, hd⟩⟩
    | cons q fr =>
      simp at hps; obtain ⟨rfl, rfl⟩ := hps
      have hl := hc.lt
      have hge := al_ge e
      have : alignTail f = { f with tail := al f.tail } := by
        unfold alignTail
        rw [if_neg (by simp [hne]), alignTailCur_front (by omega) (by omega)]
      rw [this]
      refine ⟨⟨rfl, rfl, rfl, al_mod _⟩, Or.inr (Or.inl ?_)⟩
      exact ⟨fr, sd, e, rfl, hw, rfl, hws, hm, hc.realign (by simp), ha, hd, by simp only; omega,
        h1, fun h => (h2 h).2⟩
  · obtain ⟨fr, sd, e, hps, hw, hes, hae, hc, hd, hht, hne'⟩ := h
    cases fr with
    | nil =>
      simp at hps; subst hps
      simp [Chain] at hc; subst hc
      have : alignTail f = { f with tail := 0 } := by
        unfold alignTail
        rw [if_neg (by simp [hne]), hw, alignTailCur_wrapC hae h16]
      rw [this]
      exact ⟨⟨rfl, rfl, rfl, rfl⟩, Or.inl ⟨hw, by have := al_ge f.head; simp only; omega, hd⟩⟩
    | cons q fr =>
      simp at hps; obtain ⟨rfl, rfl⟩ := hps
      have hl := hc.lt
      have : alignTail f = { f with tail := al f.tail } := by
        unfold alignTail
        rw [if_neg (by simp [hne]), alignTailCur_front (by omega) (by omega)]
      rw [this]
      refine ⟨⟨rfl, rfl, rfl, al_mod _⟩, Or.inr (Or.inr ?_)⟩
      exact ⟨fr, sd, e, rfl, hw, hw, hes, hae, hc.realign (by simp), hd, by simp only; omega, hne'⟩

theorem alignTail_Rep {f p ps} (h : Rep f (p :: ps)) : Rep (alignTail f) (p :: ps) := by
  obtain ⟨⟨hm, hs, hh, h0⟩, hc⟩ := alignTail_rep h
  obtain ⟨h4, h16, h32, _⟩ := h
  refine ⟨by omega, by omega, by omega, ?_⟩
  rcases hc with hA | ⟨fr, sd, e, rfl, hw, hw', hws, hwm, hc, hae, hd, hht, h1, h2⟩ |
    ⟨fr, sd, e, rfl, hw, hw', hes, hae, hc, hd, hht, hne⟩
  · exact Or.inl hA
  · refine Or.inr (Or.inl ⟨p :: fr, sd, e, rfl, by omega, by omega, by omega, by rw [hm]; exact hc,
      by omega, by rw [hm, hh]; exact hd, by omega, ?_, ?_⟩)
    · intro h; rw [hw', hs]; exact h1 h
    · intro h; rw [hw', hs] at h; exact ⟨by simp, by rw [hs]; exact h2 h⟩
  · exact Or.inr (Or.inr ⟨p :: fr, sd, e, rfl, hw', by omega, by omega, by rw [hm]; exact hc,
      by rw [hm, hh]; exact hd, by rw [hh]; omega, hne⟩)

theorem alignTail_At {f p ps} (h : Rep f (p :: ps)) : At f.mem (alignTail f).tail p := by
  obtain ⟨⟨hm, hs, hh, h0⟩, hc⟩ := alignTail_rep h
  rcases hc with hA | ⟨fr, sd, e, rfl, hw, hw', hws, hwm, hc, _⟩ |
    ⟨fr, sd, e, rfl, hw, hw', hes, hae, hc, _⟩
  · have := hA.2.2.1; rw [al_of_mod h0, hm] at this; exact this
  · have := hc.1; rw [al_of_mod h0] at this; exact this
  · have := hc.1; rw [al_of_mod h0] at this; exact this

theorem alignTail_nil {f} (h : Rep f []) : alignTail f = f := by
  unfold alignTail; rw [if_pos (h.isEmpty_iff.2 rfl)]

theorem peek_nil {f} (h : Rep f []) : peek f = (none, f) := by
  unfold peek; rw [if_pos (h.isEmpty_iff.2 rfl)]

theorem notEmpty {f p ps} (h : Rep f (p :: ps)) : ¬ (isEmpty f = true) := by
  rw [h.isEmpty_iff]; simp

theorem peek_cons {f p ps} (h : Rep f (p :: ps)) :
    peek f = (some (alignTail f).tail, alignTail f) := by
  unfold peek; rw [if_neg (notEmpty h)]
  simp only
  rw [if_neg (notEmpty (alignTail_Rep h))]

theorem pop_nil {f} (h : Rep f []) : pop f = (none, f) := by
  unfold pop; rw [if_pos (h.isEmpty_iff.2 rfl)]

theorem pop_cons {f p ps} (h : Rep f (p :: ps)) :
    pop f = (some (alignTail f).tail, popAligned (alignTail f)) := by
  unfold pop; rw [if_neg (notEmpty h)]
  simp only
  rw [if_neg (notEmpty (alignTail_Rep h))]

theorem popCur_plain {head tail hWrap size n} (h1 : tail + n < size) (h2 : hWrap = 0 ∨ tail + n < hWrap)
    (h3 : hWrap = 0 ∨ tail + n ≠ head) : popCur head tail hWrap size n = (tail + n, hWrap) := by
  have c1 : ¬ (hWrap ≠ 0 ∧ tail + n ≥ hWrap) := by omega
  have c2 : ¬ (tail + n ≥ size) := by omega
  have c3 : (if tail + n = head then 0 else hWrap) = hWrap := by split <;> omega
  simp only [popCur, if_neg c1, if_neg c2, c3]

theorem popCur_wrap {head tail hWrap size n} (h2 : hWrap ≠ 0) (h3 : tail + n = hWrap)
    (hs : 16 ≤ size) : popCur head tail hWrap size n = (0, 0) := by
  have c1 : (hWrap ≠ 0 ∧ tail + n ≥ hWrap) := by omega
  have c2 : ¬ (0 ≥ size) := by omega
  have c0 : tail + n - hWrap = 0 := by omega
  simp only [popCur, if_pos c1, c0, if_neg c2, ite_self]

theorem popAligned_rep {f p ps} (h : Rep f (p :: ps)) : Rep (popAligned (alignTail f)) ps ∧
    (popAligned (alignTail f)).mem = f.mem ∧ (popAligned (alignTail f)).size = f.size := by
  have hat := alignTail_At h
  obtain ⟨⟨hm, hs, hh, h0⟩, hcase⟩ := alignTail_rep h
  obtain ⟨h4, h16, h32, _⟩ := h
  generalize hg : alignTail f = g at *
  have hdl : descLen g.mem g.tail = p.length := by rw [hm]; exact hat.1
  refine ⟨?_, by simp [popAligned, hm], by simp [popAligned, hs]⟩
  unfold popAligned
  rw [hdl]
  refine ⟨by simp only; omega, by simp only; omega, by simp only; omega, ?_⟩
  simp only [descSize]
  rcases hcase with hA | ⟨fr, sd, e, rfl, hw, hw', hws, hwm, hc, hae, hd, hht, h1, h2⟩ |
    ⟨fr, sd, e, rfl, hw, hw', hes, hae, hc, hd, hht, hne⟩
  · obtain ⟨hw, hs', hc⟩ := hA
    have hc2 := hc.2
    rw [al_of_mod h0] at hc2
    have hl := hc2.le
    rw [popCur_plain (by omega) (by omega) (by omega)]
    exact Or.inl ⟨hw, hs', by rw [← Nat.add_assoc]; exact hc2⟩
  · have hc2 := hc.2
    rw [al_of_mod h0] at hc2
    have hl := hc2.le
    have hge := al_ge e
    by_cases hlast : g.tail + (16 + p.length) ≥ g.hWrap
    · have hfr : fr = [] := by
        cases fr with
        | nil => rfl
        | cons q fr => have := hc2.lt; have := al_ge (g.tail + 16 + p.length); omega
      subst hfr
      simp [Chain] at hc2
      rw [popCur_wrap (by omega) (by omega) (by omega)]
      refine Or.inl ⟨rfl, ?_, ?_⟩
      · have := hc.lt; simp only; omega
      · simp only [List.nil_append]; rw [hm, hh]; exact hd
    · rw [popCur_plain (by omega) (by omega) (by omega)]
      refine Or.inr (Or.inl ⟨fr, sd, e, rfl, by simp only; omega, by simp only; omega,
          by simp only; omega, ?_, by simp only; omega, ?_, by simp only; omega, ?_, ?_⟩)
      · simp only; rw [hm, ← Nat.add_assoc]; exact hc2
      · simp only; rw [hm, hh]; exact hd
      · simp only; intro h; rw [hw', hs]; exact h1 h
      · simp only; intro h
        rw [hw', hs] at h
        have h3 := h2 h
        refine ⟨?_, by omega⟩
        rintro rfl
        simp [Chain] at hc2
        omega
  · have hc2 := hc.2
    rw [al_of_mod h0] at hc2
    have hl := hc2.le
    have := al_ge f.head
    rw [popCur_plain (by omega) (by omega) (by omega)]
    refine Or.inr (Or.inr ⟨fr, sd, e, rfl, hw', by simp only; omega, by simp only; omega, ?_, ?_,
      by simp only; rw [hh]; omega, hne⟩)
    · simp only; rw [hm, ← Nat.add_assoc]; exact hc2
    · simp only; rw [hm, hh]; exact hd

/-- A push that is accepted although the buffer, seen through its cursors, is about to look empty:
(1) the frame is placed below the tail without a wrap mark and fills the gap up to the word holding
the tail, or (2) the tail is at offset 0, data is stored, and the head lies in the last partial word
of the buffer, so its aligned value is again 0. -/
def Hazard (f : Fifo) (len : Nat) : Prop :=
  match place f len with
  | none => False
  | some (pos, w) => w = 0 ∧
      ((pos + 16 + len ≤ f.tail ∧ f.tail ≤ al (pos + 16 + len)) ∨
       (f.tail = 0 ∧ f.head ≠ 0 ∧ f.size ≤ al f.head))

instance (f : Fifo) (len : Nat) : Decidable (Hazard f len) := by
  unfold Hazard; split <;> infer_instance

/-- Where `place` puts a frame. -/
theorem place_cases {f : Fifo} {len pos w : Nat} (hp : place f len = some (pos, w))
    (h16 : 16 ≤ f.size) (htl : f.hWrap = 0 ∨ f.tail ≤ f.hWrap) :
    (f.hWrap ≠ 0 ∧ pos = alignHead f.head f.size ∧ w = f.hWrap ∧ pos + 16 + len ≤ f.tail) ∨
    (f.hWrap = 0 ∧ pos = alignHead f.head f.size ∧ f.tail ≤ pos ∧ w = 0 ∧ pos + 16 + len ≤ f.size) ∨
    (f.hWrap = 0 ∧ pos = 0 ∧ f.tail ≤ w ∧ w = alignHead f.head f.size ∧ 16 + len ≤ f.tail) ∨
    (f.hWrap = 0 ∧ pos = alignHead f.head f.size ∧ pos < f.tail ∧ w = 0 ∧ pos + 16 + len ≤ f.tail) := by
  unfold place descSize at hp
  generalize alignHead f.head f.size = h at *
  simp only at hp
  have hsp : ∀ n, ¬ spaceAt h f.tail f.size f.hWrap < n → f.hWrap = 0 ∧ h < f.tail → h + n ≤ f.tail := by
    intro n hn hx; unfold spaceAt at hn
    rw [if_neg (by omega), if_neg (by omega), if_neg (by omega), if_neg (by omega)] at hn
    omega
  have hsp2 : ∀ n, 0 < n → ¬ spaceAt h f.tail f.size f.hWrap < n → f.hWrap ≠ 0 → h < f.tail := by
    intro n h0 hn hx; unfold spaceAt at hn
    by_cases h < f.tail
    · assumption
    · by_cases hh : h = f.tail
      · rw [if_neg (by omega), if_pos hh] at hn; omega
      · rw [if_neg (by omega), if_neg hh, if_pos hx, if_neg (by assumption)] at hn; omega
  split at hp
  · simp at hp
  · rename_i hs
    have hs1 := hsp _ hs
    have hs2 := hsp2 _ (by omega) hs
    have hc : ¬ (f.hWrap ≠ 0 ∧ h = f.hWrap) := by omega
    simp only [if_neg hc] at hp
    split at hp
    · split at hp
      · simp at hp
      · unfold fitCheck at hp
        repeat' split at hp
        all_goals first
          | (simp only [Option.some.injEq, Prod.mk.injEq] at hp; omega)
          | (exfalso; simp at hp; done)
    · unfold fitCheck at hp
      repeat' split at hp
      all_goals first
        | (simp only [Option.some.injEq, Prod.mk.injEq] at hp; omega)
        | (exfalso; simp at hp; done)

theorem mem_write_out {m : Nat → UInt8} {pos : Nat} {d : List UInt8} {i : Nat}
    (h : i < pos ∨ pos + 16 + d.length ≤ i) :
    m i = wr (wr m pos (descBytes pos d.length)) (pos + descSize) d i := by
  rw [wr_out (by simp only [descSize]; omega), wr_out (by rw [descBytes_length]; omega)]

theorem push_rep {f ps d f'} (h : Rep f ps) (hz : ¬ Hazard f d.length) (hp : push f d = some f') :
    Rep f' (ps ++ [d]) := by
  have htl := h.tail_lt
  unfold push at hp
  split at hp
  · cases hp
  · rename_i pos w hpl
    simp only [Option.some.injEq] at hp
    unfold Hazard at hz; rw [hpl] at hz; simp only at hz
    obtain ⟨h4, h16, h32, h⟩ := h
    subst hp
    have hah := al_ge f.head
    refine ⟨h4, h16, h32, ?_⟩
    rcases h with ⟨hw, hs, hc⟩ | ⟨fr, sd, e, hps, hw, hws, hm, hc, ha, hd, hht, h1, h2⟩ |
      ⟨fr, sd, e, hps, hw, hes, hae, hc, hd, hht, hne⟩
    · have hle := hc.le
      have hpc := place_cases hpl h16 (Or.inl hw)
      have hlen : d.length < 2^32 := by omega
      have hat := At_write f.mem pos d hlen
      by_cases hend : f.size ≤ al f.head
      · have hah0 : alignHead f.head f.size = 0 := by unfold alignHead; simp [hend]
        rw [hah0] at hpc
        have hsz : al f.head = f.size := by have := al_lt f.head; have := al_mod f.head; omega
        have hz' : pos = 0 ∧ w = 0 ∧ 16 + d.length < f.tail ∧ al (16 + d.length) < f.tail := by
          have hq : f.tail ≠ 0 := by
            intro h0; rcases hpc with hh | hh | hh | hh <;> try omega
            all_goals exact hz ⟨by omega, Or.inr ⟨h0, by intro hh0; rw [hh0] at hsz; simp [al] at hsz; omega, hend⟩⟩
          have hp0 : pos = 0 ∧ w = 0 ∧ 16 + d.length ≤ f.tail := by
            rcases hpc with hh | hh | hh | hh <;> omega
          refine ⟨hp0.1, hp0.2.1, ?_⟩
          have := al_ge (16 + d.length)
          by_cases hx : f.tail ≤ al (16 + d.length)
          · exfalso; apply hz; refine ⟨hp0.2.1, Or.inl ?_⟩
            rw [hp0.1]; simp only [Nat.zero_add]; omega
          · omega
        obtain ⟨rfl, rfl, hlt, hal⟩ := hz'
        refine Or.inr (Or.inr ⟨ps, [d], f.head, rfl, ?_, hs, hsz, ?_, ?_, ?_, by simp⟩)
        · simp only [descSize]; rw [if_neg (by omega)]
        · exact hc.congr fun i h1 h2 => mem_write_out (by omega)
        · refine ⟨?_, ?_⟩
          · exact hat
          · simp only [Chain, descSize]; rw [if_neg (by omega)]; simp [al]
        · simp only [descSize]; rw [if_neg (by omega)]; simpa using hal
      · have hah0 : alignHead f.head f.size = al f.head := by unfold alignHead; simp [hend]
        rw [hah0] at hpc
        have hcase : (pos = al f.head ∧ w = 0 ∧ pos + 16 + d.length ≤ f.size) ∨
            (pos = 0 ∧ w = al f.head ∧ 16 + d.length ≤ f.tail) := by
          rcases hpc with hh | hh | hh | hh <;> omega
        rcases hcase with ⟨rfl, rfl, hfit⟩ | ⟨rfl, rfl, hfit⟩
        · have hch : Chain (wr (wr f.mem (al f.head) (descBytes (al f.head) d.length))
              (al f.head + descSize) d) f.tail (ps ++ [d]) (al f.head + 16 + d.length) :=
            (hc.congr fun i h1 h2 => mem_write_out (by omega)).snoc hat
          by_cases hfull : al f.head + descSize + d.length = f.size
          · refine Or.inr (Or.inl ⟨ps ++ [d], [], al f.head + 16 + d.length, by simp, ?_, ?_, ?_, hch,
              ?_, ?_, ?_, ?_, ?_⟩)
            · simp [hfull]; omega
            · simp [hfull]
            · simp [hfull]; omega
            · simp only [descSize] at hfull; simp [hfull]; exact al_of_mod h4
            · simp [hfull, Chain]
            · simp [hfull]
            · simp [hfull]
            · intro _; simp only [descSize] at hfull; exact ⟨by simp, hfull⟩
          · refine Or.inl ⟨?_, ?_, ?_⟩
            · simp [hfull]
            · simp only [hfull, if_false]; simp only [descSize] at hfull ⊢; omega
            · simp only [hfull, if_false]; exact hch
        · have hw0 : al f.head ≠ 0 := by omega
          have hna : ¬ (0 + descSize + d.length = f.size) := by simp only [descSize]; omega
          refine Or.inr (Or.inl ⟨ps, [d], f.head, rfl, ?_, ?_, ?_, ?_, ?_, ?_, ?_, ?_, ?_⟩)
          · simp only [hna, false_and, if_false]; exact hw0
          · simp only [hna, false_and, if_false]; omega
          · simp only [hna, false_and, if_false]; exact al_mod _
          · exact hc.congr fun i h1 h2 => mem_write_out (by omega)
          · simp only [hna, false_and, if_false]
          · exact ⟨hat, by simp only [hna, if_false, Chain, descSize]; simp [al]⟩
          · simp only [hna, if_false, descSize]; omega
          · intro h; cases h
          · simp only [hna, false_and, if_false]; intro; omega
    · have htw : f.tail ≤ f.hWrap := by have := hc.le; have := al_ge e; omega
      have hpc := place_cases hpl h16 (Or.inr htw)
      have hlen : d.length < 2^32 := by omega
      have hat := At_write f.mem pos d hlen
      have hend : ¬ f.size ≤ al f.head := by
        have hmono := al_mono hht
        cases fr with
        | nil =>
          simp [Chain] at hc; subst hc
          have : f.hWrap ≠ f.size := fun h => (h2 h).1 rfl
          omega
        | cons q fr => have := hc.lt; have := al_ge e; omega
      have hah0 : alignHead f.head f.size = al f.head := by unfold alignHead; simp [hend]
      rw [hah0] at hpc
      have hz' : pos = al f.head ∧ w = f.hWrap ∧ pos + 16 + d.length ≤ f.tail := by
        rcases hpc with hh | hh | hh | hh <;> omega
      obtain ⟨rfl, rfl, hfit⟩ := hz'
      have hna : ¬ (al f.head + descSize + d.length = f.size) := by simp only [descSize]; omega
      refine Or.inr (Or.inl ⟨fr, sd ++ [d], e, by simp [hps], ?_, ?_, ?_, ?_, ?_, ?_, ?_, ?_, ?_⟩)
      · simp only [hna, false_and, if_false]; exact hw
      · simp only [hna, false_and, if_false]; exact hws
      · simp only [hna, false_and, if_false]; exact hm
      · exact hc.congr fun i h1 h2 => mem_write_out (by omega)
      · simp only [hna, false_and, if_false]; exact ha
      · simp only [hna, if_false]
        exact (hd.congr fun i h1 h2 => mem_write_out (by omega)).snoc hat
      · simp only [hna, if_false, descSize]; exact hfit
      · intro h; simp at h
      · simp only [hna, false_and, if_false]; exact h2
    · have hpc := place_cases hpl h16 (Or.inl hw)
      have hlen : d.length < 2^32 := by omega
      have hat := At_write f.mem pos d hlen
      have hah0 : alignHead f.head f.size = al f.head := by
        unfold alignHead; simp only; rw [if_neg (by omega)]
      rw [hah0] at hpc
      have hz' : pos = al f.head ∧ w = 0 ∧ pos + 16 + d.length ≤ f.tail ∧
          al (pos + 16 + d.length) < f.tail := by
        have hp0 : pos = al f.head ∧ w = 0 ∧ pos + 16 + d.length ≤ f.tail := by
          rcases hpc with hh | hh | hh | hh <;> omega
        refine ⟨hp0.1, hp0.2.1, hp0.2.2, ?_⟩
        by_cases hx : f.tail ≤ al (pos + 16 + d.length)
        · exact absurd ⟨hp0.2.1, Or.inl ⟨hp0.2.2, hx⟩⟩ hz
        · omega
      obtain ⟨rfl, rfl, hfit, hal⟩ := hz'
      have hna : ¬ (al f.head + descSize + d.length = f.size) := by simp only [descSize]; omega
      refine Or.inr (Or.inr ⟨fr, sd ++ [d], e, by simp [hps], ?_, hes, hae, ?_, ?_, ?_, by simp⟩)
      · simp only [hna, false_and, if_false]
      · exact hc.congr fun i h1 h2 => mem_write_out (by omega)
      · simp only [hna, if_false]
        exact (hd.congr fun i h1 h2 => mem_write_out (by omega)).snoc hat
      · simp only [hna, if_false, descSize]; exact hal

end Wolf.Fifo
