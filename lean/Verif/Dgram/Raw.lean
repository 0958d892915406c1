import Verif.Dgram.Recv
/-!
# C81: raw and ICMP sockets
-/
namespace Wolf.Dgram
open Wolf.Route (Ip Conf)
open Wolf.IpIn (Net u8 u16 ipAt tot src dst hlen isMcast Mcast Bcast SumOk octet1 WellFormed Delivered OptsParse optBytes)
open Wolf.Csum (Bytes)

/-! ## Configuration of a slot along a history -/

section generic
variable {C α : Type}

/-- Slot `k` is in use and its configuration satisfies `P`. -/
def Has (P : C → Prop) (t : Tab C α) (k : Nat) : Prop := ∃ sl, t[k]? = some sl ∧ sl.used = true ∧ P sl.cfg

theorem has_deliver {P : C → Prop} {t : Tab C α} {k : Nat} (h : Has P t k) (takes : C → Bool) (room : Nat → Bool) (x : α) : Has P (deliver takes room x t).1 k := by
  obtain ⟨sl, hk, hu, hp⟩ := h
  refine ⟨copyTo takes room x k sl, ?_, ?_, ?_⟩
  · show (t.zipIdx.map (fun (s, k) => copyTo takes room x k s))[k]? = _
    rw [get_map_zip, hk]; rfl
  · rw [copyTo]; split <;> exact hu
  · rw [copyTo]; split <;> exact hp

theorem has_open {P : C → Prop} {t : Tab C α} {k : Nat} (h : Has P t k) (new : C → C) : Has P (openSlot new t).1 k := by
  obtain ⟨sl, hk, hu, hp⟩ := h
  rw [openSlot]
  cases hf : t.findIdx? (fun s => !s.used) with
  | none => exact ⟨sl, hk, hu, hp⟩
  | some n =>
    rw [List.findIdx?_eq_some_iff_getElem] at hf
    obtain ⟨hlt, hun, _⟩ := hf
    dsimp only
    rw [List.getElem?_eq_getElem hlt]
    dsimp only
    have : n ≠ k := by
      intro c; subst c
      rw [List.getElem?_eq_getElem hlt] at hk
      have hk := Option.some.inj hk
      rw [hk, hu] at hun; cases hun
    exact ⟨sl, by rw [List.getElem?_set_ne this]; exact hk, hu, hp⟩

theorem has_close {P : C → Prop} {t : Tab C α} {k : Nat} (h : Has P t k) (z : C) (j : Nat) (hj : j ≠ k) : Has P (closeSlot z j t).1 k := by
  obtain ⟨sl, hk, hu, hp⟩ := h
  exact ⟨sl, by show (t.set j _)[k]? = _; rw [List.getElem?_set_ne hj]; exact hk, hu, hp⟩

theorem has_setCfg {P : C → Prop} {t : Tab C α} {k : Nat} (h : Has P t k) (j : Nat) (c : C) (hc : j = k → P c) : Has P (setCfg j c t) k := by
  obtain ⟨sl, hk, hu, hp⟩ := h
  by_cases e : j = k
  · subst e
    exact ⟨_, get_modify_eq _ _ _ _ hk, hu, hc rfl⟩
  · exact ⟨sl, by show (t.modify j _)[k]? = _; rw [get_modify_ne _ _ _ _ e]; exact hk, hu, hp⟩

theorem has_pushTx {P : C → Prop} {t : Tab C α} {k : Nat} (h : Has P t k) (j : Nat) (c : C) (g : Option (List Nat)) (hc : j = k → P c) : Has P (pushTx j c g t).1 k := by
  cases g with
  | none => exact has_setCfg h j c hc
  | some g =>
    obtain ⟨sl, hk, hu, hp⟩ := h
    by_cases e : j = k
    · subst e
      exact ⟨_, get_modify_eq _ _ _ _ hk, hu, hc rfl⟩
    · exact ⟨sl, by show (t.modify j _)[k]? = _; rw [get_modify_ne _ _ _ _ e]; exact hk, hu, hp⟩

theorem has_popRx {P : C → Prop} {t : Tab C α} {k : Nat} (h : Has P t k) (j : Nat) : Has P (popRx j t).1 k := by
  obtain ⟨sl, hk, hu, hp⟩ := h
  rw [popRx]
  cases hj : t[j]? with
  | none => exact ⟨sl, hk, hu, hp⟩
  | some s =>
    dsimp only
    cases hx : s.rx with
    | nil => exact ⟨sl, hk, hu, hp⟩
    | cons y r =>
      by_cases e : j = k
      · subst e
        rw [hk] at hj
        have hj := Option.some.inj hj
        subst hj
        have hlt : j < t.length := by rw [List.getElem?_eq_some_iff] at hk; exact hk.1
        exact ⟨_, List.getElem?_set_self hlt, hu, hp⟩
      · exact ⟨sl, by show (t.set j _)[k]? = _; rw [List.getElem?_set_ne e]; exact hk, hu, hp⟩

theorem flushQ_cfg (P : C → Prop) (k : Nat) (dec : Nat → C → List Nat → C × Act) (hd : ∀ n c g, P c → P (dec n c g).1) : ∀ (q : List (List Nat)) (n : Nat) (c : C),
    P c → P (flushQ (α := α) k dec n c q).1 := by
  intro q
  induction q with
  | nil => intro n c h; exact h
  | cons g q ih =>
    intro n c h
    rw [flushQ]
    cases (dec n c g).2 with
    | stop r => cases r <;> exact hd n c g h
    | skip => exact ih _ _ (hd n c g h)
    | send i h' => exact ih _ _ (hd n c g h)

theorem has_flush {P : C → Prop} {t : Tab C α} {k : Nat} (h : Has P t k) (dec : Nat → Nat → C → List Nat → C × Act)
    (hd : ∀ n c g, P c → P (dec k n c g).1) : Has P (flushTab dec t).1 k := by
  obtain ⟨sl, hk, hu, hp⟩ := h
  refine ⟨flushSlot dec k sl, ?_, hu, flushQ_cfg P k (dec k) hd sl.tx 0 sl.cfg hp⟩
  show (t.zipIdx.map (fun (s, k) => flushSlot dec k s))[k]? = _
  rw [get_map_zip, hk]; rfl

theorem nq_open (new : C → C) (t : Tab C α) (k : Nat) (x : α) : Ev.queued k x ∉ (openSlot new t).2.2 := by
  intro h
  rw [openSlot] at h
  cases hf : t.findIdx? (fun s => !s.used) with
  | none => rw [hf] at h; cases h
  | some n =>
    rw [hf] at h; dsimp only at h
    cases hn : t[n]? with
    | none => rw [hn] at h; cases h
    | some t => rw [hn] at h; simp at h

theorem nq_close (z : C) (j : Nat) (t : Tab C α) (k : Nat) (x : α) : Ev.queued k x ∉ (closeSlot z j t).2 := by
  intro h
  simp only [closeSlot] at h
  split at h
  · simp at h
  · cases h

theorem nq_push (j : Nat) (c : C) (g : Option (List Nat)) (t : Tab C α) (k : Nat) (x : α) : Ev.queued k x ∉ (pushTx j c g t).2 := by
  intro h
  cases g with
  | none => cases h
  | some g =>
    simp only [pushTx] at h
    split at h
    · simp at h
    · cases h

theorem nq_pop (j : Nat) (t : Tab C α) (k : Nat) (x : α) : Ev.queued k x ∉ (popRx j t).2.2 := by
  intro h
  rw [popRx] at h
  cases hk : t[j]? with
  | none => rw [hk] at h; cases h
  | some t =>
    rw [hk] at h; dsimp only at h
    cases hx : t.rx with
    | nil => rw [hx] at h; cases h
    | cons y r => rw [hx] at h; simp at h

theorem nq_flush (dec : Nat → Nat → C → List Nat → C × Act) (t : Tab C α) (k : Nat) (x : α) : Ev.queued k x ∉ (flushTab dec t).2 := by
  intro h
  rw [flushTab] at h
  simp only [List.mem_flatMap] at h
  obtain ⟨p, _, he⟩ := h
  rcases flushQ_evs _ _ _ _ _ _ he with ⟨i, a, h⟩ | ⟨g, h⟩ | ⟨i, g, h', h⟩ <;> cases h

/-- What one delivery queues. -/
theorem mem_deliver [DecidableEq α] (takes : C → Bool) (room : Nat → Bool) (y : α) (t : Tab C α) (k : Nat) (x : α) :
    Ev.queued k x ∈ (deliver takes room y t).2 ↔ x = y ∧ ∃ sl, t[k]? = some sl ∧ sl.used = true ∧ takes sl.cfg = true ∧ room k = true := by
  rw [← mem_copies, copies_deliver]
  cases hk : t[k]? with
  | none =>
    constructor
    · intro h; cases h
    · rintro ⟨_, sl, h, _⟩; cases h
  | some sl =>
    dsimp only
    by_cases c : (sl.used && takes sl.cfg && room k) = true
    · rw [if_pos c, List.mem_singleton]
      simp only [Bool.and_eq_true] at c
      exact ⟨fun h => ⟨h, sl, rfl, c.1.1, c.1.2, c.2⟩, fun h => h.1⟩
    · rw [if_neg c]
      constructor
      · intro h; cases h
      · rintro ⟨_, sl', h, a, b, d⟩
        have h := Option.some.inj h
        subst h
        exact absurd (by rw [a, b, d]; rfl) c

end generic

/-! ## From the wire to IP input -/

theorem bytes_untag (g : List Nat) (hb : Bytes g) : Bytes (g.take 12 ++ g.drop 16) := by
  intro x hx
  rcases List.mem_append.mp hx with h | h
  · exact hb x (List.mem_of_mem_take h)
  · exact hb x (List.mem_of_mem_drop h)

theorem tagged_iff (g : List Nat) (hb : Bytes g) : (g.getD 12 0 = 0x81 ∧ g.getD 13 0 = 0x00) ↔ etype g = 0x8100 := by
  have h1 := IpIn.u8_lt g hb 12
  have h2 := IpIn.u8_lt g hb 13
  show _ ↔ u8 g 12 * 256 + u8 g 13 = 0x8100
  show u8 g 12 = 0x81 ∧ u8 g 13 = 0 ↔ _
  omega

theorem macOk_iff (d : Link.Dev) (j : Nat) (f : List Nat) (joined : Nat → Ip → Bool) :
    macOk d j f joined = true ↔ (f.take 6 = d.mac ∨ f.take 6 = [255, 255, 255, 255, 255, 255] ∨
         (34 ≤ f.length ∧ u8 f 0 = 1 ∧ u8 f 1 = 0 ∧ u8 f 2 = 0x5e ∧ u8 f 3 / 128 = 0 ∧ Mcast (dst f) ∧
           (joined j (dst f) = true ∨ dst f = 0xE0000016#32 ∨ dst f = 0xE0000001#32))) := by
  rw [macOk]
  by_cases h1 : f.take 6 = d.mac
  · rw [if_neg (fun c => c.1 h1)]; exact ⟨fun _ => Or.inl h1, fun _ => rfl⟩
  by_cases h2 : f.take 6 = [255, 255, 255, 255, 255, 255]
  · rw [if_neg (fun c => c.2 h2)]; exact ⟨fun _ => Or.inr (Or.inl h2), fun _ => rfl⟩
  rw [if_pos ⟨h1, h2⟩]
  by_cases h3 : f.length < 34
  · rw [if_pos h3]
    constructor
    · intro h; cases h
    · rintro (h | h | h)
      · exact absurd h h1
      · exact absurd h h2
      · omega
  rw [if_neg h3, ← IpIn.isMcast_iff]
  constructor
  · intro h
    refine Or.inr (Or.inr ⟨by omega, ?_⟩)
    simp only [Bool.not_eq_true', Bool.or_eq_false_iff, Bool.not_eq_false', Bool.and_eq_true, beq_iff_eq, Bool.and_eq_false_iff, bne_eq_false_iff_eq] at h
    obtain ⟨⟨⟨⟨⟨a, b⟩, c⟩, e⟩, m⟩, q⟩ := h
    refine ⟨a, b, c, e, m, ?_⟩
    rcases q with (q | q) | q
    · exact Or.inl q
    · exact Or.inr (Or.inl q)
    · exact Or.inr (Or.inr q)
  · rintro (h | h | ⟨_, a, b, c, e, m, q⟩)
    · exact absurd h h1
    · exact absurd h h2
    · simp only [Bool.not_eq_true', Bool.or_eq_false_iff, Bool.not_eq_false', Bool.and_eq_true, beq_iff_eq, Bool.and_eq_false_iff, bne_eq_false_iff_eq]
      refine ⟨⟨⟨⟨⟨a, b⟩, c⟩, e⟩, m⟩, ?_⟩
      rcases q with q | q | q
      · exact Or.inl (Or.inl q)
      · exact Or.inl (Or.inr q)
      · exact Or.inr q

theorem demux_eq (devs : List Link.Dev) (i : Nat) (g : List Nat) (hb : Bytes g) (d : Link.Dev) (hd : devs[i]? = some d) (he : d.nonEth = false) :
    Link.demux devs i g = if g.length < 14 then none else if etype g = 0x8100 then (if g.length < 18 then none else (subOf devs i g).map (fun j => (j, untag g))) else some (i, g) := by
  rw [Link.demux, hd]
  dsimp only
  rw [if_neg (by rw [he]; exact Bool.noConfusion)]
  by_cases h1 : g.length < 14
  · rw [if_pos h1, if_pos h1]
  rw [if_neg h1, if_neg h1]
  by_cases h2 : etype g = 0x8100
  · rw [if_pos ((tagged_iff g hb).mpr h2), if_pos h2]
    by_cases h3 : g.length < 18
    · rw [if_pos (show g.length < 14 + 4 from h3), if_pos h3]
    · rw [if_neg (show ¬ g.length < 14 + 4 from h3), if_neg h3]
      show (match subOf devs i g with | none => none | some j => some (j, g.take 12 ++ g.drop 16)) = _
      cases subOf devs i g <;> rfl
  · rw [if_neg (fun c => h2 ((tagged_iff g hb).mp c)), if_neg h2]

theorem arrives_iff (devs : List Link.Dev) (hdis : VlansDistinct devs) (i : Nat) (g : List Nat) (hb : Bytes g) (o : Rx) (j : Nat) (f : List Nat) :
    ipFrame devs i g o = some (j, f) ↔ Arrives devs i g o j f := by
  rw [ipFrame, Arrives]
  cases hd : devs[i]? with
  | none =>
    constructor
    · intro h; cases h
    · rintro ⟨d, h, _⟩; cases h
  | some d =>
    dsimp only
    have hd' : ∀ d', some d = some d' → d = d' := fun _ h => Option.some.inj h
    by_cases hn : d.nonEth = true
    · rw [if_pos hn]
      constructor
      · intro h
        have h := Option.some.inj h
        exact ⟨d, rfl, Or.inl ⟨hn, (congrArg Prod.fst h).symm, (congrArg Prod.snd h).symm⟩⟩
      · rintro ⟨d', h, hc⟩
        have := hd' _ h; subst this
        rcases hc with ⟨_, a, b⟩ | ⟨c, _⟩
        · rw [a, b]
        · rw [hn] at c; cases c
    rw [if_neg hn]
    have hn' : d.nonEth = false := by simpa using hn
    by_cases hv : o.vetoEth = true
    · rw [if_pos hv]
      constructor
      · intro h; cases h
      · rintro ⟨d', h, hc⟩
        have := hd' _ h; subst this
        rcases hc with ⟨c, _⟩ | ⟨_, c, _⟩
        · exact absurd c hn
        · rw [hv] at c; cases c
    rw [if_neg hv]
    have hv' : o.vetoEth = false := by simpa using hv
    rw [demux_eq devs i g hb d hd hn']
    by_cases hl : g.length < 14
    · rw [if_pos hl]
      constructor
      · intro h; cases h
      · rintro ⟨d', h, hc⟩
        have := hd' _ h; subst this
        rcases hc with ⟨c, _⟩ | ⟨_, _, c, _⟩
        · exact absurd c hn
        · omega
    rw [if_neg hl]
    have fin : ∀ (j' : Nat) (h : List Nat), (if etype h ≠ 0x0800 then none else match devs[j']? with | none => none | some e => if macOk e j' h o.joined then some (j', h) else none) = some (j, f) ↔
        (j = j' ∧ f = h ∧ etype f = 0x0800 ∧ ∃ e, devs[j]? = some e ∧ macOk e j f o.joined = true) := by
      intro j' h
      by_cases ht : etype h ≠ 0x0800
      · rw [if_pos ht]
        constructor
        · intro c; cases c
        · rintro ⟨_, b, c, _⟩; rw [b] at c; exact absurd c ht
      rw [if_neg ht]
      have ht : etype h = 0x0800 := Classical.byContradiction ht
      cases hj : devs[j']? with
      | none =>
        constructor
        · intro c; cases c
        · rintro ⟨a, _, _, e, he, _⟩; rw [a, hj] at he; cases he
      | some e =>
        dsimp only
        by_cases hm : macOk e j' h o.joined = true
        · rw [if_pos hm]
          constructor
          · intro c
            have c := Option.some.inj c
            have a := (congrArg Prod.fst c).symm
            have b := (congrArg Prod.snd c).symm
            dsimp only at a b
            rw [a, b]
            exact ⟨rfl, rfl, ht, e, hj, hm⟩
          · rintro ⟨a, b, _⟩; rw [a, b]
        · rw [if_neg hm]
          constructor
          · intro c; cases c
          · rintro ⟨a, b, _, e', he, hm'⟩
            rw [a, hj] at he
            have he := Option.some.inj he
            subst he
            rw [a, b] at hm'; exact absurd hm' hm
    by_cases ht : etype g = 0x8100
    · rw [if_pos ht]
      by_cases hl8 : g.length < 18
      · rw [if_pos hl8]
        constructor
        · intro h; cases h
        · rintro ⟨d', h, hc⟩
          have := hd' _ h; subst this
          rcases hc with ⟨c, _⟩ | ⟨_, _, _, (⟨c, _⟩ | ⟨_, c, _⟩), _⟩
          · exact absurd c hn
          · exact absurd ht c
          · omega
      rw [if_neg hl8]
      cases hs : subOf devs i g with
      | none =>
        constructor
        · intro h; cases h
        · rintro ⟨d', h, hc⟩
          have := hd' _ h; subst this
          rcases hc with ⟨c, _⟩ | ⟨_, _, _, (⟨c, _⟩ | ⟨_, _, _, c, _⟩), _⟩
          · exact absurd c hn
          · exact absurd ht c
          · exact absurd c (subOf_none devs i j g hs)
      | some j' =>
        dsimp only [Option.map]
        by_cases hvs : o.vetoSub = true
        · rw [if_pos ⟨ht, hvs⟩]
          constructor
          · intro h; cases h
          · rintro ⟨d', h, hc⟩
            have := hd' _ h; subst this
            rcases hc with ⟨c, _⟩ | ⟨_, _, _, (⟨c, _⟩ | ⟨_, _, c, _⟩), _⟩
            · exact absurd c hn
            · exact absurd ht c
            · rw [hvs] at c; cases c
        rw [if_neg (fun c => hvs c.2)]
        refine Iff.trans (fin j' (untag g)) ?_
        constructor
        · rintro ⟨a, b, c, e, he, hm⟩
          refine ⟨d, rfl, Or.inr ⟨hn', hv', by omega, Or.inr ⟨ht, by omega, by simpa using hvs, ?_, b⟩, c, e, he, (macOk_iff _ _ _ _).mp hm⟩⟩
          rw [a]; exact subOf_some devs i j' g hs
        · rintro ⟨d', h, hc⟩
          have := hd' _ h; subst this
          rcases hc with ⟨c, _⟩ | ⟨_, _, _, (⟨c, _⟩ | ⟨_, _, _, c, b⟩), q, e, he, hm⟩
          · exact absurd c hn
          · exact absurd ht c
          · exact ⟨hdis i g j j' c (subOf_some devs i j' g hs), b, q, e, he, (macOk_iff _ _ _ _).mpr hm⟩
    · rw [if_neg ht]
      dsimp only
      rw [if_neg (fun c => ht c.1)]
      refine Iff.trans (fin i g) ?_
      constructor
      · rintro ⟨a, b, c, e, he, hm⟩
        exact ⟨d, rfl, Or.inr ⟨hn', hv', by omega, Or.inl ⟨ht, a, b⟩, c, e, he, (macOk_iff _ _ _ _).mp hm⟩⟩
      · rintro ⟨d', h, hc⟩
        have := hd' _ h; subst this
        rcases hc with ⟨c, _⟩ | ⟨_, _, _, (⟨_, a, b⟩ | ⟨c, _⟩), q, e, he, hm⟩
        · exact absurd c hn
        · exact ⟨a, b, q, e, he, (macOk_iff _ _ _ _).mpr hm⟩
        · exact absurd c ht

theorem arrives_bytes {devs : List Link.Dev} {i : Nat} {g : List Nat} {o : Rx} {j : Nat} {f : List Nat} (h : Arrives devs i g o j f) (hb : Bytes g) : Bytes f := by
  obtain ⟨d, _, ⟨_, _, e⟩ | ⟨_, _, _, (⟨_, _, e⟩ | ⟨_, _, _, _, e⟩), _⟩⟩ := h
  · rw [e]; exact hb
  · rw [e]; exact hb
  · rw [e]; exact bytes_untag g hb

theorem headOk_iff (n : Net) (i : Nat) (f : List Nat) (hb : Bytes f) : IpIn.headOk n i f = true ↔ HeadForm n i f := by
  constructor
  · intro h
    obtain ⟨h1, h2, h3, h4, h5, h6, h7, h8, h9⟩ := IpIn.headOk_spec n i f hb h
    exact ⟨h1, h2, h3, h4, h5, h6, h7, h8, h9⟩
  · intro w
    have hhl : (f.drop 14).getD 0 0 = u8 f 14 := by rw [IpIn.getD_drop]; rfl
    have hv : Csum.ipVerify (f.drop 14) = true := by
      refine IpIn.sum_ipVerify _ (IpIn.bytes_drop _ _ hb) (by rw [hhl]; exact w.version) ?_ ?_
      · rw [hhl]; exact w.hdr.1
      · rw [hhl]; exact w.sum
    have h1 := w.len
    have h2 := w.version
    have h3 := w.hdr
    have h4 := w.total
    have h5 := w.whole
    rw [IpIn.headOk, if_neg (by omega), if_neg (by omega), if_neg (by omega), if_neg (by omega), if_neg (by omega),
      if_neg (by rw [hv]; exact Bool.noConfusion), if_neg (by omega)]
    rw [if_neg, if_neg, if_neg]
    · rintro ⟨c1, c2⟩
      rcases w.loopNet with h | ⟨ha, hb⟩
      · rw [h] at c1; cases c1
      · rcases c2 with c | c
        · exact hb ((IpIn.isLoopNet_iff _).mp c)
        · exact ha ((IpIn.isLoopNet_iff _).mp c)
    · rintro ⟨c1, c2⟩
      rcases w.srcSet with h | h
      · exact h c1
      · rw [h] at c2; cases c2
    · rintro (c | c)
      · exact w.srcUni.1 ((IpIn.isBroadcast_iff n _).mp c)
      · exact w.srcUni.2 ((IpIn.isMcast_iff _).mp c)

/-! ## Raw sockets -/

theorem rawTap_iff (e : Env) (hdis : VlansDistinct e.devs) (i : Nat) (g : List Nat) (hb : Bytes g) (o : Rx) (j : Nat) (f : List Nat) :
    rawTap e i g o = some (j, f) ↔ Arrives e.devs i g o j f ∧ HeadForm e.net j f ∧ o.vetoIp = false := by
  rw [← arrives_iff e.devs hdis i g hb o j f, rawTap]
  cases hf : ipFrame e.devs i g o with
  | none =>
    constructor
    · intro h; cases h
    · rintro ⟨h, _⟩; cases h
  | some p =>
    obtain ⟨j', f'⟩ := p
    dsimp only
    have hbf : Bytes f' := arrives_bytes ((arrives_iff e.devs hdis i g hb o j' f').mp hf) hb
    by_cases h1 : IpIn.headOk e.net j' f' = true
    · rw [if_neg (by rw [h1]; exact Bool.noConfusion)]
      have w := (headOk_iff _ _ _ hbf).mp h1
      by_cases h2 : o.vetoIp = true
      · rw [if_pos h2]
        constructor
        · intro h; cases h
        · rintro ⟨_, _, h⟩; rw [h2] at h; cases h
      have h3 := w.len
      have h4 := w.hdr
      have h5 := w.total
      rw [if_neg h2, if_neg (by omega), if_neg (by omega), if_neg (by omega), if_neg (by omega)]
      constructor
      · intro h
        refine ⟨h, ?_, by simpa using h2⟩
        have h := Option.some.inj h
        have a := congrArg Prod.fst h
        have b := congrArg Prod.snd h
        dsimp only at a b
        rw [← a, ← b]; exact w
      · intro h; exact h.1
    · rw [if_pos (by simpa using h1)]
      constructor
      · intro h; cases h
      · rintro ⟨h, w, _⟩
        have h := Option.some.inj h
        have a := congrArg Prod.fst h
        have b := congrArg Prod.snd h
        dsimp only at a b
        subst a; subst b
        exact absurd ((headOk_iff _ _ _ hbf).mpr w) h1

theorem rwTakes_iff (j : Nat) (f : List Nat) (c : Rw) : rwTakes j f c = true ↔ RawWants c j f := by
  rw [rwTakes, RawWants]
  by_cases h1 : c.proto ≠ 0 ∧ c.proto ≠ u8 f 23
  · rw [if_pos h1]
    constructor
    · intro h; cases h
    · rintro ⟨h | h, _⟩
      · exact absurd h h1.1
      · exact absurd h h1.2
  rw [if_neg h1]
  by_cases h2 : c.blip ≠ 0 ∧ c.blip ≠ dst f
  · rw [if_pos h2]
    constructor
    · intro h; cases h
    · rintro ⟨_, h | h, _⟩
      · exact absurd h h2.1
      · exact absurd h h2.2
  rw [if_neg h2]
  have e1 : c.proto = 0 ∨ c.proto = u8 f 23 := by omega
  have e2 : c.blip = 0 ∨ c.blip = dst f := by
    by_cases a : c.blip = 0
    · exact Or.inl a
    · exact Or.inr (Classical.byContradiction (fun b => h2 ⟨a, b⟩))
  simp only [Bool.not_eq_true', decide_eq_false_iff_not]
  constructor
  · intro h; exact ⟨e1, e2, by omega⟩
  · rintro ⟨_, _, h⟩ c; omega

/-- **C81, raw sockets.** For every frame and configuration: a raw socket is given a datagram exactly when the frame is an
IPv4 datagram that reached this host's IP input with its header in order and passed the filter, the socket is open, and
its protocol, bound address and interface admit it; and what it is given is the datagram, header included, cut to its
declared length. This holds whether or not the datagram is for this host. -/
theorem raw_exact (s : RwSt) (hdis : VlansDistinct s.env.devs) (i : Nat) (g : List Nat) (hb : Bytes g) (o : Rx) (k : Nat) (x : List Nat) :
    Ev.queued k x ∈ (rwStep s (.frame i g o)).2.2 ↔
      ∃ j f sl, Arrives s.env.devs i g o j f ∧ HeadForm s.env.net j f ∧ o.vetoIp = false ∧ x = (f.drop 14).take (tot f) ∧
        s.tab[k]? = some sl ∧ sl.used = true ∧ RawWants sl.cfg j f ∧ o.room k = true := by
  show Ev.queued k x ∈ (rwFrame s.env i g o s.tab).2 ↔ _
  rw [rwFrame]
  cases ht : rawTap s.env i g o with
  | none =>
    constructor
    · intro h; cases h
    · rintro ⟨j, f, sl, h1, h2, h3, _⟩
      rw [(rawTap_iff s.env hdis i g hb o j f).mpr ⟨h1, h2, h3⟩] at ht; cases ht
  | some p =>
    obtain ⟨j', f'⟩ := p
    dsimp only
    have ht' := (rawTap_iff s.env hdis i g hb o j' f').mp ht
    rw [mem_deliver]
    constructor
    · rintro ⟨hx, sl, hk, hu, htk, hr⟩
      exact ⟨j', f', sl, ht'.1, ht'.2.1, ht'.2.2, hx, hk, hu, (rwTakes_iff _ _ _).mp htk, hr⟩
    · rintro ⟨j, f, sl, h1, h2, h3, hx, hk, hu, hw, hr⟩
      have := (rawTap_iff s.env hdis i g hb o j f).mpr ⟨h1, h2, h3⟩
      rw [ht] at this
      have h := Option.some.inj this
      have a := congrArg Prod.fst h
      have b := congrArg Prod.snd h
      dsimp only at a b
      subst a; subst b
      exact ⟨hx, sl, hk, hu, (rwTakes_iff _ _ _).mpr hw, hr⟩

/-- **C81, raw sockets, one copy.** A reception puts at most one entry in the buffer of a raw socket. -/
theorem raw_once (s : RwSt) (i : Nat) (g : List Nat) (o : Rx) (k : Nat) : (copies k (rwStep s (.frame i g o)).2.2).length ≤ 1 := by
  show (copies k (rwFrame s.env i g o s.tab).2).length ≤ 1
  rw [rwFrame]
  cases rawTap s.env i g o with
  | none => exact Nat.zero_le _
  | some p =>
    dsimp only
    rw [copies_deliver]
    cases s.tab[k]? with
    | none => exact Nat.zero_le _
    | some sl => dsimp only; split <;> simp

theorem rwDec_cfg (e : Env) (o : Tx) (k n : Nat) (c : Rw) (g : List Nat) : (rwDec e o k n c g).1.blip = c.blip ∧ (rwDec e o k n c g).1.proto = c.proto := by
  rw [rwDec]; split <;> exact ⟨rfl, rfl⟩

theorem rw_keep (c : Rw) (h : Bool) (l r : Ip) (i : Nat) (d : Bool) (x : Res × Option (List Nat)) :
    ((⟨c.proto, h, c.blip, l, r, i, d⟩ : Rw), x).1.blip = c.blip ∧ ((⟨c.proto, h, c.blip, l, r, i, d⟩ : Rw), x).1.proto = c.proto := ⟨rfl, rfl⟩

theorem rwSend_cfg (n : Net) (c : Rw) (to : Option Ip) (buf : List Nat) (fl : Bool) (id : Nat) (room : Bool) :
    (rwSend n c to buf fl id room).1.blip = c.blip ∧ (rwSend n c to buf fl id room).1.proto = c.proto := by
  generalize hr : rwSend n c to buf fl id room = r
  rw [rwSend] at hr
  by_cases h1 : buf.length = 0
  · rw [if_pos h1] at hr; rw [← hr]; exact ⟨rfl, rfl⟩
  rw [if_neg h1] at hr
  dsimp only at hr
  by_cases h2 : rwBig c.hdr buf.length = true
  · rw [if_pos h2] at hr; rw [← hr]; exact rw_keep c _ _ _ _ _ _
  rw [if_neg h2] at hr
  by_cases h3 : c.hdr = true
  · rw [if_pos h3] at hr
    by_cases h4 : buf.length < 20
    · rw [if_pos h4] at hr; rw [← hr]; exact rw_keep c _ _ _ _ _ _
    rw [if_neg h4] at hr
    generalize (if to.getD c.rip = 0 then dst (rwOwn (to.getD c.rip) buf) else to.getD c.rip) = d1 at hr
    generalize src (rwOwn (to.getD c.rip) buf) = sr at hr
    generalize rwOwn (to.getD c.rip) buf = w at hr
    by_cases h5 : d1 = 0
    · rw [if_pos h5] at hr; rw [← hr]; exact rw_keep c _ _ _ _ _ _
    rw [if_neg h5] at hr
    generalize rawRoute n _ d1 _ = q at hr
    by_cases h6 : room = false
    · rw [if_pos h6] at hr; rw [← hr]; exact rw_keep c _ _ _ _ _ _
    · rw [if_neg h6] at hr; rw [← hr]; exact rw_keep c _ _ _ _ _ _
  · rw [if_neg h3] at hr
    by_cases h4 : to.getD c.rip = 0
    · rw [if_pos h4] at hr; rw [← hr]; exact rw_keep c _ _ _ _ _ _
    rw [if_neg h4] at hr
    by_cases h6 : room = false
    · rw [if_pos h6] at hr; rw [← hr]; exact rw_keep c _ _ _ _ _ _
    · rw [if_neg h6] at hr; rw [← hr]; exact rw_keep c _ _ _ _ _ _

/-- Bound address and protocol of an open raw socket. -/
def RwIs (a : Ip) (p : Nat) (c : Rw) : Prop := c.blip = a ∧ c.proto = p

theorem rwIs_step (s : RwSt) (op : RwOp) (k : Nat) (a : Ip) (p : Nat) (h : Has (RwIs a p) s.tab k) (hop : (∀ b, op ≠ .bind k b) ∧ op ≠ .close k) :
    Has (RwIs a p) (rwStep s op).1.tab k := by
  have hcfg : ∀ (j : Nat) (t : Slot Rw (List Nat)), s.tab[j]? = some t → j = k → RwIs a p t.cfg := by
    intro j t ht e
    obtain ⟨sl, hk, _, hp⟩ := h
    rw [e, hk] at ht
    have ht := Option.some.inj ht
    subst ht; exact hp
  cases op with
  | frame i g o =>
    show Has _ (rwFrame s.env i g o s.tab).1 k
    rw [rwFrame]
    split
    · exact h
    · exact has_deliver h _ _ _
  | socket proto hdr => exact has_open h _
  | opt j hdr dr =>
    show Has _ (rwOptOp s j hdr dr).1.tab k
    rw [rwOptOp]
    cases hj : s.tab[j]? with
    | none => exact h
    | some t =>
      dsimp only
      split
      · exact h
      · exact has_setCfg h j _ (fun e => hcfg j t hj e)
  | bind j b =>
    show Has _ (rwBindOp s j b).1.tab k
    rw [rwBindOp]
    cases hj : s.tab[j]? with
    | none => exact h
    | some t =>
      dsimp only
      generalize (if b ≠ 0 then b else addrFor s.env.net.rt (ifForLocal s.env.net.rt b) t.cfg.lip) = l
      split
      · exact h
      · split
        · exact h
        · exact has_setCfg h j _ (fun e => absurd (by rw [e]) (hop.1 b))
  | connect j b =>
    show Has _ (rwConnectOp s j b).1.tab k
    rw [rwConnectOp]
    cases hj : s.tab[j]? with
    | none => exact h
    | some t =>
      dsimp only
      split
      · exact h
      · exact has_setCfg h j _ (fun e => hcfg j t hj e)
  | send j to buf fl id room =>
    show Has _ (rwSendOp s j to buf fl id room).1.tab k
    rw [rwSendOp]
    cases hj : s.tab[j]? with
    | none => exact h
    | some t =>
      dsimp only
      split
      · exact h
      · refine has_pushTx h j _ _ (fun e => ?_)
        have q := rwSend_cfg s.env.net t.cfg to buf fl id room
        have := hcfg j t hj e
        exact ⟨q.1.trans this.1, q.2.trans this.2⟩
  | recv j len =>
    show Has _ (rwRecvOp s j len).1.tab k
    rw [rwRecvOp]
    cases hj : s.tab[j]? with
    | none => exact h
    | some t =>
      dsimp only
      split
      · exact h
      · split
        · exact h
        · exact has_popRx h j
  | close j =>
    have hne : j ≠ k := fun c => hop.2 (by rw [c])
    show Has _ (rwCloseOp s j).1.tab k
    rw [rwCloseOp]
    cases hj : s.tab[j]? with
    | none => exact h
    | some t =>
      dsimp only
      split
      · exact h
      · exact has_close h _ j hne
  | flush o =>
    refine has_flush h _ (fun n c g hc => ?_)
    have q := rwDec_cfg s.env o k n c g
    exact ⟨q.1.trans hc.1, q.2.trans hc.2⟩
  | reconf e => exact h

theorem rw_queued_from_frame (s : RwSt) (op : RwOp) (k : Nat) (x : List Nat) (h : Ev.queued k x ∈ (rwStep s op).2.2) : ∃ i g o, op = .frame i g o := by
  cases op with
  | frame i g o => exact ⟨i, g, o, rfl⟩
  | socket proto hdr => exact absurd h (nq_open _ _ _ _)
  | opt j hdr dr =>
    exfalso
    change _ ∈ (rwOptOp s j hdr dr).2.2 at h
    rw [rwOptOp] at h
    cases hj : s.tab[j]? with
    | none => rw [hj] at h; cases h
    | some t =>
      rw [hj] at h; dsimp only at h
      split at h <;> cases h
  | bind j b =>
    exfalso
    change _ ∈ (rwBindOp s j b).2.2 at h
    rw [rwBindOp] at h
    cases hj : s.tab[j]? with
    | none => rw [hj] at h; cases h
    | some t =>
      rw [hj] at h; dsimp only at h
      generalize (if b ≠ 0 then b else addrFor s.env.net.rt (ifForLocal s.env.net.rt b) t.cfg.lip) = l at h
      split at h
      · cases h
      · split at h <;> cases h
  | connect j b =>
    exfalso
    change _ ∈ (rwConnectOp s j b).2.2 at h
    rw [rwConnectOp] at h
    cases hj : s.tab[j]? with
    | none => rw [hj] at h; cases h
    | some t =>
      rw [hj] at h; dsimp only at h
      split at h <;> cases h
  | send j to buf fl id room =>
    exfalso
    change _ ∈ (rwSendOp s j to buf fl id room).2.2 at h
    rw [rwSendOp] at h
    cases hj : s.tab[j]? with
    | none => rw [hj] at h; cases h
    | some t =>
      rw [hj] at h; dsimp only at h
      split at h
      · cases h
      · exact nq_push _ _ _ _ _ _ h
  | recv j len =>
    exfalso
    change _ ∈ (rwRecvOp s j len).2.2 at h
    rw [rwRecvOp] at h
    cases hj : s.tab[j]? with
    | none => rw [hj] at h; cases h
    | some t =>
      rw [hj] at h; dsimp only at h
      split at h
      · cases h
      · split at h
        · cases h
        · exact nq_pop _ _ _ _ h
  | close j =>
    exfalso
    change _ ∈ (rwCloseOp s j).2.2 at h
    rw [rwCloseOp] at h
    cases hj : s.tab[j]? with
    | none => rw [hj] at h; cases h
    | some t =>
      rw [hj] at h; dsimp only at h
      split at h
      · cases h
      · exact nq_close ({} : Rw) j s.tab k x h
  | flush o => exact absurd h (nq_flush _ _ _ _)
  | reconf e => cases h

/-- What is put in a raw socket's buffer fits its protocol and bound address. -/
theorem rw_queued_fits (e : Env) (i : Nat) (g : List Nat) (o : Rx) (t : RwTab) (k : Nat) (x : List Nat) (h : Ev.queued k x ∈ (rwFrame e i g o t).2) :
    ∃ sl j f, t[k]? = some sl ∧ x = (f.drop 14).take (tot f) ∧ RawWants sl.cfg j f ∧ 34 ≤ f.length ∧ 20 ≤ tot f := by
  rw [rwFrame] at h
  cases ht : rawTap e i g o with
  | none => rw [ht] at h; cases h
  | some p =>
    obtain ⟨j, f⟩ := p
    rw [ht] at h
    dsimp only at h
    rw [mem_deliver] at h
    obtain ⟨hx, sl, hk, _, htk, _⟩ := h
    refine ⟨sl, j, f, hk, hx, (rwTakes_iff _ _ _).mp htk, ?_⟩
    rw [rawTap] at ht
    cases hf : ipFrame e.devs i g o with
    | none => rw [hf] at ht; cases ht
    | some p =>
      obtain ⟨j', f'⟩ := p
      rw [hf] at ht
      dsimp only at ht
      by_cases a1 : IpIn.headOk e.net j' f' = false
      · rw [if_pos a1] at ht; cases ht
      rw [if_neg a1] at ht
      by_cases a2 : o.vetoIp = true
      · rw [if_pos a2] at ht; cases ht
      rw [if_neg a2] at ht
      by_cases a3 : f'.length ≤ 14
      · rw [if_pos a3] at ht; cases ht
      rw [if_neg a3] at ht
      by_cases a4 : f'.length - 14 < 20
      · rw [if_pos a4] at ht; cases ht
      rw [if_neg a4] at ht
      by_cases a5 : tot f' < 20
      · rw [if_pos a5] at ht; cases ht
      rw [if_neg a5] at ht
      by_cases a6 : tot f' > f'.length - 14
      · rw [if_pos a6] at ht; cases ht
      rw [if_neg a6] at ht
      have b := congrArg Prod.snd (Option.some.inj ht)
      dsimp only at b
      rw [← b]; exact ⟨by omega, by omega⟩

theorem dgram_get (f : List Nat) (k : Nat) (hk : k < tot f) : ((f.drop 14).take (tot f)).getD k 0 = u8 f (14 + k) := by
  rw [IpIn.getD_take _ _ _ hk, IpIn.getD_drop]; rfl

theorem dgram_dst (f : List Nat) (h : 20 ≤ tot f) : ipAt ((f.drop 14).take (tot f)) 16 = dst f := by
  rw [dst, ipAt, ipAt]
  simp only [u8]
  rw [dgram_get f 16 (by omega), dgram_get f 17 (by omega), dgram_get f 18 (by omega), dgram_get f 19 (by omega)]
  rfl

theorem dgram_src (f : List Nat) (h : 20 ≤ tot f) : ipAt ((f.drop 14).take (tot f)) 12 = src f := by
  rw [src, ipAt, ipAt]
  simp only [u8]
  rw [dgram_get f 12 (by omega), dgram_get f 13 (by omega), dgram_get f 14 (by omega), dgram_get f 15 (by omega)]
  rfl

/-- **C81, raw sockets, bound.** As long as a raw socket of protocol `p` bound to address `a` is not bound again or closed,
everything put in its buffer is a datagram to `a` (if `a` ≠ 0) of protocol `p` (if `p` ≠ 0), whatever else is called in
between. -/
theorem raw_bound (k : Nat) (a : Ip) (p : Nat) (ops : List RwOp) : ∀ s : RwSt, Has (RwIs a p) s.tab k →
    (∀ op ∈ ops, (∀ b, op ≠ .bind k b) ∧ op ≠ .close k) →
    ∀ x, Ev.queued k x ∈ (rwRun s ops).2 → (a = 0 ∨ ipAt x 16 = a) ∧ (p = 0 ∨ x.getD 9 0 = p) := by
  induction ops with
  | nil => intro s _ _ x h; cases h
  | cons op ops ih =>
    intro s hb ho x h
    rw [rwRun] at h
    rcases List.mem_append.mp h with h | h
    · obtain ⟨i, g, o, rfl⟩ := rw_queued_from_frame s op k x h
      obtain ⟨sl, j, f, hk, hx, ⟨w1, w2, _⟩, _, h20⟩ := rw_queued_fits s.env i g o s.tab k x h
      obtain ⟨sl', hk', _, hp1, hp2⟩ := hb
      rw [hk] at hk'
      have hk' := Option.some.inj hk'
      subst hk'
      rw [hp1] at w2
      rw [hp2] at w1
      rw [hx, dgram_dst f h20, dgram_get f 9 (by omega)]
      refine ⟨?_, ?_⟩
      · rcases w2 with c | c
        · exact Or.inl c
        · exact Or.inr c.symm
      · rcases w1 with c | c
        · exact Or.inl c
        · exact Or.inr c.symm
    · exact ih _ (rwIs_step s op k a p hb (ho op List.mem_cons_self)) (fun o' h' => ho o' (List.mem_cons_of_mem _ h')) x h

/-- **C81, raw sockets, recvfrom.** `recvfrom` returns the oldest datagram waiting, header included, with its source
address, and takes it out; if the buffer is too small it returns an error and the datagram is gone. -/
theorem raw_recv (s : RwSt) (k len : Nat) (sl : Slot Rw (List Nat)) (hk : s.tab[k]? = some sl) (hu : sl.used = true) :
    (sl.rx = [] → rwStep s (.recv k len) = (s, .again, [])) ∧
    (∀ x rest, sl.rx = x :: rest →
      (rwStep s (.recv k len)).2.1 = (if 20 ≤ x.length ∧ x.length ≤ len then .gotIp x (ipAt x 12) else .err) ∧
      (rwStep s (.recv k len)).2.2 = [.read k x] ∧ rxOf (rwStep s (.recv k len)).1.tab k = rest) := by
  have hlt : k < s.tab.length := by rw [List.getElem?_eq_some_iff] at hk; exact hk.1
  show (_ → rwRecvOp s k len = _) ∧ (∀ x rest, _ → (rwRecvOp s k len).2.1 = _ ∧ (rwRecvOp s k len).2.2 = _ ∧ rxOf (rwRecvOp s k len).1.tab k = rest)
  rw [rwRecvOp, popRx, hk]
  dsimp only
  rw [hu]
  refine ⟨?_, ?_⟩
  · intro h; rw [h]; rfl
  · intro x rest h
    rw [h]
    refine ⟨?_, rfl, ?_⟩
    · show rwRes len x = _
      rw [rwRes]
      by_cases c1 : x.length < 20
      · rw [if_pos c1, if_neg (by omega)]
      · by_cases c2 : x.length > len
        · rw [if_neg c1, if_pos c2, if_neg (by omega)]
        · rw [if_neg c1, if_neg c2, if_pos (by omega)]
    · show rxOf (s.tab.set k _) k = rest
      rw [rxOf_set _ _ _ _ hlt, if_pos rfl]

end Wolf.Dgram
