import Verif.Mcast.Inv
/-! # C42: multicast membership — theorems -/
namespace Wolf.Mcast

theorem ifFromAddr_spec (s : St) (a g r i : Nat) (h : ifFromAddr s a g r = some i) :
    isMcast g = true ∧ i < s.ips.length ∧ ∃ ip, s.ips[i]? = some ip ∧ ip ≠ 0 := by
  rw [ifFromAddr] at h
  split at h
  · simp at h
  rename_i hg
  refine ⟨by simpa using hg, ?_⟩
  split at h
  · split at h
    · simp at h
    · rename_i ip hip
      split at h
      · rename_i h0
        simp at h; subst h
        exact ⟨lt_of_get hip, ip, hip, h0⟩
      · simp at h
  · rename_i ha
    rw [ifForLocal, List.findIdx?_eq_some_iff_getElem] at h
    obtain ⟨hi, he, _⟩ := h
    rw [beq_iff_eq] at he
    exact ⟨hi, s.ips[i], List.getElem?_eq_getElem hi, by rw [he]; exact ha⟩

theorem report_some (s : St) (i g : Nat) (b : Bool) (ip : Nat) (h : s.ips[i]? = some ip) (h0 : ip ≠ 0) (hg : isMcast g = true) : report s i g b = [⟨i, g, b⟩] := by
  rw [report.eq_def, h]; simp only; rw [if_neg (by simp [hg]), if_neg h0]

/-- Everything `udp_mcast_join` can do. -/
theorem join_cases {n : Nat} {s : St} (h : Inv n s) (k g ifi : Nat) (t : Sock) (ht : s.socks[k]? = some t) (hu : t.used = true) (hg : isMcast g = true) (hif : ifi < s.ips.length) :
    (hasMcast t ifi g = true ∧ join s k t g ifi = (s, .einval, [])) ∨
    (hasMcast t ifi g = false ∧ (∀ e ∈ t.mc, e.1 ≠ 0) ∧ join s k t g ifi = (s, .enomem, [])) ∨
    (hasMcast t ifi g = false ∧ ∃ (i : Nat) (o : Nat × Nat), t.mc[i]? = some o ∧ o.1 = 0 ∧ Inv n (join s k t g ifi).1 ∧
      (join s k t g ifi).1.socks = s.socks.set k { t with mc := t.mc.set i (g, ifi) } ∧
      (∃ (j : Nat) (m m0 : Mem), s.mem[j]? = some m0 ∧ m.tmr = m0.tmr ∧ (m0.tmr ≠ 0 → m0.refs ≠ 0) ∧ (m0.refs ≠ 0 → m = m0) ∧
        (join s k t g ifi).1 = { s with socks := s.socks.set k { t with mc := t.mc.set i (g, ifi) }, mem := s.mem.set j { m with refs := m.refs + 1 } }) ∧
      (join s k t g ifi).2 = (.ok, if count s.socks ifi g = 0 then report s ifi g false else [])) := by
  rw [join, if_neg (by simp [hg, hif])]
  by_cases hh : hasMcast t ifi g = true
  · rw [if_pos hh]; exact Or.inl ⟨hh, rfl⟩
  rw [if_neg hh]
  have hhf : hasMcast t ifi g = false := by simpa using hh
  cases hf : t.mc.findIdx? (fun e => e.1 == 0) with
  | none =>
    refine Or.inr (Or.inl ⟨hhf, ?_, rfl⟩)
    intro e he
    rw [List.findIdx?_eq_none_iff] at hf
    simpa using hf e he
  | some i =>
    rw [List.findIdx?_eq_some_iff_getElem] at hf
    obtain ⟨hil, hi0, _⟩ := hf
    have hi : t.mc[i]? = some t.mc[i] := List.getElem?_eq_getElem hil
    generalize ho : t.mc[i] = o at hi hi0
    rw [beq_iff_eq] at hi0
    refine Or.inr (Or.inr ⟨hhf, i, o, hi, hi0, ?_⟩)
    have hlt : count s.socks ifi g < 255 := by
      have h1 := sum_le_len (ind ifi g) (s.socks.set k { t with mc := [(g, ifi)] }) 1 (by intro x _; rw [ind]; split <;> omega)
      have h2 := sum_set (ind ifi g) s.socks k { t with mc := [(g, ifi)] } t ht
      have h3 : ind ifi g { t with mc := [(g, ifi)] } = 1 := by rw [ind, if_pos]; rw [hasMcast_iff]; simp
      have h4 : ind ifi g t = 0 := by rw [ind, if_neg hh]
      rw [List.length_set, h.sl] at h1
      have := h.n255
      rw [count]; omega
    have fin : ∀ (j : Nat) (m m0 : Mem), s.mem[j]? = some m0 → m.group = g → m.ifi = ifi → m.refs = m0.refs → m.refs = count s.socks ifi g → m.tmr = m0.tmr →
        (m0.refs ≠ 0 → m = m0) → (m0.refs ≠ 0 → m0.group = g ∧ m0.ifi = ifi) →
        (∀ (j' : Nat) (m' : Mem), s.mem[j']? = some m' → m'.refs ≠ 0 → m'.group = g → m'.ifi = ifi → j' = j) →
        let r := joinAt s k t i ifi g j m
        Inv n r.1 ∧ r.1.socks = s.socks.set k { t with mc := t.mc.set i (g, ifi) } ∧
        (∃ (j : Nat) (m m0 : Mem), s.mem[j]? = some m0 ∧ m.tmr = m0.tmr ∧ (m0.tmr ≠ 0 → m0.refs ≠ 0) ∧ (m0.refs ≠ 0 → m = m0) ∧
          r.1 = { s with socks := s.socks.set k { t with mc := t.mc.set i (g, ifi) }, mem := s.mem.set j { m with refs := m.refs + 1 } }) ∧
        r.2 = (if count s.socks ifi g = 0 then report s ifi g false else []) := by
      intro j m m0 hm0 e1 e2 e3 e4 e5 eqm e6 e7
      refine ⟨joinAt_inv h k i ifi g j t o m m0 ht hu hg hif hhf hi hi0 hm0 e1 e2 e3 e4 e5 e6 e7, rfl, ⟨j, m, m0, hm0, e5, ?_, eqm, ?_⟩, ?_⟩
      · intro h1 h2; exact h1 (h.dead j m0 hm0 h2)
      · rw [joinAt, setMem, setSock]; rw [if_pos (by omega)]
      · rw [joinAt]; simp only [e4]
    cases hfd : find s ifi g with
    | some j =>
      obtain ⟨m, hm, hr, e1, e2⟩ := (find_iff h ifi g j).mp hfd
      have hl := h.live j m hm hr
      have := fin j m m hm e1 e2 rfl (by rw [hl.2.2, e1, e2]) rfl (fun _ => rfl) (fun _ => ⟨e1, e2⟩)
        (fun j' m' hm' hr' e1' e2' => h.uniq j' j m' m hm' hm hr' hr (by rw [e1', e1]) (by rw [e2', e2]))
      simp only
      rw [getD_of_get hm]
      exact ⟨this.1, this.2.1, this.2.2.1, by rw [this.2.2.2]⟩
    | none =>
      obtain ⟨j, hj⟩ := room_for_join h k i t o ht hi hi0
      simp only
      rw [hj]
      rw [List.findIdx?_eq_some_iff_getElem] at hj
      obtain ⟨hjl, hj0, _⟩ := hj
      rw [beq_iff_eq] at hj0
      have hm0 : s.mem[j]? = some s.mem[j] := List.getElem?_eq_getElem hjl
      have hc0 : count s.socks ifi g = 0 := by
        by_cases hc : count s.socks ifi g = 0
        · exact hc
        · obtain ⟨k', t', hk', ht'⟩ := (count_pos _ _ _).mp hc
          obtain ⟨_, _, j', m', hm', hr', g', i'⟩ := h.has k' t' g ifi hk' ht' (mcast_ne hg)
          exact absurd ⟨g', i'⟩ (find_none ifi g hfd j' m' hm' hr')
      generalize hme : s.mem[j] = m0 at hm0 hj0
      have := fin j { m0 with group := g, ifi := ifi, tmr := 0 } m0 hm0 rfl rfl rfl (by rw [hc0]; exact hj0) (h.dead j m0 hm0 hj0).symm (fun hne => absurd hj0 hne) (fun hne => absurd hj0 hne)
        (fun j' m' hm' hr' e1' e2' => absurd ⟨e1', e2'⟩ (find_none ifi g hfd j' m' hm' hr'))
      simp only
      rw [getD_of_get hm0]
      exact ⟨this.1, this.2.1, this.2.2.1, by rw [this.2.2.2]⟩

/-- What the application knows agrees with the sockets. -/
def Agree (s : St) (J : Nat → Nat → Nat → Bool) : Prop :=
  ∀ k i g, J k i g = true ↔ g ≠ 0 ∧ ∃ t, s.socks[k]? = some t ∧ (g, i) ∈ t.mc

theorem drop_cases {n : Nat} {s : St} (h : Inv n s) (k g ifi : Nat) (t : Sock) (ht : s.socks[k]? = some t) (hg : isMcast g = true) (hif : ifi < s.ips.length) :
    (hasMcast t ifi g = false ∧ drop s k t g ifi = (s, .einval, [])) ∨
    (∃ i : Nat, t.mc[i]? = some (g, ifi) ∧ Inv n (drop s k t g ifi).1 ∧ (drop s k t g ifi).1.socks = s.socks.set k { t with mc := t.mc.set i (0, 0) } ∧
      (drop s k t g ifi).2 = (.ok, if count s.socks ifi g = 1 then report s ifi g true else [])) := by
  by_cases hh : hasMcast t ifi g = true
  · right
    obtain ⟨i, hi⟩ := List.getElem?_of_mem ((hasMcast_iff _ _ _).mp hh)
    obtain ⟨j, m, hm, e1, e2, e4, hr, hd⟩ := drop_eq h k i ifi g t ht hi (mcast_ne hg)
    refine ⟨i, hi, drop_inv h k i ifi g t ht hi (mcast_ne hg), by rw [hd], by rw [hd, e4]⟩
  · left
    have hhf : hasMcast t ifi g = false := by simpa using hh
    refine ⟨hhf, ?_⟩
    rw [drop, if_neg (by simp [hg, hif])]
    have : t.mc.findIdx? (fun e => e == (g, ifi)) = none := by
      rw [List.findIdx?_eq_none_iff]
      intro e he
      rw [beq_eq_false_iff_ne]
      intro hc; apply hh; rw [hasMcast_iff, ← hc]; exact he
    rw [this]

/-! ### Closing -/

/-- The reports of dropping the entries `l`. -/
def leaves (s : St) (l : List (Nat × Nat)) : List Report :=
  l.flatMap (fun e => if e.1 ≠ 0 ∧ count s.socks e.2 e.1 = 1 then report s e.2 e.1 true else [])

theorem dropFrom_spec {n : Nat} (k : Nat) : ∀ (m i : Nat) (s : St) (t : Sock), Inv n s → s.socks[k]? = some t → i + m = perSock →
    Inv n (dropFrom s k i m).1 ∧ (dropFrom s k i m).1.ips = s.ips ∧
    (∃ t', (dropFrom s k i m).1.socks = s.socks.set k t' ∧ t'.used = t.used ∧ t'.mc.length = perSock ∧ ∀ (a : Nat) (e : Nat × Nat), t'.mc[a]? = some e → (a < i → t.mc[a]? = some e) ∧ (i ≤ a → e.1 = 0)) ∧
    (dropFrom s k i m).2 = leaves s (t.mc.drop i) := by
  intro m
  induction m with
  | zero =>
    intro i s t h ht hi
    have hl := h.el k t ht
    refine ⟨h, rfl, ⟨t, ?_, rfl, hl, ?_⟩, ?_⟩
    · rw [dropFrom]
      obtain ⟨h1, h2⟩ := List.getElem?_eq_some_iff.mp ht
      rw [← h2, List.set_getElem_self]
    · intro a e ha
      exact ⟨fun _ => ha, fun h => by have := lt_of_get ha; omega⟩
    · rw [dropFrom, leaves, List.drop_eq_nil_of_le (by omega)]; rfl
  | succ m ih =>
    intro i s t h ht hi
    have hl := h.el k t ht
    have hk := lt_of_get ht
    have hil : i < t.mc.length := by omega
    have hie : t.mc[i]? = some t.mc[i] := List.getElem?_eq_getElem hil
    rw [dropFrom]
    rw [List.drop_eq_getElem_cons hil]
    generalize t.mc[i] = e at hie
    have hone : dropOne s k i = (if e.1 ≠ 0 then ((drop s k t e.1 e.2).1, (drop s k t e.1 e.2).2.2) else (s, [])) := by
      rw [dropOne, ht]; simp only [getD_of_get hie]
    by_cases he0 : e.1 = 0
    · rw [if_neg (by simp [he0])] at hone
      rw [hone]
      obtain ⟨h1, h2, ⟨t', h3, h3u, h3l, h4⟩, h5⟩ := ih (i + 1) s t h ht (by omega)
      refine ⟨h1, h2, ⟨t', h3, h3u, h3l, ?_⟩, ?_⟩
      · intro a e' ha
        obtain ⟨q1, q2⟩ := h4 a e' ha
        refine ⟨fun hlt => q1 (by omega), fun hge => ?_⟩
        by_cases hai : a = i
        · subst hai
          have := q1 (by omega); rw [hie] at this; simp at this; rw [← this]; exact he0
        · exact q2 (by omega)
      · simp only; rw [h5, leaves, leaves, List.flatMap_cons, if_neg (by simp [he0])]
    · rw [if_pos he0] at hone
      obtain ⟨g, ifi⟩ := e
      simp only at he0 hone
      rw [hone]
      simp only
      obtain ⟨j, mm, hm, e1, e2, e4, hr, hd⟩ := drop_eq h k i ifi g t ht hie he0
      have hinv := drop_inv h k i ifi g t ht hie he0
      have hcnt := drop_count h k i ifi g t ht hie he0
      generalize hs' : (drop s k t g ifi).1 = s' at hinv
      have hs'k : s'.socks = s.socks.set k { t with mc := t.mc.set i (0, 0) } := by rw [← hs', hd]
      have hs'i : s'.ips = s.ips := by rw [← hs', hd]
      have ht' : s'.socks[k]? = some { t with mc := t.mc.set i (0, 0) } := by rw [hs'k, get_set k hk, if_pos rfl]
      obtain ⟨h1, h2, ⟨t', h3, h3u, h3l, h4⟩, h5⟩ := ih (i + 1) s' _ hinv ht' (by omega)
      refine ⟨h1, by rw [h2, hs'i], ⟨t', by rw [h3, hs'k, List.set_set], h3u, h3l, ?_⟩, ?_⟩
      · intro a e' ha
        obtain ⟨q1, q2⟩ := h4 a e' ha
        simp only at q1
        rw [get_set a hil] at q1
        refine ⟨fun hlt => ?_, fun hge => ?_⟩
        · have := q1 (by omega); rw [if_neg (by omega)] at this; exact this
        · by_cases hai : a = i
          · have := q1 (by omega); rw [if_pos hai] at this; simp at this; rw [← this]
          · exact q2 (by omega)
      · rw [hd, h5]
        simp only
        rw [leaves, leaves, List.flatMap_cons, e4]
        congr 1
        · by_cases hc : count s.socks ifi g = 1
          · simp [hc, he0]
          · simp [hc]
        · rw [show (t.mc.set i (0, 0)).drop (i + 1) = t.mc.drop (i + 1) by
            rw [List.drop_set, if_pos (by omega)]]
          have cong : ∀ (f f' : Nat × Nat → List Report) (l : List (Nat × Nat)), (∀ e ∈ l, f e = f' e) → l.flatMap f = l.flatMap f' := by
            intro f f' l
            induction l with
            | nil => intro _; rfl
            | cons a l ihl => intro hl'; rw [List.flatMap_cons, List.flatMap_cons, hl' a (by simp), ihl (fun e he => hl' e (by simp [he]))]
          apply cong
          intro e he
          obtain ⟨ge, ie⟩ := e
          have hr' : report s' ie ge true = report s ie ge true := by rw [report.eq_def, report.eq_def, hs'i]
          simp only
          rw [hr']
          by_cases hge : ge = 0
          · simp [hge]
          · obtain ⟨b, hb⟩ := List.getElem?_of_mem he
            rw [List.getElem?_drop] at hb
            have hne : (ge, ie) ≠ (g, ifi) := by
              intro hc; rw [hc] at hb
              have := h.once k t (i + 1 + b) i g ifi ht hb hie he0
              omega
            have := hcnt ie ge hge
            rw [if_neg hne] at this
            rw [hs'k]
            rw [show count (s.socks.set k { t with mc := t.mc.set i (0, 0) }) ie ge = count s.socks ie ge by omega]

theorem close_inv {n : Nat} {s : St} (h : Inv n s) (k : Nat) (t : Sock) (ht : s.socks[k]? = some t) :
    Inv n (close s k).1 ∧ (close s k).1.ips = s.ips ∧ (close s k).1.socks = s.socks.set k { mc := List.replicate perSock (0, 0) } ∧
    (close s k).2 = (.ok, if t.used then leaves s t.mc else []) := by
  have hk := lt_of_get ht
  -- after the drops every entry is free
  have pre : ∃ t' : Sock, Inv n (if t.used then dropFrom s k 0 perSock else (s, [])).1 ∧ (if t.used then dropFrom s k 0 perSock else (s, [])).1.ips = s.ips ∧
      (if t.used then dropFrom s k 0 perSock else (s, [])).1.socks = s.socks.set k t' ∧ t'.mc.length = perSock ∧ (∀ e ∈ t'.mc, e.1 = 0) ∧
      (if t.used then dropFrom s k 0 perSock else (s, [])).2 = if t.used then leaves s t.mc else [] := by
    by_cases hu : t.used = true
    · simp only [hu, if_true]
      obtain ⟨h1, h2, ⟨t', h3, _, h3l, h4⟩, h5⟩ := dropFrom_spec k perSock 0 s t h ht (by omega)
      refine ⟨t', h1, h2, h3, h3l, ?_, by rw [h5]; rfl⟩
      intro e he
      obtain ⟨a, ha⟩ := List.getElem?_of_mem he
      exact (h4 a e ha).2 (by omega)
    · have hu' : t.used = false := by simpa using hu
      simp only [hu', Bool.false_eq_true, if_false]
      refine ⟨t, h, trivial, ?_, h.el k t ht, ?_, trivial⟩
      · obtain ⟨h1, h2⟩ := List.getElem?_eq_some_iff.mp ht
        rw [← h2, List.set_getElem_self]
      · intro e he; exact h.shut k t e.1 e.2 ht hu' he
  obtain ⟨t', p1, p2, p3, p3l, p4, p5⟩ := pre
  rw [close.eq_def, ht]
  simp only
  generalize (if t.used then dropFrom s k 0 perSock else (s, [])) = r at p1 p2 p3 p5
  obtain ⟨s', out⟩ := r
  simp only at p1 p2 p3 p5 ⊢
  have ht' : s'.socks[k]? = some t' := by rw [p3, get_set k hk, if_pos rfl]
  have hk' := lt_of_get ht'
  have hz : ∀ e ∈ List.replicate perSock ((0, 0) : Nat × Nat), e.1 = 0 := by intro e he; rw [List.eq_of_mem_replicate he]
  refine ⟨?_, p2, by rw [setSock]; simp only [p3, List.set_set], by rw [p5]⟩
  have hcount : ∀ i g, g ≠ 0 → count (s'.socks.set k { mc := List.replicate perSock (0, 0) }) i g = count s'.socks i g := by
    intro i g hg
    have := sum_set (ind i g) s'.socks k { mc := List.replicate perSock (0, 0) } t' ht'
    have z : ∀ u : Sock, (∀ e ∈ u.mc, e.1 = 0) → ind i g u = 0 := by
      intro u hu; rw [ind, if_neg]
      intro hc; rw [hasMcast_iff] at hc; exact hg (hu _ hc)
    rw [z t' p4, z _ hz] at this
    rw [count, count]; omega
  have hother : ∀ (k' : Nat) (t1 : Sock), (s'.socks.set k { mc := List.replicate perSock (0, 0) })[k']? = some t1 →
      (k' = k ∧ t1 = { mc := List.replicate perSock (0, 0) }) ∨ (s'.socks[k']? = some t1) := by
    intro k' t1 h1; rw [get_set k' hk'] at h1
    split at h1
    · simp at h1; exact Or.inl ⟨by assumption, h1.symm⟩
    · exact Or.inr h1
  refine ⟨p1.n255, by simp [setSock, p1.sl], ?_, p1.ml, ?_, p1.dead, p1.uniq, ?_, ?_, ?_, ?_⟩
  · intro k' t1 h1
    rcases hother k' t1 h1 with ⟨_, h2⟩ | h2
    · rw [h2]; rfl
    · exact p1.el k' t1 h2
  · intro j m hj hr
    obtain ⟨l1, l2, l3⟩ := p1.live j m hj hr
    exact ⟨l1, l2, by rw [l3]; exact (hcount _ _ (mcast_ne l1)).symm⟩
  · intro k' t1 g i h1 h2 h3
    rcases hother k' t1 h1 with ⟨_, h4⟩ | h4
    · rw [h4] at h2; exact absurd (hz _ h2) h3
    · exact p1.has k' t1 g i h4 h2 h3
  · intro k' t1 a b g i h1 ha hb h3
    rcases hother k' t1 h1 with ⟨_, h4⟩ | h4
    · rw [h4] at ha; exact absurd (hz _ (List.mem_of_getElem? ha)) h3
    · exact p1.once k' t1 a b g i h4 ha hb h3
  · have h2 := sum_set usedN s'.socks k { mc := List.replicate perSock (0, 0) } t' ht'
    have z : ∀ l : List (Nat × Nat), (∀ e ∈ l, e.1 = 0) → (l.map eUsed).sum = 0 := by
      intro l
      induction l with
      | nil => intro _; rfl
      | cons a l ih => intro hl; rw [List.map_cons, List.sum_cons, ih (fun e he => hl e (by simp [he])), eUsed, if_neg (by simp [hl a])]
    have z1 : usedN t' = 0 := z _ p4
    have z2 : usedN { mc := List.replicate perSock (0, 0) } = 0 := z _ hz
    have := p1.tot
    simp only [setSock]
    omega
  · intro k' t1 g i h1 h2 h3
    rcases hother k' t1 h1 with ⟨_, h4⟩ | h4
    · rw [h4] at h3; exact hz _ h3
    · exact p1.shut k' t1 g i h4 h2 h3

/-! ### The invariant along any use of the API -/

/-- Operations that change neither the sockets' entries nor the reference counts keep the invariant. -/
theorem inv_tmr {n : Nat} {s s' : St} (h : Inv n s) (hs : s'.socks = s.socks) (hi : s'.ips.length = s.ips.length) (hl : s'.mem.length = s.mem.length)
    (hm : ∀ (j : Nat) (m' : Mem), s'.mem[j]? = some m' → ∃ m, s.mem[j]? = some m ∧ m'.group = m.group ∧ m'.ifi = m.ifi ∧ m'.refs = m.refs ∧ (m.refs = 0 → m'.tmr = 0)) :
    Inv n s' := by
  have hm' : ∀ (j : Nat) (m : Mem), s.mem[j]? = some m → ∃ m', s'.mem[j]? = some m' ∧ m'.group = m.group ∧ m'.ifi = m.ifi ∧ m'.refs = m.refs := by
    intro j m hj
    have hjl : j < s'.mem.length := by rw [hl]; exact lt_of_get hj
    obtain ⟨m0, h0, e1, e2, e3, _⟩ := hm j _ (List.getElem?_eq_getElem hjl)
    rw [hj] at h0; simp at h0; subst h0
    exact ⟨_, List.getElem?_eq_getElem hjl, e1, e2, e3⟩
  refine ⟨h.n255, by rw [hs]; exact h.sl, by rw [hs]; exact h.el, by rw [hl]; exact h.ml, ?_, ?_, ?_, ?_, by rw [hs]; exact h.once, ?_, by rw [hs]; exact h.shut⟩
  · intro j m' hj hr
    obtain ⟨m, h0, e1, e2, e3, _⟩ := hm j m' hj
    rw [hs, hi, e1, e2, e3]; exact h.live j m h0 (by rw [← e3]; exact hr)
  · intro j m' hj hr
    obtain ⟨m, h0, e1, e2, e3, e4⟩ := hm j m' hj
    exact e4 (by rw [← e3]; exact hr)
  · intro j j' m m' hj hj' hr hr' eg ei
    obtain ⟨m0, h0, e1, e2, e3, _⟩ := hm j m hj
    obtain ⟨m0', h0', e1', e2', e3', _⟩ := hm j' m' hj'
    exact h.uniq j j' m0 m0' h0 h0' (by rw [← e3]; exact hr) (by rw [← e3']; exact hr') (by rw [← e1, ← e1', eg]) (by rw [← e2, ← e2', ei])
  · intro k t g i ht hgi hg0
    rw [hs] at ht
    obtain ⟨q1, q2, j, m, hj, hr, e1, e2⟩ := h.has k t g i ht hgi hg0
    obtain ⟨m', hj', f1, f2, f3⟩ := hm' j m hj
    exact ⟨q1, by rw [hi]; exact q2, j, m', hj', by rw [f3]; exact hr, by rw [f1]; exact e1, by rw [f2]; exact e2⟩
  · rw [hs, ← h.tot]
    congr 1
    apply List.ext_getElem?
    intro j
    rw [List.getElem?_map, List.getElem?_map]
    by_cases hj : j < s.mem.length
    · obtain ⟨m', hj', _, _, f3⟩ := hm' j _ (List.getElem?_eq_getElem hj)
      rw [hj', List.getElem?_eq_getElem hj]; simp [f3]
    · rw [List.getElem?_eq_none (by omega), List.getElem?_eq_none (by omega)]

theorem schedule_frame (s : St) (ifi group maxMs tick rnd : Nat) (room : Bool) (j : Nat) :
    (schedule s ifi group maxMs tick rnd room j).socks = s.socks ∧ (schedule s ifi group maxMs tick rnd room j).ips = s.ips ∧
    (schedule s ifi group maxMs tick rnd room j).mem.length = s.mem.length ∧
    ∀ (a : Nat) (m' : Mem), (schedule s ifi group maxMs tick rnd room j).mem[a]? = some m' →
      ∃ m, s.mem[a]? = some m ∧ m'.group = m.group ∧ m'.ifi = m.ifi ∧ m'.refs = m.refs ∧ (m.refs = 0 → m'.tmr = m.tmr) := by
  have same : s.socks = s.socks ∧ s.ips = s.ips ∧ s.mem.length = s.mem.length ∧ ∀ (a : Nat) (m' : Mem), s.mem[a]? = some m' →
      ∃ m, s.mem[a]? = some m ∧ m'.group = m.group ∧ m'.ifi = m.ifi ∧ m'.refs = m.refs ∧ (m.refs = 0 → m'.tmr = m.tmr) :=
    ⟨rfl, rfl, rfl, fun a m' h => ⟨m', h, rfl, rfl, rfl, fun _ => rfl⟩⟩
  rw [schedule.eq_def]
  cases hm : s.mem[j]? with
  | none => exact same
  | some m =>
    simp only
    have hj := lt_of_get hm
    split
    · exact same
    rename_i hr
    split
    · exact same
    split
    · exact same
    have chg : ∀ x, ∀ (a : Nat) (m' : Mem), (s.mem.set j { m with tmr := x })[a]? = some m' →
        ∃ m, s.mem[a]? = some m ∧ m'.group = m.group ∧ m'.ifi = m.ifi ∧ m'.refs = m.refs ∧ (m.refs = 0 → m'.tmr = m.tmr) := by
      intro x a m' h
      rw [get_set a hj] at h
      split at h
      · rename_i haj
        simp at h; subst h
        exact ⟨m, by rw [haj]; exact hm, rfl, rfl, rfl, fun h0 => absurd (Or.inl h0) hr⟩
      · exact ⟨m', h, rfl, rfl, rfl, fun _ => rfl⟩
    split
    · exact ⟨rfl, rfl, by simp [setMem], chg _⟩
    · exact ⟨rfl, rfl, by simp [setMem], chg _⟩

theorem scheduleFrom_frame (ifi group maxMs tick : Nat) (rnd : Nat → Nat) (room : Nat → Bool) : ∀ (n j : Nat) (s : St),
    (scheduleFrom ifi group maxMs tick rnd room j n s).socks = s.socks ∧ (scheduleFrom ifi group maxMs tick rnd room j n s).ips = s.ips ∧
    (scheduleFrom ifi group maxMs tick rnd room j n s).mem.length = s.mem.length ∧
    ∀ (a : Nat) (m' : Mem), (scheduleFrom ifi group maxMs tick rnd room j n s).mem[a]? = some m' →
      ∃ m, s.mem[a]? = some m ∧ m'.group = m.group ∧ m'.ifi = m.ifi ∧ m'.refs = m.refs ∧ (m.refs = 0 → m'.tmr = m.tmr) := by
  intro n
  induction n with
  | zero => intro j s; exact ⟨rfl, rfl, rfl, fun a m' h => ⟨m', h, rfl, rfl, rfl, fun _ => rfl⟩⟩
  | succ n ih =>
    intro j s
    rw [scheduleFrom]
    obtain ⟨a1, a2, a3, a4⟩ := ih (j + 1) (schedule s ifi group maxMs tick (rnd j) (room j) j)
    obtain ⟨b1, b2, b3, b4⟩ := schedule_frame s ifi group maxMs tick (rnd j) (room j) j
    refine ⟨by rw [a1, b1], by rw [a2, b2], by rw [a3, b3], ?_⟩
    intro a m' h
    obtain ⟨m1, h1, e1, e2, e3, e4⟩ := a4 a m' h
    obtain ⟨m2, h2, f1, f2, f3, f4⟩ := b4 a m1 h1
    exact ⟨m2, h2, by rw [e1, f1], by rw [e2, f2], by rw [e3, f3], fun h0 => by rw [e4 (by rw [f3]; exact h0), f4 h0]⟩

theorem input_frame (s : St) (ifi : Nat) (q : Query) (tick : Nat) (rnd : Nat → Nat) (room : Nat → Bool) :
    (input s ifi q tick rnd room).socks = s.socks ∧ (input s ifi q tick rnd room).ips = s.ips ∧
    (input s ifi q tick rnd room).mem.length = s.mem.length ∧
    ∀ (a : Nat) (m' : Mem), (input s ifi q tick rnd room).mem[a]? = some m' →
      ∃ m, s.mem[a]? = some m ∧ m'.group = m.group ∧ m'.ifi = m.ifi ∧ m'.refs = m.refs ∧ (m.refs = 0 → m'.tmr = m.tmr) := by
  rw [input]
  split
  · exact ⟨rfl, rfl, rfl, fun a m' h => ⟨m', h, rfl, rfl, rfl, fun _ => rfl⟩⟩
  · exact scheduleFrom_frame ..

theorem fire_frame (s : St) (n now : Nat) :
    (fire s n now).1.socks = s.socks ∧ (fire s n now).1.ips = s.ips ∧ (fire s n now).1.mem.length = s.mem.length ∧
    ∀ (a : Nat) (m' : Mem), (fire s n now).1.mem[a]? = some m' →
      ∃ m, s.mem[a]? = some m ∧ m'.group = m.group ∧ m'.ifi = m.ifi ∧ m'.refs = m.refs ∧ (m'.tmr = m.tmr ∨ m'.tmr = 0) := by
  rw [fire.eq_def]
  cases ht : s.tms[n]? with
  | none => exact ⟨rfl, rfl, rfl, fun a m' h => ⟨m', h, rfl, rfl, rfl, Or.inl rfl⟩⟩
  | some t =>
    simp only
    split
    · exact ⟨rfl, rfl, rfl, fun a m' h => ⟨m', h, rfl, rfl, rfl, Or.inl rfl⟩⟩
    · split
      · exact ⟨rfl, rfl, rfl, fun a m' h => ⟨m', h, rfl, rfl, rfl, Or.inl rfl⟩⟩
      · rename_i m hm
        refine ⟨rfl, rfl, by simp [setMem], ?_⟩
        intro a m' h
        simp only [setMem] at h
        rw [get_set a (lt_of_get hm)] at h
        split at h
        · rename_i ha
          simp at h; subst h
          exact ⟨m, by rw [ha]; exact hm, rfl, rfl, rfl, Or.inr rfl⟩
        · exact ⟨m', h, rfl, rfl, rfl, Or.inl rfl⟩

theorem open_inv {n : Nat} {s : St} (h : Inv n s) : Inv n (open_ s).1 ∧ ∀ k i g : Nat, (∃ t : Sock, (open_ s).1.socks[k]? = some t ∧ (g, i) ∈ t.mc) ↔ (∃ t : Sock, s.socks[k]? = some t ∧ (g, i) ∈ t.mc) := by
  rw [open_]
  split
  · exact ⟨h, fun k i g => Iff.rfl⟩
  · rename_i k hf
    rw [List.findIdx?_eq_some_iff_getElem] at hf
    obtain ⟨hk, _, _⟩ := hf
    have ht : s.socks[k]? = some s.socks[k] := List.getElem?_eq_getElem hk
    generalize s.socks[k] = t at ht
    simp only [setSock]
    rw [getD_of_get ht]
    have back : ∀ (k' : Nat) (t1 : Sock), (s.socks.set k { t with used := true })[k']? = some t1 → ∃ t0, s.socks[k']? = some t0 ∧ t1.mc = t0.mc ∧ (t1.used = false → t0.used = false) := by
      intro k' t1 h1
      rw [get_set k' hk] at h1
      split at h1
      · rename_i hkk; simp at h1; subst h1; exact ⟨t, by rw [hkk]; exact ht, rfl, fun h => by simp at h⟩
      · exact ⟨t1, h1, rfl, id⟩
    have fwd : ∀ (k' : Nat) (t0 : Sock), s.socks[k']? = some t0 → ∃ t1, (s.socks.set k { t with used := true })[k']? = some t1 ∧ t1.mc = t0.mc := by
      intro k' t0 h1
      rw [get_set k' hk]
      split
      · rename_i hkk; rw [hkk, ht] at h1; simp at h1; subst h1; exact ⟨_, rfl, rfl⟩
      · exact ⟨t0, h1, rfl⟩
    have hcount : ∀ i g, count (s.socks.set k { t with used := true }) i g = count s.socks i g := by
      intro i g
      have := sum_set (ind i g) s.socks k { t with used := true } t ht
      have e : ind i g { t with used := true } = ind i g t := rfl
      rw [count, count]; omega
    refine ⟨⟨h.n255, by simp [h.sl], ?_, h.ml, ?_, h.dead, h.uniq, ?_, ?_, ?_, ?_⟩, ?_⟩
    · intro k' t1 h1; obtain ⟨t0, h0, e, _⟩ := back k' t1 h1; rw [e]; exact h.el k' t0 h0
    · intro j m hj hr; rw [hcount]; exact h.live j m hj hr
    · intro k' t1 g i h1 h2 h3; obtain ⟨t0, h0, e, _⟩ := back k' t1 h1; rw [e] at h2; exact h.has k' t0 g i h0 h2 h3
    · intro k' t1 a b g i h1; obtain ⟨t0, h0, e, _⟩ := back k' t1 h1; rw [e]; exact h.once k' t0 a b g i h0
    · have h2 := sum_set usedN s.socks k { t with used := true } t ht
      have e : usedN { t with used := true } = usedN t := rfl
      have := h.tot
      simp only
      omega
    · intro k' t1 g i h1 h2 h3; obtain ⟨t0, h0, e, u⟩ := back k' t1 h1; rw [e] at h3; exact h.shut k' t0 g i h0 (u h2) h3
    · intro k' i g
      constructor
      · rintro ⟨t1, h1, h2⟩; obtain ⟨t0, h0, e, _⟩ := back k' t1 h1; exact ⟨t0, h0, by rw [← e]; exact h2⟩
      · rintro ⟨t0, h0, h2⟩; obtain ⟨t1, h1, e⟩ := fwd k' t0 h0; exact ⟨t1, h1, by rw [e]; exact h2⟩

theorem setsockopt_join {s : St} {k g a r : Nat} (t : Sock) (i : Nat) (ht : s.socks[k]? = some t) (hi : ifFromAddr s a g r = some i) :
    setsockopt s k true g a r = join s k t g i := by
  rw [setsockopt, ht]; simp only [hi]; rfl

theorem setsockopt_drop {s : St} {k g a r : Nat} (t : Sock) (i : Nat) (ht : s.socks[k]? = some t) (hi : ifFromAddr s a g r = some i) :
    setsockopt s k false g a r = drop s k t g i := by
  rw [setsockopt, ht]; simp only [hi]; rfl

theorem setsockopt_bad {s : St} {k g a r : Nat} (add : Bool) (h : s.socks[k]? = none ∨ ifFromAddr s a g r = none) :
    setsockopt s k add g a r = (s, .einval, []) := by
  rw [setsockopt]
  cases ht : s.socks[k]? with
  | none => rfl
  | some t =>
    rcases h with h | h
    · rw [ht] at h; simp at h
    · simp only [h]

/-- **C42, refusals.** Joining or leaving an address that is not a multicast address, or on an interface that does not
exist, fails with EINVAL, changes nothing and sends nothing. -/
theorem mcast_bad_refused (s : St) (k : Nat) (add : Bool) (g a r : Nat) (h : isMcast g = false ∨ ∀ i, ifFromAddr s a g r = some i → s.ips.length ≤ i) :
    setsockopt s k add g a r = (s, .einval, []) := by
  rw [setsockopt]
  cases s.socks[k]? with
  | none => rfl
  | some t =>
    dsimp only
    cases hi : ifFromAddr s a g r with
    | none => rfl
    | some i =>
      have hc : isMcast g = false ∨ i ≥ s.ips.length := h.imp id (fun c => c i hi)
      dsimp only
      cases add with
      | true => rw [if_pos rfl, join, if_pos hc]
      | false => rw [if_neg (by simp), drop, if_pos hc]

theorem inv_step {n : Nat} {s : St} {J : Nat → Nat → Nat → Bool} (h : Inv n s) (hJ : Agree s J) (o : Op) (hp : Proper s o) :
    Inv n (step s o).1 ∧ Agree (step s o).1 (know J s o (step s o).2.res) := by
  cases o with
  | socket =>
    obtain ⟨h1, h2⟩ := open_inv h
    refine ⟨h1, ?_⟩
    intro k i g
    show J k i g = true ↔ _
    rw [hJ k i g]
    constructor
    · rintro ⟨a, b⟩; exact ⟨a, (h2 k i g).mpr b⟩
    · rintro ⟨a, b⟩; exact ⟨a, (h2 k i g).mp b⟩
  | join k g a r =>
    show Inv n (setsockopt s k true g a r).1 ∧ Agree (setsockopt s k true g a r).1 (know J s (.join k g a r) (setsockopt s k true g a r).2.1)
    by_cases hbad : s.socks[k]? = none ∨ ifFromAddr s a g r = none
    · rw [setsockopt_bad true hbad]; exact ⟨h, hJ⟩
    · obtain ⟨t, ht⟩ := Option.ne_none_iff_exists'.mp (fun hc => hbad (Or.inl hc))
      obtain ⟨ifi, hi⟩ := Option.ne_none_iff_exists'.mp (fun hc => hbad (Or.inr hc))
      obtain ⟨hg, hif, _⟩ := ifFromAddr_spec s a g r ifi hi
      rw [setsockopt_join t ifi ht hi]
      rcases join_cases h k g ifi t ht (hp t ht) hg hif with ⟨_, e⟩ | ⟨_, _, e⟩ | ⟨hn, i, o, hio, ho, h1, h2, _, h3⟩
      · rw [e]; exact ⟨h, hJ⟩
      · rw [e]; exact ⟨h, hJ⟩
      · refine ⟨h1, ?_⟩
        rw [h3]
        simp only [know]
        intro k' i' g'
        rw [h2, get_set k' (lt_of_get ht)]
        have hmem : ∀ x : Nat × Nat, x.1 ≠ 0 → (x ∈ t.mc.set i (g, ifi) ↔ x = (g, ifi) ∨ x ∈ t.mc) :=
          fun x hx => mem_set_free t.mc i o (g, ifi) x hio ho hx
        rw [hi]
        show (if k' = k ∧ g' = g ∧ some ifi = some i' then true else J k' i' g') = true ↔ _
        by_cases hkk : k' = k
        · subst hkk
          have hjk := hJ k' i' g'
          rw [ht] at hjk
          rw [if_pos rfl]
          by_cases hc : g' = g ∧ ifi = i'
          · obtain ⟨rfl, rfl⟩ := hc
            simp only [and_self, if_true, true_iff]
            exact ⟨mcast_ne hg, _, rfl, (hmem (g', ifi) (mcast_ne hg)).mpr (Or.inl rfl)⟩
          · rw [if_neg (by rintro ⟨_, c1, c2⟩; simp at c2; exact hc ⟨c1, c2⟩), hjk]
            constructor
            · rintro ⟨c1, t2, c2, c3⟩
              simp at c2; subst c2
              exact ⟨c1, _, rfl, (hmem (g', i') c1).mpr (Or.inr c3)⟩
            · rintro ⟨c1, t2, c2, c3⟩
              simp at c2; subst c2
              rcases (hmem (g', i') c1).mp c3 with c4 | c4
              · simp at c4; exact absurd ⟨c4.1, c4.2.symm⟩ hc
              · exact ⟨c1, t, rfl, c4⟩
        · rw [if_neg (by rintro ⟨c, _⟩; exact hkk c), if_neg hkk]
          exact hJ k' i' g'
  | leave k g a r =>
    show Inv n (setsockopt s k false g a r).1 ∧ Agree (setsockopt s k false g a r).1 (know J s (.leave k g a r) (setsockopt s k false g a r).2.1)
    by_cases hbad : s.socks[k]? = none ∨ ifFromAddr s a g r = none
    · rw [setsockopt_bad false hbad]; exact ⟨h, hJ⟩
    · obtain ⟨t, ht⟩ := Option.ne_none_iff_exists'.mp (fun hc => hbad (Or.inl hc))
      obtain ⟨ifi, hi⟩ := Option.ne_none_iff_exists'.mp (fun hc => hbad (Or.inr hc))
      obtain ⟨hg, hif, _⟩ := ifFromAddr_spec s a g r ifi hi
      rw [setsockopt_drop t ifi ht hi]
      rcases drop_cases h k g ifi t ht hg hif with ⟨_, e⟩ | ⟨i, hio, h1, h2, h3⟩
      · rw [e]; exact ⟨h, hJ⟩
      · refine ⟨h1, ?_⟩
        rw [h3]
        simp only [know]
        intro k' i' g'
        rw [h2, get_set k' (lt_of_get ht)]
        have hmem : ∀ x : Nat × Nat, x.1 ≠ 0 → (x ∈ t.mc.set i (0, 0) ↔ x ≠ (g, ifi) ∧ x ∈ t.mc) :=
          fun x hx => mem_set_drop t.mc i (g, ifi) x hio hx (fun a b ha hb => h.once k t a b g ifi ht ha hb (mcast_ne hg))
        rw [hi]
        show (if k' = k ∧ g' = g ∧ some ifi = some i' then false else J k' i' g') = true ↔ _
        by_cases hkk : k' = k
        · subst hkk
          have hjk := hJ k' i' g'
          rw [ht] at hjk
          rw [if_pos rfl]
          by_cases hc : g' = g ∧ ifi = i'
          · obtain ⟨rfl, rfl⟩ := hc
            simp only [and_self, if_true, Bool.false_eq_true, false_iff]
            rintro ⟨c1, t2, c2, c3⟩
            simp at c2; subst c2
            exact ((hmem _ c1).mp c3).1 rfl
          · rw [if_neg (by rintro ⟨_, c1, c2⟩; simp at c2; exact hc ⟨c1, c2⟩), hjk]
            constructor
            · rintro ⟨c1, t2, c2, c3⟩
              simp at c2; subst c2
              exact ⟨c1, _, rfl, (hmem (g', i') c1).mpr ⟨by intro c; simp at c; exact hc ⟨c.1, c.2.symm⟩, c3⟩⟩
            · rintro ⟨c1, t2, c2, c3⟩
              simp at c2; subst c2
              exact ⟨c1, t, rfl, ((hmem (g', i') c1).mp c3).2⟩
        · rw [if_neg (by rintro ⟨c, _⟩; exact hkk c), if_neg hkk]
          exact hJ k' i' g'
  | close k =>
    simp only [step, know]
    cases ht : s.socks[k]? with
    | none =>
      rw [close.eq_def, ht]
      refine ⟨h, ?_⟩
      intro k' i g
      show (if k' = k then false else J k' i g) = true ↔ g ≠ 0 ∧ ∃ t, s.socks[k']? = some t ∧ (g, i) ∈ t.mc
      by_cases hkk : k' = k
      · rw [if_pos hkk, hkk]; simp only [ht]; simp
      · rw [if_neg hkk]; exact hJ k' i g
    | some t =>
      obtain ⟨h1, _, h2, _⟩ := close_inv h k t ht
      refine ⟨h1, ?_⟩
      intro k' i g
      rw [h2, get_set k' (lt_of_get ht)]
      show (if k' = k then false else J k' i g) = true ↔ _
      by_cases hkk : k' = k
      · rw [if_pos hkk, if_pos hkk]
        simp only [Bool.false_eq_true, false_iff]
        rintro ⟨c1, t2, c2, c3⟩
        rw [Option.some.injEq] at c2; subst c2
        have := List.eq_of_mem_replicate c3
        simp at this; exact c1 this.1
      · rw [if_neg hkk, if_neg hkk]; exact hJ k' i g
  | setIp i ip =>
    exact ⟨inv_tmr h rfl (by simp [step]) rfl (fun j m' hj => ⟨m', hj, rfl, rfl, rfl, fun h0 => h.dead j m' hj h0⟩), hJ⟩
  | query i q t rnd room =>
    obtain ⟨a1, a2, a3, a4⟩ := input_frame s i q t rnd room
    refine ⟨inv_tmr h a1 (by simp only [step]; rw [a2]) a3 ?_, ?_⟩
    · intro j m' hj
      obtain ⟨m, h0, e1, e2, e3, e4⟩ := a4 j m' hj
      exact ⟨m, h0, e1, e2, e3, fun hz => by rw [e4 hz]; exact h.dead j m h0 hz⟩
    · intro k i' g; simp only [step]; rw [a1]; exact hJ k i' g
  | fire m now =>
    obtain ⟨a1, a2, a3, a4⟩ := fire_frame s m now
    refine ⟨inv_tmr h a1 (by simp only [step]; rw [a2]) a3 ?_, ?_⟩
    · intro j m' hj
      obtain ⟨m0, h0, e1, e2, e3, e4⟩ := a4 j m' hj
      refine ⟨m0, h0, e1, e2, e3, fun hz => ?_⟩
      rcases e4 with e4 | e4
      · rw [e4]; exact h.dead j m0 h0 hz
      · exact e4
    · intro k i' g; simp only [step]; rw [a1]; exact hJ k i' g

theorem reach_inv {n : Nat} (hn : n ≤ 255) {ips : List Nat} {s : St} {J : Nat → Nat → Nat → Bool} (hr : Reach n ips s J) : Inv n s ∧ Agree s J := by
  induction hr with
  | start =>
    refine ⟨inv_init n hn ips, ?_⟩
    intro k i g
    simp only [Bool.false_eq_true, false_iff]
    rintro ⟨h0, t, ht, hm⟩
    simp only [init] at ht
    rw [List.getElem?_replicate] at ht
    split at ht
    · rw [Option.some.injEq] at ht; subst ht
      have := List.eq_of_mem_replicate hm
      simp at this; exact h0 this.1
    · simp at ht
  | step s J o _ hp ih => exact inv_step ih.1 ih.2 o hp

/-! ## The theorems -/

theorem agree_count {n : Nat} {s : St} {J : Nat → Nat → Nat → Bool} (h : Inv n s) (hJ : Agree s J) (i g : Nat) (hg : g ≠ 0) :
    (count s.socks i g = 0 ↔ ∀ k, J k i g = false) ∧ ∀ k, J k i g = true → (count s.socks i g = 1 ↔ ∀ k', k' ≠ k → J k' i g = false) := by
  constructor
  · constructor
    · intro h0 k
      rw [Bool.eq_false_iff]
      intro hk
      obtain ⟨_, t, ht, hm⟩ := (hJ k i g).mp hk
      exact (count_pos _ _ _).mpr ⟨k, t, ht, hm⟩ h0
    · intro hall
      by_cases hc : count s.socks i g = 0
      · exact hc
      · obtain ⟨k, t, ht, hm⟩ := (count_pos _ _ _).mp hc
        have := (hJ k i g).mpr ⟨hg, t, ht, hm⟩
        rw [hall k] at this; simp at this
  · intro k hk
    obtain ⟨_, t, ht, hm⟩ := (hJ k i g).mp hk
    have hone : ind i g t = 1 := by rw [ind, if_pos ((hasMcast_iff _ _ _).mpr hm)]
    constructor
    · intro h1 k' hne
      rw [Bool.eq_false_iff]
      intro hk'
      obtain ⟨_, t', ht', hm'⟩ := (hJ k' i g).mp hk'
      have hone' : ind i g t' = 1 := by rw [ind, if_pos ((hasMcast_iff _ _ _).mpr hm')]
      have := two_le_sum (ind i g) s.socks k k' t t' ht ht' (Ne.symm hne)
      rw [count] at h1; omega
    · intro hall
      have hs := sum_set (ind i g) s.socks k { mc := [] } t ht
      have hz : ind i g { mc := [] } = 0 := by rw [ind, if_neg]; rw [hasMcast_iff]; simp
      by_cases hc : ((s.socks.set k { mc := [] }).map (ind i g)).sum = 0
      · rw [count]; omega
      · obtain ⟨k', t', ht', hm'⟩ := (count_pos _ _ _).mp hc
        rw [get_set k' (lt_of_get ht)] at ht'
        split at ht'
        · simp at ht'; subst ht'; simp at hm'
        · rename_i hne
          have := (hJ k' i g).mpr ⟨hg, t', ht', hm'⟩
          rw [hall k' hne] at this; simp at this

/-- **C42, membership.** In every state reached by the API, the stack counts as a member of a group on an
interface exactly while at least one socket has joined it there (by what the calls answered) and has neither
left it nor been closed. -/
theorem mcast_member_exact (n : Nat) (hn : n ≤ 255) (ips : List Nat) (s : St) (J : Nat → Nat → Nat → Bool) (hr : Reach n ips s J) (i g : Nat) :
    isJoined s i g = true ↔ ∃ k, J k i g = true := by
  obtain ⟨h, hJ⟩ := reach_inv hn hr
  rw [joined_iff h]
  constructor
  · rintro ⟨h0, k, t, ht, hm⟩; exact ⟨k, (hJ k i g).mpr ⟨h0, t, ht, hm⟩⟩
  · rintro ⟨k, hk⟩; obtain ⟨h0, t, ht, hm⟩ := (hJ k i g).mp hk; exact ⟨h0, k, t, ht, hm⟩

/-- **C42, joining.** A join is granted exactly when the call names an interface with an address and a multicast
group, the socket has not already joined it there, and it has fewer than four memberships. A granted join sends
one membership report if no socket was a member before and nothing otherwise; a refused one changes nothing and
sends nothing. -/
theorem mcast_join_exact (n : Nat) (hn : n ≤ 255) (ips : List Nat) (s : St) (J : Nat → Nat → Nat → Bool) (hr : Reach n ips s J)
    (k g a r : Nat) (hk : k < n) (hp : Proper s (.join k g a r)) :
    (match (step s (.join k g a r)).2.res with
     | .ok => ∃ i, ifFromAddr s a g r = some i ∧ J k i g = false ∧
         ((∃ k', J k' i g = true) → (step s (.join k g a r)).2.reports = []) ∧
         ((∀ k', J k' i g = false) → (step s (.join k g a r)).2.reports = [⟨i, g, false⟩])
     | .einval => (step s (.join k g a r)).1 = s ∧ (step s (.join k g a r)).2.reports = [] ∧ ∀ i, ifFromAddr s a g r = some i → J k i g = true
     | .enomem => (step s (.join k g a r)).1 = s ∧ (step s (.join k g a r)).2.reports = [] ∧
         ∃ l : List (Nat × Nat), l.length = perSock ∧ l.Nodup ∧ ∀ x ∈ l, J k x.2 x.1 = true) := by
  obtain ⟨h, hJ⟩ := reach_inv hn hr
  have ht : s.socks[k]? = some (s.socks[k]'(by rw [h.sl]; exact hk)) := List.getElem?_eq_getElem _
  generalize s.socks[k]'(by rw [h.sl]; exact hk) = t at ht
  have jt : ∀ i g, J k i g = true ↔ g ≠ 0 ∧ (g, i) ∈ t.mc := by
    intro i g; rw [hJ k i g, ht]; simp
  simp only [step]
  cases hi : ifFromAddr s a g r with
  | none =>
    rw [setsockopt_bad true (Or.inr hi)]
    exact ⟨rfl, rfl, fun i hc => by simp at hc⟩
  | some ifi =>
    obtain ⟨hg, hif, ip, hip, hip0⟩ := ifFromAddr_spec s a g r ifi hi
    rw [setsockopt_join t ifi ht hi]
    rcases join_cases h k g ifi t ht (hp t ht) hg hif with ⟨hh, e⟩ | ⟨_, hfull, e⟩ | ⟨hnn, i, o, hio, ho, h1, h2, _, h3⟩
    · rw [e]
      refine ⟨rfl, rfl, ?_⟩
      intro i hc; simp at hc; subst hc
      exact (jt _ _).mpr ⟨mcast_ne hg, (hasMcast_iff _ _ _).mp hh⟩
    · rw [e]
      refine ⟨rfl, rfl, t.mc, h.el k t ht, ?_, ?_⟩
      · rw [List.Nodup, List.pairwise_iff_getElem]
        intro p q hp' hq hpq heq
        have hpx : t.mc[p]? = some t.mc[p] := List.getElem?_eq_getElem (by omega)
        have := h.once k t p q t.mc[p].1 t.mc[p].2 ht hpx (by rw [List.getElem?_eq_getElem hq, ← heq]) (hfull _ (List.mem_of_getElem? hpx))
        omega
      · intro x hx; exact (jt _ _).mpr ⟨hfull x hx, hx⟩
    · rw [h3]
      simp only
      refine ⟨ifi, rfl, ?_, ?_⟩
      · rw [Bool.eq_false_iff]; intro hc
        rw [(hasMcast_iff t ifi g).mpr ((jt _ _).mp hc).2] at hnn; simp at hnn
      · rw [report_some s ifi g false ip hip hip0 hg]
        have hc := (agree_count h hJ ifi g (mcast_ne hg)).1
        constructor
        · rintro ⟨k', hk'⟩; rw [if_neg]; intro h0; rw [hc.mp h0 k'] at hk'; simp at hk'
        · intro hall; rw [if_pos (hc.mpr hall)]

/-- **C42, leaving.** A leave is granted exactly when the socket has joined; it sends one leave report if no other
socket is a member and nothing otherwise; refused, it changes nothing. -/
theorem mcast_leave_exact (n : Nat) (hn : n ≤ 255) (ips : List Nat) (s : St) (J : Nat → Nat → Nat → Bool) (hr : Reach n ips s J)
    (k g a r : Nat) :
    ((step s (.leave k g a r)).2.res = .ok ∧ ∃ i, ifFromAddr s a g r = some i ∧ J k i g = true ∧
       ((∃ k', k' ≠ k ∧ J k' i g = true) → (step s (.leave k g a r)).2.reports = []) ∧
       ((∀ k', k' ≠ k → J k' i g = false) → (step s (.leave k g a r)).2.reports = [⟨i, g, true⟩])) ∨
    ((step s (.leave k g a r)).2.res = .einval ∧ (step s (.leave k g a r)).1 = s ∧ (step s (.leave k g a r)).2.reports = [] ∧
       ∀ i, ifFromAddr s a g r = some i → J k i g = false) := by
  obtain ⟨h, hJ⟩ := reach_inv hn hr
  simp only [step]
  by_cases hbad : s.socks[k]? = none ∨ ifFromAddr s a g r = none
  · rw [setsockopt_bad false hbad]
    right
    refine ⟨rfl, rfl, rfl, ?_⟩
    intro i hi
    rcases hbad with hb | hb
    · rw [Bool.eq_false_iff]; intro hc
      obtain ⟨_, t, ht, _⟩ := (hJ k i g).mp hc
      rw [hb] at ht; simp at ht
    · rw [hb] at hi; simp at hi
  · obtain ⟨t, ht⟩ := Option.ne_none_iff_exists'.mp (fun hc => hbad (Or.inl hc))
    obtain ⟨ifi, hi⟩ := Option.ne_none_iff_exists'.mp (fun hc => hbad (Or.inr hc))
    obtain ⟨hg, hif, ip, hip, hip0⟩ := ifFromAddr_spec s a g r ifi hi
    rw [setsockopt_drop t ifi ht hi]
    rcases drop_cases h k g ifi t ht hg hif with ⟨hh, e⟩ | ⟨i, hio, h1, h2, h3⟩
    · rw [e]
      right
      refine ⟨rfl, rfl, rfl, ?_⟩
      intro i hc
      rw [hi] at hc; simp at hc; subst hc
      rw [Bool.eq_false_iff]; intro hc
      obtain ⟨_, t', ht', hm'⟩ := (hJ k ifi g).mp hc
      rw [ht] at ht'; simp at ht'; subst ht'
      rw [(hasMcast_iff t ifi g).mpr hm'] at hh; simp at hh
    · rw [h3]
      left
      have hjk : J k ifi g = true := (hJ k ifi g).mpr ⟨mcast_ne hg, t, ht, List.mem_of_getElem? hio⟩
      refine ⟨rfl, ifi, hi, hjk, ?_⟩
      simp only
      rw [report_some s ifi g true ip hip hip0 hg]
      have hc := (agree_count h hJ ifi g (mcast_ne hg)).2 k hjk
      constructor
      · rintro ⟨k', hne, hk'⟩; rw [if_neg]; intro h0; rw [hc.mp h0 k' hne] at hk'; simp at hk'
      · intro hall; rw [if_pos (hc.mpr hall)]

/-- **C42, closing.** Closing an open socket leaves exactly its groups: a leave report for each group it alone
was a member of (on an interface that still has an address), at most one per group, and no other report. -/
theorem mcast_close_exact (n : Nat) (hn : n ≤ 255) (ips : List Nat) (s : St) (J : Nat → Nat → Nat → Bool) (hr : Reach n ips s J)
    (k : Nat) (t : Sock) (ht : s.socks[k]? = some t) :
    (step s (.close k)).2.reports.Nodup ∧
    ∀ rep, rep ∈ (step s (.close k)).2.reports ↔
      rep.leave = true ∧ J k rep.ifi rep.group = true ∧ (∀ k', k' ≠ k → J k' rep.ifi rep.group = false) ∧ ∃ ip, s.ips[rep.ifi]? = some ip ∧ ip ≠ 0 := by
  obtain ⟨h, hJ⟩ := reach_inv hn hr
  have jt : ∀ i g, J k i g = true ↔ g ≠ 0 ∧ (g, i) ∈ t.mc := by
    intro i g; rw [hJ k i g, ht]; simp
  have hout : (step s (.close k)).2.reports = leaves s t.mc := by
    simp only [step]
    obtain ⟨_, _, _, h4⟩ := close_inv h k t ht
    rw [h4]
    simp only
    by_cases hu : t.used = true
    · rw [if_pos hu]
    · rw [if_neg hu]
      have hz : ∀ e ∈ t.mc, e.1 = 0 := fun e he => h.shut k t e.1 e.2 ht (by simpa using hu) he
      symm
      rw [leaves, List.flatMap_eq_nil_iff]
      intro e he; rw [if_neg (by simp [hz e he])]
  rw [hout]
  have hrep : ∀ e ∈ t.mc, ∀ rep, rep ∈ (if e.1 ≠ 0 ∧ count s.socks e.2 e.1 = 1 then report s e.2 e.1 true else []) ↔
      rep = ⟨e.2, e.1, true⟩ ∧ e.1 ≠ 0 ∧ count s.socks e.2 e.1 = 1 ∧ ∃ ip, s.ips[e.2]? = some ip ∧ ip ≠ 0 := by
    intro e he rep
    by_cases hc : e.1 ≠ 0 ∧ count s.socks e.2 e.1 = 1
    · rw [if_pos hc]
      obtain ⟨hg, _, _⟩ := h.has k t e.1 e.2 ht he hc.1
      rw [report.eq_def]
      cases hip : s.ips[e.2]? with
      | none => simp
      | some ip =>
        simp only
        rw [if_neg (by simp [hg])]
        by_cases h0 : ip = 0
        · rw [if_pos h0]; simp [h0]
        · rw [if_neg h0]; simp [hc, h0]
    · rw [if_neg hc]
      simp only [List.not_mem_nil, false_iff]
      rintro ⟨_, c1, c2, _⟩; exact hc ⟨c1, c2⟩
  constructor
  · rw [leaves, List.Nodup, List.pairwise_flatMap]
    constructor
    · intro e he
      by_cases hc : e.1 ≠ 0 ∧ count s.socks e.2 e.1 = 1
      · rw [if_pos hc, report.eq_def]
        split
        · exact List.Pairwise.nil
        · split
          · exact List.Pairwise.nil
          · split
            · exact List.Pairwise.nil
            · simp
      · rw [if_neg hc]; exact List.Pairwise.nil
    · rw [List.pairwise_iff_getElem]
      intro p q hp hq hpq x hx y hy hxy
      have h1 := (hrep _ (List.getElem_mem hp) x).mp hx
      have h2 := (hrep _ (List.getElem_mem hq) y).mp hy
      rw [hxy, h2.1] at h1
      have h11 := h1.1
      simp only [Report.mk.injEq, and_true] at h11
      have := h.once k t p q t.mc[p].1 t.mc[p].2 ht (List.getElem?_eq_getElem hp)
        (by rw [List.getElem?_eq_getElem hq, Option.some.injEq]; exact Prod.ext h11.2 h11.1) h1.2.1
      omega
  · intro rep
    rw [leaves, List.mem_flatMap]
    constructor
    · rintro ⟨e, he, hx⟩
      obtain ⟨c1, c2, c3, c4⟩ := (hrep e he rep).mp hx
      have hjk := (jt e.2 e.1).mpr ⟨c2, he⟩
      subst c1
      exact ⟨rfl, hjk, ((agree_count h hJ e.2 e.1 c2).2 k hjk).mp c3, c4⟩
    · rintro ⟨c1, c2, c3, c4⟩
      obtain ⟨d1, d2⟩ := (jt _ _).mp c2
      refine ⟨(rep.group, rep.ifi), d2, (hrep _ d2 rep).mpr ⟨?_, d1, ((agree_count h hJ _ _ d1).2 k c2).mpr c3, c4⟩⟩
      cases rep; simp at c1; subst c1; rfl

/-- **Without `Proper` it is false.** The descriptor need not be open: joining on a UDP descriptor that was never
opened is granted, and closing that descriptor then forgets the join without leaving the group, which stays joined
with no socket in it. -/
theorem mcast_join_unopened_leaks :
    let s0 := init 2 [0xC0A80001]
    let s1 := (step s0 (.join 0 0xE1020304 0xC0A80001 0)).1
    let s2 := (step s1 (.close 0)).1
    (step s0 (.join 0 0xE1020304 0xC0A80001 0)).2.res = .ok ∧ (step s1 (.close 0)).2.reports = [] ∧ isJoined s2 0 0xE1020304 = true ∧
    ∀ t ∈ s2.socks, ∀ e ∈ t.mc, e = (0, 0) := by
  decide +kernel

/-! ## A concrete case: two sockets in the same group; the first leaves, the second is closed. -/

def ex (os : List Op) : St × List (Res × List Report) :=
  os.foldl (fun x o => ((step x.1 o).1, x.2 ++ [((step x.1 o).2.res, (step x.1 o).2.reports)])) (init 2 [0xC0A80001, 0x0A000001], [])

example : (ex [.socket, .socket, .join 0 0xE1020304 0xC0A80001 0, .join 1 0xE1020304 0xC0A80001 0, .join 1 0xE1020304 0xC0A80001 0,
      .join 1 0xE1020305 0 1, .leave 0 0xE1020304 0xC0A80001 0, .close 1]).2 =
    [(.ok, []), (.ok, []), (.ok, [⟨0, 0xE1020304, false⟩]), (.ok, []), (.einval, []), (.ok, [⟨1, 0xE1020305, false⟩]), (.ok, []),
     (.ok, [⟨0, 0xE1020304, true⟩, ⟨1, 0xE1020305, true⟩])] := by decide +kernel

end Wolf.Mcast
