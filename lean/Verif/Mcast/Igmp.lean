import Verif.Mcast.Props
/-! # C43: answers to IGMP queries -/
namespace Wolf.Mcast

/-! ## Specification -/

/-- RFC 3376 §4.1.1: the response time, in milliseconds, of a Max Resp Code. -/
def rfcMaxRespMs (code : Nat) : Nat :=
  if code < 128 then code * 100 else (16 + code % 16) * 2 ^ (code / 16 % 8 + 3) * 100

/-- A query that is to be answered: complete, checksum right, TTL 1, for all groups (0.0.0.0) or one multicast
group, and sent to all hosts or to that group. -/
def Valid (q : Query) (group : Nat) : Prop :=
  8 ≤ q.msg.length ∧ Csum.inv16 (Csum.fold (Csum.sum32 q.msg 0)) = 0 ∧ q.msg.getD 0 0 = 0x11 ∧ q.ttl = 1 ∧
  group = be32 q.msg 4 ∧ (group = 0 ∨ isMcast group = true) ∧ (q.dst = 0xE0000001 ∨ q.dst = group)

/-- The deadlines of the reports pending for a group on an interface. -/
def pending (s : St) (i g : Nat) : List Nat :=
  (s.tms.filter (fun t => (s.mem.getD t.slot {}).ifi == i && (s.mem.getD t.slot {}).group == g)).map Tm.exp

/-! ## Invariant -/

structure InvT (s : St) : Prop where
  fwd : ∀ (j : Nat) (m : Mem), s.mem[j]? = some m → m.tmr ≠ 0 → ∃ t ∈ s.tms, t.id = m.tmr ∧ t.slot = j
  bwd : ∀ t ∈ s.tms, ∃ m, s.mem[t.slot]? = some m ∧ m.refs ≠ 0 ∧ m.tmr = t.id
  ids : ∀ t ∈ s.tms, t.id ≠ 0 ∧ t.id < s.nextId
  nd : s.tms.Pairwise (fun a b => a.id ≠ b.id)
  pos : s.nextId ≠ 0

/-- Two pending timers of the same slot are the same. -/
theorem same_slot {s : St} (h : InvT s) (a b : Nat) (ta tb : Tm) (ha : s.tms[a]? = some ta) (hb : s.tms[b]? = some tb) (e : ta.slot = tb.slot) : a = b := by
  obtain ⟨m, hm, _, h1⟩ := h.bwd ta (List.mem_of_getElem? ha)
  obtain ⟨m', hm', _, h2⟩ := h.bwd tb (List.mem_of_getElem? hb)
  rw [← e, hm] at hm'; simp at hm'; subst hm'
  have hid : ta.id = tb.id := by rw [← h1, ← h2]
  have nd := List.pairwise_iff_getElem.mp h.nd
  obtain ⟨la, ea⟩ := List.getElem?_eq_some_iff.mp ha
  obtain ⟨lb, eb⟩ := List.getElem?_eq_some_iff.mp hb
  rcases Nat.lt_trichotomy a b with h3 | h3 | h3
  · exact absurd (by rw [ea, eb]; exact hid) (nd a b la lb h3)
  · exact h3
  · exact absurd (by rw [ea, eb]; exact hid.symm) (nd b a lb la h3)

theorem filter_le_one {s : St} (h : InvT s) (p : Tm → Bool) (hp : ∀ a b : Tm, a ∈ s.tms → b ∈ s.tms → p a = true → p b = true → a.slot = b.slot) :
    (s.tms.filter p).length ≤ 1 := by
  have key : ∀ l : List Tm, l.Pairwise (fun a b => a.slot ≠ b.slot) → (∀ a b : Tm, a ∈ l → b ∈ l → p a = true → p b = true → a.slot = b.slot) → (l.filter p).length ≤ 1 := by
    intro l
    induction l with
    | nil => intro _ _; simp
    | cons a l ih =>
      intro hw hp
      rw [List.pairwise_cons] at hw
      by_cases ha : p a = true
      · have : l.filter p = [] := by
          rw [List.filter_eq_nil_iff]
          intro b hb hpb
          exact hw.1 b hb (hp a b (by simp) (by simp [hb]) ha hpb)
        rw [List.filter_cons_of_pos ha, this]; simp
      · rw [List.filter_cons_of_neg ha]
        exact ih hw.2 (fun x y hx hy => hp x y (by simp [hx]) (by simp [hy]))
  apply key _ _ hp
  rw [List.pairwise_iff_getElem]
  intro i j hi hj hij e
  have := same_slot h i j _ _ (List.getElem?_eq_getElem hi) (List.getElem?_eq_getElem hj) e
  omega

theorem invT_init (n : Nat) (ips : List Nat) : InvT (init n ips) := by
  refine ⟨?_, ?_, ?_, List.Pairwise.nil, by simp [init]⟩
  · intro j m hj h
    simp only [init] at hj
    rw [List.getElem?_replicate] at hj
    split at hj
    · simp at hj; rw [← hj] at h; simp at h
    · simp at hj
  · intro t ht; simp [init] at ht
  · intro t ht; simp [init] at ht

theorem invT_drop {n : Nat} {s : St} (h : Inv n s) (hT : InvT s) (k i ifi g : Nat) (t : Sock) (ht : s.socks[k]? = some t) (hi : t.mc[i]? = some (g, ifi)) (hg0 : g ≠ 0) :
    InvT (drop s k t g ifi).1 := by
  obtain ⟨j, m, hm, e1, e2, e4, hr, hd⟩ := drop_eq h k i ifi g t ht hi hg0
  have hj := lt_of_get hm
  rw [hd]
  by_cases h1 : m.refs - 1 = 0
  · by_cases h2 : m.tmr = 0
    · simp only
      rw [dropped, if_pos h1, if_neg (by simp [h2])]
      refine ⟨?_, ?_, hT.ids, hT.nd, hT.pos⟩
      · intro a ma ha hta
        simp only at ha
        rw [get_set a hj] at ha
        split at ha
        · simp at ha; rw [← ha] at hta; simp at hta
        · exact hT.fwd a ma ha hta
      · intro x hx
        obtain ⟨mx, hmx, q1, q2⟩ := hT.bwd x hx
        simp only
        have : x.slot ≠ j := by
          intro e; rw [e, hm] at hmx; simp at hmx; subst hmx
          exact (hT.ids x hx).1 (by rw [← q2]; exact h2)
        exact ⟨mx, by rw [get_set _ hj, if_neg this]; exact hmx, q1, q2⟩
    · simp only
      rw [dropped, if_pos h1, if_pos ⟨h1, h2⟩]
      refine ⟨?_, ?_, ?_, List.Pairwise.filter _ hT.nd, hT.pos⟩
      · intro a ma ha hta
        simp only at ha ⊢
        rw [get_set a hj] at ha
        split at ha
        · simp at ha; rw [← ha] at hta; simp at hta
        · rename_i hne
          obtain ⟨x, hx, x1, x2⟩ := hT.fwd a ma ha hta
          refine ⟨x, ?_, x1, x2⟩
          rw [List.mem_filter]
          refine ⟨hx, ?_⟩
          simp only [bne_iff_ne]
          intro e
          obtain ⟨y, hy, y1, y2⟩ := hT.fwd j m hm h2
          obtain ⟨px, hpx⟩ := List.getElem?_of_mem hx
          obtain ⟨py, hpy⟩ := List.getElem?_of_mem hy
          have nd := List.pairwise_iff_getElem.mp hT.nd
          obtain ⟨lx, ex⟩ := List.getElem?_eq_some_iff.mp hpx
          obtain ⟨ly, ey⟩ := List.getElem?_eq_some_iff.mp hpy
          have hxy : px = py := by
            rcases Nat.lt_trichotomy px py with h3 | h3 | h3
            · exact absurd (by rw [ex, ey, e, y1]) (nd px py lx ly h3)
            · exact h3
            · exact absurd (by rw [ex, ey, e, y1]) (nd py px ly lx h3)
          subst hxy
          rw [hpx] at hpy; simp at hpy; subst hpy
          omega
      · intro x hx
        simp only at hx ⊢
        rw [List.mem_filter] at hx
        obtain ⟨mx, hmx, q1, q2⟩ := hT.bwd x hx.1
        have : x.slot ≠ j := by
          intro e; rw [e, hm] at hmx; simp at hmx; subst hmx
          have := hx.2
          simp only [bne_iff_ne] at this
          exact this q2.symm
        exact ⟨mx, by rw [get_set _ hj, if_neg this]; exact hmx, q1, q2⟩
      · intro x hx
        simp only at hx
        rw [List.mem_filter] at hx
        exact hT.ids x hx.1
  · simp only
    rw [dropped, if_neg h1, if_neg (by simp [h1])]
    refine ⟨?_, ?_, hT.ids, hT.nd, hT.pos⟩
    · intro a ma ha hta
      simp only at ha
      rw [get_set a hj] at ha
      split at ha
      · rename_i hae
        simp at ha; rw [← ha] at hta ⊢; rw [hae]; exact hT.fwd j m hm hta
      · exact hT.fwd a ma ha hta
    · intro x hx
      obtain ⟨mx, hmx, q1, q2⟩ := hT.bwd x hx
      simp only
      by_cases hxj : x.slot = j
      · rw [hxj, hm] at hmx; simp at hmx; subst hmx
        exact ⟨{ m with refs := m.refs - 1 }, by rw [get_set _ hj, if_pos hxj], h1, q2⟩
      · exact ⟨mx, by rw [get_set _ hj, if_neg hxj]; exact hmx, q1, q2⟩

/-- Changes that touch neither memberships nor timers. -/
theorem invT_same {s s' : St} (hT : InvT s) (h1 : s'.mem = s.mem) (h2 : s'.tms = s.tms) (h3 : s'.nextId = s.nextId) : InvT s' :=
  ⟨by rw [h1, h2]; exact hT.fwd, by rw [h1, h2]; exact hT.bwd, by rw [h2, h3]; exact hT.ids, by rw [h2]; exact hT.nd, by rw [h3]; exact hT.pos⟩

theorem invT_dropOne {n : Nat} {s : St} (h : Inv n s) (hT : InvT s) (k i : Nat) : Inv n (dropOne s k i).1 ∧ InvT (dropOne s k i).1 := by
  rw [dropOne]
  cases ht : s.socks[k]? with
  | none => exact ⟨h, hT⟩
  | some t =>
    simp only
    by_cases he : (t.mc.getD i (0, 0)).1 = 0
    · rw [if_neg (by simpa using he)]; exact ⟨h, hT⟩
    · rw [if_pos he]
      have hi : t.mc[i]? = some (t.mc.getD i (0, 0)) := by
        rw [List.getD_eq_getElem?_getD] at he ⊢
        cases hx : t.mc[i]? with
        | none => rw [hx] at he; simp at he
        | some e => rfl
      generalize t.mc.getD i (0, 0) = e at hi he
      obtain ⟨g, ifi⟩ := e
      exact ⟨drop_inv h k i ifi g t ht hi he, invT_drop h hT k i ifi g t ht hi he⟩

theorem invT_dropFrom {n : Nat} (k : Nat) : ∀ (m i : Nat) (s : St), Inv n s → InvT s → InvT (dropFrom s k i m).1 := by
  intro m
  induction m with
  | zero => intro i s _ hT; exact hT
  | succ m ih =>
    intro i s h hT
    rw [dropFrom]
    obtain ⟨h1, h2⟩ := invT_dropOne h hT k i
    exact ih (i + 1) _ h1 h2

/-! ### Scheduling -/

/-- Whether membership `m` is to answer a query for `group` on `ifi` and has no answer pending. -/
def eligible (ifi group : Nat) (m : Mem) : Prop := m.refs ≠ 0 ∧ m.ifi = ifi ∧ (group = 0 ∨ group = m.group) ∧ m.tmr = 0

instance (ifi group : Nat) (m : Mem) : Decidable (eligible ifi group m) := inferInstanceAs (Decidable (_ ∧ _ ∧ _ ∧ _))

theorem schedule_eq (s : St) (ifi group maxMs tick rnd : Nat) (room : Bool) (j : Nat) (m : Mem) (hm : s.mem[j]? = some m) :
    schedule s ifi group maxMs tick rnd room j =
      if eligible ifi group m ∧ room = true then
        { s with mem := s.mem.set j { m with tmr := s.nextId }, tms := s.tms ++ [⟨s.nextId, tick + (if maxMs ≠ 0 then rnd % maxMs + 1 else 1), j⟩], nextId := s.nextId + 1 }
      else s := by
  rw [schedule, hm]
  simp only
  have hself : ∀ h0 : m.tmr = 0, setMem s j { m with tmr := 0 } = s := by
    intro h0
    obtain ⟨hl, he⟩ := List.getElem?_eq_some_iff.mp hm
    have : ({ m with tmr := 0 } : Mem) = s.mem[j] := by rw [he]; cases m; simp at h0; subst h0; rfl
    rw [setMem, this, List.set_getElem_self]
  by_cases h1 : m.refs = 0 ∨ m.ifi ≠ ifi
  · rw [if_pos h1, if_neg]
    rintro ⟨⟨c1, c2, _⟩, _⟩
    rcases h1 with h1 | h1
    · exact c1 h1
    · exact h1 c2
  · rw [if_neg h1]
    by_cases h2 : group ≠ 0 ∧ group ≠ m.group
    · rw [if_pos h2, if_neg]
      rintro ⟨⟨_, _, c3, _⟩, _⟩
      rcases c3 with c3 | c3
      · exact h2.1 c3
      · exact h2.2 c3
    · rw [if_neg h2]
      by_cases h3 : m.tmr = 0
      · rw [if_neg (by simpa using h3)]
        have hel : eligible ifi group m := by
          refine ⟨fun c => h1 (Or.inl c), Classical.byContradiction (fun c => h1 (Or.inr c)), ?_, h3⟩
          by_cases hz : group = 0
          · exact Or.inl hz
          · exact Or.inr (Classical.byContradiction (fun c => h2 ⟨hz, c⟩))
        by_cases hroom : room = true
        · rw [if_pos hroom, if_pos (show eligible ifi group m ∧ room = true from ⟨hel, hroom⟩)]; rfl
        · rw [if_neg hroom, if_neg (by rintro ⟨_, c⟩; exact hroom c), hself h3]
      · rw [if_pos h3, if_neg]
        rintro ⟨⟨_, _, _, c4⟩, _⟩; exact h3 c4

theorem invT_schedule {s : St} (hT : InvT s) (ifi group maxMs tick rnd : Nat) (room : Bool) (j : Nat) : InvT (schedule s ifi group maxMs tick rnd room j) := by
  cases hm : s.mem[j]? with
  | none => rw [schedule, hm]; exact hT
  | some m =>
    rw [schedule_eq s ifi group maxMs tick rnd room j m hm]
    have hj := lt_of_get hm
    by_cases hc : eligible ifi group m ∧ room = true
    · rw [if_pos hc]
      obtain ⟨⟨c1, _, _, c4⟩, _⟩ := hc
      refine ⟨?_, ?_, ?_, ?_, by simp⟩
      · intro a ma ha hta
        simp only at ha ⊢
        rw [get_set a hj] at ha
        split at ha
        · rename_i hae
          simp at ha; rw [← ha]
          exact ⟨⟨s.nextId, tick + (if maxMs ≠ 0 then rnd % maxMs + 1 else 1), j⟩, List.mem_append_right _ (List.mem_singleton.mpr rfl), rfl, hae.symm⟩
        · obtain ⟨x, hx, x1, x2⟩ := hT.fwd a ma ha hta
          exact ⟨x, by simp [hx], x1, x2⟩
      · intro x hx
        simp only at hx ⊢
        rw [List.mem_append, List.mem_singleton] at hx
        rcases hx with hx | rfl
        · obtain ⟨mx, hmx, q1, q2⟩ := hT.bwd x hx
          have : x.slot ≠ j := by
            intro e; rw [e, hm] at hmx; simp at hmx; subst hmx
            exact (hT.ids x hx).1 (by rw [← q2]; exact c4)
          exact ⟨mx, by rw [get_set _ hj, if_neg this]; exact hmx, q1, q2⟩
        · exact ⟨{ m with tmr := s.nextId }, by rw [get_set _ hj, if_pos rfl], c1, rfl⟩
      · intro x hx
        simp only at hx ⊢
        rw [List.mem_append, List.mem_singleton] at hx
        rcases hx with hx | rfl
        · have := hT.ids x hx; omega
        · exact ⟨hT.pos, by simp⟩
      · simp only
        rw [List.pairwise_append]
        refine ⟨hT.nd, List.pairwise_singleton _ _, ?_⟩
        intro a ha b hb
        rw [List.mem_singleton] at hb; subst hb
        have := hT.ids a ha
        simp only; omega
    · rw [if_neg hc]; exact hT

theorem invT_scheduleFrom (ifi group maxMs tick : Nat) (rnd : Nat → Nat) (room : Nat → Bool) : ∀ (n j : Nat) (s : St), InvT s → InvT (scheduleFrom ifi group maxMs tick rnd room j n s) := by
  intro n
  induction n with
  | zero => intro j s h; exact h
  | succ n ih => intro j s h; rw [scheduleFrom]; exact ih _ _ (invT_schedule h ..)

theorem invT_fire {s : St} (hT : InvT s) (n now : Nat) : InvT (fire s n now).1 := by
  rw [fire]
  cases ht : s.tms[n]? with
  | none => exact hT
  | some t =>
    simp only
    split
    · exact hT
    · obtain ⟨m, hm, hr, he⟩ := hT.bwd t (List.mem_of_getElem? ht)
      rw [hm]
      simp only [setMem]
      have hj := lt_of_get hm
      have hmemE : ∀ x, x ∈ s.tms.eraseIdx n → x ∈ s.tms ∧ x.slot ≠ t.slot := by
        intro x hx
        rw [List.mem_eraseIdx_iff_getElem?] at hx
        obtain ⟨a, hane, hx⟩ := hx
        refine ⟨List.mem_of_getElem? hx, ?_⟩
        intro e; exact hane (same_slot hT a n x t hx ht e)
      refine ⟨?_, ?_, ?_, ?_, hT.pos⟩
      · intro a ma ha hta
        simp only at ha ⊢
        rw [get_set a hj] at ha
        split at ha
        · simp at ha; rw [← ha] at hta; simp at hta
        · rename_i hne
          obtain ⟨x, hx, x1, x2⟩ := hT.fwd a ma ha hta
          refine ⟨x, ?_, x1, x2⟩
          rw [List.mem_eraseIdx_iff_getElem?]
          obtain ⟨b, hb⟩ := List.getElem?_of_mem hx
          refine ⟨b, ?_, hb⟩
          intro e; rw [e, ht] at hb; simp at hb; subst hb; omega
      · intro x hx
        simp only at hx ⊢
        obtain ⟨h1, h2⟩ := hmemE x hx
        obtain ⟨mx, hmx, q1, q2⟩ := hT.bwd x h1
        exact ⟨mx, by rw [get_set _ hj, if_neg h2]; exact hmx, q1, q2⟩
      · intro x hx
        exact hT.ids x (hmemE x hx).1
      · exact List.Pairwise.sublist (List.eraseIdx_sublist _ _) hT.nd

theorem invT_step {n : Nat} {s : St} (h : Inv n s) (hT : InvT s) (o : Op) (hp : Proper s o) : InvT (step s o).1 := by
  cases o with
  | socket =>
    simp only [step, open_]
    split
    · exact hT
    · exact invT_same hT rfl rfl rfl
  | join k g a r =>
    show InvT (setsockopt s k true g a r).1
    by_cases hbad : s.socks[k]? = none ∨ ifFromAddr s a g r = none
    · rw [setsockopt_bad true hbad]; exact hT
    · obtain ⟨t, ht⟩ := Option.ne_none_iff_exists'.mp (fun hc => hbad (Or.inl hc))
      obtain ⟨ifi, hi⟩ := Option.ne_none_iff_exists'.mp (fun hc => hbad (Or.inr hc))
      obtain ⟨hg, hif, _⟩ := ifFromAddr_spec s a g r ifi hi
      rw [setsockopt_join t ifi ht hi]
      rcases join_cases h k g ifi t ht (hp t ht) hg hif with ⟨_, e⟩ | ⟨_, _, e⟩ | ⟨_, i, o, _, _, _, _, ⟨j, m, m0, hm0, e5, e6, e7, hs⟩, _⟩
      · rw [e]; exact hT
      · rw [e]; exact hT
      · rw [hs]
        have hj := lt_of_get hm0
        refine ⟨?_, ?_, hT.ids, hT.nd, hT.pos⟩
        · intro a ma ha hta
          simp only at ha
          rw [get_set a hj] at ha
          split at ha
          · rename_i hae
            simp at ha; rw [← ha] at hta ⊢
            simp only at hta ⊢
            rw [e5] at hta ⊢; rw [hae]; exact hT.fwd j m0 hm0 hta
          · exact hT.fwd a ma ha hta
        · intro x hx
          obtain ⟨mx, hmx, q1, q2⟩ := hT.bwd x hx
          simp only
          by_cases hxj : x.slot = j
          · rw [hxj, hm0] at hmx; simp at hmx; subst hmx
            exact ⟨{ m with refs := m.refs + 1 }, by rw [get_set _ hj, if_pos hxj], Nat.succ_ne_zero _, by rw [← q2]; exact e5⟩
          · exact ⟨mx, by rw [get_set _ hj, if_neg hxj]; exact hmx, q1, q2⟩
  | leave k g a r =>
    show InvT (setsockopt s k false g a r).1
    by_cases hbad : s.socks[k]? = none ∨ ifFromAddr s a g r = none
    · rw [setsockopt_bad false hbad]; exact hT
    · obtain ⟨t, ht⟩ := Option.ne_none_iff_exists'.mp (fun hc => hbad (Or.inl hc))
      obtain ⟨ifi, hi⟩ := Option.ne_none_iff_exists'.mp (fun hc => hbad (Or.inr hc))
      obtain ⟨hg, hif, _⟩ := ifFromAddr_spec s a g r ifi hi
      rw [setsockopt_drop t ifi ht hi]
      rcases drop_cases h k g ifi t ht hg hif with ⟨_, e⟩ | ⟨i, hio, _, _, _⟩
      · rw [e]; exact hT
      · exact invT_drop h hT k i ifi g t ht hio (mcast_ne hg)
  | close k =>
    simp only [step]
    rw [close]
    split
    · exact hT
    · simp only
      by_cases hu : (‹Sock›).used = true
      · rw [if_pos hu]
        exact invT_same (invT_dropFrom k perSock 0 s h hT) rfl rfl rfl
      · rw [if_neg hu]; exact invT_same hT rfl rfl rfl
  | setIp i ip => exact invT_same hT rfl rfl rfl
  | query i q t rnd room =>
    simp only [step]
    rw [input]
    split
    · exact hT
    · exact invT_scheduleFrom _ _ _ _ _ _ _ _ _ hT
  | fire m now => exact invT_fire hT m now

theorem reach_invT {n : Nat} (hn : n ≤ 255) {ips : List Nat} {s : St} {J : Nat → Nat → Nat → Bool} (hr : Reach n ips s J) : InvT s := by
  induction hr with
  | start => exact invT_init n ips
  | step s J o hr hp ih => exact invT_step (reach_inv hn hr).1 ih o hp

/-! ## Theorems -/

theorem mem_pending {s : St} (hT : InvT s) (i g d : Nat) : d ∈ pending s i g ↔ ∃ t ∈ s.tms, ∃ m, s.mem[t.slot]? = some m ∧ m.refs ≠ 0 ∧ m.ifi = i ∧ m.group = g ∧ t.exp = d := by
  rw [pending, List.mem_map]
  constructor
  · rintro ⟨t, ht, rfl⟩
    rw [List.mem_filter] at ht
    obtain ⟨m, hm, hr, _⟩ := hT.bwd t ht.1
    rw [getD_of_get hm] at ht
    simp only [Bool.and_eq_true, beq_iff_eq] at ht
    exact ⟨t, ht.1, m, hm, hr, ht.2.1, ht.2.2, rfl⟩
  · rintro ⟨t, ht, m, hm, _, e1, e2, e3⟩
    refine ⟨t, ?_, e3⟩
    rw [List.mem_filter, getD_of_get hm]
    exact ⟨ht, by simp [e1, e2]⟩

/-- **C43, one report per group.** In every reachable state at most one report is pending for a group on an
interface, and only while some socket is in that group there (so leaving cancels it). -/
theorem igmp_one_pending (n : Nat) (hn : n ≤ 255) (ips : List Nat) (s : St) (J : Nat → Nat → Nat → Bool) (hr : Reach n ips s J) (i g : Nat) :
    (pending s i g).length ≤ 1 ∧ (pending s i g ≠ [] → ∃ k, J k i g = true) := by
  have hT := reach_invT hn hr
  obtain ⟨h, hJ⟩ := reach_inv hn hr
  constructor
  · rw [pending, List.length_map]
    apply filter_le_one hT
    intro a b ha hb pa pb
    obtain ⟨ma, hma, ra, _⟩ := hT.bwd a ha
    obtain ⟨mb, hmb, rb, _⟩ := hT.bwd b hb
    rw [getD_of_get hma] at pa
    rw [getD_of_get hmb] at pb
    simp only [Bool.and_eq_true, beq_iff_eq] at pa pb
    exact h.uniq _ _ ma mb hma hmb ra rb (by rw [pa.2, pb.2]) (by rw [pa.1, pb.1])
  · intro hne
    obtain ⟨d, hd⟩ := List.exists_mem_of_ne_nil _ hne
    obtain ⟨t, _, m, hm, hr', e1, e2, _⟩ := (mem_pending hT i g d).mp hd
    have : isJoined s i g = true := by
      rw [isJoined, (find_iff h i g t.slot).mpr ⟨m, hm, hr', e2, e1⟩]; rfl
    exact (mcast_member_exact n hn ips s J hr i g).mp this

theorem pending_slot {n : Nat} {s : St} (h : Inv n s) (hT : InvT s) (i g j : Nat) (m : Mem) (hm : s.mem[j]? = some m) (hr : m.refs ≠ 0) (e1 : m.ifi = i) (e2 : m.group = g) :
    pending s i g = (s.tms.filter (fun t => t.slot == j)).map Tm.exp := by
  rw [pending]
  congr 1
  apply List.filter_congr
  intro t ht
  obtain ⟨mt, hmt, rt, _⟩ := hT.bwd t ht
  rw [getD_of_get hmt, Bool.eq_iff_iff]
  simp only [Bool.and_eq_true, beq_iff_eq]
  constructor
  · rintro ⟨a, b⟩; exact h.uniq _ _ mt m hmt hm rt hr (by rw [b, e2]) (by rw [a, e1])
  · intro e; rw [e, hm] at hmt; simp at hmt; subst hmt; exact ⟨e1, e2⟩

/-- What the scheduling loop does to the timers of slot `a`. -/
theorem scheduleFrom_slot (ifi group maxMs tick : Nat) (rnd : Nat → Nat) (room : Nat → Bool) : ∀ (n j : Nat) (s : St) (a : Nat) (m : Mem), s.mem[a]? = some m →
    (scheduleFrom ifi group maxMs tick rnd room j n s).tms.filter (fun t => t.slot == a) =
      s.tms.filter (fun t => t.slot == a) ++
        (if j ≤ a ∧ a < j + n ∧ eligible ifi group m ∧ room a = true then [(⟨(scheduleFrom ifi group maxMs tick rnd room j n s).mem.getD a {} |>.tmr, tick + (if maxMs ≠ 0 then rnd a % maxMs + 1 else 1), a⟩ : Tm)] else []) ∧
    ((¬ (j ≤ a ∧ a < j + n)) → (scheduleFrom ifi group maxMs tick rnd room j n s).mem[a]? = some m) := by
  intro n
  induction n with
  | zero =>
    intro j s a m hm
    refine ⟨?_, fun _ => hm⟩
    rw [if_neg (by omega)]; simp [scheduleFrom]
  | succ n ih =>
    intro j s a m hm
    rw [scheduleFrom]
    by_cases haj : a = j
    · subst haj
      rw [schedule_eq s ifi group maxMs tick (rnd a) (room a) a m hm]
      by_cases hc : eligible ifi group m ∧ room a = true
      · rw [if_pos hc]
        have hm' : ({ s with mem := s.mem.set a { m with tmr := s.nextId }, tms := s.tms ++ [(⟨s.nextId, tick + (if maxMs ≠ 0 then rnd a % maxMs + 1 else 1), a⟩ : Tm)], nextId := s.nextId + 1 } : St).mem[a]? = some { m with tmr := s.nextId } := by
          simp only; rw [get_set a (lt_of_get hm), if_pos rfl]
        obtain ⟨h1, h2⟩ := ih (a + 1) _ a _ hm'
        have h2' := h2 (by omega)
        rw [if_neg (show ¬ (a + 1 ≤ a ∧ a < a + 1 + n ∧ eligible ifi group { m with tmr := s.nextId } ∧ room a = true) by omega)] at h1
        rw [h1, if_pos (show a ≤ a ∧ a < a + (n + 1) ∧ eligible ifi group m ∧ room a = true from ⟨by omega, by omega, hc⟩)]
        refine ⟨?_, fun hno => absurd ⟨by omega, by omega⟩ hno⟩
        rw [getD_of_get h2']
        simp [List.filter_append]
      · rw [if_neg hc]
        obtain ⟨h1, h2⟩ := ih (a + 1) s a m hm
        rw [h1, if_neg (by omega), if_neg (by rintro ⟨_, _, c1, c2⟩; exact hc ⟨c1, c2⟩)]
        exact ⟨rfl, fun hno => absurd ⟨by omega, by omega⟩ hno⟩
    · have hm' : (schedule s ifi group maxMs tick (rnd j) (room j) j).mem[a]? = some m := by
        cases hmj : s.mem[j]? with
        | none => rw [schedule, hmj]; exact hm
        | some mj =>
          rw [schedule_eq s ifi group maxMs tick (rnd j) (room j) j mj hmj]
          split
          · simp only; rw [get_set a (lt_of_get hmj), if_neg haj]; exact hm
          · exact hm
      have ht' : (schedule s ifi group maxMs tick (rnd j) (room j) j).tms.filter (fun t => t.slot == a) = s.tms.filter (fun t => t.slot == a) := by
        cases hmj : s.mem[j]? with
        | none => rw [schedule, hmj]
        | some mj =>
          rw [schedule_eq s ifi group maxMs tick (rnd j) (room j) j mj hmj]
          split
          · simp only
            rw [List.filter_append]
            simp [Ne.symm haj]
          · rfl
      obtain ⟨h1, h2⟩ := ih (j + 1) _ a m hm'
      refine ⟨?_, fun hno => h2 (by omega)⟩
      rw [h1, ht']
      congr 1
      by_cases hc : j ≤ a ∧ a < j + (n + 1) ∧ eligible ifi group m ∧ room a = true
      · rw [if_pos hc, if_pos ⟨by omega, by omega, hc.2.2⟩]
      · rw [if_neg hc, if_neg (by rintro ⟨c1, c2, c3⟩; exact hc ⟨by omega, by omega, c3⟩)]

theorem maxRespMs_rfc (code : Nat) (h : code < 256) : maxRespMs code = rfcMaxRespMs code := by
  rw [maxRespMs, rfcMaxRespMs]
  by_cases hc : code < 128
  · rw [if_pos hc, if_pos hc]
  · rw [if_neg hc, if_neg hc, Nat.shiftLeft_eq]
    have : (code % 16) ||| 16 = 16 + code % 16 := by
      have := Nat.two_pow_add_eq_or_of_lt (i := 4) (b := code % 16) (by omega) 1
      simp only [Nat.reducePow, Nat.mul_one] at this
      rw [Nat.or_comm]; exact this.symm
    rw [this]

theorem validate_iff (q : Query) (g ms : Nat) : validate q = some (g, ms) ↔ Valid q g ∧ ms = maxRespMs (q.msg.getD 1 0) := by
  rw [validate]
  constructor
  · intro h
    split at h
    · simp at h
    split at h
    · simp at h
    split at h
    · simp at h
    split at h
    · simp at h
    simp only at h
    split at h
    · simp at h
    split at h
    · simp at h
    rename_i h1 h2 h3 h4 h5 h6
    simp only [Option.some.injEq, Prod.mk.injEq] at h
    obtain ⟨rfl, rfl⟩ := h
    refine ⟨⟨by omega, by omega, by omega, by omega, rfl, ?_, ?_⟩, rfl⟩
    · by_cases hz : be32 q.msg 4 = 0
      · exact Or.inl hz
      · right
        cases hb : isMcast (be32 q.msg 4) with
        | true => rfl
        | false => exact absurd ⟨hz, hb⟩ h5
    · by_cases hz : q.dst = 0xE0000001
      · exact Or.inl hz
      · exact Or.inr (Classical.byContradiction (fun c => h6 ⟨hz, c⟩))
  · rintro ⟨⟨h1, h2, h3, h4, rfl, h5, h6⟩, rfl⟩
    rw [if_neg (by omega), if_neg (by omega), if_neg (by omega), if_neg (by omega)]
    simp only
    rw [if_neg, if_neg]
    · rintro ⟨c1, c2⟩; rcases h6 with h6 | h6
      · exact c1 h6
      · exact c2 h6
    · rintro ⟨c1, c2⟩; rcases h5 with h5 | h5
      · exact c1 h5
      · rw [h5] at c2; simp at c2

/-- **C43, queries.** A query never sends anything and never changes a membership. Unless it is valid nothing
changes at all. A valid query at time `tick` leaves every report already pending as it was (neither postponed nor
doubled); for each joined group it asks about (all of the interface, or the one named) without a pending report,
one is scheduled between 1 ms and the Max Resp Time later (1 ms if that is 0) – or none if the timer heap is full;
other groups are untouched. -/
theorem igmp_query_schedules (n : Nat) (hn : n ≤ 255) (ips : List Nat) (s : St) (J : Nat → Nat → Nat → Bool) (hr : Reach n ips s J)
    (ifi : Nat) (q : Query) (hb : q.msg.getD 1 0 < 256) (tick : Nat) (rnd : Nat → Nat) (room : Nat → Bool) :
    (step s (.query ifi q tick rnd room)).2.reports = [] ∧
    (∀ i g, isJoined (step s (.query ifi q tick rnd room)).1 i g = isJoined s i g) ∧
    ((¬ ∃ grp, Valid q grp) → (step s (.query ifi q tick rnd room)).1 = s) ∧
    ∀ grp, Valid q grp → ∀ i g,
      (i = ifi ∧ (grp = 0 ∨ grp = g) ∧ (∃ k, J k i g = true) ∧ pending s i g = [] →
        (pending (step s (.query ifi q tick rnd room)).1 i g = [] ∧ ∃ j, room j = false) ∨
        ∃ d, pending (step s (.query ifi q tick rnd room)).1 i g = [d] ∧ tick + 1 ≤ d ∧ d ≤ tick + max 1 (rfcMaxRespMs (q.msg.getD 1 0))) ∧
      (¬ (i = ifi ∧ (grp = 0 ∨ grp = g) ∧ (∃ k, J k i g = true) ∧ pending s i g = []) →
        pending (step s (.query ifi q tick rnd room)).1 i g = pending s i g) := by
  obtain ⟨h, hJ⟩ := reach_inv hn hr
  have hT := reach_invT hn hr
  have hr' := Reach.step s J (.query ifi q tick rnd room) hr trivial
  obtain ⟨h', _⟩ := reach_inv hn hr'
  have hT' := reach_invT hn hr'
  refine ⟨rfl, ?_, ?_, ?_⟩
  · intro i g
    rw [Bool.eq_iff_iff, joined_iff h', joined_iff h]
    simp only [step]
    rw [(input_frame s ifi q tick rnd room).1]
  · intro hno
    simp only [step]
    rw [input]
    cases hv : validate q with
    | none => rfl
    | some x => exact absurd ⟨x.1, ((validate_iff q x.1 x.2).mp hv).1⟩ hno
  · intro grp hv i g
    have hval := (validate_iff q grp (maxRespMs (q.msg.getD 1 0))).mpr ⟨hv, rfl⟩
    have hst : (step s (.query ifi q tick rnd room)).1 = scheduleFrom ifi grp (maxRespMs (q.msg.getD 1 0)) tick rnd room 0 s.mem.length s := by
      simp only [step]; rw [input, hval]
    rw [maxRespMs_rfc _ hb] at hst
    generalize rfcMaxRespMs (q.msg.getD 1 0) = ms at hst
    have frame := scheduleFrom_frame ifi grp ms tick rnd room s.mem.length 0 s
    have slot := scheduleFrom_slot ifi grp ms tick rnd room s.mem.length 0 s
    rw [← hst] at frame
    generalize hs' : (step s (.query ifi q tick rnd room)).1 = s' at h' hT' hst frame
    rw [← hst] at slot
    -- the slot of the group, if joined
    by_cases hj : isJoined s i g = true
    · have hk := (mcast_member_exact n hn ips s J hr i g).mp hj
      rw [isJoined, Option.isSome_iff_exists] at hj
      obtain ⟨j, hj⟩ := hj
      obtain ⟨m, hm, hrf, e2, e1⟩ := (find_iff h i g j).mp hj
      have hjl : j < s'.mem.length := by rw [frame.2.2.1]; exact lt_of_get hm
      obtain ⟨m0, hm0, f1, f2, f3, _⟩ := frame.2.2.2 j _ (List.getElem?_eq_getElem hjl)
      rw [hm] at hm0; simp at hm0; subst hm0
      have p1 := pending_slot h hT i g j m hm hrf e1 e2
      have p2 := pending_slot h' hT' i g j _ (List.getElem?_eq_getElem hjl) (by rw [f3]; exact hrf) (by rw [f2]; exact e1) (by rw [f1]; exact e2)
      have sl := (slot j m hm).1
      rw [sl] at p2
      -- no pending report exactly when the slot has no timer
      have tm : m.tmr = 0 ↔ pending s i g = [] := by
        rw [p1, List.map_eq_nil_iff, List.filter_eq_nil_iff]
        constructor
        · intro h0 t ht hc
          rw [beq_iff_eq] at hc
          obtain ⟨mt, hmt, _, q2⟩ := hT.bwd t ht
          rw [hc, hm] at hmt; simp at hmt; subst hmt
          exact (hT.ids t ht).1 (by rw [← q2]; exact h0)
        · intro hall
          exact Classical.byContradiction (fun hne => by
            obtain ⟨t, ht, _, t2⟩ := hT.fwd j m hm hne
            exact hall t ht (by simp [t2]))
      constructor
      · rintro ⟨c1, c2, _, c4⟩
        have hel : eligible ifi grp m := ⟨hrf, by rw [e1, c1], by rw [e2]; exact c2, tm.mpr c4⟩
        by_cases hroom : room j = true
        · right
          rw [if_pos ⟨by omega, by have := lt_of_get hm; omega, hel, hroom⟩, List.map_append, ← p1, c4] at p2
          refine ⟨_, p2, ?_⟩
          simp only
          by_cases hz : ms = 0
          · rw [if_neg (by simpa using hz)]; omega
          · rw [if_pos hz]; have := Nat.mod_lt (rnd j) (Nat.pos_of_ne_zero hz); omega
        · left
          rw [if_neg (by rintro ⟨_, _, _, c⟩; exact hroom c), List.append_nil, ← p1, c4] at p2
          exact ⟨p2, j, by simpa using hroom⟩
      · intro hno
        rw [if_neg, List.append_nil, ← p1] at p2
        · exact p2
        · rintro ⟨_, _, ⟨_, d2, d3, d4⟩, _⟩
          exact hno ⟨by rw [← d2, e1], by rw [← e2]; exact d3, hk, tm.mp d4⟩
    · have hk : ¬ ∃ k, J k i g = true := fun hc => hj ((mcast_member_exact n hn ips s J hr i g).mpr hc)
      have z1 : pending s i g = [] := by
        exact Classical.byContradiction (fun hne => hk ((igmp_one_pending n hn ips s J hr i g).2 hne))
      have z2 : pending s' i g = [] := by
        have := (igmp_one_pending n hn ips _ _ hr' i g).2
        rw [hs'] at this
        exact Classical.byContradiction (fun hne => hk (this hne))
      exact ⟨fun hc => absurd hc.2.2.1 hk, fun _ => by rw [z1, z2]⟩

/-- **C43, reports.** A pending report is sent by the timer service only once its time has come; then one report
for exactly that group goes out (if the interface has an address) and nothing stays pending for it, all others
unchanged. -/
theorem igmp_report_when_due (n : Nat) (hn : n ≤ 255) (ips : List Nat) (s : St) (J : Nat → Nat → Nat → Bool) (hr : Reach n ips s J) (x now : Nat) :
    (step s (.fire x now)).1 = s ∧ (step s (.fire x now)).2.reports = [] ∨
    ∃ i g d, pending s i g = [d] ∧ d ≤ now ∧ (∃ k, J k i g = true) ∧
      (step s (.fire x now)).2.reports = report s i g false ∧ pending (step s (.fire x now)).1 i g = [] ∧
      ∀ i' g', (i', g') ≠ (i, g) → pending (step s (.fire x now)).1 i' g' = pending s i' g' := by
  obtain ⟨h, hJ⟩ := reach_inv hn hr
  have hT := reach_invT hn hr
  have hr' := Reach.step s J (.fire x now) hr trivial
  have hT' := reach_invT hn hr'
  obtain ⟨h', _⟩ := reach_inv hn hr'
  have hone := igmp_one_pending n hn ips s J hr
  simp only [step] at hT' h' ⊢
  rw [fire.eq_def] at hT' h' ⊢
  cases ht : s.tms[x]? with
  | none => exact Or.inl ⟨rfl, rfl⟩
  | some t =>
    rw [ht] at hT' h'
    simp only at hT' h' ⊢
    by_cases hd : t.exp > now
    · rw [if_pos hd]; exact Or.inl ⟨rfl, rfl⟩
    · rw [if_neg hd] at hT' h' ⊢
      right
      obtain ⟨m, hm, hrf, he⟩ := hT.bwd t (List.mem_of_getElem? ht)
      rw [hm] at hT' h' ⊢
      simp only [setMem] at hT' h' ⊢
      have hmemd : t.exp ∈ pending s m.ifi m.group := (mem_pending hT _ _ _).mpr ⟨t, List.mem_of_getElem? ht, m, hm, hrf, rfl, rfl, rfl⟩
      have hp : pending s m.ifi m.group = [t.exp] := by
        have hl := (hone m.ifi m.group).1
        cases hx : pending s m.ifi m.group with
        | nil => rw [hx] at hmemd; simp at hmemd
        | cons a l =>
          rw [hx] at hl hmemd
          have : l = [] := List.eq_nil_of_length_eq_zero (by simp only [List.length_cons] at hl; omega)
          subst this; simp at hmemd; rw [hmemd]
      refine ⟨m.ifi, m.group, t.exp, hp, by omega, (hone _ _).2 (by rw [hp]; simp), ?_, ?_, ?_⟩
      · rw [if_neg hrf]; rfl
      · apply Classical.byContradiction
        intro hne
        obtain ⟨d, hd'⟩ := List.exists_mem_of_ne_nil _ hne
        obtain ⟨t', ht', m', hm', hrf', e1, e2, _⟩ := (mem_pending hT' _ _ d).mp hd'
        simp only at ht' hm'
        rw [List.mem_eraseIdx_iff_getElem?] at ht'
        obtain ⟨b, hb, hb'⟩ := ht'
        rw [get_set _ (lt_of_get hm)] at hm'
        split at hm'
        · rename_i e; exact hb (same_slot hT b x t' t hb' ht e)
        · rename_i hne'; exact hne' (h.uniq _ _ m' m hm' hm hrf' hrf e2 e1)
      · intro i' g' hne
        rw [pending, pending]
        simp only
        congr 1
        have hkey : ∀ y : Tm, ((s.mem.set t.slot { m with tmr := 0 }).getD y.slot {}).ifi = (s.mem.getD y.slot {}).ifi ∧ ((s.mem.set t.slot { m with tmr := 0 }).getD y.slot {}).group = (s.mem.getD y.slot {}).group := by
          intro y
          rw [List.getD_eq_getElem?_getD, List.getD_eq_getElem?_getD, get_set _ (lt_of_get hm)]
          by_cases hy : y.slot = t.slot
          · rw [if_pos hy, hy, hm]; exact ⟨rfl, rfl⟩
          · rw [if_neg hy]; exact ⟨rfl, rfl⟩
        have hfun : (fun y : Tm => ((s.mem.set t.slot { m with tmr := 0 }).getD y.slot {}).ifi == i' && ((s.mem.set t.slot { m with tmr := 0 }).getD y.slot {}).group == g') =
            (fun y : Tm => (s.mem.getD y.slot {}).ifi == i' && (s.mem.getD y.slot {}).group == g') := by
          funext y; rw [(hkey y).1, (hkey y).2]
        rw [hfun]
        generalize hP : (fun y : Tm => (s.mem.getD y.slot {}).ifi == i' && (s.mem.getD y.slot {}).group == g') = P
        have hpt : P t = false := by
          rw [← hP]; simp only
          rw [getD_of_get hm, Bool.eq_false_iff]
          intro hc
          simp only [Bool.and_eq_true, beq_iff_eq] at hc
          exact hne (by rw [hc.1, hc.2])
        have key : ∀ (l : List Tm) (x : Nat), l[x]? = some t → (l.eraseIdx x).filter P = l.filter P := by
          intro l
          induction l with
          | nil => intro x h; simp at h
          | cons a l ih =>
            intro x h
            cases x with
            | zero => simp at h; subst h; rw [List.eraseIdx_cons_zero, List.filter_cons_of_neg (by simp [hpt])]
            | succ x =>
              simp only [List.getElem?_cons_succ] at h
              rw [List.eraseIdx_cons_succ]
              by_cases hPa : P a = true
              · rw [List.filter_cons_of_pos hPa, List.filter_cons_of_pos hPa, ih x h]
              · rw [List.filter_cons_of_neg hPa, List.filter_cons_of_neg hPa, ih x h]
        exact key _ _ ht

/-! ## A concrete case: two joined groups, a general query (max response 10 s), a repetition, and the timers. -/

def exQuery : Query := ⟨1, 0xE0000001, [0x11, 100, 0xEE, 0x9B, 0, 0, 0, 0]⟩

example : Valid exQuery 0 := by unfold Valid exQuery; decide +kernel

def exState : St := (ex [.socket, .join 0 0xE1020304 0xC0A80001 0, .join 0 0xE1020305 0xC0A80001 0]).1

example :
    let s1 := (step exState (.query 0 exQuery 1000 (fun j => 12345 + j) (fun _ => true))).1
    let s2 := (step s1 (.query 0 exQuery 2000 (fun _ => 5) (fun _ => true))).1
    pending s1 0 0xE1020304 = [1000 + 2346] ∧ pending s1 0 0xE1020305 = [1000 + 2347] ∧ s2 = s1 ∧
    (step s2 (.fire 0 3345)).2.reports = [] ∧ (step s2 (.fire 0 3346)).2.reports = [⟨0, 0xE1020304, false⟩] := by decide +kernel

example : ∃ J, Reach 2 [0xC0A80001, 0x0A000001] exState J :=
  ⟨_, Reach.step _ _ (.join 0 0xE1020305 0xC0A80001 0) (Reach.step _ _ (.join 0 0xE1020304 0xC0A80001 0) (Reach.step _ _ .socket Reach.start trivial)
    (by intro t ht; revert ht; rw [show ((step (init 2 [0xC0A80001, 0x0A000001]) .socket).1.socks[0]?) = some { used := true, mc := List.replicate 4 (0, 0) } by decide +kernel]; intro ht; simp at ht; rw [← ht]))
    (by intro t ht; revert ht; rw [show ((step (step (init 2 [0xC0A80001, 0x0A000001]) .socket).1 (.join 0 0xE1020304 0xC0A80001 0)).1.socks[0]?) = some { used := true, mc := [(0xE1020304, 0), (0, 0), (0, 0), (0, 0)] } by decide +kernel]; intro ht; simp at ht; rw [← ht])⟩

end Wolf.Mcast
