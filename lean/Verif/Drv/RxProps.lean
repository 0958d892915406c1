import Verif.Drv.Rx

/-!
# C104: the frames the Ethernet driver hands up are the frames the controller completed

For every schedule of the driver and the DMA engine: in order, each once, whole, and with the octets the engine put in
the buffer, whatever the engine does while the driver copies; and the engine never writes outside the buffers. For
the `gmac` drivers this needs that the engine does not fetch the last descriptor between the two writes of its second
word (`Calm`); `gmac_rearm_race` is the schedule in which it does.
-/
namespace Wolf.Drv

theorem upd_eq {α : Type} (f : Nat → α) (i : Nat) (v : α) : upd f i v i = v := by simp [upd]

theorem upd_ne {α : Type} (f : Nat → α) {i j : Nat} (v : α) (h : j ≠ i) : upd f i v j = f j := by simp [upd, h]

theorem dma_inv {K : Kind} {strict : Bool} {n len : Nat} {s : Rx} (h : Inv K n len s) (a : Dma)
    (ha : K = .gmac → a = .fetch → s.pc ≠ .rer) : Inv K n len (dma K strict n s a) := by
  have hcurn : s.cur < n := by rw [h.cur]; exact Nat.mod_lt _ h.pos
  cases a with
  | fetch =>
    unfold dma
    dsimp only
    split
    · rename_i hc
      have hlt : s.done.length < s.out.length + n := by
        refine Nat.lt_of_le_of_ne h.room fun e => ?_
        have hp := h.pos
        obtain ⟨f, hf⟩ : ∃ f, s.done[s.out.length]? = some f :=
          ⟨_, List.getElem?_eq_getElem (by omega)⟩
        have h1 := (h.full _ f (Nat.le_refl _) hf).1
        have h2 : s.out.length % n = s.cur := by rw [h.cur, e, Nat.add_mod_right]
        rw [h2, hc.2.2.1] at h1
        cases h1
      have h3 := (h.free _ (Nat.le_refl _) hlt).2
      rw [← h.cur] at h3
      rw [h3]
      exact { h with
        fill := fun b r e => by
          dsimp only at e
          have e := Option.some.inj e
          have e1 := (Prod.mk.inj e).1
          have e2 := (Prod.mk.inj e).2
          refine ⟨hlt, by rw [← e1, h.cur], fun hk => ?_⟩
          rw [← e2, ← e1]
          exact h.rers hk _ hcurn fun hh => ha hk rfl hh.1 }
    · exact h
  | write j v =>
    unfold dma
    dsimp only
    split
    · rename_i b r hb
      have hf := h.fill b r hb
      exact { h with
        full := fun j f hj hjf => by
          have hjl : j < s.done.length := by
            have := List.getElem?_eq_some_iff.mp hjf
            exact this.1
          have hne : j % n ≠ b := by
            rw [hf.2.1]
            have hj' : s.out.length ≤ j := hj
            exact mod_ne hjl (by omega)
          obtain ⟨h1, h2, h3⟩ := h.full j f hj hjf
          refine ⟨h1, h2, ?_⟩
          show upd s.buf b _ (j % n) = f.2
          rw [upd_ne _ _ hne, h3] }
    · exact h
  | complete st =>
    unfold dma
    dsimp only
    split
    · rename_i b r hb
      obtain ⟨f1, f2, f3⟩ := h.fill b r hb
      have hbc : b = s.cur := by rw [f2, h.cur]
      have hnx : (if K = .eqos then (s.cur + 1) % n else if r = true then 0 else s.cur + 1) = (s.done.length + 1) % n := by
        cases K with
        | eqos => rw [if_pos rfl, h.cur, Nat.mod_add_mod]
        | gmac =>
          rw [if_neg (by decide), f3 rfl, hbc]
          by_cases e : s.cur = n - 1
          · rw [if_pos (decide_eq_true e)]
            rw [← Nat.mod_add_mod, ← h.cur, e, show n - 1 + 1 = n by omega, Nat.mod_self]
          · rw [if_neg (by simpa using e), ← Nat.mod_add_mod, ← h.cur, Nat.mod_eq_of_lt (by omega)]
      have hlt' : s.pc.holds = true → (s.done ++ [(st, s.buf b)])[s.out.length]? = s.done[s.out.length]? := fun hh => by
        rw [List.getElem?_append_left (h.held hh)]
      refine
        { h with
          le := ?_, room := ?_, cur := ?_, outs := ?_, full := ?_, free := ?_, addrs := ?_, rers := ?_, rer0 := ?_, fill := ?_,
          tame := ?_, held := ?_, copying := ?_, ready := ?_, named := ?_ }
      · show s.out.length ≤ (s.done ++ [_]).length
        rw [List.length_append]
        exact Nat.le_trans h.le (Nat.le_add_right _ _)
      · show (s.done ++ [_]).length ≤ _
        rw [List.length_append, List.length_singleton]
        show _ ≤ s.out.length + n
        omega
      · show _ = (s.done ++ [_]).length % n
        rw [List.length_append, List.length_singleton]
        exact hnx
      · show s.out = ((s.done ++ [_]).take s.out.length).map _
        rw [List.take_append_of_le_length h.le]
        exact h.outs
      · intro j f hj hjf
        dsimp only at hj hjf ⊢
        by_cases e : j < s.done.length
        · rw [List.getElem?_append_left e] at hjf
          have hne : j % n ≠ s.cur := by rw [h.cur]; exact mod_ne e (by omega)
          rw [upd_ne _ _ hne]
          exact h.full j f hj hjf
        · rw [List.getElem?_append_right (by omega)] at hjf
          have e2 : j = s.done.length := by
            have := (List.getElem?_eq_some_iff.mp hjf).1
            simp only [List.length_singleton] at this
            omega
          subst e2
          rw [Nat.sub_self] at hjf
          have hjf := Option.some.inj hjf
          rw [← h.cur, upd_eq, ← hjf, hbc]
          exact ⟨rfl, rfl, rfl⟩
      · intro j hj hj2
        dsimp only at hj hj2 ⊢
        rw [List.length_append, List.length_singleton] at hj
        have hl := h.le
        have hne : j % n ≠ s.cur := by rw [h.cur]; exact (mod_ne (by omega) (by omega)).symm
        rw [upd_ne _ _ hne]
        exact h.free j (by omega) hj2
      · intro hk i hi
        dsimp only
        by_cases e : i = s.cur
        · rw [e, upd_eq]
          subst hk
          show (if Kind.gmac = Kind.eqos then none else _) = _
          rw [if_neg (by decide)]
          exact h.addrs rfl _ hcurn
        · rw [upd_ne _ _ e]
          exact h.addrs hk i hi
      · intro hk i hi hx
        dsimp only at hx ⊢
        have := h.rers hk i hi hx
        by_cases e : i = s.cur
        · rw [e, upd_eq]
          rw [e] at this
          exact this
        · rw [upd_ne _ _ e]
          exact this
      · intro hx
        have := h.rer0 hx
        dsimp only
        by_cases e : s.idx = s.cur
        · rw [e, upd_eq]
          rw [e] at this
          exact this
        · rw [upd_ne _ _ e]
          exact this
      · intro b r e
        cases e
      · show (decide (n ≤ _) || s.wild) = false
        rw [h.tame, hnx, Bool.or_false]
        exact decide_eq_false (by have := Nat.mod_lt (s.done.length + 1) h.pos; omega)
      · intro hh
        show _ < (s.done ++ [_]).length
        rw [List.length_append]
        exact Nat.lt_of_lt_of_le (h.held hh) (Nat.le_add_right _ _)
      · intro w acc hp f hf
        refine h.copying w acc hp f ?_
        have hp' : s.pc = .copy w acc := hp
        have := hlt' (by rw [hp']; rfl)
        exact this.symm.trans hf
      · intro acc hp f hf
        refine h.ready acc hp f ?_
        have hp' : s.pc = .addr acc ∨ s.pc = .own acc := hp
        have := hlt' (by rcases hp' with e | e <;> rw [e] <;> rfl)
        exact this.symm.trans hf
      · intro acc hp
        dsimp only at hp ⊢
        have hl := h.held (by rw [hp]; rfl)
        have hi := h.idx (by rw [hp]; rfl)
        have hne : s.idx ≠ s.cur := by
          rw [hi, h.cur]
          exact mod_ne hl (by omega)
        rw [upd_ne _ _ hne]
        exact h.named acc hp
    · exact h
  | stall =>
    unfold dma
    dsimp only
    split
    · exact { h with }
    · exact h

theorem cpu_inv {K : Kind} {n len : Nat} {s : Rx} (h : Inv K n len s) : Inv K n len (cpu K n len s) := by
  have hpos := h.pos
  cases hp : s.pc with
  | idle =>
    have hi := h.idx (by rw [hp]; rfl)
    unfold cpu
    rw [hp]
    dsimp only
    split
    · rename_i hk
      exact { h with
        idx := fun _ => hi
        idx' := fun e => by cases e
        rers := fun hk2 => by rw [hk.1] at hk2; cases hk2
        held := fun e => by cases e
        rer0 := fun e => by cases e
        kinds := ⟨fun _ => ⟨(by intro e; cases e), (by intro e; cases e)⟩, fun hk2 => by rw [hk.1] at hk2; cases hk2⟩
        copying := fun _ _ e => by cases e
        ready := fun _ e => by rcases e with e | e <;> cases e
        named := fun _ e => by cases e }
    · exact { h with
        idx := fun _ => hi
        idx' := fun e => by cases e
        rers := fun hk2 i hin _ => h.rers hk2 i hin fun e => by rw [hp] at e; cases e.1
        held := fun e => by cases e
        rer0 := fun e => by cases e
        kinds := ⟨fun _ => ⟨(by intro e; cases e), (by intro e; cases e)⟩,
          fun _ => ⟨(by intro e; cases e), (by intro e; cases e), fun _ e => by cases e⟩⟩
        copying := fun _ _ e => by cases e
        ready := fun _ e => by rcases e with e | e <;> cases e
        named := fun _ e => by cases e }
  | kick =>
    have hi := h.idx (by rw [hp]; rfl)
    have hk : K = .eqos := by
      cases K with
      | eqos => rfl
      | gmac => exact absurd hp (h.kinds.2 rfl).1
    subst hk
    unfold cpu
    rw [hp]
    exact { h with
      idx := fun _ => hi
      idx' := fun e => by cases e
      rers := fun hk2 => by cases hk2
      held := fun e => by cases e
      rer0 := fun e => by cases e
      kinds := ⟨fun _ => ⟨(by intro e; cases e), (by intro e; cases e)⟩, fun hk2 => by cases hk2⟩
      copying := fun _ _ e => by cases e
      ready := fun _ e => by rcases e with e | e <;> cases e
      named := fun _ e => by cases e }
  | look =>
    have hi := h.idx (by rw [hp]; rfl)
    unfold cpu
    rw [hp]
    dsimp only
    split
    · exact { h with
        idx := fun _ => hi
        idx' := fun e => by cases e
        rers := fun hk2 i hin _ => h.rers hk2 i hin fun e => by rw [hp] at e; cases e.1
        held := fun e => by cases e
        rer0 := fun e => by cases e
        kinds := ⟨fun _ => ⟨(by intro e; cases e), (by intro e; cases e)⟩,
          fun _ => ⟨(by intro e; cases e), (by intro e; cases e), fun _ e => by cases e⟩⟩
        copying := fun _ _ e => by cases e
        ready := fun _ e => by rcases e with e | e <;> cases e
        named := fun _ e => by cases e }
    · rename_i ho
      have hlt : s.out.length < s.done.length := by
        refine Nat.lt_of_le_of_ne h.le fun e => ho ?_
        have := (h.free s.out.length (by omega) (by omega)).1
        rw [hi]
        exact this
      exact { h with
        idx := fun _ => hi
        idx' := fun e => by cases e
        rers := fun hk2 i hin _ => h.rers hk2 i hin fun e => by rw [hp] at e; cases e.1
        held := fun _ => hlt
        rer0 := fun e => by cases e
        kinds := ⟨fun _ => ⟨(by intro e; cases e), (by intro e; cases e)⟩,
          fun _ => ⟨(by intro e; cases e), (by intro e; cases e), fun _ e => by cases e⟩⟩
        copying := fun _ _ e => by cases e
        ready := fun _ e => by rcases e with e | e <;> cases e
        named := fun _ e => by cases e }
  | take =>
    have hi := h.idx (by rw [hp]; rfl)
    have hl := h.held (by rw [hp]; rfl)
    have hst : ∀ f, s.done[s.out.length]? = some f → (s.desc s.idx).st = f.1 := fun f hf => by
      rw [hi]
      exact (h.full _ f (Nat.le_refl _) hf).2.1
    unfold cpu
    rw [hp]
    dsimp only
    split
    · rename_i hacc
      exact { h with
        idx := fun _ => hi
        idx' := fun e => by cases e
        rers := fun hk2 i hin _ => h.rers hk2 i hin fun e => by rw [hp] at e; cases e.1
        held := fun _ => hl
        rer0 := fun e => by cases e
        kinds := ⟨fun _ => ⟨(by intro e; cases e), (by intro e; cases e)⟩,
          fun _ => ⟨(by intro e; cases e), (by intro e; cases e), fun _ e => by cases e⟩⟩
        copying := fun w acc e f hf => by
          injection e with e1 e2
          rw [hst f hf] at hacc e1
          subst e2
          refine ⟨hacc, ?_, Nat.zero_le _, rfl⟩
          rw [← e1]
          split <;> omega
        ready := fun _ e => by rcases e with e | e <;> cases e
        named := fun _ e => by cases e }
    · rename_i hacc
      have hd : ∀ f, s.done[s.out.length]? = some f → [] = deliver K len f := fun f hf => by
        rw [hst f hf, accepts_iff] at hacc
        rw [deliver, if_neg hacc]
      cases K with
      | eqos =>
        exact { h with
          idx := fun _ => hi
          idx' := fun e => by cases e
          rers := fun hk2 => by cases hk2
          held := fun _ => hl
          rer0 := fun e => by cases e
          kinds := ⟨fun _ => ⟨(by intro e; cases e), (by intro e; cases e)⟩, fun hk2 => by cases hk2⟩
          copying := fun _ _ e => by cases e
          ready := fun acc e f hf => by
            rcases e with e | e
            · injection e with e
              rw [← e]; exact hd f hf
            · cases e
          named := fun _ e => by cases e }
      | gmac =>
        exact { h with
          idx := fun _ => hi
          idx' := fun e => by cases e
          rers := fun hk2 i hin _ => h.rers hk2 i hin fun e => by rw [hp] at e; cases e.1
          held := fun _ => hl
          rer0 := fun e => by cases e
          kinds := ⟨(fun hk2 => by cases hk2), fun _ => ⟨(by intro e; cases e), (by intro e; cases e), fun _ e => by cases e⟩⟩
          copying := fun _ _ e => by cases e
          ready := fun acc e f hf => by
            rcases e with e | e
            · cases e
            · injection e with e
              rw [← e]; exact hd f hf
          named := fun _ _ => h.addrs rfl _ (by show s.idx < n; rw [hi]; exact Nat.mod_lt _ hpos) }
  | copy want acc =>
    have hi := h.idx (by rw [hp]; rfl)
    have hl := h.held (by rw [hp]; rfl)
    have hc := h.copying _ _ hp
    unfold cpu
    rw [hp]
    dsimp only
    split
    · rename_i hw
      exact { h with
        idx := fun _ => hi
        idx' := fun e => by cases e
        rers := fun hk2 i hin _ => h.rers hk2 i hin fun e => by rw [hp] at e; cases e.1
        held := fun _ => hl
        rer0 := fun e => by cases e
        kinds := ⟨fun _ => ⟨(by intro e; cases e), (by intro e; cases e)⟩,
          fun _ => ⟨(by intro e; cases e), (by intro e; cases e), fun _ e => by cases e⟩⟩
        copying := fun w acc' e f hf => by
          injection e with e1 e2
          obtain ⟨c1, c2, c3, c4⟩ := hc f hf
          have hb := (h.full _ f (Nat.le_refl _) hf).2.2
          rw [← hi] at hb
          refine ⟨c1, by rw [← e1]; exact c2, ?_, ?_⟩
          · rw [← e2, ← e1, List.length_append, List.length_singleton]
            exact hw
          · rw [← e2, List.length_append, List.length_singleton, List.range_succ, List.map_append, ← c4, hb]
            rfl
        ready := fun _ e => by rcases e with e | e <;> cases e
        named := fun _ e => by cases e }
    · rename_i hw
      have hd : ∀ f, s.done[s.out.length]? = some f → acc = deliver K len f := fun f hf => by
        obtain ⟨c1, c2, c3, c4⟩ := hc f hf
        rw [deliver, if_pos ((accepts_iff K f.1).mp c1), ← c2, show want = acc.length by omega]
        exact c4
      cases K with
      | eqos =>
        exact { h with
          idx := fun _ => hi
          idx' := fun e => by cases e
          rers := fun hk2 => by cases hk2
          held := fun _ => hl
          rer0 := fun e => by cases e
          kinds := ⟨fun _ => ⟨(by intro e; cases e), (by intro e; cases e)⟩, fun hk2 => by cases hk2⟩
          copying := fun _ _ e => by cases e
          ready := fun acc e f hf => by
            rcases e with e | e
            · injection e with e
              rw [← e]; exact hd f hf
            · cases e
          named := fun _ e => by cases e }
      | gmac =>
        exact { h with
          idx := fun _ => hi
          idx' := fun e => by cases e
          rers := fun hk2 i hin _ => h.rers hk2 i hin fun e => by rw [hp] at e; cases e.1
          held := fun _ => hl
          rer0 := fun e => by cases e
          kinds := ⟨(fun hk2 => by cases hk2), fun _ => ⟨(by intro e; cases e), (by intro e; cases e), fun _ e => by cases e⟩⟩
          copying := fun _ _ e => by cases e
          ready := fun acc e f hf => by
            rcases e with e | e
            · cases e
            · injection e with e
              rw [← e]; exact hd f hf
          named := fun _ _ => h.addrs rfl _ (by show s.idx < n; rw [hi]; exact Nat.mod_lt _ hpos) }
  | addr acc =>
    have hi := h.idx (by rw [hp]; rfl)
    have hl := h.held (by rw [hp]; rfl)
    have hr := h.ready acc (Or.inl hp)
    have hk : K = .eqos := by
      cases K with
      | eqos => rfl
      | gmac => exact absurd hp ((h.kinds.2 rfl).2.2 acc)
    subst hk
    unfold cpu
    rw [hp]
    exact { h with
      idx := fun _ => hi
      idx' := fun e => by cases e
      full := fun j f hj hf => by
        have := h.full j f hj hf
        dsimp only
        by_cases e : j % n = s.idx
        · rw [e, upd_eq]; rw [e] at this; exact this
        · rw [upd_ne _ _ e]; exact this
      free := fun j hj hj2 => by
        have := h.free j hj hj2
        dsimp only
        by_cases e : j % n = s.idx
        · rw [e, upd_eq]; rw [e] at this; exact ⟨this.1, rfl⟩
        · rw [upd_ne _ _ e]; exact this
      addrs := fun hk2 => by cases hk2
      rers := fun hk2 => by cases hk2
      held := fun _ => hl
      rer0 := fun e => by cases e
      kinds := ⟨fun _ => ⟨(by intro e; cases e), (by intro e; cases e)⟩, fun hk2 => by cases hk2⟩
      copying := fun _ _ e => by cases e
      ready := fun acc' e f hf => by
        rcases e with e | e
        · cases e
        · injection e with e
          rw [← e]; exact hr f hf
      named := fun _ _ => by dsimp only; rw [upd_eq] }
  | own acc =>
    have hi := h.idx (by rw [hp]; rfl)
    have hl := h.held (by rw [hp]; rfl)
    have hr := h.ready acc (Or.inr hp)
    have hn := h.named acc hp
    obtain ⟨f, hf⟩ : ∃ f, s.done[s.out.length]? = some f := ⟨_, List.getElem?_eq_getElem hl⟩
    unfold cpu
    rw [hp]
    have hroom := h.room
    have e1 : ∀ (p : Pc), (if K = .eqos then Pc.tail else Pc.size) = p →
        p.after = true ∧ p.holds = false ∧ p ≠ .rer ∧ (K = .eqos → p = .tail) ∧ (K = .gmac → p = .size) := by
      intro p e
      cases K <;> subst e <;> decide
    obtain ⟨p, hpp⟩ : ∃ p, (if K = .eqos then Pc.tail else Pc.size) = p := ⟨_, rfl⟩
    obtain ⟨p1, p2, p3, p4, p5⟩ := e1 p hpp
    have p6 : p = .tail ∨ p = .size := by
      cases hK : K
      · exact Or.inl (p4 hK)
      · exact Or.inr (p5 hK)
    dsimp only
    rw [hpp]
    exact
      { pos := hpos
        le := by dsimp only; rw [List.length_append, List.length_singleton]; exact hl
        room := by dsimp only; rw [List.length_append, List.length_singleton]; omega
        cur := h.cur
        idx := fun e => by dsimp only at e; rw [p1] at e; cases e
        idx' := fun _ => ⟨s.out.length, by dsimp only; rw [List.length_append]; rfl, hi⟩
        outs := by
          dsimp only
          rw [List.length_append, List.length_singleton, List.take_add_one, hf, List.map_append, ← h.outs]
          simp only [Option.toList, List.map]
          rw [← hr f hf]
        full := fun j g hj hg => by
          dsimp only at hj hg ⊢
          rw [List.length_append, List.length_singleton] at hj
          have hjl := (List.getElem?_eq_some_iff.mp hg).1
          have hne : j % n ≠ s.idx := by rw [hi]; exact (mod_ne (by omega) (by omega)).symm
          rw [upd_ne _ _ hne]
          exact h.full j g (by omega) hg
        free := fun j hj hj2 => by
          dsimp only at hj hj2 ⊢
          rw [List.length_append, List.length_singleton] at hj2
          by_cases e : j = s.out.length + n
          · have : j % n = s.idx := by rw [hi, e, Nat.add_mod_right]
            rw [this, upd_eq]
            exact ⟨rfl, hn⟩
          · have hne : j % n ≠ s.idx := by rw [hi]; exact (mod_ne (by omega) (by omega)).symm
            rw [upd_ne _ _ hne]
            exact h.free j hj (by omega)
        addrs := fun hk i hin => by
          have := h.addrs hk i hin
          dsimp only
          by_cases e : i = s.idx
          · rw [e, upd_eq]; rw [e] at this; exact this
          · rw [upd_ne _ _ e]; exact this
        rers := fun hk i hin _ => by
          have := h.rers hk i hin (fun e => by rw [hp] at e; cases e.1)
          dsimp only
          by_cases e : i = s.idx
          · rw [e, upd_eq]; rw [e] at this; exact this
          · rw [upd_ne _ _ e]; exact this
        fill := fun b r e => by
          obtain ⟨f1, f2⟩ := h.fill b r e
          refine ⟨?_, f2⟩
          dsimp only
          rw [List.length_append, List.length_singleton]
          omega
        tame := h.tame
        held := fun e => by dsimp only at e; rw [p2] at e; cases e
        rer0 := fun e => absurd e p3
        kinds := ⟨fun hk => by dsimp only; rw [p4 hk]; exact ⟨(by intro e; cases e), (by intro e; cases e)⟩,
          fun hk => by
            dsimp only; rw [p5 hk]; exact ⟨(by intro e; cases e), (by intro e; cases e), fun _ e => by cases e⟩⟩
        copying := fun w a e => by dsimp only at e; rcases p6 with e6 | e6 <;> rw [e6] at e <;> cases e
        ready := fun a e => by dsimp only at e; rcases p6 with e6 | e6 <;> rw [e6] at e <;> rcases e with e | e <;> cases e
        named := fun a e => by dsimp only at e; rcases p6 with e6 | e6 <;> rw [e6] at e <;> cases e }
  | size =>
    have hk : K = .gmac := by
      cases K with
      | gmac => rfl
      | eqos => exact absurd hp (h.kinds.1 rfl).1
    subst hk
    have hi := h.idx' (by rw [hp]; rfl)
    unfold cpu
    rw [hp]
    exact { h with
      idx := fun e => by cases e
      idx' := fun _ => hi
      full := fun j f hj hf => by
        have := h.full j f hj hf
        dsimp only
        by_cases e : j % n = s.idx
        · rw [e, upd_eq]; rw [e] at this; exact this
        · rw [upd_ne _ _ e]; exact this
      free := fun j hj hj2 => by
        have := h.free j hj hj2
        dsimp only
        by_cases e : j % n = s.idx
        · rw [e, upd_eq]; rw [e] at this; exact this
        · rw [upd_ne _ _ e]; exact this
      addrs := fun hk i hin => by
        have := h.addrs hk i hin
        dsimp only
        by_cases e : i = s.idx
        · rw [e, upd_eq]; rw [e] at this; exact this
        · rw [upd_ne _ _ e]; exact this
      rers := fun hk i hin hx => by
        have := h.rers hk i hin (fun e => by rw [hp] at e; cases e.1)
        dsimp only at hx ⊢
        by_cases e : i = s.idx
        · exact absurd ⟨rfl, e⟩ hx
        · rw [upd_ne _ _ e]; exact this
      held := fun e => by cases e
      rer0 := fun _ => by dsimp only; rw [upd_eq]
      kinds := ⟨(fun hk2 => by cases hk2), fun _ => ⟨(by intro e; cases e), (by intro e; cases e), fun _ e => by cases e⟩⟩
      copying := fun _ _ e => by cases e
      ready := fun _ e => by rcases e with e | e <;> cases e
      named := fun _ e => by cases e }
  | rer =>
    have hk : K = .gmac := by
      cases K with
      | gmac => rfl
      | eqos => exact absurd hp (h.kinds.1 rfl).2
    subst hk
    have hi := h.idx' (by rw [hp]; rfl)
    unfold cpu
    rw [hp]
    have hd : ∀ i, ((if s.idx = n - 1 then upd s.desc s.idx { s.desc s.idx with rer := true } else s.desc) i).own = (s.desc i).own ∧
        ((if s.idx = n - 1 then upd s.desc s.idx { s.desc s.idx with rer := true } else s.desc) i).addr = (s.desc i).addr ∧
        ((if s.idx = n - 1 then upd s.desc s.idx { s.desc s.idx with rer := true } else s.desc) i).st = (s.desc i).st := by
      intro i
      split
      · by_cases e : i = s.idx
        · rw [e, upd_eq]; exact ⟨rfl, rfl, rfl⟩
        · rw [upd_ne _ _ e]; exact ⟨rfl, rfl, rfl⟩
      · exact ⟨rfl, rfl, rfl⟩
    exact { h with
      idx := fun e => by cases e
      idx' := fun _ => hi
      full := fun j f hj hf => by
        have := h.full j f hj hf
        dsimp only
        rw [(hd _).1, (hd _).2.2]; exact this
      free := fun j hj hj2 => by
        have := h.free j hj hj2
        dsimp only
        rw [(hd _).1, (hd _).2.1]; exact this
      addrs := fun hk i hin => by
        have := h.addrs hk i hin
        dsimp only
        rw [(hd _).2.1]; exact this
      rers := fun hk i hin _ => by
        dsimp only
        by_cases e : i = s.idx
        · by_cases e2 : s.idx = n - 1
          · rw [if_pos e2, e, upd_eq]
            exact (decide_eq_true e2).symm
          · rw [if_neg e2, e, h.rer0 hp]
            exact (decide_eq_false e2).symm
        · have := h.rers hk i hin fun hh => e hh.2
          split
          · rw [upd_ne _ _ e]; exact this
          · exact this
      held := fun e => by cases e
      rer0 := fun e => by cases e
      kinds := ⟨(fun hk2 => by cases hk2), fun _ => ⟨(by intro e; cases e), (by intro e; cases e), fun _ e => by cases e⟩⟩
      copying := fun _ _ e => by cases e
      ready := fun _ e => by rcases e with e | e <;> cases e
      named := fun _ e => by cases e }
  | tail =>
    have hk : K = .eqos := by
      cases K with
      | eqos => rfl
      | gmac => exact absurd hp (h.kinds.2 rfl).2.1
    subst hk
    have hi := h.idx' (by rw [hp]; rfl)
    unfold cpu
    rw [hp]
    exact { h with
      idx := fun e => by cases e
      idx' := fun _ => hi
      rers := fun hk2 => by cases hk2
      held := fun e => by cases e
      rer0 := fun e => by cases e
      kinds := ⟨fun _ => ⟨(by intro e; cases e), (by intro e; cases e)⟩, fun hk2 => by cases hk2⟩
      copying := fun _ _ e => by cases e
      ready := fun _ e => by rcases e with e | e <;> cases e
      named := fun _ e => by cases e }
  | next =>
    obtain ⟨k, hk1, hk2⟩ := h.idx' (by rw [hp]; rfl)
    unfold cpu
    rw [hp]
    exact { h with
      idx := fun _ => by
        show (s.idx + 1) % n = s.out.length % n
        rw [hk1, hk2, Nat.mod_add_mod]
      idx' := fun e => by cases e
      rers := fun hk2 i hin _ => h.rers hk2 i hin fun e => by rw [hp] at e; cases e.1
      held := fun e => by cases e
      rer0 := fun e => by cases e
      kinds := ⟨fun _ => ⟨(by intro e; cases e), (by intro e; cases e)⟩,
        fun _ => ⟨(by intro e; cases e), (by intro e; cases e), fun _ e => by cases e⟩⟩
      copying := fun _ _ e => by cases e
      ready := fun _ e => by rcases e with e | e <;> cases e
      named := fun _ e => by cases e }

theorem run_inv {K : Kind} {strict : Bool} {n len : Nat} : ∀ (l : List Act) {s : Rx}, Inv K n len s →
    (K = .gmac → Calm K strict n len s l) → Inv K n len (s.run K strict n len l) := by
  intro l
  induction l with
  | nil => intro s h _; exact h
  | cons a l ih =>
    intro s h hc
    show Inv K n len ((s.step K strict n len a).run K strict n len l)
    refine ih ?_ fun hk => (hc hk).2
    cases a with
    | cpu => exact cpu_inv h
    | dma a => exact dma_inv h a fun hk e => (hc hk).1 (by rw [e])

/-- **C104, the receive ring is exact** (EQOS drivers). For every ring length, every size of the caller's buffer,
every initial contents of the buffers and every interleaving of driver accesses and DMA actions: what the polls
copied out is, frame by frame and in order, what the controller completed; no frame is skipped, repeated or mixed
with a later one; at most `n` frames wait; and the controller never left the ring or followed a stale address. -/
theorem eqos_rx_exact (strict : Bool) {n : Nat} (hn : 0 < n) (len : Nat) (b : Nat → Nat → Nat) (l : List Act)
    (s : Rx) (hs : s = (Rx.start n b).run .eqos strict n len l) :
    s.wild = false ∧ s.out = (s.done.take s.out.length).map (deliver .eqos len) ∧
    s.out.length ≤ s.done.length ∧ s.done.length ≤ s.out.length + n := by
  have h := run_inv (K := .eqos) (strict := strict) l (start_inv .eqos hn len b) (fun hk => by cases hk)
  rw [← hs] at h
  exact ⟨h.tame, h.outs, h.le, h.room⟩

/-- **C104 for the GMAC drivers, partial**: the same, for the schedules in which the engine does not fetch between
the write that clears RER and the one that sets it again. -/
theorem gmac_rx_exact_partial (strict : Bool) {n : Nat} (hn : 0 < n) (len : Nat) (b : Nat → Nat → Nat) (l : List Act)
    (hc : Calm .gmac strict n len (Rx.start n b) l)
    (s : Rx) (hs : s = (Rx.start n b).run .gmac strict n len l) :
    s.wild = false ∧ s.out = (s.done.take s.out.length).map (deliver .gmac len) ∧
    s.out.length ≤ s.done.length ∧ s.done.length ≤ s.out.length + n := by
  have h := run_inv (K := .gmac) (strict := strict) l (start_inv .gmac hn len b) (fun _ => hc)
  rw [← hs] at h
  exact ⟨h.tame, h.outs, h.le, h.room⟩

/-! ### Cases -/

/-- A good frame of `k` octets. -/
def good (k : Nat) : Stat := ⟨true, true, false, k⟩

/-- The controller receives the octets `v` and completes. -/
def recv (v : List Nat) : List Act :=
  .dma .fetch :: (v.mapIdx fun i x => .dma (.write i x)) ++ [.dma (.complete (good v.length))]

/-- Three frames into a ring of two while the driver polls in between, the third one arriving in the very buffer
the first was in: the polls give the frames in order. -/
example : ((Rx.start 2 fun _ _ => 0).run .eqos false 2 1536
    (recv [1, 2, 3] ++ List.replicate 10 .cpu ++ recv [4, 5] ++ List.replicate 2 .cpu ++ recv [6, 7, 8] ++
     List.replicate 30 .cpu)).out = [[1, 2, 3], [4, 5], [6, 7, 8]] := by decide

/-- The frames that do not fit the caller's buffer are cut, those that are not whole are dropped. -/
example : ((Rx.start 4 fun _ _ => 0).run .eqos true 4 2
    (recv [1, 2, 3] ++ [.dma .fetch, .dma (.complete ⟨true, false, false, 1536⟩)] ++ recv [9] ++
     List.replicate 30 .cpu)).out = [[1, 2], [], [9]] := by decide

example : Calm .gmac true 2 1536 (Rx.start 2 fun _ _ => 0)
    (recv [1, 2] ++ List.replicate 10 .cpu ++ recv [3] ++ List.replicate 9 .cpu ++ recv [4] ++ List.replicate 9 .cpu) := by
  decide

/-- **Finding** (`gmac_rearm_race`): the F4 and VA416xx drivers give the descriptor back before they write its second
word, and they write that word twice, first without the end-of-ring flag. When the ring is full and the controller
is waiting for exactly this descriptor, it can fetch the last one without the flag, and after the frame it goes on
past the end of the ring, with whatever lies there taken for a descriptor. -/
theorem gmac_rearm_race : ((Rx.start 2 fun _ _ => 0).run .gmac false 2 1536
    (recv [1] ++ recv [2] ++ List.replicate 16 .cpu ++ recv [3] ++ recv [4])).wild = true := by
  decide

end Wolf.Drv
