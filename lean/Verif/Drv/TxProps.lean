import Verif.Drv.Tx

/-!
# C106: the frames on the wire are the frames `eth_send` accepted

In order, each once, with all their octets and zero padding, for every schedule of the driver and the DMA engine;
a refused call puts nothing on the wire.
-/
namespace Wolf.Drv

theorem take_snoc_getD (l : List Nat) {k : Nat} (h : k < l.length) : l.take k ++ [l.getD k 0] = l.take (k + 1) := by
  rw [List.take_add_one, List.getD_eq_getElem?_getD, List.getElem?_eq_getElem h]
  rfl

theorem tdma_inv {strict : Bool} {n : Nat} {s : Tx} (h : TInv n s) (a : TDma) : TInv n (tdma strict n s a) := by
  have hpos := h.pos
  cases a with
  | fetch =>
    unfold tdma
    dsimp only
    split
    · rename_i hc
      have hlt : s.wire.length < s.acc.length := by
        refine Nat.lt_of_le_of_ne h.le fun e => ?_
        have := h.free s.wire.length (by omega) (by omega)
        rw [← h.cur, hc.2.2.1] at this
        cases this
      obtain ⟨f, hf⟩ : ∃ f, s.acc[s.wire.length]? = some f := ⟨_, List.getElem?_eq_getElem hlt⟩
      obtain ⟨-, h2, h3, -⟩ := h.queued _ f (Nat.le_refl _) hf
      rw [← h.cur] at h2 h3
      rw [h2]
      exact { h with
        fill := fun b l g e => by
          have e := Option.some.inj e
          obtain ⟨e1, e2⟩ := Prod.mk.inj e
          obtain ⟨e2, e3⟩ := Prod.mk.inj e2
          refine ⟨f, hf, by rw [← e1]; exact h.cur, by rw [← e2, h3], ?_, ?_⟩
          · rw [← e3]; exact Nat.zero_le _
          · rw [← e3]; rfl }
    · exact h
  | read =>
    unfold tdma
    dsimp only
    split
    · rename_i b len got hb
      split
      · rename_i hl
        obtain ⟨f, f1, f2, f3, f4, f5⟩ := h.fill b len got hb
        have hbuf := (h.queued _ f (Nat.le_refl _) f1).2.2.2 got.length (by omega)
        exact { h with
          fill := fun b' l' g' e => by
            have e := Option.some.inj e
            obtain ⟨e1, e2⟩ := Prod.mk.inj e
            obtain ⟨e2, e3⟩ := Prod.mk.inj e2
            refine ⟨f, f1, by rw [← e1]; exact f2, by rw [← e2]; exact f3, ?_, ?_⟩
            · rw [← e3, ← e2, List.length_append, List.length_singleton]; omega
            · rw [← e3, List.length_append, List.length_singleton]
              have h5 := take_snoc_getD (padded f) (k := got.length) (by omega)
              rw [← f5] at h5
              rw [f2, hbuf]
              exact h5 }
      · exact h
    · exact h
  | complete =>
    unfold tdma
    dsimp only
    split
    · rename_i b len got hb
      split
      · rename_i hl
        obtain ⟨f, f1, f2, f3, f4, f5⟩ := h.fill b len got hb
        have hlt : s.wire.length < s.acc.length := (List.getElem?_eq_some_iff.mp f1).1
        have hgot : got = padded f := by
          rw [hl, f3, List.take_of_length_le (Nat.le_refl _)] at f5
          exact f5
        have hroom := h.room
        exact
          { h with
            le := by dsimp only; rw [List.length_append, List.length_singleton]; exact hlt
            room := by dsimp only; rw [List.length_append, List.length_singleton]; omega
            cur := by
              dsimp only
              rw [List.length_append, List.length_singleton, h.cur, Nat.mod_add_mod]
            outs := by
              dsimp only
              rw [List.length_append, List.length_singleton, List.take_add_one, f1, List.map_append, ← h.outs, hgot]
              rfl
            queued := fun j g hj hg => by
              dsimp only at hj hg ⊢
              rw [List.length_append, List.length_singleton] at hj
              have hjl := (List.getElem?_eq_some_iff.mp hg).1
              have hne : j % n ≠ s.cur := by rw [h.cur]; exact (mod_ne (by omega) (by omega)).symm
              rw [upd_ne _ _ hne]
              exact h.queued j g (by omega) hg
            free := fun j hj hj2 => by
              dsimp only at hj hj2 ⊢
              rw [List.length_append, List.length_singleton] at hj2
              by_cases e : j = s.wire.length + n
              · rw [show j % n = s.cur by rw [h.cur, e, Nat.add_mod_right], upd_eq]
              · have hne : j % n ≠ s.cur := by rw [h.cur]; exact (mod_ne (by omega) (by omega)).symm
                rw [upd_ne _ _ hne]
                exact h.free j hj (by omega)
            fill := fun b l g e => by cases e
            held := fun e => by
              have := h.held e
              dsimp only
              rw [List.length_append, List.length_singleton]
              omega
            named := fun f e => by
              dsimp only at e ⊢
              have hh := h.held (by rcases e with e | e <;> rw [e] <;> exact (nofun))
              have hi := h.idx (by rcases e with e | e <;> rw [e] <;> rfl)
              have hne : s.idx ≠ s.cur := by rw [h.cur, hi]; exact (mod_ne (by omega) (by omega)).symm
              rw [upd_ne _ _ hne]
              exact h.named f e
            sized := fun f e => by
              dsimp only at e ⊢
              have hh := h.held (by rw [e]; exact (nofun))
              have hi := h.idx (by rw [e]; rfl)
              have hne : s.idx ≠ s.cur := by rw [h.cur, hi]; exact (mod_ne (by omega) (by omega)).symm
              rw [upd_ne _ _ hne]
              exact h.sized f e }
      · exact h
    · exact h

/-- Writing octet `k` of the buffer at the driver's index leaves the queued buffers alone. -/
theorem queued_write {n : Nat} {s : Tx} (h : TInv n s) (hi : s.idx = s.acc.length % n) (k v : Nat) :
    ∀ j f, s.wire.length ≤ j → s.acc[j]? = some f → s.acc.length < s.wire.length + n → (s.desc (j % n)).own = true ∧
    (s.desc (j % n)).addr = some (j % n) ∧ (s.desc (j % n)).len = (padded f).length ∧
    ∀ i, i < (padded f).length → upd s.buf s.idx (upd (s.buf s.idx) k v) (j % n) i = (padded f).getD i 0 := by
  intro j f hj hf hl
  have hjl := (List.getElem?_eq_some_iff.mp hf).1
  have hne : j % n ≠ s.idx := by rw [hi]; exact mod_ne (by omega) (by omega)
  rw [upd_ne _ _ hne]
  exact h.queued j f hj hf

theorem call_inv {n : Nat} {s : Tx} (h : TInv n s) (f : List Nat) (hp : s.pc = .idle) : TInv n { s with pc := .test f } :=
  { h with
    idx := fun _ => h.idx (by rw [hp]; rfl)
    idx' := fun e => absurd rfl e
    held := fun e => absurd rfl e
    size := fun f h => by cases h
    copying := fun f k h => by cases h
    padding := fun f k h => by cases h
    filled := fun f h => by rcases h with h | h | h <;> cases h
    named := fun f h => by rcases h with h | h <;> cases h
    sized := fun f h => by cases h
    rets := by have := h.rets; rw [hp] at this; exact this }

theorem tcpu_inv {n : Nat} {s : Tx} (h : TInv n s) : TInv n (tcpu n s) := by
  have hpos := h.pos
  have hle := h.le
  have hroom := h.room
  cases hp : s.pc with
  | idle => unfold tcpu; rw [hp]; exact h
  | test f =>
    have hi := h.idx (by rw [hp]; rfl)
    have hr := h.rets
    rw [hp] at hr
    have hback : ∀ v : Int, ¬ 0 ≤ v → TInv n { s with pc := .idle, ret := s.ret ++ [(f, v)] } := fun v hv =>
      { h with
        idx := fun _ => hi
        idx' := fun e => absurd rfl e
        held := fun e => absurd rfl e
        size := fun f h => by cases h
        copying := fun f k h => by cases h
        padding := fun f k h => by cases h
        filled := fun f h => by rcases h with h | h | h <;> cases h
        named := fun f h => by rcases h with h | h <;> cases h
        sized := fun f h => by cases h
        rets := by
          dsimp only
          rw [accepted_snoc, if_neg hv, List.append_nil]
          exact hr }
    unfold tcpu
    rw [hp]
    dsimp only
    split
    · exact hback _ (by decide)
    · rename_i hsz
      split
      · exact hback _ (by decide)
      · rename_i ho
        have hlt : s.acc.length < s.wire.length + n := by
          refine Nat.lt_of_le_of_ne hroom fun e => ho ?_
          have hw : s.wire.length < s.acc.length := by omega
          have := (h.queued _ _ (Nat.le_refl _) (List.getElem?_eq_getElem hw)).1
          rw [hi, e, Nat.add_mod_right]
          exact this
        exact { h with
          idx := fun _ => hi
          idx' := fun e => absurd rfl e
          held := fun _ => hlt
          size := fun g e => by
            have e := Option.some.inj e
            rw [← e]
            omega
          copying := fun g k e => by
            injection e with e1 e2
            exact ⟨by omega, fun i hi => by omega⟩
          padding := fun f k h => by cases h
          filled := fun f h => by rcases h with h | h | h <;> cases h
          named := fun f h => by rcases h with h | h <;> cases h
          sized := fun f h => by cases h
          rets := hr }
  | copy f k =>
    have hi := h.idx (by rw [hp]; rfl)
    have hh := h.held (by rw [hp]; exact nofun)
    have hs := h.size f (by rw [hp]; rfl)
    have hr := h.rets
    rw [hp] at hr
    obtain ⟨c1, c2⟩ := h.copying f k hp
    unfold tcpu
    rw [hp]
    dsimp only
    split
    · rename_i hk
      exact { h with
        idx := fun _ => hi
        idx' := fun e => absurd rfl e
        queued := fun j g hj hg => queued_write h hi _ _ j g hj hg hh
        safe := by
          dsimp only
          rw [h.safe, Bool.false_or]
          exact decide_eq_false (by omega)
        held := fun _ => hh
        size := fun g e => h.size g (by rw [hp]; exact e)
        copying := fun g k' e => by
          injection e with e1 e2
          subst e1
          subst e2
          refine ⟨hk, fun i hik => ?_⟩
          dsimp only
          rw [upd_eq]
          by_cases e : i = k
          · rw [e, upd_eq, padded_left f hk]
          · rw [upd_ne _ _ e]
            exact c2 i (by omega)
        padding := fun f k h => by cases h
        filled := fun f h => by rcases h with h | h | h <;> cases h
        named := fun f h => by rcases h with h | h <;> cases h
        sized := fun f h => by cases h
        rets := hr }
    · rename_i hk
      exact { h with
        idx := fun _ => hi
        idx' := fun e => absurd rfl e
        held := fun _ => hh
        size := fun g e => h.size g (by rw [hp]; exact e)
        copying := fun g k' e => by cases e
        padding := fun g k' e => by
          injection e with e1 e2
          subst e1
          subst e2
          exact ⟨by omega, Or.inl c1, c2⟩
        filled := fun f h => by rcases h with h | h | h <;> cases h
        named := fun f h => by rcases h with h | h <;> cases h
        sized := fun f h => by cases h
        rets := hr }
  | pad f k =>
    have hi := h.idx (by rw [hp]; rfl)
    have hh := h.held (by rw [hp]; exact nofun)
    have hs := h.size f (by rw [hp]; rfl)
    have hr := h.rets
    rw [hp] at hr
    obtain ⟨c1, c2, c3⟩ := h.padding f k hp
    unfold tcpu
    rw [hp]
    dsimp only
    split
    · rename_i hk
      exact { h with
        idx := fun _ => hi
        idx' := fun e => absurd rfl e
        queued := fun j g hj hg => queued_write h hi _ _ j g hj hg hh
        safe := by
          dsimp only
          rw [h.safe, Bool.false_or]
          exact decide_eq_false (by omega)
        held := fun _ => hh
        size := fun g e => h.size g (by rw [hp]; exact e)
        copying := fun g k' e => by cases e
        padding := fun g k' e => by
          injection e with e1 e2
          subst e1
          subst e2
          refine ⟨by omega, Or.inr (by omega), fun i hik => ?_⟩
          dsimp only
          rw [upd_eq]
          by_cases e : i = k
          · rw [e, upd_eq, padded_right f c1]
          · rw [upd_ne _ _ e]
            exact c3 i (by omega)
        filled := fun f h => by rcases h with h | h | h <;> cases h
        named := fun f h => by rcases h with h | h <;> cases h
        sized := fun f h => by cases h
        rets := hr }
    · rename_i hk
      exact { h with
        idx := fun _ => hi
        idx' := fun e => absurd rfl e
        held := fun _ => hh
        size := fun g e => h.size g (by rw [hp]; exact e)
        copying := fun g k' e => by cases e
        padding := fun g k' e => by cases e
        filled := fun g e => by
          rcases e with e | e | e
          · injection e with e1
            subst e1
            intro i hil
            refine c3 i ?_
            rw [padded_length] at hil
            split at hil <;> omega
          · cases e
          · cases e
        named := fun f h => by rcases h with h | h <;> cases h
        sized := fun f h => by cases h
        rets := hr }
  | addr f =>
    have hi := h.idx (by rw [hp]; rfl)
    have hh := h.held (by rw [hp]; exact nofun)
    have hf := h.filled f (Or.inl hp)
    have hr := h.rets
    rw [hp] at hr
    unfold tcpu
    rw [hp]
    exact { h with
      idx := fun _ => hi
      idx' := fun e => absurd rfl e
      queued := fun j g hj hg => by
        have hjl := (List.getElem?_eq_some_iff.mp hg).1
        have hj' : s.wire.length ≤ j := hj
        have hjl' : j < s.acc.length := hjl
        have hne : j % n ≠ s.idx := by rw [hi]; exact mod_ne (by omega) (by omega)
        dsimp only
        rw [upd_ne _ _ hne]
        exact h.queued j g hj hg
      free := fun j hj hj2 => by
        have := h.free j hj hj2
        dsimp only
        by_cases e : j % n = s.idx
        · rw [e, upd_eq]; rw [e] at this; exact this
        · rw [upd_ne _ _ e]; exact this
      held := fun _ => hh
      size := fun g e => h.size g (by rw [hp]; exact e)
      copying := fun g k' e => by cases e
      padding := fun g k' e => by cases e
      filled := fun g e => by
        rcases e with e | e | e
        · cases e
        · injection e with e1
          subst e1
          exact hf
        · cases e
      named := fun f e => by dsimp only; rw [upd_eq]
      sized := fun f h => by cases h
      rets := hr }
  | size f =>
    have hi := h.idx (by rw [hp]; rfl)
    have hh := h.held (by rw [hp]; exact nofun)
    have hf := h.filled f (Or.inr (Or.inl hp))
    have hn := h.named f (Or.inl hp)
    have hr := h.rets
    rw [hp] at hr
    unfold tcpu
    rw [hp]
    exact { h with
      idx := fun _ => hi
      idx' := fun e => absurd rfl e
      queued := fun j g hj hg => by
        have hjl := (List.getElem?_eq_some_iff.mp hg).1
        have hj' : s.wire.length ≤ j := hj
        have hjl' : j < s.acc.length := hjl
        have hne : j % n ≠ s.idx := by rw [hi]; exact mod_ne (by omega) (by omega)
        dsimp only
        rw [upd_ne _ _ hne]
        exact h.queued j g hj hg
      free := fun j hj hj2 => by
        have := h.free j hj hj2
        dsimp only
        by_cases e : j % n = s.idx
        · rw [e, upd_eq]; rw [e] at this; exact this
        · rw [upd_ne _ _ e]; exact this
      held := fun _ => hh
      size := fun g e => h.size g (by rw [hp]; exact e)
      copying := fun g k' e => by cases e
      padding := fun g k' e => by cases e
      filled := fun g e => by
        rcases e with e | e | e
        · cases e
        · cases e
        · injection e with e1
          subst e1
          exact hf
      named := fun f e => by dsimp only; rw [upd_eq]; exact hn
      sized := fun g e => by
        injection e with e1
        subst e1
        dsimp only
        rw [upd_eq, padded_length]
      rets := hr }
  | own f =>
    have hi := h.idx (by rw [hp]; rfl)
    have hh := h.held (by rw [hp]; exact nofun)
    have hf := h.filled f (Or.inr (Or.inr hp))
    have hn := h.named f (Or.inr hp)
    have hz := h.sized f hp
    have hr := h.rets
    rw [hp] at hr
    unfold tcpu
    rw [hp]
    exact { h with
      le := by dsimp only; rw [List.length_append, List.length_singleton]; omega
      room := by dsimp only; rw [List.length_append, List.length_singleton]; omega
      idx := fun e => by cases e
      idx' := fun _ => ⟨s.acc.length, by dsimp only; rw [List.length_append]; rfl, hi⟩
      outs := by
        dsimp only
        rw [List.take_append_of_le_length hle]
        exact h.outs
      queued := fun j g hj hg => by
        dsimp only at hj hg ⊢
        by_cases e : j < s.acc.length
        · rw [List.getElem?_append_left e] at hg
          have hne : j % n ≠ s.idx := by rw [hi]; exact mod_ne e (by omega)
          rw [upd_ne _ _ hne]
          exact h.queued j g hj hg
        · rw [List.getElem?_append_right (by omega)] at hg
          have e2 : j = s.acc.length := by
            have := (List.getElem?_eq_some_iff.mp hg).1
            simp only [List.length_singleton] at this
            omega
          subst e2
          rw [Nat.sub_self] at hg
          have hg := Option.some.inj hg
          subst hg
          rw [← hi, upd_eq]
          exact ⟨rfl, hn, hz, hf⟩
      free := fun j hj hj2 => by
        dsimp only at hj hj2 ⊢
        rw [List.length_append, List.length_singleton] at hj
        have hne : j % n ≠ s.idx := by rw [hi]; exact (mod_ne (by omega) (by omega)).symm
        rw [upd_ne _ _ hne]
        exact h.free j (by omega) hj2
      fill := fun b l g e => by
        obtain ⟨q, q1, q2⟩ := h.fill b l g e
        refine ⟨q, ?_, q2⟩
        dsimp only
        rw [List.getElem?_append_left (List.getElem?_eq_some_iff.mp q1).1]
        exact q1
      held := fun e => absurd rfl e
      size := fun f h => by cases h
      copying := fun f k h => by cases h
      padding := fun f k h => by cases h
      filled := fun f h => by rcases h with h | h | h <;> cases h
      named := fun f h => by rcases h with h | h <;> cases h
      sized := fun f h => by cases h
      rets := by
        have hr2 : s.acc = accepted s.ret := hr.trans (List.append_nil _)
        dsimp only
        rw [hr2]
        rfl }
  | tail f =>
    have hi := h.idx' (by rw [hp]; exact nofun)
    have hr := h.rets
    rw [hp] at hr
    unfold tcpu
    rw [hp]
    exact { h with
      idx := fun e => by cases e
      idx' := fun _ => hi
      held := fun e => absurd rfl e
      size := fun f h => by cases h
      copying := fun f k h => by cases h
      padding := fun f k h => by cases h
      filled := fun f h => by rcases h with h | h | h <;> cases h
      named := fun f h => by rcases h with h | h <;> cases h
      sized := fun f h => by cases h
      rets := hr }
  | next f =>
    obtain ⟨k, hk1, hk2⟩ := h.idx' (by rw [hp]; exact nofun)
    have hr := h.rets
    rw [hp] at hr
    unfold tcpu
    rw [hp]
    exact { h with
      idx := fun e => by
        dsimp only
        rw [hk1, hk2, Nat.mod_add_mod]
      idx' := fun e => absurd rfl e
      held := fun e => absurd rfl e
      size := fun f h => by cases h
      copying := fun f k h => by cases h
      padding := fun f k h => by cases h
      filled := fun f h => by rcases h with h | h | h <;> cases h
      named := fun f h => by rcases h with h | h <;> cases h
      sized := fun f h => by cases h
      rets := by
        dsimp only
        rw [accepted_snoc, if_pos (Int.natCast_nonneg _), hr]
        exact (List.append_nil _).symm }

theorem trun_inv {strict : Bool} {n : Nat} : ∀ (l : List TAct) {s : Tx}, TInv n s → TInv n (s.run strict n l) := by
  intro l
  induction l with
  | nil => intro s h; exact h
  | cons a l ih =>
    intro s h
    refine ih (s := s.step strict n a) ?_
    cases a with
    | call f =>
      show TInv n (if s.pc = .idle then _ else s)
      split
      · exact call_inv h f (by assumption)
      · exact h
    | cpu => exact tcpu_inv h
    | dma a => exact tdma_inv h a

/-- **C106, the transmit ring is exact.** For every ring length, every schedule of calls, driver accesses and DMA
actions: the frames on the wire are, in order, those of the calls that reported success (and of at most one call
still running), each padded with zeros to 60 octets and otherwise unchanged; no more than `n` of them are still to
be sent; the driver never writes outside a buffer and the engine never reads anything else. -/
theorem tx_exact (strict : Bool) {n : Nat} (hn : 0 < n) (b : Nat → Nat → Nat) (l : List TAct)
    (s : Tx) (hs : s = (Tx.start b).run strict n l) :
    ∃ g : List (List Nat), g.length ≤ 1 ∧ (s.pc = .idle → g = []) ∧
      s.wire = ((accepted s.ret ++ g).take s.wire.length).map padded ∧
      s.wire.length ≤ (accepted s.ret ++ g).length ∧ (accepted s.ret ++ g).length ≤ s.wire.length + n ∧
      s.oob = false ∧ s.wild = false := by
  have h := trun_inv (strict := strict) l (tstart_inv hn b)
  rw [← hs] at h
  refine ⟨s.pc.given.toList, ?_, ?_, ?_, ?_, ?_, h.safe, h.tame⟩
  · cases s.pc.given <;> simp
  · intro e; rw [e]; rfl
  · rw [← h.rets]; exact h.outs
  · rw [← h.rets]; exact h.le
  · rw [← h.rets]; exact h.room

/-- **C106, the results.** A call ends with -1 exactly for a frame that is empty or longer than the buffer, with -2
exactly when the next descriptor still belongs to the engine; a refused call changes nothing but the log of results;
and any other goes on to hand the frame over (its result is then the length: `tx_exact`). -/
theorem send_result (n : Nat) (s : Tx) (f : List Nat) (hp : s.pc = .test f) :
    (f = [] ∨ 1536 < f.length → tcpu n s = { s with pc := .idle, ret := s.ret ++ [(f, -1)] }) ∧
    (f ≠ [] → f.length ≤ 1536 → (s.desc s.idx).own = true → tcpu n s = { s with pc := .idle, ret := s.ret ++ [(f, -2)] }) ∧
    (f ≠ [] → f.length ≤ 1536 → (s.desc s.idx).own = false → tcpu n s = { s with pc := .copy f 0 }) := by
  have h0 : f ≠ [] → 0 < f.length := List.length_pos_iff.mpr
  unfold tcpu
  rw [hp]
  dsimp only
  refine ⟨fun h => ?_, fun h1 h2 h3 => ?_, fun h1 h2 h3 => ?_⟩
  · rw [if_pos (by rcases h with h | h
                   · left; rw [h]; rfl
                   · right; exact h)]
  · have := h0 h1
    rw [if_neg (by omega), if_pos h3]
  · have := h0 h1
    rw [if_neg (by omega), if_neg (by rw [h3]; exact nofun)]

/-- Nothing is refused for want of a descriptor unless `n` frames wait. -/
theorem send_room (strict : Bool) {n : Nat} (hn : 0 < n) (b : Nat → Nat → Nat) (l : List TAct)
    (s : Tx) (hs : s = (Tx.start b).run strict n l) (f : List Nat) (hp : s.pc = .test f) :
    ((s.desc s.idx).own = true ↔ (accepted s.ret).length = s.wire.length + n) := by
  have h := trun_inv (strict := strict) l (tstart_inv hn b)
  rw [← hs] at h
  have hi := h.idx (by rw [hp]; rfl)
  have hr := h.rets
  rw [hp] at hr
  have hr : s.acc = accepted s.ret := hr.trans (List.append_nil _)
  rw [← hr]
  have hroom := h.room
  constructor
  · intro ho
    refine Nat.le_antisymm hroom (Nat.le_of_not_lt fun hlt => ?_)
    have := h.free _ (Nat.le_refl _) hlt
    rw [← hi, ho] at this
    cases this
  · intro e
    have hw : s.wire.length < s.acc.length := by omega
    have := (h.queued _ _ (Nat.le_refl _) (List.getElem?_eq_getElem hw)).1
    rw [hi, e, Nat.add_mod_right]
    exact this

/-! ## Progress -/

/-- The tail pointer is one past the last frame handed over, between calls. -/
structure TLive (n : Nat) (s : Tx) : Prop where
  inv : TInv n s
  tl : s.pc.given = none → s.tailp = s.acc.length % n
  tl' : ∀ f, s.pc = .next f → s.tailp = s.acc.length % n

theorem tlive_run {strict : Bool} {n : Nat} : ∀ (l : List TAct) {s : Tx}, TLive n s → TLive n (s.run strict n l) := by
  intro l
  induction l with
  | nil => intro s h; exact h
  | cons a l ih =>
    intro s h
    refine ih (s := s.step strict n a) ?_
    cases a with
    | call f =>
      show TLive n (if s.pc = .idle then _ else s)
      split
      · rename_i hp
        exact ⟨call_inv h.inv f hp, fun _ => h.tl (by rw [hp]; rfl), (fun f e => by cases e)⟩
      · exact h
    | cpu =>
      have hi := tcpu_inv h.inv
      show TLive n (tcpu n s)
      refine ⟨hi, ?_, ?_⟩
      · unfold tcpu
        cases hp : s.pc with
        | next f => intro _; exact h.tl' f hp
        | tail f => intro e; cases e
        | own f => intro e; cases e
        | idle => dsimp only; exact h.tl
        | test f =>
          have := h.tl (by rw [hp]; rfl)
          dsimp only
          repeat' split
          all_goals exact fun _ => this
        | copy f k =>
          have := h.tl (by rw [hp]; rfl)
          dsimp only
          repeat' split
          all_goals exact fun _ => this
        | pad f k =>
          have := h.tl (by rw [hp]; rfl)
          dsimp only
          repeat' split
          all_goals exact fun _ => this
        | addr f => exact fun _ => h.tl (by rw [hp]; rfl)
        | size f => exact fun _ => h.tl (by rw [hp]; rfl)
      · intro g
        unfold tcpu
        cases hp : s.pc with
        | tail f =>
          intro _
          obtain ⟨k, hk1, hk2⟩ := h.inv.idx' (by rw [hp]; exact nofun)
          dsimp only
          rw [hk1, hk2, Nat.mod_add_mod]
        | next f => intro e; cases e
        | own f => intro e; cases e
        | idle => dsimp only; intro e; rw [hp] at e; cases e
        | test f => dsimp only; repeat' split
                    all_goals (intro e; cases e)
        | copy f k => dsimp only; repeat' split
                      all_goals (intro e; cases e)
        | pad f k => dsimp only; repeat' split
                     all_goals (intro e; cases e)
        | addr f => intro e; cases e
        | size f => intro e; cases e
    | dma a =>
      have : (tdma strict n s a).pc = s.pc ∧ (tdma strict n s a).acc = s.acc ∧ (tdma strict n s a).tailp = s.tailp := by
        unfold tdma
        cases a <;> dsimp only <;> (repeat' split) <;> exact ⟨rfl, rfl, rfl⟩
      obtain ⟨e1, e2, e3⟩ := this
      exact ⟨tdma_inv h.inv a, by show (tdma strict n s a).pc.given = none → _; rw [e1]; intro e; show (tdma strict n s a).tailp = (tdma strict n s a).acc.length % n; rw [e2, e3]; exact h.tl e,
        fun f e => by
          have e : (tdma strict n s a).pc = .next f := e
          rw [e1] at e
          show (tdma strict n s a).tailp = (tdma strict n s a).acc.length % n
          rw [e2, e3]
          exact h.tl' f e⟩

/-- **C106, progress, partial.** With the tail pointer taken at its word: while frames wait but fewer than `n`, the
engine is sending or can fetch the next one. What is missing is the full ring: `eqos_tx_wedge`. -/
theorem tx_live_partial {n : Nat} (hn : 0 < n) (b : Nat → Nat → Nat) (l : List TAct)
    (s : Tx) (hs : s = (Tx.start b).run true n l) (hidle : s.pc = .idle)
    (hq : s.wire.length < (accepted s.ret).length) (hnf : (accepted s.ret).length < s.wire.length + n) :
    s.fill ≠ none ∨ (tdma true n s .fetch).fill ≠ none := by
  have h := tlive_run (strict := true) l (s := Tx.start b)
    ⟨tstart_inv hn b, fun _ => (Nat.zero_mod n).symm, fun f e => by cases e⟩
  rw [← hs] at h
  have hr := h.inv.rets
  rw [hidle] at hr
  have hr : s.acc = accepted s.ret := hr.trans (List.append_nil _)
  rw [← hr] at hq hnf
  by_cases e : s.fill = none
  · right
    have hd := h.inv.queued _ _ (Nat.le_refl _) (List.getElem?_eq_getElem hq)
    rw [← h.inv.cur] at hd
    have hne : s.cur ≠ s.tailp := by
      rw [h.tl (by rw [hidle]; rfl), h.inv.cur]
      exact mod_ne hq hnf
    unfold tdma
    dsimp only
    rw [if_pos ⟨e, h.inv.tame, hd.1, fun hh => hne hh.2⟩, hd.2.1]
    exact nofun
  · exact Or.inl e

/-! ### Cases -/

/-- A whole call. -/
def sendAll (f : List Nat) : List TAct := .call f :: List.replicate (max f.length 60 + 8) .cpu

/-- The engine sends a frame of `k` octets. -/
def putOut (k : Nat) : List TAct := .dma .fetch :: List.replicate k (.dma .read) ++ [.dma .complete]

/-- Two frames, the second handed over while the first is being sent. -/
example : (((Tx.start fun _ _ => 7).run true 3
      (sendAll [1, 2, 3] ++ [.dma .fetch, .dma .read] ++ sendAll [4] ++ List.replicate 59 (.dma .read) ++
        [.dma .complete] ++ putOut 60)).wire) = [padded [1, 2, 3], padded [4]] := by
  decide +kernel

/-- **Finding** (`eqos_tx_wedge`): with the three descriptors of `stm32_eth.c`, three calls before the engine has
looked at the first leave the tail pointer where the engine is; from then on it never sends a frame, and
every further call is refused. -/
theorem eqos_tx_wedge :
    ((Tx.start fun _ _ => 0).run true 3 (sendAll [1] ++ sendAll [2] ++ sendAll [3])).ret = [([1], 1), ([2], 1), ([3], 1)] ∧
    ∀ l, ((Tx.start fun _ _ => 0).run true 3 (sendAll [1] ++ sendAll [2] ++ sendAll [3] ++ l)).wire = [] := by
  refine ⟨by decide +kernel, fun l => ?_⟩
  rw [Tx.run, List.foldl_append]
  change (List.foldl _ ((Tx.start fun _ _ => 0).run true 3 (sendAll [1] ++ sendAll [2] ++ sendAll [3])) l).wire = []
  have h0 : ∀ s : Tx, s = (Tx.start fun _ _ => 0).run true 3 (sendAll [1] ++ sendAll [2] ++ sendAll [3]) →
      (s.desc 0).own = true ∧ s.idx = 0 ∧ s.cur = 0 ∧ s.tailp = 0 ∧ s.fill = none ∧ s.wire = [] ∧
      (s.pc = .idle ∨ ∃ f, s.pc = .test f) := by
    intro s hs
    rw [hs]
    exact ⟨by decide +kernel, by decide +kernel, by decide +kernel, by decide +kernel, by decide +kernel,
      by decide +kernel, Or.inl (by decide +kernel)⟩
  generalize hs : (Tx.start fun _ _ => 0).run true 3 (sendAll [1] ++ sendAll [2] ++ sendAll [3]) = s
  have h1 := h0 s hs.symm
  clear h0 hs
  induction l generalizing s with
  | nil => exact h1.2.2.2.2.2.1
  | cons a l ih =>
    refine ih (Tx.step true 3 s a) ?_
    obtain ⟨d, e1, e2, e3, e4, e5, e6⟩ := h1
    cases a with
    | call f =>
      show _ ∧ _
      unfold Tx.step
      dsimp only
      split
      · exact ⟨d, e1, e2, e3, e4, e5, Or.inr ⟨f, rfl⟩⟩
      · exact ⟨d, e1, e2, e3, e4, e5, e6⟩
    | cpu =>
      unfold Tx.step tcpu
      rcases e6 with e6 | ⟨f, e6⟩
      · rw [e6]
        exact ⟨d, e1, e2, e3, e4, e5, Or.inl e6⟩
      · rw [e6]
        dsimp only
        rw [e1, if_pos d]
        split <;> exact ⟨d, rfl, e2, e3, e4, e5, Or.inl rfl⟩
    | dma a =>
      unfold Tx.step tdma
      cases a with
      | fetch =>
        dsimp only
        rw [if_neg (fun hc => hc.2.2.2 ⟨rfl, by rw [e2, e3]⟩)]
        exact ⟨d, e1, e2, e3, e4, e5, e6⟩
      | read => dsimp only; rw [e4]; exact ⟨d, e1, e2, e3, e4, e5, e6⟩
      | complete => dsimp only; rw [e4]; exact ⟨d, e1, e2, e3, e4, e5, e6⟩

end Wolf.Drv
