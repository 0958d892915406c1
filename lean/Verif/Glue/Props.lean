import Verif.Glue.Model

/-!
# C107, C108: a session's I/O goes to its own socket, and descriptors are reused
-/
namespace Wolf.Glue

theorem upd_eq {α : Type} (f : Nat → α) (i : Nat) (v : α) : upd f i v i = v := by simp [upd]

theorem upd_ne {α : Type} (f : Nat → α) {i j : Nat} (v : α) (h : j ≠ i) : upd f i v j = f j := by simp [upd, h]

theorem firstFree_some {lib : Lib} : ∀ {l : List Slot} {i : Nat}, firstFree lib l = some i →
    ∃ d, l[i]? = some d ∧ d.free lib = true := by
  intro l
  induction l with
  | nil => intro i h; cases h
  | cons s l ih =>
    intro i h
    rw [firstFree] at h
    split at h
    · rename_i hf
      cases h
      exact ⟨s, rfl, hf⟩
    · cases hl : firstFree lib l with
      | none => rw [hl] at h; cases h
      | some j =>
        rw [hl] at h
        cases h
        exact ih hl

theorem firstFree_none {lib : Lib} : ∀ {l : List Slot}, firstFree lib l = none → ∀ d ∈ l, d.free lib = false := by
  intro l
  induction l with
  | nil => intro _ d h; cases h
  | cons s l ih =>
    intro h d hd
    rw [firstFree] at h
    split at h
    · cases h
    · rename_i hf
      cases hl : firstFree lib l with
      | some j => rw [hl] at h; cases h
      | none =>
        rcases List.mem_cons.mp hd with e | e
        · rw [e]; simpa using hf
        · exact ih hl d e

/-- A descriptor in use holds the stack and the socket. -/
def Slot.holds (d : Slot) (b : Nat × Int) : Prop := d.stack = some b.1 ∧ d.fd = b.2 ∧ d.inUse = true

theorem holds_not_free {lib : Lib} {d : Slot} {b : Nat × Int} (h : d.holds b) : d.free lib = false := by
  cases lib
  · show (d.stack == none) = false
    rw [h.1]; rfl
  · show (!d.inUse) = false
    rw [h.2.2]; rfl

/-- In ssh mode `inUse` decides; the ssl pool has `inUse` as a shadow of `stack`. -/
structure Inv (lib : Lib) (p : St × List (Op × Res)) : Prop where
  len : p.1.slots.length = lib.max
  bd : ∀ x b, bound x p.2 = some b → 0 ≤ b.2 ∧ ∃ i d, p.1.rctx x = some i ∧ p.1.wctx x = some i ∧
    p.1.slots[i]? = some d ∧ d.holds b
  inj : ∀ x y i, bound x p.2 ≠ none → bound y p.2 ≠ none → p.1.rctx x = some i → p.1.rctx y = some i → x = y
  nul : lib = .ssl → ∀ x, bound x p.2 = none → p.1.rctx x = none ∧ p.1.wctx x = none
  reg : ∀ c st, lookup p.1.ctxs c = some st → stackOf p.2 c = some st

theorem lookup_register_ne (c st c' : Nat) (hne : c' ≠ c) : ∀ l, lookup (register l c st) c' = lookup l c' := by
  intro l
  induction l with
  | nil => rfl
  | cons e l ih =>
    cases e with
    | none =>
      rw [register]
      conv => rhs; rw [lookup]
      rw [lookup, if_neg (fun h => hne h.symm)]
    | some e =>
      obtain ⟨d, u⟩ := e
      rw [register]
      split
      · rename_i hd
        rw [lookup, if_neg (fun h => hne h.symm), lookup, if_neg (by rw [hd]; exact fun h => hne h.symm)]
      · rw [lookup, lookup, ih]

theorem lookup_register_eq (c st : Nat) : ∀ l, lookup (register l c st) c = some st ∨ lookup (register l c st) c = none := by
  intro l
  induction l with
  | nil => exact Or.inr rfl
  | cons e l ih =>
    cases e with
    | none => left; rw [register, lookup, if_pos rfl]
    | some e =>
      obtain ⟨d, u⟩ := e
      rw [register]
      split
      · left; rw [lookup, if_pos rfl]
      · rename_i hd
        rw [lookup, if_neg hd]
        exact ih

/-- A successful set-up of `x` with descriptor `i`. -/
theorem take_inv {lib : Lib} {s : St} {log : List (Op × Res)} (h : Inv lib (s, log)) {x i st : Nat} {fd : Int}
    (hfd : ¬ fd < 0) (hi : firstFree lib s.slots = some i) {e : Op × Res}
    (hx : bound x (e :: log) = some (st, fd)) (hy : ∀ y, y ≠ x → bound y (e :: log) = bound y log)
    (hs : ∀ c, stackOf (e :: log) c = stackOf log c) : Inv lib (s.take x i st fd, e :: log) := by
  obtain ⟨d, hd, hfr⟩ := firstFree_some hi
  have hil := (List.getElem?_eq_some_iff.mp hd).1
  have hne : ∀ y b, bound y log = some b → s.rctx y ≠ some i := by
    intro y b hb e
    obtain ⟨-, i', d', h1, -, h3, h4⟩ := h.bd y b hb
    rw [e] at h1
    cases h1
    have hd' : s.slots[i]? = some d' := h3
    rw [hd] at hd'
    cases hd'
    rw [holds_not_free h4] at hfr
    cases hfr
  refine ⟨?_, ?_, ?_, ?_, ?_⟩
  · show (s.slots.set i _).length = _
    rw [List.length_set]
    exact h.len
  · intro y b hb
    by_cases e1 : y = x
    · subst e1
      rw [hx] at hb
      cases hb
      refine ⟨by show 0 ≤ fd; omega, i, ⟨some st, fd, true⟩, upd_eq _ _ _, upd_eq _ _ _, ?_, rfl, rfl, rfl⟩
      show (s.slots.set i _)[i]? = _
      rw [List.getElem?_set_self hil]
    · rw [hy y e1] at hb
      obtain ⟨h0, i', d', h1, h2, h3, h4⟩ := h.bd y b hb
      have hii : i ≠ i' := fun e => hne y b hb (by rw [e]; exact h1)
      refine ⟨h0, i', d', ?_, ?_, ?_, h4⟩
      · show upd s.rctx x _ y = _
        rw [upd_ne _ _ e1]; exact h1
      · show upd s.wctx x _ y = _
        rw [upd_ne _ _ e1]; exact h2
      · show (s.slots.set i _)[i']? = _
        rw [List.getElem?_set_ne hii]; exact h3
  · intro y z j hby hbz hry hrz
    have hry : upd s.rctx x (some i) y = some j := hry
    have hrz : upd s.rctx x (some i) z = some j := hrz
    have key : ∀ w, w ≠ x → bound w (e :: log) ≠ none → s.rctx w ≠ some i := fun w hw hb hr => by
      rw [hy w hw] at hb
      obtain ⟨b, hb⟩ := Option.ne_none_iff_exists'.mp hb
      exact hne w b hb hr
    by_cases ey : y = x <;> by_cases ez : z = x
    · rw [ey, ez]
    · rw [ey, upd_eq] at hry
      cases hry
      rw [upd_ne _ _ ez] at hrz
      exact absurd hrz (key z ez hbz)
    · rw [ez, upd_eq] at hrz
      cases hrz
      rw [upd_ne _ _ ey] at hry
      exact absurd hry (key y ey hby)
    · rw [upd_ne _ _ ey] at hry
      rw [upd_ne _ _ ez] at hrz
      rw [hy y ey] at hby
      rw [hy z ez] at hbz
      exact h.inj y z j hby hbz hry hrz
  · intro hl y hb
    by_cases e1 : y = x
    · rw [e1, hx] at hb; cases hb
    · rw [hy y e1] at hb
      show upd s.rctx x _ y = none ∧ upd s.wctx x _ y = none
      rw [upd_ne _ _ e1, upd_ne _ _ e1]
      exact h.nul hl y hb
  · intro c st' hc
    rw [hs]
    exact h.reg c st' hc

/-- A call that changes neither pool nor bindings. -/
theorem same_inv {lib : Lib} {s : St} {log : List (Op × Res)} (h : Inv lib (s, log)) {e : Op × Res}
    (hb : ∀ y, bound y (e :: log) = bound y log) (hs : ∀ c, stackOf (e :: log) c = stackOf log c) : Inv lib (s, e :: log) := by
  refine ⟨h.len, fun x b hx => ?_, fun x y i hx hy => ?_, fun hl x hx => ?_, fun c st hc => ?_⟩
  · rw [hb] at hx; exact h.bd x b hx
  · rw [hb] at hx hy; exact h.inj x y i hx hy
  · rw [hb] at hx; exact h.nul hl x hx
  · rw [hs]; exact h.reg c st hc

/-- Session `x` gives up descriptor `i` (if any): the slots of the others are as before, and so are their contexts. -/
theorem drop_inv {lib : Lib} {s s' : St} {log : List (Op × Res)} (h : Inv lib (s, log)) {x : Nat} {e : Op × Res}
    (hlen : s'.slots.length = s.slots.length) (hctx : s'.ctxs = s.ctxs)
    (hx : bound x (e :: log) = none) (hy : ∀ y, y ≠ x → bound y (e :: log) = bound y log)
    (hs : ∀ c, stackOf (e :: log) c = stackOf log c)
    (hr : ∀ y, y ≠ x → s'.rctx y = s.rctx y ∧ s'.wctx y = s.wctx y)
    (hnul : lib = .ssl → s'.rctx x = none ∧ s'.wctx x = none)
    (hslot : ∀ j, (∃ y, y ≠ x ∧ bound y log ≠ none ∧ s.rctx y = some j) → s'.slots[j]? = s.slots[j]?) :
    Inv lib (s', e :: log) := by
  refine ⟨hlen.trans h.len, fun y b hb => ?_, fun y z i hby hbz h1 h2 => ?_, fun hl y hb => ?_, fun c st hc => ?_⟩
  · by_cases e1 : y = x
    · rw [e1, hx] at hb; cases hb
    · rw [hy y e1] at hb
      obtain ⟨h0, i, d, h1, h2, h3, h4⟩ := h.bd y b hb
      have h1 : s.rctx y = some i := h1
      refine ⟨h0, i, d, (hr y e1).1.trans h1, (hr y e1).2.trans h2, ?_, h4⟩
      exact (hslot i ⟨y, e1, by rw [hb]; exact nofun, h1⟩).trans h3
  · by_cases ey : y = x
    · rw [ey] at hby; exact absurd hx hby
    · by_cases ez : z = x
      · rw [ez] at hbz; exact absurd hx hbz
      · rw [hy y ey] at hby
        rw [hy z ez] at hbz
        exact h.inj y z i hby hbz ((hr y ey).1.symm.trans h1) ((hr z ez).1.symm.trans h2)
  · by_cases e1 : y = x
    · rw [e1]; exact hnul hl
    · rw [hy y e1] at hb
      exact ⟨(hr y e1).1.trans (h.nul hl y hb).1, (hr y e1).2.trans (h.nul hl y hb).2⟩
  · rw [hs]
    exact h.reg c st (by rw [← hctx]; exact hc)

/-- Every clean-up is of a session that is bound. -/
def Once (lib : Lib) : List Op → Prop
  | [] => True
  | .clean x :: l => bound x (exec lib l).2 ≠ none ∧ Once lib l
  | _ :: l => Once lib l

theorem exec_inv (lib : Lib) : ∀ l, (lib = .ssh → Once lib l) → Inv lib (exec lib l) := by
  intro l
  induction l with
  | nil =>
    intro _
    refine ⟨?_, (fun x b h => by cases h), (fun x y i h => absurd rfl h), fun _ x _ => ⟨rfl, rfl⟩, ?_⟩
    · show (List.replicate _ _).length = _
      rw [List.length_replicate]
    · intro c st h
      cases h
  | cons o l ih =>
    intro hon
    have hon' : lib = .ssh → Once lib l := fun hl => by
      have := hon hl
      cases o <;> first | exact this | exact this.2
    have h := ih hon'
    show Inv lib ((step lib (exec lib l).1 o).1, (o, (step lib (exec lib l).1 o).2) :: (exec lib l).2)
    have honx : ∀ x, o = .clean x → lib = .ssh → bound x (exec lib l).2 ≠ none := fun x ho hl => by
      subst ho
      exact (hon hl).1
    generalize exec lib l = p at h honx ⊢
    obtain ⟨s, log⟩ := p
    cases o with
    | regCtx c st =>
      refine ⟨h.len, h.bd, h.inj, h.nul, ?_⟩
      intro c' st' hc
      show stackOf ((Op.regCtx c st, _) :: log) c' = some st'
      have hc : lookup (register s.ctxs c st) c' = some st' := hc
      rw [stackOf]
      split
      · rename_i e
        rw [← e] at hc
        rcases lookup_register_eq c st s.ctxs with e2 | e2
        · rw [e2] at hc; exact hc
        · rw [e2] at hc; cases hc
      · rename_i e
        rw [lookup_register_ne c st c' (fun h => e h.symm)] at hc
        exact h.reg c' st' hc
    | sslIO x c fd =>
      unfold step
      dsimp only
      split
      · rename_i hl
        unfold sslSetIO
        cases c with
        | none => exact same_inv h (fun _ => rfl) (fun _ => rfl)
        | some c =>
          dsimp only
          split
          · exact same_inv h (fun _ => rfl) (fun _ => rfl)
          · rename_i hfd
            cases hst : lookup s.ctxs c with
            | none => exact same_inv h (fun _ => rfl) (fun _ => rfl)
            | some st =>
              dsimp only
              cases hi : firstFree .ssl s.slots with
              | none => exact same_inv h (fun _ => rfl) (fun _ => rfl)
              | some i =>
                subst hl
                refine take_inv h hfd hi ?_ (fun y hy => ?_) (fun _ => rfl)
                · show bound x ((Op.sslIO x (some c) fd, Res.ok) :: log) = _
                  rw [bound, if_pos rfl, h.reg c st hst]
                  rfl
                · show bound y ((Op.sslIO x (some c) fd, Res.ok) :: log) = _
                  rw [bound, if_neg (fun e => hy e.symm)]
      · cases c <;> exact same_inv h (fun _ => rfl) (fun _ => rfl)
    | sshIO x st fd =>
      unfold step
      dsimp only
      split
      · rename_i hl
        unfold sshSetIO
        cases st with
        | none => exact same_inv h (fun _ => rfl) (fun _ => rfl)
        | some st =>
          dsimp only
          split
          · exact same_inv h (fun _ => rfl) (fun _ => rfl)
          · rename_i hfd
            cases hi : firstFree .ssh s.slots with
            | none => exact same_inv h (fun _ => rfl) (fun _ => rfl)
            | some i =>
              subst hl
              refine take_inv h hfd hi ?_ (fun y hy => ?_) (fun _ => rfl)
              · show bound x ((Op.sshIO x (some st) fd, Res.ok) :: log) = _
                rw [bound, if_pos rfl]
              · show bound y ((Op.sshIO x (some st) fd, Res.ok) :: log) = _
                rw [bound, if_neg (fun e => hy e.symm)]
      · cases st <;> exact same_inv h (fun _ => rfl) (fun _ => rfl)
    | clean x =>
      show Inv lib (cleanup lib s x, (Op.clean x, Res.ok) :: log)
      have hx : bound x ((Op.clean x, Res.ok) :: log) = none := by rw [bound, if_pos rfl]
      have hy : ∀ y, y ≠ x → bound y ((Op.clean x, Res.ok) :: log) = bound y log := fun y hy => by
        rw [bound, if_neg (fun e => hy e.symm)]
      have hbx : ∀ i, s.rctx x = some i → bound x log ≠ none := fun i hr => by
        cases lib with
        | ssl =>
          intro hb
          have hn : s.rctx x = none := (h.nul rfl x hb).1
          rw [hr] at hn
          cases hn
        | ssh => exact honx x rfl rfl
      have hmod : ∀ (i : Nat) (g : Slot → Slot), s.rctx x = some i → ∀ j, (∃ y, y ≠ x ∧ bound y log ≠ none ∧ s.rctx y = some j) →
          (s.slots.modify i g)[j]? = s.slots[j]? := by
        intro i g hr j ⟨y, hyx, hb, hj⟩
        have hij : i ≠ j := by
          intro e
          rw [← e] at hj
          exact hyx (h.inj y x i hb (hbx i hr) hj hr)
        rw [List.getElem?_modify]
        simp only [if_neg hij]
        cases s.slots[j]? <;> rfl
      unfold cleanup
      cases hr : s.rctx x with
      | none =>
        dsimp only
        refine drop_inv h rfl rfl hx hy (fun _ => rfl) (fun _ _ => ⟨rfl, rfl⟩) (fun hl => ?_) (fun _ _ => rfl)
        refine ⟨hr, ?_⟩
        subst hl
        cases hb : bound x log with
        | none => exact (h.nul rfl x hb).2
        | some b =>
          obtain ⟨-, i, d, h1, -⟩ := h.bd x b hb
          have h1 : s.rctx x = some i := h1
          rw [hr] at h1
          cases h1
      | some i =>
        cases lib with
        | ssl =>
          exact drop_inv h (List.length_modify ..) rfl hx hy (fun _ => rfl)
            (fun y hyx => ⟨upd_ne _ _ hyx, upd_ne _ _ hyx⟩) (fun _ => ⟨upd_eq _ _ _, upd_eq _ _ _⟩) (hmod i _ hr)
        | ssh =>
          exact drop_inv h (List.length_modify ..) rfl hx hy (fun _ => rfl) (fun y hyx => ⟨rfl, rfl⟩)
            (fun hl => by cases hl) (hmod i _ hr)
    | free x =>
      show Inv lib ({ s with rctx := upd s.rctx x none, wctx := upd s.wctx x none }, (Op.free x, Res.ok) :: log)
      have hx : bound x ((Op.free x, Res.ok) :: log) = none := by rw [bound, if_pos rfl]
      have hy : ∀ y, y ≠ x → bound y ((Op.free x, Res.ok) :: log) = bound y log := fun y hy => by
        rw [bound, if_neg (fun e => hy e.symm)]
      exact drop_inv h rfl rfl hx hy (fun _ => rfl) (fun y hyx => ⟨upd_ne _ _ hyx, upd_ne _ _ hyx⟩)
        (fun _ => ⟨upd_eq _ _ _, upd_eq _ _ _⟩) (fun _ _ => rfl)

/-! ## The theorems -/

/-- What a library is to be told about a result of a wolfIP socket: octets, "try again", or that it is over. -/
def outcome (want : Io) (ret : Int) (o : Io) : Prop :=
  (0 < ret → o = .data ret) ∧ (ret = -11 → o = want) ∧ (ret ≤ 0 → ret ≠ -11 → o = .connClose ∨ o = .general)

theorem report_outcome (lib : Lib) (want : Io) (ret : Int) : outcome want ret (report lib want ret) := by
  unfold outcome report
  cases lib
  · dsimp only
    refine ⟨fun h => ?_, fun h => ?_, fun h1 h2 => ?_⟩
    · rw [if_neg (by omega), if_neg (by omega)]
    · rw [if_pos h]
    · rw [if_neg h2, if_pos h1]; exact Or.inl rfl
  · dsimp only
    refine ⟨fun h => ?_, fun h => ?_, fun h1 h2 => ?_⟩
    · rw [if_neg (by omega), if_neg (by omega), if_neg (by omega)]
    · rw [if_pos h]
    · rw [if_neg h2]
      split
      · exact Or.inl rfl
      · rw [if_pos (by omega)]; exact Or.inr rfl

theorem target_bound {lib : Lib} {p : St × List (Op × Res)} (h : Inv lib p) {x : Nat} {b : Nat × Int}
    (hb : bound x p.2 = some b) :
    target lib p.1.slots (p.1.rctx x) = some b ∧ target lib p.1.slots (p.1.wctx x) = some b := by
  obtain ⟨h0, i, d, h1, h2, h3, h4⟩ := h.bd x b hb
  have : target lib p.1.slots (some i) = some b := by
    unfold target
    dsimp only
    rw [h3]
    dsimp only
    rw [h4.1]
    dsimp only
    rw [if_neg (by rw [h4.2.1]; omega), h4.2.1]
  rw [h1, h2]
  exact ⟨this, this⟩

/-- **C107 for wolfSSL.** After every history of set-ups, clean-ups and frees of any number of sessions: the callbacks
of a session that is set up use exactly its own socket on its own stack and report its result faithfully, whatever
happened to other sessions; those of one that is not set up report an error without touching any socket. -/
theorem ssl_io_exact (l : List Op) (x : Nat) (sock : Nat → Int → Int) :
    (∀ st fd, bound x (exec .ssl l).2 = some (st, fd) →
      outcome .wantRead (sock st fd) (ioRecv .ssl (exec .ssl l).1 x sock) ∧
      outcome .wantWrite (sock st fd) (ioSend .ssl (exec .ssl l).1 x sock)) ∧
    (bound x (exec .ssl l).2 = none →
      ioRecv .ssl (exec .ssl l).1 x sock = .general ∧ ioSend .ssl (exec .ssl l).1 x sock = .general) := by
  have h := exec_inv .ssl l (fun e => by cases e)
  constructor
  · intro st fd hb
    obtain ⟨h1, h2⟩ := target_bound h hb
    unfold ioRecv ioSend
    rw [h1, h2]
    exact ⟨report_outcome _ _ _, report_outcome _ _ _⟩
  · intro hb
    obtain ⟨h1, h2⟩ := h.nul rfl x hb
    unfold ioRecv ioSend
    rw [h1, h2]
    exact ⟨rfl, rfl⟩

/-- **C107 for wolfSSH, partial**: the same for sessions that are set up, provided no session is cleaned up that is
not set up. Missing: clean-ups of sessions already cleaned up, and I/O of such sessions (`ssh_double_cleanup`). -/
theorem ssh_io_exact_partial (l : List Op) (hon : Once .ssh l) (x : Nat) (sock : Nat → Int → Int) (st : Nat) (fd : Int)
    (hb : bound x (exec .ssh l).2 = some (st, fd)) :
    outcome .wantRead (sock st fd) (ioRecv .ssh (exec .ssh l).1 x sock) ∧
    outcome .wantWrite (sock st fd) (ioSend .ssh (exec .ssh l).1 x sock) := by
  obtain ⟨h1, h2⟩ := target_bound (exec_inv .ssh l fun _ => hon) hb
  unfold ioRecv ioSend
  rw [h1, h2]
  exact ⟨report_outcome _ _ _, report_outcome _ _ _⟩

/-- **C107 for wolfSSH, after the clean-up**: a session that was set up and has just been cleaned up touches no socket
(`ssh_double_cleanup` shows that this does not last: once the descriptor is taken by another session, it does). -/
theorem ssh_clean_io (l : List Op) (x : Nat) (hon : Once .ssh (.clean x :: l)) (sock : Nat → Int → Int) :
    ioRecv .ssh (exec .ssh (.clean x :: l)).1 x sock = .general ∧ ioSend .ssh (exec .ssh (.clean x :: l)).1 x sock = .general := by
  obtain ⟨b, hb⟩ := Option.ne_none_iff_exists'.mp hon.1
  obtain ⟨-, i, d, h1, h2, h3, -⟩ := (exec_inv .ssh l fun _ => hon.2).bd x b hb
  have hs : (exec .ssh (.clean x :: l)).1 = cleanup .ssh (exec .ssh l).1 x := rfl
  have hc : cleanup .ssh (exec .ssh l).1 x =
      { (exec .ssh l).1 with slots := (exec .ssh l).1.slots.modify i fun _ => ⟨none, -1, false⟩ } := by
    unfold cleanup
    rw [h1]
  have ht : target .ssh ((exec .ssh l).1.slots.modify i fun _ => ⟨none, -1, false⟩) (some i) = none := by
    unfold target
    dsimp only
    rw [List.getElem?_modify, h3]
    simp
  unfold ioRecv ioSend
  rw [hs, hc]
  dsimp only
  rw [h1, h2, ht]
  exact ⟨rfl, rfl⟩

/-- **Finding** (`ssh_double_cleanup`): sessions 1, 2 and 3 on sockets 11, 12, 13. Session 1 is set up and cleaned up,
session 2 set up, session 1 cleaned up once more, session 3 set up: the I/O of session 2 now goes to the socket of
session 3 (and, before that, a read of session 1 would have read from the socket of session 2). -/
theorem ssh_double_cleanup :
    let h := exec .ssh [.sshIO 3 (some 0) 13, .clean 1, .sshIO 2 (some 0) 12, .clean 1, .sshIO 1 (some 0) 11]
    bound 2 h.2 = some (0, 12) ∧ ioRecv .ssh h.1 2 (fun _ fd => fd) = .data 13 ∧
    ioRecv .ssh (exec .ssh [.sshIO 2 (some 0) 12, .clean 1, .sshIO 1 (some 0) 11]).1 1 (fun _ fd => fd) = .data 12 := by
  decide

/-- The same history with wolfSSL is harmless. -/
example : let h := exec .ssl [.sslIO 3 (some 7) 13, .clean 1, .sslIO 2 (some 7) 12, .clean 1, .sslIO 1 (some 7) 11, .regCtx 7 0]
    bound 2 h.2 = some (0, 12) ∧ ioRecv .ssl h.1 2 (fun _ fd => fd) = .data 12 ∧
    ioRecv .ssl h.1 3 (fun _ fd => fd) = .data 13 ∧ ioRecv .ssl h.1 1 (fun _ fd => fd) = .general := by
  decide

example : Once .ssh [.sshIO 3 (some 0) 13, .clean 2, .sshIO 2 (some 0) 12, .clean 1, .sshIO 1 (some 0) 11] := by
  refine ⟨?_, ?_, trivial⟩ <;> decide

/-! ## Reuse of the descriptors -/

/-- Sessions are set up only while they are not, and freed or cleaned up as required: cleaned up before the free, in
wolfSSH exactly once. -/
def Tidy (lib : Lib) : List Op → Prop
  | [] => True
  | .sslIO x _ _ :: l => bound x (exec lib l).2 = none ∧ Tidy lib l
  | .sshIO x _ _ :: l => bound x (exec lib l).2 = none ∧ Tidy lib l
  | .clean x :: l => (lib = .ssh → bound x (exec lib l).2 ≠ none) ∧ Tidy lib l
  | .free x :: l => bound x (exec lib l).2 = none ∧ Tidy lib l
  | .regCtx _ _ :: l => Tidy lib l

theorem tidy_once {lib : Lib} (hl : lib = .ssh) : ∀ {l : List Op}, Tidy lib l → Once lib l := by
  intro l
  induction l with
  | nil => intro _; trivial
  | cons o l ih =>
    intro h
    cases o with
    | regCtx => exact ih h
    | sslIO => exact ih h.2
    | sshIO => exact ih h.2
    | clean => exact ⟨h.1 hl, ih h.2⟩
    | free => exact ih h.2

/-- Every descriptor in use belongs to a session that is set up. -/
def Owned (lib : Lib) (p : St × List (Op × Res)) : Prop :=
  ∀ i d, p.1.slots[i]? = some d → d.free lib = false → ∃ x, bound x p.2 ≠ none ∧ p.1.rctx x = some i

theorem take_owned {lib : Lib} {s : St} {log : List (Op × Res)} (h : Owned lib (s, log)) {x i st : Nat} {fd : Int}
    {e : Op × Res} (hb : bound x log = none) (hx : bound x (e :: log) ≠ none)
    (hy : ∀ y, y ≠ x → bound y (e :: log) = bound y log) : Owned lib (s.take x i st fd, e :: log) := by
  intro j d hj hd
  by_cases e1 : j = i
  · exact ⟨x, hx, by rw [e1]; exact upd_eq _ _ _⟩
  · have hj : (s.slots.set i ⟨some st, fd, true⟩)[j]? = some d := hj
    rw [List.getElem?_set_ne (fun e => e1 e.symm)] at hj
    obtain ⟨y, h1, h2⟩ := h j d hj hd
    have hyx : y ≠ x := fun e => h1 (by rw [e]; exact hb)
    exact ⟨y, by rw [hy y hyx]; exact h1, by show upd s.rctx x _ y = _; rw [upd_ne _ _ hyx]; exact h2⟩

theorem same_owned {lib : Lib} {s : St} {log : List (Op × Res)} (h : Owned lib (s, log)) {e : Op × Res}
    (hb : ∀ y, bound y (e :: log) = bound y log) : Owned lib (s, e :: log) := fun i d hi hd => by
  obtain ⟨x, h1, h2⟩ := h i d hi hd
  exact ⟨x, by rw [hb]; exact h1, h2⟩

theorem exec_owned (lib : Lib) : ∀ l, Tidy lib l → Owned lib (exec lib l) := by
  intro l
  induction l with
  | nil =>
    intro _ i d hi hd
    have hi : (List.replicate lib.max (⟨none, 0, false⟩ : Slot))[i]? = some d := hi
    have := List.eq_of_mem_replicate (List.mem_of_getElem? hi)
    subst this
    cases lib <;> cases hd
  | cons o l ih =>
    intro ht
    show Owned lib ((step lib (exec lib l).1 o).1, (o, (step lib (exec lib l).1 o).2) :: (exec lib l).2)
    cases o with
    | regCtx c st => exact same_owned (ih ht) (fun _ => rfl)
    | sslIO x c fd =>
      have h := ih ht.2
      have hb := ht.1
      have hinv := exec_inv lib l fun e => tidy_once e ht.2
      generalize exec lib l = p at h hb hinv ⊢
      obtain ⟨s, log⟩ := p
      unfold step
      dsimp only
      split
      · unfold sslSetIO
        cases c with
        | none => exact same_owned h (fun _ => rfl)
        | some c =>
          dsimp only
          split
          · exact same_owned h (fun _ => rfl)
          · cases hst : lookup s.ctxs c with
            | none => exact same_owned h (fun _ => rfl)
            | some st =>
              dsimp only
              cases hi : firstFree .ssl s.slots with
              | none => exact same_owned h (fun _ => rfl)
              | some i =>
                refine take_owned h hb ?_ (fun y hy => ?_)
                · show bound x ((Op.sslIO x (some c) fd, Res.ok) :: log) ≠ none
                  rw [bound, if_pos rfl, hinv.reg c st hst]
                  exact nofun
                · show bound y ((Op.sslIO x (some c) fd, Res.ok) :: log) = _
                  rw [bound, if_neg (fun e => hy e.symm)]
      · cases c <;> exact same_owned h (fun _ => rfl)
    | sshIO x st fd =>
      have h := ih ht.2
      have hb := ht.1
      generalize exec lib l = p at h hb ⊢
      obtain ⟨s, log⟩ := p
      unfold step
      dsimp only
      split
      · unfold sshSetIO
        cases st with
        | none => exact same_owned h (fun _ => rfl)
        | some st =>
          dsimp only
          split
          · exact same_owned h (fun _ => rfl)
          · cases hi : firstFree .ssh s.slots with
            | none => exact same_owned h (fun _ => rfl)
            | some i =>
              refine take_owned h hb ?_ (fun y hy => ?_)
              · show bound x ((Op.sshIO x (some st) fd, Res.ok) :: log) ≠ none
                rw [bound, if_pos rfl]
                exact nofun
              · show bound y ((Op.sshIO x (some st) fd, Res.ok) :: log) = _
                rw [bound, if_neg (fun e => hy e.symm)]
      · cases st <;> exact same_owned h (fun _ => rfl)
    | clean x =>
      have h := ih ht.2
      have hb := ht.1
      have hinv := exec_inv lib l fun e => tidy_once e ht.2
      generalize exec lib l = p at h hb hinv ⊢
      obtain ⟨s, log⟩ := p
      show Owned lib (cleanup lib s x, (Op.clean x, Res.ok) :: log)
      by_cases hbn : bound x log = none
      · cases lib with
        | ssh => exact absurd hbn (hb rfl)
        | ssl =>
          obtain ⟨hr, -⟩ := hinv.nul rfl x hbn
          have hr : s.rctx x = none := hr
          unfold cleanup
          rw [hr]
          refine same_owned h (fun y => ?_)
          rw [bound]
          split
          · rename_i e; rw [← e]; exact hbn.symm
          · rfl
      obtain ⟨b, hb'⟩ := Option.ne_none_iff_exists'.mp hbn
      obtain ⟨-, i, d0, h1, -, h3, -⟩ := hinv.bd x b hb'
      have h1 : s.rctx x = some i := h1
      have h3 : s.slots[i]? = some d0 := h3
      have key : ∀ g : Slot → Slot, (∀ d, (g d).free lib = true) → ∀ s' : St, s'.slots = s.slots.modify i g →
          (∀ y, y ≠ x → s'.rctx y = s.rctx y) → Owned lib (s', (Op.clean x, Res.ok) :: log) := by
        intro g hg s' hs' hr j d hj hd
        have hj : s'.slots[j]? = some d := hj
        rw [hs', List.getElem?_modify] at hj
        by_cases e : i = j
        · simp only [if_pos e] at hj
          cases hj' : s.slots[j]? with
          | none => rw [hj'] at hj; cases hj
          | some d' =>
            rw [hj'] at hj
            have hj := Option.some.inj hj
            rw [← hj, hg] at hd
            cases hd
        · simp only [if_neg e] at hj
          have hj' : s.slots[j]? = some d := by
            cases hj' : s.slots[j]? with
            | none => rw [hj'] at hj; cases hj
            | some d' => rw [hj'] at hj; exact hj
          obtain ⟨y, hy1, hy2⟩ := h j d hj' hd
          have hy2 : s.rctx y = some j := hy2
          have hyx : y ≠ x := by
            intro e2
            rw [e2, h1] at hy2
            exact e (Option.some.inj hy2)
          refine ⟨y, ?_, (hr y hyx).trans hy2⟩
          show bound y ((Op.clean x, Res.ok) :: log) ≠ none
          rw [bound, if_neg (fun e => hyx e.symm)]
          exact hy1
      unfold cleanup
      rw [h1]
      dsimp only
      cases lib with
      | ssl => exact key _ (fun d => rfl) _ rfl (fun y hy => upd_ne _ _ hy)
      | ssh => exact key _ (fun d => rfl) _ rfl (fun y hy => rfl)
    | free x =>
      have h := ih ht.2
      have hb := ht.1
      generalize exec lib l = p at h hb ⊢
      obtain ⟨s, log⟩ := p
      intro j d hj hd
      obtain ⟨y, h1, h2⟩ := h j d hj hd
      have hyx : y ≠ x := fun e => h1 (by rw [e]; exact hb)
      refine ⟨y, ?_, ?_⟩
      · show bound y ((Op.free x, Res.ok) :: log) ≠ none
        rw [bound, if_neg (fun e => hyx e.symm)]
        exact h1
      · show upd s.rctx x none y = _
        rw [upd_ne _ _ hyx]
        exact h2

/-- With as many sessions set up as there are descriptors, they are all there is. -/
theorem all_busy {lib : Lib} {p : St × List (Op × Res)} (hlen : p.1.slots.length = lib.max) (ho : Owned lib p)
    (hf : firstFree lib p.1.slots = none) :
    ∃ L : List Nat, L.Nodup ∧ L.length = lib.max ∧ ∀ x ∈ L, bound x p.2 ≠ none := by
  have hb := firstFree_none hf
  have h1 : ∀ i, i < lib.max → ∃ x, bound x p.2 ≠ none ∧ p.1.rctx x = some i := fun i hi => by
    have hi' : i < p.1.slots.length := by rw [hlen]; exact hi
    exact ho i _ (List.getElem?_eq_getElem hi') (hb _ (List.getElem_mem hi'))
  have h2 : ∃ f : Nat → Nat, ∀ i, i < lib.max → bound (f i) p.2 ≠ none ∧ p.1.rctx (f i) = some i := by
    refine ⟨fun i => if h : i < lib.max then (h1 i h).choose else 0, fun i hi => ?_⟩
    dsimp only
    rw [dif_pos hi]
    exact (h1 i hi).choose_spec
  obtain ⟨f, hf⟩ := h2
  refine ⟨(List.range lib.max).map f, ?_, by rw [List.length_map, List.length_range], ?_⟩
  · rw [List.Nodup, List.pairwise_map]
    refine List.Pairwise.imp_of_mem ?_ List.pairwise_lt_range
    intro a b ha hb hab e
    have ha := (hf a (List.mem_range.mp ha)).2
    have hb := (hf b (List.mem_range.mp hb)).2
    rw [e, hb] at ha
    cases ha
    omega
  · intro x hx
    obtain ⟨i, hi, rfl⟩ := List.mem_map.mp hx
    exact (hf i (List.mem_range.mp hi)).1

/-! ### The context table -/

theorem nodup_subset_length : ∀ {l L : List Nat}, l.Nodup → (∀ x ∈ l, x ∈ L) → l.length ≤ L.length := by
  intro l
  induction l with
  | nil => intro L _ _; exact Nat.zero_le _
  | cons a l ih =>
    intro L hn hs
    have ha : a ∈ L := hs a (List.mem_cons_self ..)
    have hn' := List.nodup_cons.mp hn
    have := ih (L := L.erase a) hn'.2 fun x hx => by
      have hxa : x ≠ a := fun e => hn'.1 (by rw [← e]; exact hx)
      exact (List.mem_erase_of_ne hxa).mpr (hs x (List.mem_cons_of_mem _ hx))
    rw [List.length_erase_of_mem ha] at this
    have := List.length_pos_of_mem ha
    simp only [List.length_cons]
    omega

def keys (l : List (Option (Nat × Nat))) : List Nat := l.filterMap fun e => e.map (·.1)

theorem keys_register (c st : Nat) : ∀ l, (∀ k ∈ keys (register l c st), k = c ∨ k ∈ keys l) := by
  intro l
  induction l with
  | nil => intro k h; cases h
  | cons e l ih =>
    intro k h
    cases e with
    | none =>
      rw [register] at h
      rcases List.mem_cons.mp (show k ∈ c :: keys l from h) with e | e
      · exact Or.inl e
      · exact Or.inr e
    | some e =>
      obtain ⟨d, u⟩ := e
      rw [register] at h
      split at h
      · rename_i hd
        rcases List.mem_cons.mp (show k ∈ c :: keys l from h) with e | e
        · exact Or.inl e
        · exact Or.inr (List.mem_cons_of_mem _ e)
      · rcases List.mem_cons.mp (show k ∈ d :: keys (register l c st) from h) with e | e
        · rw [e]; exact Or.inr (List.mem_cons_self ..)
        · exact (ih k e).imp id (List.mem_cons_of_mem _)

/-- Entries are filled from the front, with distinct contexts. -/
def Packed : List (Option (Nat × Nat)) → Prop
  | [] => True
  | none :: l => ∀ e ∈ l, e = none
  | some (c, _) :: l => c ∉ keys l ∧ Packed l

theorem keys_none : ∀ {l : List (Option (Nat × Nat))}, (∀ e ∈ l, e = none) → keys l = [] := by
  intro l
  induction l with
  | nil => intro _; rfl
  | cons e l ih =>
    intro h
    rw [h e (List.mem_cons_self ..)]
    exact ih fun e he => h e (List.mem_cons_of_mem _ he)

theorem packed_none : ∀ {l : List (Option (Nat × Nat))}, (∀ e ∈ l, e = none) → Packed l := by
  intro l h
  cases l with
  | nil => trivial
  | cons e l =>
    have := h e (List.mem_cons_self ..)
    subst this
    exact fun e he => h e (List.mem_cons_of_mem _ he)

theorem packed_register (c st : Nat) : ∀ {l}, Packed l → Packed (register l c st) := by
  intro l
  induction l with
  | nil => intro _; trivial
  | cons e l ih =>
    intro h
    cases e with
    | none =>
      rw [register]
      exact ⟨by rw [keys_none h]; exact nofun, packed_none h⟩
    | some e =>
      obtain ⟨d, u⟩ := e
      rw [register]
      split
      · rename_i hd
        exact ⟨by rw [← hd]; exact h.1, h.2⟩
      · rename_i hd
        refine ⟨fun hm => ?_, ih h.2⟩
        rcases keys_register c st l d hm with e | e
        · exact hd e
        · exact h.1 e

theorem length_register (c st : Nat) : ∀ l, (register l c st).length = l.length := by
  intro l
  induction l with
  | nil => rfl
  | cons e l ih =>
    cases e with
    | none => rfl
    | some e =>
      obtain ⟨d, u⟩ := e
      rw [register]
      split
      · rfl
      · simp only [List.length_cons, ih]

theorem packed_nodup : ∀ {l}, Packed l → (keys l).Nodup := by
  intro l
  induction l with
  | nil => intro _; exact List.nodup_nil
  | cons e l ih =>
    intro h
    cases e with
    | none => rw [show keys (none :: l) = keys l from rfl, keys_none h]; exact List.nodup_nil
    | some e => exact List.nodup_cons.mpr ⟨h.1, ih h.2⟩

/-- Registration fails only if the table is full of other contexts. -/
theorem register_full (c st : Nat) : ∀ {l}, lookup (register l c st) c = none → (keys l).length = l.length ∧ c ∉ keys l := by
  intro l
  induction l with
  | nil => intro _; exact ⟨rfl, nofun⟩
  | cons e l ih =>
    intro h
    cases e with
    | none => rw [register, lookup, if_pos rfl] at h; cases h
    | some e =>
      obtain ⟨d, u⟩ := e
      rw [register] at h
      split at h
      · rw [lookup, if_pos rfl] at h; cases h
      · rename_i hd
        rw [lookup, if_neg hd] at h
        obtain ⟨h1, h2⟩ := ih h
        refine ⟨?_, fun hm => ?_⟩
        · show (d :: keys l).length = _
          simp only [List.length_cons, h1]
        · rcases List.mem_cons.mp (show c ∈ d :: keys l from hm) with e | e
          · exact hd e.symm
          · exact h2 e

theorem step_ctxs (lib : Lib) (s : St) (o : Op) : (∀ c st, o ≠ .regCtx c st) → (step lib s o).1.ctxs = s.ctxs := by
  intro h
  cases o with
  | regCtx c st => exact absurd rfl (h c st)
  | sslIO x c fd =>
    unfold step sslSetIO
    cases c <;> dsimp only <;> (repeat' split) <;> rfl
  | sshIO x st fd =>
    unfold step sshSetIO
    cases st <;> dsimp only <;> (repeat' split) <;> rfl
  | clean x =>
    unfold step cleanup
    dsimp only
    (repeat' split) <;> rfl
  | free x => rfl

/-- **C108, contexts**: as long as no more than eight contexts are ever given to `wolfSSL_SetIO_wolfIP_CTX`, each of
them is found with the stack it was last given. -/
theorem context_registered (L : List Nat) (hL : L.length ≤ 8) : ∀ (l : List Op), (∀ c st, .regCtx c st ∈ l → c ∈ L) →
    (∀ c, lookup (exec .ssl l).1.ctxs c = stackOf (exec .ssl l).2 c) ∧ Packed (exec .ssl l).1.ctxs ∧
    (exec .ssl l).1.ctxs.length = 8 ∧ ∀ k ∈ keys (exec .ssl l).1.ctxs, k ∈ L := by
  intro l
  induction l with
  | nil =>
    intro _
    exact ⟨fun c => rfl, by exact packed_none (fun e h => List.eq_of_mem_replicate h), rfl, fun k h => by cases h⟩
  | cons o l ih =>
    intro hl
    obtain ⟨h1, h2, h3, h4⟩ := ih fun c st h => hl c st (List.mem_cons_of_mem _ h)
    show (∀ c, lookup (step .ssl (exec .ssl l).1 o).1.ctxs c =
        stackOf ((o, (step .ssl (exec .ssl l).1 o).2) :: (exec .ssl l).2) c) ∧
      Packed (step .ssl (exec .ssl l).1 o).1.ctxs ∧ (step .ssl (exec .ssl l).1 o).1.ctxs.length = 8 ∧
      ∀ k ∈ keys (step .ssl (exec .ssl l).1 o).1.ctxs, k ∈ L
    by_cases hr : ∃ c st, o = .regCtx c st
    · obtain ⟨c, st, rfl⟩ := hr
      have hc : c ∈ L := hl c st (List.mem_cons_self ..)
      generalize exec .ssl l = p at h1 h2 h3 h4 ⊢
      refine ⟨fun c' => ?_, packed_register c st h2, (length_register c st _).trans h3, fun k hk => ?_⟩
      · show lookup (register p.1.ctxs c st) c' = stackOf ((Op.regCtx c st, _) :: p.2) c'
        rw [stackOf]
        split
        · rename_i e
          subst e
          rcases lookup_register_eq c st p.1.ctxs with e | e
          · exact e
          · obtain ⟨g1, g2⟩ := register_full c st e
            have := nodup_subset_length (l := c :: keys p.1.ctxs) (L := L)
              (List.nodup_cons.mpr ⟨g2, packed_nodup h2⟩) (fun x hx => by
                rcases List.mem_cons.mp hx with e | e
                · rw [e]; exact hc
                · exact h4 x e)
            rw [List.length_cons, g1, h3] at this
            omega
        · rename_i e
          rw [lookup_register_ne c st c' (fun h => e h.symm)]
          exact h1 c'
      · rcases keys_register c st _ k hk with e | e
        · rw [e]; exact hc
        · exact h4 k e
    · have hne : ∀ c st, o ≠ .regCtx c st := fun c st e => hr ⟨c, st, e⟩
      rw [step_ctxs _ _ _ hne]
      refine ⟨fun c => ?_, h2, h3, h4⟩
      rw [h1 c]
      cases o with
      | regCtx c st => exact absurd rfl (hne c st)
      | _ => rfl

/-- **C108 for wolfSSL**: the pool never runs dry by use. After any history in which sessions are cleaned up before
they are freed or set up again, and with at most eight contexts, a session of a registered context can be set up on any socket, unless eight other
sessions are set up at that moment. -/
theorem ssl_setup_succeeds (l : List Op) (ht : Tidy .ssl l) (x c : Nat) (fd : Int) (hfd : 0 ≤ fd)
    (L : List Nat) (hL : L.length ≤ 8) (hctx : ∀ c st, .regCtx c st ∈ l → c ∈ L)
    (hreg : stackOf (exec .ssl l).2 c ≠ none)
    (hroom : ¬ ∃ L : List Nat, L.Nodup ∧ L.length = 8 ∧ ∀ y ∈ L, bound y (exec .ssl l).2 ≠ none) :
    (sslSetIO (exec .ssl l).1 x (some c) fd).2 = .ok := by
  rw [← (context_registered L hL l hctx).1 c] at hreg
  obtain ⟨st, hst⟩ := Option.ne_none_iff_exists'.mp hreg
  have hinv := exec_inv .ssl l fun e => by cases e
  unfold sslSetIO
  dsimp only
  rw [if_neg (by omega), hst]
  dsimp only
  cases hi : firstFree .ssl (exec .ssl l).1.slots with
  | some i => rfl
  | none => exact absurd (all_busy hinv.len (exec_owned .ssl l ht) hi) hroom

/-- **C108 for wolfSSH**: likewise with its four descriptors. -/
theorem ssh_setup_succeeds (l : List Op) (ht : Tidy .ssh l) (x st : Nat) (fd : Int) (hfd : 0 ≤ fd)
    (hroom : ¬ ∃ L : List Nat, L.Nodup ∧ L.length = 4 ∧ ∀ y ∈ L, bound y (exec .ssh l).2 ≠ none) :
    (sshSetIO (exec .ssh l).1 x (some st) fd).2 = .ok := by
  have hinv := exec_inv .ssh l fun e => tidy_once e ht
  unfold sshSetIO
  dsimp only
  rw [if_neg (by omega)]
  cases hi : firstFree .ssh (exec .ssh l).1.slots with
  | some i => rfl
  | none => exact absurd (all_busy hinv.len (exec_owned .ssh l ht) hi) hroom

/-- A session set up again without a clean-up loses a descriptor for good: eight times over, and no session can be
set up any more although only one is. -/
theorem ssl_leak : (exec .ssl (.sslIO 2 (some 7) 20 :: (List.replicate 8 (.sslIO 1 (some 7) 11) ++ [.regCtx 7 0]))).2.head? =
    some (.sslIO 2 (some 7) 20, .noSlot) := by
  decide

/-- **Finding** (`ninth_context`): the ninth context is not registered, yet `wolfSSL_SetIO_wolfIP_CTX` reports success. -/
theorem ninth_context :
    (exec .ssl (.sslIO 1 (some 9) 11 :: .regCtx 9 0 :: (List.range 8).map fun c => .regCtx c 0)).2.take 2 =
      [(.sslIO 1 (some 9) 11, .general), (.regCtx 9 0, .ok)] := by
  decide

/-- The hypotheses of `ssl_setup_succeeds` in a history with a hundred sessions one after the other. -/
example : (exec .ssl ((List.range 100).flatMap (fun i => [.free i, .clean i, .sslIO i (some 7) 11]) ++ [.regCtx 7 0])).2.all
    (fun e => decide (e.2 = .ok)) = true := by
  decide +kernel

example : Tidy .ssl [.sslIO 1 (some 7) 12, .free 1, .clean 1, .sslIO 2 (some 7) 13, .sslIO 1 (some 7) 11, .regCtx 7 0] := by
  refine ⟨?_, ?_, ?_, ?_, ?_, trivial⟩ <;> decide

end Wolf.Glue
