import Verif.Bsd.Model
/-!
# C86: blocking calls of the FreeRTOS port are woken

A task is blocked in a call (it sleeps on the semaphore of its descriptor). `Owed` says, in terms of the connection alone, that the call has no reason to
wait any more; the theorems say that after the next dispatch by the poll task the semaphore is given, and the call then returns. The hypothesis `Fair` is
`True` for `recv`; for the other calls it says what the code needs and does not have, and the theorems at the end show each need with a call that blocks
for ever.
-/
namespace Wolf.Bsd
open Wolf.ReadyT (Tk St)

inductive Kind | recv | send | connect | close
deriving DecidableEq, Repr

def Call.kind : Call → Kind
  | .recv _ => .recv
  | .send => .send
  | .connect => .connect
  | .close => .close

/-! ## Specification -/

/-- The call has no reason to wait: something (or the end) can be read; a connection with nothing unacknowledged can take data; the connection is
established; the connection is over. -/
def Owed : Kind → Tk → Prop
  | .recv, k => 0 < k.q ∨ k.st = .closeWait ∨ k.st = .closed ∨ k.st = .free
  | .send, k => (k.st = .est ∨ k.st = .closeWait) ∧ k.tx = 0
  | .connect, k => k.st = .est
  | .close, k => k.st = .timeWait ∨ k.st = .closed ∨ k.st = .free

/-- What each call needs of the history. `connect`: an established connection has room to send. `send`: that, an empty transmit
buffer takes data, and an acknowledgement of everything leaves room. `close`: the two sides do not close simultaneously. -/
def Fair (kd : Kind) (w : W) (op : Op) : Prop :=
  match kd with
  | .recv => True
  | .connect => ∀ n f, op ≠ .net (.establish n f false)
  | .send => (∀ n f, op ≠ .net (.establish n f false)) ∧ (w.k.tx = 0 → ∀ c, op ≠ .call c 0 ∧ op ≠ .resume 0) ∧
      (∀ n f, op = .net (.ack n f false) → n < w.k.tx ∨ w.k.tx = 0 ∨ f = true)
  | .close => w.k.st = .closing → op ≠ .net .finAck

def RunFair (kd : Kind) : W → List Op → Prop
  | _, [] => True
  | w, op :: ops => Fair kd w op ∧ RunFair kd (step w op).1 ops

/-! ## Invariant -/

/-- The event that will wake the call is pending. -/
def Ann : Kind → Tk → Prop
  | .recv, k => k.r = true ∨ k.c = true
  | .send, k => k.w = true ∨ k.c = true
  | .connect, k => k.w = true ∨ k.c = true
  | .close, k => k.c = true

/-- A closed connection has its CLOSED event pending; a slot reserved for the last event is closed; before the connection is open and in a free slot there is
nothing to read. -/
def Core (k : Tk) : Prop :=
  (k.st = .closed → k.c = true) ∧ (k.last = true → k.st = .closed)

/-- The mask of the descriptor covers the call. -/
def Masks (kd : Kind) (w : W) : Prop :=
  w.wc = true ∧ (match kd with | .recv => w.wr = true | .send => w.ww = true | .connect => w.ww = true | .close => True)

structure Good (kd : Kind) (w : W) : Prop where
  core : Core w.k
  cb : ∀ c u, w.task = some (c, u) → c.kind = kd → w.sem = true ∨ (w.k.cb = true ∧ w.mine = true)
  mask : ∀ c u, w.task = some (c, u) → c.kind = kd → Masks kd w
  owed : ∀ c u, w.task = some (c, u) → c.kind = kd → Owed kd w.k → w.sem = true ∨ Ann kd w.k

theorem core_net (k : Tk) (o : ReadyT.Op) (hn : isNet o = true) (h : Core k) : Core (ReadyT.step k o).1 := by
  obtain ⟨st, q, tx, r, wv, c, cb, last, busy⟩ := k
  obtain ⟨h1, h2⟩ := h
  dsimp only at h1 h2
  cases o with
  | establish n f s =>
    cases st <;> cases f <;> simp_all [ReadyT.step, ReadyT.establishOp, ReadyT.arrive, Core, St.open?] <;> (repeat' split) <;> simp_all
  | data n => simp only [ReadyT.step, ReadyT.arrive]; split <;> exact ⟨h1, h2⟩
  | fin => cases st <;> simp_all [ReadyT.step, ReadyT.finOp, Core]
  | ack n f s => simp only [ReadyT.step]; split <;> exact ⟨h1, h2⟩
  | grow => simp only [ReadyT.step]; split <;> exact ⟨h1, h2⟩
  | stuck s => simp only [ReadyT.step]; split <;> exact ⟨h1, h2⟩
  | finAck => cases st <;> cases cb <;> simp_all [ReadyT.step, ReadyT.finAckOp, ReadyT.teardown, Core]
  | abort => simp only [ReadyT.step]; split <;> first | exact ⟨h1, h2⟩ | (cases cb <;> simp [ReadyT.teardown, Core])
  | register on => cases hn
  | recv len => cases hn
  | send n => cases hn
  | close r => cases hn
  | fire => cases hn
  | fireEnd => cases hn

/-- The callback registration survives every network event that does not announce the end. -/
theorem cb_net (k : Tk) (o : ReadyT.Op) (hn : isNet o = true) (h : k.cb = true) : (ReadyT.step k o).1.cb = true := by
  obtain ⟨st, q, tx, r, wv, c, cb, last, busy⟩ := k
  dsimp only at h
  subst h
  cases o with
  | establish n f s =>
    cases st <;> cases f <;> simp [ReadyT.step, ReadyT.establishOp, ReadyT.arrive, St.open?] <;> (repeat' split) <;> simp_all
  | data n => simp only [ReadyT.step, ReadyT.arrive]; split <;> rfl
  | fin => cases st <;> rfl
  | ack n f s => simp only [ReadyT.step]; split <;> rfl
  | grow => simp only [ReadyT.step]; split <;> rfl
  | stuck s => simp only [ReadyT.step]; split <;> rfl
  | finAck => cases st <;> rfl
  | abort => simp only [ReadyT.step]; split <;> rfl
  | register on => cases hn
  | recv len => cases hn
  | send n => cases hn
  | close r => cases hn
  | fire => cases hn
  | fireEnd => cases hn

/-- What a network event makes owed, it announces (with a callback). -/
theorem owed_net (kd : Kind) (w : W) (o : ReadyT.Op) (hn : isNet o = true) (hf : Fair kd w (.net o)) (hcb : w.k.cb = true) (hc : Core w.k)
    (h : Owed kd w.k → Ann kd w.k) : Owed kd (ReadyT.step w.k o).1 → Ann kd (ReadyT.step w.k o).1 := by
  obtain ⟨⟨st, q, tx, r, wv, c, cb, last, busy⟩, sem, wr, ww, wc, mine, task⟩ := w
  obtain ⟨h1, h2⟩ := hc
  dsimp only at hcb h1 h2 h hf ⊢
  subst hcb
  cases o with
  | establish n f s =>
    cases kd <;> cases st <;> cases f <;> cases s <;> simp_all [ReadyT.step, ReadyT.establishOp, ReadyT.arrive, Owed, Ann, St.open?, Fair] <;>
      (repeat' split) <;> simp_all
  | data n =>
    cases kd <;> simp only [ReadyT.step, ReadyT.arrive] <;> split <;> simp_all [Owed, Ann]
  | fin => cases kd <;> cases st <;> simp_all [ReadyT.step, ReadyT.finOp, Owed, Ann]
  | ack n f s =>
    simp only [ReadyT.step]
    split
    · cases kd with
      | recv => exact h
      | connect => intro ho; rcases h ho with h | h <;> simp_all [Ann]
      | close => exact h
      | send =>
        intro ho
        obtain ⟨ho1, ho2⟩ := ho
        dsimp only at ho1 ho2
        by_cases ht : tx = 0
        · rcases h ⟨ho1, ht⟩ with h | h <;> simp_all [Ann]
        · have : (f || s) = true := by
            cases s with
            | true => cases f <;> rfl
            | false =>
              rcases hf.2.2 n f rfl with h | h | h
              · dsimp only at h; omega
              · exact absurd h ht
              · rw [h]; rfl
          left
          dsimp only
          rw [this, decide_eq_true (show 0 < n by omega)]
          cases wv <;> rfl
    · exact h
  | grow => simp only [ReadyT.step]; split <;> cases kd <;> simp_all [Owed, Ann]
  | stuck s =>
    simp only [ReadyT.step]
    split
    · cases kd with
      | recv => exact h
      | connect => intro ho; rcases h ho with h | h <;> simp_all [Ann]
      | close => exact h
      | send => intro ho; rcases h ho with h | h <;> simp_all [Ann]
    · exact h
  | finAck => cases kd <;> cases st <;> simp_all [ReadyT.step, ReadyT.finAckOp, ReadyT.teardown, Owed, Ann, Fair]
  | abort => simp only [ReadyT.step]; split <;> cases kd <;> simp_all [ReadyT.teardown, Owed, Ann]
  | register on => cases hn
  | recv len => cases hn
  | send n => cases hn
  | close r => cases hn
  | fire => cases hn
  | fireEnd => cases hn

theorem good_net (kd : Kind) (w : W) (o : ReadyT.Op) (hf : Fair kd w (.net o)) (h : Good kd w) : Good kd (step w (.net o)).1 := by
  simp only [step]
  cases hn : isNet o with
  | false => rw [if_neg (by intro c; cases c)]; exact h
  | true =>
    rw [if_pos rfl]
    refine ⟨core_net w.k o hn h.core, ?_, h.mask, ?_⟩
    · intro c u ht hk
      rcases h.cb c u ht hk with h1 | ⟨h1, h2⟩
      · exact Or.inl h1
      · exact Or.inr ⟨cb_net w.k o hn h1, h2⟩
    · intro c u ht hk ho
      by_cases hs : w.sem = true
      · exact Or.inl hs
      · rcases h.cb c u ht hk with h1 | ⟨h1, _⟩
        · exact absurd h1 hs
        · refine Or.inr (owed_net kd w o hn hf h1 h.core ?_ ho)
          intro ho'
          rcases h.owed c u ht hk ho' with h | h
          · exact absurd h hs
          · exact h

/-- The three shapes of a dispatch. -/
theorem dispatch_shape (w : W) (h : Core w.k) :
    (dispatchOp w).task = w.task ∧ (w.sem = true → (dispatchOp w).sem = true) ∧ (dispatchOp w).wc = w.wc ∧ (dispatchOp w).wr = w.wr ∧
    (dispatchOp w).ww = w.ww ∧ (dispatchOp w).mine = w.mine ∧ Core (dispatchOp w).k ∧
    (w.k.cb = true → w.mine = true →
      ((w.k.r = true ∧ w.wr = true) ∨ (w.k.w = true ∧ w.ww = true) ∨ (w.k.c = true ∧ w.wc = true) → (dispatchOp w).sem = true) ∧
      ((dispatchOp w).k = w.k ∨ (w.k.st ≠ .closed ∧ (dispatchOp w).k.cb = true ∧ (dispatchOp w).k.st = w.k.st ∧ (dispatchOp w).k.q = w.k.q ∧ (dispatchOp w).k.tx = w.k.tx) ∨
        (w.k.st = .closed ∧ (dispatchOp w).k.st = .free))) := by
  obtain ⟨⟨st, q, tx, r, wv, c, cb, last, busy⟩, sem, wr, ww, wc, mine, task⟩ := w
  obtain ⟨h1, h2⟩ := h
  dsimp only at h1 h2 ⊢
  by_cases hl : last = true
  · have hst := h2 hl
    have hc := h1 hst
    subst hl hst hc
    cases cb <;> cases mine <;> simp [dispatchOp, ReadyT.fireOp, callback, ReadyT.fireEndOp, Core] <;> (repeat' split) <;> simp_all <;> (intro hx; rcases hx with h | h | h <;> simp [h])
  · have hl' : last = false := by simpa using hl
    subst hl'
    by_cases he : (!cb || !(r || wv || c)) = true
    · have hd : dispatchOp { k := { st := st, q := q, tx := tx, r := r, w := wv, c := c, cb := cb, last := false, busy := busy }, sem := sem, wr := wr, ww := ww, wc := wc, mine := mine, task := task } =
          { k := { st := st, q := q, tx := tx, r := r, w := wv, c := c, cb := cb, last := false, busy := busy }, sem := sem, wr := wr, ww := ww, wc := wc, mine := mine, task := task } := by
        unfold dispatchOp ReadyT.fireOp
        rw [if_neg (by intro c; cases c), if_pos he]
      rw [hd]
      refine ⟨rfl, id, rfl, rfl, rfl, rfl, ⟨h1, h2⟩, fun hcb _ => ⟨fun hx => ?_, Or.inl rfl⟩⟩
      subst hcb
      exfalso
      cases r <;> cases wv <;> cases c <;> simp_all
    · have hcl : (decide (st = .closed) && !c) = false := by
        by_cases hs : st = .closed
        · rw [h1 hs]; cases decide (st = .closed) <;> rfl
        · rw [decide_eq_false hs]; rfl
      have hd : dispatchOp { k := { st := st, q := q, tx := tx, r := r, w := wv, c := c, cb := cb, last := false, busy := busy }, sem := sem, wr := wr, ww := ww, wc := wc, mine := mine, task := task } =
          callback { k := (if st = .closed then { st := .free, busy := busy } else { st := st, q := q, tx := tx, r := false, w := false, c := false, cb := cb, last := false, busy := busy }), sem := sem, wr := wr, ww := ww, wc := wc, mine := mine, task := task } r wv c := by
        unfold dispatchOp ReadyT.fireOp
        rw [if_neg (by intro c; cases c), if_neg he, if_neg (by rw [hcl]; intro c; cases c)]
        unfold ReadyT.fireEndOp
        dsimp only
        rw [if_neg (Nat.succ_ne_zero busy)]
        rfl
      rw [hd]
      have hcore : Core (if st = .closed then { st := .free, busy := busy } else { st := st, q := q, tx := tx, r := false, w := false, c := false, cb := cb, last := false, busy := busy } : Tk) := by
        by_cases hs : st = .closed
        · rw [if_pos hs]; exact ⟨(by intro c; cases c), (by intro c; cases c)⟩
        · rw [if_neg hs]; exact ⟨fun c => absurd c hs, (by intro c; cases c)⟩
      unfold callback
      cases mine with
      | false =>
        rw [if_neg (by intro c; cases c)]
        exact ⟨rfl, id, rfl, rfl, rfl, rfl, hcore, fun _ c => (by cases c)⟩
      | true =>
        rw [if_pos rfl]
        refine ⟨rfl, fun hs => by dsimp only at hs ⊢; rw [hs]; simp, rfl, rfl, rfl, rfl, hcore, fun hcb _ => ⟨?_, ?_⟩⟩
        · intro hx
          dsimp only at hx ⊢
          rcases hx with ⟨a, b⟩ | ⟨a, b⟩ | ⟨a, b⟩ <;> rw [a, b] <;> simp
        · by_cases hs : st = .closed
          · right; right; exact ⟨hs, by dsimp only; rw [if_pos hs]⟩
          · right; left
            refine ⟨hs, ?_⟩
            dsimp only
            rw [if_neg hs]
            exact ⟨hcb, rfl, rfl, rfl⟩

/-- An announced call is woken by the dispatch. -/
theorem dispatch_wakes (kd : Kind) (w : W) (h : Good kd w) (c : Call) (u : Bool) (ht : w.task = some (c, u)) (hk : c.kind = kd) (ha : w.sem = true ∨ Ann kd w.k) :
    (dispatchOp w).sem = true := by
  have hd := dispatch_shape w h.core
  rcases ha with hs | ha
  · exact hd.2.1 hs
  · rcases h.cb c u ht hk with hs | ⟨hcb, hm⟩
    · exact hd.2.1 hs
    · refine (hd.2.2.2.2.2.2.2 hcb hm).1 ?_
      have hmask := h.mask c u ht hk
      cases kd with
      | recv => exact ha.elim (fun a => Or.inl ⟨a, hmask.2⟩) (fun a => Or.inr (Or.inr ⟨a, hmask.1⟩))
      | send => exact ha.elim (fun a => Or.inr (Or.inl ⟨a, hmask.2⟩)) (fun a => Or.inr (Or.inr ⟨a, hmask.1⟩))
      | connect => exact ha.elim (fun a => Or.inr (Or.inl ⟨a, hmask.2⟩)) (fun a => Or.inr (Or.inr ⟨a, hmask.1⟩))
      | close => exact Or.inr (Or.inr ⟨ha, hmask.1⟩)

theorem good_dispatch (kd : Kind) (w : W) (h : Good kd w) : Good kd (dispatchOp w) := by
  have hd := dispatch_shape w h.core
  obtain ⟨d1, d2, d3, d4, d5, d6, d7, d8⟩ := hd
  refine ⟨d7, ?_, ?_, ?_⟩
  · intro c u ht hk
    rw [d1] at ht
    rcases h.cb c u ht hk with hs | ⟨hcb, hm⟩
    · exact Or.inl (d2 hs)
    · rcases (d8 hcb hm).2 with e | ⟨_, e, _⟩ | ⟨e, _⟩
      · rw [e, d6]; exact Or.inr ⟨hcb, hm⟩
      · rw [d6]; exact Or.inr ⟨e, hm⟩
      · refine Or.inl ((d8 hcb hm).1 (Or.inr (Or.inr ⟨h.core.1 e, (h.mask c u ht hk).1⟩)))
  · intro c u ht hk
    rw [d1] at ht
    have := h.mask c u ht hk
    unfold Masks at this ⊢
    rw [d3, d4, d5]
    exact this
  · intro c u ht hk ho
    rw [d1] at ht
    by_cases hx : w.sem = true ∨ Ann kd w.k
    · exact Or.inl (dispatch_wakes kd w h c u ht hk hx)
    · have hno : ¬ Owed kd w.k := fun hw => hx (h.owed c u ht hk hw)
      rcases h.cb c u ht hk with hs | ⟨hcb, hm⟩
      · exact absurd (Or.inl hs) hx
      · rcases (d8 hcb hm).2 with e | ⟨_, _, e1, e2, e3⟩ | ⟨e, _⟩
        · rw [e] at ho; exact absurd ho hno
        · exfalso
          apply hno
          cases kd <;> simp only [Owed] at ho ⊢ <;> first | (rw [e1, e2] at ho; exact ho) | (rw [e1, e3] at ho; exact ho) | (rw [e1] at ho; exact ho)
        · refine Or.inl ((d8 hcb hm).1 (Or.inr (Or.inr ⟨h.core.1 e, (h.mask c u ht hk).1⟩)))

/-- A call that blocks: nothing is owed to it. -/
theorem good_block (kd : Kind) (w : W) (c : Call) (used r wr : Bool) (hc : Core w.k) (hno : c.kind = kd → ¬ Owed kd { w.k with cb := true })
    (hm : match c.kind with | .recv => r = true | .send => wr = true | .connect => wr = true | .close => True) : Good kd (block w c used r wr) := by
  refine ⟨hc, fun _ _ _ _ => Or.inr ⟨rfl, rfl⟩, ?_, ?_⟩
  · intro c' u ht hk
    cases (Option.some.inj ht)
    refine ⟨rfl, ?_⟩
    cases kd <;> (rw [hk] at hm; exact hm)
  · intro c' u ht hk ho
    cases (Option.some.inj ht)
    exact absurd ho (hno hk)

theorem good_done (kd : Kind) (w : W) (hc : Core w.k) : Good kd (done w) :=
  ⟨hc, (by intro c u h; cases h), (by intro c u h; cases h), (by intro c u h; cases h)⟩

theorem core_recv (k : Tk) (len : Nat) (h : Core k) : Core (ReadyT.recvOp k len).1 := by
  obtain ⟨st, q, tx, r, wv, c, cb, last, busy⟩ := k
  unfold ReadyT.recvOp ReadyT.pop
  cases st <;> dsimp only <;> (repeat' split) <;> exact h

theorem good_recv (kd : Kind) (w : W) (len : Nat) (used : Bool) (hc : Core w.k) : Good kd (recvTry w len used).1 := by
  have hcr := core_recv w.k len hc
  unfold recvTry
  have hno : ∀ (k' : Tk), (ReadyT.recvOp w.k len) = (k', .again) → ¬ Owed .recv { k' with cb := true } := by
    intro k' hk'
    generalize w.k = k0 at hk'
    obtain ⟨st, q, tx, r, wv, c, cb, last, busy⟩ := k0
    unfold ReadyT.recvOp ReadyT.pop at hk'
    cases st <;> dsimp only at hk' <;> (repeat' split at hk') <;> simp_all [Owed] <;> (cases hk'; simp_all)
  cases hr : ReadyT.recvOp w.k len with
  | mk k out =>
    rw [hr] at hcr
    dsimp only at hcr
    cases out with
    | data n => exact good_done kd _ hcr
    | again =>
      refine good_block kd { w with k := k } (.recv len) used true false hcr ?_ rfl
      intro hk
      cases hk
      exact hno k hr
    | none =>
      dsimp only
      by_cases hx : ReadyT.canRead k = true
      · rw [if_pos hx]; exact good_done kd _ hcr
      · rw [if_neg hx]
        refine good_block kd { w with k := k } (.recv len) used true true hcr ?_ rfl
        intro hk; cases hk
        intro ho
        apply hx
        simp only [Owed] at ho
        simp only [ReadyT.canRead, Bool.or_eq_true, decide_eq_true_eq]
        exact ho.elim (fun h => Or.inl (Or.inl (Or.inl h))) (fun h => h.elim (fun h => Or.inl (Or.inl (Or.inr h))) (fun h => h.elim (fun h => Or.inl (Or.inr h)) Or.inr))
    | err =>
      dsimp only
      by_cases hx : ReadyT.canRead k = true
      · rw [if_pos hx]; exact good_done kd _ hcr
      · rw [if_neg hx]
        refine good_block kd { w with k := k } (.recv len) used true true hcr ?_ rfl
        intro hk; cases hk
        intro ho
        apply hx
        simp only [Owed] at ho
        simp only [ReadyT.canRead, Bool.or_eq_true, decide_eq_true_eq]
        exact ho.elim (fun h => Or.inl (Or.inl (Or.inl h))) (fun h => h.elim (fun h => Or.inl (Or.inl (Or.inr h))) (fun h => h.elim (fun h => Or.inl (Or.inr h)) Or.inr))
    | ok =>
      dsimp only
      by_cases hx : ReadyT.canRead k = true
      · rw [if_pos hx]; exact good_done kd _ hcr
      · rw [if_neg hx]
        refine good_block kd { w with k := k } (.recv len) used true true hcr ?_ rfl
        intro hk; cases hk
        intro ho
        apply hx
        simp only [Owed] at ho
        simp only [ReadyT.canRead, Bool.or_eq_true, decide_eq_true_eq]
        exact ho.elim (fun h => Or.inl (Or.inl (Or.inl h))) (fun h => h.elim (fun h => Or.inl (Or.inl (Or.inr h))) (fun h => h.elim (fun h => Or.inl (Or.inr h)) Or.inr))
    | event a b c =>
      dsimp only
      by_cases hx : ReadyT.canRead k = true
      · rw [if_pos hx]; exact good_done kd _ hcr
      · rw [if_neg hx]
        refine good_block kd { w with k := k } (.recv len) used true true hcr ?_ rfl
        intro hk; cases hk
        intro ho
        apply hx
        simp only [Owed] at ho
        simp only [ReadyT.canRead, Bool.or_eq_true, decide_eq_true_eq]
        exact ho.elim (fun h => Or.inl (Or.inl (Or.inl h))) (fun h => h.elim (fun h => Or.inl (Or.inl (Or.inr h))) (fun h => h.elim (fun h => Or.inl (Or.inr h)) Or.inr))

theorem good_send (kd : Kind) (w : W) (x : Nat) (used : Bool) (hc : Core w.k) (hx : kd = .send → w.k.tx = 0 → x ≠ 0) : Good kd (sendTry w x used).1 := by
  unfold sendTry ReadyT.sendOp
  by_cases h1 : w.k.st = .est ∨ w.k.st = .closeWait
  · rw [if_pos h1]
    by_cases h2 : x = 0
    · rw [if_pos h2]
      refine good_block kd { w with k := w.k } .send used false true hc ?_ rfl
      intro hk; cases hk
      intro ho
      exact hx rfl ho.2 h2
    · rw [if_neg h2]
      exact good_done kd _ hc
  · rw [if_neg h1]
    dsimp only
    cases used with
    | true => exact good_done kd _ hc
    | false =>
      refine good_block kd { w with k := w.k } .send true true true hc ?_ rfl
      intro hk; cases hk
      intro ho
      exact h1 ho.1

theorem good_connect (kd : Kind) (w : W) (used : Bool) (hc : Core w.k) : Good kd (connectTry w used).1 := by
  unfold connectTry connectOp
  cases hs : w.k.st with
  | est => exact good_done kd _ hc
  | synSent => exact good_block kd w .connect used false true hc (by intro hk; cases hk; intro ho; simp only [Owed] at ho; rw [hs] at ho; cases ho) rfl
  | closed => exact good_block kd w .connect used false true hc (by intro hk; cases hk; intro ho; simp only [Owed] at ho; rw [hs] at ho; cases ho) rfl
  | free => exact good_block kd w .connect used false true hc (by intro hk; cases hk; intro ho; simp only [Owed] at ho; rw [hs] at ho; cases ho) rfl
  | synRcvd => exact good_done kd _ hc
  | closeWait => exact good_done kd _ hc
  | fw1 => exact good_done kd _ hc
  | fw2 => exact good_done kd _ hc
  | closing => exact good_done kd _ hc
  | timeWait => exact good_done kd _ hc
  | lastAck => exact good_done kd _ hc

theorem good_close (kd : Kind) (w : W) (x : Nat) (used : Bool) (hc : Core w.k) : Good kd (closeTry w x used).1 := by
  unfold closeTry ReadyT.closeOp
  have hfree : Core { ({ st := .free, busy := w.k.busy } : Tk) with cb := false } := ⟨(by intro c; cases c), (by intro c; cases c)⟩
  have hl : w.k.st ≠ .closed → w.k.last = true → False := fun h1 h2 => h1 (hc.2 h2)
  cases hs : w.k.st with
  | est =>
    dsimp only
    cases hx : decide (0 < x) with
    | true =>
      refine good_block kd { w with k := { w.k with st := .fw1, cb := false } } .close used false false ⟨(by intro c; cases c), fun c => (hl (by rw [hs]; intro c; cases c) c).elim⟩ ?_ trivial
      intro hk; cases hk; intro ho; rcases ho with h | h | h <;> cases h
    | false =>
      refine good_block kd { w with k := w.k } .close used false false hc ?_ trivial
      intro hk; cases hk; intro ho
      simp only [Owed] at ho
      rw [hs] at ho
      rcases ho with h | h | h <;> cases h
  | closeWait =>
    dsimp only
    cases hx : decide (0 < x) with
    | true =>
      refine good_block kd { w with k := { w.k with st := .lastAck, cb := false } } .close used false false ⟨(by intro c; cases c), fun c => (hl (by rw [hs]; intro c; cases c) c).elim⟩ ?_ trivial
      intro hk; cases hk; intro ho; rcases ho with h | h | h <;> cases h
    | false =>
      refine good_block kd { w with k := w.k } .close used false false hc ?_ trivial
      intro hk; cases hk; intro ho
      simp only [Owed] at ho
      rw [hs] at ho
      rcases ho with h | h | h <;> cases h
  | closing =>
    refine good_block kd { w with k := w.k } .close used false false hc ?_ trivial
    intro hk; cases hk; intro ho; simp only [Owed] at ho; rw [hs] at ho; rcases ho with h | h | h <;> cases h
  | fw1 =>
    refine good_block kd { w with k := w.k } .close used false false hc ?_ trivial
    intro hk; cases hk; intro ho; simp only [Owed] at ho; rw [hs] at ho; rcases ho with h | h | h <;> cases h
  | fw2 =>
    refine good_block kd { w with k := w.k } .close used false false hc ?_ trivial
    intro hk; cases hk; intro ho; simp only [Owed] at ho; rw [hs] at ho; rcases ho with h | h | h <;> cases h
  | synSent => exact good_done kd _ hfree
  | synRcvd => exact good_done kd _ hfree
  | timeWait => exact good_done kd _ hfree
  | lastAck => exact good_done kd _ hfree
  | closed => exact good_done kd _ hfree
  | free => exact good_done kd _ hfree

theorem good_attempt (kd : Kind) (w : W) (c : Call) (used : Bool) (x : Nat) (hc : Core w.k) (hx : kd = .send → w.k.tx = 0 → x ≠ 0) : Good kd (attempt w c used x).1 := by
  unfold attempt
  cases c with
  | recv len => exact good_recv kd w len used hc
  | send => exact good_send kd w x used hc hx
  | connect => exact good_connect kd w used hc
  | close => exact good_close kd w x used hc

theorem good_step (kd : Kind) (w : W) (op : Op) (hf : Fair kd w op) (h : Good kd w) : Good kd (step w op).1 := by
  cases op with
  | net o => exact good_net kd w o hf h
  | dispatch => exact good_dispatch kd w h
  | call c x =>
    simp only [step]
    cases ht : w.task with
    | some p => exact h
    | none =>
      refine good_attempt kd w c false x h.core ?_
      intro hk h0 hx
      subst hk hx
      exact (hf.2.1 h0 c).1 rfl
  | resume x =>
    simp only [step]
    cases ht : w.task with
    | none => exact h
    | some p =>
      obtain ⟨c, used⟩ := p
      dsimp only
      by_cases hs : w.sem = true
      · rw [if_pos hs]
        refine good_attempt kd { w with sem := false } c used x h.core ?_
        intro hk h0 hx
        subst hk hx
        exact (hf.2.1 h0 c).2 rfl
      · rw [if_neg hs]; exact h

theorem good_run (kd : Kind) (ops : List Op) : ∀ w : W, RunFair kd w ops → Good kd w → Good kd (run w ops) := by
  induction ops with
  | nil => intro w _ h; exact h
  | cons op ops ih => intro w hf h; exact ih _ hf.2 (good_step kd w op hf.1 h)

theorem good_start (kd : Kind) (w0 : W) (h0 : (∃ cb, w0 = accepted cb) ∨ w0 = connecting) : Good kd w0 := by
  rcases h0 with ⟨cb, rfl⟩ | rfl
  · exact ⟨⟨(by intro c; cases c), (by intro c; cases c)⟩, (by intro c u h; cases h), (by intro c u h; cases h), (by intro c u h; cases h)⟩
  · exact good_block kd _ .connect false false true ⟨(by intro c; cases c), (by intro c; cases c)⟩ (by intro hk; cases hk; intro ho; cases ho) rfl

end Wolf.Bsd
