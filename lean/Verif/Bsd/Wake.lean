import Verif.Bsd.Props
/-!
# C86: the theorems, and the calls that block for ever

`recv` is woken without any condition on the history. `connect`, `send` and `close` are woken under `Fair`; and each of them has histories in which it
blocks for ever although the connection is over.
-/
namespace Wolf.Bsd
open Wolf.ReadyT (Tk St)

/-- The start of a connection's life. -/
def Start (w0 : W) : Prop := (∃ cb, w0 = accepted cb) ∨ w0 = connecting

/-- The task is blocked in a call of kind `kd`. -/
def Blocked (kd : Kind) (w : W) : Prop := ∃ c u, w.task = some (c, u) ∧ c.kind = kd

theorem runFair_recv (ops : List Op) : ∀ w, RunFair .recv w ops := by
  induction ops with
  | nil => intro _; trivial
  | cons op ops ih => intro w; exact ⟨trivial, ih _⟩

theorem run_append (w : W) (a b : List Op) : run w (a ++ b) = run (run w a) b := by
  induction a generalizing w with
  | nil => rfl
  | cons x xs ih => exact ih _

/-- C86. In every history that is fair to it, a blocked call that has no reason to wait finds its semaphore given after the next dispatch. -/
theorem blocked_call_woken_partial (kd : Kind) (w0 : W) (h0 : Start w0) (ops : List Op) (hf : RunFair kd w0 ops)
    (hb : Blocked kd (run w0 ops)) (ho : Owed kd (run w0 ops).k) : (step (run w0 ops) .dispatch).1.sem = true := by
  have hg := good_run kd ops w0 hf (good_start kd w0 h0)
  obtain ⟨c, u, ht, hk⟩ := hb
  exact dispatch_wakes kd _ hg c u ht hk (hg.owed c u ht hk ho)

/-! ## `recv` -/

/-- Network events and dispatches only: what happens while the task sleeps. -/
def Asleep : Op → Prop
  | .net _ => True
  | .dispatch => True
  | .call _ _ => False
  | .resume _ => False

theorem recv_owed_stable (w : W) (op : Op) (ha : Asleep op) (hc : Core w.k) (ho : Owed .recv w.k) : Owed .recv (step w op).1.k := by
  cases op with
  | call c x => cases ha
  | resume x => cases ha
  | dispatch =>
    simp only [step]
    obtain ⟨⟨st, q, tx, r, wv, c, cb, last, busy⟩, sem, wr, ww, wc, mine, task⟩ := w
    unfold dispatchOp ReadyT.fireOp
    dsimp only
    by_cases hl : last = true
    · rw [if_pos hl]
      cases cb <;> cases mine <;> simp [callback, ReadyT.fireEndOp] <;> (repeat' split) <;> simp_all [Owed]
    · rw [if_neg hl]
      by_cases he : (!cb || !(r || wv || c)) = true
      · rw [if_pos he]; exact ho
      · rw [if_neg he]
        by_cases hs : (decide (st = .closed) && !c) = true
        · rw [if_pos hs]; exact ho
        · rw [if_neg hs]
          by_cases hst : st = .closed
          · subst hst
            cases mine <;> simp [callback, ReadyT.fireEndOp, Owed]
          · cases mine <;> simp [callback, ReadyT.fireEndOp, Owed, hst] <;> simp_all [Owed]
  | net o =>
    simp only [step]
    cases hn : isNet o with
    | false => exact ho
    | true =>
      rw [if_pos rfl]
      dsimp only
      obtain ⟨⟨st, q, tx, r, wv, c, cb, last, busy⟩, sem, wr, ww, wc, mine, task⟩ := w
      dsimp only at ho ⊢
      cases o with
      | establish n f s =>
        cases st <;> cases f <;> simp_all [ReadyT.step, ReadyT.establishOp, ReadyT.arrive, Owed, St.open?] <;> (repeat' split) <;> simp_all <;> omega
      | data n => simp only [ReadyT.step, ReadyT.arrive]; split <;> simp_all [Owed] <;> omega
      | fin => cases st <;> simp_all [ReadyT.step, ReadyT.finOp, Owed]
      | ack n f s => simp only [ReadyT.step]; split <;> exact ho
      | grow => simp only [ReadyT.step]; split <;> exact ho
      | stuck s => simp only [ReadyT.step]; split <;> exact ho
      | finAck => cases st <;> cases cb <;> simp_all [ReadyT.step, ReadyT.finAckOp, ReadyT.teardown, Owed]
      | abort => simp only [ReadyT.step]; split <;> first | exact ho | (cases cb <;> simp [ReadyT.teardown, Owed])
      | register on => cases hn
      | recv len => cases hn
      | send n => cases hn
      | close r => cases hn
      | fire => cases hn
      | fireEnd => cases hn

theorem asleep_task (w : W) (op : Op) (ha : Asleep op) (hc : Core w.k) : (step w op).1.task = w.task ∧ (w.sem = true → (step w op).1.sem = true) := by
  cases op with
  | call c x => cases ha
  | resume x => cases ha
  | dispatch => exact ⟨(dispatch_shape w hc).1, (dispatch_shape w hc).2.1⟩
  | net o => simp only [step]; split <;> exact ⟨rfl, id⟩

/-- While the task sleeps its call and its given semaphore stay. -/
theorem asleep_run (c : Call) (u : Bool) (mid : List Op) : ∀ (w : W), (∀ op ∈ mid, Asleep op) → Good .recv w → w.task = some (c, u) → w.sem = true →
    (run w mid).task = some (c, u) ∧ (run w mid).sem = true := by
  induction mid with
  | nil => intro w _ _ a b; exact ⟨a, b⟩
  | cons op mid ih =>
    intro w hm hg a b
    have h1 := asleep_task w op (hm op (List.mem_cons_self ..)) hg.core
    exact ih _ (fun o ho => hm o (List.mem_cons_of_mem _ ho)) (good_step .recv w op trivial hg) (h1.1.trans a) (h1.2 b)

/-- A `recv` with something to report returns: data, the end of the stream, or an error. -/
theorem recv_pass (w : W) (len : Nat) (u : Bool) (ho : Owed .recv w.k) : (recvTry w len u).2 ≠ none := by
  obtain ⟨⟨st, q, tx, r, wv, c, cb, last, busy⟩, sem, wr, ww, wc, mine, task⟩ := w
  simp only [Owed] at ho
  unfold recvTry ReadyT.recvOp ReadyT.pop
  by_cases h0 : q = 0
  · subst h0
    rcases ho with h | h | h | h
    · exact absurd h (Nat.lt_irrefl 0)
    · subst h; simp
    · subst h; simp
    · subst h; simp
  · have hq : 0 < q := Nat.pos_of_ne_zero h0
    by_cases hl : min len q = 0 <;> cases st <;> simp_all [ReadyT.canRead]

/-- C86, `recv`. Whatever the history: if a task is blocked in `recv` and there is data, the end of the stream, or no connection any more, then after one
dispatch by the poll task the call returns, whatever network events and further dispatches come between. -/
theorem recv_returns (w0 : W) (h0 : Start w0) (ops : List Op) (len : Nat) (u : Bool) (hb : (run w0 ops).task = some (.recv len, u))
    (ho : Owed .recv (run w0 ops).k) (mid : List Op) (hm : ∀ op ∈ mid, Asleep op) (x : Nat) :
    (step (run (step (run w0 ops) .dispatch).1 mid) (.resume x)).2 ≠ none := by
  have hg := good_run .recv ops w0 (runFair_recv ops w0) (good_start .recv w0 h0)
  have hsem := blocked_call_woken_partial .recv w0 h0 ops (runFair_recv ops w0) ⟨_, _, hb, rfl⟩ ho
  have hg1 := good_step .recv (run w0 ops) .dispatch trivial hg
  have ht1 := (asleep_task (run w0 ops) .dispatch trivial hg.core).1
  have ho1 := recv_owed_stable (run w0 ops) .dispatch trivial hg.core ho
  rw [hb] at ht1
  generalize (step (run w0 ops) .dispatch).1 = w1 at hsem hg1 ht1 ho1
  clear hb ho hg
  have key : ∀ (mid : List Op) (w1 : W), (∀ op ∈ mid, Asleep op) → Good .recv w1 → w1.task = some (.recv len, u) → w1.sem = true → Owed .recv w1.k →
      (run w1 mid).task = some (.recv len, u) ∧ (run w1 mid).sem = true ∧ Owed .recv (run w1 mid).k := by
    intro mid
    induction mid with
    | nil => intro w1 _ _ a b c; exact ⟨a, b, c⟩
    | cons op mid ih =>
      intro w1 hm hg a b c
      have hop := hm op (List.mem_cons_self ..)
      have h1 := asleep_task w1 op hop hg.core
      exact ih _ (fun o ho => hm o (List.mem_cons_of_mem _ ho)) (good_step .recv w1 op trivial hg) (h1.1.trans a) (h1.2 b) (recv_owed_stable w1 op hop hg.core c)
  obtain ⟨k1, k2, k3⟩ := key mid w1 hm hg1 ht1 hsem ho1
  simp only [step]
  rw [k1]
  dsimp only
  rw [if_pos k2]
  exact recv_pass _ len u k3

/-- … and with bytes to read on a connection that still receives, it returns that many of them as fit. -/
theorem recv_pass_data (w : W) (len : Nat) (u : Bool) (hq : 0 < w.k.q)
    (hs : w.k.st = .est ∨ w.k.st = .closeWait ∨ w.k.st = .fw1 ∨ w.k.st = .fw2) : (recvTry w len u).2 = some (.val (min len w.k.q)) := by
  obtain ⟨⟨st, q, tx, r, wv, c, cb, last, busy⟩, sem, wr, ww, wc, mine, task⟩ := w
  dsimp only at hq hs ⊢
  have h0 : q ≠ 0 := by omega
  unfold recvTry ReadyT.recvOp ReadyT.pop
  rcases hs with h | h | h | h <;> subst h <;> by_cases hl : min len q = 0 <;> simp_all

theorem recv_returns_data (w0 : W) (h0 : Start w0) (ops : List Op) (len : Nat) (u : Bool) (hb : (run w0 ops).task = some (.recv len, u))
    (hq : 0 < (run w0 ops).k.q) (hs : (run w0 ops).k.st = .est ∨ (run w0 ops).k.st = .closeWait ∨ (run w0 ops).k.st = .fw1 ∨ (run w0 ops).k.st = .fw2) (x : Nat) :
    (step (step (run w0 ops) .dispatch).1 (.resume x)).2 = some (.val (min len (run w0 ops).k.q)) := by
  have hg := good_run .recv ops w0 (runFair_recv ops w0) (good_start .recv w0 h0)
  have hsem := blocked_call_woken_partial .recv w0 h0 ops (runFair_recv ops w0) ⟨_, _, hb, rfl⟩ (Or.inl hq)
  have hd := dispatch_shape (run w0 ops) hg.core
  have ht1 : (step (run w0 ops) .dispatch).1.task = some (.recv len, u) := hd.1.trans hb
  have hk : (step (run w0 ops) .dispatch).1.k.st = (run w0 ops).k.st ∧ (step (run w0 ops) .dispatch).1.k.q = (run w0 ops).k.q := by
    generalize run w0 ops = w at hg hs hb ⊢
    simp only [step]
    have hl : w.k.last = false := by
      cases h : w.k.last with
      | false => rfl
      | true => have := hg.core.2 h; rw [this] at hs; rcases hs with h | h | h | h <;> cases h
    have hst : w.k.st ≠ .closed := by intro h; rw [h] at hs; rcases hs with h | h | h | h <;> cases h
    obtain ⟨⟨st, q, tx, r, wv, c, cb, last, busy⟩, sem, wr, ww, wc, mine, task⟩ := w
    dsimp only at hl hst ⊢
    subst hl
    unfold dispatchOp ReadyT.fireOp
    dsimp only
    rw [if_neg (by intro c; cases c)]
    by_cases he : (!cb || !(r || wv || c)) = true
    · rw [if_pos he]; exact ⟨rfl, rfl⟩
    · rw [if_neg he, if_neg (by simp [hst])]
      cases mine <;> simp [callback, ReadyT.fireEndOp, hst]
  have hq' : 0 < (step (run w0 ops) .dispatch).1.k.q := by rw [hk.2]; exact hq
  rw [← hk.1] at hs
  rw [← hk.2]
  generalize (step (run w0 ops) .dispatch).1 = w1 at hsem ht1 hs hq'
  simp only [step]
  rw [ht1]
  dsimp only
  rw [if_pos hsem]
  exact recv_pass_data { w1 with sem := false } len u hq' hs

/-! ## `connect`, `send`, `close` -/

/-- C86, `connect`. If a task is blocked in `connect` and the connection is established with room to send, then after one dispatch, if the connection is still
established, the call returns 0. -/
theorem connect_returns_partial (w0 : W) (h0 : Start w0) (ops : List Op) (hf : RunFair .connect w0 ops) (u : Bool) (hb : (run w0 ops).task = some (.connect, u))
    (ho : (run w0 ops).k.st = .est) (mid : List Op) (hm : ∀ op ∈ mid, Asleep op) (he : (run (step (run w0 ops) .dispatch).1 mid).k.st = .est) (x : Nat) :
    (step (run (step (run w0 ops) .dispatch).1 mid) (.resume x)).2 = some (.val 0) := by
  have hg := good_run .recv ops w0 (runFair_recv ops w0) (good_start .recv w0 h0)
  have hsem := blocked_call_woken_partial .connect w0 h0 ops hf ⟨_, _, hb, rfl⟩ ho
  have hg1 := good_step .recv (run w0 ops) .dispatch trivial hg
  have ht1 := (asleep_task (run w0 ops) .dispatch trivial hg.core).1.trans hb
  generalize (step (run w0 ops) .dispatch).1 = w1 at hsem hg1 ht1 he
  obtain ⟨k1, k2⟩ := asleep_run .connect u mid w1 hm hg1 ht1 hsem
  simp only [step]
  rw [k1]
  dsimp only
  rw [if_pos k2]
  simp only [attempt, connectTry, connectOp]
  rw [he]

/-- C86, `send`. If a task is blocked in `send` and everything sent so far was acknowledged, then after one dispatch, if the connection can still send and
`x > 0` bytes fit, the call returns `x`. -/
theorem send_returns_partial (w0 : W) (h0 : Start w0) (ops : List Op) (hf : RunFair .send w0 ops) (u : Bool) (hb : (run w0 ops).task = some (.send, u))
    (ho : ((run w0 ops).k.st = .est ∨ (run w0 ops).k.st = .closeWait) ∧ (run w0 ops).k.tx = 0) (mid : List Op) (hm : ∀ op ∈ mid, Asleep op)
    (he : (run (step (run w0 ops) .dispatch).1 mid).k.st = .est ∨ (run (step (run w0 ops) .dispatch).1 mid).k.st = .closeWait) (x : Nat) (hx : 0 < x) :
    (step (run (step (run w0 ops) .dispatch).1 mid) (.resume x)).2 = some (.val x) := by
  have hg := good_run .recv ops w0 (runFair_recv ops w0) (good_start .recv w0 h0)
  have hsem := blocked_call_woken_partial .send w0 h0 ops hf ⟨_, _, hb, rfl⟩ ho
  have hg1 := good_step .recv (run w0 ops) .dispatch trivial hg
  have ht1 := (asleep_task (run w0 ops) .dispatch trivial hg.core).1.trans hb
  generalize (step (run w0 ops) .dispatch).1 = w1 at hsem hg1 ht1 he
  obtain ⟨k1, k2⟩ := asleep_run .send u mid w1 hm hg1 ht1 hsem
  simp only [step]
  rw [k1]
  dsimp only
  rw [if_pos k2]
  simp only [attempt, sendTry, ReadyT.sendOp]
  rw [if_pos he, if_neg (by omega)]

theorem close_owed_stable (w : W) (op : Op) (ha : Asleep op) (ho : Owed .close w.k) : Owed .close (step w op).1.k := by
  obtain ⟨⟨st, q, tx, r, wv, c, cb, last, busy⟩, sem, wr, ww, wc, mine, task⟩ := w
  dsimp only [Owed] at ho
  cases op with
  | call c x => cases ha
  | resume x => cases ha
  | dispatch =>
    simp only [step]
    unfold dispatchOp ReadyT.fireOp
    dsimp only
    by_cases hl : last = true
    · rw [if_pos hl]
      cases cb <;> cases mine <;> simp [callback, ReadyT.fireEndOp] <;> (repeat' split) <;> simp_all [Owed]
    · rw [if_neg hl]
      by_cases he : (!cb || !(r || wv || c)) = true
      · rw [if_pos he]; exact ho
      · rw [if_neg he]
        by_cases hs : (decide (st = .closed) && !c) = true
        · rw [if_pos hs]; exact ho
        · rw [if_neg hs]
          by_cases hst : st = .closed
          · subst hst
            cases mine <;> simp [callback, ReadyT.fireEndOp, Owed]
          · cases mine <;> simp [callback, ReadyT.fireEndOp, Owed, hst] <;> simp_all [Owed]
  | net o =>
    simp only [step]
    cases hn : isNet o with
    | false => exact ho
    | true =>
      rw [if_pos rfl]
      dsimp only
      rcases ho with h | h | h <;> subst h <;> cases o <;> simp_all [ReadyT.step, ReadyT.establishOp, ReadyT.arrive, ReadyT.finOp, ReadyT.finAckOp, Owed, St.open?, St.live, isNet, ReadyT.teardown] <;>
        (cases cb <;> simp)

/-- C86, `close`. If a task is blocked in `close` and the connection is over, then after one dispatch the call returns 0, whatever comes between; unless the two sides closed simultaneously. -/
theorem close_returns_partial (w0 : W) (h0 : Start w0) (ops : List Op) (hf : RunFair .close w0 ops) (u : Bool) (hb : (run w0 ops).task = some (.close, u))
    (ho : (run w0 ops).k.st = .timeWait ∨ (run w0 ops).k.st = .closed ∨ (run w0 ops).k.st = .free) (mid : List Op) (hm : ∀ op ∈ mid, Asleep op) (x : Nat) :
    (step (run (step (run w0 ops) .dispatch).1 mid) (.resume x)).2 = some (.val 0) := by
  have hg := good_run .recv ops w0 (runFair_recv ops w0) (good_start .recv w0 h0)
  have hsem := blocked_call_woken_partial .close w0 h0 ops hf ⟨_, _, hb, rfl⟩ ho
  have hg1 := good_step .recv (run w0 ops) .dispatch trivial hg
  have ht1 := (asleep_task (run w0 ops) .dispatch trivial hg.core).1.trans hb
  have ho1 := close_owed_stable (run w0 ops) .dispatch trivial ho
  generalize (step (run w0 ops) .dispatch).1 = w1 at hsem hg1 ht1 ho1
  obtain ⟨k1, k2⟩ := asleep_run .close u mid w1 hm hg1 ht1 hsem
  have k3 : ∀ (mid : List Op) (w1 : W), (∀ op ∈ mid, Asleep op) → Owed .close w1.k → Owed .close (run w1 mid).k := by
    intro mid
    induction mid with
    | nil => intro w1 _ h; exact h
    | cons op mid ih => intro w1 hm h; exact ih _ (fun o ho => hm o (List.mem_cons_of_mem _ ho)) (close_owed_stable w1 op (hm op (List.mem_cons_self ..)) h)
  have k4 := k3 mid w1 hm ho1
  simp only [step]
  rw [k1]
  dsimp only
  rw [if_pos k2]
  simp only [attempt, closeTry, ReadyT.closeOp]
  rcases k4 with h | h | h <;> rw [h]

/-! ## Calls that block for ever -/

/-- A task blocked on a slot the stack has freed sleeps for ever: nothing that can happen changes anything. -/
theorem dead_stuck (w : W) (h1 : w.k.st = .free) (h2 : w.k.r = false ∧ w.k.w = false ∧ w.k.c = false) (h3 : w.k.last = false) (h4 : w.sem = false)
    (h5 : w.task ≠ none) (rest : List Op) : run w rest = w := by
  have hs : ∀ op, (step w op).1 = w := by
    intro op
    obtain ⟨⟨st, q, tx, r, wv, c, cb, last, busy⟩, sem, wr, ww, wc, mine, task⟩ := w
    obtain ⟨h21, h22, h23⟩ := h2
    dsimp only at h1 h21 h22 h23 h3 h4 h5
    subst h1 h21 h22 h23 h3 h4
    cases op with
    | net o => cases o <;> simp [step, isNet, ReadyT.step, ReadyT.establishOp, ReadyT.arrive, ReadyT.finOp, ReadyT.finAckOp, St.open?, St.live]
    | dispatch => simp [step, dispatchOp, ReadyT.fireOp]
    | call c x => cases task with | none => exact absurd rfl h5 | some t => rfl
    | resume x => cases task with | none => rfl | some t => rfl
  induction rest with
  | nil => rfl
  | cons op rest ih => show run (step w op).1 rest = w; rw [hs op]; exact ih

/-- A `send` waiting for room on a connection that the peer resets never returns: the reset wakes it, the retry sees a socket that is not connected, and
waits once more, for an event that cannot come. -/
theorem send_reset_hangs : ∃ ops : List Op, ∀ rest : List Op,
    (run (accepted false) (ops ++ rest)).k.st = .free ∧ (run (accepted false) (ops ++ rest)).task = some (.send, true) := by
  refine ⟨[.net (.establish 0 false true), .call .send 0, .net .abort, .dispatch, .resume 0], fun rest => ?_⟩
  rw [run_append, dead_stuck _ (by decide) (by decide) (by decide) (by decide) (by decide)]
  decide

/-- A `send` on a connection that was reset before the call never returns either. -/
theorem send_dead_hangs : ∃ ops : List Op, (run (accepted false) ops).k.st = .free ∧ (run (accepted false) ops).task = none ∧ ∀ (x : Nat) (rest : List Op),
    (run (accepted false) (ops ++ .call .send x :: rest)).task = some (.send, true) := by
  refine ⟨[.net (.establish 0 false true), .net .abort], by decide, by decide, fun x rest => ?_⟩
  have e : ∀ y, (step (run (accepted false) [.net (.establish 0 false true), .net .abort]) (.call .send y)).1 =
      block { k := { st := .free } } .send true true true := by
    intro y; rfl
  rw [run_append]
  show (run (step _ (.call .send x)).1 rest).task = _
  rw [e x, dead_stuck _ (by decide) (by decide) (by decide) (by decide) (by decide)]
  decide

/-- A `connect` whose SYN is answered by a reset (or times out) never returns: the retry cannot queue a SYN on the freed slot and waits again. -/
theorem connect_refused_hangs : ∃ ops : List Op, ∀ rest : List Op,
    (run connecting (ops ++ rest)).k.st = .free ∧ (run connecting (ops ++ rest)).task = some (.connect, false) := by
  refine ⟨[.net .abort, .dispatch, .resume 0], fun rest => ?_⟩
  rw [run_append, dead_stuck _ (by decide) (by decide) (by decide) (by decide) (by decide)]
  decide

/-- A `connect` that succeeded returns an error if the peer's FIN is there before the task runs, although the data of the connection could be read. -/
theorem connect_missed : ∃ ops : List Op, (run connecting ops).k.st = .closeWait ∧ 0 < (run connecting ops).k.q ∧
    (step (run connecting ops) (.resume 1)).2 = some .err := by
  exact ⟨[.net (.establish 0 false true), .net (.data 3), .net .fin, .dispatch], by decide⟩

/-- Not a FIN, and not a reset or timeout. -/
def Quiet : Op → Prop
  | .net .fin => False
  | .net .abort => False
  | .net _ => True
  | .dispatch => True
  | .call _ _ => True
  | .resume _ => True

/-- A task blocked in `close` in a state that nothing but a FIN or a reset changes. -/
structure CloseStuck (s : St) (w : W) : Prop where
  st : w.k.st = s
  last : w.k.last = false
  c : w.k.c = false
  sem : w.sem = false
  wr : w.wr = false
  ww : w.ww = false
  task : ∃ u, w.task = some (.close, u)

theorem closeStuck_step (s : St) (hs : s = .est ∨ s = .timeWait) (w : W) (op : Op) (hq : Quiet op) (h : CloseStuck s w) : CloseStuck s (step w op).1 := by
  obtain ⟨⟨st, q, tx, r, wv, c, cb, last, busy⟩, sem, wr, ww, wc, mine, task⟩ := w
  obtain ⟨h1, h2, h3, h4, h5, h6, ⟨u, h7⟩⟩ := h
  dsimp only at h1 h2 h3 h4 h5 h6 h7
  subst h1 h2 h3 h4 h5 h6 h7
  cases op with
  | net o =>
    simp only [step]
    cases hn : isNet o with
    | false => exact ⟨rfl, rfl, rfl, rfl, rfl, rfl, ⟨u, rfl⟩⟩
    | true =>
      rw [if_pos rfl]
      cases o with
      | fin => cases hq
      | abort => cases hq
      | register on => cases hn
      | recv len => cases hn
      | send n => cases hn
      | close r => cases hn
      | fire => cases hn
      | fireEnd => cases hn
      | establish n f sp =>
        rcases hs with hs | hs <;> subst hs <;> exact ⟨rfl, rfl, rfl, rfl, rfl, rfl, ⟨u, rfl⟩⟩
      | data n => simp only [ReadyT.step, ReadyT.arrive]; split <;> exact ⟨rfl, rfl, rfl, rfl, rfl, rfl, ⟨u, rfl⟩⟩
      | ack n f sp => simp only [ReadyT.step]; split <;> exact ⟨rfl, rfl, rfl, rfl, rfl, rfl, ⟨u, rfl⟩⟩
      | grow => simp only [ReadyT.step]; split <;> exact ⟨rfl, rfl, rfl, rfl, rfl, rfl, ⟨u, rfl⟩⟩
      | stuck sp => simp only [ReadyT.step]; split <;> exact ⟨rfl, rfl, rfl, rfl, rfl, rfl, ⟨u, rfl⟩⟩
      | finAck => rcases hs with hs | hs <;> subst hs <;> exact ⟨rfl, rfl, rfl, rfl, rfl, rfl, ⟨u, rfl⟩⟩
  | dispatch =>
    have hst : st ≠ .closed := by rcases hs with hs | hs <;> rw [hs] <;> intro c <;> cases c
    simp only [step]
    unfold dispatchOp ReadyT.fireOp
    dsimp only
    rw [if_neg (by intro c; cases c)]
    by_cases he : (!cb || !(r || wv || false)) = true
    · rw [if_pos he]; exact ⟨rfl, rfl, rfl, rfl, rfl, rfl, ⟨u, rfl⟩⟩
    · rw [if_neg he, if_neg (by simp [hst])]
      cases mine <;> simp only [callback, ReadyT.fireEndOp, hst] <;> exact ⟨rfl, rfl, rfl, by simp, rfl, rfl, ⟨u, rfl⟩⟩
  | call c x => exact ⟨rfl, rfl, rfl, rfl, rfl, rfl, ⟨u, rfl⟩⟩
  | resume x => exact ⟨rfl, rfl, rfl, rfl, rfl, rfl, ⟨u, rfl⟩⟩

theorem closeStuck_run (s : St) (hs : s = .est ∨ s = .timeWait) (rest : List Op) : ∀ w, (∀ op ∈ rest, Quiet op) → CloseStuck s w → CloseStuck s (run w rest) := by
  induction rest with
  | nil => intro w _ h; exact h
  | cons op rest ih => intro w hq h; exact ih _ (fun o ho => hq o (List.mem_cons_of_mem _ ho)) (closeStuck_step s hs w op (hq op (List.mem_cons_self ..)) h)

/-- When both sides close at the same time, `close` sleeps until the peer sends something it has no reason to send: the FIN wakes it too early, and the end of
the connection raises no event. -/
theorem close_simultaneous_hangs : ∃ ops : List Op, ∀ rest : List Op, (∀ op ∈ rest, Quiet op) →
    (run (accepted false) (ops ++ rest)).k.st = .timeWait ∧ ∃ u, (run (accepted false) (ops ++ rest)).task = some (.close, u) := by
  refine ⟨[.net (.establish 0 false true), .call .close 1, .net .fin, .dispatch, .resume 1, .net .finAck], fun rest hq => ?_⟩
  rw [run_append]
  have h := closeStuck_run .timeWait (Or.inr rfl) rest (run (accepted false) [.net (.establish 0 false true), .call .close 1, .net .fin, .dispatch, .resume 1, .net .finAck]) hq
    ⟨by decide, by decide, by decide, by decide, by decide, by decide, ⟨false, by decide⟩⟩
  exact ⟨h.st, h.task⟩

/-- `close` with a full transmit buffer waits for the peer to close: the connection stays established, with no FIN sent, whatever is acknowledged. -/
theorem close_full_hangs : ∃ ops : List Op, ∀ rest : List Op, (∀ op ∈ rest, Quiet op) →
    (run (accepted false) (ops ++ rest)).k.st = .est ∧ ∃ u, (run (accepted false) (ops ++ rest)).task = some (.close, u) := by
  refine ⟨[.net (.establish 0 false true), .call .send 1000, .call .close 0], fun rest hq => ?_⟩
  rw [run_append]
  have h := closeStuck_run .est (Or.inl rfl) rest (run (accepted false) [.net (.establish 0 false true), .call .send 1000, .call .close 0]) hq
    ⟨by decide, by decide, by decide, by decide, by decide, by decide, ⟨false, by decide⟩⟩
  exact ⟨h.st, h.task⟩

/-! ## The hypotheses are met -/

/-- A blocked `recv`, three bytes arrive, the peer goes away. -/
example : (run (accepted true) [.net (.establish 0 false true), .call (.recv 10) 0, .net (.data 3)]).task = some (.recv 10, false) ∧
    Owed .recv (run (accepted true) [.net (.establish 0 false true), .call (.recv 10) 0, .net (.data 3)]).k ∧
    (step (run (accepted true) [.net (.establish 0 false true), .call (.recv 10) 0, .net (.data 3), .dispatch]) (.resume 0)).2 = some (.val 3) :=
  ⟨by decide, Or.inl (by decide), by decide⟩

/-- A `recv` called before the handshake is complete is woken by the completion, sleeps again, and by the end of the stream. -/
example : (step (run (accepted true) [.call (.recv 10) 0, .net (.establish 0 false true), .dispatch, .resume 0, .net .fin, .dispatch]) (.resume 0)).2 = some (.val 0) := by decide

example : RunFair .connect connecting [.net (.establish 0 false true)] ∧ (run connecting [.net (.establish 0 false true)]).k.st = .est ∧
    (run connecting [.net (.establish 0 false true)]).task = some (.connect, false) :=
  ⟨⟨(by intro n f c; cases c), trivial⟩, by decide, by decide⟩

/-- A `send` blocked on a full buffer is woken by the acknowledgement. -/
def exSend : List Op := [.net (.establish 0 false true), .call .send 1000, .dispatch, .call .send 0, .net (.ack 1000 true true)]

example : RunFair .send (accepted false) exSend ∧ (run (accepted false) exSend).task = some (.send, false) ∧ (run (accepted false) exSend).k.st = .est ∧ (run (accepted false) exSend).k.tx = 0 ∧
    (step (run (accepted false) (exSend ++ [.dispatch])) (.resume 7)).2 = some (.val 7) := by
  refine ⟨?_, by decide, by decide, by decide, by decide⟩
  refine ⟨?_, ?_, ?_, ?_, ?_, trivial⟩
  · exact ⟨(by intro n f c; cases c), (by intro _ c; exact ⟨(by intro e; cases e), (by intro e; cases e)⟩), (by intro n f c; cases c)⟩
  · exact ⟨(by intro n f c; cases c), (by intro _ c; exact ⟨(by intro e; cases e), (by intro e; cases e)⟩), (by intro n f c; cases c)⟩
  · exact ⟨(by intro n f c; cases c), (by intro _ c; exact ⟨(by intro e; cases e), (by intro e; cases e)⟩), (by intro n f c; cases c)⟩
  · exact ⟨(by intro n f c; cases c), (by intro h; exact absurd h (by decide)), (by intro n f c; cases c)⟩
  · exact ⟨(by intro n f c; cases c), (by intro _ c; exact ⟨(by intro e; cases e), (by intro e; cases e)⟩), (by intro n f c; cases c)⟩

/-- An ordinary close: our FIN, its acknowledgement, the peer's FIN. -/
def exClose : List Op := [.net (.establish 0 false true), .call .close 1, .net .finAck, .net .fin]

example : RunFair .close (accepted false) exClose ∧ (run (accepted false) exClose).task = some (.close, false) ∧ (run (accepted false) exClose).k.st = .timeWait ∧
    (step (run (accepted false) (exClose ++ [.dispatch])) (.resume 1)).2 = some (.val 0) := by
  refine ⟨?_, by decide, by decide, by decide⟩
  refine ⟨?_, ?_, ?_, ?_, trivial⟩
  · intro h; exact absurd h (by decide)
  · intro h; exact absurd h (by decide)
  · intro h; exact absurd h (by decide)
  · intro h; exact absurd h (by decide)

end Wolf.Bsd
