/-!
# C137: the MQTT broker's start, service and end

Model of `src/port/stm32h563/mqtt_broker.c`: `mqtt_broker_init`, `mqtt_broker_poll`, `mqtt_broker_is_running` and what
they call of wolfMQTT and wolfSSL, whose results are inputs.  The storage behind `MqttBrokerNet_PersistFlash_Init` is
modelled in `Kvf/`.  Left out: the texts given to `debug_print`, which change nothing else.
-/
namespace Wolf.Broker

/-- `broker_state_t`, mqtt_broker.c 38–44. -/
inductive St where
  | idle | init | starting | running | error
  deriving DecidableEq

/-- A call to wolfMQTT or wolfSSL with its outcome; `zeroed` is the `memset` of `mqtt_broker_init`. -/
inductive Ev where
  | zeroed
  /-- `MqttBrokerNet_wolfIP_Init` -/
  | netInit (ok : Bool)
  /-- `MqttBroker_Init` -/
  | brokerInit (ok : Bool)
  /-- `MqttBrokerNet_PersistFlash_Init` -/
  | persist (ok : Bool)
  /-- `MqttBroker_SetPersistHooks` -/
  | hooks
  | ctxNew (ok : Bool)
  | cert (ok : Bool)
  | key (ok : Bool)
  | ctxFree
  /-- `MqttBroker_Start` of a broker with this port, `use_tls`, and `tls_ctx` set or not -/
  | start (port : Nat) (tls ctx : Bool) (ok : Bool)
  /-- `MqttBroker_Step` -/
  | step (r : Int)
  /-- `MqttBroker_Free` of a broker with `tls_ctx` set or not: it frees the context (contract, 293–294) -/
  | free (ctx : Bool)
  deriving DecidableEq

/-- The static `ctx`, mqtt_broker.c 50–64. `tlsCtx`: `ctx.broker.tls_ctx` is set. -/
structure B where
  port : Nat := 0
  tls : Bool := false
  made : Bool := false
  st : St := .idle
  sslCtx : Bool := false
  tlsCtx : Bool := false
  deriving DecidableEq

/-- How the calls made during a poll turn out. -/
structure Out where
  net : Bool := true
  broker : Bool := true
  persist : Bool := true
  ctx : Bool := true
  cert : Bool := true
  key : Bool := true
  start : Bool := true
  step : Int := 0

/-- `MQTT_CODE_CONTINUE` of wolfMQTT. -/
def codeContinue : Int := -101

/-- `mqtt_broker_init`, mqtt_broker.c 237–266: `cfg` is the port and `use_tls`, or absent. -/
def init (cfg : Option (Nat × Bool)) : B :=
  let p := match cfg with | some (p, _) => if p > 0 then p else 0 | none => 0
  let t := match cfg with | some (_, t) => t | none => false
  { port := if p = 0 then (if t = true then 8883 else 1883) else p, tls := t, made := true, st := .init }

/-- `broker_tls_init`, mqtt_broker.c 104–142: the calls, and whether it succeeded. -/
def tlsInit (o : Out) : List Ev × Bool :=
  if o.ctx = false then ([.ctxNew false], false)
  else if o.cert = false then ([.ctxNew true, .cert false, .ctxFree], false)
  else if o.key = false then ([.ctxNew true, .cert true, .key false, .ctxFree], false)
  else ([.ctxNew true, .cert true, .key true], true)

/-- Installing the persistent store, mqtt_broker.c 167–177; `ps`: built with it. -/
def store (ps : Bool) (o : Out) : List Ev :=
  if ps = false then [] else if o.persist = true then [.persist true, .hooks] else [.persist false]

/-- `handle_init`, mqtt_broker.c 145–195. -/
def handleInit (ps : Bool) (b : B) (o : Out) : B × List Ev :=
  if o.net = false then ({ b with st := .error }, [.netInit false])
  else if o.broker = false then ({ b with st := .error }, [.netInit true, .brokerInit false])
  else
    let e := [.netInit true, .brokerInit true] ++ store ps o
    if b.tls = true then
      if (tlsInit o).2 = false then ({ b with st := .error }, e ++ (tlsInit o).1)
      else ({ b with sslCtx := true, tlsCtx := true, st := .starting }, e ++ (tlsInit o).1)
    else ({ b with st := .starting }, e)

/-- `mqtt_broker_poll` with `handle_starting` and `handle_running`, mqtt_broker.c 198–235 and 268–303: the new state,
the calls, the result. -/
def poll (ps : Bool) (b : B) (o : Out) : B × List Ev × Int :=
  if b.made = false then (b, [], -1)
  else match b.st with
  | .idle => (b, [], 0)
  | .init => ((handleInit ps b o).1, (handleInit ps b o).2, 0)
  | .starting =>
    ({ b with st := if o.start = false then .error else .running }, [.start b.port b.tls b.tlsCtx o.start], 0)
  | .running =>
    (if o.step < 0 ∧ o.step ≠ codeContinue then { b with st := .error } else b, [.step o.step], 0)
  | .error => ({ b with sslCtx := false, tlsCtx := false, st := .idle }, [.free b.tlsCtx], 0)

/-- `mqtt_broker_is_running`, mqtt_broker.c 305–308. -/
def isRunning (b : B) : Bool := b.st = .running

inductive Act where
  | init (cfg : Option (Nat × Bool))
  | poll (o : Out)

/-- One call of the user. -/
def step (ps : Bool) (b : B) : Act → B × List Ev
  | .init c => (init c, [.zeroed])
  | .poll o => ((poll ps b o).1, (poll ps b o).2.1)

/-- A history of calls: the state and all calls to wolfMQTT and wolfSSL. -/
def run (ps : Bool) (b : B) : List Act → B × List Ev
  | [] => (b, [])
  | a :: l => ((run ps (step ps b a).1 l).1, (step ps b a).2 ++ (run ps (step ps b a).1 l).2)

/-! ## The specification -/

/-- How far the broker is, as its library sees it. -/
inductive Phase where
  | zero | made | running | failed | freed
  deriving DecidableEq

/-- How far the TLS context is. -/
inductive Ctx where
  | absent | fresh | cert | ready
  deriving DecidableEq

structure Use where
  net : Bool := false
  brk : Phase := .zero
  ctx : Ctx := .absent
  lost : Nat := 0
  deriving DecidableEq

/-- A call that failed and is to be followed by the release. -/
def failing (r : Int) : Bool := decide (r < 0 ∧ r ≠ codeContinue)

/-- Which calls are allowed, and what is in use after them.  The network is set up before the broker, the broker before
its store, the context has certificate and key before a TLS broker starts with it, a broker is stepped only while
running, released once and only when it is not; a context is freed once, by whoever owns it. -/
def Use.step (w : Use) : Ev → Option Use
  | .zeroed => some { lost := w.lost + if w.ctx = .absent then 0 else 1 }
  | .netInit ok => if w.net = false ∧ w.brk = .zero then some { w with net := ok, brk := if ok = true then .zero else .failed } else none
  | .brokerInit ok =>
    if w.net = true ∧ w.brk = .zero then some { w with brk := if ok = true then .made else .failed } else none
  | .persist _ => if w.brk = .made then some w else none
  | .hooks => if w.brk = .made then some w else none
  | .ctxNew ok => if w.ctx = .absent then some { w with ctx := if ok = true then .fresh else .absent } else none
  | .cert ok => if w.ctx = .fresh then some { w with ctx := if ok = true then .cert else .fresh } else none
  | .key ok => if w.ctx = .cert then some { w with ctx := if ok = true then .ready else .cert } else none
  | .ctxFree => if w.ctx = .absent ∨ w.ctx = .ready then none else some { w with ctx := .absent }
  | .start _ tls c ok =>
    if w.brk = .made ∧ (c = true ↔ w.ctx = .ready) ∧ tls = c then
      some { w with brk := if ok = true then .running else .failed } else none
  | .step r => if w.brk = .running then some { w with brk := if failing r = true then .failed else .running } else none
  | .free c =>
    if (w.brk = .failed ∨ w.brk = .made) ∧ (c = true ↔ w.ctx = .ready) then
      some { w with brk := .freed, ctx := if c = true then .absent else w.ctx } else none

def Use.all (w : Use) (t : List Ev) : Option Use := t.foldlM Use.step w

theorem all_nil (w : Use) : w.all [] = some w := rfl
theorem all_cons (w : Use) (e : Ev) (t : List Ev) : w.all (e :: t) = (w.step e).bind (Use.all · t) := List.foldlM_cons
theorem all_append (w : Use) (a b : List Ev) : w.all (a ++ b) = (w.all a).bind (Use.all · b) := List.foldlM_append

/-- The context a broker of this configuration has. -/
def ctxOf (t : Bool) : Ctx := if t = true then .ready else .absent

/-- What the state of the module says about what is in use. -/
def Agrees (b : B) (w : Use) : Prop :=
  (b.made = false → b.st = .idle ∧ w.brk = .zero) ∧ w.ctx = ctxOf b.tlsCtx ∧ b.sslCtx = b.tlsCtx ∧
  match b.st with
  | .idle => b.tlsCtx = false ∧ (b.made = true → w.brk = .freed)
  | .init => b.tlsCtx = false ∧ w.net = false ∧ w.brk = .zero
  | .starting => b.tlsCtx = b.tls ∧ w.brk = .made
  | .running => b.tlsCtx = b.tls ∧ w.brk = .running
  | .error => w.brk = .failed ∨ w.brk = .made

theorem store_ok (ps : Bool) (o : Out) (w : Use) (h : w.brk = .made) : w.all (store ps o) = some w := by
  unfold store
  split
  · rfl
  · split <;> simp [all_cons, all_nil, Use.step, h]

theorem tlsInit_ok (o : Out) (w : Use) (h : w.ctx = .absent) :
    w.all (tlsInit o).1 = some { w with ctx := ctxOf (tlsInit o).2 } := by
  obtain ⟨n, br, c, l⟩ := w
  obtain rfl : c = .absent := h
  unfold tlsInit
  repeat' split
  all_goals simp [all_cons, all_nil, Use.step, ctxOf]

theorem poll_agrees (ps : Bool) {b : B} {w : Use} (h : Agrees b w) (o : Out) :
    ∃ v, w.all (poll ps b o).2.1 = some v ∧ Agrees (poll ps b o).1 v ∧ v.lost = w.lost := by
  obtain ⟨n, br, c, l⟩ := w
  obtain ⟨p, t, m, st, sc, tc⟩ := b
  obtain ⟨h1, h2, h3, h4⟩ := h
  dsimp only at h1 h2 h3 h4
  subst h2 h3
  unfold poll
  dsimp only
  split
  · exact ⟨_, rfl, ⟨h1, rfl, rfl, h4⟩, rfl⟩
  · next hm =>
    have hm : m = true := by simpa using hm
    subst hm
    cases st with
    | idle => exact ⟨_, rfl, ⟨(fun e => by cases e), rfl, rfl, h4⟩, rfl⟩
    | init =>
      obtain ⟨rfl, rfl, rfl⟩ := h4
      dsimp only
      unfold handleInit
      split
      · exact ⟨_, rfl, ⟨(fun e => by cases e), rfl, rfl, .inl rfl⟩, rfl⟩
      · split
        · exact ⟨_, rfl, ⟨(fun e => by cases e), rfl, rfl, .inl rfl⟩, rfl⟩
        · dsimp only
          have k : Use.all ⟨false, .zero, ctxOf false, l⟩ ([.netInit true, .brokerInit true] ++ store ps o) =
              some ⟨true, .made, .absent, l⟩ := by
            rw [all_append]
            exact store_ok ps o ⟨true, .made, .absent, l⟩ rfl
          have k2 := tlsInit_ok o ⟨true, .made, .absent, l⟩ rfl
          split
          · split
            · next c =>
              rw [c] at k2
              refine ⟨⟨true, .made, .absent, l⟩, ?_, ⟨(fun e => by cases e), rfl, rfl, .inr rfl⟩, rfl⟩
              show Use.all _ (_ ++ _) = _
              rw [all_append, k]
              exact k2
            · next ht c =>
              have c : (tlsInit o).2 = true := by simpa using c
              rw [c] at k2
              subst ht
              refine ⟨⟨true, .made, .ready, l⟩, ?_, ⟨(fun e => by cases e), rfl, rfl, rfl, rfl⟩, rfl⟩
              show Use.all _ (_ ++ _) = _
              rw [all_append, k]
              exact k2
          · next ht =>
            have ht : t = false := by simpa using ht
            subst ht
            exact ⟨_, k, ⟨(fun e => by cases e), rfl, rfl, rfl, rfl⟩, rfl⟩
    | starting =>
      obtain ⟨rfl, rfl⟩ := h4
      obtain ⟨_, _, _, _, _, _, s, _⟩ := o
      cases sc <;> cases s <;>
        exact ⟨_, rfl, ⟨(fun e => by cases e), rfl, rfl, by first | exact .inl rfl | exact ⟨rfl, rfl⟩⟩, rfl⟩
    | running =>
      obtain ⟨rfl, rfl⟩ := h4
      refine ⟨_, rfl, ?_, rfl⟩
      dsimp only
      unfold failing
      by_cases c : o.step < 0 ∧ o.step ≠ codeContinue
      · simp only [if_pos c, decide_eq_true c]
        exact ⟨(fun e => by cases e), rfl, rfl, .inl rfl⟩
      · simp only [if_neg c, decide_eq_false c]
        exact ⟨(fun e => by cases e), rfl, rfl, rfl, rfl⟩
    | error =>
      dsimp only
      dsimp only at h4
      rcases h4 with rfl | rfl <;> cases sc <;>
        exact ⟨_, rfl, ⟨(fun e => by cases e), rfl, rfl, rfl, fun _ => rfl⟩, rfl⟩

theorem run_agrees (ps : Bool) : ∀ (l : List Act) {b : B} {w : Use}, Agrees b w →
    ∃ v, w.all (run ps b l).2 = some v ∧ Agrees (run ps b l).1 v ∧
      ((∀ c, Act.init c ∉ l) → v.lost = w.lost)
  | [], b, w, h => ⟨w, rfl, h, fun _ => rfl⟩
  | .init c :: l, b, w, h => by
    have hi : Agrees (init c) { lost := w.lost + if w.ctx = .absent then 0 else 1 } :=
      ⟨(fun e => by cases e), rfl, rfl, rfl, rfl, rfl⟩
    obtain ⟨v, h1, h2, _⟩ := run_agrees ps l hi
    exact ⟨v, h1, h2, fun hn => absurd List.mem_cons_self (hn c)⟩
  | .poll o :: l, b, w, h => by
    obtain ⟨u, g1, g2, g3⟩ := poll_agrees ps h o
    obtain ⟨v, h1, h2, h3⟩ := run_agrees ps l g2
    refine ⟨v, ?_, h2, fun hn => ?_⟩
    · show w.all (_ ++ _) = _
      rw [all_append]
      show (w.all (poll ps b o).2.1).bind _ = _
      rw [g1]
      exact h1
    · rw [h3 fun c hc => hn c (List.mem_cons_of_mem _ hc), g3]

/-! ## The theorems -/

/-- **C137, the calls.**  In every history every call to wolfMQTT and wolfSSL is allowed; the module reports running
exactly while the broker is; when it is idle after a failure the broker has been released and no context is left; and
if it was initialised only once none is ever lost. -/
theorem broker_legal (ps : Bool) (l : List Act) :
    ∃ w, Use.all {} (run ps {} l).2 = some w ∧
      (isRunning (run ps {} l).1 = true ↔ w.brk = .running) ∧
      ((run ps {} l).1.made = true → (run ps {} l).1.st = .idle → w.brk = .freed ∧ w.ctx = .absent) ∧
      (∀ c m, l = .init c :: m → (∀ d, Act.init d ∉ m) → w.lost = 0) := by
  have h0 : Agrees {} {} := ⟨fun _ => ⟨rfl, rfl⟩, rfl, rfl, rfl, fun e => by cases e⟩
  obtain ⟨w, h1, h2, _⟩ := run_agrees ps l h0
  refine ⟨w, h1, ?_, fun hm hi => ?_, fun c m e hn => ?_⟩
  · obtain ⟨a1, a2, a3, a4⟩ := h2
    unfold isRunning
    cases hs : (run ps {} l).1.st <;> rw [hs] at a4 a1 <;> dsimp only at a4
    · constructor
      · intro e; cases e
      · intro e
        cases hm : (run ps {} l).1.made
        · rw [(a1 hm).2] at e; cases e
        · rw [a4.2 hm] at e; cases e
    · rw [a4.2.2]; constructor <;> intro e <;> cases e
    · rw [a4.2]; constructor <;> intro e <;> cases e
    · rw [a4.2]; exact ⟨fun _ => rfl, fun _ => rfl⟩
    · rcases a4 with a4 | a4 <;> rw [a4] <;> constructor <;> intro e <;> cases e
  · obtain ⟨a1, a2, a3, a4⟩ := h2
    rw [hi] at a4
    dsimp only at a4
    exact ⟨a4.2 hm, by rw [a2, a4.1]; rfl⟩
  · subst e
    have hi : Agrees (init c) {} := ⟨(fun e => by cases e), rfl, rfl, rfl, rfl, rfl⟩
    obtain ⟨v, g1, _, g3⟩ := run_agrees ps m hi
    have : Use.all {} (run ps {} (.init c :: m)).2 = some v := by
      show Use.all {} (.zeroed :: _) = _
      rw [all_cons]
      exact g1
    rw [h1] at this
    cases this
    exact g3 hn

/-- **C137, the start.**  If every call succeeds, the broker runs after the second poll, on the configured port, or on
8883 with TLS and 1883 without when none is configured, and with TLS as configured. -/
theorem broker_starts (ps : Bool) (b : B) (p : Nat) (t : Bool) (r s : Int) (port : Nat)
    (hp : port = if p ≠ 0 then p else if t = true then 8883 else 1883) :
    let h := run ps b [.init (some (p, t)), .poll { step := r }, .poll { step := s }]
    isRunning h.1 = true ∧ h.2.getLast? = some (.start port t t true) := by
  subst hp
  unfold run
  dsimp only [step]
  cases t <;> cases ps <;> cases p <;> exact ⟨rfl, rfl⟩

/-- **C137, service.**  While it runs every poll steps the broker once, and it goes on running unless the step
fails; "continue" is no failure. -/
theorem broker_serves (ps : Bool) (b : B) (o : Out) (hm : b.made = true) (hr : isRunning b = true) :
    (poll ps b o).2.1 = [.step o.step] ∧
      (isRunning (poll ps b o).1 = true ↔ 0 ≤ o.step ∨ o.step = -101) := by
  have hs : b.st = .running := by simpa [isRunning] using hr
  unfold poll
  rw [if_neg (by rw [hm]; nofun), hs]
  refine ⟨rfl, ?_⟩
  dsimp only
  unfold codeContinue
  split
  · next c =>
    constructor
    · intro e; cases e
    · intro e; omega
  · next c =>
    refine ⟨fun _ => by omega, fun _ => hr⟩

/-- **C137, the end.**  After any failure the next poll releases the broker; from then on nothing happens until it is
initialised again: a single failed step ends the service. -/
theorem broker_down (ps : Bool) (b : B) (hm : b.made = true) (hs : b.st = .error) (o : Out) (l : List Out) :
    (run ps b (.poll o :: l.map .poll)).2 = [.free b.tlsCtx] ∧ (run ps b (.poll o :: l.map .poll)).1.st = .idle := by
  have quiet : ∀ (l : List Out) (c : B), c.made = true → c.st = .idle → run ps c (l.map .poll) = (c, []) := by
    intro l
    induction l with
    | nil => intro c _ _; rfl
    | cons o l ih =>
      intro c h1 h2
      have e : step ps c (.poll o) = (c, []) := by
        have q : poll ps c o = (c, [], 0) := by
          unfold poll
          rw [if_neg (by rw [h1]; nofun), h2]
        unfold step
        dsimp only
        rw [q]
      rw [List.map_cons, run, e, ih c h1 h2]
      rfl
  have e : step ps b (.poll o) = ({ b with sslCtx := false, tlsCtx := false, st := .idle }, [.free b.tlsCtx]) := by
    have q : poll ps b o = ({ b with sslCtx := false, tlsCtx := false, st := .idle }, [.free b.tlsCtx], 0) := by
      unfold poll
      rw [if_neg (by rw [hm]; nofun), hs]
    unfold step
    dsimp only
    rw [q]
  have q := quiet l { b with sslCtx := false, tlsCtx := false, st := .idle } hm rfl
  rw [run, e]
  dsimp only
  rw [q]
  exact ⟨rfl, rfl⟩

/-- **What is wrong: the result says nothing.**  Once initialised, `mqtt_broker_poll` returns 0 whatever fails. -/
theorem broker_poll_result (ps : Bool) (b : B) (o : Out) :
    (b.made = true → (poll ps b o).2.2 = 0) ∧ (b.made = false → (poll ps b o).2.2 = -1) := by
  unfold poll
  constructor
  · intro h
    rw [if_neg (by rw [h]; nofun)]
    cases b.st <;> rfl
  · intro h
    rw [if_pos h]

/-- **What is wrong: initialising again.**  `mqtt_broker_init` of a running broker forgets it without releasing it: its
TLS context is lost. -/
theorem broker_init_again_leaks :
    Use.all {} (run false {} [.init (some (0, true)), .poll {}, .poll {}, .init (some (0, true))]).2 =
      some { lost := 1 } ∧
    isRunning (run false {} [.init (some (0, true)), .poll {}, .poll {}]).1 = true := by decide

/-- **What is wrong: releasing what was never made.**  If the network set-up fails, the broker is released although
`MqttBroker_Init` was never called for it. -/
theorem broker_freed_unmade (ps : Bool) (p : Nat) (t : Bool) (o : Out) :
    (run ps {} [.init (some (p, t)), .poll { o with net := false }, .poll o]).2 =
      [.zeroed, .netInit false, .free false] := rfl

/-! ## Concrete runs -/

/-- A start without TLS, two steps of service, one that fails. -/
example : (run true {} [.init none, .poll {}, .poll {}, .poll { step := -101 }, .poll { step := -5 }, .poll {}, .poll {}]).2 =
    [.zeroed, .netInit true, .brokerInit true, .persist true, .hooks, .start 1883 false false true, .step (-101),
     .step (-5), .free false] := by decide

/-- A bad key: no context is left, the broker is released. -/
example : (run false {} [.init (some (0, true)), .poll { key := false }, .poll {}, .poll {}]).2 =
    [.zeroed, .netInit true, .brokerInit true, .ctxNew true, .cert true, .key false, .ctxFree, .free false] := by decide

end Wolf.Broker
