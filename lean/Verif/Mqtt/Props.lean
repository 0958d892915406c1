import Verif.Mqtt.Client
/-! # C132: transport, address and messages -/
namespace Wolf.MqttC
open Wolf.Glue (Op)

/-! ## Lists of actions -/

theorem acceptedOf_cons (a : Act) (l : List Act) : acceptedOf (a :: l) = acceptedOf l ++ acceptedOf [a] := by
  simp [acceptedOf, List.filterMap_append]

theorem doneOf_cons (a : Act) (l : List Act) : doneOf (a :: l) = doneOf l ++ doneOf [a] := by
  simp [doneOf, List.filterMap_append]

theorem since_cons {a : Act} (l : List Act) (h : ∀ c, a ≠ .started c) : since (a :: l) = a :: since l := by
  cases a <;> first | rfl | exact absurd rfl (h _)

theorem lastCfg_cons {a : Act} (l : List Act) (h : ∀ c, a ≠ .started c) : lastCfg (a :: l) = lastCfg l := by
  cases a <;> first | rfl | exact absurd rfl (h _)

/-! ## One action at a time

Every call of the client changes its fields and appends actions one by one; `P` is kept if each of these does. -/

/-- What holds of the client and its trace. -/
structure Inv (w : W) : Prop where
  sec : Secure w.acts
  tgt : Targets w.acts
  pubs : Publishes w.acts
  off : w.cl.initialized = false → w.cl.ph = .idle ∧ w.cl.ssl = none
  cfg : w.cl.initialized = true → lastCfg w.acts = some w.cl.cfg
  names : ∀ x, (Act.shook x ∈ w.acts ∨ Act.freed x ∈ w.acts) → x < w.nextSsl
  live : ∀ x, w.cl.ssl = some x → Act.freed x ∉ w.acts ∧ x < w.nextSsl
  shook : w.cl.ph = .mqtt ∨ w.cl.ph = .connected ∨ w.cl.ph = .publishing ∨ w.cl.ph = .disconnecting →
    w.cl.tlsCb = true ∧ ∃ x, w.cl.ssl = some x ∧ Act.shook x ∈ w.acts
  sub : (doneOf (since w.acts)).Sublist (acceptedOf (since w.acts))
  all : w.cl.ph = .net ∨ w.cl.ph = .tls ∨ w.cl.ph = .mqtt ∨ w.cl.ph = .connected ∨ w.cl.ph = .publishing →
    acceptedOf (since w.acts) = doneOf (since w.acts) ++ (if w.cl.pending then [w.cl.msg] else [])
  pub : w.cl.ph = .publishing → w.cl.pending = true ∧ w.cl.pub = some (w.cl.cfg.topic, w.cl.msg.length)

/-- An action that is neither a start, a message, a call, a connection attempt nor about a session leaves all that is
said about the trace as it is; the others are treated one by one. -/
theorem inv_phase_down {w : W} (h : Inv w) (p : Phase) (hi : w.cl.initialized = true) (hp : p = .error ∨ p = .idle) : Inv (phase w p) := by
  refine ⟨h.sec, h.tgt, h.pubs, fun c => ?_, h.cfg, h.names, h.live, ?_, h.sub, ?_, ?_⟩
  · have : w.cl.initialized = false := c
    rw [hi] at this; cases this
  · intro c
    dsimp only [phase] at c
    rcases hp with e | e <;> rw [e] at c <;> simp at c
  · intro c
    dsimp only [phase] at c
    rcases hp with e | e <;> rw [e] at c <;> simp at c
  · intro c
    dsimp only [phase] at c
    rcases hp with e | e <;> rw [e] at c <;> simp at c

theorem inv_init (st : Nat) {w : W} (h : Inv w) (r : Raw) (e : InitEnv) : Inv (init st w r e).1 := by
  have bad : ∀ (io : Option Nat) (g : Glue.Mqtt.St), Inv { w with cl := { cfg := effective r, io := io }, g := g } := by
    intro io g
    refine ⟨h.sec, h.tgt, h.pubs, fun _ => ⟨rfl, rfl⟩, fun c => (by cases c), h.names, fun x c => (by cases c), ?_, h.sub, ?_, ?_⟩ <;>
      · intro c
        simp at c
  unfold init
  dsimp only
  split
  · split
    · exact bad _ _
    · refine ⟨⟨fun v c e => (by cases e), h.sec⟩, ⟨fun a b c e => (by cases e), h.tgt⟩, ⟨fun v t m e => (by cases e), h.pubs⟩, fun c => (by cases c), fun _ => rfl, ?_,
        fun x c => (by cases c), ?_, List.Sublist.refl _, fun _ => rfl, ?_⟩
      · intro x hx
        refine h.names x ?_
        rcases hx with hx | hx
        · rcases List.mem_cons.mp hx with c | c
          · cases c
          · exact .inl c
        · rcases List.mem_cons.mp hx with c | c
          · cases c
          · exact .inr c
      · intro c; simp at c
      · intro c; cases c
  · exact bad _ _

/-- Adding a call that goes through a live, complete session. -/
theorem inv_called {w : W} (h : Inv w) (hi : w.cl.initialized = true) (c : Call)
    (hp : w.cl.ph = .mqtt ∨ w.cl.ph = .connected ∨ w.cl.ph = .publishing ∨ w.cl.ph = .disconnecting)
    (hpub : ∀ t m, c = .publish t m → w.cl.ph = .publishing ∧ t = w.cl.cfg.topic ∧ m = w.cl.msg) : Inv (called w c) := by
  obtain ⟨h1, x, h2, h3⟩ := h.shook hp
  have hv : via w.cl = .tls x := by unfold via; rw [if_pos h1, h2]
  have hs : since (called w c).acts = .call (via w.cl) c :: since w.acts := since_cons _ nofun
  have hl : lastCfg (called w c).acts = lastCfg w.acts := lastCfg_cons _ nofun
  have ha : acceptedOf (since (called w c).acts) = acceptedOf (since w.acts) := by rw [hs, acceptedOf_cons]; exact List.append_nil _
  have hd : doneOf (since (called w c).acts) = doneOf (since w.acts) := by rw [hs, doneOf_cons]; exact List.append_nil _
  have mem : ∀ a, a ∈ (called w c).acts → a = .call (via w.cl) c ∨ a ∈ w.acts := fun a ha => List.mem_cons.mp ha
  refine ⟨⟨?_, h.sec⟩, ⟨fun a b d e => (by cases e), h.tgt⟩, ⟨?_, h.pubs⟩, h.off, fun c => (by rw [hl]; exact h.cfg c), ?_, ?_, ?_, ?_, ?_, h.pub⟩
  · intro v c' e
    cases e
    exact ⟨x, hv, h3, (h.live x h2).1⟩
  · intro v t m e
    cases e
    obtain ⟨p1, p2, p3⟩ := hpub t m rfl
    refine ⟨⟨_, h.cfg hi, p2⟩, ?_⟩
    have hall := h.all (.inr (.inr (.inr (.inr p1))))
    rw [(h.pub p1).1, if_pos rfl] at hall
    exact ⟨_, by rw [p3]; exact hall, List.Sublist.refl _⟩
  · intro y hy
    refine h.names y ?_
    rcases hy with hy | hy
    · rcases mem _ hy with c | c
      · cases c
      · exact .inl c
    · rcases mem _ hy with c | c
      · cases c
      · exact .inr c
  · intro y hy
    refine ⟨fun hc => ?_, (h.live y hy).2⟩
    rcases mem _ hc with c | c
    · cases c
    · exact (h.live y hy).1 c
  · intro c
    obtain ⟨a, y, b, d⟩ := h.shook c
    exact ⟨a, y, b, List.mem_cons_of_mem _ d⟩
  · rw [ha, hd]; exact h.sub
  · intro c; rw [ha, hd]; exact h.all c

/-- Fields the invariant does not look at. -/
theorem inv_other {w w' : W} (h : Inv w) (h1 : w'.acts = w.acts) (h2 : w'.cl.initialized = w.cl.initialized) (h3 : w'.cl.ph = w.cl.ph)
    (h4 : w'.cl.ssl = w.cl.ssl) (h5 : w'.cl.cfg = w.cl.cfg) (h6 : w'.nextSsl = w.nextSsl) (h7 : w'.cl.tlsCb = w.cl.tlsCb)
    (h8 : w'.cl.pending = w.cl.pending) (h9 : w'.cl.msg = w.cl.msg) (h10 : w'.cl.pub = w.cl.pub) : Inv w' := by
  refine ⟨?_, ?_, ?_, ?_, ?_, ?_, ?_, ?_, ?_, ?_, ?_⟩
  · rw [h1]; exact h.sec
  · rw [h1]; exact h.tgt
  · rw [h1]; exact h.pubs
  · rw [h2, h3, h4]; exact h.off
  · rw [h1, h2, h5]; exact h.cfg
  · rw [h1, h6]; exact h.names
  · rw [h1, h4, h6]; exact h.live
  · rw [h1, h3, h4, h7]; exact h.shook
  · rw [h1]; exact h.sub
  · rw [h1, h3, h8, h9]; exact h.all
  · rw [h3, h5, h8, h9, h10]; exact h.pub

theorem inv_connectNet {w : W} (h : Inv w) (hi : w.cl.initialized = true) (hp : w.cl.ph = .net) (cn : Int) : Inv (connectNet w cn) := by
  have h1 : Inv { w with acts := .connectTo w.cl.fd (Text.atoip4 w.cl.cfg.host) w.cl.cfg.port :: w.acts } := by
    generalize hact : Act.connectTo w.cl.fd (Text.atoip4 w.cl.cfg.host) w.cl.cfg.port = a
    have hs : since (a :: w.acts) = a :: since w.acts := by rw [← hact]; exact since_cons _ nofun
    have hl : lastCfg (a :: w.acts) = lastCfg w.acts := by rw [← hact]; exact lastCfg_cons _ nofun
    have ha : acceptedOf (since (a :: w.acts)) = acceptedOf (since w.acts) := by rw [hs, acceptedOf_cons, ← hact]; exact List.append_nil _
    have hd : doneOf (since (a :: w.acts)) = doneOf (since w.acts) := by rw [hs, doneOf_cons, ← hact]; exact List.append_nil _
    refine ⟨⟨?_, h.sec⟩, ⟨?_, h.tgt⟩, ⟨?_, h.pubs⟩, h.off, fun c => (by show lastCfg (a :: w.acts) = _; rw [hl]; exact h.cfg c), ?_, ?_, ?_, ?_, ?_, h.pub⟩
    · intro v c e; rw [← hact] at e; cases e
    · intro fd ip port e
      rw [← hact] at e
      cases e
      exact ⟨_, h.cfg hi, rfl, rfl⟩
    · intro v t m e; rw [← hact] at e; cases e
    · intro y hy
      refine h.names y ?_
      rcases hy with hy | hy
      · rcases List.mem_cons.mp hy with c | c
        · rw [← hact] at c; cases c
        · exact .inl c
      · rcases List.mem_cons.mp hy with c | c
        · rw [← hact] at c; cases c
        · exact .inr c
    · intro y hy
      refine ⟨fun hc => ?_, (h.live y hy).2⟩
      rcases List.mem_cons.mp hc with c | c
      · rw [← hact] at c; cases c
      · exact (h.live y hy).1 c
    · intro c
      obtain ⟨a, y, b, d⟩ := h.shook c
      exact ⟨a, y, b, List.mem_cons_of_mem _ d⟩
    · show (doneOf (since (a :: w.acts))).Sublist (acceptedOf (since (a :: w.acts))); rw [ha, hd]; exact h.sub
    · intro c; show acceptedOf (since (a :: w.acts)) = doneOf (since (a :: w.acts)) ++ _; rw [ha, hd]; exact h.all c
  unfold connectNet
  dsimp only
  split
  · refine ⟨h1.sec, h1.tgt, h1.pubs, fun c => ?_, h1.cfg, h1.names, h1.live, ?_, h1.sub, fun _ => h1.all (.inl hp), ?_⟩
    · have : w.cl.initialized = false := c
      rw [hi] at this; cases this
    · intro c; simp [phase] at c
    · intro c; simp [phase] at c
  · split
    · exact h1
    · exact inv_phase_down h1 _ hi (.inl rfl)

theorem inv_net {w : W} (h : Inv w) (hi : w.cl.initialized = true) (hp : w.cl.ph = .net) (e : PollEnv) : Inv (net w e) := by
  unfold net
  split
  · split
    · exact inv_phase_down (w := { w with cl := { w.cl with fd := e.sk } }) (inv_other h rfl rfl rfl rfl rfl rfl rfl rfl rfl rfl) _ hi (.inl rfl)
    · exact inv_connectNet (w := { w with cl := { w.cl with fd := e.sk }, g := { w.g with live := e.sk :: w.g.live } }) (inv_other h rfl rfl rfl rfl rfl rfl rfl rfl rfl rfl) hi hp _
  · exact inv_connectNet h hi hp _

theorem inv_handshake {w : W} (h : Inv w) (hi : w.cl.initialized = true) (hp : w.cl.ph = .tls) {x : Nat} (hx : w.cl.ssl = some x) (hs : Hs) :
    Inv (handshake w x hs) := by
  unfold handshake
  cases hs with
  | want => exact h
  | fail => exact inv_phase_down h _ hi (.inl rfl)
  | ok =>
    dsimp only
    have es : since (Act.shook x :: w.acts) = .shook x :: since w.acts := since_cons _ nofun
    have ha : acceptedOf (since (Act.shook x :: w.acts)) = acceptedOf (since w.acts) := by rw [es, acceptedOf_cons]; exact List.append_nil _
    have hd : doneOf (since (Act.shook x :: w.acts)) = doneOf (since w.acts) := by rw [es, doneOf_cons]; exact List.append_nil _
    have hl := h.live x hx
    refine ⟨⟨fun v c e => (by cases e), h.sec⟩, ⟨fun a b c e => (by cases e), h.tgt⟩, ⟨fun v t m e => (by cases e), h.pubs⟩, fun c => ?_, h.cfg, ?_, ?_, ?_, ?_, ?_, ?_⟩
    · have : w.cl.initialized = false := c
      rw [hi] at this; cases this
    · intro y hy
      rcases hy with hy | hy
      · rcases List.mem_cons.mp hy with c | c
        · cases c; exact hl.2
        · exact h.names y (.inl c)
      · rcases List.mem_cons.mp hy with c | c
        · cases c
        · exact h.names y (.inr c)
    · intro y hy
      refine ⟨fun hc => ?_, (h.live y hy).2⟩
      rcases List.mem_cons.mp hc with c | c
      · cases c
      · exact (h.live y hy).1 c
    · exact fun _ => ⟨rfl, x, hx, List.mem_cons_self ..⟩
    · show (doneOf (since (Act.shook x :: w.acts))).Sublist (acceptedOf (since (Act.shook x :: w.acts))); rw [ha, hd]; exact h.sub
    · intro _; show acceptedOf (since (Act.shook x :: w.acts)) = doneOf (since (Act.shook x :: w.acts)) ++ _; rw [ha, hd]; exact h.all (.inr (.inl hp))
    · intro c; cases c

theorem inv_tls {w : W} (h : Inv w) (hi : w.cl.initialized = true) (hp : w.cl.ph = .tls) (e : PollEnv) : Inv (tls w e) := by
  unfold tls
  cases hx : w.cl.ssl with
  | some x => exact inv_handshake h hi hp hx _
  | none =>
    dsimp only
    split
    · exact inv_phase_down h _ hi (.inl rfl)
    · refine inv_handshake (w := { w with
        cl := { w.cl with ssl := some w.nextSsl }, nextSsl := w.nextSsl + 1
        ops := .sslIO w.nextSsl w.cl.tctx w.cl.fd :: w.ops, acts := .made w.nextSsl :: w.acts }) ?_ hi hp rfl _
      have es : since (Act.made w.nextSsl :: w.acts) = .made w.nextSsl :: since w.acts := since_cons _ nofun
      have ha : acceptedOf (since (Act.made w.nextSsl :: w.acts)) = acceptedOf (since w.acts) := by rw [es, acceptedOf_cons]; exact List.append_nil _
      have hd : doneOf (since (Act.made w.nextSsl :: w.acts)) = doneOf (since w.acts) := by rw [es, doneOf_cons]; exact List.append_nil _
      have nf : Act.freed w.nextSsl ∉ Act.made w.nextSsl :: w.acts := by
        intro c
        rcases List.mem_cons.mp c with c | c
        · cases c
        · exact absurd (h.names _ (.inr c)) (Nat.lt_irrefl _)
      refine ⟨⟨fun v c e => (by cases e), h.sec⟩, ⟨fun a b c e => (by cases e), h.tgt⟩, ⟨fun v t m e => (by cases e), h.pubs⟩, fun c => ?_, h.cfg, ?_, ?_, ?_, ?_, ?_, h.pub⟩
      · have : w.cl.initialized = false := c
        rw [hi] at this; cases this
      · intro y hy
        refine Nat.lt_succ_of_lt (h.names y ?_)
        rcases hy with hy | hy
        · rcases List.mem_cons.mp hy with c | c
          · cases c
          · exact .inl c
        · rcases List.mem_cons.mp hy with c | c
          · cases c
          · exact .inr c
      · intro y hy
        cases hy
        exact ⟨nf, Nat.lt_succ_self _⟩
      · intro c
        have hp : w.cl.ph = .tls := hp
        dsimp only at c
        rw [hp] at c
        simp at c
      · show (doneOf (since (Act.made w.nextSsl :: w.acts))).Sublist (acceptedOf (since (Act.made w.nextSsl :: w.acts))); rw [ha, hd]; exact h.sub
      · intro c; show acceptedOf (since (Act.made w.nextSsl :: w.acts)) = doneOf (since (Act.made w.nextSsl :: w.acts)) ++ _; rw [ha, hd]; exact h.all c

theorem inv_up {w : W} (h : Inv w) (hi : w.cl.initialized = true) (hp : w.cl.ph = .mqtt ∨ w.cl.ph = .connected) (hs : Bool) :
    Inv { phase w .connected with sent := hs } := by
  refine ⟨h.sec, h.tgt, h.pubs, fun c => ?_, h.cfg, h.names, h.live, ?_, h.sub, ?_, ?_⟩
  · have : w.cl.initialized = false := c
    rw [hi] at this; cases this
  · exact fun _ => h.shook (hp.elim .inl fun x => .inr (.inl x))
  · exact fun _ => h.all (hp.elim (fun x => .inr (.inr (.inl x))) fun x => .inr (.inr (.inr (.inl x))))
  · intro c; cases c

theorem inv_mqttConnect {w : W} (h : Inv w) (hi : w.cl.initialized = true) (hp : w.cl.ph = .mqtt) (a : Lib) : Inv (mqttConnect w a) := by
  unfold mqttConnect
  dsimp only
  generalize hw : (if w.sent = true then w
    else { w with cl := { w.cl with conn := { keep := w.cl.cfg.keep, clean := true, id := some w.cl.cfg.id } }, sent := true }) = w1
  have h1 : Inv w1 ∧ w1.cl.initialized = true ∧ w1.cl.ph = .mqtt := by
    rw [← hw]
    split
    · exact ⟨h, hi, hp⟩
    · exact ⟨inv_other h rfl rfl rfl rfl rfl rfl rfl rfl rfl rfl, hi, hp⟩
  have h2 := inv_called h1.1 h1.2.1 (.connect w1.cl.conn) (.inl h1.2.2) (by intro t m c; cases c)
  unfold connectAns
  cases a with
  | again => exact h2
  | ok => exact inv_up h2 h1.2.1 (.inl h1.2.2) _
  | timeout => exact inv_other (inv_phase_down h2 .error h1.2.1 (.inl rfl)) rfl rfl rfl rfl rfl rfl rfl rfl rfl rfl
  | err => exact inv_other (inv_phase_down h2 .error h1.2.1 (.inl rfl)) rfl rfl rfl rfl rfl rfl rfl rfl rfl rfl

theorem inv_connected {w : W} (h : Inv w) (hi : w.cl.initialized = true) (hp : w.cl.ph = .connected) (a : Lib) : Inv (connected w a) := by
  unfold connected
  dsimp only
  generalize hw : (if w.cl.pending = true then
      { w with cl := { w.cl with pub := some (w.cl.cfg.topic, w.cl.msg.length), ph := .publishing } } else w) = w1
  have h1 : Inv w1 ∧ w1.cl.initialized = true ∧ (w1.cl.ph = .connected ∨ w1.cl.ph = .publishing) := by
    rw [← hw]
    split
    · next hpe =>
      refine ⟨⟨h.sec, h.tgt, h.pubs, fun c => ?_, h.cfg, h.names, h.live, fun _ => h.shook (.inr (.inl hp)), h.sub,
        fun _ => h.all (.inr (.inr (.inr (.inl hp)))), fun _ => ⟨hpe, rfl⟩⟩, hi, .inr rfl⟩
      have : w.cl.initialized = false := c
      rw [hi] at this; cases this
    · exact ⟨h, hi, .inl hp⟩
  have h2 := inv_called h1.1 h1.2.1 .wait (h1.2.2.elim (fun x => .inr (.inl x)) fun x => .inr (.inr (.inl x))) (by intro t m c; cases c)
  cases a with
  | err => exact inv_phase_down h2 _ h1.2.1 (.inl rfl)
  | ok => exact h2
  | again => exact h2
  | timeout => exact h2

theorem inv_publishing {w : W} (h : Inv w) (hi : w.cl.initialized = true) (hp : w.cl.ph = .publishing) (a : Lib) : Inv (publishing w a) := by
  obtain ⟨p1, p2⟩ := h.pub hp
  have hc : pubCall w.cl = .publish w.cl.cfg.topic w.cl.msg := by unfold pubCall; rw [p2]; dsimp only; rw [List.take_length]
  have h2 := inv_called h hi (pubCall w.cl) (.inr (.inr (.inl hp))) (by rw [hc]; intro t m c; cases c; exact ⟨hp, rfl, rfl⟩)
  have down : Inv (phase { called w (pubCall w.cl) with cl := { (called w (pubCall w.cl)).cl with pending := false } } .error) := by
    refine ⟨h2.sec, h2.tgt, h2.pubs, fun c => ?_, h2.cfg, h2.names, h2.live, ?_, h2.sub, ?_, ?_⟩
    · have : w.cl.initialized = false := c
      rw [hi] at this; cases this
    · intro c; simp [phase] at c
    · intro c; simp [phase] at c
    · intro c; cases c
  unfold publishing
  dsimp only
  cases a with
  | again => exact h2
  | timeout => exact down
  | err => exact down
  | ok =>
    dsimp only
    have hi1 : (called w (pubCall w.cl)).cl.initialized = true := hi
    have hp1 : (called w (pubCall w.cl)).cl.ph = .publishing := hp
    generalize called w (pubCall w.cl) = w1 at h2 hi1 hp1
    have es : since (Act.done w1.cl.msg :: w1.acts) = .done w1.cl.msg :: since w1.acts := since_cons _ nofun
    have ha : acceptedOf (since (Act.done w1.cl.msg :: w1.acts)) = acceptedOf (since w1.acts) := by rw [es, acceptedOf_cons]; exact List.append_nil _
    have hd : doneOf (since (Act.done w1.cl.msg :: w1.acts)) = doneOf (since w1.acts) ++ [w1.cl.msg] := by rw [es, doneOf_cons]; rfl
    have hall := h2.all (.inr (.inr (.inr (.inr hp1))))
    rw [(h2.pub hp1).1, if_pos rfl] at hall
    refine ⟨⟨fun v c e => (by cases e), h2.sec⟩, ⟨fun a b c e => (by cases e), h2.tgt⟩, ⟨fun v t m e => (by cases e), h2.pubs⟩, fun c => ?_, h2.cfg, ?_, ?_, ?_, ?_, ?_, ?_⟩
    · have : w1.cl.initialized = false := c
      rw [hi1] at this; cases this
    · intro y hy
      refine h2.names y ?_
      rcases hy with hy | hy
      · rcases List.mem_cons.mp hy with c | c
        · cases c
        · exact .inl c
      · rcases List.mem_cons.mp hy with c | c
        · cases c
        · exact .inr c
    · intro y hy
      refine ⟨fun hc => ?_, (h2.live y hy).2⟩
      rcases List.mem_cons.mp hc with c | c
      · cases c
      · exact (h2.live y hy).1 c
    · intro _
      obtain ⟨a, y, b, d⟩ := h2.shook (.inr (.inr (.inl hp1)))
      exact ⟨a, y, b, List.mem_cons_of_mem _ d⟩
    · show (doneOf (since (Act.done w1.cl.msg :: w1.acts))).Sublist (acceptedOf (since (Act.done w1.cl.msg :: w1.acts)))
      rw [ha, hd, hall]
      exact List.Sublist.refl _
    · intro _
      show acceptedOf (since (Act.done w1.cl.msg :: w1.acts)) = doneOf (since (Act.done w1.cl.msg :: w1.acts)) ++ []
      rw [ha, hd, hall, List.append_nil]
    · intro c; cases c

/-- Freeing the session, releasing the rest and going idle. -/
theorem inv_freeSsl {w : W} (h : Inv w) (hi : w.cl.initialized = true) :
    Inv (phase (freeSsl w) .idle) := by
  unfold freeSsl
  cases hx : w.cl.ssl with
  | none => exact inv_phase_down h _ hi (.inr rfl)
  | some x =>
    dsimp only
    have hl := h.live x hx
    have es : since (Act.freed x :: w.acts) = .freed x :: since w.acts := since_cons _ nofun
    have ha : acceptedOf (since (Act.freed x :: w.acts)) = acceptedOf (since w.acts) := by rw [es, acceptedOf_cons]; exact List.append_nil _
    have hd : doneOf (since (Act.freed x :: w.acts)) = doneOf (since w.acts) := by rw [es, doneOf_cons]; exact List.append_nil _
    refine ⟨⟨fun v c e => (by cases e), h.sec⟩, ⟨fun a b c e => (by cases e), h.tgt⟩, ⟨fun v t m e => (by cases e), h.pubs⟩, fun c => ?_, h.cfg, ?_, fun y c => (by cases c), ?_, ?_, ?_, ?_⟩
    · have : w.cl.initialized = false := c
      rw [hi] at this; cases this
    · intro y hy
      rcases hy with hy | hy
      · rcases List.mem_cons.mp hy with c | c
        · cases c
        · exact h.names y (.inl c)
      · rcases List.mem_cons.mp hy with c | c
        · cases c; exact hl.2
        · exact h.names y (.inr c)
    · intro c; simp [phase] at c
    · show (doneOf (since (Act.freed x :: w.acts))).Sublist (acceptedOf (since (Act.freed x :: w.acts))); rw [ha, hd]; exact h.sub
    · intro c; simp [phase] at c
    · intro c; cases c

/-- `releaseIo` touches neither trace nor session nor message. -/
theorem releaseIo_keeps (w : W) : (releaseIo w).acts = w.acts ∧ (releaseIo w).cl.initialized = w.cl.initialized ∧ (releaseIo w).cl.ph = w.cl.ph ∧
    (releaseIo w).cl.ssl = w.cl.ssl ∧ (releaseIo w).cl.cfg = w.cl.cfg ∧ (releaseIo w).nextSsl = w.nextSsl ∧ (releaseIo w).cl.tlsCb = w.cl.tlsCb ∧
    (releaseIo w).cl.pending = w.cl.pending ∧ (releaseIo w).cl.msg = w.cl.msg ∧ (releaseIo w).cl.pub = w.cl.pub := by
  unfold releaseIo
  dsimp only
  by_cases hf : 0 ≤ w.cl.fd
  · rw [if_pos hf]
    cases w.cl.io <;> exact ⟨rfl, rfl, rfl, rfl, rfl, rfl, rfl, rfl, rfl, rfl⟩
  · rw [if_neg hf]
    cases w.cl.io <;> exact ⟨rfl, rfl, rfl, rfl, rfl, rfl, rfl, rfl, rfl, rfl⟩

theorem inv_down {w : W} (h : Inv w) (hi : w.cl.initialized = true) : Inv (phase (releaseIo (freeSsl w)) .idle) := by
  obtain ⟨a1, a2, a3, a4, a5, a6, a7, a8, a9, a10⟩ := releaseIo_keeps (freeSsl w)
  exact inv_other (inv_freeSsl h hi) a1 a2 rfl a4 a5 a6 a7 a8 a9 a10

theorem inv_disconnecting {w : W} (h : Inv w) (hi : w.cl.initialized = true) (hp : w.cl.ph = .disconnecting) (a : Lib) : Inv (disconnecting w a) := by
  have h2 := inv_called h hi .disconnect (.inr (.inr (.inr hp))) (by intro t m c; cases c)
  unfold disconnecting
  cases a with
  | again => exact h2
  | ok => exact inv_down h2 hi
  | timeout => exact inv_down h2 hi
  | err => exact inv_down h2 hi

theorem inv_failed {w : W} (h : Inv w) (hi : w.cl.initialized = true) : Inv (failed w) := by
  have h2 := inv_down h hi
  have hi2 : (phase (releaseIo (freeSsl w)) .idle).cl.initialized = true := by
    show (releaseIo (freeSsl w)).cl.initialized = true
    rw [(releaseIo_keeps _).2.1]
    unfold freeSsl
    cases w.cl.ssl <;> exact hi
  unfold failed
  dsimp only
  refine ⟨h2.sec, h2.tgt, h2.pubs, fun c => ?_, h2.cfg, h2.names, h2.live, ?_, h2.sub, ?_, ?_⟩
  · have : (phase (releaseIo (freeSsl w)) .idle).cl.initialized = false := c
    rw [hi2] at this; cases this
  · intro c; simp [phase] at c
  · intro c; simp [phase] at c
  · intro c; cases c

theorem inv_poll {w : W} (h : Inv w) (e : PollEnv) : Inv (poll w e).1 := by
  unfold poll
  by_cases hi : w.cl.initialized = false
  · rw [if_pos hi]; exact h
  · rw [if_neg hi]
    have hi : w.cl.initialized = true := by simpa using hi
    cases hp : w.cl.ph with
    | idle => exact h
    | net => exact inv_net h hi hp e
    | tls => exact inv_tls h hi hp e
    | mqtt => exact inv_mqttConnect h hi hp _
    | connected => exact inv_connected h hi hp _
    | publishing => exact inv_publishing h hi hp _
    | disconnecting => exact inv_disconnecting h hi hp _
    | error => exact inv_failed h hi

theorem inv_publish {w : W} (h : Inv w) (m : Option Txt) : Inv (publish w m).1 := by
  unfold publish
  split
  · exact h
  · split
    · exact h
    · split
      · exact h
      · next hi hp hpe =>
        have hp : w.cl.ph = .connected := Classical.not_not.mp hp
        cases m with
        | none => exact h
        | some m =>
          dsimp only
          split
          · exact h
          · next hm =>
            have em : m.take 127 = m := List.take_of_length_le (by omega)
            have es : since (Act.accepted m :: w.acts) = .accepted m :: since w.acts := since_cons _ nofun
            have ha : acceptedOf (since (Act.accepted m :: w.acts)) = acceptedOf (since w.acts) ++ [m] := by rw [es, acceptedOf_cons]; rfl
            have hd : doneOf (since (Act.accepted m :: w.acts)) = doneOf (since w.acts) := by rw [es, doneOf_cons]; exact List.append_nil _
            have hall := h.all (.inr (.inr (.inr (.inl hp))))
            rw [if_neg hpe, List.append_nil] at hall
            refine ⟨⟨fun v c e => (by cases e), h.sec⟩, ⟨fun a b c e => (by cases e), h.tgt⟩, ⟨fun v t m e => (by cases e), h.pubs⟩, h.off, h.cfg, ?_, ?_, ?_, ?_, ?_, ?_⟩
            · intro y hy
              refine h.names y ?_
              rcases hy with hy | hy
              · rcases List.mem_cons.mp hy with c | c
                · cases c
                · exact .inl c
              · rcases List.mem_cons.mp hy with c | c
                · cases c
                · exact .inr c
            · intro y hy
              refine ⟨fun hc => ?_, (h.live y hy).2⟩
              rcases List.mem_cons.mp hc with c | c
              · cases c
              · exact (h.live y hy).1 c
            · intro c
              obtain ⟨a, y, b, d⟩ := h.shook c
              exact ⟨a, y, b, List.mem_cons_of_mem _ d⟩
            · show (doneOf (since (Act.accepted m :: w.acts))).Sublist (acceptedOf (since (Act.accepted m :: w.acts)))
              rw [ha, hd]
              exact h.sub.trans (List.sublist_append_left ..)
            · intro _
              show acceptedOf (since (Act.accepted m :: w.acts)) = doneOf (since (Act.accepted m :: w.acts)) ++ [m.take 127]
              rw [ha, hd, em, hall]
            · intro c
              have c : w.cl.ph = .publishing := c
              rw [hp] at c; cases c

theorem inv_disconnect {w : W} (h : Inv w) : Inv (disconnect w).1 := by
  unfold disconnect
  split
  · exact h
  · next hi =>
    split
    · next hp =>
      refine ⟨h.sec, h.tgt, h.pubs, fun c => absurd c hi, h.cfg, h.names, h.live, fun _ => h.shook (hp.elim (fun x => .inr (.inl x)) fun x => .inr (.inr (.inl x))), h.sub, ?_, ?_⟩
      · intro c; simp [phase] at c
      · intro c; cases c
    · exact h

theorem inv_step (st : Nat) {w : W} (h : Inv w) (e : Ev) : Inv (step st w e) := by
  cases e with
  | init r e => exact inv_init st h r e
  | poll e => exact inv_poll h e
  | publish m => exact inv_publish h m
  | disconnect => exact inv_disconnect h

theorem inv_run (st : Nat) : ∀ (es : List Ev) {w : W}, Inv w → Inv (run st w es)
  | [], _, h => h
  | e :: es, _, h => inv_run st es (inv_step st h e)

theorem inv_boot : Inv boot :=
  ⟨trivial, trivial, trivial, fun _ => ⟨rfl, rfl⟩, fun c => (by cases c), fun x c => (by rcases c with c | c <;> cases c), fun x c => (by cases c),
    fun c => (by simp [boot] at c), List.Sublist.refl _, fun c => (by simp [boot] at c), fun c => (by cases c)⟩

/-- **C132, nothing in clear.** After every history of starts (in any state), polls, publications and disconnections, and
whatever the stack, wolfSSL and wolfMQTT answered: every MQTT packet was sent through a TLS session whose handshake was
complete and that had not been freed. -/
theorem mqtt_secure (st : Nat) (es : List Ev) : Secure (run st boot es).acts := (inv_run st es inv_boot).sec

/-- **C132, address.** Every connection attempt goes to the address and port of the configuration in force. -/
theorem mqtt_target (st : Nat) (es : List Ev) : Targets (run st boot es).acts := (inv_run st es inv_boot).tgt

/-- **C132, messages.** Every PUBLISH carries, under the configured topic, the message accepted last (whole and
unchanged), and none that was already delivered; messages are completed in the order they were accepted, none twice. -/
theorem mqtt_publishes (st : Nat) (es : List Ev) :
    Publishes (run st boot es).acts ∧
    (doneOf (since (run st boot es).acts)).Sublist (acceptedOf (since (run st boot es).acts)) :=
  ⟨(inv_run st es inv_boot).pubs, (inv_run st es inv_boot).sub⟩

/-- **C132, none is lost while the connection lives.** As long as the client is connected, every message it accepted since
it was started has been completed, but for at most one that it still holds. -/
theorem mqtt_none_lost (st : Nat) (es : List Ev) (hc : isConnected (run st boot es) = true) :
    acceptedOf (since (run st boot es).acts) = doneOf (since (run st boot es).acts) ++
      (if (run st boot es).cl.pending then [(run st boot es).cl.msg] else []) := by
  refine (inv_run st es inv_boot).all ?_
  unfold isConnected at hc
  simp only [Bool.or_eq_true, beq_iff_eq] at hc
  exact .inr (.inr (.inr hc))

/-- … and two polls that find the broker ready complete it. -/
theorem mqtt_delivers (w : W) (m : Txt) (e e' : PollEnv) (hi : w.cl.initialized = true) (hp : w.cl.ph = .connected) (hn : w.cl.pending = false)
    (hm : m.length < 128) (he : e.lib ≠ .err) (he' : e'.lib = .ok) :
    (publish w (some m)).2 = 0 ∧
    ∃ l, (poll (poll (publish w (some m)).1 e).1 e').1.acts = .done m :: l ∧ (poll (poll (publish w (some m)).1 e).1 e').1.cl.ph = .connected ∧
      (poll (poll (publish w (some m)).1 e).1 e').1.cl.pending = false := by
  have em : m.take 127 = m := List.take_of_length_le (by omega)
  have h1 : publish w (some m) = ({ w with cl := { w.cl with msg := m, pending := true }, acts := .accepted m :: w.acts }, 0) := by
    unfold publish
    rw [if_neg (by rw [hi]; simp), if_neg (by rw [hp]; simp), if_neg (by rw [hn]; simp)]
    dsimp only
    rw [if_neg (by omega), em]
  rw [h1]
  refine ⟨rfl, ?_⟩
  dsimp only
  generalize hw : ({ w with cl := { w.cl with msg := m, pending := true }, acts := .accepted m :: w.acts } : W) = w1
  have a1 : w1.cl.initialized = true := by rw [← hw]; exact hi
  have a2 : w1.cl.ph = .connected := by rw [← hw]; exact hp
  have a3 : w1.cl.pending = true := by rw [← hw]
  have a4 : w1.cl.msg = m := by rw [← hw]
  have h2 : (poll w1 e).1 = called { w1 with cl := { w1.cl with pub := some (w1.cl.cfg.topic, w1.cl.msg.length), ph := .publishing } } .wait := by
    unfold poll
    rw [if_neg (by rw [a1]; simp), a2]
    dsimp only
    unfold connected
    rw [if_pos a3]
    dsimp only
    cases hl : e.lib with
    | err => exact absurd hl he
    | _ => rfl
  rw [h2]
  generalize hw2 : called { w1 with cl := { w1.cl with pub := some (w1.cl.cfg.topic, w1.cl.msg.length), ph := .publishing } } .wait = w2
  have b1 : w2.cl.initialized = true := by rw [← hw2]; exact a1
  have b2 : w2.cl.ph = .publishing := by rw [← hw2]; rfl
  have b4 : w2.cl.msg = m := by rw [← hw2]; exact a4
  have h3 : (poll w2 e').1 = publishing w2 .ok := by
    unfold poll
    rw [if_neg (by rw [b1]; simp), b2, he']
  rw [h3]
  refine ⟨(called w2 (pubCall w2.cl)).acts, ?_, rfl, rfl⟩
  show Act.done w2.cl.msg :: _ = _
  rw [b4]

end Wolf.MqttC
