import Verif.Mqtt.Props
import Verif.Tls.ClientLeak
/-! # C132: what the MQTT client holds, and what goes wrong -/
namespace Wolf.MqttC
open Wolf.Glue (Op)

/-! ## Sockets are closed once -/

/-- No stray close so far; the socket of the client is open. -/
structure HInv (w : W) : Prop where
  nostray : w.g.stray = false
  fd : 0 ≤ w.cl.fd → w.cl.fd ∈ w.g.live

theorem setFd_live (g : Glue.Mqtt.St) (io : Option Nat) (fd : Int) : (setFd g io fd).live = g.live ∧ (setFd g io fd).stray = g.stray := by
  unfold setFd; cases io <;> exact ⟨rfl, rfl⟩

/-- A descriptor without socket is released without closing anything. -/
theorem cleanup_quiet {g : Glue.Mqtt.St} {i : Nat} (h : ∀ d, g.descs[i]? = some d → d.fd < 0) :
    (Glue.Mqtt.cleanup g i).live = g.live ∧ (Glue.Mqtt.cleanup g i).stray = g.stray := by
  unfold Glue.Mqtt.cleanup
  cases hd : g.descs[i]? with
  | none => exact ⟨rfl, rfl⟩
  | some d =>
    dsimp only
    have := h d hd
    rw [if_neg (by omega)]
    exact ⟨rfl, rfl⟩

theorem setFd_desc {g : Glue.Mqtt.St} {i : Nat} {fd : Int} {d : Glue.Mqtt.Desc} (h : (setFd g (some i) fd).descs[i]? = some d) : d.fd = fd := by
  unfold setFd at h
  dsimp only at h
  rw [List.getElem?_modify] at h
  simp only [if_pos] at h
  cases hd : g.descs[i]? with
  | none => rw [hd] at h; cases h
  | some e => rw [hd] at h; cases h; rfl

theorem initFrom_get {l : List Glue.Mqtt.Desc} {i : Nat} (h : Glue.Mqtt.initFrom l 0 = some i) : ∃ d, l[i]? = some d ∧ d.inUse = false := by
  obtain ⟨j, d, h1, h2, h3⟩ := Glue.Mqtt.initFrom_some h
  exact ⟨d, by rw [h1, Nat.zero_add]; exact h2, h3⟩

theorem releaseIo_hold {w : W} (h : HInv w) : HInv (releaseIo w) ∧ (releaseIo w).cl.fd < 0 ∧ (releaseIo w).cl.io = none ∧
    (releaseIo w).g.live = (if 0 ≤ w.cl.fd then w.g.live.filter (· ≠ w.cl.fd) else w.g.live) := by
  obtain ⟨l1, l2⟩ := setFd_live w.g w.cl.io (-1)
  have key : ∀ w1 : W, w1.cl.io = w.cl.io → w1.cl.fd < 0 → w1.g.stray = false → (∀ i d, w.cl.io = some i → w1.g.descs[i]? = some d → d.fd < 0) →
      let r : W := match w1.cl.io with | none => w1 | some i => { w1 with g := Glue.Mqtt.cleanup w1.g i, cl := { w1.cl with io := none } }
      HInv r ∧ r.cl.fd < 0 ∧ r.cl.io = none ∧ r.g.live = w1.g.live := by
    intro w1 e1 e2 e3 e4
    cases hio : w1.cl.io with
    | none => exact ⟨⟨e3, fun c => (by have c : 0 ≤ w1.cl.fd := c; omega)⟩, e2, hio, rfl⟩
    | some i =>
      dsimp only
      obtain ⟨c1, c2⟩ := cleanup_quiet (g := w1.g) (i := i) (fun d hd => e4 i d (by rw [← e1]; exact hio) hd)
      exact ⟨⟨by rw [c2]; exact e3, fun c => (by have c : 0 ≤ w1.cl.fd := c; omega)⟩, e2, rfl, c1⟩
  have hd : ∀ i d, w.cl.io = some i → (setFd w.g w.cl.io (-1)).descs[i]? = some d → d.fd < 0 := by
    intro i d hio hd
    rw [hio] at hd
    rw [setFd_desc hd]; decide
  unfold releaseIo
  dsimp only
  by_cases hf : 0 ≤ w.cl.fd
  · rw [if_pos hf, if_pos hf]
    have hm := h.fd hf
    have hclose : (setFd w.g w.cl.io (-1)).close w.cl.fd = { setFd w.g w.cl.io (-1) with live := w.g.live.filter (· ≠ w.cl.fd) } := by
      unfold Glue.Mqtt.St.close
      rw [l1, if_pos hm]
    have := key { w with g := (setFd w.g w.cl.io (-1)).close w.cl.fd, cl := { w.cl with fd := -1 } } rfl (by show (-1 : Int) < 0; decide)
      (by show ((setFd w.g w.cl.io (-1)).close w.cl.fd).stray = false; rw [hclose]; show (setFd w.g w.cl.io (-1)).stray = false; rw [l2]; exact h.nostray)
      (by intro i d h1 h2; refine hd i d h1 ?_
          have h2 : ((setFd w.g w.cl.io (-1)).close w.cl.fd).descs[i]? = some d := h2
          rw [hclose] at h2; exact h2)
    refine ⟨this.1, this.2.1, this.2.2.1, this.2.2.2.trans ?_⟩
    show ((setFd w.g w.cl.io (-1)).close w.cl.fd).live = _
    rw [hclose]
  · rw [if_neg hf, if_neg hf]
    have := key { w with g := setFd w.g w.cl.io (-1) } rfl (by show w.cl.fd < 0; omega) (by show (setFd w.g w.cl.io (-1)).stray = false; rw [l2]; exact h.nostray) hd
    refine ⟨this.1, this.2.1, this.2.2.1, this.2.2.2.trans l1⟩

theorem freeSsl_same (w : W) : (freeSsl w).g = w.g ∧ (freeSsl w).cl.fd = w.cl.fd ∧ (freeSsl w).cl.io = w.cl.io ∧ (freeSsl w).cl.ssl = none ∧
    (freeSsl w).cl.initialized = w.cl.initialized ∧ (freeSsl w).sent = w.sent ∧ (freeSsl w).ops = w.ops := by
  unfold freeSsl
  cases h : w.cl.ssl with
  | none => exact ⟨rfl, rfl, rfl, h, rfl, rfl, rfl⟩
  | some x => exact ⟨rfl, rfl, rfl, rfl, rfl, rfl, rfl⟩

theorem hinv_down {w : W} (h : HInv w) : HInv (releaseIo (freeSsl w)) := by
  obtain ⟨e1, e2, _⟩ := freeSsl_same w
  exact (releaseIo_hold ⟨by rw [e1]; exact h.nostray, by rw [e1, e2]; exact h.fd⟩).1

theorem hinv_connectNet {w : W} (h : HInv w) (cn : Int) : HInv (connectNet w cn) := by
  unfold connectNet
  dsimp only
  split
  · obtain ⟨a, b⟩ := setFd_live w.g w.cl.io w.cl.fd
    exact ⟨by show (setFd w.g w.cl.io w.cl.fd).stray = false; rw [b]; exact h.nostray,
      fun c => by show w.cl.fd ∈ (setFd w.g w.cl.io w.cl.fd).live; rw [a]; exact h.fd c⟩
  · split <;> exact ⟨h.nostray, h.fd⟩

theorem hinv_step (st : Nat) {w : W} (h : HInv w) (ev : Ev) : HInv (step st w ev) := by
  cases ev with
  | init r e =>
    show HInv (init st w r e).1
    unfold init Glue.Mqtt.init
    cases hi : Glue.Mqtt.initFrom w.g.descs 0 with
    | none => exact ⟨h.nostray, fun c => (by have c : (0 : Int) ≤ -1 := c; omega)⟩
    | some i =>
      dsimp only
      split
      · have q := cleanup_quiet (g := { w.g with descs := w.g.descs.set i ⟨true, -1, true, false⟩ }) (i := i) (by
          intro d hd
          rcases Glue.Mqtt.get_set hd with ⟨-, e⟩ | ⟨hne, -⟩
          · rw [e]; decide
          · exact absurd rfl hne)
        exact ⟨by show (Glue.Mqtt.cleanup _ i).stray = false; rw [q.2]; exact h.nostray, fun c => (by have c : (0 : Int) ≤ -1 := c; omega)⟩
      · exact ⟨h.nostray, fun c => (by have c : (0 : Int) ≤ -1 := c; omega)⟩
  | publish m =>
    show HInv (publish w m).1
    unfold publish
    split
    · exact h
    split
    · exact h
    split
    · exact h
    cases m with
    | none => exact h
    | some m => dsimp only; split <;> exact ⟨h.nostray, h.fd⟩
  | disconnect =>
    show HInv (disconnect w).1
    unfold disconnect
    split
    · exact h
    split <;> exact ⟨h.nostray, h.fd⟩
  | poll e =>
    show HInv (poll w e).1
    unfold poll
    split
    · exact h
    cases hp : w.cl.ph with
    | idle => exact h
    | net =>
      dsimp only
      unfold net
      split
      · split
        · exact ⟨h.nostray, fun c => (by have c : 0 ≤ e.sk := c; omega)⟩
        · exact hinv_connectNet (w := { w with cl := { w.cl with fd := e.sk }, g := { w.g with live := e.sk :: w.g.live } })
            ⟨h.nostray, fun _ => List.mem_cons_self⟩ _
      · exact hinv_connectNet h _
    | tls =>
      dsimp only
      unfold tls
      have hh : ∀ (w' : W) (x : Nat), HInv w' → HInv (handshake w' x e.hs) := by
        intro w' x h'
        unfold handshake
        cases e.hs <;> exact ⟨h'.nostray, h'.fd⟩
      split
      · exact hh _ _ h
      · split
        · exact ⟨h.nostray, h.fd⟩
        · exact hh _ _ ⟨h.nostray, h.fd⟩
    | mqtt =>
      dsimp only
      unfold mqttConnect
      dsimp only
      split <;> (unfold connectAns; cases e.lib <;> exact ⟨h.nostray, h.fd⟩)
    | connected =>
      dsimp only
      unfold connected
      dsimp only
      obtain ⟨w1, e1, h1⟩ : ∃ w1 : W, (if w.cl.pending = true then
          { w with cl := { w.cl with pub := some (w.cl.cfg.topic, w.cl.msg.length), ph := .publishing } } else w) = w1 ∧ HInv w1 := by
        refine ⟨_, rfl, ?_⟩
        split
        · exact ⟨h.nostray, h.fd⟩
        · exact h
      rw [e1]
      cases e.lib <;> exact ⟨h1.nostray, h1.fd⟩
    | publishing =>
      dsimp only
      unfold publishing
      cases e.lib <;> exact ⟨h.nostray, h.fd⟩
    | disconnecting =>
      dsimp only
      have hc : HInv (called w .disconnect) := ⟨h.nostray, h.fd⟩
      unfold disconnecting
      cases e.lib with
      | again => exact hc
      | ok => exact ⟨(hinv_down hc).nostray, (hinv_down hc).fd⟩
      | timeout => exact ⟨(hinv_down hc).nostray, (hinv_down hc).fd⟩
      | err => exact ⟨(hinv_down hc).nostray, (hinv_down hc).fd⟩
    | error => exact ⟨(hinv_down h).nostray, (hinv_down h).fd⟩

/-- **C132, no double close.** Whatever happens (restarts of a running client included), the client never closes a
descriptor that is not an open socket of its own. -/
theorem mqtt_no_stray_close (st : Nat) (es : List Ev) : (run st boot es).g.stray = false := by
  have : ∀ (es : List Ev) (w : W), HInv w → HInv (run st w es) := by
    intro es
    induction es with
    | nil => intro w h; exact h
    | cons e es ih => intro w h; exact ih _ (hinv_step st h e)
  exact (this es boot ⟨rfl, fun c => (by have c : (0 : Int) ≤ -1 := c; omega)⟩).nostray

/-! ## Nothing is held at rest -/

def Busy (w : W) : Prop := w.cl.initialized = true ∧ w.cl.ph ≠ .idle

/-- With a client that is started only at rest. -/
structure TInv (w : W) : Prop extends HInv w where
  live : w.g.live = if 0 ≤ w.cl.fd then [w.cl.fd] else []
  len : w.g.descs.length = 2
  own : ∀ (j : Nat) (d : Glue.Mqtt.Desc), w.g.descs[j]? = some d → d.inUse = true → w.cl.io = some j ∧ Busy w
  rest : ¬ Busy w → w.cl.fd < 0 ∧ w.cl.ssl = none
  made : ∀ x, Act.made x ∈ w.acts → Act.freed x ∈ w.acts ∨ w.cl.ssl = some x
  conns : Connects w.acts
  cfg : w.cl.initialized = true → lastCfg w.acts = some w.cl.cfg
  sent : w.sent = true → Busy w ∧ w.cl.ph = .mqtt ∧ w.cl.conn = { keep := w.cl.cfg.keep, clean := true, id := some w.cl.cfg.id }

theorem setFd_own {g : Glue.Mqtt.St} {io : Option Nat} {fd : Int} {j : Nat} {d : Glue.Mqtt.Desc} (h : (setFd g io fd).descs[j]? = some d) :
    ∃ d', g.descs[j]? = some d' ∧ d'.inUse = d.inUse := by
  unfold setFd at h
  cases io with
  | none => exact ⟨d, h, rfl⟩
  | some i =>
    dsimp only at h
    rw [List.getElem?_modify] at h
    cases hd : g.descs[j]? with
    | none => rw [hd] at h; cases h
    | some e =>
      rw [hd] at h
      refine ⟨e, rfl, ?_⟩
      have h := Option.some.inj h
      rw [← h]
      split <;> rfl

theorem setFd_len (g : Glue.Mqtt.St) (io : Option Nat) (fd : Int) : (setFd g io fd).descs.length = g.descs.length := by
  unfold setFd; cases io <;> simp

theorem cleanup_own {g : Glue.Mqtt.St} {i j : Nat} {d : Glue.Mqtt.Desc} (h : (Glue.Mqtt.cleanup g i).descs[j]? = some d) (hu : d.inUse = true) :
    j ≠ i ∧ g.descs[j]? = some d := by
  unfold Glue.Mqtt.cleanup at h
  cases hi : g.descs[i]? with
  | none =>
    rw [hi] at h
    dsimp only at h
    refine ⟨fun c => ?_, h⟩
    rw [c, hi] at h; cases h
  | some e =>
    rw [hi] at h
    dsimp only at h
    have hdescs : (if 0 ≤ e.fd ∧ e.stack = true then g.close e.fd else g).descs = g.descs := by
      split
      · unfold Glue.Mqtt.St.close; split <;> rfl
      · rfl
    rw [hdescs] at h
    rcases Glue.Mqtt.get_set h with ⟨-, e1⟩ | ⟨hne, e1⟩
    · rw [e1] at hu; cases hu
    · exact ⟨fun c => hne c, e1⟩

theorem cleanup_len (g : Glue.Mqtt.St) (i : Nat) : (Glue.Mqtt.cleanup g i).descs.length = g.descs.length := by
  unfold Glue.Mqtt.cleanup
  cases g.descs[i]? with
  | none => rfl
  | some e =>
    dsimp only
    rw [List.length_set]
    split
    · unfold Glue.Mqtt.St.close; split <;> rfl
    · rfl

theorem releaseIo_descs (w : W) : (∀ (j : Nat) (d : Glue.Mqtt.Desc), (releaseIo w).g.descs[j]? = some d → d.inUse = true →
      w.cl.io ≠ some j ∧ ∃ d', w.g.descs[j]? = some d' ∧ d'.inUse = true) ∧ (releaseIo w).g.descs.length = w.g.descs.length ∧
    (releaseIo w).sent = w.sent ∧ (releaseIo w).cl.ssl = w.cl.ssl ∧ (releaseIo w).acts = w.acts := by
  have hcl : ∀ (g : Glue.Mqtt.St) (fd : Int), (g.close fd).descs = g.descs := by
    intro g fd; unfold Glue.Mqtt.St.close; split <;> rfl
  have key : ∀ w1 : W, w1.cl.io = w.cl.io → w1.g.descs = (setFd w.g w.cl.io (-1)).descs → w1.sent = w.sent → w1.cl.ssl = w.cl.ssl → w1.acts = w.acts →
      let r : W := match w1.cl.io with | none => w1 | some i => { w1 with g := Glue.Mqtt.cleanup w1.g i, cl := { w1.cl with io := none } }
      (∀ (j : Nat) (d : Glue.Mqtt.Desc), r.g.descs[j]? = some d → d.inUse = true → w.cl.io ≠ some j ∧ ∃ d', w.g.descs[j]? = some d' ∧ d'.inUse = true) ∧
      r.g.descs.length = w.g.descs.length ∧ r.sent = w.sent ∧ r.cl.ssl = w.cl.ssl ∧ r.acts = w.acts := by
    intro w1 e1 e2 e3 e4 e5
    cases hio : w1.cl.io with
    | none =>
      dsimp only
      refine ⟨?_, by rw [e2, setFd_len], e3, e4, e5⟩
      intro j d hd hu
      rw [e2] at hd
      obtain ⟨d', a, b⟩ := setFd_own hd
      exact ⟨by rw [← e1, hio]; nofun, d', a, by rw [b]; exact hu⟩
    | some i =>
      dsimp only
      refine ⟨?_, by rw [cleanup_len, e2, setFd_len], e3, e4, e5⟩
      intro j d hd hu
      obtain ⟨a, b⟩ := cleanup_own hd hu
      rw [e2] at b
      obtain ⟨d', c, b⟩ := setFd_own b
      exact ⟨by rw [← e1, hio]; intro h; cases h; exact a rfl, d', c, by rw [b]; exact hu⟩
  unfold releaseIo
  dsimp only
  by_cases hf : 0 ≤ w.cl.fd
  · rw [if_pos hf]
    exact key { w with g := (setFd w.g w.cl.io (-1)).close w.cl.fd, cl := { w.cl with fd := -1 } } rfl (hcl _ _) rfl rfl rfl
  · rw [if_neg hf]
    exact key { w with g := setFd w.g w.cl.io (-1) } rfl rfl rfl rfl rfl


theorem tinv_keep {w w' : W} (h : TInv w) (b : Busy w') (g1 : w'.g.live = w.g.live) (g2 : w'.g.stray = w.g.stray)
    (g3 : ∀ (j : Nat) (d : Glue.Mqtt.Desc), w'.g.descs[j]? = some d → d.inUse = true → ∃ d', w.g.descs[j]? = some d' ∧ d'.inUse = true)
    (g4 : w'.g.descs.length = w.g.descs.length) (hfd : w'.cl.fd = w.cl.fd) (hio : w'.cl.io = w.cl.io) (ini : w.cl.initialized = true)
    (hcfg : w'.cl.cfg = w.cl.cfg) (hl : lastCfg w'.acts = lastCfg w.acts)
    (hm : ∀ x, Act.made x ∈ w'.acts → Act.freed x ∈ w'.acts ∨ w'.cl.ssl = some x) (hc : Connects w'.acts)
    (hs : w'.sent = true → w'.cl.ph = .mqtt ∧ w'.cl.conn = { keep := w'.cl.cfg.keep, clean := true, id := some w'.cl.cfg.id }) : TInv w' where
  nostray := by rw [g2]; exact h.nostray
  fd := fun c => by rw [g1, hfd]; exact h.fd (by rw [← hfd]; exact c)
  live := by rw [g1, hfd]; exact h.live
  len := by rw [g4]; exact h.len
  own := fun j d a u => by
    obtain ⟨d', a', u'⟩ := g3 j d a u
    exact ⟨by rw [hio]; exact (h.own j d' a' u').1, b⟩
  rest := fun c => absurd b c
  made := hm
  conns := hc
  cfg := fun _ => by rw [hl, hcfg]; exact h.cfg ini
  sent := fun c => ⟨b, hs c⟩

theorem same_descs {w : W} (g : Glue.Mqtt.St) (e : g.descs = w.g.descs) (j : Nat) (d : Glue.Mqtt.Desc) (h : g.descs[j]? = some d) (u : d.inUse = true) :
    ∃ d', w.g.descs[j]? = some d' ∧ d'.inUse = true := ⟨d, by rw [← e]; exact h, u⟩

theorem made_cons {w : W} {a : Act} {s : Option Nat} (h : TInv w) (ha : ∀ x, a ≠ .made x) (hs : s = w.cl.ssl) :
    ∀ x, Act.made x ∈ a :: w.acts → Act.freed x ∈ a :: w.acts ∨ s = some x := by
  intro x m
  rcases List.mem_cons.1 m with e | m
  · exact absurd e.symm (ha x)
  · rcases h.made x m with f | f
    · exact .inl (List.mem_cons_of_mem _ f)
    · exact .inr (by rw [hs]; exact f)

theorem conns_cons {w : W} {a : Act} (h : TInv w) (ha : ∀ v p, a ≠ .call v (.connect p)) : Connects (a :: w.acts) :=
  ⟨fun v p e => absurd e (ha v p), h.conns⟩

/-- What the client holds after it closed everything. -/
theorem tinv_closed {w w2 : W} (h : TInv w) (b : Busy w) (e1 : w2.g = w.g) (e2 : w2.cl = w.cl) (hl : lastCfg w2.acts = lastCfg w.acts)
    (hm : ∀ x, Act.made x ∈ w2.acts → Act.freed x ∈ w2.acts ∨ w2.cl.ssl = some x) (hc : Connects w2.acts) (hs : w2.sent = false) (p : Bool) :
    TInv (phase { releaseIo (freeSsl w2) with cl := { (releaseIo (freeSsl w2)).cl with pending := p } } .idle) := by
  obtain ⟨f1, f2, f3, f4, f5, f6, f7⟩ := freeSsl_same w2
  have hi : HInv (freeSsl w2) := ⟨by rw [f1, e1]; exact h.nostray, by rw [f1, f2, e1, e2]; exact h.fd⟩
  obtain ⟨r1, r2, r3, r4⟩ := releaseIo_hold hi
  obtain ⟨d1, d2, d3, d4, d5⟩ := releaseIo_descs (freeSsl w2)
  have hnone : ∀ (j : Nat) (d : Glue.Mqtt.Desc), (releaseIo (freeSsl w2)).g.descs[j]? = some d → d.inUse = true → False := by
    intro j d a u
    obtain ⟨n, d', a', u'⟩ := d1 j d a u
    rw [f1, e1] at a'
    rw [f3, e2] at n
    exact n (h.own j d' a' u').1
  have hlive : (releaseIo (freeSsl w2)).g.live = [] := by
    rw [r4, f1, f2, e1, e2, h.live]
    split
    · simp
    · rfl
  have hacts : ∀ x, Act.made x ∈ (freeSsl w2).acts → Act.freed x ∈ (freeSsl w2).acts := by
    intro x m
    unfold freeSsl at m ⊢
    cases hx : w2.cl.ssl with
    | none => rw [hx] at m; rcases hm x m with q | q
              · exact q
              · rw [hx] at q; cases q
    | some y =>
      rw [hx] at m
      dsimp only at m ⊢
      rcases List.mem_cons.1 m with q | m
      · cases q
      rcases hm x m with q | q
      · exact List.mem_cons_of_mem _ q
      · rw [hx] at q; cases q; exact List.mem_cons_self
  have hconn : Connects (freeSsl w2).acts := by
    unfold freeSsl
    cases hx : w2.cl.ssl with
    | none => exact hc
    | some y => exact ⟨fun v p e => (by cases e), hc⟩
  have hlast : lastCfg (freeSsl w2).acts = lastCfg w.acts := by
    unfold freeSsl
    cases hx : w2.cl.ssl with
    | none => exact hl
    | some y => exact hl
  have hnb : ¬ Busy (phase { releaseIo (freeSsl w2) with cl := { (releaseIo (freeSsl w2)).cl with pending := p } } .idle) := fun c => c.2 rfl
  have hcfg' : (releaseIo (freeSsl w2)).cl.cfg = w.cl.cfg := by
    have a : ∀ w : W, (releaseIo w).cl.cfg = w.cl.cfg := by
      intro w
      unfold releaseIo
      dsimp only
      split <;> (split <;> rfl)
    have b : (freeSsl w2).cl.cfg = w2.cl.cfg := by unfold freeSsl; cases w2.cl.ssl <;> rfl
    rw [a, b, e2]
  exact {
    nostray := r1.nostray
    fd := fun c => (by have c : 0 ≤ (releaseIo (freeSsl w2)).cl.fd := c; omega)
    live := by
      show (releaseIo (freeSsl w2)).g.live = if 0 ≤ (releaseIo (freeSsl w2)).cl.fd then _ else []
      rw [hlive, if_neg (by omega)]
    len := by show (releaseIo (freeSsl w2)).g.descs.length = 2; rw [d2, f1, e1]; exact h.len
    own := fun j d a u => (hnone j d a u).elim
    rest := fun _ => ⟨r2, by show (releaseIo (freeSsl w2)).cl.ssl = none; rw [d4, f4]⟩
    made := fun x m => .inl (by
      have m : Act.made x ∈ (releaseIo (freeSsl w2)).acts := m
      show Act.freed x ∈ (releaseIo (freeSsl w2)).acts
      rw [d5] at m ⊢
      exact hacts x m)
    conns := by show Connects (releaseIo (freeSsl w2)).acts; rw [d5]; exact hconn
    cfg := fun _ => by
      show lastCfg (releaseIo (freeSsl w2)).acts = some (releaseIo (freeSsl w2)).cl.cfg
      rw [d5, hlast, hcfg']; exact h.cfg b.1
    sent := fun c => (by
      have c : (releaseIo (freeSsl w2)).sent = true := c
      rw [d3, f6, hs] at c; cases c) }

theorem tinv_boot : TInv boot where
  nostray := rfl
  fd := fun c => (by have c : (0 : Int) ≤ -1 := c; omega)
  live := rfl
  len := rfl
  own := fun j d a u => by
    have a : (Glue.Mqtt.St.start).descs[j]? = some d := a
    match j with
    | 0 => cases a; cases u
    | 1 => cases a; cases u
    | j + 2 => cases a
  rest := fun _ => ⟨by decide, rfl⟩
  made := nofun
  conns := trivial
  cfg := nofun
  sent := nofun

theorem not_sent {w : W} (h : TInv w) (hp : w.cl.ph ≠ .mqtt) : w.sent = false := by
  cases hs : w.sent with
  | false => rfl
  | true => exact absurd (h.sent hs).2.1 hp

theorem tinv_init (st : Nat) {w : W} (h : TInv w) (hb : ¬ Busy w) (r : Raw) (e : InitEnv) : TInv (init st w r e).1 := by
  obtain ⟨z1, z2⟩ := h.rest hb
  have hno : ∀ (j : Nat) (d : Glue.Mqtt.Desc), w.g.descs[j]? = some d → d.inUse = true → False := fun j d a u => hb (h.own j d a u).2
  have hlive : w.g.live = [] := by rw [h.live, if_neg (by omega)]
  have hsent : w.sent = false := by
    cases hs : w.sent with
    | false => rfl
    | true => exact absurd (h.sent hs).1 hb
  have hfreed : ∀ x, Act.made x ∈ w.acts → Act.freed x ∈ w.acts := by
    intro x m
    rcases h.made x m with q | q
    · exact q
    · rw [z2] at q; cases q
  unfold init Glue.Mqtt.init
  cases hi : Glue.Mqtt.initFrom w.g.descs 0 with
  | none => exact {
      nostray := h.nostray
      fd := fun c => (by have c : (0 : Int) ≤ -1 := c; omega)
      live := hlive
      len := h.len
      own := fun j d a u => (hno j d a u).elim
      rest := fun _ => ⟨by show (-1 : Int) < 0; decide, rfl⟩
      made := fun x m => .inl (hfreed x m)
      conns := h.conns
      cfg := nofun
      sent := fun c => (by have c : w.sent = true := c; rw [hsent] at c; cases c) }
  | some i =>
    dsimp only
    have hset : ∀ (j : Nat) (d : Glue.Mqtt.Desc), (w.g.descs.set i ⟨true, -1, true, false⟩)[j]? = some d → d.inUse = true → j = i := by
      intro j d a u
      rcases Glue.Mqtt.get_set a with ⟨e1, -⟩ | ⟨-, e2⟩
      · exact e1
      · exact (hno j d e2 u).elim
    split
    · have q := cleanup_quiet (g := { w.g with descs := w.g.descs.set i ⟨true, -1, true, false⟩ }) (i := i) (by
          intro d hd
          rcases Glue.Mqtt.get_set hd with ⟨-, e⟩ | ⟨hne, -⟩
          · rw [e]; decide
          · exact absurd rfl hne)
      exact {
        nostray := by show (Glue.Mqtt.cleanup _ i).stray = false; rw [q.2]; exact h.nostray
        fd := fun c => (by have c : (0 : Int) ≤ -1 := c; omega)
        live := by show (Glue.Mqtt.cleanup _ i).live = []; rw [q.1]; exact hlive
        len := by show (Glue.Mqtt.cleanup _ i).descs.length = 2; rw [cleanup_len, List.length_set]; exact h.len
        own := fun j d a u => by
          obtain ⟨n, a⟩ := cleanup_own a u
          exact absurd (hset j d a u) n
        rest := fun _ => ⟨by show (-1 : Int) < 0; decide, rfl⟩
        made := fun x m => .inl (hfreed x m)
        conns := h.conns
        cfg := nofun
        sent := fun c => (by have c : w.sent = true := c; rw [hsent] at c; cases c) }
    · exact {
        nostray := h.nostray
        fd := fun c => (by have c : (0 : Int) ≤ -1 := c; omega)
        live := hlive
        len := by show (w.g.descs.set i _).length = 2; rw [List.length_set]; exact h.len
        own := fun j d a u => ⟨by show some i = some j; rw [hset j d a u], rfl, by show Phase.net ≠ _; nofun⟩
        rest := fun c => absurd ⟨rfl, by show Phase.net ≠ _; nofun⟩ c
        made := fun x m => by
          rcases List.mem_cons.1 m with q | m
          · cases q
          · exact .inl (List.mem_cons_of_mem _ (hfreed x m))
        conns := ⟨fun v p e => (by cases e), h.conns⟩
        cfg := fun _ => rfl
        sent := fun c => (by have c : w.sent = true := c; rw [hsent] at c; cases c) }

theorem tinv_connectNet {w : W} (h : TInv w) (ini : w.cl.initialized = true) (hp : w.cl.ph = .net) (cn : Int) : TInv (connectNet w cn) := by
  have hsent := not_sent h (by rw [hp]; nofun)
  have hm := made_cons (a := .connectTo w.cl.fd (Text.atoip4 w.cl.cfg.host) w.cl.cfg.port) h (fun _ => nofun) rfl
  have hc := conns_cons (a := .connectTo w.cl.fd (Text.atoip4 w.cl.cfg.host) w.cl.cfg.port) h (fun _ _ => nofun)
  have hs : ∀ {Q : Prop}, w.sent = true → Q := fun c => (by rw [hsent] at c; cases c)
  unfold connectNet
  dsimp only
  split
  · obtain ⟨a, b⟩ := setFd_live w.g w.cl.io w.cl.fd
    exact tinv_keep h ⟨ini, by show Phase.tls ≠ _; nofun⟩ a b (fun j d q u => by
      obtain ⟨d', q', e⟩ := setFd_own q
      exact ⟨d', q', by rw [e]; exact u⟩) (setFd_len ..) rfl rfl ini rfl rfl hm hc hs
  · split
    · exact tinv_keep h ⟨ini, by show w.cl.ph ≠ _; rw [hp]; nofun⟩ rfl rfl (same_descs _ rfl) rfl rfl rfl ini rfl rfl hm hc hs
    · exact tinv_keep h ⟨ini, by show Phase.error ≠ _; nofun⟩ rfl rfl (same_descs _ rfl) rfl rfl rfl ini rfl rfl hm hc hs

theorem tinv_handshake {w : W} (h : TInv w) (ini : w.cl.initialized = true) (hp : w.cl.ph = .tls) (x : Nat) (a : Hs) : TInv (handshake w x a) := by
  have hsent := not_sent h (by rw [hp]; nofun)
  have hs : ∀ {Q : Prop}, w.sent = true → Q := fun c => (by rw [hsent] at c; cases c)
  unfold handshake
  cases a with
  | ok => exact tinv_keep h ⟨ini, by show Phase.mqtt ≠ _; nofun⟩ rfl rfl (same_descs _ rfl) rfl rfl rfl ini rfl rfl
            (made_cons h (fun _ => nofun) rfl) (conns_cons h (fun _ _ => nofun)) hs
  | want => exact h
  | fail => exact tinv_keep h ⟨ini, by show Phase.error ≠ _; nofun⟩ rfl rfl (same_descs _ rfl) rfl rfl rfl ini rfl rfl h.made h.conns hs

/-- One call of a call on the library. -/
theorem tinv_called {w : W} (h : TInv w) (b : Busy w) (c : Call) (hc : ∀ p, c ≠ .connect p) : TInv (called w c) :=
  tinv_keep h b rfl rfl (same_descs _ rfl) rfl rfl rfl b.1 rfl rfl (made_cons h (fun _ => nofun) rfl)
    (conns_cons h (fun _ p e => by injection e with _ e; exact hc p e)) (fun q => (h.sent q).2)

theorem tinv_phase {w : W} (h : TInv w) (b : Busy w) (hs : w.sent = false) (p : Phase) (hp : p ≠ .idle) (q : Bool) (pub : Option (Txt × Nat)) :
    TInv (phase { w with cl := { w.cl with pending := q, pub := pub } } p) :=
  tinv_keep h ⟨b.1, hp⟩ rfl rfl (same_descs _ rfl) rfl rfl rfl b.1 rfl rfl h.made h.conns (fun c => (by have c : w.sent = true := c; rw [hs] at c; cases c))

theorem tinv_step (st : Nat) {w : W} (h : TInv w) (ev : Ev) (hf : FreshEv w ev) (ht : TidyEv w ev) : TInv (step st w ev) := by
  cases ev with
  | init r e =>
    refine tinv_init st h (fun b => ?_) r e
    rcases ht with c | c
    · rw [b.1] at c; cases c
    · exact b.2 c
  | publish m =>
    show TInv (publish w m).1
    unfold publish
    split
    · exact h
    rename_i hini
    have ini : w.cl.initialized = true := by cases hq : w.cl.initialized with
      | true => rfl
      | false => exact absurd hq hini
    split
    · exact h
    rename_i hp
    have hp : w.cl.ph = .connected := Decidable.of_not_not hp
    have b : Busy w := ⟨ini, by rw [hp]; nofun⟩
    split
    · exact h
    cases m with
    | none => exact h
    | some m =>
      dsimp only
      split
      · exact h
      · exact tinv_keep h b rfl rfl (same_descs _ rfl) rfl rfl rfl ini rfl rfl (made_cons h (fun _ => nofun) rfl) (conns_cons h (fun _ _ => nofun))
          (fun c => (by have c : w.sent = true := c; rw [not_sent h (by rw [hp]; nofun)] at c; cases c))
  | disconnect =>
    show TInv (disconnect w).1
    unfold disconnect
    split
    · exact h
    rename_i hini
    have ini : w.cl.initialized = true := by cases hq : w.cl.initialized with
      | true => rfl
      | false => exact absurd hq hini
    split
    · rename_i hp
      have hne : w.cl.ph ≠ .mqtt ∧ w.cl.ph ≠ .idle := by
        rcases hp with hp | hp <;> (rw [hp]; exact ⟨nofun, nofun⟩)
      exact tinv_phase h ⟨ini, hne.2⟩ (not_sent h hne.1) .disconnecting nofun w.cl.pending w.cl.pub
    · exact h
  | poll e =>
    show TInv (poll w e).1
    unfold poll
    split
    · exact h
    rename_i hini
    have ini : w.cl.initialized = true := by cases hq : w.cl.initialized with
      | true => rfl
      | false => exact absurd hq hini
    cases hp : w.cl.ph with
    | idle => exact h
    | net =>
      dsimp only
      have b : Busy w := ⟨ini, by rw [hp]; nofun⟩
      have hsent := not_sent h (by rw [hp]; nofun)
      have hs : ∀ {Q : Prop}, w.sent = true → Q := fun c => (by rw [hsent] at c; cases c)
      unfold net
      split
      · rename_i hfd
        have hl : w.g.live = [] := by rw [h.live, if_neg (by omega)]
        split
        · rename_i hk
          exact {
            nostray := h.nostray
            fd := fun c => (by have c : 0 ≤ e.sk := c; omega)
            live := by show w.g.live = if 0 ≤ e.sk then _ else []; rw [hl, if_neg (by omega)]
            len := h.len
            own := fun j d a u => ⟨(h.own j d a u).1, ini, by show Phase.error ≠ _; nofun⟩
            rest := fun c => absurd ⟨ini, by show Phase.error ≠ _; nofun⟩ c
            made := h.made
            conns := h.conns
            cfg := h.cfg
            sent := hs }
        · rename_i hk
          refine tinv_connectNet (w := { w with cl := { w.cl with fd := e.sk }, g := { w.g with live := e.sk :: w.g.live } }) ?_ ini hp _
          exact {
            nostray := h.nostray
            fd := fun _ => List.mem_cons_self
            live := by show e.sk :: w.g.live = if 0 ≤ e.sk then _ else []; rw [hl, if_pos (by omega)]
            len := h.len
            own := fun j d a u => ⟨(h.own j d a u).1, b⟩
            rest := fun c => absurd b c
            made := h.made
            conns := h.conns
            cfg := h.cfg
            sent := hs }
      · exact tinv_connectNet h ini hp _
    | tls =>
      dsimp only
      have b : Busy w := ⟨ini, by rw [hp]; nofun⟩
      have hsent := not_sent h (by rw [hp]; nofun)
      unfold tls
      split
      · exact tinv_handshake h ini hp _ _
      · rename_i hx
        split
        · exact tinv_phase h b hsent .error nofun w.cl.pending w.cl.pub
        · refine tinv_handshake (w := { w with
            cl := { w.cl with ssl := some w.nextSsl }, nextSsl := w.nextSsl + 1
            ops := .sslIO w.nextSsl w.cl.tctx w.cl.fd :: w.ops, acts := .made w.nextSsl :: w.acts }) ?_ ini hp _ _
          refine tinv_keep h b rfl rfl (same_descs _ rfl) rfl rfl rfl ini rfl rfl ?_ (conns_cons h (fun _ _ => nofun)) (fun c => (by have c : w.sent = true := c; rw [hsent] at c; cases c))
          intro x m
          rcases List.mem_cons.1 m with q | m
          · cases q; exact .inr rfl
          · rcases h.made x m with q | q
            · exact .inl (List.mem_cons_of_mem _ q)
            · rw [hx] at q; cases q
    | mqtt =>
      dsimp only
      have b : Busy w := ⟨ini, by rw [hp]; nofun⟩
      unfold mqttConnect
      dsimp only
      obtain ⟨w1, e1, h1, b1, p1, s1, c1⟩ : ∃ w1 : W, (if w.sent = true then w
          else { w with cl := { w.cl with conn := { keep := w.cl.cfg.keep, clean := true, id := some w.cl.cfg.id } }, sent := true }) = w1 ∧
          TInv w1 ∧ Busy w1 ∧ w1.cl.ph = .mqtt ∧ w1.sent = true ∧ w1.cl.conn = { keep := w1.cl.cfg.keep, clean := true, id := some w1.cl.cfg.id } := by
        refine ⟨_, rfl, ?_⟩
        split
        · rename_i hs
          exact ⟨h, b, hp, hs, (h.sent hs).2.2⟩
        · exact ⟨tinv_keep h b rfl rfl (same_descs _ rfl) rfl rfl rfl ini rfl rfl h.made h.conns (fun _ => ⟨hp, rfl⟩), b, hp, rfl, rfl⟩
      rw [e1]
      have h2 : TInv (called w1 (.connect w1.cl.conn)) :=
        tinv_keep h1 b1 rfl rfl (same_descs _ rfl) rfl rfl rfl b1.1 rfl rfl (made_cons h1 (fun _ => nofun) rfl)
          ⟨fun v p e => by
            injection e with _ e
            injection e with e
            exact ⟨w1.cl.cfg, h1.cfg b1.1, by rw [← e]; exact c1⟩, h1.conns⟩ (fun _ => ⟨p1, c1⟩)
      have fin : ∀ p : Phase, p ≠ .idle → TInv { phase (called w1 (.connect w1.cl.conn)) p with sent := false } := fun p q =>
        tinv_keep h2 ⟨b1.1, q⟩ rfl rfl (same_descs _ rfl) rfl rfl rfl b1.1 rfl rfl h2.made h2.conns nofun
      unfold connectAns
      cases e.lib with
      | again => exact h2
      | ok => exact fin _ nofun
      | timeout => exact fin _ nofun
      | err => exact fin _ nofun
    | connected =>
      dsimp only
      have b : Busy w := ⟨ini, by rw [hp]; nofun⟩
      have hsent := not_sent h (by rw [hp]; nofun)
      unfold connected
      dsimp only
      obtain ⟨w1, e1, h1, b1, s1⟩ : ∃ w1 : W, (if w.cl.pending = true then
          { w with cl := { w.cl with pub := some (w.cl.cfg.topic, w.cl.msg.length), ph := .publishing } } else w) = w1 ∧ TInv w1 ∧ Busy w1 ∧ w1.sent = false := by
        refine ⟨_, rfl, ?_⟩
        split
        · exact ⟨tinv_phase h b hsent .publishing nofun w.cl.pending (some (w.cl.cfg.topic, w.cl.msg.length)), ⟨ini, by show Phase.publishing ≠ _; nofun⟩, hsent⟩
        · exact ⟨h, b, hsent⟩
      rw [e1]
      have h2 := tinv_called h1 b1 .wait (fun _ => nofun)
      cases e.lib with
      | again => exact h2
      | ok => exact h2
      | timeout => exact h2
      | err => exact tinv_phase h2 b1 s1 .error nofun w1.cl.pending w1.cl.pub
    | publishing =>
      dsimp only
      have b : Busy w := ⟨ini, by rw [hp]; nofun⟩
      have hsent := not_sent h (by rw [hp]; nofun)
      unfold publishing
      dsimp only
      have h2 := tinv_called h b (pubCall w.cl) (by intro p; unfold pubCall; cases w.cl.pub <;> nofun)
      cases e.lib with
      | again => exact h2
      | ok =>
        have h3 := tinv_phase h2 b hsent .connected nofun false w.cl.pub
        exact tinv_keep h3 ⟨ini, by show Phase.connected ≠ _; nofun⟩ rfl rfl (same_descs _ rfl) rfl rfl rfl ini rfl rfl
          (made_cons h2 (fun _ => nofun) rfl) (conns_cons h2 (fun _ _ => nofun)) (fun c => (by have c : w.sent = true := c; rw [hsent] at c; cases c))
      | timeout => exact tinv_phase h2 b hsent .error nofun false w.cl.pub
      | err => exact tinv_phase h2 b hsent .error nofun false w.cl.pub
    | disconnecting =>
      dsimp only
      have b : Busy w := ⟨ini, by rw [hp]; nofun⟩
      have hsent := not_sent h (by rw [hp]; nofun)
      have h2 := tinv_called h b .disconnect (fun _ => nofun)
      have fin : ∀ p, TInv (phase { releaseIo (freeSsl (called w .disconnect)) with cl := { (releaseIo (freeSsl (called w .disconnect))).cl with pending := p } } .idle) :=
        fun p => tinv_closed h2 b rfl rfl rfl h2.made h2.conns hsent p
      unfold disconnecting
      cases e.lib with
      | again => exact h2
      | ok => exact fin _
      | timeout => exact fin _
      | err => exact fin _
    | error =>
      dsimp only
      have b : Busy w := ⟨ini, by rw [hp]; nofun⟩
      have hsent := not_sent h (by rw [hp]; nofun)
      exact tinv_closed h b rfl rfl rfl h.made h.conns hsent false

theorem tinv_run (st : Nat) : ∀ (es : List Ev) (w : W), TInv w → FreshAll st w es → TidyAll st w es → TInv (run st w es) := by
  intro es
  induction es with
  | nil => intro w h _ _; exact h
  | cons e es ih => intro w h f t; exact ih _ (tinv_step st h e f.1 t.1) f.2 t.2

/-- **C132, CONNECT.** A client started only at rest puts in every CONNECT the client id and keep alive of the configuration
in force, and asks for a clean session. See `restart_connect_blank` for one restarted while it connects. -/
theorem mqtt_connect_params_partial (st : Nat) (es : List Ev) (hf : FreshAll st boot es) (ht : TidyAll st boot es) :
    Connects (run st boot es).acts := (tinv_run st es boot tinv_boot hf ht).conns

/-- **C132, nothing is held at rest.** A client started only at rest, whenever it is at rest: has no socket open, no transport
descriptor in use and no session left, and starting it again succeeds whatever the configuration. -/
theorem mqtt_idle_releases (st : Nat) (es : List Ev) (hf : FreshAll st boot es) (ht : TidyAll st boot es)
    (hr : (run st boot es).cl.initialized = false ∨ (run st boot es).cl.ph = .idle) :
    (run st boot es).g.live = [] ∧ (∀ d ∈ (run st boot es).g.descs, d.inUse = false) ∧
    (∀ x, Act.made x ∈ (run st boot es).acts → Act.freed x ∈ (run st boot es).acts) ∧
    ∀ r, (init st (run st boot es) r {}).2 = 0 := by
  have h := tinv_run st es boot tinv_boot hf ht
  have hb : ¬ Busy (run st boot es) := by
    intro b
    rcases hr with c | c
    · rw [b.1] at c; cases c
    · exact b.2 c
  generalize run st boot es = w at h hb
  obtain ⟨z1, z2⟩ := h.rest hb
  have hno : ∀ d ∈ w.g.descs, d.inUse = false := by
    intro d hd
    obtain ⟨j, hj⟩ := List.mem_iff_getElem?.1 hd
    cases hu : d.inUse with
    | false => rfl
    | true => exact absurd (h.own j d hj hu).2 hb
  refine ⟨by rw [h.live, if_neg (by omega)], hno, ?_, ?_⟩
  · intro x m
    rcases h.made x m with q | q
    · exact q
    · rw [z2] at q; cases q
  · intro r
    have hl := h.len
    unfold init Glue.Mqtt.init
    match hd : w.g.descs with
    | [] => rw [hd] at hl; cases hl
    | d :: ds =>
      have hi : Glue.Mqtt.initFrom (d :: ds) 0 = some 0 := by
        unfold Glue.Mqtt.initFrom
        rw [hno d (by rw [hd]; exact List.mem_cons_self)]
        rfl
      rw [hi]
      rfl

end Wolf.MqttC
