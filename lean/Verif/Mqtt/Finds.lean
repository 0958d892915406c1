import Verif.Mqtt.Hold
/-! # C132: what the MQTT client does not do -/
namespace Wolf.MqttC
open Wolf.Glue (Op exec)

/-! ## The wolfSSL I/O descriptors -/

theorem ops_freeSsl (w : W) : (freeSsl w).ops = w.ops := (freeSsl_same w).2.2.2.2.2.2

theorem ops_releaseIo (w : W) : (releaseIo w).ops = w.ops := by
  unfold releaseIo
  dsimp only
  split <;> (split <;> rfl)

theorem ops_connectNet (w : W) (cn : Int) : (connectNet w cn).ops = w.ops := by
  unfold connectNet
  dsimp only
  split
  · rfl
  · split <;> rfl

theorem ops_handshake (w : W) (x : Nat) (a : Hs) : (handshake w x a).ops = w.ops := by
  unfold handshake; cases a <;> rfl

/-- No step of the client cleans up a session's I/O. -/
theorem ops_step (st : Nat) (w : W) (ev : Ev) (h : ∀ x, Op.clean x ∉ w.ops) : ∀ x, Op.clean x ∉ (step st w ev).ops := by
  have cons : ∀ (o : Op), (∀ x, o ≠ .clean x) → ∀ x, Op.clean x ∉ o :: w.ops := by
    intro o ho x m
    rcases List.mem_cons.1 m with e | m
    · exact ho x e.symm
    · exact h x m
  cases ev with
  | init r e =>
    show ∀ x, Op.clean x ∉ (init st w r e).1.ops
    unfold init
    split
    · dsimp only
      split
      · exact h
      · exact cons _ (fun _ => nofun)
    · exact h
  | publish m =>
    show ∀ x, Op.clean x ∉ (publish w m).1.ops
    unfold publish
    split
    · exact h
    split
    · exact h
    split
    · exact h
    cases m with
    | none => exact h
    | some m => dsimp only; split <;> exact h
  | disconnect =>
    show ∀ x, Op.clean x ∉ (disconnect w).1.ops
    unfold disconnect
    split
    · exact h
    split <;> exact h
  | poll e =>
    show ∀ x, Op.clean x ∉ (poll w e).1.ops
    unfold poll
    split
    · exact h
    cases hp : w.cl.ph with
    | idle => exact h
    | net =>
      dsimp only
      unfold net
      split
      · split
        · exact h
        · rw [ops_connectNet]; exact h
      · rw [ops_connectNet]; exact h
    | tls =>
      dsimp only
      unfold tls
      split
      · rw [ops_handshake]; exact h
      · split
        · exact h
        · rw [ops_handshake]; exact cons _ (fun _ => nofun)
    | mqtt =>
      dsimp only
      unfold mqttConnect
      dsimp only
      split <;> (unfold connectAns; cases e.lib <;> exact h)
    | connected =>
      dsimp only
      have hw : ∀ w1 : W, w1.ops = w.ops → ∀ x, Op.clean x ∉ (match e.lib with | .err => phase (called w1 .wait) .error | _ => called w1 .wait).ops := by
        intro w1 e1
        cases e.lib <;> (show ∀ x, Op.clean x ∉ w1.ops; rw [e1]; exact h)
      refine hw (if w.cl.pending then { w with cl := { w.cl with pub := some (w.cl.cfg.topic, w.cl.msg.length), ph := .publishing } } else w) ?_
      split <;> rfl
    | publishing =>
      dsimp only
      unfold publishing
      cases e.lib <;> exact h
    | disconnecting =>
      dsimp only
      have hc : ∀ x, Op.clean x ∉ (releaseIo (freeSsl (called w .disconnect))).ops := by rw [ops_releaseIo, ops_freeSsl]; exact h
      unfold disconnecting
      cases e.lib with
      | again => exact h
      | ok => exact hc
      | timeout => exact hc
      | err => exact hc
    | error =>
      dsimp only
      have hc : ∀ x, Op.clean x ∉ (releaseIo (freeSsl w)).ops := by rw [ops_releaseIo, ops_freeSsl]; exact h
      exact hc

/-- **Finding**: the client never gives a wolfSSL I/O descriptor back. In all its life, over all restarts, at most eight of
its sessions get I/O set up; the client does not look at the result and runs the handshake of the ninth
without. -/
theorem mqtt_at_most_eight (st : Nat) (es : List Ev) : Tls.setups (exec .ssl (run st boot es).ops).2 ≤ 8 := by
  have : ∀ (es : List Ev) (w : W), (∀ x, Op.clean x ∉ w.ops) → ∀ x, Op.clean x ∉ (run st w es).ops := by
    intro es
    induction es with
    | nil => intro w h; exact h
    | cons e es ih => intro w h; exact ih _ (ops_step st w e h)
  exact Tls.setups_le _ (this es boot (fun _ => nofun))

/-- Start, connect, publish, disconnect. -/
def oneRun : List Ev :=
  [.init {} {}, .poll { sk := 20 }, .poll { conn := 0 }, .poll { hs := .want }, .poll { hs := .ok }, .poll { lib := .again }, .poll { lib := .ok },
   .publish (some [72, 105]), .poll { lib := .timeout }, .poll { lib := .ok }, .disconnect, .poll { lib := .ok }]

def shakes (l : List Act) : Nat := l.countP fun a => match a with | .shook _ => true | _ => false

/-- Nine runs: nine handshakes, on eight sessions with I/O. -/
example : shakes (run 0 boot ((List.replicate 9 oneRun).flatten)).acts = 9 ∧
    Tls.setups (exec .ssl (run 0 boot ((List.replicate 9 oneRun).flatten)).ops).2 = 8 := by decide +kernel

/-! ## Restarting a running client -/

/-- All transport descriptors taken: no start succeeds. -/
def Full (w : W) : Prop := (∀ d ∈ w.g.descs, d.inUse = true) ∧ w.cl.initialized = false

theorem initFrom_full : ∀ (l : List Glue.Mqtt.Desc) (i : Nat), (∀ d ∈ l, d.inUse = true) → Glue.Mqtt.initFrom l i = none
  | [], _, _ => rfl
  | d :: l, i, h => by
    unfold Glue.Mqtt.initFrom
    rw [if_pos (h d List.mem_cons_self)]
    exact initFrom_full l _ fun d hd => h d (List.mem_cons_of_mem _ hd)

theorem full_step (st : Nat) {w : W} (h : Full w) (e : Ev) : Full (step st w e) := by
  obtain ⟨h1, h2⟩ := h
  cases e with
  | init r e =>
    show Full (init st w r e).1
    unfold init Glue.Mqtt.init
    rw [initFrom_full _ 0 h1]
    exact ⟨h1, rfl⟩
  | poll e => show Full (poll w e).1; unfold poll; rw [if_pos h2]; exact ⟨h1, h2⟩
  | publish m => show Full (publish w m).1; unfold publish; rw [if_pos h2]; exact ⟨h1, h2⟩
  | disconnect => show Full (disconnect w).1; unfold disconnect; rw [if_pos h2]; exact ⟨h1, h2⟩

/-- **Finding**: started three times while it runs, the client is out of transport descriptors for good: whatever happens
afterwards, every further start answers -1. -/
theorem restart_never_again (st : Nat) (a b c : Raw) (es : List Ev) (r : Raw) (e : InitEnv) :
    (init st (run st (run st boot [.init a {}, .init b {}, .init c {}]) es) r e).2 = -1 := by
  have h0 : Full (run st boot [.init a {}, .init b {}, .init c {}]) := by
    refine ⟨?_, rfl⟩
    intro d hd
    have hd : d ∈ [⟨true, -1, true, false⟩, (⟨true, -1, true, false⟩ : Glue.Mqtt.Desc)] := hd
    rcases List.mem_cons.1 hd with e | hd
    · rw [e]
    rcases List.mem_cons.1 hd with e | hd
    · rw [e]
    · cases hd
  have h : ∀ (es : List Ev) (w : W), Full w → Full (run st w es) := by
    intro es
    induction es with
    | nil => intro w h; exact h
    | cons e es ih => intro w h; exact ih _ (full_step st h e)
  have := (h es _ h0).1
  unfold init Glue.Mqtt.init
  rw [initFrom_full _ 0 this]

/-- **Finding**: restarted while it waits for the broker's CONNACK, the client sends a CONNECT of zeroes: no client id, no
keep alive, clean session off. -/
theorem restart_connect_blank : ∃ es : List Ev, ¬ Connects (run 0 boot es).acts := by
  refine ⟨[.init {} {}, .poll { sk := 20, conn := 0 }, .poll { hs := .ok }, .poll { lib := .again },
           .init {} {}, .poll { sk := 21, conn := 0 }, .poll { hs := .ok }, .poll { lib := .ok }], fun h => ?_⟩
  obtain ⟨c, h1, h2⟩ := h.1 (.tls 1) {} rfl
  have := congrArg Params.id h2
  cases this

/-! ## Waiting -/

/-- **Finding**: a broker that accepts no connection is waited for without bound, `mqtt_client_disconnect` answering 0 and
changing nothing meanwhile. -/
theorem waits_for_connection (st : Nat) : ∀ (es : List Ev) (w : W), w.cl.initialized = true → w.cl.ph = .net → 0 ≤ w.cl.fd →
    (∀ e ∈ es, e = .disconnect ∨ ∃ p : PollEnv, p.conn = -11 ∧ e = .poll p) →
    (run st w es).cl.ph = .net ∧ (run st w es).g.live = w.g.live ∧ (disconnect (run st w es)).2 = 0
  | [], w, h1, h2, h3, _ => ⟨h2, rfl, by
      show (disconnect w).2 = 0
      unfold disconnect
      rw [if_neg (by rw [h1]; nofun), h2, if_neg (by simp)]⟩
  | e :: es, w, h1, h2, h3, h4 => by
    have hs : step st w e = w ∨ step st w e = { w with acts := .connectTo w.cl.fd (Text.atoip4 w.cl.cfg.host) w.cl.cfg.port :: w.acts } := by
      rcases h4 e List.mem_cons_self with q | ⟨p, q1, q2⟩
      · rw [q]
        show (disconnect w).1 = w ∨ _
        unfold disconnect
        rw [if_neg (by rw [h1]; nofun), h2, if_neg (by simp)]
        exact .inl rfl
      · rw [q2]
        show (poll w p).1 = w ∨ (poll w p).1 = _
        unfold poll
        rw [if_neg (by rw [h1]; nofun), h2]
        dsimp only
        unfold net
        rw [if_neg (by omega), q1]
        exact .inr rfl
    have h4' := fun e he => h4 e (List.mem_cons_of_mem _ he)
    show (run st (step st w e) es).cl.ph = _ ∧ (run st (step st w e) es).g.live = _ ∧ (disconnect (run st (step st w e) es)).2 = 0
    rcases hs with hs | hs
    · rw [hs]; exact waits_for_connection st es w h1 h2 h3 h4'
    · rw [hs]; exact waits_for_connection st es { w with acts := .connectTo w.cl.fd (Text.atoip4 w.cl.cfg.host) w.cl.cfg.port :: w.acts } h1 h2 h3 h4'

/-- **Finding**: after an error, or a disconnect, the client stays at rest until it is started again: it polls to 0 and
`mqtt_client_publish` answers 1, "try again". -/
theorem idle_for_good (st : Nat) : ∀ (es : List Ev) (w : W), w.cl.initialized = true → w.cl.ph = .idle → (∀ e ∈ es, ∀ r q, e ≠ .init r q) →
    run st w es = w ∧ ∀ m, (publish w m).2 = 1
  | [], w, h1, h2, _ => ⟨rfl, fun m => by
      unfold publish
      rw [if_neg (by rw [h1]; nofun), h2, if_pos (by nofun)]⟩
  | e :: es, w, h1, h2, h3 => by
    have hs : step st w e = w := by
      cases e with
      | init r q => exact absurd rfl (h3 _ List.mem_cons_self r q)
      | poll p => show (poll w p).1 = w; unfold poll; rw [if_neg (by rw [h1]; nofun), h2]
      | publish m => show (publish w m).1 = w; unfold publish; rw [if_neg (by rw [h1]; nofun), h2, if_pos (by nofun)]
      | disconnect => show (disconnect w).1 = w; unfold disconnect; rw [if_neg (by rw [h1]; nofun), h2, if_neg (by simp)]
    obtain ⟨i1, i2⟩ := idle_for_good st es w h1 h2 (fun e he => h3 e (List.mem_cons_of_mem _ he))
    exact ⟨by show run st (step st w e) es = w; rw [hs]; exact i1, i2⟩

/-- **Finding**: a message `mqtt_client_publish` accepted is lost when the connection breaks before it is sent: the client
never sends it again, not even after a restart. -/
theorem accepted_is_lost : acceptedOf (run 0 boot [.init {} {}, .poll { sk := 20, conn := 0 }, .poll { hs := .ok }, .poll { lib := .ok },
      .publish (some [72, 105]), .poll { lib := .err }, .poll {}]).acts = [[72, 105]] ∧
    doneOf (run 0 boot [.init {} {}, .poll { sk := 20, conn := 0 }, .poll { hs := .ok }, .poll { lib := .ok },
      .publish (some [72, 105]), .poll { lib := .err }, .poll {}]).acts = [] ∧
    (run 0 boot [.init {} {}, .poll { sk := 20, conn := 0 }, .poll { hs := .ok }, .poll { lib := .ok },
      .publish (some [72, 105]), .poll { lib := .err }, .poll {}]).cl.pending = false := by decide +kernel

/-! ## Configuration -/

/-- **C132, configuration.** A text that fits is used as given, an absent or empty one is replaced by the default, and
what is used always fits. -/
theorem mqtt_field (cap : Nat) (given : Option Txt) (dflt : Txt) (hd : dflt.length < cap) :
    (field cap given dflt).length < cap ∧
    (∀ t, given = some t → t ≠ [] → t.length < cap → field cap given dflt = t) ∧
    ((given = none ∨ given = some []) → field cap given dflt = dflt) := by
  refine ⟨?_, ?_, ?_⟩
  · unfold field
    dsimp only
    split
    · rw [List.length_take]; omega
    · rw [List.length_take]; omega
  · intro t e h1 h2
    unfold field
    dsimp only
    rw [e]
    show (if t.take (cap - 1) = [] then _ else t.take (cap - 1)) = t
    rw [List.take_of_length_le (l := t) (by omega), if_neg h1]
  · intro e
    unfold field
    dsimp only
    have : given.getD [] = [] := by rcases e with e | e <;> rw [e] <;> rfl
    rw [this, List.take_nil, if_pos rfl, List.take_of_length_le (by omega)]

/-- **C132, configuration.** What was configured and fits is what is in force; what was not is the default. -/
theorem mqtt_configured (r : Raw) :
    (∀ t, r.host = some t → t ≠ [] → t.length < 32 → (effective r).host = t) ∧
    (∀ t, r.id = some t → t ≠ [] → t.length < 32 → (effective r).id = t) ∧
    (∀ t, r.topic = some t → t ≠ [] → t.length < 64 → (effective r).topic = t) ∧
    (r.port ≠ 0 → (effective r).port = r.port) ∧ (r.keep ≠ 0 → (effective r).keep = r.keep) ∧
    (effective {}).host = dHost ∧ (effective {}).id = dId ∧ (effective {}).topic = dTopic ∧ (effective {}).port = 8883 ∧ (effective {}).keep = 60 :=
  ⟨fun t e n l => (mqtt_field 32 r.host dHost (by decide)).2.1 t e n l,
   fun t e n l => (mqtt_field 32 r.id dId (by decide)).2.1 t e n l,
   fun t e n l => (mqtt_field 64 r.topic dTopic (by decide)).2.1 t e n l,
   fun h => if_pos (Nat.pos_of_ne_zero h), fun h => if_pos (Nat.pos_of_ne_zero h), by decide, by decide, by decide, rfl, rfl⟩

/-- **Finding**: a text that does not fit is cut without a word. Two topics of more than 63 bytes that differ only after that
are the same topic. -/
theorem topics_collide : field 64 (some (List.replicate 63 97 ++ [98])) dTopic = field 64 (some (List.replicate 63 97 ++ [99])) dTopic := by decide +kernel

/-! ## The address -/

/-- `ee32` on a little-endian machine: the four bytes in opposite order. wolfip.h 131–146. -/
def ee32 (x : Nat) : Nat := x % 256 * 16777216 + x / 256 % 256 * 65536 + x / 65536 % 256 * 256 + x / 16777216 % 256

theorem ee32_bytes (a b c d : Nat) (ha : a < 256) (hb : b < 256) (hc : c < 256) (hd : d < 256) :
    ee32 (a * 16777216 + b * 65536 + c * 256 + d) = d * 16777216 + c * 65536 + b * 256 + a := by
  unfold ee32; omega

theorem byte_at (a b c d : Nat) (ha : a < 256) (hb : b < 256) (hc : c < 256) (hd : d < 256) :
    (a * 16777216 + b * 65536 + c * 256 + d) % 256 = d ∧ (a * 16777216 + b * 65536 + c * 256 + d) / 256 % 256 = c ∧
    (a * 16777216 + b * 65536 + c * 256 + d) / 65536 % 256 = b ∧ (a * 16777216 + b * 65536 + c * 256 + d) / 16777216 % 256 = a :=
  ⟨by omega, by omega, by omega, by omega⟩

theorem bytes_of (x : Nat) (h : x < 2 ^ 32) : ∃ a b c d, a < 256 ∧ b < 256 ∧ c < 256 ∧ d < 256 ∧ x = a * 16777216 + b * 65536 + c * 256 + d :=
  ⟨x / 256 / 256 / 256, x / 256 / 256 % 256, x / 256 % 256, x % 256, by omega, by omega, by omega, by omega, by omega⟩

theorem ee32_ee32 (x : Nat) (h : x < 2 ^ 32) : ee32 (ee32 x) = x := by
  obtain ⟨a, b, c, d, ha, hb, hc, hd, e⟩ := bytes_of x h
  rw [e, ee32_bytes a b c d ha hb hc hd, ee32_bytes d c b a hd hc hb ha]

/-- The address `wolfIP_sock_connect` connects to for the `s_addr` it is given. wolfip.c 6432. -/
def dest (sAddr : Nat) : Nat := ee32 sAddr

/-- `s_addr` as the client sets it. mqtt_client.c 288. -/
def clientAddr (host : Txt) : Nat := ee32 (Text.atoip4 host)

/-- `s_addr` as the wolfMQTT connect callback sets it. wolfmqtt_io.c 91. -/
def callbackAddr (host : Txt) : Nat := Text.atoip4 host

/-- **C132, address.** Configured with the dotted quad of an address, the client connects to that address. -/
theorem mqtt_client_dest (ip : Nat) (h : ip < 2 ^ 32) : dest (clientAddr (Text.iptoa ip)) = ip := by
  unfold dest clientAddr
  rw [Text.dotted_quad_round_trip ip h, ee32_ee32 ip h]

/-- **Finding**: the connect callback of the wolfMQTT glue, given the dotted quad of an address, connects to the address with
its bytes in opposite order on a little-endian machine, so to another host unless the address reads the same both ways. -/
theorem callback_reversed (ip : Nat) (h : ip < 2 ^ 32) :
    dest (callbackAddr (Text.iptoa ip)) = ee32 ip ∧
    (dest (callbackAddr (Text.iptoa ip)) = ip ↔ ip % 256 = ip / 16777216 % 256 ∧ ip / 256 % 256 = ip / 65536 % 256) := by
  unfold dest callbackAddr
  rw [Text.dotted_quad_round_trip ip h]
  refine ⟨rfl, ?_⟩
  obtain ⟨a, b, c, d, ha, hb, hc, hd, e⟩ := bytes_of ip h
  rw [e, ee32_bytes a b c d ha hb hc hd]
  obtain ⟨h1, h2, h3, h4⟩ := byte_at a b c d ha hb hc hd
  obtain ⟨k1, k2, -, -⟩ := byte_at d c b a hd hc hb ha
  rw [h1, h2, h3, h4]
  constructor
  · intro q
    have q1 := congrArg (· % 256) q
    have q2 := congrArg (· / 256 % 256) q
    rw [h1, k1] at q1
    rw [h2, k2] at q2
    exact ⟨q1.symm, q2.symm⟩
  · rintro ⟨q1, q2⟩
    rw [q1, q2]

/-- 192.168.1.10 becomes 10.1.168.192. -/
example : dest (callbackAddr (Text.iptoa 0xC0A8010A)) = 0x0A01A8C0 := by decide +kernel

/-! ## Examples -/

instance (w : W) (e : Ev) : Decidable (FreshEv w e) := by
  cases e <;> (unfold FreshEv; infer_instance)

instance (w : W) (e : Ev) : Decidable (TidyEv w e) := by
  cases e <;> (unfold TidyEv; infer_instance)

instance decFresh (st : Nat) : ∀ (w : W) (es : List Ev), Decidable (FreshAll st w es)
  | _, [] => .isTrue trivial
  | w, e :: es => @instDecidableAnd _ _ inferInstance (decFresh st (step st w e) es)

instance decTidy (st : Nat) : ∀ (w : W) (es : List Ev), Decidable (TidyAll st w es)
  | _, [] => .isTrue trivial
  | w, e :: es => @instDecidableAnd _ _ inferInstance (decTidy st (step st w e) es)

/-- The history of one run is fresh and tidy, and delivers its message. -/
example : FreshAll 0 boot oneRun ∧ TidyAll 0 boot oneRun ∧ doneOf (run 0 boot oneRun).acts = [[72, 105]] ∧ (run 0 boot oneRun).cl.ph = .idle := by
  decide +kernel

end Wolf.MqttC
