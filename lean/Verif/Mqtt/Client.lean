import Verif.Glue.Props
import Verif.Glue.Mqtt
import Verif.Text.DottedQuad
/-! # C132: the MQTT client of the STM32H563 port

Model of `src/port/stm32h563/mqtt_client.c` (whole file): initialisation, the poll machine, publishing and disconnecting,
over the wolfMQTT glue model of C109 (descriptors and open sockets) and the calls it makes into the wolfSSL glue of C107.
The environment answers everything: `wolfIP_sock_socket`, `wolfIP_sock_connect`, `wolfSSL_CTX_new`, `wolfSSL_new`,
`wolfSSL_connect` and the wolfMQTT calls. C strings are lists of bytes without the NUL. Not modelled: debug output,
`wolfSSL_UseSNI`, `wolfSSL_shutdown` and the certificate setting (verification is off, so the broker is never
authenticated), and what wolfMQTT does with the transport callbacks. -/
namespace Wolf.MqttC
open Wolf.Glue (Op)

abbrev Txt := List Nat

/-! ## Model -/

/-- `mqtt_state_t`. mqtt_client.c 42–51. -/
inductive Phase where
  | idle | net | tls | mqtt | connected | publishing | disconnecting | error
deriving DecidableEq, Repr

/-- `mqtt_client_config_t` as given: a null pointer is `none`, 0 is unset. -/
structure Raw where
  host : Option Txt := none
  port : Nat := 0
  id : Option Txt := none
  topic : Option Txt := none
  keep : Nat := 0

/-- The configuration in `ctx`. mqtt_client.c 66–70. -/
structure Cfg where
  host : Txt
  port : Nat
  id : Txt
  topic : Txt
  keep : Nat
deriving DecidableEq

def dHost : Txt := [53, 52, 46, 51, 54, 46, 49, 55, 56, 46, 52, 57]
def dId : Txt := [119, 111, 108, 102, 105, 112, 45, 115, 116, 109, 51, 50, 104, 53, 54, 51]
def dTopic : Txt := [119, 111, 108, 102, 105, 112, 47, 115, 116, 97, 116, 117, 115]

/-- `strncpy` into a zeroed buffer of `cap` bytes, and the default for an empty string. mqtt_client.c 181–215. -/
def field (cap : Nat) (given : Option Txt) (dflt : Txt) : Txt :=
  let t := (given.getD []).take (cap - 1)
  if t = [] then dflt.take (cap - 1) else t

/-- The configuration in force. mqtt_client.c 179–216. -/
def effective (r : Raw) : Cfg :=
  { host := field 32 r.host dHost
    port := if r.port > 0 then r.port else 8883
    id := field 32 r.id dId
    topic := field 64 r.topic dTopic
    keep := if r.keep > 0 then r.keep else 60 }

/-- The parameters of a CONNECT as `ctx.connect` holds them; zeroed: no client id. -/
structure Params where
  keep : Nat := 0
  clean : Bool := false
  id : Option Txt := none
deriving DecidableEq

/-- What an MQTT packet is sent and answered through: the callbacks of `wolfmqtt_io.c` on a plain socket, or those of a
TLS session. -/
inductive Via where
  | plain | tls (x : Nat) | dead
deriving DecidableEq

/-- Calls into wolfMQTT. `publish` with topic and payload. -/
inductive Call where
  | connect (p : Params)
  | publish (topic msg : Txt)
  | wait
  | disconnect
deriving DecidableEq

/-- What the client did. -/
inductive Act where
  /-- a successful `mqtt_client_init` -/
  | started (c : Cfg)
  | connectTo (fd : Int) (ip port : Nat)
  | made (x : Nat)
  /-- the TLS handshake of session `x` is complete -/
  | shook (x : Nat)
  | freed (x : Nat)
  | call (v : Via) (c : Call)
  /-- `mqtt_client_publish` answered 0 -/
  | accepted (m : Txt)
  /-- `MqttClient_Publish` answered success -/
  | done (m : Txt)
deriving DecidableEq

/-- `ctx`. mqtt_client.c 53–76. -/
structure Cl where
  initialized : Bool := false
  ph : Phase := .idle
  cfg : Cfg
  fd : Int := -1
  io : Option Nat := none
  /-- the `WOLFSSL_CTX` -/
  tctx : Option Nat := none
  ssl : Option Nat := none
  /-- `ctx.net.read`, `ctx.net.write` are the TLS ones -/
  tlsCb : Bool := false
  conn : Params := {}
  /-- `ctx.publish`: topic and `total_len`; its buffer is `ctx.publish_msg` -/
  pub : Option (Txt × Nat) := none
  pending : Bool := false
  msg : Txt := []

structure W where
  cl : Cl
  /-- the function-static `connect_sent`, mqtt_client.c 360 -/
  sent : Bool := false
  /-- wolfMQTT descriptors and the open sockets -/
  g : Glue.Mqtt.St := Glue.Mqtt.St.start
  /-- calls into the wolfSSL glue, most recent first -/
  ops : List Op := []
  /-- names for new TLS contexts and sessions -/
  nextCtx : Nat := 0
  nextSsl : Nat := 0
  /-- most recent first -/
  acts : List Act := []

def noCfg : Cfg := { host := [], port := 0, id := [], topic := [], keep := 0 }

/-- Power-up: static storage is zero, so `socket_fd` is 0, but nothing looks at it before `mqtt_client_init`. -/
def boot : W := { cl := { cfg := noCfg } }

/-- Answers to `mqtt_client_init`: `MqttClient_Init`, `wolfSSL_CTX_new`. -/
structure InitEnv where
  lib : Bool := true
  tls : Bool := true

/-- `mqtt_client_init` with a non-null stack (`st`). mqtt_client.c 168–265. -/
def init (st : Nat) (w : W) (r : Raw) (e : InitEnv) : W × Int :=
  let cl : Cl := { cfg := effective r }
  match (Glue.Mqtt.init w.g).2 with
  | .ctx i =>
    let g := (Glue.Mqtt.init w.g).1
    if e.lib = false ∨ e.tls = false then ({ w with cl := { cl with io := some i }, g := Glue.Mqtt.cleanup g i }, -1)
    else
      ({ w with
          cl := { cl with io := some i, tctx := some w.nextCtx, initialized := true, ph := .net }
          g := g, ops := .regCtx w.nextCtx st :: w.ops, nextCtx := w.nextCtx + 1, acts := .started (effective r) :: w.acts }, 0)
  | _ => ({ w with cl := cl }, -1)

/-- Answers of wolfMQTT. -/
inductive Lib where
  | ok | again | timeout | err
deriving DecidableEq

/-- Answers of `wolfSSL_connect`. -/
inductive Hs where
  | ok | want | fail
deriving DecidableEq

/-- The outside during one poll. -/
structure PollEnv where
  sk : Int := -1
  conn : Int := -11
  ssl : Bool := true
  hs : Hs := .want
  lib : Lib := .again

/-- `wolfMQTT_SetFd_wolfIP`. wolfmqtt_io.c 250–257. -/
def setFd (g : Glue.Mqtt.St) (io : Option Nat) (fd : Int) : Glue.Mqtt.St :=
  match io with
  | none => g
  | some i => { g with descs := g.descs.modify i fun d => { d with fd := fd, connected := decide (0 ≤ fd) } }

def phase (w : W) (p : Phase) : W := { w with cl := { w.cl with ph := p } }

/-- `handle_net_connect`, from the connect on. mqtt_client.c 284–308. -/
def connectNet (w : W) (conn : Int) : W :=
  let w := { w with acts := .connectTo w.cl.fd (Text.atoip4 w.cl.cfg.host) w.cl.cfg.port :: w.acts }
  if conn = 0 then { phase w .tls with g := setFd w.g w.cl.io w.cl.fd }
  else if conn = -11 then w
  else phase w .error

/-- `handle_net_connect`. mqtt_client.c 268–309. -/
def net (w : W) (e : PollEnv) : W :=
  if w.cl.fd < 0 then
    if e.sk < 0 then phase { w with cl := { w.cl with fd := e.sk } } .error
    else connectNet { w with cl := { w.cl with fd := e.sk }, g := { w.g with live := e.sk :: w.g.live } } e.conn
  else connectNet w e.conn

/-- `handle_tls_connect`, from `wolfSSL_connect` on. mqtt_client.c 334–353. -/
def handshake (w : W) (x : Nat) (hs : Hs) : W :=
  match hs with
  | .ok => { phase { w with cl := { w.cl with tlsCb := true } } .mqtt with acts := .shook x :: w.acts }
  | .want => w
  | .fail => phase w .error

/-- `handle_tls_connect`. mqtt_client.c 312–354. The result of `wolfSSL_SetIO_wolfIP` is not looked at. -/
def tls (w : W) (e : PollEnv) : W :=
  match w.cl.ssl with
  | some x => handshake w x e.hs
  | none =>
    if e.ssl = false then phase w .error
    else
      handshake { w with
        cl := { w.cl with ssl := some w.nextSsl }, nextSsl := w.nextSsl + 1
        ops := .sslIO w.nextSsl w.cl.tctx w.cl.fd :: w.ops, acts := .made w.nextSsl :: w.acts } w.nextSsl e.hs

/-- The transport of the MQTT packets: `ctx.net`'s callbacks. mqtt_client.c 121–166, wolfmqtt_io.c 188–213. -/
def via (c : Cl) : Via :=
  if c.tlsCb then (match c.ssl with | some x => .tls x | none => .dead) else .plain

def called (w : W) (c : Call) : W := { w with acts := .call (via w.cl) c :: w.acts }

/-- The answer to `MqttClient_Connect`. mqtt_client.c 374–389. -/
def connectAns (w : W) (a : Lib) : W :=
  match a with
  | .ok => { phase w .connected with sent := false }
  | .again => w
  | _ => { phase w .error with sent := false }

/-- `handle_mqtt_connect`. mqtt_client.c 357–389. -/
def mqttConnect (w : W) (a : Lib) : W :=
  let w : W := if w.sent then w
    else { w with cl := { w.cl with conn := { keep := w.cl.cfg.keep, clean := true, id := some w.cl.cfg.id } }, sent := true }
  connectAns (called w (.connect w.cl.conn)) a

/-- `handle_connected`. mqtt_client.c 392–419. -/
def connected (w : W) (a : Lib) : W :=
  let w : W := if w.cl.pending then
      { w with cl := { w.cl with pub := some (w.cl.cfg.topic, w.cl.msg.length), ph := .publishing } }
    else w
  let w := called w .wait
  match a with
  | .err => phase w .error
  | _ => w

/-- The packet `ctx.publish` describes: its buffer is `ctx.publish_msg` as it is now. -/
def pubCall (c : Cl) : Call :=
  match c.pub with
  | none => .publish [] []
  | some (t, n) => .publish t (c.msg.take n)

/-- `handle_publishing`. mqtt_client.c 422–441. -/
def publishing (w : W) (a : Lib) : W :=
  let w := called w (pubCall w.cl)
  match a with
  | .ok => { phase { w with cl := { w.cl with pending := false } } .connected with acts := .done w.cl.msg :: w.acts }
  | .again => w
  | _ => phase { w with cl := { w.cl with pending := false } } .error

/-- `wolfSSL_free`. mqtt_client.c 453–457, 520–523. -/
def freeSsl (w : W) : W :=
  match w.cl.ssl with
  | none => w
  | some x => { w with cl := { w.cl with ssl := none }, acts := .freed x :: w.acts }

/-- Release socket and descriptor. mqtt_client.c 459–476, 524–539. -/
def releaseIo (w : W) : W :=
  let w := { w with g := setFd w.g w.cl.io (-1) }
  let w := if 0 ≤ w.cl.fd then { w with g := w.g.close w.cl.fd, cl := { w.cl with fd := -1 } } else w
  match w.cl.io with
  | none => w
  | some i => { w with g := Glue.Mqtt.cleanup w.g i, cl := { w.cl with io := none } }

/-- `handle_disconnecting`. mqtt_client.c 444–481. -/
def disconnecting (w : W) (a : Lib) : W :=
  let w := called w .disconnect
  match a with
  | .again => w
  | _ => phase (releaseIo (freeSsl w)) .idle

/-- `case MQTT_STATE_ERROR`. mqtt_client.c 518–542. -/
def failed (w : W) : W :=
  let w := releaseIo (freeSsl w)
  phase { w with cl := { w.cl with pending := false } } .idle

/-- `mqtt_client_poll`. mqtt_client.c 483–549. -/
def poll (w : W) (e : PollEnv) : W × Int :=
  if w.cl.initialized = false then (w, -1)
  else
    match w.cl.ph with
    | .idle => (w, 0)
    | .net => (net w e, 0)
    | .tls => (tls w e, 0)
    | .mqtt => (mqttConnect w e.lib, 0)
    | .connected => (connected w e.lib, 0)
    | .publishing => (publishing w e.lib, 0)
    | .disconnecting => (disconnecting w e.lib, 0)
    | .error => (failed w, 0)

/-- `mqtt_client_publish` (`none`: a null pointer). mqtt_client.c 551–574. -/
def publish (w : W) (m : Option Txt) : W × Int :=
  if w.cl.initialized = false then (w, -1)
  else if w.cl.ph ≠ .connected then (w, 1)
  else if w.cl.pending then (w, 1)
  else
    match m with
    | none => (w, -1)
    | some m =>
      if m.length ≥ 128 then (w, -1)
      else ({ w with cl := { w.cl with msg := m.take 127, pending := true }, acts := .accepted m :: w.acts }, 0)

/-- `mqtt_client_disconnect`. mqtt_client.c 582–594. -/
def disconnect (w : W) : W × Int :=
  if w.cl.initialized = false then (w, -1)
  else if w.cl.ph = .connected ∨ w.cl.ph = .publishing then (phase w .disconnecting, 0)
  else (w, 0)

/-- `mqtt_client_is_connected`. mqtt_client.c 576–580. -/
def isConnected (w : W) : Bool := w.cl.ph == .connected || w.cl.ph == .publishing

/-- Everything that can happen. -/
inductive Ev where
  | init (r : Raw) (e : InitEnv)
  | poll (e : PollEnv)
  | publish (m : Option Txt)
  | disconnect

def step (st : Nat) (w : W) : Ev → W
  | .init r e => (init st w r e).1
  | .poll e => (poll w e).1
  | .publish m => (publish w m).1
  | .disconnect => (disconnect w).1

def run (st : Nat) (w : W) (es : List Ev) : W := es.foldl (step st) w

/-! ## Specification -/

/-- The stack gives out descriptors that are not open. -/
def FreshEv (w : W) : Ev → Prop
  | .poll e => e.sk ∉ w.g.live
  | _ => True

def FreshAll (st : Nat) : W → List Ev → Prop
  | _, [] => True
  | w, e :: es => FreshEv w e ∧ FreshAll st (step st w e) es

/-- The user starts the client only when it is not running. -/
def TidyEv (w : W) : Ev → Prop
  | .init _ _ => w.cl.initialized = false ∨ w.cl.ph = .idle
  | _ => True

def TidyAll (st : Nat) : W → List Ev → Prop
  | _, [] => True
  | w, e :: es => TidyEv w e ∧ TidyAll st (step st w e) es

/-- An MQTT packet, when it is sent, goes through a session whose handshake is complete and that still exists. -/
def SecureAct (a : Act) (before : List Act) : Prop :=
  ∀ v c, a = .call v c → ∃ x, v = .tls x ∧ .shook x ∈ before ∧ .freed x ∉ before

def Secure : List Act → Prop
  | [] => True
  | a :: l => SecureAct a l ∧ Secure l

/-- What was done since the last start. -/
def since : List Act → List Act
  | [] => []
  | .started _ :: _ => []
  | a :: l => a :: since l

/-- The configuration of the last start. -/
def lastCfg : List Act → Option Cfg
  | [] => none
  | .started c :: _ => some c
  | _ :: l => lastCfg l

/-- Messages, oldest first. -/
def acceptedOf (l : List Act) : List Txt := l.reverse.filterMap fun a => match a with | .accepted m => some m | _ => none
def doneOf (l : List Act) : List Txt := l.reverse.filterMap fun a => match a with | .done m => some m | _ => none

/-- A CONNECT says what the configuration says. -/
def ConnectAct (a : Act) (before : List Act) : Prop :=
  ∀ v p, a = .call v (.connect p) → ∃ c, lastCfg before = some c ∧ p = { keep := c.keep, clean := true, id := some c.id }

def Connects : List Act → Prop
  | [] => True
  | a :: l => ConnectAct a l ∧ Connects l

/-- A PUBLISH carries the last accepted message under the configured topic, and is not sent again once done. -/
def PublishAct (a : Act) (before : List Act) : Prop :=
  ∀ v t m, a = .call v (.publish t m) → (∃ c, lastCfg before = some c ∧ t = c.topic) ∧
    ∃ q, acceptedOf (since before) = q ++ [m] ∧ (doneOf (since before)).Sublist q

def Publishes : List Act → Prop
  | [] => True
  | a :: l => PublishAct a l ∧ Publishes l

/-- The address a connection attempt goes to is the configured one. -/
def TargetAct (a : Act) (before : List Act) : Prop :=
  ∀ fd ip port, a = .connectTo fd ip port → ∃ c, lastCfg before = some c ∧ ip = Text.atoip4 c.host ∧ port = c.port

def Targets : List Act → Prop
  | [] => True
  | a :: l => TargetAct a l ∧ Targets l

end Wolf.MqttC
