import Verif.Supp.Complete

/-!
# The wired 802.1X client

Model of `dot1x_eaptls_run` of `src/port/stm32h563/dot1x_client.c` over the supplicant model of
`Supp/Model`: the packet socket, the 802.3 framing, the loop and its ends.  The clock, the frames the
socket returns, whether it takes a frame, and what the EAP-TLS engine does are inputs; the EAP payload
the supplicant hands to `send_eapol` in a turn is an input as well (its framing is modelled).
-/

namespace Wolf.Dot1x

open Wolf.Supp (Bytes Env S Crypto Cfg)

/-- `DOT1X_FRAME_MAX`, dot1x_client.c 51. -/
notation "dot1xFrameMax" => (1600 : Nat)
/-- `DOT1X_MAX_ITERS`, dot1x_client.c 54. -/
notation "dot1xMaxIters" => (4000000 : Nat)

/-- What a run does to the outside: the packet socket opened and closed, the supplicant wiped, one
`wolfIP_poll`, a payload passed to the supplicant, an Ethernet frame given to the socket. -/
inductive Ev where
  | opened | closed | wiped
  | poll (now : Nat)
  | fed (p : Bytes)
  | sent (f : Bytes)
  deriving DecidableEq, Repr

/-- `ctx.local_mac` and `DOT1X_AUTH_MAC`, dot1x_client.c 100-119. -/
structure Link where
  mac : Bytes
  auth : Bytes
  deriving DecidableEq, Repr

/-- `dot1x_send_eapol`, dot1x_client.c 136-155: the frame. -/
def ethFrame (l : Link) (p : Bytes) : Bytes := l.auth ++ l.mac ++ [0x88, 0x8E] ++ p

/-- `dot1x_send_eapol`, dot1x_client.c 140-144, 155-160: whether it returns 0.  `tx`: `sendto`
returned a positive count. -/
def sendOk (out : Bytes) (tx : Bool) : Bool := decide (14 + out.length ≤ dot1xFrameMax) && tx

/-- The frames of one supplicant call (dot1x_client.c 136-160); `out` is the EAPOL frame of that call
where the supplicant model does not give its bytes. -/
def wire (l : Link) (out : Bytes) : List Supp.Ev → List Ev
  | [] => []
  | .key f :: es => .sent (ethFrame l f) :: wire l out es
  | .other :: es => .sent (ethFrame l out) :: wire l out es
  | .pair _ _ :: es => wire l out es
  | .group _ _ _ :: es => wire l out es

/-- One turn of the loop: the clock, the frame `recvfrom` returned, the EAPOL frame the supplicant
would send, whether the socket takes it, and the engine. -/
structure Turn where
  now : Nat
  frame : Option Bytes
  out : Bytes
  tx : Bool
  eng : Env
  deriving DecidableEq, Repr

/-- The outcomes of the supplicant's callbacks in a turn. -/
def Turn.env (t : Turn) : Env := { t.eng with send := sendOk t.out t.tx }

/-- dot1x_client.c 267-277: a received frame is stripped and passed on unless it is our own. -/
def feed (C : Crypto) (l : Link) (s : S) (t : Turn) : S × List Ev :=
  match t.frame with
  | none => (s, [])
  | some f =>
    if f.length > 14 ∧ (f.drop 6).take 6 ≠ l.mac then
      let r := Supp.rx C s (f.drop 14) t.now t.env
      (r.1, .fed (f.drop 14) :: wire l t.out r.2.2)
    else (s, [])

/-- The loop, dot1x_client.c 256-297: result, supplicant, effects.  `n` turns are left, `k` is the
number of the next one. -/
def loop (C : Crypto) (l : Link) (turns : Nat → Turn) : Nat → Nat → S → Int × S × List Ev
  | 0, _, s => (-1, s, [])
  | n + 1, k, s =>
    let t := turns k
    let a := feed C l s t
    let b := Supp.tick C a.1 t.now t.env
    let evs := .poll t.now :: (a.2 ++ wire l t.out b.2.2)
    if b.1.st = .m1Wait then (0, b.1, evs)
    else if b.1.st = .failed then (-1, b.1, evs)
    else
      let r := loop C l turns n (k + 1) b.1
      (r.1, r.2.1, evs ++ r.2.2)

/-- What a run meets.  `dev`: the MAC address of the device, if there is one; `sock`: the packet
socket could be opened; `cfgOk`: the built-in certificates and identity are acceptable; `init`: the
EAP-TLS engine at set-up; `start…`: the call of `wolfip_supplicant_kick`. -/
structure World where
  dev : Option Bytes
  auth : Bytes
  sock : Bool
  cfgOk : Bool
  init : Env
  start : Nat
  startOut : Bytes
  startTx : Bool
  startEng : Env
  turns : Nat → Turn

/-- The configuration, dot1x_client.c 213-238 (the SSID is the literal "wired-8021x"). -/
def config (mac : Bytes) (ok : Bool) : Cfg :=
  ⟨[119, 105, 114, 101, 100, 45, 56, 48, 50, 49, 120], [1, 0x80, 0xC2, 0, 0, 3], mac, .eapTls, true, true,
    none, none, false, false, none, false, ok⟩

/-- dot1x_client.c 252-254: EAPOL-Start. -/
def World.startEnv (w : World) : Env := { w.startEng with send := sendOk w.startOut w.startTx }

/-- The run after a successful `wolfip_supplicant_init`, dot1x_client.c 246-304. -/
def session (C : Crypto) (l : Link) (w : World) (s : S) : Int × S × List Ev :=
  let k := Supp.kick s w.start w.startEnv
  let r := loop C l w.turns dot1xMaxIters 0 k.1
  (r.1, (Supp.step C r.2.1 .deinit).1, wire l w.startOut k.2.2 ++ r.2.2 ++ [.wiped])

/-- `dot1x_eaptls_run`, dot1x_client.c 178-305; `s0` is the static supplicant context. -/
def run (C : Crypto) (s0 : S) (w : World) : Int × S × List Ev :=
  match w.dev with
  | none => (-1, s0, [])
  | some mac =>
    if w.sock = false then (-1, s0, [])
    else
      let i := Supp.init C s0 (config mac w.cfgOk) w.init
      if i.2.1 = false then (-1, i.1, [.opened, .closed])
      else
        let r := session C ⟨mac, w.auth⟩ w i.1
        (r.1, r.2.1, .opened :: r.2.2 ++ [.closed])

/-! ## The specification -/

/-- `p` is an EAPOL frame holding a whole EAP packet of this code. -/
def EapCode (p : Bytes) (code : Nat) : Prop :=
  4 ≤ p.length ∧ p.getD 1 0 = 0 ∧ Supp.num16 p 2 + 4 ≤ p.length ∧ 4 ≤ Supp.num16 p 6 ∧
    Supp.num16 p 6 ≤ Supp.num16 p 2 ∧ p.getD 4 0 = code

instance (p : Bytes) (c : Nat) : Decidable (EapCode p c) := by unfold EapCode; infer_instance

/-- `p` is an EAP-Request of this type. -/
def EapRequest (p : Bytes) (type : Nat) : Prop :=
  EapCode p 1 ∧ 5 ≤ Supp.num16 p 6 ∧ p.getD 8 0 = type

instance (p : Bytes) (c : Nat) : Decidable (EapRequest p c) := by unfold EapRequest; infer_instance

/-- The frame of the turn comes from another station and its payload is `P`. -/
def Turn.Got (t : Turn) (mac : Bytes) (P : Bytes → Prop) : Prop :=
  ∃ f, t.frame = some f ∧ 14 < f.length ∧ (f.drop 6).take 6 ≠ mac ∧ P (f.drop 14)

/-- How many times the stack was polled. -/
def polls : List Ev → Nat
  | [] => 0
  | .poll _ :: es => polls es + 1
  | .opened :: es => polls es
  | .closed :: es => polls es
  | .wiped :: es => polls es
  | .fed _ :: es => polls es
  | .sent _ :: es => polls es

end Wolf.Dot1x
