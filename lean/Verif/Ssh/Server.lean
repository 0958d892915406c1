import Verif.Glue.Props
import Verif.Sock.Run
/-! # C130: the SSH server of the STM32H563 port

Model of `src/port/stm32h563/ssh_server.c` (92–527): the password check, the shell commands and the server's poll
function, over two models of the layers below it: the TCP socket table of C18–C22 (`Sock`) and the wolfSSH I/O glue of C107
and C108 (`Glue`). The network and the other applications do anything to the socket table; wolfSSH answers anything.
Not modelled: `ssh_server_init` up to the state it leaves, key loading, debug output, `wolfSSH_shutdown` (it sends,
through the glue), and what becomes of the bytes handed to `wolfSSH_stream_send`, whose results the server ignores.
Bytes are naturals. A descriptor is its slot number (the code adds MARK_TCP_SOCKET). -/
namespace Wolf.Ssh

/-! ## Texts -/

/-- `SSH_USERNAME`, "admin". ssh_server.c 34. -/
def userName : List Nat := [97, 100, 109, 105, 110]
/-- `SSH_PASSWORD`, "wolfip". ssh_server.c 35. -/
def password : List Nat := [119, 111, 108, 102, 105, 112]
/-- "help" -/
def cHelp : List Nat := [104, 101, 108, 112]
/-- "info" -/
def cInfo : List Nat := [105, 110, 102, 111]
/-- "uptime" -/
def cUptime : List Nat := [117, 112, 116, 105, 109, 101]
/-- "exit" -/
def cExit : List Nat := [101, 120, 105, 116]
/-- "quit" -/
def cQuit : List Nat := [113, 117, 105, 116]
/-- The answer to "help". ssh_server.c 153–158. -/
def tHelp : List Nat := [13, 10, 65, 118, 97, 105, 108, 97, 98, 108, 101, 32, 99, 111, 109, 109, 97, 110, 100, 115, 58, 13, 10, 32, 32, 104, 101, 108, 112, 32, 32, 32, 32, 45, 32, 83, 104, 111, 119, 32, 116, 104, 105, 115, 32, 104, 101, 108, 112, 13, 10, 32, 32, 105, 110, 102, 111, 32, 32, 32, 32, 45, 32, 83, 104, 111, 119, 32, 100, 101, 118, 105, 99, 101, 32, 105, 110, 102, 111, 114, 109, 97, 116, 105, 111, 110, 13, 10, 32, 32, 117, 112, 116, 105, 109, 101, 32, 32, 45, 32, 83, 104, 111, 119, 32, 117, 112, 116, 105, 109, 101, 32, 105, 110, 32, 115, 101, 99, 111, 110, 100, 115, 13, 10, 32, 32, 101, 120, 105, 116, 32, 32, 32, 32, 45, 32, 67, 108, 111, 115, 101, 32, 83, 83, 72, 32, 115, 101, 115, 115, 105, 111, 110, 13, 10, 13, 10]
/-- The answer to "info". ssh_server.c 166–170. -/
def tInfo : List Nat := [13, 10, 68, 101, 118, 105, 99, 101, 58, 32, 83, 84, 77, 51, 50, 72, 53, 54, 51, 13, 10, 83, 116, 97, 99, 107, 58, 32, 32, 119, 111, 108, 102, 73, 80, 13, 10, 83, 83, 72, 58, 32, 32, 32, 32, 119, 111, 108, 102, 83, 83, 72, 13, 10, 84, 76, 83, 58, 32, 32, 32, 32, 119, 111, 108, 102, 83, 83, 76, 32, 84, 76, 83, 32, 49, 46, 51, 13, 10, 13, 10]
/-- "\r\nUptime: ". ssh_server.c 180. -/
def tUp1 : List Nat := [13, 10, 85, 112, 116, 105, 109, 101, 58, 32]
/-- " seconds\r\n\r\n". ssh_server.c 181. -/
def tUp2 : List Nat := [32, 115, 101, 99, 111, 110, 100, 115, 13, 10, 13, 10]
/-- "\r\nGoodbye!\r\n". ssh_server.c 192. -/
def tBye : List Nat := [13, 10, 71, 111, 111, 100, 98, 121, 101, 33, 13, 10]
/-- The answer to anything else. ssh_server.c 201. -/
def tUnknown : List Nat := [13, 10, 85, 110, 107, 110, 111, 119, 110, 32, 99, 111, 109, 109, 97, 110, 100, 46, 32, 84, 121, 112, 101, 32, 39, 104, 101, 108, 112, 39, 32, 102, 111, 114, 32, 97, 118, 97, 105, 108, 97, 98, 108, 101, 32, 99, 111, 109, 109, 97, 110, 100, 115, 46, 13, 10, 13, 10]
/-- Banner. ssh_server.c 418–421. -/
def tWelcome : List Nat := [13, 10, 61, 61, 61, 32, 119, 111, 108, 102, 73, 80, 32, 83, 83, 72, 32, 83, 104, 101, 108, 108, 32, 61, 61, 61, 13, 10, 84, 121, 112, 101, 32, 39, 104, 101, 108, 112, 39, 32, 102, 111, 114, 32, 97, 118, 97, 105, 108, 97, 98, 108, 101, 32, 99, 111, 109, 109, 97, 110, 100, 115, 46, 13, 10, 13, 10, 119, 111, 108, 102, 105, 112, 62, 32]
/-- "wolfip> ". ssh_server.c 474. -/
def tPrompt : List Nat := [119, 111, 108, 102, 105, 112, 62, 32]

/-! ## Password check and commands -/

/-- Results of the authentication callback. -/
inductive Auth where
  | success | badType | badUser | badPassword
deriving DecidableEq

/-- `ssh_userauth_cb`: `pw` says that the method is password; `memcmp` over the length already found equal.
ssh_server.c 92–117. -/
def auth (pw : Bool) (user pass : List Nat) : Auth :=
  if pw = false then .badType
  else if user.length ≠ userName.length ∨ user.take user.length ≠ userName.take user.length then .badUser
  else if pass.length ≠ password.length ∨ pass.take pass.length ≠ password.take pass.length then .badPassword
  else .success

/-- The first loop of `uint_to_str`: `tmp` in the order it is filled. ssh_server.c 131–134; `fuel` is the size of `tmp`. -/
def digits : Nat → Nat → List Nat
  | 0, _ => []
  | f + 1, v => if v = 0 then [] else (48 + v % 10) :: digits f (v / 10)

/-- `uint_to_str`. ssh_server.c 119–141. -/
def uintToStr (v : Nat) : List Nat := if v = 0 then [48] else (digits 12 v).reverse

/-- `ssh_server_get_uptime`. ssh_server.c 522–527. -/
def uptime : Nat := 0

/-- A fixed text cut to the room there is: what is stored in front of the NUL. ssh_server.c 159–163 and likewise. -/
def fit (t : List Nat) (max : Nat) : List Nat := if t.length ≥ max then t.take (max - 1) else t

/-- `handle_command`: what it leaves in `response` and what it returns. `cmd` is the string up to its NUL.
ssh_server.c 144–214. -/
def handle (cmd : List Nat) (max : Nat) : List Nat × Int :=
  let cmd := cmd.dropWhile fun c => c == 32 || c == 9
  if cmd.take 4 = cHelp then (fit tHelp max, (fit tHelp max).length)
  else if cmd.take 4 = cInfo then (fit tInfo max, (fit tInfo max).length)
  else if cmd.take 6 = cUptime then
    let t := tUp1 ++ uintToStr uptime ++ tUp2
    if t.length < max then (t, t.length) else ([], 0)
  else if cmd.take 4 = cExit ∨ cmd.take 4 = cQuit then (fit tBye max, -((fit tBye max).length : Int))
  else if cmd ≠ [] ∧ cmd.head? ≠ some 13 ∧ cmd.head? ≠ some 10 then (fit tUnknown max, (fit tUnknown max).length)
  else ([], 0)

/-! ## The server -/

/-- `ssh_state_t` (AUTH and CHANNEL_OPEN are never entered). ssh_server.c 38–46. -/
inductive Ph where
  | listening | accepting | keyExchange | connected | closing
deriving DecidableEq, Repr

/-- What the server did. -/
inductive Act where
  /-- a connection was accepted as socket `k` -/
  | accepted (k : Nat)
  /-- `wolfIP_sock_close` was called on the client's socket `k` -/
  | closed (k : Nat)
  | made (x : Nat)
  | freed (x : Nat)
  /-- the session's stream gave `d` -/
  | typed (d : List Nat)
  /-- a command line was executed -/
  | ran (c : List Nat)
  /-- handed to `wolfSSH_stream_send` -/
  | sent (d : List Nat)
deriving DecidableEq

structure W where
  net : Sock.St
  /-- calls into the glue, most recent first -/
  ops : List Glue.Op := []
  ph : Ph := .listening
  listen : Option Nat
  client : Option Nat := none
  ssh : Option Nat := none
  /-- `rx_buf` up to `rx_len` -/
  rx : List Nat := []
  /-- most recent first -/
  acts : List Act := []

/-- `wolfSSH_accept`. -/
inductive Hs where
  | ok | want | fail
deriving DecidableEq

/-- `wolfSSH_stream_read`: at most what was asked for is taken from `d`. -/
inductive Rd where
  | data (d : List Nat) | want | zero | fail
deriving DecidableEq

/-- What the outside answers during one poll; the first seven for the socket table (see `Sock`). -/
structure Env where
  acceptVeto : Bool := false
  acceptSend : Bool := true
  rnd : Nat := 0
  bindVeto : Bool := false
  listenVeto : Bool := false
  closeSend : Bool := true
  relistenSend : Bool := true
  new : Option Nat := none
  hs : Hs := .want
  rd : Rd := .want

/-- `SSH_RX_BUF_SIZE`. ssh_server.c 30. -/
notation "sshRxBuf" => (512 : Nat)

/-- `ssh_reinit_listen`. ssh_server.c 311–356. The result is the new table and `listen_fd` (`none`: −1). -/
def reinit (port : Nat) (net : Sock.St) (l : Option Nat) (e : Env) : Sock.St × Option Nat :=
  let net := match l with
    | none => net
    | some k => (Sock.closeOp net k e.relistenSend).1
  match Sock.socketOp net with
  | (net, .fd k) =>
    match Sock.bindOp net k 0 port true e.bindVeto with
    | (net, .ok) =>
      match Sock.listenOp net k e.listenVeto with
      | (net, .ok) => (net, some k)
      | (net, _) => ((Sock.closeOp net k true).1, none)
    | (net, _) => ((Sock.closeOp net k true).1, none)
  | (net, _) => (net, none)

/-- Case LISTENING. ssh_server.c 365–385. On descriptor −1 `wolfIP_sock_accept` answers −WOLFIP_EINVAL
(src/wolfip.c 6506), which is neither a descriptor nor −1. -/
def listening (port : Nat) (w : W) (e : Env) : W :=
  match w.listen with
  | none => w
  | some l =>
    match Sock.acceptOp w.net l e.acceptVeto e.acceptSend e.rnd with
    | (net, .fd k, _) => { w with net := net, client := some k, ph := .accepting, acts := .accepted k :: w.acts }
    | (net, .err, _) => { w with net := (reinit port net w.listen e).1, listen := (reinit port net w.listen e).2 }
    | (net, _, _) => { w with net := net }

/-- Case ACCEPTING. ssh_server.c 387–406; `st` is the stack. -/
def accepting (st : Nat) (w : W) (e : Env) : W :=
  match e.new with
  | none => { w with ph := .closing }
  | some x =>
    let fd : Int := match w.client with
      | some k => k
      | none => -1
    let o : Glue.Op := .sshIO x (some st) fd
    let r := (Glue.step .ssh (Glue.exec .ssh w.ops).1 o).2
    { w with ssh := some x, ops := o :: w.ops, acts := .made x :: w.acts, ph := if r ≠ .ok then .closing else .keyExchange }

/-- Case KEY_EXCHANGE. ssh_server.c 408–433. -/
def keyExchange (w : W) (e : Env) : W :=
  match e.hs with
  | .ok => { w with ph := .connected, rx := [], acts := .sent tWelcome :: w.acts }
  | .want => w
  | .fail => { w with ph := .closing }

/-- `strchr(rx_buf, c)`: the first `c` in front of the first NUL. -/
def strchr (l : List Nat) (c : Nat) : Option Nat := (l.takeWhile (· ≠ 0)).findIdx? (· == c)

/-- Case CONNECTED. ssh_server.c 435–488. -/
def connected (w : W) (e : Env) : W :=
  match e.rd with
  | .data d0 =>
    let d := d0.take (sshRxBuf - w.rx.length - 1)
    if d = [] then w
    else
      let rx := w.rx ++ d
      let w := { w with rx := rx, acts := .sent d :: .typed d :: w.acts }
      match (strchr rx 13).or (strchr rx 10) with
      | none => w
      | some i =>
        let cmd := rx.take i
        let r := handle cmd 256
        if r.2 < 0 then { w with ph := .closing, acts := .sent (r.1.take r.2.natAbs) :: .ran cmd :: w.acts }
        else
          let a := if r.2 > 0 then .sent (r.1.take r.2.natAbs) :: .ran cmd :: w.acts else .ran cmd :: w.acts
          { w with rx := [], acts := .sent tPrompt :: a }
  | .want => w
  | .zero => w
  | .fail => { w with ph := .closing }

/-- Case CLOSING. ssh_server.c 490–513. -/
def closing (w : W) (e : Env) : W :=
  let w := match w.ssh with
    | none => w
    | some x => { w with ssh := none, ops := .free x :: .clean x :: w.ops, acts := .freed x :: w.acts }
  let w := match w.client with
    | none => w
    | some k => { w with client := none, net := (Sock.closeOp w.net k e.closeSend).1, acts := .closed k :: w.acts }
  { w with rx := [], ph := .listening }

/-- `ssh_server_poll`. ssh_server.c 358–520. -/
def poll (port st : Nat) (w : W) (e : Env) : W :=
  match w.ph with
  | .listening => listening port w e
  | .accepting => accepting st w e
  | .keyExchange => keyExchange w e
  | .connected => connected w e
  | .closing => closing w e

inductive Ev where
  | poll (e : Env)
  /-- the network, timers and other applications -/
  | net (o : Sock.Op)

def step (port st : Nat) (w : W) : Ev → W
  | .poll e => poll port st w e
  | .net o => { w with net := (Sock.step w.net o).1 }

def run (port st : Nat) (w : W) : List Ev → W
  | [] => w
  | e :: es => run port st (step port st w e) es

/-- After `ssh_server_init`: socket `k` listens. -/
def start (net : Sock.St) (k : Nat) : W := { net := net, listen := some k }

/-! ## Specification -/

/-- Accepted and not closed since (most recent act first). -/
def isOpen (k : Nat) : List Act → Bool
  | [] => false
  | .accepted j :: l => if j = k then true else isOpen k l
  | .closed j :: l => if j = k then false else isOpen k l
  | _ :: l => isOpen k l

/-- Made and not freed since. -/
def isLive (x : Nat) : List Act → Bool
  | [] => false
  | .made y :: l => if y = x then true else isLive x l
  | .freed y :: l => if y = x then false else isLive x l
  | _ :: l => isLive x l

/-- How many connections were accepted. -/
def acceptedN : List Act → Nat
  | [] => 0
  | .accepted _ :: l => acceptedN l + 1
  | _ :: l => acceptedN l

/-- What was typed into the last session, oldest first. -/
def typed : List Act → List Nat
  | [] => []
  | .typed d :: l => typed l ++ d
  | .made _ :: _ => []
  | _ :: l => typed l

/-- The command lines executed in the last session, oldest first. -/
def ran : List Act → List (List Nat)
  | [] => []
  | .ran c :: l => ran l ++ [c]
  | .made _ :: _ => []
  | _ :: l => ran l

/-- The lines of a stream, each ended by a carriage return or a line feed, and the unfinished last one. -/
def lines : List Nat → List (List Nat) × List Nat
  | [] => ([], [])
  | c :: l =>
    let r := lines l
    if c = 13 ∨ c = 10 then ([] :: r.1, r.2)
    else match r.1 with
      | [] => ([], c :: r.2)
      | h :: t => ((c :: h) :: t, r.2)

/-- Someone typing: no NUL, and nothing arrives together with a line end but what is in front of it. -/
def Typing : Ev → Prop
  | .poll e => match e.rd with
    | .data d => (∀ c ∈ d, c ≠ 0) ∧ ∀ c ∈ d.dropLast, c ≠ 13 ∧ c ≠ 10
    | _ => True
  | .net _ => True

end Wolf.Ssh
