import Verif.Ssh.Props

/-!
# C136: the HTTPS task of the FreeRTOS port

Model of `src/port/stm32h563/https_server_freertos.c` 77–324: the task, its start, the accept loop, the service of
one client and the two I/O callbacks.  Inputs: the results of the socket calls, of wolfSSL and of the clock; that a
blocking call never returns is an input too.  `snprintf` is taken to write decimal numerals (`Ssh.uintToStr`, proved
to be that in `Ssh/Props`).  Simplified: the debug texts, which change nothing else, are left out.
-/
namespace Wolf.HttpsTask

open Wolf.Ssh (uintToStr value)

abbrev Bytes := List Nat

/-- What the task does to the outside. -/
inductive Ev where
  | ctxNew | ctxFree
  /-- `vTaskDelete(NULL)` -/
  | quit
  | socket (fd : Nat) | bind (fd port : Nat) | listen (fd backlog : Nat)
  /-- `accept` on the first descriptor gave the second -/
  | accepted (l fd : Nat)
  | refused (l : Nat)
  | pause (ms : Nat)
  | close (fd : Nat)
  /-- a session made on a descriptor -/
  | new (s fd : Nat)
  | handshake (s : Nat) (ok : Bool)
  | read (s : Nat) (r : Option Bytes)
  | write (s : Nat) (b : Bytes)
  | shutdown (s : Nat) | free (s : Nat)
  deriving DecidableEq

/-- `format_ip4`, https_server_freertos.c 128–137. -/
def ipText (ip : Nat) : Bytes :=
  uintToStr (ip / 16777216 % 256) ++ 46 :: (uintToStr (ip / 65536 % 256) ++ 46 :: (uintToStr (ip / 256 % 256) ++
    46 :: uintToStr (ip % 256)))

-- HTTP/1.1 200 OK\r\nConnection: close\r\nContent-Type: text/html\r\n\r\n<!DOCTYPE html><html><head><title>wolfIP
-- STM32H563
-- FreeRTOS</title><style>body{font-family:sans-serif;margin:40px;}table{border-collapse:collapse;}td{padding:8px
-- 16px;border:1px solid #ddd;}</style></head><body><h1>wolfIP
-- Status</h1><table><tr><td>Device</td><td>STM32H563</td></tr><tr><td>Mode</td><td>FreeRTOS BSD
-- sockets</td></tr><tr><td>IP Address</td><td>
/-- The text before the address, https_server_freertos.c 188–198. -/
def page1 : Bytes :=
  [72, 84, 84, 80, 47, 49, 46, 49, 32, 50, 48, 48, 32, 79, 75, 13, 10, 67, 111, 110, 110, 101, 99, 116, 105, 111,
   110, 58, 32, 99, 108, 111, 115, 101, 13, 10, 67, 111, 110, 116, 101, 110, 116, 45, 84, 121, 112, 101, 58, 32,
   116, 101, 120, 116, 47, 104, 116, 109, 108, 13, 10, 13, 10, 60, 33, 68, 79, 67, 84, 89, 80, 69, 32, 104, 116,
   109, 108, 62, 60, 104, 116, 109, 108, 62, 60, 104, 101, 97, 100, 62, 60, 116, 105, 116, 108, 101, 62, 119,
   111, 108, 102, 73, 80, 32, 83, 84, 77, 51, 50, 72, 53, 54, 51, 32, 70, 114, 101, 101, 82, 84, 79, 83, 60, 47,
   116, 105, 116, 108, 101, 62, 60, 115, 116, 121, 108, 101, 62, 98, 111, 100, 121, 123, 102, 111, 110, 116, 45,
   102, 97, 109, 105, 108, 121, 58, 115, 97, 110, 115, 45, 115, 101, 114, 105, 102, 59, 109, 97, 114, 103, 105,
   110, 58, 52, 48, 112, 120, 59, 125, 116, 97, 98, 108, 101, 123, 98, 111, 114, 100, 101, 114, 45, 99, 111,
   108, 108, 97, 112, 115, 101, 58, 99, 111, 108, 108, 97, 112, 115, 101, 59, 125, 116, 100, 123, 112, 97, 100,
   100, 105, 110, 103, 58, 56, 112, 120, 32, 49, 54, 112, 120, 59, 98, 111, 114, 100, 101, 114, 58, 49, 112,
   120, 32, 115, 111, 108, 105, 100, 32, 35, 100, 100, 100, 59, 125, 60, 47, 115, 116, 121, 108, 101, 62, 60,
   47, 104, 101, 97, 100, 62, 60, 98, 111, 100, 121, 62, 60, 104, 49, 62, 119, 111, 108, 102, 73, 80, 32, 83,
   116, 97, 116, 117, 115, 60, 47, 104, 49, 62, 60, 116, 97, 98, 108, 101, 62, 60, 116, 114, 62, 60, 116, 100,
   62, 68, 101, 118, 105, 99, 101, 60, 47, 116, 100, 62, 60, 116, 100, 62, 83, 84, 77, 51, 50, 72, 53, 54, 51,
   60, 47, 116, 100, 62, 60, 47, 116, 114, 62, 60, 116, 114, 62, 60, 116, 100, 62, 77, 111, 100, 101, 60, 47,
   116, 100, 62, 60, 116, 100, 62, 70, 114, 101, 101, 82, 84, 79, 83, 32, 66, 83, 68, 32, 115, 111, 99, 107,
   101, 116, 115, 60, 47, 116, 100, 62, 60, 47, 116, 114, 62, 60, 116, 114, 62, 60, 116, 100, 62, 73, 80, 32,
   65, 100, 100, 114, 101, 115, 115, 60, 47, 116, 100, 62, 60, 116, 100, 62]
-- </td></tr><tr><td>Uptime</td><td>
/-- Between address and uptime, 198–199. -/
def page2 : Bytes :=
  [60, 47, 116, 100, 62, 60, 47, 116, 114, 62, 60, 116, 114, 62, 60, 116, 100, 62, 85, 112, 116, 105, 109, 101,
   60, 47, 116, 100, 62, 60, 116, 100, 62]
--  sec</td></tr><tr><td>TLS</td><td>TLS 1.3</td></tr></table></body></html>
/-- After the uptime, 199–201. -/
def page3 : Bytes :=
  [32, 115, 101, 99, 60, 47, 116, 100, 62, 60, 47, 116, 114, 62, 60, 116, 114, 62, 60, 116, 100, 62, 84, 76, 83,
   60, 47, 116, 100, 62, 60, 116, 100, 62, 84, 76, 83, 32, 49, 46, 51, 60, 47, 116, 100, 62, 60, 47, 116, 114,
   62, 60, 47, 116, 97, 98, 108, 101, 62, 60, 47, 98, 111, 100, 121, 62, 60, 47, 104, 116, 109, 108, 62]

/-- `response_len` and the octets given to `wolfSSL_write`: `snprintf` into `g_https_response[768]`, cut.
https_server_freertos.c 186–209. -/
def response (ip up : Nat) : Bytes :=
  let t := page1 ++ ipText ip ++ page2 ++ uintToStr up ++ page3
  t.take (if t.length ≥ 768 then 767 else t.length)

/-- How a client and the calls made for it turn out; `none` for a call that never returns. -/
structure Cli where
  new : Bool
  hs : Option Bool
  rd : Option (Option Bytes)
  ip : Nat
  ticks : Nat
  wr : Option Int

/-- `https_serve_client`, https_server_freertos.c 139–218, for session `s`; the second component tells whether it
returned. `rate` is `configTICK_RATE_HZ`. -/
def serve (rate s fd : Nat) (o : Cli) : List Ev × Bool :=
  if o.new = false then ([.close fd], true)
  else match o.hs with
    | none => ([.new s fd], false)
    | some false => ([.new s fd, .handshake s false, .free s, .close fd], true)
    | some true =>
      match o.rd with
      | none => ([.new s fd, .handshake s true], false)
      | some none => ([.new s fd, .handshake s true, .read s none, .shutdown s, .free s, .close fd], true)
      | some (some r) =>
        let a := [.new s fd, .handshake s true, .read s (some r), .write s (response o.ip (o.ticks / rate % 4294967296))]
        match o.wr with
        | none => (a, false)
        | some _ => (a ++ [.shutdown s, .free s, .close fd], true)

/-- What one `accept` brings. -/
inductive Acc where
  | fail
  | client (fd : Nat) (o : Cli)

/-- The loop, https_server_freertos.c 297–306; `k` numbers the sessions. -/
def loop (rate lfd : Nat) : Nat → List Acc → List Ev × Bool
  | _, [] => ([], true)
  | k, .fail :: l => (.refused lfd :: .pause 50 :: (loop rate lfd k l).1, (loop rate lfd k l).2)
  | k, .client fd o :: l =>
    let r := serve rate k fd o
    if r.2 = true then (.accepted lfd fd :: (r.1 ++ (loop rate lfd (k + 1) l).1), (loop rate lfd (k + 1) l).2)
    else (.accepted lfd fd :: r.1, false)

/-- How the calls of the start turn out. -/
structure Setup where
  port : Nat
  init : Bool
  ctx : Bool
  cert : Bool
  key : Bool
  sock : Option Nat
  bind : Bool
  listen : Bool

/-- The start of `https_server_task`, https_server_freertos.c 220–293: what it does, and the listening descriptor if it
gets to the loop. -/
def start (c : Setup) : List Ev × Option Nat :=
  if c.init = false then ([.quit], none)
  else if c.ctx = false then ([.quit], none)
  else if c.cert = false then ([.ctxNew, .ctxFree, .quit], none)
  else if c.key = false then ([.ctxNew, .ctxFree, .quit], none)
  else match c.sock with
    | none => ([.ctxNew, .ctxFree, .quit], none)
    | some fd =>
      if c.bind = false then ([.ctxNew, .socket fd, .bind fd c.port, .close fd, .ctxFree, .quit], none)
      else if c.listen = false then
        ([.ctxNew, .socket fd, .bind fd c.port, .listen fd 2, .close fd, .ctxFree, .quit], none)
      else ([.ctxNew, .socket fd, .bind fd c.port, .listen fd 2], some fd)

/-- `https_server_task`, https_server_freertos.c 220–308. -/
def task (rate : Nat) (c : Setup) (l : List Acc) : List Ev :=
  match (start c).2 with
  | none => (start c).1
  | some fd => (start c).1 ++ (loop rate fd 0 l).1

/-- The results of the I/O callbacks, wolfSSL's `WOLFSSL_CBIO_ERR_*`. -/
inductive Io where
  | moved (n : Nat) | again | closed | error
  deriving DecidableEq

/-- `https_tls_recv`, https_server_freertos.c 77–102: `ret` of `recv`, `err` of `socket_last_error() == EAGAIN`. -/
def tlsRecv (ret : Int) (eagain : Bool) : Io :=
  if ret < 0 then (if eagain = true then .again else .error) else if ret = 0 then .closed else .moved ret.toNat

/-- `https_tls_send`, https_server_freertos.c 104–126. -/
def tlsSend (ret : Int) (eagain : Bool) : Io :=
  if ret ≤ 0 then (if eagain = true then .again else .error) else .moved ret.toNat

/-! ## The specification: a bookkeeper of what is in use -/

inductive Phase where
  | fresh | shaken | asked | answered | failed
  deriving DecidableEq

structure Use where
  fds : List Nat := []
  ctx : Bool := false
  /-- session, its descriptor, how far it is -/
  ses : List (Nat × Nat × Phase) := []
  gone : Bool := false
  deriving DecidableEq

def Use.phase (w : Use) (s : Nat) : Option Phase := (w.ses.find? (·.1 == s)).map (·.2.2)
def Use.to (w : Use) (s : Nat) (p : Phase) : Use := { w with ses := w.ses.map fun x => if x.1 = s then (x.1, x.2.1, p) else x }

/-- Whether an action is allowed, and what is in use after it.  A descriptor is closed once, and only when no session
is on it; a session is made with a context on an open descriptor, used only in the order handshake, request, answer,
nothing after a failure but its end, and freed once; the task ends with nothing left; nothing happens after. -/
def Use.step (w : Use) (e : Ev) : Option Use :=
  if w.gone = true then none else
  match e with
  | .ctxNew => if w.ctx = false then some { w with ctx := true } else none
  | .ctxFree => if w.ctx = true ∧ w.ses = [] then some { w with ctx := false } else none
  | .quit => if w.ctx = false ∧ w.ses = [] ∧ w.fds = [] then some { w with gone := true } else none
  | .socket fd => if fd ∈ w.fds then none else some { w with fds := fd :: w.fds }
  | .bind fd _ => if fd ∈ w.fds then some w else none
  | .listen fd _ => if fd ∈ w.fds then some w else none
  | .accepted l fd => if l ∈ w.fds ∧ fd ∉ w.fds then some { w with fds := fd :: w.fds } else none
  | .refused l => if l ∈ w.fds then some w else none
  | .pause _ => some w
  | .close fd => if fd ∈ w.fds ∧ ∀ x ∈ w.ses, x.2.1 ≠ fd then some { w with fds := w.fds.erase fd } else none
  | .new s fd =>
    if w.ctx = true ∧ fd ∈ w.fds ∧ w.phase s = none then some { w with ses := (s, fd, .fresh) :: w.ses } else none
  | .handshake s ok => if w.phase s = some .fresh then some (w.to s (if ok = true then .shaken else .failed)) else none
  | .read s r => if w.phase s = some .shaken then some (w.to s (if r.isSome = true then .asked else .failed)) else none
  | .write s _ => if w.phase s = some .asked then some (w.to s .answered) else none
  | .shutdown s => if w.phase s = none then none else some w
  | .free s => if w.phase s = none then none else some { w with ses := w.ses.filter (·.1 ≠ s) }

def Use.all (w : Use) (t : List Ev) : Option Use := t.foldlM Use.step w

theorem all_nil (w : Use) : w.all [] = some w := rfl
theorem all_cons (w : Use) (e : Ev) (t : List Ev) : w.all (e :: t) = (w.step e).bind (Use.all · t) := List.foldlM_cons
theorem all_append (w : Use) (a b : List Ev) : w.all (a ++ b) = (w.all a).bind (Use.all · b) := List.foldlM_append

/-- In the loop between two clients. -/
def idle (lfd : Nat) : Use := { fds := [lfd], ctx := true }

/-- A client the server gets stuck with: its descriptor is open and, when there is one, its session is on it. -/
def serving (lfd fd k : Nat) (w : Use) : Prop :=
  w.fds = [fd, lfd] ∧ w.ctx = true ∧ w.gone = false ∧ ∃ p, w.ses = [(k, fd, p)]

theorem serve_legal (rate k : Nat) {lfd fd : Nat} (hf : fd ≠ lfd) (o : Cli) :
    ∃ w, (idle lfd).all (.accepted lfd fd :: (serve rate k fd o).1) = some w ∧
      ((serve rate k fd o).2 = true → w = idle lfd) ∧ ((serve rate k fd o).2 = false → serving lfd fd k w) := by
  have hg : lfd ≠ fd := Ne.symm hf
  unfold serve
  obtain ⟨nw, hs, rd, ip, ticks, wr⟩ := o
  cases nw <;> rcases hs with _ | _ | _ <;> rcases rd with _ | _ | r <;> cases wr <;>
    simp [all_cons, all_nil, Use.step, idle, hf, hg, Use.phase, Use.to, serving]

theorem loop_legal (rate : Nat) {lfd : Nat} : ∀ (l : List Acc) (k : Nat),
    (∀ fd o, Acc.client fd o ∈ l → fd ≠ lfd) →
    ∃ w, (idle lfd).all (loop rate lfd k l).1 = some w ∧ ((loop rate lfd k l).2 = true → w = idle lfd) ∧
      ((loop rate lfd k l).2 = false → ∃ fd j, serving lfd fd j w)
  | [], _, _ => ⟨_, rfl, fun _ => rfl, fun h => by cases h⟩
  | .fail :: l, k, h => by
    obtain ⟨w, h1, h2⟩ := loop_legal rate l k fun fd o hm => h fd o (List.mem_cons_of_mem _ hm)
    refine ⟨w, ?_, h2⟩
    unfold loop
    dsimp only
    rw [← h1]
    simp [all_cons, Use.step, idle]
  | .client fd o :: l, k, h => by
    obtain ⟨w, h1, h2, h3⟩ := serve_legal rate k (h fd o List.mem_cons_self) o
    unfold loop
    dsimp only
    split
    · next c =>
      obtain ⟨v, g1, g2⟩ := loop_legal rate l (k + 1) fun fd o hm => h fd o (List.mem_cons_of_mem _ hm)
      refine ⟨v, ?_, g2⟩
      dsimp only
      rw [← List.cons_append, all_append, h1, h2 c]
      exact g1
    · next c =>
      refine ⟨w, h1, fun e => (by cases e), fun _ => ⟨fd, k, h3 (by simpa using c)⟩⟩

theorem start_legal (c : Setup) : ∃ w, Use.all {} (start c).1 = some w ∧ ((start c).2 = none → w = { gone := true }) ∧
    ∀ lfd, (start c).2 = some lfd → w = idle lfd ∧ c.sock = some lfd := by
  unfold start
  repeat' split
  all_goals simp_all [all_cons, all_nil, Use.step, idle]

/-! ## The theorems -/

/-- **C136, resources.**  However the calls turn out (`accept` never giving the listening descriptor): every action is
allowed.  If the start fails the task ends with nothing left in use.  Otherwise, whenever the server waits for a
client, only the listening descriptor and the context are in use, and while it is stuck with a client only that
client's descriptor and session besides. -/
theorem https_task_legal (rate : Nat) (c : Setup) (l : List Acc)
    (hl : ∀ fd o, Acc.client fd o ∈ l → c.sock ≠ some fd) :
    ∃ w, Use.all {} (task rate c l) = some w ∧ ((start c).2 = none → w = { gone := true }) ∧
      (∀ lfd, (start c).2 = some lfd →
        ((loop rate lfd 0 l).2 = true → w = { fds := [lfd], ctx := true }) ∧
        ((loop rate lfd 0 l).2 = false → ∃ fd k p, w = { fds := [fd, lfd], ctx := true, ses := [(k, fd, p)] })) := by
  obtain ⟨w, h1, h2, h3⟩ := start_legal c
  unfold task
  cases hr : (start c).2 with
  | none => exact ⟨w, h1, fun _ => h2 hr, fun _ h => by cases h⟩
  | some lfd =>
    obtain ⟨rfl, hs⟩ := h3 lfd hr
    obtain ⟨v, g1, g2, g3⟩ := loop_legal (lfd := lfd) rate l 0 fun fd o hm e => hl fd o hm (by rw [hs, e])
    refine ⟨v, ?_, (fun h => by cases h), fun x hx => ?_⟩
    · show Use.all {} (_ ++ _) = _
      rw [all_append, h1]
      exact g1
    · cases hx
      refine ⟨g2, fun c => ?_⟩
      obtain ⟨fd, k, a1, a2, a3, p, a4⟩ := g3 c
      obtain ⟨f, cx, s, g⟩ := v
      cases a1; cases a2; cases a3; cases a4
      exact ⟨fd, k, p, rfl⟩

/-- The task listens on its port if and only if every call of the start succeeds. -/
theorem https_starts (c : Setup) : ((start c).2 ≠ none ↔ c.init = true ∧ c.ctx = true ∧ c.cert = true ∧ c.key = true ∧
    c.sock ≠ none ∧ c.bind = true ∧ c.listen = true) ∧
    ∀ lfd, (start c).2 = some lfd → .bind lfd c.port ∈ (start c).1 := by
  obtain ⟨port, init, ctx, cert, key, sock, bind, listen⟩ := c
  unfold start
  dsimp only
  cases init <;> cases ctx <;> cases cert <;> cases key <;> cases sock <;> cases bind <;> cases listen <;> simp

/-- The answers written. -/
def answers (t : List Ev) : List Bytes := t.filterMap fun | .write _ b => some b | _ => none

/-- The clients that finish the handshake and send something. -/
def asking : Acc → Option Cli
  | .client _ o =>
    match o.new, o.hs, o.rd with
    | true, some true, some (some _) => some o
    | _, _, _ => none
  | .fail => none

theorem answers_append (a b : List Ev) : answers (a ++ b) = answers a ++ answers b := List.filterMap_append

theorem serve_answers (rate k fd : Nat) (o : Cli) :
    answers (serve rate k fd o).1 =
      ((asking (.client fd o)).map fun o => response o.ip (o.ticks / rate % 4294967296)).toList := by
  obtain ⟨nw, hs, rd, ip, ticks, wr⟩ := o
  unfold serve asking
  cases nw <;> rcases hs with _ | _ | _ <;> rcases rd with _ | _ | r <;> cases wr <;> rfl

/-- **C136, answers.**  As long as no call hangs, exactly the clients that finish the handshake and send a request are
answered, each once and in order, with the page for the address and time at that moment; nobody else gets an octet. -/
theorem https_answers (rate lfd : Nat) : ∀ (l : List Acc) (k : Nat), (loop rate lfd k l).2 = true →
    answers (loop rate lfd k l).1 = (l.filterMap asking).map fun o => response o.ip (o.ticks / rate % 4294967296)
  | [], _, _ => rfl
  | .fail :: l, k, h => https_answers rate lfd l k h
  | .client fd o :: l, k, h => by
    unfold loop at h ⊢
    dsimp only at h ⊢
    split at h
    · next c =>
      rw [if_pos c]
      have ih := https_answers rate lfd l (k + 1) h
      show answers (_ ++ _) = _
      rw [answers_append, serve_answers, ih, List.filterMap_cons]
      cases asking (.client fd o) <;> rfl
    · cases h

theorem response_eq (ip up : Nat) (hu : up < 4294967296) :
    response ip up = page1 ++ ipText ip ++ page2 ++ uintToStr up ++ page3 ∧ (response ip up).length < 768 := by
  have d : ∀ x, (uintToStr (x % 256)).length ≤ 3 := fun x => by
    unfold uintToStr
    split
    · decide
    · rw [List.length_reverse]
      exact Wolf.Ssh.digits_len 12 3 _ (by omega)
  have u : (uintToStr up).length ≤ 11 := by have := (Wolf.Ssh.uint_decimal up hu).2.2.1; omega
  have i : (ipText ip).length ≤ 15 := by
    unfold ipText
    simp only [List.length_append, List.length_cons]
    have := d (ip / 16777216)
    have := d (ip / 65536)
    have := d (ip / 256)
    have := d ip
    omega
  have l1 : page1.length ≤ 600 := by decide +kernel
  have l2 : page2.length ≤ 40 := by decide +kernel
  have l3 : page3.length ≤ 90 := by decide +kernel
  have l : (page1 ++ ipText ip ++ page2 ++ uintToStr up ++ page3).length < 768 := by
    simp only [List.length_append]
    omega
  have e : response ip up = page1 ++ ipText ip ++ page2 ++ uintToStr up ++ page3 := by
    unfold response
    dsimp only
    rw [if_neg (by omega), List.take_length]
  exact ⟨e, by rw [e]; exact l⟩

/-- **C136, the page.**  For every address and uptime the page is never cut by its buffer of 768 octets, and it is the
fixed text around the address as four decimal numbers, high octet first, and the uptime in decimal. -/
theorem https_page (ip up : Nat) (hi : ip < 4294967296) (hu : up < 4294967296) :
    (response ip up).length < 768 ∧ ∃ a b c d u : Bytes,
      response ip up = page1 ++ (a ++ 46 :: (b ++ 46 :: (c ++ 46 :: d))) ++ page2 ++ u ++ page3 ∧
      ip = value a * 16777216 + value b * 65536 + value c * 256 + value d ∧ value u = up ∧
      (∀ x ∈ [a, b, c, d], value x < 256) ∧ (∀ x ∈ [a, b, c, d, u], x ≠ [] ∧ ∀ y ∈ x, 48 ≤ y ∧ y ≤ 57) := by
  obtain ⟨h1, h2⟩ := response_eq ip up hu
  have v : ∀ x, x < 4294967296 → value (uintToStr x) = x := fun x h => (Wolf.Ssh.uint_decimal x h).1
  have g : ∀ x, x < 4294967296 → uintToStr x ≠ [] ∧ ∀ y ∈ uintToStr x, 48 ≤ y ∧ y ≤ 57 := fun x h =>
    ⟨fun e => by
      unfold uintToStr at e
      split at e
      · cases e
      · next c => exact ((Wolf.Ssh.digits_spec 12 x (by omega)).2.2 c).2 (List.reverse_eq_nil_iff.mp e),
     (Wolf.Ssh.uint_decimal x h).2.1⟩
  refine ⟨h2, _, _, _, _, _, h1, ?_, v up hu, fun x hx => ?_, fun x hx => ?_⟩
  · rw [v _ (by omega), v _ (by omega), v _ (by omega), v _ (by omega)]
    omega
  · simp only [List.mem_cons, List.not_mem_nil, or_false] at hx
    rcases hx with rfl | rfl | rfl | rfl <;> (rw [v _ (by omega)]; omega)
  · simp only [List.mem_cons, List.not_mem_nil, or_false] at hx
    rcases hx with rfl | rfl | rfl | rfl | rfl
    · exact g _ (by omega)
    · exact g _ (by omega)
    · exact g _ (by omega)
    · exact g _ (by omega)
    · exact g _ hu

/-- **C136, the transport.**  The callbacks report octets moved exactly when `recv` or `send` moved that many, and an
end of the connection exactly when `recv` returned 0. -/
theorem https_io (ret : Int) (eagain : Bool) :
    (∀ n, tlsRecv ret eagain = .moved n ↔ ret = n ∧ 0 < n) ∧ (tlsRecv ret eagain = .closed ↔ ret = 0) ∧
    (tlsRecv ret eagain = .again ↔ ret < 0 ∧ eagain = true) ∧
    (∀ n, tlsSend ret eagain = .moved n ↔ ret = n ∧ 0 < n) ∧ tlsSend ret eagain ≠ .closed := by
  unfold tlsRecv tlsSend
  refine ⟨fun n => ?_, ?_, ?_, fun n => ?_, ?_⟩ <;> cases eagain <;> repeat' split
  all_goals simp_all
  all_goals omega

/-- **What is wrong: one silent client is enough.**  The server serves one client at a time and sets no time limit: if a
client connects and never finishes its handshake, the server does nothing more, whoever else connects. -/
theorem https_silent_client (rate lfd fd : Nat) (o : Cli) (hn : o.new = true) (hh : o.hs = none) :
    ∀ (l : List Acc) (k : Nat) (m : List Acc),
      loop rate lfd k (l ++ .client fd o :: m) = loop rate lfd k (l ++ [.client fd o]) ∧
      (loop rate lfd k (l ++ .client fd o :: m)).2 = false
  | [], k, m => by
    have : serve rate k fd o = ([.new k fd], false) := by
      unfold serve
      rw [hn, hh]
      rfl
    unfold List.instAppend
    show loop rate lfd k (.client fd o :: m) = loop rate lfd k [.client fd o] ∧ (loop rate lfd k (.client fd o :: m)).2 = false
    unfold loop
    rw [this]
    exact ⟨rfl, rfl⟩
  | .fail :: l, k, m => by
    obtain ⟨h1, h2⟩ := https_silent_client rate lfd fd o hn hh l k m
    rw [List.cons_append, List.cons_append, loop, loop, h1]
    exact ⟨rfl, by rw [← h1]; exact h2⟩
  | .client f p :: l, k, m => by
    obtain ⟨h1, h2⟩ := https_silent_client rate lfd fd o hn hh l (k + 1) m
    rw [List.cons_append, List.cons_append, loop, loop]
    split
    · rw [h1]
      exact ⟨rfl, by rw [← h1]; exact h2⟩
    · exact ⟨rfl, rfl⟩

/-! ## Concrete runs -/

/-- A client that sends a request and one whose handshake fails. -/
example :
    answers (task 1000 ⟨443, true, true, true, true, some 3, true, true⟩
      [.fail, .client 4 ⟨true, some true, some (some [71]), 3232235777, 61999, some 5⟩,
       .client 4 ⟨true, some false, none, 0, 0, none⟩]) = [response 3232235777 61] ∧
    response 3232235777 61 = page1 ++ [49, 57, 50, 46, 49, 54, 56, 46, 49, 46, 49] ++ page2 ++ [54, 49] ++ page3 := by decide +kernel

/-- The same with a client that stays silent first. -/
example :
    answers (task 1000 ⟨443, true, true, true, true, some 3, true, true⟩
      [.client 4 ⟨true, none, none, 0, 0, none⟩,
       .client 5 ⟨true, some true, some (some [71]), 3232235777, 61999, some 5⟩]) = [] := by decide +kernel

end Wolf.HttpsTask
