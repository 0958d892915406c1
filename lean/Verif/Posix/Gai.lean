/-!
# C115: `getaddrinfo` of the POSIX port

Model of the wait for a DNS answer (`wolfip_dns_begin_wait`, `wolfip_dns_abort_wait`, `wolfip_dns_wait`, the two callbacks and the two queries, 746–866), of the list of
results handed out (`wolfip_register_gai_alloc`, `wolfip_take_gai_alloc`, `freeaddrinfo`, 932–964 and 1755–1764), of `wolfip_parse_service` (868–883) and
of `wolfip_validate_ipv4` (1998–2024), all in `src/port/posix/bsd_socket.c`.

The application's calls come from one thread (the others' go to the host, see C110) and the answers from the stack's thread; every order of their steps is a list of events. The stack's side
is what `src/wolfip.c` does: a query is refused while one is outstanding (11035, 11135, 11151), an answer to the outstanding one goes to the callback of that query and ends it (10922–11027), and the stack gives
up on a query without a word to anyone (10886–10920). That an answer belongs to the outstanding query is C24 and C48.
-/
namespace Wolf.Posix.Gai

/-- `DNS_WAIT_FORWARD` or `DNS_WAIT_PTR` -/
inductive Kind where
  | fwd
  | ptr
deriving DecidableEq, Repr

/-- A question asked on behalf of the call number `call`. -/
structure Query where
  kind : Kind
  name : Nat
  call : Nat
deriving DecidableEq, Repr

inductive Phase where
  | idle
  /-- after `wolfip_dns_begin_wait`, before `nslookup` -/
  | begun (q : Query)
  /-- in `wolfip_dns_wait` -/
  | waiting (q : Query)
deriving DecidableEq, Repr

/-- `dns_wait_ctx` and the rest. `status`: `none` is an error, otherwise what was stored in `ip` or `name`. -/
structure S where
  busy : Bool
  pending : Bool
  type : Option Kind
  status : Option Nat
  phase : Phase
  /-- the stack's query (`dns_id`, `dns_lookup_cb`, `dns_ptr_cb`) -/
  out : Option Query
  calls : Nat
deriving DecidableEq, Repr

def start : S := ⟨false, false, none, none, .idle, none, 0⟩

inductive Ev where
  /-- the application asks: `wolfip_dns_begin_wait` -/
  | call (k : Kind) (name : Nat)
  /-- it gets to `nslookup` or `wolfIP_dns_ptr_lookup`; `ok`: the query can be sent -/
  | lookup (ok : Bool)
  /-- the name server's answer to the stack's query -/
  | answer (v : Nat)
  /-- the stack gives up -/
  | giveUp
  /-- the application's thread looks at the condition -/
  | wake
  /-- five seconds are over -/
  | timeout
deriving DecidableEq, Repr

inductive Out where
  | asked (q : Query)
  | answered (q : Query) (v : Nat)
  /-- the call number `c` returns an address (or name) or an error -/
  | ret (c : Nat) (r : Option Nat)
  /-- refused at once because another call is in progress -/
  | refused
deriving DecidableEq, Repr

def step (s : S) : Ev → S × List Out
  | .call k n =>
    match s.phase with
    | .idle =>
      if s.busy then (s, [.refused])
      else ({ s with busy := true, pending := true, type := some k, status := none, phase := .begun ⟨k, n, s.calls⟩, calls := s.calls + 1 }, [])
    | _ => (s, [])
  | .lookup ok =>
    match s.phase with
    | .begun q =>
      if s.out ≠ none ∨ ok = false then
        ({ s with pending := false, busy := false, type := none, status := none, phase := .idle }, [.ret q.call none])
      else ({ s with out := some q, phase := .waiting q }, [.asked q])
    | _ => (s, [])
  | .answer v =>
    match s.out with
    | none => (s, [])
    | some q =>
      if s.pending = true ∧ s.type = some q.kind then ({ s with out := none, status := some v, pending := false }, [.answered q v])
      else ({ s with out := none }, [.answered q v])
  | .giveUp => ({ s with out := none }, [])
  | .wake =>
    match s.phase with
    | .waiting q =>
      if s.pending = true ∧ s.type = some q.kind then (s, [])
      else if s.type ≠ some q.kind then ({ s with type := none, busy := false, phase := .idle }, [.ret q.call none])
      else ({ s with type := none, busy := false, phase := .idle }, [.ret q.call s.status])
    | _ => (s, [])
  | .timeout =>
    match s.phase with
    | .waiting q =>
      if s.pending = true ∧ s.type = some q.kind then
        ({ s with pending := false, busy := false, type := none, phase := .idle }, [.ret q.call none])
      else (s, [])
    | _ => (s, [])

def run (s : S) : List Ev → S × List Out
  | [] => (s, [])
  | e :: es => ((run (step s e).1 es).1, (step s e).2 ++ (run (step s e).1 es).2)

def isBegun : Phase → Bool
  | .begun _ => true
  | _ => false

/-- No answer comes in between `wolfip_dns_begin_wait` and `nslookup`. -/
def NoEarly (s : S) : List Ev → Prop
  | [] => True
  | e :: es => ((∃ v, e = .answer v) → isBegun s.phase = false) ∧ NoEarly (step s e).1 es

/-! ## The list of results -/

inductive Own where
  | port
  | host
deriving DecidableEq, Repr

inductive GOp where
  /-- `getaddrinfo` returns a result at this address, the port's own or the host's -/
  | get (o : Own) (p : Nat)
  | free (p : Nat)
deriving DecidableEq, Repr

/-- `wolfip_gai_alloc_head`: register at the head; `wolfip_take_gai_alloc` removes the first. The second component: who frees the memory. -/
def gstep (reg : List Nat) : GOp → List Nat × Option Own
  | .get .port p => (p :: reg, none)
  | .get .host _ => (reg, none)
  | .free p => if p ∈ reg then (reg.erase p, some .port) else (reg, some .host)

def grun (reg : List Nat) : List GOp → List Nat × List (GOp × Option Own)
  | [] => (reg, [])
  | o :: os => ((grun (gstep reg o).1 os).1, (o, (gstep reg o).2) :: (grun (gstep reg o).1 os).2)

/-- Whose memory is at an address, from the history. -/
def gown (f : Nat → Option Own) : List GOp → (Nat → Option Own)
  | [] => f
  | .get o p :: os => gown (fun x => if x = p then some o else f x) os
  | .free p :: os => gown (fun x => if x = p then none else f x) os

/-- New results do not overlap those in use, and the application frees what it got, once. -/
def GLegal (f : Nat → Option Own) : List GOp → Prop
  | [] => True
  | .get o p :: os => f p = none ∧ GLegal (fun x => if x = p then some o else f x) os
  | .free p :: os => f p ≠ none ∧ GLegal (fun x => if x = p then none else f x) os

/-- Every `freeaddrinfo` of the history frees the memory with the allocator it came from. -/
def GRight (f : Nat → Option Own) : List (GOp × Option Own) → Prop
  | [] => True
  | (.get o p, _) :: os => GRight (fun x => if x = p then some o else f x) os
  | (.free p, w) :: os => w = f p ∧ GRight (fun x => if x = p then none else f x) os

/-! ## Service and address strings -/

abbrev Bytes := List Nat

def isDigit (c : Nat) : Bool := decide (48 ≤ c ∧ c ≤ 57)
def isSpace (c : Nat) : Bool := decide ((9 ≤ c ∧ c ≤ 13) ∨ c = 32)

def val (ds : Bytes) : Nat := ds.foldl (fun a c => a * 10 + (c - 48)) 0

notation "longMax" => (9223372036854775807 : Nat)

/-- `strtol(s, &end, 10)`: sign, magnitude, the rest; without digits the rest is all of the string. -/
def strtol (s : Bytes) : Bool × Nat × Bytes :=
  let t := s.dropWhile isSpace
  let neg := decide (t.head? = some 45)
  let u := if t.head? = some 45 ∨ t.head? = some 43 then t.drop 1 else t
  let ds := u.takeWhile isDigit
  if ds = [] then (false, 0, s) else (neg, (if val ds > longMax then longMax else val ds), u.dropWhile isDigit)

/-- `wolfip_parse_service` with a service: `none` is `EAI_SERVICE`. -/
def parseService (s : Bytes) : Option Nat :=
  let (neg, v, rest) := strtol s
  if rest ≠ [] ∨ (neg = true ∧ v ≠ 0) ∨ v > 65535 then none else some v

/-- The loop of `wolfip_validate_ipv4` (2004–2021). -/
def validLoop (parts digits v : Nat) : Bytes → Bool
  | [] => decide (parts = 3 ∧ digits > 0)
  | c :: s =>
    if isDigit c then
      if digits + 1 > 3 then false
      else if v * 10 + (c - 48) > 255 then false
      else validLoop parts (digits + 1) (v * 10 + (c - 48)) s
    else if c = 46 then
      if digits = 0 then false else validLoop (parts + 1) 0 0 s
    else false

def validate (s : Bytes) : Bool := if s = [] then false else validLoop 0 0 0 s

/-- The parts of a string between its dots. -/
def splitDots : Bytes → List Bytes
  | [] => [[]]
  | c :: s => if c = 46 then [] :: splitDots s else (c :: (splitDots s).headD []) :: (splitDots s).tail

/-- One to three digits of a value up to 255. -/
def Octet (d : Bytes) : Prop := 1 ≤ d.length ∧ d.length ≤ 3 ∧ (∀ c ∈ d, isDigit c = true) ∧ val d ≤ 255

/-- A dotted quad. -/
def Dotted (s : Bytes) : Prop := (splitDots s).length = 4 ∧ ∀ d ∈ splitDots s, Octet d

end Wolf.Posix.Gai
