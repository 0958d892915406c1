import Verif.Http.Url

/-! # HTTP requests (C77)

Model of `http_header_value`, `parse_http_request` (up to the dispatch) and `http_find_url`
(`src/http/httpd.c` 102–109, 302–487).

A pointer into the received buffer is the list of the bytes from there to the end of the initialised
part of the buffer, which is the received data and the terminating NUL written by `http_recv_cb` (507);
so `end` is the suffix of length 1 and `p < end` is `1 < p.length`.  Every read and write is
bounds-checked; an access outside yields `oob`. -/

namespace Wolf.Http

/-- Capacities of `struct http_request` (`httpd.h` 16–20). -/
notation "METHOD_LEN" => (8 : Nat)
notation "PATH_LEN" => (128 : Nat)
notation "QUERY_LEN" => (256 : Nat)
notation "HEADERS_LEN" => (1024 : Nat)
notation "BODY_LEN" => (1024 : Nat)

/-- Outcome of a step of the parser: out of bounds, loop budget exhausted, `goto bad_request` (a 400 is
sent, -1 returned), `return -1` without an answer (448), or a value. -/
inductive R (α : Type) where
  | oob
  | running
  | bad
  | quiet
  | ok (a : α)
deriving DecidableEq

/-- Sequencing of steps. -/
def R.bind {α β : Type} : R α → (α → R β) → R β
  | .oob, _ => .oob
  | .running, _ => .running
  | .bad, _ => .bad
  | .quiet, _ => .quiet
  | .ok a, f => f a

/-- `strchr(p, c)` for a nonzero `c`; the callers send a NULL result to `bad_request`.  Result: the bytes
before the match and the suffix that starts at the match. -/
def chr (c : Nat) : List Nat → R (List Nat × List Nat)
  | [] => .oob
  | x :: t =>
    if x = c then .ok ([], x :: t)
    else if x = 0 then .bad
    else (chr c t).bind fun r => .ok (x :: r.1, r.2)

/-- `strstr(p, "\r\n")`, likewise. -/
def str : List Nat → R (List Nat × List Nat)
  | [] => .oob
  | x :: t =>
    if x = 13 ∧ t.head? = some 10 then .ok ([], x :: t)
    else if x = 0 then .bad
    else (str t).bind fun r => .ok (x :: r.1, r.2)

/-- `q + n`. -/
def adv (n : Nat) (p : List Nat) : R (List Nat) := if n ≤ p.length then .ok (p.drop n) else .oob

/-- The `n` bytes at `p`. -/
def load (n : Nat) (p : List Nat) : R (List Nat) := if n ≤ p.length then .ok (p.take n) else .oob

/-- Writing a string of `n` bytes and its terminator to a field of `cap` bytes. -/
def fits (cap n : Nat) : R Unit := if n < cap then .ok () else .oob

/-- `goto bad_request` under a condition. -/
def badIf (b : Bool) : R Unit := if b then .bad else .ok ()

/-- `tolower`, C locale. -/
def lower (c : Nat) : Nat := if 65 ≤ c ∧ c ≤ 90 then c + 32 else c

/-- `http_header_value` (302–317) on the line of `n` bytes at `p`: the number of bytes from `p` to the
value, or `none` for NULL. -/
def headerValue (p : List Nat) (n : Nat) (name : List Nat) : R (Option Nat) :=
  if n < name.length + 1 then .ok none
  else
    (load n p).bind fun s =>
      if (s.take name.length).map lower ≠ name.map lower then .ok none
      else if s.getD name.length 0 ≠ 58 then .ok none
      else .ok (some (name.length + 1 + ((s.drop (name.length + 1)).takeWhile fun c => c == 32 || c == 9).length))

/-- "content-length". -/
def nameCL : List Nat := [99, 111, 110, 116, 101, 110, 116, 45, 108, 101, 110, 103, 116, 104]
/-- "transfer-encoding". -/
def nameTE : List Nat := [116, 114, 97, 110, 115, 102, 101, 114, 45, 101, 110, 99, 111, 100, 105, 110, 103]

/-- '0'..'9'. -/
def isDigit (c : Nat) : Bool := decide (48 ≤ c ∧ c ≤ 57)

/-- The digit loop (399–406): the bytes from the value to the end of the line. -/
def digits : List Nat → Nat → R Nat
  | [], acc => .ok acc
  | x :: t, acc =>
    if isDigit x then
      if acc * 10 + (x - 48) > BODY_LEN then .bad else digits t (acc * 10 + (x - 48))
    else .bad

/-- State of the header loop: `content_length`, `has_te`, `req.headers`. -/
structure Hd where
  cl : Option Nat
  te : Bool
  hdr : List Nat
deriving DecidableEq

/-- Framing headers of the line of `n` bytes at `p` (390–411). -/
def framing (p : List Nat) (n : Nat) (h : Hd) : R Hd :=
  (headerValue p n nameCL).bind fun v =>
    match v with
    | some k =>
      if h.cl.isSome then .bad
      else
        (load n p).bind fun line =>
          if (line.drop k) = [] then .bad
          else (digits (line.drop k) 0).bind fun c => .ok { h with cl := some c }
    | none =>
      (headerValue p n nameTE).bind fun w =>
        match w with
        | some _ => .ok { h with te := true }
        | none => .ok h

/-- Storing the line (412–427). -/
def keep (p : List Nat) (n : Nat) (h : Hd) : R Hd :=
  let sep := if h.hdr.length > 0 then 2 else 0
  (badIf (decide (h.hdr.length + sep + n ≥ HEADERS_LEN))).bind fun _ =>
    (load n p).bind fun line =>
      (fits HEADERS_LEN (h.hdr.length + sep + n)).bind fun _ =>
        .ok { h with hdr := h.hdr ++ (if sep = 2 then [13, 10] else []) ++ line }

/-- The header loop (376–429): the rest after the blank line and what was collected. -/
def headers : Nat → List Nat → Hd → R (List Nat × Hd)
  | 0, _, _ => .running
  | fuel + 1, p, h =>
    if 1 < p.length then
      (str p).bind fun r =>
        if r.1.length = 0 then (adv 2 r.2).bind fun p' => .ok (p', h)
        else
          (badIf (decide (r.1.length ≥ HEADERS_LEN))).bind fun _ =>
            (framing p r.1.length h).bind fun h1 =>
              (keep p r.1.length h1).bind fun h2 =>
                (adv 2 r.2).bind fun p' => headers fuel p' h2
    else .ok (p, h)

/-- `struct http_request`, each field up to its terminator (the path up to `decoded_len`). -/
structure Req where
  method : List Nat
  path : List Nat
  query : List Nat
  headers : List Nat
  body : List Nat
deriving DecidableEq

/-- Decoding the path in place (356–364) and the test for line breaks. -/
def decodePath (raw : List Nat) : R (List Nat) :=
  match urlDecode (raw ++ List.replicate (PATH_LEN - raw.length) 0) raw.length with
  | .ok n m =>
    (fits PATH_LEN n).bind fun _ =>
      (load n m).bind fun path =>
        (badIf (path.contains 13 || path.contains 10)).bind fun _ => .ok path
  | .truncated _ => .bad
  | .badEscape _ => .bad
  | .noSpace _ => .bad
  | .oob => .oob

/-- Path and query of the request target `t`, `t` being the bytes between the two spaces (345–373). -/
def target (t : List Nat) : R (List Nat × List Nat) :=
  let raw := t.takeWhile (· ≠ 63)
  (badIf (decide (raw.length ≥ PATH_LEN))).bind fun _ =>
    (fits PATH_LEN raw.length).bind fun _ =>
      (decodePath raw).bind fun path =>
        match t.dropWhile (· ≠ 63) with
        | [] => .ok (path, [])
        | _ :: q =>
          (badIf (decide (q.length ≥ QUERY_LEN))).bind fun _ =>
            (badIf (q.contains 13 || q.contains 10)).bind fun _ =>
              (fits QUERY_LEN q.length).bind fun _ => .ok (path, q)

/-- The body (435–453); `size_t` subtraction wraps. -/
def bodyOf (p : List Nat) (h : Hd) : R (List Nat) :=
  let n := (p.length + 18446744073709551615) % 18446744073709551616
  (badIf h.te).bind fun _ =>
    (badIf (match h.cl with | some c => decide (c ≠ n) | none => decide (n > 0))).bind fun _ =>
      if n > 0 then
        if n ≥ BODY_LEN then .quiet
        else (load n p).bind fun b => (fits BODY_LEN n).bind fun _ => .ok b
      else .ok []

/-- "GET" and "POST". -/
def GET : List Nat := [71, 69, 84]
def POST : List Nat := [80, 79, 83, 84]

/-- `parse_http_request` (319–457) on the received bytes `b`, up to the lookup of the handler. -/
def parseReq (b : List Nat) : R Req :=
  (badIf (decide (b.length < 4))).bind fun _ =>
    (chr 32 (b ++ [0])).bind fun r1 =>
      (badIf (decide (r1.1.length ≥ METHOD_LEN))).bind fun _ =>
        (fits METHOD_LEN r1.1.length).bind fun _ =>
          (adv 1 r1.2).bind fun p1 =>
            (chr 32 p1).bind fun r2 =>
              (target r2.1).bind fun pq =>
                (adv 1 r2.2).bind fun p2 =>
                  (chr 13 p2).bind fun r3 =>
                    (adv 2 r3.2).bind fun p3 =>
                      (headers (b.length + 1) p3 ⟨none, false, []⟩).bind fun ph =>
                        (bodyOf ph.1 ph.2).bind fun body =>
                          (badIf (decide (r1.1 ≠ GET ∧ r1.1 ≠ POST))).bind fun _ =>
                            .ok ⟨r1.1, pq.1, pq.2, ph.2.hdr, body⟩

/-- An entry of the URL table (`httpd.h` 58–62): the path (without terminator, empty when unused), whether
a handler is set, and the static content. -/
structure Url where
  path : List Nat
  handler : Bool
  content : Option (List Nat)
deriving DecidableEq

/-- What the request leads to. -/
inductive Outcome where
  | oob
  | running
  | reply (code : Nat)
  | dropped
  | page (content : List Nat)
  | handle (slot : Nat) (req : Req)
deriving DecidableEq

/-- `parse_http_request` as a whole (319–487); `http_find_url` (102–109) compares C strings, so it sees
the decoded path up to its first NUL. -/
def serve (urls : List Url) (b : List Nat) : Outcome :=
  match parseReq b with
  | .oob => .oob
  | .running => .running
  | .bad => .reply 400
  | .quiet => .dropped
  | .ok req =>
    match urls.findIdx? (fun u => u.path == req.path.takeWhile (· ≠ 0)) with
    | none => .reply 404
    | some i =>
      match urls[i]? with
      | none => .oob
      | some u =>
        if u.handler then .handle i req
        else match u.content with
          | none => .reply 503
          | some c => .page c

end Wolf.Http
