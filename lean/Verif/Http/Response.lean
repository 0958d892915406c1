/-! # C131: HTTP responses

Model of the response functions of `src/http/httpd.c` (52–71, 113–229) over a connection that takes, for each write, as
much as it likes; and, as the specification, a client that reads responses from the connection as RFC 9112 says.

Texts are lists of byte values; the C strings among them are given without their NUL. -/

namespace Wolf.Http.Resp

/-- "HTTP/1.1 " -/
def tHttp : List Nat := [72, 84, 84, 80, 47, 49, 46, 49, 32]
/-- "\r\n" -/
def crlf : List Nat := [13, 10]
/-- "Content-Type: " -/
def tType : List Nat := [67, 111, 110, 116, 101, 110, 116, 45, 84, 121, 112, 101, 58, 32]
/-- "Transfer-Encoding: chunked" -/
def tChunked : List Nat := [84, 114, 97, 110, 115, 102, 101, 114, 45, 69, 110, 99, 111, 100, 105, 110, 103, 58, 32, 99, 104, 117, 110, 107, 101, 100]
/-- "Content-Length: " -/
def tLength : List Nat := [67, 111, 110, 116, 101, 110, 116, 45, 76, 101, 110, 103, 116, 104, 58, 32]
/-- "text/plain" -/
def tPlain : List Nat := [116, 101, 120, 116, 47, 112, 108, 97, 105, 110]
/-- "text/html" -/
def tHtml : List Nat := [116, 101, 120, 116, 47, 104, 116, 109, 108]

/-- `HTTP_TX_BUF_LEN`. httpd.h 25. -/
notation "httpTxBuf" => (1460 : Nat)

/-- The character of a digit, lower case. -/
def digit (d : Nat) : Nat := if d < 10 then 48 + d else 87 + d

/-- The digits of a number of at most `f` digits, last digit first, at least one: `printf` of an unsigned integer. -/
def rdigits (b : Nat) : Nat → Nat → List Nat
  | 0, _ => []
  | f + 1, n => if n < b then [digit n] else digit (n % b) :: rdigits b f (n / b)

/-- `%lu` and `%d` of a number that is not negative (64 bits have at most 20 digits). -/
def dec (n : Nat) : List Nat := (rdigits 10 20 n).reverse
/-- `%zx`. -/
def hex (n : Nat) : List Nat := (rdigits 16 16 n).reverse

/-- `snprintf` to a buffer of `cap` bytes: what stands in front of the NUL. -/
def cut (cap : Nat) (t : List Nat) : List Nat := t.take (cap - 1)

/-- The connection as the response functions see it. -/
structure C where
  /-- `client_sd` is not 0 -/
  isOpen : Bool := true
  /-- what the transport took, in order -/
  out : List Nat := []
  /-- the answers of the transport to come; nothing left: EAGAIN -/
  ans : List Int := []
deriving DecidableEq

/-- `wolfSSL_write` or `wolfIP_sock_send`: nothing on socket 0, −1 for nothing to send, and otherwise a refusal or the
number of bytes taken. src/wolfip.c 6604–6716, 7005–7008, httpd.c 158–168. -/
def send (c : C) (d : List Nat) : C × Int :=
  if c.isOpen = false then (c, -22)
  else if d = [] then (c, -1)
  else match c.ans with
    | [] => (c, -11)
    | r :: rs =>
      if r ≤ 0 then ({ c with ans := rs }, r)
      else ({ c with ans := rs, out := c.out ++ d.take r.toNat }, min r d.length)

/-- `http_close_client`. httpd.c 170–183. -/
def close (c : C) : C := { c with isOpen := false }

/-- A write whose failure closes the connection. httpd.c 132–141, 148–155, 201–208. -/
def put (c : C) (d : List Nat) : C := if (send c d).2 ≤ 0 then close (send c d).1 else (send c d).1

/-- The text of `http_send_response_headers`. httpd.c 115–131. -/
def headText (status : Nat) (reason ctype : List Nat) (n : Nat) : List Nat :=
  cut httpTxBuf
    (if n = 0 then tHttp ++ dec status ++ [32] ++ reason ++ crlf ++ tType ++ ctype ++ crlf ++ tChunked ++ crlf ++ crlf
     else tHttp ++ dec status ++ [32] ++ reason ++ crlf ++ tType ++ ctype ++ crlf ++ tLength ++ dec n ++ crlf ++ crlf)

/-- `http_send_response_headers`. httpd.c 113–142. -/
def headers (c : C) (status : Nat) (reason ctype : List Nat) (n : Nat) : C := put c (headText status reason ctype n)

/-- `http_send_response_body`. httpd.c 144–156. -/
def body (c : C) (d : List Nat) : C := put c d

/-- The size line of a chunk, cut to `txt_chunk`. httpd.c 186–190. -/
def sizeLine (n : Nat) : List Nat := cut 20 (hex n ++ crlf)

/-- `http_send_response_chunk`. httpd.c 185–196. -/
def chunk (c : C) (d : List Nat) : C :=
  if (send c (sizeLine d.length)).2 ≤ 0 then close (send c (sizeLine d.length)).1
  else
    let c := (send c (sizeLine d.length)).1
    if (send c d).2 ≤ 0 then close (send c d).1
    else
      let c := (send c d).1
      if (send c crlf).2 ≤ 0 then close (send c crlf).1 else (send c crlf).1

/-- `http_send_response_chunk_end`. httpd.c 198–209. -/
def chunkEnd (c : C) : C := put c ([48] ++ crlf ++ crlf)

/-- `http_status_text`. httpd.c 52–71. -/
def statusText (s : Nat) : List Nat :=
  if s = 200 then [79, 75]
  else if s = 400 then [66, 97, 100, 32, 82, 101, 113, 117, 101, 115, 116]
  else if s = 404 then [78, 111, 116, 32, 70, 111, 117, 110, 100]
  else if s = 418 then [73, 39, 109, 32, 97, 32, 116, 101, 97, 112, 111, 116]
  else if s = 429 then [84, 111, 111, 32, 77, 97, 110, 121, 32, 82, 101, 113, 117, 101, 115, 116, 115]
  else if s = 500 then [73, 110, 116, 101, 114, 110, 97, 108, 32, 83, 101, 114, 118, 101, 114, 32, 69, 114, 114, 111, 114]
  else if s = 503 then [83, 101, 114, 118, 105, 99, 101, 32, 85, 110, 97, 118, 97, 105, 108, 97, 98, 108, 101]
  else [85, 110, 107, 110, 111, 119, 110]

/-- `http_send_200_OK` (200), `_500_server_error`, `_503_service_unavailable`, `_418_teapot`, and what the parser
answers to a request it refuses (400, 404, 503). httpd.c 211–229, 482–490. -/
def bare (c : C) (s : Nat) : C := headers c s (statusText s) tPlain 0

/-- A static page. httpd.c 474–477. -/
def page (c : C) (t : List Nat) : C := body (headers c 200 (statusText 200) tHtml t.length) t

/-! ## Specification: a client -/

/-- A line and what follows its CR LF. -/
def line : List Nat → Option (List Nat × List Nat)
  | [] => none
  | c :: t => if c = 13 ∧ t.head? = some 10 then some ([], t.tail) else (line t).map fun p => (c :: p.1, p.2)

/-- Lines up to and without the first empty one, and what follows it. At most `fuel` lines. -/
def section_ : Nat → List Nat → Option (List (List Nat) × List Nat)
  | 0, _ => none
  | f + 1, s =>
    match line s with
    | none => none
    | some (l, r) => if l = [] then some ([], r) else (section_ f r).map fun p => (l :: p.1, p.2)

/-- ASCII lower case. -/
def lower (c : Nat) : Nat := if 65 ≤ c ∧ c ≤ 90 then c + 32 else c

/-- The value of the field `name` (in lower case) if the line is that field. -/
def field (name l : List Nat) : Option (List Nat) :=
  if (l.take name.length).map lower = name ∧ l[name.length]? = some 58 then
    some ((l.drop (name.length + 1)).dropWhile fun c => c == 32 || c == 9)
  else none

/-- The value of a digit in base `b`. -/
def val (b c : Nat) : Option Nat :=
  if 48 ≤ c ∧ c < 58 ∧ c - 48 < b then some (c - 48)
  else if 97 ≤ c ∧ c - 87 < b then some (c - 87)
  else if 65 ≤ c ∧ c < 91 ∧ c - 55 < b then some (c - 55)
  else none

/-- A numeral read from the left, `a` being the value so far. -/
def numFrom (b : Nat) : Nat → List Nat → Option Nat
  | a, [] => some a
  | a, c :: t => (val b c).bind fun v => numFrom b (a * b + v) t

/-- A numeral in base `b`, at least one digit. -/
def num (b : Nat) (l : List Nat) : Option Nat := if l = [] then none else numFrom b 0 l

/-- A chunked body: chunks up to one of size 0, then trailer lines; the data and what follows. -/
def unchunk : Nat → List Nat → Option (List Nat × List Nat)
  | 0, _ => none
  | f + 1, s =>
    match line s with
    | none => none
    | some (l, r) =>
      match num 16 l with
      | none => none
      | some n =>
        if n = 0 then (section_ (r.length + 1) r).map fun p => ([], p.2)
        else if (r.drop n).take 2 = [13, 10] ∧ n ≤ r.length then (unchunk f (r.drop (n + 2))).map fun p => (r.take n ++ p.1, p.2)
        else none

structure Message where
  status : Nat
  reason : List Nat
  ctype : List Nat
  body : List Nat
deriving DecidableEq

/-- "content-type" -/
def nType : List Nat := [99, 111, 110, 116, 101, 110, 116, 45, 116, 121, 112, 101]
/-- "content-length" -/
def nLength : List Nat := [99, 111, 110, 116, 101, 110, 116, 45, 108, 101, 110, 103, 116, 104]
/-- "transfer-encoding" -/
def nCoding : List Nat := [116, 114, 97, 110, 115, 102, 101, 114, 45, 101, 110, 99, 111, 100, 105, 110, 103]
/-- "chunked" -/
def vChunked : List Nat := [99, 104, 117, 110, 107, 101, 100]

/-- The body that the framing fields announce: exactly one of chunked coding and a length. -/
def framed (fs : List (List Nat)) (s : List Nat) : Option (List Nat × List Nat) :=
  match fs.findSome? (field nCoding), fs.findSome? (field nLength) with
  | some v, none => if v = vChunked then unchunk (s.length + 1) s else none
  | none, some v =>
    match num 10 v with
    | some n => if n ≤ s.length then some (s.take n, s.drop n) else none
    | none => none
  | _, _ => none

/-- Reading one response: the message and what follows it on the connection; `none` while it is not complete, and
for what is not a response. -/
def client (s : List Nat) : Option (Message × List Nat) :=
  match line s with
  | none => none
  | some (l, r) =>
    match section_ (r.length + 1) r with
    | none => none
    | some (fs, r) =>
      if l.take 9 = tHttp ∧ l[12]? = some 32 then
        match num 10 ((l.drop 9).take 3), fs.findSome? (field nType), framed fs r with
        | some st, some ct, some (b, rest) => some (⟨st, l.drop 13, ct, b⟩, rest)
        | _, _, _ => none
      else none

/-- A response as the application makes it: with a length, or in chunks. -/
inductive Made where
  | sized (status : Nat) (reason ctype d : List Nat)
  | chunks (status : Nat) (reason ctype : List Nat) (ds : List (List Nat))

/-- The calls for it. -/
def make (c : C) : Made → C
  | .sized s r t d => body (headers c s r t d.length) d
  | .chunks s r t ds => chunkEnd (ds.foldl chunk (headers c s r t 0))

/-- What the client should read. -/
def Made.message : Made → Message
  | .sized s r t d => ⟨s, r, t, d⟩
  | .chunks s r t ds => ⟨s, r, t, ds.flatten⟩

/-- Text for a header field: no CR, no leading blank in the type (a client drops it). -/
def Plain (l : List Nat) : Prop := 13 ∉ l

/-- The arguments make sense: a three-digit status, texts without line ends, a type that does not begin with a blank, a
header that fits the buffer, data (a body, or every chunk) that is not empty and has a 64-bit length. -/
def Made.Good : Made → Prop
  | .sized s r t d => 100 ≤ s ∧ s ≤ 999 ∧ Plain r ∧ Plain t ∧ t.head? ≠ some 32 ∧ t.head? ≠ some 9 ∧ r.length + t.length ≤ 1388 ∧
      d ≠ [] ∧ d.length < 18446744073709551616
  | .chunks s r t ds => 100 ≤ s ∧ s ≤ 999 ∧ Plain r ∧ Plain t ∧ t.head? ≠ some 32 ∧ t.head? ≠ some 9 ∧ r.length + t.length ≤ 1388 ∧
      ∀ d ∈ ds, d ≠ [] ∧ d.length < 18446744073709551616

/-- Reading response after response until the connection has nothing more. -/
def clientAll : Nat → List Nat → Option (List Message)
  | 0, s => if s = [] then some [] else none
  | n + 1, s =>
    match client s with
    | none => none
    | some (m, rest) => (clientAll n rest).map (m :: ·)

end Wolf.Http.Resp
