/-!
# The flash key/value store of the MQTT broker, `src/port/stm32h563/mqtt_broker_persist_flash.c`

The reserved flash region is two banks of two sectors, each a list of 16-byte quadwords (the program unit). Addresses
are quadword indices inside a bank; the code's offsets are 16 times that. Every flash command of a call takes its
outcome from a list chosen by the environment: it succeeds, it reports an error, or the power fails there.

Assumptions about the device: programming a quadword that is not erased reports an error and changes nothing (the H5
keeps ECC per quadword, lines 38–40); a program error leaves the quadword as it was; a power failure during a program
leaves any value `f q` in the quadword; an interrupted or failed sector erase leaves any subset of its quadwords erased
and the others as they were. Register access, locking and the wait loops (210–298) are not modelled; neither is the
NMI a torn quadword's ECC error may raise on a read.
-/
namespace Wolf.Kvf

/-- 16 bytes. -/
abbrev Qw := List Nat

/-- `0xFF` in all 16 bytes. -/
def ers : Qw := List.replicate 16 255

abbrev Bank := List Qw

/-- Sizes: quadwords per sector (512 in the code) and `KVF_MAX_BLOB` (from the broker's configuration). `fits` is the
compile-time assertion at 126–130. -/
structure Par where
  sec : Nat
  maxBlob : Nat
  fits : 4 + (256 + maxBlob + 15) / 16 ≤ 2 * sec
  small : sec ≤ 1048576

/-- Quadwords in a bank. -/
def Par.n (P : Par) : Nat := 2 * P.sec

/-- The region: bank A and bank B. -/
structure Fl where
  a : Bank
  b : Bank

def Fl.get (f : Fl) (x : Bool) : Bank := if x then f.b else f.a

def Fl.put (f : Fl) (x : Bool) (k : Bank) : Fl := if x then { f with b := k } else { f with a := k }

/-- Outcome of one flash command. `m i`: quadword `i` of the sector got erased; `f q`: what is left of an interrupted
program of `q`. -/
inductive Out
  | ok
  | bad (m : Nat → Bool)
  | cut (f : Qw → Qw) (m : Nat → Bool)

/-- How a command or a sequence of commands ended; `full`: the other error code. -/
inductive R | ok | err | full | crash
deriving DecidableEq, Repr

/-- `kvf_flash_program_qword`, lines 271–298. -/
def prog (f : Fl) (x : Bool) (i : Nat) (q : Qw) (o : List Out) : Fl × R × List Out :=
  match o.headD .ok with
  | .ok => if (f.get x)[i]? = some ers then (f.put x ((f.get x).set i q), .ok, o.tail) else (f, .err, o.tail)
  | .bad _ => (f, .err, o.tail)
  | .cut g _ => (if (f.get x)[i]? = some ers then f.put x ((f.get x).set i (g q)) else f, .crash, o.tail)

/-- A sequence of programs, stopping at the first that fails. -/
def progs (f : Fl) (x : Bool) : List (Nat × Qw) → List Out → Fl × R × List Out
  | [], o => (f, .ok, o)
  | (i, q) :: l, o =>
    let r := prog f x i q o
    if r.2.1 = .ok then progs r.1 x l r.2.2 else r

/-- The bank after erasing the quadwords `m` marks in `[lo, lo + n)`. -/
def wipe (k : Bank) (lo n : Nat) (m : Nat → Bool) : Bank := k.mapIdx (fun i q => if lo ≤ i ∧ i < lo + n ∧ m (i - lo) = true then ers else q)

/-- `kvf_flash_erase_sector` on the sector at `lo`, lines 233–268. -/
def eraseSec (P : Par) (f : Fl) (x : Bool) (lo : Nat) (o : List Out) : Fl × R × List Out :=
  match o.headD .ok with
  | .ok => (f.put x (wipe (f.get x) lo P.sec (fun _ => true)), .ok, o.tail)
  | .bad m => (f.put x (wipe (f.get x) lo P.sec m), .err, o.tail)
  | .cut _ m => (f.put x (wipe (f.get x) lo P.sec m), .crash, o.tail)

/-- `kvf_erase_bank`, lines 301–308. -/
def eraseBank (P : Par) (f : Fl) (x : Bool) (o : List Out) : Fl × R × List Out :=
  let r := eraseSec P f x 0 o
  if r.2.1 = .ok then eraseSec P r.1 x P.sec r.2.2 else r

/-- `kvf_put16`, `kvf_put32`, lines 186–198. -/
def le16 (v : Nat) : List Nat := [v % 256, v / 256 % 256]
def le32 (v : Nat) : List Nat := [v % 256, v / 256 % 256, v / 65536 % 256, v / 16777216 % 256]

/-- `kvf_get16`, `kvf_get32`, lines 199–208. -/
def rd16 (q : Qw) (i : Nat) : Nat := q.getD i 0 + 256 * q.getD (i + 1) 0
def rd32 (q : Qw) (i : Nat) : Nat := q.getD i 0 + 256 * q.getD (i + 1) 0 + 65536 * q.getD (i + 2) 0 + 16777216 * q.getD (i + 3) 0

/-- The bank header written by `kvf_write_bank_header`, lines 330–337. -/
def bankHdr (gen : Nat) : Qw := [66, 78, 75, 49] ++ le32 gen ++ List.replicate 8 255

/-- `kvf_bank_gen`, lines 340–350. -/
def bankGen (k : Bank) : Option Nat :=
  let h := k.getD 0 []
  if h.take 4 = [66, 78, 75, 49] then some (rd32 h 4) else none

/-- `KVF_ALIGN16(k + b) / 16`, line 120. -/
def padq (k b : Nat) : Nat := (k + b + 15) / 16

/-- `KVF_STRIDE`, line 122, in bytes. -/
def strideB (k b : Nat) : Nat := 48 + 16 * padq k b

/-- The record header, lines 467–472. -/
def recHdr (ns k b : Nat) : Qw := [82, 69, 67, 49, ns, 255] ++ le16 k ++ le32 b ++ le32 (strideB k b)

/-- The commit quadword, lines 483–484, and the tombstone, 499–500. -/
def commitQw : Qw := 197 :: List.replicate 15 255
def tombQw : Qw := 0 :: List.replicate 15 255

/-- `KvfRec`, lines 168–178: position and stride in quadwords, what the pointers point to. -/
structure Rec where
  pos : Nat
  stride : Nat
  ns : Nat
  key : List Nat
  blob : List Nat
  committed : Bool
  tomb : Bool
deriving DecidableEq, Repr

inductive Parsed | empty | bad | ok (r : Rec)

/-- The payload quadwords of a record at `i`. -/
def payload (k : Bank) (i n : Nat) : List Nat := ((k.drop (i + 2)).take n).flatten

/-- `kvf_rec_parse`, lines 355–396. -/
def parse (P : Par) (k : Bank) (i : Nat) : Parsed :=
  if i + 1 > P.n then .empty
  else
    let h := k.getD i []
    if h = ers then .empty
    else if h.take 4 ≠ [82, 69, 67, 49] then .bad
    else
      let kl := rd16 h 6
      let bl := rd32 h 8
      if kl = 0 ∨ kl > 256 ∨ bl > P.maxBlob then .bad
      else if rd32 h 12 ≠ strideB kl bl then .bad
      else if 16 * i + rd32 h 12 > 16 * P.n then .bad
      else .ok {
        pos := i, stride := 3 + padq kl bl, ns := h.getD 4 0,
        key := (payload k i (padq kl bl)).take kl, blob := ((payload k i (padq kl bl)).drop kl).take bl,
        committed := (k.getD (i + 1) []).getD 0 0 == 197,
        tomb := (k.getD (i + 2 + padq kl bl) []).getD 0 0 == 0 }

/-- How a scan ended: at an empty slot or the end of the bank, with its position, or at a corrupt record. -/
inductive Stop | at (i : Nat) | corrupt

/-- The loop shared by lookup, is_latest, compaction, iteration and the boot scan (408–427, 431–447, 519–533,
641–653, 687–700): the records from `i` on and why it stopped. `fuel` only makes it structurally recursive; a stride
is at least 3. -/
def walk (P : Par) : Nat → Bank → Nat → List Rec × Stop
  | 0, _, i => ([], .at i)
  | n + 1, k, i =>
    if i < P.n then
      match parse P k i with
      | .empty => ([], .at i)
      | .bad => ([], .corrupt)
      | .ok r => let w := walk P n k (i + r.stride); (r :: w.1, w.2)
    else ([], .at i)

def recs (P : Par) (k : Bank) (i : Nat) : List Rec := (walk P (P.n + 1) k i).1

/-- `kvf_key_eq`, lines 398–404. -/
def keyEq (r : Rec) (ns : Nat) (key : List Nat) : Bool := r.ns == ns && r.key == key

/-- `kvf_lookup_latest`, lines 408–427: the last committed match. -/
def lookup (P : Par) (k : Bank) (ns : Nat) (key : List Nat) : Option Rec :=
  ((recs P k 1).filter (fun r => r.committed && keyEq r ns key)).getLast?

/-- `kvf_is_latest`, lines 431–447. -/
def isLatest (P : Par) (k : Bank) (r : Rec) : Bool :=
  !(recs P k (r.pos + r.stride)).any (fun q => q.committed && keyEq q r.ns r.key)

/-- `n` quadwords out of a padded byte string. -/
def chunks (n : Nat) (l : List Nat) : List Qw :=
  match n with
  | 0 => []
  | n + 1 => l.take 16 :: chunks n (l.drop 16)

/-- The staged payload: key, blob, padding. Lines 463–465. -/
def stage (key blob : List Nat) : List Nat :=
  key ++ blob ++ List.replicate (16 * padq key.length blob.length - (key.length + blob.length)) 255

/-- The quadwords `kvf_append_record` programs, in its order: header, payload, commit. Lines 466–488. -/
def recProgs (i ns : Nat) (key blob : List Nat) : List (Nat × Qw) :=
  (i, recHdr ns key.length blob.length) ::
    ((chunks (padq key.length blob.length) (stage key blob)).zipIdx (i + 2)).map (fun p => (p.2, p.1)) ++
    [(i + 1, commitQw)]

/-- `kvf_append_record`, lines 453–490. -/
def append (f : Fl) (x : Bool) (i ns : Nat) (key blob : List Nat) (o : List Out) : Fl × R × List Out :=
  progs f x (recProgs i ns key blob) o

/-- `KvfCtx`, lines 160–165; `act = false`: bank A. A context exists only while ready. -/
structure Ctx where
  act : Bool
  app : Nat
  gen : Nat

/-- What compaction copies, lines 522–523. -/
def live (P : Par) (k : Bank) : List Rec := (recs P k 1).filter (fun r => r.committed && !r.tomb && isLatest P k r)

/-- The copy loop, lines 519–533; the result carries the next free position. -/
def copy (P : Par) (f : Fl) (x : Bool) : List Rec → Nat → List Out → Fl × R × List Out × Nat
  | [], i, o => (f, .ok, o, i)
  | r :: rs, i, o =>
    if i + r.stride > P.n then (f, .full, o, i)
    else
      let q := append f x i r.ns r.key r.blob o
      if q.2.1 = .ok then copy P q.1 x rs (i + r.stride) q.2.2 else (q.1, q.2.1, q.2.2, i)

/-- `kvf_compact`, lines 507–546. An error while the old bank is erased is ignored; a power failure is not. -/
def compact (P : Par) (f : Fl) (c : Ctx) (o : List Out) : Fl × Ctx × R × List Out :=
  let e := eraseBank P f (!c.act) o
  if e.2.1 ≠ .ok then (e.1, c, e.2.1, e.2.2)
  else
    let y := copy P e.1 (!c.act) (live P (e.1.get c.act)) 1 e.2.2
    if y.2.1 ≠ .ok then (y.1, c, y.2.1, y.2.2.1)
    else
      let h := prog y.1 (!c.act) 0 (bankHdr ((c.gen + 1) % 4294967296)) y.2.2.1
      if h.2.1 ≠ .ok then (h.1, c, h.2.1, h.2.2)
      else
        let z := eraseBank P h.1 c.act h.2.2
        (z.1, ⟨!c.act, y.2.2.2, (c.gen + 1) % 4294967296⟩, if z.2.1 = .crash then .crash else .ok, z.2.2)

/-- The device: flash, and the context if the store is initialised (a power failure loses it). -/
structure St where
  fl : Fl
  ctx : Option Ctx

/-- Result of a call, and what power failure makes of it. -/
inductive Res
  | ok | argErr | full | err | crash
  | got (v : Option (List Nat))
  | pairs (l : List (List Nat × List Nat))
deriving DecidableEq, Repr

def R.res : R → Res
  | .ok => .ok
  | .err => .err
  | .full => .full
  | .crash => .crash

/-- The context after a call: gone if the power failed. -/
def keepCtx (r : R) (c : Ctx) : Option Ctx := if r = .crash then none else some c

/-- The end of `kvf_put`: append at the context's position, lines 578–584. -/
def putAt (f : Fl) (c : Ctx) (ns : Nat) (key blob : List Nat) (o : List Out) : St × Res :=
  let q := append f c.act c.app ns key blob o
  (⟨q.1, keepCtx q.2.1 (if q.2.1 = .ok then { c with app := c.app + (3 + padq key.length blob.length) } else c)⟩, q.2.1.res)

/-- `kvf_put`, lines 549–586. -/
def put (P : Par) (s : St) (ns : Nat) (key blob : List Nat) (o : List Out) : St × Res :=
  match s.ctx with
  | none => (s, .argErr)
  | some c =>
    if key.length = 0 ∨ key.length > 256 ∨ blob.length > P.maxBlob then (s, .full)
    else if 16 * c.app + strideB key.length blob.length > 16 * P.n then
      let k := compact P s.fl c o
      if k.2.2.1 ≠ .ok then (⟨k.1, keepCtx k.2.2.1 k.2.1⟩, k.2.2.1.res)
      else if 16 * k.2.1.app + strideB key.length blob.length > 16 * P.n then (⟨k.1, some k.2.1⟩, .full)
      else putAt k.1 k.2.1 ns key blob k.2.2.2
    else putAt s.fl c ns key blob o

/-- `kvf_get` with a large enough buffer: the blob found, or not. Lines 588–609. -/
def get (P : Par) (s : St) (ns : Nat) (key : List Nat) : Res :=
  match s.ctx with
  | none => .argErr
  | some c =>
    match lookup P (s.fl.get c.act) ns key with
    | none => .got none
    | some r => if r.tomb then .got none else .got (some r.blob)

/-- `kvf_del`, lines 611–629; the tombstone is written by `kvf_write_tombstone`, 494–503. -/
def del (P : Par) (s : St) (ns : Nat) (key : List Nat) (o : List Out) : St × Res :=
  match s.ctx with
  | none => (s, .argErr)
  | some c =>
    match lookup P (s.fl.get c.act) ns key with
    | none => (s, .ok)
    | some r =>
      if r.tomb then (s, .ok)
      else
        let q := prog s.fl c.act (r.pos + r.stride - 1) tombQw o
        (⟨q.1, keepCtx q.2.1 c⟩, q.2.1.res)

/-- `kvf_iter`, lines 631–655: the pairs handed to the callback (which asks for all). -/
def iter (P : Par) (s : St) (ns : Nat) : Res :=
  match s.ctx with
  | none => .argErr
  | some c => .pairs (((recs P (s.fl.get c.act) 1).filter (fun r => r.committed && r.ns == ns && !r.tomb && isLatest P (s.fl.get c.act) r)).map
      (fun r => (r.key, r.blob)))

/-- `kvf_format`, lines 704–718. -/
def format (P : Par) (f : Fl) (x : Bool) (gen : Nat) (o : List Out) : Fl × R × List Out :=
  let e := eraseBank P f x o
  if e.2.1 = .ok then prog e.1 x 0 (bankHdr gen) e.2.2 else e

/-- The bank `Init` takes, lines 747–754: the higher generation, A on a tie. -/
def pick (a b : Option Nat) : Option (Bool × Nat) :=
  match a, b with
  | none, none => none
  | some g, none => some (false, g)
  | none, some h => some (true, h)
  | some g, some h => if g ≥ h then some (false, g) else some (true, h)

/-- `MqttBrokerNet_PersistFlash_Init` after power-up, lines 720–771. -/
def boot (P : Par) (f : Fl) (o : List Out) : St × Res :=
  match pick (bankGen f.a) (bankGen f.b) with
  | none =>
    let r := format P f false 1 o
    (⟨r.1, if r.2.1 = .ok then some ⟨false, 1, 1⟩ else none⟩, r.2.1.res)
  | some (x, g) =>
    match (walk P (P.n + 1) (f.get x) 1).2 with
    | .at i => (⟨f, some ⟨x, i, g⟩⟩, .ok)
    | .corrupt =>
      let r := format P f x ((g + 1) % 4294967296) o
      (⟨r.1, if r.2.1 = .ok then some ⟨x, 1, (g + 1) % 4294967296⟩ else none⟩, r.2.1.res)

/-- A call to the store, or a restart; each with the outcomes of the flash commands it issues. -/
inductive Op
  | put (ns : Nat) (key blob : List Nat) (o : List Out)
  | del (ns : Nat) (key : List Nat) (o : List Out)
  | boot (o : List Out)
  | get (ns : Nat) (key : List Nat)
  | iter (ns : Nat)

def step (P : Par) (s : St) : Op → St × Res
  | .put ns key blob o => put P s ns key blob o
  | .del ns key o => del P s ns key o
  | .boot o => boot P s.fl o
  | .get ns key => (s, get P s ns key)
  | .iter ns => (s, iter P s ns)

/-- A history: final state and the results of the calls. -/
def run (P : Par) (s : St) : List Op → St × List Res
  | [] => (s, [])
  | op :: ops => let r := step P s op; let q := run P r.1 ops; (q.1, r.2 :: q.2)

end Wolf.Kvf
