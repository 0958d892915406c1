import Verif.Dns.Encode
/-
C35: the DNS resolver state machine, src/wolfip.c 10826-11157
(`dns_schedule_timer`, `dns_abort_query`, `dns_timeout_cb`, `dns_callback`,
`dns_send_query`, `nslookup`, `wolfIP_dns_ptr_lookup`).

Simplifications: arming the timer succeeds (heap: `Verif/Timers`); results of
the socket calls (`socket`, `connect`, `sendto`) are inputs; random numbers are
inputs; application callbacks are named by a token and do not call back into
the stack during the invocation (a nested lookup is refused with -16 since the
query is still marked outstanding, see `busy_lookup_refused`).
-/
namespace Wolf.Dns

/-- `dns_query_type`. -/
inductive QType where
  | none | a | ptr
deriving DecidableEq, Repr

/-- Resolver fields of `struct wolfIP`; callbacks are tokens. -/
structure Res where
  hasServer : Bool
  id : Nat := 0
  qtype : QType := .none
  query : List UInt8 := []
  retry : Nat := 0
  timer : Bool := false
  lookupCb : Option Nat := none
  ptrCb : Option Nat := none
  sock : Bool := false

/-- What the application sees. -/
inductive Out where
  | addr (cb ip : Nat)
  | name (cb : Nat) (s : List UInt8)
deriving DecidableEq, Repr

/-- Token of a callback invocation. -/
def Out.cb : Out → Nat
  | .addr c _ => c
  | .name c _ => c

def be16 (b : List UInt8) (i : Nat) : Nat := byte b i * 256 + byte b (i + 1)
def be32 (b : List UInt8) (i : Nat) : Nat := be16 b i * 65536 + be16 b (i + 2)

/-- `dns_abort_query`, src/wolfip.c 10875-10894. -/
def abort (r : Res) : Res :=
  { r with timer := false, id := 0, retry := 0, qtype := .none, query := [], lookupCb := none,
           ptrCb := none }

/-- `dns_tolower`, src/wolfip.c 10740-10745. -/
def lower (c : UInt8) : UInt8 := if 65 ≤ c ∧ c ≤ 90 then c + 32 else c

/-- `dns_question_matches`, src/wolfip.c 10751-10771 (offset 12). -/
def questionMatches (r : Res) (buf : List UInt8) : Bool :=
  if r.query.length ≤ 16 then false
  else if r.query.length > buf.length then false
  else
    decide ((((buf.drop 12).take (r.query.length - 16)).map lower) =
      ((r.query.drop 12).take (r.query.length - 16)).map lower) &&
    decide (((buf.drop (r.query.length - 4)).take 4) = (r.query.drop (r.query.length - 4)).take 4)

/-- Outcome of scanning the answer records. -/
inductive Scan where
  | abort | nothing | addr (ip : Nat) | name (s : List UInt8)
deriving DecidableEq, Repr

/-- Answer loop of `dns_callback`, src/wolfip.c 10967-11008: `n` = `ancount`. -/
def answers (buf : List UInt8) (qt : QType) : Nat → Nat → Scan
  | 0, _ => .nothing
  | n + 1, pos =>
      match (skipName buf pos).1 with
      | none => .abort
      | some p =>
          if p + 10 > buf.length then .abort
          else
            let rdlen := be16 buf (p + 8)
            if p + 10 + rdlen > buf.length then .abort
            else if qt = .a ∧ be16 buf p = 1 ∧ be16 buf (p + 2) = 1 ∧ rdlen = 4 then
              .addr (be32 buf (p + 10))
            else if qt = .ptr ∧ be16 buf p = 12 ∧ be16 buf (p + 2) = 1 then
              match (copyName buf (p + 10) 256).1 with
              | some s => .name s
              | none => answers buf qt n (p + 10 + rdlen)
            else answers buf qt n (p + 10 + rdlen)

/-- Effect of the scan on resolver and application, src/wolfip.c 10984-11003. -/
def conclude (r : Res) : Scan → Res × List Out
  | .abort => (abort r, [])
  | .nothing => (r, [])
  | .addr ip => (abort r, match r.lookupCb with | some c => [.addr c ip] | none => [])
  | .name s => (abort r, match r.ptrCb with | some c => [.name c s] | none => [])

/-- `dns_callback` on a received datagram, src/wolfip.c 10917-11012. -/
def response (r : Res) (buf : List UInt8) : Res × List Out :=
  if buf.length < 12 then (r, [])
  else if be16 buf 0 ≠ r.id then (r, [])
  else if be16 buf 2 / 32768 % 2 = 0 ∨ be16 buf 2 / 256 % 2 = 0 then (r, [])
  else if be16 buf 2 / 512 % 2 = 1 then (abort r, [])
  else if be16 buf 2 % 16 ≠ 0 then (abort r, [])
  else if be16 buf 4 ≠ 1 then (r, [])
  else
    match (skipName buf 12).1 with
    | none => (abort r, [])
    | some p =>
        if p + 4 > buf.length then (abort r, [])
        else if !questionMatches r buf then (r, [])
        else conclude r (answers buf r.qtype (be16 buf 6) (p + 4))

/-- `dns_timeout_cb`, src/wolfip.c 10896-10915; `sent`: did the resend succeed. -/
def timeout (r : Res) (sent : Bool) : Res :=
  if r.id = 0 then { r with timer := false }
  else if r.retry < 3 then
    if sent then { r with retry := r.retry + 1, timer := true } else abort { r with timer := false }
  else abort { r with timer := false }

/-- Environment of one lookup call: random 16 bits, results of `socket`,
`connect`, `sendto`. -/
structure Env where
  rnd : Nat
  sockOk : Bool
  connOk : Bool
  sendOk : Bool

/-- The id drawn for a query, src/wolfip.c 11033-11035. -/
def newId (rnd : Nat) : Nat := if rnd % 65536 = 0 then 1 else rnd % 65536

/-- The query packet, src/wolfip.c 11037-11088. -/
def packet (id : Nat) (nm : List UInt8) (qt : Nat) : List UInt8 :=
  [UInt8.ofNat (id / 256), UInt8.ofNat (id % 256), 1, 0, 0, 1, 0, 0, 0, 0, 0, 0] ++ nm ++
    [UInt8.ofNat (qt / 256), UInt8.ofNat (qt % 256), 0, 1]

/-- `dns_send_query`, src/wolfip.c 11014-11120: new state and return value. -/
def sendQuery (r : Res) (nm : List UInt8) (ptr : Bool) (e : Env) : Res × Int :=
  if nm.length > 255 then (r, -22)
  else if !r.hasServer then (r, -101)
  else if r.id ≠ 0 then (r, -16)
  else if !r.sock ∧ !e.sockOk then (r, -1)
  else
    let r := { r with sock := true, id := newId e.rnd, qtype := if ptr then .ptr else .a }
    match encodeName nm with
    | none => (abort r, -22)
    | some w =>
        let r := { r with query := packet (newId e.rnd) w (if ptr then 12 else 1), retry := 0 }
        if !e.connOk then (abort r, -1)
        else if !e.sendOk then (abort r, -11)
        else ({ r with timer := true }, 0)

/-- `nslookup`, src/wolfip.c 11122-11135. -/
def nslookup (r : Res) (nm : List UInt8) (cb : Nat) (e : Env) : Res × Int :=
  if r.id ≠ 0 then (r, -16)
  else sendQuery { r with lookupCb := some cb, ptrCb := none, qtype := .a } nm false e

/-- `wolfIP_dns_ptr_lookup`, src/wolfip.c 11137-11157. -/
def ptrLookup (r : Res) (ip cb : Nat) (e : Env) : Res × Int :=
  match formatPtr 128 ip with
  | none => (r, -22)
  | some nm =>
      if r.id ≠ 0 then (r, -16)
      else sendQuery { r with ptrCb := some cb, lookupCb := none, qtype := .ptr } (nm.map UInt8.ofNat) true e

/-! ### Histories -/

/-- What can happen to the resolver. The token of a lookup is its position in
the history (`Hist.next`). -/
inductive Ev where
  | lookup (nm : List UInt8) (e : Env)
  | reverse (ip : Nat) (e : Env)
  | response (buf : List UInt8)
  | timeout (sent : Bool)

structure Hist where
  r : Res
  /-- next unused callback token -/
  next : Nat
  /-- callbacks invoked so far -/
  outs : List Out

def step (h : Hist) : Ev → Hist
  | .lookup nm e => { h with r := (nslookup h.r nm h.next e).1, next := h.next + 1 }
  | .reverse ip e => { h with r := (ptrLookup h.r ip h.next e).1, next := h.next + 1 }
  | .response buf => { h with r := (response h.r buf).1, outs := h.outs ++ (response h.r buf).2 }
  | .timeout s => { h with r := timeout h.r s }

def run (h : Hist) (es : List Ev) : Hist := es.foldl step h

/-- A freshly initialised resolver. -/
def Fresh (h : Hist) : Prop :=
  h.r.id = 0 ∧ h.r.lookupCb = none ∧ h.r.ptrCb = none ∧ h.r.query = [] ∧ h.r.timer = false ∧
  h.r.retry = 0 ∧ h.outs = []

/-- Tokens the resolver may still call. -/
def live (r : Res) : List Nat := r.lookupCb.toList ++ r.ptrCb.toList

theorem live_abort (r : Res) : live (abort r) = [] := rfl

/-- A lookup leaves the resolver with the old tokens or only the new one. -/
theorem live_sendQuery (r : Res) (nm : List UInt8) (p : Bool) (e : Env) :
    live (sendQuery r nm p e).1 = live r ∨ live (sendQuery r nm p e).1 = [] := by
  unfold sendQuery
  split
  · left; rfl
  split
  · left; rfl
  split
  · left; rfl
  split
  · left; rfl
  · simp only
    cases encodeName nm with
    | none => right; rfl
    | some w =>
      simp only
      split
      · right; rfl
      split
      · right; rfl
      · left; rfl

/-- Invariant: every callback invoked or still possible has a distinct token. -/
def Once (h : Hist) : Prop :=
  ((h.outs.map Out.cb) ++ live h.r).Nodup ∧ ∀ t ∈ (h.outs.map Out.cb) ++ live h.r, t < h.next

theorem once_lookup {h : Hist} {l : List Nat} {r' : Res} (ho : Once h)
    (hl : live r' = live h.r ∨ live r' = [h.next] ∨ live r' = []) :
    Once { h with r := r', next := h.next + 1 } := by
  obtain ⟨h1, h2⟩ := ho
  unfold Once
  simp only
  rcases hl with hl | hl | hl
  · rw [hl]; exact ⟨h1, fun t ht => by have := h2 t ht; omega⟩
  · rw [hl]
    refine ⟨?_, ?_⟩
    · rw [List.nodup_append]
      refine ⟨(List.nodup_append.1 h1).1, by simp, ?_⟩
      intro a ha b hb
      simp only [List.mem_singleton] at hb
      have := h2 a (List.mem_append_left _ ha)
      omega
    · intro t ht
      rcases List.mem_append.1 ht with ht | ht
      · have := h2 t (List.mem_append_left _ ht); omega
      · simp only [List.mem_singleton] at ht; omega
  · rw [hl]
    refine ⟨by rw [List.append_nil]; exact (List.nodup_append.1 h1).1, ?_⟩
    intro t ht
    rw [List.append_nil] at ht
    have := h2 t (List.mem_append_left _ ht); omega

/-- What a response does to tokens: nothing, drop them, or invoke one and drop all. -/
theorem response_tokens (r : Res) (buf : List UInt8) :
    ((response r buf).2 = [] ∧ ((response r buf).1 = r ∨ (response r buf).1 = abort r)) ∨
    (∃ o, (response r buf).2 = [o] ∧ o.cb ∈ live r ∧ (response r buf).1 = abort r) := by
  unfold response
  split
  · exact Or.inl ⟨rfl, Or.inl rfl⟩
  split
  · exact Or.inl ⟨rfl, Or.inl rfl⟩
  split
  · exact Or.inl ⟨rfl, Or.inl rfl⟩
  split
  · exact Or.inl ⟨rfl, Or.inr rfl⟩
  split
  · exact Or.inl ⟨rfl, Or.inr rfl⟩
  split
  · exact Or.inl ⟨rfl, Or.inl rfl⟩
  · cases (skipName buf 12).1 with
    | none => exact Or.inl ⟨rfl, Or.inr rfl⟩
    | some p =>
      simp only
      split
      · exact Or.inl ⟨rfl, Or.inr rfl⟩
      split
      · exact Or.inl ⟨rfl, Or.inl rfl⟩
      · cases answers buf r.qtype (be16 buf 6) (p + 4) with
        | abort => exact Or.inl ⟨rfl, Or.inr rfl⟩
        | nothing => exact Or.inl ⟨rfl, Or.inl rfl⟩
        | addr ip =>
          cases hc : r.lookupCb with
          | none => exact Or.inl ⟨by simp [conclude, hc], Or.inr rfl⟩
          | some c =>
            exact Or.inr ⟨.addr c ip, by simp [conclude, hc], by simp [live, hc, Out.cb], rfl⟩
        | name s =>
          cases hc : r.ptrCb with
          | none => exact Or.inl ⟨by simp [conclude, hc], Or.inr rfl⟩
          | some c =>
            exact Or.inr ⟨.name c s, by simp [conclude, hc], by simp [live, hc, Out.cb], rfl⟩

theorem once_step (h : Hist) (e : Ev) (ho : Once h) : Once (step h e) := by
  cases e with
  | lookup nm env =>
    refine once_lookup (l := []) ho ?_
    unfold nslookup
    split
    · left; rfl
    · rcases live_sendQuery { h.r with lookupCb := some h.next, ptrCb := none, qtype := .a } nm false env with hh | hh
      · right; left; rw [hh]; rfl
      · right; right; exact hh
  | reverse ip env =>
    refine once_lookup (l := []) ho ?_
    unfold ptrLookup
    cases formatPtr 128 ip with
    | none => left; rfl
    | some nm =>
      simp only
      split
      · left; rfl
      · rcases live_sendQuery { h.r with ptrCb := some h.next, lookupCb := none, qtype := .ptr } (nm.map UInt8.ofNat) true env with hh | hh
        · right; left; rw [hh]; rfl
        · right; right; exact hh
  | timeout s =>
    obtain ⟨h1, h2⟩ := ho
    have : live (timeout h.r s) = live h.r ∨ live (timeout h.r s) = [] := by
      unfold timeout
      split
      · left; rfl
      split
      · split
        · left; rfl
        · right; rfl
      · right; rfl
    unfold Once
    simp only [step]
    rcases this with hh | hh
    · rw [hh]; exact ⟨h1, h2⟩
    · rw [hh, List.append_nil]
      exact ⟨(List.nodup_append.1 h1).1, fun t ht => h2 t (List.mem_append_left _ ht)⟩
  | response buf =>
    obtain ⟨h1, h2⟩ := ho
    unfold Once
    simp only [step]
    rcases response_tokens h.r buf with ⟨e1, e2 | e2⟩ | ⟨o, e1, e2, e3⟩
    · rw [e1, e2, List.append_nil]; exact ⟨h1, h2⟩
    · rw [e1, e2, List.append_nil, live_abort, List.append_nil]
      exact ⟨(List.nodup_append.1 h1).1, fun t ht => h2 t (List.mem_append_left _ ht)⟩
    · rw [e1, e3, live_abort, List.append_nil, List.map_append]
      obtain ⟨n1, n2, n3⟩ := List.nodup_append.1 h1
      refine ⟨?_, ?_⟩
      · rw [List.nodup_append]
        refine ⟨n1, by simp, ?_⟩
        intro a ha b hb
        simp only [List.map_cons, List.map_nil, List.mem_singleton] at hb
        rw [hb]
        exact n3 a ha _ e2
      · intro t ht
        rcases List.mem_append.1 ht with ht | ht
        · exact h2 t (List.mem_append_left _ ht)
        · simp only [List.map_cons, List.map_nil, List.mem_singleton] at ht
          rw [ht]; exact h2 _ (List.mem_append_right _ e2)

/-- **C35, at most once**: over every history of lookups, responses (forged, late,
repeated, of any content) and timeouts, no lookup's callback is invoked twice. -/
theorem dns_callback_at_most_once (h : Hist) (h0 : Fresh h) (es : List Ev) (t : Nat) :
    (((run h es).outs.map Out.cb).filter (· = t)).length ≤ 1 := by
  have hinit : Once h := by
    obtain ⟨_, a, b, _, _, _, c⟩ := h0
    unfold Once live
    rw [a, b, c]
    simp
  have hrun : ∀ (es : List Ev) (h : Hist), Once h → Once (run h es) := by
    intro es
    induction es with
    | nil => intro h ho; exact ho
    | cons e es ih => intro h ho; exact ih (step h e) (once_step h e ho)
  have hnd := (List.nodup_append.1 (hrun es h hinit).1).1
  have := List.nodup_iff_count.1 hnd t
  rw [List.count_eq_length_filter] at this
  have e : ((run h es).outs.map Out.cb).filter (· = t) = ((run h es).outs.map Out.cb).filter (· == t) := by
    congr 1
  rw [e]; exact this

/-- **C35, only a matching answer**: a callback is invoked only by a response that
carries the outstanding query's id, is marked a response without truncation or
error, and repeats the question that was sent: same bytes up to letter case in
the name, identical type and class. -/
theorem dns_callback_needs_match (r : Res) (buf : List UInt8) (o : Out)
    (h : o ∈ (response r buf).2) :
    be16 buf 0 = r.id ∧ be16 buf 2 / 32768 % 2 = 1 ∧ be16 buf 2 % 16 = 0 ∧ be16 buf 4 = 1 ∧
    16 < r.query.length ∧ r.query.length ≤ buf.length ∧
    ((buf.drop 12).take (r.query.length - 16)).map lower =
      ((r.query.drop 12).take (r.query.length - 16)).map lower ∧
    (buf.drop (r.query.length - 4)).take 4 = (r.query.drop (r.query.length - 4)).take 4 := by
  unfold response at h
  split at h
  · simp at h
  split at h
  · simp at h
  split at h
  · simp at h
  split at h
  · simp at h
  split at h
  · simp at h
  split at h
  · simp at h
  · rename_i h1 h2 h3 h4 h5 h6
    cases hs : (skipName buf 12).1 with
    | none => rw [hs] at h; simp at h
    | some p =>
      rw [hs] at h
      simp only at h
      split at h
      · simp at h
      split at h
      · simp at h
      · rename_i h7 h8
        have h8 : questionMatches r buf = true := by simpa using h8
        unfold questionMatches at h8
        split at h8
        · simp at h8
        split at h8
        · simp at h8
        · rename_i q1 q2
          simp only [Bool.and_eq_true, decide_eq_true_eq] at h8
          exact ⟨by omega, by omega, by omega, by omega, by omega, by omega, h8.1, h8.2⟩

/-- A resource record at `a`: its name ends at `p`, the fixed fields follow, its data is inside the message and the
next record starts at `e`. -/
def Record (buf : List UInt8) (a p e : Nat) : Prop :=
  (EndsAt buf a p ∨ p = buf.length) ∧ p + 10 ≤ buf.length ∧ e = p + 10 + be16 buf (p + 8) ∧ e ≤ buf.length

/-- `b` is the start of one of the first `n` records counted from `a`. -/
inductive Nth (buf : List UInt8) : Nat → Nat → Nat → Prop
  | here {n a : Nat} : Nth buf (n + 1) a a
  | later {n a p e b : Nat} (h : Record buf a p e) (r : Nth buf n e b) : Nth buf (n + 1) a b

theorem answers_spec (buf : List UInt8) (qt : QType) : ∀ (n a : Nat), a ≤ buf.length →
    (∀ ip, answers buf qt n a = .addr ip → qt = .a ∧ ∃ b p e, Nth buf n a b ∧ Record buf b p e ∧ be16 buf p = 1 ∧
      be16 buf (p + 2) = 1 ∧ be16 buf (p + 8) = 4 ∧ ip = be32 buf (p + 10)) ∧
    (∀ s, answers buf qt n a = .name s → qt = .ptr ∧ ∃ b p e m ls, Nth buf n a b ∧ Record buf b p e ∧ be16 buf p = 12 ∧
      be16 buf (p + 2) = 1 ∧ NameAt buf m (p + 10) ls ∧ s = dotted ls)
  | 0, a, _ => by
      constructor
      · intro ip h; cases h
      · intro s h; cases h
  | n + 1, a, ha => by
      unfold answers
      cases hs : (skipName buf a).1 with
      | none =>
        constructor
        · intro ip h; cases h
        · intro s h; cases h
      | some p =>
        have hend := dns_skip_is_the_end buf a p ha hs
        dsimp only
        by_cases h1 : p + 10 > buf.length
        · rw [if_pos h1]
          constructor
          · intro ip h; cases h
          · intro s h; cases h
        rw [if_neg h1]
        by_cases h2 : p + 10 + be16 buf (p + 8) > buf.length
        · rw [if_pos h2]
          constructor
          · intro ip h; cases h
          · intro s h; cases h
        rw [if_neg h2]
        have hrec : Record buf a p (p + 10 + be16 buf (p + 8)) := ⟨hend, by omega, rfl, by omega⟩
        obtain ⟨i1, i2⟩ := answers_spec buf qt n (p + 10 + be16 buf (p + 8)) (by omega)
        have j1 : ∀ ip, answers buf qt n (p + 10 + be16 buf (p + 8)) = .addr ip → qt = .a ∧ ∃ b p e,
            Nth buf (n + 1) a b ∧ Record buf b p e ∧ be16 buf p = 1 ∧
            be16 buf (p + 2) = 1 ∧ be16 buf (p + 8) = 4 ∧ ip = be32 buf (p + 10) := fun ip h => by
          obtain ⟨k0, b, p', e, k1, k2⟩ := i1 ip h
          exact ⟨k0, b, p', e, .later hrec k1, k2⟩
        have j2 : ∀ s, answers buf qt n (p + 10 + be16 buf (p + 8)) = .name s → qt = .ptr ∧ ∃ b p e m ls,
            Nth buf (n + 1) a b ∧ Record buf b p e ∧ be16 buf p = 12 ∧
            be16 buf (p + 2) = 1 ∧ NameAt buf m (p + 10) ls ∧ s = dotted ls := fun s h => by
          obtain ⟨k0, b, p', e, m, ls, k1, k2⟩ := i2 s h
          exact ⟨k0, b, p', e, m, ls, .later hrec k1, k2⟩
        by_cases h3 : qt = .a ∧ be16 buf p = 1 ∧ be16 buf (p + 2) = 1 ∧ be16 buf (p + 8) = 4
        · rw [if_pos h3]
          constructor
          · intro ip h
            cases h
            exact ⟨h3.1, a, p, _, .here, hrec, h3.2.1, h3.2.2.1, h3.2.2.2, rfl⟩
          · intro s h; cases h
        rw [if_neg h3]
        by_cases h4 : qt = .ptr ∧ be16 buf p = 12 ∧ be16 buf (p + 2) = 1
        · rw [if_pos h4]
          cases hc : (copyName buf (p + 10) 256).1 with
          | none => exact ⟨j1, j2⟩
          | some t =>
            constructor
            · intro ip h; cases h
            · intro s h
              cases h
              obtain ⟨m, ls, c1, c2, -⟩ := dns_copy_is_the_name buf _ _ _ hc
              exact ⟨h4.1, a, p, _, m, ls, .here, hrec, h4.2.1, h4.2.2, c1, c2⟩
        · rw [if_neg h4]
          exact ⟨j1, j2⟩

/-- **C35, what is handed over**: the address given to a callback is the data of an IN A record of four bytes among the
announced answer records, the name given to a reverse lookup's callback is the text of the name in an IN PTR record;
an address lookup never gets a name and vice versa. -/
theorem dns_answer_is_a_record (r : Res) (buf : List UInt8) (o : Out) (h : o ∈ (response r buf).2) :
    ∃ q, (EndsAt buf 12 q ∨ q = buf.length) ∧ ∃ b p e, Nth buf (be16 buf 6) (q + 4) b ∧ Record buf b p e ∧
      be16 buf (p + 2) = 1 ∧
      ((∃ c ip, o = .addr c ip ∧ r.lookupCb = some c ∧ r.qtype = .a ∧ be16 buf p = 1 ∧ be16 buf (p + 8) = 4 ∧
          ip = be32 buf (p + 10)) ∨
        (∃ c s m ls, o = .name c s ∧ r.ptrCb = some c ∧ r.qtype = .ptr ∧ be16 buf p = 12 ∧ NameAt buf m (p + 10) ls ∧
          s = dotted ls)) := by
  unfold response at h
  split at h
  · simp at h
  split at h
  · simp at h
  split at h
  · simp at h
  split at h
  · simp at h
  split at h
  · simp at h
  split at h
  · simp at h
  · rename_i h1 h2 h3 h4 h5 h6
    cases hs : (skipName buf 12).1 with
    | none => rw [hs] at h; simp at h
    | some q =>
      rw [hs] at h
      simp only at h
      split at h
      · simp at h
      split at h
      · simp at h
      · rename_i h7 h8
        refine ⟨q, dns_skip_is_the_end buf 12 q (by omega) hs, ?_⟩
        obtain ⟨a1, a2⟩ := answers_spec buf r.qtype (be16 buf 6) (q + 4) (by omega)
        cases ha : answers buf r.qtype (be16 buf 6) (q + 4) with
        | abort => rw [ha] at h; simp [conclude] at h
        | nothing => rw [ha] at h; simp [conclude] at h
        | addr ip =>
          rw [ha] at h
          obtain ⟨b0, b, p, e, b1, b2, b3, b4, b5, b6⟩ := a1 ip ha
          refine ⟨b, p, e, b1, b2, b4, Or.inl ?_⟩
          cases hc : r.lookupCb with
          | none => simp [conclude, hc] at h
          | some c =>
            simp only [conclude, hc, List.mem_singleton] at h
            exact ⟨c, ip, h, rfl, b0, b3, b5, b6⟩
        | name s =>
          rw [ha] at h
          obtain ⟨b0, b, p, e, m, ls, b1, b2, b3, b4, b5, b6⟩ := a2 s ha
          refine ⟨b, p, e, b1, b2, b4, Or.inr ?_⟩
          cases hc : r.ptrCb with
          | none => simp [conclude, hc] at h
          | some c =>
            simp only [conclude, hc, List.mem_singleton] at h
            exact ⟨c, s, m, ls, h, rfl, b0, b3, b5, b6⟩

/-- **C35, busy**: while a query is outstanding, new lookups of either kind are
refused and change nothing. -/
theorem busy_lookup_refused (r : Res) (h : r.id ≠ 0) (nm : List UInt8) (ip cb : Nat) (e : Env) :
    nslookup r nm cb e = (r, -16) ∧ ptrLookup r ip cb e = (r, -16) := by
  refine ⟨?_, ?_⟩
  · unfold nslookup; rw [if_pos h]
  · unfold ptrLookup; rw [dns_reverse_name]; simp only; rw [if_pos h]

/-- **C35, the resolver is freed**: whenever a callback is invoked the resolver is
idle afterwards, and an idle resolver with a server configured accepts any
encodable name if the socket calls succeed. -/
theorem dns_freed_after_callback (r : Res) (buf : List UInt8) (o : Out)
    (h : o ∈ (response r buf).2) : (response r buf).1.id = 0 ∧ (response r buf).1.timer = false := by
  rcases response_tokens r buf with ⟨e1, _⟩ | ⟨o', _, _, e3⟩
  · rw [e1] at h; simp at h
  · rw [e3]; exact ⟨rfl, rfl⟩

theorem dns_idle_accepts (r : Res) (nm w : List UInt8) (cb : Nat) (e : Env) (h0 : r.id = 0)
    (hs : r.hasServer = true) (he : encodeName nm = some w) (h1 : e.sockOk = true)
    (h2 : e.connOk = true) (h3 : e.sendOk = true) :
    (nslookup r nm cb e).2 = 0 ∧ (nslookup r nm cb e).1.id ≠ 0 ∧
    (nslookup r nm cb e).1.lookupCb = some cb ∧ (nslookup r nm cb e).1.timer = true := by
  have hl := ((dns_encoding_exact nm w).1 he).1
  have hid : newId e.rnd ≠ 0 := by unfold newId; split <;> omega
  unfold nslookup
  rw [if_neg (by omega)]
  unfold sendQuery
  rw [if_neg (by omega)]
  simp [hs, h0, he, h1, h2, h3, hid]

/-- Outstanding query has its retry timer armed and at most three retries behind it. -/
def Live (r : Res) : Prop := r.id ≠ 0 → r.timer = true ∧ r.retry ≤ 3

theorem live_step (h : Hist) (e : Ev) (hl : Live h.r) : Live (step h e).r := by
  have hsq : ∀ (r : Res) (nm : List UInt8) (p : Bool) (env : Env), r.id = 0 → Live (sendQuery r nm p env).1 := by
    intro r nm p env h0
    unfold sendQuery Live
    split
    · intro hh; exact absurd h0 hh
    split
    · intro hh; exact absurd h0 hh
    split
    · intro hh; exact absurd h0 hh
    split
    · intro hh; exact absurd h0 hh
    · simp only
      cases encodeName nm with
      | none => intro hh; exact absurd rfl hh
      | some w =>
        simp only
        split
        · intro hh; exact absurd rfl hh
        split
        · intro hh; exact absurd rfl hh
        · intro _; exact ⟨rfl, by simp⟩
  cases e with
  | lookup nm env =>
    simp only [step]; unfold nslookup
    split
    · exact hl
    · rename_i h0; exact hsq _ _ _ _ (by simpa using h0)
  | reverse ip env =>
    simp only [step]; unfold ptrLookup
    rw [dns_reverse_name]
    simp only
    split
    · exact hl
    · rename_i h0; exact hsq _ _ _ _ (by simpa using h0)
  | response buf =>
    simp only [step]
    rcases response_tokens h.r buf with ⟨_, e2 | e2⟩ | ⟨_, _, _, e3⟩
    · rw [e2]; exact hl
    · rw [e2]; intro hh; exact absurd rfl hh
    · rw [e3]; intro hh; exact absurd rfl hh
  | timeout s =>
    simp only [step]; unfold timeout Live
    split
    · rename_i h0; intro hh; exact absurd h0 hh
    split
    · split
      · intro _; exact ⟨rfl, by simp only; omega⟩
      · intro hh; exact absurd rfl hh
    · intro hh; exact absurd rfl hh

/-- How many timer expirations a history contains. -/
def timeouts : List Ev → Nat
  | [] => 0
  | .timeout _ :: es => timeouts es + 1
  | _ :: es => timeouts es

/-- **C35, the resolver never stays busy**: in every history an outstanding query
has its timer armed, and once the timer has expired four times since any moment
the resolver has been idle at some point after that moment, whatever else
happened in between. -/
theorem dns_never_stuck (h : Hist) (h0 : Fresh h) (es fs : List Ev) :
    ((run h es).r.id ≠ 0 → (run h es).r.timer = true) ∧
    (4 ≤ timeouts fs → ∃ k, (run (run h es) (fs.take k)).r.id = 0) := by
  have hlive : Live (run h es).r := by
    have : ∀ (es : List Ev) (h : Hist), Live h.r → Live (run h es).r := by
      intro es
      induction es with
      | nil => intro h ho; exact ho
      | cons e es ih => intro h ho; exact ih (step h e) (live_step h e ho)
    exact this es h (fun hh => absurd h0.1 hh)
  refine ⟨fun hh => (hlive hh).1, ?_⟩
  generalize run h es = g at hlive
  have key : ∀ (fs : List Ev) (g : Hist), Live g.r → 4 ≤ timeouts fs + g.r.retry →
      1 ≤ timeouts fs ∨ g.r.id = 0 → ∃ k, (run g (fs.take k)).r.id = 0 := by
    intro fs
    induction fs with
    | nil =>
      intro g _ _ h2
      rcases h2 with h2 | h2
      · simp [timeouts] at h2
      · exact ⟨0, h2⟩
    | cons e fs ih =>
      intro g hl h1 h2
      by_cases hid : g.r.id = 0
      · exact ⟨0, hid⟩
      have hr := (hl hid).2
      by_cases hid' : (step g e).r.id = 0
      · exact ⟨1, hid'⟩
      have lift : ∀ k, (run (step g e) (fs.take k)).r.id = 0 → ∃ k, (run g ((e :: fs).take k)).r.id = 0 := by
        intro k hk; exact ⟨k + 1, hk⟩
      have hl' := live_step g e hl
      cases e with
      | lookup nm env =>
        have hb := (busy_lookup_refused g.r hid nm 0 g.next env).1
        have hs : (step g (.lookup nm env)).r = g.r := by simp only [step]; rw [hb]
        obtain ⟨k, hk⟩ := ih (step g (.lookup nm env)) hl' (by rw [hs]; exact h1)
          (h2.imp id (fun h => absurd h hid))
        exact lift k hk
      | reverse ip env =>
        have hb := (busy_lookup_refused g.r hid [] ip g.next env).2
        have hs : (step g (.reverse ip env)).r = g.r := by simp only [step]; rw [hb]
        obtain ⟨k, hk⟩ := ih (step g (.reverse ip env)) hl' (by rw [hs]; exact h1)
          (h2.imp id (fun h => absurd h hid))
        exact lift k hk
      | response buf =>
        have hs : (step g (.response buf)).r = g.r := by
          simp only [step] at hid' ⊢
          rcases response_tokens g.r buf with ⟨_, e2 | e2⟩ | ⟨_, _, _, e3⟩
          · exact e2
          · rw [e2] at hid'; exact absurd rfl hid'
          · rw [e3] at hid'; exact absurd rfl hid'
        obtain ⟨k, hk⟩ := ih (step g (.response buf)) hl' (by rw [hs]; exact h1)
          (h2.imp id (fun h => absurd h hid))
        exact lift k hk
      | timeout s =>
        have hs : (step g (.timeout s)).r.retry = g.r.retry + 1 ∧ g.r.retry < 3 := by
          simp only [step] at hid' ⊢
          unfold timeout at hid' ⊢
          rw [if_neg hid] at hid' ⊢
          split
          · rename_i h3
            rw [if_pos h3] at hid'
            split
            · exact ⟨rfl, h3⟩
            · rename_i h4; rw [if_neg h4] at hid'; exact absurd rfl hid'
          · rename_i h3; rw [if_neg h3] at hid'; exact absurd rfl hid'
        simp only [timeouts] at h1
        obtain ⟨k, hk⟩ := ih (step g (.timeout s)) hl' (by rw [hs.1]; omega) (Or.inl (by omega))
        exact lift k hk
  intro h4
  exact key fs g hlive (by omega) (Or.inl (by omega))

/-! ### Non-vacuity -/

def ex0 : Hist := ⟨{ hasServer := true }, 0, []⟩
def exEnv : Env := ⟨4660, true, true, true⟩

/-- A lookup of `ab` answered by a matching response (with upper-case name)
calls back once; repeating the response does nothing. -/
def exResp : List UInt8 :=
  [0x12, 0x34, 0x81, 0x80, 0, 1, 0, 1, 0, 0, 0, 0, 2, 65, 98, 0, 0, 1, 0, 1,
   192, 12, 0, 1, 0, 1, 0, 0, 0, 60, 0, 4, 10, 0, 0, 7]

example : Fresh ex0 ∧
    (run ex0 [.lookup [97, 98] exEnv, .response exResp, .response exResp]).outs = [.addr 0 167772167] := by
  refine ⟨⟨rfl, rfl, rfl, rfl, rfl, rfl, rfl⟩, ?_⟩
  decide +kernel

end Wolf.Dns
