/-!
# C109: the sockets of wolfMQTT clients on wolfIP

Model of `src/port/wolfmqtt_io.c` (whole file but for the socket address and `wolfMQTT_SetFd_wolfIP`, with which the
caller takes charge of the socket himself). The results of `wolfIP_sock_socket` and `wolfIP_sock_connect` are
parameters of the calls. `live` records the sockets the glue has created and not yet closed (ghost), `stray` a close of
something that is not one of them.
-/
namespace Wolf.Glue.Mqtt

/-- `struct wolfmqtt_io_desc`, wolfmqtt_io.c 32–37; `stack` tells whether the pointer is set. -/
structure Desc where
  stack : Bool
  fd : Int
  inUse : Bool
  connected : Bool
deriving DecidableEq

structure St where
  descs : List Desc
  live : List Int
  stray : Bool
deriving DecidableEq

/-- `MAX_WOLFMQTT_CTX`; static storage is zero. -/
def St.start : St := { descs := List.replicate 2 ⟨false, 0, false, false⟩, live := [], stray := false }

/-- `wolfIP_sock_close`. -/
def St.close (s : St) (fd : Int) : St :=
  if fd ∈ s.live then { s with live := s.live.filter (· ≠ fd) } else { s with stray := true }

inductive Res where
  | success | again | network | badArg | ctx (i : Nat) | null
  | data (n : Int)
deriving DecidableEq

/-- `wolfMQTT_Init_wolfIP`, 188–213, with `io_desc_alloc`, 42–53 (`i` counts the entries passed). -/
def initFrom : List Desc → Nat → Option Nat
  | [], _ => none
  | d :: l, i => if d.inUse then initFrom l (i + 1) else some i

def init (s : St) : St × Res :=
  match initFrom s.descs 0 with
  | none => (s, .null)
  | some i => ({ s with descs := s.descs.set i ⟨true, -1, true, false⟩ }, .ctx i)

/-- `wolfmqtt_net_connect`, 67–110; `sk` and `cn` are what the socket and connect calls return if made. -/
def connect (s : St) (i : Nat) (host : Bool) (sk cn : Int) : St × Res :=
  match s.descs[i]? with
  | none => (s, .badArg)
  | some d =>
    if d.stack = false ∨ host = false then (s, .badArg)
    else
      let r : St × Desc :=
        if d.fd < 0 then
          ({ s with descs := s.descs.set i { d with fd := sk }, live := if sk < 0 then s.live else sk :: s.live },
            { d with fd := sk })
        else (s, d)
      let s := r.1
      let d := r.2
      if d.fd < 0 then (s, .network)
      else if cn = 0 then ({ s with descs := s.descs.set i { d with connected := true } }, .success)
      else if cn = -11 then (s, .again)
      else
        let s := s.close d.fd
        ({ s with descs := s.descs.set i { d with fd := -1 } }, .network)

/-- `wolfmqtt_net_read`, 113–142, and `wolfmqtt_net_write`, 145–176; `ret` is what the socket call returns if made. -/
def transfer (s : St) (i : Nat) (buf : Bool) (ret : Int) : Res :=
  match s.descs[i]? with
  | none => .badArg
  | some d =>
    if d.stack = false ∨ d.fd < 0 ∨ buf = false then .badArg
    else if ret = -11 then .again
    else if ret = 0 then .network
    else if ret < 0 then .network
    else .data ret

/-- `wolfmqtt_net_disconnect`, 179–194. -/
def disconnect (s : St) (i : Nat) : St × Res :=
  match s.descs[i]? with
  | none => (s, .badArg)
  | some d =>
    let r : St × Desc := if 0 ≤ d.fd ∧ d.stack = true then (s.close d.fd, { d with fd := -1 }) else (s, d)
    ({ r.1 with descs := r.1.descs.set i { r.2 with connected := false } }, .success)

/-- `wolfMQTT_Cleanup_wolfIP`, 217–227, with `io_desc_free`, 56–64. -/
def cleanup (s : St) (i : Nat) : St :=
  match s.descs[i]? with
  | none => s
  | some d =>
    let s := if 0 ≤ d.fd ∧ d.stack = true then s.close d.fd else s
    { s with descs := s.descs.set i ⟨false, -1, false, false⟩ }

inductive Op where
  | init
  | connect (i : Nat) (host : Bool) (sk cn : Int)
  | disconnect (i : Nat)
  | cleanup (i : Nat)

def step (s : St) : Op → St
  | .init => (init s).1
  | .connect i h sk cn => (connect s i h sk cn).1
  | .disconnect i => (disconnect s i).1
  | .cleanup i => cleanup s i

def run (s : St) (l : List Op) : St := l.foldl step s

/-- The stack gives out descriptors that are not open. -/
def Fresh : St → List Op → Prop
  | _, [] => True
  | s, o :: l => (match o with | .connect _ _ sk _ => sk ∉ s.live | _ => True) ∧ Fresh (step s o) l

/-- The socket a context holds. -/
def Desc.has (d : Desc) (fd : Int) : Prop := d.stack = true ∧ d.fd = fd ∧ 0 ≤ fd

structure Inv (s : St) : Prop where
  nostray : s.stray = false
  live : ∀ fd, fd ∈ s.live ↔ ∃ (i : Nat) (d : Desc), s.descs[i]? = some d ∧ d.has fd
  own : ∀ (i j : Nat) (d e : Desc) (fd : Int), s.descs[i]? = some d → s.descs[j]? = some e → d.has fd → e.has fd → i = j
  use : ∀ (i : Nat) (d : Desc), s.descs[i]? = some d → d.inUse = d.stack

theorem start_inv : Inv St.start := by
  have h0 : ∀ (i : Nat) (d : Desc), St.start.descs[i]? = some d → d = ⟨false, 0, false, false⟩ := fun i d h =>
    List.eq_of_mem_replicate (n := 2) (List.mem_of_getElem? h)
  refine ⟨rfl, fun fd => ⟨fun h => (nomatch h), fun ⟨i, d, h1, h2⟩ => ?_⟩, fun i j d e fd h1 h2 h3 => ?_, fun i d h => ?_⟩
  · rw [h0 i d h1] at h2; cases h2.1
  · rw [h0 i d h1] at h3; cases h3.1
  · rw [h0 i d h]

theorem get_set {l : List Desc} {i j : Nat} {d e : Desc} (h : (l.set i d)[j]? = some e) :
    (j = i ∧ e = d) ∨ (j ≠ i ∧ l[j]? = some e) := by
  by_cases hj : i = j
  · subst hj
    have hl : i < l.length := by
      have := (List.getElem?_eq_some_iff.mp h).1
      rw [List.length_set] at this
      exact this
    rw [List.getElem?_set_self hl] at h
    exact Or.inl ⟨rfl, (Option.some.inj h).symm⟩
  · rw [List.getElem?_set_ne hj] at h
    exact Or.inr ⟨fun e => hj e.symm, h⟩

/-- Context `i` changes without a socket coming or going. -/
theorem set_same {s : St} (h : Inv s) {i : Nat} {d d' : Desc} (hi : s.descs[i]? = some d)
    (hh : ∀ fd, d'.has fd ↔ d.has fd) (hu : d'.inUse = d'.stack) : Inv { s with descs := s.descs.set i d' } := by
  have hl := (List.getElem?_eq_some_iff.mp hi).1
  refine ⟨h.nostray, fun fd => ?_, fun j k e f fd h1 h2 h3 h4 => ?_, fun j e hj => ?_⟩
  · rw [show (({ s with descs := s.descs.set i d' } : St).live) = s.live from rfl, h.live fd]
    constructor
    · rintro ⟨j, e, h1, h2⟩
      by_cases hj : i = j
      · subst hj
        rw [hi] at h1
        cases h1
        exact ⟨i, d', List.getElem?_set_self hl, (hh fd).mpr h2⟩
      · exact ⟨j, e, by show (s.descs.set i d')[j]? = _; rw [List.getElem?_set_ne hj]; exact h1, h2⟩
    · rintro ⟨j, e, h1, h2⟩
      rcases get_set h1 with ⟨rfl, rfl⟩ | ⟨-, h1⟩
      · exact ⟨j, d, hi, (hh fd).mp h2⟩
      · exact ⟨j, e, h1, h2⟩
  · have old : ∀ {j : Nat} {e : Desc}, (s.descs.set i d')[j]? = some e → e.has fd → ∃ e' : Desc, s.descs[j]? = some e' ∧ e'.has fd := by
      intro j e q1 q2
      rcases get_set q1 with ⟨rfl, rfl⟩ | ⟨-, q1⟩
      · exact ⟨d, hi, (hh fd).mp q2⟩
      · exact ⟨e, q1, q2⟩
    obtain ⟨e', g1, g2⟩ := old h1 h3
    obtain ⟨f', g3, g4⟩ := old h2 h4
    exact h.own j k e' f' fd g1 g3 g2 g4
  · rcases get_set hj with ⟨rfl, rfl⟩ | ⟨-, hj⟩
    · exact hu
    · exact h.use j e hj

/-- The socket of context `i` is closed. -/
theorem close_inv {s : St} (h : Inv s) {i : Nat} {d d' : Desc} (hi : s.descs[i]? = some d) {fd : Int} (hd : d.has fd)
    (hh : ∀ fd, ¬ d'.has fd) (hu : d'.inUse = d'.stack) :
    Inv { s.close fd with descs := (s.close fd).descs.set i d' } := by
  have hm : fd ∈ s.live := (h.live fd).mpr ⟨i, d, hi, hd⟩
  unfold St.close
  rw [if_pos hm]
  refine ⟨h.nostray, fun fd' => ?_, fun j k e f fd' h1 h2 h3 h4 => ?_, fun j e hj => ?_⟩
  · show fd' ∈ s.live.filter (· ≠ fd) ↔ ∃ (j : Nat) (e : Desc), (s.descs.set i d')[j]? = some e ∧ e.has fd'
    rw [List.mem_filter, h.live fd']
    constructor
    · rintro ⟨⟨j, e, h1, h2⟩, h3⟩
      have h3 : fd' ≠ fd := by simpa using h3
      have hj : i ≠ j := by
        intro hj
        subst hj
        rw [hi] at h1
        cases h1
        exact h3 (h2.2.1.symm.trans hd.2.1)
      exact ⟨j, e, by rw [List.getElem?_set_ne hj]; exact h1, h2⟩
    · rintro ⟨j, e, h1, h2⟩
      rcases get_set h1 with ⟨rfl, rfl⟩ | ⟨hj, h1⟩
      · exact absurd h2 (hh fd')
      · refine ⟨⟨j, e, h1, h2⟩, ?_⟩
        have : fd' ≠ fd := fun e1 => hj (h.own j i e d fd' h1 hi h2 (e1 ▸ hd))
        simpa using this
  · have old : ∀ {j : Nat} {e : Desc}, (s.descs.set i d')[j]? = some e → e.has fd' → s.descs[j]? = some e := by
      intro j e q1 q2
      rcases get_set q1 with ⟨rfl, rfl⟩ | ⟨-, q1⟩
      · exact absurd q2 (hh fd')
      · exact q1
    exact h.own j k e f fd' (old h1 h3) (old h2 h4) h3 h4
  · rcases get_set hj with ⟨rfl, rfl⟩ | ⟨-, hj⟩
    · exact hu
    · exact h.use j e hj

/-- Context `i`, which has none, gets the new socket `sk`. -/
theorem open_inv {s : St} (h : Inv s) {i : Nat} {d d' : Desc} (hi : s.descs[i]? = some d) {sk : Int}
    (hd : ∀ fd, ¬ d.has fd) (hd' : ∀ fd, d'.has fd ↔ fd = sk) (hu : d'.inUse = d'.stack) (hf : sk ∉ s.live) :
    Inv { s with descs := s.descs.set i d', live := sk :: s.live } := by
  have hl := (List.getElem?_eq_some_iff.mp hi).1
  have oth : ∀ (j : Nat) (e : Desc), s.descs[j]? = some e → ¬ e.has sk := fun j e h1 h2 => hf ((h.live sk).mpr ⟨j, e, h1, h2⟩)
  refine ⟨h.nostray, fun fd' => ?_, fun j k e f fd' h1 h2 h3 h4 => ?_, fun j e hj => ?_⟩
  · show fd' ∈ sk :: s.live ↔ ∃ (j : Nat) (e : Desc), (s.descs.set i d')[j]? = some e ∧ e.has fd'
    rw [List.mem_cons, h.live fd']
    constructor
    · rintro (e1 | ⟨j, e, h1, h2⟩)
      · exact ⟨i, d', List.getElem?_set_self hl, (hd' fd').mpr e1⟩
      · have hj : i ≠ j := by
          intro hj
          subst hj
          rw [hi] at h1
          cases h1
          exact hd fd' h2
        exact ⟨j, e, by rw [List.getElem?_set_ne hj]; exact h1, h2⟩
    · rintro ⟨j, e, h1, h2⟩
      rcases get_set h1 with ⟨rfl, rfl⟩ | ⟨-, h1⟩
      · exact Or.inl ((hd' fd').mp h2)
      · exact Or.inr ⟨j, e, h1, h2⟩
  · rcases get_set h1 with ⟨a1, b1⟩ | ⟨g1, q1⟩ <;> rcases get_set h2 with ⟨a2, b2⟩ | ⟨g2, q2⟩
    · exact a1.trans a2.symm
    · rw [b1] at h3
      rw [(hd' fd').mp h3] at h4
      exact absurd h4 (oth k f q2)
    · rw [b2] at h4
      rw [(hd' fd').mp h4] at h3
      exact absurd h3 (oth j e q1)
    · exact h.own j k e f fd' q1 q2 h3 h4
  · rcases get_set hj with ⟨rfl, rfl⟩ | ⟨-, hj⟩
    · exact hu
    · exact h.use j e hj

theorem initFrom_some : ∀ {l : List Desc} {i k : Nat}, initFrom l i = some k → ∃ j d, k = i + j ∧ l[j]? = some d ∧ d.inUse = false := by
  intro l
  induction l with
  | nil => intro i k h; cases h
  | cons d l ih =>
    intro i k h
    rw [initFrom] at h
    split at h
    · obtain ⟨j, e, h1, h2, h3⟩ := ih h
      exact ⟨j + 1, e, by omega, h2, h3⟩
    · rename_i hu
      cases h
      exact ⟨0, d, rfl, rfl, by simpa using hu⟩

theorem step_inv {s : St} (h : Inv s) (o : Op) (hf : ∀ i hst sk cn, o = .connect i hst sk cn → sk ∉ s.live) : Inv (step s o) := by
  cases o with
  | init =>
    show Inv (init s).1
    unfold init
    cases hi : initFrom s.descs 0 with
    | none => exact h
    | some k =>
      obtain ⟨j, d, h1, h2, h3⟩ := initFrom_some hi
      have hk : k = j := by omega
      subst hk
      dsimp only
      have hst : d.stack = false := by rw [← h.use k d h2]; exact h3
      refine set_same h h2 (fun fd => ?_) rfl
      constructor
      · rintro ⟨-, e, e2⟩
        have e : (-1 : Int) = fd := e
        omega
      · rintro ⟨e, -⟩
        rw [hst] at e
        cases e
  | connect i host sk cn =>
    have hf := hf i host sk cn rfl
    show Inv (connect s i host sk cn).1
    unfold connect
    cases hi : s.descs[i]? with
    | none => exact h
    | some d =>
      have hl := (List.getElem?_eq_some_iff.mp hi).1
      have hu := h.use i d hi
      dsimp only
      split
      · exact h
      · rename_i hc
        have hst : d.stack = true := by
          cases hst : d.stack with
          | true => rfl
          | false => exact absurd (Or.inl hst) hc
        -- the state after the socket call
        have hmid : ∃ s1 d1, (if d.fd < 0 then
            (({ s with descs := s.descs.set i { d with fd := sk }, live := if sk < 0 then s.live else sk :: s.live } : St),
              ({ d with fd := sk } : Desc)) else (s, d)) = (s1, d1) ∧ Inv s1 ∧ s1.descs[i]? = some d1 ∧
              d1.stack = true ∧ d1.inUse = true := by
          split
          · rename_i hfd
            have hd : ∀ fd, ¬ d.has fd := fun fd hh => by have := hh.2.1; have := hh.2.2; omega
            refine ⟨_, _, rfl, ?_, List.getElem?_set_self hl, hst, by rw [← hst]; exact hu⟩
            split
            · rename_i hsk
              refine set_same h hi (fun fd => ?_) hu
              constructor
              · rintro ⟨-, e, e2⟩
                have e : sk = fd := e
                omega
              · exact fun hh => absurd hh (hd fd)
            · rename_i hsk
              refine open_inv h hi hd (fun fd => ?_) hu hf
              constructor
              · exact fun hh => hh.2.1.symm
              · exact fun e => ⟨hst, e.symm, by omega⟩
          · exact ⟨_, _, rfl, h, hi, hst, by rw [← hst]; exact hu⟩
        obtain ⟨s1, d1, e1, hi1, hg1, hst1, hu1⟩ := hmid
        rw [e1]
        dsimp only
        split
        · exact hi1
        · rename_i hfd1
          split
          · exact set_same hi1 hg1 (fun fd => Iff.rfl) (by rw [hu1, hst1])
          · split
            · exact hi1
            · refine close_inv hi1 hg1 ⟨hst1, rfl, by omega⟩ (fun fd hh => ?_) (by rw [hu1, hst1])
              have e1 : (-1 : Int) = fd := hh.2.1
              have e2 := hh.2.2
              omega
  | disconnect i =>
    show Inv (disconnect s i).1
    unfold disconnect
    cases hi : s.descs[i]? with
    | none => exact h
    | some d =>
      have hu := h.use i d hi
      dsimp only
      split
      · rename_i hc
        refine close_inv h hi ⟨hc.2, rfl, hc.1⟩ (fun fd hh => ?_) hu
        have e1 : (-1 : Int) = fd := hh.2.1
        have e2 := hh.2.2
        omega
      · exact set_same h hi (fun fd => Iff.rfl) hu
  | cleanup i =>
    show Inv (cleanup s i)
    unfold cleanup
    cases hi : s.descs[i]? with
    | none => exact h
    | some d =>
      dsimp only
      split
      · rename_i hc
        exact close_inv h hi ⟨hc.2, rfl, hc.1⟩ (fun fd hh => by cases hh.1) rfl
      · rename_i hc
        refine set_same h hi (fun fd => ⟨(fun hh => by cases hh.1), fun hh => ?_⟩) rfl
        exact absurd ⟨by rw [hh.2.1]; exact hh.2.2, hh.1⟩ hc

theorem run_inv : ∀ (l : List Op) {s : St}, Inv s → Fresh s l → Inv (run s l) := by
  intro l
  induction l with
  | nil => intro s h _; exact h
  | cons o l ih =>
    intro s h hf
    refine ih (step_inv h o fun i hst sk cn e => ?_) hf.2
    subst e
    exact hf.1

/-- **C109.** After every history of initialisations, connection attempts (repeated ones included), disconnects and
clean-ups, in any order and with any results of the stack: the sockets the glue created and has not closed are exactly
those its contexts hold, each held by one context; nothing is closed that is not such a socket. -/
theorem mqtt_sockets (l : List Op) (hf : Fresh St.start l) (s : St) (hs : s = run St.start l) :
    s.stray = false ∧ (∀ fd, fd ∈ s.live ↔ ∃ (i : Nat) (d : Desc), s.descs[i]? = some d ∧ d.stack = true ∧ d.fd = fd ∧ 0 ≤ fd) ∧
    (∀ (i j : Nat) (d e : Desc), s.descs[i]? = some d → s.descs[j]? = some e → d.stack = true → e.stack = true → 0 ≤ d.fd → e.fd = d.fd → i = j) := by
  have h := run_inv l start_inv hf
  rw [← hs] at h
  refine ⟨h.nostray, h.live, fun i j d e h1 h2 h3 h4 h5 h6 => ?_⟩
  exact h.own i j d e d.fd h1 h2 ⟨h3, rfl, h5⟩ ⟨h4, h6, h5⟩

/-- A context that was cleaned up holds no socket. -/
theorem mqtt_cleanup (s : St) (i : Nat) (d : Desc) (h : (cleanup s i).descs[i]? = some d) :
    d.stack = false ∧ d.inUse = false ∧ d.fd = -1 := by
  unfold cleanup at h
  cases hi : s.descs[i]? with
  | none => rw [hi] at h; dsimp only at h; rw [hi] at h; cases h
  | some e =>
    rw [hi] at h
    dsimp only at h
    rcases get_set h with ⟨-, e1⟩ | ⟨hne, -⟩
    · rw [e1]; exact ⟨rfl, rfl, rfl⟩
    · exact absurd rfl hne

/-- **C109, results.** A transfer on a context with a socket reports data exactly when the socket moved some, "try
again" exactly on EAGAIN and a network error otherwise (so a dead connection is never retried for ever); an attempt to
connect succeeds exactly when the stack says so. -/
theorem mqtt_results (s : St) (i : Nat) (d : Desc) (hi : s.descs[i]? = some d) (hst : d.stack = true) (hfd : 0 ≤ d.fd) :
    (∀ ret : Int, (0 < ret → transfer s i true ret = .data ret) ∧ (ret = -11 → transfer s i true ret = .again) ∧
      (ret ≤ 0 → ret ≠ -11 → transfer s i true ret = .network)) ∧
    (∀ sk cn : Int, (cn = 0 → (connect s i true sk cn).2 = .success) ∧ (cn = -11 → connect s i true sk cn = (s, .again)) ∧
      (cn ≠ 0 → cn ≠ -11 → (connect s i true sk cn).2 = .network)) := by
  constructor
  · intro ret
    unfold transfer
    rw [hi]
    dsimp only
    rw [if_neg (by rw [hst]; simp; omega)]
    refine ⟨fun h => ?_, fun h => ?_, fun h1 h2 => ?_⟩
    · rw [if_neg (by omega), if_neg (by omega), if_neg (by omega)]
    · rw [if_pos h]
    · rw [if_neg h2]
      split
      · rfl
      · rw [if_pos (by omega)]
  · intro sk cn
    unfold connect
    rw [hi]
    dsimp only
    rw [if_neg (by rw [hst]; simp)]
    simp only [if_neg (show ¬ d.fd < 0 by omega)]
    refine ⟨fun h => ?_, fun h => ?_, fun h1 h2 => ?_⟩
    · rw [if_pos h]
    · rw [if_neg (by omega), if_pos h]
    · rw [if_neg h1, if_neg h2]

/-- Three attempts on one socket, the third refused, then another with a new socket; a second client; clean-up. -/
example : Fresh St.start [.init, .connect 0 true 5 (-11), .connect 0 true 6 (-11), .connect 0 true 6 (-1),
      .connect 0 true 7 0, .init, .connect 1 true 5 0, .disconnect 0, .cleanup 1] ∧
    (run St.start [.init, .connect 0 true 5 (-11), .connect 0 true 6 (-11)]).live = [5] ∧
    (run St.start [.init, .connect 0 true 5 (-11), .connect 0 true 6 (-11), .connect 0 true 6 (-1),
      .connect 0 true 7 0, .init, .connect 1 true 5 0, .disconnect 0, .cleanup 1]).live = [] := by
  refine ⟨⟨trivial, by decide, by decide, by decide, by decide, trivial, by decide, trivial, trivial, trivial⟩, by decide, by decide⟩

end Wolf.Glue.Mqtt
