/-!
# C119: transmit rings whose descriptors share a cache line (eTSEC, QE UEC, FMan)

Model of `eth_send` of `src/port/nxp_etsec/nxp_etsec.c` 279–318, `src/port/nxp_qe_uec/nxp_qe_uec.c` 418–450 and `src/port/nxp_fman/nxp_fman.c` 540–580, with the processor's data cache, as in `Drv/Line`:
eight or sixteen octets per descriptor, lines of 32 or 64, so `k = 4`. `dcbf` writes a dirty line back and drops it. Between any two steps the device may finish a frame and the cache may evict or fetch lines.

The device's contract: it takes the next descriptor if memory says READY, sends the octets, and clears READY. With `gate` (FMan, 568–575) it also stops at the offset the driver last wrote.
`wait`: eTSEC then polls the descriptor, at most `ETSEC_POLL_TRIES` times (311–317); QE and FMan do not wait.
Simplified: the transmit buffers are whole lines, so the copy and its `dcache_flush` are one write to memory; a frame of fewer than 60 octets is padded (294–297). The store of the buffer pointer, always the same for a slot, is left out.
-/
namespace Wolf.Drv.LineTx

abbrev Bytes := List Nat

structure BD where
  ready : Bool
  len : Nat
deriving DecidableEq, Repr

structure Cfg where
  n : Nat
  k : Nat
  coh : Bool
  gate : Bool
  wait : Option Nat
  cap : Nat

inductive Ret where
  /-- the length -/
  | ok (n : Nat)
  /-- −2 -/
  | full
  /-- −1: no such length -/
  | bad
  /-- −1: not sent in time -/
  | late
deriving DecidableEq, Repr

inductive Pc where
  | idle
  | ld (f : Bytes)
  | copy (f : Bytes)
  | st1 (f : Bytes)
  | st2 (f : Bytes)
  | fl (f : Bytes)
  | wait (f : Bytes) (t : Nat)
deriving DecidableEq, Repr

structure St where
  mem : Nat → BD
  buf : Nat → Bytes
  cache : Nat → Option ((Nat → BD) × Bool)
  /-- `tx_idx` -/
  idx : Nat
  pc : Pc
  /-- the device's descriptor -/
  mac : Nat
  /-- ghost: slots used, doorbells rung, frames made ready (as padded), frames on the wire, calls and results -/
  used : Nat
  rung : Nat
  acc : List Bytes
  wire : List Bytes
  rets : List (Bytes × Ret)

def start : St :=
  { mem := fun _ => ⟨false, 0⟩, buf := fun _ => [], cache := fun _ => none, idx := 0, pc := .idle, mac := 0, used := 0, rung := 0, acc := [], wire := [], rets := [] }

def upd {α : Type} (f : Nat → α) (i : Nat) (v : α) : Nat → α := fun x => if x = i then v else f x

def fill (s : St) (l : Nat) : St :=
  match s.cache l with
  | none => { s with cache := upd s.cache l (some (s.mem, false)) }
  | some _ => s

def view (g : Cfg) (s : St) (i : Nat) : BD :=
  match s.cache (i / g.k) with
  | none => s.mem i
  | some c => c.1 i

def flush (g : Cfg) (s : St) (l : Nat) : St :=
  match s.cache l with
  | none => s
  | some (_, false) => { s with cache := upd s.cache l none }
  | some (c, true) => { s with cache := upd s.cache l none, mem := fun j => if j / g.k = l then c j else s.mem j }

def store (g : Cfg) (s : St) (i : Nat) (f : BD → BD) : St :=
  let c := match s.cache (i / g.k) with
    | none => s.mem
    | some c => c.1
  { s with cache := upd s.cache (i / g.k) (some (upd c i (f (c i)), true)) }

/-- nxp_etsec.c 294–297. -/
def pad (f : Bytes) : Bytes := f ++ List.replicate (60 - f.length) 0

/-- The call returns; `tx_idx` advances. -/
def leave (g : Cfg) (s : St) (f : Bytes) (r : Ret) : St :=
  { s with pc := .idle, idx := (s.idx + 1) % g.n, used := s.used + 1, rets := s.rets ++ [(f, r)] }

def cpu (g : Cfg) (s : St) : St :=
  match s.pc with
  | .idle => s
  | .ld f =>
    let s1 := fill s (s.idx / g.k)
    if (view g s1 s.idx).ready then { s1 with pc := .idle, rets := s1.rets ++ [(f, .full)] } else { s1 with pc := .copy f }
  | .copy f => { s with buf := upd s.buf s.idx (pad f), pc := .st1 f }
  | .st1 f => { store g s s.idx (fun b => { b with len := (pad f).length }) with pc := .st2 f }
  | .st2 f => { store g s s.idx (fun b => { b with ready := true }) with pc := .fl f, acc := s.acc ++ [pad f] }
  | .fl f =>
    let s1 := { flush g s (s.idx / g.k) with rung := s.rung + 1 }
    match g.wait with
    | none => leave g s1 f (.ok (pad f).length)
    | some t => { s1 with pc := .wait f t }
  | .wait f t =>
    let s1 := fill (flush g s (s.idx / g.k)) (s.idx / g.k)
    if (view g s1 s.idx).ready then
      if t - 1 = 0 then leave g s1 f .late else { s1 with pc := .wait f (t - 1) }
    else leave g s1 f (.ok (pad f).length)

/-- The device sends the frame of its descriptor. -/
def macTx (g : Cfg) (s : St) : St :=
  let s1 := if g.coh then flush g s (s.mac / g.k) else s
  if (s1.mem s.mac).ready = true ∧ (g.gate = true → s1.wire.length < s1.rung) then
    { s1 with
      wire := s1.wire ++ [(s1.buf s.mac).take (s1.mem s.mac).len]
      mem := upd s1.mem s.mac { s1.mem s.mac with ready := false }
      mac := (s.mac + 1) % g.n }
  else s1

inductive Op where
  | send (f : Bytes)
  | cpu
  | mac
  | evict (l : Nat)
  | prefetch (l : Nat)

def step (g : Cfg) (s : St) : Op → St
  | .send f =>
    if s.pc = .idle then
      if f.length = 0 ∨ f.length > g.cap then { s with rets := s.rets ++ [(f, .bad)] }
      else { flush g s (s.idx / g.k) with pc := .ld f }
    else s
  | .cpu => cpu g s
  | .mac => macTx g s
  | .evict l => flush g s l
  | .prefetch l => fill s l

def run (g : Cfg) (s : St) : List Op → St
  | [] => s
  | op :: l => run g (step g s op) l

/-! ## Specification -/

/-- The call is between its first cache operation and the `dcache_flush` of the descriptor. -/
def Win : Pc → Prop
  | .idle => False
  | .wait _ _ => False
  | _ => True

/-- No frame is finished in the line the call is working on. -/
def Calm (g : Cfg) (s : St) : Op → Prop
  | .mac => ¬ Win s.pc ∨ s.mac / g.k ≠ s.idx / g.k
  | _ => True

def AllCalm (g : Cfg) : St → List Op → Prop
  | _, [] => True
  | s, op :: l => Calm g s op ∧ AllCalm g (step g s op) l

/-- The call took the frame. -/
def Ret.took : Ret → Bool
  | .ok _ => true
  | .late => true
  | _ => false

/-- The frames the finished calls took. -/
def taken (l : List (Bytes × Ret)) : List Bytes := (l.filter fun x => x.2.took).map fun x => pad x.1

/-- A call that has made its frame ready and not returned. -/
def inHand (s : St) : List Bytes :=
  match s.pc with
  | .fl f => [pad f]
  | .wait f _ => [pad f]
  | _ => []

/-- What the device has sent is, in order and once each, what the calls took (padded), up to the frames still waiting in the ring, of which there are at most `n`. -/
def Exact (g : Cfg) (s : St) : Prop :=
  s.wire <+: taken s.rets ++ inHand s ∧ (taken s.rets ++ inHand s).length ≤ s.wire.length + g.n

/-! ## Invariant -/

def Pending (g : Cfg) (s : St) : Prop := ∃ c, s.cache (s.idx / g.k) = some (c, true)

def late : Pc → Nat
  | .fl _ => 1
  | .wait _ _ => 1
  | _ => 0

def Busy : Pc → Prop
  | .copy _ => True
  | .st1 _ => True
  | .st2 _ => True
  | _ => False

structure Inv (g : Cfg) (s : St) : Prop where
  npos : 0 < g.n
  idx : s.idx = s.used % g.n
  mac : s.mac = s.wire.length % g.n
  cnt : s.acc.length = s.used + late s.pc
  le : s.wire.length ≤ s.acc.length
  room : s.acc.length ≤ s.wire.length + g.n
  queued : ∀ j f, s.wire.length ≤ j → s.acc[j]? = some f → s.buf (j % g.n) = f ∧ (¬ (Pending g s ∧ j = s.used) → s.mem (j % g.n) = ⟨true, f.length⟩)
  free : ∀ j, s.acc.length ≤ j → j < s.wire.length + g.n → (s.mem (j % g.n)).ready = false
  busy : Busy s.pc → s.acc.length < s.wire.length + g.n
  held : ∀ f, s.pc = .st1 f ∨ s.pc = .st2 f → s.buf s.idx = pad f
  lens : ∀ f, s.pc = .st2 f → ¬ Pending g s → s.mem s.idx = ⟨false, (pad f).length⟩
  clean : ∀ l c, s.cache l = some (c, true) → l = s.idx / g.k ∧ ((∃ f, s.pc = .st2 f ∧ c s.idx = ⟨false, (pad f).length⟩) ∨
    (∃ f, s.pc = .fl f ∧ c s.idx = ⟨true, (pad f).length⟩ ∧ (s.mem s.idx).ready = false ∧ s.wire.length ≤ s.used))
  agree : Win s.pc → ∀ c d, s.cache (s.idx / g.k) = some (c, d) → ∀ j, j ≠ s.idx → j / g.k = s.idx / g.k → c j = s.mem j
  own : ∀ c, s.cache (s.idx / g.k) = some (c, false) → (∀ f, s.pc = .ld f → (c s.idx).ready = true ∨ c s.idx = s.mem s.idx) ∧ (Busy s.pc → c s.idx = s.mem s.idx)
  sent : s.wire <+: s.acc
  calls : s.acc = taken s.rets ++ inHand s

theorem upd_eq {α : Type} (f : Nat → α) (i : Nat) (v : α) : upd f i v i = v := by simp [upd]
theorem upd_ne {α : Type} (f : Nat → α) {i j : Nat} (v : α) (h : j ≠ i) : upd f i v j = f j := by simp [upd, h]

theorem mod_inj {n a b : Nat} (h : a % n = b % n) (h1 : a ≤ b) (h2 : b < a + n) : a = b := by
  have hn : 0 < n := by omega
  have h3 : (b - a) % n = 0 := Nat.sub_mod_eq_zero_of_mod_eq h.symm
  rw [Nat.mod_eq_of_lt (by omega)] at h3
  omega

theorem inv_start (g : Cfg) (hn : 0 < g.n) : Inv g start where
  npos := hn
  idx := by simp [start]
  mac := by simp [start]
  cnt := rfl
  le := Nat.le_refl _
  room := Nat.zero_le _
  queued := by intro j f _ h; simp [start] at h
  free := by intros; rfl
  busy := by intro h; exact h.elim
  held := by intro f h; rcases h with h | h <;> cases h
  lens := by intro f h; cases h
  clean := by intro l c h; simp [start] at h
  agree := by intro h; exact h.elim
  own := by intro c h; simp [start] at h
  sent := List.prefix_refl _
  calls := by simp [start, taken, inHand]

theorem fill_inv {g : Cfg} {s : St} (h : Inv g s) (l : Nat) : Inv g (fill s l) := by
  unfold fill
  split
  · rename_i hl
    have hd : ∀ l' c, upd s.cache l (some (s.mem, false)) l' = some (c, true) → s.cache l' = some (c, true) := by
      intro l' c hc
      by_cases e : l' = l
      · subst e; rw [upd_eq] at hc; simp at hc
      · rwa [upd_ne _ _ e] at hc
    have hp : Pending g { s with cache := upd s.cache l (some (s.mem, false)) } ↔ Pending g s := by
      constructor
      · rintro ⟨c, hc⟩; exact ⟨c, hd _ _ hc⟩
      · rintro ⟨c, hc⟩
        have e : s.idx / g.k ≠ l := by rintro rfl; rw [hl] at hc; cases hc
        exact ⟨c, by show upd s.cache l _ _ = _; rw [upd_ne _ _ e]; exact hc⟩
    exact
    { h with
      queued := fun j f h1 h2 => ⟨(h.queued j f h1 h2).1, fun h3 => (h.queued j f h1 h2).2 (by rw [← hp]; exact h3)⟩
      lens := fun f h1 h2 => h.lens f h1 (by rw [← hp]; exact h2)
      clean := fun l' c hc => h.clean l' c (hd l' c hc)
      agree := by
        intro hpc c d hc j hj hjl
        dsimp only at hc hj hjl hpc ⊢
        by_cases e : s.idx / g.k = l
        · rw [e, upd_eq] at hc; cases hc; rfl
        · rw [upd_ne _ _ e] at hc; exact h.agree hpc c d hc j hj hjl
      own := by
        intro c hc
        dsimp only at hc ⊢
        by_cases e : s.idx / g.k = l
        · rw [e, upd_eq] at hc; cases hc; exact ⟨fun _ _ => .inr rfl, fun _ => rfl⟩
        · rw [upd_ne _ _ e] at hc; exact h.own c hc }
  · exact h

theorem flush_inv {g : Cfg} {s : St} (h : Inv g s) (l : Nat) : Inv g (flush g s l) := by
  unfold flush
  split
  · exact h
  · rename_i c0 hl
    have hd : ∀ l' x, upd s.cache l none l' = some x → s.cache l' = some x := by
      intro l' x hc
      by_cases e : l' = l
      · subst e; rw [upd_eq] at hc; cases hc
      · rwa [upd_ne _ _ e] at hc
    have hp : Pending g { s with cache := upd s.cache l none } ↔ Pending g s := by
      constructor
      · rintro ⟨c, hc⟩; exact ⟨c, hd _ _ hc⟩
      · rintro ⟨c, hc⟩
        have e : s.idx / g.k ≠ l := by rintro rfl; rw [hl] at hc; cases hc
        exact ⟨c, by show upd s.cache l _ _ = _; rw [upd_ne _ _ e]; exact hc⟩
    exact
    { h with
      queued := fun j f h1 h2 => ⟨(h.queued j f h1 h2).1, fun h3 => (h.queued j f h1 h2).2 (by rw [← hp]; exact h3)⟩
      lens := fun f h1 h2 => h.lens f h1 (by rw [← hp]; exact h2)
      clean := fun l' c hc => h.clean l' c (hd l' _ hc)
      agree := fun hpc c d hc => h.agree hpc c d (hd _ _ hc)
      own := fun c hc => h.own c (hd _ _ hc) }
  · rename_i c hl
    obtain ⟨rfl, hpc⟩ := h.clean l c hl
    have hP : Pending g s := ⟨c, hl⟩
    have hne : Win s.pc := by
      rcases hpc with ⟨r, h1, _⟩ | ⟨r, h1, _⟩ <;> rw [h1] <;> trivial
    have hag := h.agree hne c true hl
    have hd : ∀ l' x, upd s.cache (s.idx / g.k) none l' = some x → l' ≠ s.idx / g.k ∧ s.cache l' = some x := by
      intro l' x hc
      by_cases e : l' = s.idx / g.k
      · subst e; rw [upd_eq] at hc; cases hc
      · rw [upd_ne _ _ e] at hc; exact ⟨e, hc⟩
    have hm : ∀ j, j ≠ s.idx → (if j / g.k = s.idx / g.k then c j else s.mem j) = s.mem j := by
      intro j hj; split
      · rename_i hl; exact hag j hj hl
      · rfl
    have hcnt := h.cnt
    have hroom := h.room
    have hle := h.le
    refine { h with queued := ?_, free := ?_, lens := ?_, clean := ?_, agree := ?_, own := ?_ }
    · intro j f hj hf
      refine ⟨(h.queued j f hj hf).1, fun _ => ?_⟩
      dsimp only at hj hf ⊢
      have hjl := (List.getElem?_eq_some_iff.1 hf).1
      by_cases e : j % g.n = s.idx
      · rcases hpc with ⟨r, h1, h2⟩ | ⟨r, h1, h2, h3, h4⟩
        · have h0 : late s.pc = 0 := by rw [h1]; rfl
          have hb := h.busy (by rw [h1]; trivial)
          exact absurd (mod_inj (by rw [e, h.idx]) (by omega : j ≤ s.used) (by omega)) (by omega)
        · have h0 : late s.pc = 1 := by rw [h1]; rfl
          have hju : j = s.used := mod_inj (by rw [e, h.idx]) (by omega) (by omega)
          have hcall := h.calls
          have hin : inHand s = [pad r] := by unfold inHand; rw [h1]
          rw [hin] at hcall
          have hlen : (taken s.rets).length = s.used := by
            have := congrArg List.length hcall
            rw [List.length_append] at this
            have h1' : [pad r].length = 1 := rfl
            omega
          have hfr : f = pad r := by
            rw [hcall, hju, List.getElem?_append_right (by omega), hlen] at hf
            simpa using hf.symm
          rw [e, if_pos rfl, h2, hfr]
      · rw [hm _ e]
        refine (h.queued j f hj hf).2 ?_
        rintro ⟨_, hju⟩
        exact e (by rw [hju, h.idx])
    · intro j h1 h2
      dsimp only at h1 h2 ⊢
      by_cases e : j % g.n = s.idx
      · rw [e, if_pos rfl]
        rcases hpc with ⟨r, k1, k2⟩ | ⟨r, k1, k2, k3, k4⟩
        · rw [k2]
        · have h0 : late s.pc = 1 := by rw [k1]; rfl
          exact absurd (mod_inj (by rw [e, h.idx]) (by omega : s.used ≤ j) (by omega)) (by omega)
      · rw [hm _ e]; exact h.free j h1 h2
    · intro f hf _
      dsimp only at hf ⊢
      rw [if_pos rfl]
      rcases hpc with ⟨r, k1, k2⟩ | ⟨r, k1, k2, k3, k4⟩
      · rw [hf] at k1; cases k1; exact k2
      · rw [hf] at k1; cases k1
    · intro l' c' hc'
      have h1 := hd _ _ hc'
      exact absurd (h.clean _ _ h1.2).1 h1.1
    · intro _ c' d hc'
      exact absurd rfl (hd _ _ hc').1
    · intro c' hc'
      exact absurd rfl (hd _ _ hc').1

/-- At the slot the call works on, once it has seen it free. -/
theorem busy_free {g : Cfg} {s : St} (h : Inv g s) (hb : Busy s.pc) : (s.mem s.idx).ready = false := by
  have h1 := h.busy hb
  have h0 : late s.pc = 0 := by cases hp : s.pc <;> rw [hp] at hb <;> first | rfl | exact hb.elim
  have h2 := h.cnt
  have := h.free s.acc.length (Nat.le_refl _) h1
  rwa [h2, h0, Nat.add_zero, ← h.idx] at this

theorem write_inv {g : Cfg} {s : St} (h : Inv g s)
    (hc : s.cache (s.idx / g.k) = none ∨ s.mac / g.k ≠ s.idx / g.k ∨ ¬ Win s.pc ∨ g.k = 1)
    (he : (s.mem s.mac).ready = true) :
    Inv g { s with wire := s.wire ++ [(s.buf s.mac).take (s.mem s.mac).len], mem := upd s.mem s.mac { s.mem s.mac with ready := false }, mac := (s.mac + 1) % g.n } := by
  have hn := h.npos
  have hle := h.le
  have hroom := h.room
  have hcnt := h.cnt
  have hlt : s.wire.length < s.acc.length := by
    rcases Nat.lt_or_ge s.wire.length s.acc.length with h1 | h1
    · exact h1
    · have := h.free s.wire.length h1 (by omega)
      rw [← h.mac, he] at this; cases this
  have hpi : ∀ l c, s.cache l = some (c, true) → s.idx ≠ s.mac := by
    intro l c hlc e
    rcases (h.clean l c hlc).2 with ⟨f, k1, _⟩ | ⟨f, k1, _, k3, _⟩
    · rw [← e, busy_free h (by rw [k1]; trivial)] at he; cases he
    · rw [← e, k3] at he; cases he
  have hnp : ¬ (Pending g s ∧ s.wire.length = s.used) := by
    rintro ⟨⟨c, hp⟩, hw⟩
    exact hpi _ c hp (by rw [h.idx, h.mac, hw])
  have hbm : Busy s.pc → s.idx ≠ s.mac := by
    intro hb e
    rw [← e, busy_free h hb] at he; cases he
  obtain ⟨f, hf⟩ : ∃ f, s.acc[s.wire.length]? = some f := ⟨_, List.getElem?_eq_getElem hlt⟩
  obtain ⟨q1, q2⟩ := h.queued s.wire.length f (Nat.le_refl _) hf
  have q3 := q2 hnp
  rw [← h.mac] at q1 q3
  have hfr : (s.buf s.mac).take (s.mem s.mac).len = f := by rw [q1, q3]; exact List.take_length
  rw [hfr]
  have hpre : s.wire ++ [f] <+: s.acc := by
    obtain ⟨t, ht⟩ := h.sent
    rw [← ht, List.getElem?_append_right (Nat.le_refl _), Nat.sub_self] at hf
    cases t with
    | nil => simp at hf
    | cons a t =>
      have : a = f := by simpa using hf
      subst this
      exact ⟨t, by rw [← ht]; simp⟩
  have hlen : (s.wire ++ [f]).length = s.wire.length + 1 := by simp
  refine { npos := hn, idx := h.idx, mac := ?_, cnt := h.cnt, le := ?_, room := ?_, queued := ?_, free := ?_, busy := ?_, held := h.held, lens := ?_, clean := ?_, agree := ?_, own := ?_, sent := hpre, calls := h.calls }
  · show (s.mac + 1) % g.n = (s.wire ++ [f]).length % g.n
    rw [hlen, h.mac, Nat.mod_add_mod]
  · show (s.wire ++ [f]).length ≤ s.acc.length; omega
  · show s.acc.length ≤ (s.wire ++ [f]).length + g.n; omega
  · intro j f' hj hf'
    have hj' : s.wire.length + 1 ≤ j := by rw [← hlen]; exact hj
    have hjl := (List.getElem?_eq_some_iff.1 hf').1
    have hjl' : j < s.acc.length := hjl
    have hne : j % g.n ≠ s.mac := by
      rw [h.mac]; intro e; exact absurd (mod_inj e.symm (by omega) (by omega)) (by omega)
    obtain ⟨p1, p2⟩ := h.queued j f' (by omega) hf'
    refine ⟨p1, fun hx => ?_⟩
    show upd s.mem s.mac _ (j % g.n) = _
    rw [upd_ne _ _ hne]; exact p2 hx
  · intro j h1 h2
    have h1' : s.acc.length ≤ j := h1
    have h2' : j < s.wire.length + 1 + g.n := by rw [← hlen]; exact h2
    show (upd s.mem s.mac _ (j % g.n)).ready = false
    by_cases e : j % g.n = s.mac
    · rw [e, upd_eq]
    · rw [upd_ne _ _ e]
      have : j ≠ s.wire.length + g.n := by
        intro e2; exact e (by rw [e2, Nat.add_mod_right, h.mac])
      exact h.free j h1' (by omega)
  · intro hb; show s.acc.length < (s.wire ++ [f]).length + g.n
    have := h.busy hb; omega
  · intro f' hf' hp
    show upd s.mem s.mac _ s.idx = _
    have hf2 : s.pc = .st2 f' := hf'
    rw [upd_ne _ _ (hbm (by rw [hf2]; trivial))]
    exact h.lens f' hf' hp
  · intro l c hlc
    have hne := hpi l c hlc
    obtain ⟨h1, h2⟩ := h.clean l c hlc
    refine ⟨h1, ?_⟩
    rcases h2 with ⟨r, k1, k2⟩ | ⟨r, k1, k2, k3, k4⟩
    · exact .inl ⟨r, k1, k2⟩
    · refine .inr ⟨r, k1, k2, ?_, ?_⟩
      · show (upd s.mem s.mac _ s.idx).ready = false
        rw [upd_ne _ _ hne]; exact k3
      · show (s.wire ++ [f]).length ≤ s.used
        have : s.wire.length ≠ s.used := fun e => hne (by rw [h.idx, h.mac, e])
        omega
  · intro hpc c d hcd j hj hjl
    show c j = upd s.mem s.mac _ j
    have hpc' : Win s.pc := hpc
    have hcd' : s.cache (s.idx / g.k) = some (c, d) := hcd
    have hj' : j ≠ s.idx := hj
    have hjl' : j / g.k = s.idx / g.k := hjl
    rcases hc with hc | hc | hc | hc
    · rw [hc] at hcd'; cases hcd'
    · have : j ≠ s.mac := by rintro rfl; exact hc hjl'
      rw [upd_ne _ _ this]; exact h.agree hpc' c d hcd' j hj' hjl'
    · exact absurd hpc' hc
    · rw [hc, Nat.div_one, Nat.div_one] at hjl'; exact absurd hjl' hj'
  · intro c hcc
    obtain ⟨o1, o2⟩ := h.own c hcc
    show (∀ f, s.pc = .ld f → (c s.idx).ready = true ∨ c s.idx = upd s.mem s.mac _ s.idx) ∧ (Busy s.pc → c s.idx = upd s.mem s.mac _ s.idx)
    by_cases e : s.idx = s.mac
    · refine ⟨fun f' hpc => ?_, fun hb => absurd e (hbm hb)⟩
      rcases o1 f' hpc with o | o
      · exact .inl o
      · left; rw [o, e]; exact he
    · rw [upd_ne _ _ e]; exact ⟨o1, o2⟩

theorem flush_keeps (g : Cfg) (s : St) (l : Nat) : (flush g s l).pc = s.pc ∧ (flush g s l).idx = s.idx ∧ (flush g s l).mac = s.mac ∧
    (flush g s l).cache l = none ∧ (flush g s l).rets = s.rets ∧ (flush g s l).rung = s.rung ∧ (flush g s l).acc = s.acc ∧ (flush g s l).used = s.used ∧ (flush g s l).wire = s.wire := by
  unfold flush
  split
  · rename_i h; exact ⟨rfl, rfl, rfl, h, rfl, rfl, rfl, rfl, rfl⟩
  · exact ⟨rfl, rfl, rfl, upd_eq _ _ _, rfl, rfl, rfl, rfl, rfl⟩
  · exact ⟨rfl, rfl, rfl, upd_eq _ _ _, rfl, rfl, rfl, rfl, rfl⟩

theorem fill_keeps (s : St) (l : Nat) : (fill s l).pc = s.pc ∧ (fill s l).idx = s.idx ∧ (fill s l).rets = s.rets ∧ (fill s l).acc = s.acc ∧ (fill s l).used = s.used ∧ (fill s l).mac = s.mac ∧ (fill s l).wire = s.wire := by
  unfold fill
  split <;> exact ⟨rfl, rfl, rfl, rfl, rfl, rfl, rfl⟩

theorem mac_inv {g : Cfg} {s : St} (h : Inv g s) (hk : g.k = 1 ∨ g.coh = true ∨ Calm g s .mac) : Inv g (macTx g s) := by
  unfold macTx
  by_cases hcoh : g.coh = true
  · simp only [hcoh, if_true]
    have hi := flush_inv h (s.mac / g.k)
    obtain ⟨k1, k2, k3, k6, _⟩ := flush_keeps g s (s.mac / g.k)
    generalize flush g s (s.mac / g.k) = t at hi k1 k2 k3 k6 ⊢
    rw [← k3] at k6 ⊢
    split
    · rename_i hx
      refine write_inv hi ?_ hx.1
      by_cases e : t.mac / g.k = t.idx / g.k
      · left; rw [← e]; exact k6
      · right; left; exact e
    · exact hi
  · simp only [hcoh]
    simp only [Bool.false_eq_true, if_false]
    split
    · rename_i hx
      refine write_inv h ?_ hx.1
      rcases hk with hk | hk | hk
      · exact .inr (.inr (.inr hk))
      · exact absurd hk hcoh
      · rcases hk with hk | hk
        · exact .inr (.inr (.inl hk))
        · exact .inr (.inl hk)
    · exact h

/-- What the call loads. -/
theorem view_own {g : Cfg} {s : St} (h : Inv g s) {f : Bytes} (hp : s.pc = .ld f) :
    (view g s s.idx).ready = true ∨ view g s s.idx = s.mem s.idx := by
  unfold view
  split
  · exact .inr rfl
  · rename_i x hx
    obtain ⟨c, d⟩ := x
    cases d with
    | true =>
      rcases (h.clean _ c hx).2 with ⟨r, k, _⟩ | ⟨r, k, _⟩ <;> rw [hp] at k <;> cases k
    | false => exact (h.own c hx).1 f hp

theorem not_dirty {g : Cfg} {s : St} (h : Inv g s) (h1 : ∀ r, s.pc ≠ .st2 r) (h2 : ∀ r, s.pc ≠ .fl r) : ∀ l c, s.cache l ≠ some (c, true) := by
  intro l c hc
  rcases (h.clean l c hc).2 with ⟨r, k, _⟩ | ⟨r, k, _⟩
  · exact h1 r k
  · exact h2 r k

/-- Moving within a call while nothing is dirty. -/
theorem move_inv {g : Cfg} {s : St} (h : Inv g s) (p : Pc) (rs : List (Bytes × Ret)) (rg : Nat)
    (hl : late p = late s.pc) (hb : Busy p → s.acc.length < s.wire.length + g.n) (hp1 : ∀ f, p ≠ .st1 f) (hp2 : ∀ f, p ≠ .st2 f)
    (hd : ∀ l c, s.cache l ≠ some (c, true)) (ha : Win p → Win s.pc ∨ s.cache (s.idx / g.k) = none)
    (ho : ∀ c, s.cache (s.idx / g.k) = some (c, false) → (∀ f, p = .ld f → (c s.idx).ready = true ∨ c s.idx = s.mem s.idx) ∧ (Busy p → c s.idx = s.mem s.idx))
    (hcalls : s.acc = taken rs ++ inHand { s with pc := p, rets := rs, rung := rg }) :
    Inv g { s with pc := p, rets := rs, rung := rg } where
  npos := h.npos
  idx := h.idx
  mac := h.mac
  cnt := by show s.acc.length = s.used + late p; rw [hl]; exact h.cnt
  le := h.le
  room := h.room
  queued := h.queued
  free := h.free
  busy := hb
  held := fun f hf => by rcases hf with hf | hf; exact absurd hf (hp1 f); exact absurd hf (hp2 f)
  lens := fun f hf => absurd hf (hp2 f)
  clean := fun l c hc => absurd hc (hd l c)
  agree := fun hp c d hc j => by
    rcases ha hp with h1 | h1
    · exact h.agree h1 c d hc j
    · have hc' : s.cache (s.idx / g.k) = _ := hc
      rw [h1] at hc'; cases hc'
  own := ho
  sent := h.sent
  calls := hcalls

theorem taken_bad {l : List (Bytes × Ret)} {f : Bytes} {r : Ret} (h : r.took = false) : taken (l ++ [(f, r)]) = taken l := by
  unfold taken; simp [h]

theorem taken_ok {l : List (Bytes × Ret)} {f : Bytes} {r : Ret} (h : r.took = true) : taken (l ++ [(f, r)]) = taken l ++ [pad f] := by
  unfold taken; simp [h]

theorem inHand_early {s : St} (h : late s.pc = 0) : inHand s = [] := by
  unfold inHand; cases hp : s.pc <;> rw [hp] at h <;> first | rfl | cases h

theorem send_inv {g : Cfg} {s : St} (h : Inv g s) (f : Bytes) (hp : s.pc = .idle) : Inv g { flush g s (s.idx / g.k) with pc := .ld f } := by
  have hi := flush_inv h (s.idx / g.k)
  obtain ⟨k1, k2, k3, k6, _⟩ := flush_keeps g s (s.idx / g.k)
  rw [← k2] at k6
  have e2 : flush g s ((flush g s (s.idx / g.k)).idx / g.k) = flush g s (s.idx / g.k) := by rw [k2]
  rw [e2] at k6
  generalize flush g s (s.idx / g.k) = t at hi k1 k6 ⊢
  have hpc : t.pc = .idle := by rw [k1, hp]
  have := move_inv hi (.ld f) t.rets t.rung (by rw [hpc]; rfl) (fun x => x.elim) (fun f => by nofun) (fun f => by nofun)
    (not_dirty hi (fun r => by rw [hpc]; nofun) (fun r => by rw [hpc]; nofun)) (fun _ => .inr k6) (fun c hc => by rw [k6] at hc; cases hc)
    (by have := hi.calls; rw [inHand_early (by rw [hpc]; rfl)] at this; exact this)
  exact this

theorem copy_inv {g : Cfg} {s : St} (h : Inv g s) {f : Bytes} (hp : s.pc = .copy f) : Inv g { s with buf := upd s.buf s.idx (pad f), pc := .st1 f } := by
  have hb : Busy s.pc := by rw [hp]; trivial
  have h0 : late s.pc = 0 := by rw [hp]; rfl
  have hcnt := h.cnt
  have hbusy := h.busy hb
  exact
  { npos := h.npos, idx := h.idx, mac := h.mac
    cnt := by show s.acc.length = s.used + 0; omega
    le := h.le, room := h.room
    queued := fun j f' hj hf' => by
      have hj' : s.wire.length ≤ j := hj
      have hf2 : s.acc[j]? = some f' := hf'
      have hjl := (List.getElem?_eq_some_iff.1 hf2).1
      refine ⟨?_, (h.queued j f' hj' hf2).2⟩
      show upd s.buf s.idx _ (j % g.n) = f'
      have hne : j % g.n ≠ s.idx := by
        rw [h.idx]; intro e; exact absurd (mod_inj e (by omega) (by omega)) (by omega)
      rw [upd_ne _ _ hne]; exact (h.queued j f' hj' hf2).1
    free := h.free
    busy := fun _ => hbusy
    held := fun f' hf' => by
      show upd s.buf s.idx _ s.idx = _
      rw [upd_eq]
      rcases hf' with hf' | hf' <;> cases hf'
      rfl
    lens := fun f' hf' => by cases hf'
    clean := fun l c hc => absurd hc (not_dirty h (fun r => by rw [hp]; nofun) (fun r => by rw [hp]; nofun) l c)
    agree := fun _ => h.agree (by rw [hp]; trivial)
    own := fun c hc => ⟨fun f' hf' => (by cases hf'), fun _ => (h.own c hc).2 hb⟩
    sent := h.sent
    calls := by have := h.calls; rw [inHand_early h0] at this; exact this }

/-- The line a store starts from. -/
theorem base_line {g : Cfg} {s : St} (h : Inv g s) (hb : Busy s.pc) {c : Nat → BD}
    (hc : c = (match s.cache (s.idx / g.k) with | none => s.mem | some c => c.1)) :
    (∀ j, j ≠ s.idx → j / g.k = s.idx / g.k → c j = s.mem j) ∧ (c s.idx).ready = false ∧ (∀ f, s.pc = .st2 f → c s.idx = ⟨false, (pad f).length⟩) := by
  have hw : Win s.pc := by cases hp : s.pc <;> rw [hp] at hb <;> first | trivial | exact hb.elim
  have hf := busy_free h hb
  subst hc
  split
  · rename_i hx
    refine ⟨fun _ _ _ => rfl, hf, fun f hp => h.lens f hp ?_⟩
    rintro ⟨c, hc⟩; rw [hx] at hc; cases hc
  · rename_i x hx
    obtain ⟨c, d⟩ := x
    refine ⟨h.agree hw c d hx, ?_⟩
    show (c s.idx).ready = false ∧ ∀ f, s.pc = .st2 f → c s.idx = ⟨false, (pad f).length⟩
    cases d with
    | true =>
      rcases (h.clean _ c hx).2 with ⟨r, k1, k2⟩ | ⟨r, k1, _⟩
      · exact ⟨by rw [k2], fun f hp => by rw [k1] at hp; cases hp; exact k2⟩
      · rw [k1] at hb; exact hb.elim
    | false =>
      rw [(h.own c hx).2 hb]
      refine ⟨hf, fun f hp => h.lens f hp ?_⟩
      rintro ⟨c', hc'⟩; rw [hx] at hc'; cases hc'

theorem st1_inv {g : Cfg} {s : St} (h : Inv g s) {f : Bytes} (hp : s.pc = .st1 f) :
    Inv g { store g s s.idx (fun b => { b with len := (pad f).length }) with pc := .st2 f } := by
  have hb : Busy s.pc := by rw [hp]; trivial
  have h0 : late s.pc = 0 := by rw [hp]; rfl
  unfold store
  obtain ⟨c, hc⟩ : ∃ c, c = (match s.cache (s.idx / g.k) with | none => s.mem | some c => c.1) := ⟨_, rfl⟩
  obtain ⟨b1, b2, _⟩ := base_line h hb hc
  rw [← hc]
  clear hc
  dsimp only
  have hd := not_dirty h (fun r => by rw [hp]; nofun) (fun r => by rw [hp]; nofun)
  have hu : ∀ l x, upd s.cache (s.idx / g.k) (some (upd c s.idx { c s.idx with len := (pad f).length }, true)) l = some x → (l = s.idx / g.k ∧ x = (upd c s.idx { c s.idx with len := (pad f).length }, true)) ∨ (l ≠ s.idx / g.k ∧ s.cache l = some x) := by
    intro l x hx
    by_cases e : l = s.idx / g.k
    · rw [e, upd_eq] at hx; cases hx; exact .inl ⟨e, rfl⟩
    · rw [upd_ne _ _ e] at hx; exact .inr ⟨e, hx⟩
  exact
  { npos := h.npos, idx := h.idx, mac := h.mac
    cnt := by show s.acc.length = s.used + 0; rw [← h0]; exact h.cnt
    le := h.le, room := h.room
    queued := fun j f' hj hf' => ⟨(h.queued j f' hj hf').1, fun _ => (h.queued j f' hj hf').2 (fun x => by obtain ⟨⟨c', hc'⟩, _⟩ := x; exact hd _ _ hc')⟩
    free := h.free
    busy := fun _ => h.busy hb
    held := fun f' hf' => by
      have : f' = f := by rcases hf' with e | e <;> cases e; rfl
      subst this; exact h.held _ (.inl hp)
    lens := fun f' _ hx => absurd ⟨_, upd_eq _ _ _⟩ hx
    clean := fun l c' hc' => by
      rcases hu l _ hc' with ⟨e, hx⟩ | ⟨_, hx⟩
      · cases hx
        refine ⟨e, .inl ⟨f, rfl, ?_⟩⟩
        show upd c s.idx _ s.idx = _
        rw [upd_eq, ← b2]
      · exact absurd hx (hd l c')
    agree := fun _ c' d hc' j hj hjl => by
      rcases hu _ _ hc' with ⟨_, hx⟩ | ⟨e, _⟩
      · cases hx
        show upd c s.idx _ j = s.mem j
        rw [upd_ne _ _ hj]; exact b1 j hj hjl
      · exact absurd rfl e
    own := fun c' hc' => by
      rcases hu _ _ hc' with ⟨_, hx⟩ | ⟨e, _⟩
      · cases hx
      · exact absurd rfl e
    sent := h.sent
    calls := by have := h.calls; rw [inHand_early h0] at this; exact this }

theorem st2_inv {g : Cfg} {s : St} (h : Inv g s) {f : Bytes} (hp : s.pc = .st2 f) :
    Inv g { store g s s.idx (fun b => { b with ready := true }) with pc := .fl f, acc := s.acc ++ [pad f] } := by
  have hb : Busy s.pc := by rw [hp]; trivial
  have h0 : late s.pc = 0 := by rw [hp]; rfl
  have hmf := busy_free h hb
  unfold store
  obtain ⟨c, hc⟩ : ∃ c, c = (match s.cache (s.idx / g.k) with | none => s.mem | some c => c.1) := ⟨_, rfl⟩
  obtain ⟨b1, _, b3⟩ := base_line h hb hc
  rw [← hc]
  clear hc
  dsimp only
  have hcnt := h.cnt
  have hbusy := h.busy hb
  have hle := h.le
  have hlen : (s.acc ++ [pad f]).length = s.acc.length + 1 := by simp
  have hu : ∀ l x, upd s.cache (s.idx / g.k) (some (upd c s.idx { c s.idx with ready := true }, true)) l = some x → (l = s.idx / g.k ∧ x = (upd c s.idx { c s.idx with ready := true }, true)) ∨ (l ≠ s.idx / g.k ∧ s.cache l = some x) := by
    intro l x hx
    by_cases e : l = s.idx / g.k
    · rw [e, upd_eq] at hx; cases hx; exact .inl ⟨e, rfl⟩
    · rw [upd_ne _ _ e] at hx; exact .inr ⟨e, hx⟩
  exact
  { npos := h.npos, idx := h.idx, mac := h.mac
    cnt := by show (s.acc ++ [pad f]).length = s.used + 1; omega
    le := by show s.wire.length ≤ (s.acc ++ [pad f]).length; omega
    room := by show (s.acc ++ [pad f]).length ≤ s.wire.length + g.n; omega
    queued := fun j f' hj hf' => by
      have hf2 : (s.acc ++ [pad f])[j]? = some f' := hf'
      have hjl := (List.getElem?_eq_some_iff.1 hf2).1
      rcases Nat.lt_or_ge j s.acc.length with hlt | hge
      · rw [List.getElem?_append_left hlt] at hf2
        exact ⟨(h.queued j f' hj hf2).1, fun _ => (h.queued j f' hj hf2).2 (fun x => by have := x.2; omega)⟩
      · have hju : j = s.used := by omega
        have : f' = pad f := by
          rw [List.getElem?_append_right hge] at hf2
          have : j - s.acc.length = 0 := by omega
          rw [this] at hf2; simpa using hf2.symm
        subst this
        refine ⟨?_, fun hx => absurd ⟨⟨_, upd_eq _ _ _⟩, hju⟩ hx⟩
        rw [hju, ← h.idx]; exact h.held f (.inr hp)
    free := fun j h1 h2 => by
      have h1' : s.acc.length + 1 ≤ j := by rw [← hlen]; exact h1
      exact h.free j (by omega) h2
    busy := fun x => x.elim
    held := fun f' hf' => by rcases hf' with e | e <;> cases e
    lens := fun f' hf' => by cases hf'
    clean := fun l c' hc' => by
      rcases hu l _ hc' with ⟨e, hx⟩ | ⟨e, hx⟩
      · cases hx
        refine ⟨e, .inr ⟨f, rfl, ?_, hmf, ?_⟩⟩
        · show upd c s.idx _ s.idx = _
          rw [upd_eq, b3 f hp]
        · show s.wire.length ≤ s.used; omega
      · exact absurd (h.clean l c' hx).1 e
    agree := fun _ c' d hc' j hj hjl => by
      rcases hu _ _ hc' with ⟨_, hx⟩ | ⟨e, _⟩
      · cases hx
        show upd c s.idx _ j = s.mem j
        rw [upd_ne _ _ hj]; exact b1 j hj hjl
      · exact absurd rfl e
    own := fun c' hc' => by
      rcases hu _ _ hc' with ⟨_, hx⟩ | ⟨e, _⟩
      · cases hx
      · exact absurd rfl e
    sent := h.sent.trans (List.prefix_append _ _)
    calls := by
      have := h.calls; rw [inHand_early h0, List.append_nil] at this
      show s.acc ++ [pad f] = taken s.rets ++ [pad f]
      rw [this] }

/-- The call ends. -/
theorem leave_inv {g : Cfg} {s : St} (h : Inv g s) (f : Bytes) (r : Ret) (hr : r.took = true) (rg : Nat) (hp : s.pc = .fl f ∨ ∃ t, s.pc = .wait f t)
    (hd : ∀ l c, s.cache l ≠ some (c, true)) : Inv g (leave g { s with rung := rg } f r) := by
  have hl : late s.pc = 1 := by rcases hp with hp | ⟨t, hp⟩ <;> rw [hp] <;> rfl
  have hin : inHand s = [pad f] := by unfold inHand; rcases hp with hp | ⟨t, hp⟩ <;> rw [hp]
  have hcnt := h.cnt
  exact
  { npos := h.npos
    idx := by show (s.idx + 1) % g.n = (s.used + 1) % g.n; rw [h.idx, Nat.mod_add_mod]
    mac := h.mac
    cnt := by show s.acc.length = s.used + 1 + 0; omega
    le := h.le, room := h.room
    queued := fun j f' hj hf' => ⟨(h.queued j f' hj hf').1, fun _ => (h.queued j f' hj hf').2 (fun x => by obtain ⟨⟨c', hc'⟩, _⟩ := x; exact hd _ _ hc')⟩
    free := h.free
    busy := fun x => x.elim
    held := fun f' hf' => by rcases hf' with e | e <;> cases e
    lens := fun f' hf' => by cases hf'
    clean := fun l c hc => absurd hc (hd l c)
    agree := fun x => x.elim
    own := fun c _ => ⟨fun f' hf' => (by cases hf'), fun x => x.elim⟩
    sent := h.sent
    calls := by
      have := h.calls; rw [hin] at this
      show s.acc = taken (s.rets ++ [(f, r)]) ++ []
      rw [taken_ok hr, List.append_nil]; exact this }

theorem cpu_inv {g : Cfg} {s : St} (h : Inv g s) : Inv g (cpu g s) := by
  cases hp : s.pc with
  | idle => unfold cpu; rw [hp]; exact h
  | ld f =>
    have hi := fill_inv h (s.idx / g.k)
    obtain ⟨k1, k2, _⟩ := fill_keeps s (s.idx / g.k)
    unfold cpu; rw [hp]
    dsimp only
    rw [← k2]
    have e2 : fill s ((fill s (s.idx / g.k)).idx / g.k) = fill s (s.idx / g.k) := by rw [k2]
    rw [e2]
    rw [hp] at k1
    generalize fill s (s.idx / g.k) = t at hi k1 ⊢
    have h0 : late t.pc = 0 := by rw [k1]; rfl
    have hv := view_own hi k1
    have hd := not_dirty hi (fun r => by rw [k1]; nofun) (fun r => by rw [k1]; nofun)
    have hcalls := hi.calls
    rw [inHand_early h0, List.append_nil] at hcalls
    split
    · have := move_inv hi .idle (t.rets ++ [(f, .full)]) t.rung (by rw [k1]; rfl) (fun x => x.elim) (fun _ => by nofun) (fun _ => by nofun) hd
        (fun x => x.elim) (fun c _ => ⟨fun _ x => (by cases x), fun x => x.elim⟩)
        (by show t.acc = taken (t.rets ++ [(f, .full)]) ++ []; rw [taken_bad rfl, List.append_nil]; exact hcalls)
      exact this
    · rename_i he
      have hv' : view g t t.idx = t.mem t.idx := by
        rcases hv with hv | hv
        · exact absurd hv he
        · exact hv
      have hown : ∀ c, t.cache (t.idx / g.k) = some (c, false) → c t.idx = t.mem t.idx := by
        intro c hc
        have : view g t t.idx = c t.idx := by unfold view; rw [hc]
        rw [← this]; exact hv'
      have hlt : t.acc.length < t.wire.length + g.n := by
        rcases Nat.lt_or_ge t.acc.length (t.wire.length + g.n) with h1 | h1
        · exact h1
        · have hroom := hi.room
          have hcnt := hi.cnt
          have hn := hi.npos
          have hw : t.wire.length < t.acc.length := by omega
          have hq := (hi.queued t.wire.length _ (Nat.le_refl _) (List.getElem?_eq_getElem hw)).2 (fun x => by obtain ⟨⟨c', hc'⟩, _⟩ := x; exact hd _ _ hc')
          have e : t.wire.length % g.n = t.idx := by
            rw [hi.idx]
            have : t.used = t.wire.length + g.n := by omega
            rw [this, Nat.add_mod_right]
          rw [e] at hq
          rw [hv', hq] at he; exact absurd rfl he
      have := move_inv hi (.copy f) t.rets t.rung (by rw [k1]; rfl) (fun _ => hlt) (fun _ => by nofun) (fun _ => by nofun) hd
        (fun _ => .inl (by rw [k1]; trivial)) (fun c hc => ⟨fun _ x => (by cases x), fun _ => hown c hc⟩)
        (by show t.acc = taken t.rets ++ []; rw [List.append_nil]; exact hcalls)
      exact this
  | copy f => unfold cpu; rw [hp]; exact copy_inv h hp
  | st1 f => unfold cpu; rw [hp]; exact st1_inv h hp
  | st2 f => unfold cpu; rw [hp]; exact st2_inv h hp
  | fl f =>
    have hi := flush_inv h (s.idx / g.k)
    obtain ⟨k1, k2, k3, k6, k7, k8, _⟩ := flush_keeps g s (s.idx / g.k)
    unfold cpu; rw [hp]
    dsimp only
    rw [hp] at k1
    have hd : ∀ l c, (flush g s (s.idx / g.k)).cache l ≠ some (c, true) := by
      intro l c hc
      have := (hi.clean l c hc).1
      rw [k2] at this; subst this; rw [k6] at hc; cases hc
    generalize flush g s (s.idx / g.k) = t at hi k1 hd ⊢
    split
    · exact leave_inv hi f _ rfl _ (.inl k1) hd
    · rename_i w _
      have hcalls := hi.calls
      have hin : inHand t = [pad f] := by unfold inHand; rw [k1]
      rw [hin] at hcalls
      exact move_inv hi (.wait f w) t.rets (s.rung + 1) (by rw [k1]; rfl) (fun x => x.elim) (fun _ => by nofun) (fun _ => by nofun) hd
        (fun x => x.elim) (fun c _ => ⟨fun _ x => (by cases x), fun x => x.elim⟩) hcalls
  | wait f w =>
    have hi := fill_inv (flush_inv h (s.idx / g.k)) (s.idx / g.k)
    have k1 : (fill (flush g s (s.idx / g.k)) (s.idx / g.k)).pc = .wait f w := by
      rw [(fill_keeps _ _).1, (flush_keeps _ _ _).1, hp]
    unfold cpu; rw [hp]
    dsimp only
    generalize fill (flush g s (s.idx / g.k)) (s.idx / g.k) = t at hi k1 ⊢
    have hd := not_dirty hi (fun r => by rw [k1]; nofun) (fun r => by rw [k1]; nofun)
    have hcalls := hi.calls
    have hin : inHand t = [pad f] := by unfold inHand; rw [k1]
    rw [hin] at hcalls
    split
    · split
      · exact leave_inv hi f _ rfl t.rung (.inr ⟨w, k1⟩) hd
      · exact move_inv hi (.wait f (w - 1)) t.rets t.rung (by rw [k1]; rfl) (fun x => x.elim) (fun _ => by nofun) (fun _ => by nofun) hd
          (fun x => x.elim) (fun c _ => ⟨fun _ x => (by cases x), fun x => x.elim⟩) hcalls
    · exact leave_inv hi f _ rfl t.rung (.inr ⟨w, k1⟩) hd

theorem step_inv {g : Cfg} {s : St} (h : Inv g s) (op : Op) (hk : g.k = 1 ∨ g.coh = true ∨ Calm g s op) : Inv g (step g s op) := by
  cases op with
  | send f =>
    dsimp only [step]
    split
    · rename_i hp
      split
      · have hc := h.calls
        have hc' : s.acc = taken (s.rets ++ [(f, .bad)]) ++ inHand s := by rw [taken_bad rfl]; exact hc
        exact { h with calls := hc' }
      · exact send_inv h f hp
    · exact h
  | cpu => exact cpu_inv h
  | mac => exact mac_inv h hk
  | evict l => exact flush_inv h l
  | prefetch l => exact fill_inv h l

theorem run_inv {g : Cfg} : ∀ (l : List Op) {s : St}, Inv g s → (g.k = 1 ∨ g.coh = true ∨ AllCalm g s l) → Inv g (run g s l)
  | [], _, h, _ => h
  | op :: l, s, h, hk => by
    refine run_inv l (step_inv h op ?_) ?_
    · rcases hk with hk | hk | hk
      · exact .inl hk
      · exact .inr (.inl hk)
      · exact .inr (.inr hk.1)
    · rcases hk with hk | hk | hk
      · exact .inl hk
      · exact .inr (.inl hk)
      · exact .inr (.inr hk.2)

/-- **C119 (transmit)**: the frames on the wire are those the calls took, padded, once each, in order, if the device's accesses are snooped, or no two descriptors share a line, or no frame is finished in the line a call is
working on. Missing: the last condition cannot be met on hardware without snooping (`sent_twice`, `wedged`). -/
theorem line_tx_exact_partial (g : Cfg) (hn : 0 < g.n) (l : List Op) (hk : g.k = 1 ∨ g.coh = true ∨ AllCalm g start l) : Exact g (run g start l) := by
  have h := run_inv l (inv_start g hn) hk
  exact ⟨by rw [← h.calls]; exact h.sent, by rw [← h.calls]; exact h.room⟩

/-- All of them get there: while a frame waits, the device's next turn sends it. -/
theorem device_sends (g : Cfg) (hn : 0 < g.n) (l : List Op) (hk : g.k = 1 ∨ g.coh = true ∨ AllCalm g start l) (hg : g.gate = false)
    (hi : (run g start l).pc = .idle) (hw : (run g start l).wire.length < (taken (run g start l).rets).length) :
    (step g (run g start l) .mac).wire.length = (run g start l).wire.length + 1 := by
  have h := run_inv l (inv_start g hn) hk
  generalize run g start l = s at h hi hw
  have hd := not_dirty h (fun r => by rw [hi]; nofun) (fun r => by rw [hi]; nofun)
  have hcalls := h.calls
  rw [inHand_early (by rw [hi]; rfl), List.append_nil] at hcalls
  rw [← hcalls] at hw
  have hf := flush_keeps g s (s.mac / g.k)
  have hmem : (flush g s (s.mac / g.k)).mem = s.mem := by
    unfold flush
    split
    · rfl
    · rfl
    · rename_i c hc; exact absurd hc (hd _ _)
  have hq := (h.queued s.wire.length _ (Nat.le_refl _) (List.getElem?_eq_getElem hw)).2 (fun x => by obtain ⟨⟨c', hc'⟩, _⟩ := x; exact hd _ _ hc')
  rw [← h.mac] at hq
  dsimp only [step]
  unfold macTx
  have hs : ∀ t : St, t.mem = s.mem → t.wire = s.wire → ((t.mem s.mac).ready = true ∧ (g.gate = true → t.wire.length < t.rung)) := by
    intro t e1 e2
    refine ⟨by rw [e1, hq], fun e => by rw [hg] at e; cases e⟩
  by_cases hc : g.coh = true
  · simp only [hc, if_true]
    rw [if_pos (hs _ hmem hf.2.2.2.2.2.2.2.2)]
    simp [hf]
  · simp only [hc]
    simp only [Bool.false_eq_true, if_false]
    rw [if_pos (hs _ rfl rfl)]
    simp

/-- The frame a call in progress is for. -/
def ofPc : Pc → Bytes
  | .idle => []
  | .ld f => f
  | .copy f => f
  | .st1 f => f
  | .st2 f => f
  | .fl f => f
  | .wait f _ => f

/-- No transmit buffer is ever overrun: each holds at most `cap` octets (if that is room for the padding), whatever the caller passes and whatever the cache does. -/
theorem no_overrun (g : Cfg) (hc : 60 ≤ g.cap) (l : List Op) : ∀ i, ((run g start l).buf i).length ≤ g.cap := by
  have hfl : ∀ (s : St) (m : Nat), (flush g s m).buf = s.buf ∧ (flush g s m).pc = s.pc := by
    intro s m; unfold flush; split <;> exact ⟨rfl, rfl⟩
  have hfi : ∀ (s : St) (m : Nat), (fill s m).buf = s.buf ∧ (fill s m).pc = s.pc := by
    intro s m; unfold fill; split <;> exact ⟨rfl, rfl⟩
  have key : ∀ (l : List Op) (s : St), (∀ i, (s.buf i).length ≤ g.cap) ∧ (ofPc s.pc).length ≤ g.cap → ∀ i, ((run g s l).buf i).length ≤ g.cap := by
    intro l
    induction l with
    | nil => intro s h; exact h.1
    | cons op l ih =>
      intro s ⟨h1, h2⟩
      refine ih _ ?_
      cases op with
      | send f =>
        dsimp only [step]
        split
        · split
          · exact ⟨h1, h2⟩
          · rename_i hn
            refine ⟨?_, ?_⟩
            · show ∀ i, ((flush g s _).buf i).length ≤ _
              rw [(hfl s _).1]; exact h1
            · show f.length ≤ g.cap; omega
        · exact ⟨h1, h2⟩
      | cpu =>
        dsimp only [step]
        unfold cpu
        cases hp : s.pc with
        | idle => exact ⟨h1, h2⟩
        | ld f =>
          rw [hp] at h2
          have k := hfi s (s.idx / g.k)
          dsimp only
          split
          · exact ⟨by show ∀ i, ((fill s _).buf i).length ≤ _; rw [k.1]; exact h1, Nat.zero_le _⟩
          · exact ⟨by show ∀ i, ((fill s _).buf i).length ≤ _; rw [k.1]; exact h1, h2⟩
        | copy f =>
          rw [hp] at h2
          have h2' : f.length ≤ g.cap := h2
          refine ⟨fun i => ?_, h2⟩
          show (upd s.buf s.idx (pad f) i).length ≤ _
          by_cases e : i = s.idx
          · rw [e, upd_eq]; unfold pad; rw [List.length_append, List.length_replicate]; omega
          · rw [upd_ne _ _ e]; exact h1 i
        | st1 f => rw [hp] at h2; exact ⟨h1, h2⟩
        | st2 f => rw [hp] at h2; exact ⟨h1, h2⟩
        | fl f =>
          rw [hp] at h2
          have k := hfl s (s.idx / g.k)
          dsimp only
          split
          · exact ⟨by show ∀ i, ((flush g s _).buf i).length ≤ _; rw [k.1]; exact h1, Nat.zero_le _⟩
          · exact ⟨by show ∀ i, ((flush g s _).buf i).length ≤ _; rw [k.1]; exact h1, h2⟩
        | wait f t =>
          rw [hp] at h2
          have k : (fill (flush g s (s.idx / g.k)) (s.idx / g.k)).buf = s.buf := by rw [(hfi _ _).1, (hfl _ _).1]
          dsimp only
          split
          · split
            · exact ⟨by show ∀ i, ((fill (flush g s _) _).buf i).length ≤ _; rw [k]; exact h1, Nat.zero_le _⟩
            · exact ⟨by show ∀ i, ((fill (flush g s _) _).buf i).length ≤ _; rw [k]; exact h1, h2⟩
          · exact ⟨by show ∀ i, ((fill (flush g s _) _).buf i).length ≤ _; rw [k]; exact h1, Nat.zero_le _⟩
      | mac =>
        dsimp only [step]
        unfold macTx
        have hs : ∀ t : St, t.buf = s.buf → t.pc = s.pc → ((∀ i, (t.buf i).length ≤ g.cap) ∧ (ofPc t.pc).length ≤ g.cap) := by
          intro t e1 e2; rw [e1, e2]; exact ⟨h1, h2⟩
        dsimp only
        split
        · refine hs _ ?_ ?_ <;> split <;> simp [hfl]
        · refine hs _ ?_ ?_ <;> split <;> simp [hfl]
      | evict m => exact ⟨by show ∀ i, ((flush g s m).buf i).length ≤ _; rw [(hfl s m).1]; exact h1, by show (ofPc (flush g s m).pc).length ≤ _; rw [(hfl s m).2]; exact h2⟩
      | prefetch m => exact ⟨by show ∀ i, ((fill s m).buf i).length ≤ _; rw [(hfi s m).1]; exact h1, by show (ofPc (fill s m).pc).length ≤ _; rw [(hfi s m).2]; exact h2⟩
  exact key l start ⟨fun _ => Nat.zero_le _, Nat.zero_le _⟩

/-! ## Without snooping -/

def qe : Cfg := { n := 8, k := 4, coh := false, gate := false, wait := none, cap := 1536 }
def fman : Cfg := { n := 8, k := 4, coh := false, gate := true, wait := none, cap := 2048 }
def etsec (t : Nat) : Cfg := { n := 8, k := 4, coh := false, gate := false, wait := some t, cap := 1536 }

/-- A frame of sixty octets `t`. -/
def mark (t : Nat) : Bytes := List.replicate 60 t

/-- A call by itself. -/
def sendAlone (f : Bytes) : List Op := [.send f, .cpu, .cpu, .cpu, .cpu, .cpu]

/-- Frame 0 is queued; while the call for frame 1 copies its octets the device sends frame 0; then the device sends frame 1 as well; and six more calls, each frame sent at once. -/
def race : List Op := sendAlone (mark 0) ++ [.send (mark 1), .cpu, .mac, .cpu, .cpu, .cpu, .cpu, .mac] ++
  (List.range' 2 6).flatMap fun t => sendAlone (mark t) ++ [.mac]

/-- Writing back the second descriptor makes the first one ready again: eight frames were taken and sent, and the device's next turn sends frame 0 a second time. -/
theorem sent_twice : taken (run qe start race).rets = (List.range 8).map mark ∧ (run qe start race).wire = (List.range 8).map mark ∧
    (run qe start (race ++ [.mac])).wire = (List.range 8).map mark ++ [mark 0] := by
  refine ⟨?_, ?_, ?_⟩ <;> decide +kernel

structure Stuck (s : St) : Prop where
  idx : s.idx = 0
  mem : (s.mem 0).ready = true
  cnt : s.wire.length = s.rung
  cache : ∀ l b d, s.cache l = some (b, d) → d = false ∧ (b 0).ready = true
  pc : s.pc = .idle ∨ ∃ f, s.pc = .ld f

theorem stuck_flush {s : St} (h : Stuck s) (l : Nat) : Stuck (flush fman s l) := by
  unfold flush
  split
  · exact h
  · refine { h with cache := ?_ }
    intro l' b d hc
    by_cases e : l' = l
    · dsimp only at hc; rw [e, upd_eq] at hc; cases hc
    · dsimp only at hc; rw [upd_ne _ _ e] at hc; exact h.cache l' b d hc
  · rename_i b hl; exact absurd (h.cache _ _ _ hl).1 (by decide)

theorem stuck_fill {s : St} (h : Stuck s) (l : Nat) : Stuck (fill s l) := by
  unfold fill
  split
  · refine { h with cache := ?_ }
    intro l' b d hc
    by_cases e : l' = l
    · dsimp only at hc; rw [e, upd_eq] at hc; cases hc; exact ⟨rfl, h.mem⟩
    · dsimp only at hc; rw [upd_ne _ _ e] at hc; exact h.cache l' b d hc
  · exact h

theorem stuck_step {s : St} (h : Stuck s) (op : Op) : Stuck (step fman s op) ∧ (step fman s op).wire = s.wire ∧ taken (step fman s op).rets = taken s.rets := by
  cases op with
  | send f =>
    dsimp only [step]
    split
    · split
      · exact ⟨{ h with }, rfl, taken_bad rfl⟩
      · have k := flush_keeps fman s (s.idx / fman.k)
        exact ⟨{ stuck_flush h (s.idx / fman.k) with pc := .inr ⟨f, rfl⟩ }, k.2.2.2.2.2.2.2.2, by show taken (flush fman s _).rets = _; rw [k.2.2.2.2.1]⟩
    · exact ⟨h, rfl, rfl⟩
  | cpu =>
    dsimp only [step]
    unfold cpu
    rcases h.pc with hp | ⟨f, hp⟩
    · rw [hp]; exact ⟨h, rfl, rfl⟩
    · rw [hp]
      dsimp only
      have hf := stuck_fill h (s.idx / fman.k)
      have k := fill_keeps s (s.idx / fman.k)
      generalize fill s (s.idx / fman.k) = t at hf k ⊢
      have hv : (view fman t s.idx).ready = true := by
        unfold view
        rw [h.idx]
        split
        · exact hf.mem
        · rename_i x hx; exact (hf.cache _ x.1 x.2 hx).2
      rw [if_pos hv]
      exact ⟨{ hf with pc := .inl rfl }, k.2.2.2.2.2.2, by show taken (t.rets ++ _) = _; rw [taken_bad rfl, k.2.2.1]⟩
  | mac =>
    dsimp only [step]
    unfold macTx
    have hn : ¬ ((s.mem s.mac).ready = true ∧ (fman.gate = true → s.wire.length < s.rung)) := by
      rintro ⟨_, h2⟩
      have := h2 rfl
      have := h.cnt
      omega
    show Stuck (if (s.mem s.mac).ready = true ∧ (fman.gate = true → s.wire.length < s.rung) then _ else s) ∧
      (if (s.mem s.mac).ready = true ∧ (fman.gate = true → s.wire.length < s.rung) then _ else s).wire = _ ∧
      taken (if (s.mem s.mac).ready = true ∧ (fman.gate = true → s.wire.length < s.rung) then _ else s).rets = _
    rw [if_neg hn]
    exact ⟨h, rfl, rfl⟩
  | evict l =>
    have k := flush_keeps fman s l
    exact ⟨stuck_flush h l, k.2.2.2.2.2.2.2.2, by show taken (flush fman s l).rets = _; rw [k.2.2.2.2.1]⟩
  | prefetch l =>
    have k := fill_keeps s l
    exact ⟨stuck_fill h l, k.2.2.2.2.2.2, by show taken (fill s l).rets = _; rw [k.2.2.1]⟩

theorem stuck_run : ∀ (l : List Op) (s : St), Stuck s → (run fman s l).wire = s.wire ∧ taken (run fman s l).rets = taken s.rets
  | [], _, _ => ⟨rfl, rfl⟩
  | op :: l, s, h => by
    obtain ⟨h1, h2, h3⟩ := stuck_step h op
    obtain ⟨k1, k2⟩ := stuck_run l _ h1
    exact ⟨k1.trans h2, k2.trans h3⟩

/-- The race, with every other line dropped at the end (evictions change nothing, but keep the statement short). -/
def raceF : List Op := race ++ [.evict 0, .evict 1]

theorem race_stuck : Stuck (run fman start raceF) where
  idx := by decide +kernel
  mem := by decide +kernel
  cnt := by decide +kernel
  cache := by
    have h0 : ∀ (ops : List Op) (s : St), (∀ l, 2 ≤ l → s.cache l = none) → s.idx < 8 → (∀ op ∈ ops, ∀ l, op ≠ .prefetch l) → ∀ l, 2 ≤ l → (run fman s ops).cache l = none := by
      have hfl : ∀ (s : St) (m : Nat), (∀ l, 2 ≤ l → s.cache l = none) → ∀ l, 2 ≤ l → (flush fman s m).cache l = none := by
        intro s m h l hl
        unfold flush
        split
        · exact h l hl
        all_goals
          show upd s.cache m none l = none
          by_cases e : l = m
          · rw [e, upd_eq]
          · rw [upd_ne _ _ e]; exact h l hl
      have hfi : ∀ (s : St) (m : Nat), m < 2 → (∀ l, 2 ≤ l → s.cache l = none) → ∀ l, 2 ≤ l → (fill s m).cache l = none := by
        intro s m hm h l hl
        unfold fill
        split
        · show upd s.cache m _ l = none
          rw [upd_ne _ _ (by omega)]; exact h l hl
        · exact h l hl
      have hst : ∀ (s : St) (i : Nat) (f : BD → BD), i < 8 → (∀ l, 2 ≤ l → s.cache l = none) → ∀ l, 2 ≤ l → (store fman s i f).cache l = none := by
        intro s i f hi h l hl
        show upd s.cache (i / 4) _ l = none
        rw [upd_ne _ _ (by omega)]; exact h l hl
      intro ops
      induction ops with
      | nil => intro s h _ _; exact h
      | cons op ops ih =>
        intro s h hi hops
        have hi4 : s.idx / fman.k < 2 := by show s.idx / 4 < 2; omega
        have : (∀ l, 2 ≤ l → (step fman s op).cache l = none) ∧ (step fman s op).idx < 8 := by
          cases op with
          | send f =>
            dsimp only [step]
            split
            · split
              · exact ⟨h, hi⟩
              · exact ⟨hfl s _ h, by show (flush fman s _).idx < 8; rw [(flush_keeps _ _ _).2.1]; exact hi⟩
            · exact ⟨h, hi⟩
          | cpu =>
            dsimp only [step]
            unfold cpu
            split
            · exact ⟨h, hi⟩
            · have k := (fill_keeps s (s.idx / fman.k)).2.1
              dsimp only
              split
              · exact ⟨hfi s _ hi4 h, by show (fill s _).idx < 8; rw [k]; exact hi⟩
              · exact ⟨hfi s _ hi4 h, by show (fill s _).idx < 8; rw [k]; exact hi⟩
            · exact ⟨h, hi⟩
            · refine ⟨fun l hl => ?_, hi⟩
              dsimp only
              exact hst s _ _ hi h l hl
            · refine ⟨fun l hl => ?_, hi⟩
              dsimp only
              exact hst s _ _ hi h l hl
            · exact ⟨hfl s _ h, Nat.mod_lt _ (by decide)⟩
            · have k := (fill_keeps (flush fman s (s.idx / fman.k)) (s.idx / fman.k)).2.1
              have k' := (flush_keeps fman s (s.idx / fman.k)).2.1
              have hx := hfi _ _ hi4 (hfl s (s.idx / fman.k) h)
              dsimp only
              split
              · split
                · exact ⟨hx, Nat.mod_lt _ (by decide)⟩
                · exact ⟨hx, by show (fill (flush fman s _) _).idx < 8; rw [k, k']; exact hi⟩
              · exact ⟨hx, Nat.mod_lt _ (by decide)⟩
          | mac =>
            dsimp only [step]
            unfold macTx
            show (∀ l, 2 ≤ l → (if (s.mem s.mac).ready = true ∧ (fman.gate = true → s.wire.length < s.rung) then _ else s).cache l = none) ∧
              (if (s.mem s.mac).ready = true ∧ (fman.gate = true → s.wire.length < s.rung) then _ else s).idx < 8
            split
            · exact ⟨h, hi⟩
            · exact ⟨h, hi⟩
          | evict m => exact ⟨hfl s m h, by show (flush fman s m).idx < 8; rw [(flush_keeps _ _ _).2.1]; exact hi⟩
          | prefetch m => exact absurd rfl (hops _ List.mem_cons_self m)
        exact ih _ this.1 this.2 (fun o ho => hops o (List.mem_cons_of_mem _ ho))
    intro l b d h
    exfalso
    have hnone : (run fman start raceF).cache l = none := by
      rcases Nat.lt_or_ge l 2 with hlt | hge
      · have hc : ((run fman start raceF).cache 0).isNone = true ∧ ((run fman start raceF).cache 1).isNone = true := by
          constructor <;> decide +kernel
        have hl : l = 0 ∨ l = 1 := by omega
        rcases hl with rfl | rfl
        · exact Option.isNone_iff_eq_none.1 hc.1
        · exact Option.isNone_iff_eq_none.1 hc.2
      · refine h0 raceF start (fun _ _ => rfl) (by decide) ?_ l hge
        intro op hop m e
        subst e
        have : (raceF.any fun o => match o with | .prefetch _ => true | _ => false) = true := List.any_eq_true.2 ⟨_, hop, rfl⟩
        exact absurd this (by decide +kernel)
    rw [hnone] at h; cases h
  pc := .inl (by decide +kernel)

/-- On FMan, whose device waits for the doorbell, the descriptor that was made ready again is never sent and never cleared: all frames taken have been sent, and from then on every call finds the ring "full"
and nothing is ever sent again. -/
theorem wedged : (run fman start raceF).wire = (List.range 8).map mark ∧
    ∀ l, (run fman (run fman start raceF) l).wire = (List.range 8).map mark ∧ taken (run fman (run fman start raceF) l).rets = (List.range 8).map mark := by
  have h1 : (run fman start raceF).wire = (List.range 8).map mark := by decide +kernel
  refine ⟨h1, fun l => ?_⟩
  obtain ⟨k1, k2⟩ := stuck_run l _ race_stuck
  refine ⟨k1.trans h1, k2.trans (by decide +kernel)⟩

/-- Frame `f` waits in slot 0, and nothing else has happened. -/
structure Waits (f : Bytes) (s : St) : Prop where
  idx : s.idx = 0
  mac : s.mac = 0
  rets : s.rets = []
  wire : s.wire = []
  mem : s.mem 0 = ⟨true, (pad f).length⟩
  buf : s.buf 0 = pad f
  cache : ∀ l b d, s.cache l = some (b, d) → d = false ∧ b 0 = ⟨true, (pad f).length⟩

theorem waits_flush {f : Bytes} {g : Cfg} {s : St} (h : Waits f s) (l : Nat) : Waits f (flush g s l) := by
  unfold flush
  split
  · exact h
  · refine { h with cache := ?_ }
    intro l' b d hc
    by_cases e : l' = l
    · dsimp only at hc; rw [e, upd_eq] at hc; cases hc
    · dsimp only at hc; rw [upd_ne _ _ e] at hc; exact h.cache l' b d hc
  · rename_i b hl; exact absurd (h.cache _ _ _ hl).1 (by decide)

theorem waits_fill {f : Bytes} {s : St} (h : Waits f s) (l : Nat) : Waits f (fill s l) := by
  unfold fill
  split
  · refine { h with cache := ?_ }
    intro l' b d hc
    by_cases e : l' = l
    · dsimp only at hc; rw [e, upd_eq] at hc; cases hc; exact ⟨rfl, h.mem⟩
    · dsimp only at hc; rw [upd_ne _ _ e] at hc; exact h.cache l' b d hc
  · exact h

theorem waits_late {t : Nat} {f : Bytes} : ∀ (w : Nat) (s : St), s.pc = .wait f (w + 1) → Waits f s →
    (run (etsec t) s (List.replicate (w + 1) .cpu)).rets = [(f, .late)] ∧ (step (etsec t) (run (etsec t) s (List.replicate (w + 1) .cpu)) .mac).wire = [pad f]
  | w, s, hp, h => by
    have h1 := waits_fill (waits_flush (g := etsec t) h (s.idx / (etsec t).k)) (s.idx / (etsec t).k)
    have hc : cpu (etsec t) s = if w + 1 - 1 = 0 then leave (etsec t) (fill (flush (etsec t) s (s.idx / (etsec t).k)) (s.idx / (etsec t).k)) f .late
        else { fill (flush (etsec t) s (s.idx / (etsec t).k)) (s.idx / (etsec t).k) with pc := .wait f (w + 1 - 1) } := by
      unfold cpu; rw [hp]
      dsimp only
      rw [if_pos]
      generalize fill (flush (etsec t) s (s.idx / (etsec t).k)) (s.idx / (etsec t).k) = r at h1
      unfold view
      split
      · rw [h.idx, h1.mem]
      · rename_i x hx; rw [h.idx, (h1.cache _ x.1 x.2 hx).2]
    generalize fill (flush (etsec t) s (s.idx / (etsec t).k)) (s.idx / (etsec t).k) = r at h1 hc
    show (run (etsec t) (cpu (etsec t) s) (List.replicate w .cpu)).rets = _ ∧ (step (etsec t) (run (etsec t) (cpu (etsec t) s) (List.replicate w .cpu)) .mac).wire = _
    rw [hc]
    cases w with
    | zero =>
      rw [if_pos rfl]
      show (leave (etsec t) r f .late).rets = _ ∧ (macTx (etsec t) (leave (etsec t) r f .late)).wire = _
      refine ⟨by show r.rets ++ _ = _; rw [h1.rets]; rfl, ?_⟩
      unfold macTx
      show (if (r.mem r.mac).ready = true ∧ (false = true → r.wire.length < r.rung) then ({ leave (etsec t) r f .late with wire := r.wire ++ [(r.buf r.mac).take (r.mem r.mac).len], mem := _, mac := _ } : St) else leave (etsec t) r f .late).wire = [pad f]
      rw [if_pos ⟨by rw [h1.mac, h1.mem], fun e => by cases e⟩]
      show r.wire ++ [(r.buf r.mac).take (r.mem r.mac).len] = _
      rw [h1.wire, h1.mac, h1.buf, h1.mem, List.take_length]; rfl
    | succ w =>
      rw [if_neg (by omega)]
      exact waits_late w { r with pc := .wait f (w + 1 + 1 - 1) } rfl { h1 with }

/-- eTSEC: a call may report −1 for a frame that is sent all the same, however many tries it makes (`ETSEC_POLL_TRIES`), if the device is slow. -/
theorem late_frame_sent (t : Nat) (ht : 0 < t) (f : Bytes) (h1 : f.length ≠ 0) (h2 : f.length ≤ 1536) :
    (run (etsec t) start (sendAlone f ++ List.replicate t .cpu)).rets = [(f, .late)] ∧
    (run (etsec t) start (sendAlone f ++ List.replicate t .cpu ++ [.mac])).wire = [pad f] := by
  have run_app : ∀ (a b : List Op) (s : St), run (etsec t) s (a ++ b) = run (etsec t) (run (etsec t) s a) b := by
    intro a
    induction a with
    | nil => intro b s; rfl
    | cons o a ih => intro b s; exact ih b _
  have hne : ¬ (f.length = 0 ∨ f.length > (etsec t).cap) := by
    show ¬ (f.length = 0 ∨ f.length > 1536)
    omega
  have hs : step (etsec t) start (.send f) = { start with pc := .ld f } := by
    dsimp only [step]
    have hp0 : start.pc = .idle := rfl
    rw [if_pos hp0, if_neg hne]; rfl
  have e : run (etsec t) start (sendAlone f) = run (etsec t) { start with pc := .ld f } [.cpu, .cpu, .cpu, .cpu, .cpu] := by
    show run (etsec t) (step (etsec t) start (.send f)) [.cpu, .cpu, .cpu, .cpu, .cpu] = _
    rw [hs]
  have hp : (run (etsec t) start (sendAlone f)).pc = .wait f t := by
    rw [e]; simp [run, step, cpu, fill, view, store, flush, upd, start, etsec]
  have hW : Waits f (run (etsec t) start (sendAlone f)) := by
    rw [e]
    refine { idx := ?_, mac := ?_, rets := ?_, wire := ?_, mem := ?_, buf := ?_, cache := ?_ }
    · simp [run, step, cpu, fill, view, store, flush, upd, start, etsec]
    · simp [run, step, cpu, fill, view, store, flush, upd, start, etsec]
    · simp [run, step, cpu, fill, view, store, flush, upd, start, etsec]
    · simp [run, step, cpu, fill, view, store, flush, upd, start, etsec]
    · simp [run, step, cpu, fill, view, store, flush, upd, start, etsec]
    · simp [run, step, cpu, fill, view, store, flush, upd, start, etsec]
    · intro l b d hc
      simp [run, step, cpu, fill, view, store, flush, upd, start, etsec] at hc
      obtain ⟨h0, hc⟩ := hc
      rw [if_neg h0, if_neg h0, if_neg h0] at hc; cases hc
  obtain ⟨w, rfl⟩ : ∃ w, t = w + 1 := ⟨t - 1, by omega⟩
  obtain ⟨k1, k2⟩ := waits_late (t := w + 1) w _ hp hW
  refine ⟨by rw [run_app]; exact k1, ?_⟩
  rw [run_app, run_app]; exact k2

/-- A history `line_tx_exact_partial` applies to without snooping: frames finished between calls, or in another line. -/
example : AllCalm qe start (sendAlone (mark 1) ++ [.mac] ++ sendAlone (mark 2) ++ [.evict 0, .mac]) := by
  simp only [sendAlone, List.cons_append, List.nil_append, AllCalm, Calm, and_true, true_and]
  refine ⟨.inl ?_, .inl ?_⟩
  · have : (run qe start (sendAlone (mark 1))).pc = .idle := by decide +kernel
    intro h
    have h' : Win (run qe start (sendAlone (mark 1))).pc := h
    rw [this] at h'; exact h'
  · have : (run qe start (sendAlone (mark 1) ++ [.mac] ++ sendAlone (mark 2) ++ [.evict 0])).pc = .idle := by decide +kernel
    intro h
    have h' : Win (run qe start (sendAlone (mark 1) ++ [.mac] ++ sendAlone (mark 2) ++ [.evict 0])).pc := h
    rw [this] at h'; exact h'

example : (run qe start (sendAlone (mark 1) ++ [.mac] ++ sendAlone [5, 6] ++ [.evict 0, .mac])).wire = [mark 1, [5, 6] ++ List.replicate 58 0] := by decide +kernel

end Wolf.Drv.LineTx
