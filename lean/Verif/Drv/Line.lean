/-!
# C119: receive rings whose descriptors share a cache line (eTSEC, QE UEC)

Model of `eth_poll` of `src/port/nxp_etsec/nxp_etsec.c` 319–367 and of `src/port/nxp_qe_uec/nxp_qe_uec.c` 452–485, with the processor's data cache.
The descriptors are 8 octets long and the lines 32 (nxp_etsec.c 53, nxp_qe_uec.c 69), so `k = 4` of them share a line; `k = 1` would be a ring whose descriptors are padded to a line.
`dcache_inval` and `dcache_flush` are the same operation, `dcbf` (nxp_etsec.c 55–62, 71): write the line back if it is dirty, then drop it.

One step is one access to the cache or to memory. Between any two steps the MAC may complete a frame, the cache may write back and drop any line, and it may fetch any line on its own.
`coh`: the device's accesses are snooped by the cache. The drivers ask the device for it (ATTR and DMACTRL, nxp_etsec.h 94, 113; `BMR_GLB`, nxp_qe_uec.c 70), but it also takes a coherent mapping, and the comment
in nxp_etsec.c 53 says that memory is "cacheable-non-coherent", which is what the cache operations are there for. Both cases are covered.

The MAC's contract: it takes the next descriptor if memory says it is empty, writes buffer, length and status, and goes on to the next one. It takes no frame that does not fit the buffer (MAXFRM 1518 ≤ MRBLR 1536; MFLR).
Simplified: the buffers are whole lines the processor never writes, so `dcache_inval` of the buffer is a plain read of memory; the restart registers (IEVENT, RSTAT) do nothing, the MAC looks at its descriptor again whenever it likes.
-/
namespace Wolf.Drv.Line

abbrev Bytes := List Nat

/-- `struct etsec_bd`, `struct qe_bd` without the buffer pointer, which never changes; WRAP is a function of the index. -/
structure BD where
  empty : Bool
  err : Bool
  len : Nat
deriving DecidableEq, Repr

structure Frame where
  err : Bool
  data : Bytes
  fcs : Bytes
deriving DecidableEq, Repr

structure Cfg where
  /-- ring size, descriptors per line -/
  n : Nat
  k : Nat
  coh : Bool
  /-- `ETSEC_MAX_BUF_LEN`, `QE_MRBLR` -/
  cap : Nat
  /-- octets of the check sequence the driver strips: 4 for eTSEC (341–345), 0 for QE -/
  strip : Nat

inductive Pc where
  | idle
  /-- `status = bd->status` -/
  | ld
  /-- `flen = bd->length` -/
  | ldlen
  /-- `memcpy` of `flen` octets -/
  | copy (flen : Nat)
  /-- `bd->length = 0`; the octets copied, none for an error frame -/
  | st1 (r : Option Bytes)
  /-- `bd->status = wrap | EMPTY` -/
  | st2 (r : Option Bytes)
  /-- `dcache_flush(bd)`, `rx_idx` -/
  | fl (r : Option Bytes)
deriving DecidableEq, Repr

structure St where
  /-- descriptors and buffers in memory -/
  mem : Nat → BD
  buf : Nat → Bytes
  /-- lines present in the cache: contents by descriptor, dirty -/
  cache : Nat → Option ((Nat → BD) × Bool)
  /-- `rx_idx` -/
  idx : Nat
  pc : Pc
  /-- the caller's `len` -/
  ulen : Nat
  /-- the MAC's descriptor -/
  mac : Nat
  /-- ghost: frames the MAC received; descriptors recycled; `len` and octets of the calls that gave a frame to the stack -/
  wire : List Frame
  eaten : Nat
  asked : List Nat
  out : List Bytes

/-- After `setup_bd_rings` (nxp_etsec.c 250–276). -/
def start : St :=
  { mem := fun _ => ⟨true, false, 0⟩, buf := fun _ => [], cache := fun _ => none, idx := 0, pc := .idle, ulen := 0, mac := 0, wire := [], eaten := 0, asked := [], out := [] }

def upd {α : Type} (f : Nat → α) (i : Nat) (v : α) : Nat → α := fun x => if x = i then v else f x

/-- A line goes from memory to the cache, unless it is there. -/
def fill (s : St) (l : Nat) : St :=
  match s.cache l with
  | none => { s with cache := upd s.cache l (some (s.mem, false)) }
  | some _ => s

/-- What a load from descriptor `i` gives. -/
def view (g : Cfg) (s : St) (i : Nat) : BD :=
  match s.cache (i / g.k) with
  | none => s.mem i
  | some c => c.1 i

/-- `dcbf`, or an eviction: write back if dirty, drop. -/
def flush (g : Cfg) (s : St) (l : Nat) : St :=
  match s.cache l with
  | none => s
  | some (_, false) => { s with cache := upd s.cache l none }
  | some (c, true) => { s with cache := upd s.cache l none, mem := fun j => if j / g.k = l then c j else s.mem j }

/-- A store to descriptor `i`; the line is fetched first if it is not there. -/
def store (g : Cfg) (s : St) (i : Nat) (f : BD → BD) : St :=
  let c := match s.cache (i / g.k) with
    | none => s.mem
    | some c => c.1
  { s with cache := upd s.cache (i / g.k) (some (upd c i (f (c i)), true)) }

/-- nxp_etsec.c 340–349, nxp_qe_uec.c 465–469: the length handed to the stack. -/
def flenOf (g : Cfg) (blen ulen : Nat) : Nat :=
  let a := if g.strip ≤ blen then blen - g.strip else 0
  let b := if a > g.cap then g.cap else a
  if b > ulen then ulen else b

/-- `eth_poll`, one access at a time. -/
def cpu (g : Cfg) (s : St) : St :=
  match s.pc with
  | .idle => s
  | .ld =>
    let s1 := fill s (s.idx / g.k)
    let b := view g s1 s.idx
    if b.empty then { s1 with pc := .idle } else if b.err then { s1 with pc := .st1 none } else { s1 with pc := .ldlen }
  | .ldlen =>
    let s1 := fill s (s.idx / g.k)
    { s1 with pc := .copy (flenOf g (view g s1 s.idx).len s.ulen) }
  | .copy m => { s with pc := .st1 (some ((s.buf s.idx).take m)) }
  | .st1 r => { store g s s.idx (fun b => { b with len := 0 }) with pc := .st2 r }
  | .st2 r => { store g s s.idx (fun b => { b with empty := true, err := false }) with pc := .fl r }
  | .fl none =>
    { flush g s (s.idx / g.k) with pc := .idle, idx := (s.idx + 1) % g.n, eaten := s.eaten + 1 }
  | .fl (some d) =>
    { flush g s (s.idx / g.k) with pc := .idle, idx := (s.idx + 1) % g.n, eaten := s.eaten + 1, asked := s.asked ++ [s.ulen], out := s.out ++ [d] }

/-- The MAC has received `f`. A snooped device access first has the line written back and dropped. -/
def macRx (g : Cfg) (s : St) (f : Frame) : St :=
  let s1 := if g.coh then flush g s (s.mac / g.k) else s
  if (s1.mem s.mac).empty = true ∧ f.data.length + f.fcs.length ≤ g.cap then
    { s1 with
      mem := upd s1.mem s.mac ⟨false, f.err, f.data.length + f.fcs.length⟩
      buf := upd s1.buf s.mac (f.data ++ f.fcs)
      mac := (s.mac + 1) % g.n
      wire := s1.wire ++ [f] }
  else s1

inductive Op where
  | call (u : Nat)
  | cpu
  | mac (f : Frame)
  | evict (l : Nat)
  | prefetch (l : Nat)

def step (g : Cfg) (s : St) : Op → St
  | .call u => if s.pc = .idle then { flush g s (s.idx / g.k) with pc := .ld, ulen := u } else s
  | .cpu => cpu g s
  | .mac f => macRx g s f
  | .evict l => flush g s l
  | .prefetch l => fill s l

def run (g : Cfg) (s : St) : List Op → St
  | [] => s
  | op :: l => run g (step g s op) l

/-! ## Specification -/

/-- Frames carry the check sequence the driver strips. -/
def Fits (g : Cfg) : Op → Prop
  | .mac f => f.fcs.length = g.strip
  | _ => True

/-- No frame is completed in the line the call is working on, from its `dcache_inval` to its `dcache_flush`. -/
def Calm (g : Cfg) (s : St) : Op → Prop
  | .mac _ => s.pc = .idle ∨ s.mac / g.k ≠ s.idx / g.k
  | _ => True

def AllCalm (g : Cfg) : St → List Op → Prop
  | _, [] => True
  | s, op :: l => Calm g s op ∧ AllCalm g (step g s op) l

/-- The good frames of a list. -/
def good (l : List Frame) : List Frame := l.filter fun f => !f.err

/-- The calls gave the stack the good frames among the first `eaten` received, once each, in order, cut to the callers' buffers. -/
def Exact (s : St) : Prop :=
  s.eaten ≤ s.wire.length ∧ s.asked.length = (good (s.wire.take s.eaten)).length ∧
  s.out = List.zipWith (fun f u => f.data.take u) (good (s.wire.take s.eaten)) s.asked

/-! ## Invariant -/

/-- The descriptor the MAC writes for `f`. -/
def full (f : Frame) : BD := ⟨false, f.err, f.data.length + f.fcs.length⟩

/-- The recycled descriptor is in the cache only. -/
def Pending (g : Cfg) (s : St) : Prop := ∃ c, s.cache (s.idx / g.k) = some (c, true)

/-- Slots the program has given back, counting the one it is about to give. -/
def given (s : St) : Nat :=
  match s.pc with
  | .fl _ => s.eaten + 1
  | _ => s.eaten

/-- The call has seen a frame and not yet written the status. -/
def Busy : Pc → Prop
  | .ldlen => True
  | .copy _ => True
  | .st1 _ => True
  | .st2 _ => True
  | _ => False

/-- What the call holds for the frame it has seen. -/
def Held (s : St) (f : Frame) : Prop :=
  match s.pc with
  | .ldlen => f.err = false
  | .copy m => f.err = false ∧ m = min f.data.length s.ulen
  | .st1 none => f.err = true
  | .st2 none => f.err = true
  | .fl none => f.err = true
  | .st1 (some d) => f.err = false ∧ d = f.data.take s.ulen
  | .st2 (some d) => f.err = false ∧ d = f.data.take s.ulen
  | .fl (some d) => f.err = false ∧ d = f.data.take s.ulen
  | _ => True

structure Inv (g : Cfg) (s : St) : Prop where
  npos : 0 < g.n
  idx : s.idx = s.eaten % g.n
  mac : s.mac = s.wire.length % g.n
  le : given s ≤ s.wire.length
  room : s.wire.length ≤ given s + g.n
  /-- frames waiting; the one being recycled may have lost its length -/
  filled : ∀ j f, given s ≤ j → s.wire[j]? = some f → (s.mem (j % g.n)).empty = false ∧
    s.buf (j % g.n) = f.data ++ f.fcs ∧ (¬ (j = s.eaten ∧ ∃ r, s.pc = .st2 r) → s.mem (j % g.n) = full f)
  free : ∀ j, s.wire.length ≤ j → j < given s + g.n → ¬ (Pending g s ∧ j = s.eaten + g.n) → (s.mem (j % g.n)).empty = true
  /-- a call past its first load has a frame -/
  busy : Busy s.pc → s.eaten < s.wire.length
  held : ∀ f, s.wire[s.eaten]? = some f → Held s f
  fits : ∀ f ∈ s.wire, f.data.length + f.fcs.length ≤ g.cap ∧ f.fcs.length = g.strip
  /-- only the current line is ever dirty, and only after a store -/
  clean : ∀ l c, s.cache l = some (c, true) → l = s.idx / g.k ∧ ((∃ r, s.pc = .st2 r ∧ (c s.idx).empty = false) ∨
    (∃ r, s.pc = .fl r ∧ (c s.idx).empty = true ∧ (s.mem s.idx).empty = false ∧ s.wire.length ≤ s.eaten + g.n))
  /-- in a call the line agrees with memory about the others -/
  agree : s.pc ≠ .idle → ∀ c d, s.cache (s.idx / g.k) = some (c, d) → ∀ j, j ≠ s.idx → j / g.k = s.idx / g.k → c j = s.mem j
  /-- and about its own descriptor, as far as the call depends on it -/
  own : ∀ c, s.cache (s.idx / g.k) = some (c, false) → (s.pc = .ld → (c s.idx).empty = true ∨ c s.idx = s.mem s.idx) ∧ (Busy s.pc → c s.idx = s.mem s.idx)
  exact : Exact s

theorem upd_eq {α : Type} (f : Nat → α) (i : Nat) (v : α) : upd f i v i = v := by simp [upd]
theorem upd_ne {α : Type} (f : Nat → α) {i j : Nat} (v : α) (h : j ≠ i) : upd f i v j = f j := by simp [upd, h]

theorem mod_inj {n a b : Nat} (h : a % n = b % n) (h1 : a ≤ b) (h2 : b < a + n) : a = b := by
  have hn : 0 < n := by omega
  have h3 : (b - a) % n = 0 := Nat.sub_mod_eq_zero_of_mod_eq h.symm
  rw [Nat.mod_eq_of_lt (by omega)] at h3
  omega

theorem inv_start (g : Cfg) (hn : 0 < g.n) : Inv g start where
  npos := hn
  idx := by simp [start]
  mac := by simp [start]
  le := by simp [start, given]
  room := by simp [start]
  filled := by intro j f _ h; simp [start] at h
  free := by intros; rfl
  busy := by intro h; exact h.elim
  held := by intro f h; simp [start] at h
  fits := by intro f h; simp [start] at h
  clean := by intro l c h; simp [start] at h
  agree := by intro h; exact absurd rfl h
  own := by intro c h; simp [start] at h
  exact := by simp [Exact, start, good]

theorem fill_inv {g : Cfg} {s : St} (h : Inv g s) (l : Nat) : Inv g (fill s l) := by
  unfold fill
  split
  · rename_i hl
    have hd : ∀ l' c, upd s.cache l (some (s.mem, false)) l' = some (c, true) → s.cache l' = some (c, true) := by
      intro l' c hc
      by_cases e : l' = l
      · subst e; rw [upd_eq] at hc; simp at hc
      · rwa [upd_ne _ _ e] at hc
    have hp : Pending g { s with cache := upd s.cache l (some (s.mem, false)) } ↔ Pending g s := by
      constructor
      · rintro ⟨c, hc⟩; exact ⟨c, hd _ _ hc⟩
      · rintro ⟨c, hc⟩
        have e : s.idx / g.k ≠ l := by rintro rfl; rw [hl] at hc; cases hc
        exact ⟨c, by show upd s.cache l _ _ = _; rw [upd_ne _ _ e]; exact hc⟩
    exact
    { h with
      free := fun j h1 h2 h3 => h.free j h1 h2 (by rw [← hp]; exact h3)
      clean := fun l' c hc => h.clean l' c (hd l' c hc)
      agree := by
        intro hpc c d hc j hj hjl
        dsimp only at hc hj hjl hpc ⊢
        by_cases e : s.idx / g.k = l
        · rw [e, upd_eq] at hc; cases hc; rfl
        · rw [upd_ne _ _ e] at hc; exact h.agree hpc c d hc j hj hjl
      own := by
        intro c hc
        dsimp only at hc ⊢
        by_cases e : s.idx / g.k = l
        · rw [e, upd_eq] at hc; cases hc; exact ⟨fun _ => .inr rfl, fun _ => rfl⟩
        · rw [upd_ne _ _ e] at hc; exact h.own c hc }
  · exact h

theorem flush_inv {g : Cfg} {s : St} (h : Inv g s) (l : Nat) : Inv g (flush g s l) := by
  unfold flush
  split
  · exact h
  · rename_i c0 hl
    have hd : ∀ l' x, upd s.cache l none l' = some x → s.cache l' = some x := by
      intro l' x hc
      by_cases e : l' = l
      · subst e; rw [upd_eq] at hc; cases hc
      · rwa [upd_ne _ _ e] at hc
    have hp : Pending g { s with cache := upd s.cache l none } ↔ Pending g s := by
      constructor
      · rintro ⟨c, hc⟩; exact ⟨c, hd _ _ hc⟩
      · rintro ⟨c, hc⟩
        have e : s.idx / g.k ≠ l := by rintro rfl; rw [hl] at hc; cases hc
        exact ⟨c, by show upd s.cache l _ _ = _; rw [upd_ne _ _ e]; exact hc⟩
    exact
    { h with
      free := fun j h1 h2 h3 => h.free j h1 h2 (by rw [← hp]; exact h3)
      clean := fun l' c hc => h.clean l' c (hd l' _ hc)
      agree := fun hpc c d hc => h.agree hpc c d (hd _ _ hc)
      own := fun c hc => h.own c (hd _ _ hc) }
  · rename_i c hl
    obtain ⟨rfl, hpc⟩ := h.clean l c hl
    have hne : s.pc ≠ .idle := by
      rcases hpc with ⟨r, h1, _⟩ | ⟨r, h1, _⟩ <;> rw [h1] <;> nofun
    have hag := h.agree hne c true hl
    have hd : ∀ l' x, upd s.cache (s.idx / g.k) none l' = some x → l' ≠ s.idx / g.k ∧ s.cache l' = some x := by
      intro l' x hc
      by_cases e : l' = s.idx / g.k
      · subst e; rw [upd_eq] at hc; cases hc
      · rw [upd_ne _ _ e] at hc; exact ⟨e, hc⟩
    have hm : ∀ j, j ≠ s.idx → (if j / g.k = s.idx / g.k then c j else s.mem j) = s.mem j := by
      intro j hj; split
      · rename_i hl; exact hag j hj hl
      · rfl
    have hnp : ¬ Pending g { s with cache := upd s.cache (s.idx / g.k) none, mem := fun j => if j / g.k = s.idx / g.k then c j else s.mem j } := by
      rintro ⟨c', hc'⟩; exact (hd _ _ hc').1 rfl
    have hmac : s.eaten < s.wire.length := by
      rcases hpc with ⟨r, h1, _⟩ | ⟨r, h1, _⟩
      · exact h.busy (by rw [h1]; trivial)
      · have := h.le; rw [given, h1] at this; exact this
    obtain ⟨f0, hf0⟩ : ∃ f, s.wire[s.eaten]? = some f := ⟨_, List.getElem?_eq_getElem hmac⟩
    refine { h with filled := ?_, free := ?_, clean := ?_, agree := ?_, own := ?_ }
    · intro j f hj hf
      dsimp only at hj hf ⊢
      have hj' : given s ≤ j := hj
      by_cases e : j % g.n = s.idx
      · have hjl := (List.getElem?_eq_some_iff.1 hf).1
        rcases hpc with ⟨r, h1, h2⟩ | ⟨r, h1, h2, h3, h4⟩
        · have hg : given s = s.eaten := by rw [given, h1]
          have := h.room
          have hje : s.eaten = j := by
            rcases Nat.lt_or_ge j (s.eaten + g.n) with hlt | hge
            · exact mod_inj (by rw [e, h.idx]) (by omega) hlt
            · omega
          rw [e, if_pos rfl]
          refine ⟨h2, ?_, fun hx => absurd ⟨hje.symm, r, h1⟩ hx⟩
          have := (h.filled j f hj' hf).2.1
          rwa [e] at this
        · have hg : given s = s.eaten + 1 := by rw [given, h1]
          exact absurd (mod_inj (by rw [← h.idx, e]) (by omega : s.eaten ≤ j) (by omega)) (by omega)
      · rw [hm _ e]; exact h.filled j f hj' hf
    · intro j h1 h2 _
      dsimp only at h1 h2 ⊢
      have h2' : j < given s + g.n := h2
      by_cases e : j % g.n = s.idx
      · rw [e, if_pos rfl]
        rcases hpc with ⟨r, k1, k2⟩ | ⟨r, k1, k2, k3, k4⟩
        · have hg : given s = s.eaten := by rw [given, k1]
          exact absurd (mod_inj (by rw [← h.idx, e]) (by omega : s.eaten ≤ j) (by omega)) (by omega)
        · exact k2
      · rw [hm _ e]
        refine h.free j h1 h2' ?_
        rintro ⟨_, hj⟩
        exact e (by rw [hj, Nat.add_mod_right, h.idx])
    · intro l' c' hc'
      have h1 := hd _ _ hc'
      exact absurd (h.clean _ _ h1.2).1 h1.1
    · intro _ c' d hc'
      exact absurd rfl (hd _ _ hc').1
    · intro c' hc'
      exact absurd rfl (hd _ _ hc').1

theorem Held_congr {s t : St} {f : Frame} (h1 : t.pc = s.pc) (h2 : t.ulen = s.ulen) (h : Held s f) : Held t f := by
  unfold Held at h ⊢; rw [h1, h2]; exact h

/-- The MAC's write, when the line it writes to is not one the call is working from. -/
theorem write_inv {g : Cfg} {s : St} (h : Inv g s) (f : Frame)
    (hc : s.cache (s.idx / g.k) = none ∨ s.mac / g.k ≠ s.idx / g.k ∨ s.pc = .idle ∨ g.k = 1)
    (he : (s.mem s.mac).empty = true) (hf : f.data.length + f.fcs.length ≤ g.cap) (hf2 : f.fcs.length = g.strip) :
    Inv g { s with mem := upd s.mem s.mac ⟨false, f.err, f.data.length + f.fcs.length⟩, buf := upd s.buf s.mac (f.data ++ f.fcs),
                   mac := (s.mac + 1) % g.n, wire := s.wire ++ [f] } := by
  have hn := h.npos
  have hroom : s.wire.length < given s + g.n := by
    rcases Nat.lt_or_ge s.wire.length (given s + g.n) with h1 | h1
    · exact h1
    · have hw : s.wire.length = given s + g.n := by have := h.room; omega
      have hg : given s < s.wire.length := by omega
      have h2 := (h.filled (given s) _ (Nat.le_refl _) (List.getElem?_eq_getElem hg)).1
      rw [h.mac, hw, Nat.add_mod_right, h2] at he; cases he
  have hnp : ¬ (Pending g s ∧ s.wire.length = s.eaten + g.n) := by
    rintro ⟨⟨c, hp⟩, hw⟩
    rcases (h.clean _ c hp).2 with ⟨r, h1, _⟩ | ⟨r, h1, _, h3, _⟩
    · have hg : given s = s.eaten := by rw [given, h1]
      omega
    · rw [h.mac, hw, Nat.add_mod_right, ← h.idx, h3] at he; cases he
  have heaten : s.eaten ≤ s.wire.length := h.exact.1
  have hget : ∀ j, j < s.wire.length → (s.wire ++ [f])[j]? = s.wire[j]? := fun j hj => List.getElem?_append_left hj
  have hlast : (s.wire ++ [f])[s.wire.length]? = some f := by simp
  have hgiv : given { s with mem := upd s.mem s.mac ⟨false, f.err, f.data.length + f.fcs.length⟩, buf := upd s.buf s.mac (f.data ++ f.fcs), mac := (s.mac + 1) % g.n, wire := s.wire ++ [f] } = given s := rfl
  have hge : s.eaten ≤ given s := by unfold given; split <;> omega
  have hbusymac : Busy s.pc → s.mac ≠ s.idx := by
    intro hb e
    have h1 := h.busy hb
    have hg : given s = s.eaten := by unfold given; split <;> simp_all [Busy]
    have h2 := (h.filled s.eaten _ (by omega) (List.getElem?_eq_getElem h1)).1
    rw [← h.idx, ← e, he] at h2; cases h2
  refine { npos := hn, idx := h.idx, mac := ?_, le := ?_, room := ?_, filled := ?_, free := ?_, busy := ?_, held := ?_, fits := ?_, clean := ?_, agree := ?_, own := ?_, exact := ?_ }
  · show (s.mac + 1) % g.n = (s.wire ++ [f]).length % g.n
    rw [h.mac, List.length_append]; simp
  · rw [hgiv]; show given s ≤ (s.wire ++ [f]).length
    have := h.le; rw [List.length_append]; omega
  · rw [hgiv]; show (s.wire ++ [f]).length ≤ given s + g.n
    rw [List.length_append]; show s.wire.length + 1 ≤ _; omega
  · intro j f' hj hf'
    rw [hgiv] at hj
    dsimp only at hf' ⊢
    rcases Nat.lt_or_ge j s.wire.length with hlt | hge2
    · rw [hget j hlt] at hf'
      have hne : j % g.n ≠ s.mac := by
        rw [h.mac]; intro e; exact absurd (mod_inj e (by omega) (by omega)) (by omega)
      rw [upd_ne _ _ hne, upd_ne _ _ hne]
      exact h.filled j f' hj hf'
    · have hjl := (List.getElem?_eq_some_iff.1 hf').1
      have hj2 : j = s.wire.length := by rw [List.length_append] at hjl; have : [f].length = 1 := rfl; omega
      subst hj2
      rw [hlast] at hf'; cases hf'
      rw [← h.mac, upd_eq, upd_eq]
      exact ⟨rfl, rfl, fun _ => rfl⟩
  · intro j h1 h2 h3
    rw [hgiv] at h2
    have h1' : s.wire.length + 1 ≤ j := by
      have : (s.wire ++ [f]).length ≤ j := h1
      rw [List.length_append] at this; exact this
    dsimp only
    have hne : j % g.n ≠ s.mac := by
      rw [h.mac]; intro e
      have := h.le
      exact absurd (mod_inj e.symm (by omega) (by omega)) (by omega)
    rw [upd_ne _ _ hne]
    exact h.free j (by omega) h2 h3
  · intro hb; show s.eaten < (s.wire ++ [f]).length
    have := h.busy hb; rw [List.length_append]; omega
  · intro f' hf'
    dsimp only at hf'
    rcases Nat.lt_or_ge s.eaten s.wire.length with hlt | hge2
    · rw [hget _ hlt] at hf'
      exact Held_congr rfl rfl (h.held f' hf')
    · have hnb : ¬ Busy s.pc := fun hb => by have := h.busy hb; omega
      have hnf : ∀ r, s.pc ≠ .fl r := fun r hr => by have := h.le; rw [given, hr] at this; dsimp only at this; omega
      unfold Held
      show (match s.pc with | _ => _)
      cases hpc : s.pc with
      | idle => trivial
      | ld => trivial
      | ldlen => exact absurd (hpc ▸ trivial) hnb
      | copy m => exact absurd (hpc ▸ trivial) hnb
      | st1 r => exact absurd (hpc ▸ trivial) hnb
      | st2 r => exact absurd (hpc ▸ trivial) hnb
      | fl r => exact absurd hpc (hnf r)
  · intro f' hf'
    rcases List.mem_append.1 hf' with h1 | h1
    · exact h.fits f' h1
    · rw [List.mem_singleton] at h1; subst h1; exact ⟨hf, hf2⟩
  · intro l c hlc
    obtain ⟨h1, h2⟩ := h.clean l c hlc
    refine ⟨h1, ?_⟩
    rcases h2 with ⟨r, k1, k2⟩ | ⟨r, k1, k2, k3, k4⟩
    · exact .inl ⟨r, k1, k2⟩
    · refine .inr ⟨r, k1, k2, ?_, ?_⟩
      · have hne : s.idx ≠ s.mac := by intro e; rw [← e, k3] at he; cases he
        show (upd s.mem s.mac _ s.idx).empty = false
        rw [upd_ne _ _ hne]; exact k3
      · have hP : Pending g s := ⟨c, by rw [← h1]; exact hlc⟩
        show (s.wire ++ [f]).length ≤ s.eaten + g.n
        rw [List.length_append]
        have : s.wire.length ≠ s.eaten + g.n := fun e => hnp ⟨hP, e⟩
        have : [f].length = 1 := rfl
        omega
  · intro hpc c d hcd j hj hjl
    dsimp only at hpc hcd hj hjl ⊢
    rcases hc with hc | hc | hc | hc
    · rw [hc] at hcd; cases hcd
    · have : j ≠ s.mac := by rintro rfl; exact hc hjl
      rw [upd_ne _ _ this]; exact h.agree hpc c d hcd j hj hjl
    · exact absurd hc hpc
    · rw [hc, Nat.div_one, Nat.div_one] at hjl; exact absurd hjl hj
  · intro c hcc
    dsimp only at hcc ⊢
    obtain ⟨o1, o2⟩ := h.own c hcc
    by_cases e : s.idx = s.mac
    · refine ⟨fun hpc => ?_, fun hb => absurd e.symm (hbusymac hb)⟩
      rcases o1 hpc with o | o
      · exact .inl o
      · left; rw [o, e]; exact he
    · rw [upd_ne _ _ e]; exact ⟨o1, o2⟩
  · obtain ⟨e1, e2, e3⟩ := h.exact
    have ht : (s.wire ++ [f]).take s.eaten = s.wire.take s.eaten := List.take_append_of_le_length e1
    refine ⟨?_, ?_, ?_⟩
    · show s.eaten ≤ (s.wire ++ [f]).length
      rw [List.length_append]; omega
    · show s.asked.length = (good ((s.wire ++ [f]).take s.eaten)).length
      rw [ht]; exact e2
    · show s.out = List.zipWith _ (good ((s.wire ++ [f]).take s.eaten)) s.asked
      rw [ht]; exact e3

theorem flush_keeps (g : Cfg) (s : St) (l : Nat) : (flush g s l).pc = s.pc ∧ (flush g s l).idx = s.idx ∧ (flush g s l).mac = s.mac ∧
    (flush g s l).eaten = s.eaten ∧ (flush g s l).wire = s.wire ∧ (flush g s l).cache l = none ∧ (flush g s l).ulen = s.ulen ∧ (flush g s l).out = s.out ∧ (flush g s l).asked = s.asked := by
  unfold flush
  split
  · rename_i h; exact ⟨rfl, rfl, rfl, rfl, rfl, h, rfl, rfl, rfl⟩
  · exact ⟨rfl, rfl, rfl, rfl, rfl, upd_eq _ _ _, rfl, rfl, rfl⟩
  · exact ⟨rfl, rfl, rfl, rfl, rfl, upd_eq _ _ _, rfl, rfl, rfl⟩

theorem mac_inv {g : Cfg} {s : St} (h : Inv g s) (f : Frame) (hf : f.fcs.length = g.strip)
    (hk : g.k = 1 ∨ g.coh = true ∨ Calm g s (.mac f)) : Inv g (macRx g s f) := by
  unfold macRx
  by_cases hcoh : g.coh = true
  · simp only [hcoh, if_true]
    have hi := flush_inv h (s.mac / g.k)
    obtain ⟨k1, k2, k3, k4, k5, k6, _⟩ := flush_keeps g s (s.mac / g.k)
    generalize flush g s (s.mac / g.k) = t at hi k1 k2 k3 k4 k5 k6 ⊢
    rw [← k3] at k6 ⊢
    split
    · rename_i hx
      refine write_inv hi f ?_ hx.1 hx.2 hf
      by_cases e : t.mac / g.k = t.idx / g.k
      · left; rw [← e]; exact k6
      · right; left; exact e
    · exact hi
  · simp only [hcoh]
    simp only [Bool.false_eq_true, if_false]
    split
    · rename_i hx
      refine write_inv h f ?_ hx.1 hx.2 hf
      rcases hk with hk | hk | hk
      · exact .inr (.inr (.inr hk))
      · exact absurd hk hcoh
      · rcases hk with hk | hk
        · exact .inr (.inr (.inl hk))
        · exact .inr (.inl hk)
    · exact h

theorem fill_keeps (s : St) (l : Nat) : (fill s l).pc = s.pc ∧ (fill s l).idx = s.idx ∧ (fill s l).mem = s.mem ∧ (fill s l).buf = s.buf ∧
    (fill s l).eaten = s.eaten ∧ (fill s l).wire = s.wire ∧ (fill s l).ulen = s.ulen ∧ (∃ x, (fill s l).cache l = some x) ∧ (fill s l).out = s.out ∧ (fill s l).asked = s.asked := by
  unfold fill
  split
  · exact ⟨rfl, rfl, rfl, rfl, rfl, rfl, rfl, ⟨_, upd_eq _ _ _⟩, rfl, rfl⟩
  · rename_i x h; exact ⟨rfl, rfl, rfl, rfl, rfl, rfl, rfl, ⟨_, h⟩, rfl, rfl⟩

/-- What the call loads. -/
theorem view_own {g : Cfg} {s : St} (h : Inv g s) (hp : s.pc = .ld ∨ s.pc = .ldlen) :
    (s.pc = .ld → (view g s s.idx).empty = true ∨ view g s s.idx = s.mem s.idx) ∧ (s.pc = .ldlen → view g s s.idx = s.mem s.idx) := by
  unfold view
  split
  · exact ⟨fun _ => .inr rfl, fun _ => rfl⟩
  · rename_i x hx
    obtain ⟨c, d⟩ := x
    cases d with
    | true =>
      rcases (h.clean _ c hx).2 with ⟨r, k, _⟩ | ⟨r, k, _⟩ <;> rcases hp with hp | hp <;> rw [hp] at k <;> cases k
    | false =>
      obtain ⟨o1, o2⟩ := h.own c hx
      exact ⟨o1, fun e => o2 (by rw [e]; trivial)⟩

/-- The slot at `rx_idx` when the call is not about to finish. -/
theorem mem_own {g : Cfg} {s : St} (h : Inv g s) (hg : given s = s.eaten) :
    ((s.mem s.idx).empty = false → s.eaten < s.wire.length) := by
  intro he
  rcases Nat.lt_or_ge s.eaten s.wire.length with h1 | h1
  · exact h1
  · have h2 := h.le
    have := h.npos
    have h3 := h.free s.eaten (by omega) (by omega) (fun x => by have := x.2; omega)
    rw [← h.idx, he] at h3; cases h3

/-- Moving within a call: the parts that depend on `pc` and on the frame are given anew. -/
theorem move_inv {g : Cfg} {s : St} (h : Inv g s) (p : Pc) (u : Nat) (hg : given { s with pc := p, ulen := u } = given s) (hb : Busy p → s.eaten < s.wire.length)
    (hst : ∀ r, s.pc ≠ .st2 r) (hh : ∀ f, s.wire[s.eaten]? = some f → Held { s with pc := p, ulen := u } f)
    (hd : ∀ l c, s.cache l ≠ some (c, true)) (ha : p ≠ .idle → s.pc ≠ .idle ∨ s.cache (s.idx / g.k) = none)
    (ho : ∀ c, s.cache (s.idx / g.k) = some (c, false) → (p = .ld → (c s.idx).empty = true ∨ c s.idx = s.mem s.idx) ∧ (Busy p → c s.idx = s.mem s.idx)) :
    Inv g { s with pc := p, ulen := u } where
  npos := h.npos
  idx := h.idx
  mac := h.mac
  le := by rw [hg]; exact h.le
  room := by rw [hg]; exact h.room
  filled := fun j f hj hf => by
    rw [hg] at hj
    obtain ⟨h1, h2, h3⟩ := h.filled j f hj hf
    exact ⟨h1, h2, fun _ => h3 (fun x => by obtain ⟨_, r, hr⟩ := x; exact hst r hr)⟩
  free := fun j h1 h2 h3 => by rw [hg] at h2; exact h.free j h1 h2 h3
  busy := hb
  held := hh
  fits := h.fits
  clean := fun l c hc => absurd hc (hd l c)
  agree := fun hp c d hc j => by
    rcases ha hp with h1 | h1
    · exact h.agree h1 c d hc j
    · have hc' : s.cache (s.idx / g.k) = _ := hc
      rw [h1] at hc'; cases hc'
  own := ho
  exact := h.exact

theorem not_dirty {g : Cfg} {s : St} (h : Inv g s) (h1 : ∀ r, s.pc ≠ .st2 r) (h2 : ∀ r, s.pc ≠ .fl r) : ∀ l c, s.cache l ≠ some (c, true) := by
  intro l c hc
  rcases (h.clean l c hc).2 with ⟨r, k, _⟩ | ⟨r, k, _⟩
  · exact h1 r k
  · exact h2 r k

theorem call_inv {g : Cfg} {s : St} (h : Inv g s) (u : Nat) (hp : s.pc = .idle) : Inv g { flush g s (s.idx / g.k) with pc := .ld, ulen := u } := by
  have hi := flush_inv h (s.idx / g.k)
  obtain ⟨k1, k2, k3, k4, k5, k6, _⟩ := flush_keeps g s (s.idx / g.k)
  generalize flush g s (s.idx / g.k) = t at hi k1 k2 k3 k4 k5 k6 ⊢
  have hpc : t.pc = .idle := by rw [k1, hp]
  refine move_inv hi .ld u ?_ (fun x => x.elim) (fun r => by rw [hpc]; nofun) (fun f _ => trivial)
    (not_dirty hi (fun r => by rw [hpc]; nofun) (fun r => by rw [hpc]; nofun)) (fun _ => .inr (by rw [k2]; exact k6)) ?_
  · unfold given; rw [hpc]
  · intro c hc; rw [k2, k6] at hc; cases hc

theorem good_snoc {l : List Frame} {e : Nat} {f : Frame} (h : l[e]? = some f) :
    good (l.take (e + 1)) = good (l.take e) ++ (if f.err then [] else [f]) := by
  rw [List.take_add_one, h]
  unfold good
  rw [List.filter_append]
  cases hf : f.err <;> simp [hf]

theorem flenOf_spec {g : Cfg} {f : Frame} {u : Nat} (h1 : f.data.length + f.fcs.length ≤ g.cap) (h2 : f.fcs.length = g.strip) :
    flenOf g (f.data.length + f.fcs.length) u = min f.data.length u := by
  unfold flenOf
  have e1 : (if g.strip ≤ f.data.length + f.fcs.length then f.data.length + f.fcs.length - g.strip else 0) = f.data.length := by
    rw [if_pos (by omega)]; omega
  have e2 : ¬ f.data.length > g.cap := by omega
  simp only [e1, if_neg e2]
  split <;> omega

/-- The line a store starts from. -/
theorem base_line {g : Cfg} {s : St} (h : Inv g s) (hb : Busy s.pc) {c : Nat → BD}
    (hc : c = (match s.cache (s.idx / g.k) with | none => s.mem | some c => c.1)) :
    (∀ j, j ≠ s.idx → j / g.k = s.idx / g.k → c j = s.mem j) ∧ (s.mem s.idx).empty = false := by
  have hlt := h.busy hb
  have hg : given s = s.eaten := by unfold given; split <;> simp_all [Busy]
  have hni : s.pc ≠ .idle := by intro e; rw [e] at hb; exact hb
  obtain ⟨f, hf⟩ : ∃ f, s.wire[s.eaten]? = some f := ⟨_, List.getElem?_eq_getElem hlt⟩
  obtain ⟨h1, _, _⟩ := h.filled s.eaten f (by omega) hf
  rw [← h.idx] at h1
  refine ⟨?_, h1⟩
  subst hc
  split
  · exact fun _ _ _ => rfl
  · rename_i x hx
    obtain ⟨c, d⟩ := x
    exact h.agree hni c d hx

/-- Of the line a store starts from, the status is what the program saw. -/
theorem base_own {g : Cfg} {s : St} (h : Inv g s) (hb : Busy s.pc) {c : Nat → BD}
    (hc : c = (match s.cache (s.idx / g.k) with | none => s.mem | some c => c.1)) : (c s.idx).empty = false := by
  have h1 := (base_line h hb hc).2
  subst hc
  split
  · exact h1
  · rename_i x hx
    obtain ⟨c, d⟩ := x
    cases d with
    | true =>
      rcases (h.clean _ c hx).2 with ⟨r, k1, k2⟩ | ⟨r, k1, _⟩
      · exact k2
      · rw [k1] at hb; exact hb.elim
    | false =>
      show (c s.idx).empty = false
      rw [(h.own c hx).2 hb]; exact h1

theorem st1_inv {g : Cfg} {s : St} (h : Inv g s) {r : Option Bytes} (hp : s.pc = .st1 r) :
    Inv g { store g s s.idx (fun b => { b with len := 0 }) with pc := .st2 r } := by
  have hb : Busy s.pc := by rw [hp]; trivial
  unfold store
  obtain ⟨c, hc⟩ : ∃ c, c = (match s.cache (s.idx / g.k) with | none => s.mem | some c => c.1) := ⟨_, rfl⟩
  obtain ⟨b1, b2⟩ := base_line h hb hc
  have b3 := base_own h hb hc
  rw [← hc]
  clear hc
  dsimp only
  have hg : given s = s.eaten := by unfold given; rw [hp]
  have hd := not_dirty h (fun r => by rw [hp]; nofun) (fun r => by rw [hp]; nofun)
  have hu : ∀ l x, upd s.cache (s.idx / g.k) (some (upd c s.idx { c s.idx with len := 0 }, true)) l = some x → (l = s.idx / g.k ∧ x = (upd c s.idx { c s.idx with len := 0 }, true)) ∨ (l ≠ s.idx / g.k ∧ s.cache l = some x) := by
    intro l x hx
    by_cases e : l = s.idx / g.k
    · rw [e, upd_eq] at hx; cases hx; exact .inl ⟨e, rfl⟩
    · rw [upd_ne _ _ e] at hx; exact .inr ⟨e, hx⟩
  exact
  { npos := h.npos
    idx := h.idx
    mac := h.mac
    le := by show s.eaten ≤ _; rw [← hg]; exact h.le
    room := by show _ ≤ s.eaten + _; rw [← hg]; exact h.room
    filled := fun j f hj hf => by
      obtain ⟨h1, h2, h3⟩ := h.filled j f (by rw [hg]; exact hj) hf
      exact ⟨h1, h2, fun _ => h3 (fun x => by obtain ⟨_, r, hr⟩ := x; rw [hp] at hr; cases hr)⟩
    free := fun j h1 h2 _ => h.free j h1 (by rw [hg]; exact h2) (fun x => by
      have h2' : j < s.eaten + g.n := h2
      have := x.2; omega)
    busy := fun _ => h.busy hb
    held := fun f hf => by
      have := h.held f hf
      unfold Held at this ⊢
      rw [hp] at this
      cases r <;> exact this
    fits := h.fits
    clean := fun l c' hc' => by
      rcases hu l _ hc' with ⟨e, hx⟩ | ⟨_, hx⟩
      · cases hx
        refine ⟨e, .inl ⟨r, rfl, ?_⟩⟩
        show (upd c s.idx _ s.idx).empty = false
        rw [upd_eq]; exact b3
      · exact absurd hx (hd l c')
    agree := fun _ c' d hc' j hj hjl => by
      rcases hu _ _ hc' with ⟨_, hx⟩ | ⟨e, _⟩
      · cases hx
        show upd c s.idx _ j = s.mem j
        rw [upd_ne _ _ hj]; exact b1 j hj hjl
      · exact absurd rfl e
    own := fun c' hc' => by
      rcases hu _ _ hc' with ⟨_, hx⟩ | ⟨e, _⟩
      · cases hx
      · exact absurd rfl e
    exact := h.exact }

theorem st2_inv {g : Cfg} {s : St} (h : Inv g s) {r : Option Bytes} (hp : s.pc = .st2 r) :
    Inv g { store g s s.idx (fun b => { b with empty := true, err := false }) with pc := .fl r } := by
  have hb : Busy s.pc := by rw [hp]; trivial
  unfold store
  obtain ⟨c, hc⟩ : ∃ c, c = (match s.cache (s.idx / g.k) with | none => s.mem | some c => c.1) := ⟨_, rfl⟩
  obtain ⟨b1, b2⟩ := base_line h hb hc
  rw [← hc]
  clear hc
  dsimp only
  have hg : given s = s.eaten := by unfold given; rw [hp]
  have hlt := h.busy hb
  have hroom := h.room
  have hu : ∀ l x, upd s.cache (s.idx / g.k) (some (upd c s.idx { c s.idx with empty := true, err := false }, true)) l = some x → (l = s.idx / g.k ∧ x = (upd c s.idx { c s.idx with empty := true, err := false }, true)) ∨ (l ≠ s.idx / g.k ∧ s.cache l = some x) := by
    intro l x hx
    by_cases e : l = s.idx / g.k
    · rw [e, upd_eq] at hx; cases hx; exact .inl ⟨e, rfl⟩
    · rw [upd_ne _ _ e] at hx; exact .inr ⟨e, hx⟩
  exact
  { npos := h.npos
    idx := h.idx
    mac := h.mac
    le := by show s.eaten + 1 ≤ s.wire.length; omega
    room := by show s.wire.length ≤ s.eaten + 1 + g.n; omega
    filled := fun j f hj hf => by
      have hj' : s.eaten + 1 ≤ j := hj
      obtain ⟨h1, h2, h3⟩ := h.filled j f (by omega) hf
      exact ⟨h1, h2, fun _ => h3 (fun x => by have := x.1; omega)⟩
    free := fun j h1 h2 h3 => by
      have h2' : j < s.eaten + 1 + g.n := h2
      have hne : j ≠ s.eaten + g.n := fun e => h3 ⟨⟨_, upd_eq _ _ _⟩, e⟩
      exact h.free j h1 (by omega) (fun x => hne x.2)
    busy := fun x => x.elim
    held := fun f hf => by
      have := h.held f hf
      unfold Held at this ⊢
      rw [hp] at this
      cases r <;> exact this
    fits := h.fits
    clean := fun l c' hc' => by
      rcases hu l _ hc' with ⟨e, hx⟩ | ⟨e, hx⟩
      · cases hx
        refine ⟨e, .inr ⟨r, rfl, ?_, b2, ?_⟩⟩
        · show (upd c s.idx _ s.idx).empty = true
          rw [upd_eq]
        · show s.wire.length ≤ s.eaten + g.n; omega
      · exact absurd (h.clean l c' hx).1 e
    agree := fun _ c' d hc' j hj hjl => by
      rcases hu _ _ hc' with ⟨_, hx⟩ | ⟨e, _⟩
      · cases hx
        show upd c s.idx _ j = s.mem j
        rw [upd_ne _ _ hj]; exact b1 j hj hjl
      · exact absurd rfl e
    own := fun c' hc' => by
      rcases hu _ _ hc' with ⟨_, hx⟩ | ⟨e, _⟩
      · cases hx
      · exact absurd rfl e
    exact := h.exact }

theorem fl_inv {g : Cfg} {s : St} (h : Inv g s) {r : Option Bytes} (hp : s.pc = .fl r) : Inv g (cpu g s) := by
  have hi := flush_inv h (s.idx / g.k)
  obtain ⟨k1, k2, k3, k4, k5, k6, k7, k8, k9⟩ := flush_keeps g s (s.idx / g.k)
  have hcpu : cpu g s = { flush g s (s.idx / g.k) with pc := .idle, idx := (s.idx + 1) % g.n, eaten := s.eaten + 1, asked := s.asked ++ (r.map fun _ => s.ulen).toList, out := s.out ++ r.toList } := by
    unfold cpu; rw [hp]
    cases r with
    | none => simp [k8, k9]
    | some d => rfl
  rw [hcpu]
  rw [← k2, ← k4, ← k7, ← k8, ← k9]
  rw [← k1] at hp
  rw [← k2] at k6
  have e2 : flush g s ((flush g s (s.idx / g.k)).idx / g.k) = flush g s (s.idx / g.k) := by rw [k2]
  rw [e2] at k6 ⊢
  clear hcpu k1 k2 k3 k4 k5 k7 k8 k9 e2
  generalize flush g s (s.idx / g.k) = t at hi k6 hp ⊢
  clear h
  have h := hi
  have hg : given t = t.eaten + 1 := by unfold given; rw [hp]
  have hle := h.le
  have hd : ∀ l c, t.cache l ≠ some (c, true) := by
    intro l c hc
    have := (h.clean l c hc).1
    subst this; rw [k6] at hc; cases hc
  have hn := h.npos
  obtain ⟨f, hf⟩ : ∃ f, t.wire[t.eaten]? = some f := ⟨_, List.getElem?_eq_getElem (by omega)⟩
  have hheld := h.held f hf
  exact
  { npos := hn
    idx := by show (t.idx + 1) % g.n = (t.eaten + 1) % g.n; rw [h.idx, Nat.mod_add_mod]
    mac := h.mac
    le := by show t.eaten + 1 ≤ _; rw [← hg]; exact hle
    room := by show _ ≤ t.eaten + 1 + _; rw [← hg]; exact h.room
    filled := fun j f' hj hf' => by
      obtain ⟨h1, h2, h3⟩ := h.filled j f' (by rw [hg]; exact hj) hf'
      exact ⟨h1, h2, fun _ => h3 (fun x => by obtain ⟨_, r', hr⟩ := x; rw [hp] at hr; cases hr)⟩
    free := fun j h1 h2 _ => h.free j h1 (by rw [hg]; exact h2) (fun x => by
      obtain ⟨⟨c, hc⟩, _⟩ := x
      exact hd _ _ hc)
    busy := fun x => x.elim
    held := fun _ _ => trivial
    fits := h.fits
    clean := fun l c hc => absurd hc (hd l c)
    agree := fun x => absurd rfl x
    own := fun c _ => ⟨fun x => (by cases x), fun x => x.elim⟩
    exact := by
      obtain ⟨e1, e2, e3⟩ := h.exact
      have hs := good_snoc hf
      refine ⟨by show t.eaten + 1 ≤ t.wire.length; omega, ?_, ?_⟩
      · show (t.asked ++ (r.map fun _ => t.ulen).toList).length = (good (t.wire.take (t.eaten + 1))).length
        rw [hs, List.length_append, List.length_append, e2]
        unfold Held at hheld; rw [hp] at hheld
        cases r with
        | none => have hx : f.err = true := hheld; simp [hx]
        | some d => have hx : f.err = false := hheld.1; simp [hx]
      · show t.out ++ r.toList = List.zipWith _ (good (t.wire.take (t.eaten + 1))) (t.asked ++ (r.map fun _ => t.ulen).toList)
        rw [hs, List.zipWith_append e2.symm, ← e3]
        unfold Held at hheld; rw [hp] at hheld
        cases r with
        | none => have hx : f.err = true := hheld; simp [hx]
        | some d =>
          have hx : f.err = false := hheld.1
          have hx2 : d = f.data.take t.ulen := hheld.2
          simp [hx, hx2] }

theorem cpu_inv {g : Cfg} {s : St} (h : Inv g s) : Inv g (cpu g s) := by
  cases hp : s.pc with
  | idle => unfold cpu; rw [hp]; exact h
  | ld =>
    have hi := fill_inv h (s.idx / g.k)
    obtain ⟨k1, k2, k3, k4, k5, k6, k7, _⟩ := fill_keeps s (s.idx / g.k)
    unfold cpu; rw [hp]
    dsimp only
    rw [← k2]
    have e2 : fill s ((fill s (s.idx / g.k)).idx / g.k) = fill s (s.idx / g.k) := by rw [k2]
    rw [e2]
    rw [hp] at k1
    generalize fill s (s.idx / g.k) = t at hi k1 ⊢
    have hv := (view_own hi (.inl k1)).1 k1
    have hg : given t = t.eaten := by unfold given; rw [k1]
    have hd := not_dirty hi (fun r => by rw [k1]; nofun) (fun r => by rw [k1]; nofun)
    split
    · exact move_inv hi .idle t.ulen (by unfold given; rw [k1]) (fun x => x.elim) (fun r => by rw [k1]; nofun) (fun _ _ => trivial) hd
        (fun x => absurd rfl x) (fun c _ => ⟨fun x => (by cases x), fun x => x.elim⟩)
    · rename_i he
      have hv' : view g t t.idx = t.mem t.idx := by
        rcases hv with hv | hv
        · exact absurd hv he
        · exact hv
      have hlt : t.eaten < t.wire.length := mem_own hi hg (by rw [← hv']; simpa using he)
      have hfull : ∀ f, t.wire[t.eaten]? = some f → t.mem t.idx = full f := by
        intro f hf
        have := (hi.filled t.eaten f (by omega) hf).2.2 (fun x => by obtain ⟨_, r, hr⟩ := x; rw [k1] at hr; cases hr)
        rwa [← hi.idx] at this
      have hown : ∀ c, t.cache (t.idx / g.k) = some (c, false) → c t.idx = t.mem t.idx := by
        intro c hc
        have : view g t t.idx = c t.idx := by unfold view; rw [hc]
        rw [← this]; exact hv'
      split
      · rename_i hr
        refine move_inv hi (.st1 none) t.ulen (by unfold given; rw [k1]) (fun _ => hlt) (fun r => by rw [k1]; nofun) ?_ hd
          (fun _ => .inl (by rw [k1]; nofun)) (fun c hc => ⟨fun x => (by cases x), fun _ => hown c hc⟩)
        intro f hf
        rw [hv', hfull f hf] at hr
        exact hr
      · rename_i hr
        refine move_inv hi .ldlen t.ulen (by unfold given; rw [k1]) (fun _ => hlt) (fun r => by rw [k1]; nofun) ?_ hd
          (fun _ => .inl (by rw [k1]; nofun)) (fun c hc => ⟨fun x => (by cases x), fun _ => hown c hc⟩)
        intro f hf
        rw [hv', hfull f hf] at hr
        show f.err = false
        simpa [full] using hr
  | ldlen =>
    have hi := fill_inv h (s.idx / g.k)
    obtain ⟨k1, k2, k3, k4, k5, k6, k7, _⟩ := fill_keeps s (s.idx / g.k)
    unfold cpu; rw [hp]
    dsimp only
    rw [← k2, ← k7]
    have e2 : fill s ((fill s (s.idx / g.k)).idx / g.k) = fill s (s.idx / g.k) := by rw [k2]
    rw [e2]
    rw [hp] at k1
    generalize fill s (s.idx / g.k) = t at hi k1 ⊢
    have hv := (view_own hi (.inr k1)).2 k1
    have hg : given t = t.eaten := by unfold given; rw [k1]
    have hb : Busy t.pc := by rw [k1]; trivial
    have hd := not_dirty hi (fun r => by rw [k1]; nofun) (fun r => by rw [k1]; nofun)
    refine move_inv hi (.copy _) t.ulen (by unfold given; rw [k1]) (fun _ => hi.busy hb) (fun r => by rw [k1]; nofun) ?_ hd
          (fun _ => .inl (by rw [k1]; nofun)) (fun c hc => ⟨fun x => (by cases x), fun _ => (hi.own c hc).2 hb⟩)
    intro f hf
    have hfull := (hi.filled t.eaten f (by omega) hf).2.2 (fun x => by obtain ⟨_, r, hr⟩ := x; rw [k1] at hr; cases hr)
    rw [← hi.idx] at hfull
    have hh := hi.held f hf
    unfold Held at hh; rw [k1] at hh
    refine ⟨hh, ?_⟩
    rw [hv, hfull]
    have := hi.fits f (List.mem_of_getElem? hf)
    exact flenOf_spec this.1 this.2
  | copy m =>
    have hb : Busy s.pc := by rw [hp]; trivial
    have hg : given s = s.eaten := by unfold given; rw [hp]
    unfold cpu; rw [hp]
    dsimp only
    refine move_inv h (.st1 _) s.ulen (by unfold given; rw [hp]) (fun _ => h.busy hb) (fun r => by rw [hp]; nofun) ?_
          (not_dirty h (fun r => by rw [hp]; nofun) (fun r => by rw [hp]; nofun))
          (fun _ => .inl (by rw [hp]; nofun)) (fun c hc => ⟨fun x => (by cases x), fun _ => (h.own c hc).2 hb⟩)
    intro f hf
    have hbuf := (h.filled s.eaten f (by omega) hf).2.1
    rw [← h.idx] at hbuf
    have hh := h.held f hf
    unfold Held at hh; rw [hp] at hh
    refine ⟨hh.1, ?_⟩
    show (s.buf s.idx).take m = f.data.take s.ulen
    rw [hh.2, hbuf, List.take_append_of_le_length (by omega)]
    rw [Nat.min_comm, ← List.take_take, List.take_length]
  | st1 r => unfold cpu; rw [hp]; exact st1_inv h hp
  | st2 r => unfold cpu; rw [hp]; exact st2_inv h hp
  | fl r => exact fl_inv h hp

theorem step_inv {g : Cfg} {s : St} (h : Inv g s) (op : Op) (hf : Fits g op) (hk : g.k = 1 ∨ g.coh = true ∨ Calm g s op) : Inv g (step g s op) := by
  cases op with
  | call u =>
    dsimp only [step]
    split
    · rename_i hp; exact call_inv h u hp
    · exact h
  | cpu => exact cpu_inv h
  | mac f => exact mac_inv h f hf hk
  | evict l => exact flush_inv h l
  | prefetch l => exact fill_inv h l

theorem run_inv {g : Cfg} : ∀ (l : List Op) {s : St}, Inv g s → (∀ op ∈ l, Fits g op) → (g.k = 1 ∨ g.coh = true ∨ AllCalm g s l) → Inv g (run g s l)
  | [], _, h, _, _ => h
  | op :: l, s, h, hf, hk => by
    refine run_inv l (step_inv h op (hf op List.mem_cons_self) ?_) (fun o ho => hf o (List.mem_cons_of_mem _ ho)) ?_
    · rcases hk with hk | hk | hk
      · exact .inl hk
      · exact .inr (.inl hk)
      · exact .inr (.inr hk.1)
    · rcases hk with hk | hk | hk
      · exact .inl hk
      · exact .inr (.inl hk)
      · exact .inr (.inr hk.2)

/-- **C119 (receive)**: through every interleaving of the call, the MAC and the cache the calls give the stack the good frames received, once each, in order and intact, if the device's accesses are snooped,
or no two descriptors share a line, or no frame is completed in the line a call is working on. Missing: the last condition cannot be met on hardware without snooping (`frame_lost`). -/
theorem line_rx_exact_partial (g : Cfg) (hn : 0 < g.n) (l : List Op) (hf : ∀ op ∈ l, Fits g op) (hk : g.k = 1 ∨ g.coh = true ∨ AllCalm g start l) :
    Exact (run g start l) := (run_inv l (inv_start g hn) hf hk).exact

/-- A call by itself. -/
def callAlone (u : Nat) : List Op := [.call u, .cpu, .cpu, .cpu, .cpu, .cpu, .cpu]

theorem run_append (g : Cfg) : ∀ (a b : List Op) (s : St), run g s (a ++ b) = run g (run g s a) b
  | [], _, _ => rfl
  | op :: a, b, s => run_append g a b (step g s op)

theorem eaten_cpu (g : Cfg) (s : St) : s.eaten ≤ (cpu g s).eaten := by
  unfold cpu
  cases hp : s.pc with
  | fl r => cases r <;> dsimp only <;> omega
  | _ => dsimp only [store]; repeat' split
         all_goals first | exact Nat.le_refl _ | simp [fill_keeps]

/-- After such a history a frame that waits is recycled by the next call, so (with `line_rx_exact_partial`) it goes to the stack unless it is bad. -/
theorem next_call_takes (g : Cfg) (hn : 0 < g.n) (l : List Op) (hf : ∀ op ∈ l, Fits g op) (hk : g.k = 1 ∨ g.coh = true ∨ AllCalm g start l) (u : Nat)
    (hi : (run g start l).pc = .idle) (hw : (run g start l).eaten < (run g start l).wire.length) :
    (run g start (l ++ callAlone u)).eaten = (run g start l).eaten + 1 ∧ (run g start (l ++ callAlone u)).pc = .idle := by
  rw [run_append]
  have h := run_inv l (inv_start g hn) hf hk
  generalize run g start l = s at h hi hw
  have hc := call_inv h u hi
  have hst : step g s (.call u) = { flush g s (s.idx / g.k) with pc := .ld, ulen := u } := if_pos hi
  have he : ({ flush g s (s.idx / g.k) with pc := .ld, ulen := u } : St).eaten = s.eaten := (flush_keeps g s _).2.2.2.1
  have hww : ({ flush g s (s.idx / g.k) with pc := .ld, ulen := u } : St).wire = s.wire := (flush_keeps g s _).2.2.2.2.1
  have hcn : ({ flush g s (s.idx / g.k) with pc := .ld, ulen := u } : St).cache (({ flush g s (s.idx / g.k) with pc := .ld, ulen := u } : St).idx / g.k) = none := by
    have k := flush_keeps g s (s.idx / g.k)
    show (flush g s (s.idx / g.k)).cache ((flush g s (s.idx / g.k)).idx / g.k) = none
    rw [k.2.1]; exact k.2.2.2.2.2.1
  have hpt : ({ flush g s (s.idx / g.k) with pc := .ld, ulen := u } : St).pc = .ld := rfl
  show (run g (step g s (.call u)) [.cpu, .cpu, .cpu, .cpu, .cpu, .cpu]).eaten = _ ∧ _
  show _ ∧ (run g (step g s (.call u)) [.cpu, .cpu, .cpu, .cpu, .cpu, .cpu]).pc = _
  rw [hst]
  generalize ({ flush g s (s.idx / g.k) with pc := .ld, ulen := u } : St) = t at hc he hww hcn hpt ⊢
  obtain ⟨f, hfr⟩ : ∃ f, t.wire[t.eaten]? = some f := ⟨_, List.getElem?_eq_getElem (by rw [he, hww]; exact hw)⟩
  have hmem := (hc.filled t.eaten f (by unfold given; rw [hpt]; exact Nat.le_refl _) hfr).2.2 (fun x => by obtain ⟨_, r, hr⟩ := x; rw [hpt] at hr; cases hr)
  rw [← hc.idx] at hmem
  have e1 : fill t (t.idx / g.k) = { t with cache := upd t.cache (t.idx / g.k) (some (t.mem, false)) } := by unfold fill; rw [hcn]
  have hv : view g (fill t (t.idx / g.k)) t.idx = full f := by
    rw [e1]; unfold view; dsimp only; rw [upd_eq]; exact hmem
  rw [← he]
  show (cpu g (cpu g (cpu g (cpu g (cpu g (cpu g t)))))).eaten = t.eaten + 1 ∧ (cpu g (cpu g (cpu g (cpu g (cpu g (cpu g t)))))).pc = .idle
  cases hfe : f.err with
  | true =>
    have c1 : ∃ t1 : St, cpu g t = t1 ∧ t1.pc = .st1 none ∧ t1.eaten = t.eaten := by
      refine ⟨_, rfl, ?_, ?_⟩ <;> (unfold cpu; rw [hpt]; dsimp only; rw [hv]; simp [full, hfe, fill_keeps])
    obtain ⟨t1, q1, q2, q3⟩ := c1
    rw [q1, ← q3]
    clear q1 q3
    have c2 : cpu g t1 = { store g t1 t1.idx (fun b => { b with len := 0 }) with pc := .st2 none } := by unfold cpu; rw [q2]
    rw [c2]; clear c2
    show (cpu g (cpu g (cpu g (cpu g _)))).eaten = _ ∧ (cpu g (cpu g (cpu g (cpu g _)))).pc = _
    simp [cpu, store, flush_keeps]
  | false =>
    have c1 : ∃ t1 : St, cpu g t = t1 ∧ t1.pc = .ldlen ∧ t1.eaten = t.eaten := by
      refine ⟨_, rfl, ?_, ?_⟩ <;> (unfold cpu; rw [hpt]; dsimp only; rw [hv]; simp [full, hfe, fill_keeps])
    obtain ⟨t1, q1, q2, q3⟩ := c1
    rw [q1, ← q3]
    clear q1 q3
    have c2 : ∃ t2 : St, ∃ m, cpu g t1 = t2 ∧ t2.pc = .copy m ∧ t2.eaten = t1.eaten := by
      refine ⟨_, flenOf g (view g (fill t1 (t1.idx / g.k)) t1.idx).len t1.ulen, rfl, ?_, ?_⟩
      · unfold cpu; rw [q2]
      · unfold cpu; rw [q2]; simp [fill_keeps]
    obtain ⟨t2, m, p1, p2, p3⟩ := c2
    rw [p1, ← p3]
    clear p1 p3
    have c3 : cpu g t2 = { t2 with pc := .st1 (some ((t2.buf t2.idx).take m)) } := by unfold cpu; rw [p2]
    rw [c3]
    simp [cpu, store, flush_keeps]

/-! ## eTSEC -/

/-- Eight descriptors, four to a line, DMA not snooped. -/
def etsec : Cfg := { n := 8, k := 4, coh := false, cap := 1536, strip := 4 }

def frameA : Frame := ⟨false, List.range' 1 60, [0, 0, 0, 0]⟩
def frameB : Frame := ⟨false, List.range' 100 60, [0, 0, 0, 0]⟩

/-- Frame A arrives; the stack polls; while its octets are copied frame B arrives; the poll ends. -/
def race : List Op := [.mac frameA, .call 1536, .cpu, .cpu, .mac frameB, .cpu, .cpu, .cpu, .cpu]

example : ∀ op ∈ race, Fits etsec op := by
  intro op h
  simp only [race, List.mem_cons, List.not_mem_nil, or_false] at h
  rcases h with rfl | rfl | rfl | rfl | rfl | rfl | rfl | rfl | rfl <;> first | exact rfl | trivial

/-- Frames completed by a list of operations. -/
def macs : List Op → Nat
  | [] => 0
  | .mac _ :: l => macs l + 1
  | _ :: l => macs l

structure Lost (c : Nat) (s : St) : Prop where
  idx : s.idx = 1
  mac : s.mac = (2 + c) % 8
  mem : (s.mem 1).empty = true
  cache : ∀ l b d, s.cache l = some (b, d) → d = false ∧ (b 1).empty = true
  pc : s.pc = .idle ∨ s.pc = .ld
  out : s.out = [frameA.data]

theorem lost_flush {c : Nat} {s : St} (h : Lost c s) (l : Nat) : Lost c (flush etsec s l) := by
  unfold flush
  split
  · exact h
  · refine { h with cache := ?_ }
    intro l' b d hc
    by_cases e : l' = l
    · dsimp only at hc; rw [e, upd_eq] at hc; cases hc
    · dsimp only at hc; rw [upd_ne _ _ e] at hc; exact h.cache l' b d hc
  · rename_i b hl; exact absurd (h.cache _ _ _ hl).1 (by decide)

theorem lost_fill {c : Nat} {s : St} (h : Lost c s) (l : Nat) : Lost c (fill s l) := by
  unfold fill
  split
  · refine { h with cache := ?_ }
    intro l' b d hc
    by_cases e : l' = l
    · dsimp only at hc; rw [e, upd_eq] at hc; cases hc; exact ⟨rfl, h.mem⟩
    · dsimp only at hc; rw [upd_ne _ _ e] at hc; exact h.cache l' b d hc
  · exact h

theorem lost_run : ∀ (l : List Op) (c : Nat) (s : St), Lost c s → c + macs l ≤ 7 → (run etsec s l).out = [frameA.data]
  | [], _, _, h, _ => h.out
  | op :: l, c, s, h, hm => by
    show (run etsec (step etsec s op) l).out = _
    cases op with
    | call u =>
      refine lost_run l c _ ?_ hm
      dsimp only [step]
      split
      · exact { lost_flush h (s.idx / etsec.k) with pc := .inr rfl }
      · exact h
    | cpu =>
      refine lost_run l c _ ?_ hm
      rcases h.pc with hp | hp
      · dsimp only [step]; unfold cpu; rw [hp]; exact h
      · dsimp only [step]; unfold cpu; rw [hp]
        dsimp only
        have hf := lost_fill h (s.idx / etsec.k)
        have hv : (view etsec (fill s (s.idx / etsec.k)) s.idx).empty = true := by
          generalize fill s (s.idx / etsec.k) = t at hf
          unfold view
          rw [h.idx]
          split
          · exact hf.mem
          · rename_i x hx; exact (hf.cache _ x.1 x.2 hx).2
        rw [if_pos hv]
        exact { hf with pc := .inl rfl }
    | mac f =>
      have hm' : c + (macs l + 1) ≤ 7 := hm
      have hne : s.mac ≠ 1 := by rw [h.mac]; omega
      dsimp only [step]
      unfold macRx
      simp only [etsec, Bool.false_eq_true, if_false]
      split
      · refine lost_run l (c + 1) _ ?_ (by omega)
        refine { h with mac := ?_, mem := ?_ }
        · show (s.mac + 1) % 8 = _
          rw [h.mac]; omega
        · show (upd s.mem s.mac _ 1).empty = true
          rw [upd_ne _ _ (Ne.symm hne)]; exact h.mem
      · exact lost_run l c _ h (by omega)
    | evict x => exact lost_run l c _ (lost_flush h x) hm
    | prefetch x => exact lost_run l c _ (lost_fill h x) hm

theorem race_lost : Lost 0 (run etsec start race) where
  idx := by decide
  mac := by decide
  mem := by decide +kernel
  cache := by
    intro l b d h
    exfalso
    have h0 : ∀ l, (run etsec start race).cache l = none := by
      obtain ⟨x, y, z, hx⟩ : ∃ x y z, (run etsec start race).cache = upd (upd (upd (upd (fun _ => none) 0 x) 0 y) 0 z) 0 none := ⟨_, _, _, rfl⟩
      intro l
      rw [hx]
      simp only [upd]
      split <;> rfl
    rw [h0 l] at h; cases h
  pc := .inl (by decide +kernel)
  out := by decide +kernel

/-- **C119 (receive)**, on eTSEC without snooping: writing back the recycled descriptor marks the one next to it empty again, although the MAC has put frame B there. B has been received (`wire`), but the calls never get past
its descriptor: whatever arrives in the next seven frames, they give the stack nothing. -/
theorem frame_lost : (run etsec start race).wire = [frameA, frameB] ∧
    ∀ l, macs l ≤ 7 → (run etsec (run etsec start race) l).out = [frameA.data] :=
  ⟨by decide +kernel, fun l h => lost_run l 0 _ race_lost (by omega)⟩

/-- A frame of sixty octets `t`. -/
def mark (t : Nat) : Frame := ⟨false, List.replicate 60 t, [0, 0, 0, 0]⟩

/-- The eighth frame ends the wait, by falling into the slot the calls are looking at: it overtakes the seven before it, and B never comes. -/
theorem reordered : (run etsec (run etsec start race) ((List.range' 3 8).map (fun t => .mac (mark t)) ++ (callAlone 1536 ++ callAlone 1536))).out =
    [frameA.data, (mark 10).data, (mark 3).data] := by decide +kernel

/-- The histories of `line_rx_exact_partial`: the same two frames, the second in the same line but after the call, and a third in the other line during one; both taken in full. -/
def calm : List Op := [.mac frameA] ++ callAlone 1536 ++ [.mac frameB, .evict 0, .prefetch 0] ++ callAlone 30

example : AllCalm etsec start calm := by
  simp only [calm, callAlone, List.cons_append, List.nil_append, AllCalm, Calm, and_true, true_and]
  exact ⟨.inl (by decide +kernel), .inl (by decide +kernel)⟩

example : (run etsec start calm).out = [frameA.data, frameB.data.take 30] := by decide +kernel

end Wolf.Drv.Line
