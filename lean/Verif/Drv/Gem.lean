/-!
# C116: the receive ring of the AMD GEM driver

Model of the three receive paths of `src/port/amd`: `gem_isr` and `gem_swq_drain` (`ip/gem_swq.c` 40–124), used by `ip/gem_rx_irq.c` (producer in an
interrupt) and by `ip/gem_rx_swq_poll.c` (producer called from `gem_eth_poll`), kind `swq`; and `gem_eth_poll` of `ip/gem_rx_poll.c` (15–55), kind `poll`.
The MAC runs concurrently, one action at a time; so does `gem_isr`, one turn of its loop at a time, which may come between any two steps of the main program. (In
`gem_rx_swq_poll.c` it comes between calls only.)

The MAC's contract: it takes the descriptor it points to if the ownership bit is clear, writes the frame to that descriptor's buffer, writes the length, sets the bit and goes to the next one.
The ring is mapped non-cacheable (gem_core.c 38–45), so caches play no part. The counters `swq_head` and `swq_tail` are 32 bits wide; as the depth of the queue divides 2³², natural numbers stand for them.
-/
namespace Wolf.Drv.Gem

abbrev Bytes := List Nat

inductive Kind where
  | swq | poll
deriving DecidableEq, Repr

/-- Where the main program is in `gem_swq_drain` or `gem_eth_poll`. -/
inductive Pc where
  | idle
  /-- `memcpy` of `want` octets from the buffer of descriptor `i`, `acc` of which are there -/
  | copy (i want : Nat) (acc : Bytes)
  /-- the status is to be cleared (gem_swq.c 113, gem_rx_poll.c 46) -/
  | clear (i : Nat)
  /-- the address is to be written, with the ownership bit clear (115; 48) -/
  | give (i : Nat)
  /-- the index is to be advanced (119; 52) -/
  | next
deriving DecidableEq, Repr

structure S where
  /-- `RXBUF_OWN_SW`, length, and buffer of each descriptor -/
  own : Nat → Bool
  len : Nat → Nat
  buf : Nat → Nat → Nat
  /-- `gem_rx_next` -/
  rxn : Nat
  /-- `swq`: ring index and length -/
  slots : Nat → Nat × Nat
  head : Nat
  tail : Nat
  pc : Pc
  /-- the MAC's descriptor, and whether it is writing to it -/
  cur : Nat
  busy : Bool
  /-- ghost: the frames received, and what the calls returned -/
  done : List Bytes
  out : List Bytes

def upd {α : Type} (f : Nat → α) (i : Nat) (v : α) : Nat → α := fun x => if x = i then v else f x

/-- After `rx_ring_init` (gem_core.c 118–135). -/
def start (b : Nat → Nat → Nat) : S :=
  { own := fun _ => false, len := fun _ => 0, buf := b, rxn := 0, slots := fun _ => (0, 0), head := 0, tail := 0, pc := .idle, cur := 0, busy := false, done := [], out := [] }

/-- One turn of the loop of `gem_isr` (52–80); `D` is `SWQ_DEPTH`. -/
def isr (n D : Nat) (s : S) : S :=
  if s.own s.rxn = true ∧ s.head - s.tail < D then
    { s with slots := upd s.slots (s.head % D) (s.rxn, s.len s.rxn), head := s.head + 1, rxn := (s.rxn + 1) % n }
  else s

/-- One step of the main program; `room` is the size of the caller's buffer. In kind `poll` there is no queue; its counters go along with `gem_rx_next`. -/
def cpu (K : Kind) (n D room : Nat) (s : S) : S :=
  match s.pc with
  | .idle =>
    match K with
    | .swq =>
      if s.tail = s.head then s
      else { s with pc := .copy (s.slots (s.tail % D)).1 (if (s.slots (s.tail % D)).2 > room then room else (s.slots (s.tail % D)).2) [] }
    | .poll =>
      if s.own s.rxn = true then { s with pc := .copy s.rxn (if s.len s.rxn > room then room else s.len s.rxn) [] } else s
  | .copy i want acc =>
    if acc.length < want then { s with pc := .copy i want (acc ++ [s.buf i acc.length]) }
    else { s with pc := .clear i, out := s.out ++ [acc] }
  | .clear i => { s with len := upd s.len i 0, pc := .give i }
  | .give i => { s with own := upd s.own i false, pc := .next }
  | .next =>
    match K with
    | .swq => { s with tail := s.tail + 1, pc := .idle }
    | .poll => { s with rxn := (s.rxn + 1) % n, head := s.head + 1, tail := s.tail + 1, pc := .idle }

inductive Mac where
  | fetch
  | write (j v : Nat)
  | complete (len : Nat)
deriving DecidableEq, Repr

def mac (n : Nat) (s : S) : Mac → S
  | .fetch => if s.busy = false ∧ s.own s.cur = false then { s with busy := true } else s
  | .write j v => if s.busy then { s with buf := upd s.buf s.cur (upd (s.buf s.cur) j v) } else s
  | .complete l =>
    if s.busy then
      { s with own := upd s.own s.cur true, len := upd s.len s.cur l, busy := false, cur := (s.cur + 1) % n, done := s.done ++ [(List.range l).map (s.buf s.cur)] }
    else s

inductive Act where
  | cpu
  | isr
  | mac (m : Mac)
deriving DecidableEq, Repr

def step (K : Kind) (n D room : Nat) (s : S) : Act → S
  | .cpu => cpu K n D room s
  | .isr => match K with | .swq => isr n D s | .poll => s
  | .mac m => mac n s m

def run (K : Kind) (n D room : Nat) (s : S) (l : List Act) : S := l.foldl (step K n D room) s

/-! ## Specification -/

/-- Frames in the queue whose descriptors have not been given back. -/
def waiting (s : S) : Nat := s.head - s.tail - (if s.pc = .next then 1 else 0)

/-- The interrupt handler's loop never finds all descriptors of the ring in the queue. -/
def NeverFull (K : Kind) (n D room : Nat) : S → List Act → Prop
  | _, [] => True
  | s, a :: l => (a = .isr → waiting s < n) ∧ NeverFull K n D room (step K n D room s a) l

/-! ## Proofs -/

/-- Descriptors given back so far. -/
def back (s : S) : Nat := s.tail + (if s.pc = .next then 1 else 0)

/-- Calls that have copied their frame. -/
def told (s : S) : Nat := s.tail + (match s.pc with | .idle => 0 | .copy _ _ _ => 0 | _ => 1)

def frame (s : S) (q : Nat) : Bytes := s.done.getD q []

structure Inv (K : Kind) (n D room : Nat) (s : S) : Prop where
  th : s.tail ≤ s.head
  hd : s.head ≤ s.done.length
  bd : back s ≤ s.done.length
  pollEq : K = .poll → s.head = s.tail
  win : s.done.length ≤ back s + n
  deep : s.head ≤ s.tail + D
  cur : s.cur = s.done.length % n
  rxn : s.rxn = s.head % n
  own : ∀ i, i < n → (s.own i = true ↔ ∃ q, back s ≤ q ∧ q < s.done.length ∧ q % n = i)
  stored : ∀ q, back s ≤ q → q < s.done.length → (List.range (frame s q).length).map (s.buf (q % n)) = frame s q
  lens : ∀ q, back s ≤ q → q < s.done.length → (∀ i, s.pc = .give i → q ≠ s.tail) → s.len (q % n) = (frame s q).length
  slots : ∀ q, s.tail ≤ q → q < s.head → s.slots (q % D) = (q % n, (frame s q).length)
  busy : s.busy = true → s.done.length < back s + n
  told : s.out = (s.done.take (told s)).map (·.take room)
  pc : s.pc ≠ .idle → s.tail < s.done.length ∧ (K = .swq → s.tail < s.head)
  copy : ∀ i want acc, s.pc = .copy i want acc → i = s.tail % n ∧ want = min room (frame s s.tail).length ∧
    acc = ((List.range (frame s s.tail).length).map (s.buf i)).take acc.length ∧ acc.length ≤ want
  clear : ∀ i, s.pc = .clear i ∨ s.pc = .give i → i = s.tail % n

theorem mod_inj {n a b : Nat} (h : a % n = b % n) (h1 : a ≤ b) (h2 : b < a + n) : a = b := by
  have hn : 0 < n := by omega
  have e1 := Nat.div_add_mod a n
  have e2 := Nat.div_add_mod b n
  have h3 : b / n = a / n := by
    rcases Nat.lt_trichotomy (b / n) (a / n) with h4 | h4 | h4
    · have := Nat.mul_le_mul_left n (show b / n + 1 ≤ a / n from h4)
      rw [Nat.mul_add, Nat.mul_one] at this
      have := Nat.mod_lt b hn
      omega
    · exact h4
    · have := Nat.mul_le_mul_left n (show a / n + 1 ≤ b / n from h4)
      rw [Nat.mul_add, Nat.mul_one] at this
      omega
  rw [h3] at e2
  omega

theorem inv_start (K : Kind) (n D room : Nat) (b : Nat → Nat → Nat) (hn : 0 < n) : Inv K n D room (start b) :=
  { th := Nat.le_refl _, hd := Nat.le_refl _, bd := Nat.le_refl _, pollEq := fun _ => rfl, win := by simp [start, back], deep := by simp [start], cur := by simp [start], rxn := by simp [start]
    own := by intro i _; simp [start]
    stored := by intro q _ h; simp [start] at h
    lens := by intro q _ h; simp [start] at h
    slots := by intro q _ h; simp [start] at h
    busy := by intro h; cases h
    told := by simp [start, told]
    pc := by intro h; exact absurd rfl h
    copy := by intro i w a h; cases h
    clear := by intro i h; rcases h with h | h <;> cases h }

theorem upd_eq {α : Type} (f : Nat → α) (i : Nat) (v : α) : upd f i v i = v := by simp [upd]
theorem upd_ne {α : Type} (f : Nat → α) {i j : Nat} (v : α) (h : j ≠ i) : upd f i v j = f j := by simp [upd, h]

theorem isr_inv {n D room : Nat} {s : S} (hn : 0 < n) (hD : 0 < D) (h : Inv .swq n D room s) (hq : waiting s < n) : Inv .swq n D room (isr n D s) := by
  unfold isr
  split
  · rename_i hc
    have hlt : s.head < s.done.length := by
      rcases Nat.lt_or_ge s.head s.done.length with hx | hx
      · exact hx
      · exfalso
        have he : s.head = s.done.length := by have := h.hd; omega
        obtain ⟨q, q1, q2, q3⟩ := (h.own s.rxn (by rw [h.rxn]; exact Nat.mod_lt _ hn)).1 hc.1
        rw [h.rxn] at q3
        have hw : s.head < back s + n := by
          have h5 := h.th
          unfold waiting at hq
          unfold back
          generalize (if s.pc = .next then 1 else 0) = z at hq ⊢
          omega
        have := mod_inj q3 (by omega) (by omega)
        omega
    have hb : back { s with slots := upd s.slots (s.head % D) (s.rxn, s.len s.rxn), head := s.head + 1, rxn := (s.rxn + 1) % n } = back s := rfl
    have hbt : s.tail ≤ s.head := h.th
    have hbk : back s ≤ s.head := by
      by_cases hx : s.pc = .next
      · have := (h.pc (by rw [hx]; nofun)).2 rfl
        unfold back; rw [if_pos hx]; omega
      · unfold back; rw [if_neg hx]; omega
    refine { h with th := ?_, hd := ?_, pollEq := ?_, deep := ?_, rxn := ?_, slots := ?_, pc := ?_ }
    · show s.tail ≤ s.head + 1; omega
    · exact hlt
    · intro e; cases e
    · show s.head + 1 ≤ s.tail + D; omega
    · show (s.rxn + 1) % n = (s.head + 1) % n
      rw [h.rxn, Nat.mod_add_mod]
    · intro q q1 q2
      have q1' : s.tail ≤ q := q1
      have q2' : q < s.head + 1 := q2
      show upd s.slots (s.head % D) (s.rxn, s.len s.rxn) (q % D) = (q % n, (frame s q).length)
      by_cases e : q = s.head
      · subst e
        rw [upd_eq, h.rxn]
        have hl := h.lens s.head hbk hlt (by
          intro i hi
          have := (h.pc (by rw [hi]; nofun)).2 rfl
          omega)
        rw [hl]
      · rw [upd_ne _ _ (by
          intro hx
          exact e (mod_inj hx (by omega) (by omega)))]
        exact h.slots q q1' (by omega)
    · intro hp
      have := h.pc hp
      exact ⟨this.1, fun _ => by have := this.2 rfl; show s.tail < s.head + 1; omega⟩
  · exact h

theorem mac_inv {K : Kind} {n D room : Nat} {s : S} (hn : 0 < n) (h : Inv K n D room s) (m : Mac) : Inv K n D room (mac n s m) := by
  cases m with
  | fetch =>
    show Inv K n D room (if s.busy = false ∧ s.own s.cur = false then { s with busy := true } else s)
    split
    · rename_i hc
      refine { h with busy := ?_ }
      intro _
      show s.done.length < back s + n
      have hw := h.win
      rcases Nat.lt_or_ge s.done.length (back s + n) with hx | hx
      · exact hx
      · exfalso
        have he : s.done.length = back s + n := by omega
        have ho : s.own s.cur = true := (h.own s.cur (by rw [h.cur]; exact Nat.mod_lt _ hn)).2 ⟨back s, Nat.le_refl _, by omega, by
          rw [h.cur, he, Nat.add_mod_right]⟩
        rw [hc.2] at ho; cases ho
    · exact h
  | write j v =>
    show Inv K n D room (if s.busy = true then { s with buf := upd s.buf s.cur (upd (s.buf s.cur) j v) } else s)
    split
    · rename_i hb
      have hbz := h.busy hb
      have hne : ∀ q, back s ≤ q → q < s.done.length → q % n ≠ s.cur := by
        intro q q1 q2 e
        rw [h.cur] at e
        have := mod_inj e (by omega) (by omega)
        omega
      refine { h with stored := ?_, copy := ?_ }
      · intro q q1 q2
        show (List.range (frame s q).length).map (upd s.buf s.cur _ (q % n)) = frame s q
        rw [upd_ne _ _ (hne q q1 q2)]
        exact h.stored q q1 q2
      · intro i want acc hp
        have hp' : s.pc = .copy i want acc := hp
        obtain ⟨q1, q2, q3, q4⟩ := h.copy i want acc hp'
        have hbk : back s = s.tail := by unfold back; rw [if_neg (by rw [hp']; nofun)]; omega
        have ht := (h.pc (by rw [hp']; nofun)).1
        refine ⟨q1, q2, ?_, q4⟩
        show acc = ((List.range (frame s s.tail).length).map (upd s.buf s.cur _ i)).take acc.length
        rw [upd_ne _ _ (by rw [q1]; exact hne s.tail (by omega) ht)]
        exact q3
    · exact h
  | complete l =>
    show Inv K n D room (if s.busy = true then
      { s with own := upd s.own s.cur true, len := upd s.len s.cur l, busy := false, cur := (s.cur + 1) % n, done := s.done ++ [(List.range l).map (s.buf s.cur)] } else s)
    split
    · rename_i hb
      have hbz := h.busy hb
      obtain ⟨t, ht⟩ : ∃ t, s.done.length = t := ⟨_, rfl⟩
      have hcn : s.cur < n := by rw [h.cur]; exact Nat.mod_lt _ hn
      have hne : ∀ q, back s ≤ q → q < s.done.length → q % n ≠ s.cur := by
        intro q q1 q2 e
        rw [h.cur] at e
        have := mod_inj e (by omega) (by omega)
        omega
      have hlen : (s.done ++ [(List.range l).map (s.buf s.cur)]).length = s.done.length + 1 := by simp
      have hfo : ∀ q, q < s.done.length → (s.done ++ [(List.range l).map (s.buf s.cur)]).getD q [] = frame s q := by
        intro q hq
        unfold frame
        rw [List.getD_eq_getElem?_getD, List.getD_eq_getElem?_getD, List.getElem?_append_left hq]
      have hfn : (s.done ++ [(List.range l).map (s.buf s.cur)]).getD s.done.length [] = (List.range l).map (s.buf s.cur) := by
        rw [List.getD_eq_getElem?_getD, List.getElem?_append_right (Nat.le_refl _)]; simp
      have hb0 := h.bd
      refine { th := h.th, hd := ?_, bd := ?_, pollEq := h.pollEq, win := ?_, deep := h.deep, cur := ?_, rxn := h.rxn, own := ?_, stored := ?_, lens := ?_, slots := ?_, busy := ?_, told := ?_, pc := ?_, copy := ?_, clear := h.clear }
      · have := h.hd; dsimp only; omega
      · show back s ≤ (s.done ++ _).length; omega
      · show (s.done ++ _).length ≤ back s + n; omega
      · show (s.cur + 1) % n = (s.done ++ [_]).length % n
        rw [hlen, h.cur, Nat.mod_add_mod]
      · intro i hi
        show upd s.own s.cur true i = true ↔ ∃ q, back s ≤ q ∧ q < (s.done ++ _).length ∧ q % n = i
        rw [hlen]
        by_cases e : i = s.cur
        · subst e
          rw [upd_eq]
          exact ⟨fun _ => ⟨s.done.length, hb0, by omega, by rw [h.cur]⟩, fun _ => rfl⟩
        · rw [upd_ne _ _ e, h.own i hi]
          constructor
          · rintro ⟨q, q1, q2, q3⟩; exact ⟨q, q1, by omega, q3⟩
          · rintro ⟨q, q1, q2, q3⟩
            refine ⟨q, q1, ?_, q3⟩
            rcases Nat.lt_or_ge q s.done.length with hx | hx
            · exact hx
            · have : q = s.done.length := by omega
              rw [this, ← h.cur] at q3
              exact absurd q3.symm e
      · intro q q1 q2
        have q1' : back s ≤ q := q1
        have q2' : q < s.done.length + 1 := by rw [← hlen]; exact q2
        show (List.range ((s.done ++ [_]).getD q []).length).map (s.buf (q % n)) = (s.done ++ [_]).getD q []
        by_cases e : q < s.done.length
        · rw [hfo q e]; exact h.stored q q1' e
        · have : q = s.done.length := by omega
          rw [this, hfn, ← h.cur]; simp
      · intro q q1 q2 q3
        have q1' : back s ≤ q := q1
        have q2' : q < s.done.length + 1 := by rw [← hlen]; exact q2
        show upd s.len s.cur l (q % n) = ((s.done ++ [_]).getD q []).length
        by_cases e : q < s.done.length
        · rw [hfo q e, upd_ne _ _ (hne q q1' e)]; exact h.lens q q1' e q3
        · have : q = s.done.length := by omega
          rw [this, hfn, ← h.cur, upd_eq]; simp
      · intro q q1 q2
        have hq : q < s.done.length := by have := h.hd; have : q < s.head := q2; omega
        show s.slots (q % D) = (q % n, ((s.done ++ [_]).getD q []).length)
        rw [hfo q hq]; exact h.slots q q1 q2
      · intro e; cases e
      · show s.out = ((s.done ++ [_]).take (told s)).map _
        have hto : told s ≤ s.done.length := by
          unfold told
          cases hp : s.pc with
          | idle => have := h.hd; have := h.th; dsimp only; omega
          | copy i w a => have := h.hd; have := h.th; dsimp only; omega
          | clear i => have := (h.pc (by rw [hp]; nofun)).1; dsimp only; omega
          | give i => have := (h.pc (by rw [hp]; nofun)).1; dsimp only; omega
          | next => have := (h.pc (by rw [hp]; nofun)).1; dsimp only; omega
        rw [List.take_append_of_le_length hto]
        exact h.told
      · intro hp
        have := h.pc hp
        refine ⟨?_, this.2⟩
        show s.tail < (s.done ++ [_]).length
        omega
      · intro i want acc hp
        have hp' : s.pc = .copy i want acc := hp
        have htl := (h.pc (by rw [hp']; nofun)).1
        show i = s.tail % n ∧ want = min room ((s.done ++ [_]).getD s.tail []).length ∧
          acc = ((List.range ((s.done ++ [_]).getD s.tail []).length).map (s.buf i)).take acc.length ∧ acc.length ≤ want
        rw [hfo s.tail htl]
        exact h.copy i want acc hp'
    · exact h

theorem told_next (s : S) (h : s.pc = .next) : told s = s.tail + 1 := by unfold told; rw [h]

theorem cpu_inv {K : Kind} {n D room : Nat} {s : S} (hn : 0 < n) (h : Inv K n D room s) : Inv K n D room (cpu K n D room s) := by
  have hth := h.th
  have hhd := h.hd
  unfold cpu
  cases hp : s.pc with
  | idle =>
    have hbk : back s = s.tail := by unfold back; rw [if_neg (by rw [hp]; nofun)]; omega
    have hto : told s = s.tail := by unfold told; rw [hp]; rfl
    have key : s.tail < s.done.length → (K = .swq → s.tail < s.head) → ∀ i want, i = s.tail % n → want = min room (frame s s.tail).length →
        Inv K n D room { s with pc := .copy i want [] } := by
      intro h1 h2 i want hi hw
      have hb2 : back { s with pc := .copy i want [] } = back s := by rw [hbk]; rfl
      refine { th := h.th, hd := h.hd, bd := by rw [hb2]; exact h.bd, pollEq := h.pollEq, win := by rw [hb2]; exact h.win, deep := h.deep, cur := h.cur, rxn := h.rxn,
               own := by rw [hb2]; exact h.own, stored := by rw [hb2]; exact h.stored, lens := ?_, slots := h.slots, busy := by rw [hb2]; exact h.busy,
               told := ?_, pc := fun _ => ⟨h1, h2⟩, copy := ?_, clear := ?_ }
      · intro q q1 q2 _
        exact h.lens q (by rw [hb2] at q1; exact q1) q2 (by intro i hi; rw [hp] at hi; cases hi)
      · have := h.told; rw [hto] at this; exact this
      · intro i w a e
        cases e
        exact ⟨hi, hw, by simp, by simp⟩
      · intro i e; rcases e with e | e <;> cases e
    cases K with
    | swq =>
      dsimp only
      split
      · exact h
      · rename_i hne
        have hlt : s.tail < s.head := by omega
        have hsl := h.slots s.tail (Nat.le_refl _) hlt
        rw [hsl]
        refine key (by omega) (fun _ => hlt) _ _ rfl ?_
        dsimp only
        split <;> omega
    | poll =>
      dsimp only
      split
      · rename_i ho
        have hpe := h.pollEq rfl
        obtain ⟨q, q1, q2, q3⟩ := (h.own s.rxn (by rw [h.rxn]; exact Nat.mod_lt _ hn)).1 ho
        have ht : s.tail < s.done.length := by omega
        have hr : s.rxn = s.tail % n := by rw [h.rxn, hpe]
        have hl := h.lens s.tail (by omega) ht (by intro i hi; rw [hp] at hi; cases hi)
        refine key ht (fun e => by cases e) _ _ hr ?_
        rw [hr, hl]
        split <;> omega
      · exact h
  | copy i want acc =>
    obtain ⟨c1, c2, c3, c4⟩ := h.copy i want acc hp
    obtain ⟨p1, p2⟩ := h.pc (by rw [hp]; nofun)
    have hbk : back s = s.tail := by unfold back; rw [if_neg (by rw [hp]; nofun)]; omega
    have hto : told s = s.tail := by unfold told; rw [hp]; rfl
    have hst := h.stored s.tail (by omega) p1
    dsimp only
    split
    · rename_i hlt
      have hb2 : back { s with pc := .copy i want (acc ++ [s.buf i acc.length]) } = back s := by rw [hbk]; rfl
      refine { th := h.th, hd := h.hd, bd := by rw [hb2]; exact h.bd, pollEq := h.pollEq, win := by rw [hb2]; exact h.win, deep := h.deep, cur := h.cur, rxn := h.rxn,
               own := by rw [hb2]; exact h.own, stored := by rw [hb2]; exact h.stored, lens := ?_, slots := h.slots, busy := by rw [hb2]; exact h.busy,
               told := ?_, pc := fun _ => ⟨p1, p2⟩, copy := ?_, clear := ?_ }
      · intro q q1 q2 _
        exact h.lens q (by rw [hb2] at q1; exact q1) q2 (by intro i hi; rw [hp] at hi; cases hi)
      · have := h.told; rw [hto] at this; exact this
      · intro i' w a e
        cases e
        refine ⟨c1, c2, ?_, by simp; omega⟩
        show acc ++ [s.buf i acc.length] = ((List.range (frame s s.tail).length).map (s.buf i)).take (acc ++ [_]).length
        rw [List.length_append, List.length_singleton, List.take_add_one, ← c3]
        congr 1
        rw [List.getElem?_map, List.getElem?_range (by omega)]
        rfl
      · intro i' e; rcases e with e | e <;> cases e
    · rename_i hge
      have hb2 : back { s with pc := .clear i, out := s.out ++ [acc] } = back s := by rw [hbk]; rfl
      refine { th := h.th, hd := h.hd, bd := by rw [hb2]; exact h.bd, pollEq := h.pollEq, win := by rw [hb2]; exact h.win, deep := h.deep, cur := h.cur, rxn := h.rxn,
               own := by rw [hb2]; exact h.own, stored := by rw [hb2]; exact h.stored, lens := ?_, slots := h.slots, busy := by rw [hb2]; exact h.busy,
               told := ?_, pc := fun _ => ⟨p1, p2⟩, copy := ?_, clear := ?_ }
      · intro q q1 q2 _
        exact h.lens q (by rw [hb2] at q1; exact q1) q2 (by intro i hi; rw [hp] at hi; cases hi)
      · show s.out ++ [acc] = (s.done.take (s.tail + 1)).map _
        have ho := h.told
        rw [hto] at ho
        rw [List.take_add_one, List.map_append, ← ho]
        congr 1
        have hget : s.done[s.tail]? = some (frame s s.tail) := by
          unfold frame
          rw [List.getD_eq_getElem?_getD, List.getElem?_eq_getElem p1]; rfl
        rw [hget]
        show [acc] = [(frame s s.tail).take room]
        rw [← c1] at hst
        rw [hst] at c3
        have hl : acc.length = min room (frame s s.tail).length := by omega
        rw [c3, hl]
        congr 1
        rcases Nat.le_total room (frame s s.tail).length with hx | hx
        · rw [Nat.min_eq_left hx]
        · rw [Nat.min_eq_right hx, List.take_of_length_le (Nat.le_refl _), List.take_of_length_le hx]
      · intro i' w a e; cases e
      · intro i' e
        rcases e with e | e
        · cases e; exact c1
        · cases e
  | clear i =>
    obtain ⟨p1, p2⟩ := h.pc (by rw [hp]; nofun)
    have hi : i = s.tail % n := h.clear i (Or.inl hp)
    have hbk : back s = s.tail := by unfold back; rw [if_neg (by rw [hp]; nofun)]; omega
    have hto : told s = s.tail + 1 := by unfold told; rw [hp]
    have hb2 : back { s with len := upd s.len i 0, pc := .give i } = back s := by rw [hbk]; rfl
    refine { th := h.th, hd := h.hd, bd := by rw [hb2]; exact h.bd, pollEq := h.pollEq, win := by rw [hb2]; exact h.win, deep := h.deep, cur := h.cur, rxn := h.rxn,
             own := by rw [hb2]; exact h.own, stored := by rw [hb2]; exact h.stored, lens := ?_, slots := h.slots, busy := by rw [hb2]; exact h.busy,
             told := ?_, pc := fun _ => ⟨p1, p2⟩, copy := ?_, clear := ?_ }
    · intro q q1 q2 q3
      have hq : q ≠ s.tail := q3 i rfl
      rw [hb2, hbk] at q1
      have q2' : q < s.done.length := q2
      show upd s.len i 0 (q % n) = _
      rw [upd_ne _ _ (by
        intro e
        rw [hi] at e
        have hw := h.win
        rw [hbk] at hw
        exact hq (mod_inj e.symm q1 (by omega)).symm)]
      exact h.lens q (by omega) q2 (by intro i hi; rw [hp] at hi; cases hi)
    · have := h.told; rw [hto] at this; exact this
    · intro i' w a e; cases e
    · intro i' e
      rcases e with e | e
      · cases e
      · cases e; exact hi
  | give i =>
    obtain ⟨p1, p2⟩ := h.pc (by rw [hp]; nofun)
    have hi : i = s.tail % n := h.clear i (Or.inr hp)
    have hbk : back s = s.tail := by unfold back; rw [if_neg (by rw [hp]; nofun)]; omega
    have hto : told s = s.tail + 1 := by unfold told; rw [hp]
    have hb2 : back { s with own := upd s.own i false, pc := .next } = s.tail + 1 := rfl
    have hw := h.win
    rw [hbk] at hw
    refine { th := h.th, hd := h.hd, bd := by rw [hb2]; exact p1, pollEq := h.pollEq, win := by rw [hb2]; show s.done.length ≤ _; omega, deep := h.deep, cur := h.cur, rxn := h.rxn,
             own := ?_, stored := ?_, lens := ?_, slots := h.slots, busy := ?_, told := ?_, pc := fun _ => ⟨p1, p2⟩, copy := ?_, clear := ?_ }
    · intro j hj
      rw [hb2]
      show upd s.own i false j = true ↔ _
      by_cases e : j = i
      · subst e
        rw [upd_eq]
        constructor
        · intro e; cases e
        · rintro ⟨q, q1, q2, q3⟩
          rw [hi] at q3
          have q2' : q < s.done.length := q2
          have := mod_inj q3.symm (by omega) (by omega)
          omega
      · rw [upd_ne _ _ e, h.own j hj, hbk]
        constructor
        · rintro ⟨q, q1, q2, q3⟩
          refine ⟨q, ?_, q2, q3⟩
          rcases Nat.lt_or_ge s.tail q with hx | hx
          · exact hx
          · have : q = s.tail := by omega
            rw [this] at q3; exact absurd (by rw [← q3, hi]) e
        · rintro ⟨q, q1, q2, q3⟩; exact ⟨q, by omega, q2, q3⟩
    · intro q q1 q2
      rw [hb2] at q1
      exact h.stored q (by omega) q2
    · intro q q1 q2 _
      rw [hb2] at q1
      exact h.lens q (by omega) q2 (fun i' _ => by omega)
    · intro e
      rw [hb2]
      show s.done.length < _
      have := h.busy e
      omega
    · have := h.told; rw [hto] at this; exact this
    · intro i' w a e; cases e
    · intro i' e; rcases e with e | e <;> cases e
  | next =>
    obtain ⟨p1, p2⟩ := h.pc (by rw [hp]; nofun)
    have hbk : back s = s.tail + 1 := by unfold back; rw [if_pos hp]
    have hto := told_next s hp
    have htold := h.told
    rw [hto] at htold
    have hbd := h.bd
    have hwin := h.win
    have hown := h.own
    have hstored := h.stored
    have hbusy := h.busy
    have hlens := h.lens
    rw [hbk] at hbd hwin
    simp only [hbk] at hown hstored hbusy hlens
    have hdeep := h.deep
    cases K with
    | swq =>
      have hlt := p2 rfl
      refine { th := by show s.tail + 1 ≤ s.head; omega, hd := h.hd, bd := hbd, pollEq := (fun e => by cases e), win := hwin, deep := by show s.head ≤ s.tail + 1 + D; omega, cur := h.cur, rxn := h.rxn,
               own := hown, stored := hstored, lens := ?_, slots := ?_, busy := hbusy, told := htold, pc := fun e => absurd rfl e, copy := ?_, clear := ?_ }
      · intro q q1 q2 _
        exact hlens q q1 q2 (by intro i hi; rw [hp] at hi; cases hi)
      · intro q q1 q2
        have q1' : s.tail + 1 ≤ q := q1
        exact h.slots q (by omega) q2
      · intro i' w a e; cases e
      · intro i' e; rcases e with e | e <;> cases e
    | poll =>
      have hpe := h.pollEq rfl
      refine { th := by show s.tail + 1 ≤ s.head + 1; omega, hd := by show s.head + 1 ≤ s.done.length; omega, bd := hbd, pollEq := (fun _ => by show s.head + 1 = s.tail + 1; omega), win := hwin,
               deep := by show s.head + 1 ≤ s.tail + 1 + D; omega, cur := h.cur, rxn := ?_,
               own := hown, stored := hstored, lens := ?_, slots := ?_, busy := hbusy, told := htold, pc := fun e => absurd rfl e, copy := ?_, clear := ?_ }
      · show (s.rxn + 1) % n = (s.head + 1) % n
        rw [h.rxn, Nat.mod_add_mod]
      · intro q q1 q2 _
        exact hlens q q1 q2 (by intro i hi; rw [hp] at hi; cases hi)
      · intro q q1 q2
        have q1' : s.tail + 1 ≤ q := q1
        have q2' : q < s.head + 1 := q2
        omega
      · intro i' w a e; cases e
      · intro i' e; rcases e with e | e <;> cases e

theorem run_inv {K : Kind} {n D room : Nat} (hn : 0 < n) (hD : 0 < D) (l : List Act) : ∀ {s : S}, Inv K n D room s → (K = .swq → NeverFull K n D room s l) →
    Inv K n D room (run K n D room s l) := by
  induction l with
  | nil => intro s h _; exact h
  | cons a l ih =>
    intro s h hq
    refine ih (s := step K n D room s a) ?_ (fun e => (hq e).2)
    cases a with
    | cpu => exact cpu_inv hn h
    | mac m => exact mac_inv hn h m
    | isr =>
      cases K with
      | poll => exact h
      | swq => exact isr_inv hn hD h ((hq rfl).1 rfl)

theorem delivered {K : Kind} {n D room : Nat} {s : S} (h : Inv K n D room s) :
    s.out = (s.done.take s.out.length).map (·.take room) ∧ s.out.length ≤ s.done.length := by
  have ht := h.told
  have hl : s.out.length = min (told s) s.done.length := by rw [ht]; simp
  refine ⟨?_, by omega⟩
  rw [hl]
  rcases Nat.le_total (told s) s.done.length with hx | hx
  · rw [Nat.min_eq_left hx]; exact ht
  · rw [Nat.min_eq_right hx, List.take_of_length_le (Nat.le_refl _)]; rw [List.take_of_length_le hx] at ht; exact ht

/-- **C116**, `gem_rx_poll.c`: the successive calls return exactly the frames the MAC received, each once, in order, unchanged (cut to the caller's buffer), under every interleaving
with the MAC; and when a call finds nothing, all have been returned. -/
theorem gem_poll_exact (n D room : Nat) (hn : 0 < n) (hD : 0 < D) (b : Nat → Nat → Nat) (l : List Act) (s : S) (hs : s = run .poll n D room (start b) l) :
    s.out = (s.done.take s.out.length).map (·.take room) ∧ s.out.length ≤ s.done.length ∧
    (s.pc = .idle → s.own s.rxn = false → s.out.length = s.done.length) := by
  have h : Inv .poll n D room s := by rw [hs]; exact run_inv hn hD l (inv_start _ n D room b hn) (fun e => by cases e)
  refine ⟨(delivered h).1, (delivered h).2, ?_⟩
  intro hp ho
  have hbk : back s = s.tail := by unfold back; rw [if_neg (by rw [hp]; nofun)]; omega
  have hto : told s = s.tail := by unfold told; rw [hp]; rfl
  have hl : s.out.length = min (told s) s.done.length := by rw [h.told]; simp
  have hpe := h.pollEq rfl
  have hge : s.done.length ≤ s.tail := by
    rcases Nat.lt_or_ge s.tail s.done.length with hx | hx
    · have := (h.own s.rxn (by rw [h.rxn]; exact Nat.mod_lt _ hn)).2 ⟨s.tail, by omega, hx, by rw [h.rxn, hpe]⟩
      rw [ho] at this; cases this
    · exact hx
  omega

/-- **C116**, `gem_swq.c`: the same for the interrupt and the polled queue. Missing: it is false when the handler's loop runs while all descriptors of the ring are in the queue (`swq_duplicates`). -/
theorem gem_swq_exact_partial (n D room : Nat) (hn : 0 < n) (hD : 0 < D) (b : Nat → Nat → Nat) (l : List Act) (hq : NeverFull .swq n D room (start b) l)
    (s : S) (hs : s = run .swq n D room (start b) l) :
    s.out = (s.done.take s.out.length).map (·.take room) ∧ s.out.length ≤ s.done.length ∧
    (s.pc = .idle → s.own s.rxn = false → s.tail = s.head → s.out.length = s.done.length) := by
  have h : Inv .swq n D room s := by rw [hs]; exact run_inv hn hD l (inv_start _ n D room b hn) (fun _ => hq)
  refine ⟨(delivered h).1, (delivered h).2, ?_⟩
  intro hp ho hth
  have hbk : back s = s.tail := by unfold back; rw [if_neg (by rw [hp]; nofun)]; omega
  have hto : told s = s.tail := by unfold told; rw [hp]; rfl
  have hl : s.out.length = min (told s) s.done.length := by rw [h.told]; simp
  have hge : s.done.length ≤ s.tail := by
    rcases Nat.lt_or_ge s.tail s.done.length with hx | hx
    · have := (h.own s.rxn (by rw [h.rxn]; exact Nat.mod_lt _ hn)).2 ⟨s.tail, by omega, hx, by rw [h.rxn, hth]⟩
      rw [ho] at this; cases this
    · exact hx
  omega

/-- Receive a frame of one octet. -/
def rx (v : Nat) : List Act := [.mac .fetch, .mac (.write 0 v), .mac (.complete 1)]

/-- One call of `gem_swq_drain` on a frame of one octet. -/
def drain : List Act := List.replicate 6 .cpu

/-- **Finding** (`swq_duplicates`), with the sizes of the code, a ring of 16 and a queue of 64: the handler does not mark a descriptor it has put in the queue. When sixteen frames are waiting its
loop goes on around the ring and queues them all again, until the queue is full; the stack gets each frame four times. -/
theorem swq_duplicates : let s := run .swq 16 64 1536 (start (fun _ _ => 0)) ((List.range 16).flatMap rx ++ List.replicate 100 .isr ++ (List.replicate 64 drain).flatten)
    s.done = (List.range 16).map (fun v => [v]) ∧ s.out = s.done ++ s.done ++ s.done ++ s.done := by
  decide +kernel

/-- **Finding** (`swq_tears`): worse, when the second copy is taken from the queue its descriptor has already been given back, and the MAC is writing the next frame to it: the stack gets a mixture,
here two octets of frame 0 of which the first is already that of frame 2; and the descriptor is given to the MAC a second time. -/
theorem swq_tears : let two (a b : Nat) : List Act := [.mac .fetch, .mac (.write 0 a), .mac (.write 1 b), .mac (.complete 2)]
    let s := run .swq 2 64 1536 (start (fun _ _ => 0)) (two 1 2 ++ two 3 4 ++ List.replicate 3 .isr ++ List.replicate 14 .cpu ++ [.mac .fetch, .mac (.write 0 9)] ++ List.replicate 7 .cpu)
    s.done = [[1, 2], [3, 4]] ∧ s.out = [[1, 2], [3, 4], [9, 2]] := by
  decide +kernel

/-- A run that meets the hypotheses: three frames through a ring of two. -/
example : let l := rx 5 ++ [Act.isr] ++ drain ++ rx 6 ++ [Act.isr] ++ drain ++ rx 7 ++ [Act.isr] ++ drain
    NeverFull .swq 2 4 100 (start (fun _ _ => 0)) l ∧ (run .swq 2 4 100 (start (fun _ _ => 0)) l).out = [[5], [6], [7]] ∧
    (run .poll 2 4 100 (start (fun _ _ => 0)) l).out = [[5], [6], [7]] := by
  refine ⟨?_, by decide, by decide⟩
  simp only [rx, drain, List.replicate, List.append_assoc, List.cons_append, List.nil_append]
  repeat' (first | exact trivial | refine ⟨by decide, ?_⟩)

end Wolf.Drv.Gem
