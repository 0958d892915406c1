import Verif.Text.DottedQuad
/-
DNS name handling, src/wolfip.c 10664-10830 and the encoding part of
`dns_send_query` (11030-11085). C34 and C36.

A response is its list of bytes (values below 256 as naturals would do; bytes
are `UInt8`). Every memory access of the C code is recorded in a trace so that
"never reads or writes outside" is a statement about the trace.
-/
namespace Wolf.Dns

/-- A byte of the response; out-of-range reads are recorded in the trace. -/
def byte (buf : List UInt8) (i : Nat) : Nat := (buf.getD i 0).toNat

/-- Memory accesses: read of the response at an index, write of the output. -/
inductive Acc where
  | rd (i : Nat)
  | wr (i : Nat)
deriving DecidableEq, Repr

/-- Accesses of a `memcpy` of `n` bytes. -/
def copyAcc (src dst n : Nat) : List Acc :=
  (List.range n).flatMap (fun k => [.rd (src + k), .wr (dst + k)])

/-- Result of `dns_skip_name`'s loop: position, number of loop-counter
increments, error. -/
structure SkipSt where
  pos : Nat
  loop : Nat
  err : Bool
  tr : List Acc

/-- Loop of `dns_skip_name`, src/wolfip.c 10713-10726. The first argument is
`len - loop`, i.e. how many more iterations `loop++ < len` allows. -/
def skipLoop (buf : List UInt8) : Nat → Nat → Nat → List Acc → SkipSt
  | 0, pos, loop, tr => ⟨pos, if pos < buf.length then loop + 1 else loop, false, tr⟩
  | f + 1, pos, loop, tr =>
      if pos < buf.length then
        let c := byte buf pos
        if c = 0 then ⟨pos + 1, loop + 1, false, tr ++ [.rd pos]⟩
        else if c ≥ 192 then
          if pos + 1 ≥ buf.length then ⟨pos + 1, loop + 1, true, tr ++ [.rd pos]⟩
          else ⟨pos + 2, loop + 1, false, tr ++ [.rd pos]⟩
        else if pos + 1 + c > buf.length then ⟨pos + 1 + c, loop + 1, true, tr ++ [.rd pos]⟩
        else skipLoop buf f (pos + 1 + c) (loop + 1) (tr ++ [.rd pos])
      else ⟨pos, loop, false, tr⟩

/-- `dns_skip_name`, src/wolfip.c 10709-10735: new position, or `none` for -1. -/
def skipName (buf : List UInt8) (offset : Nat) : Option Nat × List Acc :=
  let r := skipLoop buf buf.length offset 0 []
  if r.err then (none, r.tr)
  else if r.loop ≥ buf.length then (none, r.tr)
  else (some r.pos, r.tr)

/-- Loop of `dns_copy_name`, src/wolfip.c 10780-10822; the first argument is the
number of iterations left. Output: bytes written so far (the C string without
its terminator) or `none` for -1. -/
def copyLoop (buf : List UInt8) (outLen : Nat) : Nat → Nat → List UInt8 → List Acc →
    Option (List UInt8) × List Acc
  | 0, _, _, tr => (none, tr)
  | f + 1, pos, out, tr =>
      if pos < buf.length then
        let c := byte buf pos
        let tr := tr ++ [.rd pos]
        if c = 0 then
          if out.length ≥ outLen then (none, tr) else (some out, tr ++ [.wr out.length])
        else if c ≥ 192 then
          if pos + 1 ≥ buf.length then (none, tr)
          else
            let ptr := (c - 192) * 256 + byte buf (pos + 1)
            if ptr ≥ pos then (none, tr ++ [.rd (pos + 1)])
            else copyLoop buf outLen f ptr out (tr ++ [.rd (pos + 1)])
        else if pos + 1 + c > buf.length then (none, tr)
        else if out ≠ [] then
          if out.length + 1 ≥ outLen then (none, tr)
          else if out.length + 1 + c ≥ outLen then (none, tr ++ [.wr out.length])
          else copyLoop buf outLen f (pos + 1 + c)
            (out ++ [46] ++ (buf.drop (pos + 1)).take c)
            (tr ++ [.wr out.length] ++ copyAcc (pos + 1) (out.length + 1) c)
        else if out.length + c ≥ outLen then (none, tr)
        else copyLoop buf outLen f (pos + 1 + c) ((buf.drop (pos + 1)).take c)
            (tr ++ copyAcc (pos + 1) 0 c)
      else (none, tr)

/-- `dns_copy_name`, src/wolfip.c 10773-10824. -/
def copyName (buf : List UInt8) (offset outLen : Nat) : Option (List UInt8) × List Acc :=
  copyLoop buf outLen buf.length offset [] []

/-! ### Specification of names -/

/-- The labels of the name starting at `p` (RFC 1035 section 4.1.4, with the
code's restrictions: a pointer must point before itself; any first byte below
192 is a label length). First index: number of label/pointer/terminator fields
traversed. -/
inductive NameAt (buf : List UInt8) : Nat → Nat → List (List UInt8) → Prop
  | root {p : Nat} (h : buf[p]? = some 0) : NameAt buf 1 p []
  | label {n p : Nat} {c : UInt8} {ls : List (List UInt8)} (h : buf[p]? = some c)
      (h0 : 0 < c.toNat) (h1 : c.toNat < 192) (h2 : p + 1 + c.toNat ≤ buf.length)
      (rest : NameAt buf n (p + 1 + c.toNat) ls) :
      NameAt buf (n + 1) p ((buf.drop (p + 1)).take c.toNat :: ls)
  | ptr {n p : Nat} {c d : UInt8} {ls : List (List UInt8)} (h : buf[p]? = some c)
      (h1 : 192 ≤ c.toNat) (h2 : buf[p + 1]? = some d)
      (h3 : (c.toNat - 192) * 256 + d.toNat < p)
      (rest : NameAt buf n ((c.toNat - 192) * 256 + d.toNat) ls) : NameAt buf (n + 1) p ls

/-- Labels separated by dots. -/
def dotted : List (List UInt8) → List UInt8
  | [] => []
  | [l] => l
  | l :: ls => l ++ [46] ++ dotted ls

/-- Appending further labels to text already written. -/
def dottedFrom (out : List UInt8) (ls : List (List UInt8)) : List UInt8 :=
  ls.foldl (fun o l => if o ≠ [] then o ++ [46] ++ l else l) out

theorem dottedFrom_ne (ls : List (List UInt8)) : ∀ out, out ≠ [] →
    dottedFrom out ls = if ls = [] then out else out ++ [46] ++ dotted ls := by
  induction ls with
  | nil => intro out _; rfl
  | cons l ls ih =>
    intro out ho
    simp only [dottedFrom, List.foldl_cons, ho, ne_eq, not_false_eq_true, if_true]
    have := ih (out ++ [46] ++ l) (by simp)
    unfold dottedFrom at this
    rw [this]
    cases ls with
    | nil => simp [dotted]
    | cons m ms => simp [dotted, List.append_assoc]

theorem dottedFrom_nil (ls : List (List UInt8)) (h : ∀ l ∈ ls, l ≠ []) :
    dottedFrom [] ls = dotted ls := by
  cases ls with
  | nil => rfl
  | cons l ls =>
    have hl := h l (by simp)
    have e : dottedFrom [] (l :: ls) = dottedFrom l ls := by simp [dottedFrom]
    rw [e, dottedFrom_ne ls l hl]
    cases ls with
    | nil => rfl
    | cons m ms => simp [dotted]

/-! ### C34: bounds -/

/-- A trace stays inside the response and the output buffer. -/
def InBounds (len outLen : Nat) (tr : List Acc) : Prop :=
  ∀ a ∈ tr, match a with | .rd i => i < len | .wr i => i < outLen

theorem inb_append {len ol : Nat} {a b : List Acc} (ha : InBounds len ol a) (hb : InBounds len ol b) :
    InBounds len ol (a ++ b) := by
  intro x hx
  rcases List.mem_append.1 hx with h | h
  · exact ha x h
  · exact hb x h

theorem inb_rd {len ol i : Nat} (h : i < len) : InBounds len ol [.rd i] := by
  intro x hx; simp only [List.mem_singleton] at hx; subst hx; exact h

theorem inb_wr {len ol i : Nat} (h : i < ol) : InBounds len ol [.wr i] := by
  intro x hx; simp only [List.mem_singleton] at hx; subst hx; exact h

theorem inb_copy {len ol s d n : Nat} (h1 : s + n ≤ len) (h2 : d + n ≤ ol) :
    InBounds len ol (copyAcc s d n) := by
  intro x hx
  simp only [copyAcc, List.mem_flatMap, List.mem_range] at hx
  obtain ⟨k, hk, hx⟩ := hx
  simp only [List.mem_cons, List.not_mem_nil, or_false] at hx
  rcases hx with rfl | rfl
  · show s + k < len; omega
  · show d + k < ol; omega

theorem skip_inb (buf : List UInt8) (ol : Nat) : ∀ (f pos loop : Nat) (tr : List Acc),
    InBounds buf.length ol tr → InBounds buf.length ol (skipLoop buf f pos loop tr).tr
  | 0, _, _, _, h => h
  | f + 1, pos, loop, tr, h => by
      unfold skipLoop
      split
      · rename_i hp
        have h' := inb_append h (inb_rd (ol := ol) hp)
        simp only
        split
        · exact h'
        split
        · split <;> exact h'
        split
        · exact h'
        · exact skip_inb buf ol f _ _ _ h'
      · exact h

theorem copy_inb (buf : List UInt8) (ol : Nat) : ∀ (f pos : Nat) (out : List UInt8) (tr : List Acc),
    InBounds buf.length ol tr → InBounds buf.length ol (copyLoop buf ol f pos out tr).2
  | 0, _, _, _, h => h
  | f + 1, pos, out, tr, h => by
      unfold copyLoop
      split
      · rename_i hp
        have h' := inb_append h (inb_rd (ol := ol) hp)
        simp only
        split
        · split
          · exact h'
          · rename_i ho; exact inb_append h' (inb_wr (by omega))
        split
        · split
          · exact h'
          · rename_i hp1
            have h'' := inb_append h' (inb_rd (ol := ol) (i := pos + 1) (len := buf.length) (by omega))
            split
            · exact h''
            · exact copy_inb buf ol f _ _ _ h''
        split
        · exact h'
        · rename_i hlen
          split
          · split
            · exact h'
            · rename_i h1
              have h2 := inb_append h' (inb_wr (len := buf.length) (ol := ol) (i := out.length) (by omega))
              split
              · exact h2
              · rename_i h3
                exact copy_inb buf ol f _ _ _ (inb_append h2 (inb_copy (by omega) (by omega)))
          · rename_i hout
            split
            · exact h'
            · rename_i h3
              exact copy_inb buf ol f _ _ _ (inb_append h' (inb_copy (by omega) (by omega)))
      · exact h

/-- **C34, memory safety**: for every response and every offset, skipping and
copying a name touch only bytes of the response and of the output buffer. (Both
are total functions: the iteration bound is the code's own loop counter.) -/
theorem dns_names_in_bounds (buf : List UInt8) (offset outLen : Nat) :
    InBounds buf.length outLen (skipName buf offset).2 ∧
    InBounds buf.length outLen (copyName buf offset outLen).2 := by
  constructor
  · unfold skipName
    simp only
    have := skip_inb buf outLen buf.length offset 0 [] (by intro a ha; simp at ha)
    split
    · exact this
    split
    · exact this
    · exact this
  · exact copy_inb buf outLen _ _ _ _ (by intro a ha; simp at ha)

theorem skip_range (buf : List UInt8) : ∀ (f pos loop : Nat) (tr : List Acc),
    pos ≤ (skipLoop buf f pos loop tr).pos ∧
    ((skipLoop buf f pos loop tr).err = false → pos ≤ buf.length →
      (skipLoop buf f pos loop tr).pos ≤ buf.length)
  | 0, pos, _, _ => ⟨Nat.le_refl _, fun _ h => h⟩
  | f + 1, pos, loop, tr => by
      unfold skipLoop
      split
      · simp only
        split
        · exact ⟨by simp, fun _ _ => by simp only; omega⟩
        split
        · split
          · exact ⟨by simp, fun h => by simp at h⟩
          · exact ⟨by simp, fun _ _ => by simp only; omega⟩
        split
        · exact ⟨by simp only; omega, fun h => by simp at h⟩
        · have := skip_range buf f (pos + 1 + byte buf pos) (loop + 1) (tr ++ [.rd pos])
          exact ⟨by omega, fun h _ => this.2 h (by omega)⟩
      · exact ⟨Nat.le_refl _, fun _ h => h⟩

/-- **C34**: the position reported after a name lies within the response. -/
theorem dns_skip_stays_inside (buf : List UInt8) (offset p : Nat) (ho : offset ≤ buf.length)
    (h : (skipName buf offset).1 = some p) : offset ≤ p ∧ p ≤ buf.length := by
  unfold skipName at h
  simp only at h
  have := skip_range buf buf.length offset 0 []
  split at h
  · simp at h
  · rename_i he
    split at h
    · simp at h
    · simp only [Option.some.injEq] at h
      rw [← h]
      exact ⟨this.1, this.2 (by simpa using he) ho⟩

theorem byte_eq {buf : List UInt8} {p : Nat} {c : UInt8} (h : buf[p]? = some c) :
    byte buf p = c.toNat := by
  unfold byte; rw [List.getD_eq_getElem?_getD, h]; rfl

theorem exists_byte {buf : List UInt8} {p : Nat} (h : p < buf.length) :
    ∃ c, buf[p]? = some c ∧ byte buf p = c.toNat := by
  refine ⟨buf[p], List.getElem?_eq_getElem h, ?_⟩
  exact byte_eq (List.getElem?_eq_getElem h)

/-- Labels of a name are not empty. -/
theorem nameAt_ne {buf : List UInt8} {n p : Nat} {ls : List (List UInt8)} (h : NameAt buf n p ls) :
    ∀ l ∈ ls, l ≠ [] := by
  induction h with
  | root _ => simp
  | label _ h0 _ h2 _ ih =>
    intro l hl
    rcases List.mem_cons.1 hl with rfl | hl
    · intro he
      have := congrArg List.length he
      simp [List.length_take, List.length_drop] at this
      omega
    · exact ih l hl
  | ptr _ _ _ _ _ ih => exact ih

theorem copy_sound (buf : List UInt8) (ol : Nat) : ∀ (f pos : Nat) (out : List UInt8) (tr : List Acc)
    (s : List UInt8), (copyLoop buf ol f pos out tr).1 = some s →
    ∃ n ls, n ≤ f ∧ NameAt buf n pos ls ∧ s = dottedFrom out ls ∧ s.length < ol
  | 0, _, _, _, _, h => by simp [copyLoop] at h
  | f + 1, pos, out, tr, s, h => by
      unfold copyLoop at h
      split at h
      · rename_i hp
        obtain ⟨c, hc, hb⟩ := exists_byte hp
        simp only [hb] at h
        split at h
        · rename_i h0
          split at h
          · simp at h
          · rename_i ho
            simp only [Option.some.injEq] at h
            subst h
            refine ⟨1, [], by omega, NameAt.root ?_, rfl, by omega⟩
            rw [hc]; congr 1; exact UInt8.toNat_inj.1 (by simpa using h0)
        · rename_i h0
          split at h
          · rename_i h1
            split at h
            · simp at h
            · rename_i hp1
              obtain ⟨d, hd, hb2⟩ := exists_byte (buf := buf) (p := pos + 1) (by omega)
              simp only [hb2] at h
              split at h
              · simp at h
              · rename_i hlt
                obtain ⟨n, ls, i1, i2, i3, i4⟩ := copy_sound buf ol f _ _ _ _ h
                exact ⟨n + 1, ls, by omega, NameAt.ptr hc h1 hd (by omega) i2, i3, i4⟩
          · rename_i h1
            split at h
            · simp at h
            · rename_i h2
              split at h
              · rename_i hout
                split at h
                · simp at h
                split at h
                · simp at h
                · obtain ⟨n, ls, i1, i2, i3, i4⟩ := copy_sound buf ol f _ _ _ _ h
                  refine ⟨n + 1, _, by omega, NameAt.label hc (by omega) (by omega) (by omega) i2, ?_, i4⟩
                  rw [i3]; simp only [dottedFrom, List.foldl_cons, hout, ne_eq, not_false_eq_true, if_true]
              · rename_i hout
                have hout : out = [] := by simpa using hout
                split at h
                · simp at h
                · obtain ⟨n, ls, i1, i2, i3, i4⟩ := copy_sound buf ol f _ _ _ _ h
                  refine ⟨n + 1, _, by omega, NameAt.label hc (by omega) (by omega) (by omega) i2, ?_, i4⟩
                  rw [i3]; simp [dottedFrom, hout]
      · simp at h

/-- **C34, faithful copy**: what `dns_copy_name` hands over is the dotted text of
the labels found by following the message (with compression), and it and its
terminating NUL fit the output buffer. -/
theorem dns_copy_is_the_name (buf : List UInt8) (offset outLen : Nat) (s : List UInt8)
    (h : (copyName buf offset outLen).1 = some s) :
    ∃ n ls, NameAt buf n offset ls ∧ s = dotted ls ∧ s.length < outLen := by
  obtain ⟨n, ls, _, h2, h3, h4⟩ := copy_sound buf outLen _ _ _ _ _ h
  exact ⟨n, ls, h2, by rw [h3, dottedFrom_nil ls (nameAt_ne h2)], h4⟩

theorem dottedFrom_len_le (ls : List (List UInt8)) : ∀ out, out.length ≤ (dottedFrom out ls).length := by
  induction ls with
  | nil => intro out; exact Nat.le_refl _
  | cons l ls ih =>
    intro out
    have : dottedFrom out (l :: ls) = dottedFrom (if out ≠ [] then out ++ [46] ++ l else l) ls := rfl
    rw [this]
    refine Nat.le_trans ?_ (ih _)
    split
    · simp only [List.length_append]; omega
    · rename_i h; have : out = [] := by simpa using h
      subst this; simp

theorem copy_complete (buf : List UInt8) (ol : Nat) {n p : Nat} {ls : List (List UInt8)}
    (h : NameAt buf n p ls) : ∀ (f : Nat) (out : List UInt8) (tr : List Acc), n ≤ f →
    (dottedFrom out ls).length < ol →
    (copyLoop buf ol f p out tr).1 = some (dottedFrom out ls) := by
  have hlt : ∀ {p : Nat} {c : UInt8}, buf[p]? = some c → p < buf.length :=
    fun h => (List.getElem?_eq_some_iff.1 h).1
  induction h with
  | root hc =>
    intro f out tr hf hl
    cases f with
    | zero => omega
    | succ f =>
      unfold copyLoop
      rw [if_pos (hlt hc)]
      simp only [byte_eq hc]
      have : ¬ out.length ≥ ol := by simp only [dottedFrom, List.foldl_nil] at hl; omega
      simp [this, dottedFrom]
  | @label n p c ls hc h0 h1 h2 rest ih =>
    intro f out tr hf hl
    cases f with
    | zero => omega
    | succ f =>
      unfold copyLoop
      rw [if_pos (hlt hc)]
      simp only [byte_eq hc]
      rw [if_neg (by omega), if_neg (by omega), if_neg (by omega)]
      have hll : ((buf.drop (p + 1)).take c.toNat).length = c.toNat := by
        simp [List.length_take, List.length_drop]; omega
      have hmono := dottedFrom_len_le ls
        (if out ≠ [] then out ++ [46] ++ (buf.drop (p + 1)).take c.toNat else (buf.drop (p + 1)).take c.toNat)
      have e : dottedFrom out ((buf.drop (p + 1)).take c.toNat :: ls) =
        dottedFrom (if out ≠ [] then out ++ [46] ++ (buf.drop (p + 1)).take c.toNat else (buf.drop (p + 1)).take c.toNat) ls := rfl
      rw [e] at hl ⊢
      by_cases ho : out ≠ []
      · rw [if_pos ho] at hl hmono ⊢
        rw [if_pos ho]
        simp only [List.length_append, List.length_cons, List.length_nil, hll] at hmono
        rw [if_neg (by omega), if_neg (by omega)]
        exact ih f _ _ (by omega) hl
      · rw [if_neg ho] at hl hmono ⊢
        rw [if_neg ho]
        have : out = [] := by simpa using ho
        rw [hll] at hmono
        rw [if_neg (by subst this; simp only [List.length_nil]; omega)]
        exact ih f _ _ (by omega) hl
  | @ptr n p c d ls hc h1 hd h3 rest ih =>
    intro f out tr hf hl
    cases f with
    | zero => omega
    | succ f =>
      unfold copyLoop
      rw [if_pos (hlt hc)]
      simp only [byte_eq hc, byte_eq hd]
      rw [if_neg (by omega), if_pos h1, if_neg (by have := hlt hd; omega), if_neg (by omega)]
      exact ih f _ _ (by omega) hl

/-- **C34, every well-formed name is accepted** if it fits, provided it takes no
more fields than the response has bytes (always true without compression). -/
theorem dns_copy_accepts (buf : List UInt8) (offset outLen n : Nat) (ls : List (List UInt8))
    (h : NameAt buf n offset ls) (hn : n ≤ buf.length) (hl : (dotted ls).length < outLen) :
    (copyName buf offset outLen).1 = some (dotted ls) := by
  have e := dottedFrom_nil ls (nameAt_ne h)
  have := copy_complete buf outLen h buf.length [] [] hn (by rw [e]; exact hl)
  rw [e] at this; exact this

/-- Where a name ends in the message: after its terminator or its first pointer. -/
inductive EndsAt (buf : List UInt8) : Nat → Nat → Prop
  | root {p : Nat} (h : buf[p]? = some 0) : EndsAt buf p (p + 1)
  | ptr {p : Nat} {c : UInt8} (h : buf[p]? = some c) (h1 : 192 ≤ c.toNat)
      (h2 : p + 1 < buf.length) : EndsAt buf p (p + 2)
  | label {p e : Nat} {c : UInt8} (h : buf[p]? = some c) (h0 : 0 < c.toNat) (h1 : c.toNat < 192)
      (h2 : p + 1 + c.toNat ≤ buf.length) (rest : EndsAt buf (p + 1 + c.toNat) e) : EndsAt buf p e

theorem skip_sound (buf : List UInt8) : ∀ (f pos loop : Nat) (tr : List Acc),
    f + loop = buf.length → pos ≤ buf.length → (skipLoop buf f pos loop tr).err = false →
    (skipLoop buf f pos loop tr).loop < buf.length →
    EndsAt buf pos (skipLoop buf f pos loop tr).pos ∨ (skipLoop buf f pos loop tr).pos = buf.length
  | 0, pos, loop, tr, hs, hp, _, hl => by
      unfold skipLoop at hl ⊢
      simp only at hl ⊢
      split at hl <;> omega
  | f + 1, pos, loop, tr, hs, hp, he, hl => by
      unfold skipLoop at he hl ⊢
      split
      · rename_i hlt
        rw [if_pos hlt] at he hl
        obtain ⟨c, hc, hb⟩ := exists_byte hlt
        simp only [hb] at he hl ⊢
        split
        · rename_i h0
          left; exact EndsAt.root (by rw [hc]; congr 1; exact UInt8.toNat_inj.1 (by simpa using h0))
        · rename_i h0
          rw [if_neg h0] at he hl
          split
          · rename_i h1
            rw [if_pos h1] at he hl
            split
            · rename_i h2; rw [if_pos h2] at he; simp at he
            · rename_i h2; left; exact EndsAt.ptr hc h1 (by omega)
          · rename_i h1
            rw [if_neg h1] at he hl
            split
            · rename_i h2; rw [if_pos h2] at he; simp at he
            · rename_i h2
              rw [if_neg h2] at he hl
              rcases skip_sound buf f _ _ _ (by omega) (by omega) he hl with h | h
              · left; exact EndsAt.label hc (by omega) (by omega) (by omega) h
              · right; exact h
      · right; simp only; omega

/-- **C34, skipping**: the position after `dns_skip_name` is the end of the name
as encoded in the message, or the end of the message (name cut short). -/
theorem dns_skip_is_the_end (buf : List UInt8) (offset p : Nat) (ho : offset ≤ buf.length)
    (h : (skipName buf offset).1 = some p) : EndsAt buf offset p ∨ p = buf.length := by
  unfold skipName at h
  simp only at h
  split at h
  · simp at h
  · rename_i he
    split at h
    · simp at h
    · rename_i hl
      simp only [Option.some.injEq] at h
      rw [← h]
      exact skip_sound buf _ _ _ _ (by omega) ho (by simpa using he) (by omega)

/-- Non-vacuity: a compressed name `ab.c` and its copy; and a self-referencing
pointer chain that the loop counter ends. -/
example : (copyName [1, 99, 0, 2, 97, 98, 192, 0, 0] 3 10).1 = some [97, 98, 46, 99] ∧
    (skipName [1, 99, 0, 2, 97, 98, 192, 0, 0] 3).1 = some 8 ∧
    (copyName [1, 99, 192, 0] 0 100).1 = none := by decide

end Wolf.Dns
