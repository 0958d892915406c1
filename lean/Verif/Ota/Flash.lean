/-!
# C125: staging a firmware image in the update partition (STM32H563)

Model of the sink callbacks of the TFTP demo, `src/port/stm32h563/tftp_client_demo.c` 204–433, and of the
flash they drive. Every flash operation is logged; the contents of the flash after any prefix of the log,
and after an operation cut short by a power failure, are given by a small separate device specification.
-/
namespace Wolf.Ota

/-- `WOLFBOOT_PARTITION_UPDATE_ADDRESS` = 0x08100000. tftp_client_demo.c 41–43. -/
notation "partBase" => (135266304 : Nat)
/-- `WOLFBOOT_PARTITION_SIZE` = 0xA0000. tftp_client_demo.c 44–46. -/
notation "partSize" => (655360 : Nat)
/-- `H5_FLASH_PAGE_SIZE` = 0x2000. tftp_client_demo.c 94. -/
notation "pageSize" => (8192 : Nat)
/-- `H5_FLASH_BASE_ADDR`, `H5_FLASH_TOP`. tftp_client_demo.c 96–97. -/
notation "flashBase" => (134217728 : Nat)
notation "flashTop" => (136314879 : Nat)
/-- `WOLFBOOT_IMG_STATE_UPDATING`. tftp_client_demo.c 54–56. -/
notation "updating" => (112 : Nat)

/-! ## The device (specification) -/

/-- A flash operation and whether the controller reported success. -/
inductive FOp where
  | erase (a : Nat) (ok : Bool)
  | prog (a : Nat) (d : List Nat) (ok : Bool)
deriving DecidableEq

/-- Contents of the flash, by address. -/
abbrev Mem := Nat → Nat

/-- The sixteen bytes at `a` are erased. -/
def Blank (m : Mem) (a : Nat) : Prop := ∀ x, a ≤ x → x < a + 16 → m x = 255

/-- What an operation may do to the flash. An erase of a page makes every byte of it 255; one that fails
or is cut short leaves anything there, except that a byte already erased stays erased. Programming puts
the sixteen bytes in place if they were erased; if they were not, or if the operation fails or is cut
short, anything may be there. Nothing else changes. -/
def Eff : FOp → Mem → Mem → Prop
  | .erase a true, m, m' => ∀ x, m' x = if a ≤ x ∧ x < a + pageSize then 255 else m x
  | .erase a false, m, m' => ∀ x, (¬ (a ≤ x ∧ x < a + pageSize) → m' x = m x) ∧ (m x = 255 → m' x = 255)
  | .prog a d true, m, m' =>
      (∀ x, ¬ (a ≤ x ∧ x < a + 16) → m' x = m x) ∧ (Blank m a → ∀ i, i < 16 → m' (a + i) = d.getD i 0)
  | .prog a _ false, m, m' => ∀ x, ¬ (a ≤ x ∧ x < a + 16) → m' x = m x

/-- The contents after a list of operations. -/
def Exec : Mem → List FOp → Mem → Prop
  | m, [], m' => m' = m
  | m, op :: ops, m' => ∃ m1, Eff op m m1 ∧ Exec m1 ops m'

/-- The operation, cut short. -/
def torn : FOp → FOp
  | .erase a _ => .erase a false
  | .prog a d _ => .prog a d false

/-- Possible contents when power fails at some moment of the history `log`: after some of the operations,
the next one perhaps cut short. -/
def Crash (m0 : Mem) (log : List FOp) (m : Mem) : Prop :=
  (∃ pre suf, log = pre ++ suf ∧ Exec m0 pre m) ∨
  (∃ pre op suf, log = pre ++ op :: suf ∧ Exec m0 (pre ++ [torn op]) m)

/-! ## Model -/

/-- `struct tftp_demo_handle` without `flash_unlocked`: `qword` is the 16-byte array, `cnt` is `qword_have`.
tftp_client_demo.c 108–115. -/
structure Hd where
  written : Nat
  erased : Nat
  qaddr : Nat
  qword : List Nat
  cnt : Nat
deriving DecidableEq

/-- The handle and the flash operations issued so far. -/
structure St where
  h : Hd
  log : List FOp
deriving DecidableEq

/-- Result of a callback: it returns 0, it returns an error, or it writes outside `qword`. -/
inductive R where
  | ok (s : St)
  | err (s : St)
  | oob
deriving DecidableEq

/-- The history of flash operations of a result. -/
def R.log : R → List FOp
  | .ok s => s.log
  | .err s => s.log
  | .oob => []

/-- `h5_flash_erase_page`: the range check, then one page erase; `e n` says whether the `n`-th flash operation
succeeds. The register sequence is in `eraseTarget` below. tftp_client_demo.c 204–237. -/
def erasePage (e : Nat → Bool) (s : St) (a : Nat) : R :=
  if a < flashBase ∨ a > flashTop then .err s
  else if e s.log.length then .ok { s with log := s.log ++ [.erase a true] }
  else .err { s with log := s.log ++ [.erase a false] }

/-- `h5_flash_program_qword`: alignment check, then one quad-word. tftp_client_demo.c 241–276. -/
def progQword (e : Nat → Bool) (s : St) (a : Nat) (d : List Nat) : R :=
  if a % 16 ≠ 0 then .err s
  else if e s.log.length then .ok { s with log := s.log ++ [.prog a d true] }
  else .err { s with log := s.log ++ [.prog a d false] }

/-- `demo_open`. tftp_client_demo.c 279–301. -/
def demoOpen (log : List FOp) : St := ⟨⟨0, partBase, partBase, List.replicate 16 255, 0⟩, log⟩

/-- The loop of `demo_ensure_erased`; the first argument bounds the turns (each advances by a page).
tftp_client_demo.c 304–313. -/
def ensureLoop (e : Nat → Bool) : Nat → St → Nat → R
  | 0, s, _ => .ok s
  | fuel + 1, s, addrEnd =>
    if s.h.erased < addrEnd then
      match erasePage e s s.h.erased with
      | .ok s1 => ensureLoop e fuel { s1 with h := { s1.h with erased := s1.h.erased + pageSize } } addrEnd
      | r => r
    else .ok s

/-- `demo_ensure_erased`. tftp_client_demo.c 304–313. -/
def ensureErased (e : Nat → Bool) (s : St) (addrEnd : Nat) : R :=
  ensureLoop e (addrEnd - s.h.erased) s addrEnd

/-- `demo_flush_qword`. tftp_client_demo.c 319–335. -/
def flushQword (e : Nat → Bool) (s : St) : R :=
  if s.h.cnt < 16 then .ok s
  else
    match ensureErased e s (s.h.qaddr + 16) with
    | .ok s1 =>
      match progQword e s1 s1.h.qaddr s1.h.qword with
      | .ok s2 => .ok { s2 with h := { s2.h with qaddr := s2.h.qaddr + 16, cnt := 0, qword := List.replicate 16 255 } }
      | r => r
    | r => r

/-- One turn of the loop of `demo_write`. tftp_client_demo.c 349–359. -/
def writeByte (e : Nat → Bool) (s : St) (b : Nat) : R :=
  if s.h.cnt ≥ 16 then .oob
  else
    let h := { s.h with qword := s.h.qword.set s.h.cnt b, cnt := s.h.cnt + 1, written := s.h.written + 1 }
    if h.cnt = 16 then flushQword e { s with h := h } else .ok { s with h := h }

def writeBytes (e : Nat → Bool) : St → List Nat → R
  | s, [] => .ok s
  | s, b :: bs =>
    match writeByte e s b with
    | .ok s1 => writeBytes e s1 bs
    | r => r

/-- `demo_write`; a block is at most 65535 bytes, so the 32-bit sum does not wrap. tftp_client_demo.c 337–361. -/
def demoWrite (e : Nat → Bool) (s : St) (buf : List Nat) : R :=
  if s.h.written + buf.length > partSize then .err s else writeBytes e s buf

/-- `demo_trigger_update`. tftp_client_demo.c 381–402. -/
def trigger (e : Nat → Bool) (s : St) : R :=
  let trailer := partBase + partSize - 1
  let q := trailer - trailer % 16
  match ensureErased e s (q - q % pageSize + pageSize) with
  | .ok s1 => progQword e s1 q ((List.replicate 16 255).set (trailer - q) updating)
  | r => r

/-- The padding of the last quad-word by `demo_verify`. tftp_client_demo.c 414–415. -/
def padTo16 (h : Hd) : Hd := { h with qword := h.qword.take h.cnt ++ List.replicate (16 - h.cnt) 255, cnt := 16 }

/-- `demo_verify`. tftp_client_demo.c 404–433. -/
def demoVerify (e : Nat → Bool) (s : St) (total : Nat) : R :=
  let r1 := if 0 < s.h.cnt ∧ s.h.cnt < 16 then flushQword e { s with h := padTo16 s.h } else .ok s
  match r1 with
  | .ok s1 => if total ≠ 0 ∧ total ≠ s1.h.written then .err s1 else trigger e s1
  | r => r

/-- The blocks of a transfer given to `demo_write` one after the other, stopping at the first failure (as the
client does, `src/tftp/wolftftp.c` 714–723). -/
def writeAll (e : Nat → Bool) : St → List (List Nat) → R
  | s, [] => .ok s
  | s, b :: bs =>
    match demoWrite e s b with
    | .ok s1 => writeAll e s1 bs
    | r => r

/-- A whole transfer: open, the blocks, and the verification after the last one. -/
def session (e : Nat → Bool) (blocks : List (List Nat)) (total : Nat) : R :=
  match writeAll e (demoOpen []) blocks with
  | .ok s => demoVerify e s total
  | r => r

/-! ## Specification -/

/-- The byte that asks the boot loader to install the image. -/
notation "flagAddr" => (135921663 : Nat)

/-- The image is in the partition. -/
def Holds (m : Mem) (image : List Nat) : Prop := ∀ i, i < image.length → m (partBase + i) = image.getD i 0

/-- Nothing outside the update partition differs. -/
def Untouched (m0 m : Mem) : Prop := ∀ x, x < partBase ∨ partBase + partSize ≤ x → m x = m0 x

/-- Every quad-word programmed in the history was erased at that time. -/
def ProgramsErased (m0 : Mem) (log : List FOp) : Prop :=
  ∀ pre a d ok suf, log = pre ++ FOp.prog a d ok :: suf → ∀ m, Exec m0 pre m → Blank m a

/-! ## Device lemmas -/

theorem exec_snoc (m : Mem) (l : List FOp) (op : FOp) (m' : Mem) :
    Exec m (l ++ [op]) m' ↔ ∃ m1, Exec m l m1 ∧ Eff op m1 m' := by
  induction l generalizing m with
  | nil =>
    constructor
    · rintro ⟨m1, h1, h2⟩; cases h2; exact ⟨m, rfl, h1⟩
    · rintro ⟨m1, h1, h2⟩; cases h1; exact ⟨m', h2, rfl⟩
  | cons a l ih =>
    constructor
    · rintro ⟨m1, h1, h2⟩
      obtain ⟨m2, h3, h4⟩ := (ih m1).1 h2
      exact ⟨m2, ⟨m1, h1, h3⟩, h4⟩
    · rintro ⟨m2, ⟨m1, h1, h3⟩, h4⟩
      exact ⟨m1, h1, (ih m1).2 ⟨m2, h3, h4⟩⟩

theorem snoc_split {α : Type} {l pre suf : List α} {op op' : α} (h : l ++ [op] = pre ++ op' :: suf) :
    (pre = l ∧ op' = op ∧ suf = []) ∨ ∃ suf', l = pre ++ op' :: suf' := by
  rcases List.eq_nil_or_concat suf with h1 | ⟨t, z, h1⟩
  · subst h1
    obtain ⟨a, b⟩ := List.append_inj' h rfl
    cases b
    exact .inl ⟨a.symm, rfl, rfl⟩
  · rw [h1, List.concat_eq_append, ← List.cons_append, ← List.append_assoc] at h
    exact .inr ⟨t, (List.append_inj' h rfl).1⟩

theorem crash_snoc {m0 : Mem} {l : List FOp} {op : FOp} {m : Mem} (h : Crash m0 (l ++ [op]) m) :
    Crash m0 l m ∨ Exec m0 (l ++ [op]) m ∨ Exec m0 (l ++ [torn op]) m := by
  rcases h with ⟨pre, suf, h1, h2⟩ | ⟨pre, op', suf, h1, h2⟩
  · rcases List.eq_nil_or_concat suf with h3 | ⟨t, z, h3⟩
    · rw [h3, List.append_nil] at h1; rw [h1]; exact .inr (.inl h2)
    · rw [h3, List.concat_eq_append, ← List.append_assoc] at h1
      exact .inl (.inl ⟨pre, t, (List.append_inj' h1 rfl).1, h2⟩)
  · rcases snoc_split h1 with ⟨a, b, c⟩ | ⟨suf', h3⟩
    · subst a; subst b; exact .inr (.inr h2)
    · exact .inl (.inr ⟨pre, op', suf', h3, h2⟩)

theorem crash_nil {m0 m : Mem} (h : Crash m0 [] m) : m = m0 := by
  rcases h with ⟨pre, suf, h1, h2⟩ | ⟨pre, op, suf, h1, _⟩
  · have : pre = [] := (List.append_eq_nil_iff.1 h1.symm).1
    subst this; exact h2
  · cases pre <;> cases h1

/-! ## Invariant -/

/-- While the image `I` is being staged: the first `q` bytes are programmed, the flash is erased up to `er`. -/
structure Core (m0 : Mem) (I : List Nat) (log : List FOp) (q er : Nat) : Prop where
  exec : ∀ m, Exec m0 log m → ∀ x, m x = if partBase ≤ x ∧ x < partBase + q then I.getD (x - partBase) 255
    else if partBase + q ≤ x ∧ x < er then 255 else m0 x
  crash : ∀ m, Crash m0 log m → Untouched m0 m ∧ (m0 flagAddr = 255 → q ≤ partSize - 16 → m flagAddr = 255)
  once : ProgramsErased m0 log
  lo : partBase + q ≤ er
  hi : er ≤ partBase + partSize
  page : (er - partBase) % pageSize = 0

/-- What holds of the history whatever went wrong. -/
structure Quiet (m0 : Mem) (I : List Nat) (log : List FOp) : Prop where
  crash : ∀ m, Crash m0 log m → Untouched m0 m ∧ (m0 flagAddr = 255 → I.length ≤ partSize - 16 → m flagAddr = 255)
  once : ProgramsErased m0 log

theorem core_init (m0 : Mem) (I : List Nat) : Core m0 I [] 0 partBase where
  exec := by
    intro m h x; cases h
    rw [if_neg (by omega), if_neg (by omega)]
  crash := by
    intro m h; rw [crash_nil h]; exact ⟨fun _ _ => rfl, fun h _ => h⟩
  once := by intro pre a d ok suf h; cases pre <;> cases h
  lo := by omega
  hi := by omega
  page := by omega

theorem once_snoc {m0 : Mem} {l : List FOp} {op : FOp} (h : ProgramsErased m0 l)
    (hn : ∀ a d ok, op = .prog a d ok → ∀ m, Exec m0 l m → Blank m a) : ProgramsErased m0 (l ++ [op]) := by
  intro pre a d ok suf e m hm
  rcases snoc_split e with ⟨a1, b, _⟩ | ⟨suf', h3⟩
  · subst a1; exact hn a d ok b.symm m hm
  · exact h pre a d ok suf' h3 m hm

/-- The flash after an erase of the next page, whole or cut short. -/
theorem Core.erase_crash {m0 : Mem} {I : List Nat} {log : List FOp} {q er : Nat} (c : Core m0 I log q er)
    (h : er < partBase + partSize) (ok : Bool) (m : Mem) (hm : Crash m0 (log ++ [.erase er ok]) m) :
    Untouched m0 m ∧ (m0 flagAddr = 255 → q ≤ partSize - 16 → m flagAddr = 255) := by
  have hp := c.page
  have hl := c.lo
  have key : ∀ b, Exec m0 (log ++ [.erase er b]) m →
      Untouched m0 m ∧ (m0 flagAddr = 255 → q ≤ partSize - 16 → m flagAddr = 255) := by
    intro b hb
    obtain ⟨m1, h1, h2⟩ := (exec_snoc _ _ _ _).1 hb
    have q1 := c.crash m1 (.inl ⟨log, [], by simp, h1⟩)
    cases b with
    | true =>
      refine ⟨fun x hx => ?_, fun h3 h4 => ?_⟩
      · rw [h2 x, if_neg (by omega)]; exact q1.1 x hx
      · rw [h2]; split
        · rfl
        · exact q1.2 h3 h4
    | false =>
      refine ⟨fun x hx => ?_, fun h3 h4 => (h2 _).2 (q1.2 h3 h4)⟩
      rw [(h2 x).1 (by omega)]; exact q1.1 x hx
  rcases crash_snoc hm with h1 | h1 | h1
  · exact c.crash m h1
  · exact key ok h1
  · exact key false h1

theorem Core.erase {m0 : Mem} {I : List Nat} {log : List FOp} {q er : Nat} (c : Core m0 I log q er)
    (h : er < partBase + partSize) : Core m0 I (log ++ [.erase er true]) q (er + pageSize) where
  exec := by
    intro m hm x
    obtain ⟨m1, h1, h2⟩ := (exec_snoc _ _ _ _).1 hm
    have e1 := c.exec m1 h1 x
    have hl := c.lo
    rw [h2 x]
    by_cases a : er ≤ x ∧ x < er + pageSize
    · rw [if_pos a, if_neg (by omega), if_pos (by omega)]
    · rw [if_neg a, e1]
      split
      · rfl
      · by_cases b : partBase + q ≤ x ∧ x < er
        · rw [if_pos b, if_pos (by omega)]
        · rw [if_neg b, if_neg (by omega)]
  crash := c.erase_crash h true
  once := once_snoc c.once (by intro a d ok e; cases e)
  lo := by have := c.lo; omega
  hi := by have := c.page; omega
  page := by
    have h1 := c.lo
    have h2 : partBase ≤ er := by omega
    rw [Nat.sub_add_comm h2, Nat.add_mod_right]
    exact c.page

theorem Core.prog_crash {m0 : Mem} {I : List Nat} {log : List FOp} {q er : Nat} (c : Core m0 I log q er)
    (d : List Nat) (h : partBase + q + 16 ≤ er) (ok : Bool) (m : Mem)
    (hm : Crash m0 (log ++ [.prog (partBase + q) d ok]) m) :
    Untouched m0 m ∧ (m0 flagAddr = 255 → q + 16 ≤ partSize - 16 → m flagAddr = 255) := by
  have hl := c.lo
  have hh := c.hi
  have key : ∀ b, Exec m0 (log ++ [.prog (partBase + q) d b]) m →
      Untouched m0 m ∧ (m0 flagAddr = 255 → q + 16 ≤ partSize - 16 → m flagAddr = 255) := by
    intro b hb
    obtain ⟨m1, h1, h2⟩ := (exec_snoc _ _ _ _).1 hb
    have q1 := c.crash m1 (.inl ⟨log, [], by simp, h1⟩)
    have h3 : ∀ x, ¬ (partBase + q ≤ x ∧ x < partBase + q + 16) → m x = m1 x := by
      cases b with
      | true => exact h2.1
      | false => exact h2
    refine ⟨fun x hx => ?_, fun h4 h5 => ?_⟩
    · rw [h3 x (by omega)]; exact q1.1 x hx
    · rw [h3 _ (by omega)]; exact q1.2 h4 (by omega)
  rcases crash_snoc hm with h1 | h1 | h1
  · have := c.crash m h1
    exact ⟨this.1, fun a b => this.2 a (by omega)⟩
  · exact key ok h1
  · exact key false h1

theorem Core.blank {m0 : Mem} {I : List Nat} {log : List FOp} {q er : Nat} (c : Core m0 I log q er) {a : Nat}
    (h1 : partBase + q ≤ a) (h2 : a + 16 ≤ er) {m : Mem} (hm : Exec m0 log m) : Blank m a := by
  intro x h3 h4
  rw [c.exec m hm x, if_neg (by omega), if_pos (by omega)]

theorem Core.prog {m0 : Mem} {I : List Nat} {log : List FOp} {q er : Nat} (c : Core m0 I log q er)
    (d : List Nat) (h : partBase + q + 16 ≤ er) (hd : ∀ i, i < 16 → d.getD i 0 = I.getD (q + i) 255) :
    Core m0 I (log ++ [.prog (partBase + q) d true]) (q + 16) er where
  exec := by
    intro m hm x
    obtain ⟨m1, h1, h2⟩ := (exec_snoc _ _ _ _).1 hm
    have e1 := c.exec m1 h1 x
    by_cases a : partBase + q ≤ x ∧ x < partBase + q + 16
    · rw [if_pos (by omega)]
      have := h2.2 (c.blank (Nat.le_refl _) h h1) (x - (partBase + q)) (by omega)
      rw [hd _ (by omega), show partBase + q + (x - (partBase + q)) = x by omega,
        show q + (x - (partBase + q)) = x - partBase by omega] at this
      exact this
    · rw [h2.1 x a, e1]
      by_cases b : partBase ≤ x ∧ x < partBase + q
      · rw [if_pos b, if_pos (by omega)]
      · have b' : ¬ (partBase ≤ x ∧ x < partBase + (q + 16)) := by omega
        rw [if_neg b, if_neg b']
        by_cases b : partBase + q ≤ x ∧ x < er
        · rw [if_pos b, if_pos (by omega)]
        · rw [if_neg b, if_neg (by omega)]
  crash := c.prog_crash d h true
  once := once_snoc c.once (by
    intro a d' ok e m hm; cases e; exact c.blank (Nat.le_refl _) h hm)
  lo := by omega
  hi := c.hi
  page := c.page

/-- A history is quiet if nothing beyond the rounded image has been programmed. -/
theorem Core.quiet {m0 : Mem} {I : List Nat} {log : List FOp} {q er : Nat} (c : Core m0 I log q er)
    (h : q ≤ I.length + 15) (h16 : q % 16 = 0) : Quiet m0 I log :=
  ⟨fun m hm => ⟨(c.crash m hm).1, fun a b => (c.crash m hm).2 a (by omega)⟩, c.once⟩

/-- The handle in the middle of an image: `n` bytes taken. -/
structure Mid (m0 : Mem) (I : List Nat) (n : Nat) (s : St) : Prop where
  written : s.h.written = n
  cnt : s.h.cnt = n % 16
  qaddr : s.h.qaddr = partBase + (n - n % 16)
  len : s.h.qword.length = 16
  buf : ∀ i, i < n % 16 → s.h.qword.getD i 0 = I.getD (n - n % 16 + i) 255
  core : Core m0 I s.log (n - n % 16) s.h.erased

/-- Erasing up to an address: either everything is erased up to there, or an erase failed. -/
theorem ensureLoop_spec {m0 : Mem} {I : List Nat} {q : Nat} (e : Nat → Bool) :
    ∀ (fuel : Nat) (s : St) (t : Nat), Core m0 I s.log q s.h.erased → t ≤ partBase + partSize → t - s.h.erased ≤ fuel →
    q ≤ I.length + 15 → q % 16 = 0 →
    (∃ s1, ensureLoop e fuel s t = .ok s1 ∧ s1.h = { s.h with erased := s1.h.erased } ∧ Core m0 I s1.log q s1.h.erased ∧
      t ≤ s1.h.erased ∧ (s.h.erased ≤ t → s1.h.erased < t + pageSize) ∧ s.h.erased ≤ s1.h.erased) ∨
    (∃ s1, ensureLoop e fuel s t = .err s1 ∧ Quiet m0 I s1.log ∧ ∃ k, e k = false) := by
  intro fuel
  induction fuel with
  | zero =>
    intro s t c ht hf h1 h2
    exact .inl ⟨s, rfl, rfl, c, by omega, by omega, by omega⟩
  | succ fuel ih =>
    intro s t c ht hf hq1 hq2
    by_cases h : s.h.erased < t
    · have hlo := c.lo
      rw [ensureLoop, if_pos h, erasePage, if_neg (by omega)]
      cases he : e s.log.length with
      | true =>
        rw [if_pos rfl]
        dsimp only
        have c1 := c.erase (by omega)
        rcases ih { s with log := s.log ++ [.erase s.h.erased true], h := { s.h with erased := s.h.erased + pageSize } } t c1 ht (by dsimp only; omega) hq1 hq2 with ⟨s1, a1, a2, a3, a4, a5, a6⟩ | ⟨s1, a1, a2⟩
        · refine .inl ⟨s1, a1, a2, a3, a4, ?_, ?_⟩
          · intro _
            dsimp only at a5 a6
            by_cases hz : s.h.erased + pageSize ≤ t
            · exact a5 hz
            · -- the loop ends at once
              have : s1.h.erased = s.h.erased + pageSize := by
                cases fuel with
                | zero => rw [ensureLoop] at a1; cases a1; rfl
                | succ f =>
                  rw [ensureLoop, if_neg (by dsimp only; omega)] at a1
                  cases a1; rfl
              omega
          · dsimp only at a6; omega
        · exact .inr ⟨s1, a1, a2⟩
      | false =>
        rw [if_neg (by decide)]
        dsimp only
        refine .inr ⟨_, rfl, ⟨?_, ?_⟩, _, he⟩
        · intro m hm
          have := c.erase_crash (by omega) false m hm
          exact ⟨this.1, fun a b => this.2 a (by omega)⟩
        · exact once_snoc c.once (by intro a d ok e; cases e)
    · rw [ensureLoop, if_neg h]
      exact .inl ⟨s, rfl, rfl, c, by omega, by omega, by omega⟩

/-- Flushing a full quad-word. -/
theorem flush_spec {m0 : Mem} {I : List Nat} {q : Nat} (e : Nat → Bool) (s : St) (hc : s.h.cnt = 16)
    (hq : s.h.qaddr = partBase + q) (h16 : q % 16 = 0) (hsz : q + 16 ≤ partSize) (hI : q < I.length)
    (hd : ∀ i, i < 16 → s.h.qword.getD i 0 = I.getD (q + i) 255)
    (c : Core m0 I s.log q s.h.erased) :
    (∃ s1, flushQword e s = .ok s1 ∧ s1.h = ⟨s.h.written, s1.h.erased, partBase + (q + 16), List.replicate 16 255, 0⟩ ∧
      Core m0 I s1.log (q + 16) s1.h.erased) ∨
    (∃ s1, flushQword e s = .err s1 ∧ Quiet m0 I s1.log ∧ ∃ k, e k = false) := by
  rw [flushQword, if_neg (by omega), ensureErased]
  rcases ensureLoop_spec e (s.h.qaddr + 16 - s.h.erased) s (s.h.qaddr + 16) c (by omega) (Nat.le_refl _) (by omega) h16 with
    ⟨s1, a1, a2, a3, a4, _⟩ | ⟨s1, a1, a2⟩
  · rw [a1]; dsimp only
    have b1 : s1.h.qaddr = s.h.qaddr := by rw [a2]
    have b2 : s1.h.qword = s.h.qword := by rw [a2]
    have b3 : s1.h.written = s.h.written := by rw [a2]
    rw [progQword, if_neg (by omega)]
    rw [b1, b2, hq]
    cases he : e s1.log.length with
    | true =>
      rw [if_pos rfl]
      refine .inl ⟨_, rfl, ?_, ?_⟩
      · dsimp only; rw [b1, b3, hq]; rfl
      · exact a3.prog _ (by omega) hd
    | false =>
      rw [if_neg (by decide)]
      refine .inr ⟨_, rfl, ⟨?_, ?_⟩, _, he⟩
      · intro m hm
        have := a3.prog_crash _ (by omega) false m hm
        exact ⟨this.1, fun a b => this.2 a (by omega)⟩
      · exact once_snoc a3.once (by
          intro a d ok e m hm; cases e; exact a3.blank (Nat.le_refl _) (by omega) hm)
  · rw [a1]; exact .inr ⟨s1, rfl, a2⟩

/-- One byte of the image. -/
theorem writeByte_spec {m0 : Mem} {I : List Nat} {n : Nat} (e : Nat → Bool) (s : St) (c : Mid m0 I n s)
    (hn : n < I.length) (hsz : n < partSize) :
    (∃ s1, writeByte e s (I.getD n 255) = .ok s1 ∧ Mid m0 I (n + 1) s1) ∨
    (∃ s1, writeByte e s (I.getD n 255) = .err s1 ∧ Quiet m0 I s1.log ∧ ∃ k, e k = false) := by
  have h1 := c.cnt
  have h2 := c.len
  rw [writeByte, if_neg (by omega)]
  dsimp only
  have hbuf : ∀ i, i < n % 16 + 1 → (s.h.qword.set s.h.cnt (I.getD n 255)).getD i 0 = I.getD (n - n % 16 + i) 255 := by
    intro i hi
    rw [List.getD_eq_getElem?_getD, List.getElem?_set]
    by_cases hii : s.h.cnt = i
    · rw [if_pos hii, if_pos (by omega), Option.getD_some]
      congr 1; omega
    · rw [if_neg hii, ← List.getD_eq_getElem?_getD]
      exact c.buf i (by omega)
  by_cases h3 : s.h.cnt + 1 = 16
  · rw [if_pos h3]
    rcases flush_spec (m0 := m0) (I := I) (q := n - n % 16) e
      { s with h := { s.h with qword := s.h.qword.set s.h.cnt (I.getD n 255), cnt := s.h.cnt + 1, written := s.h.written + 1 } }
      h3 c.qaddr (by omega) (by omega) (by omega) (fun i hi => hbuf i (by omega)) c.core with ⟨s1, a1, a2, a3⟩ | h
    · refine .inl ⟨s1, a1, ?_⟩
      have e1 : n + 1 - (n + 1) % 16 = n - n % 16 + 16 := by omega
      refine ⟨?_, ?_, ?_, ?_, ?_, ?_⟩
      · rw [a2]; dsimp only; rw [c.written]
      · rw [a2]; dsimp only; omega
      · rw [a2, e1]
      · rw [a2]; dsimp only; exact List.length_replicate ..
      · intro i hi; omega
      · rw [e1]; exact a3
    · exact .inr h
  · rw [if_neg h3]
    refine .inl ⟨_, rfl, ?_⟩
    have e1 : n + 1 - (n + 1) % 16 = n - n % 16 := by omega
    have e2 : (n + 1) % 16 = n % 16 + 1 := by omega
    refine ⟨?_, ?_, ?_, ?_, ?_, ?_⟩
    · dsimp only; rw [c.written]
    · dsimp only; omega
    · dsimp only; rw [e1]; exact c.qaddr
    · dsimp only; rw [List.length_set]; exact h2
    · intro i hi; dsimp only; rw [e1]; exact hbuf i (by omega)
    · dsimp only; rw [e1]; exact c.core

theorem Mid.quiet {m0 : Mem} {I : List Nat} {n : Nat} {s : St} (c : Mid m0 I n s) (hn : n ≤ I.length) : Quiet m0 I s.log :=
  c.core.quiet (by omega) (by omega)

theorem writeBytes_spec {m0 : Mem} {I : List Nat} (e : Nat → Bool) : ∀ (bs : List Nat) (n : Nat) (s : St), Mid m0 I n s →
    (∀ i, i < bs.length → I[n + i]? = bs[i]?) → n + bs.length ≤ I.length → n + bs.length ≤ partSize →
    (∃ s1, writeBytes e s bs = .ok s1 ∧ Mid m0 I (n + bs.length) s1) ∨
    (∃ s1, writeBytes e s bs = .err s1 ∧ Quiet m0 I s1.log ∧ ∃ k, e k = false) := by
  intro bs
  induction bs with
  | nil => intro n s c _ _ _; exact .inl ⟨s, rfl, c⟩
  | cons b bs ih =>
    intro n s c hI hl hs
    rw [List.length_cons] at hl hs
    have hb : b = I.getD n 255 := by
      have := hI 0 (by rw [List.length_cons]; omega)
      rw [Nat.add_zero, List.getElem?_cons_zero] at this
      rw [List.getD_eq_getElem?_getD, this]; rfl
    rw [writeBytes, hb]
    rcases writeByte_spec e s c (by omega) (by omega) with ⟨s1, a1, a2⟩ | ⟨s1, a1, a2⟩
    · rw [a1]; dsimp only
      rcases ih (n + 1) s1 a2 (fun i hi => by
          have := hI (i + 1) (by rw [List.length_cons]; omega)
          rw [List.getElem?_cons_succ] at this
          rw [← this]; congr 1; omega) (by omega) (by omega) with ⟨s2, b1, b2⟩ | h
      · refine .inl ⟨s2, b1, ?_⟩
        rw [List.length_cons, show n + (bs.length + 1) = n + 1 + bs.length by omega]; exact b2
      · exact .inr h
    · rw [a1]; exact .inr ⟨s1, rfl, a2⟩

theorem writeAll_spec {m0 : Mem} {I : List Nat} (e : Nat → Bool) : ∀ (bl : List (List Nat)) (pre : List Nat) (s : St),
    Mid m0 I pre.length s → I = pre ++ bl.flatten →
    (∃ s1, writeAll e s bl = .ok s1 ∧ Mid m0 I I.length s1 ∧ (bl = [] ∨ I.length ≤ partSize)) ∨
    (∃ s1, writeAll e s bl = .err s1 ∧ Quiet m0 I s1.log ∧ ((∃ k, e k = false) ∨ I.length > partSize)) := by
  intro bl
  induction bl with
  | nil =>
    intro pre s c hI
    refine .inl ⟨s, rfl, ?_, .inl rfl⟩
    have : I = pre := by simpa using hI
    rw [this] at c ⊢; exact c
  | cons b bl ih =>
    intro pre s c hI
    have hlen : I.length = pre.length + b.length + bl.flatten.length := by
      rw [hI]; simp [Nat.add_assoc]
    rw [writeAll, demoWrite, c.written]
    by_cases hs : pre.length + b.length > partSize
    · rw [if_pos hs]
      refine .inr ⟨s, rfl, c.quiet (by omega), .inr (by omega)⟩
    · rw [if_neg hs]
      have hI2 : I = (pre ++ b) ++ bl.flatten := by rw [hI]; simp
      rcases writeBytes_spec e b pre.length s c (fun i hi => by
          rw [hI2, List.getElem?_append_left (by rw [List.length_append]; omega), List.getElem?_append_right (by omega)]
          congr 1; omega) (by omega) (by omega) with ⟨s1, a1, a2⟩ | ⟨s1, a1, a2, a3⟩
      · rw [a1]; dsimp only
        rw [← List.length_append] at a2
        rcases ih (pre ++ b) s1 a2 hI2 with ⟨s2, b1, b2, b3⟩ | h
        · refine .inl ⟨s2, b1, b2, .inr ?_⟩
          rcases b3 with b3 | b3
          · subst b3; simp only [List.flatten_nil, List.length_nil] at hlen; omega
          · exact b3
        · exact .inr h
      · rw [a1]; exact .inr ⟨s1, rfl, a2, .inl a3⟩

theorem mid_open (m0 : Mem) (I : List Nat) : Mid m0 I 0 (demoOpen []) where
  written := rfl
  cnt := rfl
  qaddr := rfl
  len := by exact List.length_replicate ..
  buf := by intro i hi; omega
  core := core_init m0 I

end Wolf.Ota
