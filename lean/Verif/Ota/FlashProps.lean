import Verif.Ota.Flash
/-!
# C125: the theorems

For every image, however it is cut into blocks, every pattern of controller failures, and power failing at
any moment.
-/
namespace Wolf.Ota

/-- The image rounded up to whole quad-words. -/
def round16 (n : Nat) : Nat := (n + 15) / 16 * 16

theorem getD_lt {I : List Nat} {i : Nat} (h : i < I.length) (a b : Nat) : I.getD i a = I.getD i b := by
  rw [List.getD_eq_getElem?_getD, List.getD_eq_getElem?_getD, List.getElem?_eq_getElem h]; rfl

theorem getD_ge {I : List Nat} {i : Nat} (h : I.length ≤ i) (a : Nat) : I.getD i a = a := by
  rw [List.getD_eq_getElem?_getD, List.getElem?_eq_none h]; rfl

/-- The last part of a quad-word is padded and programmed. -/
theorem pad_spec {m0 : Mem} {I : List Nat} (e : Nat → Bool) (s : St) (c : Mid m0 I I.length s) (hs : I.length ≤ partSize) :
    (∃ s1, (if 0 < s.h.cnt ∧ s.h.cnt < 16 then flushQword e { s with h := padTo16 s.h } else .ok s) = .ok s1 ∧
      s1.h.written = I.length ∧ Core m0 I s1.log (round16 I.length) s1.h.erased) ∨
    (∃ s1, (if 0 < s.h.cnt ∧ s.h.cnt < 16 then flushQword e { s with h := padTo16 s.h } else .ok s) = .err s1 ∧
      Quiet m0 I s1.log ∧ ∃ k, e k = false) := by
  have h1 := c.cnt
  have h2 := c.len
  by_cases h : 0 < s.h.cnt ∧ s.h.cnt < 16
  · rw [if_pos h]
    have hr : round16 I.length = I.length - I.length % 16 + 16 := by unfold round16; omega
    rcases flush_spec (m0 := m0) (I := I) (q := I.length - I.length % 16) e { s with h := padTo16 s.h } rfl c.qaddr
      (by omega) (by omega) (by omega) (fun i hi => by
        dsimp only [padTo16]
        rw [List.getD_eq_getElem?_getD]
        by_cases hi2 : i < s.h.cnt
        · rw [List.getElem?_append_left (by rw [List.length_take]; omega), List.getElem?_take, if_pos hi2,
            ← List.getD_eq_getElem?_getD]
          exact c.buf i (by omega)
        · have hl : (s.h.qword.take s.h.cnt).length = s.h.cnt := by rw [List.length_take]; omega
          rw [List.getElem?_append_right (by omega), hl, List.getElem?_replicate, if_pos (by omega), getD_ge (by omega)]
          rfl) c.core with ⟨s1, a1, a2, a3⟩ | ⟨s1, a1, a2⟩
    · refine .inl ⟨s1, a1, ?_, ?_⟩
      · rw [a2]; exact c.written
      · rw [hr]; exact a3
    · exact .inr ⟨s1, a1, a2⟩
  · rw [if_neg h]
    refine .inl ⟨s, rfl, c.written, ?_⟩
    have hr : round16 I.length = I.length - I.length % 16 := by unfold round16; omega
    rw [hr]; exact c.core

theorem trailer_q : partBase + partSize - 1 - (partBase + partSize - 1) % 16 = partBase + (partSize - 16) := by decide

/-- Setting the flag once the image is in place: the history `log` before the last step, and what the last
step is. -/
theorem trigger_spec {m0 : Mem} {I : List Nat} (e : Nat → Bool) (s : St) (hs : I.length ≤ partSize)
    (c : Core m0 I s.log (round16 I.length) s.h.erased) :
    (∃ (s0 : St) (ok : Bool), Core m0 I s0.log (round16 I.length) (partBase + partSize) ∧
      (trigger e s = if ok then .ok { s0 with log := s0.log ++ [.prog (partBase + (partSize - 16)) ((List.replicate 16 255).set 15 updating) true] }
        else .err { s0 with log := s0.log ++ [.prog (partBase + (partSize - 16)) ((List.replicate 16 255).set 15 updating) false] }) ∧
      (ok = false → ∃ k, e k = false)) ∨
    (∃ s1, trigger e s = .err s1 ∧ Quiet m0 I s1.log ∧ ∃ k, e k = false) := by
  have hr : round16 I.length ≤ I.length + 15 := by unfold round16; omega
  have hr2 : round16 I.length % 16 = 0 := by unfold round16; omega
  have hend : partBase + (partSize - 16) - (partBase + (partSize - 16)) % pageSize + pageSize = partBase + partSize := by decide
  have hoff : partBase + partSize - 1 - (partBase + (partSize - 16)) = 15 := by decide
  have hal : ¬ ((partBase + (partSize - 16)) % 16 ≠ 0) := by decide
  have hc := c.hi
  rw [trigger]
  rw [trailer_q, hend, hoff, ensureErased]
  rcases ensureLoop_spec e (partBase + partSize - s.h.erased) s (partBase + partSize) c (Nat.le_refl _) (Nat.le_refl _) hr hr2 with
    ⟨s1, a1, _, a3, a4, _⟩ | ⟨s1, a1, a2⟩
  · rw [a1]; dsimp only
    have he : s1.h.erased = partBase + partSize := by have := a3.hi; omega
    rw [he] at a3
    rw [progQword, if_neg hal]
    exact .inl ⟨s1, e s1.log.length, a3, rfl, fun h => ⟨_, h⟩⟩
  · rw [a1]; exact .inr ⟨s1, rfl, a2⟩

/-- Everything the verification step can do. -/
theorem verify_spec {m0 : Mem} {I : List Nat} (e : Nat → Bool) (s : St) (total : Nat) (c : Mid m0 I I.length s)
    (hs : I.length ≤ partSize) :
    (∃ (s0 : St) (ok : Bool), Core m0 I s0.log (round16 I.length) (partBase + partSize) ∧
      (demoVerify e s total = if ok then .ok { s0 with log := s0.log ++ [.prog (partBase + (partSize - 16)) ((List.replicate 16 255).set 15 updating) true] }
        else .err { s0 with log := s0.log ++ [.prog (partBase + (partSize - 16)) ((List.replicate 16 255).set 15 updating) false] }) ∧
      (ok = false → ∃ k, e k = false) ∧ (total = 0 ∨ total = I.length)) ∨
    (∃ s1, demoVerify e s total = .err s1 ∧ Quiet m0 I s1.log ∧ ((∃ k, e k = false) ∨ (total ≠ 0 ∧ total ≠ I.length))) := by
  have hr : round16 I.length ≤ I.length + 15 := by unfold round16; omega
  have hr2 : round16 I.length % 16 = 0 := by unfold round16; omega
  rw [demoVerify]
  rcases pad_spec e s c hs with ⟨s1, a1, a2, a3⟩ | ⟨s1, a1, a2, a3⟩
  · rw [a1]; dsimp only
    rw [a2]
    by_cases ht : total ≠ 0 ∧ total ≠ I.length
    · rw [if_pos ht]; exact .inr ⟨s1, rfl, a3.quiet hr hr2, .inr ht⟩
    · rw [if_neg ht]
      rcases trigger_spec e s1 hs a3 with ⟨s0, ok, b1, b2, b3⟩ | ⟨s2, b1, b2, b3⟩
      · exact .inl ⟨s0, ok, b1, b2, b3, by omega⟩
      · exact .inr ⟨s2, b1, b2, .inl b3⟩
  · rw [a1]; exact .inr ⟨s1, rfl, a2, .inl a3⟩

/-- Everything a transfer can do. -/
theorem session_spec (m0 : Mem) (e : Nat → Bool) (blocks : List (List Nat)) (total : Nat) :
    (∃ (s0 : St) (ok : Bool), Core m0 blocks.flatten s0.log (round16 blocks.flatten.length) (partBase + partSize) ∧
      (session e blocks total = if ok then .ok { s0 with log := s0.log ++ [.prog (partBase + (partSize - 16)) ((List.replicate 16 255).set 15 updating) true] }
        else .err { s0 with log := s0.log ++ [.prog (partBase + (partSize - 16)) ((List.replicate 16 255).set 15 updating) false] }) ∧
      (ok = false → ∃ k, e k = false) ∧ (total = 0 ∨ total = blocks.flatten.length) ∧ blocks.flatten.length ≤ partSize) ∨
    (∃ s1, session e blocks total = .err s1 ∧ Quiet m0 blocks.flatten s1.log ∧
      ((∃ k, e k = false) ∨ (total ≠ 0 ∧ total ≠ blocks.flatten.length) ∨ blocks.flatten.length > partSize)) := by
  rw [session]
  rcases writeAll_spec (m0 := m0) (I := blocks.flatten) e blocks [] (demoOpen []) (mid_open m0 _) rfl with
    ⟨s1, a1, a2, a3⟩ | ⟨s1, a1, a2, a3⟩
  · rw [a1]; dsimp only
    have hs : blocks.flatten.length ≤ partSize := by
      rcases a3 with h | h
      · subst h; exact Nat.zero_le _
      · exact h
    rcases verify_spec e s1 total a2 hs with ⟨s0, ok, b1, b2, b3, b4⟩ | ⟨s2, b1, b2, b3⟩
    · exact .inl ⟨s0, ok, b1, b2, b3, b4, hs⟩
    · exact .inr ⟨s2, b1, b2, by rcases b3 with h | h; exact .inl h; exact .inr (.inl h)⟩
  · rw [a1]
    exact .inr ⟨s1, rfl, a2, by rcases a3 with h | h; exact .inl h; exact .inr (.inr h)⟩

/-- The callbacks never write outside their quad-word buffer, whatever the blocks and the failures. -/
theorem staging_memory_safe (e : Nat → Bool) (blocks : List (List Nat)) (total : Nat) : session e blocks total ≠ .oob := by
  rcases session_spec (fun _ => 0) e blocks total with ⟨s0, ok, _, h, _⟩ | ⟨s1, h, _⟩
  · rw [h]; cases ok
    · rw [if_neg (by decide)]; intro h; cases h
    · rw [if_pos rfl]; intro h; cases h
  · rw [h]; intro h; cases h

/-- The flag write, whole or not, after a staged image. -/
theorem flag_step {m0 : Mem} {I : List Nat} {log : List FOp} {q : Nat} {ok : Bool} {d : List Nat}
    (c : Core m0 I log q (partBase + partSize)) {m : Mem}
    (hm : Crash m0 (log ++ [.prog (partBase + (partSize - 16)) d ok]) m) :
    Crash m0 log m ∨ ∃ m1, Exec m0 log m1 ∧ ∀ x, ¬ (partBase + (partSize - 16) ≤ x ∧ x < partBase + partSize) → m x = m1 x := by
  rcases crash_snoc hm with h | h | h
  · exact .inl h
  · obtain ⟨m1, h1, h2⟩ := (exec_snoc _ _ _ _).1 h
    refine .inr ⟨m1, h1, fun x hx => ?_⟩
    cases ok with
    | true => exact h2.1 x (by omega)
    | false => exact h2 x (by omega)
  · obtain ⟨m1, h1, h2⟩ := (exec_snoc _ _ _ _).1 h
    exact .inr ⟨m1, h1, fun x hx => h2 x (by omega)⟩

/-- Whatever is downloaded, whatever fails and whenever power is lost: nothing outside the update partition
is changed. -/
theorem staging_confined (m0 : Mem) (e : Nat → Bool) (blocks : List (List Nat)) (total : Nat) (m : Mem)
    (h : Crash m0 (session e blocks total).log m) : Untouched m0 m := by
  rcases session_spec m0 e blocks total with ⟨s0, ok, c, hs, _⟩ | ⟨s1, hs, q, _⟩
  · have : Crash m0 (s0.log ++ [.prog (partBase + (partSize - 16)) ((List.replicate 16 255).set 15 updating) ok]) m := by
      rw [hs] at h; cases ok
      · rw [if_neg (by decide)] at h; exact h
      · rw [if_pos rfl] at h; exact h
    rcases flag_step c this with h1 | ⟨m1, h1, h2⟩
    · exact (c.crash m h1).1
    · intro x hx
      rw [h2 x (by omega)]
      exact (c.crash m1 (.inl ⟨s0.log, [], by simp, h1⟩)).1 x hx
  · rw [hs] at h; exact (q.crash m h).1

theorem Core.holds {m0 : Mem} {I : List Nat} {log : List FOp} {q er : Nat} (c : Core m0 I log q er) (hq : I.length ≤ q)
    {m : Mem} (hm : Exec m0 log m) : Holds m I := by
  intro i hi
  have := c.exec m hm (partBase + i)
  rw [if_pos (by omega), show partBase + i - partBase = i by omega] at this
  rw [this]; exact getD_lt hi _ _

/-- If the flag was clear, then at whatever moment power fails, a flag that is no longer clear implies that
the whole image is in the partition: the boot loader is never asked to install part of an image. For images
that leave the last quad-word of the partition free. -/
theorem flag_implies_image_partial (m0 : Mem) (e : Nat → Bool) (blocks : List (List Nat)) (total : Nat) (m : Mem)
    (hfit : blocks.flatten.length ≤ partSize - 16) (hclear : m0 flagAddr = 255)
    (h : Crash m0 (session e blocks total).log m) (hflag : m flagAddr ≠ 255) : Holds m blocks.flatten := by
  rcases session_spec m0 e blocks total with ⟨s0, ok, c, hs, _⟩ | ⟨s1, hs, q, _⟩
  · have : Crash m0 (s0.log ++ [.prog (partBase + (partSize - 16)) ((List.replicate 16 255).set 15 updating) ok]) m := by
      rw [hs] at h; cases ok
      · rw [if_neg (by decide)] at h; exact h
      · rw [if_pos rfl] at h; exact h
    have hr : round16 blocks.flatten.length ≤ partSize - 16 := by unfold round16; omega
    have hr2 : blocks.flatten.length ≤ round16 blocks.flatten.length := by unfold round16; omega
    rcases flag_step c this with h1 | ⟨m1, h1, h2⟩
    · exact absurd ((c.crash m h1).2 hclear hr) hflag
    · intro i hi
      rw [h2 _ (by omega)]
      exact c.holds hr2 h1 i hi
  · rw [hs] at h; exact absurd ((q.crash m h).2 hclear hfit) hflag

/-- A transfer reported as successful leaves the image in the partition, the rest of it erased, and the
flag set; the same is true of the byte count it was checked against. -/
theorem success_installs_partial (m0 : Mem) (e : Nat → Bool) (blocks : List (List Nat)) (total : Nat) (s : St)
    (hfit : blocks.flatten.length ≤ partSize - 16) (hok : session e blocks total = .ok s) (m : Mem) (hm : Exec m0 s.log m) :
    Holds m blocks.flatten ∧ (∀ i, blocks.flatten.length ≤ i → i < partSize - 1 → m (partBase + i) = 255) ∧
    m flagAddr = updating ∧ Untouched m0 m ∧ (total = 0 ∨ total = blocks.flatten.length) := by
  rcases session_spec m0 e blocks total with ⟨s0, ok, c, hs, _, ht, _⟩ | ⟨s1, hs, _⟩
  · rw [hs] at hok
    cases ok with
    | false => rw [if_neg (by decide)] at hok; cases hok
    | true =>
      rw [if_pos rfl] at hok
      cases hok
      dsimp only at hm
      obtain ⟨m1, h1, h2⟩ := (exec_snoc _ _ _ _).1 hm
      have hr : round16 blocks.flatten.length ≤ partSize - 16 := by unfold round16; omega
      have hr2 : blocks.flatten.length ≤ round16 blocks.flatten.length := by unfold round16; omega
      have hb : Blank m1 (partBase + (partSize - 16)) := c.blank (by omega) (by omega) h1
      have key : ∀ i, blocks.flatten.length ≤ i → i < partSize → m1 (partBase + i) = 255 := by
        intro i hi hi2
        have := c.exec m1 h1 (partBase + i)
        by_cases hq : i < round16 blocks.flatten.length
        · rw [if_pos (by omega), show partBase + i - partBase = i by omega, getD_ge hi] at this
          exact this
        · rw [if_neg (by omega), if_pos (by omega)] at this; exact this
      have hlast : ∀ i, i < 16 → m (partBase + (partSize - 16) + i) = ((List.replicate 16 255).set 15 updating).getD i 0 :=
        h2.2 hb
      refine ⟨fun i hi => ?_, fun i hi hi2 => ?_, ?_, fun x hx => ?_, ht⟩
      · rw [h2.1 _ (by omega)]; exact c.holds hr2 h1 i hi
      · by_cases hl : i < partSize - 16
        · rw [h2.1 _ (by omega)]; exact key i hi (by omega)
        · have := hlast (i - (partSize - 16)) (by omega)
          rw [show partBase + (partSize - 16) + (i - (partSize - 16)) = partBase + i by omega] at this
          rw [this]
          have hj : i - (partSize - 16) < 15 := by omega
          generalize i - (partSize - 16) = j at hj
          rw [List.getD_eq_getElem?_getD, List.getElem?_set_ne (by omega), List.getElem?_replicate, if_pos (by omega)]
          rfl
      · have := hlast 15 (by omega)
        rw [show partBase + (partSize - 16) + 15 = flagAddr by decide] at this
        rw [this]; rfl
      · rw [h2.1 _ (by omega)]
        exact (c.crash m1 (.inl ⟨s0.log, [], by simp, h1⟩)).1 x hx
  · rw [hs] at hok; cases hok

/-- No quad-word is programmed twice without an erase between: at the time of every program operation the
place was erased. -/
theorem programs_erased_partial (m0 : Mem) (e : Nat → Bool) (blocks : List (List Nat)) (total : Nat)
    (hfit : blocks.flatten.length ≤ partSize - 16) : ProgramsErased m0 (session e blocks total).log := by
  rcases session_spec m0 e blocks total with ⟨s0, ok, c, hs, _⟩ | ⟨s1, hs, q, _⟩
  · have hr : round16 blocks.flatten.length ≤ partSize - 16 := by unfold round16; omega
    have hw : ∀ b, ProgramsErased m0 (s0.log ++ [.prog (partBase + (partSize - 16)) ((List.replicate 16 255).set 15 updating) b]) :=
      fun b => once_snoc c.once (by intro a d ok e m hm; cases e; exact c.blank (by omega) (by omega) hm)
    rw [hs]; cases ok
    · rw [if_neg (by decide)]; exact hw false
    · rw [if_pos rfl]; exact hw true
  · rw [hs]; exact q.once

/-- When the flash never fails, every image that fits the partition is accepted and one that does not is
refused. -/
theorem staging_accepts (blocks : List (List Nat)) (total : Nat) :
    (∃ s, session (fun _ => true) blocks total = .ok s) ↔
      blocks.flatten.length ≤ partSize ∧ (total = 0 ∨ total = blocks.flatten.length) := by
  rcases session_spec (fun _ => 0) (fun _ => true) blocks total with ⟨s0, ok, _, h, hk, ht, hl⟩ | ⟨s1, h, _, hk⟩
  · cases ok with
    | false => obtain ⟨k, hk⟩ := hk rfl; cases hk
    | true =>
      rw [if_pos rfl] at h
      exact ⟨fun _ => ⟨hl, ht⟩, fun _ => ⟨_, h⟩⟩
  · refine ⟨fun ⟨s, hs⟩ => (by rw [h] at hs; cases hs), fun ⟨h1, h2⟩ => ?_⟩
    rcases hk with ⟨k, hk⟩ | hk | hk
    · cases hk
    · omega
    · omega

/-- The device specification always allows some outcome. -/
theorem exec_total (log : List FOp) : ∀ m : Mem, ∃ m', Exec m log m' := by
  induction log with
  | nil => intro m; exact ⟨m, rfl⟩
  | cons op l ih =>
    intro m
    have : ∃ m1, Eff op m m1 := by
      cases op with
      | erase a ok =>
        cases ok with
        | true => exact ⟨_, fun x => rfl⟩
        | false => exact ⟨m, fun x => ⟨fun _ => rfl, id⟩⟩
      | prog a d ok =>
        cases ok with
        | true =>
          refine ⟨fun x => if a ≤ x ∧ x < a + 16 then d.getD (x - a) 0 else m x, fun x hx => if_neg hx, fun _ i hi => ?_⟩
          dsimp only
          rw [if_pos (by omega), Nat.add_sub_cancel_left]
        | false => exact ⟨m, fun x _ => rfl⟩
    obtain ⟨m1, h1⟩ := this
    obtain ⟨m2, h2⟩ := ih m1
    exact ⟨m2, m1, h1, h2⟩

/-- What is missing: the code accepts images up to the size of the partition, but the flag lives in the last
quad-word. An image that reaches it is accepted, and the flag is programmed over the image's own bytes: a
quad-word that is not erased is programmed (unless the image's bytes there are all 255). -/
theorem full_image_clobbered (m0 : Mem) (blocks : List (List Nat)) (total : Nat)
    (hbig : blocks.flatten.length > partSize - 16) (hmax : blocks.flatten.length ≤ partSize)
    (ht : total = 0 ∨ total = blocks.flatten.length)
    (hdata : ∃ i, partSize - 16 ≤ i ∧ i < blocks.flatten.length ∧ blocks.flatten.getD i 0 ≠ 255) :
    (∃ s, session (fun _ => true) blocks total = .ok s) ∧ ¬ ProgramsErased m0 (session (fun _ => true) blocks total).log := by
  have hacc := (staging_accepts blocks total).2 ⟨hmax, ht⟩
  refine ⟨hacc, fun hp => ?_⟩
  obtain ⟨s, hs⟩ := hacc
  rcases session_spec m0 (fun _ => true) blocks total with ⟨s0, ok, c, h, hk, _⟩ | ⟨s1, h, _⟩
  · cases ok with
    | false => obtain ⟨k, hk⟩ := hk rfl; cases hk
    | true =>
      rw [if_pos rfl] at h
      rw [h] at hp
      dsimp only [R.log] at hp
      obtain ⟨m, hm⟩ := exec_total s0.log m0
      obtain ⟨i, hi1, hi2, hi3⟩ := hdata
      have hb := hp s0.log _ _ _ [] rfl m hm (partBase + i) (by omega) (by omega)
      have hr2 : blocks.flatten.length ≤ round16 blocks.flatten.length := by unfold round16; omega
      rw [c.holds hr2 hm i hi2] at hb
      exact hi3 hb
  · rw [h] at hs; cases hs

/-- What is missing besides: nothing clears a flag left from an earlier run before the new image overwrites the
old one. With the flag set at the start, power lost after the first quad-word leaves the flag set over part
of an image. (The flag is cleared by the boot loader when it has installed an image.) -/
theorem stale_flag_survives (m0 : Mem) (hset : m0 flagAddr = updating) :
    ∃ m, Crash m0 (session (fun _ => true) [List.range 32] 32).log m ∧ m flagAddr = updating ∧ ¬ Holds m (List.range 32) := by
  have hlog : (session (fun _ => true) [List.range 32] 32).log =
      [.erase partBase true, .prog partBase (List.range 16) true] ++ (session (fun _ => true) [List.range 32] 32).log.drop 2 := by
    have : (session (fun _ => true) [List.range 32] 32).log.take 2 = [.erase partBase true, .prog partBase (List.range 16) true] := by
      decide +kernel
    rw [← this, List.take_append_drop]
  let m1 : Mem := fun x => if partBase ≤ x ∧ x < partBase + pageSize then 255 else m0 x
  let m2 : Mem := fun x => if partBase ≤ x ∧ x < partBase + 16 then (List.range 16).getD (x - partBase) 0 else m1 x
  refine ⟨m2, .inl ⟨_, _, hlog, m1, fun x => rfl, m2, ⟨fun x hx => if_neg hx, fun _ i hi => ?_⟩, rfl⟩, ?_, fun h => ?_⟩
  · have : m2 (partBase + i) = (List.range 16).getD (partBase + i - partBase) 0 := if_pos (by omega)
    rw [this, Nat.add_sub_cancel_left]
  · have a : m2 flagAddr = m1 flagAddr := if_neg (by decide)
    have b : m1 flagAddr = m0 flagAddr := if_neg (by decide)
    rw [a, b, hset]
  · have h1 := h 17 (by decide)
    have a : m2 (partBase + 17) = m1 (partBase + 17) := if_neg (by decide)
    have b : m1 (partBase + 17) = 255 := if_pos (by decide)
    rw [a, b] at h1
    exact absurd h1 (by decide)

/-- The page and bank the erase registers select: `h5_flash_erase_page` 208–227 as (bank, page number); `swap` is
the option bit that exchanges the banks. -/
def eraseTarget (swap : Bool) (a : Nat) : Nat × Nat :=
  let bnk := if a ≥ 135266304 then 1 else 0
  let base := if a ≥ 135266304 then 135266304 else flashBase
  (if swap then (if bnk ≠ 0 then 0 else 1) else bnk, (a - base) / 8192 % 128)

/-- The hardware's map from addresses to physical bank and page: two banks of one megabyte at `flashBase`, exchanged
when the option bit is set. -/
def physPage (swap : Bool) (x : Nat) : Nat × Nat :=
  let lin := x - flashBase
  ((lin / 1048576 + (if swap then 1 else 0)) % 2, lin % 1048576 / 8192)

/-- The page selected for erasing is the one the CPU sees at the given address, with either bank order: all of its
8192 addresses and no others. -/
theorem erase_selects_page (swap : Bool) (a x : Nat) (ha : flashBase ≤ a) (ha2 : a ≤ flashTop) (hal : a % 8192 = 0)
    (hx : flashBase ≤ x) (hx2 : x ≤ flashTop) :
    physPage swap x = eraseTarget swap a ↔ a ≤ x ∧ x < a + 8192 := by
  unfold physPage eraseTarget
  dsimp only
  rw [Prod.mk.injEq]
  cases swap
  · rw [if_neg (by decide), if_neg (by decide)]
    split <;> omega
  · rw [if_pos rfl, if_pos rfl]
    split
    · rw [if_pos (by decide)]; omega
    · rw [if_neg (by decide)]; omega

/-! ## Examples -/

/-- A transfer of 40 bytes in two blocks on working flash: one page erased on demand, three quad-words, the other
79 pages, and the flag. -/
example : (session (fun _ => true) [List.range 24, List.range 16] 40).log.length = 84 ∧
    (session (fun _ => true) [List.range 24, List.range 16] 40).log.take 4 =
      [.erase partBase true, .prog partBase (List.range 16) true,
       .prog (partBase + 16) ([16, 17, 18, 19, 20, 21, 22, 23] ++ List.range 8) true,
       .prog (partBase + 32) ([8, 9, 10, 11, 12, 13, 14, 15] ++ List.replicate 8 255) true] := by decide +kernel

/-- An error of the third operation ends it with two quad-words staged and no flag. -/
example : (match session (fun n => n != 3) [List.range 24, List.range 16] 40 with
    | .err s => (s.log.length, s.h.written)
    | _ => (0, 0)) = (4, 40) := by decide +kernel

end Wolf.Ota
