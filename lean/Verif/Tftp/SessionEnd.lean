import Verif.Tftp.SessionRun
import Verif.Tftp.ServerSend
/-! # C133: acknowledgments, files and the end of a session -/
namespace Wolf.Tftp.Srv.Ses
open Wolf.Tftp

/-! ## Acknowledgments -/

theorem acked_app {o l : List SOut} (h : Acked o)
    (hl : ∀ k i n, l[k]? = some (.ack i n) → ∃ j, j ≤ (curWrites (o ++ l.take k)).length ∧ n = j % 65536) : Acked (o ++ l) := by
  intro k i n hk
  by_cases hlt : k < o.length
  · rw [List.getElem?_append_left hlt] at hk
    obtain ⟨j, a, b⟩ := h k i n hk
    exact ⟨j, by rw [List.take_append_of_le_length (by omega)]; exact a, b⟩
  · rw [List.getElem?_append_right (by omega)] at hk
    obtain ⟨j, a, b⟩ := hl _ _ _ hk
    refine ⟨j, ?_, b⟩
    rw [List.take_append, List.take_of_length_le (by omega)]
    exact a

theorem acked_quiet {o l : List SOut} (h : Acked o) (hl : ∀ i n, .ack i n ∉ l) : Acked (o ++ l) :=
  acked_app h fun k i n hk => absurd (List.mem_of_getElem? hk) (hl i n)

theorem quiet_filter {i : Nat} {l : List SOut} (h : ∀ i n, SOut.ack i n ∉ l) : ∀ j n, SOut.ack j n ∉ outsOf i l :=
  fun j n m => h j n (List.mem_filter.1 m).1

theorem quiet_fin (i : Nat) (s : Sess) : ∀ j n, SOut.ack j n ∉ (fin i s).2 := fun j n m => by
  have := (fin_outs i s).2 _ m; cases this

theorem quiet_win (M : Nat) (env : SEnv) (i : Nat) (s : Sess) : ∀ j n, SOut.ack j n ∉ (sendWindow M env i s).2.1 := fun j n m => by
  rcases (sendWindow_res M env i s).outs _ m with ⟨_, _, _, q⟩ | q | q <;> cases q

theorem win_write (M : Nat) (env : SEnv) (i : Nat) (s : Sess) (h : s.isWrite = false) : (sendWindow M env i s).1.isWrite = false := by
  rcases (sendWindow_res M env i s).state with ⟨q, _⟩ | ⟨⟨_, _, _, _, _, _, _, _, _, q⟩, _⟩
  · rw [q]
  · rw [q]; exact h

/-- A receiving session knows how many blocks it wrote. -/
structure AckInv (s : Sess) (o : List SOut) : Prop where
  acked : Acked o
  next : s.used = true → s.isWrite = true → s.nextBlock = ((curWrites o).length + 1) % 65536 ∧ ∃ j, j ≤ (curWrites o).length ∧ s.lastAcked = j % 65536

theorem curWrites_app (o l : List SOut) : curWrites (o ++ l) = l.foldl updWrites (curWrites o) := by
  unfold curWrites; rw [List.foldl_append]

theorem outs_self {i : Nat} {l : List SOut} (h : ∀ x ∈ l, x.slot = some i) : outsOf i l = l := by
  unfold outsOf
  rw [List.filter_eq_self]
  intro x hx; rw [h x hx]; simp

theorem startReply_write {cfg : Cfg} {env : SEnv} {i : Nat} {r : Req} {s : Sess} {name : List Nat} {w : Bool} {o : List SOut} (hi : Acked o)
    (h0 : s.nextBlock = 1 ∧ s.lastAcked = 0) :
    AckInv (startReply cfg env i r s [.openFile i name w]).1 (o ++ outsOf i (startReply cfg env i r s [.openFile i name w]).2) := by
  have h1 : Acked (o ++ [SOut.openFile i name w]) := acked_quiet hi (by intro j n; simp)
  have hz : (1 : Nat) = (0 + 1) % 65536 := rfl
  unfold startReply
  split
  · by_cases hs : env.send 0 = true
    · rw [if_pos hs]
      refine ⟨?_, fun _ _ => ?_⟩
      · refine acked_quiet hi ?_
        exact quiet_filter (by intro j n; simp)
      · rw [show outsOf i ([SOut.openFile i name w] ++ [.oack i]) = [SOut.openFile i name w] ++ [.oack i] from outs_self (by intro x; simp; rintro (q | q) <;> rw [q] <;> rfl), curWrites_app]
        exact ⟨h0.1, 0, Nat.zero_le _, h0.2⟩
    · rw [if_neg hs]
      refine ⟨acked_quiet hi (quiet_filter (by intro j n; simp)), fun _ _ => ?_⟩
      rw [show outsOf i ([SOut.openFile i name w] ++ []) = [SOut.openFile i name w] from outs_self (by intro x; simp; intro q; rw [q]; rfl), curWrites_app]
      exact ⟨h0.1, 0, Nat.zero_le _, h0.2⟩
  split
  · by_cases hs : env.send 0 = true
    · rw [if_pos hs]
      rw [show outsOf i ([SOut.openFile i name w] ++ [.ack i 0]) = [SOut.openFile i name w] ++ [.ack i 0] from outs_self (by intro x; simp; rintro (q | q) <;> rw [q] <;> rfl)]
      refine ⟨?_, fun _ _ => ?_⟩
      · rw [← List.append_assoc]
        refine acked_app h1 fun k j n hk => ⟨0, Nat.zero_le _, ?_⟩
        have := List.mem_singleton.1 (List.mem_of_getElem? hk)
        injection this
      · rw [curWrites_app]
        exact ⟨h0.1, 0, Nat.zero_le _, h0.2⟩
    · rw [if_neg hs]
      refine ⟨acked_quiet hi (quiet_filter (by intro j n; simp)), fun _ _ => ?_⟩
      rw [show outsOf i ([SOut.openFile i name w] ++ []) = [SOut.openFile i name w] from outs_self (by intro x; simp; intro q; rw [q]; rfl), curWrites_app]
      exact ⟨h0.1, 0, Nat.zero_le _, h0.2⟩
  · rename_i hw
    have hw : s.isWrite = false := by simpa using hw
    refine ⟨acked_quiet hi (quiet_filter ?_), fun _ c => ?_⟩
    · intro j n m
      rcases List.mem_append.1 m with m | m
      · simp at m
      · exact quiet_win _ _ _ _ _ _ m
    · exfalso
      have := win_write cfg.maxImage env i s hw
      dsimp only at c
      split at c <;> (first | (rw [this] at c; cases c) | (have c : (sendWindow cfg.maxImage env i s).1.isWrite = true := c; rw [this] at c; cases c))

theorem ack_kept (cfg : Cfg) (i : Nat) : Kept cfg i AckInv where
  start := by
    intro env ip port r m s o _ _ h
    unfold startReq
    dsimp only
    split
    · exact ⟨acked_quiet h.acked (quiet_filter (by intro j n; simp)), nofun⟩
    split
    · exact ⟨acked_quiet h.acked (quiet_filter (by intro j n; simp)), nofun⟩
    · refine startReply_write h.acked ?_
      split <;> exact ⟨rfl, rfl⟩
  fin := by
    intro s o _ h
    exact ⟨acked_quiet h.acked (quiet_filter (quiet_fin i s)), nofun⟩
  ack := by
    intro env s o n _ hw h
    have hq : ∀ j n', SOut.ack j n' ∉ (recvAck cfg.maxImage env i s n).2 := by
      intro j n' m
      unfold recvAck at m
      split at m
      · cases m
      dsimp only at m
      split at m
      · exact quiet_fin _ _ _ _ m
      · exact quiet_win _ _ _ _ _ _ m
    refine ⟨acked_quiet h.acked (quiet_filter hq), fun hu c => ?_⟩
    exfalso
    rcases (turn_ack cfg.maxImage env i s n).state with q | ⟨_, _, _, _, q, _⟩
    · rw [hu] at q; cases q.1
    · rw [q, hw] at c; cases c
  poll := by
    intro env s o now h
    unfold pollSess
    split
    · exact ⟨by rw [show outsOf i [] = [] from rfl, List.append_nil]; exact h.acked, by rw [show outsOf i [] = [] from rfl, List.append_nil]; exact h.next⟩
    split
    · exact ⟨by rw [show outsOf i [] = [] from rfl, List.append_nil]; exact h.acked, by rw [show outsOf i [] = [] from rfl, List.append_nil]; exact h.next⟩
    split
    · exact ⟨by rw [show outsOf i [] = [] from rfl, List.append_nil]; exact h.acked, by rw [show outsOf i [] = [] from rfl, List.append_nil]; exact h.next⟩
    split
    · exact ⟨acked_quiet h.acked (quiet_filter (quiet_fin i s)), nofun⟩
    rename_i hu _ _ _
    have hu : s.used = true := by simpa using hu
    dsimp only
    split
    · refine ⟨acked_quiet h.acked (quiet_filter (by intro j n; simp)), fun a b => ?_⟩
      rw [show outsOf i [SOut.oack i] = [SOut.oack i] from outs_self (by intro x; simp; intro q; rw [q]; rfl), curWrites_app]
      exact h.next a b
    split
    · rename_i hw
      rw [show outsOf i [SOut.ack i s.lastAcked] = [SOut.ack i s.lastAcked] from outs_self (by intro x; simp; intro q; rw [q]; rfl)]
      refine ⟨acked_app h.acked fun k j n hk => ?_, fun a b => ?_⟩
      · have e := List.mem_singleton.1 (List.mem_of_getElem? hk)
        injection e with _ e
        have hk0 : k = 0 := by
          have := (List.getElem?_eq_some_iff.1 hk).1
          simp at this; exact this
        rw [hk0, List.take_zero, List.append_nil, e]
        exact (h.next hu hw).2
      · rw [curWrites_app]
        exact h.next a b
    · rename_i hw
      refine ⟨acked_quiet h.acked (quiet_filter (quiet_win _ _ _ _)), fun a b => ?_⟩
      exfalso
      have hw : s.isWrite = false := by simpa using hw
      have := win_write cfg.maxImage env i { s with nextOffset := s.wsOffset, total := s.wsTotal, nextBlock := s.wsBlock, finalSeen := s.wsFinal } hw
      rw [this] at b; cases b
  data := by
    intro env s o n d hu hw h
    obtain ⟨g1, j0, g2, g3⟩ := h.next hu hw
    unfold recvData
    split
    · rename_i hn
      dsimp only
      have hend : ∀ (l : List SOut) (t : Sess), (∀ j n, SOut.ack j n ∉ l) → AckInv (fin i t).1 (o ++ outsOf i (l ++ (fin i t).2)) := fun l t hl =>
        ⟨acked_quiet h.acked (quiet_filter (by
          intro j n m
          rcases List.mem_append.1 m with m | m
          · exact hl j n m
          · exact quiet_fin _ _ _ _ m)), nofun⟩
      split
      · exact hend _ _ (by intro j n; simp)
      split
      · exact hend _ _ (by intro j n; simp)
      split
      · exact hend _ _ (by intro j n; simp)
      have ew : outsOf i [SOut.write i s.nextOffset d] = [SOut.write i s.nextOffset d] := outs_self (by intro x; simp; intro q; rw [q]; rfl)
      have lw : (curWrites (o ++ [SOut.write i s.nextOffset d])).length = (curWrites o).length + 1 := by
        rw [curWrites_app]
        show (curWrites o ++ [(s.nextOffset, d)]).length = _
        simp
      have hnext : (s.nextBlock + 1) % 65536 = ((curWrites (o ++ [SOut.write i s.nextOffset d])).length + 1) % 65536 := by
        rw [lw, g1]; omega
      have h1 : Acked (o ++ [SOut.write i s.nextOffset d]) := acked_quiet h.acked (by intro j n; simp)
      have h2 : Acked (o ++ ([SOut.write i s.nextOffset d] ++ [.ack i n])) := by
        rw [← List.append_assoc]
        refine acked_app h1 fun k j n' hk => ?_
        have e := List.mem_singleton.1 (List.mem_of_getElem? hk)
        injection e with _ e
        have hk0 : k = 0 := by
          have := (List.getElem?_eq_some_iff.1 hk).1
          simp at this; exact this
        rw [hk0, List.take_zero, List.append_nil, lw, e]
        exact ⟨_, Nat.le_refl _, by rw [hn, g1]⟩
      have ewa : outsOf i ([SOut.write i s.nextOffset d] ++ [.ack i n]) = [SOut.write i s.nextOffset d] ++ [.ack i n] :=
        outs_self (by intro x; simp; rintro (q | q) <;> rw [q] <;> rfl)
      have lwa : curWrites (o ++ ([SOut.write i s.nextOffset d] ++ [.ack i n])) = curWrites (o ++ [SOut.write i s.nextOffset d]) := by
        rw [← List.append_assoc, curWrites_app (o ++ _)]; rfl
      have wend : ∀ (l : List SOut) (v : Nat) (t : Sess), outsOf i l = l → Acked (o ++ l) →
          AckInv (fin i t).1 (o ++ outsOf i (l ++ [SOut.verify i v] ++ (fin i t).2)) := fun l v t he hl => by
        refine ⟨?_, nofun⟩
        rw [outsOf_append, outsOf_append, he, ← List.append_assoc, ← List.append_assoc]
        exact acked_quiet (acked_quiet hl (quiet_filter (by intro j n; simp))) (quiet_filter (quiet_fin _ _))
      split
      · rw [ew]
        refine ⟨h1, fun _ _ => ⟨hnext, j0, by rw [lw]; omega, g3⟩⟩
      split
      · split
        · exact wend _ _ _ ewa h2
        · rw [ewa]
          refine ⟨h2, fun _ _ => ⟨by rw [lwa]; exact hnext, _, Nat.le_refl _, ?_⟩⟩
          show n = _
          rw [lwa, lw, hn, g1]
      · split
        · exact wend _ _ _ ew h1
        · rw [ew]
          exact ⟨h1, fun _ _ => ⟨hnext, j0, by rw [lw]; omega, g3⟩⟩
    · split
      · rename_i hne hn
        dsimp only
        split
        · rw [show outsOf i [SOut.ack i n] = [SOut.ack i n] from outs_self (by intro x; simp; intro q; rw [q]; rfl)]
          refine ⟨acked_app h.acked fun k j n' hk => ?_, fun a b => by rw [curWrites_app]; exact h.next a b⟩
          have e := List.mem_singleton.1 (List.mem_of_getElem? hk)
          injection e with _ e
          have hk0 : k = 0 := by
            have := (List.getElem?_eq_some_iff.1 hk).1
            simp at this; exact this
          rw [hk0, List.take_zero, List.append_nil, e]
          rcases hn with hn | hn
          · exact ⟨j0, g2, by rw [hn, g3]⟩
          · refine ⟨(curWrites o).length, Nat.le_refl _, ?_⟩
            rw [hn, g1]; omega
        · exact ⟨by rw [show outsOf i [] = [] from rfl, List.append_nil]; exact h.acked, by rw [show outsOf i [] = [] from rfl, List.append_nil]; exact h.next⟩
      · exact ⟨by rw [show outsOf i [] = [] from rfl, List.append_nil]; exact h.acked, by rw [show outsOf i [] = [] from rfl, List.append_nil]; exact h.next⟩

/-- **C133, acknowledgments.** In whatever history, every acknowledgment the server sends in a session is for block 0 or for
a block of the current file that it handed to `write` before. -/
theorem tftp_acks_only_written (cfg : Cfg) (es : List SEv) (i : Nat) (hi : i < slots) : Acked (outsOf i (run (init cfg) [] es).2) := by
  have h := slot_run (fun _ => AckInv) cfg (fun i => ack_kept _ i) (fun i => ⟨fun k i n h => (by cases h), nofun⟩) es
  have hlen : ∀ (es : List SEv) (sv : Server) (o : List SOut), (run sv o es).1.sess.length = sv.sess.length := by
    intro es
    induction es with
    | nil => intro sv o; rfl
    | cons e es ih => intro sv o; exact (ih _ _).trans (step_len sv e).1
  have hl : i < (run (init cfg) [] es).1.sess.length := by
    rw [hlen]
    show i < (List.replicate slots _).length
    rw [List.length_replicate]; exact hi
  exact (h i _ (List.getElem?_eq_getElem hl)).acked

/-! ## Files -/

/-- The slot holds a file just when its session says so. -/
theorem held_step (sv : Server) (e : SEv) (j : Nat) (s : Sess) (hs : sv.sess[j]? = some s) (hf : s.used = false → s.handle = false) :
    ∃ s', (step sv e).1.sess[j]? = some s' ∧ (s'.used = false → s'.handle = false) ∧
      (step sv e).2.count (.close j) ≤ (if s.handle || wasOpened j (e, (step sv e).2) then 1 else 0) ∧
      ((s.handle || wasOpened j (e, (step sv e).2)) && !decide (.close j ∈ (step sv e).2)) = s'.handle := by
  have hcnt : ∀ l : List SOut, (outsOf j l).count (.close j) = l.count (.close j) := by
    intro l
    unfold outsOf
    exact List.count_filter (by simp [SOut.slot])
  have hop : ∀ l : List SOut, l.any (fun o => match o with | .openFile k _ _ => k == j | _ => false) = true → ∃ n w, .openFile j n w ∈ l := by
    intro l h
    rw [List.any_eq_true] at h
    obtain ⟨x, hx, q⟩ := h
    cases x with
    | openFile k n w =>
      have q : (k == j) = true := q
      have := beq_iff_eq.1 q
      exact ⟨n, w, by rw [← this]; exact hx⟩
    | err _ => cases q
    | data _ _ _ _ => cases q
    | oack _ => cases q
    | ack _ _ => cases q
    | write _ _ _ => cases q
    | verify _ _ => cases q
    | close _ => cases q
  have hpo : ∀ l : List SOut, (∃ n w, .openFile j n w ∈ l) → l.any (fun o => match o with | .openFile k _ _ => k == j | _ => false) = true := by
    rintro l ⟨n, w, h⟩
    rw [List.any_eq_true]
    exact ⟨_, h, by simp⟩
  have hno : ∀ l : List SOut, (∀ n w, .openFile j n w ∉ outsOf j l) → wasOpened j (e, l) = false := by
    intro l h
    cases hw : wasOpened j (e, l) with
    | false => rfl
    | true =>
      unfold wasOpened at hw
      rw [Bool.and_eq_true] at hw
      obtain ⟨n, w, q⟩ := hop l hw.2
      exact absurd (List.mem_filter.2 ⟨q, by simp [SOut.slot]⟩) (h n w)
  have mem_of : ∀ l : List SOut, SOut.close j ∈ l ↔ l.count (.close j) ≠ 0 := by
    intro l
    rw [← List.count_pos_iff]; omega
  have turn : ∀ x : Sess × List SOut, Turn j s x → (step sv e).1.sess[j]? = some x.1 → outsOf j (step sv e).2 = outsOf j x.2 →
      ∃ s', (step sv e).1.sess[j]? = some s' ∧ (s'.used = false → s'.handle = false) ∧
      (step sv e).2.count (.close j) ≤ (if s.handle || wasOpened j (e, (step sv e).2) then 1 else 0) ∧
      ((s.handle || wasOpened j (e, (step sv e).2)) && !decide (.close j ∈ (step sv e).2)) = s'.handle := by
    intro x t h1 h2
    have w0 : wasOpened j (e, (step sv e).2) = false := hno _ (by
      rw [h2]
      intro n w m
      exact t.noOpen _ (List.mem_filter.1 m).1 j n w rfl)
    have ec : (step sv e).2.count (.close j) = x.2.count (.close j) := by rw [← hcnt, h2, hcnt]
    refine ⟨x.1, h1, ?_, ?_, ?_⟩
    · rcases t.state with q | ⟨q1, q2, _⟩
      · exact fun _ => q.2.1
      · rw [q1, q2]; exact hf
    · rw [w0, Bool.or_false, ec]
      rcases t.state with q | ⟨_, _, _, _, _, _, _, q⟩
      · rw [q.2.2]; exact Nat.le_refl _
      · rw [List.count_eq_zero.2 q]; exact Nat.zero_le _
    · rw [w0, Bool.or_false]
      rcases t.state with q | ⟨_, q2, _, _, _, _, _, q⟩
      · rw [q.2.1]
        cases hh : s.handle with
        | false => rfl
        | true =>
          have : SOut.close j ∈ (step sv e).2 := (mem_of _).2 (by rw [ec, q.2.2, hh]; simp)
          simp [this]
      · have : SOut.close j ∉ (step sv e).2 := fun m => (mem_of _).1 m (by rw [ec]; exact List.count_eq_zero.2 q)
        simp [this, q2]
  rcases step_slot sv e j s hs with ⟨h1, h2⟩ | ⟨env, now, he, h1, h2⟩ | ⟨env', m', x, hu, he, hx, h1, h2⟩ | ⟨env, ip, port, m, r, hu, he, hr, _, h1, h2⟩
  · exact turn (s, []) ⟨.inr ⟨rfl, rfl, rfl, rfl, rfl, rfl, rfl, nofun⟩, nofun⟩ h1 h2
  · exact turn _ (turn_poll _ _ _ _ _ _) h1 h2
  · exact turn _ (turn_of_packet hx) h1 (by rw [h2])
  · have f := (fresh_start sv.cfg env j ip port r).state
    have hh : s.handle = false := hf hu
    have hw : wasOpened j (e, (step sv e).2) = ((env.openOk && env.openHandle) &&
        (step sv e).2.any (fun o => match o with | .openFile k _ _ => k == j | _ => false)) := by rw [he]; rfl
    refine ⟨_, h1, ?_, ?_, ?_⟩
    · rcases f with q | q
      · exact fun _ => q.2.1
      · intro c; rw [q.1] at c; cases c
    · rw [hh, Bool.false_or, hw, h2]
      rcases f with ⟨_, _, q3, q4⟩ | q
      · by_cases c : (∃ n w, .openFile j n w ∈ (startReq sv.cfg env j ip port r).2) ∧ env.openOk = true ∧ env.openHandle = true
        · rw [q3 c.2.1 c.2.2 c.1, hpo _ c.1, c.2.1, c.2.2]; exact Nat.le_refl _
        · have : SOut.close j ∉ (startReq sv.cfg env j ip port r).2 := q4 (by
            by_cases c1 : ∃ n w, .openFile j n w ∈ (startReq sv.cfg env j ip port r).2
            · refine .inr ?_
              cases h1 : env.openOk with
              | false => exact .inl rfl
              | true => cases h2 : env.openHandle with
                | false => exact .inr rfl
                | true => exact absurd ⟨c1, h1, h2⟩ c
            · exact .inl fun n w m => c1 ⟨n, w, m⟩)
          rw [List.count_eq_zero.2 this]; exact Nat.zero_le _
      · rw [List.count_eq_zero.2 q.2.2.2.2.2.2.2.2.1]; exact Nat.zero_le _
    · rw [hh, Bool.false_or, hw, h2]
      rcases f with ⟨_, q2, q3, q4⟩ | ⟨q1, q2, _, _, _, _, _, q5, q6, q7, _⟩
      · rw [q2]
        cases h1 : env.openOk with
        | false => rfl
        | true => cases h2 : env.openHandle with
          | false => rfl
          | true =>
            by_cases c1 : ∃ n w, .openFile j n w ∈ (startReq sv.cfg env j ip port r).2
            · have : SOut.close j ∈ (startReq sv.cfg env j ip port r).2 := (mem_of _).2 (by rw [q3 h1 h2 c1]; decide)
              simp [this]
            · have : (startReq sv.cfg env j ip port r).2.any (fun o => match o with | .openFile k _ _ => k == j | _ => false) = false := by
                cases hc : (startReq sv.cfg env j ip port r).2.any (fun o => match o with | .openFile k _ _ => k == j | _ => false) with
                | false => rfl
                | true => exact absurd (hop _ hc) c1
              rw [this]; rfl
      · rw [q2, q5, hpo _ q7]
        simp [q6]

theorem held_run (j : Nat) : ∀ (es : List SEv) (sv : Server) (o : List SOut) (s : Sess), sv.sess[j]? = some s → (s.used = false → s.handle = false) →
    ClosesOk j s.handle (trace sv es) ∧ ∃ s', (run sv o es).1.sess[j]? = some s' ∧ (s'.used = false → s'.handle = false) ∧ held j s.handle (trace sv es) = s'.handle
  | [], _, _, s, hs, hf => ⟨trivial, s, hs, hf, rfl⟩
  | e :: es, sv, o, s, hs, hf => by
    obtain ⟨s', h1, h2, h3, h4⟩ := held_step sv e j s hs hf
    obtain ⟨i1, i2⟩ := held_run j es (step sv e).1 (o ++ (step sv e).2) s' h1 h2
    refine ⟨⟨h3, ?_⟩, ?_⟩
    · rw [h4]; exact i1
    · show ∃ s' : Sess, _ ∧ _ ∧ held j ((s.handle || wasOpened j (e, (step sv e).2)) && !decide (.close j ∈ (step sv e).2)) (trace (step sv e).1 es) = s'.handle
      rw [h4]; exact i2

/-- **C133, files.** In whatever history: only a file that is open is closed, and once; and when a slot has no session, no
file is open for it. -/
theorem tftp_files_closed (cfg : Cfg) (es : List SEv) (i : Nat) (hi : i < slots) :
    ClosesOk i false (trace (init cfg) es) ∧
    ∀ s, (run (init cfg) [] es).1.sess[i]? = some s → s.used = false → held i false (trace (init cfg) es) = false := by
  have hs : (init cfg).sess[i]? = some {} := by
    show (List.replicate slots ({} : Sess))[i]? = some {}
    rw [List.getElem?_replicate, if_pos hi]
  obtain ⟨h1, s', h2, h3, h4⟩ := held_run i es (init cfg) [] {} hs (fun _ => rfl)
  refine ⟨h1, fun s e hu => ?_⟩
  rw [h2] at e
  cases e
  exact h4.trans (h3 hu)

/-! ## The end of a session nobody answers -/

theorem not_before (p t now : Nat) (n : Neg) (hp : n.timeout * 1000 = p) (ht : t < 4294967296) (hn : now < 4294967296)
    (h1 : p < elapsed t now) (h2 : elapsed t now < 2147483648) : before now (deadlineAt n t) = false := by
  unfold before deadlineAt
  unfold elapsed at h1 h2
  rw [hp]
  dsimp only
  rw [decide_eq_false_iff_not]
  split <;> omega

/-- A session that has been waiting since the last packet: not polled yet, or polled last at `t`, with `c` retries so far. -/
def Waiting (s : Sess) (last : Option Nat) (c : Nat) : Prop :=
  s.used = true ∧ s.retries = c ∧ match last with | none => s.deadline = 0 | some t => t < 4294967296 ∧ s.deadline = deadlineAt s.neg t

theorem deadlineAt_ne (n : Neg) (t : Nat) : deadlineAt n t ≠ 0 := by
  unfold deadlineAt; dsimp only; split <;> omega

theorem poll_waiting (M R : Nat) (env : SEnv) (i : Nat) (s : Sess) (last : Option Nat) (c now : Nat) (hw : Waiting s last c) (hR : R < 65536) (hc : c ≤ R)
    (hn : now < 4294967296) (hsp : ∀ t, last = some t → s.neg.timeout * 1000 < elapsed t now ∧ elapsed t now < 2147483648) :
    (pollSess M R env i s now).1.used = false ∨
    (Waiting (pollSess M R env i s now).1 (some now) (if last = none then c else c + 1) ∧ (last ≠ none → c < R) ∧
      (pollSess M R env i s now).1.neg = s.neg ∧ (pollSess M R env i s now).1.ip = s.ip ∧ (pollSess M R env i s now).1.port = s.port) := by
  obtain ⟨h1, h2, h3⟩ := hw
  unfold pollSess
  rw [if_neg (by rw [h1]; nofun)]
  cases last with
  | none =>
    have h3 : s.deadline = 0 := h3
    rw [if_pos h3, if_pos rfl]
    exact .inr ⟨⟨h1, h2, hn, rfl⟩, fun c => absurd rfl c, rfl, rfl, rfl⟩
  | some t =>
    obtain ⟨h3, h4⟩ := h3
    obtain ⟨h5, h6⟩ := hsp t rfl
    rw [if_neg (by rw [h4]; exact deadlineAt_ne _ _), if_neg (by rw [h4, not_before _ t now s.neg rfl h3 hn h5 h6]; nofun)]
    split
    · exact .inl rfl
    rename_i hlt
    have hlt : c < R := by omega
    dsimp only
    rw [if_neg (show ¬ (some t = none) from nofun)]
    split
    · exact .inr ⟨⟨h1, by show (s.retries + 1) % 65536 = _; omega, hn, rfl⟩, fun _ => hlt, rfl, rfl, rfl⟩
    split
    · exact .inr ⟨⟨h1, by show (s.retries + 1) % 65536 = _; omega, hn, rfl⟩, fun _ => hlt, rfl, rfl, rfl⟩
    · have w := (sendWindow_res M env i { s with nextOffset := s.wsOffset, total := s.wsTotal, nextBlock := s.wsBlock, finalSeen := s.wsFinal }).state
      generalize sendWindow M env i { s with nextOffset := s.wsOffset, total := s.wsTotal, nextBlock := s.wsBlock, finalSeen := s.wsFinal } = r at w
      rcases w with ⟨q1, _⟩ | ⟨⟨a, b, c', d, f, g, h, k, l, q1⟩, _⟩
      · exact .inl (by show r.1.used = false; rw [q1])
      · refine .inr ⟨⟨by show r.1.used = true; rw [q1]; exact h1, ?_, hn, rfl⟩, fun _ => hlt, by show r.1.neg = _; rw [q1], by show r.1.ip = _; rw [q1], by show r.1.port = _; rw [q1]⟩
        show (r.1.retries + 1) % 65536 = c + 1
        rw [q1]
        show (s.retries + 1) % 65536 = c + 1
        omega

def EndsIn (i R : Nat) (es : List SEv) : Prop :=
  ∀ (sv : Server) (o : List SOut) (s : Sess) (last : Option Nat) (c : Nat),
    sv.cfg.maxRetries = R → sv.sess[i]? = some s → Waiting s last c → c ≤ R → QuietFor i s.ip s.port es → Spaced (s.neg.timeout * 1000) last es →
    R + 2 ≤ pollCount es + c + (if last = none then 0 else 1) →
    ∃ es1 es2, es = es1 ++ es2 ∧ ∃ s' : Sess, (run sv o es1).1.sess[i]? = some s' ∧ s'.used = false

theorem ends_recv (i R : Nat) (env : SEnv) (lp ip port : Nat) (m : List Nat) (es : List SEv) (ih : EndsIn i R es) :
    EndsIn i R (.recv env lp ip port m :: es) := by
  intro sv o s last c h1 h2 h3 h4 hq hsp h5
  have hn := hq env lp ip port m List.mem_cons_self
  obtain ⟨g1, -⟩ := tftp_session_isolated sv env lp ip port m i s h2 h3.1 (fun q => hn ⟨q.1, q.2.1, q.2.2.1⟩)
  have hp : pollCount (SEv.recv env lp ip port m :: es) = pollCount es := by unfold pollCount; rw [List.countP_cons]; rfl
  rw [hp] at h5
  obtain ⟨es1, es2, e1, e2⟩ := ih (step sv (.recv env lp ip port m)).1 (o ++ (step sv (.recv env lp ip port m)).2) s last c
    (by rw [(step_len _ _).2]; exact h1) g1 h3 h4 (fun a b c d f g => hq a b c d f (List.mem_cons_of_mem _ g)) hsp h5
  exact ⟨_ :: es1, es2, by rw [e1]; rfl, e2⟩

theorem ends_poll (i R : Nat) (hR : R < 65536) (env : Nat → SEnv) (now : Nat) (es : List SEv) (ih : EndsIn i R es) :
    EndsIn i R (.poll env now :: es) := by
  intro sv o s last c h1 h2 h3 h4 hq hsp h5
  have hcnt : pollCount (SEv.poll env now :: es) = pollCount es + 1 := by unfold pollCount; rw [List.countP_cons]; rfl
  have hps := pollAll_slot sv.cfg env now sv.sess 0 i s h2
  rw [Nat.zero_add] at hps
  have hps : (step sv (.poll env now)).1.sess[i]? = some (pollSess sv.cfg.maxImage sv.cfg.maxRetries (env i) i s now).1 := hps.1
  have hsp' : now < 4294967296 ∧ (∀ t, last = some t → s.neg.timeout * 1000 < elapsed t now ∧ elapsed t now < 2147483648) ∧
      Spaced (s.neg.timeout * 1000) (some now) es := by
    cases last with
    | none => exact ⟨hsp.1, fun t e => (by cases e), hsp.2⟩
    | some t => exact ⟨hsp.1, fun t e => by cases e; exact ⟨hsp.2.1, hsp.2.2.1⟩, hsp.2.2.2⟩
  rcases poll_waiting sv.cfg.maxImage sv.cfg.maxRetries (env i) i s last c now h3 (by rw [h1]; exact hR) (by rw [h1]; exact h4) hsp'.1 hsp'.2.1 with
    g | ⟨g1, g2, g3, g4, g5⟩
  · exact ⟨[.poll env now], es, rfl, _, hps, g⟩
  · rw [hcnt] at h5
    obtain ⟨es1, es2, e1, e2⟩ := ih (step sv (.poll env now)).1 (o ++ (step sv (.poll env now)).2) _ (some now) _
      (by rw [(step_len _ _).2]; exact h1) hps g1
      (by
        split
        · exact h4
        · rename_i hne
          have := g2 hne; rw [h1] at this; omega)
      (by rw [g4, g5]; exact fun a b c d f g => hq a b c d f (List.mem_cons_of_mem _ g)) (by rw [g3]; exact hsp'.2.2)
      (by
        rw [if_neg (show ¬ (some now = none) from nofun)]
        by_cases hl : last = none
        · rw [if_pos hl] at h5 ⊢; omega
        · rw [if_neg hl] at h5 ⊢; omega)
    exact ⟨_ :: es1, es2, by rw [e1]; rfl, e2⟩

theorem session_ends_aux (i R : Nat) (hR : R < 65536) (es : List SEv) : EndsIn i R es := by
  induction es with
  | nil =>
    intro sv o s last c h1 h2 h3 h4 _ _ h5
    exfalso
    have hp : pollCount [] = 0 := rfl
    rw [hp] at h5
    split at h5 <;> omega
  | cons e es ih =>
    cases e with
    | recv env lp ip port m => exact ends_recv i R env lp ip port m es ih
    | poll env now => exact ends_poll i R hR env now es ih

/-- **C133, the end.** A session whose peer falls silent right after it began, or right after a packet that reset its timer, is
over by the time the server has been polled two times more than the configured retries, further apart than the session's
timeout, whatever else reaches the server meanwhile. -/
theorem tftp_session_ends (sv : Server) (o : List SOut) (i : Nat) (s : Sess) (es : List SEv) (hR : sv.cfg.maxRetries < 65536)
    (hs : sv.sess[i]? = some s) (hu : s.used = true) (hd : s.deadline = 0) (hr : s.retries = 0)
    (hq : QuietFor i s.ip s.port es) (hsp : Spaced (s.neg.timeout * 1000) none es) (hn : sv.cfg.maxRetries + 2 ≤ pollCount es) :
    ∃ es1 es2, es = es1 ++ es2 ∧ ∃ s', (run sv o es1).1.sess[i]? = some s' ∧ s'.used = false :=
  session_ends_aux i _ hR es sv o s none 0 rfl hs ⟨hu, hr, hd⟩ (Nat.zero_le _) hq hsp (by rw [if_pos rfl]; omega)

/-- A session begins with its timer unset and no retries. -/
theorem tftp_session_begins (cfg : Cfg) (env : SEnv) (i ip port : Nat) (r : Req) (hu : (startReq cfg env i ip port r).1.used = true) :
    (startReq cfg env i ip port r).1.deadline = 0 ∧ (startReq cfg env i ip port r).1.retries = 0 := by
  rcases (fresh_start cfg env i ip port r).state with q | ⟨_, _, _, _, q5, q6, _⟩
  · rw [hu] at q; cases q.1
  · exact ⟨q5, q6⟩

/-! ## Concrete cases -/

def silent : List SEv := [.poll (fun _ => {}) 0, .poll (fun _ => {}) 1500, .poll (fun _ => {}) 3000, .poll (fun _ => {}) 4500, .poll (fun _ => {}) 6000]

def upStart : Server := (run (init upCfg) [] [.recv {} 69 7 1000 wrqMsg]).1

/-- A session begun by a write request and then left alone meets the hypotheses of `tftp_session_ends`, and ends. -/
example : (upStart.sess.map fun s => (s.used, s.deadline, s.retries, s.ip, s.port, s.neg.timeout)) =
      [(true, 0, 0, 7, 1000, 1)] ++ List.replicate (slots - 1) (false, 0, 0, 0, 0, ({} : Sess).neg.timeout) ∧
    QuietFor 0 7 1000 silent ∧ Spaced 1000 none silent ∧ upCfg.maxRetries + 2 ≤ pollCount silent ∧
    ((run upStart [] silent).1.sess.map Sess.used) = List.replicate slots false ∧
    ((run upStart [] (silent.take 4)).1.sess.map Sess.used) = true :: List.replicate (slots - 1) false := by
  refine ⟨by decide +kernel, ?_, ?_, by decide, by decide +kernel, by decide +kernel⟩
  · intro env lp ip port m h
    unfold silent at h
    simp at h
  · unfold silent Spaced
    simp [Spaced, elapsed]

/-- A stranger's packet to the transfer port of a session, and a full upload whose file is opened and closed once. -/
example :
    (step upStart (.recv {} 20000 8 1000 (dataMsg 1 (List.range 8)))).1.sess = upStart.sess ∧
    (trace (init upCfg) [.recv {} 69 7 1000 wrqMsg, .recv {} 20000 7 1000 (dataMsg 1 (List.range 4))]).map
      (fun t => (wasOpened 0 t, t.2.count (.close 0))) = [(true, 0), (false, 1)] := by
  refine ⟨by decide +kernel, by decide +kernel⟩

end Wolf.Tftp.Srv.Ses
