import Verif.Tftp.Server
/-!
# C54 (server): the size limit

The outputs of a server are split by slot; a property of one slot and its outputs that is kept by every
thing the server does to that slot holds for every run (`slot_run`).
-/
namespace Wolf.Tftp.Srv
open Wolf.Tftp

/-! ## Specification -/

/-- The slot an output belongs to. -/
def SOut.slot : SOut → Option Nat
  | .err _ => none
  | .openFile i _ _ => some i
  | .data i _ _ _ => some i
  | .oack i => some i
  | .ack i _ => some i
  | .write i _ _ => some i
  | .verify i _ => some i
  | .close i => some i

/-- The outputs of slot `i`. -/
def outsOf (i : Nat) (o : List SOut) : List SOut := o.filter (fun x => decide (x.slot = some i))

def updWrites (acc : List (Nat × List Nat)) : SOut → List (Nat × List Nat)
  | .openFile _ _ _ => []
  | .write _ off d => acc ++ [(off, d)]
  | _ => acc

/-- The write calls since the last file was opened. -/
def curWrites (o : List SOut) : List (Nat × List Nat) := o.foldl updWrites []

/-- The bytes written to the file opened last. -/
def received (o : List SOut) : List Nat := (curWrites o).flatMap (·.2)

/-! ## Outputs of one slot -/

def Tagged (i : Nat) (l : List SOut) : Prop := ∀ x ∈ l, x.slot = none ∨ x.slot = some i

theorem tagged_append {i : Nat} {a b : List SOut} (ha : Tagged i a) (hb : Tagged i b) : Tagged i (a ++ b) := by
  intro x hx
  rw [List.mem_append] at hx
  rcases hx with h | h
  · exact ha x h
  · exact hb x h

theorem tagged_one {i : Nat} {x : SOut} (h : x.slot = none ∨ x.slot = some i) : Tagged i [x] := by
  intro y hy; simp at hy; rw [hy]; exact h

theorem tagged_nil {i : Nat} : Tagged i [] := by intro x hx; simp at hx

theorem tagged_ite {i : Nat} {c : Prop} [Decidable c] {a b : List SOut} (ha : Tagged i a) (hb : Tagged i b) : Tagged i (if c then a else b) := by
  split
  · exact ha
  · exact hb

theorem fin_tagged (i : Nat) (s : Sess) : Tagged i (fin i s).2 := by
  rw [fin]; exact tagged_ite (tagged_one (Or.inr rfl)) tagged_nil

theorem winLoop_tagged (M : Nat) (env : SEnv) (i : Nat) : ∀ (n : Nat) (s : Sess) (o : List SOut), Tagged i o →
    Tagged i (winLoop M env i n s o).2.1 := by
  intro n
  induction n with
  | zero => intro s o h; exact h
  | succ n ih =>
    intro s o h
    have hd : ∀ a b c, Tagged i (o ++ [SOut.data i a b c]) := fun a b c => tagged_append h (tagged_one (Or.inr rfl))
    rw [winLoop]
    cases env.read s.nextOffset s.neg.blksize with
    | none => exact h
    | some r =>
      obtain ⟨d, last⟩ := r
      simp only
      split
      · exact tagged_append (tagged_append h (tagged_one (Or.inl rfl))) (fin_tagged i s)
      split
      · exact h
      split
      · exact hd _ _ _
      split
      · exact hd _ _ _
      · exact ih _ _ (hd _ _ _)

theorem sendWindow_tagged (M : Nat) (env : SEnv) (i : Nat) (s : Sess) : Tagged i (sendWindow M env i s).2.1 :=
  winLoop_tagged M env i _ _ [] tagged_nil

theorem recvAck_tagged (M : Nat) (env : SEnv) (i : Nat) (s : Sess) (n : Nat) : Tagged i (recvAck M env i s n).2 := by
  rw [recvAck]
  split
  · exact tagged_nil
  simp only
  split
  · exact fin_tagged _ _
  · exact sendWindow_tagged _ _ _ _

theorem recvData_tagged (M : Nat) (env : SEnv) (i : Nat) (s : Sess) (n : Nat) (d : List Nat) : Tagged i (recvData M env i s n d).2 := by
  have w : ∀ a b, Tagged i [SOut.write i a b] := fun a b => tagged_one (Or.inr rfl)
  rw [recvData]
  split
  · simp only
    split
    · exact tagged_append (tagged_one (Or.inl rfl)) (fin_tagged _ _)
    split
    · exact tagged_append (w _ _) (fin_tagged _ _)
    split
    · exact tagged_append (w _ _) (fin_tagged _ _)
    split
    · exact w _ _
    have wa : ∀ a b, Tagged i ([SOut.write i a b] ++ [SOut.ack i n]) := fun a b => tagged_append (w _ _) (tagged_one (Or.inr rfl))
    split
    · split
      · exact tagged_append (tagged_append (wa _ _) (tagged_one (Or.inr rfl))) (fin_tagged _ _)
      · exact wa _ _
    · split
      · exact tagged_append (tagged_append (w _ _) (tagged_one (Or.inr rfl))) (fin_tagged _ _)
      · exact w _ _
  · split
    · exact tagged_ite (tagged_one (Or.inr rfl)) tagged_nil
    · exact tagged_nil

theorem pollSess_tagged (M R : Nat) (env : SEnv) (i : Nat) (s : Sess) (now : Nat) : Tagged i (pollSess M R env i s now).2 := by
  rw [pollSess]
  split
  · exact tagged_nil
  split
  · exact tagged_nil
  split
  · exact tagged_nil
  split
  · exact fin_tagged _ _
  · simp only
    split
    · exact tagged_one (Or.inr rfl)
    split
    · exact tagged_one (Or.inr rfl)
    · exact sendWindow_tagged _ _ _ _

theorem startReply_tagged (cfg : Cfg) (env : SEnv) (i : Nat) (r : Req) (s : Sess) (o1 : List SOut) (h : Tagged i o1) :
    Tagged i (startReply cfg env i r s o1).2 := by
  rw [startReply]
  split
  · exact tagged_append h (tagged_ite (tagged_one (Or.inr rfl)) tagged_nil)
  split
  · exact tagged_append h (tagged_ite (tagged_one (Or.inr rfl)) tagged_nil)
  · exact tagged_append h (sendWindow_tagged _ _ _ _)

theorem startReq_tagged (cfg : Cfg) (env : SEnv) (i ip port : Nat) (r : Req) : Tagged i (startReq cfg env i ip port r).2 := by
  have op : ∀ a b, Tagged i [SOut.openFile i a b] := fun a b => tagged_one (Or.inr rfl)
  rw [startReq]
  simp only
  split
  · exact tagged_one (Or.inl rfl)
  split
  · exact tagged_append (a := [SOut.openFile i r.filename _]) (op _ _) (tagged_one (Or.inl rfl))
  exact startReply_tagged cfg env i r _ _ (op _ _)

theorem outsOf_append (i : Nat) (a b : List SOut) : outsOf i (a ++ b) = outsOf i a ++ outsOf i b := by simp [outsOf]

theorem outsOf_other (i j : Nat) (l : List SOut) (h : Tagged i l) (hij : i ≠ j) : outsOf j l = [] := by
  rw [outsOf, List.filter_eq_nil_iff]
  intro x hx
  rcases h x hx with e | e <;> rw [e] <;> simp [hij]

/-! ## One slot of a run -/

/-- A property of a slot and its outputs kept by every thing the server does to a slot. -/
structure Kept (cfg : Cfg) (i : Nat) (P : Sess → List SOut → Prop) : Prop where
  start : ∀ env ip port r m s o, parseRequest m = .ok r → s.used = false → P s o →
    P (startReq cfg env i ip port r).1 (o ++ outsOf i (startReq cfg env i ip port r).2)
  fin : ∀ s o, s.used = true → P s o → P (fin i s).1 (o ++ outsOf i (fin i s).2)
  ack : ∀ env s o n, s.used = true → s.isWrite = false → P s o →
    P (recvAck cfg.maxImage env i s n).1 (o ++ outsOf i (recvAck cfg.maxImage env i s n).2)
  data : ∀ env s o n d, s.used = true → s.isWrite = true → P s o →
    P (recvData cfg.maxImage env i s n d).1 (o ++ outsOf i (recvData cfg.maxImage env i s n d).2)
  poll : ∀ env s o now, P s o → P (pollSess cfg.maxImage cfg.maxRetries env i s now).1
    (o ++ outsOf i (pollSess cfg.maxImage cfg.maxRetries env i s now).2)

theorem pollAll_slot (cfg : Cfg) (env : Nat → SEnv) (now : Nat) : ∀ (ss : List Sess) (k j : Nat) (s : Sess), ss[j]? = some s →
    (pollAll cfg env now k ss).1[j]? = some (pollSess cfg.maxImage cfg.maxRetries (env (k + j)) (k + j) s now).1 ∧
    outsOf (k + j) (pollAll cfg env now k ss).2 = outsOf (k + j) (pollSess cfg.maxImage cfg.maxRetries (env (k + j)) (k + j) s now).2 := by
  have lower : ∀ (ss : List Sess) (k j : Nat), j < k → outsOf j (pollAll cfg env now k ss).2 = [] := by
    intro ss
    induction ss with
    | nil => intro k j h; simp [pollAll, outsOf]
    | cons s ss ih =>
      intro k j h
      rw [pollAll]
      simp only [outsOf_append]
      rw [outsOf_other k j _ (pollSess_tagged _ _ _ _ _ _) (by omega), ih (k + 1) j (by omega)]; rfl
  intro ss
  induction ss with
  | nil => intro k j s h; simp at h
  | cons s0 ss ih =>
    intro k j s h
    rw [pollAll]
    simp only [outsOf_append]
    cases j with
    | zero =>
      simp at h; subst h
      simp only [Nat.add_zero, List.getElem?_cons_zero, true_and]
      rw [lower ss (k + 1) k (by omega), List.append_nil]
    | succ j =>
      simp only [List.getElem?_cons_succ] at h ⊢
      have := ih (k + 1) j s h
      rw [show k + 1 + j = k + (j + 1) by omega] at this
      rw [outsOf_other k (k + (j + 1)) _ (pollSess_tagged _ _ _ _ _ _) (by omega), List.nil_append]
      exact this

theorem pollAll_length (cfg : Cfg) (env : Nat → SEnv) (now : Nat) : ∀ (ss : List Sess) (k : Nat), (pollAll cfg env now k ss).1.length = ss.length := by
  intro ss
  induction ss with
  | nil => intro k; rfl
  | cons s ss ih => intro k; rw [pollAll]; simp [ih]

/-- The slot table of a server whose slots all have the property. -/
def All (P : Nat → Sess → List SOut → Prop) (sv : Server) (o : List SOut) : Prop :=
  ∀ (i : Nat) (s : Sess), sv.sess[i]? = some s → P i s (outsOf i o)

theorem all_set (P : Nat → Sess → List SOut → Prop) (sv : Server) (o : List SOut) (i : Nat) (s0 : Sess) (x : Sess × List SOut)
    (hall : All P sv o) (hs : sv.sess[i]? = some s0) (ht : Tagged i x.2) (hx : P i x.1 (outsOf i o ++ outsOf i x.2)) :
    All P { sv with sess := sv.sess.set i x.1 } (o ++ x.2) := by
  intro j s hj
  simp only at hj
  rw [outsOf_append]
  by_cases hij : i = j
  · subst hij
    have hlt : i < sv.sess.length := by
      have := List.getElem?_eq_some_iff.mp hs; exact this.1
    rw [List.getElem?_set_self hlt] at hj
    simp at hj; subst hj
    exact hx
  · rw [List.getElem?_set_ne hij] at hj
    rw [outsOf_other i j _ ht hij, List.append_nil]
    exact hall j s hj

theorem all_none (P : Nat → Sess → List SOut → Prop) (sv : Server) (o l : List SOut) (h : All P sv o) (hl : ∀ i, outsOf i l = []) : All P sv (o ++ l) := by
  intro i s hs
  rw [outsOf_append, hl, List.append_nil]
  exact h i s hs

theorem step_all (P : Nat → Sess → List SOut → Prop) (sv : Server) (hk : ∀ i, Kept sv.cfg i (P i)) (o : List SOut) (e : SEv) (h : All P sv o) :
    All P (step sv e).1 (o ++ (step sv e).2) ∧ (step sv e).1.cfg = sv.cfg := by
  have none1 : ∀ (a : Nat), All P sv (o ++ [SOut.err a]) := fun a => all_none P sv o _ h (fun i => by simp [outsOf, SOut.slot])
  have none0 : All P sv (o ++ []) := by rw [List.append_nil]; exact h
  cases e with
  | poll env now =>
    refine ⟨?_, rfl⟩
    intro i s hs
    simp only [step] at hs ⊢
    rw [outsOf_append]
    have hlt : i < sv.sess.length := by
      have := (List.getElem?_eq_some_iff.mp hs).1; rw [pollAll_length] at this; exact this
    have hs0 : sv.sess[i]? = some sv.sess[i] := List.getElem?_eq_getElem hlt
    have hp := pollAll_slot sv.cfg env now sv.sess 0 i _ hs0
    rw [Nat.zero_add] at hp
    rw [hp.1] at hs
    simp at hs; subst hs
    rw [hp.2]
    exact (hk i).poll _ _ _ _ (h i _ hs0)
  | recv env lp ip port m =>
    simp only [step]
    rw [receive]
    split
    · cases hr : parseRequest m with
      | ok r =>
        simp only
        split
        · exact ⟨none0, rfl⟩
        split
        · exact ⟨none1 _, rfl⟩
        · rename_i i hi
          refine ⟨?_, rfl⟩
          rw [List.findIdx?_eq_some_iff_getElem] at hi
          obtain ⟨hlt, hfree, _⟩ := hi
          have hs0 : sv.sess[i]? = some sv.sess[i] := List.getElem?_eq_getElem hlt
          exact all_set P sv o i _ _ h hs0 (startReq_tagged _ _ _ _ _ _)
            ((hk i).start env ip port r m _ _ hr (by simpa using hfree) (h i _ hs0))
      | unsupported => exact ⟨none1 _, rfl⟩
      | packet => exact ⟨none1 _, rfl⟩
      | oob => exact ⟨none1 _, rfl⟩
      | running => exact ⟨none1 _, rfl⟩
    · simp only
      split
      · rename_i s hs0
        split
        · rename_i hc
          split
          · exact ⟨all_set P sv o _ _ _ h hs0 (fin_tagged _ _) ((hk _).fin _ _ hc.2.1 (h _ _ hs0)), rfl⟩
          split
          · rename_i hw
            split
            · exact ⟨none0, rfl⟩
            · exact ⟨all_set P sv o _ _ _ h hs0 (recvData_tagged _ _ _ _ _ _) ((hk _).data _ _ _ _ _ hc.2.1 hw (h _ _ hs0)), rfl⟩
          rename_i hw
          split
          · exact ⟨none0, rfl⟩
          · exact ⟨all_set P sv o _ _ _ h hs0 (recvAck_tagged _ _ _ _ _) ((hk _).ack _ _ _ _ hc.2.1 (by simpa using hw) (h _ _ hs0)), rfl⟩
        · exact ⟨none1 _, rfl⟩
      · exact ⟨none1 _, rfl⟩

theorem run_allSlots (P : Nat → Sess → List SOut → Prop) : ∀ (es : List SEv) (sv : Server) (o : List SOut), (∀ i, Kept sv.cfg i (P i)) → All P sv o →
    All P (run sv o es).1 (run sv o es).2 := by
  intro es
  induction es with
  | nil => intro sv o _ h; exact h
  | cons e es ih =>
    intro sv o hk h
    obtain ⟨h1, h2⟩ := step_all P sv hk o e h
    exact ih _ _ (by rw [h2]; exact hk) h1

/-- From power-up. -/
theorem slot_run (P : Nat → Sess → List SOut → Prop) (cfg : Cfg) (hk : ∀ i, Kept (cfgDefaults cfg) i (P i)) (h0 : ∀ i, P i {} [])
    (es : List SEv) : All P (run (init cfg) [] es).1 (run (init cfg) [] es).2 := by
  apply run_allSlots P es (init cfg) [] hk
  intro i s hs
  have : s = {} := by
    have := List.mem_of_getElem? hs
    rw [init] at this
    exact (List.mem_replicate.mp this).2
  rw [this]; exact h0 i

/-! ## The limit -/

/-- The state of one slot and its outputs, for a maximum `M` (0: none). -/
structure Lim (M : Nat) (s : Sess) (o : List SOut) : Prop where
  contig : Contiguous (curWrites o)
  lim : (received o).length ≤ 4294967295
  max : M ≠ 0 → (received o).length ≤ M
  wr : s.used = true → s.isWrite = true → s.total = (received o).length ∧ s.nextOffset = (received o).length
  rdT : s.used = true → s.isWrite = false → s.total = s.nextOffset ∧ s.total ≤ 4294967295 ∧ (M ≠ 0 → s.total ≤ M)
  rdW : s.used = true → s.isWrite = false → s.wsTotal = s.wsOffset ∧ s.wsTotal ≤ 4294967295 ∧ (M ≠ 0 → s.wsTotal ≤ M)
  sent : ∀ i off n d, .data i off n d ∈ o → off + d.length ≤ 4294967295 ∧ (M ≠ 0 → off + d.length ≤ M)

def NoW (l : List SOut) : Prop := ∀ x ∈ l, (∀ i n w, x ≠ .openFile i n w) ∧ (∀ i a d, x ≠ .write i a d)
def NoD (l : List SOut) : Prop := ∀ x ∈ l, ∀ i a n d, x ≠ .data i a n d

theorem curWrites_noW (o l : List SOut) (h : NoW l) : curWrites (o ++ l) = curWrites o := by
  rw [curWrites, List.foldl_append]
  generalize hc : o.foldl updWrites [] = c
  rw [curWrites, hc]
  clear hc
  induction l generalizing c with
  | nil => rfl
  | cons x l ih =>
    rw [List.foldl_cons]
    have : updWrites c x = c := by
      have hx := h x (by simp)
      cases x with
      | openFile i n w => exact absurd rfl (hx.1 i n w)
      | write i a d => exact absurd rfl (hx.2 i a d)
      | _ => rfl
    rw [this]
    exact ih (fun x hx => h x (by simp [hx])) c

theorem received_noW (o l : List SOut) (h : NoW l) : received (o ++ l) = received o := by rw [received, curWrites_noW o l h, received]

theorem curWrites_write (o : List SOut) (i off : Nat) (d : List Nat) : curWrites (o ++ [.write i off d]) = curWrites o ++ [(off, d)] := by
  simp [curWrites, updWrites]

theorem received_write (o : List SOut) (i off : Nat) (d : List Nat) : received (o ++ [.write i off d]) = received o ++ d := by
  simp [received, curWrites_write]

theorem outsOf_sub (i : Nat) (l : List SOut) : ∀ x ∈ outsOf i l, x ∈ l := by intro x hx; rw [outsOf, List.mem_filter] at hx; exact hx.1

theorem tooLarge_false (M total len : Nat) (h : tooLarge M total len = false) (hM : M ≠ 0 → total ≤ M) (hM32 : M < 4294967296) :
    total + len ≤ 4294967295 ∧ (M ≠ 0 → total + len ≤ M) := by
  simp only [tooLarge, Bool.or_eq_false_iff, Bool.and_eq_false_iff, decide_eq_false_iff_not] at h
  refine ⟨by omega, fun hne => ?_⟩
  have := hM hne
  have h2 : ¬ len > (M + 4294967296 - total) % 4294967296 := by rcases h.2 with x | x; exact absurd hne x; exact x
  have e : (M + 4294967296 - total) % 4294967296 = M - total := by
    rw [show M + 4294967296 - total = (M - total) + 4294967296 by omega, Nat.add_mod_right, Nat.mod_eq_of_lt (by omega)]
  omega

/-- Reads keep the limit. -/
structure RdOk (M : Nat) (s : Sess) : Prop where
  isRd : s.used = true → s.isWrite = false
  t : s.used = true → s.total = s.nextOffset ∧ s.total ≤ 4294967295 ∧ (M ≠ 0 → s.total ≤ M)
  w : s.used = true → s.wsTotal = s.wsOffset ∧ s.wsTotal ≤ 4294967295 ∧ (M ≠ 0 → s.wsTotal ≤ M)

def SentOk (M : Nat) (l : List SOut) : Prop :=
  ∀ i off n d, .data i off n d ∈ l → off + d.length ≤ 4294967295 ∧ (M ≠ 0 → off + d.length ≤ M)

theorem sentOk_append {M : Nat} {a b : List SOut} (ha : SentOk M a) (hb : SentOk M b) : SentOk M (a ++ b) := by
  intro i off n d h
  rw [List.mem_append] at h
  rcases h with h | h
  · exact ha i off n d h
  · exact hb i off n d h

theorem sentOk_noD {M : Nat} {a : List SOut} (h : NoD a) : SentOk M a := fun i off n d hx => absurd rfl (h _ hx i off n d)

theorem noW_append {a b : List SOut} (ha : NoW a) (hb : NoW b) : NoW (a ++ b) := by
  intro x hx; rw [List.mem_append] at hx; rcases hx with h | h; exact ha x h; exact hb x h

theorem fin_noW (i : Nat) (s : Sess) : NoW (fin i s).2 := by
  intro x hx; rw [fin] at hx; simp only at hx; split at hx <;> simp at hx; rw [hx]; simp

theorem fin_noD (i : Nat) (s : Sess) : NoD (fin i s).2 := by
  intro x hx; rw [fin] at hx; simp only at hx; split at hx <;> simp at hx; rw [hx]; simp

theorem winLoop_lim (M : Nat) (hM : M < 4294967296) (env : SEnv) (i : Nat) : ∀ (n : Nat) (s : Sess) (o : List SOut), s.used = true → RdOk M s → NoW o → SentOk M o →
    RdOk M (winLoop M env i n s o).1 ∧ NoW (winLoop M env i n s o).2.1 ∧ SentOk M (winLoop M env i n s o).2.1 := by
  intro n
  induction n with
  | zero => intro s o _ h1 h2 h3; exact ⟨h1, h2, h3⟩
  | succ n ih =>
    intro s o hu h1 h2 h3
    rw [winLoop]
    cases env.read s.nextOffset s.neg.blksize with
    | none => exact ⟨h1, h2, h3⟩
    | some r =>
      obtain ⟨d, last⟩ := r
      simp only
      by_cases htl : tooLarge M s.total d.length = true
      · rw [if_pos htl]
        refine ⟨⟨by simp [fin], by simp [fin], by simp [fin]⟩, noW_append (noW_append h2 ?_) (fin_noW _ _), sentOk_append (sentOk_append h3 ?_) (sentOk_noD (fin_noD _ _))⟩
        · intro x hx; simp at hx; rw [hx]; simp
        · intro a b c e hx; simp at hx
      rw [if_neg htl]
      by_cases hsend : env.send n = false
      · rw [if_pos hsend]; exact ⟨h1, h2, h3⟩
      rw [if_neg hsend]
      obtain ⟨t1, t2, t3⟩ := h1.t hu
      have hlim := tooLarge_false M s.total d.length (by simpa using htl) t3 hM
      have nw : NoW (o ++ [SOut.data i s.nextOffset s.nextBlock d]) := noW_append h2 (by intro x hx; simp at hx; rw [hx]; simp)
      have so : SentOk M (o ++ [SOut.data i s.nextOffset s.nextBlock d]) := sentOk_append h3 (by
        intro a b c e hx; simp at hx; rw [hx.2.1, hx.2.2.2, ← t1]; exact hlim)
      have key : ∀ s' : Sess, s'.used = s.used → s'.isWrite = s.isWrite → s'.total = (s.total + d.length) % 4294967296 → s'.nextOffset = (s.nextOffset + d.length) % 4294967296 →
          s'.wsTotal = s.wsTotal → s'.wsOffset = s.wsOffset → RdOk M s' := by
        intro s' e1 e2 e3 e4 e5 e6
        refine ⟨fun _ => by rw [e2]; exact h1.isRd hu, fun _ => ?_, fun _ => by rw [e5, e6]; exact h1.w hu⟩
        rw [e3, e4, ← t1, Nat.mod_eq_of_lt (by omega)]
        exact ⟨rfl, hlim⟩
      by_cases hs : d.length < s.neg.blksize
      · rw [if_pos hs]; exact ⟨key _ rfl rfl rfl rfl rfl rfl, nw, so⟩
      rw [if_neg hs]
      by_cases hl : last = true
      · rw [if_pos hl]; exact ⟨key _ rfl rfl rfl rfl rfl rfl, nw, so⟩
      rw [if_neg hl]
      exact ih _ _ hu (key _ rfl rfl rfl rfl rfl rfl) nw so

theorem sendWindow_lim (M : Nat) (hM : M < 4294967296) (env : SEnv) (i : Nat) (s : Sess) (hu : s.used = true) (hr : s.isWrite = false)
    (ht : s.total = s.nextOffset ∧ s.total ≤ 4294967295 ∧ (M ≠ 0 → s.total ≤ M)) :
    RdOk M (sendWindow M env i s).1 ∧ NoW (sendWindow M env i s).2.1 ∧ SentOk M (sendWindow M env i s).2.1 :=
  winLoop_lim M hM env i _ _ [] hu ⟨fun _ => hr, fun _ => ht, fun _ => ht⟩ (by intro x hx; simp at hx) (by intro a b c e hx; simp at hx)

/-- A step that writes nothing and leaves a reading (or free) slot. -/
theorem lim_quiet {M : Nat} {s s' : Sess} {o l : List SOut} (h : Lim M s o) (hw : NoW l) (hs : SentOk M l) (hr : RdOk M s') : Lim M s' (o ++ l) := by
  refine ⟨?_, ?_, ?_, ?_, ?_, ?_, sentOk_append h.sent hs⟩
  · rw [curWrites_noW _ _ hw]; exact h.contig
  · rw [received_noW _ _ hw]; exact h.lim
  · rw [received_noW _ _ hw]; exact h.max
  · intro hu hi; rw [hr.isRd hu] at hi; simp at hi
  · intro hu _; exact hr.t hu
  · intro hu _; exact hr.w hu

theorem rdOk_free (M : Nat) (s : Sess) (h : s.used = false) : RdOk M s :=
  ⟨fun hu => by rw [h] at hu; simp at hu, fun hu => by rw [h] at hu; simp at hu, fun hu => by rw [h] at hu; simp at hu⟩

theorem noW_sub {a b : List SOut} (h : NoW b) (hs : ∀ x ∈ a, x ∈ b) : NoW a := fun x hx => h x (hs x hx)
theorem sentOk_sub {M : Nat} {a b : List SOut} (h : SentOk M b) (hs : ∀ x ∈ a, x ∈ b) : SentOk M a := fun i off n d hx => h i off n d (hs _ hx)

theorem lim_congr {M : Nat} {s s' : Sess} {o : List SOut} (h : Lim M s o) (h1 : s'.used = s.used) (h2 : s'.isWrite = s.isWrite) (h3 : s'.total = s.total)
    (h4 : s'.nextOffset = s.nextOffset) (h5 : s'.wsTotal = s.wsTotal) (h6 : s'.wsOffset = s.wsOffset) : Lim M s' o := by
  refine ⟨h.contig, h.lim, h.max, ?_, ?_, ?_, h.sent⟩
  · rw [h1, h2, h3, h4]; exact h.wr
  · rw [h1, h2, h3, h4]; exact h.rdT
  · rw [h1, h2, h5, h6]; exact h.rdW

/-- A step that writes nothing and changes none of the counters. -/
theorem lim_same {M : Nat} {s s' : Sess} {o l : List SOut} (h : Lim M s o) (hw : NoW l) (hs : NoD l) (h1 : s'.used = s.used) (h2 : s'.isWrite = s.isWrite) (h3 : s'.total = s.total)
    (h4 : s'.nextOffset = s.nextOffset) (h5 : s'.wsTotal = s.wsTotal) (h6 : s'.wsOffset = s.wsOffset) : Lim M s' (o ++ l) := by
  apply lim_congr (s := s) _ h1 h2 h3 h4 h5 h6
  refine ⟨?_, ?_, ?_, ?_, h.rdT, h.rdW, sentOk_append h.sent (sentOk_noD hs)⟩
  · rw [curWrites_noW _ _ hw]; exact h.contig
  · rw [received_noW _ _ hw]; exact h.lim
  · rw [received_noW _ _ hw]; exact h.max
  · rw [received_noW _ _ hw]; exact h.wr

theorem rdOk_congr {M : Nat} {s s' : Sess} (h : RdOk M s) (h1 : s'.used = s.used) (h2 : s'.isWrite = s.isWrite) (h3 : s'.total = s.total)
    (h4 : s'.nextOffset = s.nextOffset) (h5 : s'.wsTotal = s.wsTotal) (h6 : s'.wsOffset = s.wsOffset) : RdOk M s' :=
  ⟨by rw [h1, h2]; exact h.isRd, by rw [h1, h3, h4]; exact h.t, by rw [h1, h5, h6]; exact h.w⟩

theorem noW_nil : NoW [] := by intro x hx; simp at hx
theorem noD_nil : NoD [] := by intro x hx; simp at hx

/-- What an accepted DATA packet does to a slot. -/
theorem recvData_lim (M : Nat) (hM : M < 4294967296) (env : SEnv) (i : Nat) (s : Sess) (n : Nat) (d : List Nat) (o : List SOut)
    (hu : s.used = true) (hi : s.isWrite = true) (h : Lim M s o) :
    Lim M (recvData M env i s n d).1 (o ++ outsOf i (recvData M env i s n d).2) := by
  have ow : ∀ (x : SOut) (l : List SOut), x.slot = some i → outsOf i (x :: l) = x :: outsOf i l := by
    intro x l hx; rw [outsOf, List.filter_cons_of_pos (by simp [hx]), outsOf]
  obtain ⟨t1, t2⟩ := h.wr hu hi
  -- after one accepted write
  have wrote : tooLarge M s.total d.length = false → ∀ (s' : Sess) (l : List SOut), NoW l → NoD l →
      (s'.used = false ∨ (s'.used = true ∧ s'.isWrite = true ∧ s'.total = (s.total + d.length) % 4294967296 ∧ s'.nextOffset = (s.nextOffset + d.length) % 4294967296)) →
      Lim M s' (o ++ (SOut.write i s.nextOffset d :: l)) := by
    intro htl s' l hw hd hs'
    have hlim := tooLarge_false M s.total d.length htl (by rw [t1]; exact h.max) hM
    rw [show o ++ (SOut.write i s.nextOffset d :: l) = (o ++ [SOut.write i s.nextOffset d]) ++ l by simp]
    have hlen : (received (o ++ [SOut.write i s.nextOffset d])).length = s.total + d.length := by
      rw [received_write, List.length_append, t1]
    refine ⟨?_, ?_, ?_, ?_, ?_, ?_, sentOk_append (sentOk_append h.sent (by intro a b c e hx; simp at hx)) (sentOk_noD hd)⟩
    · rw [curWrites_noW _ _ hw, curWrites_write]; exact contiguous_snoc _ _ _ h.contig (by rw [t2]; rfl)
    · rw [received_noW _ _ hw, hlen]; exact hlim.1
    · rw [received_noW _ _ hw, hlen]; exact hlim.2
    · rw [received_noW _ _ hw, hlen]
      intro hu' _
      rcases hs' with e | ⟨_, _, e3, e4⟩
      · rw [e] at hu'; simp at hu'
      · rw [e3, e4, t2, ← t1, Nat.mod_eq_of_lt (by omega)]; simp
    · intro hu' hw'
      rcases hs' with e | ⟨_, e, _, _⟩
      · rw [e] at hu'; simp at hu'
      · rw [e] at hw'; simp at hw'
    · intro hu' hw'
      rcases hs' with e | ⟨_, e, _, _⟩
      · rw [e] at hu'; simp at hu'
      · rw [e] at hw'; simp at hw'
  generalize hr : recvData M env i s n d = r
  rw [recvData] at hr
  by_cases hn : n = s.nextBlock
  · rw [if_pos hn] at hr
    simp only at hr
    by_cases htl : tooLarge M s.total d.length = true
    · rw [if_pos htl] at hr; subst hr
      apply lim_quiet h (noW_sub (noW_append (a := [SOut.err 3]) ?_ (fin_noW i { s with optionsSent := false })) (outsOf_sub i _))
        (sentOk_sub (sentOk_append (a := [SOut.err 3]) ?_ (sentOk_noD (fin_noD i { s with optionsSent := false }))) (outsOf_sub i _)) (rdOk_free M _ rfl)
      · intro x hx; simp at hx; rw [hx]; simp
      · intro a b c e hx; simp at hx
    rw [if_neg htl] at hr
    have wr := wrote (by simpa using htl)
    by_cases hwo : env.writeOk = false
    · rw [if_pos hwo] at hr; subst hr
      rw [List.singleton_append, ow _ _ rfl]
      exact wr _ _ (noW_sub (fin_noW _ _) (outsOf_sub i _)) (fun x hx => fin_noD _ _ x (outsOf_sub i _ x hx)) (Or.inl rfl)
    rw [if_neg hwo] at hr
    by_cases hho : d.length > 0 ∧ env.hashOk = false
    · rw [if_pos hho] at hr; subst hr
      rw [List.singleton_append, ow _ _ rfl]
      exact wr _ _ (noW_sub (fin_noW _ _) (outsOf_sub i _)) (fun x hx => fin_noD _ _ x (outsOf_sub i _ x hx)) (Or.inl rfl)
    rw [if_neg hho] at hr
    split at hr
    · subst hr
      rw [ow _ _ rfl]
      exact wr _ _ noW_nil noD_nil (Or.inr ⟨hu, hi, rfl, rfl⟩)
    · have nwA : ∀ (t : Nat) (s' : Sess) (a : List SOut), NoW a → NoD a → NoW (outsOf i (a ++ [SOut.verify i t] ++ (fin i s').2)) ∧ NoD (outsOf i (a ++ [SOut.verify i t] ++ (fin i s').2)) := by
        intro t s' a ha hb
        refine ⟨noW_sub (noW_append (noW_append ha ?_) (fin_noW i s')) (outsOf_sub i _), ?_⟩
        · intro x hx; simp at hx; rw [hx]; simp
        · intro x hx
          have := outsOf_sub i _ x hx
          simp only [List.mem_append] at this
          rcases this with (h | h) | h
          · exact hb x h
          · simp at h; rw [h]; simp
          · exact fin_noD _ _ x h
      have nA : NoW [SOut.ack i n] ∧ NoD [SOut.ack i n] := ⟨by intro x hx; simp at hx; rw [hx]; simp, by intro x hx; simp at hx; rw [hx]; simp⟩
      split at hr
      · split at hr
        · subst hr
          simp only [List.append_assoc, List.singleton_append, List.cons_append, List.nil_append]
          rw [ow _ _ rfl]
          have := fun s' => nwA ((s.total + d.length) % 4294967296) s' _ nA.1 nA.2
          simp only [List.append_assoc, List.singleton_append, List.cons_append, List.nil_append] at this
          exact wr _ _ (this _).1 (this _).2 (Or.inl rfl)
        · subst hr
          simp only [List.append_assoc, List.singleton_append, List.cons_append, List.nil_append]
          rw [ow _ _ rfl, ow _ _ rfl]
          exact wr _ _ nA.1 nA.2 (Or.inr ⟨hu, hi, rfl, rfl⟩)
      · split at hr
        · subst hr
          simp only [List.append_assoc, List.singleton_append, List.cons_append, List.nil_append]
          rw [ow _ _ rfl]
          have := nwA ((s.total + d.length) % 4294967296)
          have := fun s' => this s' [] noW_nil noD_nil
          simp only [List.nil_append, List.singleton_append, List.cons_append] at this
          exact wr _ _ (this _).1 (this _).2 (Or.inl rfl)
        · subst hr
          rw [ow _ _ rfl]
          exact wr _ _ noW_nil noD_nil (Or.inr ⟨hu, hi, rfl, rfl⟩)
  · rw [if_neg hn] at hr
    have nA : NoW (outsOf i (if env.send 0 = true then [SOut.ack i n] else [])) ∧ NoD (outsOf i (if env.send 0 = true then [SOut.ack i n] else [])) := by
      constructor <;> intro x hx <;> have hx := outsOf_sub i _ x hx <;> split at hx <;> simp at hx <;> rw [hx] <;> simp
    split at hr
    · subst hr; exact lim_same h nA.1 nA.2 rfl rfl rfl rfl rfl rfl
    · subst hr; exact lim_same h noW_nil noD_nil rfl rfl rfl rfl rfl rfl

theorem lim_kept (cfg : Cfg) (hM : cfg.maxImage < 4294967296) (i : Nat) : Kept cfg i (Lim cfg.maxImage) := by
  have ow : ∀ (x : SOut) (l : List SOut), x.slot = some i → outsOf i (x :: l) = x :: outsOf i l := by
    intro x l hx; rw [outsOf, List.filter_cons_of_pos (by simp [hx]), outsOf]
  refine ⟨?_, ?_, ?_, ?_, ?_⟩
  · intro env ip port r m s o _ _ h
    -- a file has just been opened
    have opened : ∀ n w (s' : Sess) (l : List SOut), NoW l → SentOk cfg.maxImage l →
        (s'.used = true → s'.isWrite = true → s'.total = 0 ∧ s'.nextOffset = 0) → (s'.isWrite = false → RdOk cfg.maxImage s') →
        Lim cfg.maxImage s' (o ++ (SOut.openFile i n w :: l)) := by
      intro n w s' l hw hs h1 h2
      have e : curWrites (o ++ (SOut.openFile i n w :: l)) = [] := by
        rw [show o ++ (SOut.openFile i n w :: l) = (o ++ [SOut.openFile i n w]) ++ l by simp, curWrites_noW _ _ hw]
        simp [curWrites, updWrites]
      have e2 : received (o ++ (SOut.openFile i n w :: l)) = [] := by rw [received, e]; rfl
      refine ⟨?_, by rw [e2]; simp, by rw [e2]; simp, ?_, ?_, ?_, sentOk_append h.sent ?_⟩
      · rw [e]; intro pre off d post he; simp at he
      · rw [e2]; exact h1
      · intro hu hi; exact (h2 hi).t hu
      · intro hu hi; exact (h2 hi).w hu
      · intro a b c e hx; simp at hx; exact hs a b c e hx
    generalize hr : startReq cfg env i ip port r = x
    rw [startReq] at hr
    simp only at hr
    split at hr
    · subst hr
      exact lim_quiet h (noW_sub (b := [SOut.err 3]) (by intro x hx; simp at hx; rw [hx]; simp) (outsOf_sub i _))
        (sentOk_sub (b := [SOut.err 3]) (by intro a b c e hx; simp at hx) (outsOf_sub i _)) (rdOk_free _ _ rfl)
    split at hr
    · subst hr
      rw [ow _ _ rfl]
      exact opened _ _ _ _ (noW_sub (b := [SOut.err 1]) (by intro x hx; simp at hx; rw [hx]; simp) (outsOf_sub i _))
        (sentOk_sub (b := [SOut.err 1]) (by intro a b c e hx; simp at hx) (outsOf_sub i _)) (by simp) (fun _ => rdOk_free _ _ rfl)
    · have reply : ∀ s' : Sess, s'.used = true → s'.total = 0 → s'.nextOffset = 0 → s'.wsTotal = 0 → s'.wsOffset = 0 → ∀ n w,
          Lim cfg.maxImage (startReply cfg env i r s' [.openFile i n w]).1 (o ++ outsOf i (startReply cfg env i r s' [.openFile i n w]).2) := by
        intro s' e1 e2 e3 e4 e5 n w
        have hrd : ∀ s'' : Sess, s''.isWrite = false → s''.total = 0 → s''.nextOffset = 0 → s''.wsTotal = 0 → s''.wsOffset = 0 → RdOk cfg.maxImage s'' := by
          intro s'' e0 e2 e3 e4 e5
          refine ⟨fun _ => e0, fun _ => ?_, fun _ => ?_⟩
          · rw [e2, e3]; simp
          · rw [e4, e5]; simp
        rw [startReply]
        split
        · simp only [List.singleton_append]
          rw [ow _ _ rfl]
          refine opened _ _ _ _ (noW_sub (b := [SOut.oack i]) ?_ ?_) (sentOk_sub (b := [SOut.oack i]) ?_ ?_) (fun _ _ => ⟨e2, e3⟩) (fun hi => hrd _ hi e2 e3 e4 e5)
          · intro x hx; simp at hx; rw [hx]; simp
          · intro x hx; have := outsOf_sub i _ x hx; split at this; exact this; simp at this
          · intro a b c e hx; simp at hx
          · intro x hx; have := outsOf_sub i _ x hx; split at this; exact this; simp at this
        split
        · simp only [List.singleton_append]
          rw [ow _ _ rfl]
          refine opened _ _ _ _ (noW_sub (b := [SOut.ack i 0]) ?_ ?_) (sentOk_sub (b := [SOut.ack i 0]) ?_ ?_) (fun _ _ => ⟨e2, e3⟩) (fun hi => hrd _ hi e2 e3 e4 e5)
          · intro x hx; simp at hx; rw [hx]; simp
          · intro x hx; have := outsOf_sub i _ x hx; split at this; exact this; simp at this
          · intro a b c e hx; simp at hx
          · intro x hx; have := outsOf_sub i _ x hx; split at this; exact this; simp at this
        · rename_i hw
          obtain ⟨w1, w2, w3⟩ := sendWindow_lim cfg.maxImage hM env i s' e1 (by simpa using hw) (by rw [e2, e3]; simp)
          simp only [List.singleton_append]
          rw [ow _ _ rfl]
          have rd : RdOk cfg.maxImage (if (sendWindow cfg.maxImage env i s').2.2 = true then { (sendWindow cfg.maxImage env i s').1 with deadline := 0 } else (sendWindow cfg.maxImage env i s').1) := by
            split
            · exact rdOk_congr w1 rfl rfl rfl rfl rfl rfl
            · exact w1
          exact opened _ _ _ _ (noW_sub w2 (outsOf_sub i _)) (sentOk_sub w3 (outsOf_sub i _))
            (fun hu hi => by rw [rd.isRd hu] at hi; simp at hi) (fun _ => rd)
      subst hr
      split
      · exact reply _ rfl rfl rfl rfl rfl _ _
      · exact reply _ rfl rfl rfl rfl rfl _ _
  · intro s o _ h
    exact lim_quiet h (noW_sub (fin_noW i s) (outsOf_sub i _)) (sentOk_sub (sentOk_noD (fin_noD i s)) (outsOf_sub i _)) (rdOk_free _ _ rfl)
  · intro env s o n hu hi h
    rw [recvAck]
    split
    · exact lim_same h noW_nil noD_nil rfl rfl rfl rfl rfl rfl
    simp only
    split
    · exact lim_quiet h (noW_sub (fin_noW i _) (outsOf_sub i _)) (sentOk_sub (sentOk_noD (fin_noD i _)) (outsOf_sub i _)) (rdOk_free _ _ rfl)
    · obtain ⟨w1, w2, w3⟩ := sendWindow_lim cfg.maxImage hM env i { s with lastAcked := n, windowCount := 0, optionsSent := false, deadline := 0, retries := 0 } hu hi (h.rdT hu hi)
      refine lim_quiet h (noW_sub w2 (outsOf_sub i _)) (sentOk_sub w3 (outsOf_sub i _)) ?_
      split
      · exact rdOk_congr w1 rfl rfl rfl rfl rfl rfl
      · exact w1
  · intro env s o n d hu hi h
    exact recvData_lim cfg.maxImage hM env i s n d o hu hi h
  · intro env s o now h
    rw [pollSess]
    split
    · exact lim_same h noW_nil noD_nil rfl rfl rfl rfl rfl rfl
    rename_i hu
    split
    · exact lim_same h noW_nil noD_nil rfl rfl rfl rfl rfl rfl
    split
    · exact lim_same h noW_nil noD_nil rfl rfl rfl rfl rfl rfl
    split
    · exact lim_quiet h (noW_sub (fin_noW i _) (outsOf_sub i _)) (sentOk_sub (sentOk_noD (fin_noD i _)) (outsOf_sub i _)) (rdOk_free _ _ rfl)
    simp only
    split
    · rw [ow _ _ rfl]
      exact lim_same h (by intro x hx; simp [outsOf] at hx; rw [hx]; simp) (by intro x hx; simp [outsOf] at hx; rw [hx]; simp) rfl rfl rfl rfl rfl rfl
    split
    · rw [ow _ _ rfl]
      exact lim_same h (by intro x hx; simp [outsOf] at hx; rw [hx]; simp) (by intro x hx; simp [outsOf] at hx; rw [hx]; simp) rfl rfl rfl rfl rfl rfl
    · rename_i hi
      have hu' : s.used = true := by simpa using hu
      have hi' : s.isWrite = false := by simpa using hi
      obtain ⟨w1, w2, w3⟩ := sendWindow_lim cfg.maxImage hM env i { s with nextOffset := s.wsOffset, total := s.wsTotal, nextBlock := s.wsBlock, finalSeen := s.wsFinal } hu' hi' (h.rdW hu' hi')
      exact lim_quiet h (noW_sub w2 (outsOf_sub i _)) (sentOk_sub w3 (outsOf_sub i _)) (rdOk_congr w1 rfl rfl rfl rfl rfl rfl)

/-- **C54, server.** From power-up, whatever packets arrive from anywhere and however the callbacks answer:
in every slot the writes to the file opened last are back to back from offset 0 and together do not
exceed the configured maximum (nor wrap 32 bits), and every DATA block ever sent lies within the first
`maxImage` bytes of the file it was read from. -/
theorem tftp_server_size_limit (cfg : Cfg) (h32 : cfg.maxImage < 4294967296) (es : List SEv) (i : Nat) (hi : i < slots) :
    Contiguous (curWrites (outsOf i (run (init cfg) [] es).2)) ∧
    (received (outsOf i (run (init cfg) [] es).2)).length ≤ 4294967295 ∧
    (cfg.maxImage ≠ 0 → (received (outsOf i (run (init cfg) [] es).2)).length ≤ cfg.maxImage) ∧
    ∀ off n d, .data i off n d ∈ (run (init cfg) [] es).2 →
      off + d.length ≤ 4294967295 ∧ (cfg.maxImage ≠ 0 → off + d.length ≤ cfg.maxImage) := by
  have hc : (cfgDefaults cfg).maxImage = cfg.maxImage := by rw [cfgDefaults]
  have hall := slot_run (fun _ => Lim cfg.maxImage) cfg (fun i => by rw [← hc]; exact lim_kept _ (by rw [hc]; exact h32) i)
    (fun i => ⟨by intro pre off d post he; simp [curWrites] at he, by simp [received, curWrites], by simp [received, curWrites], by simp, by simp, by simp, by simp⟩) es
  have hlen : ∀ (es : List SEv) (sv : Server) (o : List SOut), (run sv o es).1.sess.length = sv.sess.length := by
    intro es
    induction es with
    | nil => intro sv o; rfl
    | cons e es ih =>
      intro sv o
      rw [run, ih]
      cases e with
      | poll env now => simp [step, pollAll_length]
      | recv env lp ip port m =>
        simp only [step]
        rw [receive]
        split
        · split
          · split
            · rfl
            split
            · rfl
            · simp
          · rfl
          · rfl
        · simp only
          split
          · split
            · split
              · simp
              split
              · split
                · rfl
                · simp
              split
              · rfl
              · simp
            · rfl
          · rfl
  have hl : i < (run (init cfg) [] es).1.sess.length := by rw [hlen]; simpa [init] using hi
  have h := hall i _ (List.getElem?_eq_getElem hl)
  refine ⟨h.contig, h.lim, h.max, ?_⟩
  intro off n d hd
  exact h.sent i off n d (by rw [outsOf, List.mem_filter]; exact ⟨hd, by simp [SOut.slot]⟩)

end Wolf.Tftp.Srv
