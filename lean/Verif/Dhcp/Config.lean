import Verif.Dhcp.Client
/-!
# C31: the interface is configured only from a valid acknowledgement
-/
namespace Wolf.Dhcp

/-! ## Specification -/

/-- Payloads of the options with code `c`, in order. -/
def optVals (c : Nat) (l : List (Nat × List Nat)) : List (List Nat) := (l.filter (fun x => x.1 = c)).map (·.2)

/-- The 32-bit value of the last option with code `c`. -/
def lastVal (c : Nat) (l : List (Nat × List Nat)) : Option Nat := (optVals c l).getLast?.map u32

/-- A usable unicast host address (RFC 1122): not 0.0.0.0, not 255.255.255.255, not in 224.0.0.0/4, not
the broadcast address of its subnet. -/
def UsableHost (ip mask : Nat) : Prop :=
  ip ≠ 0 ∧ ip ≠ 4294967295 ∧ ¬ (3758096384 ≤ ip ∧ ip < 4026531840) ∧ ¬ (mask ≠ 0 ∧ ip ||| mask = 4294967295)

/-- The message is a reply in the client's current transaction. -/
def OurReply (d : Cli) (m : Msg) : Prop := 240 ≤ m.len ∧ m.op = 2 ∧ m.magic = 0x63825363 ∧ m.mxid = d.xid

/-- The mask an acknowledgement with options `post` leads to. -/
def ackMask (d : Cli) (post : List (Nat × List Nat)) : Nat :=
  (lastVal 1 post).getD (if d.mask ≠ 0 then d.mask else d.offMask)

/-- The address an acknowledgement with options `post` leads to. -/
def ackIp (m : Msg) (post : List (Nat × List Nat)) : Nat := (lastVal 50 post).getD m.yiaddr

/-- A well-formed DHCPACK for client `d`, with options `post` behind the message type: our transaction,
complete options up to option 255, no short option, the chosen server's identifier, a nonzero lease
time, a usable address and a nonzero mask. -/
structure AckOk (d : Cli) (m : Msg) (post : List (Nat × List Nat)) : Prop where
  reply : OurReply d m
  opts : ∃ pre, options m.regs true = .done (pre ++ (53, [5]) :: post) .sawEnd ∧ ∀ x ∈ pre, x.1 ≠ 53
  full : ∀ x ∈ post, x.1 ∈ [1, 3, 50, 51, 54, 58, 59] ∨ (x.1 = 6 ∧ d.dns = 0) → 4 ≤ x.2.length
  server : optVals 54 post ≠ [] ∧ (d.server ≠ 0 → ∀ p ∈ optVals 54 post, u32 p = d.server)
  lease : (lastVal 51 post).getD 0 ≠ 0
  mask : ackMask d post ≠ 0
  usable : UsableHost (ackIp m post) (ackMask d post)

/-- A DHCPNAK for client `d`: our transaction, last message type 6, and the chosen server's identifier if
a server was chosen. -/
def IsNak (d : Cli) (m : Msg) : Prop :=
  OurReply d m ∧ ∃ items f, options m.regs false = .done items f ∧
    ((items.filter (fun x => x.1 = 53 ∧ x.2.length = 1)).getLast?).map (fun x => x.2.getD 0 0) = some 6 ∧
    (d.server ≠ 0 → ((items.filter (fun x => x.1 = 54 ∧ 4 ≤ x.2.length)).getLast?).map (fun x => u32 x.2) = some d.server)

/-- The interface configuration. -/
def Cli.conf (d : Cli) : Nat × Nat × Nat := (d.ip, d.mask, d.gw)

/-! ## Proofs -/

theorem optVals_cons (c : Nat) (x : Nat × List Nat) (t : List (Nat × List Nat)) :
    optVals c (x :: t) = if x.1 = c then x.2 :: optVals c t else optVals c t := by
  rw [optVals, List.filter_cons]
  by_cases h : x.1 = c
  · simp [h, optVals]
  · simp [h, optVals]

theorem lastVal_cons (c : Nat) (x : Nat × List Nat) (t : List (Nat × List Nat)) :
    lastVal c (x :: t) = if x.1 = c then some ((lastVal c t).getD (u32 x.2)) else lastVal c t := by
  simp only [lastVal, optVals_cons]
  split
  · rw [List.getLast?_cons]
    cases (optVals c t).getLast? <;> simp
  · rfl

theorem header_iff (d : Cli) (m : Msg) : header d m = true ↔ OurReply d m := by
  simp [header, OurReply]

theorem sane_iff (ip mask : Nat) : sane ip mask = true ↔ UsableHost ip mask := by
  have hm : ip / 268435456 = 14 ↔ 3758096384 ≤ ip ∧ ip < 4026531840 := by omega
  simp only [sane, UsableHost]
  split
  · rename_i h; constructor
    · intro h'; simp at h'
    · intro ⟨h1, h2, _⟩; omega
  split
  · rename_i h; rw [hm] at h; constructor
    · intro h'; simp at h'
    · intro ⟨_, _, h3, _⟩; exact absurd h h3
  split
  · rename_i h; constructor
    · intro h'; simp at h'
    · intro ⟨_, _, _, h4⟩; exact absurd h h4
  · rename_i h1 h2 h3
    rw [hm] at h2
    exact ⟨fun _ => ⟨by omega, by omega, h2, h3⟩, fun _ => rfl⟩

/-- The options that must carry four bytes and, for a server id, name the chosen server. -/
def OptOk (server dns : Nat) (x : Nat × List Nat) : Prop :=
  (x.1 ∈ [1, 3, 50, 51, 54, 58, 59] ∨ (x.1 = 6 ∧ dns = 0) → 4 ≤ x.2.length) ∧
  (x.1 = 54 → server ≠ 0 → u32 x.2 = server)

theorem ackOpts_some (server dns : Nat) : ∀ (l : List (Nat × List Nat)) (a a' : Cand),
    ackOpts server dns l a = some a' → (∀ x ∈ l, OptOk server dns x) ∧
      a'.ip = (lastVal 50 l).or a.ip ∧ a'.mask = (lastVal 1 l).or a.mask ∧ a'.gw = (lastVal 3 l).or a.gw ∧
      a'.srv = (lastVal 54 l).or a.srv ∧ a'.lease = (lastVal 51 l).getD a.lease ∧
      a'.t1 = (lastVal 58 l).getD a.t1 ∧ a'.t2 = (lastVal 59 l).getD a.t2 := by
  intro l
  induction l with
  | nil => intro a a' h; simp only [ackOpts, Option.some.injEq] at h; subst h; simp [lastVal, optVals]
  | cons x t ih =>
    intro a a' h
    obtain ⟨c, p⟩ := x
    simp only [ackOpts] at h
    simp only [List.forall_mem_cons, lastVal_cons]
    by_cases h54 : c = 54
    · subst h54
      simp only [if_pos] at h
      split at h
      · simp at h
      split at h
      · simp at h
      rename_i h1 h2
      obtain ⟨g1, g2, g3, g4, g5, g6, g7, g8⟩ := ih _ _ h
      refine ⟨⟨⟨fun _ => Nat.le_of_not_lt h1, fun _ hs => by
        rcases Classical.em (u32 p = server) with h' | h'
        · exact h'
        · exact absurd ⟨hs, h'⟩ h2⟩, g1⟩, ?_⟩
      simp only [g2, g3, g4, g5, g6, g7, g8]
      simp only [if_pos]
      cases lastVal 54 t <;> simp
    rw [if_neg h54] at h
    by_cases h50 : c = 50
    · subst h50
      simp only [if_pos] at h
      split at h
      · simp at h
      rename_i h1
      obtain ⟨g1, g2, g3, g4, g5, g6, g7, g8⟩ := ih _ _ h
      refine ⟨⟨⟨fun _ => Nat.le_of_not_lt h1, fun h => by simp at h⟩, g1⟩, ?_⟩
      simp only [g2, g3, g4, g5, g6, g7, g8]
      cases lastVal 50 t <;> simp
    rw [if_neg h50] at h
    by_cases h1' : c = 1
    · subst h1'
      simp only [if_pos] at h
      split at h
      · simp at h
      rename_i h1
      obtain ⟨g1, g2, g3, g4, g5, g6, g7, g8⟩ := ih _ _ h
      refine ⟨⟨⟨fun _ => Nat.le_of_not_lt h1, fun h => by simp at h⟩, g1⟩, ?_⟩
      simp only [g2, g3, g4, g5, g6, g7, g8]
      cases lastVal 1 t <;> simp
    rw [if_neg h1'] at h
    by_cases h3 : c = 3
    · subst h3
      simp only [if_pos] at h
      split at h
      · simp at h
      rename_i h1
      obtain ⟨g1, g2, g3, g4, g5, g6, g7, g8⟩ := ih _ _ h
      refine ⟨⟨⟨fun _ => Nat.le_of_not_lt h1, fun h => by simp at h⟩, g1⟩, ?_⟩
      simp only [g2, g3, g4, g5, g6, g7, g8]
      cases lastVal 3 t <;> simp
    rw [if_neg h3] at h
    by_cases h6 : c = 6 ∧ dns = 0
    · rw [if_pos h6] at h
      split at h
      · simp at h
      rename_i h1
      obtain ⟨g1, g2, g3, g4, g5, g6, g7, g8⟩ := ih _ _ h
      refine ⟨⟨⟨fun _ => Nat.le_of_not_lt h1, fun h => by simp only at h; omega⟩, g1⟩, ?_⟩
      obtain ⟨h6, _⟩ := h6
      subst h6
      simp [g2, g3, g4, g5, g6, g7, g8]
    rw [if_neg h6] at h
    by_cases h51 : c = 51
    · subst h51
      simp only [if_pos] at h
      split at h
      · simp at h
      rename_i h1
      obtain ⟨g1, g2, g3, g4, g5, g6, g7, g8⟩ := ih _ _ h
      refine ⟨⟨⟨fun _ => Nat.le_of_not_lt h1, fun h => by simp at h⟩, g1⟩, ?_⟩
      simp only [g2, g3, g4, g5, g6, g7, g8]
      cases lastVal 51 t <;> simp
    rw [if_neg h51] at h
    by_cases h58 : c = 58
    · subst h58
      simp only [if_pos] at h
      split at h
      · simp at h
      rename_i h1
      obtain ⟨g1, g2, g3, g4, g5, g6, g7, g8⟩ := ih _ _ h
      refine ⟨⟨⟨fun _ => Nat.le_of_not_lt h1, fun h => by simp at h⟩, g1⟩, ?_⟩
      simp only [g2, g3, g4, g5, g6, g7, g8]
      cases lastVal 58 t <;> simp
    rw [if_neg h58] at h
    by_cases h59 : c = 59
    · subst h59
      simp only [if_pos] at h
      split at h
      · simp at h
      rename_i h1
      obtain ⟨g1, g2, g3, g4, g5, g6, g7, g8⟩ := ih _ _ h
      refine ⟨⟨⟨fun _ => Nat.le_of_not_lt h1, fun h => by simp at h⟩, g1⟩, ?_⟩
      simp only [g2, g3, g4, g5, g6, g7, g8]
      cases lastVal 59 t <;> simp
    rw [if_neg h59] at h
    obtain ⟨g1, g2, g3, g4, g5, g6, g7, g8⟩ := ih _ _ h
    refine ⟨⟨⟨fun hc => ?_, fun h => absurd h h54⟩, g1⟩, ?_⟩
    · exfalso
      rcases hc with hc | hc
      · simp only [List.mem_cons, List.not_mem_nil, or_false] at hc; omega
      · exact h6 hc
    · simp [g2, g3, g4, g5, g6, g7, g8, h54, h50, h1', h3, h51, h58, h59]

theorem ackOpts_isSome (server dns : Nat) : ∀ (l : List (Nat × List Nat)) (a : Cand),
    (∀ x ∈ l, OptOk server dns x) → (ackOpts server dns l a).isSome := by
  intro l
  induction l with
  | nil => intro a _; rfl
  | cons x t ih =>
    intro a h
    obtain ⟨c, p⟩ := x
    rw [List.forall_mem_cons] at h
    obtain ⟨⟨h1, h2⟩, h3⟩ := h
    simp only at h1 h2
    simp only [ackOpts]
    have hl : c ∈ [1, 3, 50, 51, 54, 58, 59] ∨ c = 6 ∧ dns = 0 → ¬ p.length < 4 := by
      intro hc; have := h1 hc; omega
    simp only [List.mem_cons, List.not_mem_nil, or_false] at hl
    split
    · rw [if_neg (hl (by omega)), if_neg (fun hh => hh.2 (h2 (by assumption) hh.1))]; exact ih _ h3
    split
    · rw [if_neg (hl (by omega))]; exact ih _ h3
    split
    · rw [if_neg (hl (by omega))]; exact ih _ h3
    split
    · rw [if_neg (hl (by omega))]; exact ih _ h3
    split
    · rw [if_neg (hl (by omega))]; exact ih _ h3
    split
    · rw [if_neg (hl (by omega))]; exact ih _ h3
    split
    · rw [if_neg (hl (by omega))]; exact ih _ h3
    split
    · rw [if_neg (hl (by omega))]; exact ih _ h3
    · exact ih _ h3

theorem findType_rest (ty : Nat) (b : Bool) : ∀ (l post : List (Nat × List Nat)), findType ty b l = .rest post →
    ∃ pre, l = pre ++ (53, [ty]) :: post ∧ (b = true → ∀ x ∈ pre, x.1 ≠ 53) := by
  intro l
  induction l with
  | nil => intro post h; simp [findType] at h
  | cons x t ih =>
    intro post h
    obtain ⟨c, p⟩ := x
    simp only [findType] at h
    split at h
    · rename_i hc
      split at h
      · simp at h
      rename_i hp
      split at h
      · rename_i ht
        simp only [Found.rest.injEq] at h
        refine ⟨[], ?_, by simp⟩
        rw [hc, h]
        match p, hp with
        | [y], _ => simp only [List.getD_cons_zero] at ht; rw [ht]; rfl
        | [], hp => simp at hp
        | _ :: _ :: _, hp => simp at hp
      · split at h
        · simp at h
        · rename_i hb
          obtain ⟨pre, e, _⟩ := ih post h
          exact ⟨(c, p) :: pre, by rw [e]; rfl, fun hb' => absurd hb' hb⟩
    · rename_i hc
      obtain ⟨pre, e, hpre⟩ := ih post h
      refine ⟨(c, p) :: pre, by rw [e]; rfl, fun hb => ?_⟩
      intro x hx
      rcases List.mem_cons.1 hx with hx | hx
      · rw [hx]; exact hc
      · exact hpre hb x hx

theorem findType_of_split (ty : Nat) (b : Bool) : ∀ (pre post : List (Nat × List Nat)), (∀ x ∈ pre, x.1 ≠ 53) →
    findType ty b (pre ++ (53, [ty]) :: post) = .rest post := by
  intro pre
  induction pre with
  | nil => intro post _; simp [findType]
  | cons x t ih =>
    intro post h
    rw [List.forall_mem_cons] at h
    rw [List.cons_append, findType, if_neg h.1]
    exact ih post h.2

theorem optVals_lastVal (c : Nat) (l : List (Nat × List Nat)) :
    (lastVal c l = none ↔ optVals c l = []) := by simp [lastVal]

theorem optOk_all (d : Cli) (l : List (Nat × List Nat)) : (∀ x ∈ l, OptOk d.server d.dns x) ↔
    (∀ x ∈ l, x.1 ∈ [1, 3, 50, 51, 54, 58, 59] ∨ (x.1 = 6 ∧ d.dns = 0) → 4 ≤ x.2.length) ∧
    (d.server ≠ 0 → ∀ p ∈ optVals 54 l, u32 p = d.server) := by
  constructor
  · intro h
    refine ⟨fun x hx => (h x hx).1, fun hs p hp => ?_⟩
    simp only [optVals, List.mem_map, List.mem_filter, decide_eq_true_eq] at hp
    obtain ⟨x, ⟨hx, h54⟩, rfl⟩ := hp
    exact (h x hx).2 h54 hs
  · intro ⟨h1, h2⟩ x hx
    refine ⟨h1 x hx, fun h54 hs => h2 hs x.2 ?_⟩
    simp only [optVals, List.mem_map, List.mem_filter, decide_eq_true_eq]
    exact ⟨x, ⟨hx, h54⟩, rfl⟩

/-- `parseAck` either leaves everything alone or commits a valid acknowledgement. -/
theorem parseAck_cases (d : Cli) (e : Env) (m : Msg) :
    (parseAck d e m = d ∧ ¬ ∃ post, AckOk d m post) ∨
    ∃ post a srv, AckOk d m post ∧ parseAck d e m = commit d e a srv (ackIp m post) (ackMask d post) ∧
      a.gw = lastVal 3 post ∧ some srv = lastVal 54 post ∧ some a.lease = lastVal 51 post ∧
      a.t1 = (lastVal 58 post).getD 0 ∧ a.t2 = (lastVal 59 post).getD 0 := by
  rw [parseAck]
  split
  · rename_i h
    refine Or.inl ⟨rfl, ?_⟩
    rintro ⟨post, h'⟩
    rw [(header_iff d m).2 h'.reply] at h; simp at h
  rename_i hh
  have hh := (header_iff d m).1 (by simpa using hh)
  split
  · rename_i items f ho
    have nope : (∀ post, findType 5 true items ≠ .rest post) → ¬ ∃ post, AckOk d m post := by
      rintro hn ⟨post, h'⟩
      obtain ⟨pre, e1, e2⟩ := h'.opts
      rw [ho] at e1
      injection e1 with e1 _
      apply hn post
      rw [e1]
      exact findType_of_split 5 true pre post e2
    have uniq : ∀ l post, findType 5 true items = .rest l → AckOk d m post → post = l ∧ f = .sawEnd := by
      intro l post hl h'
      obtain ⟨pre, e1, e2⟩ := h'.opts
      rw [ho] at e1
      injection e1 with e1 e3
      rw [e1, findType_of_split 5 true pre post e2] at hl
      injection hl with hl
      exact ⟨hl, e3⟩
    split
    · rename_i l hf
      split
      · rename_i ha
        refine Or.inl ⟨rfl, ?_⟩
        rintro ⟨post, h'⟩
        obtain ⟨rfl, _⟩ := uniq _ _ hf h'
        have := ackOpts_isSome d.server d.dns post Cand.init ((optOk_all d post).2 ⟨h'.full, h'.server.2⟩)
        rw [ha] at this; simp at this
      · rename_i a ha
        obtain ⟨g1, g2, g3, g4, g5, g6, g7, g8⟩ := ackOpts_some d.server d.dns l Cand.init a ha
        simp only [Cand.init, Option.or_none] at g2 g3 g4 g5 g6 g7 g8
        split
        · rename_i hs
          refine Or.inl ⟨rfl, ?_⟩
          rintro ⟨post, h'⟩
          exact hs (uniq _ _ hf h').2
        rename_i hs
        split
        · rename_i hsrv
          refine Or.inl ⟨rfl, ?_⟩
          rintro ⟨post, h'⟩
          obtain ⟨rfl, _⟩ := uniq _ _ hf h'
          rw [hsrv] at g5
          exact h'.server.1 ((optVals_lastVal 54 post).1 g5.symm)
        · rename_i srv hsrv
          have hip : a.ip.getD m.yiaddr = ackIp m l := by rw [g2]; rfl
          have hmask : a.mask.getD (if d.mask ≠ 0 then d.mask else d.offMask) = ackMask d l := by rw [g3]; rfl
          simp only
          rw [hip, hmask]
          split
          · rename_i hc
            obtain ⟨c1, c2, c3⟩ := hc
            obtain ⟨pre, e1, e2⟩ := findType_rest 5 true items l hf
            have hso := (optOk_all d l).1 g1
            refine Or.inr ⟨l, a, srv, ⟨hh, ⟨pre, ?_, e2 rfl⟩, hso.1, ⟨?_, hso.2⟩, by rw [← g6]; exact c1, c2,
              (sane_iff _ _).1 c3⟩, rfl, g4, by rw [← g5, hsrv], ?_, g7, g8⟩
            · rw [ho, e1]
              have : f = .sawEnd := by
                rcases Classical.em (f = .sawEnd) with h | h
                · exact h
                · exact absurd h hs
              rw [this]
            · intro h
              rw [(optVals_lastVal 54 l).2 h, hsrv] at g5; simp at g5
            · rw [g6] at c1 ⊢
              cases hl : lastVal 51 l with
              | none => rw [hl] at c1; simp at c1
              | some v => simp
          · rename_i hc
            refine Or.inl ⟨rfl, ?_⟩
            rintro ⟨post, h'⟩
            obtain ⟨rfl, _⟩ := uniq _ _ hf h'
            exact hc ⟨by rw [g6]; exact h'.lease, h'.mask, (sane_iff _ _).2 h'.usable⟩
    · rename_i hf
      exact Or.inl ⟨rfl, nope (fun post hp => hf post hp)⟩
  · rename_i hn
    refine Or.inl ⟨rfl, ?_⟩
    rintro ⟨post, h'⟩
    obtain ⟨pre, e1, e2⟩ := h'.opts
    exact hn _ _ e1

theorem typeScan_eq : ∀ (l : List (Nat × List Nat)) (a b : Option Nat), typeScan l (a, b) =
    ((((l.filter (fun x => x.1 = 53 ∧ x.2.length = 1)).getLast?).map (fun x => x.2.getD 0 0)).or a,
     (((l.filter (fun x => x.1 = 54 ∧ 4 ≤ x.2.length)).getLast?).map (fun x => u32 x.2)).or b) := by
  intro l
  induction l with
  | nil => intro a b; simp [typeScan]
  | cons x t ih =>
    intro a b
    obtain ⟨c, p⟩ := x
    simp only [typeScan]
    split
    · rename_i h
      rw [ih, List.filter_cons_of_pos (by simpa using h), List.filter_cons_of_neg (by simp; omega), List.getLast?_cons]
      congr 1
      cases (List.filter (fun x => decide (x.1 = 53 ∧ x.2.length = 1)) t).getLast? <;> simp
    split
    · rename_i h1 h
      rw [ih, List.filter_cons_of_neg (by simpa using h1), List.filter_cons_of_pos (by simpa using h), List.getLast?_cons]
      congr 1
      cases (List.filter (fun x => decide (x.1 = 54 ∧ 4 ≤ x.2.length)) t).getLast? <;> simp
    · rename_i h1 h
      rw [ih, List.filter_cons_of_neg (by simpa using h1), List.filter_cons_of_neg (by simpa using h)]

theorem msgType_nak (d : Cli) (m : Msg) : msgType d m = some 6 ↔ IsNak d m := by
  rw [msgType, IsNak]
  split
  · rename_i h
    refine ⟨fun h' => by simp at h', fun h' => ?_⟩
    rw [(header_iff d m).2 h'.1] at h; simp at h
  rename_i h
  have hh := (header_iff d m).1 (by simpa using h)
  split
  · rename_i items f ho
    rw [typeScan_eq]
    simp only [Option.or_none]
    constructor
    · intro h1
      split at h1
      · simp at h1
      · rename_i hs
        refine ⟨hh, items, f, ho, h1, fun h0 => ?_⟩
        rcases Classical.em (((items.filter (fun x => x.1 = 54 ∧ 4 ≤ x.2.length)).getLast?).map (fun x => u32 x.2) = some d.server) with h | h
        · exact h
        · exact absurd ⟨h0, h⟩ hs
    · rintro ⟨_, items', f', e, h1, h2⟩
      rw [ho] at e
      injection e with e _
      subst e
      rw [if_neg (fun hc => hc.2 (h2 hc.1))]
      exact h1
  · rename_i hn
    refine ⟨fun h' => by simp at h', ?_⟩
    rintro ⟨_, items', f', e, _⟩
    exact absurd e (hn _ _)

@[simp] theorem sched_conf (d : Cli) (e : Env) (w : Nat) : (sched d e w).conf = d.conf := by
  simp only [sched]; split <;> rfl

@[simp] theorem sched_ph (d : Cli) (e : Env) (w : Nat) : (sched d e w).ph = d.ph := by
  simp only [sched]; split <;> rfl

@[simp] theorem heapCancel_conf (d : Cli) : (heapCancel d).conf = d.conf := by
  simp only [heapCancel]; split <;> rfl

theorem cancelTimer_conf (d : Cli) : (cancelTimer d).conf = d.conf := by
  have := heapCancel_conf d
  simp only [Cli.conf, cancelTimer] at *
  exact this

theorem schedRenew_conf (d : Cli) (e : Env) (w : Nat) : (schedRenew d e w).conf = d.conf := by
  simp only [schedRenew]; split <;> simp

theorem sendRequest_conf (d : Cli) (e : Env) : (sendRequest d e).1.conf = d.conf := by
  have h1 : ∀ x : Cli, (if d.ph = .renew ∨ d.ph = .rebind then d else { d with ph := .req }).conf = d.conf := by
    intro _; split <;> rfl
  simp only [sendRequest]
  generalize hg : (if d.ph = .renew ∨ d.ph = .rebind then d else { d with ph := .req }) = d1
  have h2 : d1.conf = d.conf := by rw [← hg]; exact h1 d
  split
  · simp only
    split
    · rw [schedRenew_conf, ← h2]; rfl
    split
    · rw [schedRenew_conf, ← h2]; rfl
    · rw [sched_conf, ← h2]; rfl
  · rw [sched_conf, h2]

theorem sendDiscover_conf (d : Cli) (e : Env) : (sendDiscover d e).1.conf = d.conf := by
  simp only [sendDiscover]
  split
  · have := sched_conf { d with sent := d.sent ++ [1] } e (d.tick + discoverDelay d.count e.rnd)
    simp only [Cli.conf] at *; exact this
  · simp only; rw [sched_conf]; rfl

theorem bump_conf (r : Cli × Bool) : (bump r).conf = r.1.conf := by simp only [bump]; split <;> rfl

theorem restart_conf (d : Cli) (e : Env) : (restart d e).conf = (0, 0, 0) := by
  rw [restart, sendDiscover_conf]; rfl

theorem commit_conf (d : Cli) (e : Env) (a : Cand) (srv ip mask : Nat) :
    (commit d e a srv ip mask).conf = (ip, mask, a.gw.getD d.gw) ∧ (commit d e a srv ip mask).ph = .dad := by
  have hb : ∀ (x : Cli) (e : Env) (w : Nat), (sched (if e.probeOk then { x with probes := 1 } else x) e w).conf = x.conf ∧
      (sched (if e.probeOk then { x with probes := 1 } else x) e w).ph = x.ph := by
    intro x e w; rw [sched_conf, sched_ph]; split <;> exact ⟨rfl, rfl⟩
  have hl : ∀ (x : Cli) (l t1 t2 : Nat), (schedLease x e l t1 t2).conf = x.conf ∧ (schedLease x e l t1 t2).ph = x.ph := by
    intro x l t1 t2
    simp only [schedLease]
    split
    · exact ⟨rfl, rfl⟩
    · rw [sched_conf, sched_ph]; exact ⟨rfl, rfl⟩
  have hp : ∀ x : Cli, (heapCancel x).ph = x.ph := by intro x; simp only [heapCancel]; split <;> rfl
  simp only [commit]
  obtain ⟨h1, h2⟩ := hb (heapCancel (schedLease
    { cancelTimer { d with server := srv, ip := ip, mask := mask, gw := a.gw.getD d.gw, dns := if d.dns = 0 ∧ a.dns ≠ 0 then a.dns else d.dns } with
      offIp := ip, ph := .dad, probes := 0 } e a.lease a.t1 a.t2)) e
    ((heapCancel (schedLease
    { cancelTimer { d with server := srv, ip := ip, mask := mask, gw := a.gw.getD d.gw, dns := if d.dns = 0 ∧ a.dns ≠ 0 then a.dns else d.dns } with
      offIp := ip, ph := .dad, probes := 0 } e a.lease a.t1 a.t2)).tick + 1000)
  rw [h1, h2, heapCancel_conf, hp, (hl _ _ _ _).1, (hl _ _ _ _).2]
  refine ⟨?_, rfl⟩
  have := cancelTimer_conf { d with server := srv, ip := ip, mask := mask, gw := a.gw.getD d.gw, dns := if d.dns = 0 ∧ a.dns ≠ 0 then a.dns else d.dns }
  simp only [Cli.conf] at this ⊢
  exact this

theorem parseOffer_conf (d : Cli) (m : Msg) : (parseOffer d m).1.conf = d.conf := by
  simp only [parseOffer]
  split
  · rfl
  split
  · split
    · rfl
    · split
      · rfl
      split <;> rfl
    · split
      · rfl
      split
      · have := cancelTimer_conf
        simp only [Cli.conf] at this ⊢
        rw [this]
      · rfl
  · rfl

/-- The causes for which the client gives up the interface configuration. -/
inductive GiveUp (d : Cli) : Ev → Prop
  | nak (e : Env) (m : Msg) (hm : m.mine = true) (hp : d.ph = .req ∨ d.ph = .renew ∨ d.ph = .rebind)
      (h : IsNak d m) : GiveUp d (.recv e m)
  | inUse (e : Env) (h : d.ph = .dad) : GiveUp d (.claim e)
  | expired (id : Nat) (e : Env) (hp : d.ph = .bound ∨ d.ph = .rebind) (h : d.expires ≠ 0 ∧ d.expires ≤ d.tick) :
      GiveUp d (.fire id e)
  | unanswered (id : Nat) (e : Env) (hp : d.ph = .req) (h : 3 ≤ d.count) : GiveUp d (.fire id e)

/-- **C31.** In every state and for every event, the address, mask and gateway of the interface either
stay as they are, or are cleared because the lease was refused, found in use, expired or never confirmed,
or are those of a well-formed DHCPACK received while waiting for one. -/
theorem dhcp_config_only_from_ack (d : Cli) (ev : Ev) :
    (d.step ev).conf = d.conf ∨
    ((d.step ev).conf = (0, 0, 0) ∧ GiveUp d ev) ∨
    ∃ e m post, ev = .recv e m ∧ m.mine = true ∧ (d.ph = .req ∨ d.ph = .renew ∨ d.ph = .rebind) ∧ AckOk d m post ∧
      (d.step ev).conf = (ackIp m post, ackMask d post, (lastVal 3 post).getD d.gw) := by
  cases ev with
  | init e ok x =>
    left
    simp only [Cli.step, clientInit]
    split
    · rfl
    split
    · rw [sendDiscover_conf]; rfl
    · rfl
  | advance now => left; simp only [Cli.step]; split <;> rfl
  | claim e =>
    simp only [Cli.step, conflict]
    split
    · rename_i h
      right; left
      exact ⟨by rw [sendDiscover_conf]; rfl, .inUse e h⟩
    · left; rfl
  | fire id e =>
    simp only [Cli.step]
    split
    · split
      · simp only [timerCb]
        split
        · left
          split
          · rw [bump_conf, sendDiscover_conf]; rfl
          · rfl
        · rename_i hp
          (try simp only at hp)
          split
          · left; rw [bump_conf, sendRequest_conf]; rfl
          · rename_i hc; right; left; exact ⟨rfl, .unanswered id e hp (by omega)⟩
        · rename_i hp
          (try simp only at hp)
          split
          · rename_i hx; right; left; exact ⟨restart_conf _ _, .expired id e (Or.inl hp) ⟨hx.1, hx.2⟩⟩
          · left
            split
            · rfl
            · rw [bump_conf, sendRequest_conf]; rfl
        · left
          split <;> (rw [bump_conf, sendRequest_conf]; rfl)
        · rename_i hp
          (try simp only at hp)
          split
          · rename_i hx; right; left; exact ⟨restart_conf _ _, .expired id e (Or.inr hp) ⟨hx.1, hx.2⟩⟩
          · left; rw [bump_conf, sendRequest_conf]; rfl
        · left
          split
          · split <;> (rw [sched_conf]; rfl)
          · rw [sched_conf]; rfl
        · left; rfl
      · left; rfl
    · left; rfl
  | recv e m =>
    simp only [Cli.step, poll]
    split
    · left; rfl
    rename_i hm
    have hm : m.mine = true := by simpa using hm
    split
    · left
      split
      · rw [sendRequest_conf, parseOffer_conf]
      · rw [parseOffer_conf]
    split
    · rename_i hp
      split
      · rename_i hn
        right; left
        exact ⟨restart_conf _ _, .nak e m hm hp ((msgType_nak d m).1 hn)⟩
      · rcases parseAck_cases d e m with ⟨h, _⟩ | ⟨post, a, srv, h1, h2, h3, _⟩
        · left; rw [h]
        · right; right
          refine ⟨e, m, post, rfl, hm, hp, h1, ?_⟩
          rw [h2, (commit_conf _ _ _ _ _ _).1, h3]
    · left; rfl

/-- **C31, the other direction.** A well-formed DHCPACK received while waiting for one is applied, as a
whole, and the address is then probed. -/
theorem dhcp_ack_applied (d : Cli) (e : Env) (m : Msg) (post : List (Nat × List Nat)) (hm : m.mine = true)
    (hp : d.ph = .req ∨ d.ph = .renew ∨ d.ph = .rebind) (ha : AckOk d m post) (hn : ¬ IsNak d m) :
    (d.step (.recv e m)).conf = (ackIp m post, ackMask d post, (lastVal 3 post).getD d.gw) ∧
    (d.step (.recv e m)).ph = .dad := by
  have hd : d.ph ≠ .disc := by rintro h; rw [h] at hp; simp at hp
  simp only [Cli.step, poll]
  rw [if_neg (by simp [hm]), if_neg hd, if_pos hp, if_neg (fun h => hn ((msgType_nak d m).1 h))]
  rcases parseAck_cases d e m with ⟨_, h⟩ | ⟨post', a, srv, h1, h2, h3, _⟩
  · exact absurd ⟨post, ha⟩ h
  · have : post' = post := by
      obtain ⟨p1, e1, f1⟩ := h1.opts
      obtain ⟨p2, e2, f2⟩ := ha.opts
      rw [e1] at e2
      injection e2 with e2 _
      have a1 := findType_of_split 5 true p1 post' f1
      rw [e2, findType_of_split 5 true p2 post f2] at a1
      injection a1 with a1
      exact a1.symm
    subst this
    rw [h2, (commit_conf _ _ _ _ _ _).1, h3]
    exact ⟨rfl, (commit_conf _ _ _ _ _ _).2⟩

/-- **C31, rejected messages.** A message that is neither an acceptable offer, nor a refusal, nor a
well-formed acknowledgement changes nothing but, while discovering, the remembered server identifier. -/
theorem dhcp_rejected_changes_nothing (d : Cli) (e : Env) (m : Msg) (hn : ¬ IsNak d m)
    (ha : ¬ ∃ post, AckOk d m post) (ho : d.ph = .disc → (parseOffer d m).2 = false) :
    ∃ srv, d.step (.recv e m) = { d with server := srv } ∧ (d.ph ≠ .disc → srv = d.server) := by
  simp only [Cli.step, poll]
  split
  · exact ⟨d.server, rfl, fun _ => rfl⟩
  split
  · rename_i hp
    have h := ho hp
    rw [if_neg (by simp [h])]
    simp only [parseOffer] at h ⊢
    split
    · exact ⟨d.server, rfl, fun h => absurd hp h⟩
    rename_i h1
    rw [if_neg h1] at h
    split
    · rename_i items f hopt
      rw [hopt] at h
      simp only at h
      split
      · exact ⟨d.server, rfl, fun h => absurd hp h⟩
      · rename_i hf
        rw [hf] at h
        simp only at h
        split
        · exact ⟨d.server, rfl, fun h => absurd hp h⟩
        · rename_i h2
          rw [if_neg h2] at h
          split
          · rename_i h3; rw [if_pos h3] at h; simp at h
          · exact ⟨d.server, rfl, fun h => absurd hp h⟩
      · rename_i l hf
        rw [hf] at h
        simp only at h
        split
        · exact ⟨_, rfl, fun h => absurd hp h⟩
        · rename_i h2
          rw [if_neg h2] at h
          split
          · rename_i h3; rw [if_pos h3] at h; simp at h
          · exact ⟨_, rfl, fun h => absurd hp h⟩
    · exact ⟨d.server, rfl, fun h => absurd hp h⟩
  split
  · rw [if_neg (fun h => hn ((msgType_nak d m).1 h))]
    rcases parseAck_cases d e m with ⟨h, _⟩ | ⟨post, a, srv, h1, _⟩
    · exact ⟨d.server, by rw [h], fun _ => rfl⟩
    · exact absurd ⟨post, h1⟩ ha
  · exact ⟨d.server, rfl, fun _ => rfl⟩

/-! ## A concrete exchange -/

def exEnv : Env := { sendOk := true, probeOk := true, room := true, rnd := 7 }

/-- An offer of 10.0.0.9/24 by 10.0.0.1. -/
def exOffer : Msg :=
  { len := 300, mine := true, op := 2, magic := 0x63825363, mxid := 42, yiaddr := 167772169,
    regs := { opts := [53, 1, 2, 54, 4, 10, 0, 0, 1, 1, 4, 255, 255, 255, 0, 255], sname := [], file := [] } }

/-- Its acknowledgement, with a lease of 3600 s and router 10.0.0.1. -/
def exAck : Msg :=
  { exOffer with regs := { opts := [53, 1, 5, 54, 4, 10, 0, 0, 1, 1, 4, 255, 255, 255, 0, 3, 4, 10, 0, 0, 1,
                                    51, 4, 0, 0, 14, 16, 255], sname := [], file := [] } }

/-- After discovery and offer. -/
def exReq : Cli := (Cli.start 0 0 0 0 false 100).run [.init exEnv true 42, .recv exEnv exOffer]

example : exReq.ph = .req ∧ exReq.conf = (0, 0, 0) ∧ exReq.offIp = 167772169 := by decide +kernel

def exPost : List (Nat × List Nat) :=
  [(54, [10, 0, 0, 1]), (1, [255, 255, 255, 0]), (3, [10, 0, 0, 1]), (51, [0, 0, 14, 16])]

/-- The hypotheses of `dhcp_ack_applied` hold of a reachable state and a concrete message. -/
theorem exAck_ok : AckOk exReq exAck exPost := by
  have hr : exReq.xid = 42 ∧ exReq.server = 167772161 ∧ exReq.dns = 0 ∧ exReq.mask = 0 := by decide +kernel
  refine ⟨⟨by decide, by decide, by decide, hr.1.symm⟩, ⟨[], by decide +kernel, by simp⟩, ?_, ⟨by decide, ?_⟩, by decide +kernel,
    ?_, ?_⟩
  · intro x hx _
    simp only [exPost, List.mem_cons, List.not_mem_nil, or_false] at hx
    rcases hx with rfl | rfl | rfl | rfl <;> decide
  · intro _ p hp
    rw [hr.2.1]
    have : optVals 54 exPost = [[10, 0, 0, 1]] := by decide +kernel
    rw [this] at hp
    simp only [List.mem_singleton] at hp
    rw [hp]; decide +kernel
  · decide +kernel
  · have : UsableHost (ackIp exAck exPost) (ackMask exReq exPost) ↔
        sane (ackIp exAck exPost) (ackMask exReq exPost) = true := (sane_iff _ _).symm
    rw [this]; decide +kernel

example : (exReq.step (.recv exEnv exAck)).conf = (167772169, 4294967040, 167772161) := by decide +kernel

/-- An acknowledgement without a lease time is rejected. -/
example : exReq.step (.recv exEnv { exOffer with regs := { opts := [53, 1, 5, 54, 4, 10, 0, 0, 1, 255], sname := [], file := [] } })
    = exReq := by decide +kernel

/-- An offer whose server identifier is 0.0.0.0 is accepted, and then an acknowledgement by any server
is applied: "the chosen server's identifier" is only enforced for a nonzero identifier. -/
example :
    let o : Msg := { exOffer with regs := { opts := [53, 1, 2, 54, 4, 0, 0, 0, 0, 255], sname := [], file := [] } }
    let d := (Cli.start 0 0 0 0 false 100).run [.init exEnv true 42, .recv exEnv o]
    d.server = 0 ∧ (d.step (.recv exEnv exAck)).conf = (167772169, 4294967040, 167772161) := by decide +kernel

end Wolf.Dhcp
