import Verif.Tftp.Text
/-!
# C57: what one side writes is what the other side reads (requests and OACKs)
-/
namespace Wolf.Tftp

theorem strnlen_str : ∀ (s t : List Nat) (n : Nat), (∀ c ∈ s, c ≠ 0) → s.length < n → strnlen n (s ++ 0 :: t) = some s.length := by
  intro s
  induction s with
  | nil =>
    intro t n _ h
    cases n with
    | zero => simp at h
    | succ n => simp [strnlen]
  | cons c s ih =>
    intro t n hs h
    rw [List.forall_mem_cons] at hs
    cases n with
    | zero => simp at h
    | succ n =>
      rw [List.cons_append, strnlen, if_neg hs.1, ih t n hs.2 (by simpa using h)]
      rfl

theorem cstr_str : ∀ (s t : List Nat), (∀ c ∈ s, c ≠ 0) → cstr (s ++ 0 :: t) = some s := by
  intro s
  induction s with
  | nil => intro t _; simp [cstr]
  | cons c s ih =>
    intro t hs
    rw [List.forall_mem_cons] at hs
    rw [List.cons_append, cstr, if_neg hs.1, ih t hs.2]; rfl

/-- One option on the wire. -/
def wire (k v : List Nat) : List Nat := k ++ 0 :: (v ++ [0])

theorem optLoop_wire (step : α → List Nat → List Nat → PRes α) (fuel : Nat) (r r' : α) (k v t : List Nat)
    (hk : ∀ c ∈ k, c ≠ 0) (hk0 : k ≠ []) (hv : ∀ c ∈ v, c ≠ 0) (hv0 : v ≠ []) (hs : step r k v = .ok r') :
    optLoop step (fuel + 1) r (wire k v ++ t) = optLoop step fuel r' t := by
  have hkl : 0 < k.length := List.length_pos_iff.2 hk0
  have hvl : 0 < v.length := List.length_pos_iff.2 hv0
  have e1 : wire k v ++ t = k ++ 0 :: (v ++ 0 :: t) := by simp [wire]
  rw [e1, optLoop, if_neg (by simp), strnlen_str k _ _ hk (by simp)]
  simp only
  rw [if_neg (by simp; omega)]
  have e2 : (k ++ 0 :: (v ++ 0 :: t)).drop (k.length + 1) = v ++ 0 :: t := by
    have : k ++ 0 :: (v ++ 0 :: t) = (k ++ [0]) ++ (v ++ 0 :: t) := by simp
    rw [this, show k.length + 1 = (k ++ [0]).length by simp, List.drop_left]
  rw [e2, strnlen_str v _ _ hv (by simp)]
  simp only
  rw [if_neg (by simp; omega), cstr_str k _ hk, cstr_str v _ hv]
  simp only
  rw [hs]
  simp only
  congr 1
  have : v ++ 0 :: t = (v ++ [0]) ++ t := by simp
  rw [this, show v.length + 1 = (v ++ [0]).length by simp, List.drop_left]

theorem digits_no_nul (s : List Nat) (h : AllDigits s) : ∀ c ∈ s, c ≠ 0 := by
  intro c hc; have := h c hc; omega

theorem wire_length (k : List Nat) (v : Nat) (hv : v ≤ 0xFFFFFFFF) : (wire k (utoa 16 v)).length ≤ k.length + 12 := by
  have := (utoa_spec v hv).2.2.2
  simp only [wire, List.length_append, List.length_cons, List.length_nil]; omega

theorem optIf_some (b : Bool) (max : Nat) (key o : List Nat) (v : Nat) (hv : v ≤ 0xFFFFFFFF) (hl : o.length + key.length + 12 ≤ max) :
    optIf b max key v (some o) = some (o ++ if b then wire key (utoa 16 v) else []) := by
  rw [optIf]
  cases b with
  | false => simp
  | true =>
    have := (utoa_spec v hv).2.2.2
    simp only [if_true, appendOpt]
    rw [if_neg (by omega)]
    simp [wire]

theorem optWire_len (b : Bool) (key : List Nat) (v : Nat) (hv : v ≤ 0xFFFFFFFF) :
    (if b then wire key (utoa 16 v) else []).length ≤ key.length + 12 := by
  cases b
  · simp
  · simpa using wire_length key v hv

theorem kl : kBlksize.length = 7 ∧ kTimeout.length = 7 ∧ kTsize.length = 5 ∧ kWindowsize.length = 10 ∧ sOctet.length = 5 := by decide

theorem optLoop_if (step : α → List Nat → List Nat → PRes α) (b : Bool) (k : List Nat) (n : Nat) (fuel : Nat) (r : α) (f : α → α) (t : List Nat)
    (hf : 1 ≤ fuel) (hn : n ≤ 0xFFFFFFFF) (hk : ∀ c ∈ k, c ≠ 0) (hk0 : k ≠ []) (hs : b = true → step r k (utoa 16 n) = .ok (f r)) :
    ∃ fuel', fuel ≤ fuel' + 1 ∧
      optLoop step fuel r ((if b then wire k (utoa 16 n) else []) ++ t) = optLoop step fuel' (if b then f r else r) t := by
  obtain ⟨fuel, rfl⟩ : ∃ k, fuel = k + 1 := ⟨fuel - 1, by omega⟩
  cases b with
  | false => exact ⟨fuel + 1, by omega, by simp⟩
  | true =>
    obtain ⟨_, h2, h3, _⟩ := utoa_spec n hn
    refine ⟨fuel, by omega, ?_⟩
    simp only [if_true]
    exact optLoop_wire step fuel r (f r) k (utoa 16 n) t hk hk0 (digits_no_nul _ h2) h3 (hs rfl)

theorem optLoop_nil (step : α → List Nat → List Nat → PRes α) (fuel : Nat) (r : α) (hf : 1 ≤ fuel) : optLoop step fuel r [] = .ok r := by
  obtain ⟨fuel, rfl⟩ : ∃ k, fuel = k + 1 := ⟨fuel - 1, by omega⟩
  rfl

theorem reqOpt_vals (r : Req) :
    (∀ n, 8 ≤ n → n ≤ 1428 → reqOpt r kBlksize (utoa 16 n) = .ok { r with blksize := some n }) ∧
    (∀ n, 1 ≤ n → n ≤ 255 → reqOpt r kTimeout (utoa 16 n) = .ok { r with timeout := some n }) ∧
    (∀ n, 1 ≤ n → n ≤ 8 → reqOpt r kWindowsize (utoa 16 n) = .ok { r with windowsize := some n }) ∧
    (∀ n, n ≤ 0xFFFFFFFF → reqOpt r kTsize (utoa 16 n) = .ok { r with tsize := some n }) := by
  refine ⟨?_, ?_, ?_, ?_⟩
  · intro n h1 h2
    rw [reqOpt, if_pos (by decide), tftp_number_round_trip n maxBlksize (by simpa [maxBlksize] using h2) (by decide)]
    simp only
    rw [if_neg (by omega)]
  · intro n h1 h2
    rw [reqOpt, if_neg (by decide), if_pos (by decide), tftp_number_round_trip n 255 h2 (by decide)]
    simp only
    rw [if_neg (by omega)]
  · intro n h1 h2
    rw [reqOpt, if_neg (by decide), if_neg (by decide), if_neg (by decide), if_pos (by decide),
      tftp_number_round_trip n maxWindow (by simpa [maxWindow] using h2) (by decide)]
    simp only
    rw [if_neg (by omega)]
  · intro n h2
    rw [reqOpt, if_neg (by decide), if_neg (by decide), if_pos (by decide), tftp_number_round_trip n _ h2 (by decide)]

theorem oackOpt_vals (b : Bits) (r : Neg) :
    (∀ n, b.blksize = true → 8 ≤ n → n ≤ 1428 → oackOpt b r kBlksize (utoa 16 n) = .ok { r with blksize := n }) ∧
    (∀ n, b.timeout = true → 1 ≤ n → n ≤ 255 → oackOpt b r kTimeout (utoa 16 n) = .ok { r with timeout := n }) ∧
    (∀ n, b.windowsize = true → 1 ≤ n → n ≤ 8 → oackOpt b r kWindowsize (utoa 16 n) = .ok { r with windowsize := n }) ∧
    (∀ n, b.tsize = true → n ≤ 0xFFFFFFFF → oackOpt b r kTsize (utoa 16 n) = .ok { r with tsize := some n }) := by
  refine ⟨?_, ?_, ?_, ?_⟩
  · intro n hb h1 h2
    rw [oackOpt, if_pos (by decide), if_neg (by simp [hb]), tftp_number_round_trip n maxBlksize (by simpa [maxBlksize] using h2) (by decide)]
    simp only
    rw [if_neg (by omega)]
  · intro n hb h1 h2
    rw [oackOpt, if_neg (by decide), if_pos (by decide), if_neg (by simp [hb]), tftp_number_round_trip n 255 h2 (by decide)]
    simp only
    rw [if_neg (by omega)]
  · intro n hb h1 h2
    rw [oackOpt, if_neg (by decide), if_neg (by decide), if_neg (by decide), if_pos (by decide), if_neg (by simp [hb]),
      tftp_number_round_trip n maxWindow (by simpa [maxWindow] using h2) (by decide)]
    simp only
    rw [if_neg (by omega)]
  · intro n hb h2
    rw [oackOpt, if_neg (by decide), if_neg (by decide), if_pos (by decide), if_neg (by simp [hb]),
      tftp_number_round_trip n _ h2 (by decide)]

theorem keys_ok : (∀ c ∈ kBlksize, c ≠ 0) ∧ (∀ c ∈ kTimeout, c ≠ 0) ∧ (∀ c ∈ kTsize, c ≠ 0) ∧ (∀ c ∈ kWindowsize, c ≠ 0) ∧
    (∀ c ∈ sOctet, c ≠ 0) ∧ kBlksize ≠ [] ∧ kTimeout ≠ [] ∧ kTsize ≠ [] ∧ kWindowsize ≠ [] := by decide

/-- **C57, requests.** For every safe file name of 1 to 127 bytes and every client configuration (after
the defaults are applied) with a block size of at least 8 and a timeout of at most 255 s, the request the
client builds fits its buffer, and a server reads from it exactly the client's name and the options that
differ from the protocol defaults, with the client's values. -/
theorem tftp_request_round_trip (op : Nat) (name : List Nat) (c0 : Cfg) (hop : op = 1 ∨ op = 2)
    (hname : Safe name) (hlen : name.length < 128) (hnul : ∀ c ∈ name, c ≠ 0)
    (hb : 8 ≤ (cfgDefaults c0).blksize) (ht : (cfgDefaults c0).timeout ≤ 255) :
    ∃ m, buildRequest 256 op name (cfgDefaults c0) = some m ∧
      parseRequest m = .ok
        { opcode := op
          filename := name
          blksize := if (cfgDefaults c0).blksize ≠ 512 then some (cfgDefaults c0).blksize else none
          timeout := if (cfgDefaults c0).timeout ≠ 1 then some (cfgDefaults c0).timeout else none
          windowsize := if (cfgDefaults c0).windowsize > 1 then some (cfgDefaults c0).windowsize else none
          tsize := if (cfgDefaults c0).maxImage ≠ 0 then some 0 else none } := by
  have hbm : (cfgDefaults c0).blksize ≤ 1428 := by simp only [cfgDefaults, maxBlksize]; (repeat' split) <;> omega
  have hwm : 1 ≤ (cfgDefaults c0).windowsize ∧ (cfgDefaults c0).windowsize ≤ 8 := by
    simp only [cfgDefaults, maxWindow]; constructor <;> (repeat' split) <;> omega
  have ht1 : 1 ≤ (cfgDefaults c0).timeout := by simp only [cfgDefaults]; split <;> omega
  generalize cfgDefaults c0 = c at *
  have hn0 : 0 < name.length := List.length_pos_iff.2 hname.nonempty
  obtain ⟨l1, l2, l3, l4, l5⟩ := kl
  obtain ⟨k1, k2, k3, k4, k5, k6, k7, k8, k9⟩ := keys_ok
  rw [buildRequest, if_neg (by simp only [maxFilename]; omega), if_neg (by omega)]
  simp only
  -- the four options
  have w1 := optWire_len (requested c).blksize kBlksize c.blksize (by omega)
  have w2 := optWire_len (requested c).timeout kTimeout c.timeout (by omega)
  have w3 := optWire_len (requested c).windowsize kWindowsize c.windowsize (by omega)
  rw [optIf_some _ _ _ _ _ (by omega) (by simp [l1, l5]; omega),
    optIf_some _ _ _ _ _ (by omega) (by simp only [List.length_append, List.length_cons, List.length_nil, l5]; omega),
    optIf_some _ _ _ _ _ (by omega) (by simp only [List.length_append, List.length_cons, List.length_nil, l5]; omega),
    optIf_some _ _ _ _ _ (by omega) (by simp only [List.length_append, List.length_cons, List.length_nil, l5]; omega)]
  refine ⟨_, rfl, ?_⟩
  generalize ho1 : (if (requested c).blksize then wire kBlksize (utoa 16 c.blksize) else []) = o1 at *
  generalize ho2 : (if (requested c).timeout then wire kTimeout (utoa 16 c.timeout) else []) = o2 at *
  generalize ho3 : (if (requested c).windowsize then wire kWindowsize (utoa 16 c.windowsize) else []) = o3 at *
  generalize ho4 : (if (requested c).tsize then wire kTsize (utoa 16 0) else []) = o4 at *
  have em : ([op / 256, op % 256] ++ name ++ [0] ++ sOctet ++ [0] ++ o1 ++ o2 ++ o3 ++ o4) =
      (op / 256) :: (op % 256) :: (name ++ 0 :: (sOctet ++ 0 :: (o1 ++ (o2 ++ (o3 ++ (o4 ++ [])))))) := by simp
  rw [em]
  generalize htl : o1 ++ (o2 ++ (o3 ++ (o4 ++ []))) = tl
  have hrd : rd16 ((op / 256) :: (op % 256) :: (name ++ 0 :: (sOctet ++ 0 :: tl))) 0 = op := by
    rcases hop with rfl | rfl <;> simp [rd16]
  have hml : ((op / 256) :: (op % 256) :: (name ++ 0 :: (sOctet ++ 0 :: tl))).length = name.length + tl.length + 9 := by
    simp [l5]; omega
  rw [parseRequest, hrd, hml, if_neg (by omega)]
  simp only
  rw [if_neg (by omega)]
  show (match strnlen _ (name ++ 0 :: (sOctet ++ 0 :: tl)) with
    | none => _
    | some sl => _) = _
  rw [strnlen_str name _ _ hnul (by omega)]
  simp only
  rw [if_neg (by simp only [maxFilename]; omega)]
  have e1 : List.drop 2 ((op / 256) :: (op % 256) :: (name ++ 0 :: (sOctet ++ 0 :: tl))) = name ++ 0 :: (sOctet ++ 0 :: tl) := rfl
  have e2 : (name ++ 0 :: (sOctet ++ 0 :: tl)).take name.length = name := List.take_left ..
  have e3 : (name ++ 0 :: (sOctet ++ 0 :: tl)).drop (name.length + 1) = sOctet ++ 0 :: tl := by
    have : name ++ 0 :: (sOctet ++ 0 :: tl) = (name ++ [0]) ++ (sOctet ++ 0 :: tl) := by simp
    rw [this, show name.length + 1 = (name ++ [0]).length by simp, List.drop_left]
  rw [e1, e2, e3, if_neg (by rw [check_of_safe name hname]; simp), strnlen_str sOctet _ _ k5 (by simp)]
  simp only
  rw [if_neg (by simp [l5]), cstr_str sOctet _ k5]
  simp only
  rw [if_pos (by decide)]
  have e4 : (sOctet ++ 0 :: tl).drop (sOctet.length + 1) = tl := by
    have : sOctet ++ 0 :: tl = (sOctet ++ [0]) ++ tl := by simp
    rw [this, show sOctet.length + 1 = (sOctet ++ [0]).length by simp, List.drop_left]
  rw [e4, ← htl]
  -- read the options back
  generalize hF : name.length + (o1 ++ (o2 ++ (o3 ++ (o4 ++ [])))).length + 9 + 1 = F
  have hF5 : 5 ≤ F := by omega
  rw [← ho1]
  obtain ⟨F1, a1, a2⟩ := optLoop_if reqOpt (requested c).blksize kBlksize c.blksize F
    { opcode := op, filename := name } (fun r => { r with blksize := some c.blksize }) (o2 ++ (o3 ++ (o4 ++ []))) (by omega) (by omega) k1 k6
    (fun _ => (reqOpt_vals _).1 _ hb hbm)
  rw [a2, ← ho2]
  obtain ⟨F2, b1, b2⟩ := optLoop_if reqOpt (requested c).timeout kTimeout c.timeout F1
    (if (requested c).blksize then { opcode := op, filename := name, blksize := some c.blksize } else { opcode := op, filename := name })
    (fun r => { r with timeout := some c.timeout }) (o3 ++ (o4 ++ [])) (by omega) (by omega) k2 k7
    (fun _ => (reqOpt_vals _).2.1 _ ht1 ht)
  rw [b2, ← ho3]
  obtain ⟨F3, c1, c2⟩ := optLoop_if reqOpt (requested c).windowsize kWindowsize c.windowsize F2 _
    (fun r => { r with windowsize := some c.windowsize }) (o4 ++ []) (by omega) (by omega) k4 k9
    (fun _ => (reqOpt_vals _).2.2.1 _ hwm.1 hwm.2)
  rw [c2, ← ho4]
  obtain ⟨F4, d1, d2⟩ := optLoop_if reqOpt (requested c).tsize kTsize 0 F3 _
    (fun r => { r with tsize := some 0 }) [] (by omega) (by omega) k3 k8
    (fun _ => (reqOpt_vals _).2.2.2 _ (by omega))
  rw [d2, optLoop_nil _ _ _ (by omega)]
  simp only [requested, decide_eq_true_eq]
  congr 1
  by_cases q1 : c.blksize ≠ 512 <;> by_cases q2 : c.timeout ≠ 1 <;> by_cases q3 : c.windowsize > 1 <;> by_cases q4 : c.maxImage ≠ 0 <;>
    simp only [q1, q2, q3, q4, if_true, if_false, ne_eq, not_true_eq_false, not_false_eq_true]

/-- **C57, OACKs.** For every negotiated state with values in range and every set of options, the OACK the
server builds fits its buffer, and a client that asked for (at least) those options ends up with exactly
the server's values for them and keeps its own for the others. -/
theorem tftp_oack_round_trip (n n0 : Neg) (b asked : Bits) (hb : 8 ≤ n.blksize ∧ n.blksize ≤ 1428)
    (ht : 1 ≤ n.timeout ∧ n.timeout ≤ 255) (hw : 1 ≤ n.windowsize ∧ n.windowsize ≤ 8) (hs : n.tsize.getD 0 ≤ 0xFFFFFFFF)
    (s1 : b.blksize = true → asked.blksize = true) (s2 : b.timeout = true → asked.timeout = true)
    (s3 : b.tsize = true → asked.tsize = true) (s4 : b.windowsize = true → asked.windowsize = true) :
    ∃ m, buildOack 1432 n b = some m ∧
      parseOack m n0 asked = .ok
        { blksize := if b.blksize then n.blksize else n0.blksize
          timeout := if b.timeout then n.timeout else n0.timeout
          windowsize := if b.windowsize then n.windowsize else n0.windowsize
          tsize := if b.tsize then some (n.tsize.getD 0) else n0.tsize } := by
  obtain ⟨l1, l2, l3, l4, l5⟩ := kl
  obtain ⟨k1, k2, k3, k4, k5, k6, k7, k8, k9⟩ := keys_ok
  rw [buildOack]
  have w1 := optWire_len b.blksize kBlksize n.blksize (by omega)
  have w2 := optWire_len b.timeout kTimeout n.timeout (by omega)
  have w3 := optWire_len b.tsize kTsize (n.tsize.getD 0) (by omega)
  rw [optIf_some _ _ _ _ _ (by omega) (by simp [l1]),
    optIf_some _ _ _ _ _ (by omega) (by simp only [List.length_append, List.length_cons, List.length_nil]; omega),
    optIf_some _ _ _ _ _ (by omega) (by simp only [List.length_append, List.length_cons, List.length_nil]; omega),
    optIf_some _ _ _ _ _ (by omega) (by simp only [List.length_append, List.length_cons, List.length_nil]; omega)]
  refine ⟨_, rfl, ?_⟩
  generalize ho1 : (if b.blksize then wire kBlksize (utoa 16 n.blksize) else []) = o1 at *
  generalize ho2 : (if b.timeout then wire kTimeout (utoa 16 n.timeout) else []) = o2 at *
  generalize ho3 : (if b.tsize then wire kTsize (utoa 16 (n.tsize.getD 0)) else []) = o3 at *
  generalize ho4 : (if b.windowsize then wire kWindowsize (utoa 16 n.windowsize) else []) = o4 at *
  have em : [0, 6] ++ o1 ++ o2 ++ o3 ++ o4 = 0 :: 6 :: (o1 ++ (o2 ++ (o3 ++ (o4 ++ [])))) := by simp
  rw [em, parseOack, if_neg (by simp), if_neg (by simp [rd16])]
  show optLoop (oackOpt asked) _ n0 (o1 ++ (o2 ++ (o3 ++ (o4 ++ [])))) = _
  by_cases hemp : o1 ++ (o2 ++ (o3 ++ (o4 ++ []))) = []
  · have hz : o1 = [] ∧ o2 = [] ∧ o3 = [] ∧ o4 = [] := by simpa using hemp
    have z : ∀ (x : Bool) (k : List Nat) (v : Nat), (if x then wire k (utoa 16 v) else []) = [] → x = false := by
      intro x k v h; cases x
      · rfl
      · simp [wire] at h
    rw [z _ _ _ (ho1.trans hz.1), z _ _ _ (ho2.trans hz.2.1), z _ _ _ (ho3.trans hz.2.2.1), z _ _ _ (ho4.trans hz.2.2.2), hemp,
      optLoop_nil _ _ _ (by omega)]
    simp
  generalize hF : (0 :: 6 :: (o1 ++ (o2 ++ (o3 ++ (o4 ++ []))))).length + 1 = F
  have hF5 : 5 ≤ F := by
    have hw : ∀ (x : Bool) (k : List Nat) (v : Nat), k ≠ [] → (if x then wire k (utoa 16 v) else []) = [] ∨
        3 ≤ (if x then wire k (utoa 16 v) else []).length := by
      intro x k v hk
      cases x
      · left; rfl
      · right
        have := List.length_pos_iff.2 hk
        simp [wire]; omega
    have h1 := hw b.blksize kBlksize n.blksize k6
    have h2 := hw b.timeout kTimeout n.timeout k7
    have h3 := hw b.tsize kTsize (n.tsize.getD 0) k8
    have h4 := hw b.windowsize kWindowsize n.windowsize k9
    rw [ho1] at h1; rw [ho2] at h2; rw [ho3] at h3; rw [ho4] at h4
    simp only [List.length_cons, List.length_append, List.length_nil] at hF
    rcases h1 with h1 | h1
    · rcases h2 with h2 | h2
      · rcases h3 with h3 | h3
        · rcases h4 with h4 | h4
          · rw [h1, h2, h3, h4] at hemp; simp at hemp
          · omega
        · omega
      · omega
    · omega
  rw [← ho1]
  obtain ⟨F1, a1, a2⟩ := optLoop_if (oackOpt asked) b.blksize kBlksize n.blksize F n0
    (fun r => { r with blksize := n.blksize }) (o2 ++ (o3 ++ (o4 ++ []))) (by omega) (by omega) k1 k6
    (fun h => (oackOpt_vals _ _).1 _ (s1 h) hb.1 hb.2)
  rw [a2, ← ho2]
  obtain ⟨F2, b1, b2⟩ := optLoop_if (oackOpt asked) b.timeout kTimeout n.timeout F1 _
    (fun r => { r with timeout := n.timeout }) (o3 ++ (o4 ++ [])) (by omega) (by omega) k2 k7
    (fun h => (oackOpt_vals _ _).2.1 _ (s2 h) ht.1 ht.2)
  rw [b2, ← ho3]
  obtain ⟨F3, c1, c2⟩ := optLoop_if (oackOpt asked) b.tsize kTsize (n.tsize.getD 0) F2 _
    (fun r => { r with tsize := some (n.tsize.getD 0) }) (o4 ++ []) (by omega) (by omega) k3 k8
    (fun h => (oackOpt_vals _ _).2.2.2 _ (s3 h) hs)
  rw [c2, ← ho4]
  obtain ⟨F4, d1, d2⟩ := optLoop_if (oackOpt asked) b.windowsize kWindowsize n.windowsize F3 _
    (fun r => { r with windowsize := n.windowsize }) [] (by omega) (by omega) k4 k9
    (fun h => (oackOpt_vals _ _).2.2.1 _ (s4 h) hw.1 hw.2)
  rw [d2, optLoop_nil _ _ _ (by omega)]
  congr 1
  cases b.blksize <;> cases b.timeout <;> cases b.tsize <;> cases b.windowsize <;> rfl

/-- A request for "fw/a.bin" with block size 1024, timeout 3 s and a window of 4. -/
def exCfg : Cfg := { blksize := 1024, timeout := 3, windowsize := 4, maxRetries := 0, maxImage := 100000 }
def exName : List Nat := [102, 119, 47, 97, 46, 98, 105, 110]

example : Safe exName ∧ 8 ≤ (cfgDefaults exCfg).blksize ∧ (cfgDefaults exCfg).timeout ≤ 255 :=
  ⟨safe_of_check _ (by decide +kernel), by decide, by decide⟩

/-- "a/../b" and "..\x" are refused, "fw..bin" is not. -/
example : filenameIsSafe [97, 47, 46, 46, 47, 98] = false ∧ filenameIsSafe [46, 46, 92, 120] = false ∧
    filenameIsSafe [102, 119, 46, 46, 98, 105, 110] = true := by decide +kernel

/-- "4294967296" is refused, "4294967295" is read. -/
example : parseU32 [52, 50, 57, 52, 57, 54, 55, 50, 57, 54] 0xFFFFFFFF = none ∧
    parseU32 [52, 50, 57, 52, 57, 54, 55, 50, 57, 53] 0xFFFFFFFF = some 4294967295 := by decide +kernel

end Wolf.Tftp
