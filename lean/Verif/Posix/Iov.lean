/-!
# C114: scatter and gather

Model of `wolfip_calc_msghdr_len` (630–648), `wolfip_flatten_iov` (650–664), `wolfip_scatter_iov` (666–686), `wolfip_fill_ttl_control` (688–709),
`wolfIP_sock_sendmsg` (966–1011) and `wolfIP_sock_recvmsg` (1013–1064) of `src/port/posix/bsd_socket.c`, with memory as a map from addresses to octets
and every access to the intermediate buffer checked against its size.

Not modelled: the address (`msg_name`), which is handed through, and its interface index.
-/
namespace Wolf.Posix.Iov

abbrev Bytes := List Nat
abbrev Mem := Nat → Nat

/-- `struct iovec`; `none` is the null pointer. -/
structure Vec where
  base : Option Nat
  len : Nat
deriving DecidableEq, Repr

/-- `SIZE_MAX` -/
notation "sizeMax" => (18446744073709551615 : Nat)
/-- `WOLFIP_IOV_STACK_BUF` -/
notation "stackBuf" => (2048 : Nat)

def load (m : Mem) (b n : Nat) : Bytes := (List.range' b n).map m

/-- `memcpy` into memory. -/
def store (m : Mem) (b : Nat) (d : Bytes) : Mem := fun a => if b ≤ a ∧ a < b + d.length then d.getD (a - b) 0 else m a

/-- `wolfip_calc_msghdr_len`, 638–646; the sum is a `size_t`. -/
def calcLoop : List Vec → Nat → Option Nat
  | [], len => some len
  | v :: vs, len =>
    if v.base = none ∧ v.len ≠ 0 then none
    else if sizeMax - len < v.len then none
    else calcLoop vs ((len + v.len) % (sizeMax + 1))

def calcLen (vs : List Vec) : Option Nat := if vs = [] then none else calcLoop vs 0

/-- `wolfip_flatten_iov`; `none`: it would write outside of the destination. -/
def flat (m : Mem) (dst : Bytes) (off : Nat) : List Vec → Option Bytes
  | [] => some dst
  | v :: vs =>
    match v.base with
    | none => flat m dst off vs
    | some b =>
      if v.len = 0 then flat m dst off vs
      else if off + v.len ≤ dst.length then
        flat m (dst.take off ++ load m b v.len ++ dst.drop (off + v.len)) (off + v.len) vs
      else none

/-- `wolfip_scatter_iov`; `none`: it would read outside of the source. -/
def scat (m : Mem) (src : Bytes) (len off : Nat) : List Vec → Option Mem
  | [] => some m
  | v :: vs =>
    if off < len then
      match v.base with
      | none => scat m src len off vs
      | some b =>
        if v.len = 0 then scat m src len off vs
        else
          let chunk := if v.len > len - off then len - off else v.len
          if off + chunk ≤ src.length then scat (store m b ((src.drop off).take chunk)) src len (off + chunk) vs
          else none
    else some m

inductive Send where
  | einval
  | enomem
  | oob
  /-- what the stack is asked to send -/
  | stack (d : Bytes)
deriving DecidableEq, Repr

/-- `wolfIP_sock_sendmsg`. `junk`: what the intermediate buffer held before; `alloc`: whether `malloc` finds memory. -/
def sendmsg (m : Mem) (vs : List Vec) (junk : Nat → Nat) (alloc : Bool) : Send :=
  match calcLen vs with
  | none => .einval
  | some total =>
    match vs with
    | [v] => match v.base with
      | none => .stack []
      | some b => .stack (load m b total)
    | _ =>
      if total > 0 then
        if total > stackBuf ∧ alloc = false then .enomem
        else match flat m ((List.range (if total > stackBuf then total else stackBuf)).map junk) 0 vs with
          | none => .oob
          | some d => .stack (d.take total)
      else .stack []

inductive Recv where
  | einval
  | enomem
  | oob
  /-- the memory afterwards and the result: the number of octets -/
  | done (m : Mem) (n : Nat)

/-- `wolfIP_sock_recvmsg` when the stack has `d` for a buffer of the total length (`wolfIP_sock_recvfrom` copies no more than the buffer holds). -/
def recvmsg (m : Mem) (vs : List Vec) (alloc : Bool) (d : Nat → Bytes) : Recv :=
  match calcLen vs with
  | none => .einval
  | some total =>
    match vs with
    | [v] => match v.base with
      | none => .done m (d total).length
      | some b => .done (store m b (d total)) (d total).length
    | _ =>
      if total > 0 then
        if total > stackBuf ∧ alloc = false then .enomem
        else
          let buf := d total ++ List.replicate ((if total > stackBuf then total else stackBuf) - (d total).length) 0
          if (d total).length > 0 then
            match scat m buf (d total).length 0 vs with
            | none => .oob
            | some m' => .done m' (d total).length
          else .done m 0
      else .done m (d total).length

/-- `wolfip_fill_ttl_control`: `ttl` is what the stack knows, `space` the control buffer (`none`: a null pointer). The value written, the octets touched, the new length. -/
def fillTtl (ttl : Option Nat) (space : Option Nat) : Option Nat × Nat × Nat :=
  match ttl, space with
  | some t, some n => if n < 24 then (none, 0, 0) else (some t, 20, 20)
  | _, _ => (none, 0, 0)

/-! ## Specification -/

/-- The addresses of the vector's octets, in order. -/
def addrs (vs : List Vec) : List Nat := vs.flatMap (fun v => match v.base with | none => [] | some b => List.range' b v.len)

/-- A vector the kernel would accept: it is not empty, no part is a null pointer with a length, and the total length is a `size_t`. -/
def Good (vs : List Vec) : Prop := vs ≠ [] ∧ (∀ v ∈ vs, v.base = none → v.len = 0) ∧ (vs.map (·.len)).sum ≤ sizeMax

/-! ## Proofs -/

theorem calcLoop_spec (vs : List Vec) : ∀ len, len ≤ sizeMax → calcLoop vs len =
    if (∀ v ∈ vs, v.base = none → v.len = 0) ∧ len + (vs.map (·.len)).sum ≤ sizeMax then some (len + (vs.map (·.len)).sum) else none := by
  induction vs with
  | nil => intro len h; simp [calcLoop, h]
  | cons v vs ih =>
    intro len h
    unfold calcLoop
    simp only [List.map_cons, List.sum_cons]
    by_cases h1 : v.base = none ∧ v.len ≠ 0
    · rw [if_pos h1, if_neg]
      intro hc
      exact h1.2 (hc.1 v (List.mem_cons_self ..) h1.1)
    · rw [if_neg h1]
      by_cases h2 : sizeMax - len < v.len
      · rw [if_pos h2, if_neg]
        intro hc; have := hc.2; omega
      · rw [if_neg h2, Nat.mod_eq_of_lt (by omega), ih _ (by omega)]
        have e : len + v.len + (vs.map (·.len)).sum = len + (v.len + (vs.map (·.len)).sum) := by omega
        rw [e]
        by_cases h3 : (∀ v ∈ vs, v.base = none → v.len = 0) ∧ len + (v.len + (vs.map (·.len)).sum) ≤ sizeMax
        · rw [if_pos h3, if_pos]
          refine ⟨?_, h3.2⟩
          intro x hx hb
          rcases List.mem_cons.1 hx with e | e
          · subst e; by_cases hl : x.len = 0
            · exact hl
            · exact absurd ⟨hb, hl⟩ h1
          · exact h3.1 x e hb
        · rw [if_neg h3, if_neg]
          intro hc
          exact h3 ⟨fun x hx => hc.1 x (List.mem_cons_of_mem _ hx), hc.2⟩

theorem calcLen_spec (vs : List Vec) : (∀ t, calcLen vs = some t ↔ Good vs ∧ t = (vs.map (·.len)).sum) ∧ (calcLen vs = none ↔ ¬ Good vs) := by
  unfold calcLen Good
  by_cases h : vs = []
  · subst h; simp
  · rw [if_neg h, calcLoop_spec vs 0 (by omega), Nat.zero_add]
    by_cases hc : (∀ v ∈ vs, v.base = none → v.len = 0) ∧ (vs.map (·.len)).sum ≤ sizeMax
    · rw [if_pos hc]
      refine ⟨fun t => ⟨fun e => ⟨⟨h, hc⟩, by cases e; rfl⟩, fun e => by rw [e.2]⟩, ⟨(fun e => by cases e), (fun e => absurd ⟨h, hc⟩ e)⟩⟩
    · rw [if_neg hc]
      refine ⟨fun t => ⟨(fun e => by cases e), fun e => absurd e.1.2 hc⟩, ⟨fun _ e => hc e.2, fun _ => rfl⟩⟩

theorem addrs_len (vs : List Vec) (hg : ∀ v ∈ vs, v.base = none → v.len = 0) : (addrs vs).length = (vs.map (·.len)).sum := by
  induction vs with
  | nil => rfl
  | cons v vs ih =>
    have hr := ih (fun x hx => hg x (List.mem_cons_of_mem _ hx))
    unfold addrs at hr ⊢
    rw [List.flatMap_cons, List.length_append, hr, List.map_cons, List.sum_cons]
    cases hb : v.base with
    | none => rw [hg v (List.mem_cons_self ..) hb]; rfl
    | some b => simp

theorem flat_spec (m : Mem) (vs : List Vec) : ∀ (dst : Bytes) (off : Nat), off + (addrs vs).length ≤ dst.length →
    flat m dst off vs = some (dst.take off ++ (addrs vs).map m ++ dst.drop (off + (addrs vs).length)) := by
  induction vs with
  | nil => intro dst off _; simp [flat, addrs]
  | cons v vs ih =>
    intro dst off h
    have ha : addrs (v :: vs) = (match v.base with | none => [] | some b => List.range' b v.len) ++ addrs vs := rfl
    rw [ha] at h ⊢
    unfold flat
    cases hb : v.base with
    | none => simp only [hb, List.nil_append] at h ⊢; exact ih dst off h
    | some b =>
      simp only [hb, List.length_append, List.length_range'] at h ⊢
      by_cases h0 : v.len = 0
      · rw [if_pos h0, h0]
        rw [h0] at h
        rw [ih dst off (by omega)]
        simp
      · rw [if_neg h0, if_pos (by omega)]
        have hl : (dst.take off ++ load m b v.len).length = off + v.len := by
          simp [load, List.length_take]; omega
        rw [ih]
        · rw [List.take_left' hl]
          have e2 : ((dst.take off ++ load m b v.len) ++ dst.drop (off + v.len)).drop (off + v.len + (addrs vs).length)
              = dst.drop (off + (v.len + (addrs vs).length)) := by
            rw [← hl, List.drop_append, List.drop_of_length_le (by omega), List.nil_append, List.drop_drop, hl]
            congr 1; omega
          rw [e2]
          simp [load, List.append_assoc]
        · rw [List.length_append, hl, List.length_drop]; omega

theorem sum_one (v : Vec) : ([v].map (·.len)).sum = v.len := by simp

/-- Gather: for every vector the stack is asked to send exactly the octets of the parts, in order; the only failures are a malformed vector (refused, and only then) and
lack of memory. Nothing is written outside of the intermediate buffer. -/
theorem sendmsg_exact (m : Mem) (vs : List Vec) (junk : Nat → Nat) (alloc : Bool) :
    (¬ Good vs ∧ sendmsg m vs junk alloc = .einval) ∨
    (Good vs ∧ sendmsg m vs junk alloc = .stack ((addrs vs).map m)) ∨
    (Good vs ∧ alloc = false ∧ 2048 < (addrs vs).length ∧ sendmsg m vs junk alloc = .enomem) := by
  unfold sendmsg
  cases hc : calcLen vs with
  | none => exact Or.inl ⟨(calcLen_spec vs).2.1 hc, rfl⟩
  | some t =>
    obtain ⟨hg, ht⟩ := ((calcLen_spec vs).1 t).1 hc
    have hl : (addrs vs).length = t := by rw [ht]; exact addrs_len vs hg.2.1
    dsimp only
    split
    · rename_i v
      refine Or.inr (Or.inl ⟨hg, ?_⟩)
      cases hb : v.base with
      | none => simp [addrs, hb]
      | some b =>
        have : t = v.len := by rw [ht]; exact sum_one v
        simp [addrs, hb, load, this]
    · split
      · by_cases ha : t > stackBuf ∧ alloc = false
        · rw [if_pos ha]; exact Or.inr (Or.inr ⟨hg, ha.2, by rw [hl]; exact ha.1, rfl⟩)
        · rw [if_neg ha, flat_spec m vs _ 0 (by rw [hl]; split <;> simp <;> omega)]
          refine Or.inr (Or.inl ⟨hg, ?_⟩)
          dsimp only
          rw [List.take_zero, List.nil_append, List.take_left' (by rw [List.length_map, hl])]
      · rename_i h0
        have : addrs vs = [] := List.eq_nil_of_length_eq_zero (by omega)
        exact Or.inr (Or.inl ⟨hg, by rw [this]; rfl⟩)

theorem store_spec (m : Mem) (b : Nat) (d : Bytes) : (∀ i, i < d.length → store m b d (b + i) = d.getD i 0) ∧
    (∀ a, a ∉ List.range' b d.length → store m b d a = m a) := by
  refine ⟨?_, ?_⟩
  · intro i hi
    unfold store
    rw [if_pos (by omega)]
    congr 1; omega
  · intro a ha
    unfold store
    rw [if_neg]
    intro hc; apply ha
    rw [List.mem_range'_1]; exact hc

/-- What a scatter has to do to memory: the `i`-th octet at the `i`-th address, all else as before. -/
def Placed (m m' : Mem) (as : List Nat) (d : Bytes) : Prop :=
  (∀ i a, i < d.length → as[i]? = some a → m' a = d.getD i 0) ∧ (∀ a, a ∉ as.take d.length → m' a = m a)

theorem placed_nil (m : Mem) (as : List Nat) : Placed m m as [] := ⟨fun i a h => absurd h (by simp), fun _ _ => rfl⟩

theorem placed_app (m m1 m2 : Mem) (as bs : List Nat) (d e : Bytes) (hl : as.length = d.length ∨ (d.length ≤ as.length ∧ e = []))
    (hn : (as ++ bs).Nodup) (h1 : Placed m m1 as d) (h2 : Placed m1 m2 bs e) : Placed m m2 (as ++ bs) (d ++ e) := by
  rcases hl with hl | ⟨hl, rfl⟩
  · refine ⟨?_, ?_⟩
    · intro i a hi ha
      by_cases hd : i < d.length
      · rw [List.getElem?_append_left (by omega)] at ha
        have hna : a ∉ bs := by
          intro hb
          exact (List.nodup_append.1 hn).2.2 a (List.mem_of_getElem? ha) a hb rfl
        rw [h2.2 a (fun hx => hna (List.mem_of_mem_take hx)), h1.1 i a hd ha]
        rw [List.getD_eq_getElem?_getD, List.getD_eq_getElem?_getD, List.getElem?_append_left hd]
      · rw [List.getElem?_append_right (by omega)] at ha
        rw [List.length_append] at hi
        rw [hl] at ha
        rw [h2.1 (i - d.length) a (by omega) ha, List.getD_eq_getElem?_getD, List.getD_eq_getElem?_getD,
          List.getElem?_append_right (by omega)]
    · intro a ha
      rw [List.length_append, ← hl, List.take_length_add_append] at ha
      rw [h2.2 a (fun hx => ha (List.mem_append_right _ hx)), h1.2 a (fun hx => ha (List.mem_append_left _ (List.mem_of_mem_take hx)))]
  · refine ⟨?_, ?_⟩
    · intro i a hi ha
      simp only [List.append_nil] at hi ⊢
      rw [List.getElem?_append_left (by omega)] at ha
      rw [h2.2 a (by simp)]
      exact h1.1 i a hi ha
    · intro a ha
      simp only [List.append_nil] at ha
      rw [List.take_append_of_le_length hl] at ha
      rw [h2.2 a (by simp)]
      exact h1.2 a ha

theorem placed_store (m : Mem) (b n : Nat) (d : Bytes) (h : d.length ≤ n) : Placed m (store m b d) (List.range' b n) d := by
  refine ⟨?_, ?_⟩
  · intro i a hi ha
    rw [List.getElem?_range' (by omega)] at ha
    cases ha
    rw [Nat.one_mul]
    exact (store_spec m b d).1 i hi
  · intro a ha
    refine (store_spec m b d).2 a (fun hx => ha ?_)
    have e : List.range' b n = List.range' b d.length ++ List.range' (b + d.length) (n - d.length) := by
      rw [List.range'_append_1]; congr 1; omega
    rw [e, List.take_left' (by simp)]
    exact hx

theorem scat_spec (src : Bytes) (len : Nat) (hlen : len ≤ src.length) (vs : List Vec) : ∀ (m : Mem) (off : Nat), off ≤ len → len ≤ off + (addrs vs).length →
    (addrs vs).Nodup → ∃ m', scat m src len off vs = some m' ∧ Placed m m' (addrs vs) ((src.take len).drop off) := by
  induction vs with
  | nil =>
    intro m off h1 h2 _
    have e : off = len := by simp [addrs] at h2; omega
    subst e
    refine ⟨m, rfl, ?_⟩
    rw [List.drop_of_length_le (by simp [List.length_take]; omega)]
    exact placed_nil m _
  | cons v vs ih =>
    intro m off h1 h2 hn
    have ha : addrs (v :: vs) = (match v.base with | none => [] | some b => List.range' b v.len) ++ addrs vs := rfl
    rw [ha] at h2 hn ⊢
    unfold scat
    by_cases hlt : off < len
    · rw [if_pos hlt]
      cases hb : v.base with
      | none => simp only [hb, List.nil_append] at h2 hn ⊢; exact ih m off h1 h2 hn
      | some b =>
        simp only [hb, List.length_append, List.length_range'] at h2 hn ⊢
        by_cases h0 : v.len = 0
        · rw [if_pos h0, h0]
          rw [h0] at h2 hn
          exact ih m off h1 (by omega) (by simpa using hn)
        · rw [if_neg h0]
          obtain ⟨k, hk⟩ : ∃ k, (if v.len > len - off then len - off else v.len) = k := ⟨_, rfl⟩
          rw [hk]
          have hkl : k ≤ v.len ∧ off + k ≤ len ∧ (k = v.len ∨ off + k = len) := by
            rw [← hk]; split <;> omega
          rw [if_pos (by omega)]
          obtain ⟨m', q1, q2⟩ := ih (store m b ((src.drop off).take k)) (off + k) hkl.2.1 (by rcases hkl.2.2 with e | e <;> omega) (List.nodup_append.1 hn).2.1
          refine ⟨m', q1, ?_⟩
          have hd : (src.take len).drop off = (src.drop off).take k ++ (src.take len).drop (off + k) := by
            rw [← List.take_append_drop k ((src.take len).drop off), List.drop_drop, List.drop_take, List.take_take,
              Nat.min_eq_left (by omega)]
          have hkk : ((src.drop off).take k).length = k := by rw [List.length_take, List.length_drop]; omega
          rw [hd]
          refine placed_app m _ m' _ _ _ _ ?_ hn (placed_store m b v.len _ (by rw [hkk]; exact hkl.1)) q2
          rw [hkk, List.length_range']
          rcases hkl.2.2 with e | e
          · exact Or.inl e.symm
          · refine Or.inr ⟨hkl.1, ?_⟩
            rw [e]; exact List.drop_of_length_le (by simp [List.length_take]; omega)
    · rw [if_neg hlt]
      have e : off = len := by omega
      subst e
      refine ⟨m, rfl, ?_⟩
      rw [List.drop_of_length_le (by simp [List.length_take]; omega)]
      exact placed_nil m _

/-- Scatter: for every vector of disjoint parts and whatever the stack delivers, the octets are stored one after the other in the parts, in order, all other memory is left alone, and the number
returned is theirs. The only failures are a malformed vector (refused, and only then) and lack of memory. -/
theorem recvmsg_exact (m : Mem) (vs : List Vec) (alloc : Bool) (d : Nat → Bytes) (hd : ∀ n, (d n).length ≤ n) (hn : (addrs vs).Nodup) :
    (¬ Good vs ∧ recvmsg m vs alloc d = .einval) ∨
    (Good vs ∧ ∃ m', recvmsg m vs alloc d = .done m' (d (addrs vs).length).length ∧ Placed m m' (addrs vs) (d (addrs vs).length)) ∨
    (Good vs ∧ alloc = false ∧ 2048 < (addrs vs).length ∧ recvmsg m vs alloc d = .enomem) := by
  unfold recvmsg
  cases hc : calcLen vs with
  | none => exact Or.inl ⟨(calcLen_spec vs).2.1 hc, rfl⟩
  | some t =>
    obtain ⟨hg, ht⟩ := ((calcLen_spec vs).1 t).1 hc
    have hl : (addrs vs).length = t := by rw [ht]; exact addrs_len vs hg.2.1
    rw [hl]
    have hdt := hd t
    dsimp only
    generalize d t = dt at *
    have hz : ∀ n, n = 0 → t = n → dt = [] := by intro n hn0 e; exact List.eq_nil_of_length_eq_zero (by omega)
    split
    · rename_i v
      have htv : t = v.len := by rw [ht]; exact sum_one v
      cases hb : v.base with
      | none =>
        have hv : v.len = 0 := hg.2.1 v (List.mem_cons_self ..) hb
        refine Or.inr (Or.inl ⟨hg, m, rfl, ?_⟩)
        rw [hz _ hv htv]; exact placed_nil m _
      | some b =>
        refine Or.inr (Or.inl ⟨hg, _, rfl, ?_⟩)
        have : addrs [v] = List.range' b v.len := by simp [addrs, hb]
        rw [this]
        exact placed_store m b v.len dt (by omega)
    · split
      · by_cases ha : t > stackBuf ∧ alloc = false
        · rw [if_pos ha]; exact Or.inr (Or.inr ⟨hg, ha.2, ha.1, rfl⟩)
        · rw [if_neg ha]
          split
          · obtain ⟨m', q1, q2⟩ := scat_spec (dt ++ List.replicate ((if t > stackBuf then t else stackBuf) - dt.length) 0) dt.length (by simp) vs m 0
              (by omega) (by omega) hn
            rw [q1]
            refine Or.inr (Or.inl ⟨hg, m', rfl, ?_⟩)
            rw [List.take_left' rfl, List.drop_zero] at q2
            exact q2
          · refine Or.inr (Or.inl ⟨hg, m, ?_, ?_⟩)
            · rw [show dt.length = 0 by omega]
            · rw [List.eq_nil_of_length_eq_zero (show dt.length = 0 by omega)]; exact placed_nil m _
      · refine Or.inr (Or.inl ⟨hg, m, rfl, ?_⟩)
        rw [hz t (by omega) rfl]; exact placed_nil m _

/-- The TTL is reported exactly when the stack knows it and there is room for it, and never writes past the control buffer. -/
theorem ttl_exact (ttl : Option Nat) (space : Option Nat) :
    (∀ t, (fillTtl ttl space).1 = some t ↔ ttl = some t ∧ ∃ n, space = some n ∧ 24 ≤ n) ∧
    (∀ n, space = some n → (fillTtl ttl space).2.1 ≤ n) ∧ (space = none → (fillTtl ttl space).2.1 = 0) ∧
    ((fillTtl ttl space).1 = none → (fillTtl ttl space).2.2 = 0) := by
  unfold fillTtl
  cases ttl <;> cases space <;> simp
  split <;> simp <;> omega

def look : Recv → List Nat → Option (Nat × List Nat)
  | .done m n, l => some (n, l.map m)
  | _, _ => none

/-- Three parts, one empty, one a null pointer without length; and the octets of two of them. -/
example : let vs : List Vec := [⟨some 100, 2⟩, ⟨none, 0⟩, ⟨some 7, 3⟩]
    Good vs ∧ (addrs vs).Nodup ∧ addrs vs = [100, 101, 7, 8, 9] ∧ sendmsg (fun a => a + 1) vs (fun _ => 0) true = .stack [101, 102, 8, 9, 10] ∧
    look (recvmsg (fun _ => 0) vs false (fun n => [5, 6, 7].take n)) [99, 100, 101, 102, 6, 7, 8, 9] = some (3, [0, 5, 6, 0, 0, 7, 0, 0]) := by
  refine ⟨⟨by decide, by decide, by decide⟩, by decide, by decide, by decide +kernel, by decide +kernel⟩

end Wolf.Posix.Iov
