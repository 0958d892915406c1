import Verif.Route.Model
/-!
# Tables of sockets with a receive and a transmit buffer

The bookkeeping shared by the ICMP, raw and packet sockets (src/wolfip.c 1215–1318): a table of slots, each with its
configuration, a receive FIFO and a transmit FIFO. The packet FIFO itself is `Verif.Fifo` (C01); here it is a list,
and whether it has room is an arbitrary input.
-/
namespace Wolf.Dgram
open Wolf.Route (Ip)

/-- A slot. `rx`: what waits to be read, `tx`: the frames waiting to be sent, oldest first. -/
structure Slot (C α : Type) where
  used : Bool
  cfg : C
  rx : List α
  tx : List (List Nat)
deriving DecidableEq

/-- What can be observed. `queued k x`: `x` is put in the receive buffer of socket `k`; `read k x`: a receive call takes
it out; `accepted k g`: a send call puts the frame `g` in the transmit buffer; `sent k i g h`: the queued frame `g` leaves
the buffer and `h` is handed to (and taken by) the driver of interface `i`; `lost k g`: `g` leaves the buffer and is not
sent; `arp i a`: an ARP request for `a` on interface `i`; `reset k`: both buffers are emptied (socket, close). -/
inductive Ev (α : Type) where
  | queued (k : Nat) (x : α)
  | read (k : Nat) (x : α)
  | accepted (k : Nat) (g : List Nat)
  | sent (k i : Nat) (g h : List Nat)
  | lost (k : Nat) (g : List Nat)
  | arp (i : Nat) (a : Ip)
  | reset (k : Nat)
deriving DecidableEq

abbrev Tab (C α : Type) := List (Slot C α)

variable {C α : Type}

/-- One iteration of a delivery loop over the table. -/
def copyTo (takes : C → Bool) (room : Nat → Bool) (x : α) (k : Nat) (s : Slot C α) : Slot C α :=
  if s.used && takes s.cfg && room k then { s with rx := s.rx ++ [x] } else s

/-- The delivery loop of icmp_try_recv, raw_try_recv and packet_try_recv: every slot in use which takes `x` and has room
gets it. src/wolfip.c 2845–2861, 2973–2992, 3011–3038. -/
def deliver (takes : C → Bool) (room : Nat → Bool) (x : α) (t : Tab C α) : Tab C α × List (Ev α) :=
  (t.zipIdx.map (fun (s, k) => copyTo takes room x k s),
   t.zipIdx.flatMap (fun (s, k) => if s.used && takes s.cfg && room k then [Ev.queued k x] else []))

/-- Open the first slot not in use; its configuration becomes `new` of the old one. src/wolfip.c 2766–2784, 2788–2807,
2811–2833. -/
def openSlot (new : C → C) (t : Tab C α) : Tab C α × Option Nat × List (Ev α) :=
  match t.findIdx? (fun s => !s.used) with
  | none => (t, none, [])
  | some k =>
    match t[k]? with
    | none => (t, none, [])
    | some s => (t.set k { s with used := true, cfg := new s.cfg, rx := [], tx := [] }, some k, [.reset k])

/-- Clear a slot (`close_socket`, `close_rawsocket`, `close_packetsocket`: memset). src/wolfip.c 6138–6194. -/
def closeSlot (zero : C) (k : Nat) (t : Tab C α) : Tab C α × List (Ev α) :=
  (t.set k { used := false, cfg := zero, rx := [], tx := [] }, if k < t.length then [.reset k] else [])

/-- Change the configuration of slot `k`. -/
def setCfg (k : Nat) (c : C) (t : Tab C α) : Tab C α := t.modify k (fun s => { s with cfg := c })

/-- A send call: the configuration changes and, if there is one, the frame is put in the transmit buffer. -/
def pushTx (k : Nat) (c : C) (g : Option (List Nat)) (t : Tab C α) : Tab C α × List (Ev α) :=
  match g with
  | none => (setCfg k c t, [])
  | some g => (t.modify k (fun s => { s with cfg := c, tx := s.tx ++ [g] }), if k < t.length then [.accepted k g] else [])

/-- A receive call on slot `k` takes the oldest entry out. -/
def popRx (k : Nat) (t : Tab C α) : Tab C α × Option α × List (Ev α) :=
  match t[k]? with
  | none => (t, none, [])
  | some s =>
    match s.rx with
    | [] => (t, none, [])
    | x :: rest => (t.set k { s with rx := rest }, some x, [.read k x])

/-- What a flush loop does with the frame at the head of the queue. -/
inductive Act where
  | stop (q : Option (Nat × Ip))
  | skip
  | send (i : Nat) (h : List Nat)

/-- A flush loop; `dec n` decides the `n`-th attempt of this call. src/wolfip.c 11456–11557, 11575–11627, 11644–11662. -/
def flushQ (k : Nat) (dec : Nat → C → List Nat → C × Act) : Nat → C → List (List Nat) → C × List (List Nat) × List (Ev α)
  | _, c, [] => (c, [], [])
  | n, c, g :: q =>
    match (dec n c g).2 with
    | .stop none => ((dec n c g).1, g :: q, [])
    | .stop (some (i, a)) => ((dec n c g).1, g :: q, [.arp i a])
    | .skip => ((flushQ k dec (n + 1) (dec n c g).1 q).1, (flushQ k dec (n + 1) (dec n c g).1 q).2.1, .lost k g :: (flushQ k dec (n + 1) (dec n c g).1 q).2.2)
    | .send i h => ((flushQ k dec (n + 1) (dec n c g).1 q).1, (flushQ k dec (n + 1) (dec n c g).1 q).2.1, .sent k i g h :: (flushQ k dec (n + 1) (dec n c g).1 q).2.2)

def flushSlot (dec : Nat → Nat → C → List Nat → C × Act) (k : Nat) (s : Slot C α) : Slot C α :=
  { s with cfg := (flushQ (α := α) k (dec k) 0 s.cfg s.tx).1, tx := (flushQ (α := α) k (dec k) 0 s.cfg s.tx).2.1 }

/-- The flush of a whole table. -/
def flushTab (dec : Nat → Nat → C → List Nat → C × Act) (t : Tab C α) : Tab C α × List (Ev α) :=
  (t.zipIdx.map (fun (s, k) => flushSlot dec k s), t.zipIdx.flatMap (fun (s, k) => (flushQ k (dec k) 0 s.cfg s.tx).2.2))

/-! ## Specification: replaying the events on plain queues -/

/-- The receive queue of socket `k`: a read must return the oldest entry. -/
def rxStep [DecidableEq α] (k : Nat) (q : Option (List α)) : Ev α → Option (List α)
  | .queued j x => if j = k then q.map (· ++ [x]) else q
  | .read j x => if j = k then q.bind (fun l => match l with | [] => none | y :: r => if y = x then some r else none) else q
  | .reset j => if j = k then q.map (fun _ => []) else q
  | .accepted _ _ => q
  | .sent _ _ _ _ => q
  | .lost _ _ => q
  | .arp _ _ => q

/-- The transmit queue of socket `k`: what leaves it (sent or lost) must be the oldest frame accepted and still there. -/
def txStep (k : Nat) (q : Option (List (List Nat))) : Ev α → Option (List (List Nat))
  | .accepted j g => if j = k then q.map (· ++ [g]) else q
  | .sent j _ g _ => if j = k then q.bind (fun l => match l with | [] => none | y :: r => if y = g then some r else none) else q
  | .lost j g => if j = k then q.bind (fun l => match l with | [] => none | y :: r => if y = g then some r else none) else q
  | .reset j => if j = k then q.map (fun _ => []) else q
  | .queued _ _ => q
  | .read _ _ => q
  | .arp _ _ => q

def rxReplay [DecidableEq α] (k : Nat) (q : List α) (es : List (Ev α)) : Option (List α) := es.foldl (rxStep k) (some q)
def txReplay (k : Nat) (q : List (List Nat)) (es : List (Ev α)) : Option (List (List Nat)) := es.foldl (txStep k) (some q)

/-- What slot `k` holds. -/
def rxOf (t : Tab C α) (k : Nat) : List α := (t[k]?.map Slot.rx).getD []
def txOf (t : Tab C α) (k : Nat) : List (List Nat) := (t[k]?.map Slot.tx).getD []

/-- The events `es` account for the change of the buffers from `t` to `t'`. -/
def Accounts [DecidableEq α] (t : Tab C α) (es : List (Ev α)) (t' : Tab C α) : Prop :=
  ∀ k : Nat, rxReplay k (rxOf t k) es = some (rxOf t' k) ∧ txReplay k (txOf t k) es = some (txOf t' k)

/-- The copies put in the receive buffer of socket `k`, in order. -/
def copies (k : Nat) (es : List (Ev α)) : List α :=
  es.filterMap (fun e => match e with | .queued j x => if j = k then some x else none | _ => none)

/-! ## Every operation accounts for its changes -/

variable [DecidableEq α]

theorem acc_refl (t : Tab C α) : Accounts t [] t := fun _ => ⟨rfl, rfl⟩

theorem acc_trans {a b c : Tab C α} {es fs : List (Ev α)} (h1 : Accounts a es b) (h2 : Accounts b fs c) : Accounts a (es ++ fs) c := by
  intro k
  refine ⟨?_, ?_⟩
  · have := (h1 k).1
    rw [rxReplay] at this ⊢
    rw [List.foldl_append, this]; exact (h2 k).1
  · have := (h1 k).2
    rw [txReplay] at this ⊢
    rw [List.foldl_append, this]; exact (h2 k).2

omit [DecidableEq α] in
theorem get_map_zip {β : Type} (f : Slot C α × Nat → β) (t : Tab C α) (k : Nat) : (t.zipIdx.map f)[k]? = t[k]?.map (fun s => f (s, k)) := by
  rw [List.getElem?_map, List.getElem?_zipIdx]
  cases t[k]? with
  | none => rfl
  | some s => simp

theorem rx_other (k : Nat) : ∀ (es : List (Ev α)) (q : List α), (∀ e ∈ es, ∀ q, rxStep k q e = q) → rxReplay k q es = some q := by
  intro es
  induction es with
  | nil => intro q _; rfl
  | cons e es ih =>
    intro q h
    rw [rxReplay, List.foldl_cons, h e List.mem_cons_self]
    exact ih q (fun e' he => h e' (List.mem_cons_of_mem _ he))

omit [DecidableEq α] in
theorem tx_other (k : Nat) : ∀ (es : List (Ev α)) (q : List (List Nat)), (∀ e ∈ es, ∀ q, txStep k q e = q) → txReplay k q es = some q := by
  intro es
  induction es with
  | nil => intro q _; rfl
  | cons e es ih =>
    intro q h
    rw [txReplay, List.foldl_cons, h e List.mem_cons_self]
    exact ih q (fun e' he => h e' (List.mem_cons_of_mem _ he))

/-- A flatMap over the slots, each giving events of its own socket: replaying for `k` is replaying the events of `k`. -/
theorem rx_slots (k : Nat) (f : Slot C α → Nat → List (Ev α)) (hf : ∀ s j, j ≠ k → ∀ e ∈ f s j, ∀ q, rxStep k q e = q) : ∀ (t : Tab C α) (a : Nat) (q : Option (List α)),
    ((t.zipIdx a).flatMap (fun (s, j) => f s j)).foldl (rxStep k) q =
      (match (if a ≤ k then t[k - a]? else none) with | some s => (f s k).foldl (rxStep k) q | none => q) := by
  intro t
  induction t with
  | nil => intro a q; rw [List.zipIdx_nil, List.flatMap_nil]; split <;> simp_all
  | cons s t ih =>
    intro a q
    rw [List.zipIdx_cons, List.flatMap_cons, List.foldl_append, ih]
    by_cases hk : a = k
    · subst hk
      rw [if_neg (by omega), if_pos (Nat.le_refl _), Nat.sub_self]
      rfl
    · have hs : (f s a).foldl (rxStep k) q = q := by
        have h := hf s a hk
        generalize f s a = es at h
        induction es with
        | nil => rfl
        | cons e es ih2 => rw [List.foldl_cons, h e List.mem_cons_self]; exact ih2 (fun e' he => h e' (List.mem_cons_of_mem _ he))
      show (match (if a + 1 ≤ k then t[k - (a + 1)]? else none) with | some s' => (f s' k).foldl (rxStep k) ((f s a).foldl (rxStep k) q) | none => (f s a).foldl (rxStep k) q) = _
      rw [hs]
      by_cases hle : a ≤ k
      · rw [if_pos hle, if_pos (by omega)]
        have : k - a = (k - (a + 1)) + 1 := by omega
        rw [this, List.getElem?_cons_succ]
      · rw [if_neg hle, if_neg (by omega)]

omit [DecidableEq α] in
theorem tx_slots (k : Nat) (f : Slot C α → Nat → List (Ev α)) (hf : ∀ s j, j ≠ k → ∀ e ∈ f s j, ∀ q, txStep k q e = q) : ∀ (t : Tab C α) (a : Nat) (q : Option (List (List Nat))),
    ((t.zipIdx a).flatMap (fun (s, j) => f s j)).foldl (txStep k) q =
      (match (if a ≤ k then t[k - a]? else none) with | some s => (f s k).foldl (txStep k) q | none => q) := by
  intro t
  induction t with
  | nil => intro a q; rw [List.zipIdx_nil, List.flatMap_nil]; split <;> simp_all
  | cons s t ih =>
    intro a q
    rw [List.zipIdx_cons, List.flatMap_cons, List.foldl_append, ih]
    by_cases hk : a = k
    · subst hk
      rw [if_neg (by omega), if_pos (Nat.le_refl _), Nat.sub_self]
      rfl
    · have hs : (f s a).foldl (txStep k) q = q := by
        have h := hf s a hk
        generalize f s a = es at h
        induction es with
        | nil => rfl
        | cons e es ih2 => rw [List.foldl_cons, h e List.mem_cons_self]; exact ih2 (fun e' he => h e' (List.mem_cons_of_mem _ he))
      show (match (if a + 1 ≤ k then t[k - (a + 1)]? else none) with | some s' => (f s' k).foldl (txStep k) ((f s a).foldl (txStep k) q) | none => (f s a).foldl (txStep k) q) = _
      rw [hs]
      by_cases hle : a ≤ k
      · rw [if_pos hle, if_pos (by omega)]
        have : k - a = (k - (a + 1)) + 1 := by omega
        rw [this, List.getElem?_cons_succ]
      · rw [if_neg hle, if_neg (by omega)]

theorem acc_deliver (takes : C → Bool) (room : Nat → Bool) (x : α) (t : Tab C α) : Accounts t (deliver takes room x t).2 (deliver takes room x t).1 := by
  intro k
  refine ⟨?_, ?_⟩
  · show List.foldl (rxStep k) _ (t.zipIdx.flatMap (fun (s, j) => if s.used && takes s.cfg && room j then [Ev.queued j x] else [])) = _
    rw [rx_slots k (fun s j => if s.used && takes s.cfg && room j then [Ev.queued j x] else [])]
    · rw [if_pos (Nat.zero_le _), Nat.sub_zero, rxOf, rxOf]
      show _ = some (((t.zipIdx.map (fun (s, k) => copyTo takes room x k s))[k]?.map Slot.rx).getD [])
      rw [get_map_zip]
      cases t[k]? with
      | none => rfl
      | some s =>
        simp only [Option.map_some, Option.getD_some, copyTo]
        by_cases c : (s.used && takes s.cfg && room k) = true
        · rw [if_pos c, if_pos c, List.foldl_cons, List.foldl_nil, rxStep, if_pos rfl]; rfl
        · rw [if_neg c, if_neg c]; rfl
    · intro s j hj e he q
      split at he
      · rw [List.mem_singleton] at he; subst he; rw [rxStep, if_neg hj]
      · cases he
  · rw [tx_other]
    · rw [txOf, txOf]
      show _ = some (((t.zipIdx.map (fun (s, k) => copyTo takes room x k s))[k]?.map Slot.tx).getD [])
      rw [get_map_zip]
      cases t[k]? with
      | none => rfl
      | some s =>
        simp only [Option.map_some, Option.getD_some, copyTo]
        split <;> rfl
    · intro e he q
      rw [deliver] at he
      simp only [List.mem_flatMap] at he
      obtain ⟨p, _, he⟩ := he
      split at he
      · rw [List.mem_singleton] at he; subst he; rfl
      · cases he

omit [DecidableEq α] in
theorem rxOf_set (t : Tab C α) (j k : Nat) (s : Slot C α) (hj : j < t.length) : rxOf (t.set j s) k = if j = k then s.rx else rxOf t k := by
  rw [rxOf]
  by_cases c : j = k
  · subst c; rw [if_pos rfl, List.getElem?_set_self hj]; rfl
  · rw [if_neg c, List.getElem?_set_ne c]; rfl

omit [DecidableEq α] in
theorem txOf_set (t : Tab C α) (j k : Nat) (s : Slot C α) (hj : j < t.length) : txOf (t.set j s) k = if j = k then s.tx else txOf t k := by
  rw [txOf]
  by_cases c : j = k
  · subst c; rw [if_pos rfl, List.getElem?_set_self hj]; rfl
  · rw [if_neg c, List.getElem?_set_ne c]; rfl

theorem acc_open (new : C → C) (t : Tab C α) : Accounts t (openSlot new t).2.2 (openSlot new t).1 := by
  rw [openSlot]
  cases hf : t.findIdx? (fun s => !s.used) with
  | none => exact acc_refl t
  | some j =>
    have hlt : j < t.length := by rw [List.findIdx?_eq_some_iff_getElem] at hf; exact hf.1
    dsimp only
    rw [List.getElem?_eq_getElem hlt]
    dsimp only
    intro k
    refine ⟨?_, ?_⟩
    · rw [rxReplay, List.foldl_cons, List.foldl_nil, rxStep, rxOf_set t j k _ hlt]
      by_cases c : j = k
      · rw [if_pos c, if_pos c]; rfl
      · rw [if_neg c, if_neg c]
    · rw [txReplay, List.foldl_cons, List.foldl_nil, txStep, txOf_set t j k _ hlt]
      by_cases c : j = k
      · rw [if_pos c, if_pos c]; rfl
      · rw [if_neg c, if_neg c]

theorem acc_close (zero : C) (j : Nat) (t : Tab C α) : Accounts t (closeSlot zero j t).2 (closeSlot zero j t).1 := by
  rw [closeSlot]
  by_cases hlt : j < t.length
  · simp only [if_pos hlt]
    intro k
    refine ⟨?_, ?_⟩
    · rw [rxReplay, List.foldl_cons, List.foldl_nil, rxStep, rxOf_set t j k _ hlt]
      by_cases c : j = k
      · rw [if_pos c, if_pos c]; rfl
      · rw [if_neg c, if_neg c]
    · rw [txReplay, List.foldl_cons, List.foldl_nil, txStep, txOf_set t j k _ hlt]
      by_cases c : j = k
      · rw [if_pos c, if_pos c]; rfl
      · rw [if_neg c, if_neg c]
  · simp only [if_neg hlt]
    rw [List.set_eq_of_length_le (by omega)]
    exact acc_refl t

omit [DecidableEq α] in
theorem rxOf_modify (t : Tab C α) (j k : Nat) (f : Slot C α → Slot C α) (h : ∀ s, (f s).rx = s.rx) : rxOf (t.modify j f) k = rxOf t k := by
  rw [rxOf, rxOf, List.getElem?_modify]
  cases t[k]? with
  | none => by_cases c : j = k <;> simp [c]
  | some s => by_cases c : j = k <;> simp [c, h]

omit [DecidableEq α] in
theorem txOf_modify (t : Tab C α) (j k : Nat) (f : Slot C α → Slot C α) (h : ∀ s, (f s).tx = s.tx) : txOf (t.modify j f) k = txOf t k := by
  rw [txOf, txOf, List.getElem?_modify]
  cases t[k]? with
  | none => by_cases c : j = k <;> simp [c]
  | some s => by_cases c : j = k <;> simp [c, h]

theorem acc_setCfg (j : Nat) (c : C) (t : Tab C α) : Accounts t [] (setCfg j c t) := by
  intro k
  rw [setCfg, rxOf_modify _ _ _ _ (by intro s; rfl), txOf_modify _ _ _ _ (by intro s; rfl)]
  exact ⟨rfl, rfl⟩

theorem acc_pushTx (j : Nat) (c : C) (g : Option (List Nat)) (t : Tab C α) : Accounts t (pushTx j c g t).2 (pushTx j c g t).1 := by
  unfold pushTx
  cases g with
  | none => exact acc_setCfg j c t
  | some g =>
    simp only
    intro k
    refine ⟨?_, ?_⟩
    · rw [rxOf_modify _ _ _ _ (by intro s; rfl)]
      apply rx_other
      intro e he q
      split at he
      · rw [List.mem_singleton] at he; subst he; rfl
      · cases he
    · by_cases hlt : j < t.length
      · rw [if_pos hlt, txReplay, List.foldl_cons, List.foldl_nil, txStep]
        by_cases hk : j = k
        · subst hk
          rw [if_pos rfl, txOf, txOf, List.getElem?_modify, List.getElem?_eq_getElem hlt]
          simp
        · rw [if_neg hk, txOf, txOf, List.getElem?_modify]; simp [hk]
      · rw [if_neg hlt]
        have : t.modify j (fun s => { s with cfg := c, tx := s.tx ++ [g] }) = t := by
          apply List.ext_getElem?
          intro n
          rw [List.getElem?_modify]
          by_cases hn : j = n
          · subst hn; rw [List.getElem?_eq_none (by omega)]; rfl
          · cases t[n]? <;> simp [hn]
        rw [this]; rfl

theorem acc_popRx (j : Nat) (t : Tab C α) : Accounts t (popRx j t).2.2 (popRx j t).1 := by
  rw [popRx]
  cases hj : t[j]? with
  | none => exact acc_refl t
  | some s =>
    have hlt : j < t.length := by rw [List.getElem?_eq_some_iff] at hj; exact hj.1
    simp only
    cases hx : s.rx with
    | nil => exact acc_refl t
    | cons x rest =>
      simp only
      intro k
      refine ⟨?_, ?_⟩
      · rw [rxReplay, List.foldl_cons, List.foldl_nil, rxStep, rxOf_set t j k _ hlt]
        by_cases c : j = k
        · rw [if_pos c, if_pos c]
          subst c
          rw [rxOf, hj, Option.map_some, Option.getD_some, hx]
          show (if x = x then some rest else none) = _
          rw [if_pos rfl]
        · rw [if_neg c, if_neg c]
      · rw [txOf_set t j k _ hlt]
        show some (txOf t k) = _
        by_cases c : j = k
        · rw [if_pos c]; subst c; rw [txOf, hj]; rfl
        · rw [if_neg c]

omit [DecidableEq α] in
theorem flushQ_evs (k : Nat) (dec : Nat → C → List Nat → C × Act) : ∀ (q : List (List Nat)) (n : Nat) (c : C), ∀ e ∈ (flushQ (α := α) k dec n c q).2.2,
    (∃ i a, e = .arp i a) ∨ (∃ g, e = .lost k g) ∨ (∃ i g h, e = .sent k i g h) := by
  intro q
  induction q with
  | nil => intro n c e he; cases he
  | cons g q ih =>
    intro n c e he
    rw [flushQ] at he
    cases hd : (dec n c g).2 with
    | stop o =>
      rw [hd] at he
      cases o with
      | none => cases he
      | some p => simp only [List.mem_singleton] at he; exact Or.inl ⟨p.1, p.2, he⟩
    | skip =>
      rw [hd] at he
      simp only [List.mem_cons] at he
      rcases he with he | he
      · exact Or.inr (Or.inl ⟨g, he⟩)
      · exact ih _ _ e he
    | send i h =>
      rw [hd] at he
      simp only [List.mem_cons] at he
      rcases he with he | he
      · exact Or.inr (Or.inr ⟨i, g, h, he⟩)
      · exact ih _ _ e he

omit [DecidableEq α] in
theorem flushQ_tx (k : Nat) (dec : Nat → C → List Nat → C × Act) : ∀ (q : List (List Nat)) (n : Nat) (c : C),
    txReplay k q (flushQ (α := α) k dec n c q).2.2 = some (flushQ (α := α) k dec n c q).2.1 := by
  intro q
  induction q with
  | nil => intro n c; rfl
  | cons g q ih =>
    intro n c
    rw [flushQ]
    cases hd : (dec n c g).2 with
    | stop o =>
      cases o with
      | none => rfl
      | some p => rfl
    | skip =>
      simp only
      rw [txReplay, List.foldl_cons, txStep, if_pos rfl]
      show List.foldl (txStep k) (if g = g then some q else none) _ = _
      rw [if_pos rfl]; exact ih _ _
    | send i h =>
      simp only
      rw [txReplay, List.foldl_cons, txStep, if_pos rfl]
      show List.foldl (txStep k) (if g = g then some q else none) _ = _
      rw [if_pos rfl]; exact ih _ _

theorem acc_flush (dec : Nat → Nat → C → List Nat → C × Act) (t : Tab C α) : Accounts t (flushTab dec t).2 (flushTab dec t).1 := by
  intro k
  refine ⟨?_, ?_⟩
  · rw [rx_other]
    · rw [rxOf, rxOf]
      show _ = some (((t.zipIdx.map (fun (s, k) => flushSlot dec k s))[k]?.map Slot.rx).getD [])
      rw [get_map_zip]
      cases t[k]? with
      | none => rfl
      | some s => rfl
    · intro e he q
      rw [flushTab] at he
      simp only [List.mem_flatMap] at he
      obtain ⟨p, _, he⟩ := he
      rcases flushQ_evs _ _ _ _ _ e he with ⟨i, a, h⟩ | ⟨g, h⟩ | ⟨i, g, h', h⟩ <;> subst h <;> rfl
  · show List.foldl (txStep k) _ (t.zipIdx.flatMap (fun (s, j) => (flushQ j (dec j) 0 s.cfg s.tx).2.2)) = _
    rw [tx_slots k (fun s j => (flushQ j (dec j) 0 s.cfg s.tx).2.2)]
    · rw [if_pos (Nat.zero_le _), Nat.sub_zero, txOf, txOf]
      show _ = some (((t.zipIdx.map (fun (s, k) => flushSlot dec k s))[k]?.map Slot.tx).getD [])
      rw [get_map_zip]
      cases t[k]? with
      | none => rfl
      | some s =>
        simp only [Option.map_some, Option.getD_some, flushSlot]
        exact flushQ_tx k (dec k) s.tx 0 s.cfg
    · intro s j hj e he q
      rcases flushQ_evs _ _ _ _ _ e he with ⟨i, a, h⟩ | ⟨g, h⟩ | ⟨i, g, h', h⟩
      · subst h; rfl
      · subst h; rw [txStep, if_neg hj]
      · subst h; rw [txStep, if_neg hj]

omit [DecidableEq α] in
theorem copies_append (k : Nat) (es fs : List (Ev α)) : copies k (es ++ fs) = copies k es ++ copies k fs := by
  rw [copies, copies, copies, List.filterMap_append]

omit [DecidableEq α] in
theorem copies_slots (k : Nat) (x : α) (p : Slot C α → Nat → Bool) : ∀ (t : Tab C α) (a : Nat),
    copies k ((t.zipIdx a).flatMap (fun (s, j) => if p s j then [Ev.queued j x] else [])) =
      (match (if a ≤ k then t[k - a]? else none) with | some s => if p s k then [x] else [] | none => []) := by
  intro t
  induction t with
  | nil => intro a; rw [List.zipIdx_nil, List.flatMap_nil]; split <;> simp_all [copies]
  | cons s t ih =>
    intro a
    rw [List.zipIdx_cons, List.flatMap_cons, copies_append, ih]
    by_cases hk : a = k
    · subst hk
      rw [if_neg (by omega), if_pos (Nat.le_refl _), Nat.sub_self]
      simp only [List.getElem?_cons_zero, List.append_nil]
      by_cases c : p s a = true
      · rw [if_pos c, if_pos c]; simp [copies]
      · rw [if_neg c, if_neg c]; rfl
    · have hs : copies k (if p s a then [Ev.queued a x] else []) = [] := by
        by_cases c : p s a = true
        · rw [if_pos c]; simp [copies, hk]
        · rw [if_neg c]; rfl
      show copies k (if p s a then [Ev.queued a x] else []) ++ _ = _
      rw [hs, List.nil_append]
      by_cases hle : a ≤ k
      · rw [if_pos hle, if_pos (by omega)]
        have : k - a = (k - (a + 1)) + 1 := by omega
        rw [this, List.getElem?_cons_succ]
      · rw [if_neg hle, if_neg (by omega)]

omit [DecidableEq α] in
/-- What a delivery loop puts in the buffer of socket `k`. -/
theorem copies_deliver (takes : C → Bool) (room : Nat → Bool) (x : α) (t : Tab C α) (k : Nat) :
    copies k (deliver takes room x t).2 = (match t[k]? with | some s => if s.used && takes s.cfg && room k then [x] else [] | none => []) := by
  have h := copies_slots k x (fun (s : Slot C α) j => s.used && takes s.cfg && room j) t 0
  rw [if_pos (Nat.zero_le _), Nat.sub_zero] at h
  exact h

omit [DecidableEq α] in
theorem mem_copies (k : Nat) (x : α) (es : List (Ev α)) : x ∈ copies k es ↔ Ev.queued k x ∈ es := by
  rw [copies, List.mem_filterMap]
  constructor
  · rintro ⟨e, he, h⟩
    cases e <;> simp only [reduceCtorEq] at h
    split at h
    · cases h; next h => subst h; exact he
    · cases h
  · intro h; exact ⟨_, h, by simp⟩

end Wolf.Dgram
