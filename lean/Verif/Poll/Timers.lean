/-!
# C117: the stack never runs out of timers

Model of everything in `src/wolfip.c` that arms or cancels a timer, reduced to what decides whether an
arming finds room: who the timer belongs to, the handle its owner keeps, and the entries of the heap.
There are `T` TCP sockets (`MAX_TCPSOCKETS`) with two timers each, the DHCP client, the resolver and
`M` multicast memberships (`WOLFIP_MCAST_MEMBERSHIPS`; none without `IP_MULTICAST`); the heap has room
for `3 * T` entries (`MAX_TIMERS`, 77).

The heap is the list of its live entries, which is what C11 proves of the array; ids are naturals (the
32-bit counter does not come round). Deadlines play no part: any live entry may fire.
-/
namespace Wolf.Poll

/-- Who arms a timer. -/
inductive Owner where
  /-- `tmr_rto` of a TCP socket: data, handshake, FIN_WAIT_2 and pre-accept timeouts share it -/
  | rto (i : Nat)
  /-- `tmr_persist` -/
  | persist (i : Nat)
  | dhcp
  | dns
  /-- `tmr_report` of a membership slot -/
  | igmp (j : Nat)
deriving DecidableEq, Repr

/-- The owners that exist. -/
def Exists (T M : Nat) : Owner → Prop
  | .rto i => i < T
  | .persist i => i < T
  | .dhcp => True
  | .dns => True
  | .igmp j => j < M

/-- `live`: heap entries (id, owner); `handle`: the ids the owners keep (0 = `NO_TIMER`); `busy`: a DNS query
is outstanding (`dns_id != 0`); `joined`: the membership slot is in use (`refs != 0`). -/
structure St where
  live : List (Nat × Owner)
  handle : Owner → Nat
  next : Nat
  busy : Bool
  joined : Nat → Bool

/-- After `wolfIP_init`. -/
def St.init : St := { live := [], handle := fun _ => 0, next := 1, busy := false, joined := fun _ => false }

def setH (f : Owner → Nat) (o : Owner) (v : Nat) : Owner → Nat := fun x => if x = o then v else f x

/-- `if (h != NO_TIMER) { timer_binheap_cancel(h); h = NO_TIMER; }` – the form of 3911, 3938, 3956, 3971, 3984,
3999, 4131, 4150, 5200, 6028, 6104, 6148, 7349, 8576, 10834, 11414. -/
def cancel (s : St) (o : Owner) : St :=
  if s.handle o = 0 then s
  else { s with live := s.live.filter (fun x => x.1 ≠ s.handle o), handle := setH s.handle o 0 }

/-- `h = timers_binheap_insert(…)`: `NO_TIMER` when the heap is full. 2536–2558. -/
def insert (T : Nat) (s : St) (o : Owner) : St :=
  if s.live.length < 3 * T then
    { s with live := s.live ++ [(s.next, o)], handle := setH s.handle o s.next, next := s.next + 1 }
  else { s with handle := setH s.handle o 0 }

/-- What the stack does with timers. -/
inductive Op where
  /-- cancel, then arm: 3931–3948, 3950–3965, 3978–3992, 4141–4160, 5200–5211, 6028–6055, 11414–11422, and the DHCP
  client, which cancels before it schedules or has no timer (`Wolf.Dhcp.dhcp_at_most_one_timer`) -/
  | rearm (o : Owner)
  /-- arm unless a timer is held: 6097–6103 -/
  | ensure (o : Owner)
  /-- cancel: the stop functions, `close_socket` 6146–6152 before the slot is cleared, `tcp_listener_revert_to_listen` 4018–4020 -/
  | stop (o : Owner)
  /-- the entry `id` expires: it leaves the heap and its callback starts; the callbacks of DHCP (8475), DNS (10907) and
  IGMP (4579) forget their handle, those of TCP keep it -/
  | fire (id : Nat)
  /-- `dns_send_query` up to the first transmission: refused while a query is outstanding. 11041–11124 -/
  | query
  /-- the query ends, with an answer, an error or after the last retry. 10881–10900 -/
  | answered
  /-- join a group in the free slot `j`. 7299–7323 -/
  | join (j : Nat)
  /-- leave it. 7344–7355 -/
  | leave (j : Nat)
  /-- a membership query arrives for the group of slot `j`. 4635–4657 -/
  | asked (j : Nat)

/-- The owner of the operation, for the arming operations: the ones that must find room. -/
def arms (s : St) : Op → Option Owner
  | .rearm o => some o
  | .ensure o => if s.handle o = 0 then some o else none
  | .query => if s.busy then none else some .dns
  | .asked j => if s.joined j = true ∧ s.handle (.igmp j) = 0 then some (.igmp j) else none
  | _ => none

/-- TCP callbacks keep the handle of the timer that fired. -/
def forgets : Owner → Bool
  | .rto _ => false
  | .persist _ => false
  | _ => true

/-- One operation. -/
def step (T : Nat) (s : St) : Op → St
  | .rearm o => insert T (cancel s o) o
  | .ensure o => if s.handle o = 0 then insert T s o else s
  | .stop o => cancel s o
  | .fire id =>
    match s.live.find? (fun x => x.1 = id) with
    | some x => { s with live := s.live.filter (fun y => y.1 ≠ id), handle := if forgets x.2 then setH s.handle x.2 0 else s.handle }
    | none => s
  | .query => if s.busy then s else insert T { s with busy := true } .dns
  | .answered => { cancel s .dns with busy := false }
  | .join j => if s.joined j then s else { s with handle := setH s.handle (.igmp j) 0, joined := fun x => if x = j then true else s.joined x }
  | .leave j => if s.joined j then { cancel s (.igmp j) with joined := fun x => if x = j then false else s.joined x } else s
  | .asked j => if s.joined j = true ∧ s.handle (.igmp j) = 0 then insert T s (.igmp j) else s

def run (T : Nat) (s : St) (l : List Op) : St := l.foldl (step T) s

/-- The operation concerns an owner that exists; the `ensure`, `rearm` and `stop` operations of the multicast and DNS
code are `asked`, `leave`, `query` and `answered`, except that the resolver re-arms from its timeout callback (10907–10916)
while its query is outstanding. -/
def Legal (T M : Nat) (s : St) : Op → Prop
  | .rearm o => Exists T M o ∧ (∀ j, o ≠ .igmp j) ∧ (o = .dns → s.busy = true)
  | .ensure o => Exists T M o ∧ (∃ i, o = .rto i)
  | .stop o => Exists T M o ∧ (∀ j, o ≠ .igmp j)
  | .join j => j < M
  | .asked j => j < M
  | _ => True

def AllLegal (T M : Nat) : St → List Op → Prop
  | _, [] => True
  | s, op :: l => Legal T M s op ∧ AllLegal T M (step T s op) l

/-! ## Every owner has at most one timer -/

/-- The entries of the heap are those their owners know of. -/
structure Inv (T M : Nat) (s : St) : Prop where
  known : ∀ x ∈ s.live, s.handle x.2 = x.1 ∧ 0 < x.1 ∧ Exists T M x.2
  fresh : ∀ x ∈ s.live, x.1 < s.next
  pos : 0 < s.next
  nodup : (s.live.map Prod.fst).Nodup
  idle : s.busy = false → ∀ x ∈ s.live, x.2 ≠ .dns
  left : ∀ j, s.joined j = false → ∀ x ∈ s.live, x.2 ≠ .igmp j

theorem inv_init (T M : Nat) : Inv T M St.init :=
  ⟨by simp [St.init], by simp [St.init], by simp [St.init], by simp [St.init], by simp [St.init], by simp [St.init]⟩

theorem cancel_inv {T M : Nat} {s : St} (o : Owner) (h : Inv T M s) : Inv T M (cancel s o) := by
  unfold cancel
  split
  · exact h
  · rename_i h0
    refine ⟨?_, ?_, h.pos, ?_, ?_, ?_⟩
    · intro x hx
      have hx' := List.mem_filter.1 hx
      obtain ⟨a, b, c⟩ := h.known x hx'.1
      refine ⟨?_, b, c⟩
      show setH s.handle o 0 x.2 = x.1
      unfold setH
      split
      · rename_i e
        have := hx'.2
        rw [e] at a
        simp [a] at this
      · exact a
    · intro x hx; exact h.fresh x (List.mem_filter.1 hx).1
    · exact h.nodup.sublist (List.filter_sublist.map _)
    · intro hb x hx; exact h.idle hb x (List.mem_filter.1 hx).1
    · intro j hj x hx; exact h.left j hj x (List.mem_filter.1 hx).1

/-- After cancelling, no entry of that owner is left. -/
theorem cancel_none {T M : Nat} {s : St} (o : Owner) (h : Inv T M s) : ∀ x ∈ (cancel s o).live, x.2 ≠ o := by
  intro x hx e
  unfold cancel at hx
  split at hx
  · rename_i h0
    obtain ⟨a, b, _⟩ := h.known x hx
    rw [e, h0] at a; omega
  · have hx' := List.mem_filter.1 hx
    obtain ⟨a, _, _⟩ := h.known x hx'.1
    rw [e] at a
    have := hx'.2
    simp [a] at this

theorem cancel_more (s : St) (o : Owner) : (cancel s o).busy = s.busy ∧ (cancel s o).joined = s.joined := by
  unfold cancel; split <;> exact ⟨rfl, rfl⟩

theorem insert_inv {T M : Nat} {s : St} (o : Owner) (h : Inv T M s) (hn : ∀ x ∈ s.live, x.2 ≠ o) (he : Exists T M o)
    (hb : o = .dns → s.busy = true) (hj : ∀ j, o = .igmp j → s.joined j = true) : Inv T M (insert T s o) := by
  unfold insert
  split
  · refine ⟨?_, ?_, by have := h.pos; show 0 < s.next + 1; omega, ?_, ?_, ?_⟩
    · intro x hx
      rcases List.mem_append.1 hx with hx | hx
      · obtain ⟨a, b, c⟩ := h.known x hx
        refine ⟨?_, b, c⟩
        show setH s.handle o s.next x.2 = x.1
        unfold setH
        rw [if_neg (hn x hx)]; exact a
      · have : x = (s.next, o) := by simpa using hx
        subst this
        exact ⟨by simp [setH], h.pos, he⟩
    · intro x hx
      show x.1 < s.next + 1
      rcases List.mem_append.1 hx with hx | hx
      · have := h.fresh x hx; omega
      · have : x = (s.next, o) := by simpa using hx
        subst this; simp
    · show ((s.live ++ [(s.next, o)]).map Prod.fst).Nodup
      rw [List.map_append, List.nodup_append]
      refine ⟨h.nodup, by simp, ?_⟩
      intro a ha b hb' e
      obtain ⟨x, hx, hxa⟩ := List.mem_map.1 ha
      have := h.fresh x hx
      simp at hb'
      omega
    · intro hb' x hx
      rcases List.mem_append.1 hx with hx | hx
      · exact h.idle hb' x hx
      · have : x = (s.next, o) := by simpa using hx
        subst this
        intro e
        have := hb e
        have hb'' : s.busy = false := hb'
        rw [this] at hb''; cases hb''
    · intro j hj' x hx
      rcases List.mem_append.1 hx with hx | hx
      · exact h.left j hj' x hx
      · have : x = (s.next, o) := by simpa using hx
        subst this
        intro e
        have := hj j e
        have hj'' : s.joined j = false := hj'
        rw [this] at hj''; cases hj''
  · refine ⟨?_, h.fresh, h.pos, h.nodup, h.idle, h.left⟩
    intro x hx
    obtain ⟨a, b, c⟩ := h.known x hx
    refine ⟨?_, b, c⟩
    show setH s.handle o 0 x.2 = x.1
    unfold setH
    rw [if_neg (hn x hx)]; exact a

theorem none_of_handle {T M : Nat} {s : St} {o : Owner} (h : Inv T M s) (h0 : s.handle o = 0) : ∀ x ∈ s.live, x.2 ≠ o := by
  intro x hx e
  obtain ⟨a, b, _⟩ := h.known x hx
  rw [e, h0] at a; omega

theorem step_inv {T M : Nat} {s : St} {op : Op} (h : Inv T M s) (hl : Legal T M s op) : Inv T M (step T s op) := by
  cases op with
  | rearm o =>
    obtain ⟨he, hi, hd⟩ := hl
    exact insert_inv o (cancel_inv o h) (cancel_none o h) he (by rw [(cancel_more s o).1]; exact hd) (fun j e => absurd e (hi j))
  | ensure o =>
    obtain ⟨he, i, hi⟩ := hl
    dsimp only [step]
    split
    · rename_i h0
      exact insert_inv o h (none_of_handle h h0) he (fun e => by rw [hi] at e; cases e) (fun j e => by rw [hi] at e; cases e)
    · exact h
  | stop o => exact cancel_inv o h
  | fire id =>
    dsimp only [step]
    split
    · rename_i x hx
      have hm := List.mem_of_find?_eq_some hx
      have hid : x.1 = id := by simpa using List.find?_some hx
      refine ⟨?_, ?_, h.pos, ?_, ?_, ?_⟩
      · intro y hy
        have hy' := List.mem_filter.1 hy
        obtain ⟨a, b, c⟩ := h.known y hy'.1
        refine ⟨?_, b, c⟩
        show (if forgets x.2 then setH s.handle x.2 0 else s.handle) y.2 = y.1
        split
        · unfold setH
          split
          · rename_i e
            have h1 := (h.known x hm).1
            rw [e] at a
            have : y.1 ≠ id := by simpa using hy'.2
            omega
          · exact a
        · exact a
      · intro y hy; exact h.fresh y (List.mem_filter.1 hy).1
      · exact h.nodup.sublist (List.filter_sublist.map _)
      · intro hb y hy; exact h.idle hb y (List.mem_filter.1 hy).1
      · intro j hj y hy; exact h.left j hj y (List.mem_filter.1 hy).1
    · exact h
  | query =>
    dsimp only [step]
    split
    · exact h
    · rename_i hb
      have hb' : s.busy = false := by cases hs : s.busy <;> simp_all
      refine insert_inv .dns ⟨h.known, h.fresh, h.pos, h.nodup, nofun, h.left⟩ (h.idle hb') trivial (fun _ => rfl) nofun
  | answered =>
    have h1 := cancel_inv .dns h
    exact ⟨h1.known, h1.fresh, h1.pos, h1.nodup, fun _ => cancel_none .dns h, h1.left⟩
  | join j =>
    dsimp only [step]
    split
    · exact h
    · rename_i hj
      have hj' : s.joined j = false := by cases hs : s.joined j <;> simp_all
      refine ⟨?_, h.fresh, h.pos, h.nodup, h.idle, ?_⟩
      · intro x hx
        obtain ⟨a, b, c⟩ := h.known x hx
        refine ⟨?_, b, c⟩
        show setH s.handle (.igmp j) 0 x.2 = x.1
        unfold setH
        rw [if_neg (h.left j hj' x hx)]; exact a
      · intro k hk x hx
        have hk' : (if k = j then true else s.joined k) = false := hk
        split at hk'
        · cases hk'
        · exact h.left k hk' x hx
  | leave j =>
    dsimp only [step]
    split
    · have h1 := cancel_inv (.igmp j) h
      refine ⟨h1.known, h1.fresh, h1.pos, h1.nodup, h1.idle, ?_⟩
      intro k hk x hx
      have hk' : (if k = j then false else s.joined k) = false := hk
      split at hk'
      · rename_i e; subst e; exact cancel_none (.igmp k) h x hx
      · exact h1.left k (by rw [(cancel_more s _).2]; exact hk') x hx
    · exact h
  | asked j =>
    dsimp only [step]
    split
    · rename_i hc
      refine insert_inv _ h (none_of_handle h hc.2) hl nofun ?_
      intro k e
      cases e; exact hc.1
    · exact h

theorem run_inv {T M : Nat} : ∀ (l : List Op) {s : St}, Inv T M s → AllLegal T M s l → Inv T M (run T s l)
  | [], _, h, _ => h
  | _ :: l, _, h, hl => run_inv l (step_inv h hl.1) hl.2

/-- All owners. -/
def owners (T M : Nat) : List Owner :=
  (List.range T).map .rto ++ ((List.range T).map .persist ++ (.dhcp :: .dns :: (List.range M).map .igmp))

theorem mem_owners {T M : Nat} {o : Owner} (h : Exists T M o) : o ∈ owners T M := by
  unfold owners
  cases o with
  | rto i => exact List.mem_append_left _ (List.mem_map.2 ⟨i, List.mem_range.2 h, rfl⟩)
  | persist i => exact List.mem_append_right _ (List.mem_append_left _ (List.mem_map.2 ⟨i, List.mem_range.2 h, rfl⟩))
  | dhcp => simp
  | dns => simp
  | igmp j =>
    refine List.mem_append_right _ (List.mem_append_right _ ?_)
    simp only [List.mem_cons]
    exact Or.inr (Or.inr (List.mem_map.2 ⟨j, List.mem_range.2 h, rfl⟩))

theorem sub_len {α : Type} [DecidableEq α] : ∀ {l m : List α}, l.Nodup → (∀ x ∈ l, x ∈ m) → l.length ≤ m.length
  | [], _, _, _ => Nat.zero_le _
  | a :: l, m, hn, hs => by
    have ha : a ∈ m := hs a List.mem_cons_self
    have hn' := List.nodup_cons.1 hn
    have : l.length ≤ (m.erase a).length := by
      refine sub_len hn'.2 ?_
      intro x hx
      have hne : x ≠ a := fun e => hn'.1 (e ▸ hx)
      exact (List.mem_erase_of_ne hne).2 (hs x (List.mem_cons_of_mem _ hx))
    rw [List.length_erase_of_mem ha] at this
    have := List.length_pos_of_mem ha
    simp only [List.length_cons]; omega

theorem pairwise_of_inj {α β : Type} {f : α → β} : ∀ {l : List α}, l.Nodup → (∀ x ∈ l, ∀ y ∈ l, f x = f y → x = y) → (l.map f).Nodup
  | [], _, _ => List.nodup_nil
  | a :: l, hn, hi => by
    have hn' := List.nodup_cons.1 hn
    rw [List.map_cons, List.nodup_cons]
    refine ⟨?_, pairwise_of_inj hn'.2 (fun x hx y hy => hi x (List.mem_cons_of_mem _ hx) y (List.mem_cons_of_mem _ hy))⟩
    intro hm
    obtain ⟨b, hb, he⟩ := List.mem_map.1 hm
    have := hi b (List.mem_cons_of_mem _ hb) a List.mem_cons_self he
    exact hn'.1 (this ▸ hb)

theorem nodup_of_map {α β : Type} {f : α → β} {l : List α} (h : (l.map f).Nodup) : l.Nodup := by
  induction l with
  | nil => exact List.nodup_nil
  | cons a l ih =>
    rw [List.map_cons, List.nodup_cons] at h
    refine List.nodup_cons.2 ⟨fun hm => h.1 (List.mem_map.2 ⟨a, hm, rfl⟩), ih h.2⟩

/-- Live timers belong to different owners. -/
theorem live_owners_nodup {T M : Nat} {s : St} (h : Inv T M s) : (s.live.map Prod.snd).Nodup := by
  refine pairwise_of_inj (nodup_of_map h.nodup) ?_
  intro x hx y hy e
  have h1 := (h.known x hx).1
  have h2 := (h.known y hy).1
  rw [e] at h1
  exact Prod.ext (by omega) e

/-- With `o` not armed there is room for one more. -/
theorem room_of_inv {T M : Nat} {s : St} (h : Inv T M s) {o : Owner} (he : Exists T M o) (hn : ∀ x ∈ s.live, x.2 ≠ o) :
    s.live.length < 2 * T + 2 + M := by
  have h1 : (o :: s.live.map Prod.snd).Nodup :=
    List.nodup_cons.2 ⟨fun hm => by obtain ⟨x, hx, e⟩ := List.mem_map.1 hm; exact hn x hx e, live_owners_nodup h⟩
  have h2 := sub_len (m := owners T M) h1 (by
    intro x hx
    rcases List.mem_cons.1 hx with rfl | hx
    · exact mem_owners he
    · obtain ⟨y, hy, rfl⟩ := List.mem_map.1 hx
      exact mem_owners (h.known y hy).2.2)
  have h3 : (owners T M).length = 2 * T + 2 + M := by
    unfold owners
    simp only [List.length_append, List.length_map, List.length_range, List.length_cons]
    omega
  simp only [List.length_cons, List.length_map] at h2
  omega

/-- The timer an operation wants to arm is armed when the operation is over. -/
def Armed (s : St) (o : Owner) : Prop := ∃ x ∈ s.live, x.2 = o ∧ s.handle o = x.1 ∧ x.1 ≠ 0

theorem insert_armed {T : Nat} {s : St} (o : Owner) (hr : s.live.length < 3 * T) (hp : 0 < s.next) : Armed (insert T s o) o := by
  unfold insert
  rw [if_pos hr]
  exact ⟨(s.next, o), by simp, rfl, by simp [setH], by show s.next ≠ 0; omega⟩

/-- **C117 (partial).** In a build with `T` TCP sockets and `M` multicast memberships, `M + 2 ≤ T`, every timer the stack
wants to arm is armed, after every history of arming, cancelling, expiry, queries and memberships: retransmission, handshake
and probe timers, the DHCP client's, the resolver's and the deferred reports. Missing: builds with more memberships, or a
single TCP socket (`timers_run_out`). -/
theorem timers_never_run_out_partial (T M : Nat) (hT : M + 2 ≤ T) (l : List Op) (hl : AllLegal T M St.init l) (op : Op)
    (ho : Legal T M (run T St.init l) op) (o : Owner) (ha : arms (run T St.init l) op = some o) :
    Armed (step T (run T St.init l) op) o := by
  have h := run_inv l (inv_init T M) hl
  generalize run T St.init l = s at h ho ha
  cases op with
  | rearm o' =>
    cases ha
    have h1 := cancel_inv o h
    have := room_of_inv h1 ho.1 (cancel_none o h)
    exact insert_armed o (by omega) h1.pos
  | ensure o' =>
    dsimp only [arms] at ha
    split at ha
    · rename_i h0
      cases ha
      have := room_of_inv h ho.1 (none_of_handle h h0)
      dsimp only [step]
      rw [if_pos h0]
      exact insert_armed o (by omega) h.pos
    · cases ha
  | query =>
    dsimp only [arms] at ha
    split at ha
    · cases ha
    · rename_i hb
      cases ha
      have hb' : s.busy = false := by cases hs : s.busy <;> simp_all
      have := room_of_inv h (o := .dns) trivial (h.idle hb')
      dsimp only [step]
      rw [if_neg hb]
      exact insert_armed .dns (s := { s with busy := true }) (by show s.live.length < 3 * T; omega) h.pos
  | asked j =>
    dsimp only [arms] at ha
    split at ha
    · rename_i hc
      cases ha
      have := room_of_inv h (o := .igmp j) ho (none_of_handle h hc.2)
      dsimp only [step]
      rw [if_pos hc]
      exact insert_armed _ (by omega) h.pos
    · cases ha
  | stop o' => cases ha
  | fire id => cases ha
  | answered => cases ha
  | join j => cases ha
  | leave j => cases ha

/-- A history that meets the hypotheses with the shipped `MAX_TCPSOCKETS` and no multicast: all ten timers. -/
def exOps : List Op := [.rearm (.rto 0), .rearm (.rto 1), .rearm (.rto 2), .ensure (.rto 3), .rearm (.persist 0),
  .rearm (.persist 1), .rearm (.persist 2), .rearm (.persist 3), .rearm .dhcp, .fire 2, .rearm (.rto 1)]

example : AllLegal 4 0 St.init exOps ∧ Legal 4 0 (run 4 St.init exOps) .query ∧ arms (run 4 St.init exOps) .query = some .dns ∧
    (run 4 St.init exOps).live.length = 9 := by
  refine ⟨?_, trivial, by decide, by decide⟩
  simp [exOps, AllLegal, Legal, Exists]

/-! ## What happens when they do run out -/

/-- The four memberships of one UDP socket answer a general query; the four connections have data in flight and, the peer having
closed its window, data waiting. -/
def fill : List Op := (List.range 4).map .join ++ (List.range 4).map .asked ++ (List.range 4).map (fun i => .rearm (.rto i)) ++
  (List.range 4).map (fun i => .rearm (.persist i))

/-- The eight memberships of two sockets answer; three connections have data in flight, one of them a closed window. -/
def fill8 : List Op := (List.range 8).map .join ++ (List.range 8).map .asked ++ (List.range 3).map (fun i => .rearm (.rto i)) ++
  [.rearm (.persist 0)]

theorem fill_legal : AllLegal 4 8 St.init fill ∧ AllLegal 4 8 St.init fill8 := by
  simp [fill, fill8, AllLegal, Legal, Exists, List.range, List.range.loop]

/-- Arming for an owner without a timer fails when twelve are live. -/
theorem full_fails {s : St} {o : Owner} (h0 : s.handle o = 0) (hl : s.live.length = 12) : ¬ Armed (step 4 s (.rearm o)) o := by
  rintro ⟨x, _, _, hh, hx⟩
  have e : cancel s o = s := by unfold cancel; rw [if_pos h0]
  have : (step 4 s (.rearm o)).handle o = 0 := by
    show (insert 4 (cancel s o) o).handle o = 0
    rw [e]
    unfold insert
    rw [hl, if_neg (by omega)]
    simp [setH]
  omega

/-- **Finding** (`timers_run_out`), with `IP_MULTICAST` and the default sizes (4 TCP sockets, 4 memberships for each of 2 UDP
sockets): one IGMP general query makes a timer for each membership, and with the connections' own the heap of twelve is full:
whatever is armed next is not, without any report – the DHCP client's or the resolver's timer, or that of a new connection's
handshake, which is then never retransmitted and never given up. -/
theorem timers_run_out : ¬ Armed (step 4 (run 4 St.init fill) (.rearm .dhcp)) .dhcp ∧
    ¬ Armed (step 4 (run 4 St.init fill) (.rearm .dns)) .dns ∧
    ¬ Armed (step 4 (run 4 St.init fill8) (.rearm (.rto 3))) (.rto 3) :=
  ⟨full_fails (by decide) (by decide), full_fails (by decide) (by decide), full_fails (by decide) (by decide)⟩

/-- No answer to the DNS query arrives and its timer does not fire (there is none). -/
def Unanswered : Op → Prop
  | .answered => False
  | .rearm o => o ≠ .dns
  | _ => True

theorem busy_step {T : Nat} {s : St} {op : Op} (h : s.busy = true) (hu : Unanswered op) : (step T s op).busy = true := by
  have hi : ∀ (s : St) (o : Owner), (insert T s o).busy = s.busy := by
    intro s o; unfold insert; split <;> rfl
  cases op with
  | rearm o => show (insert T (cancel s o) o).busy = true; rw [hi, (cancel_more s o).1]; exact h
  | ensure o => dsimp only [step]; split; · rw [hi]; exact h
                · exact h
  | stop o => show (cancel s o).busy = true; rw [(cancel_more s o).1]; exact h
  | fire id => dsimp only [step]; split <;> exact h
  | query => dsimp only [step]; rw [if_pos h]; exact h
  | answered => cases hu
  | join j => dsimp only [step]; split <;> exact h
  | leave j =>
    dsimp only [step]
    split
    · show (cancel s (.igmp j)).busy = true; rw [(cancel_more s _).1]; exact h
    · exact h
  | asked j => dsimp only [step]; split; · rw [hi]; exact h
               · exact h

/-- **Finding** (`resolver_wedged`): a lookup started at that moment has no timer. If its one datagram or the answer is lost, it
is never retransmitted and never times out: every later lookup is refused as busy, for ever, even after all timers are free again. -/
theorem resolver_wedged : (∀ x ∈ (step 4 (run 4 St.init fill) .query).live, x.2 ≠ .dns) ∧
    ∀ l : List Op, (∀ op ∈ l, Unanswered op) → (run 4 (step 4 (run 4 St.init fill) .query) l).busy = true ∧
      arms (run 4 (step 4 (run 4 St.init fill) .query) l) .query = none := by
  refine ⟨by decide, ?_⟩
  intro l hl
  have hb : (step 4 (run 4 St.init fill) .query).busy = true := by decide
  have : ∀ (l : List Op) (s : St), s.busy = true → (∀ op ∈ l, Unanswered op) → (run 4 s l).busy = true := by
    intro l
    induction l with
    | nil => intro s h _; exact h
    | cons op l ih => intro s h hu; exact ih _ (busy_step h (hu op (by simp))) (fun o ho => hu o (by simp [ho]))
  have h1 := this l _ hb hl
  exact ⟨h1, by dsimp only [arms]; rw [if_pos h1]⟩

end Wolf.Poll
