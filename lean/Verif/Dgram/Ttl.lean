import Verif.Dgram.Example

/-!
# C140: the TTL reported with a datagram of a raw or ICMP socket

`last_pkt_ttl` of raw and ICMP sockets: src/wolfip.c 2858 and 2988 (written when a datagram is queued), 2797, 6181,
6164 (cleared with the slot), 7519–7542 (`wolfIP_sock_get_recv_ttl`), as a function of the events of Dgram/Model. The
on/off switch is as for UDP (Udp/Ttl) and not repeated.
-/
namespace Wolf.Dgram

variable {α : Type}

/-- The effect of one event on `last_pkt_ttl` of socket `k`; `ttl` gives the TTL octet of a queue entry. Opening an ICMP
socket does not clear it in the code, but the slot has been clear since its last close. src/wolfip.c 2857–2860,
2987–2990, 2797. -/
def ttlStep (ttl : α → Nat) (k : Nat) (v : Nat) : Ev α → Nat
  | .queued j x => if j = k then ttl x else v
  | .reset j => if j = k then 0 else v
  | _ => v

/-- `last_pkt_ttl` of socket `k` after the events `es`: what `wolfIP_sock_get_recv_ttl` reports. -/
def lastTtl (ttl : α → Nat) (k : Nat) (v : Nat) (es : List (Ev α)) : Nat := es.foldl (ttlStep ttl k) v

/-- Raw sockets keep datagrams from the IP header on, ICMP sockets the whole frame. -/
def rawTtl (x : List Nat) : Nat := x.getD 8 0
def icTtl (x : List Nat) : Nat := x.getD 22 0

theorem rxReplay_none [DecidableEq α] (k : Nat) : ∀ es : List (Ev α), es.foldl (rxStep k) none = none
  | [] => rfl
  | e :: es => by
    have : rxStep k (none : Option (List α)) e = none := by cases e <;> simp [rxStep]
    rw [List.foldl_cons, this]
    exact rxReplay_none k es

theorem lastTtl_replay [DecidableEq α] (ttl : α → Nat) (k : Nat) : ∀ (es : List (Ev α)) (q q' : List α) (v : Nat),
    rxReplay k q es = some q' → (∀ x, q.getLast? = some x → v = ttl x) → ∀ x, q'.getLast? = some x → lastTtl ttl k v es = ttl x
  | [], q, q', v, hr, h, x, hx => by
    simp only [rxReplay, List.foldl_nil, Option.some.injEq] at hr
    subst hr
    exact h x hx
  | e :: es, q, q', v, hr, h, x, hx => by
    unfold rxReplay at hr
    rw [List.foldl_cons] at hr
    unfold lastTtl
    rw [List.foldl_cons]
    cases hq : rxStep k (some q) e with
    | none => rw [hq, rxReplay_none] at hr; simp at hr
    | some q1 =>
      rw [hq] at hr
      refine lastTtl_replay ttl k es q1 q' _ hr ?_ x hx
      intro y hy
      cases e with
      | queued j z =>
        simp only [rxStep] at hq
        by_cases hj : j = k
        · rw [if_pos hj] at hq
          simp at hq; subst hq
          simp at hy; subst hy
          simp [ttlStep, hj]
        · rw [if_neg hj] at hq
          simp at hq; subst hq
          simp only [ttlStep, if_neg hj]
          exact h y hy
      | read j z =>
        simp only [rxStep] at hq
        show v = ttl y
        by_cases hj : j = k
        · rw [if_pos hj] at hq
          cases q with
          | nil => simp at hq
          | cons a r =>
            simp at hq
            obtain ⟨_, rfl⟩ := hq
            apply h
            cases r with
            | nil => simp at hy
            | cons b c => rw [List.getLast?_cons_cons]; exact hy
        · rw [if_neg hj] at hq
          simp at hq; subst hq
          exact h y hy
      | reset j =>
        simp only [rxStep] at hq
        by_cases hj : j = k
        · rw [if_pos hj] at hq
          simp at hq; subst hq
          simp at hy
        · rw [if_neg hj] at hq
          simp at hq; subst hq
          simp only [ttlStep, if_neg hj]
          exact h y hy
      | accepted j g =>
        simp only [rxStep, Option.some.injEq] at hq; subst hq
        exact h y hy
      | sent j i g g' =>
        simp only [rxStep, Option.some.injEq] at hq; subst hq
        exact h y hy
      | lost j g =>
        simp only [rxStep, Option.some.injEq] at hq; subst hq
        exact h y hy
      | arp i a =>
        simp only [rxStep, Option.some.injEq] at hq; subst hq
        exact h y hy

theorem rw_recv_evs (s : RwSt) (k len v : Nat) : lastTtl rawTtl k v (rwStep s (.recv k len)).2.2 = v := by
  show lastTtl rawTtl k v (rwRecvOp s k len).2.2 = v
  unfold rwRecvOp popRx
  repeat' split
  all_goals first | rfl | (dsimp only; repeat' split) <;> rfl

theorem ic_recv_evs (s : IcSt) (k len v : Nat) : lastTtl icTtl k v (icStep s (.recv k len)).2.2 = v := by
  show lastTtl icTtl k v (icRecvOp s k len).2.2 = v
  unfold icRecvOp popRx
  repeat' split
  all_goals first | rfl | (dsimp only; repeat' split) <;> rfl

/-- C140, raw and ICMP sockets: after any history, what a receive call reports is the TTL of the newest datagram that was
waiting when it was called. -/
theorem tap_ttl_is_newest (e : Env) (m k len : Nat) (ro : List RwOp) (io : List IcOp) :
    (∀ x, (rxOf (rwRun (rwInit e m) ro).1.tab k).getLast? = some x →
      lastTtl rawTtl k 0 ((rwRun (rwInit e m) ro).2 ++ (rwStep (rwRun (rwInit e m) ro).1 (.recv k len)).2.2) = rawTtl x) ∧
    (∀ x, (rxOf (icRun (icInit e m) io).1.tab k).getLast? = some x →
      lastTtl icTtl k 0 ((icRun (icInit e m) io).2 ++ (icStep (icRun (icInit e m) io).1 (.recv k len)).2.2) = icTtl x) := by
  have hf := tap_reads_fifo [] e m k [] ro io
  refine ⟨?_, ?_⟩
  · intro x hx
    have h := lastTtl_replay rawTtl k _ _ _ 0 hf.2.1 (by intro y hy; simp at hy) x hx
    have h2 := rw_recv_evs (rwRun (rwInit e m) ro).1 k len (lastTtl rawTtl k 0 (rwRun (rwInit e m) ro).2)
    unfold lastTtl at h h2 ⊢
    rw [List.foldl_append, h2, h]
  · intro x hx
    have h := lastTtl_replay icTtl k _ _ _ 0 hf.2.2 (by intro y hy; simp at hy) x hx
    have h2 := ic_recv_evs (icRun (icInit e m) io).1 k len (lastTtl icTtl k 0 (icRun (icInit e m) io).2)
    unfold lastTtl at h h2 ⊢
    rw [List.foldl_append, h2, h]

/-- C140, raw and ICMP sockets, as far as it holds: if every other waiting datagram has the TTL of the one returned, that TTL is reported. -/
theorem tap_ttl_own_partial (e : Env) (m k len : Nat) (ro : List RwOp) (io : List IcOp) :
    (∀ x rest, rxOf (rwRun (rwInit e m) ro).1.tab k = x :: rest → (∀ y ∈ rest, rawTtl y = rawTtl x) →
      lastTtl rawTtl k 0 ((rwRun (rwInit e m) ro).2 ++ (rwStep (rwRun (rwInit e m) ro).1 (.recv k len)).2.2) = rawTtl x) ∧
    (∀ x rest, rxOf (icRun (icInit e m) io).1.tab k = x :: rest → (∀ y ∈ rest, icTtl y = icTtl x) →
      lastTtl icTtl k 0 ((icRun (icInit e m) io).2 ++ (icStep (icRun (icInit e m) io).1 (.recv k len)).2.2) = icTtl x) := by
  have hn := tap_ttl_is_newest e m k len ro io
  have pick : ∀ (f : List Nat → Nat) (x : List Nat) (rest : List (List Nat)), (∀ y ∈ rest, f y = f x) →
      ∃ z, (x :: rest).getLast? = some z ∧ f z = f x := by
    intro f x rest h
    refine ⟨(x :: rest).getLast (by simp), List.getLast?_eq_some_getLast (by simp), ?_⟩
    rcases List.mem_cons.mp (List.getLast_mem (l := x :: rest) (by simp)) with h1 | h1
    · rw [h1]
    · exact h _ h1
  refine ⟨?_, ?_⟩
  · intro x rest hr h
    obtain ⟨z, hz, hfz⟩ := pick rawTtl x rest h
    rw [hn.1 z (by rw [hr]; exact hz), hfz]
  · intro x rest hr h
    obtain ⟨z, hz, hfz⟩ := pick icTtl x rest h
    rw [hn.2 z (by rw [hr]; exact hz), hfz]

/-- `exReply` with time to live `t`. -/
def exReplyT (t : Nat) : List Nat :=
  exMac 1 ++ exMac 9 ++ [8, 0] ++ Csum.ipSet ([0x45, 0, 0, 32, 0, 7, 0, 0, t, 1, 0, 0] ++ [10, 0, 0, 2] ++ [10, 0, 0, 1]) ++
    Csum.icmpFill [0, 0, 0, 0, 0x12, 0x34, 0, 1, 97, 98, 99, 100] 12

/-- The code against C140: two replies wait, with TTL 255 and 3; the receive call takes the first and the TTL reported is 3. -/
theorem tap_ttl_of_another :
    (rwRun (rwInit exEnv 1) [.socket 1 false, .frame 0 (exReplyT 255) {}, .frame 0 (exReplyT 3) {}, .recv 0 100]).2 =
      [.reset 0, .queued 0 ((exReplyT 255).drop 14), .queued 0 ((exReplyT 3).drop 14), .read 0 ((exReplyT 255).drop 14)] ∧
    lastTtl rawTtl 0 0 (rwRun (rwInit exEnv 1) [.socket 1 false, .frame 0 (exReplyT 255) {}, .frame 0 (exReplyT 3) {}, .recv 0 100]).2 = 3 ∧
    (icRun (icInit exEnv 1) [.socket, .frame 0 (exReplyT 255) {}, .frame 0 (exReplyT 3) {}, .recv 0 100]).2 =
      [.reset 0, .queued 0 (exReplyT 255), .queued 0 (exReplyT 3), .read 0 (exReplyT 255)] ∧
    lastTtl icTtl 0 0 (icRun (icInit exEnv 1) [.socket, .frame 0 (exReplyT 255) {}, .frame 0 (exReplyT 3) {}, .recv 0 100]).2 = 3 := by
  decide +kernel

end Wolf.Dgram
