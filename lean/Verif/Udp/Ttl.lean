import Verif.Udp.Props

/-!
# C140: the TTL reported with a received datagram

Model of `last_pkt_ttl` and `recv_ttl` of UDP sockets: src/wolfip.c 2745 (written when a datagram is queued),
7413–7419 (`setsockopt` IP_RECVTTL), 7519–7542 (`wolfIP_sock_get_recv_ttl`, which `recvmsg` of the POSIX port
calls after `recvfrom`, src/port/posix/bsd_socket.c 687–708), on top of Udp/Model. ICMP and raw sockets have the same
three sites (2858, 2988, 7388): Dgram/Ttl.
-/
namespace Wolf.Udp
open Wolf.IpIn (Net)

/-- The UDP sockets with `recv_ttl` and `last_pkt_ttl` of each slot. src/wolfip.c 1260–1261. -/
structure TSt where
  st : St
  on : Nat → Bool := fun _ => false
  last : Nat → Nat := fun _ => 0

/-- The time to live of the packet in frame `g`: octet 22 (8 of the IP header). -/
def ttlOf (g : List Nat) : Nat := g.getD 22 0

/-- `t->last_pkt_ttl = udp->ip.ttl` after a successful `fifo_push`. src/wolfip.c 2744–2747. -/
def noteTtl (last : Nat → Nat) : List Ev → Nat → Nat
  | [], j => last j
  | .queued k _ g :: es, j => noteTtl (fun x => if x = k then ttlOf g else last x) es j
  | _ :: es, j => noteTtl last es j

inductive TOp where
  | udp (op : Op)
  /-- `setsockopt(fd, SOL_IP, IP_RECVTTL, &b)`. -/
  | setTtl (k : Nat) (b : Bool)

/-- One call. `close` clears the whole slot (src/wolfip.c 7731–7741, 6138–6175). -/
def tstep (s : TSt) : TOp → TSt × Res × List Ev
  | .udp op =>
    let r := step s.st op
    let last := noteTtl s.last r.2.2
    match op with
    | .close k =>
      if k < s.st.socks.length then
        ({ st := r.1, on := fun j => if j = k then false else s.on j, last := fun j => if j = k then 0 else last j }, r.2)
      else ({ s with st := r.1, last := last }, r.2)
    | _ => ({ s with st := r.1, last := last }, r.2)
  | .setTtl k b =>
    if k < s.st.socks.length then ({ s with on := fun j => if j = k then b else s.on j }, .ok, []) else (s, .err, [])

/-- `wolfIP_sock_get_recv_ttl`: `none` when it does not report a TTL (an error or 0). src/wolfip.c 7519–7542. -/
def getTtl (s : TSt) (k : Nat) : Option Nat :=
  if k < s.st.socks.length ∧ s.on k = true then some (s.last k) else none

/-- A history. -/
def trun (s : TSt) : List TOp → TSt
  | [] => s
  | op :: ops => trun (tstep s op).1 ops

def tinit (net : Net) (n : Nat) : TSt := { st := init net n }

/-! ## Specification -/

/-- What a user of IP_RECVTTL relies on: after a `recvfrom` that took the datagram `g` out of socket `k`'s queue, the TTL
reported is that of `g`. -/
def ReportsOwn (s : TSt) (k len : Nat) : Prop :=
  ∀ g rest, rxOf s.st k = g :: rest → s.on k = true → k < s.st.socks.length →
    getTtl (tstep s (.udp (.recv k len))).1 k = some (ttlOf g)

/-! ## Proofs -/

theorem noteTtl_replay (k : Nat) : ∀ (es : List Ev) (q q' : List (List Nat)) (last : Nat → Nat), replay k q es = some q' →
    (∀ g, q.getLast? = some g → last k = ttlOf g) → ∀ g, q'.getLast? = some g → noteTtl last es k = ttlOf g
  | [], q, q', last, hr, h, g, hg => by
    simp only [replay, Option.some.injEq] at hr
    subst hr
    exact h g hg
  | .queued j i f :: es, q, q', last, hr, h, g, hg => by
    unfold noteTtl
    unfold replay at hr
    by_cases hj : j = k
    · rw [if_pos hj] at hr
      refine noteTtl_replay k es _ q' _ hr ?_ g hg
      intro g' hg'
      simp at hg'
      subst hg'
      simp [hj]
    · rw [if_neg hj] at hr
      refine noteTtl_replay k es _ q' _ hr ?_ g hg
      intro g' hg'
      have : ¬ k = j := fun c => hj c.symm
      simp only [if_neg this]
      exact h g' hg'
  | .read j f :: es, q, q', last, hr, h, g, hg => by
    unfold noteTtl
    unfold replay at hr
    split at hr
    · split at hr
      · simp at hr
      · rename_i x q1
        split at hr
        · refine noteTtl_replay k es _ q' _ hr ?_ g hg
          intro g' hg'
          apply h
          cases q1 with
          | nil => simp at hg'
          | cons a b => rw [List.getLast?_cons_cons]; exact hg'
        · simp at hr
    · exact noteTtl_replay k es _ q' _ hr h g hg
  | .reset j :: es, q, q', last, hr, h, g, hg => by
    unfold noteTtl
    unfold replay at hr
    split at hr
    · exact noteTtl_replay k es _ q' _ hr (by intro g' hg'; simp at hg') g hg
    · exact noteTtl_replay k es _ q' _ hr h g hg
  | .unreachable i f :: es, q, q', last, hr, h, g, hg => by
    unfold noteTtl
    unfold replay at hr
    exact noteTtl_replay k es _ q' _ hr h g hg
  | .sent a b c d e p :: es, q, q', last, hr, h, g, hg => by
    unfold noteTtl
    unfold replay at hr
    exact noteTtl_replay k es _ q' _ hr h g hg

/-- The recorded TTL is that of the newest datagram waiting. -/
def Newest (s : TSt) : Prop := ∀ k g, (rxOf s.st k).getLast? = some g → s.last k = ttlOf g

theorem close_rx (s : St) (k : Nat) (hk : k < s.socks.length) : rxOf (step s (.close k)).1 k = [] := by
  show rxOf (closeOp s k).1 k = []
  unfold closeOp
  rw [List.getElem?_eq_getElem hk]
  dsimp only
  rw [rx_set s k k {} hk, if_pos rfl]

theorem newest_step (s : TSt) (h : Newest s) (op : TOp) : Newest (tstep s op).1 := by
  cases op with
  | setTtl k b =>
    unfold tstep
    dsimp only
    split <;> exact h
  | udp op =>
    have base : ∀ k g, (rxOf (step s.st op).1 k).getLast? = some g → noteTtl s.last (step s.st op).2.2 k = ttlOf g :=
      fun k g hg => noteTtl_replay k _ _ _ s.last (step_replay s.st op k) (h k) g hg
    cases op with
    | close k =>
      unfold tstep
      dsimp only
      split
      · rename_i hk
        intro j g hg
        dsimp only at hg ⊢
        by_cases hj : j = k
        · subst hj
          rw [close_rx s.st j hk] at hg
          simp at hg
        · rw [if_neg hj]; exact base j g hg
      · exact base
    | _ => exact base

theorem newest_run : ∀ (ops : List TOp) (s : TSt), Newest s → Newest (trun s ops)
  | [], _, h => h
  | op :: ops, s, h => newest_run ops _ (newest_step s h op)

theorem newest_init (net : Net) (n : Nat) : Newest (tinit net n) := by
  intro k g hg
  have h : rxOf (init net n) k = [] := by
    rw [rxOf, init]
    simp only [List.getElem?_replicate]
    split <;> rfl
  rw [show (tinit net n).st = init net n from rfl, h] at hg
  simp at hg

/-- What a receive call leaves: the option and the record as they were. -/
theorem recv_keeps (s : TSt) (k len : Nat) :
    (tstep s (.udp (.recv k len))).1.on = s.on ∧ (tstep s (.udp (.recv k len))).1.last = s.last ∧
    (tstep s (.udp (.recv k len))).1.st.socks.length = s.st.socks.length := by
  have hs : (tstep s (.udp (.recv k len))).1 = { s with st := (recvOp s.st k len).1, last := noteTtl s.last (recvOp s.st k len).2.2 } := rfl
  rw [hs]
  dsimp only
  have he : (recvOp s.st k len).2.2 = [] ∨ ∃ g, (recvOp s.st k len).2.2 = [.read k g] := by
    unfold recvOp
    repeat' split
    all_goals first | exact Or.inl rfl | exact Or.inr ⟨_, rfl⟩
  refine ⟨rfl, ?_, ?_⟩
  · rcases he with he | ⟨g, he⟩ <;> rw [he] <;> rfl
  · unfold recvOp
    repeat' split
    all_goals simp [setSock]

/-! ## Theorems -/

/-- C140. The TTL is reported exactly when IP_RECVTTL is on. -/
theorem ttl_reported_iff (s : TSt) (k : Nat) (hk : k < s.st.socks.length) : (getTtl s k).isSome = s.on k := by
  unfold getTtl
  cases h : s.on k <;> simp [hk]

/-- C140. The option is what the last `setsockopt` on the socket made it. -/
theorem ttl_option (s : TSt) (k : Nat) (b : Bool) (hk : k < s.st.socks.length) :
    (tstep s (.setTtl k b)).1.on k = b ∧ ∀ j, j ≠ k → (tstep s (.setTtl k b)).1.on j = s.on j := by
  unfold tstep
  dsimp only
  rw [if_pos hk]
  refine ⟨by simp, ?_⟩
  intro j hj
  simp [hj]

/-- C140. After `close` nothing is left of either for the next user of the slot, and other sockets keep theirs. -/
theorem ttl_closed (s : TSt) (k : Nat) (hk : k < s.st.socks.length) :
    (tstep s (.udp (.close k))).1.on k = false ∧ (tstep s (.udp (.close k))).1.last k = 0 ∧
    ∀ j, j ≠ k → (tstep s (.udp (.close k))).1.on j = s.on j ∧ (tstep s (.udp (.close k))).1.last j = s.last j := by
  have he : (step s.st (.close k)).2.2 = [.reset k] := by
    show (closeOp s.st k).2.2 = _
    unfold closeOp
    rw [List.getElem?_eq_getElem hk]
  have hs : (tstep s (.udp (.close k))).1 = { st := (step s.st (.close k)).1, on := fun j => if j = k then false else s.on j, last := fun j => if j = k then 0 else noteTtl s.last (step s.st (.close k)).2.2 j } := by
    unfold tstep
    dsimp only
    rw [if_pos hk]
  rw [hs, he]
  refine ⟨by simp, by simp, ?_⟩
  intro j hj
  simp [hj, noteTtl]

/-- C140. After any history, what a receive call reports is the TTL of the newest datagram that was waiting when it was called. -/
theorem ttl_is_newest (net : Net) (n : Nat) (ops : List TOp) (k len : Nat) (g : List Nat)
    (hg : (rxOf (trun (tinit net n) ops).st k).getLast? = some g) (hon : (trun (tinit net n) ops).on k = true)
    (hk : k < (trun (tinit net n) ops).st.socks.length) :
    getTtl (tstep (trun (tinit net n) ops) (.udp (.recv k len))).1 k = some (ttlOf g) := by
  have h := newest_run ops _ (newest_init net n) k g hg
  have hr := recv_keeps (trun (tinit net n) ops) k len
  unfold getTtl
  rw [hr.1, hr.2.1, hr.2.2, if_pos ⟨hk, hon⟩, h]

/-- C140, as far as it holds: after any history, if the datagram returned was the only one waiting (or all waiting ones have
its TTL), the TTL reported is its own. Missing: other datagrams waiting behind it (`ttl_of_another`). -/
theorem ttl_own_partial (net : Net) (n : Nat) (ops : List TOp) (k len : Nat)
    (same : ∀ g rest, rxOf (trun (tinit net n) ops).st k = g :: rest → ∀ f ∈ rest, ttlOf f = ttlOf g) :
    ReportsOwn (trun (tinit net n) ops) k len := by
  intro g rest hrx hon hk
  cases hl : rest.getLast? with
  | none =>
    have : rest = [] := by simpa using hl
    subst this
    exact ttl_is_newest net n ops k len g (by rw [hrx]; rfl) hon hk
  | some f =>
    have hne : rest ≠ [] := by intro c; rw [c] at hl; simp at hl
    have hf : (rxOf (trun (tinit net n) ops).st k).getLast? = some f := by
      rw [hrx]
      cases rest with
      | nil => exact absurd rfl hne
      | cons a b => rw [List.getLast?_cons_cons]; exact hl
    rw [ttl_is_newest net n ops k len f hf hon hk, same g rest hrx f (List.mem_of_getLast? hl)]

/-! ## Witnesses -/

/-- A datagram to port 53 of 10.0.0.1 with time to live `t` and one octet of payload, from 10.0.0.9. -/
def dgT (t x : Nat) : List Nat :=
  [2, 0, 0, 0, 0, 1, 2, 0, 0, 0, 0, 2, 8, 0] ++ Csum.ipSet ([0x45, 0, 0, 29, 0, 1, 0, 0, t, 17, 0, 0] ++ [10, 0, 0, 9] ++ [10, 0, 0, 1]) ++
    [0, 99, 0, 53, 0, 9, 0, 0, x]

def two : List TOp := [.udp .socket, .setTtl 0 true, .udp (.bind 0 0 53 false), .udp (.connect 0 0x0A000009#32 99),
  .udp (.frame 0 (dgT 255 1) false (fun _ => true)), .udp (.frame 0 (dgT 3 2) false (fun _ => true))]

/-- The code against C140: two datagrams wait, of time to live 255 and 3; the first receive call returns the first and reports 3. -/
theorem ttl_of_another :
    (tstep (trun (tinit net1 2) two) (.udp (.recv 0 100))).2.1 = .got [1] 0x0A000009#32 99 ∧
    getTtl (tstep (trun (tinit net1 2) two) (.udp (.recv 0 100))).1 0 = some 3 ∧
    ¬ ReportsOwn (trun (tinit net1 2) two) 0 100 := by
  refine ⟨by decide +kernel, by decide +kernel, ?_⟩
  intro h
  have h1 := h (dgT 255 1) [dgT 3 2] (by decide +kernel) (by decide +kernel) (by decide +kernel)
  revert h1
  decide +kernel

/-- One datagram: its own. -/
example : getTtl (tstep (trun (tinit net1 2) (two.take 5)) (.udp (.recv 0 100))).1 0 = some 255 ∧
    (tstep (trun (tinit net1 2) (two.take 5)) (.udp (.recv 0 100))).2.1 = .got [1] 0x0A000009#32 99 := by
  decide +kernel

end Wolf.Udp
