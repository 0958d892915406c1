import Verif.Sock.Notify
/-!
# C20, C21: bind uniqueness, and failed calls

C20 in full (no two sockets bound to the same port with equal or overlapping requested addresses) is false with two
interfaces: `wildcard_overlap` in Run.lean. Proved: it holds for the addresses the stack records, hence in full when
no wildcard is used and in full on a host with one address.

C21 in full is false for `connect` when the filter vetoes it or the queue is full: `connect_veto_dirty`. Proved: for
`bind` and `listen` always, for `connect` for every other failure.
-/
namespace Wolf.Sock
open Wolf.Route (Ip)

/-- Two addresses overlap: equal, or one is the wildcard 0.0.0.0 (specification). -/
def Overlap (a b : Ip) : Prop := a = 0 ∨ b = 0 ∨ a = b

/-- No two slots share a port with overlapping addresses, for a given address of a slot. -/
def Unique (addr : Sock → Ip) (s : St) : Prop := ∀ (i j : Nat) (t u : Sock), s.socks[i]? = some t → s.socks[j]? = some u → i ≠ j →
  t.sport ≠ 0 → t.sport = u.sport → ¬ Overlap (addr t) (addr u)

/-- The calls of C20: opening, binding, listening, closing, registering a callback (any arguments, any results), in
any order. -/
def Op.setup : Op → Prop
  | .socket | .bind _ _ _ _ _ | .listen _ _ | .close _ _ | .register _ _ => True
  | _ => False

theorem portInUse_false {socks : List Sock} {k : Nat} {ip : Ip} {port : Nat} (h : portInUse socks k ip port = false) (hp : port ≠ 0)
    (j : Nat) (u : Sock) (hj : socks[j]? = some u) (hne : j ≠ k) (hs : u.sport = port) : ¬ Overlap u.lip ip := by
  rw [portInUse, Bool.and_eq_false_iff] at h
  rcases h with h | h
  · simp at h; exact absurd h hp
  · rw [List.any_eq_false] at h
    have hm : (u, j) ∈ socks.zipIdx := by rw [List.mem_zipIdx_iff_getElem?]; exact hj
    have := h _ hm
    simp only [Bool.and_eq_true, Bool.or_eq_true, beq_iff_eq, bne_iff_ne, ne_eq] at this
    rintro (c | c | c)
    · exact this ⟨⟨hne, hs⟩, Or.inl (Or.inl c)⟩
    · exact this ⟨⟨hne, hs⟩, Or.inl (Or.inr c)⟩
    · exact this ⟨⟨hne, hs⟩, Or.inr c⟩

theorem overlap_symm {a b : Ip} (h : Overlap a b) : Overlap b a := by
  rcases h with h | h | h
  · exact Or.inr (Or.inl h)
  · exact Or.inl h
  · exact Or.inr (Or.inr h.symm)

/-- What a set-up call does to a slot: nothing relevant, or it frees its port, or it is the successful bind. -/
theorem setup_slot (s : St) (op : Op) (ho : op.setup) (i : Nat) (t t' : Sock) (ht : s.socks[i]? = some t) (ht' : (step s op).1.socks[i]? = some t') :
    (t'.sport = t.sport ∧ t'.lip = t.lip ∧ t'.blip = t.blip) ∨ t'.sport = 0 ∨
    (∃ ip port fam veto, op = .bind i ip port fam veto ∧ t'.sport = port ∧ t'.lip = bindAddr s.net ip ∧ t'.blip = ip ∧ (ip ≠ 0 → isLocal s.net ip = true) ∧
      portInUse s.socks i (bindAddr s.net ip) port = false) := by
  have same : s.socks[i]? = some t' → t'.sport = t.sport ∧ t'.lip = t.lip ∧ t'.blip = t.blip := by
    intro h; rw [ht] at h; cases h; exact ⟨rfl, rfl, rfl⟩
  cases op with
  | socket =>
    rw [step, socketOp] at ht'
    cases hf : freeSlot s with
    | none => rw [hf] at ht'; exact Or.inl (same ht')
    | some j =>
      rw [hf] at ht'
      obtain ⟨u, hu, hun⟩ := freeSlot_spec hf
      rcases get_setSock s j _ i t t' ht ht' with ⟨_, h⟩ | ⟨h, h'⟩
      · subst h; exact Or.inl ⟨rfl, rfl, rfl⟩
      · subst h; rw [ht] at hu; cases hu; rw [h', getD_of_get ht]; exact Or.inl ⟨rfl, rfl, rfl⟩
  | bind j ip port fam veto =>
    rw [step, bindOp] at ht'
    cases hj : s.socks[j]? with
    | none => rw [hj] at ht'; exact Or.inl (same ht')
    | some u =>
      rw [hj] at ht'
      simp only at ht'
      by_cases h1 : ip ≠ 0 ∧ isLocal s.net ip = false
      · rw [if_pos h1] at ht'; exact Or.inl (same ht')
      rw [if_neg h1] at ht'
      by_cases h2 : u.st ≠ .closed
      · rw [if_pos h2] at ht'; exact Or.inl (same ht')
      rw [if_neg h2] at ht'
      by_cases h3 : fam = false
      · rw [if_pos h3] at ht'; exact Or.inl (same ht')
      rw [if_neg h3] at ht'
      by_cases h4 : portInUse s.socks j (bindAddr s.net ip) port = true
      · rw [if_pos h4] at ht'; exact Or.inl (same ht')
      rw [if_neg h4] at ht'
      by_cases h5 : veto = true
      · rw [if_pos h5] at ht'; exact Or.inl (same ht')
      rw [if_neg h5] at ht'
      rcases get_setSock s j _ i t t' ht ht' with ⟨_, h⟩ | ⟨h, h'⟩
      · subst h; exact Or.inl ⟨rfl, rfl, rfl⟩
      · subst h
        rw [h']
        refine Or.inr (Or.inr ⟨ip, port, fam, veto, rfl, rfl, rfl, rfl, ?_, by simpa using h4⟩)
        intro hip
        cases hl : isLocal s.net ip with
        | true => rfl
        | false => exact absurd ⟨hip, hl⟩ h1
  | listen j veto =>
    rw [step, listenOp] at ht'
    cases hj : s.socks[j]? with
    | none => rw [hj] at ht'; exact Or.inl (same ht')
    | some u =>
      rw [hj] at ht'
      simp only at ht'
      left
      by_cases h1 : u.st ≠ .closed
      · rw [if_pos h1] at ht'; exact same ht'
      rw [if_neg h1] at ht'
      cases veto with
      | true =>
        rcases get_setSock s j _ i t t' ht ht' with ⟨_, h⟩ | ⟨h, h'⟩
        · subst h; exact ⟨rfl, rfl, rfl⟩
        · subst h; rw [ht] at hj; cases hj; rw [h']; exact ⟨rfl, rfl, rfl⟩
      | false =>
        rcases get_setSock s j _ i t t' ht ht' with ⟨_, h⟩ | ⟨h, h'⟩
        · subst h; exact ⟨rfl, rfl, rfl⟩
        · subst h; rw [ht] at hj; cases hj; rw [h']; exact ⟨rfl, rfl, rfl⟩
  | close j sendOk =>
    rw [step, closeOp] at ht'
    cases hj : s.socks[j]? with
    | none => rw [hj] at ht'; exact Or.inl (same ht')
    | some u =>
      rw [hj] at ht'
      simp only at ht'
      have put : ∀ w : Sock, (setSock s j w).socks[i]? = some t' → t' = t ∨ (t' = w ∧ u = t) := by
        intro w hw
        rcases get_setSock s j w i t t' ht hw with ⟨_, h⟩ | ⟨h, h'⟩
        · exact Or.inl h
        · subst h; rw [ht] at hj; cases hj; exact Or.inr ⟨h', rfl⟩
      have hc : ∀ v : Sock, (closeSock v).sport = 0 := by intro v; rw [closeSock]; split <;> rfl
      cases hx : u.st <;> rw [hx] at ht' <;> simp only at ht'
      case est =>
        by_cases h1 : sendOk = false
        · rw [if_pos h1] at ht'; exact Or.inl (same ht')
        · rw [if_neg h1] at ht'
          rcases put _ ht' with h | ⟨h, h'⟩
          · subst h; exact Or.inl ⟨rfl, rfl, rfl⟩
          · subst h'; rw [h]; exact Or.inl ⟨rfl, rfl, rfl⟩
      case closeWait =>
        by_cases h1 : sendOk = false
        · rw [if_pos h1] at ht'; exact Or.inl (same ht')
        · rw [if_neg h1] at ht'
          rcases put _ ht' with h | ⟨h, h'⟩
          · subst h; exact Or.inl ⟨rfl, rfl, rfl⟩
          · subst h'; rw [h]; exact Or.inl ⟨rfl, rfl, rfl⟩
      case closing => exact Or.inl (same ht')
      case fw1 => exact Or.inl (same ht')
      case fw2 => exact Or.inl (same ht')
      all_goals
        rcases put _ ht' with h | ⟨h, h'⟩
        · subst h; exact Or.inl ⟨rfl, rfl, rfl⟩
        · rw [h]; exact Or.inr (Or.inl (hc _))
  | register j cb =>
    rw [step] at ht'
    cases hj : s.socks[j]? with
    | none => rw [hj] at ht'; exact Or.inl (same ht')
    | some u =>
      rw [hj] at ht'
      rcases get_setSock s j _ i t t' ht ht' with ⟨_, h⟩ | ⟨h, h'⟩
      · subst h; exact Or.inl ⟨rfl, rfl, rfl⟩
      · subst h; rw [ht] at hj; cases hj; rw [h']; exact Or.inl ⟨rfl, rfl, rfl⟩
  | connect => exact ho.elim
  | accept => exact ho.elim
  | send => exact ho.elim
  | reconf => exact ho.elim
  | segment => exact ho.elim
  | rto => exact ho.elim
  | icmp => exact ho.elim
  | cbBegin => exact ho.elim
  | cbEnd => exact ho.elim

theorem setup_net (s : St) (op : Op) (ho : op.setup) : (step s op).1.net = s.net := by
  cases op with
  | socket => rw [step, socketOp]; simp only; (repeat' split) <;> rfl
  | bind => rw [step, bindOp]; simp only; (repeat' split) <;> rfl
  | listen => rw [step, listenOp]; simp only; (repeat' split) <;> rfl
  | close => rw [step, closeOp]; (repeat' split) <;> rfl
  | register => rw [step]; simp only; (repeat' split) <;> rfl
  | _ => exact ho.elim

theorem old_slot (s : St) (op : Op) (i : Nat) (t' : Sock) (ht' : (step s op).1.socks[i]? = some t') : ∃ t : Sock, s.socks[i]? = some t := by
  have := lt_of_get ht'
  rw [step_length] at this
  exact ⟨_, List.getElem?_eq_getElem this⟩

theorem unique_step (s : St) (op : Op) (ho : op.setup) (hu : Unique Sock.lip s) : Unique Sock.lip (step s op).1 := by
  -- a port taken over unchanged
  intro i j t' u' hi' hj' hij hp hs
  obtain ⟨t, hi⟩ := old_slot s op i t' hi'
  obtain ⟨u, hj⟩ := old_slot s op j u' hj'
  rcases setup_slot s op ho i t t' hi hi' with ⟨a1, a2, _⟩ | a | ⟨ip, port, fam, veto, a1, a2, a3, a4, a5, a6⟩
  · rcases setup_slot s op ho j u u' hj hj' with ⟨b1, b2, _⟩ | b | ⟨ip, port, fam, veto, b1, b2, b3, b4, b5, b6⟩
    · rw [a2, b2]; exact hu i j t u hi hj hij (by rw [← a1]; exact hp) (by rw [← a1, ← b1]; exact hs)
    · rw [hs] at hp; exact absurd b hp
    · rw [a2, b3]
      exact portInUse_false b6 (by rw [← b2, ← hs]; exact hp) i t hi hij (by rw [← a1, hs, b2])
  · exact absurd a hp
  · rcases setup_slot s op ho j u u' hj hj' with ⟨b1, b2, _⟩ | b | ⟨ip', port', fam', veto', b1, b2, b3, b4, b5, b6⟩
    · rw [a3, b2]
      intro c
      exact portInUse_false a6 (by rw [← a2]; exact hp) j u hj (fun e => hij e.symm) (by rw [← b1, ← hs, a2]) (overlap_symm c)
    · rw [hs] at hp; exact absurd b hp
    · rw [a1] at b1; simp at b1; exact absurd b1.1 hij

theorem unique_run (ops : List Op) : ∀ s : St, (∀ op ∈ ops, op.setup) → Unique Sock.lip s → Unique Sock.lip (run s ops).1 := by
  induction ops with
  | nil => intro s _ h; exact h
  | cons op ops ih =>
    intro s ho h
    exact ih _ (fun o h' => ho o (List.mem_cons_of_mem _ h')) (unique_step s op (ho op List.mem_cons_self) h)

theorem unique_init (n : Nat) (net : Route.St) (f : Sock → Ip) : Unique f (init n net) := by
  intro i j t u hi _ _ hp
  have := List.mem_of_getElem? hi
  rw [init] at this
  rw [(List.mem_replicate.mp this).2] at hp
  exact absurd rfl hp

/-- **C20, part.** After any sequence of socket/bind/listen/close calls, no two TCP sockets own the same local port
with equal or overlapping local addresses, as the stack records them (a wildcard bind is recorded with the address of
the primary interface, which is what is missing for the full statement). -/
theorem bind_unique_partial (n : Nat) (net : Route.St) (ops : List Op) (ho : ∀ op ∈ ops, op.setup) : Unique Sock.lip (run (init n net) ops).1 :=
  unique_run ops _ ho (unique_init n net _)

/-- What holds of every slot: bound to a specific address, then recorded with it; bound to the wildcard, recorded
with the primary address. -/
def BindInv (net : Route.St) (s : St) : Prop := s.net = net ∧ ∀ (i : Nat) (t : Sock), s.socks[i]? = some t → t.sport ≠ 0 →
  t.lip = bindAddr net t.blip ∧ (t.blip ≠ 0 → isLocal net t.blip = true)

theorem bindInv_run (net : Route.St) (ops : List Op) : ∀ s : St, (∀ op ∈ ops, op.setup) → BindInv net s → BindInv net (run s ops).1 := by
  induction ops with
  | nil => intro s _ h; exact h
  | cons op ops ih =>
    intro s ho h
    refine ih _ (fun o h' => ho o (List.mem_cons_of_mem _ h')) ?_
    have ho1 := ho op List.mem_cons_self
    refine ⟨(setup_net s op ho1).trans h.1, ?_⟩
    intro i t' hi' hp
    obtain ⟨t, hi⟩ := old_slot s op i t' hi'
    rcases setup_slot s op ho1 i t t' hi hi' with ⟨a1, a2, a3⟩ | a | ⟨ip, port, fam, veto, a1, a2, a3, a4, a5, a6⟩
    · rw [a2, a3]; exact h.2 i t hi (by rw [← a1]; exact hp)
    · exact absurd a hp
    · rw [a3, a4, h.1]; rw [h.1] at a5; exact ⟨rfl, a5⟩

theorem bindInv_init (n : Nat) (net : Route.St) : BindInv net (init n net) := by
  refine ⟨rfl, ?_⟩
  intro i t hi hp
  have := List.mem_of_getElem? hi
  rw [init] at this
  rw [(List.mem_replicate.mp this).2] at hp
  exact absurd rfl hp

/-- **C20 for specific addresses.** Among the sockets bound to a specific address (the bind call named it), no two
own the same port and address. -/
theorem bind_unique_specific (n : Nat) (net : Route.St) (ops : List Op) (ho : ∀ op ∈ ops, op.setup) (i j : Nat) (t u : Sock)
    (hi : (run (init n net) ops).1.socks[i]? = some t) (hj : (run (init n net) ops).1.socks[j]? = some u) (hij : i ≠ j) (hp : t.sport ≠ 0)
    (ht : t.blip ≠ 0) (hu : u.blip ≠ 0) : ¬ (t.sport = u.sport ∧ t.blip = u.blip) := by
  rintro ⟨h1, h2⟩
  have hb := bindInv_run net ops _ ho (bindInv_init n net)
  have a := (hb.2 i t hi hp).1
  have b := (hb.2 j u hj (by rw [← h1]; exact hp)).1
  rw [bindAddr, if_pos ht] at a
  rw [bindAddr, if_pos hu] at b
  exact bind_unique_partial n net ops ho i j t u hi hj hij hp h1 (Or.inr (Or.inr (by rw [a, b, h2])))

/-- **C20 on a single-homed host.** With one configured address (the primary interface's), the full statement holds:
no two sockets own the same port at all, whatever mixture of wildcard and specific binds produced them. -/
theorem bind_unique_single (n : Nat) (net : Route.St) (hone : ∀ a, isLocal net a = true → a = anyAddr net) (ops : List Op) (ho : ∀ op ∈ ops, op.setup) (i j : Nat) (t u : Sock)
    (hi : (run (init n net) ops).1.socks[i]? = some t) (hj : (run (init n net) ops).1.socks[j]? = some u) (hij : i ≠ j) (hp : t.sport ≠ 0) :
    t.sport ≠ u.sport := by
  intro h1
  have hb := bindInv_run net ops _ ho (bindInv_init n net)
  have all : ∀ (w : Sock) (m : Nat), (run (init n net) ops).1.socks[m]? = some w → w.sport ≠ 0 → w.lip = anyAddr net := by
    intro w m hm hw
    obtain ⟨q1, q2⟩ := hb.2 m w hm hw
    rw [q1, bindAddr]
    split
    · rename_i hz; exact hone _ (q2 hz)
    · rfl
  exact bind_unique_partial n net ops ho i j t u hi hj hij hp h1
    (Or.inr (Or.inr (by rw [all t i hi hp, all u j hj (by rw [← h1]; exact hp)])))

/-- Non-vacuity: two sockets bound to different ports; a third bind of a taken port, wildcard or not, is refused. -/
theorem bind_example :
    (∀ a, isLocal net1 a = true → a = anyAddr net1) ∧
    ((run (init 3 net1) [.socket, .socket, .socket, .bind 0 0 80 true false, .bind 1 hostA 81 true false]).1.socks.map Sock.sport) = [80, 81, 0] ∧
    (step (run (init 3 net1) [.socket, .socket, .socket, .bind 0 0 80 true false, .bind 1 hostA 81 true false]).1 (.bind 2 hostA 80 true false)).2.1 = .err ∧
    (step (run (init 3 net1) [.socket, .socket, .socket, .bind 0 0 80 true false, .bind 1 hostA 81 true false]).1 (.bind 2 0 81 true false)).2.1 = .err := by
  refine ⟨?_, by decide +kernel, by decide +kernel, by decide +kernel⟩
  intro a h
  rw [isLocal, net1] at h
  simp at h
  rw [anyAddr, net1]
  simpa [Route.primaryIf] using h.2.symm

/-! ## C21 -/

/-- What C21 speaks about: local and remote address, ports and state. -/
def Endpoint (t : Sock) : Ip × Ip × Ip × Nat × Nat × TS := (t.lip, t.blip, t.rip, t.sport, t.dport, t.st)

/-- **C21, bind.** A bind that fails for any reason changes nothing at all. -/
theorem bind_failed_unchanged (s : St) (k : Nat) (ip : Ip) (port : Nat) (fam veto : Bool) (h : (step s (.bind k ip port fam veto)).2.1 ≠ .ok) :
    (step s (.bind k ip port fam veto)).1 = s := by
  rw [step, bindOp] at h ⊢
  simp only at h ⊢
  revert h
  (repeat' split) <;> intro h <;> first | rfl | exact absurd rfl h

/-- **C21, listen.** A listen that fails leaves address, ports and state of every socket as they were. -/
theorem listen_failed_unchanged (s : St) (k : Nat) (veto : Bool) (h : (step s (.listen k veto)).2.1 ≠ .ok) (i : Nat) (t : Sock) (hi : s.socks[i]? = some t) :
    ∃ t' : Sock, (step s (.listen k veto)).1.socks[i]? = some t' ∧ Endpoint t' = Endpoint t := by
  rw [step, listenOp] at h ⊢
  cases hk : s.socks[k]? with
  | none => exact ⟨t, hi, rfl⟩
  | some u =>
    rw [hk] at h
    simp only at h ⊢
    by_cases h1 : u.st ≠ .closed
    · rw [if_pos h1]; exact ⟨t, hi, rfl⟩
    rw [if_neg h1] at h ⊢
    by_cases h2 : veto = true
    · rw [if_pos h2]
      by_cases c : k = i
      · subst c; rw [hi] at hk; cases hk
        exact ⟨{ t with isL := true }, by simp only [setSock]; rw [List.getElem?_set_self (lt_of_get hi)], rfl⟩
      · exact ⟨t, by simp only [setSock]; rw [List.getElem?_set_ne c]; exact hi, rfl⟩
    · rw [if_neg h2] at h; simp at h

/-- **C21, connect, part.** A connect refused because of the family, the destination (broadcast, multicast), a
missing local address or the state of the socket changes nothing at all. Missing: a filter veto and a full queue,
which leave addresses and ports changed (`connect_veto_dirty`). -/
theorem connect_failed_unchanged_partial (s : St) (k : Nat) (ip : Ip) (port : Nat) (fam sendOk : Bool) (rnd iss : Nat)
    (h : (step s (.connect k ip port fam false sendOk rnd iss)).2.1 = .err) :
    (step s (.connect k ip port fam false sendOk rnd iss)).1 = s := by
  rw [step, connectOp] at h ⊢
  simp only at h ⊢
  revert h
  (repeat' split) <;> intro h <;> first | rfl | (simp at h; done) | (simp at *; done)

/-- **C21, connect: only the socket itself.** Whatever its outcome, a connect leaves all other sockets alone. -/
theorem connect_others_unchanged (s : St) (k : Nat) (ip : Ip) (port : Nat) (fam veto sendOk : Bool) (rnd iss : Nat) (i : Nat) (hne : i ≠ k) :
    (step s (.connect k ip port fam veto sendOk rnd iss)).1.socks[i]? = s.socks[i]? := by
  rw [step, connectOp]
  simp only
  (repeat' split) <;> first | rfl | (simp only [setSock]; rw [List.getElem?_set_ne (fun c => hne c.symm)])

/-- Non-vacuity: each kind of failure occurs. -/
theorem failed_example :
    (step (run (init 1 net1) [.socket]).1 (.bind 0 peerA 80 true false)).2.1 = .err ∧
    (step (run (init 1 net1) [.socket]).1 (.bind 0 hostA 80 true true)).2.1 = .err ∧
    (step (run (init 1 net1) [.socket]).1 (.listen 0 true)).2.1 = .err ∧
    (step (run (init 1 net1) [.socket]).1 (.connect 0 0x0A0000FF#32 80 true false true 50000 1)).2.1 = .err := by
  refine ⟨by decide +kernel, by decide +kernel, by decide +kernel, by decide +kernel⟩

/-! ## C44, incoming errors -/

/-- Between SND.UNA and SND.UNA+1 there is one number. -/
theorem seq_pin {n q : Nat} (c1 : Tcp.seqLeq n q = true) (c2 : Tcp.seqLt q (Tcp.seqInc n 1) = true) (hn : n < 4294967296) (hq : q < 4294967296) : q = n := by
  unfold Tcp.seqLeq at c1
  by_cases hm : n = 4294967295
  · have : Tcp.seqInc n 1 = 0 := by unfold Tcp.seqInc; rw [if_pos (by omega)]; omega
    rw [this] at c2
    unfold Tcp.seqLt Tcp.seqLeq at c2
    simp only [Bool.and_eq_true, bne_iff_ne, ne_eq] at c2
    obtain ⟨c2, c3⟩ := c2
    by_cases d : n ≤ q
    · omega
    · rw [if_neg d, decide_eq_true_eq] at c1
      rw [if_neg (by omega), decide_eq_true_eq] at c3
      omega
  · have : Tcp.seqInc n 1 = n + 1 := by unfold Tcp.seqInc; rw [if_neg (by omega)]
    rw [this] at c2
    unfold Tcp.seqLt Tcp.seqLeq at c2
    simp only [Bool.and_eq_true, bne_iff_ne, ne_eq] at c2
    obtain ⟨c2, c3⟩ := c2
    by_cases d : n ≤ q
    · rw [if_pos d, decide_eq_true_eq] at c1
      by_cases e : q ≤ n + 1
      · omega
      · rw [if_neg e, decide_eq_true_eq] at c3; omega
    · rw [if_neg d, decide_eq_true_eq] at c1
      rw [if_pos (by omega), decide_eq_true_eq] at c3
      omega

/-- **C44.** An ICMP error changes at most one connection. A "fragmentation needed" can only lower its segment size,
never below 536, and changes nothing else; any other error changes a connection only if it is a destination
unreachable, protocol or port, the connection is half-open and the quoted sequence number is exactly the one of its
unacknowledged SYN; then it is closed. -/
theorem icmp_error_effect (s : St) (e : Icmp) (k : Nat) (t t' : Sock) (ht : s.socks[k]? = some t) (ht' : (step s (.icmp e)).1.socks[k]? = some t')
    (hu : t.una < 4294967296) (hs : e.seq < 4294967296) :
    t' = t ∨
    (e.unreach = true ∧ e.code = 4 ∧ icmpHit e t = true ∧ (∃ m, t' = { t with mss := m } ∧ 536 ≤ m ∧ (t.mss ≠ 0 → m < t.mss))) ∨
    (e.unreach = true ∧ (e.code = 2 ∨ e.code = 3) ∧ icmpHit e t = true ∧ (t.st = .synSent ∨ t.st = .synRcvd) ∧ e.seq = t.una ∧ TornDown t t') := by
  rw [step, icmpIn] at ht'
  cases hf : s.socks.findIdx? (icmpHit e) with
  | none => rw [hf] at ht'; simp only at ht'; rw [ht] at ht'; cases ht'; exact Or.inl rfl
  | some j =>
    rw [hf] at ht'
    rw [List.findIdx?_eq_some_iff_getElem] at hf
    obtain ⟨f1, f2, _⟩ := hf
    have hj : s.socks[j]? = some s.socks[j] := List.getElem?_eq_getElem f1
    simp only [getD_of_get hj] at ht'
    rcases get_setSock s j _ k t t' ht ht' with ⟨_, h⟩ | ⟨h, h'⟩
    · exact Or.inl h
    · subst h
      rw [ht] at hj
      have hh : s.socks[j] = t := by cases hj; rfl
      rw [hh] at f2 h'
      rw [h', icmpSock]
      by_cases d1 : e.unreach = false
      · rw [if_pos d1]; exact Or.inl rfl
      rw [if_neg d1]
      have d1' : e.unreach = true := by simpa using d1
      by_cases d2 : e.code = 4
      · rw [if_pos d2]
        by_cases d3 : e.mtu ≥ 576 ∧ (t.mss = 0 ∨ e.mtu - 40 < t.mss)
        · rw [if_pos d3]
          refine Or.inr (Or.inl ⟨d1', d2, f2, e.mtu - 40, rfl, by omega, fun hm => ?_⟩)
          rcases d3.2 with c | c
          · exact absurd c hm
          · exact c
        · rw [if_neg d3]; exact Or.inl rfl
      rw [if_neg d2]
      by_cases d3 : e.code = 2 ∨ e.code = 3
      · rw [if_pos d3]
        by_cases d4 : (t.st = .synSent ∨ t.st = .synRcvd) ∧ Tcp.seqLeq t.una e.seq = true ∧ Tcp.seqLt e.seq (Tcp.seqInc t.una 1) = true
        · rw [if_pos d4]
          refine Or.inr (Or.inr ⟨d1', d3, f2, d4.1, ?_, closeSock_torn t ?_⟩)
          · exact seq_pin d4.2.1 d4.2.2 hu hs
          · rw [icmpHit] at f2; simp at f2; exact f2.1.1.1.1.1
        · rw [if_neg d4]; exact Or.inl rfl
      · rw [if_neg d3]; exact Or.inl rfl

end Wolf.Sock
