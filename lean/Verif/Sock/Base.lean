import Verif.Sock.Model
/-! # The loop of `tcp_input` seen from one slot -/
namespace Wolf.Sock
open Wolf.Tcp (seqInc seqLt seqLeq)
open Wolf.Route (Ip)

theorem get_set {α : Type} {l : List α} {x : α} {i : Nat} (k : Nat) (h : i < l.length) : (l.set i x)[k]? = if k = i then some x else l[k]? := by
  rw [List.getElem?_set]
  by_cases hk : k = i
  · rw [if_pos hk.symm, if_pos hk, if_pos h]
  · rw [if_neg (fun c => hk c.symm), if_neg hk]

theorem lt_of_get {α : Type} {l : List α} {x : α} {i : Nat} (h : l[i]? = some x) : i < l.length := (List.getElem?_eq_some_iff.mp h).1

theorem getD_of_get {α : Type} {l : List α} {x d : α} {i : Nat} (h : l[i]? = some x) : l.getD i d = x := by
  rw [List.getD_eq_getElem?_getD, h]; rfl

/-- Slots before the position of the loop are not touched; the others are as they were, or as the loop body made
them, whose events are among the events. -/
theorem inputFrom_slot (g : Seg) (o : Nat → Orc) : ∀ (n i : Nat) (s : St),
    (inputFrom g o i n s).2.1.net = s.net ∧ (inputFrom g o i n s).2.1.inCb = s.inCb ∧
    (inputFrom g o i n s).2.1.socks.length = s.socks.length ∧
    (∀ k : Nat, k < i → (inputFrom g o i n s).2.1.socks[k]? = s.socks[k]?) ∧
    (∀ (k : Nat) (t : Sock), s.socks[k]? = some t →
      (inputFrom g o i n s).2.1.socks[k]? = some t ∨
      (hit t g ∧ ∃ s1 : St, s1.socks[k]? = some t ∧ s1.net = s.net ∧
        (inputFrom g o i n s).2.1.socks[k]? = some (sockIn s1 k t g (o k)).1 ∧ ∀ e ∈ (sockIn s1 k t g (o k)).2.1, e ∈ (inputFrom g o i n s).1)) ∧
    (∀ e ∈ (inputFrom g o i n s).1, ∃ (k : Nat) (t : Sock) (s1 : St), i ≤ k ∧ s.socks[k]? = some t ∧ hit t g ∧ s1.socks[k]? = some t ∧ s1.net = s.net ∧
      (inputFrom g o i n s).2.1.socks[k]? = some (sockIn s1 k t g (o k)).1 ∧ e ∈ (sockIn s1 k t g (o k)).2.1) := by
  intro n
  induction n with
  | zero => intro i s; exact ⟨rfl, rfl, rfl, fun _ _ => rfl, fun k t h => Or.inl h, fun e he => by simp [inputFrom] at he⟩
  | succ n ih =>
    intro i s
    rw [inputFrom]
    cases ht : s.socks[i]? with
    | none => exact ⟨rfl, rfl, rfl, fun _ _ => rfl, fun k t h => Or.inl h, fun e he => by simp at he⟩
    | some t =>
      simp only
      have hi := lt_of_get ht
      by_cases hh : hit t g
      · rw [if_pos hh]
        generalize hr : sockIn s i t g (o i) = r
        by_cases hstop : r.2.2 = true
        · rw [if_pos hstop]
          refine ⟨rfl, rfl, by simp, ?_, ?_, ?_⟩
          · intro k hk; simp only; rw [get_set k hi, if_neg (by omega)]
          · intro k u hu
            simp only
            rw [get_set k hi]
            by_cases hk : k = i
            · subst hk; rw [ht] at hu; simp at hu; subst hu
              right
              rw [if_pos rfl]
              exact ⟨hh, s, ht, rfl, by rw [hr], by rw [hr]; exact fun e he => he⟩
            · rw [if_neg hk]; exact Or.inl hu
          · intro e he
            refine ⟨i, t, s, Nat.le_refl i, ht, hh, ht, rfl, ?_, ?_⟩
            · simp only; rw [get_set i hi, if_pos rfl, hr]
            · rw [hr]; exact he
        · rw [if_neg hstop]
          simp only
          obtain ⟨i1, i2, i3, i4, i5, i6⟩ := ih (i + 1) { s with socks := s.socks.set i r.1 }
          refine ⟨i1, i2, by rw [i3]; simp, ?_, ?_, ?_⟩
          · intro k hk
            rw [i4 k (by omega)]; simp only; rw [get_set k hi, if_neg (by omega)]
          · intro k u hu
            by_cases hk : k = i
            · subst hk; rw [ht] at hu; simp at hu; subst hu
              right
              refine ⟨hh, s, ht, rfl, ?_, ?_⟩
              · rw [i4 k (by omega)]; simp only; rw [get_set k hi, if_pos rfl, hr]
              · rw [hr]; intro e he; exact List.mem_append_left _ he
            · have hu' : (s.socks.set i r.1)[k]? = some u := by rw [get_set k hi, if_neg hk]; exact hu
              rcases i5 k u hu' with h1 | ⟨h1, s1, h2, h3, h4, h5⟩
              · exact Or.inl h1
              · exact Or.inr ⟨h1, s1, h2, h3, h4, fun e he => List.mem_append_right _ (h5 e he)⟩
          · intro e he
            rw [List.mem_append] at he
            rcases he with he | he
            · refine ⟨i, t, s, Nat.le_refl i, ht, hh, ht, rfl, ?_, ?_⟩
              · rw [i4 i (by omega)]; simp only; rw [get_set i hi, if_pos rfl, hr]
              · rw [hr]; exact he
            · obtain ⟨k, u, s1, h0, h1, h2, h3, h4, h5, h6⟩ := i6 e he
              have hk : k ≠ i := by omega
              exact ⟨k, u, s1, by omega, by simp only at h1; rw [get_set k hi, if_neg hk] at h1; exact h1, h2, h3, h4, h5, h6⟩
      · rw [if_neg hh]
        obtain ⟨i1, i2, i3, i4, i5, i6⟩ := ih (i + 1) s
        exact ⟨i1, i2, i3, fun k hk => i4 k (by omega), i5, fun e he => by obtain ⟨k, u, s1, h0, h⟩ := i6 e he; exact ⟨k, u, s1, by omega, h⟩⟩

/-- `input` from one slot. -/
theorem input_slot (s : St) (g : Seg) (o : Nat → Orc) :
    (input s g o).2.net = s.net ∧ (input s g o).2.inCb = s.inCb ∧ (input s g o).2.socks.length = s.socks.length ∧
    (∀ (k : Nat) (t : Sock), s.socks[k]? = some t →
      (input s g o).2.socks[k]? = some t ∨
      (hit t g ∧ ∃ s1 : St, s1.socks[k]? = some t ∧ s1.net = s.net ∧
        (input s g o).2.socks[k]? = some (sockIn s1 k t g (o k)).1 ∧ ∀ e ∈ (sockIn s1 k t g (o k)).2.1, e ∈ (input s g o).1)) ∧
    (∀ e ∈ (input s g o).1,
      (∃ (k : Nat) (t : Sock) (s1 : St), s.socks[k]? = some t ∧ hit t g ∧ s1.socks[k]? = some t ∧ s1.net = s.net ∧
        (input s g o).2.socks[k]? = some (sockIn s1 k t g (o k)).1 ∧ e ∈ (sockIn s1 k t g (o k)).2.1) ∨
      (e ∈ resetReply g ∧ g.dst ≠ 0 ∧ Route.isBroadcast s.net g.dst = false ∧ isMcast g.dst = false ∧ isLocal s.net g.dst = true)) := by
  obtain ⟨i1, i2, i3, _, i5, i6⟩ := inputFrom_slot g o s.socks.length 0 s
  have key : (input s g o).2 = (inputFrom g o 0 s.socks.length s).2.1 ∧
      ((input s g o).1 = (inputFrom g o 0 s.socks.length s).1 ∨
       ((input s g o).1 = (inputFrom g o 0 s.socks.length s).1 ++ resetReply g ∧ g.dst ≠ 0 ∧ Route.isBroadcast s.net g.dst = false ∧ isMcast g.dst = false ∧ isLocal s.net g.dst = true)) := by
    rw [input]
    split
    · exact ⟨rfl, Or.inl rfl⟩
    · split
      · rename_i h; exact ⟨rfl, Or.inr ⟨rfl, h⟩⟩
      · exact ⟨rfl, Or.inl rfl⟩
  obtain ⟨k1, k2⟩ := key
  rw [k1]
  refine ⟨i1, i2, i3, ?_, ?_⟩
  · intro k t ht
    rcases i5 k t ht with h | ⟨h1, s1, h2, h3, h4, h5⟩
    · exact Or.inl h
    · refine Or.inr ⟨h1, s1, h2, h3, h4, fun e he => ?_⟩
      rcases k2 with k2 | ⟨k2, _⟩
      · rw [k2]; exact h5 e he
      · rw [k2]; exact List.mem_append_left _ (h5 e he)
  · intro e he
    have : e ∈ (inputFrom g o 0 s.socks.length s).1 ∨ (e ∈ resetReply g ∧ g.dst ≠ 0 ∧ Route.isBroadcast s.net g.dst = false ∧ isMcast g.dst = false ∧ isLocal s.net g.dst = true) := by
      rcases k2 with k2 | ⟨k2, k3⟩
      · rw [k2] at he; exact Or.inl he
      · rw [k2, List.mem_append] at he
        rcases he with he | he
        · exact Or.inl he
        · exact Or.inr ⟨he, k3⟩
    rcases this with h | h
    · obtain ⟨k, t, s1, _, h1⟩ := i6 e h; exact Or.inl ⟨k, t, s1, h1⟩
    · exact Or.inr h

end Wolf.Sock
