import Verif.Supp.Cache

/-!
# Copies of message 2 are a second apart (C70)
-/

namespace Wolf.Supp

/-- The send time is kept (and message 3 is awaited only if it was before), or set to `now`. -/
def Kept (s t : S) (now : Nat) : Prop :=
  (t.m2Send = s.m2Send ∧ (t.st = .m3Wait → s.st = .m3Wait)) ∨ t.m2Send = now

theorem Kept.refl (s : S) (now : Nat) : Kept s s now := Or.inl ⟨rfl, id⟩

theorem blame_kept (s : S) (x : Fault) (now : Nat) : Kept s (s.blame x) now := by
  cases x <;> exact Or.inl ⟨rfl, id⟩

theorem failIf_kept {s : S} {r : S × Bool × List Ev} {now : Nat} (h : Kept s r.1 now) :
    Kept s (failIf r).1 now := by
  unfold failIf
  split
  · exact h
  · rcases h with h | h
    · exact Or.inl ⟨h.1, fun c => (by cases c)⟩
    · exact Or.inr h

theorem rxEap_kept (s : S) (f : Bytes) (now : Nat) (e : Env) : Kept s (rxEap s f e).1 now := by
  unfold rxEap
  split
  · exact blame_kept s _ _
  · split
    · exact .refl _ _
    · split
      · exact blame_kept s _ _
      · split
        · refine failIf_kept ?_
          unfold eapRequest
          split
          · split
            · split
              · exact Or.inl ⟨rfl, fun c => (by cases c)⟩
              · exact .refl _ _
            · exact .refl _ _
          · split
            · split
              · exact .refl _ _
              · split <;> exact .refl _ _
            · exact .refl _ _
        · split
          · refine failIf_kept ?_
            unfold eapSuccess
            split
            · exact .refl _ _
            · split
              · exact .refl _ _
              · split
                · exact .refl _ _
                · split
                  · exact .refl _ _
                  · exact Or.inl ⟨rfl, fun c => (by cases c)⟩
          · split
            · exact Or.inl ⟨rfl, fun c => (by cases c)⟩
            · exact .refl _ _

theorem rx_kept (C : Crypto) (s : S) (f : Bytes) (now : Nat) (e : Env) :
    Kept s (rx C s f now e).1 now := by
  unfold rx
  split
  · exact .refl _ _
  · split
    · exact blame_kept s _ _
    · split
      · exact rxEap_kept s f now e
      · split
        · exact .refl _ _
        · unfold rxKey
          split
          · exact blame_kept s _ _
          · split
            · exact .refl _ _
            · split
              · exact .refl _ _
              · split
                · exact blame_kept s _ _
                unfold dispatch
                split
                · refine failIf_kept ?_
                  unfold handleM1
                  split
                  · exact .refl _ _
                  · dsimp only
                    split
                    · exact Or.inl ⟨rfl, id⟩
                    · split
                      · exact Or.inl ⟨rfl, id⟩
                      · split
                        · exact Or.inl ⟨rfl, id⟩
                        · exact Or.inr rfl
                · split
                  · next t es hm =>
                    unfold m1Again at hm
                    split at hm
                    · cases hm
                    · split at hm
                      · split at hm
                        · cases hm; exact Or.inr rfl
                        · cases hm; exact .refl _ _
                      · cases hm; exact .refl _ _
                  · refine failIf_kept ?_
                    unfold handleM3
                    split
                    · exact .refl _ _
                    · split
                      · exact .refl _ _
                      · split
                        · exact .refl _ _
                        · split
                          · exact .refl _ _
                          · split
                            · exact blame_kept s _ _
                            · dsimp only
                              split
                              · exact .refl _ _
                              · split
                                · exact Or.inl ⟨rfl, id⟩
                                · exact Or.inl ⟨rfl, fun c => (by cases c)⟩
                · split
                  · unfold handleGroup
                    split
                    · exact .refl _ _
                    · split
                      · exact .refl _ _
                      · split
                        · exact .refl _ _
                        · split
                          · exact blame_kept s _ _
                          · split
                            · exact .refl _ _
                            · exact Or.inl ⟨rfl, id⟩
                  · exact .refl _ _
                all_goals exact .refl _ _

theorem kick_kept (s : S) (now : Nat) (e : Env) : Kept s (kick s now e).1 now := by
  unfold kick
  split
  · exact .refl _ _
  · dsimp only
    split
    · split <;> exact Or.inr rfl
    · split <;> exact Or.inr rfl
    · split
      · exact Or.inr rfl
      · split <;> exact Or.inr rfl
    · exact Or.inr rfl

theorem tick_kept (C : Crypto) (s : S) (now : Nat) (e : Env) : Kept s (tick C s now e).1 now := by
  unfold tick
  split
  · exact Or.inl ⟨rfl, fun c => (by cases c)⟩
  · split
    · exact .refl _ _
    · split
      · exact .refl _ _
      · split
        · exact .refl _ _
        · split
          · exact Or.inl ⟨rfl, fun c => (by cases c)⟩
          · dsimp only
            split
            · exact Or.inl ⟨rfl, fun c => (by cases c)⟩
            · exact Or.inr rfl

theorem rxAuth_kept (s : S) (f : Bytes) (e : Env) (now : Nat) : Kept s (rxAuth s f e).1 now := by
  unfold rxAuth
  split
  · exact .refl _ _
  · split
    · exact .refl _ _
    · dsimp only
      split
      · exact .refl _ _
      · generalize (if f.getD 2 0 + 256 * f.getD 3 0 = 1 ∧ s.saeH2e = true then 126 else 0) = q
        split
        · exact Or.inl ⟨rfl, fun c => (by cases c)⟩
        · split
          · split
            · exact .refl _ _
            · split
              · exact Or.inl ⟨rfl, fun c => (by cases c)⟩
              · exact Or.inl ⟨rfl, fun c => (by cases c)⟩
          · split
            · split
              · exact .refl _ _
              · split
                · exact .refl _ _
                · split
                  · exact Or.inl ⟨rfl, fun c => (by cases c)⟩
                  · exact Or.inl ⟨rfl, fun c => (by cases c)⟩
            · exact .refl _ _

/-- The call is not made before `t` (calls that take no time are not constrained). -/
def Op.notBefore (t : Nat) : Op → Prop
  | .kick now _ => t ≤ now
  | .rx _ now _ => t ≤ now
  | .tick now _ => t ≤ now
  | .init _ _ => True
  | .deinit => True
  | .rxAuth _ _ => True
  | .installPmk _ => True
  | .clear => True
  | .reconnect => True

/-- While message 3 is awaited, message 2 was sent at `t` or later. -/
def SentSince (t : Nat) (s : S) : Prop := s.st = .m3Wait → t ≤ s.m2Send

theorem Kept.since {s u : S} {now t : Nat} (h : Kept s u now) (hs : SentSince t s) (ht : t ≤ now) :
    SentSince t u := by
  intro hu
  rcases h with ⟨h1, h2⟩ | h1
  · rw [h1]; exact hs (h2 hu)
  · rw [h1]; exact ht

theorem since_step (C : Crypto) (t : Nat) (s : S) (o : Op) (h : SentSince t s)
    (ho : o.notBefore t) : SentSince t (step C s o).1 := by
  cases o with
  | init c e =>
    rcases (init_idle C s c e).1 with h1 | h1
    · show SentSince t (init C s c e).1
      rw [h1]; exact h
    · intro c
      have c' : (init C s _ e).1.st = .m3Wait := c
      rw [h1] at c'; cases c'
  | deinit => intro c; cases c
  | kick now e => exact (kick_kept s now e).since h ho
  | rx f now e => exact (rx_kept C s f now e).since h ho
  | rxAuth f e => exact (rxAuth_kept s f e t).since h (Nat.le_refl t)
  | tick now e => exact (tick_kept C s now e).since h ho
  | installPmk k =>
    show SentSince t (installPmk s k).1
    unfold installPmk
    split
    · exact h
    · split
      · exact h
      · exact h
  | clear => exact h
  | reconnect =>
    rcases (reconnect_idle s).1 with h1 | h1
    · show SentSince t (reconnect s).1
      rw [h1]; exact h
    · intro c
      have c' : (reconnect s).1.st = .m3Wait := c
      rw [h1] at c'; cases c'

/-- **C70, spacing.**  Two copies of message 2 sent by the timer, with anything in between (even new
sessions), are at least a second apart on a clock that does not run backwards. -/
theorem m2_copies_spaced (C : Crypto) (s : S) (n1 n2 : Nat) (e1 e2 : Env) (ops : List Op)
    (h1 : 0 < keyFrames (step C s (.tick n1 e1)).2.2) (hc : ∀ o ∈ ops, o.notBefore n1)
    (h2 : 0 < keyFrames (step C (runFrom C (step C s (.tick n1 e1)).1 ops) (.tick n2 e2)).2.2) :
    n1 + 1000 ≤ n2 := by
  have h0 : SentSince n1 (step C s (.tick n1 e1)).1 := by
    intro hm
    have hs := m2_retry_spacing C s n1 e1 h1
    rcases tick_kept C s n1 e1 with ⟨h3, _⟩ | h3
    · -- the timer sent, so it either failed or recorded the time
      have h1' : 0 < keyFrames (tick C s n1 e1).2.2 := h1
      have hm' : (tick C s n1 e1).1.st = .m3Wait := hm
      show n1 ≤ (tick C s n1 e1).1.m2Send
      unfold tick at h1' hm' ⊢
      split
      · next hc => rw [if_pos hc] at h1'; cases h1'
      · next hc =>
        rw [if_neg hc] at h1' hm'
        split
        · next hc => rw [if_pos hc] at h1'; cases h1'
        · next hc =>
          rw [if_neg hc] at h1' hm'
          split
          · next hc => rw [if_pos hc] at h1'; cases h1'
          · next hc =>
            rw [if_neg hc] at h1' hm'
            split
            · next hc => rw [if_pos hc] at h1'; cases h1'
            · next hc =>
              rw [if_neg hc] at h1' hm'
              split
              · next hc => rw [if_pos hc] at h1'; cases h1'
              · next hc =>
                rw [if_neg hc] at h1' hm'
                dsimp only at hm' ⊢
                split
                · next es he => rw [he] at hm'; cases hm'
                · exact Nat.le_refl _
    · have h3' : (step C s (.tick n1 e1)).1.m2Send = n1 := h3
      rw [h3']; exact Nat.le_refl _
  have hall : ∀ (ops : List Op) (u : S), SentSince n1 u → (∀ o ∈ ops, o.notBefore n1) →
      SentSince n1 (runFrom C u ops) := by
    intro ops
    induction ops with
    | nil => intro u h _; exact h
    | cons o r ih =>
      intro u h hr
      exact ih _ (since_step C n1 u o h (hr o (List.mem_cons_self ..)))
        (fun x hx => hr x (List.mem_cons_of_mem _ hx))
  have hz := hall ops _ h0 hc
  have hs := m2_retry_spacing C _ n2 e2 h2
  have := hz hs.1
  omega

end Wolf.Supp
