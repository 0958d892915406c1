import Verif.Supp.Dot1x

/-!
# One EAPOL frame as the wired client's supplicant sees it
-/

namespace Wolf.Dot1x

open Wolf.Supp

theorem body_getD {p : Supp.Bytes} {n i : Nat} (hi : i < n) :
    ((p.drop 4).take n).getD i 0 = p.getD (4 + i) 0 := by
  rw [List.getD_eq_getElem?_getD, List.getD_eq_getElem?_getD, List.getElem?_take_of_lt hi, List.getElem?_drop]

theorem body_num {p : Supp.Bytes} {n i : Nat} (hi : i + 1 < n) :
    num16 ((p.drop 4).take n) i = num16 p (4 + i) := by
  unfold num16
  rw [body_getD (by omega), body_getD (by omega)]
  rfl

theorem body_len {p : Supp.Bytes} {n : Nat} (h : n + 4 ≤ p.length) : ((p.drop 4).take n).length = n := by
  rw [List.length_take, List.length_drop]
  omega

/-- What an accepted EAP body says about the frame. -/
theorem parsed {p : Supp.Bytes} {v : EapView} (h4 : 4 ≤ p.length) (h1 : p.getD 1 0 = 0)
    (hl : num16 p 2 + 4 ≤ p.length) (h : eapParse ((p.drop 4).take (num16 p 2)) = .ok v) :
    EapCode p v.code ∧ (v.code = 1 → EapRequest p v.type) := by
  obtain ⟨hc, _, hlen, hge, hle, ht⟩ := (eap_parse_safe _).2 v h
  rw [body_len hl] at hle
  have n0 : 4 ≤ num16 p 2 := Nat.le_trans hge hle
  rw [body_num (by omega)] at hlen
  rw [body_getD (by omega)] at hc
  have E : EapCode p v.code := ⟨h4, h1, hl, by rw [← hlen]; exact hge, by rw [← hlen]; exact hle, hc.symm⟩
  refine ⟨E, fun c => ?_⟩
  obtain ⟨k1, k2, _⟩ := ht (.inl c)
  rw [body_getD (by omega)] at k2
  exact ⟨c ▸ E, by rw [← hlen]; exact k1, k2.symm⟩

/-- A complete EAP packet that is neither a request nor a response is accepted. -/
theorem parse_code {p : Supp.Bytes} {c : Nat} (h : EapCode p c) (h1 : c ≠ 1) (h2 : c ≠ 2) :
    ∃ v, eapParse ((p.drop 4).take (num16 p 2)) = .ok v ∧ v.code = c := by
  obtain ⟨_, _, hl, hge, hle, hc⟩ := h
  have bl := body_len hl
  unfold eapParse
  rw [need_bind, if_pos (by omega), ld_num (by omega), ok_bind, ld_num (by omega), ok_bind,
    rd16_num (by omega), ok_bind, need_bind, body_num (by omega), body_getD (by omega), bl,
    show num16 p (4 + 2) = num16 p 6 from rfl, if_pos (by omega)]
  have e : p.getD (4 + 0) 0 = c := hc
  rw [e, if_neg (by omega)]
  exact ⟨_, rfl, rfl⟩

/-- A complete EAP-Request is accepted. -/
theorem parse_request {p : Supp.Bytes} {ty : Nat} (h : EapRequest p ty) :
    ∃ v, eapParse ((p.drop 4).take (num16 p 2)) = .ok v ∧ v.code = 1 ∧ v.type = ty := by
  obtain ⟨⟨_, _, hl, hge, hle, hc⟩, h5, ht⟩ := h
  have bl := body_len hl
  unfold eapParse
  rw [need_bind, if_pos (by omega), ld_num (by omega), ok_bind, ld_num (by omega), ok_bind,
    rd16_num (by omega), ok_bind, need_bind, body_num (by omega), body_getD (by omega), bl,
    show num16 p (4 + 2) = num16 p 6 from rfl, if_pos (by omega)]
  have e : p.getD (4 + 0) 0 = 1 := hc
  have e8 : p.getD (4 + 4) 0 = ty := ht
  rw [e, if_pos (.inl rfl), need_bind, if_pos h5, ld_num (by omega), ok_bind,
    body_getD (i := 4) (by omega), e8,
    sl_ok (by omega), ok_bind]
  exact ⟨_, rfl, rfl, rfl⟩

/-- The states of the wired client before its end. -/
def Before (s : S) : Prop := s.st = .idle ∨ s.st = .identWait ∨ s.st = .tlsProg

/-- What one received EAPOL frame does to a session that has not ended. -/
inductive Turned (s : S) (p : Supp.Bytes) (e : Env) : S × Bool × List Supp.Ev → Prop where
  | kept (b : Bool) (h : ¬ EapCode p 4) : Turned s p e (s, b, [])
  | failed (b : Bool) : Turned s p e ({ s with st := .failed }, b, [])
  | identity (h : EapRequest p 1) (hs : s.st = .identWait ∨ s.st = .tlsProg) (hx : e.send = true) :
      Turned s p e ({ s with st := .tlsProg }, true, [.other])
  | answered (h : ¬ EapCode p 4) (hs : s.st = .tlsProg) (hx : e.send = true) : Turned s p e (s, true, [.other])
  | success (k : Supp.Bytes) (h : EapCode p 3) (hs : s.st = .tlsProg) (hd : e.tlsDone = true)
      (hk : e.msk = some k) : Turned s p e ({ s with pmk := k, st := .m1Wait }, true, [])

theorem code_ne {p : Supp.Bytes} {a b : Nat} (h : EapCode p a) (n : a ≠ b) : ¬ EapCode p b :=
  fun c => n (h.2.2.2.2.2.symm.trans c.2.2.2.2.2)

theorem rxEap_turned {s : S} {p : Supp.Bytes} {e : Env} (h4 : 4 ≤ p.length) (h1 : p.getD 1 0 = 0) :
    Turned s p e (rxEap s p e) := by
  unfold rxEap
  rw [rd16_num (show 2 + 1 < p.length by omega)]
  dsimp only
  split
  · next hl => exact .kept false (fun c => by have := c.2.2.1; omega)
  · next hl =>
    have hl' : num16 p 2 + 4 ≤ p.length := by omega
    split
    · next x hx =>
      have nf : ¬ EapCode p 4 := fun c => by
        obtain ⟨v, hv, _⟩ := parse_code c (by decide) (by decide)
        rw [hv] at hx
        cases hx
      cases x with
      | reject => exact .kept false nf
      | oob => exact absurd hx (eap_parse_safe _).1
    · next v hv =>
      obtain ⟨E, R⟩ := parsed h4 h1 hl' hv
      split
      · next c1 =>
        have n4 : ¬ EapCode p 4 := code_ne (c1 ▸ E) (by decide)
        unfold failIf eapRequest
        by_cases t1 : v.type = 1
        · rw [if_pos t1]
          by_cases hs : s.st = .identWait ∨ s.st = .tlsProg
          · rw [if_pos hs]
            by_cases hx : s.live = true ∧ e.send = true
            · rw [if_pos hx]
              exact .identity (t1 ▸ R c1) hs hx.2
            · rw [if_neg hx]
              exact .failed false
          · rw [if_neg hs]
            exact .failed false
        · rw [if_neg t1]
          by_cases ht : v.type = 13 ∨ (v.type = 25 ∧ s.mode = .peap)
          · rw [if_pos ht]
            by_cases hs : s.st ≠ .tlsProg
            · rw [if_pos hs]
              exact .failed false
            · rw [if_neg hs]
              by_cases hx : e.engine = true ∧ s.live = true ∧ e.send = true
              · rw [if_pos hx]
                exact .answered n4 (Classical.not_not.mp hs) hx.2.2
              · rw [if_neg hx]
                exact .failed false
          · rw [if_neg ht]
            exact .failed false
      · next c1 =>
        split
        · next c3 =>
          unfold failIf eapSuccess
          by_cases hm : ¬ (s.mode = .eapTls ∨ s.mode = .peap)
          · rw [if_pos hm]
            exact .failed false
          · rw [if_neg hm]
            by_cases hs : s.st ≠ .tlsProg
            · rw [if_pos hs]
              exact .failed false
            · rw [if_neg hs]
              by_cases hd : e.tlsDone = false
              · rw [if_pos hd]
                exact .failed false
              · rw [if_neg hd]
                cases hk : e.msk with
                | none => exact .failed false
                | some k =>
                  exact .success k (c3 ▸ E) (Classical.not_not.mp hs) (ne_false' hd) hk
        · next c3 =>
          split
          · exact .failed false
          · next c4 => exact .kept false (code_ne E c4)

/-- **One frame.** -/
theorem rx_turned (C : Crypto) {s : S} (p : Supp.Bytes) (now : Nat) (e : Env) (hb : Before s) :
    Turned s p e (rx C s p now e) := by
  unfold rx
  split
  · next hl => exact .kept false (fun c => by have := c.1; omega)
  · next hl =>
    rw [ld_num (show 1 < p.length by omega)]
    dsimp only
    split
    · next h => exact rxEap_turned (by omega) h
    · next h =>
      have n4 : ¬ EapCode p 4 := fun c => h c.2.1
      split
      · exact .kept false n4
      · unfold rxKey
        rcases key_parse_exact p with ⟨_, hp, _⟩ | ⟨_, hp⟩
        · rw [hp]
          dsimp only
          split
          · exact .kept false n4
          · split
            · exact .kept false n4
            · next hfl =>
              rw [fit_ok (by rw [List.length_take]; exact Nat.le_trans (Nat.min_le_left _ _) (Nat.not_lt.mp hfl))]
              dsimp only
              unfold dispatch
              rcases hb with hb | hb | hb <;> rw [hb] <;> exact .kept false n4
        · rw [hp]
          exact .kept false n4

/-! ## What the frames of a proper exchange do -/

theorem rx_identity (C : Crypto) {s : S} {p : Supp.Bytes} (now : Nat) {e : Env} (h : EapRequest p 1)
    (hs : s.st = .identWait) (hl : s.live = true) (hx : e.send = true) :
    rx C s p now e = ({ s with st := .tlsProg }, true, [.other]) := by
  obtain ⟨v, hv, c1, t1⟩ := parse_request h
  have hE := h.1
  unfold rx
  rw [if_neg (by have := hE.1; omega), ld_num (by have := hE.1; omega)]
  dsimp only
  rw [if_pos hE.2.1]
  unfold rxEap
  rw [rd16_num (by have := hE.1; omega)]
  dsimp only
  rw [if_neg (by have := hE.2.2.1; omega), hv]
  dsimp only
  rw [if_pos c1]
  unfold eapRequest
  rw [if_pos t1, if_pos (.inl hs), if_pos ⟨hl, hx⟩]
  rfl

theorem rx_tls (C : Crypto) {s : S} {p : Supp.Bytes} (now : Nat) {e : Env} (h : EapRequest p 13)
    (hs : s.st = .tlsProg) (hl : s.live = true) (hx : e.send = true) (he : e.engine = true) :
    rx C s p now e = (s, true, [.other]) := by
  obtain ⟨v, hv, c1, t1⟩ := parse_request h
  have hE := h.1
  unfold rx
  rw [if_neg (by have := hE.1; omega), ld_num (by have := hE.1; omega)]
  dsimp only
  rw [if_pos hE.2.1]
  unfold rxEap
  rw [rd16_num (by have := hE.1; omega)]
  dsimp only
  rw [if_neg (by have := hE.2.2.1; omega), hv]
  dsimp only
  rw [if_pos c1]
  unfold eapRequest
  rw [t1, if_neg (by decide), if_pos (.inl rfl), if_neg (by rw [hs]; simp), if_pos ⟨he, hl, hx⟩]
  rfl

theorem rx_success (C : Crypto) {s : S} {p : Supp.Bytes} (now : Nat) {e : Env} {k : Supp.Bytes} (h : EapCode p 3)
    (hs : s.st = .tlsProg) (hm : s.mode = .eapTls) (hd : e.tlsDone = true) (hk : e.msk = some k) :
    rx C s p now e = ({ s with pmk := k, st := .m1Wait }, true, []) := by
  obtain ⟨v, hv, c3⟩ := parse_code h (by decide) (by decide)
  unfold rx
  rw [if_neg (by have := h.1; omega), ld_num (by have := h.1; omega)]
  dsimp only
  rw [if_pos h.2.1]
  unfold rxEap
  rw [rd16_num (by have := h.1; omega)]
  dsimp only
  rw [if_neg (by have := h.2.2.1; omega), hv]
  dsimp only
  rw [c3, if_neg (by decide), if_pos rfl]
  unfold eapSuccess
  rw [if_neg (by rw [hm]; simp), if_neg (by rw [hs]; simp), if_neg (by rw [hd]; decide), hk]
  rfl

/-- A frame that is neither EAP nor a key frame does nothing. -/
theorem rx_foreign (C : Crypto) {s : S} {p : Supp.Bytes} (now : Nat) (e : Env) (h : 4 ≤ p.length)
    (h0 : p.getD 1 0 ≠ 0) (h3 : p.getD 1 0 ≠ 3) : rx C s p now e = (s, false, []) := by
  unfold rx
  rw [if_neg (by omega), ld_num (by omega)]
  dsimp only
  rw [if_neg h0, if_pos h3]

end Wolf.Dot1x
