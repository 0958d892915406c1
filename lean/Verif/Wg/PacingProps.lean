import Verif.Wg.Pacing

/-!
# C50, C64, C65 over all histories
-/

namespace Wolf.Wg

/-- Peer `j` of the device (a zeroed peer if there is none). -/
def peerOf (d : Dev) (j : Nat) : Peer := d.peers.getD j Peer.zero

/-- The effects about peer `j`. -/
def mineOf (j : Nat) (es : List (Nat × Ev)) : List Ev :=
  (es.filter (fun e => e.1 == j)).map (·.2)

theorem mineOf_append (j : Nat) (a b : List (Nat × Ev)) :
    mineOf j (a ++ b) = mineOf j a ++ mineOf j b := by
  unfold mineOf
  rw [List.filter_append, List.map_append]

theorem mineOf_tag (i j : Nat) (es : List Ev) :
    mineOf i (tag j es) = if j = i then es else [] := by
  unfold mineOf tag
  by_cases h : j = i
  · rw [if_pos h, List.filter_map]
    have : es.filter ((fun e : Nat × Ev => e.1 == i) ∘ fun e => (j, e)) = es := by
      rw [List.filter_eq_self]
      intro e _
      simp [h]
    rw [this, List.map_map]
    exact List.map_id es
  · rw [if_neg h]
    have : (es.map (fun e => (j, e))).filter (fun e => e.1 == i) = [] := by
      rw [List.filter_eq_nil_iff]
      intro e he
      obtain ⟨e', _, rfl⟩ := List.mem_map.mp he
      simp [h]
    rw [this]
    rfl

/-- What one operation does to one peer's bookkeeping. -/
inductive PS (co : Nat → Nat → Nat) (d : Dev) (o : Op) (j : Nat) (p p' : Peer) (es : List Ev) :
    Prop
  | keep (h : KeepK p p' es)
  | poll (t : Nat) (ho : o = .poll t) (h1 : p' = (tick (co j) t p).1)
      (h2 : es = (tick (co j) t p).2)
  | init (t : Nat) (rest : List Ev) (hnow : (step co d o).1.now = d.now)
      (ht : p.latestTs < t) (h1 : p'.latestTs = t)
      (h2 : p'.lastInitConsumed = d.now)
      (gap : p.lastInitConsumed = 0 ∨ rekeyTimeoutMs ≤ sub64 d.now p.lastInitConsumed)
      (act : p'.active = true) (ka : p'.tKeepalive = p.tKeepalive)
      (int : p'.interval = p.interval) (hes : es = .consumed t :: rest)
      (hr : ∀ e ∈ rest, ∀ u, e ≠ Ev.consumed u)
  | fresh (h : p.active = false) (h0 : p'.lastInitConsumed = 0) (hes : es = [])

theorem peerInitiation_spec (co : Nat → Nat) (now sid : Nat) (p : Peer) (ts : Option Nat)
    (sender ip port : Nat) :
    KeepK p (peerInitiation co now sid p ts sender ip port).1
      (peerInitiation co now sid p ts sender ip port).2.1 ∨
    ∃ t rest, p.latestTs < t ∧
      (peerInitiation co now sid p ts sender ip port).1.latestTs = t ∧
      (peerInitiation co now sid p ts sender ip port).1.lastInitConsumed = now ∧
      (p.lastInitConsumed = 0 ∨ rekeyTimeoutMs ≤ sub64 now p.lastInitConsumed) ∧
      (peerInitiation co now sid p ts sender ip port).1.active = p.active ∧
      (peerInitiation co now sid p ts sender ip port).1.tKeepalive = p.tKeepalive ∧
      (peerInitiation co now sid p ts sender ip port).1.interval = p.interval ∧
      (peerInitiation co now sid p ts sender ip port).2.1 = .consumed t :: rest ∧
      ∀ e ∈ rest, ∀ u, e ≠ Ev.consumed u := by
  unfold peerInitiation
  split
  · exact Or.inl (KeepK.refl p)
  · next hgap =>
    split
    · exact Or.inl (KeepK.refl p)
    · next t =>
      split
      · exact Or.inl (KeepK.refl p)
      · next ht =>
        right
        have hg : p.lastInitConsumed = 0 ∨ rekeyTimeoutMs ≤ sub64 now p.lastInitConsumed := by
          by_cases h0 : p.lastInitConsumed = 0
          · exact Or.inl h0
          · right
            have : ¬ sub64 now p.lastInitConsumed < rekeyTimeoutMs :=
              fun c => hgap ⟨Nat.pos_of_ne_zero h0, c⟩
            omega
        have ht' : p.latestTs < t := by omega
        dsimp only
        split
        · exact ⟨t, [], ht', rfl, rfl, hg, rfl, rfl, rfl, rfl, noInit_nil⟩
        · generalize hq : ({ p with
            latestTs := t, hsRemote := sender, lastInitConsumed := now, epIp := ip,
            epPort := port, ptr := p.ptr + 1, hsLocal := co p.ptr,
            hs := Hs.createdResp } : Peer) = q
          have q1 : q.latestTs = t := by rw [← hq]
          have q2 : q.lastInitConsumed = now := by rw [← hq]
          have q3 : q.active = p.active := by rw [← hq]
          have q4 : q.tKeepalive = p.tKeepalive := by rw [← hq]
          have q5 : q.interval = p.interval := by rw [← hq]
          have hb := beginSession_keep co now sid q
          generalize beginSession co now sid q = b at *
          have hc : KeepK b.1 (hsComplete b.1) [] := KeepK.of ⟨rfl, rfl, rfl, rfl, rfl⟩ noInit_nil
          have hs := hc.trans (sendStaged_keep co now (hsComplete b.1))
          split
          · refine ⟨t, .resp :: b.2.1 ++ (sendStaged co now (hsComplete b.1)).2, ht',
              (hs.ts.trans hb.ts).trans q1, (hs.lastInit.trans hb.lastInit).trans q2, hg,
              (hs.active.trans hb.active).trans q3, (hs.ka.trans hb.ka).trans q4,
              (hs.interval.trans hb.interval).trans q5, rfl, ?_⟩
            intro e he u
            rcases List.mem_append.mp he with he | he
            · rcases List.mem_cons.mp he with he | he
              · rw [he]; intro c; cases c
              · exact hb.noInit e he u
            · exact hs.noInit e he u
          · refine ⟨t, .resp :: b.2.1, ht', hb.ts.trans q1, hb.lastInit.trans q2, hg,
              hb.active.trans q3, hb.ka.trans q4, hb.interval.trans q5, rfl, ?_⟩
            intro e he u
            rcases List.mem_cons.mp he with he | he
            · rw [he]; intro c; cases c
            · exact hb.noInit e he u

theorem tick_zero (co : Nat → Nat) (now : Nat) : tick co now Peer.zero = (Peer.zero, []) := by
  unfold tick
  exact if_pos rfl

theorem tickAll_peer (co : Nat → Nat → Nat) (now : Nat) (ps : List Peer) : ∀ (k j : Nat),
    (tickAll co now k ps).1.getD j Peer.zero =
      (tick (co (k + j)) now (ps.getD j Peer.zero)).1 ∧
    mineOf (k + j) (tickAll co now k ps).2 =
      (tick (co (k + j)) now (ps.getD j Peer.zero)).2 ∧
    ∀ i, i < k → mineOf i (tickAll co now k ps).2 = [] := by
  induction ps with
  | nil =>
    intro k j
    simp only [tickAll, List.getD_nil, tick_zero]
    exact ⟨trivial, rfl, fun _ _ => rfl⟩
  | cons p ps ih =>
    intro k j
    have e2 : (tickAll co now k (p :: ps)).2 =
        tag k (tick (co k) now p).2 ++ (tickAll co now (k + 1) ps).2 := rfl
    have e1 : (tickAll co now k (p :: ps)).1 =
        (tick (co k) now p).1 :: (tickAll co now (k + 1) ps).1 := rfl
    rw [e1, e2]
    refine ⟨?_, ?_, ?_⟩
    · cases j with
      | zero => rfl
      | succ j =>
        rw [List.getD_cons_succ, List.getD_cons_succ, (ih (k + 1) j).1]
        rw [show k + 1 + j = k + (j + 1) by omega]
    · rw [mineOf_append, mineOf_tag]
      cases j with
      | zero =>
        rw [Nat.add_zero, if_pos rfl, (ih (k + 1) 0).2.2 k (by omega), List.append_nil]
        rfl
      | succ j =>
        rw [if_neg (by omega), List.nil_append, List.getD_cons_succ]
        have := (ih (k + 1) j).2.1
        rw [show k + 1 + j = k + (j + 1) by omega] at this
        exact this
    · intro i hi
      rw [mineOf_append, mineOf_tag, if_neg (by omega), (ih (k + 1) 0).2.2 i (by omega)]
      rfl

theorem peerOf_set (d : Dev) (i j : Nat) (p : Peer) :
    peerOf (d.setPeer i p) j = if j = i ∧ i < d.peers.length then p else peerOf d j :=
  setPeer_queue d i j p

theorem PS.nop {co : Nat → Nat → Nat} {d : Dev} {o : Op} {j : Nat} {d' : Dev}
    (h : d'.peers = d.peers) : PS co d o j (peerOf d j) (peerOf d' j) (mineOf j []) := by
  unfold peerOf
  rw [h]
  exact PS.keep (KeepK.refl _)

theorem PS.set {co : Nat → Nat → Nat} {d : Dev} {o : Op} {i : Nat} (j : Nat) {p p' : Peer}
    {es : List Ev} {d' : Dev}
    (h : PS co d o i p p' es) (hp : d.peers[i]? = some p)
    (hd : d'.peers = (d.setPeer i p').peers) :
    PS co d o j (peerOf d j) (peerOf d' j) (mineOf j (tag i es)) := by
  have e1 : peerOf d' j = peerOf (d.setPeer i p') j := by unfold peerOf; rw [hd]
  rw [e1, peerOf_set, mineOf_tag]
  by_cases hij : j = i
  · subst hij
    have hl := (List.getElem?_eq_some_iff.mp hp).1
    have e2 : peerOf d j = p := by
      unfold peerOf
      rw [List.getD_eq_getElem?_getD, hp]
      rfl
    rw [if_pos ⟨rfl, hl⟩, if_pos rfl, e2]
    exact h
  · rw [if_neg (fun c => hij c.1), if_neg (Ne.symm hij)]
    exact PS.keep (KeepK.refl _)

theorem step_ps (co : Nat → Nat → Nat) (d : Dev) (o : Op) (j : Nat) :
    PS co d o j (peerOf d j) (peerOf (step co d o).1 j) (mineOf j (step co d o).2) := by
  cases o with
  | poll now =>
    have := tickAll_peer co now d.peers 0 j
    rw [Nat.zero_add] at this
    exact PS.poll now rfl this.1 this.2.1
  | addPeer ip port interval =>
    simp only [step]
    split
    · exact PS.nop rfl
    · next i hi =>
      rw [List.findIdx?_eq_some_iff_getElem] at hi
      obtain ⟨hlt, hna, _⟩ := hi
      rw [show (peerOf (d.setPeer i _) j) = _ from peerOf_set d i j _]
      split
      · next hji =>
        refine PS.fresh ?_ rfl rfl
        unfold peerOf
        rw [hji.1, List.getD_eq_getElem?_getD, List.getElem?_eq_getElem hlt]
        simpa using hna
      · exact PS.keep (KeepK.refl _)
  | addAllowed peer ip cidr =>
    simp only [step]
    split
    · exact PS.nop rfl
    · split <;> exact PS.nop rfl
  | removeAllowed peer => exact PS.nop rfl
  | setKey =>
    have : peerOf (step co d .setKey).1 j = dropSessions (peerOf d j) := by
      unfold peerOf step
      dsimp only
      rw [List.getD_eq_getElem?_getD, List.getD_eq_getElem?_getD, List.getElem?_map]
      cases d.peers[j]? with
      | none => rfl
      | some p => rfl
    rw [this]
    exact PS.keep (dropSessions_keep _)
  | output pkt =>
    simp only [step]
    split
    · exact PS.nop rfl
    · split
      · exact PS.nop rfl
      · split
        · exact PS.nop rfl
        · next i _ =>
          split
          · exact PS.nop rfl
          · next p hp =>
            split
            · exact PS.nop rfl
            · exact PS.set j (PS.keep (packetSend_keep (co i) d.now p pkt)) hp rfl
  | initiation mac who ts sender ip port =>
    rcases hst : step co d (.initiation mac who ts sender ip port) with ⟨d', es⟩
    have hnow : d'.now = d.now := by
      have e : d' = (step co d (.initiation mac who ts sender ip port)).1 := by rw [hst]
      rw [e]
      simp only [step]
      (repeat' split) <;> rfl
    have hst' := hst
    simp only [step] at hst'
    split at hst'
    · cases hst'; exact PS.nop rfl
    · split at hst'
      · cases hst'
        refine PS.keep ?_
        by_cases h0 : j = 0
        · subst h0
          exact KeepK.of ⟨rfl, rfl, rfl, rfl, rfl⟩ (noInit_one (fun t c => by cases c))
        · have : mineOf j [(0, Ev.cookieReply)] = [] := by
            have := mineOf_tag j 0 [Ev.cookieReply]
            rw [if_neg (Ne.symm h0)] at this
            exact this
          rw [this]
          exact KeepK.refl _
      · split at hst'
        · cases hst'; exact PS.nop rfl
        · next i =>
          split at hst'
          · cases hst'; exact PS.nop rfl
          · next p hp =>
            split at hst'
            · cases hst'; exact PS.nop rfl
            · next hact =>
              cases hst'
              have ha : p.active = true := by simpa using hact
              rcases peerInitiation_spec (co i) d.now (d.kpCtr + 1) p ts sender ip port with
                h | ⟨t, rest, a1, a2, a3, a4, a5, a6, a7, a8, a9⟩
              · exact PS.set j (PS.keep h) hp rfl
              · refine PS.set j (PS.init t rest ?_ a1 a2 a3 a4 (a5.trans ha) a6 a7 a8 a9) hp rfl
                rw [hst]
                exact hnow
  | response mac recv auth sender ip port =>
    simp only [step]
    split
    · exact PS.nop rfl
    · split
      · refine PS.keep ?_
        by_cases h0 : j = 0
        · subst h0
          exact KeepK.of ⟨rfl, rfl, rfl, rfl, rfl⟩ (noInit_one (fun t c => by cases c))
        · have : mineOf j [(0, Ev.cookieReply)] = [] := by
            have := mineOf_tag j 0 [Ev.cookieReply]
            rw [if_neg (Ne.symm h0)] at this
            exact this
          rw [this]
          exact KeepK.refl _
      · split
        · exact PS.nop rfl
        · next i hi =>
          rw [List.findIdx?_eq_some_iff_getElem] at hi
          obtain ⟨hlt, _, _⟩ := hi
          have hp : d.peers[i]? = some (d.peers.getD i Peer.zero) := by
            rw [List.getD_eq_getElem?_getD, List.getElem?_eq_getElem hlt]; rfl
          exact PS.set j (PS.keep (peerResponse_keep (co i) d.now (d.kpCtr + 1) _ auth sender ip
            port)) hp rfl
  | data recv ctr dec ip port =>
    simp only [step]
    split
    · exact PS.nop rfl
    · next i hi =>
      unfold findPeer at hi
      rw [List.findIdx?_eq_some_iff_getElem] at hi
      obtain ⟨hlt, _, _⟩ := hi
      have hp : d.peers[i]? = some (d.peers.getD i Peer.zero) := by
        rw [List.getD_eq_getElem?_getD, List.getElem?_eq_getElem hlt]; rfl
      split
      · exact PS.nop rfl
      · next s hs =>
        have h := peerData_keep d.now (d.peers.getD i Peer.zero) s ctr ip port dec
        split
        · exact PS.set j (PS.keep h) hp rfl
        · next pt hpt =>
          refine PS.set j (PS.keep (KeepK.of ⟨h.ts, h.lastInit, h.active, h.interval, h.ka⟩ ?_))
            hp rfl
          intro e he u
          rcases List.mem_append.mp he with he | he
          · exact h.noInit e he u
          · split at he
            · rw [List.mem_singleton] at he
              rw [he]; intro c; cases c
            · cases he

/-! ## C65: accepted initiations -/

/-- If the effect is an accepted initiation of peer `j`: when, and its timestamp. -/
def acceptance (j : Nat) : TEv → Option (Nat × Nat)
  | (t, i, .consumed ts) => if i = j then some (t, ts) else none
  | _ => none

/-- The initiations of peer `j` accepted in a list of effects. -/
def acceptances (j : Nat) (es : List TEv) : List (Nat × Nat) := es.filterMap (acceptance j)

theorem acceptances_append (j : Nat) (a b : List TEv) :
    acceptances j (a ++ b) = acceptances j a ++ acceptances j b := List.filterMap_append

/-- Timestamp of an accepted initiation. -/
def tsOf : Ev → Option Nat
  | .consumed ts => some ts
  | _ => none

theorem acceptances_now (j now : Nat) (es : List (Nat × Ev)) :
    acceptances j (es.map (fun e => (now, e))) =
      ((mineOf j es).filterMap tsOf).map (fun ts => (now, ts)) := by
  induction es with
  | nil => rfl
  | cons e es ih =>
    obtain ⟨i, e⟩ := e
    have h1 : mineOf j ((i, e) :: es) = (if i = j then [e] else []) ++ mineOf j es := by
      have := mineOf_append j (tag i [e]) es
      rw [mineOf_tag] at this
      exact this
    have h2 : acceptances j (((i, e) :: es).map (fun e => (now, e))) =
        (acceptance j (now, i, e)).toList ++ acceptances j (es.map (fun e => (now, e))) := by
      unfold acceptances
      rw [List.map_cons, List.filterMap_cons]
      cases acceptance j (now, i, e) <;> rfl
    rw [h1, h2, ih, List.filterMap_append, List.map_append]
    congr 1
    by_cases hij : i = j
    · subst hij
      rw [if_pos rfl]
      cases e with
      | consumed ts => simp [acceptance, tsOf]
      | _ => rfl
    · rw [if_neg hij]
      cases e with
      | consumed ts => simp [acceptance, hij]
      | _ => rfl

theorem noInit_none {es : List Ev} (h : ∀ e ∈ es, ∀ u, e ≠ Ev.consumed u) :
    es.filterMap tsOf = [] := by
  rw [List.filterMap_eq_nil_iff]
  intro e he
  cases e with
  | consumed ts => exact absurd rfl (h _ he ts)
  | _ => rfl

/-- Bookkeeping about the accepted initiations of peer `j`. -/
structure TsInv (d : Dev) (j : Nat) (l : List (Nat × Nat)) : Prop where
  order : l.Pairwise (fun a b => a.2 < b.2)
  le : ∀ x ∈ l, x.2 ≤ (peerOf d j).latestTs ∧ (peerOf d j).active = true

theorem TsInv.step {co : Nat → Nat → Nat} {d : Dev} {j : Nat} {l : List (Nat × Nat)}
    (h : TsInv d j l) (o : Op) :
    TsInv (step co d o).1 j (l ++ acceptances j
      ((step co d o).2.map (fun e => ((step co d o).1.now, e)))) := by
  rw [acceptances_now]
  have keep : Keep (peerOf d j) (peerOf (Wg.step co d o).1 j) (mineOf j (Wg.step co d o).2) →
      TsInv (Wg.step co d o).1 j (l ++ ((mineOf j (Wg.step co d o).2).filterMap tsOf).map
        (fun ts => ((Wg.step co d o).1.now, ts))) := by
    intro hk
    rw [noInit_none hk.noInit, List.map_nil, List.append_nil]
    exact ⟨h.order, fun x hx => ⟨by rw [hk.ts]; exact (h.le x hx).1,
      by rw [hk.active]; exact (h.le x hx).2⟩⟩
  cases step_ps co d o j with
  | keep hk => exact keep hk.toKeep
  | poll t ho h1 h2 =>
    apply keep
    rw [h1, h2]
    exact tick_keep (co j) t _
  | init t rest hnow ht h1 h2 gap act ka int hes hr =>
    rw [hes, List.filterMap_cons]
    show TsInv _ j (l ++ (t :: rest.filterMap tsOf).map _)
    rw [noInit_none hr]
    refine ⟨?_, ?_⟩
    · rw [List.pairwise_append]
      refine ⟨h.order, List.pairwise_singleton _ _, ?_⟩
      intro a ha b hb
      have hb' : b = ((Wg.step co d o).1.now, t) := List.mem_singleton.mp hb
      subst hb'
      exact Nat.lt_of_le_of_lt (h.le a ha).1 ht
    · intro x hx
      rcases List.mem_append.mp hx with hx | hx
      · exact ⟨by rw [h1]; exact Nat.le_trans (h.le x hx).1 (Nat.le_of_lt ht), act⟩
      · have hb' : x = ((Wg.step co d o).1.now, t) := List.mem_singleton.mp hx
        subst hb'
        exact ⟨Nat.le_of_eq h1.symm, act⟩
  | fresh h0 hl hes =>
    have : l = [] := by
      cases l with
      | nil => rfl
      | cons x xs =>
        have := (h.le x (List.mem_cons_self ..)).2
        rw [h0] at this
        cases this
    rw [hes, this]
    exact ⟨List.Pairwise.nil, fun x hx => by cases hx⟩

theorem TsInv.run (co : Nat → Nat → Nat) (j : Nat) (ops : List Op) :
    ∀ (d : Dev) (l : List (Nat × Nat)), TsInv d j l →
      TsInv (drun co d ops).1 j (l ++ acceptances j (drun co d ops).2) := by
  induction ops with
  | nil => intro d l h; rw [show acceptances j (drun co d []).2 = [] from rfl, List.append_nil]; exact h
  | cons o os ih =>
    intro d l h
    have h1 := ih _ _ (h.step (co := co) o)
    rw [List.append_assoc, ← acceptances_append] at h1
    exact h1

theorem split_pair {α β : Type} {f : α → Option β} {R : β → β → Prop} {l a m b : List α} {x y : α}
    {x' y' : β} (h : (l.filterMap f).Pairwise R) (hl : l = a ++ x :: m ++ y :: b)
    (hx : f x = some x') (hy : f y = some y') : R x' y' := by
  subst hl
  rw [List.append_assoc, List.filterMap_append, List.pairwise_append] at h
  have h2 := h.2.1
  rw [List.cons_append, List.filterMap_cons_some hx, List.pairwise_cons] at h2
  apply h2.1
  rw [List.filterMap_append, List.filterMap_cons_some hy]
  exact List.mem_append_right _ (List.mem_cons_self ..)

/-- **C65, no replay.**  In every history, of two handshake initiations accepted from the same
peer the later one carries the strictly newer timestamp; so a captured initiation is accepted at
most once. -/
theorem initiation_accepted_once (co : Nat → Nat → Nat) (ops : List Op) {a m b : List TEv}
    {i t t' ts ts' : Nat}
    (h : effects co ops = a ++ (t, i, Ev.consumed ts) :: m ++ (t', i, Ev.consumed ts') :: b) :
    ts < ts' := by
  have h0 : TsInv Dev.init i [] := ⟨List.Pairwise.nil, fun x hx => by cases hx⟩
  have h1 := (TsInv.run co i ops Dev.init [] h0).order
  rw [List.nil_append] at h1
  exact split_pair (x' := (t, ts)) (y' := (t', ts')) h1 h (if_pos rfl) (if_pos rfl)

/-- The clock handed to `poll` never goes back and fits 64 bits; `now` is the value before. -/
def ClockOk (now : Nat) : List Op → Prop
  | [] => True
  | .poll t :: os => now ≤ t ∧ t < 2 ^ 64 ∧ ClockOk t os
  | .addPeer .. :: os | .addAllowed .. :: os | .removeAllowed .. :: os | .setKey :: os
  | .output .. :: os | .initiation .. :: os | .response .. :: os | .data .. :: os => ClockOk now os

theorem step_now (co : Nat → Nat → Nat) (d : Dev) (o : Op) (h : ∀ t, o ≠ .poll t) :
    (step co d o).1.now = d.now := by
  cases o with
  | poll t => exact absurd rfl (h t)
  | removeAllowed => rfl
  | setKey => rfl
  | _ =>
    simp only [step]
    (repeat' split) <;> rfl

theorem ClockOk.tail {co : Nat → Nat → Nat} {d : Dev} {o : Op} {os : List Op} (hb : d.now < 2 ^ 64)
    (h : ClockOk d.now (o :: os)) :
    d.now ≤ (step co d o).1.now ∧ (step co d o).1.now < 2 ^ 64 ∧
      ClockOk (step co d o).1.now os ∧ (∀ t, o = .poll t → (step co d o).1.now = t) := by
  have other : (∀ t, o ≠ .poll t) → ClockOk d.now os → (step co d o).1.now = d.now →
      d.now ≤ (step co d o).1.now ∧ (step co d o).1.now < 2 ^ 64 ∧
      ClockOk (step co d o).1.now os ∧ (∀ t, o = .poll t → (step co d o).1.now = t) := by
    intro h1 h2 h3
    rw [h3]
    exact ⟨Nat.le_refl _, hb, h2, fun t ht => absurd ht (h1 t)⟩
  cases o with
  | poll t => exact ⟨h.1, h.2.1, h.2.2, fun u hu => by cases hu; rfl⟩
  | _ =>
    exact other (fun t c => by cases c) h (step_now co d _ (fun t c => by cases c))

/-- Clock bookkeeping about the accepted initiations of peer `j`. -/
structure GapInv (d : Dev) (j : Nat) (l : List (Nat × Nat)) : Prop where
  order : l.Pairwise (fun a b => 0 < a.1 → a.1 + rekeyTimeoutMs ≤ b.1)
  le : ∀ x ∈ l, x.1 ≤ (peerOf d j).lastInitConsumed ∧ (peerOf d j).active = true
  now : (peerOf d j).lastInitConsumed ≤ d.now
  bound : d.now < 2 ^ 64

theorem sub64_ge {t t0 m : Nat} (h : m ≤ sub64 t t0) (h0 : t0 ≤ t) (ht : t < 2 ^ 64) :
    t0 + m ≤ t := by
  unfold sub64 at h
  omega

theorem GapInv.step {co : Nat → Nat → Nat} {d : Dev} {j : Nat} {l : List (Nat × Nat)}
    (h : GapInv d j l) (o : Op) (hle : d.now ≤ (step co d o).1.now)
    (hlt : (step co d o).1.now < 2 ^ 64) :
    GapInv (step co d o).1 j (l ++ acceptances j
      ((step co d o).2.map (fun e => ((step co d o).1.now, e)))) := by
  rw [acceptances_now]
  have keep : Keep (peerOf d j) (peerOf (Wg.step co d o).1 j) (mineOf j (Wg.step co d o).2) →
      GapInv (Wg.step co d o).1 j (l ++ ((mineOf j (Wg.step co d o).2).filterMap tsOf).map
        (fun ts => ((Wg.step co d o).1.now, ts))) := by
    intro hk
    rw [noInit_none hk.noInit, List.map_nil, List.append_nil]
    exact ⟨h.order, fun x hx => ⟨by rw [hk.lastInit]; exact (h.le x hx).1,
      by rw [hk.active]; exact (h.le x hx).2⟩, by rw [hk.lastInit]; exact Nat.le_trans h.now hle,
      hlt⟩
  cases step_ps co d o j with
  | keep hk => exact keep hk.toKeep
  | poll t ho h1 h2 =>
    apply keep
    rw [h1, h2]
    exact tick_keep (co j) t _
  | init t rest hnow ht h1 h2 gap act ka int hes hr =>
    rw [hes, List.filterMap_cons]
    show GapInv _ j (l ++ (t :: rest.filterMap tsOf).map _)
    rw [noInit_none hr]
    refine ⟨?_, ?_, by rw [h2, hnow]; exact Nat.le_refl _, hlt⟩
    · rw [List.pairwise_append]
      refine ⟨h.order, List.pairwise_singleton _ _, ?_⟩
      intro a ha b hb hpos
      have hb' : b = ((Wg.step co d o).1.now, t) := List.mem_singleton.mp hb
      subst hb'
      have h3 := (h.le a ha).1
      show a.1 + rekeyTimeoutMs ≤ (Wg.step co d o).1.now
      rw [hnow]
      rcases gap with g | g
      · omega
      · have := sub64_ge g h.now h.bound
        omega
    · intro x hx
      rcases List.mem_append.mp hx with hx | hx
      · exact ⟨by rw [h2]; exact Nat.le_trans (h.le x hx).1 h.now, act⟩
      · have hb' : x = ((Wg.step co d o).1.now, t) := List.mem_singleton.mp hx
        subst hb'
        exact ⟨by rw [h2, hnow]; exact Nat.le_refl _, act⟩
  | fresh h0 hl hes =>
    have : l = [] := by
      cases l with
      | nil => rfl
      | cons x xs =>
        have := (h.le x (List.mem_cons_self ..)).2
        rw [h0] at this
        cases this
    rw [hes, this]
    exact ⟨List.Pairwise.nil, (fun x hx => by cases hx), by rw [hl]; exact Nat.zero_le _, hlt⟩

theorem GapInv.run (co : Nat → Nat → Nat) (j : Nat) (ops : List Op) :
    ∀ (d : Dev) (l : List (Nat × Nat)), GapInv d j l → ClockOk d.now ops →
      GapInv (drun co d ops).1 j (l ++ acceptances j (drun co d ops).2) := by
  induction ops with
  | nil =>
    intro d l h _
    rw [show acceptances j (drun co d []).2 = [] from rfl, List.append_nil]; exact h
  | cons o os ih =>
    intro d l h hc
    have ht := ClockOk.tail (co := co) h.bound hc
    have h1 := ih _ _ (h.step (co := co) o ht.1 ht.2.1) ht.2.2.1
    rw [List.append_assoc, ← acceptances_append] at h1
    exact h1

/-- **C65, flood limit.**  With a clock that does not go back, two handshake initiations of the
same peer are accepted at least 5 s apart (once the clock has started). -/
theorem initiation_accept_spacing (co : Nat → Nat → Nat) (ops : List Op) (hc : ClockOk 0 ops)
    {a m b : List TEv} {i t t' ts ts' : Nat}
    (h : effects co ops = a ++ (t, i, Ev.consumed ts) :: m ++ (t', i, Ev.consumed ts') :: b)
    (ht : 0 < t) : t + 5000 ≤ t' := by
  have h0 : GapInv Dev.init i [] := by
    refine ⟨List.Pairwise.nil, (fun x hx => by cases hx), ?_, by decide⟩
    show (Dev.init.peers.getD i Peer.zero).lastInitConsumed ≤ 0
    unfold Dev.init
    dsimp only
    rw [List.getD_eq_getElem?_getD, List.getElem?_replicate]
    split <;> exact Nat.le_refl _
  have h1 := (GapInv.run co i ops Dev.init [] h0 hc).order
  rw [List.nil_append] at h1
  exact split_pair (x' := (t, ts)) (y' := (t', ts')) h1 h (if_pos rfl) (if_pos rfl) ht

/-- Non-vacuity: two initiations accepted from one peer; a replay of the second, and a newer one
within 5 s, are not accepted. -/
example : let ops : List Op :=
      [.poll 1000, .addPeer 77 51820 0, .initiation .valid (some 0) (some 44) 6 78 51820,
       .poll 3000, .initiation .valid (some 0) (some 45) 7 78 51820,
       .poll 6000, .initiation .valid (some 0) (some 46) 8 78 51820,
       .poll 99000, .initiation .valid (some 0) (some 46) 8 78 51820]
    ClockOk 0 ops ∧ effects demoCoins ops =
      [(1000, 0, .consumed 44), (1000, 0, .resp), (1000, 0, .session 1 false),
       (6000, 0, .consumed 46), (6000, 0, .resp), (6000, 0, .session 2 false)] := by
  refine ⟨by simp [ClockOk], by decide +kernel⟩

/-! ## C50: keepalives -/

/-- After the history `ops`, a poll at time `t` sends peer `j` an empty transport message. -/
def KeepaliveAt (co : Nat → Nat → Nat) (ops : List Op) (t j : Nat) : Prop :=
  ∃ sid c ip port, (j, Ev.enc sid c [] ip port) ∈ (step co (after co ops) (.poll t)).2

theorem drun_append (co : Nat → Nat → Nat) (a b : List Op) : ∀ (d : Dev),
    (drun co d (a ++ b)).1 = (drun co (drun co d a).1 b).1 := by
  induction a with
  | nil => intro d; rfl
  | cons o os ih => intro d; exact ih (step co d o).1

theorem clock_append (co : Nat → Nat → Nat) (a b : List Op) : ∀ (d : Dev), d.now < 2 ^ 64 →
    ClockOk d.now (a ++ b) →
    ClockOk d.now a ∧ ClockOk (drun co d a).1.now b ∧ (drun co d a).1.now < 2 ^ 64 := by
  induction a with
  | nil => intro d hb h; exact ⟨trivial, h, hb⟩
  | cons o os ih =>
    intro d hb h
    have ht := ClockOk.tail (co := co) hb h
    obtain ⟨h1, h2, h3⟩ := ih (step co d o).1 ht.2.1 ht.2.2.1
    refine ⟨?_, h2, h3⟩
    cases o with
    | poll t => exact ⟨h.1, h.2.1, h1⟩
    | _ =>
      rw [step_now co d _ (fun t c => by cases c)] at h1
      exact h1

theorem poll_ka {co : Nat → Nat → Nat} {d : Dev} {t j : Nat}
    (h : ∃ sid c ip port, (j, Ev.enc sid c [] ip port) ∈ (step co d (.poll t)).2) :
    HasKA (tick (co j) t (peerOf d j)).2 := by
  obtain ⟨sid, c, ip, port, hm⟩ := h
  have := tickAll_peer co t d.peers 0 j
  rw [Nat.zero_add] at this
  refine ⟨sid, c, ip, port, ?_⟩
  show _ ∈ (tick (co j) t (d.peers.getD j Peer.zero)).2
  rw [← this.2.1]
  unfold mineOf
  rw [List.mem_map]
  exact ⟨_, List.mem_filter.mpr ⟨hm, by simp⟩, rfl⟩

theorem poll_peer (co : Nat → Nat → Nat) (d : Dev) (t j : Nat) :
    peerOf (step co d (.poll t)).1 j = (tick (co j) t (peerOf d j)).1 := by
  have := tickAll_peer co t d.peers 0 j
  rw [Nat.zero_add] at this
  exact this.1

/-- The keepalive clock of peer `j` since a keepalive at `t1`. -/
structure KaInv (d : Dev) (j t1 : Nat) : Prop where
  act : (peerOf d j).active = true
  int : (peerOf d j).interval = 0
  ge : t1 ≤ (peerOf d j).tKeepalive
  le : (peerOf d j).tKeepalive ≤ d.now
  bound : d.now < 2 ^ 64

theorem KaInv.step {co : Nat → Nat → Nat} {d : Dev} {j t1 : Nat} (h : KaInv d j t1) {o : Op}
    {os : List Op} (hc : ClockOk d.now (o :: os)) : KaInv (step co d o).1 j t1 := by
  have ht := ClockOk.tail (co := co) h.bound hc
  have hge := h.ge
  have hle := h.le
  cases step_ps co d o j with
  | keep hk =>
    exact ⟨hk.active.trans h.act, hk.interval.trans h.int, by rw [hk.ka]; exact hge,
      by rw [hk.ka]; exact Nat.le_trans hle ht.1, ht.2.1⟩
  | poll t ho h1 h2 =>
    have hk := tick_keep (co j) t (peerOf d j)
    rw [← h1] at hk
    have hnow := ht.2.2.2 t ho
    have hs := tick_spec (co j) t (peerOf d j) h.int
    rw [← h1] at hs
    refine ⟨hk.active.trans h.act, hk.interval.trans h.int, ?_, ?_, ht.2.1⟩
    · rcases hs with ⟨e, _⟩ | ⟨e, _⟩
      · rw [e]; exact hge
      · rw [e, ← hnow]; exact Nat.le_trans hge (Nat.le_trans hle ht.1)
    · rcases hs with ⟨e, _⟩ | ⟨e, _⟩
      · rw [e]; exact Nat.le_trans hle ht.1
      · rw [e, ← hnow]; exact Nat.le_refl _
  | init t rest hnow ht' h1 h2 gap act ka int hes hr =>
    exact ⟨act, int.trans h.int, by rw [ka]; exact hge, by rw [ka]; exact Nat.le_trans hle ht.1,
      ht.2.1⟩
  | fresh h0 hl hes =>
    rw [h.act] at h0
    cases h0

theorem KaInv.run (co : Nat → Nat → Nat) (j t1 : Nat) (ops : List Op) :
    ∀ (d : Dev), KaInv d j t1 → ClockOk d.now ops → KaInv (drun co d ops).1 j t1 := by
  induction ops with
  | nil => intro d h _; exact h
  | cons o os ih =>
    intro d h hc
    exact ih _ (h.step hc) (ClockOk.tail (co := co) h.bound hc).2.2.1

/-- **C50 (without a persistent interval).**  A peer configured without a persistent keepalive
interval gets keepalives from the timers at least 10 s apart, whatever happens in between. -/
theorem keepalive_spacing_partial (co : Nat → Nat → Nat) (pre mid : List Op) {t1 t2 j : Nat}
    (hc : ClockOk 0 (pre ++ .poll t1 :: (mid ++ [.poll t2]))) (h0 : 0 < t1)
    (hi : (peerOf (after co pre) j).interval = 0)
    (h1 : KeepaliveAt co pre t1 j) (h2 : KeepaliveAt co (pre ++ .poll t1 :: mid) t2 j) :
    t1 + 10000 ≤ t2 := by
  have c1 := clock_append co pre _ Dev.init (by decide) hc
  have hb := c1.2.2
  have ct := ClockOk.tail (co := co) hb c1.2.1
  have k1 := poll_ka h1
  have hact : (peerOf (after co pre) j).active = true := by
    by_cases ha : (peerOf (after co pre) j).active = true
    · exact ha
    · have ha' : (peerOf (after co pre) j).active = false := by simpa using ha
      exfalso
      unfold tick at k1
      rw [if_pos ha'] at k1
      exact nil_noKA k1
  have hk := tick_keep (co j) t1 (peerOf (after co pre) j)
  have hnow : (step co (after co pre) (.poll t1)).1.now = t1 := rfl
  have inv : KaInv (step co (after co pre) (.poll t1)).1 j t1 := by
    rcases tick_spec (co j) t1 (peerOf (after co pre) j) hi with ⟨_, n⟩ | ⟨e, _⟩
    · exact absurd k1 n
    · refine ⟨?_, ?_, ?_, ?_, ct.2.1⟩ <;> rw [poll_peer]
      · exact hk.active.trans hact
      · exact hk.interval.trans hi
      · exact Nat.le_of_eq e.symm
      · exact Nat.le_of_eq e
  have c2 := clock_append co mid [.poll t2] _ ct.2.1 ct.2.2.1
  have inv2 := KaInv.run co j t1 mid _ inv c2.1
  have k2 := poll_ka h2
  have ed : after co (pre ++ .poll t1 :: mid) =
      (drun co (step co (after co pre) (.poll t1)).1 mid).1 := drun_append co pre _ Dev.init
  rw [ed] at k2
  rcases tick_spec (co j) t2 _ inv2.int with ⟨_, n⟩ | ⟨_, g⟩
  · exact absurd k2 n
  · have hge := inv2.ge
    have hle := inv2.le
    have h22 := c2.2.1
    rcases g with g | g
    · omega
    · have := sub64_ge g (Nat.le_trans hle h22.1) h22.2.1
      omega

/-- A session in use: the peer answered our handshake, then sent data twice. -/
def kaOps (interval : Nat) : List Op :=
  [.poll 1000, .addPeer 77 51820 interval, .addAllowed 0 0x0A000000 8, .output (demoPkt 9),
   .response .valid 1 true 5 77 51820]

/-- Non-vacuity of `keepalive_spacing_partial`: data arriving 20 s and 30 s later is acknowledged
by two timer keepalives. -/
example : let pre := kaOps 0 ++ [.poll 20000, .data 1 3 (fun _ => some (demoReply 9)) 77 51820]
    let mid : List Op := [.poll 30000, .data 1 4 (fun _ => some (demoReply 9)) 77 51820]
    ClockOk 0 (pre ++ .poll 21000 :: (mid ++ [.poll 31000])) ∧
    (peerOf (after demoCoins pre) 0).interval = 0 ∧ KeepaliveAt demoCoins pre 21000 0 ∧
    KeepaliveAt demoCoins (pre ++ .poll 21000 :: mid) 31000 0 := by
  refine ⟨by simp [ClockOk, kaOps], by decide +kernel, ⟨1, 1, 77, 51820, by decide +kernel⟩,
    ⟨1, 2, 77, 51820, by decide +kernel⟩⟩

/-- **C50 is violated.**  With a persistent keepalive interval of 25 s, an idle session sends a
keepalive on every single poll once 25 s have passed: three in three milliseconds. -/
theorem persistent_keepalive_every_poll :
    effects demoCoins (kaOps 25 ++ [.poll 26000, .poll 26001, .poll 26002]) =
      [(1000, 0, .init), (1000, 0, .session 1 true),
       (1000, 0, .enc 1 0 (pad (demoPkt 9)) 77 51820),
       (26000, 0, .enc 1 1 [] 77 51820), (26001, 0, .enc 1 2 [] 77 51820),
       (26002, 0, .enc 1 3 [] 77 51820)] := by
  decide +kernel

/-! ## C64: pacing of our own initiations -/

theorem sendHsInit_hs (co : Nat → Nat) (now : Nat) (p : Peer) :
    (Ev.init ∈ (sendHsInit co now p).2 → (sendHsInit co now p).1.hs = .createdInit ∧
      (sendHsInit co now p).1.tInitiated = now) := by
  unfold sendHsInit sendInit createInit
  by_cases h : co (resetHs p).ptr = 0
  · simp only [h, if_true]
    intro c; cases c
  · simp only [h, if_false]
    intro _
    exact ⟨rfl, rfl⟩

theorem tmRekey_hs (co : Nat → Nat) (now : Nat) (p : Peer) (h : p.hs ≠ .zeroed) :
    tmRekey co now p = (p, []) := by
  unfold tmRekey
  split
  · rfl
  · rw [if_pos (Or.inr (Or.inr h))]

theorem tmStale_hs (co : Nat → Nat) (now : Nat) (p : Peer) (h : p.hs ≠ .zeroed) :
    tmStale co now p = (p, []) := by
  unfold tmStale
  rw [if_pos (Or.inr (Or.inl h))]

theorem sendKeepalive_hs (co : Nat → Nat) (now : Nat) (p : Peer) :
    (sendKeepalive co now p).1.hs = p.hs ∧ Ev.init ∉ (sendKeepalive co now p).2 := by
  unfold sendKeepalive
  split
  · exact ⟨rfl, by simp⟩
  · dsimp only
    (repeat' split) <;> exact ⟨rfl, by simp⟩

theorem tmPassive_hs (co : Nat → Nat) (now : Nat) (p : Peer) :
    (tmPassive co now p).1.hs = p.hs ∧ Ev.init ∉ (tmPassive co now p).2 := by
  unfold tmPassive
  split
  · exact ⟨rfl, by simp⟩
  · split
    · exact ⟨rfl, by simp⟩
    · split
      · exact ⟨rfl, by simp⟩
      · split
        · exact ⟨rfl, by simp⟩
        · split
          · exact ⟨rfl, by simp⟩
          · exact sendKeepalive_hs co now p

theorem tmPersistent_init (co : Nat → Nat) (now : Nat) (p : Peer) :
    Ev.init ∉ (tmPersistent co now p).2 := by
  unfold tmPersistent
  split
  · simp
  · split
    · simp
    · split
      · simp
      · exact (sendKeepalive_hs co now p).2

/-- **C64 (unanswered initiations).**  While an initiation of ours is unanswered and fewer than 18
have been tried, a poll sends another one only if the last was sent at least 5 s ago. -/
theorem retransmit_paced_partial (co : Nat → Nat) (now : Nat) (p : Peer)
    (h1 : p.hs = .createdInit) (h2 : p.attempts < 18) (h3 : p.tInitiated ≤ now)
    (h4 : now < 2 ^ 64) (h0 : p.tInitiated ≠ 0) (hs : Ev.init ∈ (tick co now p).2) :
    p.tInitiated + 5000 ≤ now := by
  by_cases hge : p.tInitiated + 5000 ≤ now
  · exact hge
  exfalso
  have hsub : ¬ sub64 now p.tInitiated ≥ rekeyTimeoutMs := by
    intro c
    exact hge (sub64_ge c h3 h4)
  have hr : tmRetransmit co now p = (p, []) := by
    unfold tmRetransmit
    rw [if_neg (by simp [h1, h0]), if_neg (by omega), if_neg hsub]
  unfold tick at hs
  split at hs
  · cases hs
  · dsimp only at hs
    have k2 := tmPassive_hs co now (tmRetransmit co now p).1
    have e1 : (tmRetransmit co now p).2 = [] := by rw [hr]
    have hp : (tmRetransmit co now p).1.hs = .createdInit := by rw [hr]; exact h1
    generalize tmRetransmit co now p = r1 at *
    generalize tmPassive co now r1.1 = r2 at *
    have hz : r2.1.hs ≠ .zeroed := by rw [k2.1, hp]; intro c; cases c
    rw [tmRekey_hs co now r2.1 hz] at hs
    dsimp only at hs
    rw [tmStale_hs co now r2.1 hz] at hs
    dsimp only at hs
    rw [e1, List.nil_append, List.append_nil, List.append_nil] at hs
    rcases List.mem_append.mp hs with hs | hs
    · exact k2.2 hs
    · exact tmPersistent_init co now _ hs

/-- Non-vacuity: an unanswered initiation sent at 1000 is repeated at 6000, not at 5999. -/
example : let ops := (kaOps 0).take 4
    let p := peerOf (after demoCoins ops) 0
    p.hs = .createdInit ∧ p.attempts = 1 ∧ p.tInitiated = 1000 ∧
    Ev.init ∈ (tick (demoCoins 0) 6000 p).2 ∧ Ev.init ∉ (tick (demoCoins 0) 5999 p).2 := by
  decide +kernel

/-- **C64 is violated.**  Once a session we initiated is 120 s old, every data packet sends
another initiation: three in the same millisecond. -/
theorem initiation_per_packet :
    effects demoCoins (kaOps 0 ++ [.poll 121000, .output (demoPkt 1), .output (demoPkt 2)]) =
      [(1000, 0, .init), (1000, 0, .session 1 true),
       (1000, 0, .enc 1 0 (pad (demoPkt 9)) 77 51820), (121000, 0, .init),
       (121000, 0, .enc 1 1 (pad (demoPkt 1)) 77 51820), (121000, 0, .init),
       (121000, 0, .enc 1 2 (pad (demoPkt 2)) 77 51820), (121000, 0, .init)] := by
  decide +kernel

end Wolf.Wg
