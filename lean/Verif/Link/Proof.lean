import Verif.Link.Model
import Verif.Esp.Wrap
/-! # C39, C40: proofs -/
namespace Wolf.Link

/-! ## C40 -/

structure Inv (devs : List Dev) (m : Nat → Option Vlan) : Prop where
  par : ∀ (i : Nat) (d : Dev) (v : Vlan), devs[i]? = some d → d.vlan = some v →
    (∃ p, devs[v.parent]? = some p ∧ p.vlan = none ∧ p.send = true ∧ p.nonEth = false) ∧ d.nonEth = false ∧ v.vid ≤ 4094 ∧ v.pcp ≤ 7 ∧ v.dei ≤ 1
  uniq : ∀ (i j : Nat) (di dj : Dev) (vi vj : Vlan), devs[i]? = some di → devs[j]? = some dj → di.vlan = some vi → dj.vlan = some vj →
    vi.parent = vj.parent → vi.vid = vj.vid → i = j
  know : ∀ i, m i = (devs[i]?).bind (·.vlan)

theorem get_set {devs : List Dev} {k : Nat} {x : Dev} (i : Nat) (hk : k < devs.length) :
    (devs.set k x)[i]? = if i = k then some x else devs[i]? := by
  by_cases h : i = k
  · subst h; rw [if_pos rfl, List.getElem?_set_self hk]
  · rw [if_neg h, List.getElem?_set_ne (Ne.symm h)]

/-- What a successful create did. -/
theorem create_spec (devs : List Dev) (parent vid pcp dei : Nat) (devs' : List Dev) (k : Nat) (h : vlanCreate devs parent vid pcp dei = some (devs', k)) :
    ∃ p c, devs[parent]? = some p ∧ p.vlan = none ∧ p.send = true ∧ p.nonEth = false ∧ vid ≤ 4094 ∧ pcp ≤ 7 ∧ dei ≤ 1 ∧
      (∀ d ∈ devs, ∀ v, d.vlan = some v → ¬ (v.parent = parent ∧ v.vid = vid)) ∧ k ≠ parent ∧ devs[k]? = some c ∧ c.vlan = none ∧ c.send = false ∧
      devs' = devs.set k { mac := p.mac, nonEth := p.nonEth, vlan := some { parent := parent, vid := vid, pcp := pcp, dei := dei } } := by
  rw [vlanCreate.eq_def] at h
  cases hp : devs[parent]? with
  | none => rw [hp] at h; simp at h
  | some p =>
    rw [hp] at h
    simp only at h
    split at h
    · simp at h
    rename_i h1
    split at h
    · simp at h
    rename_i h2
    split at h
    · simp at h
    rename_i h3
    split at h
    · simp at h
    rename_i h4
    split at h
    · simp at h
    rename_i h5
    split at h
    · simp at h
    rename_i h6
    split at h
    · simp at h
    rename_i h7
    split at h
    · simp at h
    split at h
    · simp at h
    · rename_i k' hf
      simp only [Option.some.injEq, Prod.mk.injEq] at h
      obtain ⟨rfl, rfl⟩ := h
      have hf' := List.find?_some hf
      simp only [Bool.and_eq_true, decide_eq_true_eq] at hf'
      obtain ⟨g1, g2⟩ := hf'
      cases hc : devs[k']? with
      | none => rw [hc] at g2; simp at g2
      | some c =>
        rw [hc] at g2
        simp only [Bool.and_eq_true, decide_eq_true_eq, Bool.not_eq_true'] at g2
        refine ⟨p, c, rfl, by simpa using h1, by simpa using h2, by simpa using h3, by omega, by omega, by omega, ?_, g1, rfl, g2.1.1, g2.1.2, rfl⟩
        intro d hd v hv hpv
        apply h7
        rw [List.any_eq_true]
        exact ⟨d, hd, by simp [isSub, hv, hpv]⟩

theorem delete_spec (devs : List Dev) (i : Nat) (devs' : List Dev) (h : vlanDelete devs i = some devs') :
    ∃ d v, devs[i]? = some d ∧ d.vlan = some v ∧ devs' = devs.set i {} := by
  rw [vlanDelete.eq_def] at h
  cases hd : devs[i]? with
  | none => rw [hd] at h; simp at h
  | some d =>
    rw [hd] at h
    simp only at h
    split at h
    · simp at h
    · rename_i hv
      simp at h
      cases hv' : d.vlan with
      | none => exact absurd hv' hv
      | some v => exact ⟨d, v, rfl, hv', h.symm⟩

theorem mtuSet_spec (devs : List Dev) (i m : Nat) (devs' : List Dev) (h : mtuSet devs i m = some devs') :
    ∃ d m', devs[i]? = some d ∧ devs' = devs.set i { d with mtu := m' } ∧ linkMtuMin ≤ m' ∧ m' ≤ linkMtu ∧
      (linkMtuMin ≤ m → m ≤ linkMtu → m' = m) := by
  rw [mtuSet.eq_def] at h
  cases hd : devs[i]? with
  | none => rw [hd] at h; simp at h
  | some d =>
    rw [hd] at h
    simp only [Option.some.injEq] at h
    refine ⟨d, _, rfl, h.symm, ?_⟩
    refine ⟨?_, ?_, ?_⟩ <;> (repeat' split) <;> omega

theorem inv_step (devs : List Dev) (m : Nat → Option Vlan) (o : Op) (h : Inv devs m) : Inv (step devs o).1 (know m o (step devs o).2) := by
  have lt : ∀ (i : Nat) (d : Dev), devs[i]? = some d → i < devs.length := fun i d hd => (List.getElem?_eq_some_iff.mp hd).1
  cases o with
  | create parent vid pcp dei =>
    simp only [step]
    cases hc : vlanCreate devs parent vid pcp dei with
    | none => exact h
    | some x =>
      obtain ⟨devs', k⟩ := x
      simp only
      obtain ⟨p, c, hp, p1, p2, p3, v1, v2, v3, hno, hkp, hk, c1, c2, rfl⟩ := create_spec _ _ _ _ _ _ _ hc
      have hkl := lt k c hk
      -- a live sub-interface of the old table
      have old : ∀ (i : Nat) (d : Dev) (v : Vlan), devs[i]? = some d → d.vlan = some v → v.parent ≠ k := by
        intro i d v hd hv hvk
        obtain ⟨⟨q, q1, q2, q3, q4⟩, _⟩ := h.par i d v hd hv
        rw [hvk, hk] at q1
        simp at q1; rw [← q1, c2] at q3; simp at q3
      refine ⟨?_, ?_, ?_⟩
      · intro i d v hd hv
        rw [get_set i hkl] at hd
        by_cases hik : i = k
        · rw [if_pos hik] at hd
          simp at hd; subst hd
          simp at hv; subst hv
          exact ⟨⟨p, by rw [get_set _ hkl, if_neg (Ne.symm hkp)]; exact hp, p1, p2, p3⟩, p3, v1, v2, v3⟩
        · rw [if_neg hik] at hd
          obtain ⟨⟨q, q1, q2⟩, q3⟩ := h.par i d v hd hv
          exact ⟨⟨q, by rw [get_set _ hkl, if_neg (old i d v hd hv)]; exact q1, q2⟩, q3⟩
      · intro i j di dj vi vj hi hj hvi hvj e1 e2
        rw [get_set i hkl] at hi
        rw [get_set j hkl] at hj
        by_cases hik : i = k
        · by_cases hjk : j = k
          · omega
          · rw [if_pos hik] at hi
            rw [if_neg hjk] at hj
            simp at hi; subst hi
            simp at hvi; subst hvi
            exact absurd ⟨e1.symm, e2.symm⟩ (hno dj (List.mem_of_getElem? hj) vj hvj)
        · by_cases hjk : j = k
          · rw [if_neg hik] at hi
            rw [if_pos hjk] at hj
            simp at hj; subst hj
            simp at hvj; subst hvj
            exact absurd ⟨e1, e2⟩ (hno di (List.mem_of_getElem? hi) vi hvi)
          · rw [if_neg hik] at hi
            rw [if_neg hjk] at hj
            exact h.uniq i j di dj vi vj hi hj hvi hvj e1 e2
      · intro i
        rw [get_set i hkl]
        simp only [know]
        by_cases hik : i = k
        · simp [hik]
        · simp [hik, h.know i]
  | delete i =>
    simp only [step]
    cases hc : vlanDelete devs i with
    | none => exact h
    | some devs' =>
      simp only
      obtain ⟨d0, v0, hd0, hv0, rfl⟩ := delete_spec _ _ _ hc
      have hil := lt i d0 hd0
      refine ⟨?_, ?_, ?_⟩
      · intro j d v hd hv
        rw [get_set j hil] at hd
        by_cases hji : j = i
        · rw [if_pos hji] at hd; simp at hd; subst hd; simp at hv
        · rw [if_neg hji] at hd
          obtain ⟨⟨q, q1, q2, q3⟩, q4⟩ := h.par j d v hd hv
          refine ⟨⟨q, ?_, q2, q3⟩, q4⟩
          rw [get_set _ hil, if_neg]
          · exact q1
          · intro e; rw [e, hd0] at q1; simp at q1; rw [← q1, hv0] at q2; simp at q2
      · intro a b da db va vb ha hb hva hvb e1 e2
        rw [get_set a hil] at ha
        rw [get_set b hil] at hb
        split at ha
        · simp at ha; subst ha; simp at hva
        split at hb
        · simp at hb; subst hb; simp at hvb
        exact h.uniq a b da db va vb ha hb hva hvb e1 e2
      · intro j
        rw [get_set j hil]
        simp only [know]
        by_cases hji : j = i
        · simp [hji]
        · simp [hji, h.know j]
  | mtu i mt =>
    simp only [step]
    cases hc : mtuSet devs i mt with
    | none => exact h
    | some devs' =>
      simp only
      obtain ⟨d0, m', hd0, rfl, _⟩ := mtuSet_spec _ _ _ _ hc
      have hil := lt i d0 hd0
      have same : ∀ (j : Nat) (d : Dev), (devs.set i { d0 with mtu := m' })[j]? = some d →
          ∃ d', devs[j]? = some d' ∧ d.vlan = d'.vlan ∧ d.send = d'.send ∧ d.nonEth = d'.nonEth := by
        intro j d hd
        rw [get_set j hil] at hd
        by_cases hji : j = i
        · rw [if_pos hji] at hd; simp at hd; subst hd; exact ⟨d0, by rw [hji]; exact hd0, rfl, rfl, rfl⟩
        · rw [if_neg hji] at hd; exact ⟨d, hd, rfl, rfl, rfl⟩
      refine ⟨?_, ?_, ?_⟩
      · intro j d v hd hv
        obtain ⟨d', hd', e1, e2, e3⟩ := same j d hd
        obtain ⟨⟨q, q1, q2, q3, q4⟩, q5, q6⟩ := h.par j d' v hd' (by rw [← e1]; exact hv)
        refine ⟨?_, by rw [e3]; exact q5, q6⟩
        by_cases hp : v.parent = i
        · rw [hp, hd0] at q1; simp at q1; subst q1
          exact ⟨{ d0 with mtu := m' }, by rw [get_set _ hil, if_pos hp], q2, q3, q4⟩
        · exact ⟨q, by rw [get_set _ hil, if_neg hp]; exact q1, q2, q3, q4⟩
      · intro a b da db va vb ha hb hva hvb e1 e2
        obtain ⟨da', hda, f1, _⟩ := same a da ha
        obtain ⟨db', hdb, f2, _⟩ := same b db hb
        exact h.uniq a b da' db' va vb hda hdb (by rw [← f1]; exact hva) (by rw [← f2]; exact hvb) e1 e2
      · intro j
        have hm : know m (.mtu i mt) (some i) = m := rfl
        rw [hm, h.know j, get_set j hil]
        by_cases hji : j = i
        · subst hji; simp [hd0]
        · simp [hji]

theorem inv_run : ∀ (os : List Op) (devs : List Dev) (m : Nat → Option Vlan), Inv devs m → Inv (run devs m os).1 (run devs m os).2 := by
  intro os
  induction os with
  | nil => intro devs m h; exact h
  | cons o os ih => intro devs m h; exact ih _ _ (inv_step devs m o h)

theorem inv_fresh (devs : List Dev) (h : Fresh devs) : Inv devs (fun _ => none) := by
  have no : ∀ (i : Nat) (d : Dev), devs[i]? = some d → d.vlan = none := fun i d hd => h d (List.mem_of_getElem? hd)
  refine ⟨?_, ?_, ?_⟩
  · intro i d v hd hv; rw [no i d hd] at hv; simp at hv
  · intro i j di dj vi vj hi hj hvi; rw [no i di hi] at hvi; simp at hvi
  · intro i
    cases hd : devs[i]? with
    | none => rfl
    | some d => simp [no i d hd]

/-- **C40, table.** After any history of create, delete and MTU calls on a table of physical devices:
`vlan_get` returns exactly what the successful calls created and did not delete since, and no two live
sub-interfaces have the same parent and VID. -/
theorem vlan_table_exact (devs : List Dev) (h : Fresh devs) (os : List Op) :
    (∀ i, vlanGet (run devs (fun _ => none) os).1 i = (run devs (fun _ => none) os).2 i) ∧
    ∀ i j vi vj, (run devs (fun _ => none) os).2 i = some vi → (run devs (fun _ => none) os).2 j = some vj →
      vi.parent = vj.parent → vi.vid = vj.vid → i = j := by
  have hi := inv_run os devs _ (inv_fresh devs h)
  generalize hr : run devs (fun _ => none) os = r at hi
  obtain ⟨ds, m⟩ := r
  simp only at hi ⊢
  constructor
  · intro i
    rw [hi.know i, vlanGet.eq_def]
    cases hd : ds[i]? with
    | none => rfl
    | some d =>
      simp only [Option.bind_some]
      cases hv : d.vlan with
      | none => rfl
      | some v =>
        obtain ⟨⟨p, hp, _⟩, _⟩ := hi.par i d v hd hv
        simp only
        rw [if_pos (List.getElem?_eq_some_iff.mp hp).1]
  · intro i j vi vj h1 h2
    rw [hi.know] at h1 h2
    cases hd : ds[i]? with
    | none => rw [hd] at h1; simp at h1
    | some di =>
      cases hd' : ds[j]? with
      | none => rw [hd'] at h2; simp at h2
      | some dj =>
        rw [hd] at h1; rw [hd'] at h2
        exact hi.uniq i j di dj vi vj hd hd' (by simpa using h1) (by simpa using h2)

theorem tci_vid (v : Vlan) (h : v.vid ≤ 4094) : (tci v / 256 * 256 + tci v % 256) % 4096 = v.vid := by
  rw [tci]; omega

/-- **C40, tagging.** A frame accepted for transmission on a sub-interface goes out on its parent with exactly
the tag inserted after the addresses, and arriving at that parent it is handled, as it was sent, for that
sub-interface. -/
theorem vlan_round_trip (devs : List Dev) (h : Fresh devs) (os : List Op) (i : Nat) (v : Vlan) (buf : List Nat) (j : Nat) (w : List Nat)
    (hv : (run devs (fun _ => none) os).2 i = some v) (hs : sendFrame (run devs (fun _ => none) os).1 i buf = some (j, w)) :
    j = v.parent ∧ w = buf.take 12 ++ [0x81, 0x00, tci v / 256, tci v % 256] ++ buf.drop 12 ∧
    tci v = v.pcp * 8192 + v.dei * 4096 + v.vid ∧
    demux (run devs (fun _ => none) os).1 v.parent w = some (i, buf) := by
  have hi := inv_run os devs _ (inv_fresh devs h)
  generalize run devs (fun _ => none) os = r at hi hv hs
  obtain ⟨ds, m⟩ := r
  simp only at hi hv hs ⊢
  rw [hi.know] at hv
  cases hd : ds[i]? with
  | none => rw [hd] at hv; simp at hv
  | some d =>
    rw [hd] at hv
    simp at hv
    obtain ⟨⟨p, p1, p2, p3, p4⟩, d1, v1, v2, v3⟩ := hi.par i d v hd hv
    rw [sendFrame.eq_def, hd] at hs
    simp only [hv, d1, p1, reduceCtorEq, false_and, if_false, Bool.false_eq_true] at hs
    split at hs
    · simp at hs
    split at hs
    · simp at hs
    rename_i h14
    split at hs
    · simp at hs
    split at hs
    · simp at hs
    simp only [Option.some.injEq, Prod.mk.injEq] at hs
    obtain ⟨rfl, rfl⟩ := hs
    refine ⟨rfl, rfl, ?_, ?_⟩
    · rw [tci]; omega
    rw [demux.eq_def, p1]
    have ht : (buf.take 12).length = 12 := by rw [List.length_take]; omega
    have hl : (buf.take 12 ++ [0x81, 0x00, tci v / 256, tci v % 256] ++ buf.drop 12).length = buf.length + 4 := by simp; omega
    have g : ∀ k x, (k < 4) → [0x81, 0x00, tci v / 256, tci v % 256][k]? = some x → (buf.take 12 ++ [0x81, 0x00, tci v / 256, tci v % 256] ++ buf.drop 12).getD (12 + k) 0 = x := by
      intro k x hk hx
      rw [List.getD_eq_getElem?_getD, List.getElem?_append_left (by simp; omega), List.getElem?_append_right (by omega), ht, show 12 + k - 12 = k by omega, hx]
      rfl
    have g0 := g 0 0x81 (by omega) rfl
    have g1 := g 1 0x00 (by omega) rfl
    have g2 := g 2 (tci v / 256) (by omega) rfl
    have g3 := g 3 (tci v % 256) (by omega) rfl
    simp only [Nat.add_zero] at g0
    simp only [show 12 + 1 = 13 from rfl] at g1
    simp only [show 12 + 2 = 14 from rfl] at g2
    simp only [show 12 + 3 = 15 from rfl] at g3
    simp only [p4, Bool.false_eq_true, if_false, g0, g1, g2, g3, and_self, if_true]
    rw [hl, if_neg (by omega), if_neg (by omega), tci_vid v v1]
    have hf : ds.findIdx? (isSub v.parent v.vid) = some i := by
      rw [List.findIdx?_eq_some_iff_getElem]
      have hil := (List.getElem?_eq_some_iff.mp hd).1
      have hie : ds[i] = d := (List.getElem?_eq_some_iff.mp hd).2
      refine ⟨hil, ?_, ?_⟩
      · simp [isSub, hie, hv]
      · intro k hk
        have hkl : k < ds.length := by omega
        cases hvk : ds[k].vlan with
        | none => simp [isSub, hvk]
        | some vk =>
          simp only [isSub, hvk, decide_eq_true_eq]
          intro he
          have := hi.uniq k i ds[k] d vk v (List.getElem?_eq_getElem hkl) hd hvk hv he.1 he.2
          omega
    rw [hf]
    simp only [Option.some.injEq, Prod.mk.injEq, true_and]
    rw [List.append_assoc, List.take_left' ht, ← List.append_assoc]
    rw [List.drop_left' (by simp; omega)]
    exact List.take_append_drop 12 buf

/-- **C40, isolation.** A frame arriving at an Ethernet interface is handled for another interface `j` only if
it carries the 802.1Q tag of `j` and `j` is a live sub-interface of that interface; without the 802.1Q type it
is handled for the interface itself, unchanged. -/
theorem vlan_isolation (devs : List Dev) (h : Fresh devs) (os : List Op) (i : Nat) (d : Dev) (hd : (run devs (fun _ => none) os).1[i]? = some d) (hE : d.nonEth = false)
    (w : List Nat) (j : Nat) (b : List Nat)
    (hr : demux (run devs (fun _ => none) os).1 i w = some (j, b)) :
    (w.getD 12 0 = 0x81 ∧ w.getD 13 0 = 0x00 ∧ ∃ v, (run devs (fun _ => none) os).2 j = some v ∧ v.parent = i ∧
        v.vid = (w.getD 14 0 * 256 + w.getD 15 0) % 4096 ∧ b = w.take 12 ++ w.drop 16) ∨
    (¬ (w.getD 12 0 = 0x81 ∧ w.getD 13 0 = 0x00) ∧ j = i ∧ b = w) := by
  have hi := inv_run os devs _ (inv_fresh devs h)
  generalize run devs (fun _ => none) os = r at hi hd hr
  obtain ⟨ds, m⟩ := r
  simp only at hi hd hr ⊢
  rw [demux.eq_def, hd] at hr
  simp only [hE, Bool.false_eq_true, if_false] at hr
  split at hr
  · simp at hr
  split at hr
  · rename_i ht
    split at hr
    · simp at hr
    split at hr
    · simp at hr
    · rename_i k hf
      simp only [Option.some.injEq, Prod.mk.injEq] at hr
      obtain ⟨rfl, rfl⟩ := hr
      rw [List.findIdx?_eq_some_iff_getElem] at hf
      obtain ⟨hkl, hkv, _⟩ := hf
      left
      refine ⟨ht.1, ht.2, ?_⟩
      cases hv : ds[k].vlan with
      | none => simp [isSub, hv] at hkv
      | some v =>
        simp only [isSub, hv, decide_eq_true_eq] at hkv
        exact ⟨v, by rw [hi.know, List.getElem?_eq_getElem hkl]; exact hv, hkv.1, hkv.2, rfl⟩
  · rename_i ht
    simp only [Option.some.injEq, Prod.mk.injEq] at hr
    exact Or.inr ⟨ht, hr.1.symm, hr.2.symm⟩

/-! ## C39 -/

theorem frameMtu_phys (devs : List Dev) (i : Nat) (d : Dev) (hd : devs[i]? = some d) (hv : d.vlan = none) : frameMtu devs i = physMtu d := by
  rw [frameMtu, frameMtuF.eq_def]; simp [hd, hv]

theorem frameMtu_vlan (devs : List Dev) (i : Nat) (d : Dev) (v : Vlan) (p : Dev) (hd : devs[i]? = some d) (hv : d.vlan = some v) (hp : devs[v.parent]? = some p) (hpv : p.vlan = none) :
    frameMtu devs i = if physMtu p > tagLen then physMtu p - tagLen else 0 := by
  have hl : 0 < devs.length := by have := (List.getElem?_eq_some_iff.mp hd).1; omega
  obtain ⟨n, hn⟩ : ∃ n, devs.length = n + 1 := ⟨devs.length - 1, by omega⟩
  have hp' : frameMtuF devs devs.length v.parent = physMtu p := by rw [hn, frameMtuF.eq_def]; simp [hp, hpv]
  rw [frameMtu, frameMtuF.eq_def]; simp only [hd, hv, hp']

theorem physMtu_range (d : Dev) : linkMtuMin ≤ physMtu d ∧ physMtu d ≤ linkMtu := by
  simp only [physMtu]
  refine ⟨?_, ?_⟩ <;> (repeat' split) <;> omega

/-- **C39, frames.** Whatever the device table, the interface and the bytes: a frame handed to a driver by
`ll_send_frame` is at most that interface's MTU (for an interface without Ethernet header, the MTU minus the
header). -/
theorem frame_fits_mtu (devs : List Dev) (i : Nat) (buf : List Nat) (j : Nat) (w : List Nat) (h : sendFrame devs i buf = some (j, w)) :
    w.length ≤ frameMtu devs j ∧ (∀ d, devs[j]? = some d → d.nonEth = true → w.length + ethHdr ≤ frameMtu devs j ∨ i ≠ j) := by
  rw [sendFrame.eq_def] at h
  cases hd : devs[i]? with
  | none => rw [hd] at h; simp at h
  | some d =>
    rw [hd] at h
    simp only at h
    split at h
    · simp at h
    split at h
    · simp at h
    rename_i hlen
    split at h
    · split at h
      · simp at h
      · rename_i h14
        simp only [Option.some.injEq, Prod.mk.injEq] at h
        obtain ⟨rfl, rfl⟩ := h
        rw [List.length_drop]
        exact ⟨by omega, fun _ _ _ => Or.inl (by omega)⟩
    rename_i hne
    split at h
    · rename_i v hv
      split at h
      · simp at h
      · rename_i p hp
        split at h
        · simp at h
        rename_i h14
        split at h
        · simp at h
        split at h
        · simp at h
        rename_i hm
        simp only [Option.some.injEq, Prod.mk.injEq] at h
        obtain ⟨rfl, rfl⟩ := h
        refine ⟨by simp; omega, fun d' hd' hn => Or.inr ?_⟩
        intro e
        rw [← e, hd] at hd'
        simp at hd'
        rw [hd', hn] at hne
        simp at hne
    · simp only [Option.some.injEq, Prod.mk.injEq] at h
      obtain ⟨rfl, rfl⟩ := h
      refine ⟨by omega, fun d' hd' hn => ?_⟩
      rw [hd] at hd'
      simp at hd'
      rw [hd', hn] at hne
      simp at hne

/-- **C39, the setting.** After any history, the MTU reported for a physical interface lies in
[64, 1536] and a setting within that range is reported back exactly; a sub-interface has 4 bytes less than
its parent. -/
theorem mtu_clamped (devs : List Dev) (h : Fresh devs) (os : List Op) (i : Nat) (hi : i < (run devs (fun _ => none) os).1.length) :
    (∃ m, mtuGet (run devs (fun _ => none) os).1 i = some m ∧
      match (run devs (fun _ => none) os).2 i with
      | none => linkMtuMin ≤ m ∧ m ≤ linkMtu
      | some v => mtuGet (run devs (fun _ => none) os).1 v.parent = some (m + 4)) ∧
    ∀ m ds', mtuSet (run devs (fun _ => none) os).1 i m = some ds' → (run devs (fun _ => none) os).2 i = none → linkMtuMin ≤ m → m ≤ linkMtu → mtuGet ds' i = some m := by
  have hinv := inv_run os devs _ (inv_fresh devs h)
  generalize run devs (fun _ => none) os = r at hinv hi
  obtain ⟨ds, mp⟩ := r
  simp only at hinv hi ⊢
  have hd : ds[i]? = some ds[i] := List.getElem?_eq_getElem hi
  generalize hde : ds[i] = d at hd
  constructor
  · refine ⟨frameMtu ds i, by rw [mtuGet, if_pos hi], ?_⟩
    rw [hinv.know i, hd]
    simp only [Option.bind_some]
    cases hv : d.vlan with
    | none => simp only; rw [frameMtu_phys ds i d hd hv]; exact physMtu_range d
    | some v =>
      obtain ⟨⟨p, p1, p2, p3⟩, _⟩ := hinv.par i d v hd hv
      simp only
      rw [mtuGet, if_pos (List.getElem?_eq_some_iff.mp p1).1, frameMtu_phys ds v.parent p p1 p2, frameMtu_vlan ds i d v p hd hv p1 p2]
      have := physMtu_range p
      rw [if_pos (by omega)]; congr 1; omega
  · intro m ds' hs hn h1 h2
    obtain ⟨d0, m', hd0, rfl, _, _, he⟩ := mtuSet_spec _ _ _ _ hs
    have hm := he h1 h2
    subst hm
    rw [hd] at hd0; simp at hd0; subst hd0
    have hv : d.vlan = none := by rw [hinv.know i, hd] at hn; simpa using hn
    rw [mtuGet, if_pos (by simpa using hi), frameMtu_phys _ i { d with mtu := m' } (by rw [get_set i hi, if_pos rfl]) hv]
    simp only [physMtu]
    rw [if_neg (show ¬ m' = 0 by omega), if_neg (show ¬ m' > 1536 by omega), if_neg (by omega)]

/-- **C39, TCP.** A data segment of at most the payload cap, with its 12 bytes of options and 20 bytes each of
TCP and IP header, fits the MTU of the interface and 1500 bytes of IP; and is not longer than the peer's MSS
if it announced one. The MSS the stack announces leaves room for both headers. -/
theorem tcp_segment_fits (devs : List Dev) (i peerMss n : Nat) (hn : n ≤ payloadCap devs i peerMss) (hpos : 0 < n) :
    ethHdr + 20 + 20 + 12 + n ≤ frameMtu devs i ∧ 20 + 20 + 12 + n ≤ 1500 ∧ (0 < peerMss → n ≤ peerMss) ∧ n ≤ tcpMss devs i := by
  simp only [payloadCap] at hn
  have hm : ∀ x, x ≤ tcpMss devs i → 0 < x → ethHdr + 40 + x ≤ frameMtu devs i ∧ 40 + x ≤ 1500 := by
    intro x hx h0
    simp only [tcpMss] at hx
    split at hx
    · omega
    rename_i hi
    simp only [ipMtu] at hx hi
    generalize frameMtu devs i = F at *
    by_cases hF : F ≤ 14
    · rw [if_pos hF] at hi; omega
    · rw [if_neg hF] at hx hi
      by_cases h15 : F - 14 > 1500
      · rw [if_pos h15] at hx; omega
      · rw [if_neg h15] at hx; omega
  by_cases ht : tcpMss devs i > 12
  · rw [if_pos ht] at hn
    have hn' : n ≤ tcpMss devs i - 12 := by split at hn <;> omega
    have := hm (12 + n) (by omega) (by omega)
    refine ⟨by omega, by omega, ?_, by omega⟩
    intro hp
    split at hn <;> omega
  · rw [if_neg ht] at hn
    split at hn <;> omega

/-! ### The ESP path -/

/-- `esp_send` hands the wrapped datagram to the driver of the interface directly: the Ethernet header, the
IP header and the wrapped payload, with no length test. src/wolfesp.c 1923–1960. -/
def espSendLen (ipPayloadWrapped : List Nat) : Nat := ethHdr + 20 + ipPayloadWrapped.length

theorem toy_wrap_length (p ji jc : List Nat) (hp : p.length = 1480) (hi : ji.length = 8) (hc : jc.length = 16) :
    ∃ y, (Esp.wrap Esp.toySa Esp.Replay.init p 17 ji jc).2 = some y ∧ y.length = 1516 := by
  have hs : Esp.nextOseq Esp.Replay.init = ({ Esp.Replay.init with oseq := 1 }, some 1) := by decide +kernel
  have hpad : Esp.padLen Esp.toySa p.length = 2 := by rw [hp]; decide
  have hr := Esp.region_length Esp.toySa rfl 1 p 17 ji jc
  rw [hpad, hi, hc, hp] at hr
  generalize hreg : Esp.region Esp.toySa 1 p 17 ji jc = x at hr
  refine ⟨x.take 8 ++ (x.drop 8).map (· + 1), ?_, ?_⟩
  · simp only [Esp.wrap, hs, hreg]
    rw [Esp.toySa]; simp only
    rw [if_pos (by omega)]
  · rw [List.length_append, List.length_take, List.length_map, List.length_drop]; omega

/-- **C39 is false with WOLFIP_ESP.** With an outbound SA, a full-size datagram (1500 bytes of IP, on an
interface of MTU 1514) goes to the driver as a longer frame than the MTU. -/
theorem esp_exceeds_mtu : ∃ y, (Esp.wrap Esp.toySa Esp.Replay.init (List.replicate 1480 7) 17 (List.replicate 8 0) (List.replicate 16 0)).2 = some y ∧
    ethHdr + 20 + (List.replicate 1480 7).length ≤ frameMtu [{ mtu := 1514, send := true }] 0 ∧
    frameMtu [{ mtu := 1514, send := true }] 0 < espSendLen y := by
  have h1 := toy_wrap_length (List.replicate 1480 7) (List.replicate 8 0) (List.replicate 16 0) (by rw [List.length_replicate]) rfl rfl
  obtain ⟨y, hy, hl⟩ := h1
  have hm : frameMtu [{ mtu := 1514, send := true }] 0 = 1514 := by decide
  refine ⟨y, hy, ?_, ?_⟩
  · rw [hm, List.length_replicate]; omega
  · rw [hm, espSendLen, hl]; omega

/-! ## Concrete cases -/

def exDevs : List Dev := [{ mac := [2, 0, 0, 0, 0, 1], send := true, poll := true }, {}, {}]
def exOps : List Op := [.create 0 100 3 1, .create 0 200 0 0, .delete 1, .create 0 300 0 0, .create 0 300 1 0, .mtu 0 1000]
def exFrame : List Nat := [1, 1, 1, 1, 1, 1, 2, 0, 0, 0, 0, 1, 8, 6] ++ List.range 46

example : Fresh exDevs ∧ (run exDevs (fun _ => none) exOps).2 1 = some ⟨0, 300, 0, 0⟩ ∧ (run exDevs (fun _ => none) exOps).2 2 = some ⟨0, 200, 0, 0⟩ ∧
    sendFrame (run exDevs (fun _ => none) exOps).1 1 exFrame =
      some (0, [1, 1, 1, 1, 1, 1, 2, 0, 0, 0, 0, 1, 0x81, 0, 1, 44, 8, 6] ++ List.range 46) ∧
    mtuGet (run exDevs (fun _ => none) exOps).1 1 = some 996 := by
  refine ⟨?_, by decide, by decide, by decide +kernel, by decide⟩
  intro d hd; simp [exDevs] at hd; rcases hd with rfl | rfl <;> rfl

end Wolf.Link
