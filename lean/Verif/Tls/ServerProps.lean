import Verif.Tls.Server
/-! # C129: proofs -/
namespace Wolf.Tls.Srv
open Wolf.Glue

theorem getElem?_set' {α : Type} {l : List α} {i : Nat} {a b : α} (h : l[i]? = some a) (j : Nat) :
    (l.set i b)[j]? = if j = i then some b else l[j]? := by
  have hi := (List.getElem?_eq_some_iff.mp h).1
  split
  · rename_i e; rw [e, List.getElem?_set_self hi]
  · rename_i e; rw [List.getElem?_set_ne (fun e' => e e'.symm)]

theorem isOpen_closed (f fd : Int) (l : List Act) : isOpen fd (.closed f :: l) = if f = fd then false else isOpen fd l := rfl
theorem isOpen_accepted (f fd : Int) (l : List Act) : isOpen fd (.accepted f :: l) = if f = fd then true else isOpen fd l := rfl
theorem isOpen_freed (x : Nat) (fd : Int) (l : List Act) : isOpen fd (.freed x :: l) = isOpen fd l := rfl
theorem isOpen_made (x : Nat) (fd : Int) (l : List Act) : isOpen fd (.made x :: l) = isOpen fd l := rfl
theorem isLive_made (y x : Nat) (l : List Act) : isLive x (.made y :: l) = if y = x then true else isLive x l := rfl
theorem isLive_freed (y x : Nat) (l : List Act) : isLive x (.freed y :: l) = if y = x then false else isLive x l := rfl
theorem isLive_closed (f : Int) (x : Nat) (l : List Act) : isLive x (.closed f :: l) = isLive x l := rfl
theorem isLive_accepted (f : Int) (x : Nat) (l : List Act) : isLive x (.accepted f :: l) = isLive x l := rfl

/-- Everything but the slots. -/
structure Base (ctx st : Nat) (L : List Nat) (ops : List Op) : Prop where
  tidy : Tidy .ssl ops
  reg : stackOf (exec .ssl ops).2 ctx = some st
  ctxs : ∀ c s, .regCtx c s ∈ ops → c ∈ L

structure Inv (n ctx st : Nat) (L : List Nat) (w : W) : Prop where
  base : Base ctx st L w.ops
  len : w.conns.length = n
  free : ∀ (i : Nat) (c : Conn), w.conns[i]? = some c → c.st = .free → c.fd < 0 ∧ c.ssl = none
  occ : ∀ (i : Nat) (c : Conn), w.conns[i]? = some c → c.st ≠ .free → 0 ≤ c.fd ∧ ∃ x, c.ssl = some x ∧ bound x (exec .ssl w.ops).2 = some (st, c.fd)
  inj : ∀ (i j : Nat) (c d : Conn), w.conns[i]? = some c → w.conns[j]? = some d → c.st ≠ .free → d.st ≠ .free → c.fd = d.fd → i = j
  opn : ∀ fd, isOpen fd w.acts = true ↔ ∃ (i : Nat) (c : Conn), w.conns[i]? = some c ∧ c.st ≠ .free ∧ c.fd = fd
  live : ∀ x, isLive x w.acts = true ↔ ∃ (i : Nat) (c : Conn), w.conns[i]? = some c ∧ c.ssl = some x

theorem not_free {n ctx st : Nat} {L : List Nat} {w : W} (h : Inv n ctx st L w) {i x : Nat} {c : Conn} (hi : w.conns[i]? = some c)
    (hs : c.ssl = some x) : c.st ≠ .free := fun e => by
  have := (h.free i c hi e).2; rw [this] at hs; cases hs

theorem ssl_inj {n ctx st : Nat} {L : List Nat} {w : W} (h : Inv n ctx st L w) {i j x : Nat} {c d : Conn} (hi : w.conns[i]? = some c)
    (hj : w.conns[j]? = some d) (hc : c.ssl = some x) (hd : d.ssl = some x) : i = j := by
  have fc := not_free h hi hc
  have fd := not_free h hj hd
  obtain ⟨-, y, e1, b1⟩ := h.occ i c hi fc
  obtain ⟨-, z, e2, b2⟩ := h.occ j d hj fd
  have e1 : y = x := by rw [hc] at e1; exact (Option.some.inj e1).symm
  have e2 : z = x := by rw [hd] at e2; exact (Option.some.inj e2).symm
  rw [e1] at b1; rw [e2, b1] at b2
  exact h.inj i j c d hi hj fc fd (Prod.mk.inj (Option.some.inj b2)).2

/-- Actions other than on sockets and sessions change nothing. -/
theorem inv_acts {n ctx st : Nat} {L : List Nat} {w w' : W} (h : Inv n ctx st L w) (h1 : w'.conns = w.conns) (h2 : w'.ops = w.ops)
    (h3 : ∀ fd, isOpen fd w'.acts = isOpen fd w.acts) (h4 : ∀ x, isLive x w'.acts = isLive x w.acts) : Inv n ctx st L w' :=
  ⟨by rw [h2]; exact h.base, by rw [h1]; exact h.len, by rw [h1]; exact h.free, by rw [h1, h2]; exact h.occ, by rw [h1]; exact h.inj,
    fun fd => by rw [h3, h1]; exact h.opn fd, fun x => by rw [h4, h1]; exact h.live x⟩

theorem base_free {ctx st : Nat} {L : List Nat} {ops : List Op} (h : Base ctx st L ops) (x : Nat) : Base ctx st L (.free x :: .clean x :: ops) := by
  refine ⟨⟨?_, nofun, h.tidy⟩, h.reg, fun c s hm => h.ctxs c s ?_⟩
  · show bound x ((Op.clean x, Res.ok) :: (exec .ssl ops).2) = none
    rw [bound, if_pos rfl]
  · rcases List.mem_cons.mp hm with e | hm
    · cases e
    · rcases List.mem_cons.mp hm with e | hm
      · cases e
      · exact hm

theorem bound_freed (ops : List Op) (x y : Nat) (h : x ≠ y) : bound y (exec .ssl (.free x :: .clean x :: ops)).2 = bound y (exec .ssl ops).2 := by
  show bound y ((Op.free x, Res.ok) :: (Op.clean x, Res.ok) :: (exec .ssl ops).2) = _
  rw [bound, if_neg h, bound, if_neg h]

theorem release_eq {w : W} {i x : Nat} {c : Conn} (hi : w.conns[i]? = some c) (hs : c.ssl = some x) (h0 : 0 ≤ c.fd) :
    release w i = { conns := w.conns.set i {}, ops := .free x :: .clean x :: w.ops, acts := .closed c.fd :: .freed x :: w.acts } := by
  unfold release
  rw [hi]
  dsimp only
  rw [hs]
  dsimp only
  rw [if_pos h0, if_pos h0]

/-- Releasing an occupied slot. -/
theorem inv_release {n ctx st : Nat} {L : List Nat} {w : W} (h : Inv n ctx st L w) {i : Nat} {c : Conn} (hi : w.conns[i]? = some c)
    (hc : c.st ≠ .free) : Inv n ctx st L (release w i) ∧ ∀ j : Nat, (release w i).conns[j]? = if j = i then some {} else w.conns[j]? := by
  obtain ⟨h0, x, hs, hb⟩ := h.occ i c hi hc
  rw [release_eq hi hs h0]
  have g := getElem?_set' (b := ({} : Conn)) hi
  refine ⟨⟨base_free h.base x, (List.length_set ..).trans h.len, ?_, ?_, ?_, ?_, ?_⟩, g⟩
  · intro j d hj hd
    have hj := (g j).symm.trans hj
    split at hj
    · cases hj; exact ⟨by decide, rfl⟩
    · exact h.free j d hj hd
  · intro j d hj hd
    have hj := (g j).symm.trans hj
    split at hj
    · cases hj; exact absurd rfl hd
    · rename_i e
      obtain ⟨d0, y, dy, db⟩ := h.occ j d hj hd
      refine ⟨d0, y, dy, ?_⟩
      rw [← db]
      apply bound_freed
      intro e2
      rw [← e2] at dy
      exact e (ssl_inj h hj hi dy hs)
  · intro j k d f hj hk hd hf e
    have hj := (g j).symm.trans hj
    have hk := (g k).symm.trans hk
    split at hj
    · cases hj; exact absurd rfl hd
    split at hk
    · cases hk; exact absurd rfl hf
    exact h.inj j k d f hj hk hd hf e
  · intro fd
    show isOpen fd (.closed c.fd :: .freed x :: w.acts) = true ↔ _
    rw [isOpen_closed, isOpen_freed]
    constructor
    · intro ho
      split at ho
      · cases ho
      rename_i ne
      obtain ⟨j, d, hj, hd, e⟩ := (h.opn fd).mp ho
      refine ⟨j, d, ?_, hd, e⟩
      show (w.conns.set i {})[j]? = _
      rw [g j, if_neg]
      · exact hj
      · intro e2; subst e2; rw [hi] at hj; cases hj; exact ne e
    · rintro ⟨j, d, hj, hd, e⟩
      have hj := (g j).symm.trans hj
      split at hj
      · cases hj; exact absurd rfl hd
      rename_i ne
      rw [if_neg]
      · exact (h.opn fd).mpr ⟨j, d, hj, hd, e⟩
      · intro e2; exact ne (h.inj j i d c hj hi hd hc (e.trans e2.symm))
  · intro y
    show isLive y (.closed c.fd :: .freed x :: w.acts) = true ↔ _
    rw [isLive_closed, isLive_freed]
    constructor
    · intro ho
      split at ho
      · cases ho
      rename_i ne
      obtain ⟨j, d, hj, e⟩ := (h.live y).mp ho
      refine ⟨j, d, ?_, e⟩
      show (w.conns.set i {})[j]? = _
      rw [g j, if_neg]
      · exact hj
      · intro e2; subst e2; rw [hi] at hj; cases hj; rw [hs] at e; exact ne (Option.some.inj e)
    · rintro ⟨j, d, hj, e⟩
      have hj := (g j).symm.trans hj
      split at hj
      · cases hj; cases e
      rename_i ne
      rw [if_neg]
      · exact (h.live y).mpr ⟨j, d, hj, e⟩
      · intro e2; exact ne (ssl_inj h hj hi (e2 ▸ e) hs)

/-- Moving an occupied slot on. -/
theorem inv_connected {n ctx st : Nat} {L : List Nat} {w : W} (h : Inv n ctx st L w) {i : Nat} {c : Conn} (hi : w.conns[i]? = some c)
    (hc : c.st ≠ .free) : Inv n ctx st L { w with conns := w.conns.set i { c with st := .connected } } := by
  have g := getElem?_set' (b := ({ c with st := .connected } : Conn)) hi
  have back : ∀ (j : Nat) (d : Conn), (w.conns.set i { c with st := .connected })[j]? = some d →
      ∃ d0, w.conns[j]? = some d0 ∧ d0.fd = d.fd ∧ d0.ssl = d.ssl ∧ (d.st ≠ .free ↔ d0.st ≠ .free) := by
    intro j d hj
    rw [g j] at hj
    split at hj
    · rename_i e; subst e; cases hj
      exact ⟨c, hi, rfl, rfl, ⟨fun _ => hc, fun _ => nofun⟩⟩
    · exact ⟨d, hj, rfl, rfl, Iff.rfl⟩
  have forth : ∀ (j : Nat) (d : Conn), w.conns[j]? = some d →
      ∃ d0, (w.conns.set i { c with st := .connected })[j]? = some d0 ∧ d0.fd = d.fd ∧ d0.ssl = d.ssl ∧ (d.st ≠ .free ↔ d0.st ≠ .free) := by
    intro j d hj
    rw [g j]
    split
    · rename_i e; subst e; rw [hi] at hj; cases hj
      exact ⟨_, rfl, rfl, rfl, ⟨fun _ => nofun, fun _ => hc⟩⟩
    · exact ⟨d, hj, rfl, rfl, Iff.rfl⟩
  refine ⟨h.base, (List.length_set ..).trans h.len, ?_, ?_, ?_, ?_, ?_⟩
  · intro j d hj hd
    obtain ⟨d0, h1, h2, h3, h4⟩ := back j d hj
    rw [← h2, ← h3]
    refine h.free j d0 h1 ?_
    by_cases e : d0.st = .free
    · exact e
    · exact absurd hd (h4.mpr e)
  · intro j d hj hd
    obtain ⟨d0, h1, h2, h3, h4⟩ := back j d hj
    rw [← h2, ← h3]
    exact h.occ j d0 h1 (h4.mp hd)
  · intro j k d f hj hk hd hf e
    obtain ⟨d0, h1, h2, h3, h4⟩ := back j d hj
    obtain ⟨f0, k1, k2, k3, k4⟩ := back k f hk
    exact h.inj j k d0 f0 h1 k1 (h4.mp hd) (k4.mp hf) (by rw [h2, k2]; exact e)
  · intro fd
    show isOpen fd w.acts = true ↔ _
    rw [h.opn fd]
    constructor
    · rintro ⟨j, d, hj, hd, e⟩
      obtain ⟨d0, h1, h2, h3, h4⟩ := forth j d hj
      exact ⟨j, d0, h1, h4.mp hd, h2.trans e⟩
    · rintro ⟨j, d, hj, hd, e⟩
      obtain ⟨d0, h1, h2, h3, h4⟩ := back j d hj
      exact ⟨j, d0, h1, h4.mp hd, h2.trans e⟩
  · intro x
    show isLive x w.acts = true ↔ _
    rw [h.live x]
    constructor
    · rintro ⟨j, d, hj, e⟩
      obtain ⟨d0, h1, h2, h3, h4⟩ := forth j d hj
      exact ⟨j, d0, h1, h3.trans e⟩
    · rintro ⟨j, d, hj, e⟩
      obtain ⟨d0, h1, h2, h3, h4⟩ := back j d hj
      exact ⟨j, d0, h1, h3.trans e⟩

theorem inv_handleData {n ctx st : Nat} {L : List Nat} {w : W} (h : Inv n ctx st L w) {i x : Nat} {c : Conn} (hi : w.conns[i]? = some c)
    (hc : c.st ≠ .free) (e : CbEnv) : Inv n ctx st L (handleData w i x e) := by
  unfold handleData
  split
  · exact h
  split
  · rename_i d _
    have h1 : Inv n ctx st L { w with acts := .read x d :: w.acts } := inv_acts h rfl rfl (fun _ => rfl) (fun _ => rfl)
    dsimp only
    split
    · exact inv_acts h rfl rfl (fun _ => rfl) (fun _ => rfl)
    · exact h1
    · exact (inv_release h1 (i := i) hi hc).1
  · exact (inv_release h hi hc).1
  · exact h
  · exact (inv_release h hi hc).1

theorem inv_clientCb {n ctx st : Nat} {L : List Nat} {w : W} (h : Inv n ctx st L w) (fd : Int) (i : Nat) (e : CbEnv) (hf : 0 ≤ fd) :
    Inv n ctx st L (clientCb w fd i e) := by
  unfold clientCb
  split
  · exact h
  rename_i c hi
  split
  · exact h
  rename_i hfd
  have hfd : c.fd = fd := by simpa using hfd
  have hc : c.st ≠ .free := fun e => by have := (h.free i c hi e).1; omega
  split
  · exact (inv_release h hi hc).1
  split
  · split
    · exact h
    split
    · exact inv_handleData (inv_connected h hi hc) ((getElem?_set' hi i).trans (if_pos rfl)) nofun e
    · exact h
    · exact (inv_release h hi hc).1
  · exact inv_handleData h hi hc e
  · exact h

theorem releaseFrom_spec {n ctx st : Nat} {L : List Nat} : ∀ (m i : Nat) (w : W), Inv n ctx st L w → i + m = n →
    (∀ (j : Nat) (c : Conn), j < i → w.conns[j]? = some c → c.st = .free) →
    Inv n ctx st L (releaseFrom w i m) ∧ ∀ (j : Nat) (c : Conn), (releaseFrom w i m).conns[j]? = some c → c.st = .free
  | 0, i, w, h, hm, hf => ⟨h, fun j c hj => hf j c (by
      have hl := h.len
      have := (List.getElem?_eq_some_iff.mp hj).1
      have e : (releaseFrom w i 0).conns.length = w.conns.length := rfl
      omega) hj⟩
  | m + 1, i, w, h, hm, hf => by
    unfold releaseFrom
    cases hi : w.conns[i]? with
    | none =>
      have := List.getElem?_eq_none_iff.mp hi
      have hl := h.len
      omega
    | some c =>
      dsimp only
      split
      · rename_i hc
        obtain ⟨h1, h2⟩ := inv_release h hi hc
        refine releaseFrom_spec m (i + 1) _ h1 (by omega) fun j d hj hd => ?_
        rw [h2 j] at hd
        split at hd
        · cases hd; rfl
        · exact hf j d (by omega) hd
      · rename_i hc
        have hc : c.st = .free := by simpa using hc
        refine releaseFrom_spec m (i + 1) _ h (by omega) fun j d hj hd => ?_
        by_cases e : j = i
        · subst e; rw [hi] at hd; cases hd; exact hc
        · exact hf j d (by omega) hd

theorem alloc_some {l : List Conn} {i : Nat} (h : alloc l = some i) : ∃ c, l[i]? = some c ∧ c.st = .free := by
  unfold alloc at h
  obtain ⟨c, h1, h2⟩ := List.findIdx?_eq_some_iff_getElem.mp h
  exact ⟨_, List.getElem?_eq_some_iff.mpr ⟨c, rfl⟩, by simpa using h1⟩

theorem alloc_none {l : List Conn} (h : alloc l = none) (i : Nat) (c : Conn) (hi : l[i]? = some c) : c.st ≠ .free := by
  unfold alloc at h
  have := List.findIdx?_eq_none_iff.mp h c (List.mem_of_getElem? hi)
  simpa using this

/-- A connection refused: accepted and closed again. -/
theorem acc_closed (acts : List Act) (fd f : Int) (h : isOpen fd acts = false) :
    isOpen f (.closed fd :: .accepted fd :: acts) = isOpen f acts := by
  rw [isOpen_closed, isOpen_accepted]
  split
  · rename_i e; rw [← e]; exact h.symm
  · rfl

theorem inv_listen {n ctx st : Nat} {L : List Nat} {w : W} (h : Inv n ctx st L w) (fd : Int) (new : Option Nat)
    (hf : Fair ctx L w (.listen fd new)) : Inv n ctx st L (listenCb ctx w fd new) := by
  unfold listenCb
  split
  · exact h
  rename_i h0
  have h0 : 0 ≤ fd := by omega
  have hno := hf.1 h0
  have refused : Inv n ctx st L { w with acts := .closed fd :: .accepted fd :: w.acts } :=
    inv_acts h rfl rfl (acc_closed w.acts fd · hno) (fun _ => rfl)
  dsimp only
  split
  · exact refused
  rename_i i hal
  have hal : alloc w.conns = some i := hal
  obtain ⟨c, hi, hc⟩ := alloc_some hal
  split
  · exact refused
  rename_i x
  have hx := hf.2 x rfl
  have nolive : isLive x w.acts = false := by
    cases e : isLive x w.acts with
    | false => rfl
    | true =>
      obtain ⟨j, d, hj, hd⟩ := (h.live x).mp e
      obtain ⟨-, y, e1, e2⟩ := h.occ j d hj (not_free h hj hd)
      rw [hd] at e1; cases e1
      rw [hx] at e2; cases e2
  have hbase : Base ctx st L (.sslIO x (some ctx) fd :: w.ops) := by
    refine ⟨⟨hx, h.base.tidy⟩, h.base.reg, fun c s hm => ?_⟩
    rcases List.mem_cons.mp hm with e | hm
    · cases e
    · exact h.base.ctxs c s hm
  have others : ∀ (r : Res) (y : Nat), y ≠ x → bound y ((Op.sslIO x (some ctx) fd, r) :: (exec .ssl w.ops).2) = bound y (exec .ssl w.ops).2 := by
    intro r y hy
    cases r <;> first | rfl | (rw [bound, if_neg (fun e => hy e.symm)])
  have ne_of : ∀ (j : Nat) (d : Conn) (y : Nat), w.conns[j]? = some d → d.ssl = some y → y ≠ x := by
    intro j d y hj hd e
    have := (h.live y).mpr ⟨j, d, hj, hd⟩
    rw [e, nolive] at this; cases this
  split
  · rename_i hr
    have hb' : bound x (exec .ssl (.sslIO x (some ctx) fd :: w.ops)).2 = none := by
      show bound x ((Op.sslIO x (some ctx) fd, (Glue.step .ssl (exec .ssl w.ops).1 (.sslIO x (some ctx) fd)).2) :: (exec .ssl w.ops).2) = none
      generalize (Glue.step .ssl (exec .ssl w.ops).1 (.sslIO x (some ctx) fd)).2 = r at hr
      cases r with
      | ok => exact absurd rfl hr
      | _ => exact hx
    refine ⟨⟨⟨hb', hbase.tidy⟩, hbase.reg, fun c s hm => ?_⟩, h.len, h.free, ?_, h.inj, ?_, ?_⟩
    · rcases List.mem_cons.mp hm with e | hm
      · cases e
      · exact hbase.ctxs c s hm
    · intro j d hj hd
      obtain ⟨a, y, e1, e2⟩ := h.occ j d hj hd
      refine ⟨a, y, e1, ?_⟩
      have hy := ne_of j d y hj e1
      show bound y ((Op.free x, Res.ok) :: (Op.sslIO x (some ctx) fd, _) :: (exec .ssl w.ops).2) = _
      rw [bound, if_neg (fun e => hy e.symm), others _ y hy]
      exact e2
    · intro f
      show isOpen f (.closed fd :: .freed x :: .made x :: .accepted fd :: w.acts) = true ↔ _
      have : isOpen f (.closed fd :: .freed x :: .made x :: .accepted fd :: w.acts) = isOpen f (.closed fd :: .accepted fd :: w.acts) := rfl
      rw [this, acc_closed w.acts fd f hno]
      exact h.opn f
    · intro y
      show isLive y (.closed fd :: .freed x :: .made x :: .accepted fd :: w.acts) = true ↔ _
      have : isLive y (.closed fd :: .freed x :: .made x :: .accepted fd :: w.acts) = isLive y w.acts := by
        rw [isLive_closed, isLive_freed]
        split
        · rename_i e; rw [← e]; exact nolive.symm
        · rename_i e; rw [isLive_made, if_neg e]; rfl
      rw [this]; exact h.live y
  · rename_i hr
    have hr : (Glue.step .ssl (exec .ssl w.ops).1 (.sslIO x (some ctx) fd)).2 = .ok := by simpa using hr
    have g := getElem?_set' (b := ({ st := .handshake, fd := fd, ssl := some x } : Conn)) hi
    have hbx : bound x (exec .ssl (.sslIO x (some ctx) fd :: w.ops)).2 = some (st, fd) := by
      show bound x ((Op.sslIO x (some ctx) fd, (Glue.step .ssl (exec .ssl w.ops).1 (.sslIO x (some ctx) fd)).2) :: (exec .ssl w.ops).2) = _
      rw [hr, bound, if_pos rfl, h.base.reg]; rfl
    have fdne : ∀ (j : Nat) (d : Conn), w.conns[j]? = some d → d.st ≠ .free → d.fd ≠ fd := by
      intro j d hj hd e
      have := (h.opn fd).mpr ⟨j, d, hj, hd, e⟩
      rw [hno] at this; cases this
    refine ⟨hbase, (List.length_set ..).trans h.len, ?_, ?_, ?_, ?_, ?_⟩
    · intro j d hj hd
      have hj := (g j).symm.trans hj
      split at hj
      · cases hj; cases hd
      · exact h.free j d hj hd
    · intro j d hj hd
      have hj := (g j).symm.trans hj
      split at hj
      · cases hj; exact ⟨h0, x, rfl, hbx⟩
      · obtain ⟨a, y, e1, e2⟩ := h.occ j d hj hd
        exact ⟨a, y, e1, (others _ y (ne_of j d y hj e1)).trans e2⟩
    · intro j k d f hj hk hd hf' e
      have hj := (g j).symm.trans hj
      have hk := (g k).symm.trans hk
      split at hj
      · split at hk
        · rename_i a b; rw [a, b]
        · cases hj; exact absurd e.symm (fdne k f hk hf')
      · split at hk
        · cases hk; exact absurd e (fdne j d hj hd)
        · exact h.inj j k d f hj hk hd hf' e
    · intro f
      show isOpen f (.made x :: .accepted fd :: w.acts) = true ↔ _
      rw [isOpen_made, isOpen_accepted]
      constructor
      · intro ho
        split at ho
        · rename_i e
          exact ⟨i, _, (g i).trans (if_pos rfl), nofun, e⟩
        · obtain ⟨j, d, hj, hd, e⟩ := (h.opn f).mp ho
          refine ⟨j, d, (g j).trans ((if_neg ?_).trans hj), hd, e⟩
          intro e2; subst e2; rw [hi] at hj; cases hj; exact hd hc
      · rintro ⟨j, d, hj, hd, e⟩
        have hj := (g j).symm.trans hj
        split at hj
        · cases hj; exact if_pos e
        · split
          · rfl
          · exact (h.opn f).mpr ⟨j, d, hj, hd, e⟩
    · intro y
      show isLive y (.made x :: .accepted fd :: w.acts) = true ↔ _
      rw [isLive_made, isLive_accepted]
      constructor
      · intro ho
        split at ho
        · rename_i e
          exact ⟨i, _, (g i).trans (if_pos rfl), by rw [e]⟩
        · obtain ⟨j, d, hj, e⟩ := (h.live y).mp ho
          refine ⟨j, d, (g j).trans ((if_neg ?_).trans hj), e⟩
          intro e2; subst e2; rw [hi] at hj; cases hj; exact not_free h hi e hc
      · rintro ⟨j, d, hj, e⟩
        have hj := (g j).symm.trans hj
        split at hj
        · cases hj; exact if_pos (Option.some.inj e)
        · split
          · rfl
          · exact (h.live y).mpr ⟨j, d, hj, e⟩

theorem inv_other {n ctx st : Nat} {L : List Nat} {w : W} (h : Inv n ctx st L w) (o : Op) (hf : Fair ctx L w (.other o)) :
    Inv n ctx st L { w with ops := o :: w.ops } := by
  obtain ⟨ht, h2⟩ := hf
  have nb : ∀ (i : Nat) (c : Conn) (x : Nat), w.conns[i]? = some c → c.ssl = some x → ∀ y, isLive y w.acts = false → y ≠ x := by
    intro i c x hi hc y hy e
    have := (h.live x).mpr ⟨i, c, hi, hc⟩
    rw [e, this] at hy; cases hy
  refine ⟨⟨ht, ?_, ?_⟩, h.len, h.free, ?_, h.inj, h.opn, h.live⟩
  · show stackOf ((o, (Glue.step .ssl (exec .ssl w.ops).1 o).2) :: (exec .ssl w.ops).2) ctx = _
    have hreg := h.base.reg
    cases o with
    | regCtx c s => rw [stackOf, if_neg h2.1]; exact hreg
    | sslIO y c fd => exact hreg
    | sshIO y c fd => exact hreg
    | clean y => exact hreg
    | free y => exact hreg
  · intro c s hm
    rcases List.mem_cons.mp hm with e | hm
    · subst e; exact h2.2
    · exact h.base.ctxs c s hm
  · intro i c hi hc
    obtain ⟨a, x, e1, e2⟩ := h.occ i c hi hc
    refine ⟨a, x, e1, ?_⟩
    have ne := nb i c x hi e1
    rw [← e2]
    show bound x ((o, (Glue.step .ssl (exec .ssl w.ops).1 o).2) :: (exec .ssl w.ops).2) = _
    generalize (Glue.step .ssl (exec .ssl w.ops).1 o).2 = r
    cases o with
    | regCtx c s => rfl
    | sslIO y c fd =>
      have := ne y h2
      cases c with
      | none => rfl
      | some c => cases r <;> first | rfl | (rw [bound, if_neg this])
    | sshIO y c fd =>
      have := ne y h2
      cases c with
      | none => rfl
      | some c => cases r <;> first | rfl | (rw [bound, if_neg this])
    | clean y => rw [bound, if_neg (ne y h2)]
    | free y => rw [bound, if_neg (ne y h2)]

theorem inv_step {n ctx st : Nat} {L : List Nat} {w : W} (h : Inv n ctx st L w) (e : Ev) (hf : Fair ctx L w e) :
    Inv n ctx st L (step ctx w e) := by
  cases e with
  | listen fd new => exact inv_listen h fd new hf
  | client fd i e => exact inv_clientCb h fd i e hf
  | cleanup =>
    refine (releaseFrom_spec w.conns.length 0 w h (by rw [h.len]; omega) fun j c hj => by omega).1
  | other o => exact inv_other h o hf

theorem inv_run {n ctx st : Nat} {L : List Nat} : ∀ (es : List Ev) (w : W), Inv n ctx st L w → FairAll ctx L w es → Inv n ctx st L (run ctx w es)
  | [], _, h, _ => h
  | e :: es, _, h, hf => inv_run es _ (inv_step h e hf.1) hf.2

theorem inv_start (n ctx st : Nat) (L : List Nat) (hc : ctx ∈ L) : Inv n ctx st L (start n ctx st) := by
  have all : ∀ (i : Nat) (c : Conn), (start n ctx st).conns[i]? = some c → c = {} := fun i c h =>
    List.eq_of_mem_replicate (List.mem_of_getElem? (show (List.replicate n ({} : Conn))[i]? = some c from h))
  refine ⟨⟨trivial, ?_, fun c s hm => ?_⟩, List.length_replicate .., ?_, ?_, ?_, ?_, ?_⟩
  · show stackOf [(Op.regCtx ctx st, Res.ok)] ctx = some st
    rw [stackOf, if_pos rfl]
  · have : Op.regCtx c s = .regCtx ctx st := by simpa [start] using hm
    cases this; exact hc
  · intro i c hi _; rw [all i c hi]; exact ⟨by decide, rfl⟩
  · intro i c hi hc; rw [all i c hi] at hc; exact absurd rfl hc
  · intro i j c d hi hj hc; rw [all i c hi] at hc; exact absurd rfl hc
  · intro fd
    constructor
    · intro e; cases e
    · rintro ⟨i, c, hi, hc, _⟩; rw [all i c hi] at hc; exact absurd rfl hc
  · intro x
    constructor
    · intro e; cases e
    · rintro ⟨i, c, hi, e⟩; rw [all i c hi] at e; cases e

/-! ## The theorems -/

/-- **C129, ownership.** After every history of accepts, callbacks (stale ones included) and clean-ups, whatever other
users of the glue do with their sessions: every accepted socket that is not closed has exactly one live session, which
reads and writes that socket (C107), and every live session has such a socket; at most `n` are open; the calls made to
the glue follow its discipline (C108). -/
theorem server_holds (n ctx st : Nat) (L : List Nat) (hc : ctx ∈ L) (es : List Ev) (hf : FairAll ctx L (start n ctx st) es) :
    let w := run ctx (start n ctx st) es
    (∀ fd, isOpen fd w.acts = true → ∃ x, isLive x w.acts = true ∧ bound x (exec .ssl w.ops).2 = some (st, fd) ∧
      ∀ y, isLive y w.acts = true → bound y (exec .ssl w.ops).2 = some (st, fd) → y = x) ∧
    (∀ x, isLive x w.acts = true → ∃ fd, isOpen fd w.acts = true ∧ bound x (exec .ssl w.ops).2 = some (st, fd)) ∧
    (∀ fds : List Int, fds.Nodup → (∀ fd ∈ fds, isOpen fd w.acts = true) → fds.length ≤ n) ∧
    Tidy .ssl w.ops := by
  have h := inv_run es _ (inv_start n ctx st L hc) hf
  dsimp only
  generalize run ctx (start n ctx st) es = w at h
  refine ⟨fun fd ho => ?_, fun x hx => ?_, fun fds hn ha => ?_, h.base.tidy⟩
  · obtain ⟨i, c, hi, hc, e⟩ := (h.opn fd).mp ho
    obtain ⟨h0, x, h1, h2⟩ := h.occ i c hi hc
    refine ⟨x, (h.live x).mpr ⟨i, c, hi, h1⟩, by rw [h2, e], fun y hy hb => ?_⟩
    obtain ⟨j, d, hj, hd⟩ := (h.live y).mp hy
    have fd' := not_free h hj hd
    obtain ⟨-, z, e1, e2⟩ := h.occ j d hj fd'
    rw [hd] at e1; cases e1
    rw [hb] at e2
    have e3 : fd = d.fd := (Prod.mk.inj (Option.some.inj e2)).2
    have := h.inj i j c d hi hj hc fd' (e.trans e3)
    subst this
    rw [hi] at hj; cases hj
    rw [h1] at hd; exact (Option.some.inj hd).symm
  · obtain ⟨i, c, hi, hs⟩ := (h.live x).mp hx
    have hc := not_free h hi hs
    obtain ⟨h0, y, h1, h2⟩ := h.occ i c hi hc
    rw [hs] at h1; cases h1
    exact ⟨c.fd, (h.opn _).mpr ⟨i, c, hi, hc, rfl⟩, h2⟩
  · have hsub : ∀ fd ∈ fds, fd ∈ w.conns.map Conn.fd := by
      intro fd hm
      obtain ⟨i, c, hi, hc, e⟩ := (h.opn fd).mp (ha fd hm)
      exact List.mem_map.mpr ⟨c, List.mem_of_getElem? hi, e⟩
    have := List.Nodup.length_le_of_subset hn hsub
    rw [List.length_map, h.len] at this
    exact this

/-- **C129, service.** Whatever happened before: a connection that is accepted while fewer than `n` are open is given a
session on its own socket, unless `wolfSSL_new` fails or eight sessions of other users fill the pool; beyond `n` the
connection is closed at once and nothing else changes. -/
theorem server_serves (n ctx st : Nat) (L : List Nat) (hc : ctx ∈ L) (hL : L.length ≤ 8) (es : List Ev)
    (hf : FairAll ctx L (start n ctx st) es) (fd : Int) (new : Option Nat) (h0 : 0 ≤ fd) :
    let w := run ctx (start n ctx st) es
    let w' := step ctx w (.listen fd new)
    Fair ctx L w (.listen fd new) →
    ((∃ (i : Nat) (c : Conn), w.conns[i]? = some c ∧ c.st = .free) →
      ∀ x, new = some x → (¬ ∃ l : List Nat, l.Nodup ∧ l.length = 8 ∧ ∀ y ∈ l, bound y (exec .ssl w.ops).2 ≠ none) →
      isOpen fd w'.acts = true ∧ isLive x w'.acts = true ∧ bound x (exec .ssl w'.ops).2 = some (st, fd)) ∧
    ((∀ (i : Nat) (c : Conn), w.conns[i]? = some c → c.st ≠ .free) →
      w'.conns = w.conns ∧ w'.ops = w.ops ∧ isOpen fd w'.acts = false) := by
  have h := inv_run es _ (inv_start n ctx st L hc) hf
  dsimp only
  generalize run ctx (start n ctx st) es = w at h
  intro hfair
  constructor
  · rintro ⟨i0, c0, hi0, hc0⟩ x rfl hroom
    have ok := ssl_setup_succeeds w.ops h.base.tidy x ctx fd h0 L hL h.base.ctxs (by rw [h.base.reg]; nofun) hroom
    have ok' : (Glue.step .ssl (exec .ssl w.ops).1 (.sslIO x (some ctx) fd)).2 = .ok := by unfold Glue.step; exact ok
    cases hal : alloc w.conns with
    | none => exact absurd hc0 (alloc_none hal i0 c0 hi0)
    | some i =>
      have e : step ctx w (.listen fd (some x)) = ⟨w.conns.set i ⟨.handshake, fd, some x⟩, .sslIO x (some ctx) fd :: w.ops, .made x :: .accepted fd :: w.acts⟩ := by
        show listenCb ctx w fd (some x) = _
        unfold listenCb
        rw [if_neg (by omega)]
        dsimp only
        rw [hal]
        dsimp only
        rw [if_neg (by simp [ok'])]
      rw [e]
      refine ⟨?_, ?_, ?_⟩
      · rw [isOpen_made, isOpen_accepted, if_pos rfl]
      · rw [isLive_made, if_pos rfl]
      · show bound x ((Op.sslIO x (some ctx) fd, (Glue.step .ssl (exec .ssl w.ops).1 (.sslIO x (some ctx) fd)).2) :: (exec .ssl w.ops).2) = _
        rw [ok', bound, if_pos rfl, h.base.reg]; rfl
  · intro hall
    have hal : alloc w.conns = none := by
      cases hal : alloc w.conns with
      | none => rfl
      | some i =>
        obtain ⟨c, hi, hc⟩ := alloc_some hal
        exact absurd hc (hall i c hi)
    have e : step ctx w (.listen fd new) = { w with acts := .closed fd :: .accepted fd :: w.acts } := by
      show listenCb ctx w fd new = _
      unfold listenCb
      rw [if_neg (by omega)]
      dsimp only
      rw [hal]
    rw [e]
    exact ⟨rfl, rfl, by rw [isOpen_closed, if_pos rfl]⟩

/-- **C129, clean-up.** `tls_server_cleanup` leaves no accepted socket open, no session alive and no descriptor of the
server's sessions in the pool. -/
theorem server_cleanup (n ctx st : Nat) (L : List Nat) (hc : ctx ∈ L) (es : List Ev) (hf : FairAll ctx L (start n ctx st) es) :
    let w := step ctx (run ctx (start n ctx st) es) .cleanup
    (∀ fd, isOpen fd w.acts = false) ∧ ∀ x, isLive x w.acts = false := by
  have h := inv_run es _ (inv_start n ctx st L hc) hf
  dsimp only
  generalize run ctx (start n ctx st) es = w at h
  obtain ⟨h1, h2⟩ := releaseFrom_spec w.conns.length 0 w h (by rw [h.len]; omega) fun j c hj => by omega
  refine ⟨fun fd => ?_, fun x => ?_⟩
  · cases e : isOpen fd (step ctx w .cleanup).acts with
    | false => rfl
    | true =>
      obtain ⟨i, c, hi, hc, -⟩ := (h1.opn fd).mp e
      exact absurd (h2 i c hi) hc
  · cases e : isLive x (step ctx w .cleanup).acts with
    | false => rfl
    | true =>
      obtain ⟨i, c, hi, hs⟩ := (h1.live x).mp e
      exact absurd (h2 i c hi) (not_free h1 hi hs)

/-- **C129, stale callbacks.** A callback for a descriptor that is not open changes nothing, whatever slot it names. -/
theorem stale_callback (n ctx st : Nat) (L : List Nat) (hc : ctx ∈ L) (es : List Ev) (hf : FairAll ctx L (start n ctx st) es)
    (fd : Int) (i : Nat) (e : CbEnv) (h0 : 0 ≤ fd) :
    let w := run ctx (start n ctx st) es
    isOpen fd w.acts = false → step ctx w (.client fd i e) = w := by
  have h := inv_run es _ (inv_start n ctx st L hc) hf
  dsimp only
  generalize run ctx (start n ctx st) es = w at h
  intro ho
  show clientCb w fd i e = w
  unfold clientCb
  split
  · rfl
  rename_i c hi
  split
  · rfl
  rename_i hfd
  have hfd : c.fd = fd := by simpa using hfd
  have hc : c.st ≠ .free := fun e => by have := (h.free i c hi e).1; omega
  have := (h.opn fd).mpr ⟨i, c, hi, hc, hfd⟩
  rw [ho] at this; cases this

/-! ### What is sent back -/

/-- `wolfSSL_write` takes the whole of what was read, or fails. -/
def Whole : Ev → Prop
  | .client _ _ e => ∀ d, e.rd = .data d → e.wr = .fail ∨ ∃ n, e.wr = .took n ∧ d.length ≤ n
  | _ => True

/-- In order and without inventions; and exact, as long as `Q`. -/
def Echo (Q : Prop) (w : W) : Prop :=
  ∀ x, (hasWritten x w.acts).Sublist (hasRead x w.acts) ∧
    (Q → isLive x w.acts = true → hasWritten x w.acts = hasRead x w.acts)

theorem echo_mono {Q : Prop} {w w' : W} (h : Echo Q w) (h1 : ∀ x, hasWritten x w'.acts = hasWritten x w.acts)
    (h2 : ∀ x, hasRead x w'.acts = hasRead x w.acts)
    (h3 : ∀ x, isLive x w'.acts = true → isLive x w.acts = true) : Echo Q w' := fun x =>
  ⟨by rw [h1, h2]; exact (h x).1, fun q hl => by rw [h1, h2]; exact (h x).2 q (h3 x hl)⟩

theorem release_acts (w : W) (i : Nat) : (release w i).acts = w.acts ∨
    ∃ (c : Conn), w.conns[i]? = some c ∧ ∃ a b : List Act, (release w i).acts = a ++ b ++ w.acts ∧
      (a = [] ∨ a = [.closed c.fd]) ∧ b = (match c.ssl with | none => [] | some x => [.freed x]) := by
  unfold release
  split
  · exact .inl rfl
  rename_i c hc
  refine .inr ⟨c, hc, if 0 ≤ c.fd then [.closed c.fd] else [], match c.ssl with | none => [] | some x => [.freed x], ?_, ?_, rfl⟩
  · dsimp only
    cases c.ssl <;> dsimp only <;> split <;> rfl
  · split
    · exact .inr rfl
    · exact .inl rfl

theorem release_keeps (w : W) (i : Nat) (x : Nat) : hasWritten x (release w i).acts = hasWritten x w.acts ∧
    hasRead x (release w i).acts = hasRead x w.acts ∧ (isLive x (release w i).acts = true → isLive x w.acts = true) := by
  rcases release_acts w i with e | ⟨c, -, a, b, e, ha, hb⟩
  · rw [e]; exact ⟨rfl, rfl, id⟩
  · rw [e]
    cases hs : c.ssl with
    | none =>
      rw [hs] at hb; dsimp only at hb
      rcases ha with ha | ha <;> rw [ha, hb] <;> exact ⟨rfl, rfl, id⟩
    | some y =>
      rw [hs] at hb; dsimp only at hb
      have k : ∀ l, isLive x (.freed y :: l) = true → isLive x l = true := by
        intro l; show (if y = x then false else isLive x l) = true → _; split
        · nofun
        · exact id
      rcases ha with ha | ha <;> rw [ha, hb]
      · exact ⟨rfl, rfl, k _⟩
      · exact ⟨rfl, rfl, k _⟩

theorem echo_release {Q : Prop} {w : W} (h : Echo Q w) (i : Nat) : Echo Q (release w i) :=
  echo_mono h (fun x => (release_keeps w i x).1) (fun x => (release_keeps w i x).2.1) fun x => (release_keeps w i x).2.2

theorem release_frees {w : W} {i : Nat} {c : Conn} {x : Nat} (hc : w.conns[i]? = some c) (hx : c.ssl = some x) :
    isLive x (release w i).acts = false := by
  unfold release
  rw [hc]
  dsimp only
  rw [hx]
  dsimp only
  split
  · show (if x = x then false else _) = false
    rw [if_pos rfl]
  · show (if x = x then false else _) = false
    rw [if_pos rfl]

theorem echo_data {Q : Prop} {w : W} (h : Echo Q w) {i x : Nat} {c : Conn} {e : CbEnv} (hc : w.conns[i]? = some c)
    (hx : c.ssl = some x) (hq : Q → ∀ d, e.rd = .data d → e.wr = .fail ∨ ∃ n, e.wr = .took n ∧ d.length ≤ n) :
    Echo Q (handleData w i x e) := by
  unfold handleData
  split
  · exact h
  split
  · rename_i d hd
    have hr : ∀ y, hasRead y (.read x d :: w.acts) = if x = y then hasRead y w.acts ++ d else hasRead y w.acts := fun _ => rfl
    have sub : ∀ y, (hasWritten y w.acts).Sublist (hasRead y (.read x d :: w.acts)) := by
      intro y
      rw [hr]
      split
      · exact (h y).1.trans (List.sublist_append_left ..)
      · exact (h y).1
    dsimp only
    split
    · rename_i n hn
      intro y
      have e1 : hasWritten y (.wrote x (d.take n) :: .read x d :: w.acts)
          = if x = y then hasWritten y w.acts ++ d.take n else hasWritten y w.acts := rfl
      have e2 : hasRead y (.wrote x (d.take n) :: .read x d :: w.acts)
          = if x = y then hasRead y w.acts ++ d else hasRead y w.acts := rfl
      have e3 : isLive y (.wrote x (d.take n) :: .read x d :: w.acts) = isLive y w.acts := rfl
      dsimp only
      rw [e1, e2, e3]
      by_cases hy : x = y
      · rw [if_pos hy, if_pos hy]
        refine ⟨(h y).1.append (List.take_sublist ..), fun q hl => ?_⟩
        rcases hq q d hd with hf | ⟨m, hm, hm'⟩
        · rw [hf] at hn; cases hn
        · rw [hm] at hn; cases hn
          rw [(h y).2 q hl, List.take_of_length_le hm']
      · rw [if_neg hy, if_neg hy]
        exact h y
    · rename_i hn
      intro y
      refine ⟨sub y, fun q hl => ?_⟩
      rcases hq q d hd with hf | ⟨m, hm, hm'⟩
      · rw [hf] at hn; cases hn
      · rw [hm] at hn; cases hn
    · intro y
      obtain ⟨k1, k2, k3⟩ := release_keeps { w with acts := .read x d :: w.acts } i y
      rw [k1, k2]
      refine ⟨sub y, fun q hl => ?_⟩
      by_cases hy : x = y
      · subst hy
        have := release_frees (w := { w with acts := .read x d :: w.acts }) hc hx
        rw [this] at hl; cases hl
      · show hasWritten y w.acts = hasRead y (.read x d :: w.acts)
        rw [hr, if_neg hy]
        exact (h y).2 q (k3 hl)
  · exact echo_release h i
  · exact h
  · exact echo_release h i

theorem echo_releaseFrom {Q : Prop} : ∀ (n i : Nat) {w : W}, Echo Q w → Echo Q (releaseFrom w i n)
  | 0, _, _, h => h
  | n + 1, i, w, h => by
    refine echo_releaseFrom n (i + 1) ?_
    split
    · exact h
    · split
      · exact echo_release h i
      · exact h

theorem echo_step {Q : Prop} {ctx : Nat} {w : W} (h : Echo Q w) (ev : Ev) (hq : Q → Whole ev) : Echo Q (step ctx w ev) := by
  cases ev with
  | listen fd new =>
    show Echo Q (listenCb ctx w fd new)
    unfold listenCb
    split
    · exact h
    dsimp only
    have made : ∀ (w' : W) (x : Nat), w'.acts = .made x :: .accepted fd :: w.acts → Echo Q w' := by
      intro w' x e y
      rw [e]
      have e1 : hasWritten y (.made x :: .accepted fd :: w.acts) = if x = y then [] else hasWritten y w.acts := rfl
      have e2 : hasRead y (.made x :: .accepted fd :: w.acts) = if x = y then [] else hasRead y w.acts := rfl
      have e3 : isLive y (.made x :: .accepted fd :: w.acts) = if x = y then true else isLive y w.acts := rfl
      rw [e1, e2, e3]
      split
      · exact ⟨List.nil_sublist _, fun _ _ => rfl⟩
      · exact h y
    split
    · exact echo_mono h (fun _ => rfl) (fun _ => rfl) fun _ => id
    · split
      · exact echo_mono h (fun _ => rfl) (fun _ => rfl) fun _ => id
      · rename_i x
        split
        · have h' := made ⟨w.conns, w.ops, .made x :: .accepted fd :: w.acts⟩ x rfl
          refine echo_mono h' (fun _ => rfl) (fun _ => rfl) fun y hl => ?_
          have : isLive y (.closed fd :: .freed x :: .made x :: .accepted fd :: w.acts)
            = if x = y then false else isLive y (.made x :: .accepted fd :: w.acts) := rfl
          dsimp only at hl
          rw [this] at hl
          split at hl
          · cases hl
          · exact hl
        · exact made _ x rfl
  | client fd i e =>
    show Echo Q (clientCb w fd i e)
    unfold clientCb
    split
    · exact h
    rename_i c hc
    split
    · exact h
    split
    · exact echo_release h i
    split
    · rename_i x hs hx
      split
      · exact h
      split
      · have h' : Echo Q (⟨w.conns.set i { c with st := .connected }, w.ops, w.acts⟩ : W) := echo_mono h (fun _ => rfl) (fun _ => rfl) fun _ => id
        refine echo_data (c := { c with st := .connected }) h' ?_ hx fun q => hq q
        show (w.conns.set i _)[i]? = _
        rw [List.getElem?_set_self (by
          rcases Nat.lt_or_ge i w.conns.length with hl | hl
          · exact hl
          · rw [List.getElem?_eq_none hl] at hc; cases hc)]
      · exact h
      · exact echo_release h i
    · rename_i x hs hx
      exact echo_data h hc hx fun q => hq q
    · exact h
  | cleanup => exact echo_releaseFrom _ _ h
  | other o => exact echo_mono h (fun _ => rfl) (fun _ => rfl) fun _ => id

theorem echo_run {Q : Prop} {ctx : Nat} : ∀ (es : List Ev) (w : W), Echo Q w → (Q → ∀ e ∈ es, Whole e) → Echo Q (run ctx w es)
  | [], _, h, _ => h
  | e :: es, _, h, hq => echo_run es _ (echo_step h e fun q => hq q e (List.mem_cons_self ..))
      fun q e' hm => hq q e' (List.mem_cons_of_mem _ hm)

theorem echo_start {Q : Prop} (n ctx st : Nat) : Echo Q (start n ctx st) := fun _ => ⟨List.nil_sublist _, fun _ _ => rfl⟩

/-- **C129, the echo never invents.** Whatever the peers, wolfSSL and the stack do: what a session wrote is, in order,
part of what that session read; nothing of another session. -/
theorem echo_order (n ctx st : Nat) (es : List Ev) (x : Nat) :
    (hasWritten x (run ctx (start n ctx st) es).acts).Sublist (hasRead x (run ctx (start n ctx st) es).acts) :=
  (echo_run (Q := False) es _ (echo_start n ctx st) nofun x).1

/-- **C129, the echo, partial.** As long as every write takes all it is given or fails, a live session has written
exactly what it read. Missing: a write that answers WANT_WRITE or takes less, after which the rest is lost; see
`echo_lost`. -/
theorem echo_exact_partial (n ctx st : Nat) (es : List Ev) (hw : ∀ e ∈ es, Whole e) (x : Nat)
    (hl : isLive x (run ctx (start n ctx st) es).acts = true) :
    hasWritten x (run ctx (start n ctx st) es).acts = hasRead x (run ctx (start n ctx st) es).acts :=
  (echo_run (Q := True) es _ (echo_start n ctx st) (fun _ => hw) x).2 trivial hl

/-- **C129, finding.** When `wolfSSL_write` answers WANT_WRITE, the data is dropped: the session stays up, the next
message is echoed and the dropped one never is. -/
theorem echo_lost : ∃ es : List Ev, FairAll 1 [1] (start 2 1 7) es ∧
    isLive 5 (run 1 (start 2 1 7) es).acts = true ∧
    hasRead 5 (run 1 (start 2 1 7) es).acts = [10, 11, 12] ∧ hasWritten 5 (run 1 (start 2 1 7) es).acts = [12] := by
  refine ⟨[.listen 100 (some 5), .client 100 0 { readable := true, hs := .ok },
    .client 100 0 { readable := true, rd := .data [10, 11], wr := .want },
    .client 100 0 { readable := true, rd := .data [12], wr := .took 1 }], ?_, by decide +kernel, by decide +kernel, by decide +kernel⟩
  refine ⟨⟨fun _ => rfl, fun x _ => rfl⟩, ?_, ?_, ?_, trivial⟩ <;> (show (0:Int) ≤ 100; decide)

/-- The server's hypotheses are met by a history with two connections, one refused, a handshake that fails, another
user of the glue and a clean-up. -/
example : ∃ es : List Ev, FairAll 1 [1, 2] (start 2 1 7) es ∧
    isOpen 100 (run 1 (start 2 1 7) es).acts = true ∧ isOpen 101 (run 1 (start 2 1 7) es).acts = false ∧
    isOpen 102 (run 1 (start 2 1 7) es).acts = false ∧ isLive 5 (run 1 (start 2 1 7) es).acts = true ∧
    (run 1 (start 2 1 7) (es ++ [.cleanup])).acts.length = (run 1 (start 2 1 7) es).acts.length + 2 := by
  refine ⟨[.other (.regCtx 2 8), .listen 100 (some 5), .listen 101 (some 6), .listen 102 (some 9),
    .client 101 1 { readable := true, hs := .fail }, .client 100 0 { readable := true, hs := .ok }], ?_,
    by decide +kernel, by decide +kernel, by decide +kernel, by decide +kernel, by decide +kernel⟩
  refine ⟨⟨?_, ?_⟩, ⟨fun _ => rfl, fun x _ => rfl⟩, ⟨fun _ => rfl, fun x hx => ?_⟩, ⟨fun _ => rfl, fun x hx => ?_⟩, ?_, ?_, trivial⟩
  · simp [Tidy, start]
  · exact ⟨by decide, by decide⟩
  · cases hx; decide +kernel
  · cases hx; decide +kernel
  · show (0:Int) ≤ 101; decide
  · show (0:Int) ≤ 100; decide

end Wolf.Tls.Srv
