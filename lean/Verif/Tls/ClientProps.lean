import Verif.Tls.Client
/-! # C128: proofs -/
namespace Wolf.Tls
open Wolf.Glue

/-! ## Sockets and sessions: both clients -/

theorem holds_teardown (v : Variant) (w : W) (h : Holds w) :
    Holds (teardown v w) ∧ (teardown v w).cl.ssl = none ∧ (teardown v w).cl.fd = w.cl.fd ∧ (teardown v w).cl.ph = w.cl.ph := by
  unfold teardown
  cases hs : w.cl.ssl with
  | none => exact ⟨h, hs, rfl, rfl⟩
  | some x =>
    refine ⟨⟨fun fd => h.1 fd, fun y => ?_⟩, rfl, rfl, rfl⟩
    show isLive y (.freed x :: w.acts) = true ↔ none = some y
    rw [isLive]
    split
    · simp
    · rename_i e
      rw [h.2 y, hs]
      constructor
      · intro h1; exact absurd (Option.some.inj h1) e
      · intro h1; cases h1

theorem holds_closeFd (w : W) (h : Holds w) :
    Holds (closeFd w) ∧ (closeFd w).cl.ssl = w.cl.ssl ∧ (closeFd w).cl.fd < 0 ∧ (closeFd w).cl.ph = w.cl.ph ∧ (closeFd w).ops = w.ops := by
  unfold closeFd
  by_cases h0 : 0 ≤ w.cl.fd
  · rw [if_pos h0]
    refine ⟨⟨fun fd => ?_, fun x => h.2 x⟩, rfl, by dsimp only; omega, rfl, rfl⟩
    show isOpen fd (.closed w.cl.fd :: w.acts) = true ↔ 0 ≤ fd ∧ -1 = fd
    rw [isOpen]
    split
    · rename_i e; constructor
      · intro h1; cases h1
      · intro h1; omega
    · rename_i e
      rw [h.1 fd]
      constructor
      · intro h1; exact absurd h1.2 e
      · intro h1; omega
  · rw [if_neg h0]; exact ⟨h, rfl, by omega, rfl, rfl⟩

theorem holds_cl {w w' : W} (h : Holds w) (ha : w'.acts = w.acts) (hf : w'.cl.fd = w.cl.fd) (hs : w'.cl.ssl = w.cl.ssl) : Holds w' :=
  ⟨fun fd => by rw [ha, hf]; exact h.1 fd, fun x => by rw [ha, hs]; exact h.2 x⟩

theorem holds_finish (v : Variant) (w : W) (p : Phase) (h : Holds w) : Holds (finish v w p) := by
  cases v with
  | generic => exact holds_cl h rfl rfl rfl
  | rtl => exact holds_cl (holds_closeFd _ (holds_teardown .rtl w h).1).1 rfl rfl rfl

theorem holds_connect (w : W) (h : Holds w) (hf : w.cl.ph = .idle → w.cl.fd < 0) (ip : Nat) (s c : Int) : Holds (connect w ip s c).1 := by
  unfold connect
  split
  · exact h
  rename_i hp
  have hf := hf (by simpa using hp)
  split
  · exact h
  split
  · rename_i hs
    refine ⟨fun fd => ?_, h.2⟩
    show isOpen fd w.acts = true ↔ 0 ≤ fd ∧ s = fd
    rw [h.1 fd]
    constructor <;> (intro h1; omega)
  · rename_i hs
    dsimp only
    split
    · refine ⟨fun fd => ?_, h.2⟩
      show isOpen fd (.closed s :: .opened s :: w.acts) = true ↔ 0 ≤ fd ∧ -1 = fd
      rw [isOpen, isOpen]
      split
      · constructor
        · intro h1; cases h1
        · intro h1; omega
      · rw [h.1 fd]
        constructor <;> (intro h1; omega)
    · refine ⟨fun fd => ?_, h.2⟩
      show isOpen fd (.opened s :: w.acts) = true ↔ 0 ≤ fd ∧ s = fd
      rw [isOpen]
      split
      · rename_i e; constructor
        · intro _; omega
        · intro _; rfl
      · rw [h.1 fd]
        constructor <;> (intro h1; omega)

theorem holds_handshake (v : Variant) (w : W) (hs : Hs) (h : Holds w) : Holds (handshake v w hs).1 := by
  cases hs with
  | ok => exact holds_cl h rfl rfl rfl
  | want => exact h
  | fail => exact holds_finish v w _ h

theorem holds_made (w : W) (x : Nat) (o : List Op) (h : Holds w) (hn : w.cl.ssl = none) :
    Holds { cl := { w.cl with ssl := some x }, ops := o, acts := .made x :: w.acts } := by
  refine ⟨fun fd => h.1 fd, fun y => ?_⟩
  show isLive y (.made x :: w.acts) = true ↔ some x = some y
  rw [isLive]
  split
  · rename_i e; rw [e]; simp
  · rename_i e
    rw [h.2 y, hn]
    constructor
    · intro h1; cases h1
    · intro h1; exact absurd (Option.some.inj h1) e

theorem holds_setup (v : Variant) (ctx : Nat) (w : W) (e : PollEnv) (h : Holds w) (hn : w.cl.ssl = none) : Holds (setup v ctx w e).1 := by
  unfold setup
  cases e.new with
  | none => exact holds_finish v w _ h
  | some x =>
    dsimp only
    have hm := holds_made w x (.sslIO x (some ctx) w.cl.fd :: w.ops) h hn
    split
    · exact holds_finish v _ _ hm
    · exact holds_handshake v _ _ (holds_cl hm rfl rfl rfl)

theorem holds_connecting (v : Variant) (ctx : Nat) (w : W) (e : PollEnv) (h : Holds w) (hn : w.cl.ssl = none) : Holds (connecting v ctx w e).1 := by
  unfold connecting
  split
  · cases v with
    | generic => exact holds_cl h rfl rfl rfl
    | rtl =>
      dsimp only
      split
      · exact holds_finish _ _ _ (holds_cl h rfl rfl rfl)
      · exact holds_cl h rfl rfl rfl
  · split
    · exact holds_finish _ _ _ h
    · dsimp only
      split
      · exact holds_cl h rfl rfl rfl
      · exact holds_setup v ctx _ e (holds_cl h rfl rfl rfl) hn

theorem holds_connected (v : Variant) (w : W) (r : Rd) (h : Holds w) : Holds (connected v w r) := by
  cases r with
  | data d => exact ⟨fun fd => h.1 fd, fun x => h.2 x⟩
  | zeroReturn => exact holds_finish v w _ h
  | wantRead => exact h
  | other => exact holds_finish v w _ h

/-- What both clients keep: `Holds`; idle means no socket and no session; no session while connecting. -/
structure Both (w : W) : Prop where
  holds : Holds w
  idle : w.cl.ph = .idle → w.cl.fd < 0 ∧ w.cl.ssl = none
  conn : w.cl.ph = .connecting → w.cl.ssl = none

theorem finish_ph (v : Variant) (w : W) (p : Phase) : (finish v w p).cl.ph = p := by
  cases v <;> rfl

theorem both_final {w : W} (h : Holds w) (h1 : w.cl.ph ≠ .idle) (h2 : w.cl.ph ≠ .connecting) : Both w :=
  ⟨h, fun e => absurd e h1, fun e => absurd e h2⟩

theorem both_step (v : Variant) (ctx : Nat) (w : W) (e : Ev) (h : Both w) : Both (step v ctx w e) := by
  cases e with
  | other o => exact ⟨holds_cl h.holds rfl rfl rfl, h.idle, h.conn⟩
  | close =>
    obtain ⟨t1, t2, t3, t4⟩ := holds_teardown v w h.holds
    obtain ⟨c1, c2, c3, c4, c5⟩ := holds_closeFd _ t1
    exact ⟨holds_cl c1 rfl rfl rfl, fun _ => ⟨c3, c2.trans t2⟩, fun e => by cases e⟩
  | connect ip s c =>
    refine ⟨holds_connect w h.holds (fun e => (h.idle e).1) ip s c, ?_, ?_⟩ <;> dsimp only [step] <;> unfold connect <;> split
    · exact h.idle
    · rename_i hp
      have hi := h.idle (by simpa using hp)
      split
      · exact h.idle
      split
      · rename_i hs
        exact fun _ => ⟨hs, hi.2⟩
      dsimp only
      split
      · exact fun _ => ⟨(by show (-1:Int) < 0; decide), hi.2⟩
      · intro e; cases e
    · exact h.conn
    · rename_i hp
      have hp : w.cl.ph = .idle := by simpa using hp
      have hi := h.idle hp
      split
      · exact h.conn
      split
      · intro _; exact hi.2
      dsimp only
      split
      · intro _; exact hi.2
      · intro _; exact hi.2
  | poll e =>
    show Both (poll v ctx w e).1
    unfold poll
    cases hp : w.cl.ph with
    | idle => exact h
    | done => exact h
    | error => exact h
    | handshake =>
      show Both (handshake v w e.hs).1
      refine both_final (holds_handshake v w e.hs h.holds) ?_ ?_ <;> cases e.hs <;> simp [handshake, finish_ph, setPh, hp]
    | connected =>
      show Both (connected v w e.rd)
      have hf : ∀ p, p ≠ .idle → p ≠ .connecting → Both (finish v w p) := fun p h1 h2 =>
        both_final (holds_finish v w p h.holds) (by rw [finish_ph]; exact h1) (by rw [finish_ph]; exact h2)
      cases e.rd with
      | data d => exact both_final (holds_connected v w (.data d) h.holds) (by simp [connected, hp]) (by simp [connected, hp])
      | zeroReturn => exact hf _ nofun nofun
      | wantRead => exact h
      | other =>
        show Both (finish v w (if w.cl.got then .done else .error))
        split <;> exact hf _ nofun nofun
    | connecting =>
      show Both (connecting v ctx w e).1
      have hn := h.conn hp
      have hf : ∀ w' : W, Holds w' → Both (finish v w' .error) := fun w' h1 =>
        both_final (holds_finish v w' _ h1) (by rw [finish_ph]; exact nofun) (by rw [finish_ph]; exact nofun)
      have stay : ∀ w' : W, Holds w' → w'.cl.ph = .connecting → w'.cl.ssl = none → Both w' := fun w' h1 h2 h3 =>
        ⟨h1, fun e => (by rw [h2] at e; cases e), fun _ => h3⟩
      unfold connecting
      split
      · cases v with
        | generic => exact stay _ (holds_cl h.holds rfl rfl rfl) hp hn
        | rtl =>
          dsimp only
          split
          · exact hf _ (holds_cl h.holds rfl rfl rfl)
          · exact stay _ (holds_cl h.holds rfl rfl rfl) hp hn
      · split
        · exact hf _ h.holds
        · dsimp only
          split
          · exact stay _ (holds_cl h.holds rfl rfl rfl) hp hn
          · have h1 : Holds ({ w with cl := { w.cl with ready := 0, wait := match v with
                | .rtl => 0
                | .generic => w.cl.wait } } : W) := holds_cl h.holds rfl rfl rfl
            unfold setup
            cases e.new with
            | none => exact hf _ (holds_cl h.holds rfl rfl rfl)
            | some x =>
              dsimp only
              have hm := holds_made _ x (.sslIO x (some ctx) w.cl.fd :: w.ops) h1 hn
              split
              · exact hf _ hm
              · refine both_final (holds_handshake v _ _ (holds_cl hm rfl rfl rfl)) ?_ ?_ <;>
                  cases e.hs <;> simp [handshake, finish_ph, setPh]

theorem both_start (ctx st : Nat) : Both (start ctx st) :=
  ⟨⟨fun fd => by simp [start, isOpen]; intro h; omega, fun x => by simp [start, isLive]⟩, fun _ => ⟨(by show (-1:Int) < 0; decide), rfl⟩, fun _ => rfl⟩

theorem both_run (v : Variant) (ctx : Nat) : ∀ (es : List Ev) (w : W), Both w → Both (run v ctx w es)
  | [], _, h => h
  | e :: es, w, h => both_run v ctx es _ (both_step v ctx w e h)

/-- **C128, both clients.** After every history of calls and whatever the stack and the TLS library answer: the client
has at most one socket open, the one it works on, and at most one session; while it is idle, so in particular after
`tls_client_close`, it has neither; a connect is refused exactly when it is not idle, no address or no socket was given
or the connect fails at once. -/
theorem client_holds (v : Variant) (ctx st : Nat) (es : List Ev) :
    let w := run v ctx (start ctx st) es
    (∀ fd fd', isOpen fd w.acts = true → isOpen fd' w.acts = true → fd = fd') ∧
    (∀ x y, isLive x w.acts = true → isLive y w.acts = true → x = y) ∧
    (w.cl.ph = .idle → (∀ fd, isOpen fd w.acts = false) ∧ (∀ x, isLive x w.acts = false)) ∧
    (step v ctx w .close).cl.ph = .idle ∧
    (∀ ip s c, (connect w ip s c).2 = 0 ↔ w.cl.ph = .idle ∧ ip ≠ 0 ∧ 0 ≤ s ∧ (0 ≤ c ∨ c = eagain)) := by
  have h := both_run v ctx es _ (both_start ctx st)
  generalize run v ctx (start ctx st) es = w at h
  refine ⟨fun fd fd' a b => ?_, fun x y a b => ?_, fun hi => ⟨fun fd => ?_, fun x => ?_⟩, rfl, fun ip s c => ?_⟩
  · rw [h.holds.1] at a b; omega
  · rw [h.holds.2] at a b; rw [a] at b; exact Option.some.inj b
  · cases e : isOpen fd w.acts with
    | false => rfl
    | true => have := (h.holds.1 fd).mp e; have := (h.idle hi).1; omega
  · cases e : isLive x w.acts with
    | false => rfl
    | true => have h1 := (h.holds.2 x).mp e; rw [(h.idle hi).2] at h1; cases h1
  · unfold connect
    split
    · rename_i hp; simp [hp]
    rename_i hp
    have hp : w.cl.ph = .idle := by simpa using hp
    split
    · rename_i h0; simp [h0]
    split
    · rename_i h0 h1
      constructor
      · intro e; cases e
      · intro e; omega
    dsimp only
    split
    · constructor
      · intro e; cases e
      · intro e; omega
    · exact ⟨fun _ => ⟨hp, by assumption, by omega, by omega⟩, fun _ => rfl⟩

/-! ## The rtl8735b client and the pool of I/O descriptors -/

structure Base (ctx st : Nat) (L : List Nat) (w : W) : Prop where
  tidy : Tidy .ssl w.ops
  reg : stackOf (exec .ssl w.ops).2 ctx = some st
  ctxs : ∀ c s, .regCtx c s ∈ w.ops → c ∈ L

theorem base_of {ctx st : Nat} {L : List Nat} {w w' : W} (h : Base ctx st L w) (ho : w'.ops = w.ops) : Base ctx st L w' :=
  ⟨by rw [ho]; exact h.tidy, by rw [ho]; exact h.reg, by rw [ho]; exact h.ctxs⟩

theorem base_teardown {ctx st : Nat} {L : List Nat} {w : W} (h : Base ctx st L w) : Base ctx st L (teardown .rtl w) := by
  unfold teardown
  cases w.cl.ssl with
  | none => exact h
  | some x =>
    refine ⟨⟨?_, nofun, h.tidy⟩, h.reg, fun c s hm => h.ctxs c s ?_⟩
    · show bound x ((Op.clean x, Res.ok) :: (exec .ssl w.ops).2) = none
      rw [bound, if_pos rfl]
    · rcases List.mem_cons.mp hm with e | hm
      · cases e
      · rcases List.mem_cons.mp hm with e | hm
        · cases e
        · exact hm

theorem base_finish {ctx st : Nat} {L : List Nat} {w : W} (p : Phase) (h : Base ctx st L w) : Base ctx st L (finish .rtl w p) := by
  have h1 := base_teardown h
  unfold finish
  dsimp only
  unfold closeFd
  split
  · exact base_of h1 rfl
  · exact base_of h1 rfl

theorem finish_rest (w : W) (p : Phase) (h : Holds w) : (finish .rtl w p).cl.fd < 0 ∧ (finish .rtl w p).cl.ssl = none := by
  obtain ⟨t1, t2, t3, t4⟩ := holds_teardown .rtl w h
  obtain ⟨c1, c2, c3, c4, c5⟩ := holds_closeFd _ t1
  exact ⟨c3, c2.trans t2⟩

structure RInv (ctx st : Nat) (L : List Nat) (w : W) : Prop where
  base : Base ctx st L w
  both : Both w
  rest : w.cl.ph = .done ∨ w.cl.ph = .error → w.cl.fd < 0 ∧ w.cl.ssl = none
  sock : w.cl.ph = .connecting → 0 ≤ w.cl.fd
  sess : w.cl.ph = .handshake ∨ w.cl.ph = .connected → 0 ≤ w.cl.fd ∧ ∃ x, w.cl.ssl = some x ∧ bound x (exec .ssl w.ops).2 = some (st, w.cl.fd)

/-- A final state of the rtl client. -/
theorem rinv_finish {ctx st : Nat} {L : List Nat} {w : W} (p : Phase) (hp : p = .done ∨ p = .error) (hb : Base ctx st L w) (hh : Holds w) :
    RInv ctx st L (finish .rtl w p) := by
  have e := finish_ph .rtl w p
  refine ⟨base_finish p hb, both_final (holds_finish .rtl w p hh) ?_ ?_, fun _ => finish_rest w p hh, ?_, ?_⟩ <;>
    rw [e] <;> rcases hp with rfl | rfl <;> simp

theorem setio_ok_bound {ctx st : Nat} {L : List Nat} {w : W} (h : Base ctx st L w) (x : Nat) (fd : Int)
    (hr : (Glue.step .ssl (exec .ssl w.ops).1 (.sslIO x (some ctx) fd)).2 = .ok) :
    bound x (exec .ssl (.sslIO x (some ctx) fd :: w.ops)).2 = some (st, fd) := by
  show bound x ((Op.sslIO x (some ctx) fd, (Glue.step .ssl (exec .ssl w.ops).1 (.sslIO x (some ctx) fd)).2) :: (exec .ssl w.ops).2) = _
  rw [hr, bound, if_pos rfl, h.reg]
  rfl

theorem rinv_handshake {ctx st : Nat} {L : List Nat} {w : W} (hs : Hs) (h : RInv ctx st L w) (hp : w.cl.ph = .handshake) :
    RInv ctx st L (handshake .rtl w hs).1 := by
  cases hs with
  | want => exact h
  | fail => exact rinv_finish _ (.inr rfl) h.base h.both.holds
  | ok =>
    exact ⟨base_of h.base rfl, both_final (holds_cl h.both.holds rfl rfl rfl) nofun nofun,
      fun e => (by rcases e with e | e <;> cases e), nofun, fun _ => h.sess (.inl hp)⟩

/-- What an event of another user leaves: the client's own binding. -/
theorem other_bound (ctx : Nat) (L : List Nat) (w : W) (o : Op) (x : Nat) (hx : w.cl.ssl = some x) (hf : Fair ctx L w (.other o)) :
    bound x (exec .ssl (o :: w.ops)).2 = bound x (exec .ssl w.ops).2 := by
  obtain ⟨-, h2⟩ := hf
  show bound x ((o, (Glue.step .ssl (exec .ssl w.ops).1 o).2) :: (exec .ssl w.ops).2) = _
  generalize (Glue.step .ssl (exec .ssl w.ops).1 o).2 = r
  have ne : ∀ y, w.cl.ssl ≠ some y → y ≠ x := fun y h e => h (by rw [e]; exact hx)
  cases o with
  | regCtx c s => rfl
  | sslIO y c fd =>
    have := ne y h2
    cases c with
    | none => rfl
    | some c => cases r <;> first | rfl | (rw [bound, if_neg this])
  | sshIO y c fd =>
    have := ne y h2
    cases c with
    | none => rfl
    | some c => cases r <;> first | rfl | (rw [bound, if_neg this])
  | clean y => rw [bound, if_neg (ne y h2)]
  | free y => rw [bound, if_neg (ne y h2)]

theorem other_reg (ctx : Nat) (L : List Nat) (w : W) (o : Op) (hf : Fair ctx L w (.other o)) :
    stackOf (exec .ssl (o :: w.ops)).2 ctx = stackOf (exec .ssl w.ops).2 ctx := by
  obtain ⟨-, h2⟩ := hf
  show stackOf ((o, (Glue.step .ssl (exec .ssl w.ops).1 o).2) :: (exec .ssl w.ops).2) ctx = _
  cases o with
  | regCtx c s => rw [stackOf, if_neg h2.1]
  | sslIO y c fd => rfl
  | sshIO y c fd => rfl
  | clean y => rfl
  | free y => rfl

theorem rinv_step {ctx st : Nat} {L : List Nat} {w : W} (e : Ev) (h : RInv ctx st L w) (hf : Fair ctx L w e) :
    RInv ctx st L (step .rtl ctx w e) := by
  have hb := both_step .rtl ctx w e h.both
  cases e with
  | other o =>
    refine ⟨⟨hf.1, (other_reg ctx L w o hf).trans h.base.reg, fun c s hm => ?_⟩, hb, h.rest, h.sock, fun e => ?_⟩
    · rcases List.mem_cons.mp hm with e | hm
      · subst e; exact hf.2.2
      · exact h.base.ctxs c s hm
    · obtain ⟨h0, x, h1, h2⟩ := h.sess e
      exact ⟨h0, x, h1, (other_bound ctx L w o x h1 hf).trans h2⟩
  | close =>
    refine ⟨?_, hb, fun e => (by rcases e with e | e <;> cases e), nofun, fun e => (by rcases e with e | e <;> cases e)⟩
    have h1 := base_teardown h.base
    have h2 := (holds_closeFd _ (holds_teardown .rtl w h.both.holds).1).2.2.2.2
    exact base_of h1 h2
  | connect ip s c =>
    revert hb
    show Both (connect w ip s c).1 → RInv ctx st L (connect w ip s c).1
    unfold connect
    split
    · intro _; exact h
    rename_i hp
    have hp : w.cl.ph = .idle := by simpa using hp
    have quiet : ∀ w' : W, w'.ops = w.ops → w'.cl.ph = .idle → Both w' → RInv ctx st L w' := fun w' h1 h2 h3 =>
      ⟨base_of h.base h1, h3, fun e => (by rw [h2] at e; rcases e with e | e <;> cases e),
        fun e => (by rw [h2] at e; cases e), fun e => (by rw [h2] at e; rcases e with e | e <;> cases e)⟩
    split
    · intro _; exact h
    split
    · intro hb; exact quiet _ rfl hp hb
    dsimp only
    split
    · intro hb; exact quiet _ rfl hp hb
    · intro hb
      exact ⟨base_of h.base rfl, hb, fun e => (by rcases e with e | e <;> cases e), fun _ => (by show 0 ≤ s; omega),
        fun e => (by rcases e with e | e <;> cases e)⟩
  | poll e =>
    revert hb
    show Both (poll .rtl ctx w e).1 → RInv ctx st L (poll .rtl ctx w e).1
    unfold poll
    cases hp : w.cl.ph with
    | idle => intro _; exact h
    | done => intro _; exact h
    | error => intro _; exact h
    | handshake => intro _; exact rinv_handshake e.hs h hp
    | connected =>
      intro hb
      show RInv ctx st L (connected .rtl w e.rd)
      cases hr : e.rd with
      | data d =>
        have hb : Both (connected .rtl w e.rd) := hb
        rw [hr] at hb
        have hp' : (connected .rtl w (.data d)).cl.ph = .connected := hp
        exact ⟨base_of h.base rfl, hb, fun e => (by rw [hp'] at e; rcases e with e | e <;> cases e),
          fun e => (by rw [hp'] at e; cases e), fun _ => h.sess (.inr hp)⟩
      | zeroReturn => exact rinv_finish _ (.inl rfl) h.base h.both.holds
      | wantRead => exact h
      | other => exact rinv_finish _ (by split <;> simp) h.base h.both.holds
    | connecting =>
      intro _
      show RInv ctx st L (connecting .rtl ctx w e).1
      have hn := h.both.conn hp
      have h0 := h.sock hp
      have hh := h.both.holds
      have stay : ∀ w' : W, w'.ops = w.ops → w'.acts = w.acts → w'.cl.fd = w.cl.fd → w'.cl.ph = .connecting → w'.cl.ssl = none → RInv ctx st L w' :=
        fun w' h1 h2 h3 h4 h5 => ⟨base_of h.base h1,
          ⟨holds_cl hh h2 h3 (h5.trans hn.symm), fun e => (by rw [h4] at e; cases e), fun _ => h5⟩,
          fun e => (by rw [h4] at e; rcases e with e | e <;> cases e), fun _ => (by rw [h3]; exact h0),
          fun e => (by rw [h4] at e; rcases e with e | e <;> cases e)⟩
      unfold connecting
      split
      · dsimp only
        split
        · exact rinv_finish _ (.inr rfl) (base_of h.base rfl) (holds_cl hh rfl rfl rfl)
        · exact stay _ rfl rfl rfl hp hn
      · split
        · exact rinv_finish _ (.inr rfl) h.base hh
        · dsimp only
          split
          · exact stay _ rfl rfl rfl hp hn
          · have hx := hf
            have hh1 : Holds ({ w with cl := { w.cl with ready := 0, wait := 0 } } : W) := holds_cl hh rfl rfl rfl
            unfold setup
            cases hnew : e.new with
            | none => exact rinv_finish _ (.inr rfl) (base_of h.base rfl) hh1
            | some x =>
              dsimp only
              have hm := holds_made _ x (.sslIO x (some ctx) w.cl.fd :: w.ops) hh1 hn
              have hbase : Base ctx st L { cl := { w.cl with ready := 0, wait := 0, ssl := some x }, ops := .sslIO x (some ctx) w.cl.fd :: w.ops, acts := .made x :: w.acts } := by
                refine ⟨⟨hx x hnew, h.base.tidy⟩, h.base.reg, fun c s hm => ?_⟩
                rcases List.mem_cons.mp hm with e | hm
                · cases e
                · exact h.base.ctxs c s hm
              split
              · exact rinv_finish _ (.inr rfl) hbase hm
              · rename_i hr
                have hr : (Glue.step .ssl (exec .ssl w.ops).1 (.sslIO x (some ctx) w.cl.fd)).2 = .ok := by simpa using hr
                have hbd := setio_ok_bound h.base x w.cl.fd hr
                refine rinv_handshake e.hs ⟨base_of hbase rfl, both_final (holds_cl hm rfl rfl rfl) nofun nofun, ?_, nofun, ?_⟩ rfl
                · intro e; rcases e with e | e <;> cases e
                · intro _; exact ⟨h0, x, rfl, hbd⟩

theorem rinv_run {ctx st : Nat} {L : List Nat} : ∀ (es : List Ev) (w : W), RInv ctx st L w → FairAll .rtl ctx L w es → RInv ctx st L (run .rtl ctx w es)
  | [], _, h, _ => h
  | e :: es, _, h, hf => rinv_run es _ (rinv_step e h hf.1) hf.2

theorem rinv_start (ctx st : Nat) (L : List Nat) (hc : ctx ∈ L) : RInv ctx st L (start ctx st) := by
  refine ⟨⟨trivial, ?_, fun c s hm => ?_⟩, both_start ctx st, nofun, nofun, nofun⟩
  · show stackOf [(Op.regCtx ctx st, Res.ok)] ctx = some st
    rw [stackOf, if_pos rfl]
  · have : Op.regCtx c s = .regCtx ctx st := by simpa [start] using hm
    cases this; exact hc

/-- **C128, rtl8735b: nothing is held in a final state.** Whatever happened, and whatever other users of the TLS glue do
with their own sessions: in DONE and ERROR, as in IDLE, the client has no socket, no session, and no I/O descriptor; in
HANDSHAKE and CONNECTED its session reads and writes its own socket on its own stack (C107). -/
theorem rtl_releases (ctx st : Nat) (L : List Nat) (hc : ctx ∈ L) (es : List Ev) (hf : FairAll .rtl ctx L (start ctx st) es) :
    let w := run .rtl ctx (start ctx st) es
    (w.cl.ph = .idle ∨ w.cl.ph = .done ∨ w.cl.ph = .error → (∀ fd, isOpen fd w.acts = false) ∧ ∀ x, isLive x w.acts = false) ∧
    (w.cl.ph = .handshake ∨ w.cl.ph = .connected → ∃ x, isLive x w.acts = true ∧ isOpen w.cl.fd w.acts = true ∧
      bound x (exec .ssl w.ops).2 = some (st, w.cl.fd)) ∧
    Tidy .ssl w.ops := by
  have h := rinv_run es _ (rinv_start ctx st L hc) hf
  dsimp only
  generalize run .rtl ctx (start ctx st) es = w at h
  refine ⟨fun hi => ?_, fun hs => ?_, h.base.tidy⟩
  · have hr : w.cl.fd < 0 ∧ w.cl.ssl = none := by
      rcases hi with hi | hi
      · exact h.both.idle hi
      · exact h.rest hi
    refine ⟨fun fd => ?_, fun x => ?_⟩
    · cases e : isOpen fd w.acts with
      | false => rfl
      | true => have := (h.both.holds.1 fd).mp e; omega
    · cases e : isLive x w.acts with
      | false => rfl
      | true => have h1 := (h.both.holds.2 x).mp e; rw [hr.2] at h1; cases h1
  · obtain ⟨h0, x, h1, h2⟩ := h.sess hs
    exact ⟨x, (h.both.holds.2 x).mpr h1, (h.both.holds.1 _).mpr ⟨h0, rfl⟩, h2⟩

/-- **C128, rtl8735b: it never runs out of descriptors.** After any history, however many connections it contains: when
the TCP connection has settled and a session object was made, its set-up succeeds and the handshake begins, unless eight
sessions of other users are set up at that moment. -/
theorem rtl_setup_succeeds (ctx st : Nat) (L : List Nat) (hc : ctx ∈ L) (hL : L.length ≤ 8) (es : List Ev)
    (hf : FairAll .rtl ctx L (start ctx st) es) (e : PollEnv) (x : Nat) (hx : e.new = some x) (h0 : 0 ≤ e.conn)
    (hw : e.hs = .want) :
    let w := run .rtl ctx (start ctx st) es
    bound x (exec .ssl w.ops).2 = none → w.cl.ph = .connecting → w.cl.ready = settlePolls - 1 →
    (¬ ∃ l : List Nat, l.Nodup ∧ l.length = 8 ∧ ∀ y ∈ l, bound y (exec .ssl w.ops).2 ≠ none) →
    (step .rtl ctx w (.poll e)).cl.ph = .handshake ∧ (step .rtl ctx w (.poll e)).cl.ssl = some x := by
  have h := rinv_run es _ (rinv_start ctx st L hc) hf
  dsimp only
  generalize run .rtl ctx (start ctx st) es = w at h
  intro hb hp hr hroom
  have ok := ssl_setup_succeeds w.ops h.base.tidy x ctx w.cl.fd (h.sock hp) L hL h.base.ctxs (by rw [h.base.reg]; nofun) hroom
  have ok' : (Glue.step .ssl (exec .ssl w.ops).1 (.sslIO x (some ctx) w.cl.fd)).2 = .ok := by
    unfold Glue.step; exact ok
  have hs : step .rtl ctx w (.poll e) = (connecting .rtl ctx w e).1 := by
    show (poll .rtl ctx w e).1 = _
    unfold poll; rw [hp]
  rw [hs]
  unfold connecting
  have n1 : ¬ (e.conn = eagain) := by omega
  have n2 : ¬ (e.conn < 0) := by omega
  rw [if_neg n1, if_neg n2]
  dsimp only
  have n3 : ¬ (w.cl.ready + 1 < settlePolls) := by omega
  rw [if_neg n3]
  unfold setup
  rw [hx]
  dsimp only
  have n4 : ¬ ((Glue.step .ssl (exec .ssl w.ops).1 (.sslIO x (some ctx) w.cl.fd)).2 ≠ .ok) := by simp [ok']
  rw [if_neg n4, hw]
  exact ⟨rfl, rfl⟩

end Wolf.Tls
