import Verif.Ready.Model
/-!
# C84: no wake-up is lost on datagram sockets

An application that waits for events reads, after each READABLE event, until the call says "again". `mustRead` is read off
the history alone: a READABLE event was delivered and no receive call since said "again". The theorem says that when nothing obliges the application to read, whatever is in the buffer has its READABLE
event pending — so it is delivered at the next dispatch. `mustTry` is the same for sending.
-/
namespace Wolf.Ready

/-! ## Specification -/

/-- Does the history so far oblige the application to go on reading? -/
def mustReadStep (b : Bool) : Op × Out → Bool
  | (.socket, .fd) => false
  | (.close, _) => false
  | (.recv _, .again) => false
  | (.fire, .event true _) => true
  | _ => b

def mustRead (h : List (Op × Out)) : Bool := h.foldl mustReadStep false

/-- Was a send refused with "again", and neither a WRITABLE event delivered nor a send accepted since? -/
def waitsStep (b : Bool) : Op × Out → Bool
  | (.socket, .fd) => false
  | (.close, _) => false
  | (.send _, .again) => true
  | (.send _, .sent) => false
  | (.fire, .event _ true) => false
  | _ => b

def waits (h : List (Op × Out)) : Bool := h.foldl waitsStep false

/-- No datagram arrives for a raw or packet socket while its own callback runs (it could only if the callback polled the
stack again). -/
def NoArrivalInCallback (k : Kind) : Sk → List Op → Prop
  | _, [] => True
  | s, op :: ops => (k.late = true → 0 < s.busy → ∀ n room, op ≠ .arrive n room) ∧ NoArrivalInCallback k (step k s op).1 ops

/-- An empty transmit buffer has room: no send is refused on one, and one emptied by a flush can take a small datagram
(`fifo_empty_accepts`). -/
def EmptyHasRoom (k : Kind) : Sk → List Op → Prop
  | _, [] => True
  | s, op :: ops => (s.tx = 0 → op ≠ .send false) ∧ (∀ n, op = .flush n false → n < s.tx ∨ s.tx = 0) ∧ EmptyHasRoom k (step k s op).1 ops

/-! ## Reading -/

/-- The invariant: what is in the buffer is announced, or the application is obliged to read on, or (raw and packet) the
callback that will clear the bit runs and already has the event. -/
def RInv (k : Kind) (s : Sk) (b : Bool) : Prop :=
  (s.rx ≠ [] → s.used = true) ∧ (b = false → s.rx ≠ [] → s.r = true) ∧ (b = false → k.late = true → 0 < s.busy → s.rx = []) ∧
  (k.late = false → s.busy = 0)

theorem keepR_true (k : Kind) (rest : List Nat) (h : rest ≠ []) : keepR k true rest = true := by
  cases rest with
  | nil => exact absurd rfl h
  | cons a l => cases k <;> rfl

theorem recvOp_inv (k : Kind) (s : Sk) (b : Bool) (len : Nat) (h : RInv k s b) :
    RInv k (recvOp k s len).1 (mustReadStep b (.recv len, (recvOp k s len).2)) := by
  obtain ⟨h1, h2, h3, h4⟩ := h
  unfold recvOp
  cases hx : s.rx with
  | nil =>
    refine ⟨h1, ?_, ?_, h4⟩
    · intro _ c; exact absurd hx c
    · intro _ _ _; exact hx
  | cons n rest =>
    have hu : s.used = true := h1 (by rw [hx]; intro c; cases c)
    have hne : s.rx ≠ [] := by rw [hx]; intro c; cases c
    dsimp only
    by_cases hc : k = .raw ∧ n < 20
    · rw [if_pos hc]
      exact ⟨fun _ => hu, fun hb _ => h2 hb hne, fun hb hl hz => absurd (h3 hb hl hz) hne, h4⟩
    · rw [if_neg hc]
      by_cases hl : n > len
      · rw [if_pos hl]
        refine ⟨fun _ => hu, fun hb hr => ?_, fun hb hl hz => absurd (h3 hb hl hz) hne, h4⟩
        dsimp only at hr ⊢
        rw [h2 hb hne]; exact keepR_true k rest hr
      · rw [if_neg hl]
        refine ⟨fun _ => hu, fun hb hr => ?_, fun hb hl hz => absurd (h3 hb hl hz) hne, h4⟩
        dsimp only at hr ⊢
        rw [h2 hb hne]; exact keepR_true k rest hr

theorem step_inv (k : Kind) (s : Sk) (b : Bool) (op : Op) (h : RInv k s b) (ha : k.late = true → 0 < s.busy → ∀ n room, op ≠ .arrive n room) :
    RInv k (step k s op).1 (mustReadStep b (op, (step k s op).2)) := by
  have h' := h
  obtain ⟨h1, h2, h3, h4⟩ := h
  cases op with
  | socket =>
    simp only [step, socketOp]
    by_cases hu : s.used = true
    · rw [if_pos hu]; exact h'
    · rw [if_neg hu]
      by_cases hk : k.late = true
      · rw [if_pos hk]
        exact ⟨fun c => absurd rfl c, fun _ c => absurd rfl c, fun _ _ _ => rfl, fun c => by rw [hk] at c; cases c⟩
      · rw [if_neg hk]
        exact ⟨fun _ => rfl, fun _ c => absurd rfl c, fun _ _ _ => rfl, h4⟩
  | close => exact ⟨fun c => absurd rfl c, fun _ c => absurd rfl c, fun _ _ _ => rfl, h4⟩
  | register on => exact h'
  | arrive n room =>
    simp only [step]
    by_cases hc : (s.used && room) = true
    · rw [if_pos hc]
      refine ⟨fun _ => ((Bool.and_eq_true _ _).mp hc).1, fun _ _ => rfl, fun _ hk hb => ?_, h4⟩
      exact absurd rfl (ha hk hb n room)
    · rw [if_neg hc]; exact h'
  | recv len =>
    simp only [step]
    by_cases hc : (k.late && !s.used) = true
    · rw [if_pos hc]
      have hr : s.rx = [] := by
        cases hx : s.rx with
        | nil => rfl
        | cons a l =>
          have hu := h1 (by rw [hx]; intro c; cases c)
          rw [hu] at hc
          cases hk : k.late <;> rw [hk] at hc <;> cases hc
      exact ⟨fun c => absurd hr c, fun _ c => absurd hr c, fun _ _ _ => hr, h4⟩
    · rw [if_neg hc]; exact recvOp_inv k s b len h'
  | send room =>
    simp only [step]
    by_cases hu : s.used = false
    · rw [if_pos hu]; exact h'
    · rw [if_neg hu]
      cases room <;> exact h'
  | flush n space => exact h'
  | loop space => exact h'
  | fire =>
    simp only [step, fireOp]
    by_cases hk : k.late = true
    · rw [if_pos hk]
      by_cases hc : (s.used && s.cb && (s.r || s.w)) = true
      · rw [if_pos hc]
        cases hr : s.r with
        | true => exact ⟨h1, (by intro c; cases c), (by intro c; cases c), fun c => by rw [hk] at c; cases c⟩
        | false =>
          have hx : b = false → s.rx = [] := fun hb => by
            cases hx : s.rx with
            | nil => rfl
            | cons a l => rw [h2 hb (by rw [hx]; intro c; cases c)] at hr; cases hr
          exact ⟨h1, fun hb c => absurd (hx hb) c, fun hb _ _ => hx hb, fun c => by rw [hk] at c; cases c⟩
      · rw [if_neg hc]; exact h'
    · rw [if_neg hk]
      by_cases hc : (s.cb && (s.r || s.w)) = true
      · rw [if_pos hc]
        cases hr : s.r with
        | true => exact ⟨h1, (by intro c; cases c), (by intro c; cases c), h4⟩
        | false =>
          have hx : b = false → s.rx = [] := fun hb => by
            cases hx : s.rx with
            | nil => rfl
            | cons a l => rw [h2 hb (by rw [hx]; intro c; cases c)] at hr; cases hr
          exact ⟨h1, fun hb c => absurd (hx hb) c, fun hb _ _ => hx hb, h4⟩
      · rw [if_neg hc]; exact h'
  | fireEnd =>
    simp only [step]
    by_cases hb : s.busy = 0
    · rw [if_pos hb]; exact h'
    · rw [if_neg hb]
      have hk : k.late = true := by
        cases hk : k.late with
        | true => rfl
        | false => exact absurd (h4 hk) hb
      have hx : b = false → s.rx = [] := fun hbf => h3 hbf hk (by omega)
      exact ⟨h1, fun hbf c => absurd (hx hbf) c, fun hbf _ _ => hx hbf, fun c => by rw [hk] at c; cases c⟩

theorem run_inv (k : Kind) (ops : List Op) : ∀ (s : Sk) (b : Bool), RInv k s b → NoArrivalInCallback k s ops →
    RInv k (run k s ops).1 ((run k s ops).2.foldl mustReadStep b) := by
  induction ops with
  | nil => intro s b h _; exact h
  | cons op ops ih =>
    intro s b h hn
    exact ih _ _ (step_inv k s b op h hn.1) hn.2

/-- **Nothing waits unannounced.** For every kind of datagram socket and every history of arrivals, calls, polls and callback
actions: if nothing obliges the application to read (it was told "again" after the last event or read, or never had an event),
then whatever is in the receive buffer has its READABLE event pending. -/
theorem readable_announced (k : Kind) (ops : List Op) (hn : NoArrivalInCallback k {} ops) (h : mustRead (run k {} ops).2 = false)
    (hx : (run k {} ops).1.rx ≠ []) : (run k {} ops).1.r = true :=
  (run_inv k ops {} false ⟨fun c => absurd rfl c, fun _ c => absurd rfl c, fun _ _ _ => rfl, fun _ => rfl⟩ hn).2.1 h hx

/-- **A pending event is delivered** at the next dispatch, once, with exactly the pending bits, if there is a callback — also
one registered after the event was raised. Without a callback, or with nothing pending, none is delivered and nothing is
forgotten. -/
theorem event_delivered (k : Kind) (ops : List Op) (s : Sk) (hs : s = (run k {} ops).1) :
    (s.used = true → s.cb = true → (s.r = true ∨ s.w = true) → (step k s .fire).2 = .event s.r s.w) ∧
    (s.cb = false ∨ (s.r = false ∧ s.w = false) → step k s .fire = (s, .none)) ∧
    (∀ on, (step k s (.register on)).1.r = s.r ∧ (step k s (.register on)).1.w = s.w) ∧
    (k.late = false → (step k s .fire).2 ≠ .none → (step k s .fire).1.r = false ∧ (step k s .fire).1.w = false) ∧
    (k.late = true → (step k s .fire).2 ≠ .none →
      (step k (step k s .fire).1 .fireEnd).1.r = false ∧ (step k (step k s .fire).1 .fireEnd).1.w = false) := by
  clear hs
  refine ⟨fun hu hc hrw => ?_, fun h => ?_, fun on => ⟨rfl, rfl⟩, fun hk hne => ?_, fun hk hne => ?_⟩
  · have hb : (s.r || s.w) = true := by rw [Bool.or_eq_true]; exact hrw
    simp only [step, fireOp]
    by_cases hk : k.late = true
    · rw [if_pos hk, if_pos (by rw [hu, hc, hb]; rfl)]
    · rw [if_neg hk, if_pos (by rw [hc, hb]; rfl)]
  · simp only [step, fireOp]
    have hf : (s.cb && (s.r || s.w)) = false := by
      rcases h with h | ⟨h1, h2⟩
      · rw [h]; rfl
      · rw [h1, h2]; cases s.cb <;> rfl
    by_cases hk : k.late = true
    · rw [if_pos hk, if_neg (by rw [Bool.and_assoc, hf]; cases s.used <;> (intro c; cases c))]
    · rw [if_neg hk, if_neg (by rw [hf]; intro c; cases c)]
  · simp only [step, fireOp] at hne ⊢
    rw [if_neg (by rw [hk]; intro c; cases c)] at hne ⊢
    by_cases hc : (s.cb && (s.r || s.w)) = true
    · rw [if_pos hc]; exact ⟨rfl, rfl⟩
    · rw [if_neg hc] at hne; exact absurd rfl hne
  · by_cases hc : (s.used && s.cb && (s.r || s.w)) = true
    · have hf : step k s .fire = ({ s with busy := s.busy + 1 }, .event s.r s.w) := by
        simp only [step, fireOp]
        rw [if_pos hk, if_pos hc]
      rw [hf]
      simp only [step]
      rw [if_neg (by omega)]
      exact ⟨rfl, rfl⟩
    · refine absurd ?_ hne
      simp only [step, fireOp]
      rw [if_pos hk, if_neg hc]

/-- `wolfIP_sock_can_read` is exact: it says yes exactly when a receive call would not say "again" (on an open socket). -/
theorem can_read_exact (k : Kind) (s : Sk) (hu : s.used = true) (len : Nat) : canRead s = true ↔ (step k s (.recv len)).2 ≠ .again := by
  simp only [step]
  rw [if_neg (by rw [hu]; cases k.late <;> (intro c; cases c))]
  unfold canRead recvOp
  cases hx : s.rx with
  | nil => simp
  | cons n rest =>
    dsimp only
    by_cases hc : k = .raw ∧ n < 20
    · rw [if_pos hc]; simp
    · rw [if_neg hc]
      by_cases hl : n > len
      · rw [if_pos hl]; simp
      · rw [if_neg hl]; simp

/-! ## No false READABLE -/

/-- Events of ICMP, raw and packet sockets are true: when READABLE is pending and no callback is running, the buffer is not
empty (raw: if only datagrams with an IP header were queued, which `raw_try_recv` checks). -/
theorem readable_true (k : Kind) (hk : k ≠ .udp) (ops : List Op) (hl : ∀ n room, .arrive n room ∈ ops → 20 ≤ n)
    (hr : (run k {} ops).1.r = true) : (run k {} ops).1.rx ≠ [] := by
  have key : ∀ (ops : List Op) (s : Sk), (∀ n room, .arrive n room ∈ ops → 20 ≤ n) → (s.r = true → s.rx ≠ []) → (∀ n ∈ s.rx, 20 ≤ n) → (s.used = false → s.r = false) →
      (run k s ops).1.r = true → (run k s ops).1.rx ≠ [] := by
    intro ops
    induction ops with
    | nil => intro s _ h _ _ hr; exact h hr
    | cons op ops ih =>
      intro s hl h hn hu0
      have hl' : ∀ n room, .arrive n room ∈ ops → 20 ≤ n := fun n room hm => hl n room (List.mem_cons_of_mem _ hm)
      have hstep : ((step k s op).1.r = true → (step k s op).1.rx ≠ []) ∧ (∀ n ∈ (step k s op).1.rx, 20 ≤ n) := by
        cases op with
        | socket =>
          simp only [step, socketOp]
          by_cases hu : s.used = true
          · rw [if_pos hu]; exact ⟨h, hn⟩
          · rw [if_neg hu]
            by_cases hlt : k.late = true
            · rw [if_pos hlt]; exact ⟨(by intro c; cases c), (by intro n c; cases c)⟩
            · rw [if_neg hlt]
              refine ⟨fun hr => ?_, (by intro n c; cases c)⟩
              rw [hu0 (Bool.not_eq_true _ ▸ hu)] at hr; cases hr
        | close => exact ⟨(by intro c; cases c), (by intro n c; cases c)⟩
        | register on => exact ⟨h, hn⟩
        | arrive n room =>
          simp only [step]
          by_cases hc : (s.used && room) = true
          · rw [if_pos hc]
            refine ⟨fun _ c => ?_, fun m hm => ?_⟩
            · have := congrArg List.length c
              simp at this
            · rcases List.mem_append.mp hm with hm | hm
              · exact hn m hm
              · rw [List.eq_of_mem_singleton hm]; exact hl n room (List.mem_cons_self ..)
          · rw [if_neg hc]; exact ⟨h, hn⟩
        | recv len =>
          simp only [step]
          by_cases hc : (k.late && !s.used) = true
          · rw [if_pos hc]; exact ⟨h, hn⟩
          · rw [if_neg hc]
            unfold recvOp
            cases hx : s.rx with
            | nil => dsimp only; rw [hx] at h hn; refine ⟨fun hr => absurd rfl (h hr), fun n hm => ?_⟩; rw [hx] at hm; cases hm
            | cons n rest =>
              rw [hx] at hn
              dsimp only
              rw [if_neg (fun c => absurd (hn n (List.mem_cons_self ..)) (by omega))]
              refine ⟨fun hr => ?_, fun m hm => hn m (List.mem_cons_of_mem _ hm)⟩
              intro he
              dsimp only at hr he
              rw [he] at hr
              cases k with
              | udp => exact hk rfl
              | icmp => simp [keepR] at hr
              | raw => simp [keepR] at hr
              | packet => simp [keepR] at hr
        | send room =>
          simp only [step]
          by_cases hu : s.used = false
          · rw [if_pos hu]; exact ⟨h, hn⟩
          · rw [if_neg hu]; cases room <;> exact ⟨h, hn⟩
        | flush n space => exact ⟨h, hn⟩
        | loop space => exact ⟨h, hn⟩
        | fire =>
          simp only [step, fireOp]
          by_cases hlt : k.late = true
          · rw [if_pos hlt]
            by_cases hc : (s.used && s.cb && (s.r || s.w)) = true
            · rw [if_pos hc]; exact ⟨h, hn⟩
            · rw [if_neg hc]; exact ⟨h, hn⟩
          · rw [if_neg hlt]
            by_cases hc : (s.cb && (s.r || s.w)) = true
            · rw [if_pos hc]; exact ⟨(by intro c; cases c), hn⟩
            · rw [if_neg hc]; exact ⟨h, hn⟩
        | fireEnd =>
          simp only [step]
          by_cases hb : s.busy = 0
          · rw [if_pos hb]; exact ⟨h, hn⟩
          · rw [if_neg hb]; exact ⟨(by intro c; cases c), hn⟩
      have hused : (step k s op).1.used = false → (step k s op).1.r = false := by
        cases op with
        | socket =>
          simp only [step, socketOp]
          by_cases hu : s.used = true
          · rw [if_pos hu]; exact hu0
          · rw [if_neg hu]
            by_cases hlt : k.late = true
            · rw [if_pos hlt]; intro c; cases c
            · rw [if_neg hlt]; intro c; cases c
        | close => intro _; rfl
        | register on => exact hu0
        | arrive n room =>
          simp only [step]
          by_cases hc : (s.used && room) = true
          · rw [if_pos hc]; intro c; rw [show s.used = false from c] at hc; cases hc
          · rw [if_neg hc]; exact hu0
        | recv len =>
          simp only [step]
          by_cases hc : (k.late && !s.used) = true
          · rw [if_pos hc]; exact hu0
          · rw [if_neg hc]
            unfold recvOp
            cases hx : s.rx with
            | nil => exact hu0
            | cons n rest =>
              dsimp only
              by_cases hc : k = .raw ∧ n < 20
              · rw [if_pos hc]; exact hu0
              · rw [if_neg hc]
                intro hu
                show keepR k s.r rest = false
                rw [hu0 hu]
                cases k <;> rfl
        | send room =>
          simp only [step]
          by_cases hu : s.used = false
          · rw [if_pos hu]; exact hu0
          · rw [if_neg hu]; cases room <;> exact hu0
        | flush n space => exact hu0
        | loop space => exact hu0
        | fire =>
          simp only [step, fireOp]
          by_cases hlt : k.late = true
          · rw [if_pos hlt]
            by_cases hc : (s.used && s.cb && (s.r || s.w)) = true
            · rw [if_pos hc]; exact hu0
            · rw [if_neg hc]; exact hu0
          · rw [if_neg hlt]
            by_cases hc : (s.cb && (s.r || s.w)) = true
            · rw [if_pos hc]; exact fun _ => rfl
            · rw [if_neg hc]; exact hu0
        | fireEnd =>
          simp only [step]
          by_cases hb : s.busy = 0
          · rw [if_pos hb]; exact hu0
          · rw [if_neg hb]; exact fun _ => rfl
      exact ih _ hl' hstep.1 hstep.2 hused
  exact key ops {} hl (by intro c; cases c) (by intro n c; cases c) (fun _ => rfl) hr

/-! ## Writing -/

theorem waits_step (s : Sk) (b : Bool) (op : Op) (h : b = true → s.tx ≠ 0 ∨ s.w = true) (h1 : s.tx = 0 → op ≠ .send false)
    (h2 : ∀ n, op = .flush n false → n < s.tx ∨ s.tx = 0) (hbz : s.busy = 0) :
    (waitsStep b (op, (step .udp s op).2) = true → (step .udp s op).1.tx ≠ 0 ∨ (step .udp s op).1.w = true) ∧ (step .udp s op).1.busy = 0 := by
  cases op with
  | socket =>
    simp only [step, socketOp]
    by_cases hu : s.used = true
    · rw [if_pos hu]; exact ⟨h, hbz⟩
    · rw [if_neg hu, if_neg (by intro c; cases c)]
      exact ⟨(by intro c; cases c), hbz⟩
  | close => exact ⟨(by intro c; cases c), hbz⟩
  | register on => exact ⟨h, hbz⟩
  | arrive n room =>
    simp only [step]
    by_cases hc : (s.used && room) = true
    · rw [if_pos hc]; exact ⟨h, hbz⟩
    · rw [if_neg hc]; exact ⟨h, hbz⟩
  | recv len =>
    simp only [step]
    rw [if_neg (by intro c; cases c)]
    unfold recvOp
    cases hx : s.rx with
    | nil => exact ⟨h, hbz⟩
    | cons n rest =>
      dsimp only
      rw [if_neg (by intro c; cases c.1)]
      exact ⟨h, hbz⟩
  | send room =>
    simp only [step]
    by_cases hu : s.used = false
    · rw [if_pos hu]; exact ⟨h, hbz⟩
    · rw [if_neg hu]
      cases room with
      | true => exact ⟨(by intro c; cases c), hbz⟩
      | false => exact ⟨fun _ => Or.inl (fun c => absurd rfl (h1 c)), hbz⟩
  | flush n space =>
    refine ⟨fun hb => ?_, hbz⟩
    simp only [step]
    rcases h hb with ht | hw
    · by_cases hn : s.tx - n = 0
      · right
        have hs : space = true := by
          cases space with
          | true => rfl
          | false => rcases h2 n rfl with h | h <;> omega
        rw [hs, decide_eq_true (show 0 < n by omega), decide_eq_true (show 0 < s.tx by omega)]
        cases s.w <;> rfl
      · exact Or.inl hn
    · right; rw [hw]; rfl
  | loop space =>
    refine ⟨fun hb => ?_, hbz⟩
    simp only [step]
    rcases h hb with ht | hw
    · exact Or.inl ht
    · right; rw [hw]; rfl
  | fire =>
    simp only [step, fireOp]
    rw [if_neg (by intro c; cases c)]
    by_cases hc : (s.cb && (s.r || s.w)) = true
    · rw [if_pos hc]
      refine ⟨?_, hbz⟩
      cases hw : s.w with
      | true => intro c; cases hr : s.r <;> (rw [hr] at c; cases c)
      | false =>
        intro hb
        have hb' : b = true := by cases hr : s.r <;> (rw [hr] at hb; exact hb)
        rcases h hb' with ht | hw'
        · exact Or.inl ht
        · rw [hw] at hw'; cases hw'
    · rw [if_neg hc]; exact ⟨h, hbz⟩
  | fireEnd =>
    simp only [step]
    rw [if_pos hbz]
    exact ⟨h, hbz⟩

theorem waits_run (ops : List Op) : ∀ (s : Sk) (b : Bool), (b = true → s.tx ≠ 0 ∨ s.w = true) → s.busy = 0 → EmptyHasRoom .udp s ops →
    ((run .udp s ops).2.foldl waitsStep b = true → (run .udp s ops).1.tx ≠ 0 ∨ (run .udp s ops).1.w = true) := by
  induction ops with
  | nil => intro s b h _ _; exact h
  | cons op ops ih =>
    intro s b h hz he
    obtain ⟨i1, i2⟩ := waits_step s b op h he.1 he.2.1 hz
    exact ih _ _ i1 i2 he.2.2

/-- **A blocked UDP sender is woken.** If a send was refused with "again" and neither a WRITABLE event was delivered nor a send
accepted since, then frames are still waiting to leave (so a later flush will announce room) or WRITABLE is pending. -/
theorem udp_writable_announced (ops : List Op) (he : EmptyHasRoom .udp {} ops) (h : waits (run .udp {} ops).2 = true) :
    (run .udp {} ops).1.tx ≠ 0 ∨ (run .udp {} ops).1.w = true :=
  waits_run ops {} false (by intro c; cases c) rfl he h

/-- Every flush that takes frames out of a UDP socket and leaves room raises WRITABLE. -/
theorem udp_flush_announces (s : Sk) (n : Nat) (hn : 0 < n) (ht : 0 < s.tx) : (step .udp s (.flush n true)).1.w = true := by
  simp only [step]
  rw [decide_eq_true hn, decide_eq_true ht]
  cases s.w <;> rfl

/-! ## Concrete cases and limits -/

/-- Two datagrams arrive and are announced by one event; the callback reads until "again"; a third is announced again. -/
theorem ready_example :
    (run .icmp {} [.socket, .register true, .fire, .arrive 60 true, .arrive 70 true, .fire, .recv 100, .recv 100, .recv 100, .fireEnd, .arrive 80 true, .fire]).2.map Prod.snd =
      [.fd, .none, .event false true, .none, .none, .event true false, .data 60, .data 70, .again, .none, .none, .event true false] := by decide

/-- The hypotheses of `readable_announced` are met by that history up to the third arrival, for every kind. -/
theorem ready_hyps (k : Kind) :
    let ops := [Op.socket, .register true, .arrive 60 true, .fire, .recv 100, .recv 100, .fireEnd, .arrive 80 true]
    NoArrivalInCallback k {} ops ∧ mustRead (run k {} ops).2 = false ∧ (run k {} ops).1.rx ≠ [] := by
  cases k <;> (refine ⟨?_, by decide, by decide⟩; simp [NoArrivalInCallback, step, socketOp, fireOp, recvOp, keepR, Kind.late])

/-- A blocked UDP sender: refused, the flush sends, the next dispatch says WRITABLE. -/
theorem writable_example :
    EmptyHasRoom .udp {} [.socket, .register true, .fire, .send true, .send false, .flush 1 true, .fire] ∧
    (run .udp {} [.socket, .register true, .fire, .send true, .send false, .flush 1 true, .fire]).2.map Prod.snd =
      [.fd, .none, .event false true, .sent, .again, .none, .event false true] := by
  refine ⟨?_, by decide⟩
  simp [EmptyHasRoom, step, socketOp, fireOp, Kind.late]

/-- **Limit.** A blocked sender on an ICMP, raw or packet socket is never woken: after a refused send, no flush, however complete,
raises WRITABLE; only traffic on the loopback interface (ICMP) or a new socket does. -/
theorem writable_lost (k : Kind) (hk : k ≠ .udp) (s : Sk) (hw : s.w = false) (fl : List (Nat × Bool)) :
    (run k s (fl.map (fun (f : Nat × Bool) => Op.flush f.1 f.2))).1.w = false := by
  induction fl generalizing s with
  | nil => exact hw
  | cons f fl ih =>
    refine ih _ ?_
    simp only [step]
    rw [hw, decide_eq_false hk]
    rfl

theorem writable_lost_example :
    (run .raw {} [.socket, .register true, .fire, .fireEnd, .send true, .send false, .flush 1 true, .fire, .fireEnd, .fire]).2.map Prod.snd =
      [.fd, .none, .event false true, .none, .sent, .again, .none, .none, .none, .none] := by decide

/-- **Limit.** The raw and packet loops clear the events after the callback: a datagram that arrives while the callback runs (it
polls the stack itself) is never announced, even to an application that reads until "again". -/
theorem readable_lost_in_callback (k : Kind) (hk : k.late = true) :
    (run k {} [.socket, .register true, .arrive 60 true, .fire, .recv 100, .recv 100, .arrive 70 true, .fireEnd, .fire]).2.map Prod.snd =
      [.fd, .none, .none, .event true true, .data 60, .again, .none, .none, .none] := by
  cases k <;> first | (cases hk; done) | decide

/-- **Limit.** A raw or packet socket closed and opened again by its own callback does not get the first WRITABLE event of the
new socket: it is cleared with the old one's events. -/
theorem first_event_lost (k : Kind) (hk : k.late = true) :
    (run k {} [.socket, .register true, .arrive 60 true, .fire, .close, .socket, .register true, .fireEnd, .fire]).2.map Prod.snd =
      [.fd, .none, .none, .event true true, .none, .fd, .none, .none, .none] := by
  cases k <;> first | (cases hk; done) | decide

/-- **Limit.** A READABLE event of a UDP socket may be false: reading does not withdraw it. -/
theorem udp_false_readable :
    (run .udp {} [.socket, .register true, .arrive 60 true, .recv 100, .fire, .recv 100]).2.map Prod.snd =
      [.fd, .none, .none, .data 60, .event true true, .again] := by decide

end Wolf.Ready
