import Verif.Link.Model
import Verif.Timers.Props
/-!
# C118: one poll does a bounded amount of work and starves nobody

Model of `poll_devices` (src/wolfip.c 11160–11190) and of `handle_timers` with callbacks that arm and cancel
timers (11192–11200). What a driver returns and what processing a frame does (including sending frames to
other interfaces or back to the same one) is arbitrary: the world `W` and the functions `drv` and `recv`.
-/
namespace Wolf.Poll

abbrev Bytes := List Nat

/-- The rest of the system. `drv w i room`: what the driver of interface `i` writes when called with `room` octets of
space (`[]`: it returns 0 or an error). `recv`: `wolfIP_recv_on`. -/
structure Env (W : Type) where
  drv : W → Nat → Nat → W × Bytes
  recv : W → Nat → Bytes → W

/-- Calls made during a poll. -/
inductive Ev where
  | polled (i room : Nat) (b : Bytes)
  | input (i : Nat) (b : Bytes)
deriving DecidableEq

/-- Write at an offset of the local buffer. -/
def put (buf : Bytes) (off : Nat) (b : Bytes) : Bytes := buf.take off ++ (b ++ buf.drop (off + b.length))

/-- State of `poll_devices`: the world, the local buffer `buf[LINK_MTU]`, the calls made. -/
structure P (W : Type) where
  w : W
  buf : Bytes
  ev : List Ev

notation "pollBudget" => (128 : Nat)

/-- Offset of the frame in the buffer. 11173. -/
def offOf (d : Link.Dev) : Nat := if d.nonEth then ethHdr else 0

/-- The `do … while` loop for one interface; the first argument is `budget`. 11172–11188. -/
def devLoop {W : Type} (e : Env W) (i off mtu : Nat) : Nat → P W → P W
  | 0, p => p
  | n + 1, p =>
    if 0 < off ∧ mtu ≤ off then p
    else
      let b0 := if 0 < off then put p.buf 0 (List.replicate off 0) else p.buf
      let r := e.drv p.w i (mtu - off)
      let b1 := put b0 off r.2
      if 0 < r.2.length then
        let f := b1.take (r.2.length + off)
        devLoop e i off mtu n { w := e.recv r.1 i f, buf := b1, ev := p.ev ++ [.polled i (mtu - off) r.2, .input i f] }
      else { w := r.1, buf := b1, ev := p.ev ++ [.polled i (mtu - off) r.2] }

/-- One interface. 11167–11188. -/
def devPoll {W : Type} (e : Env W) (devs : List Link.Dev) (p : P W) (i : Nat) : P W :=
  match devs[i]? with
  | none => p
  | some d => if d.poll then devLoop e i (offOf d) (Link.frameMtu devs i) pollBudget p else p

/-- `poll_devices`. 11160–11190. -/
def pollDevices {W : Type} (e : Env W) (devs : List Link.Dev) (w : W) : P W :=
  (List.range devs.length).foldl (devPoll e devs) { w := w, buf := List.replicate linkMtu 0, ev := [] }

/-! ## What the driver calls and the inputs were -/

/-- What the driver of `i` returned, in order. -/
def returned (i : Nat) : List Ev → List Bytes
  | [] => []
  | .polled j _ b :: l => if j = i then b :: returned i l else returned i l
  | .input _ _ :: l => returned i l

/-- What was given to the stack as received on `i`. -/
def inputs (i : Nat) : List Ev → List Bytes
  | [] => []
  | .polled _ _ _ :: l => inputs i l
  | .input j b :: l => if j = i then b :: inputs i l else inputs i l

theorem returned_append (i : Nat) (a b : List Ev) : returned i (a ++ b) = returned i a ++ returned i b := by
  induction a with
  | nil => rfl
  | cons x a ih =>
    cases x with
    | polled j r c => simp only [List.cons_append, returned]; split <;> simp [ih]
    | input j c => simp only [List.cons_append, returned]; exact ih

theorem inputs_append (i : Nat) (a b : List Ev) : inputs i (a ++ b) = inputs i a ++ inputs i b := by
  induction a with
  | nil => rfl
  | cons x a ih =>
    cases x with
    | polled j r c => simp only [List.cons_append, inputs]; exact ih
    | input j c => simp only [List.cons_append, inputs]; split <;> simp [ih]

/-- A driver never writes more than it was given room for. -/
def Honest {W : Type} (e : Env W) : Prop := ∀ w i room, (e.drv w i room).2.length ≤ room

theorem put_length {buf : Bytes} {off : Nat} {b : Bytes} (h : off + b.length ≤ buf.length) : (put buf off b).length = buf.length := by
  unfold put
  simp only [List.length_append, List.length_take, List.length_drop]
  omega

/-- The octets handed to the stack: the zero link header of a device without one, then what the driver wrote. -/
theorem put_take {buf : Bytes} {off : Nat} {b : Bytes} (h : off + b.length ≤ buf.length) :
    (put (if 0 < off then put buf 0 (List.replicate off 0) else buf) off b).take (b.length + off) = List.replicate off 0 ++ b := by
  by_cases h0 : 0 < off
  · rw [if_pos h0]
    unfold put
    have e1 : (List.take 0 buf ++ (List.replicate off 0 ++ List.drop (0 + (List.replicate off 0).length) buf)).take off = List.replicate off 0 := by
      rw [List.take_zero, List.nil_append, List.take_append_of_le_length (by simp), List.take_of_length_le (by simp)]
    rw [e1, ← List.append_assoc, List.take_append_of_le_length (by simp; omega), List.take_of_length_le (by simp; omega)]
  · have h1 : off = 0 := by omega
    subst h1
    rw [if_neg (by omega)]
    unfold put
    rw [List.take_zero, List.nil_append, Nat.add_zero, List.take_append_of_le_length (by simp), List.take_of_length_le (by simp)]
    simp

/-- What one interface's loop does. -/
structure LoopSpec (i off mtu n : Nat) (go : Bool) (l : List Ev) : Prop where
  only : ∀ x ∈ l, (∃ b, x = .polled i (mtu - off) b) ∨ (∃ b, x = .input i b)
  exact : inputs i l = ((returned i l).filter (fun b => 0 < b.length)).map (List.replicate off 0 ++ ·)
  few : (inputs i l).length ≤ n
  asked : go = true → 0 < n → returned i l ≠ []
  done : go = true → 0 < n → (inputs i l).length = n ∨ ∃ l', returned i l = l' ++ [[]]

theorem devLoop_spec {W : Type} (e : Env W) (he : Honest e) (i off mtu : Nat) (hm : mtu ≤ linkMtu) (hoff : off ≤ mtu ∨ 0 < off) : ∀ (n : Nat) (p : P W),
    p.buf.length = linkMtu → ∃ l, (devLoop e i off mtu n p).ev = p.ev ++ l ∧ (devLoop e i off mtu n p).buf.length = linkMtu ∧
      LoopSpec i off mtu n (decide ¬(0 < off ∧ mtu ≤ off)) l
  | 0, p, hb => ⟨[], by simp [devLoop], hb, by simp, rfl, by simp [inputs], by simp, by simp⟩
  | n + 1, p, hb => by
    unfold devLoop
    split
    · rename_i hc
      exact ⟨[], by simp, hb, by simp, rfl, by simp [inputs], by simp [hc], by simp [hc]⟩
    · rename_i hc
      dsimp only
      have hr := he p.w i (mtu - off)
      generalize e.drv p.w i (mtu - off) = r at hr ⊢
      have hb0 : (if 0 < off then put p.buf 0 (List.replicate off 0) else p.buf).length = linkMtu := by
        split
        · rw [put_length]
          · exact hb
          · rw [hb]; simp; omega
        · exact hb
      have hb1 : (put (if 0 < off then put p.buf 0 (List.replicate off 0) else p.buf) off r.2).length = linkMtu := by
        rw [put_length]
        · exact hb0
        · rw [hb0]; omega
      have ht := put_take (buf := p.buf) (off := off) (b := r.2) (by rw [hb]; omega)
      split
      · rename_i h0
        rw [ht]
        obtain ⟨l, h1, h2, h3⟩ := devLoop_spec e he i off mtu hm hoff n
          { w := e.recv r.1 i (List.replicate off 0 ++ r.2), buf := put (if 0 < off then put p.buf 0 (List.replicate off 0) else p.buf) off r.2,
            ev := p.ev ++ [.polled i (mtu - off) r.2, .input i (List.replicate off 0 ++ r.2)] } hb1
        refine ⟨.polled i (mtu - off) r.2 :: .input i (List.replicate off 0 ++ r.2) :: l, ?_, h2, ?_⟩
        · rw [h1]; simp
        · have hret : returned i (.polled i (mtu - off) r.2 :: .input i (List.replicate off 0 ++ r.2) :: l) = r.2 :: returned i l := by
            simp [returned]
          have hin : inputs i (.polled i (mtu - off) r.2 :: .input i (List.replicate off 0 ++ r.2) :: l) = (List.replicate off 0 ++ r.2) :: inputs i l := by
            simp [inputs]
          refine ⟨?_, ?_, ?_, ?_, ?_⟩
          · intro x hx
            rcases List.mem_cons.1 hx with rfl | hx
            · exact Or.inl ⟨_, rfl⟩
            · rcases List.mem_cons.1 hx with rfl | hx
              · exact Or.inr ⟨_, rfl⟩
              · exact h3.only x hx
          · rw [hret, hin, h3.exact, List.filter_cons_of_pos (by simpa using h0)]; rfl
          · rw [hin]; have := h3.few; simp; omega
          · intro _ _; rw [hret]; simp
          · intro hg _
            by_cases hn : 0 < n
            · rcases h3.done hg hn with h4 | ⟨l', h4⟩
              · left; rw [hin]; simp [h4]
              · right; exact ⟨r.2 :: l', by rw [hret, h4]; rfl⟩
            · left
              have := h3.few
              rw [hin]; simp; omega
      · rename_i h0
        have hnil : r.2 = [] := List.eq_nil_of_length_eq_zero (by omega)
        refine ⟨[.polled i (mtu - off) r.2], rfl, hb1, ?_⟩
        rw [hnil]
        refine ⟨by intro x hx; simp at hx; exact Or.inl ⟨[], hx⟩, by simp [inputs, returned], by simp [inputs], by simp [returned], ?_⟩
        intro _ _; right; exact ⟨[], by simp [returned]⟩

/-- The frame MTU never exceeds the size of the buffer. -/
theorem frameMtuF_le (devs : List Link.Dev) : ∀ (f i : Nat), Link.frameMtuF devs f i ≤ linkMtu
  | 0, _ => by simp [Link.frameMtuF]
  | f + 1, i => by
    unfold Link.frameMtuF
    split
    · exact Nat.le_refl _
    · split
      · rename_i v _
        have := frameMtuF_le devs f v.parent
        dsimp only
        split <;> omega
      · unfold Link.physMtu
        split
        · exact Nat.le_refl _
        · dsimp only
          split <;> split <;> omega

/-- The interface is polled: it has a driver, and room for a frame. -/
def Polled (devs : List Link.Dev) (i : Nat) : Prop :=
  ∃ d, devs[i]? = some d ∧ d.poll = true ∧ (d.nonEth = true → ethHdr < Link.frameMtu devs i)

def offAt (devs : List Link.Dev) (i : Nat) : Nat := match devs[i]? with | some d => offOf d | none => 0

theorem other_none {i j off mtu n : Nat} {g : Bool} {l : List Ev} (h : LoopSpec j off mtu n g l) (hij : j ≠ i) : returned i l = [] ∧ inputs i l = [] := by
  have ho := h.only
  clear h
  induction l with
  | nil => exact ⟨rfl, rfl⟩
  | cons x l ih =>
    obtain ⟨h1, h2⟩ := ih (fun y hy => ho y (List.mem_cons_of_mem _ hy))
    rcases ho x List.mem_cons_self with ⟨b, rfl⟩ | ⟨b, rfl⟩
    · exact ⟨by simp [returned, hij, h1], by simp [inputs, h2]⟩
    · exact ⟨by simp [returned, h1], by simp [inputs, hij, h2]⟩

/-- What one interface's turn adds to the calls. -/
theorem devPoll_spec {W : Type} (e : Env W) (he : Honest e) (devs : List Link.Dev) (p : P W) (j : Nat) (hb : p.buf.length = linkMtu) :
    ∃ l, (devPoll e devs p j).ev = p.ev ++ l ∧ (devPoll e devs p j).buf.length = linkMtu ∧ ∃ g, (Polled devs j → g = true) ∧
      LoopSpec j (offAt devs j) (Link.frameMtu devs j) 128 g l := by
  unfold devPoll
  have hz : ∀ (o m : Nat), LoopSpec j o m 128 false [] := fun o m => ⟨by simp, rfl, by simp [inputs], nofun, nofun⟩
  split
  · rename_i hd
    refine ⟨[], by simp, hb, false, ?_, hz _ _⟩
    rintro ⟨d, h1, _⟩
    rw [hd] at h1; cases h1
  · rename_i d hd
    split
    · rename_i hp
      have hm : Link.frameMtu devs j ≤ linkMtu := frameMtuF_le devs _ _
      have hoff : offAt devs j = offOf d := by unfold offAt; rw [hd]
      obtain ⟨l, h1, h2, h3⟩ := devLoop_spec e he j (offOf d) (Link.frameMtu devs j) hm
        (by by_cases hz : 0 < offOf d; · exact Or.inr hz
            · left; omega) 128 p hb
      refine ⟨l, h1, h2, _, ?_, by rw [hoff]; exact h3⟩
      rintro ⟨d', h4, _, h5⟩
      rw [hd] at h4; cases h4
      simp only [decide_eq_true_eq]
      rintro ⟨h6, h7⟩
      unfold offOf at h6 h7
      split at h6
      · rename_i hn
        have := h5 hn
        rw [if_pos hn] at h7
        omega
      · omega
    · rename_i hp
      refine ⟨[], by simp, hb, false, ?_, hz _ _⟩
      rintro ⟨d', h1, h2, _⟩
      rw [hd] at h1; cases h1
      exact absurd h2 hp

theorem fold_spec {W : Type} (e : Env W) (he : Honest e) (devs : List Link.Dev) (i : Nat) : ∀ (js : List Nat) (p : P W), js.Nodup → p.buf.length = linkMtu →
    ∃ l, (js.foldl (devPoll e devs) p).ev = p.ev ++ l ∧ (i ∉ js → returned i l = [] ∧ inputs i l = []) ∧
      (i ∈ js → ∃ m g, (Polled devs i → g = true) ∧ LoopSpec i (offAt devs i) (Link.frameMtu devs i) 128 g m ∧ returned i l = returned i m ∧ inputs i l = inputs i m) ∧
      (∀ k room b, Ev.polled k room b ∈ l → room = Link.frameMtu devs k - offAt devs k)
  | [], p, _, _ => ⟨[], by simp, fun _ => ⟨rfl, rfl⟩, by simp, by simp⟩
  | j :: js, p, hn, hb => by
    obtain ⟨l, h1, h2, g, h3, h4⟩ := devPoll_spec e he devs p j hb
    have hn' := List.nodup_cons.1 hn
    obtain ⟨l2, k1, k2, k3, k4⟩ := fold_spec e he devs i js (devPoll e devs p j) hn'.2 h2
    refine ⟨l ++ l2, by rw [List.foldl_cons, k1, h1]; simp, ?_, ?_, ?_⟩
    · intro hi
      have hj : j ≠ i := fun h => hi (by simp [h])
      have := k2 (fun h => hi (List.mem_cons_of_mem _ h))
      have h5 := other_none h4 hj
      rw [returned_append, inputs_append, this.1, this.2, h5.1, h5.2]
      exact ⟨rfl, rfl⟩
    · intro hi
      by_cases hj : j = i
      · subst hj
        have := k2 hn'.1
        exact ⟨l, g, h3, h4, by rw [returned_append, this.1]; simp, by rw [inputs_append, this.2]; simp⟩
      · have hi' : i ∈ js := by
          rcases List.mem_cons.1 hi with h | h
          · exact absurd h.symm hj
          · exact h
        obtain ⟨m, g', m1, m2, m3, m4⟩ := k3 hi'
        have h5 := other_none h4 hj
        exact ⟨m, g', m1, m2, by rw [returned_append, h5.1, m3]; rfl, by rw [inputs_append, h5.2, m4]; rfl⟩
    · intro k room b hk
      rcases List.mem_append.1 hk with hk | hk
      · rcases h4.only _ hk with ⟨b', e'⟩ | ⟨b', e'⟩
        · cases e'; rfl
        · cases e'
      · exact k4 k room b hk

/-- **C118, devices.** One poll, whatever the drivers return and whatever processing a frame does: on each interface the stack
gets exactly the frames the driver returned, each once, in order, unchanged (behind a zeroed link header if the device has
none), at most 128 of them; an interface that has a driver is asked at least once, however busy the others are, and asked
again until it has nothing or 128 frames were taken; a driver is never given more room than the buffer has. -/
theorem poll_devices_exact {W : Type} (e : Env W) (he : Honest e) (devs : List Link.Dev) (w : W) (i : Nat) :
    inputs i (pollDevices e devs w).ev = ((returned i (pollDevices e devs w).ev).filter (fun b => 0 < b.length)).map (List.replicate (offAt devs i) 0 ++ ·) ∧
    (inputs i (pollDevices e devs w).ev).length ≤ 128 ∧
    (Polled devs i → returned i (pollDevices e devs w).ev ≠ [] ∧
      ((inputs i (pollDevices e devs w).ev).length = 128 ∨ ∃ l, returned i (pollDevices e devs w).ev = l ++ [[]])) ∧
    (∀ k room b, Ev.polled k room b ∈ (pollDevices e devs w).ev → offAt devs k + room ≤ 1536 ∨ room = 0) := by
  obtain ⟨l, h1, h2, h3, h4⟩ := fold_spec e he devs i (List.range devs.length) { w := w, buf := List.replicate linkMtu 0, ev := [] }
    List.nodup_range (List.length_replicate ..)
  have hev : (pollDevices e devs w).ev = l := by unfold pollDevices; rw [h1]; simp
  rw [hev]
  have hroom : ∀ k room b, Ev.polled k room b ∈ l → offAt devs k + room ≤ 1536 ∨ room = 0 := by
    intro k room b hk
    have := h4 k room b hk
    have hm : Link.frameMtu devs k ≤ linkMtu := frameMtuF_le devs _ _
    omega
  by_cases hi : i ∈ List.range devs.length
  · obtain ⟨m, g, m1, m2, m3, m4⟩ := h3 hi
    rw [m3, m4]
    exact ⟨m2.exact, m2.few, fun hp => ⟨m2.asked (m1 hp) (by omega), m2.done (m1 hp) (by omega)⟩, hroom⟩
  · obtain ⟨m3, m4⟩ := h2 hi
    rw [m3, m4]
    refine ⟨rfl, by simp, ?_, hroom⟩
    rintro ⟨d, hd, _⟩
    have := (List.getElem?_eq_some_iff.1 hd).1
    exact absurd (List.mem_range.2 this) hi

/-! ## A waiting frame is reached -/

/-- Drivers that keep received frames in a queue, and what has been given to the stack. -/
structure Q where
  q : Nat → List Bytes
  got : List (Nat × Bytes)

/-- Processing a frame may make any further frames appear on any interface (`ext`): replies through the loopback interface,
frames arriving meanwhile. -/
def fifoEnv (ext : Q → Nat → Bytes → Nat → List Bytes) : Env Q where
  drv w i room := match w.q i with
    | [] => (w, [])
    | f :: t => ({ w with q := fun k => if k = i then t else w.q k }, f.take room)
  recv w i f := { q := fun k => w.q k ++ ext w i f k, got := w.got ++ [(i, f)] }

/-- Frames appearing between two polls. -/
def arrive (w : Q) (a : Nat → List Bytes) : Q := { w with q := fun k => w.q k ++ a k }

/-- Successive polls, with arrivals before each. -/
def polls (ext : Q → Nat → Bytes → Nat → List Bytes) (devs : List Link.Dev) : Q → List (Nat → List Bytes) → Q
  | w, [] => w
  | w, a :: l => polls ext devs (pollDevices (fifoEnv ext) devs (arrive w a)).w l

theorem got_mono {ext : Q → Nat → Bytes → Nat → List Bytes} {i off mtu : Nat} : ∀ (n : Nat) (p : P Q),
    ∃ m, (devLoop (fifoEnv ext) i off mtu n p).w.got = p.w.got ++ m
  | 0, p => ⟨[], by simp [devLoop]⟩
  | n + 1, p => by
    have hd : ((fifoEnv ext).drv p.w i (mtu - off)).1.got = p.w.got := by
      dsimp only [fifoEnv]; split <;> rfl
    unfold devLoop
    split
    · exact ⟨[], by simp⟩
    · dsimp only
      split
      · obtain ⟨m, h⟩ := got_mono (ext := ext) (i := i) (off := off) (mtu := mtu) n
          { w := (fifoEnv ext).recv ((fifoEnv ext).drv p.w i (mtu - off)).1 i
              ((put (if 0 < off then put p.buf 0 (List.replicate off 0) else p.buf) off ((fifoEnv ext).drv p.w i (mtu - off)).2).take
                (((fifoEnv ext).drv p.w i (mtu - off)).2.length + off)),
            buf := put (if 0 < off then put p.buf 0 (List.replicate off 0) else p.buf) off ((fifoEnv ext).drv p.w i (mtu - off)).2,
            ev := p.ev ++ [.polled i (mtu - off) ((fifoEnv ext).drv p.w i (mtu - off)).2, .input i
              ((put (if 0 < off then put p.buf 0 (List.replicate off 0) else p.buf) off ((fifoEnv ext).drv p.w i (mtu - off)).2).take
                (((fifoEnv ext).drv p.w i (mtu - off)).2.length + off))] }
        rw [h]
        show ∃ m', (((fifoEnv ext).drv p.w i (mtu - off)).1.got ++ [_]) ++ m = p.w.got ++ m'
        rw [hd, List.append_assoc]
        exact ⟨_, rfl⟩
      · exact ⟨[], by rw [hd]; simp⟩

/-- The loop of another interface only adds to the queue of `i`. -/
theorem other_queue {ext : Q → Nat → Bytes → Nat → List Bytes} {i j off mtu : Nat} (hij : i ≠ j) : ∀ (n : Nat) (p : P Q),
    ∃ m, (devLoop (fifoEnv ext) j off mtu n p).w.q i = p.w.q i ++ m
  | 0, p => ⟨[], by simp [devLoop]⟩
  | n + 1, p => by
    have hd : ((fifoEnv ext).drv p.w j (mtu - off)).1.q i = p.w.q i := by
      dsimp only [fifoEnv]; split
      · rfl
      · simp [hij]
    unfold devLoop
    split
    · exact ⟨[], by simp⟩
    · dsimp only
      split
      · obtain ⟨m, h⟩ := other_queue (ext := ext) (off := off) (mtu := mtu) hij n
          { w := (fifoEnv ext).recv ((fifoEnv ext).drv p.w j (mtu - off)).1 j
              ((put (if 0 < off then put p.buf 0 (List.replicate off 0) else p.buf) off ((fifoEnv ext).drv p.w j (mtu - off)).2).take
                (((fifoEnv ext).drv p.w j (mtu - off)).2.length + off)),
            buf := put (if 0 < off then put p.buf 0 (List.replicate off 0) else p.buf) off ((fifoEnv ext).drv p.w j (mtu - off)).2,
            ev := p.ev ++ [.polled j (mtu - off) ((fifoEnv ext).drv p.w j (mtu - off)).2, .input j
              ((put (if 0 < off then put p.buf 0 (List.replicate off 0) else p.buf) off ((fifoEnv ext).drv p.w j (mtu - off)).2).take
                (((fifoEnv ext).drv p.w j (mtu - off)).2.length + off))] }
        rw [h]
        show ∃ m', (((fifoEnv ext).drv p.w j (mtu - off)).1.q i ++ ext _ j _ i) ++ m = p.w.q i ++ m'
        rw [hd, List.append_assoc]
        exact ⟨_, rfl⟩
      · exact ⟨[], by rw [hd]; simp⟩

/-- The interface's own loop takes the first `n` frames of its queue. -/
theorem own_queue {ext : Q → Nat → Bytes → Nat → List Bytes} {i off mtu : Nat} (hm : mtu ≤ linkMtu) (hg : off < mtu ∨ off = 0) : ∀ (n : Nat) (p : P Q),
    p.buf.length = linkMtu → ∀ (front back : List Bytes), p.w.q i = front ++ back → front.length ≤ n →
    (∀ f ∈ front, f ≠ [] ∧ f.length ≤ mtu - off) →
    (front.length = n → ∃ m, (devLoop (fifoEnv ext) i off mtu n p).w.q i = back ++ m) ∧
    ∀ f ∈ front, (i, List.replicate off 0 ++ f) ∈ (devLoop (fifoEnv ext) i off mtu n p).w.got
  | 0, p, _, front, back, hq, hl, _ => by
    have : front = [] := List.eq_nil_of_length_eq_zero (by omega)
    subst this
    exact ⟨fun _ => ⟨[], by simpa [devLoop] using hq⟩, by simp⟩
  | n + 1, p, hb, front, back, hq, hl, hf => by
    cases front with
    | nil => exact ⟨fun h => by simp at h, by simp⟩
    | cons f front =>
      obtain ⟨hne, hfl⟩ := hf f List.mem_cons_self
      have hd : (fifoEnv ext).drv p.w i (mtu - off) = ({ p.w with q := fun k => if k = i then front ++ back else p.w.q k }, f) := by
        dsimp only [fifoEnv]
        rw [hq]
        show (_, f.take (mtu - off)) = _
        rw [List.take_of_length_le hfl]; rfl
      have hpos : 0 < f.length := List.length_pos_iff.2 hne
      have hfit : off + f.length ≤ p.buf.length := by rw [hb]; omega
      have hb0 : (if 0 < off then put p.buf 0 (List.replicate off 0) else p.buf).length = linkMtu := by
        split
        · rw [put_length]
          · exact hb
          · rw [hb, List.length_replicate]; omega
        · exact hb
      have hb1 : (put (if 0 < off then put p.buf 0 (List.replicate off 0) else p.buf) off f).length = linkMtu := by
        rw [put_length]
        · exact hb0
        · rw [hb0]; rw [hb] at hfit; exact hfit
      have ht := put_take (buf := p.buf) (off := off) (b := f) hfit
      unfold devLoop
      rw [if_neg (by omega)]
      dsimp only
      rw [hd]
      dsimp only
      rw [if_pos hpos, ht]
      generalize put (if 0 < off then put p.buf 0 (List.replicate off 0) else p.buf) off f = b1 at hb1 ⊢
      generalize hw : (fifoEnv ext).recv { p.w with q := fun k => if k = i then front ++ back else p.w.q k } i (List.replicate off 0 ++ f) = w
      have hwq : ∃ m, w.q i = front ++ (back ++ m) := by
        rw [← hw]
        exact ⟨_, by dsimp only [fifoEnv]; rw [if_pos rfl, List.append_assoc]⟩
      have hwg : (i, List.replicate off 0 ++ f) ∈ w.got := by
        rw [← hw]; dsimp only [fifoEnv]; simp
      obtain ⟨m, hwq⟩ := hwq
      obtain ⟨k1, k2⟩ := own_queue (ext := ext) (i := i) (off := off) (mtu := mtu) hm hg n
        { w := w, buf := b1, ev := p.ev ++ [.polled i (mtu - off) f, .input i (List.replicate off 0 ++ f)] } hb1 front (back ++ m) hwq
        (by simp only [List.length_cons] at hl; omega) (fun g hg' => hf g (List.mem_cons_of_mem _ hg'))
      constructor
      · intro h
        obtain ⟨m', k3⟩ := k1 (by simp only [List.length_cons] at h; omega)
        exact ⟨m ++ m', by rw [k3, List.append_assoc]⟩
      · intro g hg'
        rcases List.mem_cons.1 hg' with rfl | hg'
        · obtain ⟨m', k4⟩ := got_mono (ext := ext) (i := i) (off := off) (mtu := mtu) n
            { w := w, buf := b1, ev := p.ev ++ [.polled i (mtu - off) g, .input i (List.replicate off 0 ++ g)] }
          rw [k4]
          exact List.mem_append_left _ hwg
        · exact k2 g hg'

theorem honest_fifo (ext : Q → Nat → Bytes → Nat → List Bytes) : Honest (fifoEnv ext) := by
  intro w i room
  dsimp only [fifoEnv]
  split
  · simp
  · rw [List.length_take]; omega

theorem devPoll_buf {W : Type} (e : Env W) (he : Honest e) (devs : List Link.Dev) (p : P W) (j : Nat) (hb : p.buf.length = linkMtu) :
    (devPoll e devs p j).buf.length = linkMtu := by
  obtain ⟨_, _, h, _⟩ := devPoll_spec e he devs p j hb
  exact h

/-- Turns of other interfaces. -/
theorem others {ext : Q → Nat → Bytes → Nat → List Bytes} {devs : List Link.Dev} {i : Nat} : ∀ (js : List Nat) (p : P Q), i ∉ js → p.buf.length = linkMtu →
    (∃ m, (js.foldl (devPoll (fifoEnv ext) devs) p).w.q i = p.w.q i ++ m) ∧ (∃ m, (js.foldl (devPoll (fifoEnv ext) devs) p).w.got = p.w.got ++ m) ∧
    (js.foldl (devPoll (fifoEnv ext) devs) p).buf.length = linkMtu
  | [], p, _, hb => ⟨⟨[], by simp⟩, ⟨[], by simp⟩, hb⟩
  | j :: js, p, hi, hb => by
    have hij : i ≠ j := fun h => hi (by simp [h])
    have h1 : (∃ m, (devPoll (fifoEnv ext) devs p j).w.q i = p.w.q i ++ m) ∧ (∃ m, (devPoll (fifoEnv ext) devs p j).w.got = p.w.got ++ m) := by
      unfold devPoll
      split
      · exact ⟨⟨[], by simp⟩, ⟨[], by simp⟩⟩
      · split
        · exact ⟨other_queue hij _ _, got_mono _ _⟩
        · exact ⟨⟨[], by simp⟩, ⟨[], by simp⟩⟩
    obtain ⟨⟨m1, h1⟩, ⟨m2, h2⟩⟩ := h1
    obtain ⟨⟨k1, h3⟩, ⟨k2, h4⟩, h5⟩ := others (ext := ext) (devs := devs) js (devPoll (fifoEnv ext) devs p j) (fun h => hi (List.mem_cons_of_mem _ h))
      (devPoll_buf _ (honest_fifo ext) devs p j hb)
    exact ⟨⟨m1 ++ k1, by rw [List.foldl_cons, h3, h1, List.append_assoc]⟩, ⟨m2 ++ k2, by rw [List.foldl_cons, h4, h2, List.append_assoc]⟩, h5⟩

/-- One poll takes the first 128 frames of the queue of every polled interface. -/
theorem one_poll {ext : Q → Nat → Bytes → Nat → List Bytes} {devs : List Link.Dev} {i : Nat} (hp : Polled devs i) (w : Q) (front back : List Bytes)
    (hq : w.q i = front ++ back) (hl : front.length ≤ 128) (hf : ∀ f ∈ front, f ≠ [] ∧ f.length ≤ Link.frameMtu devs i - offAt devs i) :
    (front.length = 128 → ∃ m, (pollDevices (fifoEnv ext) devs w).w.q i = back ++ m) ∧
    (∀ f ∈ front, (i, List.replicate (offAt devs i) 0 ++ f) ∈ (pollDevices (fifoEnv ext) devs w).w.got) ∧
    (∃ m, (pollDevices (fifoEnv ext) devs w).w.got = w.got ++ m) := by
  obtain ⟨d, hd, hpoll, hne⟩ := hp
  have hlt := (List.getElem?_eq_some_iff.1 hd).1
  have hs : List.range devs.length = List.range i ++ i :: List.range' (i + 1) (devs.length - (i + 1)) := by
    have h := List.range'_append_1 (s := 0) (m := i) (n := devs.length - (i + 1) + 1)
    rw [Nat.zero_add, List.range'_succ] at h
    rw [List.range_eq_range', List.range_eq_range', h]
    congr 1; omega
  have hoff : offAt devs i = offOf d := by unfold offAt; rw [hd]
  rw [hoff] at hf ⊢
  have hmtu : Link.frameMtu devs i ≤ linkMtu := frameMtuF_le devs _ _
  have hg : offOf d < Link.frameMtu devs i ∨ offOf d = 0 := by
    unfold offOf
    split
    · rename_i h; exact Or.inl (hne h)
    · exact Or.inr rfl
  have e : ∃ p0 : P Q, (∃ m, p0.w.q i = w.q i ++ m) ∧ (∃ m, p0.w.got = w.got ++ m) ∧ p0.buf.length = linkMtu ∧
      pollDevices (fifoEnv ext) devs w = (List.range' (i + 1) (devs.length - (i + 1))).foldl (devPoll (fifoEnv ext) devs)
        (devLoop (fifoEnv ext) i (offOf d) (Link.frameMtu devs i) 128 p0) := by
    obtain ⟨h1, h2, h3⟩ := others (ext := ext) (devs := devs) (i := i) (List.range i) { w := w, buf := List.replicate linkMtu 0, ev := [] }
      (by simp) (List.length_replicate ..)
    refine ⟨_, h1, h2, h3, ?_⟩
    unfold pollDevices
    rw [hs, List.foldl_append, List.foldl_cons]
    congr 1
    rw [devPoll, hd]
    dsimp only
    rw [if_pos hpoll]
  obtain ⟨p0, ⟨m1, h1⟩, ⟨m2, h2⟩, h3, h4⟩ := e
  obtain ⟨k1, k2⟩ := own_queue (ext := ext) (i := i) (off := offOf d) (mtu := Link.frameMtu devs i) hmtu hg 128 p0 h3 front (back ++ m1)
    (by rw [h1, hq, List.append_assoc]) hl hf
  obtain ⟨m3, h5⟩ := got_mono (ext := ext) (i := i) (off := offOf d) (mtu := Link.frameMtu devs i) 128 p0
  have hb : (devLoop (fifoEnv ext) i (offOf d) (Link.frameMtu devs i) 128 p0).buf.length = linkMtu := by
    obtain ⟨_, _, h, _⟩ := devLoop_spec (fifoEnv ext) (honest_fifo ext) i (offOf d) (Link.frameMtu devs i) hmtu (by omega) 128 p0 h3
    exact h
  obtain ⟨⟨m4, h6⟩, ⟨m5, h7⟩, _⟩ := others (ext := ext) (devs := devs) (i := i) (List.range' (i + 1) (devs.length - (i + 1)))
    (devLoop (fifoEnv ext) i (offOf d) (Link.frameMtu devs i) 128 p0) (by intro h; have := List.mem_range'_1.1 h; omega) hb
  rw [h4]
  refine ⟨?_, ?_, ?_⟩
  · intro h
    obtain ⟨m, k3⟩ := k1 h
    exact ⟨m1 ++ (m ++ m4), by rw [h6, k3]; simp only [List.append_assoc]⟩
  · intro f hf'
    rw [h7]
    exact List.mem_append_left _ (k2 f hf')
  · exact ⟨m2 ++ (m3 ++ m5), by rw [h7, h5, h2]; simp only [List.append_assoc]⟩

/-- **C118, nobody starves.** A frame with `k` frames before it in the queue of its driver has been given to the stack after
`k / 128 + 1` polls, whatever arrives meanwhile on any interface and whatever frames processing produces. -/
theorem waiting_frame_reached (ext : Q → Nat → Bytes → Nat → List Bytes) (devs : List Link.Dev) (i : Nat) (hp : Polled devs i) :
    ∀ (arr : List (Nat → List Bytes)) (w : Q) (front : List Bytes) (f : Bytes) (back : List Bytes), w.q i = front ++ f :: back →
    front.length < 128 * arr.length → (∀ g ∈ front ++ [f], g ≠ [] ∧ g.length ≤ Link.frameMtu devs i - offAt devs i) →
    (i, List.replicate (offAt devs i) 0 ++ f) ∈ (polls ext devs w arr).got
  | [], _, _, _, _, _, h, _ => by simp at h
  | a :: arr, w, front, f, back, hq, hk, hf => by
    have keep : ∀ (arr : List (Nat → List Bytes)) (w : Q) (x : Nat × Bytes), x ∈ w.got → x ∈ (polls ext devs w arr).got := by
      intro arr
      induction arr with
      | nil => intro w x h; exact h
      | cons a arr ih =>
        intro w x h
        refine ih _ x ?_
        obtain ⟨_, _, m, hm⟩ := one_poll (ext := ext) hp (arrive w a) [] ((arrive w a).q i) rfl (by simp) (by simp)
        rw [hm]
        exact List.mem_append_left _ h
    by_cases h128 : front.length < 128
    · obtain ⟨_, h2, _⟩ := one_poll (ext := ext) hp (arrive w a) (front ++ [f]) (back ++ a i) (by
        show w.q i ++ a i = _
        rw [hq]; simp) (by simp; omega) hf
      exact keep arr _ _ (h2 f (by simp))
    · obtain ⟨h1, _, _⟩ := one_poll (ext := ext) hp (arrive w a) (front.take 128) (front.drop 128 ++ f :: (back ++ a i)) (by
        show w.q i ++ a i = _
        rw [hq, ← List.append_assoc, List.take_append_drop]; simp) (by rw [List.length_take]; omega)
        (fun g hg => hf g (List.mem_append_left _ (List.mem_of_mem_take hg)))
      obtain ⟨m, h1⟩ := h1 (by rw [List.length_take]; omega)
      refine waiting_frame_reached ext devs i hp arr _ (front.drop 128) f (back ++ a i ++ m) (by rw [h1]; simp) ?_ ?_
      · simp only [List.length_cons] at hk
        rw [List.length_drop]; omega
      · intro g hg
        refine hf g ?_
        rcases List.mem_append.1 hg with h | h
        · exact List.mem_append_left _ (List.mem_of_mem_drop h)
        · exact List.mem_append_right _ h

/-- Interfaces that meet the hypotheses: the loopback device (no link header) and an Ethernet device. -/
example : Polled [{ poll := true, nonEth := true }, { poll := true, mtu := 1500 }] 0 ∧ Polled [{ poll := true, nonEth := true }, { poll := true, mtu := 1500 }] 1 ∧
    Link.frameMtu [{ poll := true, nonEth := true }, { poll := true, mtu := 1500 }] 1 = 1500 :=
  ⟨⟨_, rfl, rfl, by decide⟩, ⟨_, rfl, rfl, by decide⟩, by decide⟩

/-! ## Timers whose callbacks arm timers -/

open Timers in
/-- `handle_timers`: while a timer is due it is taken out and its callback runs; `cb` says what the callback arms and cancels.
11192–11200. -/
def handle (cb : Timers.St → Timer → List Timers.Op) (now : Nat) : Nat → Timers.St → Timers.St × List Timer
  | 0, s => (s, [])
  | f + 1, s =>
    match fire s.heap now with
    | (h, none) => ({ s with heap := h }, [])
    | (h, some t) =>
      let r := handle cb now f (Timers.run { s with heap := h } (cb { s with heap := h } t)).1
      (r.1, t :: r.2)

/-- A callback arms only timers in the future, and does not run the loop itself. -/
def Later (now : Nat) : Timers.Op → Prop
  | .arm e _ => now < e
  | .cancel _ => True
  | .fire _ => False

def dueN (now : Nat) (L : List Timers.Timer) : Nat := (L.filter (fun t => t.exp ≤ now)).length

open Timers in
theorem later_step {now : Nat} {s : Timers.St} {L : List Timer} {op : Timers.Op} (h : Rep s L) (hn : s.next < 4294967295) (hl : Later now op) :
    ∃ L', Rep (Timers.step s op).1 L' ∧ (∀ t ∈ L', t.exp ≤ now → t ∈ L) ∧ dueN now L' ≤ dueN now L ∧ (Timers.step s op).1.next ≤ s.next + Timers.arms [op] := by
  have hp : PosDeadlines [op] := by
    cases op with
    | arm e a => exact ⟨by have : now < e := hl; omega, trivial⟩
    | cancel id => exact trivial
    | fire n => cases hl
  obtain ⟨L', h1, h2, h3⟩ := step_refines op h hn hp
  refine ⟨L', h2, ?_, ?_, h3⟩
  · cases op with
    | arm e a =>
      have hl' : now < e := hl
      generalize (Timers.step s (.arm e a)).2 = out at h1
      cases h1 with
      | arm _ _ _ =>
        intro t ht hd
        rcases List.mem_append.1 ht with ht | ht
        · exact ht
        · simp at ht; subst ht; dsimp only at hd; omega
      | armFull _ => intro t ht _; exact ht
    | cancel id =>
      generalize (Timers.step s (.cancel id)).2 = out at h1
      cases h1 with
      | cancel => intro t ht _; exact (List.mem_filter.1 ht).1
    | fire n => cases hl
  · cases op with
    | arm e a =>
      have hl' : now < e := hl
      generalize (Timers.step s (.arm e a)).2 = out at h1
      cases h1 with
      | arm _ _ _ =>
        unfold dueN
        rw [List.filter_append, List.filter_cons_of_neg (by simp; omega), List.filter_nil, List.append_nil]
        exact Nat.le_refl _
      | armFull _ => exact Nat.le_refl _
    | cancel id =>
      generalize (Timers.step s (.cancel id)).2 = out at h1
      cases h1 with
      | cancel =>
        unfold dueN
        rw [List.filter_filter]
        refine List.Sublist.length_le ?_
        rw [show (fun a : Timer => decide (a.exp ≤ now) && decide (a.id ≠ id)) = (fun a => decide (a.id ≠ id) && decide (a.exp ≤ now)) from
          funext fun a => Bool.and_comm _ _, ← List.filter_filter]
        exact List.filter_sublist
    | fire n => cases hl

open Timers in
theorem later_run {now : Nat} : ∀ (ops : List Timers.Op) {s : Timers.St} {L : List Timer}, Rep s L → s.next + Timers.arms ops < 4294967295 →
    (∀ op ∈ ops, Later now op) →
    ∃ L', Rep (Timers.run s ops).1 L' ∧ (∀ t ∈ L', t.exp ≤ now → t ∈ L) ∧ dueN now L' ≤ dueN now L ∧ (Timers.run s ops).1.next ≤ s.next + Timers.arms ops
  | [], s, L, h, _, _ => ⟨L, h, fun _ ht _ => ht, Nat.le_refl _, by simp [Timers.run, Timers.arms]⟩
  | op :: ops, s, L, h, hn, hl => by
    have ha : Timers.arms (op :: ops) = Timers.arms [op] + Timers.arms ops := by
      cases op <;> simp [Timers.arms]; omega
    obtain ⟨L1, h1, h2, h3, h4⟩ := later_step h (by omega) (hl op List.mem_cons_self)
    obtain ⟨L2, k1, k2, k3, k4⟩ := later_run ops h1 (by omega) (fun o ho => hl o (List.mem_cons_of_mem _ ho))
    exact ⟨L2, k1, fun t ht hd => h2 t (k2 t ht hd) hd, Nat.le_trans k3 h3, by
      show (Timers.run (Timers.step s op).1 ops).1.next ≤ _
      omega⟩

open Timers in
/-- The loop, from any state in which at most `f` timers are due: it ends by itself (`f + 1` turns are as good as any larger
number), at most `f` callbacks run, no due timer is left, and the timers that fired are timers that were due when it started,
none of them twice. -/
theorem handle_spec (cb : Timers.St → Timer → List Timers.Op) (now K : Nat) (hc : ∀ s t, ∀ op ∈ cb s t, Later now op) (hk : ∀ s t, Timers.arms (cb s t) ≤ K) :
    ∀ (f : Nat) (s : Timers.St) (L : List Timer), Rep s L → dueN now L ≤ f → s.next + f * K < 4294967295 →
    (∀ g, handle cb now (f + 1 + g) s = handle cb now (f + 1) s) ∧ (handle cb now (f + 1) s).2.length ≤ f ∧
    (∃ L', Rep (handle cb now (f + 1) s).1 L' ∧ ∀ t ∈ L', now < t.exp) ∧
    (∀ t ∈ (handle cb now (f + 1) s).2, t ∈ L ∧ t.exp ≤ now) ∧ ((handle cb now (f + 1) s).2.map Timer.id).Nodup
  | f, s, L, h, hd, hn => by
    have hp : PosDeadlines [.fire now] := trivial
    obtain ⟨L1, h1, h2, h3⟩ := step_refines (.fire now) h (by omega) hp
    have hout : (Timers.step s (.fire now)).2 = .fired (fire s.heap now).2 := rfl
    have hst : (Timers.step s (.fire now)).1 = { s with heap := (fire s.heap now).1 } := rfl
    rw [hout] at h1
    rw [hst] at h2 h3
    cases hf : (fire s.heap now).2 with
    | none =>
      have e : ∀ g, handle cb now (g + 1) s = ({ s with heap := (fire s.heap now).1 }, []) := by
        intro g
        unfold handle
        split
        · rename_i x hx; rw [hx]
        · rename_i x t hx; rw [hx] at hf; cases hf
      rw [hf] at h1
      have e' : ∀ g, f + 1 + g = (f + g) + 1 := by omega
      refine ⟨fun g => by rw [e' g, e, e], by rw [e]; simp, ?_, by rw [e]; simp, by rw [e]; simp⟩
      rw [e]
      cases h1 with
      | idle hi => exact ⟨L, h2, hi⟩
    | some t =>
      rw [hf] at h1
      cases h1 with
      | fire ht hdue hmin =>
        have hlt : dueN now (L.filter (fun u => u.id ≠ t.id)) < dueN now L := by
          unfold dueN
          rw [List.filter_filter]
          have e1 : (L.filter (fun a => decide (a.exp ≤ now) && decide (a.id ≠ t.id))) = (L.filter (fun a => decide (a.exp ≤ now))).filter (fun a => decide (a.id ≠ t.id)) := by
            rw [List.filter_filter]; congr 1; funext a; exact Bool.and_comm _ _
          rw [e1]
          refine List.length_filter_lt_length_iff_exists.2 ⟨t, List.mem_filter.2 ⟨ht, by simpa using hdue⟩, by simp⟩
        cases f with
        | zero => omega
        | succ f =>
          have hsm : (f + 1) * K = f * K + K := Nat.succ_mul f K
          generalize hs1 : ({ s with heap := (fire s.heap now).1 } : Timers.St) = s1 at h2 h3
          have hs1n : s1.next = s.next := by rw [← hs1]
          obtain ⟨L2, k1, k2, k3, k4⟩ := later_run (cb s1 t) h2 (by have := hk s1 t; omega) (hc s1 t)
          have hk1 := hk s1 t
          obtain ⟨i1, i2, i3, i4, i5⟩ := handle_spec cb now K hc hk f (Timers.run s1 (cb s1 t)).1 L2 k1 (by omega) (by omega)
          have e : ∀ g, handle cb now (g + 1) s = ((handle cb now g (Timers.run s1 (cb s1 t)).1).1, t :: (handle cb now g (Timers.run s1 (cb s1 t)).1).2) := by
            intro g
            rw [handle]
            split
            · rename_i x hx; rw [hx] at hf; cases hf
            · rename_i x u hx
              have hu : u = t := by rw [hx] at hf; cases hf; rfl
              have hx1 : s1 = { s with heap := x } := by rw [← hs1, hx]
              rw [← hx1, hu]
          have e' : ∀ g, f + 1 + 1 + g = (f + 1 + g) + 1 := by omega
          refine ⟨fun g => by rw [e' g, e, e, i1 g], by rw [e]; simp only [List.length_cons]; omega, by rw [e]; exact i3, ?_, ?_⟩
          · rw [e]
            intro u hu
            rcases List.mem_cons.1 hu with rfl | hu
            · exact ⟨ht, hdue⟩
            · obtain ⟨a, b⟩ := i4 u hu
              exact ⟨(List.mem_filter.1 (k2 u a b)).1, b⟩
          · rw [e, List.map_cons, List.nodup_cons]
            refine ⟨?_, i5⟩
            intro hm
            obtain ⟨u, hu, he⟩ := List.mem_map.1 hm
            obtain ⟨a, b⟩ := i4 u hu
            have := (List.mem_filter.1 (k2 u a b)).2
            simp [he] at this

open Timers in
/-- **C118, timers.** In every reachable state, with callbacks that arm any timers in the future and cancel any: the timer part of
a poll ends after at most twelve callbacks, each for a timer that was due when it began and none for the same timer twice, and
leaves no timer that is due. -/
theorem poll_timers_end (ops : List Timers.Op) (hp : PosDeadlines ops) (cb : Timers.St → Timer → List Timers.Op) (now K : Nat)
    (hc : ∀ s t, ∀ op ∈ cb s t, Later now op) (hk : ∀ s t, Timers.arms (cb s t) ≤ K) (hn : Timers.arms ops + 12 * K < 4294967294) :
    ∃ L, SpecRun [] ops (Timers.run Timers.init ops).2 L ∧
      (∀ g, handle cb now (13 + g) (Timers.run Timers.init ops).1 = handle cb now 13 (Timers.run Timers.init ops).1) ∧
      (handle cb now 13 (Timers.run Timers.init ops).1).2.length ≤ 12 ∧
      (∀ t ∈ (handle cb now 13 (Timers.run Timers.init ops).1).1.heap, now < t.exp) ∧
      (∀ t ∈ (handle cb now 13 (Timers.run Timers.init ops).1).2, t ∈ L ∧ t.exp ≤ now) ∧
      ((handle cb now 13 (Timers.run Timers.init ops).1).2.map Timer.id).Nodup := by
  obtain ⟨L, h1, h2⟩ := reachable_rep ops (by omega) hp
  have hnext : (Timers.run Timers.init ops).1.next ≤ 1 + Timers.arms ops := by
    have : ∀ (ops : List Timers.Op) (s : Timers.St), 0 < s.next → (Timers.run s ops).1.next ≤ s.next + Timers.arms ops ∨ 4294967295 ≤ s.next + Timers.arms ops := by
      intro ops
      induction ops with
      | nil => intro s _; left; simp [Timers.run, Timers.arms]
      | cons op ops ih =>
        intro s hs
        have ha : Timers.arms (op :: ops) = Timers.arms [op] + Timers.arms ops := by
          cases op <;> simp [Timers.arms]; omega
        by_cases hbig : 4294967295 ≤ s.next + Timers.arms (op :: ops)
        · exact Or.inr hbig
        · have hst : 0 < (Timers.step s op).1.next ∧ (Timers.step s op).1.next ≤ s.next + Timers.arms [op] := by
            cases op with
            | arm e a =>
              simp only [Timers.arms] at hbig
              dsimp only [Timers.step, Timers.insert]
              have hid : (if s.next = 0 then 1 else s.next) = s.next := if_neg (by omega)
              rw [hid]
              split
              · exact ⟨hs, by dsimp only; omega⟩
              · simp only [Timers.arms]
                have : (s.next + 1) % 4294967296 = s.next + 1 := Nat.mod_eq_of_lt (by omega)
                rw [this]; omega
            | cancel id => exact ⟨hs, by simp [Timers.step, Timers.arms]⟩
            | fire n => exact ⟨hs, by simp [Timers.step, Timers.arms]⟩
          rcases ih (Timers.step s op).1 hst.1 with h | h
          · left
            show (Timers.run (Timers.step s op).1 ops).1.next ≤ _
            omega
          · right; omega
    rcases this ops Timers.init (by simp [Timers.init]) with h | h
    · simpa [Timers.init] using h
    · simp only [Timers.init] at h; omega
  have hle : dueN now L ≤ 12 := Nat.le_trans (List.length_filter_le _ _) h2.le
  obtain ⟨i1, i2, ⟨L', i3, i4⟩, i5, i6⟩ := handle_spec cb now K hc hk 12 _ L h2 hle (by omega)
  exact ⟨L, h1, i1, i2, fun t ht => i4 t (i3.perm.mem_iff.1 ht), i5, i6⟩

/-- A callback that meets the hypotheses: it re-arms its own timer 1000 ms later and cancels another; and a state with three due. -/
def exCb : Timers.St → Timers.Timer → List Timers.Op := fun _ t => [.arm (50 + 1000) t.arg, .cancel 1]

example : (∀ s t, ∀ op ∈ exCb s t, Later 50 op) ∧ (∀ s t, Timers.arms (exCb s t) ≤ 1) ∧
    (handle exCb 50 13 (Timers.run Timers.init [.arm 30 1, .arm 10 2, .arm 20 3, .arm 90 4]).1).2.map (·.arg) = [2, 3] := by
  refine ⟨?_, fun _ _ => Nat.le_refl _, by decide⟩
  intro s t op h
  simp [exCb] at h
  rcases h with rfl | rfl
  · show (50 : Nat) < _; omega
  · trivial

end Wolf.Poll
