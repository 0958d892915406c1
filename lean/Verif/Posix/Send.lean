/-!
# C113: what the return value of a send tells

Model of the loops of `send` (1841–1891), `write` (1893–1942) and `sendto` (1766–1835) of `src/port/posix/bsd_socket.c`. What the stack does with
each request and how each wait (`wolfip_wait_for_event_locked`) ends is a list of replies, so that every behaviour of the stack and every interleaving with its thread is
covered. The stack's side of the request is `wolfIP_sock_sendto`; C13 and C55 are about that.

Simplification: the branch without an entry (1817–1827, 1878–1882) cannot be reached, because the descriptor was found through its entry.
-/
namespace Wolf.Posix.Send

abbrev Bytes := List Nat

inductive Call where
  | send
  | write
  | sendto
deriving DecidableEq, Repr

/-- What the stack answers to one request, and for `-EAGAIN` how the wait that follows on a blocking descriptor ends. -/
inductive Reply where
  /-- it took the first `k` octets it was offered -/
  | took (k : Nat)
  | zero
  /-- no room; the wait ends well (`none`) or with an error (`EINTR`, `ETIMEDOUT`, …) -/
  | again (w : Option Nat)
  | err (e : Nat)
deriving DecidableEq, Repr

inductive Out where
  | ret (n : Nat)
  /-- −1 and `errno` -/
  | fail (e : Nat)
  /-- still in the call -/
  | inside
deriving DecidableEq, Repr

notation "EAGAINp" => (11 : Nat)

/-- The loop (1800–1833, 1860–1888, 1911–1939). `gone`: what the stack has taken so far, chunk by chunk. -/
def loop (c : Call) (nonblock stream : Bool) (buf : Bytes) (sent : Nat) (gone : List Bytes) : List Reply → Out × List Bytes
  | [] => if sent < buf.length then (.inside, gone) else (.ret sent, gone)
  | r :: rs =>
    if sent < buf.length then
      match r with
      | .took k =>
        if nonblock = true ∨ (c = .sendto ∧ stream = false) then (.ret (sent + k), gone ++ [(buf.drop sent).take k])
        else loop c nonblock stream buf (sent + k) (gone ++ [(buf.drop sent).take k]) rs
      | .zero => if c = .sendto then loop c nonblock stream buf sent gone rs else (.fail 0, gone)
      | .again w =>
        if nonblock then (.fail EAGAINp, gone)
        else match w with
          | some e => (.fail e, gone)
          | none => loop c nonblock stream buf sent gone rs
      | .err e => (.fail e, gone)
    else (.ret sent, gone)

/-- The whole call. -/
def call (c : Call) (nonblock stream : Bool) (buf : Bytes) (rs : List Reply) : Out × List Bytes := loop c nonblock stream buf 0 [] rs

/-- The stack takes at least one octet and no more than it is offered. -/
def Sane (buf : Bytes) : Nat → List Reply → Prop
  | _, [] => True
  | sent, .took k :: rs => 0 < k ∧ sent + k ≤ buf.length ∧ Sane buf (sent + k) rs
  | sent, _ :: rs => Sane buf sent rs

/-- Everything the stack took, in order. -/
def taken (r : Out × List Bytes) : Bytes := r.2.flatten

def isTook : Reply → Bool
  | .took _ => true
  | _ => false

theorem loop_inv (c : Call) (nb st : Bool) (buf : Bytes) (rs : List Reply) : ∀ (sent : Nat) (gone : List Bytes), sent ≤ buf.length → Sane buf sent rs →
    gone.flatten = buf.take sent →
    ∃ n, taken (loop c nb st buf sent gone rs) = buf.take n ∧ sent ≤ n ∧ n ≤ buf.length ∧
      (∀ m, (loop c nb st buf sent gone rs).1 = .ret m → m = n) ∧
      (∀ m, (loop c nb st buf sent gone rs).1 = .ret m → nb = false → (c = .sendto → st = true) → m = buf.length) := by
  induction rs with
  | nil =>
    intro sent gone hle _ hg
    unfold loop
    split
    · exact ⟨sent, hg, Nat.le_refl _, hle, (by intro m e; cases e), (by intro m e; cases e)⟩
    · refine ⟨sent, hg, Nat.le_refl _, hle, ?_, ?_⟩
      · intro m e; cases e; rfl
      · intro m e; cases e; omega
  | cons r rs ih =>
    intro sent gone hle hs hg
    unfold loop
    split
    · cases r with
      | took k =>
        obtain ⟨h1, h2, h3⟩ := hs
        have hg2 : (gone ++ [(buf.drop sent).take k]).flatten = buf.take (sent + k) := by
          rw [List.flatten_append, hg, List.take_add]; simp
        dsimp only
        split
        · refine ⟨sent + k, hg2, by omega, h2, ?_, ?_⟩
          · intro m e; cases e; rfl
          · intro m e h4 h5; rename_i h6
            rcases h6 with h6 | h6
            · rw [h4] at h6; cases h6
            · rw [h5 h6.1] at h6; cases h6.2
        · obtain ⟨n, q1, q2, q3, q4, q5⟩ := ih (sent + k) _ h2 h3 hg2
          exact ⟨n, q1, by omega, q3, q4, q5⟩
      | zero =>
        dsimp only
        split
        · exact ih sent gone hle hs hg
        · exact ⟨sent, hg, Nat.le_refl _, hle, (by intro m e; cases e), (by intro m e; cases e)⟩
      | again w =>
        dsimp only
        split
        · exact ⟨sent, hg, Nat.le_refl _, hle, (by intro m e; cases e), (by intro m e; cases e)⟩
        · cases w with
          | some e => exact ⟨sent, hg, Nat.le_refl _, hle, (by intro m e; cases e), (by intro m e; cases e)⟩
          | none => exact ih sent gone hle hs hg
      | err e => exact ⟨sent, hg, Nat.le_refl _, hle, (by intro m e; cases e), (by intro m e; cases e)⟩
    · refine ⟨sent, hg, Nat.le_refl _, hle, ?_, ?_⟩
      · intro m e; cases e; rfl
      · intro m e; cases e; omega

/-- What the stack has taken is always a prefix of the buffer: nothing twice, nothing left out, nothing out of order. A success reports the exact
number of octets taken; and a blocking `send` or `write`, or a blocking `sendto` on a stream, returns success only when all of them have been taken. -/
theorem send_exact_partial (c : Call) (nb st : Bool) (buf : Bytes) (rs : List Reply) (hs : Sane buf 0 rs) :
    (∃ n, taken (call c nb st buf rs) = buf.take n ∧ n ≤ buf.length) ∧
    (∀ m, (call c nb st buf rs).1 = .ret m → m ≤ buf.length ∧ taken (call c nb st buf rs) = buf.take m) ∧
    (∀ m, (call c nb st buf rs).1 = .ret m → nb = false → (c = .sendto → st = true) → m = buf.length) := by
  obtain ⟨n, q1, -, q3, q4, q5⟩ := loop_inv c nb st buf rs 0 [] (by omega) hs rfl
  refine ⟨⟨n, q1, q3⟩, ?_, q5⟩
  intro m e
  rw [q4 m e]
  exact ⟨q3, q1⟩

theorem loop_fail (c : Call) (nb st : Bool) (buf : Bytes) (rs : List Reply) : ∀ (sent : Nat) (gone : List Bytes),
    (nb = true ∨ (c = .sendto ∧ st = false)) → gone = [] → ∀ e, (loop c nb st buf sent gone rs).1 = .fail e → (loop c nb st buf sent gone rs).2 = [] := by
  induction rs with
  | nil => intro sent gone _ hg e h; unfold loop at h ⊢; split <;> exact hg
  | cons r rs ih =>
    intro sent gone hn hg e h
    unfold loop at h ⊢
    split
    · rename_i hlt
      rw [if_pos hlt] at h
      cases r with
      | took k => dsimp only at h; rw [if_pos hn] at h; cases h
      | zero =>
        dsimp only at h ⊢
        split
        · rename_i hc; rw [if_pos hc] at h; exact ih sent gone hn hg e h
        · exact hg
      | again w =>
        dsimp only at h ⊢
        split
        · exact hg
        · rename_i hb
          rw [if_neg hb] at h
          cases w with
          | some e2 => exact hg
          | none => exact ih sent gone hn hg e h
      | err e2 => exact hg
    · exact hg

/-- On a non-blocking descriptor, and for a datagram, −1 means that the stack took nothing. -/
theorem failed_send_took_nothing (c : Call) (nb st : Bool) (buf : Bytes) (rs : List Reply) (hn : nb = true ∨ (c = .sendto ∧ st = false))
    (e : Nat) (h : (call c nb st buf rs).1 = .fail e) : taken (call c nb st buf rs) = [] := by
  unfold taken
  rw [show (call c nb st buf rs).2 = [] from loop_fail c nb st buf rs 0 [] hn rfl e h]
  rfl

/-- **Finding** (`failed_send_took_some`): a blocking `send`, `write` or stream `sendto` of which the stack has taken the first `k` octets, for any `k`
short of the whole, reports −1 when the wait for more room is interrupted or times out or the connection fails: the application cannot know
that these octets are on their way, and sending the buffer again sends them twice. (POSIX and Linux return `k` here.) -/
theorem failed_send_took_some (c : Call) (buf : Bytes) (k e : Nat) (h0 : 0 < k) (hk : k < buf.length) :
    Sane buf 0 [.took k, .again (some e)] ∧
    (call c false true buf [.took k, .again (some e)]).1 = .fail e ∧ taken (call c false true buf [.took k, .again (some e)]) = buf.take k ∧
    (call c false true buf [.took k, .err e]).1 = .fail e ∧ taken (call c false true buf [.took k, .err e]) = buf.take k := by
  have h1 : ¬ ((false = true) ∨ (c = .sendto ∧ true = false)) := by simp
  have hb : 0 < buf.length := by omega
  refine ⟨⟨h0, by omega, trivial⟩, ?_, ?_, ?_, ?_⟩ <;>
    simp [call, taken, loop, hk, hb]

/-- **Finding** (`empty_datagram_not_sent`): a send of no octets succeeds without the stack being asked, whatever its answer would be: an empty UDP
datagram, which POSIX `sendto` sends, is never sent, and on a closed connection there is no error. -/
theorem empty_datagram_not_sent (c : Call) (nb st : Bool) (rs : List Reply) : call c nb st [] rs = (.ret 0, []) := by
  cases rs <;> rfl

/-- A blocking `send` of five octets that the stack takes in two parts, with a wait between. -/
example : let rs := [Reply.took 2, .again none, .took 3]
    Sane [1, 2, 3, 4, 5] 0 rs ∧ (call .send false true [1, 2, 3, 4, 5] rs) = (.ret 5, [[1, 2], [3, 4, 5]]) ∧
    (call .send true true [1, 2, 3, 4, 5] rs) = (.ret 2, [[1, 2]]) := by
  refine ⟨⟨by decide, by decide, by decide, by decide, trivial⟩, by decide, by decide⟩


end Wolf.Posix.Send
