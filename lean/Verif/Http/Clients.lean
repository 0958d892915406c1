/-! # C79: HTTP connections are kept apart

Model of the client table of `src/http/httpd.c`: `http_accept_cb` (537–562), `http_recv_cb` (493–535),
`http_close_client` (170–182) and the response functions (113–229), as far as they decide which connection a request
comes from and its response goes to.

A connection is a socket number; `cb` is the callback registration of the sockets (`wolfIP_register_callback`), by the
index of the `struct http_client` given as argument. Plain HTTP (no TLS). The content of requests and responses is
C77's matter and left out here: a request is received (`recv`), and the model records which connection it came from and
which one its response is written to. -/

namespace Wolf.Http

/-- `httpd->clients[i].client_sd` (`none` for 0), the callbacks, and a record of (connection of the request,
connection the response is written to). -/
structure Srv where
  slots : List (Option Nat)
  cb : Nat → Option Nat
  log : List (Nat × Option Nat)

/-- After `httpd_init`: `HTTPD_MAX_CLIENTS` free entries (`httpd.h` 22). -/
def Srv.start : Srv := ⟨List.replicate 4 none, fun _ => none, []⟩

/-- Setting one callback. -/
def setCb (f : Nat → Option Nat) (sd : Nat) (v : Option Nat) : Nat → Option Nat := fun x => if x = sd then v else f x

/-- What happens to the server. -/
inductive Net where
  /-- `wolfIP_sock_accept` gives the fresh socket `sd` -/
  | accept (sd : Nat)
  /-- a request on `sd`: whether a send of the response fails, and whether parser or handler return a negative value -/
  | recv (sd : Nat) (sendFails negative : Bool)
  /-- the peer closed, or a read error -/
  | eof (sd : Nat)
  /-- the stack frees the socket (its structure is cleared, and with it the callback) -/
  | gone (sd : Nat)

/-- `http_accept_cb` (537–562); when no entry is free the socket is closed. -/
def onAccept (s : Srv) (sd : Nat) : Srv :=
  match s.slots.findIdx? (fun o => o == none) with
  | none => s
  | some i => { s with slots := s.slots.set i (some sd), cb := setCb s.cb sd (some i) }

/-- `http_recv_cb` (493–535) with a request. A failing send closes the connection of the entry and frees the entry
(`http_close_client`) but the response functions return nothing, so only a negative result deregisters the callback. -/
def onRecv (s : Srv) (sd : Nat) (sendFails negative : Bool) : Srv :=
  match s.cb sd with
  | none => s
  | some i =>
    let s1 := { s with log := s.log ++ [(sd, (s.slots[i]?).join)] }
    let s2 := if sendFails then { s1 with slots := s1.slots.set i none } else s1
    if negative then { s2 with slots := s2.slots.set i none, cb := setCb s2.cb sd none } else s2

/-- `http_recv_cb` at the end of the stream: `fail_close` (524–534). -/
def onEof (s : Srv) (sd : Nat) : Srv :=
  match s.cb sd with
  | none => s
  | some i => { s with slots := s.slots.set i none, cb := setCb s.cb sd none }

/-- One event. -/
def srvStep (s : Srv) : Net → Srv
  | .accept sd => onAccept s sd
  | .recv sd f n => onRecv s sd f n
  | .eof sd => onEof s sd
  | .gone sd => { s with cb := setCb s.cb sd none }

/-- A history. -/
def srvRun : Srv → List Net → Srv
  | s, [] => s
  | s, e :: t => srvRun (srvStep s e) t

/-! ## Specification -/

/-- Every response goes to the connection its request came from. -/
def KeptApart (s : Srv) : Prop := ∀ p ∈ s.log, p.2 = some p.1

/-- An accepted socket is a new one: none the server still has a callback on. -/
def FreshRun : Srv → List Net → Prop
  | _, [] => True
  | s, e :: t => (∀ sd, e = .accept sd → s.cb sd = none) ∧ FreshRun (srvStep s e) t

/-- No send fails within a request that is otherwise answered. -/
def SendsWork (es : List Net) : Prop := ∀ sd n, Net.recv sd true n ∈ es → n = true

/-! ## Proofs -/

/-- The entry of a callback is its connection. -/
def Own (s : Srv) : Prop := ∀ sd i, s.cb sd = some i → s.slots[i]? = some (some sd)

theorem own_step {s : Srv} {e : Net} (h : Own s) (hf : ∀ sd, e = .accept sd → s.cb sd = none)
    (hw : ∀ sd n, e = .recv sd true n → n = true) : Own (srvStep s e) := by
  cases e with
  | accept sd =>
    simp only [srvStep, onAccept]
    cases hi : s.slots.findIdx? (fun o => o == none) with
    | none => exact h
    | some i =>
      obtain ⟨hl, h1, -⟩ := List.findIdx?_eq_some_iff_getElem.1 hi
      intro x j hx
      dsimp only [setCb] at hx ⊢
      by_cases e : x = sd
      · rw [if_pos e] at hx
        cases hx
        rw [List.getElem?_set_self hl, e]
      · rw [if_neg e] at hx
        have := h x j hx
        have hij : i ≠ j := by
          rintro rfl
          rw [List.getElem?_eq_getElem hl] at this
          have h2 : s.slots[i] = none := by simpa using h1
          rw [h2] at this
          cases this
        rw [List.getElem?_set_ne hij]
        exact this
  | recv sd f n =>
    simp only [srvStep, onRecv]
    cases hc : s.cb sd with
    | none => exact h
    | some i =>
      dsimp only
      have clear : ∀ (sl : List (Option Nat)), (∀ x j, x ≠ sd → s.cb x = some j → sl[j]? = some (some x)) →
          ∀ x j, setCb s.cb sd none x = some j → sl[j]? = some (some x) := by
        intro sl hsl x j hx
        unfold setCb at hx
        by_cases e : x = sd
        · rw [if_pos e] at hx; cases hx
        · rw [if_neg e] at hx; exact hsl x j e hx
      have hset : ∀ (sl : List (Option Nat)), (∀ x j, x ≠ sd → s.cb x = some j → sl[j]? = some (some x)) →
          sl[i]? = some (some sd) ∨ sl[i]? = some none →
          ∀ x j, x ≠ sd → s.cb x = some j → (sl.set i none)[j]? = some (some x) := by
        intro sl hsl hi x j hne hx
        have := hsl x j hne hx
        have hij : i ≠ j := by
          rintro rfl
          rcases hi with hi | hi <;> rw [hi] at this
          · have := Option.some.inj (Option.some.inj this)
            exact hne this.symm
          · cases Option.some.inj this
        rw [List.getElem?_set_ne hij]
        exact this
      have own := h sd i hc
      have base : ∀ x j, x ≠ sd → s.cb x = some j → s.slots[j]? = some (some x) := fun x j _ hx => h x j hx
      have hl : i < s.slots.length := (List.getElem?_eq_some_iff.1 own).1
      cases n with
      | true =>
        cases f with
        | true =>
          rw [if_pos rfl, if_pos rfl]
          exact clear _ (hset _ (hset _ base (Or.inl own)) (Or.inr (List.getElem?_set_self hl)))
        | false =>
          rw [if_pos rfl, if_neg (by decide)]
          exact clear _ (hset _ base (Or.inl own))
      | false =>
        cases f with
        | true => exact absurd (hw sd false rfl) (by decide)
        | false => exact h
  | eof sd =>
    simp only [srvStep, onEof]
    cases hc : s.cb sd with
    | none => exact h
    | some i =>
      intro x j hx
      dsimp only [setCb] at hx ⊢
      by_cases e : x = sd
      · rw [if_pos e] at hx; cases hx
      · rw [if_neg e] at hx
        have h1 := h x j hx
        have h2 := h sd i hc
        have hij : i ≠ j := by
          rintro rfl
          rw [h1] at h2
          exact e (Option.some.inj (Option.some.inj h2))
        rw [List.getElem?_set_ne hij]
        exact h1
  | gone sd =>
    intro x j hx
    dsimp only [srvStep, setCb] at hx ⊢
    by_cases e : x = sd
    · rw [if_pos e] at hx; cases hx
    · rw [if_neg e] at hx; exact h x j hx

theorem log_step {s : Srv} {e : Net} (h : Own s) (hk : KeptApart s) : KeptApart (srvStep s e) := by
  cases e with
  | accept sd => simp only [srvStep, onAccept]; split <;> exact hk
  | recv sd f n =>
    simp only [srvStep, onRecv]
    cases hc : s.cb sd with
    | none => exact hk
    | some i =>
      dsimp only
      have key : KeptApart { s with log := s.log ++ [(sd, (s.slots[i]?).join)] } := by
        intro p hp
        rcases List.mem_append.1 hp with hp | hp
        · exact hk p hp
        · rw [List.mem_singleton] at hp
          rw [hp, h sd i hc]; rfl
      cases n <;> cases f <;> exact key
  | eof sd => simp only [srvStep, onEof]; split <;> exact hk
  | gone sd => exact hk

theorem kept_run (es : List Net) : ∀ s, Own s → KeptApart s → FreshRun s es → SendsWork es → KeptApart (srvRun s es) := by
  induction es with
  | nil => intro s _ h _ _; exact h
  | cons e t ih =>
    intro s ho hk hf hw
    refine ih _ (own_step ho hf.1 fun sd n he => hw sd n (by rw [he]; exact List.mem_cons_self ..)) (log_step ho hk) hf.2 ?_
    exact fun sd n h => hw sd n (List.mem_cons_of_mem _ h)

/-- **C79 (partial)**: in every history of accepts, requests, ends of stream and freed sockets, every response goes to
the connection its request came from — as long as no send fails within a request that is otherwise answered. -/
theorem kept_apart_partial (es : List Net) (hf : FreshRun Srv.start es) (hw : SendsWork es) :
    KeptApart (srvRun Srv.start es) :=
  kept_run es _ (fun _ _ h => by cases h) (fun _ h => by cases h) hf hw

/-- A history with reused entries and sockets meets the hypotheses. -/
def exNet : List Net := [.accept 256, .recv 256 false false, .accept 257, .recv 257 true true, .gone 257, .accept 257,
  .recv 257 false false, .recv 256 false false, .eof 256]

example : FreshRun Srv.start exNet ∧ SendsWork exNet ∧
    (srvRun Srv.start exNet).log = [(256, some 256), (257, some 257), (257, some 257), (256, some 256)] := by
  refine ⟨?_, ?_, by rfl⟩
  · refine ⟨?_, ?_, ?_, ?_, ?_, ?_, ?_, ?_, ?_, trivial⟩ <;> intro sd h <;> cases h <;> rfl
  · intro sd n h
    simp [exNet] at h
    exact h.2

/-- Connection 256 sends a request whose response cannot be queued (the transmit buffer is full); 257 connects; 256,
half closed but still able to receive, sends another request. -/
def exMix : List Net := [.accept 256, .recv 256 true false, .accept 257, .recv 256 false false]

/-- **Finding**: the second request of the first connection is answered on the second connection. The response functions
free the client entry when a send fails, but the handler cannot tell, `http_recv_cb` sees success, and the callback of
the half-closed socket keeps pointing at the entry, which the next connection gets. -/
theorem response_to_other_connection :
    FreshRun Srv.start exMix ∧ ¬ KeptApart (srvRun Srv.start exMix) := by
  refine ⟨⟨?_, ?_, ?_, ?_, trivial⟩, ?_⟩
  · intro sd h; cases h; rfl
  · intro sd h; cases h
  · intro sd h; cases h; rfl
  · intro sd h; cases h
  · intro h
    have : ((256 : Nat), some 257) ∈ (srvRun Srv.start exMix).log := by
      show _ ∈ [((256 : Nat), some 256), (256, some 257)]
      simp
    have := h _ this
    cases this

end Wolf.Http
