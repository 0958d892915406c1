import Verif.Ota.Download
/-!
# C126: over-the-air update on ZCU102: staged in memory, written once

Model of the sink callbacks and of the trigger/poll pair of `src/port/amd/boards/zcu102/ota.c`, driven by the TFTP
client model. The disk layer (wolfBoot's) answers arbitrarily; every write to it is recorded.
-/
namespace Wolf.Ota.Zynq
open Wolf.Tftp (Client Ev Env Out Phase track phases step after start Cfg)

/-- `OTA_IMG_MAX`: the size of the staging buffer. ota.c 56–58. -/
notation "imgMax" => (8388608 : Nat)

/-! ## Model -/

/-- `struct ota_sink`, the staging buffer `g_image`, and the writes made to the disk as (partition, offset, data,
succeeded). ota.c 77–93. -/
structure Z where
  ready : Bool
  bytes : Nat
  img : Nat → Nat
  disk : List (Nat × Nat × List Nat × Bool)

inductive R where
  | ok (z : Z)
  | err (z : Z)
  | oob

/-- `memcpy(&g_image[at], buf, len)`: outside the buffer is a fault. -/
def store (img : Nat → Nat) (pos : Nat) (d : List Nat) : Option (Nat → Nat) :=
  if pos + d.length ≤ imgMax then some (fun i => if pos ≤ i ∧ i < pos + d.length then d.getD (i - pos) 0 else img i) else none

/-- `sink_open`. ota.c 125–145. -/
def sinkOpen (z : Z) : R := if z.ready then .ok { z with bytes := 0 } else .err z

/-- `sink_write`; a block has at most 65535 bytes and the sum is 32-bit. ota.c 147–168. -/
def sinkWrite (z : Z) (off : Nat) (d : List Nat) : R :=
  if off ≠ z.bytes then .err z
  else if (z.bytes + d.length) % 4294967296 > imgMax then .err z
  else match store z.img z.bytes d with
    | none => .oob
    | some img => .ok { z with img := img, bytes := z.bytes + d.length }

/-- `sink_verify`: the disk write of the staged bytes to partition 2 (`BOOT_PART_B`) at offset 0; `dw` is whether it
succeeds. ota.c 181–207. -/
def sinkVerify (dw : Bool) (z : Z) (total : Nat) : R :=
  if z.ready = false then .err z
  else if total ≠ 0 ∧ total ≠ z.bytes then .err z
  else
    let z1 := { z with disk := z.disk ++ [(2, 0, (List.range z.bytes).map z.img, dw)] }
    if dw then .ok z1 else .err z1

def R.isOk : R → Bool
  | .ok _ => true
  | _ => false

def R.z : R → Option Z
  | .ok z => some z
  | .err z => some z
  | .oob => none

/-! ## Specification -/

/-- One callback carried out by this sink: `some none` is a memory fault, `none` means the recorded answer is not the
sink's. -/
def call (dw : Bool) (z : Z) (x : Env × Out) : Option (Option Z) :=
  match x.2 with
  | .openSink => if x.1.openOk = (sinkOpen z).isOk ∧ x.1.openHandle = true then some (sinkOpen z).z else none
  | .write off d => if x.1.writeOk = (sinkWrite z off d).isOk then some (sinkWrite z off d).z else none
  | .verify t => if x.1.verifyOk = (sinkVerify dw z t).isOk then some (sinkVerify dw z t).z else none
  | .hash _ => if x.1.hashOk = true then some (some z) else none
  | _ => some (some z)

/-- Result of a list of callbacks: the sink, or `none` inside for a memory fault. -/
def callsZ (dw : Bool) : Z → List (Env × Out) → Option (Option Z)
  | z, [] => some (some z)
  | z, x :: l =>
    match call dw z x with
    | none => none
    | some none => some none
    | some (some z1) => callsZ dw z1 l

/-! ## Proof -/

/-- The disk has been written only by the verification, with what was received. -/
def Rel (dw : Bool) (w : List Nat) (z : Z) : Phase → Prop
  | .fresh => z.disk = [] ∧ w = []
  | .refused => z.disk = []
  | .opened n => z.disk = [] ∧ z.ready = true ∧ z.bytes = n ∧ w.length = n ∧ n ≤ imgMax ∧ ∀ i, i < n → z.img i = w.getD i 0
  | .verified => z.disk = [(2, 0, w, true)]
  | .closed true => z.disk = [(2, 0, w, true)]
  | _ => z.disk = [] ∨ (z.disk = [(2, 0, w, false)] ∧ dw = false)

theorem staged (w : List Nat) (f : Nat → Nat) (h : ∀ i, i < w.length → f i = w.getD i 0) : (List.range w.length).map f = w := by
  apply List.ext_getElem?
  intro i
  rw [List.getElem?_map]
  by_cases hi : i < w.length
  · rw [List.getElem?_range hi, Option.map_some, h i hi, List.getD_eq_getElem?_getD, List.getElem?_eq_getElem hi]; rfl
  · rw [List.getElem?_eq_none (by rw [List.length_range]; omega), List.getElem?_eq_none (by omega)]; rfl

theorem call_rel {dw : Bool} {w : List Nat} {z : Z} {oz : Option Z} {p q : Phase} (x : Env × Out) (h : Rel dw w z p)
    (ht : track x.1 p x.2 = some q) (hs : call dw z x = some oz) (hlen : ∀ off d, x.2 = .write off d → d.length ≤ 65535) :
    ∃ z1, oz = some z1 ∧ Rel dw (w ++ received [x]) z1 q := by
  obtain ⟨env, o⟩ := x
  dsimp only at ht hlen
  cases o with
  | send a b =>
    rw [Wolf.Tftp.track_send] at ht; cases ht
    cases hs
    exact ⟨z, rfl, by simpa [received] using h⟩
  | openSink =>
    unfold call at hs; dsimp only at hs
    split at hs
    · rename_i ho
      cases hs
      have hr : received [(env, Out.openSink)] = [] := by simp [received]
      rw [hr, List.append_nil]
      cases p <;> try (cases ht; done)
      unfold sinkOpen at ho ⊢
      cases hz : z.ready with
      | true =>
        rw [hz, if_pos rfl] at ho
        have ho1 : env.openOk = true := ho.1
        rw [track, if_pos ho1] at ht; cases ht
        rw [if_pos rfl]
        refine ⟨_, rfl, h.1, rfl, rfl, by rw [h.2]; rfl, Nat.zero_le _, fun i hi => by omega⟩
      | false =>
        rw [hz, if_neg (by decide)] at ho
        have ho1 : env.openOk = false := ho.1
        rw [track, if_neg (by rw [ho1]; decide)] at ht; cases ht
        rw [if_neg (by decide)]
        exact ⟨_, rfl, h.1⟩
    · cases hs
  | write off d =>
    have hl := hlen off d rfl
    unfold call at hs; dsimp only at hs
    split at hs
    · rename_i hw
      cases hs
      have hr : received [(env, Out.write off d)] = d := by simp [received]
      rw [hr]
      cases p <;> try (cases ht; done)
      rename_i n
      obtain ⟨h1, h2, h3, h4, h5, h6⟩ := h
      rw [track] at ht
      split at ht
      · rename_i hoff
        unfold sinkWrite store at hw ⊢
        rw [if_neg (by omega)] at hw ⊢
        rw [h3] at hw ⊢
        have hmod : (n + d.length) % 4294967296 = n + d.length := Nat.mod_eq_of_lt (by omega)
        rw [hmod] at hw ⊢
        by_cases hb : n + d.length > imgMax
        · rw [if_pos hb] at hw ⊢
          have hw : env.writeOk = false := hw
          rw [if_neg (by rw [hw]; decide)] at ht; cases ht
          exact ⟨_, rfl, .inl h1⟩
        · rw [if_neg hb, if_pos (by omega)] at hw ⊢
          have hw : env.writeOk = true := hw
          rw [if_pos hw] at ht; cases ht
          refine ⟨_, rfl, h1, h2, rfl, by rw [List.length_append, h4], by omega, fun i hi => ?_⟩
          dsimp only
          by_cases hin : i < n
          · rw [if_neg (by omega), h6 i hin, List.getD_eq_getElem?_getD, List.getD_eq_getElem?_getD,
              List.getElem?_append_left (by omega)]
          · rw [if_pos (by omega), List.getD_eq_getElem?_getD, List.getD_eq_getElem?_getD,
              List.getElem?_append_right (by omega), h4]
      · cases ht
    · cases hs
  | hash d =>
    unfold call at hs; dsimp only at hs
    split at hs
    · rename_i hk
      cases hs
      cases p <;> try (cases ht; done)
      rw [track, if_pos hk] at ht; cases ht
      exact ⟨z, rfl, by simpa [received] using h⟩
    · cases hs
  | verify t =>
    unfold call at hs; dsimp only at hs
    split at hs
    · rename_i hv
      cases hs
      have hr : received [(env, Out.verify t)] = [] := by simp [received]
      rw [hr, List.append_nil]
      cases p <;> try (cases ht; done)
      rename_i n
      obtain ⟨h1, h2, h3, h4, h5, h6⟩ := h
      rw [track] at ht
      split at ht
      · rename_i htn
        unfold sinkVerify at hv ⊢
        rw [if_neg (by rw [h2]; decide), if_neg (by omega)] at hv ⊢
        have hst : (List.range z.bytes).map z.img = w := by rw [h3, ← h4]; exact staged w z.img (by rw [h4]; exact h6)
        rw [hst, h1] at hv ⊢
        cases dw with
        | true =>
          have hv : env.verifyOk = true := hv
          rw [if_pos hv] at ht; cases ht
          exact ⟨_, rfl, rfl⟩
        | false =>
          have hv : env.verifyOk = false := hv
          rw [if_neg (by rw [hv]; decide)] at ht; cases ht
          exact ⟨_, rfl, .inr ⟨rfl, rfl⟩⟩
      · cases ht
    · cases hs
  | close s =>
    cases hs
    have hr : received [(env, Out.close s)] = [] := by simp [received]
    rw [hr, List.append_nil]
    refine ⟨z, rfl, ?_⟩
    cases p <;> try (cases ht; done)
    · rw [track] at ht; split at ht
      · cases ht
      · cases ht; exact .inl h.1
    · rw [track] at ht; split at ht
      · cases ht
      · cases ht; exact h
    · rw [track] at ht; split at ht
      · cases ht; exact h
      · cases ht

theorem calls_rel (dw : Bool) : ∀ (l : List (Env × Out)) (p q : Phase) (z : Z) (oz : Option Z) (w : List Nat), Rel dw w z p →
    (∀ x off d, x ∈ l → x.2 = .write off d → d.length ≤ 65535) →
    trackL p l = some q → callsZ dw z l = some oz → ∃ z1, oz = some z1 ∧ Rel dw (w ++ received l) z1 q := by
  intro l
  induction l with
  | nil =>
    intro p q z oz w h _ h1 h2
    cases h1; cases h2
    exact ⟨z, rfl, by simpa [received] using h⟩
  | cons x l ih =>
    intro p q z oz w h hl h1 h2
    rw [trackL] at h1
    rw [callsZ] at h2
    cases h3 : track x.1 p x.2 with
    | none => rw [h3] at h1; cases h1
    | some p1 =>
      rw [h3] at h1
      cases h4 : call dw z x with
      | none => rw [h4] at h2; cases h2
      | some o1 =>
        obtain ⟨z1, hz, hr⟩ := call_rel x h h3 h4 (fun off d => hl x off d (by simp))
        subst hz
        rw [h4] at h2
        rw [received_cons, ← List.append_assoc]
        exact ih p1 q z1 oz _ hr (fun y off d hy => hl y off d (List.mem_cons_of_mem _ hy)) h1 h2

/-- **The update slot is written once, whole, and only with a complete download.** For every sequence of packets and
polls, with the staging sink's own answers: the callbacks never write outside the staging buffer; as long as the
transfer is not complete the disk has not been written, except by one write of exactly the bytes received that
the disk layer reported as failed; and when the transfer is complete the disk has been written exactly once,
at the start of the update slot, with exactly the bytes received. -/
theorem ota_disk_written_once (cfg : Cfg) (lp ip port : Nat) (name : List Nat) (s : Client)
    (hst : start cfg lp ip port name = some s) (es : List Ev) (hg : Wolf.Tftp.GivesHandle es) (dw : Bool) (z : Z)
    (hz : z.disk = []) (oz : Option Z)
    -- packet lengths are 16-bit numbers
    (hlen : ∀ x off d, x ∈ calls s es → x.2 = .write off d → d.length ≤ 65535)
    (hs : callsZ dw z (calls s es) = some oz) :
    ∃ z1, oz = some z1 ∧
      ((after s es).state = .complete → z1.disk = [(2, 0, received (calls s es), true)]) ∧
      ((after s es).state ≠ .complete → z1.disk = [] ∨ z1.disk = [(2, 0, received (calls s es), false)]) := by
  obtain ⟨p, a, b⟩ := Wolf.Tftp.sink_protocol cfg lp ip port name s hst es hg
  have a' := a
  rw [phases_calls] at a
  obtain ⟨z1, h1, h2⟩ := calls_rel dw (calls s es) .fresh p z oz [] ⟨hz, rfl⟩ hlen a hs
  rw [List.nil_append] at h2
  refine ⟨z1, h1, fun hc => ?_, fun hc => ?_⟩
  · have hp := (Wolf.Tftp.complete_means_verified cfg lp ip port name s hst es hg).1 hc
    rw [a'] at hp; cases hp
    exact h2
  · cases p with
    | fresh => exact .inl h2.1
    | refused => exact .inl h2
    | opened n => exact .inl h2.1
    | failed => rcases h2 with h | ⟨h, _⟩; exact .inl h; exact .inr h
    | verified => exact b.elim
    | closed g =>
      cases g with
      | true => exact absurd b hc
      | false => rcases h2 with h | ⟨h, _⟩; exact .inl h; exact .inr h

/-! ## The trigger and the poll -/

/-- `g_started`, `g_done`, whether `g_sock` is open, and the number of resets issued. ota.c 82–88. -/
structure G where
  started : Bool := false
  done : Bool := false
  sock : Bool := false
  resets : Nat := 0
deriving DecidableEq

/-- What the application does: `ota_trigger` with the outcome of the disk, socket, bind and request; `ota_poll` with
the state of the client after the packets. -/
inductive Op where
  | trigger (disk sock bind rrq : Bool)
  | poll (st : Wolf.Tftp.CState)
deriving DecidableEq

/-- `ota_trigger` 234–313 and `ota_poll` 315–379 of ota.c; the Boolean is "returns 0" for the trigger. A reset is
taken to return (on hardware it does not). -/
def gstep (g : G) : Op → G × Bool
  | .trigger disk sock bind rrq =>
    if g.started then (g, false)
    else
      let g := { g with done := false }
      if disk = false then (g, false)
      else if sock = false then ({ g with sock := false }, false)
      else if bind = false then ({ g with sock := false }, false)
      else if rrq = false then ({ g with sock := false }, false)
      else ({ g with sock := true, started := true }, true)
  | .poll st =>
    if g.started = false ∨ g.sock = false then (g, true)
    else if g.done then (g, true)
    else if st = .complete then ({ g with done := true, resets := g.resets + 1 }, true)
    else if st = .error then ({ g with done := true, sock := false, started := false }, true)
    else (g, true)

def grun (g : G) : List Op → G
  | [] => g
  | o :: os => grun (gstep g o).1 os

theorem gstep_inv (g : G) (o : Op) (h : g.sock = g.started) : (gstep g o).1.sock = (gstep g o).1.started := by
  cases o with
  | trigger a b c d =>
    dsimp only [gstep]
    cases hs : g.started with
    | true => rw [if_pos rfl]; exact h
    | false =>
      rw [if_neg (by decide)]
      split
      · rw [hs] at h; exact h
      split
      · rfl
      split
      · rfl
      split <;> rfl
  | poll st =>
    dsimp only [gstep]
    split
    · exact h
    split
    · exact h
    split
    · exact h
    split
    · rfl
    · exact h

/-- The socket is open exactly while an update is under way, over every history: it is not leaked by a failed trigger or
transfer. -/
theorem ota_socket_balanced (os : List Op) : (grun {} os).sock = (grun {} os).started := by
  have : ∀ os (g : G), g.sock = g.started → (grun g os).sock = (grun g os).started := by
    intro os
    induction os with
    | nil => intro g h; exact h
    | cons o os ih => intro g h; exact ih _ (gstep_inv g o h)
  exact this os {} rfl

/-- A reset is issued only by a poll that finds the transfer complete, and an update that failed can be started again and
then takes effect. -/
theorem ota_retry (os : List Op) (h : (grun {} os).started = false) :
    (gstep (grun {} os) (.trigger true true true true)).2 = true ∧
    (grun (grun {} os) [.trigger true true true true, .poll .complete]).resets = (grun {} os).resets + 1 := by
  generalize grun {} os = g at h
  simp [gstep, grun, h]

theorem ota_reset_only_complete (g : G) (o : Op) (h : (gstep g o).1.resets ≠ g.resets) : o = .poll .complete ∧ g.started = true := by
  cases o with
  | trigger a b c d =>
    exfalso; apply h
    dsimp only [gstep]
    repeat' split
    all_goals rfl
  | poll st =>
    dsimp only [gstep] at h
    split at h
    · exact absurd rfl h
    rename_i h1
    split at h
    · exact absurd rfl h
    split at h
    · rename_i h3
      refine ⟨by rw [h3], ?_⟩
      cases hs : g.started with
      | true => rfl
      | false => exact absurd (.inl hs) h1
    split at h
    · exact absurd rfl h
    · exact absurd rfl h

/-! ## Examples -/

def zStart : Z := ⟨true, 0, fun _ => 0, []⟩

/-- The 20-byte download of `Wolf.Tftp.exRun`: one write of the 20 bytes to partition 2. -/
example : ∃ s, start Wolf.Tftp.cfg16 1000 7 69 [97] = some s ∧
    ((callsZ true zStart (calls s Wolf.Tftp.exRun)).bind fun o => o.map fun z => z.disk) =
      (some [(2, 0, List.range 20, true)] : Option (List (Nat × Nat × List Nat × Bool))) :=
  ⟨(start Wolf.Tftp.cfg16 1000 7 69 [97]).get (by decide +kernel), by decide +kernel, by decide +kernel⟩

/-- A failed transfer, then a second one that completes. -/
example : grun {} [.trigger true true true true, .poll .recvData, .poll .error, .trigger true true false true,
    .trigger true true true true, .poll .complete, .poll .complete] = ⟨true, true, true, 1⟩ := by decide

end Wolf.Ota.Zynq
