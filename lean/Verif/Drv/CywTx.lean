import Verif.Drv.CywProps
/-!
# C121: CYW43439 transmission stays inside the window the radio grants

Model of `bdc_data_tx`, `cyw43_tx_eapol`, `cyw43_tx_eth`, the sending half of `cyw43_ioctl`, `sdpcm_hdr`, `f2_write`
(src/port/rp2350_cyw43439/cyw43439_driver.c 849–864, 909–937, 1170–1206, 1449–1472) and of the credit logic
(cyw43_sdpcm.c 33–57).
-/
namespace Wolf.Drv.CywTx
open Wolf.Drv.Cyw (Bytes oct pad4 credit frameIn inner unbdc carried)

/-- `g_tx_seq`, `g_tx_max`, `g_flow_ctl` and the octet strings written to the radio. -/
structure T where
  seq : Nat
  max : Nat
  flow : Nat
  wire : List Bytes

/-- `cyw43_sdpcm_hdr` on a zeroed buffer. cyw43_sdpcm.c 31–41. -/
def hdr (chan total seq : Nat) : Bytes :=
  [total % 256, total / 256 % 256, 255 - total % 256, 255 - total / 256 % 256, seq, chan, 0, 12, 0, 0, 0, 0]

/-- `cyw43_sdpcm_tx_ready`; bit 7 of the window clear means below 128. cyw43_sdpcm.c 53–57. -/
def ready (t : T) : Bool :=
  let w := (t.max + 256 - t.seq) % 256
  t.flow == 0 && w != 0 && w / 128 == 0

/-- The buffer up to the padded length, which `f2_write` clocks out: the octets `b` placed in a zeroed buffer.
cyw43439_driver.c 856–864. -/
def padded (b : Bytes) : Bytes := b ++ List.replicate (pad4 b.length - b.length) 0

/-- `bdc_data_tx` with a synthetic header `h` (empty for `cyw43_tx_eth`); lengths are `uint32_t`. `none`: -1. 1170–1206. -/
def dataTx (t : T) (h pay : Bytes) : Option T :=
  let dlen := (h.length + pay.length) % 4294967296
  let total := (12 + 4 + dlen) % 4294967296
  if dlen < 14 ∨ iobufSz < total then none
  else if !ready t then none
  else some { t with seq := (t.seq + 1) % 256,
                     wire := t.wire ++ [padded (hdr 2 total t.seq ++ [0x20, 0, 0, 0] ++ h ++ pay)] }

/-- `cyw43_tx_eapol`: destination the access point, source the station. 1449–1462. -/
def eapolTx (t : T) (bssid mac pay : Bytes) : Option T := dataTx t (bssid ++ mac ++ [0x88, 0x8E]) pay

/-- `cyw43_tx_eth`. 1464–1471. -/
def ethTx (t : T) (f : Bytes) : Option T := dataTx t [] f

/-- `wr32le`. 832–836. -/
def le4 (v : Nat) : Bytes := [v % 256, v / 256 % 256, v / 65536 % 256, v / 16777216 % 256]

/-- The request `cyw43_ioctl` writes: never gated. 925–937. -/
def ctlTx (t : T) (cmd flags : Nat) (data : Bytes) : Option T :=
  let total := 12 + 16 + data.length
  if iobufSz < total ∨ 0xFFFF < data.length then none
  else some { t with seq := (t.seq + 1) % 256,
                     wire := t.wire ++ [padded (hdr 0 total t.seq ++ le4 cmd ++ le4 (data.length % 65536) ++ le4 flags ++
                       [0, 0, 0, 0] ++ data)] }

/-- A valid header is received. 880–884. -/
def rx (t : T) (flowB creditB : Nat) : T :=
  { t with max := (credit flowB creditB t.max).1, flow := (credit flowB creditB t.max).2 }

/-! ## What is sent -/

/-- The frame is sent whole: what the radio decodes from the octets written is the Ethernet frame, the writes are whole
words, and nothing outside the 2048-octet buffer is sent. -/
theorem data_exact (t t' : T) (h pay : Bytes) (hn : h.length + pay.length < 4294967280)
    (hs : dataTx t h pay = some t') : ∃ w, t'.wire = t.wire ++ [w] ∧ frameIn w = some (h ++ pay) ∧
      w.length % 4 = 0 ∧ w.length ≤ 2048 ∧ oct w 4 = t.seq := by
  unfold dataTx at hs
  dsimp only at hs
  split at hs
  · cases hs
  · split at hs
    · cases hs
    · rename_i hc _
      cases hs
      have e1 : (h.length + pay.length) % 4294967296 = h.length + pay.length := Nat.mod_eq_of_lt (by omega)
      rw [e1] at hc
      rw [e1]
      have e2 : (12 + 4 + (h.length + pay.length)) % 4294967296 = 16 + (h.length + pay.length) := by omega
      rw [e2] at hc
      rw [e2]
      generalize ehd : hdr 2 (16 + (h.length + pay.length)) t.seq = hd
      have hl : (hd ++ [0x20, 0, 0, 0] ++ [] ++ (h ++ pay)).length = 16 + (h.length + pay.length) := by
        rw [← ehd]; simp [hdr]; omega
      have hl' : (hd ++ [0x20, 0, 0, 0] ++ h ++ pay).length = 16 + (h.length + pay.length) := by
        rw [← ehd]; simp [hdr]; omega
      refine ⟨_, rfl, ?_, ?_, ?_, ?_⟩
      · unfold padded
        have ea : hd ++ [0x20, 0, 0, 0] ++ h ++ pay = hd ++ [0x20, 0, 0, 0] ++ [] ++ (h ++ pay) := by simp
        rw [ea]
        refine carried hd [0x20, 0, 0, 0] [] (h ++ pay) _ ?_ ?_ rfl rfl ?_ ?_ ?_ ?_ ?_
        · rw [← ehd]; simp [hdr]
        · rw [List.length_append]; omega
        · rw [← ehd]; rfl
        · rw [hl, ← ehd]
          show (16 + (h.length + pay.length)) % 256 + 256 * ((16 + (h.length + pay.length)) / 256 % 256) = _
          omega
        · rw [hl, ← ehd]
          show 255 - (16 + (h.length + pay.length)) % 256 +
            256 * (255 - (16 + (h.length + pay.length)) / 256 % 256) = _
          omega
        · rw [hl]; omega
        · rw [← ehd]; rfl
      · unfold padded
        rw [List.length_append, List.length_replicate, hl']
        unfold pad4
        omega
      · unfold padded
        rw [List.length_append, List.length_replicate, hl']
        unfold pad4
        omega
      · unfold padded
        rw [← ehd]
        rfl

/-! ## The window -/

/-- What happens: a data frame is offered, a control request is sent, a valid header arrives with the grant `g` (frames
numbered below `g` may be sent) and the pause flag. -/
inductive Op where
  | data (h pay : Bytes)
  | ctl (cmd flags : Nat) (d : Bytes)
  | rx (pause g : Nat)

/-- The driver, the latest grant and pause received, and the numbers of the data frames sent. -/
structure H where
  t : T
  g : Nat
  pause : Nat
  sent : List Nat

def start : H := { t := { seq := 0, max := 1, flow := 0, wire := [] }, g := 1, pause := 0, sent := [] }

def step (s : H) : Op → H
  | .data h pay => match dataTx s.t h pay with
    | some t => { s with t := t, sent := s.sent ++ [s.t.wire.length] }
    | none => s
  | .ctl cmd fl d => match ctlTx s.t cmd fl d with
    | some t => { s with t := t }
    | none => s
  | .rx p g => { s with t := rx s.t p (g % 256), g := g, pause := p }

def run (s : H) (ops : List Op) : H := ops.foldl step s

/-- The radio grants in order, at most 64 frames more than it granted before and at most 64 more than have been sent; the
driver's control requests (which are not gated) run at most 128 past the grant. -/
def Fair (s : H) : Op → Prop
  | .data _ _ => True
  | .ctl _ _ _ => s.t.wire.length < s.g + 128
  | .rx _ g => s.g ≤ g ∧ g ≤ s.g + 64 ∧ g ≤ s.t.wire.length + 64

def FairRun : H → List Op → Prop
  | _, [] => True
  | s, o :: os => Fair s o ∧ FairRun (step s o) os

structure Inv (s : H) : Prop where
  seq : s.t.seq = s.t.wire.length % 256
  max : s.t.max = s.g % 256
  flow : s.t.flow = s.pause
  lo : s.t.wire.length ≤ s.g + 128
  hi : s.g ≤ s.t.wire.length + 64

theorem inv_start : Inv start := ⟨rfl, rfl, rfl, by decide, by decide⟩

theorem ready_iff (s : H) (h : Inv s) : ready s.t = true ↔ s.pause = 0 ∧ s.t.wire.length < s.g := by
  unfold ready
  dsimp only
  rw [h.seq, h.max, h.flow]
  simp only [Bool.and_eq_true, beq_iff_eq, bne_iff_ne]
  have h1 := h.lo
  have h2 := h.hi
  generalize s.t.wire.length = n at *
  generalize s.g = g at *
  omega

theorem data_wire {t t' : T} {h pay : Bytes} (e : dataTx t h pay = some t') :
    ready t = true ∧ t'.wire.length = t.wire.length + 1 ∧ t'.seq = (t.seq + 1) % 256 ∧ t'.max = t.max ∧ t'.flow = t.flow := by
  unfold dataTx at e
  dsimp only at e
  split at e
  · cases e
  · split at e
    · cases e
    · rename_i hr
      cases e
      exact ⟨by simpa using hr, by simp, rfl, rfl, rfl⟩

theorem ctl_wire {t t' : T} {c f : Nat} {d : Bytes} (e : ctlTx t c f d = some t') :
    t'.wire.length = t.wire.length + 1 ∧ t'.seq = (t.seq + 1) % 256 ∧ t'.max = t.max ∧ t'.flow = t.flow := by
  unfold ctlTx at e
  dsimp only at e
  split at e
  · cases e
  · cases e
    exact ⟨by simp, rfl, rfl, rfl⟩

theorem inv_step (s : H) (o : Op) (h : Inv s) (hf : Fair s o) : Inv (step s o) := by
  cases o with
  | data a b =>
    dsimp only [step]
    cases e : dataTx s.t a b with
    | none => exact h
    | some t =>
      obtain ⟨r, w, q, m, f⟩ := data_wire e
      have hr := ((ready_iff s h).1 r).2
      have := h.seq
      have := h.hi
      exact ⟨by dsimp only; omega, by dsimp only; rw [m]; exact h.max, by dsimp only; rw [f]; exact h.flow,
        by dsimp only; omega, by dsimp only; omega⟩
  | ctl c fl d =>
    dsimp only [step]
    cases e : ctlTx s.t c fl d with
    | none => exact h
    | some t =>
      obtain ⟨w, q, m, f⟩ := ctl_wire e
      have hr : s.t.wire.length < s.g + 128 := hf
      have := h.seq
      have := h.hi
      exact ⟨by dsimp only; omega, by dsimp only; rw [m]; exact h.max, by dsimp only; rw [f]; exact h.flow,
        by dsimp only; omega, by dsimp only; omega⟩
  | rx p g =>
    obtain ⟨f1, f2, f3⟩ := hf
    have h1 := h.max
    have h2 := h.lo
    refine ⟨h.seq, ?_, rfl, ?_, ?_⟩
    · show (if (g % 256 + 256 - s.t.max) % 256 ≤ 0x40 then g % 256 else s.t.max) = g % 256
      rw [if_pos (by omega)]
    · show s.t.wire.length ≤ g + 128
      omega
    · show g ≤ s.t.wire.length + 64
      omega

/-- Every number recorded was below the grant of its moment. -/
theorem sent_step (s : H) (o : Op) (h : Inv s) : ∀ i ∈ (step s o).sent, i ∈ s.sent ∨
    (i = s.t.wire.length ∧ i < s.g ∧ s.pause = 0) := by
  cases o with
  | data a b =>
    dsimp only [step]
    cases e : dataTx s.t a b with
    | none => exact fun i hi => Or.inl hi
    | some t =>
      intro i hi
      rcases List.mem_append.1 hi with k | k
      · exact Or.inl k
      · have := (ready_iff s h).1 (data_wire e).1
        rw [List.mem_singleton] at k
        exact Or.inr ⟨k, by rw [k]; exact this.2, this.1⟩
  | ctl c fl d =>
    dsimp only [step]
    cases e : ctlTx s.t c fl d with
    | none => exact fun i hi => Or.inl hi
    | some t => exact fun i hi => Or.inl hi
  | rx p g => exact fun i hi => Or.inl hi

theorem fair_inv (s : H) (ops : List Op) (h : Inv s) (hf : FairRun s ops) : Inv (run s ops) := by
  induction ops generalizing s with
  | nil => exact h
  | cons o os ih => exact ih (step s o) (inv_step s o h hf.1) hf.2

theorem fairRun_app (s : H) (a b : List Op) (h : FairRun s (a ++ b)) : FairRun s a ∧ FairRun (run s a) b := by
  induction a generalizing s with
  | nil => exact ⟨trivial, h⟩
  | cons o a ih => exact ⟨⟨h.1, (ih _ h.2).1⟩, (ih _ h.2).2⟩

/-- **C121.** At every point of every such history: a data frame of acceptable size is sent exactly when the radio has not
paused the host and the frame's number is below the latest grant; sequence numbers on the wire count every frame. -/
theorem window_exact (ops : List Op) (hf : FairRun start ops) (h pay : Bytes)
    (h14 : 14 ≤ h.length + pay.length) (hmax : h.length + pay.length ≤ 2032) :
    ((dataTx (run start ops).t h pay).isSome ↔
      (run start ops).pause = 0 ∧ (run start ops).t.wire.length < (run start ops).g) := by
  have hi := fair_inv start ops inv_start hf
  rw [← ready_iff _ hi]
  unfold dataTx
  dsimp only
  have e1 : (h.length + pay.length) % 4294967296 = h.length + pay.length := Nat.mod_eq_of_lt (by omega)
  rw [e1, if_neg (by omega)]
  cases ready (run start ops).t <;> simp

theorem run_snoc (s : H) (a : List Op) (o : Op) : run s (a ++ [o]) = step (run s a) o := by
  unfold run; rw [List.foldl_append]; rfl

/-- No data frame of the history was sent outside the window. -/
theorem never_past_window (ops : List Op) (hf : FairRun start ops) :
    ∀ i ∈ (run start ops).sent, ∃ pre post, ops = pre ++ post ∧ i = (run start pre).t.wire.length ∧
      i < (run start pre).g ∧ (run start pre).pause = 0 := by
  induction hn : ops.length generalizing ops with
  | zero =>
    have : ops = [] := List.length_eq_zero_iff.1 hn
    subst this
    intro i hi
    cases hi
  | succ n ih =>
    have hne : ops ≠ [] := fun e => by rw [e] at hn; cases hn
    obtain ⟨pre, o, rfl⟩ : ∃ pre o, ops = pre ++ [o] := ⟨ops.dropLast, ops.getLast hne, (List.dropLast_concat_getLast hne).symm⟩
    intro i hi
    have hp := (fairRun_app start pre [o] hf).1
    rw [run_snoc] at hi
    rcases sent_step _ o (fair_inv start pre inv_start hp) i hi with k | ⟨k1, k2, k3⟩
    · obtain ⟨a, b, e1, e2⟩ := ih pre hp (by simp at hn; exact hn) i k
      exact ⟨a, b ++ [o], by rw [e1, List.append_assoc], e2⟩
    · exact ⟨pre, [o], rfl, k1, k2, k3⟩

/-- Frame `i` on the wire carries sequence octet `i mod 256`, whatever the radio does. -/
def SeqOk (t : T) : Prop := t.seq = t.wire.length % 256 ∧ ∀ (i : Nat) (w : Bytes), t.wire[i]? = some w → oct w 4 = i % 256

theorem seq_app {t : T} {w : Bytes} (h : SeqOk t) (hw : oct w 4 = t.seq) (t' : T) (e1 : t'.wire = t.wire ++ [w])
    (e2 : t'.seq = (t.seq + 1) % 256) : SeqOk t' := by
  refine ⟨?_, ?_⟩
  · rw [e2, e1, List.length_append, h.1]
    show _ = (t.wire.length + 1) % 256
    omega
  · intro i v hv
    rw [e1] at hv
    by_cases hi : i < t.wire.length
    · rw [List.getElem?_append_left hi] at hv
      exact h.2 i v hv
    · rw [List.getElem?_append_right (by omega)] at hv
      have : i - t.wire.length = 0 := by
        cases hk : i - t.wire.length with
        | zero => rfl
        | succ k => rw [hk] at hv; cases hv
      rw [this] at hv
      have hv' : w = v := by simpa using hv
      have hi' : i = t.wire.length := by omega
      rw [← hv', hw, h.1, hi']

theorem seq_exact (ops : List Op) : SeqOk (run start ops).t := by
  have key : ∀ s : H, SeqOk s.t → ∀ o, SeqOk (step s o).t := by
    intro s h o
    cases o with
    | data a b =>
      dsimp only [step]
      cases e : dataTx s.t a b with
      | none => exact h
      | some t =>
        unfold dataTx at e
        dsimp only at e
        split at e
        · cases e
        · split at e
          · cases e
          · cases e
            exact seq_app h rfl _ rfl rfl
    | ctl c fl d =>
      dsimp only [step]
      cases e : ctlTx s.t c fl d with
      | none => exact h
      | some t =>
        unfold ctlTx at e
        dsimp only at e
        split at e
        · cases e
        · cases e
          exact seq_app h rfl _ rfl rfl
    | rx p g => exact h
  suffices ∀ s : H, SeqOk s.t → SeqOk (run s ops).t from this start ⟨rfl, fun i w hw => by cases hw⟩
  induction ops with
  | nil => exact fun s h => h
  | cons o os ih => exact fun s h => ih _ (key s h o)

/-! ## What a corrupt credit can do, and what ungated control requests can do -/

/-- Whatever credit octet arrives, the window's end moves forward by at most 64 or not at all. -/
theorem credit_bounded (t : T) (p cr : Nat) (hm : t.max < 256) (hc : cr < 256) :
    ∃ d, d ≤ 64 ∧ (rx t p cr).max = (t.max + d) % 256 := by
  unfold rx credit
  dsimp only
  by_cases h : (cr + 256 - t.max) % 256 ≤ 0x40
  · rw [if_pos h]
    exact ⟨(cr + 256 - t.max) % 256, h, by omega⟩
  · rw [if_neg h]
    exact ⟨0, by omega, by omega⟩

/-- An unanswered control request without data. -/
def req : Op := .ctl 2 0 []

/-- **Finding.** 130 control requests with no answer in between make the window look open again: the next data frame, number
130, is sent although the radio granted only number 0. -/
theorem ungated_reopens : let s := run start (List.replicate 130 req ++ [.data [] (List.replicate 14 0)])
    s.sent = [130] ∧ s.g = 1 := by
  decide +kernel

/-- **Finding.** After 66 unanswered control requests the radio's next grant (67) is taken for garbage, and so is every later
one up to 129 beyond: no data frame is sent however many grants arrive. -/
theorem wedged (ops : List Op) (ho : ∀ o ∈ ops, (∃ h p, o = .data h p) ∨ ∃ p g, o = .rx p g ∧ 66 ≤ g ∧ g ≤ 256) :
    (run start (List.replicate 66 req ++ ops)).sent = [] := by
  have key : ∀ (s : H) (ops : List Op), s.t.max = 1 ∧ s.t.seq = 66 ∧ s.sent = [] →
      (∀ o ∈ ops, (∃ h p, o = .data h p) ∨ ∃ p g, o = .rx p g ∧ 66 ≤ g ∧ g ≤ 256) → (run s ops).sent = [] := by
    intro s ops
    induction ops generalizing s with
    | nil => exact fun h _ => h.2.2
    | cons o os ih =>
      intro h ho
      refine ih (step s o) ?_ (fun x hx => ho x (List.mem_cons_of_mem _ hx))
      rcases ho o (List.mem_cons_self ..) with ⟨a, b, rfl⟩ | ⟨p, g, rfl, h1, h2⟩
      · dsimp only [step]
        cases e : dataTx s.t a b with
        | none => exact h
        | some t =>
          have hr := (data_wire e).1
          unfold ready at hr
          rw [h.1, h.2.1] at hr
          simp at hr
      · refine ⟨?_, h.2.1, h.2.2⟩
        show (if (g % 256 + 256 - s.t.max) % 256 ≤ 0x40 then g % 256 else s.t.max) = 1
        rw [h.1, if_neg (by omega)]
  have e : run start (List.replicate 66 req ++ ops) = run (run start (List.replicate 66 req)) ops := by
    unfold run; rw [List.foldl_append]
  rw [e]
  refine key _ ops ?_ ho
  decide +kernel

/-! ## Non-vacuity -/

/-- Two frames: the second waits for the grant. -/
example : FairRun start [.data [] (List.replicate 20 1), .data [] (List.replicate 20 2), .rx 0 9, .data [] (List.replicate 20 2)] ∧
    (run start [.data [] (List.replicate 20 1), .data [] (List.replicate 20 2), .rx 0 9,
      .data [] (List.replicate 20 2)]).sent = [0, 1] := by
  refine ⟨⟨trivial, trivial, ?_, trivial, trivial⟩, by decide +kernel⟩
  show _ ≤ _ ∧ _ ≤ _ ∧ _ ≤ _
  decide +kernel

example : (eapolTx start.t [1, 1, 1, 1, 1, 1] [2, 2, 2, 2, 2, 2] [7, 7]).map (fun t => t.wire) =
    some [[32, 0, 223, 255, 0, 2, 0, 12, 0, 0, 0, 0, 32, 0, 0, 0, 1, 1, 1, 1, 1, 1, 2, 2, 2, 2, 2, 2, 0x88, 0x8E, 7, 7]] := by
  decide +kernel

end Wolf.Drv.CywTx
