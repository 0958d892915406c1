import Verif.Opts.Model

/-! # C141: theorems about socket options -/
namespace Wolf.Opts

/-! ## Specification -/

/-- The options a kind of socket has (memberships are C59). -/
inductive Has : Kind → Nat → Nat → Prop where
  | ttlT : Has .tcp SOL_IP IP_RECVTTL
  | ttlU : Has .udp SOL_IP IP_RECVTTL
  | ttlI : Has .icmp SOL_IP IP_RECVTTL
  | ttlR : Has .raw SOL_IP IP_RECVTTL
  | tosT : Has .tcp SOL_IP IP_TOS
  | tosU : Has .udp SOL_IP IP_TOS
  | tosI : Has .icmp SOL_IP IP_TOS
  | mttl : Has .udp SOL_IP IP_MULTICAST_TTL
  | mloop : Has .udp SOL_IP IP_MULTICAST_LOOP

/-- On/off options. -/
def Switch (name : Nat) : Prop := name = IP_RECVTTL ∨ name = IP_MULTICAST_LOOP

/-- What `getsockopt` must answer after the value `v` was set: a switch gives 1 or 0, another option the value. -/
def Answer (name v w : Nat) : Prop := (Switch name → w = if v = 0 then 0 else 1) ∧ (¬ Switch name → w = v)

/-- The option is unknown for the kind: neither one it has, nor set-only, nor a multicast interface or membership. -/
def Unknown (k : Kind) (level name : Nat) : Prop :=
  ¬ Has k level name ∧ ¬ (k = .udp ∧ level = SOL_IP ∧ (name = IP_MULTICAST_IF ∨ name = IP_ADD_MEMBERSHIP ∨ name = IP_DROP_MEMBERSHIP)) ∧
  ¬ (k = .raw ∧ (level = SOL_IP ∧ name = IP_HDRINCL ∨ level = SOL_SOCKET ∧ name = SO_DONTROUTE))

/-- Everything but the named option is the same. -/
def SameBut (level name : Nat) (o o' : Opt) : Prop :=
  (¬ (level = SOL_IP ∧ name = IP_RECVTTL) → o'.recvTtl = o.recvTtl) ∧ (¬ (level = SOL_IP ∧ name = IP_TOS) → o'.tos = o.tos) ∧
  (¬ (level = SOL_IP ∧ name = IP_MULTICAST_TTL) → o'.mttl = o.mttl) ∧ (¬ (level = SOL_IP ∧ name = IP_MULTICAST_LOOP) → o'.mloop = o.mloop) ∧
  (¬ (level = SOL_IP ∧ name = IP_MULTICAST_IF) → o'.mif = o.mif) ∧ (¬ (level = SOL_IP ∧ name = IP_HDRINCL) → o'.hdr = o.hdr) ∧
  (¬ (level = SOL_SOCKET ∧ name = SO_DONTROUTE) → o'.dontroute = o.dontroute)

/-! ## Theorems -/

/-- C141. A call that fails changes nothing. -/
theorem set_fails_clean (e : Env) (k : Kind) (o : Opt) (level name : Nat) (val : Option (List Nat)) (len : Nat)
    (h : (setOpt e k o level name val len).2 = false) : (setOpt e k o level name val len).1 = o := by
  revert h
  unfold setOpt
  repeat' split
  all_goals simp

/-- C141. A call changes the named option and no other. -/
theorem set_changes_one (e : Env) (k : Kind) (o : Opt) (level name : Nat) (val : Option (List Nat)) (len : Nat) :
    SameBut level name o (setOpt e k o level name val len).1 := by
  unfold setOpt SameBut
  repeat' split
  all_goals (simp_all)

theorem i32_take {b : List Nat} {len : Nat} (h : ¬ len < 4) : i32 (b.take len) = i32 b := by
  unfold i32
  simp only [List.getD_eq_getElem?_getD]
  rw [List.getElem?_take_of_lt (by omega), List.getElem?_take_of_lt (by omega), List.getElem?_take_of_lt (by omega),
    List.getElem?_take_of_lt (by omega)]

theorem head_take {b : List Nat} {len : Nat} (h : ¬ len = 0) : (b.take len).getD 0 0 = b.getD 0 0 := by
  simp only [List.getD_eq_getElem?_getD]
  rw [List.getElem?_take_of_lt (by omega)]

theorem take_take_le {b : List Nat} {len n : Nat} (h : ¬ len < n) : (b.take len).take n = b.take n := by
  rw [List.take_take, Nat.min_eq_left (by omega)]

/-- C141. Only the first `len` octets of the caller's buffer matter. -/
theorem set_reads_within (e : Env) (k : Kind) (o : Opt) (level name : Nat) (b : List Nat) (len : Nat) :
    setOpt e k o level name (some b) len = setOpt e k o level name (some (b.take len)) len := by
  by_cases h0 : len = 0
  · subst h0
    unfold setOpt
    cases k <;> simp
  · by_cases h4 : len < 4
    · have h8 : len < 8 := by omega
      have h4' : ¬ len ≥ 4 := by omega
      unfold setOpt
      cases k <;> simp only [h0, h4, h8, h4', if_true, if_false, head_take h0]
    · have ge4 : len ≥ 4 := by omega
      by_cases h8 : len < 8
      · unfold setOpt
        cases k <;> simp only [h0, h4, h8, ge4, if_true, if_false, i32_take h4, take_take_le h4]
      · unfold setOpt
        cases k <;> simp only [h0, h4, h8, ge4, if_true, if_false, i32_take h4, take_take_le h4, take_take_le h8]

/-- C141. What was set is read back: a successful `setsockopt` of an int (or, for the multicast options, of one octet) is
what `getsockopt` gives afterwards, in either width. -/
theorem set_get (e e' : Env) (k : Kind) (o : Opt) (level name : Nat) (hk : Has k level name) (v r : Nat) (hv : v < 256) (hr : 4 ≤ r) :
    (setOpt e k o level name (some (enc v)) 4).2 = true ∧
    ∃ w, Answer name v w ∧ getOpt e' k (setOpt e k o level name (some (enc v)) 4).1 level name (some r) = some (enc w) ∧
      (name = IP_MULTICAST_TTL ∨ name = IP_MULTICAST_LOOP →
        (setOpt e k o level name (some [v]) 1) = setOpt e k o level name (some (enc v)) 4 ∧
        getOpt e' k (setOpt e k o level name (some (enc v)) 4).1 level name (some 1) = some [w]) := by
  have hi : i32 (enc v) = v := by unfold i32 enc; simp
  have h255 : ¬ v > 255 := by omega
  have hr4 : ¬ r < 4 := by omega
  have hr1 : ¬ r < 1 := by omega
  have sw : ∀ name, Switch name → Answer name v (if v = 0 then 0 else 1) := fun _ h => ⟨fun _ => rfl, fun c => absurd h c⟩
  have va : ∀ name, ¬ Switch name → Answer name v v := fun _ h => ⟨fun c => absurd c h, fun _ => rfl⟩
  cases hk
  case tosT => exact ⟨by simp [setOpt, hi, h255], v, va _ (by unfold Switch; omega), by simp [setOpt, getOpt, hi, h255, hr4], by omega⟩
  case tosU => exact ⟨by simp [setOpt, hi, h255], v, va _ (by unfold Switch; omega), by simp [setOpt, getOpt, hi, h255, hr4], by omega⟩
  case tosI => exact ⟨by simp [setOpt, hi, h255], v, va _ (by unfold Switch; omega), by simp [setOpt, getOpt, hi, h255, hr4], by omega⟩
  case mttl => exact ⟨by simp [setOpt, hi, h255], v, va _ (by unfold Switch; omega), by simp [setOpt, getOpt, hi, h255, hr, hr1],
      fun _ => ⟨by simp [setOpt, hi, h255], by simp [setOpt, getOpt, hi, h255]⟩⟩
  all_goals
    refine ⟨by simp [setOpt, hi], if v = 0 then 0 else 1, sw _ (by unfold Switch; omega), ?_, ?_⟩
    · by_cases h0 : v = 0
      · subst h0; simp [setOpt, getOpt, hi, hr4, hr, hr1]
      · simp [setOpt, getOpt, hi, hr4, hr, hr1, h0]
    · first
      | (intro h; exfalso; omega)
      | (intro _
         by_cases h0 : v = 0
         · subst h0; simp [setOpt, getOpt, hi]
         · simp [setOpt, getOpt, hi, h0])

/-- C141. A switch is on after any int but 0 (all four octets count), off after 0, and reads back as 1 or 0. -/
theorem switch_any_int (e e' : Env) (k : Kind) (o : Opt) (level name : Nat) (hk : Has k level name) (hs : Switch name)
    (b0 b1 b2 b3 r : Nat) (hr : 4 ≤ r) :
    getOpt e' k (setOpt e k o level name (some [b0, b1, b2, b3]) 4).1 level name (some r) =
      some [if b0 = 0 ∧ b1 = 0 ∧ b2 = 0 ∧ b3 = 0 then 0 else 1, 0, 0, 0] := by
  have hr4 : ¬ r < 4 := by omega
  have hr1 : ¬ r < 1 := by omega
  have hz : i32 [b0, b1, b2, b3] = 0 ↔ b0 = 0 ∧ b1 = 0 ∧ b2 = 0 ∧ b3 = 0 := by
    unfold i32; simp; omega
  by_cases h : b0 = 0 ∧ b1 = 0 ∧ b2 = 0 ∧ b3 = 0
  · have hi := hz.mpr h
    rw [if_pos h]
    cases hk
    case tosT | tosU | tosI | mttl => unfold Switch at hs; omega
    all_goals simp [setOpt, getOpt, hi, hr4, hr1, hr, enc]
  · have hi : ¬ i32 [b0, b1, b2, b3] = 0 := fun c => h (hz.mp c)
    rw [if_neg h]
    cases hk
    case tosT | tosU | tosI | mttl => unfold Switch at hs; omega
    all_goals simp [setOpt, getOpt, hi, hr4, hr1, hr, enc]

/-- C141. The header-included and no-route switches of a raw socket follow the int given. -/
theorem raw_switches (e : Env) (o : Opt) (b0 b1 b2 b3 : Nat) :
    setOpt e .raw o SOL_IP IP_HDRINCL (some [b0, b1, b2, b3]) 4 =
      ({ o with hdr := !decide (b0 = 0 ∧ b1 = 0 ∧ b2 = 0 ∧ b3 = 0) }, true) ∧
    setOpt e .raw o SOL_SOCKET SO_DONTROUTE (some [b0, b1, b2, b3]) 4 =
      ({ o with dontroute := !decide (b0 = 0 ∧ b1 = 0 ∧ b2 = 0 ∧ b3 = 0) }, true) := by
  have hz : i32 [b0, b1, b2, b3] = 0 ↔ b0 = 0 ∧ b1 = 0 ∧ b2 = 0 ∧ b3 = 0 := by
    unfold i32; simp; omega
  by_cases h : b0 = 0 ∧ b1 = 0 ∧ b2 = 0 ∧ b3 = 0
  · rw [decide_eq_true h]
    simp [setOpt, hz.mpr h]
  · have hi : ¬ i32 [b0, b1, b2, b3] = 0 := fun c => h (hz.mp c)
    simp [setOpt, hi, h]

/-- C141. `getsockopt` never writes more than the room it was given. -/
theorem get_within (e : Env) (he : ∀ i, (e.ipOf i).length = 4) (k : Kind) (o : Opt) (level name r : Nat) (w : List Nat)
    (h : getOpt e k o level name (some r) = some w) : w.length ≤ r := by
  unfold getOpt at h
  dsimp only at h
  repeat' split at h
  all_goals first
    | (simp at h; done)
    | (simp only [Option.some.injEq] at h; subst h; first | (simp [enc]; omega) | (rw [he]; omega) | simp)

/-- C141. Without a buffer no option is set or read. -/
theorem no_buffer (e : Env) (k : Kind) (o : Opt) (level name len : Nat) (hk : Has k level name) :
    setOpt e k o level name none len = (o, false) ∧ getOpt e k o level name none = none := by
  cases hk <;> simp [setOpt, getOpt]

/-- C141. Type of service and multicast TTL are refused outside 0..255 (and a negative int is, as its octets count from
2147483648), so what is stored always fits the octet of the header. -/
theorem set_octet (e : Env) (k : Kind) (o : Opt) (level name : Nat) (val : Option (List Nat)) (len : Nat)
    (hb : ∀ b, val = some b → ∀ x ∈ b, x < 256) (h : o.tos < 256 ∧ o.mttl < 256) :
    (setOpt e k o level name val len).1.tos < 256 ∧ (setOpt e k o level name val len).1.mttl < 256 := by
  have hd : ∀ b, val = some b → b.getD 0 0 < 256 := by
    intro b hv
    rw [List.getD_eq_getElem?_getD]
    cases hx : b[0]? with
    | none => simp
    | some x => simpa using hb b hv x (List.mem_of_getElem? hx)
  unfold setOpt
  repeat' split
  all_goals first
    | exact h
    | (refine ⟨?_, ?_⟩ <;> dsimp only <;> first | exact h.1 | exact h.2 | omega | exact hd _ rfl)

/-- C141. An accepted IP_TOS or IP_MULTICAST_TTL is in the header of what the socket sends next; unicast keeps 64. -/
theorem set_sent (e : Env) (k : Kind) (o : Opt) (v : Nat) (hv : v < 256) (hk : k = .tcp ∨ k = .udp ∨ k = .icmp) :
    outTos (setOpt e k o SOL_IP IP_TOS (some (enc v)) 4).1 = v ∧
    outTtl .udp (setOpt e .udp o SOL_IP IP_MULTICAST_TTL (some (enc v)) 4).1 true = v ∧
    outTtl k o false = 64 := by
  have hi : i32 (enc v) = v := by unfold i32 enc; simp
  have h255 : ¬ v > 255 := by omega
  refine ⟨?_, ?_, ?_⟩
  · rcases hk with rfl | rfl | rfl <;> simp [setOpt, outTos, hi, h255]
  · simp [setOpt, outTtl, hi, h255]
  · simp [outTtl]

/-- C141. A pinned multicast interface is read back as its address; the address 0.0.0.0 removes the pin. -/
theorem set_get_if (e : Env) (o : Opt) (b : List Nat) (r : Nat) (hr : 4 ≤ r) :
    (∀ i, i32 b ≠ 0 → e.ifOf (b.take 4) = some i →
      getOpt e .udp (setOpt e .udp o SOL_IP IP_MULTICAST_IF (some b) 4).1 SOL_IP IP_MULTICAST_IF (some r) = some (e.ipOf i)) ∧
    (i32 b = 0 → (setOpt e .udp o SOL_IP IP_MULTICAST_IF (some b) 4) = ({ o with mif := none }, true)) := by
  have hr4 : ¬ r < 4 := by omega
  refine ⟨?_, ?_⟩
  · intro i h0 hi
    simp [setOpt, getOpt, h0, hi, hr4]
  · intro h0
    simp [setOpt, h0]

/-- C141, as far as it holds: an option a socket does not have is refused by `setsockopt` on raw and packet sockets. Missing:
TCP, UDP and ICMP sockets, and `getsockopt` (`unknown_accepted`). -/
theorem unknown_refused_partial (e : Env) (k : Kind) (o : Opt) (level name : Nat) (val : Option (List Nat)) (len : Nat)
    (hk : k = .raw ∨ k = .packet) (hu : Unknown k level name) : setOpt e k o level name val len = (o, false) := by
  rcases hk with rfl | rfl
  · unfold setOpt
    have h1 : ¬ (level = 0 ∧ name = 12) := by rintro ⟨rfl, rfl⟩; exact hu.1 .ttlR
    have h2 : ¬ (level = 0 ∧ name = 3) := fun h => hu.2.2 ⟨rfl, Or.inl h⟩
    have h3 : ¬ (level = 1 ∧ name = 5) := fun h => hu.2.2 ⟨rfl, Or.inr h⟩
    cases val <;> simp [h1, h2, h3]
  · rfl

/-- The code against C141: on a TCP, UDP or ICMP socket every option it does not have is "set" with success and ignored, and
`getsockopt` answers success without writing anything into the caller's variable. -/
theorem unknown_accepted (e : Env) (k : Kind) (o : Opt) (level name : Nat) (val : Option (List Nat)) (len : Nat) (room : Option Nat)
    (hk : k = .tcp ∨ k = .udp ∨ k = .icmp) (hu : Unknown k level name) :
    setOpt e k o level name val len = (o, true) ∧ getOpt e k o level name room = some [] := by
  have h12 : ¬ (level = 0 ∧ name = 12) := by
    rintro ⟨rfl, rfl⟩
    rcases hk with rfl | rfl | rfl
    · exact hu.1 .ttlT
    · exact hu.1 .ttlU
    · exact hu.1 .ttlI
  have h1 : ¬ (level = 0 ∧ name = 1) := by
    rintro ⟨rfl, rfl⟩
    rcases hk with rfl | rfl | rfl
    · exact hu.1 .tosT
    · exact hu.1 .tosU
    · exact hu.1 .tosI
  rcases hk with rfl | rfl | rfl
  · simp [setOpt, getOpt, h12, h1]
  · by_cases hl : level = 0
    · subst hl
      have a1 : ¬ name = 12 := fun h => h12 ⟨rfl, h⟩
      have a2 : ¬ name = 1 := fun h => h1 ⟨rfl, h⟩
      have a3 : ¬ name = 33 := by rintro rfl; exact hu.1 .mttl
      have a4 : ¬ name = 34 := by rintro rfl; exact hu.1 .mloop
      have a5 : ¬ name = 32 := fun h => hu.2.1 ⟨rfl, rfl, Or.inl h⟩
      have a6 : ¬ name = 35 := fun h => hu.2.1 ⟨rfl, rfl, Or.inr (Or.inl h)⟩
      have a7 : ¬ name = 36 := fun h => hu.2.1 ⟨rfl, rfl, Or.inr (Or.inr h)⟩
      simp [setOpt, getOpt, a1, a2, a3, a4, a5, a6, a7]
    · simp [setOpt, getOpt, hl]
  · simp [setOpt, getOpt, h12, h1]

/-- SO_ERROR (4) after a non-blocking connect: "success", and the caller's variable keeps what it held. -/
example (e : Env) (o : Opt) : getOpt e .tcp o SOL_SOCKET 4 (some 4) = some [] :=
  (unknown_accepted e .tcp o 1 4 none 0 (some 4) (Or.inl rfl) ⟨(by intro h; cases h), (by simp), (by simp)⟩).2

/-- IP_HDRINCL can be set on a raw socket and not read: success, nothing written. -/
theorem hdrincl_not_readable (e : Env) (o : Opt) (room : Option Nat) : getOpt e .raw o SOL_IP IP_HDRINCL room = some [] := by
  simp [getOpt]

/-- Concrete cases: TTL 7 by int and by octet, 256 and -1 refused. -/
example : (setOpt {} .udp {} 0 33 (some [7, 0, 0, 0]) 4) = ({ mttl := 7 }, true) ∧
    (setOpt {} .udp {} 0 33 (some [7]) 1) = ({ mttl := 7 }, true) ∧
    (setOpt {} .udp {} 0 33 (some [0, 1, 0, 0]) 4) = ({}, false) ∧
    (setOpt {} .udp {} 0 1 (some [255, 255, 255, 255]) 4) = ({}, false) ∧
    getOpt {} .udp { mttl := 7 } 0 33 (some 2) = some [7] := by decide

end Wolf.Opts
