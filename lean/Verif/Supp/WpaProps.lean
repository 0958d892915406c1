import Verif.Supp.Wpa
import Verif.Supp.MschapProps

/-!
# The WPA primitives compute what the standards say (C97)
-/

namespace Wolf.Supp

/-! ## The PRF and the KDF -/

theorem prfLoop_spec {w : Wc} {key label data : Bytes} {f : Bytes → Bytes}
    (hf : ∀ m, w.hmac false key m = some (f m)) (hl : ∀ m, (f m).length = 20) {outLen : Nat}
    (hle : outLen ≤ 5120) :
    ∀ fuel c, (outLen - 20 * c) ≤ fuel → 20 * c ≤ outLen →
      prfLoop w key label data outLen fuel c
        ((List.range c).flatMap (fun i => f (label ++ [0] ++ data ++ [i]))) =
      some (((List.range ((outLen + 19) / 20)).flatMap
        (fun i => f (label ++ [0] ++ data ++ [i]))).take outLen)
  | fuel, c, h1, h2 => by
    have hlen : ∀ n, ((List.range n).flatMap (fun i => f (label ++ [0] ++ data ++ [i]))).length
        = 20 * n := by
      intro n
      induction n with
      | zero => rfl
      | succ n ih =>
        rw [List.range_succ, List.flatMap_append, List.length_append, ih]
        simp [hl]
        omega
    by_cases h3 : 20 * c < outLen
    · cases fuel with
      | zero => omega
      | succ fuel =>
        unfold prfLoop
        rw [hlen, if_pos h3, hf]
        dsimp only
        by_cases h4 : outLen - 20 * c > 20
        · rw [if_pos h4, List.take_of_length_le (by rw [hl]; omega), Nat.mod_eq_of_lt (by omega)]
          have := prfLoop_spec hf hl hle (label := label) (data := data) fuel (c + 1) (by omega)
            (by omega)
          rw [List.range_succ, List.flatMap_append] at this
          simpa using this
        · rw [if_neg h4]
          have hc : (outLen + 19) / 20 = c + 1 := by omega
          rw [hc, List.range_succ, List.flatMap_append, List.take_append, hlen,
            List.take_of_length_le (l := (List.range c).flatMap _) (by rw [hlen]; omega)]
          have hstop : ∀ fu k o, ¬ o.length < outLen → prfLoop w key label data outLen fu k o = some o := by
            intro fu k o ho
            cases fu with
            | zero => rfl
            | succ fu => unfold prfLoop; rw [if_neg ho]
          rw [hstop]
          · simp
          · rw [List.length_append, hlen, List.length_take, hl]
            omega
    · have h5 : 20 * c = outLen := by omega
      have hc : (outLen + 19) / 20 = c := by omega
      rw [hc, List.take_of_length_le (by rw [hlen]; omega)]
      cases fuel with
      | zero => rfl
      | succ fuel =>
        unfold prfLoop
        rw [hlen, if_neg h3]

/-- C97.  `wpa_prf_sha1` is the standard's PRF for every length it accepts, and refuses the lengths
at which the one-octet block counter would repeat. -/
theorem prf_exact {w : Wc} {key label data : Bytes} {f : Bytes → Bytes → Bytes}
    (hf : ∀ m, w.hmac false key m = some (f key m)) (hl : ∀ m, (f key m).length = 20) (len : Nat) :
    (len ≤ 5120 → prfSha1 w key label data len = some (prfSpec f key label data len)) ∧
    (5120 < len → prfSha1 w key label data len = none) := by
  constructor
  · intro h
    unfold prfSha1
    split
    · next h0 => subst h0; rfl
    · rw [if_neg (by omega)]
      exact prfLoop_spec hf hl h len 0 (by omega) (by omega)
  · intro h
    unfold prfSha1
    rw [if_neg (by omega), if_pos (by omega)]

theorem kdf256Loop_spec {w : Wc} {key label data : Bytes} {f : Bytes → Bytes}
    (hf : ∀ m, w.hmac true key m = some (f m)) (hl : ∀ m, (f m).length = 32) {bits outLen : Nat}
    (hb : bits < 65536) (hle : outLen ≤ bits) :
    ∀ fuel c, (outLen - 32 * c) ≤ fuel → 32 * c ≤ outLen →
      kdfLoop w key label data bits outLen fuel (c + 1)
        ((List.range c).flatMap (fun i => f ([(i + 1) % 256, (i + 1) / 256] ++ label ++ data ++
          [bits % 256, bits / 256]))) =
      some (((List.range ((outLen + 31) / 32)).flatMap (fun i =>
        f ([(i + 1) % 256, (i + 1) / 256] ++ label ++ data ++ [bits % 256, bits / 256]))).take outLen)
  | fuel, c, h1, h2 => by
    have hlen : ∀ n, ((List.range n).flatMap (fun i =>
        f ([(i + 1) % 256, (i + 1) / 256] ++ label ++ data ++ [bits % 256, bits / 256]))).length
        = 32 * n := by
      intro n
      induction n with
      | zero => rfl
      | succ n ih =>
        rw [List.range_succ, List.flatMap_append, List.length_append, ih]
        simp [hl]
        omega
    by_cases h3 : 32 * c < outLen
    · cases fuel with
      | zero => omega
      | succ fuel =>
        unfold kdfLoop
        rw [hlen, if_pos h3, Nat.mod_eq_of_lt (show (c + 1) / 256 < 256 by omega),
          Nat.mod_eq_of_lt (show bits / 256 < 256 by omega), hf]
        dsimp only
        by_cases h4 : outLen - 32 * c > 32
        · rw [if_pos h4, List.take_of_length_le (by rw [hl]; omega), Nat.mod_eq_of_lt (by omega)]
          have := kdf256Loop_spec hf hl hb hle (label := label) (data := data) fuel (c + 1) (by omega)
            (by omega)
          rw [List.range_succ, List.flatMap_append] at this
          simpa using this
        · rw [if_neg h4]
          have hc : (outLen + 31) / 32 = c + 1 := by omega
          rw [hc, List.range_succ, List.flatMap_append, List.take_append, hlen,
            List.take_of_length_le (l := (List.range c).flatMap _) (by rw [hlen]; omega)]
          have hstop : ∀ fu k o, ¬ o.length < outLen →
              kdfLoop w key label data bits outLen fu k o = some o := by
            intro fu k o ho
            cases fu with
            | zero => rfl
            | succ fu => unfold kdfLoop; rw [if_neg ho]
          rw [hstop]
          · simp
          · rw [List.length_append, hlen, List.length_take, hl]
            omega
    · have h5 : 32 * c = outLen := by omega
      have hc : (outLen + 31) / 32 = c := by omega
      rw [hc, List.take_of_length_le (by rw [hlen]; omega)]
      cases fuel with
      | zero => rfl
      | succ fuel =>
        unfold kdfLoop
        rw [hlen, if_neg h3]

/-- C97.  `wpa_kdf_sha256` is the standard's KDF. -/
theorem kdf_exact {w : Wc} {key label data : Bytes} {f : Bytes → Bytes → Bytes}
    (hf : ∀ m, w.hmac true key m = some (f key m)) (hl : ∀ m, (f key m).length = 32) {bits : Nat}
    (hb : bits < 65536) (h8 : bits % 8 = 0) :
    kdfSha256 w key label data bits = some (kdfSpec256 f key label data bits) := by
  have e : (bits + 7) / 8 = bits / 8 := by omega
  unfold kdfSha256 kdfSpec256
  rw [e]
  exact kdf256Loop_spec hf hl hb (by omega) (bits / 8) 0 (by omega) (by omega)

/-! ## The order of addresses and nonces -/

theorem be_inj {a b : Bytes} {n : Nat} (ha : Oct n a) (hb : Oct n b) (h : be a = be b) : a = b := by
  obtain ⟨la, oa⟩ := ha
  obtain ⟨lb, ob⟩ := hb
  subst la
  induction a generalizing b with
  | nil => cases b with
    | nil => rfl
    | cons y s => simp at lb
  | cons x r ih => cases b with
    | nil => simp at lb
    | cons y s =>
      have hl : s.length = r.length := by simpa using lb
      have o1 := fun z hz => oa z (List.mem_cons_of_mem _ hz)
      have o2 := fun z hz => ob z (List.mem_cons_of_mem _ hz)
      have h1 := be_lt o1
      have h2 := be_lt o2
      rw [be_cons, be_cons, hl] at h
      rw [hl] at h2
      have hxy : x = y := by
        rcases Nat.lt_trichotomy x y with c | c | c
        · have := Nat.mul_le_mul_right (256 ^ r.length) (show x + 1 ≤ y from c)
          rw [Nat.add_mul] at this
          omega
        · exact c
        · have := Nat.mul_le_mul_right (256 ^ r.length) (show y + 1 ≤ x from c)
          rw [Nat.add_mul] at this
          omega
      subst hxy
      rw [ih (b := s) (by omega) o1 o2 hl]

theorem minMax_eq {a b : Bytes} {n : Nat} (ha : Oct n a) (hb : Oct n b) :
    minMax a b = (lo a b, hi a b) := by
  have h := memGt_be (a := b) (b := a) (by rw [ha.1, hb.1]) hb.2 ha.2
  unfold minMax lo hi
  by_cases c : be a ≤ be b
  · rw [if_pos c, if_pos c]
    by_cases c2 : memGt b a = true
    · rw [if_pos c2]
    · rw [if_neg c2]
      have : be a = be b := by
        have : ¬ (be a < be b) := fun k => c2 (h.2 k)
        omega
      have := be_inj ha hb this
      subst this
      rfl
  · rw [if_neg c, if_neg c, if_neg (fun k => c (Nat.le_of_lt (h.1 k)))]

theorem ptkData_eq {aa sa an sn : Bytes} (h1 : Oct 6 aa) (h2 : Oct 6 sa) (h3 : Oct 32 an)
    (h4 : Oct 32 sn) : ptkData aa sa an sn = ptkContext aa sa an sn := by
  unfold ptkData ptkContext
  rw [minMax_eq h1 h2, minMax_eq h3 h4]

theorem lo_comm {a b : Bytes} {n : Nat} (ha : Oct n a) (hb : Oct n b) : lo a b = lo b a ∧ hi a b = hi b a := by
  unfold lo hi
  rcases Nat.lt_trichotomy (be a) (be b) with c | c | c
  · rw [if_pos (by omega), if_neg (by omega), if_pos (by omega), if_neg (by omega)]
    exact ⟨rfl, rfl⟩
  · have := be_inj ha hb c
    subst this
    exact ⟨rfl, rfl⟩
  · rw [if_neg (by omega), if_pos (by omega), if_neg (by omega), if_pos (by omega)]
    exact ⟨rfl, rfl⟩

/-- C97.  **Both ends derive the same pairwise keys**, whichever of the two addresses and nonces each
calls its own. -/
theorem ptk_symmetric (w : Wc) (b : Bool) (pmk : Bytes) {aa sa an sn : Bytes} (h1 : Oct 6 aa)
    (h2 : Oct 6 sa) (h3 : Oct 32 an) (h4 : Oct 32 sn) :
    ptkDerive w b pmk aa sa an sn = ptkDerive w b pmk sa aa sn an := by
  unfold ptkDerive
  rw [ptkData_eq h1 h2 h3 h4, ptkData_eq h2 h1 h4 h3]
  unfold ptkContext
  rw [(lo_comm h1 h2).1, (lo_comm h1 h2).2, (lo_comm h3 h4).1, (lo_comm h3 h4).2]

/-- C97.  **The pairwise keys are the standard's**: PRF-384 (SHA-1) or KDF-384 (SHA-256) of the PMK
over the ordered addresses and nonces, cut into KCK, KEK and TK of 16 octets each. -/
theorem ptk_exact {w : Wc} {b : Bool} {pmk : Bytes} {f : Bytes → Bytes → Bytes}
    (hf : ∀ m, w.hmac b pmk m = some (f pmk m)) (hl : ∀ m, (f pmk m).length = digestLen b)
    {aa sa an sn : Bytes} (h1 : Oct 6 aa) (h2 : Oct 6 sa) (h3 : Oct 32 an) (h4 : Oct 32 sn) :
    ∃ p k, ptkDerive w b pmk aa sa an sn = some p ∧
      k = (if b then kdfSpec256 f pmk ptkLabel (ptkContext aa sa an sn) 384
        else prfSpec f pmk ptkLabel (ptkContext aa sa an sn) 48) ∧
      p.kck ++ p.kek ++ p.tk = k ∧ p.kck.length = 16 ∧ p.kek.length = 16 ∧ p.tk.length = 16 := by
  have fin : ∀ k : Bytes, k.length = 48 → (splitPtk k).kck ++ (splitPtk k).kek ++ (splitPtk k).tk = k ∧
      (splitPtk k).kck.length = 16 ∧ (splitPtk k).kek.length = 16 ∧ (splitPtk k).tk.length = 16 := by
    intro k hk
    refine ⟨?_, by simp [splitPtk, hk], by simp [splitPtk, hk], by simp [splitPtk, hk]⟩
    unfold splitPtk
    dsimp only
    have e1 : (k.drop 32).take 16 = k.drop 32 := List.take_of_length_le (by simp [hk])
    have e2 : (k.drop 16).take 16 ++ k.drop 32 = k.drop 16 := by
      have := List.take_append_drop 16 (k.drop 16)
      rw [List.drop_drop] at this
      exact this
    rw [e1, List.append_assoc, e2, List.take_append_drop]
  unfold ptkDerive
  rw [ptkData_eq h1 h2 h3 h4]
  have flen : ∀ (n : Nat) (g : Nat → Bytes) (d : Nat), (∀ i, (g i).length = d) →
      ((List.range n).flatMap g).length = d * n := by
    intro n g d hg
    induction n with
    | zero => simp
    | succ n ih =>
      rw [List.range_succ, List.flatMap_append, List.length_append, ih]
      simp [hg, Nat.mul_succ]
  cases b with
  | true =>
    simp only [if_true]
    rw [kdf_exact hf hl (by decide) (by decide)]
    have hlen : (kdfSpec256 f pmk ptkLabel (ptkContext aa sa an sn) (48 * 8)).length = 48 := by
      unfold kdfSpec256
      rw [List.length_take, flen _ _ 32 (fun _ => hl _)]; rfl
    exact ⟨_, _, rfl, rfl, fin _ hlen⟩
  | false =>
    simp only [Bool.false_eq_true, if_false]
    rw [(prf_exact hf hl 48).1 (by decide)]
    have hlen : (prfSpec f pmk ptkLabel (ptkContext aa sa an sn) 48).length = 48 := by
      unfold prfSpec
      rw [List.length_take, flen _ _ 20 (fun _ => hl _)]; rfl
    exact ⟨_, _, rfl, rfl, fin _ hlen⟩

/-- C97.  The derivation separates sessions: the PRF input determines the two addresses and the two
nonces (each pair up to order). -/
theorem ptk_context_inj {aa sa an sn aa' sa' an' sn' : Bytes}
    (h1 : Oct 6 aa) (h2 : Oct 6 sa) (h3 : Oct 32 an) (h4 : Oct 32 sn)
    (h1' : Oct 6 aa') (h2' : Oct 6 sa') (h3' : Oct 32 an') (h4' : Oct 32 sn')
    (h : ptkContext aa sa an sn = ptkContext aa' sa' an' sn') :
    (aa = aa' ∧ sa = sa' ∨ aa = sa' ∧ sa = aa') ∧ (an = an' ∧ sn = sn' ∨ an = sn' ∧ sn = an') := by
  have hlen : ∀ {n : Nat} {a b : Bytes}, Oct n a → Oct n b → (lo a b).length = n ∧ (hi a b).length = n := by
    intro n a b ha hb
    unfold lo hi
    split
    · exact ⟨ha.1, hb.1⟩
    · exact ⟨hb.1, ha.1⟩
  have split2 : ∀ {a b c d : Bytes}, lo a b = lo c d → hi a b = hi c d →
      a = c ∧ b = d ∨ a = d ∧ b = c := by
    intro a b c d e1 e2
    unfold lo at e1
    unfold hi at e2
    by_cases c1 : be a ≤ be b <;> by_cases c2 : be c ≤ be d <;>
      simp only [c1, c2, if_true, if_false] at e1 e2
    · exact .inl ⟨e1, e2⟩
    · exact .inr ⟨e1, e2⟩
    · exact .inr ⟨e2, e1⟩
    · exact .inl ⟨e2, e1⟩
  unfold ptkContext at h
  have l1 := hlen h1 h2
  have l2 := hlen h1' h2'
  have l3 := hlen h3 h4
  have l4 := hlen h3' h4'
  obtain ⟨h, e4⟩ := List.append_inj h (by simp [l1, l2, l3, l4])
  obtain ⟨h, e3⟩ := List.append_inj h (by simp [l1, l2])
  obtain ⟨e1, e2⟩ := List.append_inj h (by rw [l1.1, l2.1])
  exact ⟨split2 e1 e2, split2 e3 e4⟩

/-- **C97, the PMK of a passphrase** (802.11-2020 J.4.1): a passphrase of 8 to 63 octets and a non-empty SSID of at
most 32 give the result of PBKDF2 with the passphrase as password and the SSID as salt; anything else gives nothing. -/
theorem pmk_exact (w : Wc) (p ssid : Bytes) :
    (8 ≤ p.length → p.length ≤ 63 → 1 ≤ ssid.length → ssid.length ≤ 32 → pmkFromPass w p ssid = w.pbkdf2 p ssid) ∧
    (∀ k, pmkFromPass w p ssid = some k →
      8 ≤ p.length ∧ p.length ≤ 63 ∧ 1 ≤ ssid.length ∧ ssid.length ≤ 32) := by
  unfold pmkFromPass
  refine ⟨fun h1 h2 h3 h4 => ?_, fun k h => ?_⟩
  · rw [if_neg (by omega), if_neg (by omega)]
  · split at h
    · cases h
    · split at h
      · cases h
      · omega

/-- **C97, key unwrap** (RFC 3394): what is unwrapped is a whole number of 64-bit blocks, at least two and the
integrity check; and every such input is handed to the cipher. -/
theorem unwrap_exact (w : Wc) (kek d : Bytes) :
    (∀ k, 3 ≤ k → d.length = 8 * k → keyUnwrap w kek d = w.unwrap kek d) ∧
    (∀ r, keyUnwrap w kek d = some r → ∃ k, 3 ≤ k ∧ d.length = 8 * k) := by
  unfold keyUnwrap
  refine ⟨fun k h1 h2 => ?_, fun r h => ?_⟩
  · rw [if_neg (by omega)]
  · split at h
    · cases h
    · exact ⟨d.length / 8, by omega, by omega⟩

end Wolf.Supp
