import Verif.Wg.NoiseProps

/-!
# WireGuard transport messages and the small helpers of wg_crypto.c (C102)
-/

namespace Wolf.Wg.Noise

/-! ## Little-endian fields -/

theorem le_succ (n v : Nat) : le (n + 1) v = v % 256 :: le n (v / 256) := by
  unfold le
  rw [List.range_succ_eq_map, List.map_cons, List.map_map]
  congr 1
  · simp
  · apply List.map_congr_left
    intro i _
    show v / 256 ^ (i + 1) % 256 = v / 256 / 256 ^ i % 256
    rw [Nat.pow_succ, Nat.mul_comm, Nat.div_div_eq_div_mul]

theorem le_len (n v : Nat) : (le n v).length = n := by simp [le]

theorem unle_le : ∀ (n v : Nat), v < 256 ^ n → unle (le n v) = v
  | 0, v, h => by simp [Nat.pow_zero] at h; subst h; rfl
  | n + 1, v, h => by
    rw [le_succ]
    show v % 256 + 256 * unle (le n (v / 256)) = v
    rw [unle_le n (v / 256) (by rw [Nat.pow_succ] at h; omega)]
    omega

/-! ## Nonces -/

theorem nonce_len (c : Nat) : (mkNonce c).length = 16 := rfl

/-- It is four zero octets, the counter in little-endian order, four zero octets. -/
theorem nonce_layout {c : Nat} : mkNonce c = List.replicate 4 0 ++ le 8 c ++ List.replicate 4 0 := by
  simp only [mkNonce, le_succ, show le 0 = fun _ => [] from rfl, List.replicate, List.cons_append,
    List.nil_append, Nat.div_div_eq_div_mul, List.cons.injEq, and_true, true_and]

/-- **C102**: different counters of a session give different nonces. -/
theorem nonce_injective {c c' : Nat} (h : c < 2 ^ 64) (h' : c' < 2 ^ 64) (e : mkNonce c = mkNonce c') :
    c = c' := by
  rw [nonce_layout, nonce_layout, List.append_assoc, List.append_assoc] at e
  have e := List.append_cancel_right (List.append_cancel_left e)
  rw [← unle_le 8 c (by omega), ← unle_le 8 c' (by omega), e]

/-! ## Time stamps -/

/-- `n` octets of `v`, most significant first. -/
def beo : Nat → Nat → Bytes
  | 0, _ => []
  | n + 1, v => v / 256 ^ n % 256 :: beo n (v % 256 ^ n)

theorem beo_order : ∀ (n v w : Nat) (x y : Bytes), v < 256 ^ n → w < 256 ^ n →
    (beo n v ++ x < beo n w ++ y ↔ v < w ∨ v = w ∧ x < y)
  | 0, v, w, x, y, hv, hw => by
    have : v = 0 := by simpa using hv
    have : w = 0 := by simpa using hw
    subst v w
    simp [beo]
  | n + 1, v, w, x, y, hv, hw => by
    have hp : 0 < 256 ^ n := Nat.pow_pos (by decide)
    rw [beo, beo, List.cons_append, List.cons_append, List.cons_lt_cons_iff,
      beo_order n _ _ x y (Nat.mod_lt _ hp) (Nat.mod_lt _ hp)]
    rw [Nat.pow_succ] at hv hw
    have h1 : v / 256 ^ n < 256 := Nat.div_lt_of_lt_mul hv
    have h2 : w / 256 ^ n < 256 := Nat.div_lt_of_lt_mul hw
    rw [Nat.mod_eq_of_lt h1, Nat.mod_eq_of_lt h2]
    have e1 := Nat.div_add_mod v (256 ^ n)
    have e2 := Nat.div_add_mod w (256 ^ n)
    have m1 := Nat.mod_lt v hp
    have m2 := Nat.mod_lt w hp
    generalize v / 256 ^ n = a at *
    generalize w / 256 ^ n = b at *
    generalize v % 256 ^ n = r at *
    generalize w % 256 ^ n = t at *
    generalize 256 ^ n = k at *
    rcases Nat.lt_trichotomy a b with h | h | h
    · have : k * a + k ≤ k * b := by rw [← Nat.mul_succ]; exact Nat.mul_le_mul_left k h
      constructor
      · intro _; left; omega
      · intro _; left; exact h
    · subst h
      constructor
      · rintro (h | ⟨-, h | ⟨h, h'⟩⟩)
        · omega
        · left; omega
        · right; exact ⟨by omega, h'⟩
      · rintro (h | ⟨h, h'⟩)
        · right; exact ⟨rfl, .inl (by omega)⟩
        · right; exact ⟨rfl, .inr ⟨by omega, h'⟩⟩
    · have : k * b + k ≤ k * a := by rw [← Nat.mul_succ]; exact Nat.mul_le_mul_left k h
      constructor
      · rintro (h' | ⟨h', -⟩) <;> omega
      · rintro (h' | ⟨h', -⟩) <;> omega

local macro "norm8" : tactic => `(tactic| (
  (simp only [Nat.reducePow, Nat.div_one, Nat.pow_zero]); try omega))

theorem beo_8 (v : Nat) : beo 8 v = [v / 2 ^ 56 % 256, v / 2 ^ 48 % 256, v / 2 ^ 40 % 256,
    v / 2 ^ 32 % 256, v / 2 ^ 24 % 256, v / 2 ^ 16 % 256, v / 2 ^ 8 % 256, v % 256] := by
  simp only [beo, List.cons.injEq, and_true]
  refine ⟨?_, ?_, ?_, ?_, ?_, ?_, ?_, ?_⟩ <;> norm8

theorem beo_4 (v : Nat) : beo 4 v = [v / 2 ^ 24 % 256, v / 2 ^ 16 % 256, v / 2 ^ 8 % 256, v % 256] := by
  simp only [beo, List.cons.injEq, and_true]
  refine ⟨?_, ?_, ?_, ?_⟩ <;> norm8

theorem timestamp_eq (a : Nat) : timestamp a = beo 8 ((0x400000000000000a + a / 1000) % 2 ^ 64) ++
    beo 4 (a % 1000 * 1000000 % 2 ^ 32) := by
  rw [beo_8, beo_4]
  rfl

/-- **C102**: the time stamps of initiations are ordered as the times they were made at are
(millisecond counters of 64 bits). -/
theorem timestamp_order {a b : Nat} (ha : a < 2 ^ 64) (hb : b < 2 ^ 64) :
    timestamp a < timestamp b ↔ a < b := by
  have n32 : ∀ x, x % 1000 * 1000000 % 2 ^ 32 = x % 1000 * 1000000 := fun x =>
    Nat.mod_eq_of_lt (by omega)
  have t64 : ∀ x, x < 2 ^ 64 → (0x400000000000000a + x / 1000) % 2 ^ 64 = 0x400000000000000a + x / 1000 :=
    fun x hx => Nat.mod_eq_of_lt (by omega)
  rw [timestamp_eq, timestamp_eq, n32, n32, t64 a ha, t64 b hb,
    beo_order 8 _ _ _ _ (by omega) (by omega)]
  have h4 : beo 4 (a % 1000 * 1000000) < beo 4 (b % 1000 * 1000000) ↔
      a % 1000 * 1000000 < b % 1000 * 1000000 := by
    have := beo_order 4 (a % 1000 * 1000000) (b % 1000 * 1000000) [] [] (by omega) (by omega)
    simpa using this
  rw [h4]
  omega

/-! ## Data messages -/

theorem padLen_spec (n : Nat) : padLen n % 16 = 0 ∧ n ≤ padLen n ∧ padLen n < n + 16 := by
  unfold padLen
  split <;> omega

/-- The data message for a packet: type 4 and three zero octets, the receiver's index and the counter
in little-endian order, and the packet, padded to a multiple of 16 octets, sealed under the counter. -/
def dataMsg (P : Prim) (key : Bytes) (idx ctr : Nat) (plain : Bytes) : Bytes :=
  [4, 0, 0, 0] ++ le 4 idx ++ le 8 ctr ++ P.enc key (mkNonce ctr) plain []

theorem le_4_4 : le 4 4 = [4, 0, 0, 0] := by decide

theorem dataMsg_len {P : Prim} (G : P.Good) (key : Bytes) (idx ctr : Nat) (plain : Bytes) :
    (dataMsg P key idx ctr plain).length = 32 + plain.length := by
  simp only [dataMsg, List.length_append, le_len, G.enc_len, List.length_cons, List.length_nil]
  omega

/-- **C102**: a packet of up to 1536 octets is sent as its data message, which never overruns the
message buffer; a longer one is refused. -/
theorem sendData_spec {P : Prim} (G : P.Good) (key : Bytes) (idx ctr : Nat) (packet : Bytes) :
    (packet.length ≤ 1536 → ∃ k, k < 16 ∧ (packet.length + k) % 16 = 0 ∧
      sendData P key idx ctr packet =
        some (.ok (dataMsg P key idx ctr (packet ++ List.replicate k 0)))) ∧
    (1536 < packet.length → sendData P key idx ctr packet = none) := by
  have hp := padLen_spec packet.length
  constructor
  · intro h
    refine ⟨padLen packet.length - packet.length, by omega, by omega, ?_⟩
    unfold sendData
    dsimp only
    rw [if_neg (by omega)]
    have e : le 4 4 ++ le 4 idx ++ le 8 ctr ++
        aeadEnc P key ctr (packet ++ zeros (padLen packet.length - packet.length)) [] =
        dataMsg P key idx ctr (packet ++ List.replicate (padLen packet.length - packet.length) 0) := by
      rw [le_4_4]; rfl
    rw [e, dataMsg_len G, if_neg]
    rw [List.length_append, List.length_replicate]
    omega
  · intro h
    unfold sendData
    dsimp only
    rw [if_pos (by omega)]

theorem sendKeepalive_spec (P : Prim) (key : Bytes) (idx ctr : Nat) :
    sendKeepalive P key idx ctr = dataMsg P key idx ctr [] := by
  unfold sendKeepalive dataMsg
  rw [le_4_4]; rfl

/-- The fields of a data message read back. -/
theorem dataHdr_dataMsg (P : Prim) (key : Bytes) {idx ctr : Nat} (plain : Bytes) (hi : idx < 2 ^ 32)
    (hc : ctr < 2 ^ 64) : dataHdr (dataMsg P key idx ctr plain) = (4, idx, ctr) := by
  have h4 : (le 4 idx).length = 4 := le_len ..
  have h8 : (le 8 ctr).length = 8 := le_len ..
  unfold dataHdr dataMsg
  have e1 : ([4, 0, 0, 0] ++ le 4 idx ++ le 8 ctr ++ P.enc key (mkNonce ctr) plain []).take 4 =
      [4, 0, 0, 0] := rfl
  have e2 : (([4, 0, 0, 0] ++ le 4 idx ++ le 8 ctr ++ P.enc key (mkNonce ctr) plain []).drop 4).take 4 =
      le 4 idx := by
    show (le 4 idx ++ le 8 ctr ++ P.enc key (mkNonce ctr) plain []).take 4 = _
    rw [List.append_assoc, List.take_left' h4]
  have e3 : (([4, 0, 0, 0] ++ le 4 idx ++ le 8 ctr ++ P.enc key (mkNonce ctr) plain []).drop 8).take 8 =
      le 8 ctr := by
    rw [List.append_assoc ([4, 0, 0, 0] ++ le 4 idx), List.drop_left' (by simp [h4]), List.take_left' h8]
  rw [e1, e2, e3, unle_le 4 idx (by omega), unle_le 8 ctr (by omega)]
  rfl

theorem drop_dataMsg (P : Prim) (key : Bytes) (idx ctr : Nat) (plain : Bytes) :
    (dataMsg P key idx ctr plain).drop 16 = P.enc key (mkNonce ctr) plain [] := by
  unfold dataMsg
  rw [List.drop_left' (by simp [le_len])]

/-- **C102**: the receiver opens exactly the data messages: with the session's key, a message is
opened to `p` if and only if it is the sealed data of `p` under the counter in its header, and `p`
fits the buffer. -/
theorem openData_iff {P : Prim} (G : P.Good) (key data p : Bytes) :
    openData P true key data = some p ↔
      16 ≤ data.length ∧ p.length ≤ 1536 ∧
      data.drop 16 = P.enc key (mkNonce (dataHdr data).2.2) p [] := by
  unfold openData aeadDec
  dsimp only
  constructor
  · intro h
    split at h
    · cases h
    · rename_i h1
      split at h
      · cases h
      · rename_i h2
        rw [if_pos rfl] at h
        split at h
        · cases h
        · have := G.dec_only _ _ _ _ _ h
          refine ⟨by omega, ?_, this⟩
          have hl := congrArg List.length this
          rw [G.enc_len] at hl
          omega
  · rintro ⟨h1, h2, h3⟩
    have hl := congrArg List.length h3
    rw [G.enc_len] at hl
    have hl' : (data.drop 16).length = data.length - 16 := List.length_drop
    rw [if_neg (by omega), if_neg (by omega), if_pos rfl, if_neg (by omega), h3]
    exact G.dec_enc ..

/-- ... and a failing primitive only makes it refuse. -/
theorem openData_fails (P : Prim) (key data : Bytes) : openData P false key data = none := by
  unfold openData
  dsimp only
  split
  · rfl
  · split <;> rfl

/-- **C102**: a packet sent by one end of a session is opened by the other: under the receiving key
that equals the sending key, the index and the counter arrive, and the plaintext is the packet
followed by fewer than 16 zero octets. -/
theorem data_round_trip {P : Prim} (G : P.Good) (key : Bytes) {idx ctr : Nat} (hi : idx < 2 ^ 32)
    (hc : ctr < 2 ^ 64) {packet msg : Bytes}
    (h : sendData P key idx ctr packet = some (.ok msg)) :
    dataHdr msg = (4, idx, ctr) ∧
    ∃ k, k < 16 ∧ openData P true key msg = some (packet ++ List.replicate k 0) := by
  have hs := sendData_spec G key idx ctr packet
  by_cases hl : packet.length ≤ 1536
  · obtain ⟨k, hk, hk', e⟩ := hs.1 hl
    rw [h] at e
    injection e with e
    injection e with e
    subst e
    have hh := dataHdr_dataMsg P key (packet ++ List.replicate k 0) hi hc
    refine ⟨hh, k, hk, (openData_iff G ..).2 ⟨?_, ?_, ?_⟩⟩
    · rw [dataMsg_len G]; omega
    · rw [List.length_append, List.length_replicate]; omega
    · rw [hh, drop_dataMsg]
  · rw [hs.2 (by omega)] at h; cases h

/-- **C102**: a keepalive opens to the empty packet, which is not handed to the stack. -/
theorem keepalive_round_trip {P : Prim} (G : P.Good) (key : Bytes) {idx ctr : Nat} (hi : idx < 2 ^ 32)
    (hc : ctr < 2 ^ 64) :
    dataHdr (sendKeepalive P key idx ctr) = (4, idx, ctr) ∧
    openData P true key (sendKeepalive P key idx ctr) = some [] ∧ innerOk [] = false := by
  rw [sendKeepalive_spec]
  have hh := dataHdr_dataMsg P key [] hi hc
  refine ⟨hh, (openData_iff G ..).2 ⟨?_, Nat.zero_le _, ?_⟩, by decide⟩
  · rw [dataMsg_len G]; omega
  · rw [hh, drop_dataMsg]

/-- **C102**: an IPv4 packet that goes in whole is handed to the stack whole: the length field in its
header delimits it within the padded plaintext. -/
theorem padding_harmless {packet : Bytes} {k : Nat} (h20 : 20 ≤ packet.length)
    (hv : packet.getD 0 0 / 16 = 4)
    (hlen : packet.getD 2 0 * 256 + packet.getD 3 0 = packet.length) :
    innerOk (packet ++ List.replicate k 0) = true ∧
    (packet ++ List.replicate k 0).take
      ((packet ++ List.replicate k 0).getD 2 0 * 256 + (packet ++ List.replicate k 0).getD 3 0) =
      packet := by
  have g : ∀ i, i < packet.length → (packet ++ List.replicate k 0).getD i 0 = packet.getD i 0 := by
    intro i hi
    rw [List.getD_eq_getElem?_getD, List.getD_eq_getElem?_getD, List.getElem?_append_left hi]
  constructor
  · unfold innerOk
    rw [g 0 (by omega), g 2 (by omega), g 3 (by omega)]
    simp only [Bool.and_eq_true, decide_eq_true_eq, List.length_append, List.length_replicate]
    omega
  · rw [g 2 (by omega), g 3 (by omega), hlen, List.take_left]

/-- **C102**: what is handed to the stack is an IPv4 header at least, of version 4, whose length field stays
within the plaintext. -/
theorem innerOk_iff (p : Bytes) : innerOk p = true ↔
    20 ≤ p.length ∧ p.getD 0 0 / 16 = 4 ∧ p.getD 2 0 * 256 + p.getD 3 0 ≤ p.length := by
  unfold innerOk
  simp only [Bool.and_eq_true, decide_eq_true_eq]
  omega

/-! ## Setting up a peer -/

/-- Setting up a handshake stores the other end's key, the pre-shared key (zeros when there is none) and the
static-static secret, and nothing else; when the exchange fails it stores nothing. -/
theorem hsInit_spec (P : Prim) (ok : Bool) (priv remPub : Bytes) (psk : Option Bytes) :
    (∀ d, ok = true → P.dh priv remPub = some d →
      hsInit P ok priv remPub psk =
        { Hs.zero with remStatic := remPub, psk := psk.getD (List.replicate 32 0), ss := d }) ∧
    (ok = false ∨ P.dh priv remPub = none → hsInit P ok priv remPub psk = .zero) := by
  unfold hsInit
  constructor
  · rintro d rfl h
    rw [if_pos rfl, h]
    rfl
  · intro h
    by_cases hk : ok = true
    · rw [if_pos hk, h.resolve_left (by rw [hk]; decide)]
    · rw [if_neg hk]

/-- **C100**: two devices that add each other as peers, with the same pre-shared key or both without one, are
configured as `handshake_agrees` requires. -/
theorem configured_pairs {P : Prim} (G : P.Good) {dI dR : Dev} {n : Nat} {p : Peer} {psk : Option Bytes} {ss : Bytes}
    (h1 : dI.pubKey = P.pub dI.priv) (h2 : dR.pubKey = P.pub dR.priv) (h3 : (P.pub dI.priv).length = 65)
    (h4 : dR.Sized) (h5 : Configured dR n p dI.pubKey) (h6 : p.hs = hsInit P true dR.priv dI.pubKey psk)
    (h7 : P.dh dI.priv dR.pubKey = some ss) :
    Paired P dI dR (hsInit P true dI.priv dR.pubKey psk) n p ss := by
  have h8 : P.dh dR.priv dI.pubKey = some ss := by rw [h1, ← G.dh_comm, ← h2]; exact h7
  rw [(hsInit_spec P true dR.priv dI.pubKey psk).1 ss rfl h8] at h6
  rw [(hsInit_spec P true dI.priv dR.pubKey psk).1 ss rfl h7]
  exact ⟨h1, h2, h3, h4, rfl, by rw [h6], h5, h7, rfl, by rw [h6], by rw [h6]⟩

/-! ## Examples -/

example : timestamp 1700000000123 < timestamp 1700000000124 := by decide +kernel
example : (timestamp 1700000000123).take 8 = [64, 0, 0, 0, 101, 83, 241, 10] := by decide +kernel

example : (match sendData toy [1, 2] 0xabcd 5 (List.replicate 37 8) with
    | some (.ok m) => (m.length, dataHdr m, (openData toy true [1, 2] m).map List.length,
        (openData toy true [1, 3] m).isNone)
    | _ => (0, (0, 0, 0), none, false)) = (80, (4, 0xabcd, 5), some 48, true) := by decide +kernel

end Wolf.Wg.Noise
