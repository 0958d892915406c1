/-
ESP transport-mode encapsulation and decapsulation (C62).
Models `esp_transport_wrap` (src/wolfesp.c 1677-1906) and `esp_transport_unwrap`
(src/wolfesp.c 1404-1655) for one matching pair of SAs, on the bytes that follow
the IP header.  Simplifications: the ciphers and ICV computations are parameters
(`protect`, `verify`) acting in place on the ESP region, as the esp_*_enc/dec and
esp_*_icv_hmac functions do; the SA lookup is not modelled; lengths are unbounded
naturals (the code uses uint16_t for at most LINK_MTU + 60 bytes); the IP header
rewriting is represented by the returned payload and protocol.
-/
import Verif.Esp.Replay
namespace Wolf.Esp

/-- The fields of `wolfIP_esp_sa` (wolfesp.h 77-92) that shape the packet:
`ivLen`/`blockLen` as given by `esp_iv_len_from_enc`/`esp_block_len_from_enc`
(wolfesp.c 477-531).  `protect` is the in-place encryption followed by the ICV
computation (1822-1890), `verify` the ICV check and in-place decryption
(1519-1583); `none` = error. -/
structure Sa where
  spi : List Nat
  ivLen : Nat
  blockLen : Nat
  icvLen : Nat
  protect : List Nat → Option (List Nat)
  verify : List Nat → Option (List Nat)

/-- Big-endian bytes of a 32-bit number (`ee32` + memcpy, wolfesp.c 1754-1755). -/
def be32 (n : Nat) : List Nat :=
  [n / 16777216 % 256, n / 65536 % 256, n / 256 % 256, n % 256]

/-- Reading it back (wolfesp.c 1436-1437). -/
def rd32 (b : List Nat) : Nat :=
  b.getD 0 0 * 16777216 + b.getD 1 0 * 65536 + b.getD 2 0 * 256 + b.getD 3 0

/-- Padding length, wolfesp.c 1764-1792. -/
def padLen (sa : Sa) (n : Nat) : Nat :=
  if sa.blockLen ≠ 0 then
    let encLen := sa.ivLen + n + 0 + 1 + 1
    if encLen % sa.blockLen ≠ 0 then sa.blockLen - encLen % sa.blockLen else 0
  else
    let icvOff := 4 + 4 + sa.ivLen + n + 0 + 1 + 1
    if icvOff % 4 ≠ 0 then 4 - icvOff % 4 else 0

/-- The padding bytes 1, 2, 3, … (wolfesp.c 1797-1803), as uint8_t. -/
def padBytes (n : Nat) : List Nat := (List.range n).map (fun i => (i + 1) % 256)

/-- The ESP region before encryption: SPI, sequence number, room for the IV, the
payload, padding, pad length, next header, room for the ICV (wolfesp.c
1738-1820).  The not-yet-written IV and ICV bytes are `junk`. -/
def region (sa : Sa) (seq : Nat) (payload : List Nat) (proto : Nat) (junkIv junkIcv : List Nat) :
    List Nat :=
  sa.spi ++ be32 seq ++ junkIv ++ payload ++ padBytes (padLen sa payload.length) ++
    [padLen sa payload.length] ++ [proto] ++ junkIcv

/-- `esp_transport_wrap` on a matching SA: take the next sequence number, build the
region, protect it. -/
def wrap (sa : Sa) (r : Replay) (payload : List Nat) (proto : Nat) (junkIv junkIcv : List Nat) :
    Replay × Option (List Nat) :=
  match nextOseq r with
  | (r', none) => (r', none)
  | (r', some seq) => (r', sa.protect (region sa seq payload proto junkIv junkIcv))

/-- The padding comparison loop, wolfesp.c 1614-1627: byte i must be (uint8_t)(i+1). -/
def padOk (pad : List Nat) : Bool := pad == padBytes pad.length

/-- The trailer part of `esp_transport_unwrap` (wolfesp.c 1592-1655) on the
decrypted region `z`: pad length, next header, honesty and content of padding,
then the payload with header and trailer removed. -/
def strip (sa : Sa) (z : List Nat) : Option (List Nat × Nat) :=
  let n := z.length
  let pad := z.getD (n - sa.icvLen - 1 - 1) 0
  let nxt := z.getD (n - sa.icvLen - 1) 0
  if n < 4 + 4 + sa.ivLen + pad + 1 + 1 + sa.icvLen then none
  else if !padOk ((z.drop (n - sa.icvLen - 1 - 1 - pad)).take pad) then none
  else some ((z.drop (4 + 4 + sa.ivLen)).take
    (n - (sa.ivLen + 4 + 4) - (pad + 1 + 1 + sa.icvLen)), nxt)

/-- `esp_transport_unwrap` for the matching SA (wolfesp.c 1404-1655), integrity
protected SAs use the replay window. -/
def unwrapPkt (sa : Sa) (r : Replay) (y : List Nat) : Replay × Option (List Nat × Nat) :=
  let seq := rd32 (y.drop 4)
  if y.length < 8 then (r, none)
  else if sa.icvLen ≠ 0 && !check r seq then (r, none)
  else if y.length < 4 + 4 + sa.ivLen + 1 + 1 + sa.icvLen then (r, none)
  else match sa.verify y with
    | none => (r, none)
    | some z => (if sa.icvLen ≠ 0 then commit r seq else r, strip sa z)

/-! ## Assumptions on the cipher (trusted: wolfCrypt) -/

/-- The bytes between the IV and the ICV. -/
def body (sa : Sa) (x : List Nat) : List Nat :=
  (x.drop (8 + sa.ivLen)).take (x.length - (8 + sa.ivLen) - sa.icvLen)

/-- `protect` works in place (same length), leaves SPI and sequence number in
clear, and `verify` of its output succeeds and restores the encrypted body. -/
structure CipherOk (sa : Sa) : Prop where
  spi : sa.spi.length = 4
  len : ∀ x y, sa.protect x = some y → y.length = x.length
  head : ∀ x y, sa.protect x = some y → y.take 8 = x.take 8
  inv : ∀ x y, sa.protect x = some y →
    ∃ z, sa.verify y = some z ∧ z.length = x.length ∧ body sa z = body sa x

/-! ## Lemmas -/

theorem rd32_be32 (n : Nat) (h : n < 4294967296) (t : List Nat) : rd32 (be32 n ++ t) = n := by
  simp only [be32, rd32, List.cons_append, List.getD_cons_zero, List.getD_cons_succ]
  have h1 : n / 65536 = n / 256 / 256 := by omega
  have h2 : n / 16777216 = n / 65536 / 256 := by omega
  omega

theorem padBytes_length (n : Nat) : (padBytes n).length = n := by simp [padBytes]

theorem padLen_lt (sa : Sa) (n : Nat) (hb : sa.blockLen ≤ 16) : padLen sa n ≤ 15 := by
  simp only [padLen]
  split
  · split
    · rename_i h1 h2
      have : 0 < (sa.ivLen + n + 0 + 1 + 1) % sa.blockLen := by omega
      omega
    · omega
  · split <;> omega

theorem region_length (sa : Sa) (h4 : sa.spi.length = 4) (seq : Nat) (p : List Nat) (proto : Nat)
    (ji jc : List Nat) :
    (region sa seq p proto ji jc).length =
      8 + ji.length + p.length + padLen sa p.length + 2 + jc.length := by
  simp [region, be32, padBytes_length, h4]
  omega

theorem body_region (sa : Sa) (h4 : sa.spi.length = 4) (seq : Nat) (p : List Nat) (proto : Nat)
    (ji jc : List Nat) (hi : ji.length = sa.ivLen) (hc : jc.length = sa.icvLen) :
    body sa (region sa seq p proto ji jc) =
      p ++ padBytes (padLen sa p.length) ++ [padLen sa p.length] ++ [proto] := by
  have hl := region_length sa h4 seq p proto ji jc
  simp only [body]
  rw [hl]
  have e : region sa seq p proto ji jc = (sa.spi ++ be32 seq ++ ji) ++
      ((p ++ padBytes (padLen sa p.length) ++ [padLen sa p.length] ++ [proto]) ++ jc) := by
    simp [region, List.append_assoc]
  have hpre : (sa.spi ++ be32 seq ++ ji).length = 8 + sa.ivLen := by simp [be32, h4, hi]; omega
  rw [e, ← hpre, List.drop_left, hpre]
  apply List.take_left'
  simp [padBytes_length]
  omega

theorem getD_of_body (sa : Sa) (z B : List Nat) (hb : body sa z = B)
    (k : Nat) (hk : k < B.length) : z.getD (8 + sa.ivLen + k) 0 = B.getD k 0 := by
  subst hb
  simp only [body, List.length_take, List.length_drop] at hk
  simp only [body, List.getD_eq_getElem?_getD, List.getElem?_take, List.getElem?_drop]
  rw [if_pos (by omega)]

/-- Stripping the decrypted region returns the payload and protocol. -/
theorem strip_body (sa : Sa) (z p : List Nat) (proto q : Nat)
    (hl : z.length = 8 + sa.ivLen + p.length + q + 2 + sa.icvLen)
    (hb : body sa z = p ++ padBytes q ++ [q] ++ [proto]) :
    strip sa z = some (p, proto) := by
  have hB : (p ++ padBytes q ++ [q] ++ [proto]).length = p.length + q + 2 := by
    simp [padBytes_length]; omega
  have hpad : z.getD (z.length - sa.icvLen - 1 - 1) 0 = q := by
    have := getD_of_body sa z _ hb (p.length + q) (by omega)
    have e : z.length - sa.icvLen - 1 - 1 = 8 + sa.ivLen + (p.length + q) := by omega
    rw [e, this]
    simp [List.getElem?_append, padBytes_length]
  have hnxt : z.getD (z.length - sa.icvLen - 1) 0 = proto := by
    have := getD_of_body sa z _ hb (p.length + q + 1) (by omega)
    have e : z.length - sa.icvLen - 1 = 8 + sa.ivLen + (p.length + q + 1) := by omega
    rw [e, this]
    simp only [List.getD_eq_getElem?_getD]
    rw [List.getElem?_append_right (by simp [padBytes_length]; omega)]
    simp [padBytes_length]
    rw [show p.length + q + 1 - (p.length + (q + 1)) = 0 by omega]
    rfl
  have hdrop : ∀ k n, k + n ≤ p.length + q + 2 →
      (z.drop (8 + sa.ivLen + k)).take n = ((p ++ padBytes q ++ [q] ++ [proto]).drop k).take n := by
    intro k n hkn
    rw [← hb]
    simp only [body]
    rw [List.drop_take, List.take_take, List.drop_drop]
    congr 1
    omega
  simp only [strip, hpad, hnxt]
  rw [if_neg (by omega)]
  have hp := hdrop p.length q (by omega)
  have e1 : z.length - sa.icvLen - 1 - 1 - q = 8 + sa.ivLen + p.length := by omega
  rw [e1, hp]
  have e2 : ((p ++ padBytes q ++ [q] ++ [proto]).drop p.length).take q = padBytes q := by
    rw [List.append_assoc, List.append_assoc, List.drop_left]
    exact List.take_left' (padBytes_length q)
  rw [e2]
  have e3 : padOk (padBytes q) = true := by simp [padOk, padBytes_length]
  rw [e3]
  simp only [Bool.not_true, Bool.false_eq_true, ↓reduceIte]
  have e4 : z.length - (sa.ivLen + 4 + 4) - (q + 1 + 1 + sa.icvLen) = p.length := by omega
  have e5 : 4 + 4 + sa.ivLen = 8 + sa.ivLen + 0 := by omega
  rw [e4, e5, hdrop 0 p.length (by omega), List.drop_zero, List.append_assoc, List.append_assoc,
    List.take_left]

/-! ## C62 -/

/-- **C62, round trip.** For any payload, protocol byte, and SA pair with a correct
cipher: whenever the sender's wrap produces a packet, the receiver whose replay
window has not seen that sequence number recovers exactly the original payload and
protocol, and records exactly that sequence number. -/
theorem esp_round_trip (sa : Sa) (hs : CipherOk sa) (tx rx : Replay) (payload : List Nat)
    (proto : Nat) (ji jc : List Nat) (hi : ji.length = sa.ivLen) (hc : jc.length = sa.icvLen)
    (ho : tx.oseq + 1 < 2 ^ 32) (y : List Nat)
    (hw : (wrap sa tx payload proto ji jc).2 = some y)
    (hr : check rx (tx.oseq + 1) = true) :
    unwrapPkt sa rx y =
      (if sa.icvLen ≠ 0 then commit rx (tx.oseq + 1) else rx, some (payload, proto)) := by
  have hn := (nextOseq_spec tx (by omega)).1 ho
  simp only [wrap, hn] at hw
  have hlen := hs.len _ _ hw
  have hhead := hs.head _ _ hw
  obtain ⟨z, hv, hzl, hzb⟩ := hs.inv _ _ hw
  rw [body_region sa hs.spi _ _ _ _ _ hi hc] at hzb
  rw [region_length sa hs.spi, hi, hc] at hlen hzl
  have hseq : rd32 (y.drop 4) = tx.oseq + 1 := by
    have e1 : (y.take 8).drop 4 = be32 (tx.oseq + 1) := by
      rw [hhead]
      have : region sa (tx.oseq + 1) payload proto ji jc = sa.spi ++ (be32 (tx.oseq + 1) ++
        (ji ++ payload ++ padBytes (padLen sa payload.length) ++ [padLen sa payload.length] ++
          [proto] ++ jc)) := by simp [region, List.append_assoc]
      rw [this, List.drop_take, ← hs.spi, List.drop_left, hs.spi]
      apply List.take_left'
      simp [be32]
    have e2 : y.drop 4 = be32 (tx.oseq + 1) ++ y.drop 8 := by
      rw [← e1]
      have : y = y.take 8 ++ y.drop 8 := (List.take_append_drop 8 y).symm
      conv => lhs; rw [this]
      rw [List.drop_append_of_le_length (by simp; omega)]
    rw [e2]
    exact rd32_be32 _ ho _
  simp only [unwrapPkt, hseq, hr]
  rw [if_neg (by omega), if_neg (by simp), if_neg (by omega), hv]
  simp only
  rw [strip_body sa z payload proto _ hzl hzb]

/-- **C62, size.** The added bytes never exceed 57, so the scratch frame of
`LINK_MTU + 60` bytes in `esp_send` (wolfesp.c 1937) is large enough for any frame
of at most LINK_MTU bytes; the ICV starts on a 4-byte boundary (IV, block and ICV
lengths as supported: at most 16, IV and block multiples of 4). -/
theorem esp_size_bound (sa : Sa) (hs : CipherOk sa) (tx : Replay) (payload : List Nat)
    (proto : Nat) (ji jc : List Nat) (hi : ji.length = sa.ivLen) (hc : jc.length = sa.icvLen)
    (hb : sa.ivLen ≤ 16 ∧ sa.blockLen ≤ 16 ∧ sa.icvLen ≤ 16)
    (h4 : sa.blockLen = 0 ∨ ((sa.blockLen = 8 ∨ sa.blockLen = 16) ∧ sa.ivLen = sa.blockLen))
    (y : List Nat) (hw : (wrap sa tx payload proto ji jc).2 = some y) :
    y.length ≤ payload.length + 57 ∧ (y.length - sa.icvLen) % 4 = 0 := by
  have key : ∃ seq, sa.protect (region sa seq payload proto ji jc) = some y := by
    revert hw
    simp only [wrap]
    split
    · intro h; simp at h
    · rename_i seq _
      intro h
      exact ⟨seq, h⟩
  obtain ⟨seq, hp⟩ := key
  have hlen := hs.len _ _ hp
  rw [region_length sa hs.spi, hi, hc] at hlen
  have := padLen_lt sa payload.length hb.2.1
  refine ⟨by omega, ?_⟩
  rw [hlen]
  rw [show 8 + sa.ivLen + payload.length + padLen sa payload.length + 2 + sa.icvLen - sa.icvLen
    = 8 + sa.ivLen + payload.length + padLen sa payload.length + 2 by omega]
  simp only [padLen]
  rcases h4 with h | ⟨h | h, h'⟩
  · rw [if_neg (by omega)]
    split <;> omega
  · rw [if_pos (by omega), h, h', h]
    split <;> omega
  · rw [if_pos (by omega), h, h', h]
    split <;> omega

/-- A packet whose trailer claims more padding than there is payload, or whose
padding bytes are not 1,2,3,…, is refused whatever the cipher returns. -/
theorem esp_bad_trailer_refused (sa : Sa) (z : List Nat)
    (h : z.length < 10 + sa.ivLen + z.getD (z.length - sa.icvLen - 2) 0 + sa.icvLen) :
    strip sa z = none := by
  simp only [strip]
  rw [if_pos]
  have e : z.length - sa.icvLen - 1 - 1 = z.length - sa.icvLen - 2 := by omega
  rw [e]
  omega

/-- A toy cipher satisfying the assumptions: the hypotheses of C62 are met. -/
def toySa : Sa where
  spi := [0, 0, 1, 2]
  ivLen := 8
  blockLen := 0
  icvLen := 16
  protect x := if 8 ≤ x.length then some (x.take 8 ++ (x.drop 8).map (· + 1)) else none
  verify y := some (y.take 8 ++ (y.drop 8).map (· - 1))

theorem toy_ok : CipherOk toySa := by
  have hinv : ∀ x y, toySa.protect x = some y → toySa.verify y = some x ∧ y.length = x.length ∧
      y.take 8 = x.take 8 := by
    intro x y h
    simp only [toySa] at h
    split at h
    · rename_i h8
      simp only [Option.some.injEq] at h
      subst h
      have ht : (x.take 8).length = 8 := by simp; omega
      have h1 : (x.take 8 ++ (x.drop 8).map (· + 1)).take 8 = x.take 8 := List.take_left' ht
      have h2 : (x.take 8 ++ (x.drop 8).map (· + 1)).drop 8 = (x.drop 8).map (· + 1) :=
        List.drop_left' ht
      refine ⟨?_, by simp; omega, h1⟩
      simp only [toySa, h1, h2, List.map_map]
      rw [show ((fun x : Nat => x - 1) ∘ fun x => x + 1) = id from by funext a; simp]
      simp
    · simp at h
  exact ⟨rfl, fun x y h => (hinv x y h).2.1, fun x y h => (hinv x y h).2.2,
    fun x y h => ⟨x, (hinv x y h).1, rfl, rfl⟩⟩

example : ∃ y, (wrap toySa Replay.init [10, 20, 30] 17 (List.replicate 8 0) (List.replicate 16 0)).2
      = some y ∧
    (unwrapPkt toySa Replay.init y).2 = some ([10, 20, 30], 17) := ⟨_, rfl, by decide +kernel⟩

end Wolf.Esp
