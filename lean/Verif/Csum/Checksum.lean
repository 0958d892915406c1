/-
C24: Internet checksums.
Models src/wolfip.c 4349-4374 (`transport_checksum`), 4376-4379
(`transport_verify_checksum`), 4381-4400 (`icmp_checksum`), 4402-4426
(`iphdr_set_checksum`), 4428-4449 (`iphdr_verify_checksum`), 1877-1893
(`ip_checksum_buf`) and the checksum part of `ip_output_add_header` (4770-4815).
Bytes are naturals below 256; the accumulator is a 32-bit unsigned integer.
-/
namespace Wolf.Csum

/-! ## Model -/

/-- The summing loops (wolfip.c 4357-4369, 4387-4395, 4417-4421, 1881-1888): add
big-endian 16-bit words to the 32-bit accumulator; a trailing odd byte counts as
the high byte of a word. -/
def sum32 : List Nat → Nat → Nat
  | a :: b :: t, acc => sum32 t ((acc + (a * 256 + b)) % 4294967296)
  | [a], acc => (acc + a * 256) % 4294967296
  | [], acc => acc

/-- `while (sum >> 16) sum = (sum & 0xffff) + (sum >> 16);` (wolfip.c 4370-4372). -/
def fold (n : Nat) : Nat :=
  if _h : n / 65536 = 0 then n else fold (n % 65536 + n / 65536)
termination_by n
decreasing_by omega

/-- `(uint16_t)~sum`. -/
def inv16 (n : Nat) : Nat := 65535 - n % 65536

/-- `transport_checksum`, wolfip.c 4349-4374: 12 pseudo-header bytes, then the first
`len` bytes of the segment, `len` being the length field of the pseudo header. -/
def transportChecksum (ph : List Nat) (data : List Nat) : Nat :=
  let len := ph.getD 10 0 * 256 + ph.getD 11 0
  inv16 (fold (sum32 (data.take len) (sum32 (ph.take 12) 0)))

/-- `transport_verify_checksum`, wolfip.c 4376-4379. -/
def transportVerify (ph data : List Nat) : Bool := transportChecksum ph data == 0

/-- `icmp_checksum`, wolfip.c 4381-4400, on `len` bytes from the ICMP type field. -/
def icmpChecksum (icmp : List Nat) (len : Nat) : Nat := inv16 (fold (sum32 (icmp.take len) 0))

/-- Store a big-endian 16-bit value at byte offset `off`. -/
def put16 (p : List Nat) (off v : Nat) : List Nat := (p.set off (v / 256)).set (off + 1) (v % 256)

/-- `iphdr_set_checksum`, wolfip.c 4402-4426, on the bytes from `ver_ihl` on. -/
def ipSet (ip : List Nat) : List Nat :=
  let h0 := ip.getD 0 0 % 16 * 4
  let hlen := if h0 < 20 then 20 else h0
  let z := put16 ip 10 0
  put16 z 10 (inv16 (fold (sum32 (z.take hlen) 0)))

/-- `iphdr_verify_checksum`, wolfip.c 4428-4449. -/
def ipVerify (ip : List Nat) : Bool :=
  if ip.getD 0 0 / 16 ≠ 4 then false
  else
    let hlen := ip.getD 0 0 % 16 * 4
    if hlen < 20 then false
    else fold (sum32 (ip.take hlen) 0) % 65536 == 65535

/-- TCP branch of `ip_output_add_header` (wolfip.c 4799-4801): checksum at offset 16. -/
def tcpFill (ph tcp : List Nat) : List Nat :=
  let z := put16 tcp 16 0
  put16 z 16 (transportChecksum ph z)

/-- UDP branch (wolfip.c 4803-4810): checksum at offset 6, zero sent as 0xFFFF. -/
def udpFill (ph udp : List Nat) : List Nat :=
  let z := put16 udp 6 0
  let c := transportChecksum ph z
  put16 z 6 (if c ≠ 0 then c else 65535)

/-- ICMP branch (wolfip.c 4812-4814): checksum at offset 2 over the whole message. -/
def icmpFill (icmp : List Nat) (len : Nat) : List Nat :=
  let z := put16 icmp 2 0
  put16 z 2 (icmpChecksum z len)

/-! ## Specification -/

/-- The 16-bit big-endian words of a byte string, a trailing odd byte padded with
zero. -/
def words : List Nat → List Nat
  | a :: b :: t => (a * 256 + b) :: words t
  | [a] => [a * 256]
  | [] => []

def Bytes (p : List Nat) : Prop := ∀ x ∈ p, x < 256

/-- `p` and `q` differ in exactly the word at index `i`, and not by 0 ↔ 0xFFFF. -/
def OneWordChanged (p q : List Nat) : Prop :=
  ∃ (a b : List Nat) (w w' : Nat), words p = a ++ w :: b ∧ words q = a ++ w' :: b ∧ w ≠ w' ∧
    ¬ (w = 0 ∧ w' = 65535) ∧ ¬ (w = 65535 ∧ w' = 0)

/-! ## Lemmas -/

theorem fold_spec (n : Nat) : fold n ≤ 65535 ∧ fold n % 65535 = n % 65535 ∧ (fold n = 0 ↔ n = 0) := by
  induction n using Nat.strongRecOn with
  | ind n ih =>
    rw [fold]
    split
    · rename_i h; exact ⟨by omega, rfl, Iff.rfl⟩
    · rename_i h
      obtain ⟨h1, h2, h3⟩ := ih (n % 65536 + n / 65536) (by omega)
      refine ⟨h1, ?_, ?_⟩
      · rw [h2]; omega
      · rw [h3]; omega

theorem fold_ok_iff (n : Nat) : fold n = 65535 ↔ n ≠ 0 ∧ n % 65535 = 0 := by
  obtain ⟨h1, h2, h3⟩ := fold_spec n
  constructor
  · intro h
    rw [h] at h2
    refine ⟨fun h0 => ?_, by omega⟩
    have := h3.mpr h0
    omega
  · rintro ⟨h4, h5⟩
    have : fold n ≠ 0 := fun h => h4 (h3.mp h)
    omega

/-- Sum of the words. -/
def wsum (p : List Nat) : Nat := (words p).sum

theorem words_lt (p : List Nat) (hb : Bytes p) : ∀ w ∈ words p, w < 65536 := by
  induction p using words.induct with
  | case1 a b t ih =>
    intro w hw
    simp only [words, List.mem_cons] at hw
    have ha := hb a (by simp)
    have hbb := hb b (by simp)
    rcases hw with h | h
    · omega
    · exact ih (fun x hx => hb x (by simp [hx])) w h
  | case2 a =>
    intro w hw
    simp only [words, List.mem_singleton] at hw
    have ha := hb a (by simp)
    omega
  | case3 => intro w hw; simp [words] at hw

theorem words_length (p : List Nat) : (words p).length = (p.length + 1) / 2 := by
  induction p using words.induct with
  | case1 a b t ih => simp only [words, List.length_cons, ih]; omega
  | case2 a => simp [words]
  | case3 => simp [words]

theorem sum_le (l : List Nat) (h : ∀ w ∈ l, w < 65536) : l.sum ≤ l.length * 65535 := by
  induction l with
  | nil => simp
  | cons a l ih =>
    have h1 := h a (by simp)
    have h2 := ih (fun w hw => h w (by simp [hw]))
    simp only [List.sum_cons, List.length_cons]
    omega

/-- No 32-bit overflow for at most 65 535 bytes on top of a small accumulator. -/
theorem sum32_eq (p : List Nat) : ∀ acc, acc + wsum p < 4294967296 → sum32 p acc = acc + wsum p := by
  induction p using words.induct with
  | case1 a b t ih =>
    intro acc h
    have e : wsum (a :: b :: t) = a * 256 + b + wsum t := by simp [wsum, words]
    rw [e] at h ⊢
    have hlt' : acc + (a * 256 + b) + wsum t < 4294967296 := by rw [Nat.add_assoc]; exact h
    have hlt : acc + (a * 256 + b) < 4294967296 := Nat.lt_of_le_of_lt (Nat.le_add_right _ _) hlt'
    rw [sum32, Nat.mod_eq_of_lt hlt, ih _ hlt', Nat.add_assoc]
  | case2 a =>
    intro acc h
    have e : wsum [a] = a * 256 := by simp [wsum, words]
    rw [e] at h ⊢
    rw [sum32, Nat.mod_eq_of_lt h]
  | case3 => intro acc h; simp [sum32, wsum, words]

theorem wsum_bound (p : List Nat) (hb : Bytes p) (hl : p.length ≤ 65535) :
    wsum p ≤ 2147450880 := by
  have h1 := sum_le (words p) (words_lt p hb)
  rw [words_length] at h1
  have h2 : (p.length + 1) / 2 ≤ 32768 := by omega
  have h3 : (p.length + 1) / 2 * 65535 ≤ 32768 * 65535 := Nat.mul_le_mul_right _ h2
  simp only [wsum]
  omega

/-- Replacing an even-aligned pair of bytes replaces one word. -/
theorem words_append (a : List Nat) : ∀ (b : List Nat), a.length % 2 = 0 →
    words (a ++ b) = words a ++ words b := by
  induction a using words.induct with
  | case1 x y t ih =>
    intro b h
    simp only [List.length_cons] at h
    simp only [List.cons_append, words]
    rw [ih b (by omega)]
  | case2 x => intro b h; simp at h
  | case3 => intro b _; simp [words]

theorem put16_split (p : List Nat) (off v : Nat) (h : off + 1 < p.length) :
    put16 p off v = p.take off ++ (v / 256 :: v % 256 :: p.drop (off + 2)) := by
  simp only [put16]
  apply List.ext_getElem?
  intro i
  have hl : (p.take off).length = off := by simp; omega
  rcases Nat.lt_trichotomy i off with h1 | h1 | h1
  · rw [List.getElem?_set_ne (by omega), List.getElem?_set_ne (by omega),
      List.getElem?_append_left (by omega), List.getElem?_take_of_lt h1]
  · subst h1
    rw [List.getElem?_set_ne (by omega), List.getElem?_set_self (by omega),
      List.getElem?_append_right (by omega), hl]
    simp
  · rw [List.getElem?_append_right (by omega), hl]
    by_cases h2 : i = off + 1
    · subst h2
      rw [List.getElem?_set_self (by simp; omega)]
      simp [show off + 1 - off = 1 by omega]
    · rw [List.getElem?_set_ne (by omega), List.getElem?_set_ne (by omega)]
      rw [show i - off = (i - off - 2) + 1 + 1 by omega, List.getElem?_cons_succ,
        List.getElem?_cons_succ, List.getElem?_drop]
      congr 1
      omega

theorem put16_length (p : List Nat) (off v : Nat) : (put16 p off v).length = p.length := by
  simp [put16]

theorem put16_put16 (p : List Nat) (off u v : Nat) : put16 (put16 p off u) off v = put16 p off v := by
  simp only [put16]
  apply List.ext_getElem?
  intro i
  simp only [List.getElem?_set, List.length_set]
  split
  · rfl
  · split <;> rfl

theorem put16_bytes (p : List Nat) (off v : Nat) (hb : Bytes p) (hv : v < 65536) : Bytes (put16 p off v) := by
  intro x hx
  simp only [put16] at hx
  rcases List.mem_or_eq_of_mem_set hx with h | h
  · rcases List.mem_or_eq_of_mem_set h with h | h
    · exact hb x h
    · omega
  · omega

theorem put16_take (p : List Nat) (off v n : Nat) (h : off + 1 < n) (hn : n ≤ p.length) :
    (put16 p off v).take n = put16 (p.take n) off v := by
  simp only [put16, List.take_set]

theorem bytes_take (p : List Nat) (n : Nat) (h : Bytes p) : Bytes (p.take n) :=
  fun x hx => h x (List.mem_of_mem_take hx)

/-- The word sum with value `v` in the field is the sum with a zero field plus `v`. -/
theorem wsum_put16 (p : List Nat) (off v : Nat) (h : off + 1 < p.length) (he : off % 2 = 0) :
    wsum (put16 p off v) = wsum (put16 p off 0) + v := by
  have hl : (p.take off).length % 2 = 0 := by simp; omega
  simp only [wsum, put16_split p off _ h]
  rw [words_append _ _ hl, words_append _ _ hl]
  simp only [words, List.sum_append, List.sum_cons]
  have : v / 256 * 256 + v % 256 = v := by omega
  omega

theorem put16_agrees (p : List Nat) (off v i : Nat) (h1 : i ≠ off) (h2 : i ≠ off + 1) :
    (put16 p off v)[i]? = p[i]? := by
  simp only [put16]
  rw [List.getElem?_set_ne (by omega), List.getElem?_set_ne (by omega)]

/-- Core fact: filling in the complement makes the folded sum 0xFFFF. -/
theorem fill_ok (S : Nat) : fold (S + inv16 (fold S)) = 65535 := by
  rw [fold_ok_iff]
  obtain ⟨h1, h2, h3⟩ := fold_spec S
  have hm : fold S % 65536 = fold S := Nat.mod_eq_of_lt (by omega)
  simp only [inv16, hm]
  constructor
  · intro h
    have : S = 0 := by omega
    have := h3.mpr this
    omega
  · omega

theorem fill_ok_udp (S : Nat) (h0 : inv16 (fold S) = 0) : fold (S + 65535) = 65535 := by
  rw [fold_ok_iff]
  obtain ⟨h1, h2, h3⟩ := fold_spec S
  have hm : fold S % 65536 = fold S := Nat.mod_eq_of_lt (by omega)
  simp only [inv16, hm] at h0
  omega

/-! ## C24: fill then verify -/

/-- **C24, IP header.** For any header bytes with version 4 and an IHL of at least 5
whose IHL*4 bytes are present, the filled header verifies; only the two checksum
bytes change. -/
theorem ip_checksum_verifies (ip : List Nat) (hb : Bytes ip) (hv : ip.getD 0 0 / 16 = 4)
    (hh : 20 ≤ ip.getD 0 0 % 16 * 4) (hl : ip.getD 0 0 % 16 * 4 ≤ ip.length) :
    ipVerify (ipSet ip) = true ∧ ∀ i, i ≠ 10 → i ≠ 11 → (ipSet ip)[i]? = ip[i]? := by
  have h60 : ip.getD 0 0 % 16 * 4 ≤ 60 := by omega
  have e0 : ∀ v, (put16 ip 10 v).getD 0 0 = ip.getD 0 0 := by
    intro v
    rw [List.getD_eq_getElem?_getD, put16_agrees _ _ _ _ (by omega) (by omega),
      List.getD_eq_getElem?_getD]
  generalize hH : ip.getD 0 0 % 16 * 4 = hlen at *
  have hset : ipSet ip = put16 ip 10 (inv16 (fold (sum32 ((put16 ip 10 0).take hlen) 0))) := by
    simp only [ipSet, hH]
    rw [if_neg (by omega), put16_put16]
  constructor
  · rw [hset]
    generalize hc : inv16 (fold (sum32 ((put16 ip 10 0).take hlen) 0)) = c
    simp only [ipVerify, e0, hv, hH]
    rw [if_neg (by simp), if_neg (by omega)]
    have hbt := bytes_take ip hlen hb
    have hlt : (ip.take hlen).length = hlen := by simp; omega
    have hc16 : c < 65536 := by rw [← hc]; simp only [inv16]; omega
    rw [put16_take _ _ _ _ (by omega) hl]
    rw [put16_take _ _ _ _ (by omega) hl] at hc
    have b0 := wsum_bound (put16 (ip.take hlen) 10 0) (put16_bytes _ _ _ hbt (by omega))
      (by rw [put16_length]; omega)
    have b1 := wsum_bound (put16 (ip.take hlen) 10 c) (put16_bytes _ _ _ hbt hc16)
      (by rw [put16_length]; omega)
    rw [sum32_eq _ 0 (by omega), Nat.zero_add] at hc ⊢
    rw [wsum_put16 _ _ c (by omega) (by omega), ← hc, fill_ok]
    rfl
  · intro i h1 h2
    rw [hset, put16_agrees _ _ _ _ h1 h2]

/-- The pseudo header of a `len`-byte segment. -/
structure PseudoOk (ph : List Nat) (data : List Nat) : Prop where
  len : ph.length = 12
  bytes : Bytes ph
  field : ph.getD 10 0 * 256 + ph.getD 11 0 = data.length

theorem data_le (ph data : List Nat) (h : PseudoOk ph data) : data.length ≤ 65535 := by
  have h1 := h.field
  have e10 : ph.getD 10 0 < 256 := by
    rw [List.getD_eq_getElem?_getD, List.getElem?_eq_getElem (by rw [h.len]; omega)]
    exact h.bytes _ (List.getElem_mem _)
  have e11 : ph.getD 11 0 < 256 := by
    rw [List.getD_eq_getElem?_getD, List.getElem?_eq_getElem (by rw [h.len]; omega)]
    exact h.bytes _ (List.getElem_mem _)
  generalize ph.getD 10 0 = a at *
  generalize ph.getD 11 0 = b at *
  omega

/-- Under the length agreement the transport checksum is the complement of the
folded word sum of pseudo header and segment. -/
theorem transport_eq (ph data : List Nat) (h : PseudoOk ph data) (hb : Bytes data) :
    transportChecksum ph data = inv16 (fold (wsum ph + wsum data)) := by
  have hl := data_le ph data h
  have hp : wsum ph ≤ 2147450880 := wsum_bound ph h.bytes (by rw [h.len]; omega)
  have hp2 : wsum ph ≤ 6 * 65535 := by
    have := sum_le (words ph) (words_lt ph h.bytes)
    rw [words_length, h.len] at this
    exact this
  have hd := wsum_bound data hb hl
  simp only [transportChecksum, h.field]
  rw [List.take_of_length_le (Nat.le_refl _), List.take_of_length_le (by rw [h.len]; omega)]
  rw [sum32_eq ph 0 (by omega), Nat.zero_add, sum32_eq data _ (by omega)]

theorem transportVerify_iff (ph data : List Nat) (h : PseudoOk ph data) (hb : Bytes data) :
    transportVerify ph data = true ↔ fold (wsum ph + wsum data) = 65535 := by
  simp only [transportVerify, beq_iff_eq, transport_eq ph data h hb, inv16]
  have := (fold_spec (wsum ph + wsum data)).1
  rw [Nat.mod_eq_of_lt (by omega)]
  omega

theorem pseudo_put (ph data : List Nat) (off v : Nat) (h : PseudoOk ph data) :
    PseudoOk ph (put16 data off v) := ⟨h.len, h.bytes, by rw [put16_length]; exact h.field⟩

/-- **C24, TCP.** The filled segment verifies against the same pseudo header; only
the checksum field changes. -/
theorem tcp_checksum_verifies (ph tcp : List Nat) (h : PseudoOk ph tcp) (hb : Bytes tcp)
    (hl : 20 ≤ tcp.length) :
    transportVerify ph (tcpFill ph tcp) = true ∧
    ∀ i, i ≠ 16 → i ≠ 17 → (tcpFill ph tcp)[i]? = tcp[i]? := by
  have hz : Bytes (put16 tcp 16 0) := put16_bytes _ _ _ hb (by omega)
  simp only [tcpFill]
  rw [transport_eq ph _ (pseudo_put ph tcp 16 0 h) hz, put16_put16]
  refine ⟨?_, fun i h1 h2 => put16_agrees _ _ _ _ h1 h2⟩
  rw [transportVerify_iff _ _ (pseudo_put ph tcp 16 _ h)
    (put16_bytes _ _ _ hb (by simp only [inv16]; omega))]
  rw [wsum_put16 _ _ _ (by omega) (by omega), ← Nat.add_assoc, fill_ok]

/-- **C24, UDP.** Likewise, and the transmitted checksum is never zero. -/
theorem udp_checksum_verifies (ph udp : List Nat) (h : PseudoOk ph udp) (hb : Bytes udp)
    (hl : 8 ≤ udp.length) :
    transportVerify ph (udpFill ph udp) = true ∧
    ((udpFill ph udp)[6]?, (udpFill ph udp)[7]?) ≠ (some 0, some 0) ∧
    ∀ i, i ≠ 6 → i ≠ 7 → (udpFill ph udp)[i]? = udp[i]? := by
  have hz : Bytes (put16 udp 6 0) := put16_bytes _ _ _ hb (by omega)
  simp only [udpFill]
  rw [transport_eq ph _ (pseudo_put ph udp 6 0 h) hz, put16_put16]
  generalize hS : wsum ph + wsum (put16 udp 6 0) = S
  generalize hc : (if inv16 (fold S) ≠ 0 then inv16 (fold S) else 65535) = c
  have hc16 : c < 65536 := by rw [← hc]; split <;> (try simp only [inv16]) <;> omega
  have hc0 : c ≠ 0 := by rw [← hc]; split <;> omega
  refine ⟨?_, ?_, fun i h1 h2 => put16_agrees _ _ _ _ h1 h2⟩
  · rw [transportVerify_iff _ _ (pseudo_put ph udp 6 c h) (put16_bytes _ _ _ hb hc16)]
    rw [wsum_put16 _ _ _ (by omega) (by omega), ← Nat.add_assoc, hS, ← hc]
    split
    · exact fill_ok S
    · rename_i h0; exact fill_ok_udp S (by omega)
  · simp only [put16, ne_eq, Prod.mk.injEq]
    rw [List.getElem?_set_ne (by omega), List.getElem?_set_self (by omega),
      List.getElem?_set_self (by simp; omega)]
    simp only [Option.some.injEq]
    omega

/-- **C24, ICMP.** A filled ICMP message (at most 65535 bytes) has a checksum of
zero when recomputed over all its bytes, which is the receiver's test. -/
theorem icmp_checksum_verifies (icmp : List Nat) (hb : Bytes icmp) (hl : 8 ≤ icmp.length)
    (hu : icmp.length ≤ 65535) :
    icmpChecksum (icmpFill icmp icmp.length) icmp.length = 0 ∧
    ∀ i, i ≠ 2 → i ≠ 3 → (icmpFill icmp icmp.length)[i]? = icmp[i]? := by
  have b0 := wsum_bound (put16 icmp 2 0) (put16_bytes _ _ _ hb (by omega)) (by rw [put16_length]; omega)
  have e0 : icmpChecksum (put16 icmp 2 0) icmp.length = inv16 (fold (wsum (put16 icmp 2 0))) := by
    simp only [icmpChecksum]
    rw [List.take_of_length_le (by rw [put16_length]; omega), sum32_eq _ _ (by omega), Nat.zero_add]
  simp only [icmpFill]
  rw [e0, put16_put16]
  generalize hc : inv16 (fold (wsum (put16 icmp 2 0))) = c
  have hc16 : c < 65536 := by rw [← hc]; simp only [inv16]; omega
  refine ⟨?_, fun i h1 h2 => put16_agrees _ _ _ _ h1 h2⟩
  have b1 := wsum_bound (put16 icmp 2 c) (put16_bytes _ _ _ hb hc16) (by rw [put16_length]; omega)
  simp only [icmpChecksum]
  rw [List.take_of_length_le (by rw [put16_length]; omega), sum32_eq _ _ (by omega), Nat.zero_add,
    wsum_put16 _ _ _ (by omega) (by omega), ← hc, fill_ok]
  rfl

/-! ## C24: corruption is detected -/

theorem wsum_changed (p q : List Nat) (hp : Bytes p) (hq : Bytes q) (h : OneWordChanged p q) :
    ∃ S w w', wsum p = S + w ∧ wsum q = S + w' ∧ w < 65536 ∧ w' < 65536 ∧ w ≠ w' ∧
    ¬ (w = 0 ∧ w' = 65535) ∧ ¬ (w = 65535 ∧ w' = 0) := by
  obtain ⟨a, b, w, w', h1, h2, h3, h4, h5⟩ := h
  refine ⟨a.sum + b.sum, w, w', ?_, ?_, ?_, ?_, h3, h4, h5⟩
  · simp only [wsum, h1, List.sum_append, List.sum_cons]; omega
  · simp only [wsum, h2, List.sum_append, List.sum_cons]; omega
  · exact words_lt p hp w (by rw [h1]; simp)
  · exact words_lt q hq w' (by rw [h2]; simp)

theorem fold_changed (A S w w' : Nat) (h1 : w < 65536) (h2 : w' < 65536) (h3 : w ≠ w')
    (h4 : ¬ (w = 0 ∧ w' = 65535)) (h5 : ¬ (w = 65535 ∧ w' = 0))
    (h : fold (A + (S + w)) = 65535) : fold (A + (S + w')) ≠ 65535 := by
  rw [fold_ok_iff] at h
  rw [Ne, fold_ok_iff]
  omega

/-- **C24, single-word corruption of a TCP or UDP segment is detected.** -/
theorem transport_detects (ph p q : List Nat) (hp : PseudoOk ph p) (hq : PseudoOk ph q)
    (bp : Bytes p) (bq : Bytes q) (h : OneWordChanged p q) (hv : transportVerify ph p = true) :
    transportVerify ph q = false := by
  obtain ⟨S, w, w', h1, h2, h3, h4, h5, h6, h7⟩ := wsum_changed p q bp bq h
  rw [transportVerify_iff ph p hp bp, h1] at hv
  have := fold_changed _ S w w' h3 h4 h5 h6 h7 hv
  cases hq2 : transportVerify ph q
  · rfl
  · rw [transportVerify_iff ph q hq bq, h2] at hq2
    exact absurd hq2 this

/-- **C24, the same for the addresses and protocol in the pseudo header.** -/
theorem transport_detects_pseudo (ph ph' p : List Nat) (hp : PseudoOk ph p) (hq : PseudoOk ph' p)
    (bp : Bytes p) (h : OneWordChanged ph ph') (hv : transportVerify ph p = true) :
    transportVerify ph' p = false := by
  obtain ⟨S, w, w', h1, h2, h3, h4, h5, h6, h7⟩ := wsum_changed ph ph' hp.bytes hq.bytes h
  rw [transportVerify_iff ph p hp bp, h1, Nat.add_comm] at hv
  have := fold_changed _ S w w' h3 h4 h5 h6 h7 hv
  cases hq2 : transportVerify ph' p
  · rfl
  · rw [transportVerify_iff ph' p hq bp, h2, Nat.add_comm] at hq2
    exact absurd hq2 this

/-- **C24, single-word corruption of an IP header is detected**, the version/IHL
byte included: headers of the same declared length. -/
theorem ip_detects (p q : List Nat) (bp : Bytes p) (bq : Bytes q)
    (hlp : p.length = p.getD 0 0 % 16 * 4) (hlq : q.length = q.getD 0 0 % 16 * 4)
    (h : OneWordChanged p q) (hv : ipVerify p = true) : ipVerify q = false := by
  obtain ⟨S, w, w', h1, h2, h3, h4, h5, h6, h7⟩ := wsum_changed p q bp bq h
  have bpl := wsum_bound p bp (by omega)
  have bql := wsum_bound q bq (by omega)
  have key : ∀ x, Bytes x → x.length = x.getD 0 0 % 16 * 4 → ipVerify x = true →
      fold (wsum x) = 65535 := by
    intro x bx hx hvx
    simp only [ipVerify] at hvx
    split at hvx
    · cases hvx
    · split at hvx
      · cases hvx
      · have := wsum_bound x bx (by omega)
        rw [← hx, List.take_of_length_le (Nat.le_refl _), sum32_eq _ _ (by omega), Nat.zero_add,
          beq_iff_eq] at hvx
        have h1 := (fold_spec (wsum x)).1
        rw [Nat.mod_eq_of_lt (by omega)] at hvx
        exact hvx
  cases hq2 : ipVerify q
  · rfl
  · have k1 := key p bp hlp hv
    have k2 := key q bq hlq hq2
    rw [h1] at k1
    rw [h2] at k2
    have := fold_changed 0 S w w' h3 h4 h5 h6 h7 (by rw [Nat.zero_add]; exact k1)
    rw [Nat.zero_add] at this
    exact absurd k2 this

/-- **C24, single-word corruption of an ICMP message is detected.** -/
theorem icmp_detects (p q : List Nat) (bp : Bytes p) (bq : Bytes q) (hl : p.length = q.length)
    (hu : p.length ≤ 65535) (h : OneWordChanged p q) (hv : icmpChecksum p p.length = 0) :
    icmpChecksum q q.length ≠ 0 := by
  obtain ⟨S, w, w', h1, h2, h3, h4, h5, h6, h7⟩ := wsum_changed p q bp bq h
  have bpl := wsum_bound p bp hu
  have bql := wsum_bound q bq (by omega)
  simp only [icmpChecksum, List.take_of_length_le (Nat.le_refl _)] at hv ⊢
  rw [sum32_eq _ _ (by omega), Nat.zero_add] at hv ⊢
  simp only [inv16] at hv ⊢
  have f1 := (fold_spec (wsum p)).1
  have f2 := (fold_spec (wsum q)).1
  rw [Nat.mod_eq_of_lt (by omega)] at hv ⊢
  have k1 : fold (0 + (S + w)) = 65535 := by rw [Nat.zero_add, ← h1]; omega
  have := fold_changed 0 S w w' h3 h4 h5 h6 h7 k1
  rw [Nat.zero_add, ← h2] at this
  omega

/-- The exception is real: 0x0000 ↔ 0xFFFF in one word is invisible. -/
theorem zero_ones_undetected :
    icmpChecksum [0, 0, 0x12, 0x34, 0xED, 0xCB] 6 = 0 ∧
    icmpChecksum [0xFF, 0xFF, 0x12, 0x34, 0xED, 0xCB] 6 = 0 := by decide +kernel

/-- Concrete instances of the hypotheses. -/
def demoPh : List Nat := [10, 0, 0, 1, 10, 0, 0, 2, 0, 17, 0, 9]
def demoUdp : List Nat := [0, 53, 4, 0, 0, 9, 0, 0, 77]
example : PseudoOk demoPh demoUdp ∧ transportVerify demoPh (udpFill demoPh demoUdp) = true :=
  ⟨⟨rfl, by simp [Bytes, demoPh], by decide⟩, by decide +kernel⟩
example : OneWordChanged demoUdp [0, 54, 4, 0, 0, 9, 0, 0, 77] :=
  ⟨[], [1024, 9, 0, 77 * 256], 53, 54, by decide, by decide, by decide, by decide, by decide⟩

end Wolf.Csum
