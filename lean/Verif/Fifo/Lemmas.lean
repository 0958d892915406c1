import Verif.Fifo.Model
/-! Helper lemmas for the packet FIFO: memory, layout relation. -/
namespace Wolf.Fifo

theorem al_ge (x : Nat) : x ≤ al x := by unfold al; split <;> omega
theorem al_lt (x : Nat) : al x < x + 4 := by unfold al; split <;> omega
theorem al_mod (x : Nat) : al x % 4 = 0 := by unfold al; split <;> omega
theorem al_of_mod {x : Nat} (h : x % 4 = 0) : al x = x := by unfold al; split <;> omega
theorem al_al (x : Nat) : al (al x) = al x := al_of_mod (al_mod x)
theorem al_mono {x y : Nat} (h : x ≤ y) : al x ≤ al y := by unfold al; split <;> split <;> omega

theorem le32_length (v) : (le32 v).length = 4 := rfl
theorem descBytes_length (p l) : (descBytes p l).length = 16 := rfl

theorem wr_out {m p bs i} (h : i < p ∨ p + bs.length ≤ i) : wr m p bs i = m i := by
  unfold wr; rw [if_neg (by omega)]

theorem wr_in {m p} {bs : List UInt8} {i} (h : i < bs.length) : wr m p bs (p + i) = bs[i] := by
  unfold wr; rw [if_pos (by omega)]; simp [h]

theorem rd_congr {m m' : Nat → UInt8} {p n} (h : ∀ i, p ≤ i → i < p + n → m i = m' i) :
    rd m p n = rd m' p n := by
  unfold rd; apply List.map_congr_left; intro a ha
  have := List.mem_range.1 ha
  exact h _ (by omega) (by omega)

theorem rd_wr (m p) (bs : List UInt8) : rd (wr m p bs) p bs.length = bs := by
  unfold rd
  apply List.ext_getElem
  · simp
  · intro i h1 h2
    simp only [List.getElem_map, List.getElem_range]
    exact wr_in h2

theorem rd_length (m p n) : (rd m p n).length = n := by simp [rd]

theorem rd32_congr {m m' : Nat → UInt8} {p} (h : ∀ i, p ≤ i → i < p + 4 → m i = m' i) :
    rd32 m p = rd32 m' p := by
  unfold rd32
  rw [h p (by omega) (by omega), h (p+1) (by omega) (by omega), h (p+2) (by omega) (by omega),
    h (p+3) (by omega) (by omega)]

theorem payload_length (m p) : (payload m p).length = descLen m p := by simp [payload, rd]

/-- Packet `pk` is stored at offset `p`. -/
def At (m : Nat → UInt8) (p : Nat) (pk : List UInt8) : Prop :=
  descLen m p = pk.length ∧ payload m p = pk

theorem At_congr {m m' : Nat → UInt8} {p pk}
    (h : ∀ i, p + 4 ≤ i → i < p + 16 + pk.length → i < p + 8 ∨ p + 16 ≤ i → m i = m' i)
    (ha : At m p pk) : At m' p pk := by
  have h1 : descLen m' p = pk.length := by
    rw [← ha.1]; unfold descLen; symm; apply rd32_congr
    intro i hi hi2
    exact h i (by omega) (by omega) (by omega)
  refine ⟨h1, ?_⟩
  refine Eq.trans ?_ ha.2
  unfold payload
  rw [h1, ha.1]
  symm; apply rd_congr
  intro i hi hi2
  unfold descSize at *
  exact h i (by omega) (by omega) (by omega)

theorem At_write (m : Nat → UInt8) (p : Nat) (pk : List UInt8) (hl : pk.length < 2^32) :
    At (wr (wr m p (descBytes p pk.length)) (p + descSize) pk) p pk := by
  have h1 : descLen (wr (wr m p (descBytes p pk.length)) (p + descSize) pk) p = pk.length := by
    have e : ∀ i, p ≤ i → i < p + 16 →
        wr (wr m p (descBytes p pk.length)) (p + descSize) pk i = wr m p (descBytes p pk.length) i :=
      fun i _ hi => wr_out (by unfold descSize; omega)
    unfold descLen rd32
    rw [e (p+4) (by omega) (by omega), e (p+4+1) (by omega) (by omega),
      e (p+4+2) (by omega) (by omega), e (p+4+3) (by omega) (by omega)]
    have a0 : wr m p (descBytes p pk.length) (p+4) = UInt8.ofNat (pk.length % 256) :=
      wr_in (i := 4) (by simp [descBytes_length])
    have a1 : wr m p (descBytes p pk.length) (p+4+1) = UInt8.ofNat (pk.length / 256 % 256) :=
      wr_in (i := 5) (by simp [descBytes_length])
    have a2 : wr m p (descBytes p pk.length) (p+4+2) = UInt8.ofNat (pk.length / 65536 % 256) :=
      wr_in (i := 6) (by simp [descBytes_length])
    have a3 : wr m p (descBytes p pk.length) (p+4+3) = UInt8.ofNat (pk.length / 16777216 % 256) :=
      wr_in (i := 7) (by simp [descBytes_length])
    rw [a0, a1, a2, a3]
    simp only [UInt8.toNat_ofNat']
    omega
  refine ⟨h1, ?_⟩
  unfold payload
  rw [h1, rd_wr]

/-- Packets `ps` lie one after the other in memory: the first descriptor is at the first aligned
offset at or after `s`, and the last payload ends at `e`. -/
def Chain (m : Nat → UInt8) : Nat → List (List UInt8) → Nat → Prop
  | s, [], e => s = e
  | s, p :: ps, e => At m (al s) p ∧ Chain m (al s + 16 + p.length) ps e

theorem Chain.le {m} : ∀ {ps s e}, Chain m s ps e → s ≤ e
  | [], _, _, h => by simp [Chain] at h; omega
  | p :: ps, s, e, h => by
    have := Chain.le h.2; have := al_ge s; omega

theorem Chain.lt {m s p ps e} (h : Chain m s (p :: ps) e) : al s + 16 + p.length ≤ e := Chain.le h.2

theorem Chain.al_le {m s ps e} (h : Chain m s ps e) (hne : ps ≠ []) : al s + 16 ≤ e := by
  cases ps with
  | nil => exact absurd rfl hne
  | cons p ps => have := h.lt; omega

theorem Chain.realign {m s ps e} (h : Chain m s ps e) (hne : ps ≠ []) : Chain m (al s) ps e := by
  cases ps with
  | nil => exact absurd rfl hne
  | cons p ps => unfold Chain at *; rw [al_al]; exact h

theorem Chain.congr {m m' : Nat → UInt8} : ∀ {ps s e}, Chain m s ps e →
    (∀ i, s ≤ i → i < e → m i = m' i) → Chain m' s ps e
  | [], _, _, h, _ => h
  | p :: ps, s, e, h, hm => by
    have hl := h.lt
    have := al_ge s
    refine ⟨At_congr (fun i h1 h2 _ => hm i (by omega) (by omega)) h.1, ?_⟩
    exact Chain.congr h.2 (fun i h1 h2 => hm i (by omega) h2)

theorem Chain.snoc {m} : ∀ {ps s e p}, Chain m s ps e → At m (al e) p →
    Chain m s (ps ++ [p]) (al e + 16 + p.length)
  | [], s, e, p, h, ha => by
    simp [Chain] at h; subst h; exact ⟨ha, rfl⟩
  | q :: ps, s, e, p, h, ha => ⟨h.1, Chain.snoc h.2 ha⟩

end Wolf.Fifo
