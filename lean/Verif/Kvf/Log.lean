import Verif.Kvf.Model
/-! # The log in a bank: records as they lie in flash, and what a scan reads back -/
namespace Wolf.Kvf

/-- A record as it lies in flash, whole or torn. -/
structure Slot where
  ns : Nat
  kl : Nat
  bl : Nat
  commit : Qw
  pay : List Qw
  tq : Qw

namespace Slot
def enc (s : Slot) : List Qw := recHdr s.ns s.kl s.bl :: s.commit :: (s.pay ++ [s.tq])
def key (s : Slot) : List Nat := s.pay.flatten.take s.kl
def blob (s : Slot) : List Nat := (s.pay.flatten.drop s.kl).take s.bl
def committed (s : Slot) : Bool := s.commit.getD 0 0 == 197
def tomb (s : Slot) : Bool := s.tq.getD 0 0 == 0
def stride (s : Slot) : Nat := 3 + padq s.kl s.bl
def toRec (s : Slot) (i : Nat) : Rec := ⟨i, s.stride, s.ns, s.key, s.blob, s.committed, s.tomb⟩

/-- Lengths in range, and a committed record has its whole payload. -/
structure Ok (P : Par) (s : Slot) : Prop where
  k0 : 0 < s.kl
  k1 : s.kl ≤ 256
  b1 : s.bl ≤ P.maxBlob
  len : s.pay.length = padq s.kl s.bl
  whole : s.committed = true → s.kl + s.bl ≤ s.pay.flatten.length

theorem enc_length (P : Par) (s : Slot) (h : s.Ok P) : s.enc.length = s.stride := by
  simp only [enc, stride, List.length_cons, List.length_append, List.length_nil, h.len]; omega

end Slot

/-- All records, in order. -/
def encs (l : List Slot) : List Qw := (l.map Slot.enc).flatten

def size (l : List Slot) : Nat := (l.map Slot.stride).sum

theorem encs_length (P : Par) (l : List Slot) (h : ∀ s ∈ l, s.Ok P) : (encs l).length = size l := by
  induction l with
  | nil => rfl
  | cons s l ih =>
    have h1 := Slot.enc_length P s (h s (by simp))
    have h2 := ih (fun t ht => h t (by simp [ht]))
    simp only [encs, size, List.map_cons, List.flatten_cons, List.length_append, List.sum_cons] at h2 ⊢
    rw [h1, h2]

/-- What a scan from position `i` reports. -/
def recsOf : Nat → List Slot → List Rec
  | _, [] => []
  | i, s :: l => s.toRec i :: recsOf (i + s.stride) l

theorem getD_app_r {α : Type} (l m : List α) (n : Nat) (d : α) (h : l.length ≤ n) : (l ++ m).getD n d = m.getD (n - l.length) d := by
  rw [List.getD_eq_getElem?_getD, List.getD_eq_getElem?_getD, List.getElem?_append_right h]

theorem rd16_le (a b : List Nat) (v : Nat) (h : v < 65536) : rd16 (a ++ le16 v ++ b) a.length = v := by
  have e : ∀ j, (a ++ le16 v ++ b).getD (a.length + j) 0 = (le16 v ++ b).getD j 0 := by
    intro j; rw [List.append_assoc, getD_app_r _ _ _ _ (by omega)]; congr 1; omega
  have e0 := e 0
  have e1 := e 1
  rw [rd16]
  rw [Nat.add_zero] at e0
  rw [e0, e1]
  simp only [le16, List.cons_append, List.nil_append, List.getD_cons_zero, List.getD_cons_succ]
  omega

theorem rd32_le (a b : List Nat) (v : Nat) (h : v < 4294967296) : rd32 (a ++ le32 v ++ b) a.length = v := by
  have e : ∀ j, (a ++ le32 v ++ b).getD (a.length + j) 0 = (le32 v ++ b).getD j 0 := by
    intro j; rw [List.append_assoc, getD_app_r _ _ _ _ (by omega)]; congr 1; omega
  have e0 := e 0
  have e1 := e 1
  have e2 := e 2
  have e3 := e 3
  rw [rd32]
  rw [Nat.add_zero] at e0
  rw [e0, e1, e2, e3]
  simp only [le32, List.cons_append, List.nil_append, List.getD_cons_zero, List.getD_cons_succ]
  omega

theorem padq_le (P : Par) (k b : Nat) (hk : k ≤ 256) (hb : b ≤ P.maxBlob) : 4 + padq k b ≤ P.n := by
  have := P.fits
  rw [padq, Par.n]; omega

theorem recHdr_fields (P : Par) (ns k b : Nat) (hk : k ≤ 256) (hb : b ≤ P.maxBlob) :
    (recHdr ns k b).take 4 = [82, 69, 67, 49] ∧ (recHdr ns k b).getD 4 0 = ns ∧ rd16 (recHdr ns k b) 6 = k ∧ rd32 (recHdr ns k b) 8 = b ∧
    rd32 (recHdr ns k b) 12 = strideB k b := by
  have hp := padq_le P k b hk hb
  have hn : P.n ≤ 2097152 := by have := P.small; rw [Par.n]; omega
  have hbb : b ≤ 16 * padq k b := by rw [padq]; omega
  refine ⟨rfl, rfl, ?_, ?_, ?_⟩
  · have := rd16_le [82, 69, 67, 49, ns, 255] (le32 b ++ le32 (strideB k b)) k (by omega)
    rw [← List.append_assoc] at this; exact this
  · have := rd32_le ([82, 69, 67, 49, ns, 255] ++ le16 k) (le32 (strideB k b)) b (by omega)
    exact this
  · have := rd32_le ([82, 69, 67, 49, ns, 255] ++ le16 k ++ le32 b) [] (strideB k b) (by rw [strideB]; omega)
    rw [List.append_nil] at this; exact this

theorem recHdr_ne (ns k b : Nat) : recHdr ns k b ≠ ers := by
  intro c
  have : (recHdr ns k b).head? = ers.head? := by rw [c]
  simp [recHdr, ers] at this

theorem bankGen_hdr (gen : Nat) (h : gen < 4294967296) (l : Bank) : bankGen (bankHdr gen :: l) = some gen := by
  rw [bankGen]
  have e : (bankHdr gen :: l).getD 0 [] = bankHdr gen := rfl
  rw [e, if_pos (by rfl)]
  exact congrArg some (rd32_le [66, 78, 75, 49] (List.replicate 8 255) gen h)

theorem parse_slot (P : Par) (pre post : Bank) (s : Slot) (hs : s.Ok P) (hlen : (pre ++ s.enc ++ post).length = P.n) :
    parse P (pre ++ s.enc ++ post) pre.length = .ok (s.toRec pre.length) := by
  obtain ⟨f1, f2, f3, f4, f5⟩ := recHdr_fields P s.ns s.kl s.bl hs.k1 hs.b1
  have he := Slot.enc_length P s hs
  have hle : pre.length + s.stride ≤ P.n := by
    rw [← hlen, List.length_append, List.length_append, he]; omega
  have g : ∀ j : Nat, (pre ++ s.enc ++ post).getD (pre.length + j) [] = (s.enc ++ post).getD j [] := by
    intro j; rw [List.append_assoc, getD_app_r _ _ _ _ (by omega)]; congr 1; omega
  have g0 : (pre ++ s.enc ++ post).getD pre.length [] = recHdr s.ns s.kl s.bl := by
    have := g 0; rw [Nat.add_zero] at this; rw [this]; rfl
  have g1 : (pre ++ s.enc ++ post).getD (pre.length + 1) [] = s.commit := by rw [g 1]; rfl
  have g2 : (pre ++ s.enc ++ post).getD (pre.length + 2 + padq s.kl s.bl) [] = s.tq := by
    rw [Nat.add_assoc, g]
    have : s.enc ++ post = (recHdr s.ns s.kl s.bl :: s.commit :: s.pay) ++ (s.tq :: post) := by simp [Slot.enc]
    rw [this, getD_app_r _ _ _ _ (by simp only [List.length_cons, hs.len]; omega)]
    simp only [List.length_cons, hs.len]
    have : 2 + padq s.kl s.bl - (padq s.kl s.bl + 1 + 1) = 0 := by omega
    rw [this]; rfl
  have g3 : payload (pre ++ s.enc ++ post) pre.length (padq s.kl s.bl) = s.pay.flatten := by
    rw [payload]
    have : pre ++ s.enc ++ post = (pre ++ [recHdr s.ns s.kl s.bl, s.commit]) ++ (s.pay ++ (s.tq :: post)) := by simp [Slot.enc]
    rw [this, List.drop_left' (by simp), ← hs.len, List.take_left' rfl]
  rw [parse]
  rw [if_neg (by have : s.stride = 3 + padq s.kl s.bl := rfl
                 omega)]
  dsimp only
  rw [g0, if_neg (recHdr_ne _ _ _), if_neg (fun c => c f1), f3, f4, f5, f2, if_neg (by have := hs.k0; have := hs.k1; have := hs.b1; omega),
    if_neg (fun c => c rfl), if_neg (by have : s.stride = 3 + padq s.kl s.bl := rfl
                                        rw [strideB]; omega), g1, g2, g3]
  rfl

theorem parse_end (P : Par) (pre : Bank) (m : Nat) : parse P (pre ++ List.replicate m ers) pre.length = .empty ∨ m = 0 := by
  cases m with
  | zero => exact Or.inr rfl
  | succ m =>
    left
    rw [parse]
    split
    · rfl
    · dsimp only
      rw [getD_app_r _ _ _ _ (by omega), Nat.sub_self, List.replicate_succ]
      rw [if_pos (by rfl)]

/-- The scan of a bank that holds a log. -/
theorem walk_log (P : Par) (l : List Slot) : ∀ (pre : Bank) (m fuel : Nat), (∀ s ∈ l, s.Ok P) → (pre ++ encs l ++ List.replicate m ers).length = P.n →
    l.length < fuel → walk P fuel (pre ++ encs l ++ List.replicate m ers) pre.length = (recsOf pre.length l, .at (pre.length + size l)) := by
  induction l with
  | nil =>
    intro pre m fuel _ hlen hf
    have e : pre ++ encs [] ++ List.replicate m ers = pre ++ List.replicate m ers := by simp [encs]
    rw [e] at hlen ⊢
    match fuel, hf with
    | fuel + 1, _ =>
      rw [walk.eq_def]
      dsimp only
      by_cases hi : pre.length < P.n
      · rw [if_pos hi]
        rcases parse_end P pre m with h | h
        · rw [h]; rfl
        · rw [h] at hlen; simp at hlen; omega
      · rw [if_neg hi]; rfl
  | cons s l ih =>
    intro pre m fuel hok hlen hf
    match fuel, hf with
    | fuel + 1, hf =>
      have e : pre ++ encs (s :: l) ++ List.replicate m ers = pre ++ s.enc ++ (encs l ++ List.replicate m ers) := by
        simp [encs, List.append_assoc]
      have e' : pre ++ encs (s :: l) ++ List.replicate m ers = (pre ++ s.enc) ++ encs l ++ List.replicate m ers := by
        simp [encs, List.append_assoc]
      have hs := hok s (by simp)
      have he := Slot.enc_length P s hs
      have hpl : (pre ++ s.enc).length = pre.length + s.stride := by rw [List.length_append, he]
      rw [walk.eq_def]
      dsimp only
      have hi : pre.length < P.n := by
        rw [← hlen, e, List.length_append, List.length_append, he]
        have : s.stride = 3 + padq s.kl s.bl := rfl
        omega
      rw [if_pos hi, e, parse_slot P pre _ s hs (by rw [← e]; exact hlen)]
      dsimp only
      rw [← e, e']
      have := ih (pre ++ s.enc) m fuel (fun t ht => hok t (by simp [ht])) (by rw [← e']; exact hlen) (by simp at hf; omega)
      rw [hpl] at this
      have hst : (s.toRec pre.length).stride = s.stride := rfl
      rw [hst, this]
      refine Prod.ext rfl ?_
      dsimp only
      rw [size, size, List.map_cons, List.sum_cons, Nat.add_assoc]

theorem length_le_size (l : List Slot) : l.length ≤ size l := by
  induction l with
  | nil => exact Nat.le_refl _
  | cons s l ih =>
    rw [size, List.map_cons, List.sum_cons, List.length_cons]
    rw [size] at ih
    have : s.stride = 3 + padq s.kl s.bl := rfl
    omega

theorem recs_log (P : Par) (l : List Slot) (pre : Bank) (m : Nat) (hok : ∀ s ∈ l, s.Ok P) (hlen : (pre ++ encs l ++ List.replicate m ers).length = P.n) :
    walk P (P.n + 1) (pre ++ encs l ++ List.replicate m ers) pre.length = (recsOf pre.length l, .at (pre.length + size l)) := by
  apply walk_log P l pre m _ hok hlen
  have h1 := length_le_size l
  have h2 := encs_length P l hok
  rw [List.length_append, List.length_append] at hlen
  omega

/-- The value of a key in a log: that of the last committed record for it, unless deleted. -/
def mapOf : List Slot → Nat → List Nat → Option (List Nat)
  | [], _, _ => none
  | s :: l, ns, key =>
    if l.any (fun t => t.committed && (t.ns == ns && t.key == key)) then mapOf l ns key
    else if s.committed && (s.ns == ns && s.key == key) then (if s.tomb then none else some s.blob) else none

/-- The records that hold a value. -/
def liveS : List Slot → List Slot
  | [] => []
  | s :: l => if s.committed && !s.tomb && !l.any (fun t => t.committed && (t.ns == s.ns && t.key == s.key)) then s :: liveS l else liveS l

/-- A bank with generation `gen` (or any first quadword `h`) holding the log `l`. -/
def bankOf (h : Qw) (l : List Slot) (m : Nat) : Bank := h :: (encs l ++ List.replicate m ers)

theorem bankOf_recs (P : Par) (h : Qw) (l : List Slot) (m : Nat) (hok : ∀ s ∈ l, s.Ok P) (hlen : (bankOf h l m).length = P.n) :
    walk P (P.n + 1) (bankOf h l m) 1 = (recsOf 1 l, .at (1 + size l)) := by
  have e : bankOf h l m = [h] ++ encs l ++ List.replicate m ers := by simp [bankOf]
  rw [e] at hlen ⊢
  exact recs_log P l [h] m hok hlen

theorem any_recsOf (l : List Slot) (p : Rec → Bool) (q : Slot → Bool) (h : ∀ s i, p (s.toRec i) = q s) : ∀ i, (recsOf i l).any p = l.any q := by
  induction l with
  | nil => intro i; rfl
  | cons s l ih => intro i; rw [recsOf, List.any_cons, List.any_cons, h, ih]

theorem isLatest_log (P : Par) (h : Qw) (l1 : List Slot) (s : Slot) (l2 : List Slot) (m : Nat) (hok : ∀ t ∈ l1 ++ s :: l2, t.Ok P)
    (hlen : (bankOf h (l1 ++ s :: l2) m).length = P.n) :
    isLatest P (bankOf h (l1 ++ s :: l2) m) (s.toRec (1 + size l1)) = !l2.any (fun t => t.committed && (t.ns == s.ns && t.key == s.key)) := by
  have h1 : ∀ t ∈ l1, t.Ok P := fun t ht => hok t (by simp [ht])
  have hs := hok s (by simp)
  have h2 : ∀ t ∈ l2, t.Ok P := fun t ht => hok t (by simp [ht])
  have e : bankOf h (l1 ++ s :: l2) m = (h :: (encs l1 ++ s.enc)) ++ encs l2 ++ List.replicate m ers := by
    simp [bankOf, encs, List.append_assoc]
  have hp : (h :: (encs l1 ++ s.enc)).length = 1 + size l1 + s.stride := by
    rw [List.length_cons, List.length_append, encs_length P l1 h1, Slot.enc_length P s hs]; omega
  rw [isLatest, recs]
  have hpos : (s.toRec (1 + size l1)).pos + (s.toRec (1 + size l1)).stride = 1 + size l1 + s.stride := rfl
  rw [hpos, ← hp, e]
  rw [recs_log P l2 _ m h2 (by rw [← e]; exact hlen)]
  dsimp only
  rw [any_recsOf l2 _ (fun t => t.committed && (t.ns == s.ns && t.key == s.key)) (fun _ _ => rfl)]

/-- What compaction and iteration select. -/
theorem live_log (P : Par) (h : Qw) (m : Nat) (l2 : List Slot) : ∀ (l1 : List Slot), (∀ t ∈ l1 ++ l2, t.Ok P) → (bankOf h (l1 ++ l2) m).length = P.n →
    ∃ rs : List Rec, (recsOf (1 + size l1) l2).filter (fun r => r.committed && !r.tomb && isLatest P (bankOf h (l1 ++ l2) m) r) = rs ∧
      rs.map (fun r => (r.ns, r.key, r.blob, r.stride)) = (liveS l2).map (fun s => (s.ns, s.key, s.blob, s.stride)) := by
  induction l2 with
  | nil => intro l1 _ _; exact ⟨[], rfl, rfl⟩
  | cons s l2 ih =>
    intro l1 hok hlen
    have e : l1 ++ s :: l2 = (l1 ++ [s]) ++ l2 := by simp
    obtain ⟨rs, h1, h2⟩ := ih (l1 ++ [s]) (by rw [← e]; exact hok) (by rw [← e]; exact hlen)
    have hsz : 1 + size (l1 ++ [s]) = 1 + size l1 + s.stride := by
      rw [size, size, List.map_append, List.sum_append]; simp; omega
    rw [← e, hsz] at h1
    rw [recsOf, liveS]
    have hl := isLatest_log P h l1 s l2 m hok hlen
    rw [List.filter_cons, hl]
    have c1 : (s.toRec (1 + size l1)).committed = s.committed := rfl
    have c2 : (s.toRec (1 + size l1)).tomb = s.tomb := rfl
    rw [c1, c2]
    by_cases hc : (s.committed && !s.tomb && !l2.any (fun t => t.committed && (t.ns == s.ns && t.key == s.key))) = true
    · rw [if_pos hc, if_pos hc]
      refine ⟨_, rfl, ?_⟩
      rw [h1, List.map_cons, List.map_cons, h2]; rfl
    · rw [if_neg hc, if_neg hc]
      exact ⟨rs, h1, h2⟩

theorem getLast_filter_recsOf (l : List Slot) (ns : Nat) (key : List Nat) : ∀ i : Nat,
    (∀ r, ((recsOf i l).filter (fun r => r.committed && keyEq r ns key)).getLast? = some r →
      ∃ l1 s l2, l = l1 ++ s :: l2 ∧ r = s.toRec (i + size l1) ∧ s.committed = true ∧ s.ns = ns ∧ s.key = key ∧
        l2.any (fun t => t.committed && (t.ns == ns && t.key == key)) = false) ∧
    (((recsOf i l).filter (fun r => r.committed && keyEq r ns key)).getLast? = none → l.any (fun t => t.committed && (t.ns == ns && t.key == key)) = false) := by
  induction l with
  | nil =>
    intro i
    refine ⟨?_, fun _ => rfl⟩
    intro r h; simp [recsOf] at h
  | cons s l ih =>
    intro i
    obtain ⟨a, b⟩ := ih (i + s.stride)
    have hm : ((s.toRec i).committed && keyEq (s.toRec i) ns key) = (s.committed && (s.ns == ns && s.key == key)) := rfl
    rw [recsOf, List.filter_cons, hm]
    by_cases hc : (s.committed && (s.ns == ns && s.key == key)) = true
    · rw [if_pos hc]
      constructor
      · intro r hr
        cases hl : ((recsOf (i + s.stride) l).filter (fun r => r.committed && keyEq r ns key)).getLast? with
        | none =>
          have hnil : (recsOf (i + s.stride) l).filter (fun r => r.committed && keyEq r ns key) = [] := List.getLast?_eq_none_iff.mp hl
          rw [hnil] at hr
          simp only [List.getLast?_singleton, Option.some.injEq] at hr
          simp only [Bool.and_eq_true, beq_iff_eq] at hc
          exact ⟨[], s, l, rfl, by rw [← hr]; rfl, hc.1, hc.2.1, hc.2.2, b hl⟩
        | some r' =>
          have : r' = r := by
            rw [List.getLast?_cons, hl] at hr
            exact Option.some.inj hr
          subst this
          obtain ⟨l1, t, l2, h1, h2, h3⟩ := a r' hl
          refine ⟨s :: l1, t, l2, by rw [h1]; rfl, ?_, h3⟩
          rw [h2]
          congr 1
          rw [size, size, List.map_cons, List.sum_cons]; omega
      · intro h; rw [List.getLast?_cons] at h; cases h
    · rw [if_neg hc]
      constructor
      · intro r hr
        obtain ⟨l1, t, l2, h1, h2, h3⟩ := a r hr
        refine ⟨s :: l1, t, l2, by rw [h1]; rfl, ?_, h3⟩
        rw [h2]
        congr 1
        rw [size, size, List.map_cons, List.sum_cons]; omega
      · intro h
        rw [List.any_cons, b h, Bool.or_false]
        exact Bool.eq_false_iff.mpr hc

theorem mapOf_none (l : List Slot) (ns : Nat) (key : List Nat) (h : l.any (fun t => t.committed && (t.ns == ns && t.key == key)) = false) : mapOf l ns key = none := by
  cases l with
  | nil => rfl
  | cons s l =>
    rw [List.any_cons, Bool.or_eq_false_iff] at h
    rw [mapOf, if_neg (by rw [h.2]; simp), if_neg (by rw [h.1]; simp)]

theorem mapOf_split (l1 : List Slot) (s : Slot) (l2 : List Slot) (ns : Nat) (key : List Nat) (hs : (s.committed && (s.ns == ns && s.key == key)) = true)
    (h : l2.any (fun t => t.committed && (t.ns == ns && t.key == key)) = false) : mapOf (l1 ++ s :: l2) ns key = if s.tomb then none else some s.blob := by
  induction l1 with
  | nil => rw [List.nil_append, mapOf, if_neg (by rw [h]; simp), if_pos hs]
  | cons t l1 ih =>
    rw [List.cons_append, mapOf, if_pos, ih]
    rw [List.any_append, List.any_cons, hs]; simp

theorem lookup_log (P : Par) (h : Qw) (l : List Slot) (m : Nat) (hok : ∀ s ∈ l, s.Ok P) (hlen : (bankOf h l m).length = P.n) (ns : Nat) (key : List Nat) :
    (lookup P (bankOf h l m) ns key = none ∧ mapOf l ns key = none) ∨
    (∃ l1 s l2, l = l1 ++ s :: l2 ∧ lookup P (bankOf h l m) ns key = some (s.toRec (1 + size l1)) ∧ s.committed = true ∧ s.ns = ns ∧ s.key = key ∧
      l2.any (fun t => t.committed && (t.ns == ns && t.key == key)) = false ∧ mapOf l ns key = if s.tomb then none else some s.blob) := by
  rw [lookup, recs, bankOf_recs P h l m hok hlen]
  dsimp only
  obtain ⟨a, b⟩ := getLast_filter_recsOf l ns key 1
  cases hl : ((recsOf 1 l).filter (fun r => r.committed && keyEq r ns key)).getLast? with
  | none => exact Or.inl ⟨rfl, mapOf_none l ns key (b hl)⟩
  | some r =>
    obtain ⟨l1, s, l2, h1, h2, h3, h4, h5, h6⟩ := a r hl
    refine Or.inr ⟨l1, s, l2, h1, by rw [h2], h3, h4, h5, h6, ?_⟩
    rw [h1]
    exact mapOf_split l1 s l2 ns key (by simp [h3, h4, h5]) h6

end Wolf.Kvf
