import Verif.Kvf.Props
/-! # C92: every call keeps the log intact -/
namespace Wolf.Kvf

/-- Bank `x` holds the log `l` and will be taken at the next boot. -/
structure Live (P : Par) (f : Fl) (x : Bool) (gen : Nat) (l : List Slot) : Prop where
  oks : ∀ s ∈ l, s.Ok P
  bank : ∃ m, f.get x = bankOf (bankHdr gen) l m
  len : (f.get x).length = P.n
  len' : (f.get (!x)).length = P.n
  other : ∀ g, bankGen (f.get (!x)) = some g → g < gen

/-- The context matches; after a program error the append position may still point at the torn last record. -/
structure CtxOk (c : Ctx) (x : Bool) (gen : Nat) (l : List Slot) : Prop where
  act : c.act = x
  gen : c.gen = gen
  app : c.app = 1 + size l ∨ (l ≠ [] ∧ c.app = 1 + (l.map Slot.stride).dropLast.sum)

structure Blank (P : Par) (f : Fl) : Prop where
  len : ∀ x, (f.get x).length = P.n
  gens : ∀ x, bankGen (f.get x) = none

theorem size_append (a b : List Slot) : size (a ++ b) = size a + size b := by
  rw [size, size, size, List.map_append, List.sum_append]

theorem encs_append (a b : List Slot) : encs (a ++ b) = encs a ++ encs b := by
  rw [encs, encs, encs, List.map_append, List.flatten_append]

theorem bankOf_length (P : Par) (h : Qw) (l : List Slot) (m : Nat) (hok : ∀ s ∈ l, s.Ok P) : (bankOf h l m).length = 1 + size l + m := by
  rw [bankOf, List.length_cons, List.length_append, encs_length P l hok, List.length_replicate]; omega

theorem n_pos (P : Par) : 4 ≤ P.n := by
  have := P.fits; rw [Par.n]; omega

theorem bankGen_ers (k : Bank) (h : k.getD 0 [] = ers) : bankGen k = none := by
  rw [bankGen, h]; rfl

theorem pick_live (P : Par) (f : Fl) (x : Bool) (gen : Nat) (l : List Slot) (h : Live P f x gen l) (hg : gen < 4294967296) :
    pick (bankGen f.a) (bankGen f.b) = some (x, gen) := by
  obtain ⟨m, hb⟩ := h.bank
  have h1 : bankGen (f.get x) = some gen := by rw [hb]; exact bankGen_hdr gen hg _
  have h2 := h.other
  cases x with
  | false =>
    rw [show f.a = f.get false from rfl, h1]
    rw [show f.b = f.get (!false) from rfl]
    cases hc : bankGen (f.get (!false)) with
    | none => rfl
    | some g => have := h2 g hc; rw [pick, if_pos (by omega)]
  | true =>
    rw [show f.b = f.get true from rfl, h1]
    rw [show f.a = f.get (!true) from rfl]
    cases hc : bankGen (f.get (!true)) with
    | none => rfl
    | some g => have := h2 g hc; rw [pick, if_neg (by omega)]

/-- The copy loop. -/
theorem copy_spec (P : Par) (x : Bool) (rs : List Rec) : ∀ (f : Fl) (done : List Slot) (m : Nat) (o : List Out), Good o → f.get x = bankOf ers done m →
    (f.get x).length = P.n → (∀ s ∈ done, s.Ok P) →
    (∀ r ∈ rs, r.stride = 3 + padq r.key.length r.blob.length ∧ (fresh r.ns r.key r.blob).Ok P ∧ r.key.length ≠ 0 ∧ r.key.length ≤ 256 ∧ r.blob.length ≤ P.maxBlob) →
    (copy P f x rs (1 + size done) o).1.get (!x) = f.get (!x) ∧ Good (copy P f x rs (1 + size done) o).2.2.1 ∧
    ((copy P f x rs (1 + size done) o).1.get x).length = P.n ∧ ((copy P f x rs (1 + size done) o).1.get x).getD 0 [] = ers ∧
    ((copy P f x rs (1 + size done) o).2.1 = .ok → ∃ m', (copy P f x rs (1 + size done) o).1.get x =
      bankOf ers (done ++ rs.map (fun r => fresh r.ns r.key r.blob)) m' ∧
      (copy P f x rs (1 + size done) o).2.2.2 = 1 + size (done ++ rs.map (fun r => fresh r.ns r.key r.blob))) := by
  induction rs with
  | nil =>
    intro f done m o ho hf hlen hok _
    rw [copy]
    refine ⟨rfl, ho, hlen, by rw [hf]; rfl, fun _ => ⟨m, ?_, ?_⟩⟩
    · rw [List.map_nil, List.append_nil]; exact hf
    · rw [List.map_nil, List.append_nil]
  | cons r rs ih =>
    intro f done m o ho hf hlen hok hrs
    obtain ⟨s1, s2, k0, k1, b1⟩ := hrs r (by simp)
    rw [copy]
    by_cases hc : 1 + size done + r.stride > P.n
    · rw [if_pos hc]
      exact ⟨rfl, ho, hlen, by rw [hf]; rfl, (by intro c; cases c)⟩
    · rw [if_neg hc]
      dsimp only
      have hl : 1 + size done + m = P.n := by rw [← hlen, hf, bankOf_length P _ _ _ hok]
      have hpl : (ers :: encs done).length = 1 + size done := by rw [List.length_cons, encs_length P done hok]; omega
      obtain ⟨a1, a2, t, m', a3, a4, a5⟩ := append_trace P f x (ers :: encs done) r.ns r.key r.blob m o ho
        (by rw [hf]; rfl) (by omega)
      rw [hpl] at a1 a2 a3 a5
      have htok := trace_ok P _ _ _ _ _ a3 k0 k1 b1
      have a5' : (append f x (1 + size done) r.ns r.key r.blob o).1.get x = bankOf ers (done ++ t) m' := by
        rw [a5, bankOf, encs_append]; simp
      have hokt : ∀ s ∈ done ++ t, s.Ok P := by
        intro s hs; rcases List.mem_append.mp hs with h | h
        · exact hok s h
        · exact htok s h
      have hlen' : ((append f x (1 + size done) r.ns r.key r.blob o).1.get x).length = P.n := by
        rw [a5', bankOf_length P _ _ _ hokt, size_append]; omega
      by_cases hk : (append f x (1 + size done) r.ns r.key r.blob o).2.1 = .ok
      · rw [if_pos hk]
        rw [hk] at a3
        have ht : t = [fresh r.ns r.key r.blob] := by
          cases a3 with
          | done => rfl
          | none _ h => rcases h with h | h <;> cases h
          | torn _ h w hw => rcases h with h | h <;> cases h
        subst ht
        have hsz : 1 + size (done ++ [fresh r.ns r.key r.blob]) = 1 + size done + r.stride := by
          rw [size_append, s1]; simp only [size, List.map_cons, List.map_nil, List.sum_cons, List.sum_nil, Slot.stride, fresh]; omega
        have := ih (append f x (1 + size done) r.ns r.key r.blob o).1 (done ++ [fresh r.ns r.key r.blob]) m' _ a2 a5' hlen' hokt
          (fun r' h' => hrs r' (by simp [h']))
        rw [hsz] at this
        obtain ⟨c1, c2, c3, c4, c5⟩ := this
        refine ⟨by rw [c1, a1], c2, c3, c4, fun h => ?_⟩
        obtain ⟨m2, d1, d2⟩ := c5 h
        rw [List.append_assoc] at d1 d2
        exact ⟨m2, d1, d2⟩
      · rw [if_neg hk]
        exact ⟨a1, a2, hlen', by rw [a5']; rfl, fun h => absurd h hk⟩

/-- The records compaction copies. -/
theorem live_recs (P : Par) (f : Fl) (x : Bool) (gen : Nat) (l : List Slot) (h : Live P f x gen l) :
    (live P (f.get x)).map (fun r => fresh r.ns r.key r.blob) = (liveS l).map redo ∧
    ∀ r ∈ live P (f.get x), r.stride = 3 + padq r.key.length r.blob.length ∧ (fresh r.ns r.key r.blob).Ok P ∧ r.key.length ≠ 0 ∧ r.key.length ≤ 256 ∧
      r.blob.length ≤ P.maxBlob := by
  obtain ⟨m, hb⟩ := h.bank
  have hlen := h.len
  rw [hb] at hlen ⊢
  obtain ⟨rs, h1, h2⟩ := live_log P (bankHdr gen) m l [] (by rw [List.nil_append]; exact h.oks) (by rw [List.nil_append]; exact hlen)
  rw [List.nil_append] at h1
  rw [live, recs, bankOf_recs P _ l m h.oks hlen]
  dsimp only
  rw [show 1 + size ([] : List Slot) = 1 from rfl] at h1
  rw [h1]
  constructor
  · have e1 : rs.map (fun r => fresh r.ns r.key r.blob) = (rs.map (fun r => (r.ns, r.key, r.blob, r.stride))).map (fun p => fresh p.1 p.2.1 p.2.2.1) := by
      rw [List.map_map]; rfl
    rw [e1, h2, List.map_map]; rfl
  · intro r hr
    have : (r.ns, r.key, r.blob, r.stride) ∈ rs.map (fun r => (r.ns, r.key, r.blob, r.stride)) := List.mem_map.mpr ⟨r, hr, rfl⟩
    rw [h2] at this
    obtain ⟨s, hs, e⟩ := List.mem_map.mp this
    injection e with _ e; injection e with e1 e; injection e with e2 e3
    obtain ⟨hm, hc, _⟩ := liveS_mem l s hs
    have hok := h.oks s hm
    have hw := hok.whole hc
    have hk : r.key.length = s.kl := by rw [← e1, Slot.key, List.length_take]; omega
    have hbl : r.blob.length = s.bl := by rw [← e2, Slot.blob, List.length_take, List.length_drop]; omega
    have k0 : r.key.length ≠ 0 := by have := hok.k0; omega
    have k1 : r.key.length ≤ 256 := by have := hok.k1; omega
    have b1 : r.blob.length ≤ P.maxBlob := by have := hok.b1; omega
    exact ⟨by rw [← e3, hk, hbl]; rfl, fresh_ok P _ _ _ k0 k1 b1, k0, k1, b1⟩

theorem liveS_ok (P : Par) (l : List Slot) (h : ∀ s ∈ l, s.Ok P) : ∀ s ∈ (liveS l).map redo, s.Ok P := by
  intro s hs
  obtain ⟨t, ht, rfl⟩ := List.mem_map.mp hs
  obtain ⟨hm, hc, _⟩ := liveS_mem l t ht
  have hok := h t hm
  have hw := hok.whole hc
  have hk : t.key.length = t.kl := by rw [Slot.key, List.length_take]; omega
  have hbl : t.blob.length = t.bl := by rw [Slot.blob, List.length_take, List.length_drop]; omega
  exact fresh_ok P _ _ _ (by have := hok.k0; omega) (by have := hok.k1; omega) (by have := hok.b1; omega)

/-- Compaction: until the new header is programmed nothing has changed; from then on the new bank holds the live
records. -/
theorem compact_spec (P : Par) (f : Fl) (c : Ctx) (x : Bool) (gen : Nat) (l : List Slot) (o : List Out) (h : Live P f x gen l) (ha : c.act = x) (hcg : c.gen = gen)
    (hg : gen + 1 < 4294967296) (ho : Good o) :
    Good (compact P f c o).2.2.2 ∧
    (((compact P f c o).2.2.1 ≠ .ok ∧ (compact P f c o).2.1 = c ∧ Live P (compact P f c o).1 x gen l) ∨
     (((compact P f c o).2.2.1 = .ok ∨ (compact P f c o).2.2.1 = .crash) ∧
      ((compact P f c o).2.2.1 = .ok → (compact P f c o).2.1 = ⟨!x, 1 + size ((liveS l).map redo), gen + 1⟩) ∧
      Live P (compact P f c o).1 (!x) (gen + 1) ((liveS l).map redo))) := by
  subst ha
  subst hcg
  have hmod : (c.gen + 1) % 4294967296 = c.gen + 1 := Nat.mod_eq_of_lt hg
  unfold compact
  obtain ⟨a1, a2, a3, a4, a5, a6⟩ := eraseBank_cases P f (!c.act) o ho
  rw [Bool.not_not] at a1
  dsimp only
  generalize eraseBank P f (!c.act) o = e at a1 a2 a3 a4 a5 a6 ⊢
  by_cases he : e.2.1 ≠ .ok
  · rw [if_pos he]
    exact ⟨a2, Or.inl ⟨he, rfl, h.oks, by rw [a1]; exact h.bank, by rw [a1]; exact h.len, by rw [a4]; exact h.len', fun g hg' => h.other g (a5 g hg')⟩⟩
  · rw [if_neg he]
    have he' : e.2.1 = .ok := by simpa using he
    have hers := a6 he' h.len'
    have hers' : e.1.get (!c.act) = bankOf ers [] (P.n - 1) := by
      rw [hers]
      have : P.n = P.n - 1 + 1 := by have := n_pos P; omega
      rw [this, List.replicate_succ]; rfl
    have hL : Live P e.1 c.act c.gen l := ⟨h.oks, by rw [a1]; exact h.bank, by rw [a1]; exact h.len, by rw [a4]; exact h.len', fun g hg' => h.other g (a5 g hg')⟩
    obtain ⟨l1, l2⟩ := live_recs P e.1 c.act c.gen l hL
    have hsp := copy_spec P (!c.act) (live P (e.1.get c.act)) e.1 [] (P.n - 1) e.2.2 a2 hers' (by rw [a4]; exact h.len') (by simp) l2
    rw [show 1 + size ([] : List Slot) = 1 from rfl, List.nil_append, l1] at hsp
    rw [Bool.not_not] at hsp
    generalize copy P e.1 (!c.act) (live P (e.1.get c.act)) 1 e.2.2 = y at hsp ⊢
    obtain ⟨b1, b2, b3, b4, b5⟩ := hsp
    have hLy : Live P y.1 c.act c.gen l := ⟨h.oks, by rw [b1]; exact hL.bank, by rw [b1]; exact hL.len, b3, fun g hg' => by
      rw [bankGen_ers _ b4] at hg'; cases hg'⟩
    by_cases hy : y.2.1 ≠ .ok
    · rw [if_pos hy]
      exact ⟨b2, Or.inl ⟨hy, rfl, hLy⟩⟩
    · rw [if_neg hy]
      have hy' : y.2.1 = .ok := by simpa using hy
      obtain ⟨m', d1, d2⟩ := b5 hy'
      rw [hmod]
      obtain ⟨p1, p2, p3⟩ := prog_cases y.1 (!c.act) 0 (bankHdr (c.gen + 1)) y.2.2.1 b2
      rw [Bool.not_not] at p1
      generalize prog y.1 (!c.act) 0 (bankHdr (c.gen + 1)) y.2.2.1 = pr at p1 p2 p3 ⊢
      have hoks' := liveS_ok P l h.oks
      have hset : ∀ q, (y.1.get (!c.act)).set 0 q = bankOf q ((liveS l).map redo) m' := by intro q; rw [d1]; rfl
      have same : pr.1.get (!c.act) = y.1.get (!c.act) → Live P pr.1 c.act c.gen l := by
        intro hq
        have : pr.1 = y.1 := fl_ext _ _ c.act p1 hq
        rw [this]; exact hLy
      have hbg : ∀ g, bankGen (y.1.get c.act) = some g → g < c.gen + 1 := by
        intro g hg'
        obtain ⟨m0, e0⟩ := hLy.bank
        rw [e0, bankOf, bankGen_hdr _ (by omega)] at hg'
        have := Option.some.inj hg'; omega
      have new : pr.1.get (!c.act) = bankOf (bankHdr (c.gen + 1)) ((liveS l).map redo) m' → Live P pr.1 (!c.act) (c.gen + 1) ((liveS l).map redo) := by
        intro hq
        refine ⟨hoks', ⟨m', hq⟩, ?_, by rw [Bool.not_not, p1]; exact hLy.len, by rw [Bool.not_not, p1]; exact hbg⟩
        rw [hq]
        have := b3
        rw [d1] at this
        rw [bankOf_length P _ _ _ hoks'] at this ⊢; exact this
      rcases p3 with ⟨q1, q2, q3⟩ | ⟨q1, q2⟩ | ⟨q1, q2⟩ | ⟨q1, q2, g, q3, q4⟩
      · rw [if_neg (by rw [q1]; simp)]
        rw [hset] at q3
        have hN := new q3
        obtain ⟨z1, z2, z3, z4, z5, _⟩ := eraseBank_cases P pr.1 c.act pr.2.2 p2
        generalize eraseBank P pr.1 c.act pr.2.2 = z at z1 z2 z3 z4 z5 ⊢
        refine ⟨z2, Or.inr ⟨?_, ?_, ?_⟩⟩
        · by_cases hz : z.2.1 = .crash
          · rw [if_pos hz]; exact Or.inr rfl
          · rw [if_neg hz]; exact Or.inl rfl
        · intro _; rw [d2]
        · refine ⟨hoks', by rw [z1]; exact hN.bank, by rw [z1]; exact hN.len, by rw [Bool.not_not, z4, p1]; exact hLy.len, ?_⟩
          intro g hg'
          rw [Bool.not_not] at hg'
          have := z5 g hg'
          rw [p1] at this
          exact hbg g this
      · rw [if_pos (by rw [q1]; intro c; cases c)]
        exact ⟨p2, Or.inl ⟨(by rw [q1]; intro c; cases c), rfl, same q2⟩⟩
      · rw [if_pos (by rw [q1]; intro c; cases c)]
        exact ⟨p2, Or.inl ⟨(by rw [q1]; intro c; cases c), rfl, same q2⟩⟩
      · rw [if_pos (by rw [q1]; intro c; cases c)]
        refine ⟨p2, ?_⟩
        rcases q3 (bankHdr (c.gen + 1)) (Or.inr rfl) with hq | hq
        · rw [hq, hset] at q4
          exact Or.inr ⟨Or.inr q1, (by rw [q1]; intro c; cases c), new q4⟩
        · rw [hq, hset, ← d1] at q4
          exact Or.inl ⟨(by rw [q1]; intro c; cases c), rfl, same q4⟩

/-- What is true between calls. -/
def Inv (P : Par) (s : St) (M : KV) (G : Nat) : Prop :=
  (Blank P s.fl ∧ s.ctx = none ∧ M = fun _ _ => none) ∨
  ∃ x gen l, Live P s.fl x gen l ∧ gen ≤ G ∧ mapOf l = M ∧ ∀ c, s.ctx = some c → CtxOk c x gen l

def St.rdy (s : St) : Bool := s.ctx.isSome

theorem stuck_at (P : Par) (f : Fl) (x : Bool) (gen : Nat) (l : List Slot) (h : Live P f x gen l) (hne : l ≠ []) :
    (f.get x)[1 + (l.map Slot.stride).dropLast.sum]? ≠ some ers := by
  obtain ⟨m, hb⟩ := h.bank
  rcases List.eq_nil_or_concat l with h0 | ⟨l0, s, e⟩
  · exact absurd h0 hne
  · rw [List.concat_eq_append] at e
    subst e
    have hok0 : ∀ t ∈ l0, t.Ok P := fun t ht => h.oks t (by simp [ht])
    rw [List.map_append, List.map_cons, List.map_nil, List.dropLast_concat]
    have e1 : f.get x = (bankHdr gen :: encs l0) ++ recHdr s.ns s.kl s.bl :: (s.commit :: (s.pay ++ [s.tq]) ++ List.replicate m ers) := by
      rw [hb, bankOf, encs_append]; simp [encs, Slot.enc]
    have hl : (bankHdr gen :: encs l0).length = 1 + (l0.map Slot.stride).sum := by
      rw [List.length_cons, encs_length P l0 hok0, size]; omega
    rw [e1, List.getElem?_append_right (by omega), hl, Nat.sub_self]
    intro c
    exact recHdr_ne _ _ _ (Option.some.inj c)

/-- The end of a put. -/
theorem putAt_spec (P : Par) (f : Fl) (c : Ctx) (x : Bool) (gen : Nat) (l : List Slot) (G : Nat) (ns : Nat) (key blob : List Nat) (o : List Out)
    (h : Live P f x gen l) (hc : CtxOk c x gen l) (hG : gen ≤ G) (h0 : key.length ≠ 0) (h1 : key.length ≤ 256) (h2 : blob.length ≤ P.maxBlob)
    (hfit : 16 * c.app + strideB key.length blob.length ≤ 16 * P.n) (ho : Good o) :
    ∃ M', Inv P (putAt f c ns key blob o).1 M' G ∧
      (((putAt f c ns key blob o).2 = .ok ∧ (putAt f c ns key blob o).1.rdy = true ∧ M' = upd (mapOf l) ns key (some blob)) ∨
       ((putAt f c ns key blob o).2 = .err ∧ (putAt f c ns key blob o).1.rdy = true ∧ M' = mapOf l) ∨
       ((putAt f c ns key blob o).2 = .crash ∧ (putAt f c ns key blob o).1.rdy = false ∧ (M' = mapOf l ∨ M' = upd (mapOf l) ns key (some blob)))) := by
  unfold putAt
  rw [hc.act]
  dsimp only
  rcases hc.app with ha | ⟨hne, ha⟩
  · obtain ⟨m, hb⟩ := h.bank
    have hl : 1 + size l + m = P.n := by rw [← h.len, hb, bankOf_length P _ _ _ h.oks]
    have hpl : (bankHdr gen :: encs l).length = 1 + size l := by rw [List.length_cons, encs_length P l h.oks]; omega
    obtain ⟨a1, a2, t, m', a3, a4, a5⟩ := append_trace P f x (bankHdr gen :: encs l) ns key blob m o ho (by rw [hb]; rfl)
      (by rw [strideB] at hfit; omega)
    rw [hpl] at a1 a2 a3 a5
    rw [ha]
    generalize append f x (1 + size l) ns key blob o = q at a1 a2 a3 a5 ⊢
    have htok := trace_ok P _ _ _ _ _ a3 h0 h1 h2
    obtain ⟨t1, t2, t3, t4⟩ := mapOf_trace l ns key blob _ t a3
    have hokt : ∀ s ∈ l ++ t, s.Ok P := by
      intro s hs; rcases List.mem_append.mp hs with h' | h'
      · exact h.oks s h'
      · exact htok s h'
    have hL : Live P q.1 x gen (l ++ t) := by
      have hbank : q.1.get x = bankOf (bankHdr gen) (l ++ t) m' := by rw [a5, bankOf, encs_append]; simp
      refine ⟨hokt, ⟨m', hbank⟩, ?_, by rw [a1]; exact h.len', by rw [a1]; exact h.other⟩
      rw [hbank, bankOf_length P _ _ _ hokt, size_append]; omega
    refine ⟨mapOf (l ++ t), Or.inr ⟨x, gen, l ++ t, hL, hG, rfl, ?_⟩, ?_⟩
    · intro c' hc'
      dsimp only at hc'
      rw [keepCtx] at hc'
      by_cases hk : q.2.1 = .ok
      · rw [hk] at a3
        rw [hk, if_neg (by intro c; cases c), if_pos (by rfl)] at hc'
        have := Option.some.inj hc'
        subst this
        cases a3 with
        | done =>
          refine ⟨rfl, hc.gen, Or.inl ?_⟩
          dsimp only
          rw [size_append]
          simp only [size, List.map_cons, List.map_nil, List.sum_cons, List.sum_nil, Slot.stride, fresh]; omega
        | none _ h => rcases h with h | h <;> cases h
        | torn _ h w hw => rcases h with h | h <;> cases h
      · rw [if_neg hk] at hc'
        by_cases hcr : q.2.1 = .crash
        · rw [if_pos hcr] at hc'; cases hc'
        · rw [if_neg hcr] at hc'
          have := Option.some.inj hc'
          subst this
          have one : ∀ s : Slot, c.app = 1 + (((l ++ [s]).map Slot.stride).dropLast).sum := by
            intro s; rw [List.map_append, List.map_cons, List.map_nil, List.dropLast_concat]; exact ha
          generalize q.2.1 = r at a3 hk hcr
          cases a3 with
          | done => exact absurd rfl hk
          | none _ h => rw [List.append_nil]; exact ⟨hc.act, hc.gen, Or.inl ha⟩
          | torn _ h w hw => exact ⟨hc.act, hc.gen, Or.inr ⟨by simp, one _⟩⟩
          | cut c0 => exact absurd rfl hcr
    · cases hr : q.2.1 with
      | ok => exact Or.inl ⟨rfl, rfl, t1 hr⟩
      | err => exact Or.inr (Or.inl ⟨rfl, rfl, t2 hr⟩)
      | crash => exact Or.inr (Or.inr ⟨rfl, rfl, t3 hr⟩)
      | full => exact absurd hr t4
  · have hst := stuck_at P f x gen l h hne
    rw [← ha] at hst
    obtain ⟨a1, a2, a3⟩ := append_stuck f x c.app ns key blob o ho hst
    generalize append f x c.app ns key blob o = q at a1 a2 a3 ⊢
    rw [a1]
    refine ⟨mapOf l, Or.inr ⟨x, gen, l, h, hG, rfl, ?_⟩, ?_⟩
    · intro c' hc'
      dsimp only at hc'
      rw [keepCtx] at hc'
      rcases a2 with a2 | a2
      · rw [a2, if_neg (by intro c; cases c), if_neg (by intro c; cases c)] at hc'
        have := Option.some.inj hc'
        subst this
        exact hc
      · rw [a2, if_pos (by rfl)] at hc'; cases hc'
    · rcases a2 with a2 | a2
      · rw [a2]; exact Or.inr (Or.inl ⟨rfl, rfl, rfl⟩)
      · rw [a2]; exact Or.inr (Or.inr ⟨rfl, rfl, Or.inl rfl⟩)

theorem put_spec (P : Par) (s : St) (M : KV) (G : Nat) (ns : Nat) (key blob : List Nat) (o : List Out) (h : Inv P s M G) (hG : G + 1 < 4294967296) (ho : Good o) :
    ∃ M', Next ⟨M, s.rdy⟩ (.put ns key blob o) (put P s ns key blob o).2 ⟨M', (put P s ns key blob o).1.rdy⟩ ∧ Inv P (put P s ns key blob o).1 M' (G + 1) := by
  have up : ∀ (s : St) (M : KV) (a b : Nat), a ≤ b → Inv P s M a → Inv P s M b := by
    intro s M a b hab hi
    rcases hi with hi | ⟨x, gen, l, h1, h2, h3⟩
    · exact Or.inl hi
    · exact Or.inr ⟨x, gen, l, h1, by omega, h3⟩
  unfold put
  cases hctx : s.ctx with
  | none =>
    have hr : s.rdy = false := by rw [St.rdy, hctx]; rfl
    refine ⟨M, ⟨fun _ => ⟨rfl, rfl⟩, ?_⟩, up _ _ _ _ (by omega) h⟩
    intro c; dsimp only at c; rw [hr] at c; cases c
  | some c =>
    have hr : s.rdy = true := by rw [St.rdy, hctx]; rfl
    dsimp only
    simp only [Next]
    rw [hr]
    rcases h with ⟨_, h, _⟩ | ⟨x, gen, l, hL, hg, hM, hC⟩
    · rw [hctx] at h; cases h
    · have hC := hC c hctx
      subst hM
      have keep : Inv P s (mapOf l) (G + 1) := Or.inr ⟨x, gen, l, hL, by omega, rfl, fun c' hc' => by rw [hctx] at hc'; cases Option.some.inj hc'; exact hC⟩
      by_cases hb : key.length = 0 ∨ key.length > 256 ∨ blob.length > P.maxBlob
      · rw [if_pos hb]
        refine ⟨mapOf l, ⟨(by intro c; cases c), fun _ => Or.inr (Or.inl ⟨Or.inl rfl, ?_⟩)⟩, keep⟩
        rw [hr]
      · rw [if_neg hb]
        have k0 : key.length ≠ 0 := fun c => hb (Or.inl c)
        have k1 : key.length ≤ 256 := by omega
        have b1 : blob.length ≤ P.maxBlob := by omega
        have fin : ∀ (f : Fl) (c : Ctx) (x : Bool) (gen : Nat) (l' : List Slot) (o : List Out), Live P f x gen l' → CtxOk c x gen l' → gen ≤ G + 1 → mapOf l' = mapOf l → Good o →
            16 * c.app + strideB key.length blob.length ≤ 16 * P.n →
            ∃ M', ((true = false → (putAt f c ns key blob o).2 = .argErr ∧ (⟨M', (putAt f c ns key blob o).1.rdy⟩ : V) = ⟨mapOf l, true⟩) ∧
              (true = true → ((putAt f c ns key blob o).2 = .ok ∧ (⟨M', (putAt f c ns key blob o).1.rdy⟩ : V) = ⟨upd (mapOf l) ns key (some blob), true⟩) ∨
                (((putAt f c ns key blob o).2 = .full ∨ (putAt f c ns key blob o).2 = .err) ∧ (⟨M', (putAt f c ns key blob o).1.rdy⟩ : V) = ⟨mapOf l, true⟩) ∨
                ((putAt f c ns key blob o).2 = .crash ∧ ((⟨M', (putAt f c ns key blob o).1.rdy⟩ : V) = ⟨mapOf l, false⟩ ∨
                  (⟨M', (putAt f c ns key blob o).1.rdy⟩ : V) = ⟨upd (mapOf l) ns key (some blob), false⟩)))) ∧ Inv P (putAt f c ns key blob o).1 M' (G + 1) := by
          intro f c x gen l' o hL hC hg hm ho hfit
          obtain ⟨M', a1, a2⟩ := putAt_spec P f c x gen l' (G + 1) ns key blob o hL hC hg k0 k1 b1 hfit ho
          rw [hm] at a2
          refine ⟨M', ⟨(by intro c; cases c), fun _ => ?_⟩, a1⟩
          rcases a2 with ⟨e1, e2, e3⟩ | ⟨e1, e2, e3⟩ | ⟨e1, e2, e3⟩
          · exact Or.inl ⟨e1, by rw [e2, e3]⟩
          · exact Or.inr (Or.inl ⟨Or.inr e1, by rw [e2, e3]⟩)
          · refine Or.inr (Or.inr ⟨e1, ?_⟩)
            rcases e3 with e3 | e3
            · exact Or.inl (by rw [e2, e3])
            · exact Or.inr (by rw [e2, e3])
        by_cases hfit : 16 * c.app + strideB key.length blob.length > 16 * P.n
        · rw [if_pos hfit]
          obtain ⟨q1, q2⟩ := compact_spec P s.fl c x gen l o hL hC.act hC.gen (by omega) ho
          generalize compact P s.fl c o = k at q1 q2 ⊢
          have hml : mapOf ((liveS l).map redo) = mapOf l := by funext n k'; exact mapOf_live l n k'
          rcases q2 with ⟨r1, r2, r3⟩ | ⟨r1, r2, r3⟩
          · rw [if_pos r1, r2]
            have hI : Inv P ⟨k.1, keepCtx k.2.2.1 c⟩ (mapOf l) (G + 1) := by
              refine Or.inr ⟨x, gen, l, r3, by omega, rfl, ?_⟩
              intro c' hc'
              dsimp only at hc'
              rw [keepCtx] at hc'
              by_cases hcr : k.2.2.1 = .crash
              · rw [if_pos hcr] at hc'; cases hc'
              · rw [if_neg hcr] at hc'; cases Option.some.inj hc'; exact hC
            refine ⟨mapOf l, ⟨(by intro c; cases c), fun _ => Or.inr ?_⟩, hI⟩
            cases hk : k.2.2.1 with
            | ok => exact absurd hk r1
            | err => exact Or.inl ⟨Or.inr rfl, rfl⟩
            | full => exact Or.inl ⟨Or.inl rfl, rfl⟩
            | crash => exact Or.inr ⟨rfl, Or.inl rfl⟩
          · rcases r1 with r1 | r1
            · rw [if_neg (by rw [r1]; simp)]
              have hc' : CtxOk k.2.1 (!x) (gen + 1) ((liveS l).map redo) := by rw [r2 r1]; exact ⟨rfl, rfl, Or.inl rfl⟩
              by_cases hf2 : 16 * k.2.1.app + strideB key.length blob.length > 16 * P.n
              · rw [if_pos hf2]
                refine ⟨mapOf l, ⟨(by intro c; cases c), fun _ => Or.inr (Or.inl ⟨Or.inl rfl, rfl⟩)⟩, Or.inr ⟨!x, gen + 1, _, r3, by omega, hml, ?_⟩⟩
                intro c' h'; cases Option.some.inj h'; exact hc'
              · rw [if_neg hf2]
                exact fin k.1 k.2.1 (!x) (gen + 1) _ k.2.2.2 r3 hc' (by omega) hml q1 (by omega)
            · rw [if_pos (by rw [r1]; intro c; cases c), r1]
              refine ⟨mapOf l, ⟨(by intro c; cases c), fun _ => Or.inr (Or.inr ⟨rfl, Or.inl rfl⟩)⟩, Or.inr ⟨!x, gen + 1, _, r3, by omega, hml, ?_⟩⟩
              intro c' h'; cases h'
        · rw [if_neg hfit]
          exact fin s.fl c x gen l o hL hC (by omega) rfl ho (by omega)

theorem upd_self (M : KV) (ns : Nat) (key : List Nat) (v : Option (List Nat)) (h : M ns key = v) : upd M ns key v = M := by
  funext n k
  rw [upd]
  by_cases hc : n = ns ∧ k = key
  · rw [if_pos hc, hc.1, hc.2, h]
  · rw [if_neg hc]

theorem del_spec (P : Par) (s : St) (M : KV) (G : Nat) (ns : Nat) (key : List Nat) (o : List Out) (h : Inv P s M G) (ho : Good o) :
    ∃ M', Next ⟨M, s.rdy⟩ (.del ns key o) (del P s ns key o).2 ⟨M', (del P s ns key o).1.rdy⟩ ∧ Inv P (del P s ns key o).1 M' G := by
  unfold del
  cases hctx : s.ctx with
  | none =>
    have hr : s.rdy = false := by rw [St.rdy, hctx]; rfl
    refine ⟨M, ⟨fun _ => ⟨rfl, rfl⟩, ?_⟩, h⟩
    intro c; dsimp only at c; rw [hr] at c; cases c
  | some c =>
    have hr : s.rdy = true := by rw [St.rdy, hctx]; rfl
    dsimp only
    simp only [Next]
    rw [hr]
    have hinv := h
    rcases h with ⟨_, h, _⟩ | ⟨x, gen, l, hL, hg, hM, hC⟩
    · rw [hctx] at h; cases h
    · have hC := hC c hctx
      subst hM
      obtain ⟨m, hb⟩ := hL.bank
      have hlen := hL.len
      rw [hb] at hlen
      rw [hC.act, hb]
      rcases lookup_log P (bankHdr gen) l m hL.oks hlen ns key with ⟨e1, e2⟩ | ⟨l1, t, l2, e0, e1, e2, e3, e4, e5, e6⟩
      · rw [e1]
        refine ⟨mapOf l, ⟨(by intro c; cases c), fun _ => Or.inl ⟨rfl, ?_⟩⟩, hinv⟩
        dsimp only
        rw [hr, upd_self _ _ _ _ e2]
      · rw [e1]
        dsimp only
        have ht : (t.toRec (1 + size l1)).tomb = t.tomb := rfl
        rw [ht]
        by_cases htb : t.tomb = true
        · rw [if_pos htb]
          rw [if_pos htb] at e6
          refine ⟨mapOf l, ⟨(by intro c; cases c), fun _ => Or.inl ⟨rfl, ?_⟩⟩, hinv⟩
          dsimp only
          rw [hr, upd_self _ _ _ _ e6]
        · rw [if_neg htb]
          rw [if_neg htb] at e6
          have hpos : (t.toRec (1 + size l1)).pos + (t.toRec (1 + size l1)).stride - 1 = 1 + size l1 + 2 + padq t.kl t.bl := by
            show 1 + size l1 + (3 + padq t.kl t.bl) - 1 = _
            omega
          rw [hpos]
          have hok1 : ∀ s ∈ l1, s.Ok P := fun s hs => hL.oks s (by rw [e0]; simp [hs])
          have hokt := hL.oks t (by rw [e0]; simp)
          have bk : ∀ q, bankOf (bankHdr gen) (l1 ++ { t with tq := q } :: l2) m =
              (bankHdr gen :: (encs l1 ++ recHdr t.ns t.kl t.bl :: t.commit :: t.pay)) ++ q :: (encs l2 ++ List.replicate m ers) := by
            intro q; rw [bankOf, encs_append]; simp [encs, Slot.enc]
          have hpl : (bankHdr gen :: (encs l1 ++ recHdr t.ns t.kl t.bl :: t.commit :: t.pay)).length = 1 + size l1 + 2 + padq t.kl t.bl := by
            simp only [List.length_cons, List.length_append, encs_length P l1 hok1, hokt.len]; omega
          have hset : ∀ q, (s.fl.get x).set (1 + size l1 + 2 + padq t.kl t.bl) q = bankOf (bankHdr gen) (l1 ++ { t with tq := q } :: l2) m := by
            intro q
            have : l = l1 ++ { t with tq := t.tq } :: l2 := e0
            rw [hb, this, bk, bk, ← hpl, set_mid]
          have e5' : l2.any (hits t.ns t.key) = false := by rw [e3, e4]; exact e5
          have hmt : ∀ q, mapOf (l1 ++ { t with tq := q } :: l2) = upd (mapOf l) ns key none ∨ mapOf (l1 ++ { t with tq := q } :: l2) = mapOf l := by
            intro q
            rw [mapOf_tq l1 t q l2 e2 e5', ← e0, e3, e4]
            split
            · exact Or.inl rfl
            · exact Or.inr (upd_self _ _ _ _ e6)
          have hmt0 : mapOf (l1 ++ { t with tq := tombQw } :: l2) = upd (mapOf l) ns key none := by
            rw [mapOf_tq l1 t tombQw l2 e2 e5', ← e0, e3, e4]; rfl
          have hoks' : ∀ q, ∀ s ∈ l1 ++ { t with tq := q } :: l2, s.Ok P := by
            intro q s hs
            rcases List.mem_append.mp hs with h | h
            · exact hok1 s h
            · rcases List.mem_cons.mp h with h | h
              · rw [h]; exact ⟨hokt.k0, hokt.k1, hokt.b1, hokt.len, hokt.whole⟩
              · exact hL.oks s (by rw [e0]; simp [h])
          have hstr : ∀ q, (l1 ++ { t with tq := q } :: l2).map Slot.stride = l.map Slot.stride := by
            intro q; rw [e0, List.map_append, List.map_append, List.map_cons, List.map_cons]; rfl
          have hCtx : ∀ q, CtxOk c x gen (l1 ++ { t with tq := q } :: l2) := by
            intro q
            refine ⟨hC.act, hC.gen, ?_⟩
            rw [size, hstr q]
            rcases hC.app with h | ⟨_, h⟩
            · exact Or.inl h
            · exact Or.inr ⟨by simp, h⟩
          obtain ⟨p1, p2, p3⟩ := prog_cases s.fl x (1 + size l1 + 2 + padq t.kl t.bl) tombQw o ho
          generalize prog s.fl x (1 + size l1 + 2 + padq t.kl t.bl) tombQw o = pr at p1 p2 p3 ⊢
          have new : ∀ q, pr.1.get x = bankOf (bankHdr gen) (l1 ++ { t with tq := q } :: l2) m → Live P pr.1 x gen (l1 ++ { t with tq := q } :: l2) := by
            intro q hq
            refine ⟨hoks' q, ⟨m, hq⟩, ?_, by rw [p1]; exact hL.len', by rw [p1]; exact hL.other⟩
            rw [hq, ← hset, List.length_set]; exact hL.len
          have same : pr.1.get x = s.fl.get x → Live P pr.1 x gen l := by
            intro hq; rw [fl_ext _ _ x hq p1]; exact hL
          rcases p3 with ⟨q1, q2, q3⟩ | ⟨q1, q2⟩ | ⟨q1, q2⟩ | ⟨q1, q2, g, q3, q4⟩
          · rw [hset] at q3
            rw [q1]
            refine ⟨upd (mapOf l) ns key none, ⟨(by intro c; cases c), fun _ => Or.inl ⟨rfl, rfl⟩⟩, Or.inr ⟨x, gen, _, new _ q3, hg, hmt0, ?_⟩⟩
            intro c' h'; cases Option.some.inj h'; exact hCtx _
          · rw [q1]
            refine ⟨mapOf l, ⟨(by intro c; cases c), fun _ => Or.inr (Or.inl ⟨rfl, rfl⟩)⟩, Or.inr ⟨x, gen, _, same q2, hg, rfl, ?_⟩⟩
            intro c' h'; cases Option.some.inj h'; exact hC
          · rw [q1]
            refine ⟨mapOf l, ⟨(by intro c; cases c), fun _ => Or.inr (Or.inr ⟨rfl, Or.inl rfl⟩)⟩, Or.inr ⟨x, gen, _, same q2, hg, rfl, ?_⟩⟩
            intro c' h'; cases h'
          · rw [hset] at q4
            rw [q1]
            refine ⟨_, ⟨(by intro c; cases c), fun _ => Or.inr (Or.inr ⟨rfl, ?_⟩)⟩, Or.inr ⟨x, gen, _, new _ q4, hg, rfl, by intro c' h'; cases h'⟩⟩
            rcases hmt (g tombQw) with h | h
            · exact Or.inr (by rw [h]; rfl)
            · exact Or.inl (by rw [h]; rfl)

theorem boot_spec (P : Par) (s : St) (M : KV) (G : Nat) (o : List Out) (h : Inv P s M G) (hG : G < 4294967296) (h1 : 1 ≤ G) (ho : Good o) :
    ∃ M', Next ⟨M, s.rdy⟩ (.boot o) (boot P s.fl o).2 ⟨M', (boot P s.fl o).1.rdy⟩ ∧ Inv P (boot P s.fl o).1 M' G := by
  unfold boot
  rcases h with ⟨hB, hc, hM⟩ | ⟨x, gen, l, hL, hg, hM, hC⟩
  · have ha : bankGen s.fl.a = none := hB.gens false
    have hb : bankGen s.fl.b = none := hB.gens true
    rw [ha, hb]
    dsimp only [pick]
    unfold format
    obtain ⟨a1, a2, a3, a4, a5, a6⟩ := eraseBank_cases P s.fl false o ho
    dsimp only
    generalize eraseBank P s.fl false o = e at a1 a2 a3 a4 a5 a6 ⊢
    have la : (e.1.get false).length = P.n := by rw [a4]; exact hB.len false
    have lb : (e.1.get (!false)).length = P.n := by rw [a1]; exact hB.len true
    have ga : bankGen (e.1.get false) = none := by
      cases hg : bankGen (e.1.get false) with
      | none => rfl
      | some g => have := a5 g hg; rw [hB.gens] at this; cases this
    have gb : bankGen (e.1.get (!false)) = none := by rw [a1]; exact hB.gens true
    have hBe : Blank P e.1 := ⟨fun x => by cases x; exact la; exact lb, fun x => by cases x; exact ga; exact gb⟩
    by_cases he : e.2.1 = .ok
    · rw [if_pos he]
      have hers := a6 he (hB.len false)
      have hers' : e.1.get false = bankOf ers [] (P.n - 1) := by
        rw [hers]
        have : P.n = P.n - 1 + 1 := by have := n_pos P; omega
        rw [this, List.replicate_succ]; rfl
      obtain ⟨p1, p2, p3⟩ := prog_cases e.1 false 0 (bankHdr 1) e.2.2 a2
      generalize prog e.1 false 0 (bankHdr 1) e.2.2 = pr at p1 p2 p3 ⊢
      have new : pr.1.get false = (e.1.get false).set 0 (bankHdr 1) → Live P pr.1 false 1 [] := by
        intro hq
        refine ⟨by simp, ⟨P.n - 1, by rw [hq, hers']; rfl⟩, by rw [hq, List.length_set]; exact la, by rw [p1]; exact lb, ?_⟩
        rw [p1, gb]; intro g c; cases c
      have same : pr.1.get false = e.1.get false → Blank P pr.1 := by
        intro hq; rw [fl_ext _ _ false hq p1]; exact hBe
      rcases p3 with ⟨q1, q2, q3⟩ | ⟨q1, q2⟩ | ⟨q1, q2⟩ | ⟨q1, q2, g, q3, q4⟩
      · rw [q1]
        refine ⟨M, Or.inl ⟨rfl, rfl⟩, Or.inr ⟨false, 1, [], new q3, h1, by rw [hM]; rfl, ?_⟩⟩
        intro c' h'; cases Option.some.inj h'; exact ⟨rfl, rfl, Or.inl rfl⟩
      · rw [q1]; exact ⟨M, Or.inr ⟨Or.inl rfl, rfl⟩, Or.inl ⟨same q2, rfl, hM⟩⟩
      · rw [q1]; exact ⟨M, Or.inr ⟨Or.inr rfl, rfl⟩, Or.inl ⟨same q2, rfl, hM⟩⟩
      · rw [q1]
        refine ⟨M, Or.inr ⟨Or.inr rfl, rfl⟩, ?_⟩
        rcases q3 (bankHdr 1) (Or.inr rfl) with hq | hq
        · rw [hq] at q4
          exact Or.inr ⟨false, 1, [], new q4, h1, by rw [hM]; rfl, by intro c' h'; cases h'⟩
        · rw [hq] at q4
          refine Or.inl ⟨same ?_, rfl, hM⟩
          rw [q4, hers']; rfl
    · rw [if_neg he]
      refine ⟨M, ?_, ?_⟩
      · cases hk : e.2.1 with
        | ok => exact absurd hk he
        | err => exact Or.inr ⟨Or.inl rfl, rfl⟩
        | full => exact absurd hk a3
        | crash => exact Or.inr ⟨Or.inr rfl, rfl⟩
      · exact Or.inl ⟨hBe, by dsimp only; rw [if_neg he], hM⟩
  · rw [pick_live P s.fl x gen l hL (by omega)]
    dsimp only
    obtain ⟨m, hb⟩ := hL.bank
    have hlen := hL.len
    rw [hb] at hlen
    have hw : (walk P (P.n + 1) (s.fl.get x) 1).2 = .at (1 + size l) := by rw [hb, bankOf_recs P _ l m hL.oks hlen]
    rw [hw]
    refine ⟨M, Or.inl ⟨rfl, rfl⟩, Or.inr ⟨x, gen, l, hL, hg, hM, ?_⟩⟩
    intro c' h'; cases Option.some.inj h'; exact ⟨rfl, rfl, Or.inl rfl⟩

theorem iter_list (P : Par) (h : Qw) (m : Nat) (l : List Slot) (hok : ∀ t ∈ l, t.Ok P) (hlen : (bankOf h l m).length = P.n) (ns : Nat) :
    ((recs P (bankOf h l m) 1).filter (fun r => r.committed && r.ns == ns && !r.tomb && isLatest P (bankOf h l m) r)).map (fun r => (r.key, r.blob)) =
    ((liveS l).filter (fun s => s.ns == ns)).map (fun s => (s.key, s.blob)) := by
  obtain ⟨rs, h1, h2⟩ := live_log P h m l [] (by rw [List.nil_append]; exact hok) (by rw [List.nil_append]; exact hlen)
  rw [List.nil_append, show 1 + size ([] : List Slot) = 1 from rfl] at h1
  rw [recs, bankOf_recs P _ l m hok hlen]
  dsimp only
  have e : (recsOf 1 l).filter (fun r => r.committed && r.ns == ns && !r.tomb && isLatest P (bankOf h l m) r) = rs.filter (fun r => r.ns == ns) := by
    rw [← h1, List.filter_filter]
    apply List.filter_congr
    intro r _
    cases r.committed <;> cases (r.ns == ns) <;> cases r.tomb <;> cases isLatest P (bankOf h l m) r <;> rfl
  rw [e]
  have e1 : (rs.filter (fun r => r.ns == ns)).map (fun r => (r.key, r.blob)) =
      ((rs.map (fun r => (r.ns, r.key, r.blob, r.stride))).filter (fun p => p.1 == ns)).map (fun p => (p.2.1, p.2.2.1)) := by
    rw [List.filter_map, List.map_map]; rfl
  rw [e1, h2, List.filter_map, List.map_map]; rfl

theorem read_spec (P : Par) (s : St) (M : KV) (G : Nat) (h : Inv P s M G) :
    (∀ ns key, Next ⟨M, s.rdy⟩ (.get ns key) (get P s ns key) ⟨M, s.rdy⟩) ∧ (∀ ns, Next ⟨M, s.rdy⟩ (.iter ns) (iter P s ns) ⟨M, s.rdy⟩) := by
  unfold get iter
  cases hctx : s.ctx with
  | none =>
    have hr : s.rdy = false := by rw [St.rdy, hctx]; rfl
    refine ⟨fun ns key => ⟨rfl, by rw [hr]; rfl⟩, fun ns => ⟨rfl, fun _ => rfl, ?_⟩⟩
    intro c; dsimp only at c; rw [hr] at c; cases c
  | some c =>
    have hr : s.rdy = true := by rw [St.rdy, hctx]; rfl
    rcases h with ⟨_, h, _⟩ | ⟨x, gen, l, hL, hg, hM, hC⟩
    · rw [hctx] at h; cases h
    · have hC := hC c hctx
      subst hM
      obtain ⟨m, hb⟩ := hL.bank
      have hlen := hL.len
      rw [hb] at hlen
      rw [hr]
      dsimp only
      rw [hC.act, hb]
      constructor
      · intro ns key
        refine ⟨rfl, ?_⟩
        rw [if_pos (by rfl)]
        dsimp only
        rcases lookup_log P (bankHdr gen) l m hL.oks hlen ns key with ⟨e1, e2⟩ | ⟨l1, t, l2, e0, e1, e2, e3, e4, e5, e6⟩
        · rw [e1, e2]
        · rw [e1, e6]
          dsimp only
          have ht : (t.toRec (1 + size l1)).tomb = t.tomb := rfl
          rw [ht]
          by_cases htb : t.tomb = true
          · rw [if_pos htb, if_pos htb]
          · rw [if_neg htb, if_neg htb]; rfl
      · intro ns
        refine ⟨rfl, (by intro c; cases c), fun _ => ⟨_, rfl, ?_, ?_⟩⟩
        · rw [iter_list P _ m l hL.oks hlen ns, List.map_map]
          rw [List.nodup_iff_pairwise_ne, List.pairwise_map, List.pairwise_filter]
          refine List.Pairwise.imp ?_ (liveS_distinct l)
          intro a b hab ha hb' hk
          simp only [beq_iff_eq] at ha hb'
          exact hab ⟨by rw [ha, hb'], hk.symm⟩
        · intro k b
          dsimp only
          rw [iter_list P _ m l hL.oks hlen ns, mapOf_some_iff]
          constructor
          · intro hm
            obtain ⟨t, ht, e⟩ := List.mem_map.mp hm
            obtain ⟨ht1, ht2⟩ := List.mem_filter.mp ht
            injection e with e1 e2
            exact ⟨t, ht1, by simpa using ht2, e1, e2⟩
          · rintro ⟨t, ht, e1, e2, e3⟩
            exact List.mem_map.mpr ⟨t, List.mem_filter.mpr ⟨ht, by simp [e1]⟩, by rw [e2, e3]⟩

end Wolf.Kvf
