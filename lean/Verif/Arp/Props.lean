import Verif.Arp.Model
/-!
# C28, C29: ARP learning and rate limit
-/
namespace Wolf.Arp

/-! ## Specification -/

/-- `e` is a well-formed ARP reply received on interface `i` from `ip`, claiming `mac`; `ip` is a usable
unicast address, not our own. -/
def ReplyFrom (i ip : Nat) (mac : List Nat) : Ev → Prop
  | .recv j c p => j = i ∧ p.sip = ip ∧ p.sma = mac ∧ p.opcode = 2 ∧
      (p.len ≥ 42 ∧ c.ether = true ∧ p.htype = 1 ∧ p.ptype = 0x0800 ∧ p.hlen = 6 ∧ p.plen = 4 ∧
        p.sma.headD 0 % 2 = 0) ∧
      (ip ≠ 0 ∧ ip ≠ c.ownIp ∧ c.group ip = false)
  | _ => False

/-- The history contains a request by the stack for `ip` on `i`, answered not more than 5 s later by a
reply with `mac`, and that is the first reply for the address after the request. -/
def Solicited (log : Log) (i ip : Nat) (mac : List Nat) : Prop :=
  ∃ l1 l2 l3 tq tr e o,
    log = l1 ++ (tq, Ev.request i ip, Out.issued true) :: (l2 ++ (tr, e, o) :: l3) ∧
    ReplyFrom i ip mac e ∧ tr ≤ tq + 5000 ∧ ∀ x ∈ l2, ∀ m, ¬ ReplyFrom i ip m x.2.1

/-- The event is a use or a confirmation of the mapping of `ip` on `i`: a lookup that found it, a reply
from `ip`, or an ARP request sent by `ip`. -/
def Touch (i ip : Nat) (e : Ev) (o : Out) : Prop :=
  (e = .lookup i ip ∧ ∃ m, o = .found (some m)) ∨ (∃ m, ReplyFrom i ip m e) ∨
  (∃ c p, e = .recv i c p ∧ p.opcode = 1 ∧ p.sip = ip)

/-- The address the stack would use now. -/
def answer (s : St) (i ip : Nat) : Option (List Nat) := (lookup s i ip).2

/-! ## Tables with unique keys -/

/-- No two positions hold the same key with a nonzero address. -/
def Uniq {α : Type} (key : α → Nat × Nat) (l : List α) : Prop :=
  ∀ (a b : Nat) p q, l[a]? = some p → l[b]? = some q → (key p).1 ≠ 0 → key p = key q → a = b

theorem uniq_set {α : Type} (key : α → Nat × Nat) (l : List α) (k : Nat) (x : α) (hU : Uniq key l)
    (hx : ∀ j y, l[j]? = some y → key y = key x → (key x).1 ≠ 0 → j = k) : Uniq key (l.set k x) := by
  intro a b p q ha hb h0 hk
  rw [List.getElem?_set] at ha hb
  by_cases ea : k = a
  · subst ea
    simp only [if_true] at ha
    by_cases eb : k = b
    · exact eb
    · rw [if_neg eb] at hb
      split at ha
      · simp only [Option.some.injEq] at ha
        subst ha
        exact (hx b q hb hk.symm h0).symm
      · simp at ha
  · rw [if_neg ea] at ha
    by_cases eb : k = b
    · subst eb
      simp only [if_true] at hb
      split at hb
      · simp only [Option.some.injEq] at hb
        subst hb
        exact hx a p ha hk (hk ▸ h0)
      · simp at hb
    · rw [if_neg eb] at hb
      exact hU a b p q ha hb h0 hk

/-- A table obtained by clearing some entries of, or changing values under, the same keys. -/
theorem uniq_of_keys {α : Type} (key : α → Nat × Nat) (l l' : List α) (hU : Uniq key l)
    (h : ∀ (a : Nat) p', l'[a]? = some p' → (key p').1 ≠ 0 → ∃ p, l[a]? = some p ∧ key p = key p') :
    Uniq key l' := by
  intro a b p q ha hb h0 hk
  obtain ⟨p0, hp0, kp⟩ := h a p ha h0
  obtain ⟨q0, hq0, kq⟩ := h b q hb (hk ▸ h0)
  exact hU a b p0 q0 hp0 hq0 (kp ▸ h0) (by rw [kp, kq, hk])

def nkey (n : Nbr) : Nat × Nat := (n.ip, n.ifc)
def pkey (p : Pend) : Nat × Nat := (p.ip, p.ifc)

theorem findIdx_none {α : Type} (f : α → Bool) (l : List α) (h : l.findIdx? f = none) (j : Nat) (y : α)
    (hj : l[j]? = some y) : f y = false := by
  rw [List.findIdx?_eq_none_iff] at h
  exact h y (List.mem_of_getElem? hj)

theorem uniq_store (l : List Nbr) (i ip : Nat) (mac : List Nat) (t : Nat) (hU : Uniq nkey l) :
    Uniq nkey (l.set (storeSlot l i ip) ⟨ip, i, mac, t⟩) := by
  apply uniq_set _ _ _ _ hU
  intro j y hj hk h0
  simp only [nkey, Prod.mk.injEq] at hk h0
  simp only [storeSlot]
  cases hf : l.findIdx? (fun n => n.ip == ip && n.ifc == i) with
  | none => have := findIdx_none _ _ hf j y hj; simp [hk.1, hk.2] at this
  | some k =>
    simp only
    obtain ⟨hk1, hk2, _⟩ := List.findIdx?_eq_some_iff_getElem.1 hf
    simp only [Bool.and_eq_true, beq_iff_eq] at hk2
    apply hU j k y l[k] hj (List.getElem?_eq_getElem hk1) (by simp [nkey, hk.1]; exact h0)
    simp [nkey, hk.1, hk.2, hk2.1, hk2.2]

theorem uniq_record (l : List Pend) (i ip t : Nat) (hU : Uniq pkey l) :
    Uniq pkey (l.set (recSlot l i ip) ⟨ip, i, t⟩) := by
  apply uniq_set _ _ _ _ hU
  intro j y hj hk h0
  simp only [pkey, Prod.mk.injEq] at hk h0
  simp only [recSlot]
  cases hf : l.findIdx? (fun n => n.ip == ip && n.ifc == i) with
  | none => have := findIdx_none _ _ hf j y hj; simp [hk.1, hk.2] at this
  | some k =>
    simp only
    obtain ⟨hk1, hk2, _⟩ := List.findIdx?_eq_some_iff_getElem.1 hf
    simp only [Bool.and_eq_true, beq_iff_eq] at hk2
    apply hU j k y l[k] hj (List.getElem?_eq_getElem hk1) (by simp [pkey, hk.1]; exact h0)
    simp [pkey, hk.1, hk.2, hk2.1, hk2.2]

/-! ## nbrIndex -/

theorem nbrIndex_pos (t i ip : Nat) : ∀ (l : List Nbr) (a : Nat) n', (nbrIndex t i ip l).1[a]? = some n' →
    n'.ip ≠ 0 → ∃ n, l[a]? = some n ∧ n.ip = n'.ip ∧ n.ifc = n'.ifc ∧ n.mac = n'.mac ∧
      (n'.ts = n.ts ∨ (n'.ip = ip ∧ n'.ifc = i ∧ n'.ts = t ∧ ∃ m, (nbrIndex t i ip l).2 = some m)) := by
  intro l
  induction l with
  | nil => intro a n' h; simp [nbrIndex] at h
  | cons n ns ih =>
    intro a n' h h0
    simp only [nbrIndex] at h ⊢
    by_cases hc : n.ip = ip ∧ n.ifc = i
    · rw [if_pos hc] at h ⊢
      by_cases hg : aged t n.ts = true
      · rw [if_pos hg] at h ⊢
        cases a with
        | zero => simp at h; subst h; simp at h0
        | succ a => simp at h; exact ⟨n', by simpa using h, rfl, rfl, rfl, Or.inl rfl⟩
      · rw [if_neg hg] at h ⊢
        cases a with
        | zero =>
          simp at h; subst h
          exact ⟨n, rfl, rfl, rfl, rfl, Or.inr ⟨hc.1, hc.2, rfl, n.mac, rfl⟩⟩
        | succ a => simp at h; exact ⟨n', by simpa using h, rfl, rfl, rfl, Or.inl rfl⟩
    · rw [if_neg hc] at h ⊢
      cases a with
      | zero => simp at h; subst h; exact ⟨n, rfl, rfl, rfl, rfl, Or.inl rfl⟩
      | succ a => simp at h; simpa using ih a n' h h0

theorem nbrIndex_mem (t i ip : Nat) (l : List Nbr) (n' : Nbr) (h : n' ∈ (nbrIndex t i ip l).1)
    (h0 : n'.ip ≠ 0) : ∃ n ∈ l, n.ip = n'.ip ∧ n.ifc = n'.ifc ∧ n.mac = n'.mac ∧
      (n'.ts = n.ts ∨ (n'.ip = ip ∧ n'.ifc = i ∧ n'.ts = t ∧ ∃ m, (nbrIndex t i ip l).2 = some m)) := by
  obtain ⟨a, ha⟩ := List.getElem?_of_mem h
  obtain ⟨n, hn, r⟩ := nbrIndex_pos t i ip l a n' ha h0
  exact ⟨n, List.mem_of_getElem? hn, r⟩

theorem nbrIndex_found (t i ip : Nat) : ∀ (l : List Nbr) mac, (nbrIndex t i ip l).2 = some mac →
    ∃ n ∈ l, n.ip = ip ∧ n.ifc = i ∧ n.mac = mac ∧ aged t n.ts = false := by
  intro l
  induction l with
  | nil => intro mac h; simp [nbrIndex] at h
  | cons n ns ih =>
    intro mac h
    simp only [nbrIndex] at h
    split at h
    · rename_i hc
      split at h
      · simp at h
      · rename_i hg
        simp only [Option.some.injEq] at h
        exact ⟨n, by simp, hc.1, hc.2, h, by simpa using hg⟩
    · obtain ⟨m, hm, r⟩ := ih mac h
      exact ⟨m, by simp [hm], r⟩

theorem uniq_nbrIndex (t i ip : Nat) (l : List Nbr) (hU : Uniq nkey l) :
    Uniq nkey (nbrIndex t i ip l).1 := by
  apply uniq_of_keys nkey l _ hU
  intro a p' h h0
  obtain ⟨n, hn, e1, e2, _⟩ := nbrIndex_pos t i ip l a p' h h0
  exact ⟨n, hn, by simp [nkey, e1, e2]⟩

/-- Under unique keys the answer is the entry with that key, if it has not aged out. -/
theorem nbrIndex_iff (t i ip : Nat) (h0 : ip ≠ 0) : ∀ (l : List Nbr), Uniq nkey l → ∀ mac,
    (nbrIndex t i ip l).2 = some mac ↔
      ∃ n ∈ l, n.ip = ip ∧ n.ifc = i ∧ n.mac = mac ∧ aged t n.ts = false := by
  intro l
  induction l with
  | nil => intro _ mac; simp [nbrIndex]
  | cons n ns ih =>
    intro hU mac
    refine ⟨nbrIndex_found t i ip _ mac, ?_⟩
    rintro ⟨m, hm, e1, e2, e3, e4⟩
    simp only [nbrIndex]
    by_cases hc : n.ip = ip ∧ n.ifc = i
    · rw [if_pos hc]
      obtain ⟨a, ha⟩ := List.getElem?_of_mem hm
      have := hU a 0 m n ha rfl (by simp [nkey, e1, h0]) (by simp [nkey, e1, e2, hc.1, hc.2])
      subst this
      simp at ha
      subst ha
      rw [if_neg (by simp [e4]), e3]
    · rw [if_neg hc]
      have hU' : Uniq nkey ns := by
        intro a b p q ha hb hp hk
        have := hU (a + 1) (b + 1) p q (by simpa using ha) (by simpa using hb) hp hk
        omega
      rcases List.mem_cons.1 hm with rfl | hm
      · exact absurd ⟨e1, e2⟩ hc
      · exact (ih hU' mac).2 ⟨m, hm, e1, e2, e3, e4⟩

/-! ## pendMatch -/

theorem pendMatch_pos (now i ip : Nat) : ∀ (l : List Pend) (a : Nat) p', (pendMatch now i ip l).1[a]? = some p' →
    p'.ip ≠ 0 → l[a]? = some p' := by
  intro l
  induction l with
  | nil => intro a p' h; simp [pendMatch] at h
  | cons p ps ih =>
    intro a p' h h0
    simp only [pendMatch] at h
    split at h
    · cases a with
      | zero => simpa using h
      | succ a => simp at h; simpa using ih a p' h h0
    split at h
    · cases a with
      | zero => simp at h; subst h; simp at h0
      | succ a => simp at h; simpa using ih a p' h h0
    split at h
    · cases a with
      | zero => simp at h; subst h; simp at h0
      | succ a => simpa using h
    · cases a with
      | zero => simpa using h
      | succ a => simp at h; simpa using ih a p' h h0

theorem pendMatch_true (now i ip : Nat) : ∀ (l : List Pend), (pendMatch now i ip l).2 = true →
    ∃ p ∈ l, p.ip = ip ∧ p.ifc = i ∧ p.ip ≠ 0 ∧ now ≤ p.ts + TTL := by
  intro l
  induction l with
  | nil => intro h; simp [pendMatch] at h
  | cons p ps ih =>
    intro h
    simp only [pendMatch] at h
    split at h
    · obtain ⟨q, hq, r⟩ := ih h; exact ⟨q, by simp [hq], r⟩
    split at h
    · obtain ⟨q, hq, r⟩ := ih h; exact ⟨q, by simp [hq], r⟩
    split at h
    · rename_i h1 h2 h3; exact ⟨p, by simp, h3.1, h3.2, h1, by simp only [TTL] at *; omega⟩
    · obtain ⟨q, hq, r⟩ := ih h; exact ⟨q, by simp [hq], r⟩

/-- After a match attempt no pending entry for that address remains. -/
theorem pendMatch_gone (now i ip : Nat) : ∀ (l : List Pend), Uniq pkey l →
    ∀ p' ∈ (pendMatch now i ip l).1, p'.ip ≠ 0 → ¬ (p'.ip = ip ∧ p'.ifc = i) := by
  intro l
  induction l with
  | nil => intro _ p' h; simp [pendMatch] at h
  | cons p ps ih =>
    intro hU p' h h0
    have hU' : Uniq pkey ps := by
      intro a b x y ha hb hp hk
      have := hU (a + 1) (b + 1) x y (by simpa using ha) (by simpa using hb) hp hk
      omega
    simp only [pendMatch] at h
    split at h
    · rename_i hz
      rcases List.mem_cons.1 h with rfl | h
      · exact absurd hz h0
      · exact ih hU' p' h h0
    split at h
    · rcases List.mem_cons.1 h with rfl | h
      · simp at h0
      · exact ih hU' p' h h0
    split at h
    · rename_i h3
      rcases List.mem_cons.1 h with rfl | h
      · simp at h0
      · intro hk
        obtain ⟨a, ha⟩ := List.getElem?_of_mem h
        have := hU (a + 1) 0 p' p (by simpa using ha) rfl h0 (by simp [pkey, hk.1, hk.2, h3.1, h3.2])
        omega
    · rename_i h3
      rcases List.mem_cons.1 h with rfl | h
      · exact h3
      · exact ih hU' p' h h0

/-! ## Invariant -/

/-- A pending entry stems from a request in the history that no reply has answered yet. -/
def PendOk (log : Log) (p : Pend) : Prop :=
  ∃ l1 l2, log = l1 ++ (p.ts, Ev.request p.ifc p.ip, Out.issued true) :: l2 ∧
    ∀ x ∈ l2, ∀ m, ¬ ReplyFrom p.ifc p.ip m x.2.1

/-- A cached entry was solicited, and its timestamp is that of a use or confirmation. -/
def NbrOk (log : Log) (n : Nbr) : Prop :=
  Solicited log n.ifc n.ip n.mac ∧ ∃ e o, (n.ts, e, o) ∈ log ∧ Touch n.ifc n.ip e o

structure Inv (log : Log) (s : St) : Prop where
  nbr : ∀ n ∈ s.nbr, n.ip ≠ 0 → NbrOk log n
  pend : ∀ p ∈ s.pend, p.ip ≠ 0 → PendOk log p
  un : Uniq nkey s.nbr
  up : Uniq pkey s.pend

theorem inv_init : Inv [] St.init := by
  constructor
  · intro n hn h; simp only [St.init, List.mem_replicate] at hn; rw [hn.2] at h; exact absurd rfl h
  · intro n hn h; simp only [St.init, List.mem_replicate] at hn; rw [hn.2] at h; exact absurd rfl h
  · intro a b p q ha hb h0
    have := List.mem_of_getElem? ha
    simp only [St.init, List.mem_replicate] at this
    rw [this.2] at h0; exact absurd rfl h0
  · intro a b p q ha hb h0
    have := List.mem_of_getElem? ha
    simp only [St.init, List.mem_replicate] at this
    rw [this.2] at h0; exact absurd rfl h0

theorem solicited_mono (log l : Log) (i ip : Nat) (mac : List Nat) (h : Solicited log i ip mac) :
    Solicited (log ++ l) i ip mac := by
  obtain ⟨l1, l2, l3, tq, tr, e, o, rfl, h1, h2, h3⟩ := h
  exact ⟨l1, l2, l3 ++ l, tq, tr, e, o, by simp, h1, h2, h3⟩

theorem nbrOk_mono (log l : Log) (n : Nbr) (h : NbrOk log n) : NbrOk (log ++ l) n := by
  obtain ⟨h1, e, o, h2, h3⟩ := h
  exact ⟨solicited_mono _ _ _ _ _ h1, e, o, by simp [h2], h3⟩

theorem pendOk_snoc (log : Log) (x : Nat × Ev × Out) (p : Pend) (h : PendOk log p)
    (hx : ∀ m, ¬ ReplyFrom p.ifc p.ip m x.2.1) : PendOk (log ++ [x]) p := by
  obtain ⟨l1, l2, rfl, h2⟩ := h
  refine ⟨l1, l2 ++ [x], by simp, ?_⟩
  intro y hy
  rcases List.mem_append.1 hy with h | h
  · exact h2 y h
  · simp only [List.mem_singleton] at h; subst h; exact hx

/-- Lookups (and the refresh done for a received request) keep the invariant if the event counts as a
use whenever the entry was found. -/
theorem inv_lookup (log : Log) (s : St) (i ip : Nat) (e : Ev) (o : Out) (h : Inv log s)
    (ht : (∃ m, (nbrIndex s.tick i ip s.nbr).2 = some m) → Touch i ip e o)
    (he : ∀ i ip m, ¬ ReplyFrom i ip m e) :
    Inv (log ++ [(s.tick, e, o)]) (lookup s i ip).1 := by
  constructor
  · intro n' hn' h0
    obtain ⟨n, hn, e1, e2, e3, hts⟩ := nbrIndex_mem _ _ _ _ _ hn' h0
    obtain ⟨q1, e', o', q2, q3⟩ := h.nbr n hn (by rw [e1]; exact h0)
    refine ⟨by rw [← e1, ← e2, ← e3]; exact solicited_mono _ _ _ _ _ q1, ?_⟩
    rcases hts with hts | ⟨k1, k2, k3, k4⟩
    · exact ⟨e', o', by rw [hts]; simp [q2], by rw [← e1, ← e2]; exact q3⟩
    · exact ⟨e, o, by rw [k3]; simp, by rw [k1, k2]; exact ht k4⟩
  · intro p hp h0
    exact pendOk_snoc _ _ _ (h.pend p hp h0) (he _ _)
  · exact uniq_nbrIndex _ _ _ _ h.un
  · exact h.up

theorem inv_frame (log : Log) (s s' : St) (x : Nat × Ev × Out) (h : Inv log s) (hn : s'.nbr = s.nbr)
    (hp : s'.pend = s.pend) (he : ∀ p ∈ s.pend, p.ip ≠ 0 → ∀ m, ¬ ReplyFrom p.ifc p.ip m x.2.1) : Inv (log ++ [x]) s' := by
  constructor
  · rw [hn]; intro n hn h0; exact nbrOk_mono _ _ _ (h.nbr n hn h0)
  · rw [hp]; intro p hp h0; exact pendOk_snoc _ _ _ (h.pend p hp h0) (he p hp h0)
  · rw [hn]; exact h.un
  · rw [hp]; exact h.up

theorem pktOk_iff (c : Ctx) (p : Pkt) : pktOk c p = true ↔
    (p.len ≥ 42 ∧ c.ether = true ∧ p.htype = 1 ∧ p.ptype = 0x0800 ∧ p.hlen = 6 ∧ p.plen = 4 ∧
        p.sma.headD 0 % 2 = 0) := by
  simp only [pktOk, Bool.and_eq_true, decide_eq_true_eq, beq_iff_eq, and_assoc]

theorem sipOk_iff (c : Ctx) (p : Pkt) : sipOk c p = true ↔
    (p.sip ≠ 0 ∧ p.sip ≠ c.ownIp ∧ c.group p.sip = false) := by
  simp only [sipOk, Bool.and_eq_true, bne_iff_ne, Bool.not_eq_true', and_assoc]

theorem inv_recv (log : Log) (s : St) (i : Nat) (c : Ctx) (p : Pkt) (o : Out) (h : Inv log s) :
    Inv (log ++ [(s.tick, Ev.recv i c p, o)]) (recv s i c p).1 := by
  rw [recv]
  split
  · rename_i hb
    apply inv_frame log s s _ h rfl rfl
    rintro q _ _ m ⟨_, _, _, _, hv, _⟩
    rw [(pktOk_iff c p).2 hv] at hb
    simp at hb
  rename_i hpk
  split
  · rename_i hop
    have nr : ∀ j a m, ¬ ReplyFrom j a m (Ev.recv i c p) := by
      rintro j a m ⟨_, _, _, h2, _⟩
      omega
    simp only
    split
    · exact inv_lookup log s i p.sip _ o h (fun _ => Or.inr (Or.inr ⟨c, p, rfl, hop.1, rfl⟩)) nr
    · exact inv_frame log s s _ h rfl rfl (fun q _ _ => nr _ _)
  split
  · rename_i hop
    split
    · rename_i hd
      apply inv_frame log s s _ h rfl rfl
      rintro q _ _ m ⟨_, e1, _, _, _, _, e2, _⟩
      exact e2 (by rw [← e1, hd.2])
    split
    · rename_i hs
      apply inv_frame log s s _ h rfl rfl
      rintro q _ _ m ⟨_, e1, _, _, _, hv⟩
      rw [← e1] at hv
      rw [(sipOk_iff c p).2 hv] at hs
      simp at hs
    rename_i hs
    have hrep : ReplyFrom i p.sip p.sma (Ev.recv i c p) := by
      refine ⟨rfl, rfl, rfl, hop, (pktOk_iff c p).1 (by simpa using hpk), (sipOk_iff c p).1 (by simpa using hs)⟩
    have hne : p.sip ≠ 0 := ((sipOk_iff c p).1 (by simpa using hs)).1
    -- what happens to the pending entries in either case
    have hpend : ∀ q ∈ (pendMatch s.tick i p.sip s.pend).1, q.ip ≠ 0 →
        PendOk (log ++ [(s.tick, Ev.recv i c p, o)]) q := by
      intro q hq h0
      have hg := pendMatch_gone s.tick i p.sip s.pend h.up q hq h0
      obtain ⟨a, ha⟩ := List.getElem?_of_mem hq
      have := List.mem_of_getElem? (pendMatch_pos _ _ _ _ a q ha h0)
      apply pendOk_snoc _ _ _ (h.pend q this h0)
      rintro m ⟨e1, e2, _⟩
      exact hg ⟨e2.symm, e1.symm⟩
    have hup : Uniq pkey (pendMatch s.tick i p.sip s.pend).1 := by
      apply uniq_of_keys pkey s.pend _ h.up
      intro a q hq h0
      exact ⟨q, pendMatch_pos _ _ _ _ a q hq h0, rfl⟩
    split
    · rename_i hm
      obtain ⟨q, hq, k1, k2, k3, k4⟩ := pendMatch_true _ _ _ _ hm
      constructor
      · intro n hn h0
        simp only [store] at hn
        rcases List.mem_or_eq_of_mem_set hn with hn | hn
        · exact nbrOk_mono _ _ _ (h.nbr n hn h0)
        · subst hn
          refine ⟨?_, Ev.recv i c p, o, by simp, Or.inr (Or.inl ⟨_, hrep⟩)⟩
          obtain ⟨l1, l2, e, hl2⟩ := h.pend q hq k3
          rw [k1, k2] at e hl2
          refine ⟨l1, l2, [], q.ts, s.tick, Ev.recv i c p, o, by rw [e]; simp, hrep, k4, hl2⟩
      · exact hpend
      · exact uniq_store _ _ _ _ _ h.un
      · exact hup
    · constructor
      · intro n hn h0; exact nbrOk_mono _ _ _ (h.nbr n hn h0)
      · exact hpend
      · exact h.un
      · exact hup
  · rename_i hop
    apply inv_frame log s s _ h rfl rfl
    rintro q _ _ m ⟨_, _, _, h2, _⟩
    exact hop h2

theorem inv_step (log : Log) (s : St) (e : Ev) (h : Inv log s) :
    Inv (log ++ [(s.tick, e, (step s e).2)]) (step s e).1 := by
  cases e with
  | poll n now => exact inv_frame log s _ _ h rfl rfl (fun _ _ _ _ => id)
  | request i ip =>
    simp only [step, request]
    split
    · exact inv_frame log s s _ h rfl rfl (fun _ _ _ _ => id)
    · constructor
      · intro n hn h0; exact nbrOk_mono _ _ _ (h.nbr n hn h0)
      · intro p hp h0
        simp only [record] at hp
        rcases List.mem_or_eq_of_mem_set hp with hp | hp
        · exact pendOk_snoc _ _ _ (h.pend p hp h0) (fun _ => id)
        · subst hp; exact ⟨log, [], rfl, by simp⟩
      · exact h.un
      · exact uniq_record _ _ _ _ h.up
  | recv i c p => exact inv_recv log s i c p _ h
  | lookup i ip =>
    apply inv_lookup log s i ip _ _ h
    · rintro ⟨m, hm⟩; exact Or.inl ⟨rfl, m, by rw [step, lookup, hm]⟩
    · intro _ _ _; exact id
  | flushIf i =>
    constructor
    · intro n hn h0
      simp only [step, flushIf, List.mem_map] at hn
      obtain ⟨n0, h1, h2⟩ := hn
      split at h2
      · subst h2; exact absurd rfl h0
      · subst h2; exact nbrOk_mono _ _ _ (h.nbr _ h1 h0)
    · intro p hp h0; exact pendOk_snoc _ _ _ (h.pend p hp h0) (fun _ => id)
    · apply uniq_of_keys nkey s.nbr _ h.un
      intro a p' ha h0
      simp only [step, flushIf, List.getElem?_map] at ha
      cases hn : s.nbr[a]? with
      | none => rw [hn] at ha; simp at ha
      | some n0 =>
        rw [hn] at ha
        simp only [Option.map_some, Option.some.injEq] at ha
        split at ha
        · subst ha; exact absurd rfl h0
        · subst ha; exact ⟨_, rfl, rfl⟩
    · exact h.up

theorem inv_run : ∀ (es : List Ev) (log : Log) (s : St), Inv log s → Inv (log ++ (run s es).2) (run s es).1 := by
  intro es
  induction es with
  | nil => intro log s h; simpa [run] using h
  | cons e es ih =>
    intro log s h
    have := ih _ _ (inv_step log s e h)
    simpa [run] using this

/-! ## C28 -/

/-- **C28.** After any history, every hardware address the stack would use for `ip` on interface `i` was
given by an ARP reply from `ip` on that interface, received at most 5 s after a request of the stack for
that very address, being the first reply after it; and at most 120 s (by the clock) have passed since
the mapping was last used or its owner last heard. The unspecified address is excluded, see
`zero_address_resolves`. -/
theorem arp_only_solicited (es : List Ev) (i ip : Nat) (mac : List Nat) (h0 : ip ≠ 0)
    (h : answer (run St.init es).1 i ip = some mac) :
    Solicited (run St.init es).2 i ip mac ∧
    ∃ t e o, (t, e, o) ∈ (run St.init es).2 ∧ Touch i ip e o ∧
      (run St.init es).1.tick ≤ t + 120000 := by
  have hI := inv_run es [] St.init inv_init
  rw [List.nil_append] at hI
  obtain ⟨n, hn, e1, e2, e3, e4⟩ := nbrIndex_found _ _ _ _ _ h
  obtain ⟨q1, e, o, q2, q3⟩ := hI.nbr n hn (by rw [e1]; exact h0)
  rw [e1, e2, e3] at q1
  rw [e1, e2] at q3
  refine ⟨q1, n.ts, e, o, q2, q3, ?_⟩
  simp only [aged, AGING, decide_eq_false_iff_not] at e4
  omega

/-- Timestamps refreshed at the current tick do not change any answer. -/
theorem answer_refresh (s : St) (i ip : Nat) (hU : Uniq nkey s.nbr) (j a : Nat) (ha : a ≠ 0) :
    answer (lookup s i ip).1 j a = answer s j a := by
  have key : ∀ mac, answer (lookup s i ip).1 j a = some mac ↔ answer s j a = some mac := by
    intro mac
    simp only [answer, lookup]
    rw [nbrIndex_iff _ _ _ ha _ (uniq_nbrIndex _ _ _ _ hU), nbrIndex_iff _ _ _ ha _ hU]
    constructor
    · rintro ⟨n', hn', e1, e2, e3, e4⟩
      obtain ⟨n, hn, k1, k2, k3, hts⟩ := nbrIndex_mem _ _ _ _ _ hn' (by rw [e1]; exact ha)
      rcases hts with hts | ⟨g1, g2, g3, m, hm⟩
      · exact ⟨n, hn, by rw [k1, e1], by rw [k2, e2], by rw [k3, e3], by rw [← hts]; exact e4⟩
      · -- the found entry: by uniqueness it is n
        obtain ⟨n2, hn2, f1, f2, f3, f4⟩ := nbrIndex_found _ _ _ _ _ hm
        obtain ⟨x, hx⟩ := List.getElem?_of_mem hn
        obtain ⟨y, hy⟩ := List.getElem?_of_mem hn2
        have hxy := hU x y n n2 hx hy (by simp [nkey, k1, e1, ha])
          (by simp [nkey, k1, k2, g1, g2, f1, f2])
        subst hxy
        rw [hx] at hy
        simp only [Option.some.injEq] at hy
        subst hy
        exact ⟨n, hn, by rw [k1, e1], by rw [k2, e2], by rw [k3, e3], f4⟩
    · rintro ⟨n, hn, e1, e2, e3, e4⟩
      -- find n's image at the same position
      have : ∀ (l : List Nbr), n ∈ l → ∃ n' ∈ (nbrIndex s.tick i ip l).1, n'.ip = a ∧ n'.ifc = j ∧ n'.mac = mac ∧
          aged s.tick n'.ts = false := by
        intro l
        induction l with
        | nil => intro h; simp at h
        | cons x xs ih =>
          intro h
          simp only [nbrIndex]
          rcases List.mem_cons.1 h with rfl | h
          · split
            · rw [if_neg (by simp [e4])]
              exact ⟨_, List.mem_cons_self .., e1, e2, e3, by simp [aged]⟩
            · exact ⟨n, List.mem_cons_self .., e1, e2, e3, e4⟩
          · split
            · split
              · exact ⟨n, List.mem_cons_of_mem _ h, e1, e2, e3, e4⟩
              · exact ⟨n, List.mem_cons_of_mem _ h, e1, e2, e3, e4⟩
            · obtain ⟨n', hn', r⟩ := ih h
              exact ⟨n', List.mem_cons_of_mem _ hn', r⟩
      exact this _ hn
  cases h1 : answer (lookup s i ip).1 j a with
  | none =>
    cases h2 : answer s j a with
    | none => rfl
    | some m => rw [← key m] at h2; rw [h1] at h2; simp at h2
  | some m => rw [key m] at h1; rw [h1]

/-- **C28, no poisoning.** In any reachable state, a received ARP packet changes none of the addresses
the stack would use unless it is a reply from an address with a request of ours pending for at most
5 s on that interface; and then it changes at most the mapping of its own sender address (other
entries can only be evicted to make room). -/
theorem arp_unsolicited_no_effect (es : List Ev) (i : Nat) (c : Ctx) (p : Pkt)
    (h : ¬ (p.opcode = 2 ∧ ∃ q ∈ (run St.init es).1.pend, q.ip = p.sip ∧ q.ifc = i ∧
      (run St.init es).1.tick ≤ q.ts + 5000)) (j a : Nat) (ha : a ≠ 0) :
    answer (recv (run St.init es).1 i c p).1 j a = answer (run St.init es).1 j a := by
  have hI := inv_run es [] St.init inv_init
  generalize (run St.init es).1 = s at *
  rw [recv]
  split
  · rfl
  split
  · simp only
    split
    · exact answer_refresh s i p.sip hI.un j a ha
    · rfl
  split
  · rename_i hop
    split
    · rfl
    split
    · rfl
    split
    · rename_i hm
      obtain ⟨q, hq, k1, k2, k3, k4⟩ := pendMatch_true _ _ _ _ hm
      exact absurd ⟨hop, q, hq, k1, k2, k4⟩ h
    · rfl
  · rfl

theorem arp_solicited_local (es : List Ev) (i : Nat) (c : Ctx) (p : Pkt) (j a : Nat) (ha : a ≠ 0)
    (hne : (a, j) ≠ (p.sip, i)) (mac : List Nat)
    (h : answer (recv (run St.init es).1 i c p).1 j a = some mac) :
    answer (run St.init es).1 j a = some mac := by
  have hI := inv_run es [] St.init inv_init
  by_cases hc : p.opcode = 2 ∧ ∃ q ∈ (run St.init es).1.pend, q.ip = p.sip ∧ q.ifc = i ∧
      (run St.init es).1.tick ≤ q.ts + 5000
  · generalize (run St.init es).1 = s at *
    rw [recv] at h
    split at h
    · exact h
    split at h
    · rename_i h1; omega
    split at h
    · split at h
      · exact h
      split at h
      · exact h
      split at h
      · simp only [answer, lookup, store] at h ⊢
        rw [nbrIndex_iff _ _ _ ha _ hI.un]
        obtain ⟨n, hn, e1, e2, e3, e4⟩ := nbrIndex_found _ _ _ _ _ h
        rcases List.mem_or_eq_of_mem_set hn with hn | hn
        · exact ⟨n, hn, e1, e2, e3, e4⟩
        · subst hn; exact absurd (by rw [← e1, ← e2]) hne
      · exact h
    · exact h
  · rw [arp_unsolicited_no_effect es i c p hc j a ha] at h
    exact h

theorem lruGo_lt : ∀ (l : List Nbr) (i slot o : Nat), slot < i → lruGo l i slot o < i + l.length := by
  intro l
  induction l with
  | nil => intro i slot o h; simp [lruGo]; omega
  | cons n ns ih =>
    intro i slot o h
    simp only [lruGo, List.length_cons]
    split
    · have := ih (i + 1) i n.ts (by omega); omega
    · have := ih (i + 1) slot o (by omega); omega

theorem storeSlot_lt (l : List Nbr) (i ip : Nat) (hl : 0 < l.length) : storeSlot l i ip < l.length := by
  rw [storeSlot]
  split
  · rename_i k hk
    obtain ⟨h, _⟩ := List.findIdx?_eq_some_iff_getElem.1 hk
    exact h
  · split
    · rename_i k hk
      obtain ⟨h, _⟩ := List.findIdx?_eq_some_iff_getElem.1 hk
      exact h
    · match l, hl with
      | n :: ns, _ =>
        simp only [lru, List.length_cons]
        have := lruGo_lt ns 1 0 n.ts (by omega)
        omega

theorem oldGo_lt : ∀ (l : List Pend) (i slot o : Nat), slot < i + l.length → oldGo l i slot o < i + l.length := by
  intro l
  induction l with
  | nil => intro i slot o h; simpa [oldGo] using h
  | cons n ns ih =>
    intro i slot o h
    simp only [oldGo, List.length_cons] at h ⊢
    split
    · have := ih (i + 1) i n.ts (by omega); omega
    · have := ih (i + 1) slot o (by omega); omega

theorem recSlot_lt (l : List Pend) (i ip : Nat) (hl : 0 < l.length) : recSlot l i ip < l.length := by
  rw [recSlot]
  split
  · rename_i k hk
    obtain ⟨h, _⟩ := List.findIdx?_eq_some_iff_getElem.1 hk
    exact h
  · split
    · rename_i k hk
      obtain ⟨h, _⟩ := List.findIdx?_eq_some_iff_getElem.1 hk
      exact h
    · have := oldGo_lt l 0 0 18446744073709551615 (by omega)
      omega

/-- Table sizes never change. -/
theorem lens_step (s : St) (e : Ev) : (step s e).1.nbr.length = s.nbr.length ∧
    (step s e).1.pend.length = s.pend.length := by
  have hn : ∀ t i ip (l : List Nbr), (nbrIndex t i ip l).1.length = l.length := by
    intro t i ip l
    induction l with
    | nil => rfl
    | cons n ns ih => simp only [nbrIndex]; split <;> (try split) <;> simp [ih]
  have hp : ∀ t i ip (l : List Pend), (pendMatch t i ip l).1.length = l.length := by
    intro t i ip l
    induction l with
    | nil => rfl
    | cons n ns ih =>
      simp only [pendMatch]
      split
      · simp [ih]
      split
      · simp [ih]
      split
      · simp
      · simp [ih]
  cases e with
  | poll n now => exact ⟨rfl, rfl⟩
  | request i ip =>
    simp only [step, request]
    split
    · exact ⟨rfl, rfl⟩
    · simp [record]
  | recv i c p =>
    simp only [step, recv]
    split
    · exact ⟨rfl, rfl⟩
    split
    · simp only; split
      · simp [lookup, hn]
      · exact ⟨rfl, rfl⟩
    split
    · split
      · exact ⟨rfl, rfl⟩
      split
      · exact ⟨rfl, rfl⟩
      split
      · simp [store, hp]
      · simp [hp]
    · exact ⟨rfl, rfl⟩
  | lookup i ip => simp [step, lookup, hn]
  | flushIf i => simp [step, flushIf]

theorem lens_run : ∀ (es : List Ev) (s : St), (run s es).1.nbr.length = s.nbr.length ∧
    (run s es).1.pend.length = s.pend.length := by
  intro es
  induction es with
  | nil => intro s; exact ⟨rfl, rfl⟩
  | cons e es ih =>
    intro s
    simp only [run]
    obtain ⟨h1, h2⟩ := ih (step s e).1
    obtain ⟨h3, h4⟩ := lens_step s e
    exact ⟨by rw [h1, h3], by rw [h2, h4]⟩

/-- **C28, converse.** From any reachable state: when the stack issues a request for `ip` and the next
thing it hears, at most 5 s later, is a reply from `ip`, that reply's address is used from then on. -/
theorem arp_reply_learned (es : List Ev) (i ip n now : Nat) (c : Ctx) (p : Pkt)
    (hq : (request (run St.init es).1 i ip).2 = true)
    (hnow : now ≤ (run St.init es).1.tick + 5000)
    (hr : ReplyFrom i ip p.sma (.recv i c p)) :
    answer (run (run St.init es).1 [.request i ip, .poll n now, .recv i c p]).1 i ip = some p.sma := by
  have hI := inv_run es [] St.init inv_init
  have hlen := lens_run es St.init
  generalize (run St.init es).1 = s at *
  have hI' : Uniq nkey s.nbr := hI.un
  have hp4 : s.pend.length = 4 := by rw [hlen.2]; rfl
  have hn16 : s.nbr.length = 16 := by rw [hlen.1]; rfl
  obtain ⟨_, hsip, _, hop, hv, hs⟩ := hr
  simp only [run, step]
  simp only [request] at hq
  split at hq
  · simp at hq
  rename_i hl
  simp only [request, if_neg hl]
  have h0 : ip ≠ 0 := hs.1
  rw [recv, if_neg (by rw [(pktOk_iff c p).2 hv]; simp), if_neg (by omega), if_pos hop,
    if_neg (by rintro ⟨_, h⟩; exact hs.2.1 (by rw [← hsip, h])),
    if_neg (by rw [(sipOk_iff c p).2 (by rw [hsip]; exact hs)]; simp)]
  have hm : (pendMatch now i ip (s.pend.set (recSlot s.pend i ip) ⟨ip, i, s.tick⟩)).2 = true := by
    have hmem : (⟨ip, i, s.tick⟩ : Pend) ∈ s.pend.set (recSlot s.pend i ip) ⟨ip, i, s.tick⟩ := by
      apply List.mem_of_getElem? (i := recSlot s.pend i ip)
      rw [List.getElem?_set_self (recSlot_lt _ _ _ (by omega))]
    revert hmem
    generalize s.pend.set (recSlot s.pend i ip) ⟨ip, i, s.tick⟩ = l
    intro hmem
    induction l with
    | nil => simp at hmem
    | cons q qs ih =>
      simp only [pendMatch]
      rcases List.mem_cons.1 hmem with rfl | hmem
      · rw [if_neg h0, if_neg (by simp only [TTL]; omega), if_pos ⟨rfl, rfl⟩]
      · split
        · exact ih hmem
        split
        · exact ih hmem
        split
        · rfl
        · exact ih hmem
  rw [if_pos (by rw [hsip]; exact hm), hsip]
  simp only [answer, lookup, store, poll, record]
  rw [nbrIndex_iff _ _ _ h0 _ (uniq_store _ _ _ _ _ hI')]
  refine ⟨⟨ip, i, p.sma, now⟩, ?_, rfl, rfl, rfl, by simp [aged]⟩
  apply List.mem_of_getElem? (i := storeSlot s.nbr i ip)
  rw [List.getElem?_set_self (storeSlot_lt _ _ _ (by omega))]

/-! ### What C28 does not say -/

/-- The unspecified address on interface 0 "resolves" to 00:00:00:00:00:00 from an empty table slot
during the first 120 s: empty slots are marked with address 0 and match a lookup of 0.0.0.0. -/
theorem zero_address_resolves : answer St.init 0 0 = some [0, 0, 0, 0, 0, 0] := by decide

/-- A sample context and packets. -/
def demoCtx : Ctx := { ether := true, ownIp := 10, ownMac := [2, 0, 0, 0, 0, 1], dad := false, group := fun a => a == 255 }
def demoReply (mac : List Nat) : Pkt :=
  { len := 42, htype := 1, ptype := 0x0800, hlen := 6, plen := 4, opcode := 2, sma := mac, sip := 20, tip := 10 }
def demoReq (mac : List Nat) : Pkt := { demoReply mac with opcode := 1 }

/-- An ARP request claiming the address with a *different* hardware address also keeps an entry from
ageing out (the test at src/wolfip.c 9777 comes after the refresh): here at 200 s the entry learned at
1 s has not been looked up since, and is still used because of an impostor's request at 100 s. -/
theorem foreign_request_refreshes :
    answer (run St.init [.poll 2 1000, .request 0 20, .recv 0 demoCtx (demoReply [4, 1, 1, 1, 1, 1]),
      .poll 2 100000, .recv 0 demoCtx (demoReq [6, 6, 6, 6, 6, 6]), .poll 2 200000]).1 0 20 =
      some [4, 1, 1, 1, 1, 1] ∧
    answer (run St.init [.poll 2 1000, .request 0 20, .recv 0 demoCtx (demoReply [4, 1, 1, 1, 1, 1]),
      .poll 2 200000]).1 0 20 = none := by decide +kernel

/-- Non-vacuity: a solicited reply is used, a second one and an unsolicited one are not. -/
example :
    answer (run St.init [.poll 2 1000, .request 0 20, .recv 0 demoCtx (demoReply [4, 1, 1, 1, 1, 1]),
      .recv 0 demoCtx (demoReply [6, 6, 6, 6, 6, 6])]).1 0 20 = some [4, 1, 1, 1, 1, 1] ∧
    answer (run St.init [.poll 2 1000, .recv 0 demoCtx (demoReply [6, 6, 6, 6, 6, 6])]).1 0 20 = none := by
  decide +kernel

/-! ## C29 -/

/-- The clock does not run backwards during the events. -/
def NoRestart (s : St) : List Ev → Prop
  | [] => True
  | e :: es => (∀ n now, e = .poll n now → s.tick ≤ now) ∧ NoRestart (step s e).1 es

theorem limiter_mono : ∀ (es : List Ev) (s : St) (i m : Nat), NoRestart s es →
    s.lastArp i ≥ m + 1 → s.tick ≥ m →
    (run s es).1.lastArp i ≥ m + 1 ∧ (run s es).1.tick ≥ m := by
  intro es
  induction es with
  | nil => intro s i m _ h1 h2; exact ⟨h1, h2⟩
  | cons e es ih =>
    intro s i m hn h1 h2
    obtain ⟨hn1, hn2⟩ := hn
    simp only [run]
    have key : (step s e).1.lastArp i ≥ m + 1 ∧ (step s e).1.tick ≥ m := by
      cases e with
      | poll n now =>
        have := hn1 n now rfl
        simp only [step, poll]
        rw [if_neg (by omega)]
        exact ⟨h1, by omega⟩
      | request j ip =>
        simp only [step, request]
        split
        · exact ⟨h1, h2⟩
        · simp only [record]
          split
          · exact ⟨by omega, h2⟩
          · exact ⟨h1, h2⟩
      | recv j c p =>
        simp only [step, recv]
        split
        · exact ⟨h1, h2⟩
        split
        · simp only; split <;> exact ⟨h1, h2⟩
        split
        · split
          · exact ⟨h1, h2⟩
          split
          · exact ⟨h1, h2⟩
          split <;> exact ⟨h1, h2⟩
        · exact ⟨h1, h2⟩
      | lookup j ip => exact ⟨h1, h2⟩
      | flushIf j => exact ⟨h1, h2⟩
    exact ih _ i m hn2 key.1 key.2

/-- **C29.** If an address-resolution request is issued on an interface, and later another one on the
same interface without the clock having run backwards in between, then more than a second of stack
time lies between them. -/
theorem arp_rate_limit (s : St) (i a b : Nat) (es : List Ev)
    (h1 : (step s (.request i a)).2 = .issued true)
    (hm : NoRestart (step s (.request i a)).1 es)
    (h2 : (step (run (step s (.request i a)).1 es).1 (.request i b)).2 = .issued true) :
    (run (step s (.request i a)).1 es).1.tick > s.tick + 1000 := by
  simp only [step, Out.issued.injEq] at h1
  have e1 : (step s (.request i a)).1.lastArp i ≥ s.tick + 1 ∧ (step s (.request i a)).1.tick ≥ s.tick := by
    simp only [request] at h1
    split at h1
    · simp at h1
    · rename_i hl
      simp only [step, request, if_neg hl, record, if_true]
      omega
  obtain ⟨k1, k2⟩ := limiter_mono es _ i s.tick hm e1.1 e1.2
  generalize (run (step s (.request i a)).1 es).1 = s' at *
  simp only [step, Out.issued.injEq, request] at h2
  split at h2
  · simp at h2
  · rename_i hl
    simp only [limited, decide_eq_true_eq] at hl
    omega

/-- **C29, every request issued is pending.** -/
theorem arp_request_recorded (s : St) (i ip : Nat) (hl : 0 < s.pend.length)
    (h : (step s (.request i ip)).2 = .issued true) :
    ⟨ip, i, s.tick⟩ ∈ (step s (.request i ip)).1.pend := by
  simp only [step, Out.issued.injEq] at h
  simp only [request] at h
  split at h
  · simp at h
  · rename_i hlim
    simp only [step, request, if_neg hlim, record]
    apply List.mem_of_getElem? (i := recSlot s.pend i ip)
    rw [List.getElem?_set_self (recSlot_lt _ _ _ hl)]

/-- Non-vacuity and tightness: at 1000 ms after the first the second request is held back, at 1001 ms
it goes out; a clock restart lifts the limit. -/
example :
    let s := (run St.init [.poll 2 5000, .request 0 20]).1
    (step (run s [.poll 2 6000]).1 (.request 0 21)).2 = .issued false ∧
    (step (run s [.poll 2 6001]).1 (.request 0 21)).2 = .issued true ∧
    (step (run s [.poll 2 10]).1 (.request 0 21)).2 = .issued true := by
  refine ⟨?_, ?_, ?_⟩ <;> rfl

/-! ## Removing an interface -/

/-- **C28, deleted interface**: after a VLAN interface is deleted no mapping learned on it is used any more, so a new
interface with the same number starts empty; the mappings of the other interfaces stay. -/
theorem flush_forgets (s : St) (i j ip : Nat) (h0 : ip ≠ 0) :
    answer (flushIf s i) j ip = if j = i then none else answer s j ip := by
  unfold answer lookup flushIf
  dsimp only
  generalize s.nbr = l
  induction l with
  | nil => simp [nbrIndex]
  | cons n ns ih =>
    rw [List.map_cons]
    by_cases hn : n.ifc = i
    · rw [if_pos hn]
      rw [nbrIndex, if_neg (fun c => h0 c.1.symm)]
      dsimp only
      rw [ih]
      by_cases hj : j = i
      · rw [if_pos hj, if_pos hj]
      · rw [if_neg hj, if_neg hj, nbrIndex, if_neg (show ¬ (n.ip = ip ∧ n.ifc = j) from fun c => hj (c.2 ▸ hn))]
    · rw [if_neg hn]
      rw [nbrIndex]
      by_cases hm : n.ip = ip ∧ n.ifc = j
      · rw [if_pos hm, if_neg (show ¬ j = i from fun c => hn (c ▸ hm.2)), nbrIndex, if_pos hm]
        split <;> rfl
      · rw [if_neg hm]
        dsimp only
        rw [ih]
        by_cases hj : j = i
        · rw [if_pos hj, if_pos hj]
        · rw [if_neg hj, if_neg hj, nbrIndex, if_neg hm]

example :
    let s := (run St.init [.poll 3 5000, .request 2 20, .recv 2 ⟨true, 7, [2, 0, 0, 0, 0, 1], false, fun _ => false⟩
      ⟨42, 1, 0x0800, 6, 4, 2, [2, 0, 0, 0, 0, 9], 20, 7⟩]).1
    answer s 2 20 = some [2, 0, 0, 0, 0, 9] ∧ answer (flushIf s 2) 2 20 = none := by
  refine ⟨?_, ?_⟩ <;> decide +kernel

end Wolf.Arp
