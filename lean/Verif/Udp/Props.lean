import Verif.Udp.Model
import Verif.Ip.Recv
/-!
# C22: datagrams go only to the right socket and keep their boundaries
-/
namespace Wolf.Udp
open Wolf.Route (Ip)
open Wolf.IpIn (Net u8 u16 tot src dst isMcast Mcast isMcast_iff bytes_drop)
open Wolf.Csum (Bytes words)

/-! ## Specification -/

/-- A correct UDP datagram in a frame without IP options: it lies inside the IP datagram, which lies inside the
frame, and its checksum is absent or right: the words of pseudo header and datagram sum to a non-zero multiple of
65535. -/
structure ValidUdp (g : List Nat) : Prop where
  len : 42 ≤ g.length
  total : 14 + tot g ≤ g.length
  hdr : 8 ≤ ulen g
  inside : 20 + ulen g ≤ tot g
  sum : u16 g 40 = 0 ∨
    (words ((g.drop 26).take 8 ++ [0, 17, ulen g / 256, ulen g % 256])).sum + (words ((g.drop 34).take (ulen g))).sum ≠ 0 ∧
    ((words ((g.drop 26).take 8 ++ [0, 17, ulen g / 256, ulen g % 256])).sum + (words ((g.drop 34).take (ulen g))).sum) % 65535 = 0

/-- The socket's addresses admit the datagram: a group it joined on that interface, or its own address; if connected,
from its peer (0 meaning any). The last case is what the code adds: no local address yet while DHCP runs. -/
def Admits (n : Net) (i : Nat) (t : Sock) (g : List Nat) : Prop :=
  (Mcast (dst g) ∧ (i, dst g) ∈ t.groups ∧ (t.conn = true → t.rip = 0 ∨ t.rip = src g ∨ t.rip = dst g)) ∨
  (¬ Mcast (dst g) ∧ t.lip = dst g ∧ (t.conn = true → (t.dport = 0 ∨ t.dport = sportOf g) ∧ (t.rip = 0 ∨ t.rip = src g))) ∨
  (¬ Mcast (dst g) ∧ t.lip = 0 ∧ n.dhcp = true)

/-- Replaying the events of socket `k` on a plain queue: a read must return the oldest frame waiting. -/
def replay (k : Nat) : List (List Nat) → List Ev → Option (List (List Nat))
  | q, [] => some q
  | q, .queued j _ g :: es => if j = k then replay k (q ++ [g]) es else replay k q es
  | q, .read j g :: es =>
    if j = k then
      match q with
      | [] => none
      | h :: q => if h = g then replay k q es else none
    else replay k q es
  | q, .reset j :: es => if j = k then replay k [] es else replay k q es
  | q, .unreachable _ _ :: es => replay k q es
  | q, .sent _ _ _ _ _ _ :: es => replay k q es

/-- Every frame is made of bytes. -/
def ByteOps (ops : List Op) : Prop := ∀ i g v r, Op.frame i g v r ∈ ops → Bytes g

/-! ## Matching -/

theorem words_pseudo (g : List Nat) (hb : Bytes g) (hl : 42 ≤ g.length) : pseudo g = (g.drop 26).take 8 ++ [0, 17, ulen g / 256, ulen g % 256] := by
  have e : (g.drop 38).take 2 = [ulen g / 256, ulen g % 256] := by
    have h38 : g.drop 38 = g[38]'(by omega) :: g[39]'(by omega) :: g.drop 40 := by
      rw [List.drop_eq_getElem_cons (by omega), List.drop_eq_getElem_cons (by omega)]
    rw [h38]
    have b38 := hb _ (List.getElem_mem (show 38 < g.length by omega))
    have b39 := hb _ (List.getElem_mem (show 39 < g.length by omega))
    have e1 : u8 g 38 = g[38]'(by omega) := by
      rw [u8, List.getD_eq_getElem?_getD, List.getElem?_eq_getElem (by omega)]; rfl
    have e2 : u8 g 39 = g[39]'(by omega) := by
      rw [u8, List.getD_eq_getElem?_getD, List.getElem?_eq_getElem (by omega)]; rfl
    rw [ulen, u16, e1, e2]
    have h1 : (g[38]'(by omega) * 256 + g[39]'(by omega)) / 256 = g[38]'(by omega) := by omega
    have h2 : (g[38]'(by omega) * 256 + g[39]'(by omega)) % 256 = g[39]'(by omega) := by omega
    rw [h1, h2]; rfl
  rw [pseudo, e, List.append_assoc]; rfl

theorem u16_lt (g : List Nat) (hb : Bytes g) (k : Nat) : u16 g k < 65536 := by
  have h1 := IpIn.u8_lt g hb k
  have h2 := IpIn.u8_lt g hb (k + 1)
  rw [u16]; omega

theorem verify_iff (g : List Nat) (hb : Bytes g) (hl : 42 ≤ g.length) (hu : ulen g ≤ g.length - 34) :
    Csum.transportVerify (pseudo g) (g.drop 34) = true ↔
      (words ((g.drop 26).take 8 ++ [0, 17, ulen g / 256, ulen g % 256])).sum + (words ((g.drop 34).take (ulen g))).sum ≠ 0 ∧
      ((words ((g.drop 26).take 8 ++ [0, 17, ulen g / 256, ulen g % 256])).sum + (words ((g.drop 34).take (ulen g))).sum) % 65535 = 0 := by
  rw [words_pseudo g hb hl]
  have hu16 := u16_lt g hb 38
  have hdl : ((g.drop 26).take 8).length = 8 := by rw [List.length_take, List.length_drop]; omega
  generalize hp : (g.drop 26).take 8 ++ [0, 17, ulen g / 256, ulen g % 256] = ph
  have hfld : ph.getD 10 0 * 256 + ph.getD 11 0 = ulen g := by
    rw [← hp, List.getD_eq_getElem?_getD, List.getD_eq_getElem?_getD, List.getElem?_append_right (by omega), List.getElem?_append_right (by omega), hdl]
    show ulen g / 256 * 256 + ulen g % 256 = ulen g
    omega
  have hd : ((g.drop 34).take (ulen g)).length = ulen g := by rw [List.length_take, List.length_drop]; omega
  have hok : Csum.PseudoOk ph ((g.drop 34).take (ulen g)) := by
    refine ⟨by rw [← hp, List.length_append, hdl]; rfl, ?_, by rw [hfld, hd]⟩
    rw [← hp]
    intro x hx
    rcases List.mem_append.mp hx with h | h
    · exact hb x (List.mem_of_mem_drop (List.mem_of_mem_take h))
    · simp only [List.mem_cons, List.not_mem_nil, or_false] at h
      have hu : ulen g < 65536 := hu16
      rcases h with h | h | h | h <;> omega
  have hsame : Csum.transportVerify ph (g.drop 34) = Csum.transportVerify ph ((g.drop 34).take (ulen g)) := by
    simp only [Csum.transportVerify, Csum.transportChecksum, hfld]
    rw [List.take_take, Nat.min_self]
  rw [hsame, Csum.transportVerify_iff ph _ hok (Csum.bytes_take _ _ (bytes_drop _ _ hb)), Csum.fold_ok_iff]
  rfl

theorem udpOk_iff (g : List Nat) (hb : Bytes g) : udpOk g = true ↔ ValidUdp g := by
  rw [udpOk]
  by_cases h1 : g.length < 42
  · rw [if_pos h1]; exact ⟨fun c => Bool.noConfusion c, fun c => absurd c.len (by omega)⟩
  rw [if_neg h1]
  by_cases h2 : g.length < 14 + tot g
  · rw [if_pos h2]; exact ⟨fun c => Bool.noConfusion c, fun c => absurd c.total (by omega)⟩
  rw [if_neg h2]
  by_cases h3 : ulen g < 8
  · rw [if_pos h3]; exact ⟨fun c => Bool.noConfusion c, fun c => absurd c.hdr (by omega)⟩
  rw [if_neg h3]
  by_cases h4 : ulen g > g.length - 34
  · rw [if_pos h4]; refine ⟨fun c => Bool.noConfusion c, fun c => ?_⟩
    have := c.inside; have := c.total; omega
  rw [if_neg h4]
  by_cases h5 : tot g < 20 ∨ ulen g > tot g - 20
  · rw [if_pos h5]; refine ⟨fun c => Bool.noConfusion c, fun c => ?_⟩
    have := c.inside; omega
  rw [if_neg h5]
  have hv := verify_iff g hb (by omega) (by omega)
  by_cases h6 : u16 g 40 ≠ 0 ∧ Csum.transportVerify (pseudo g) (g.drop 34) = false
  · rw [if_pos h6]; refine ⟨fun c => Bool.noConfusion c, fun c => ?_⟩
    rcases c.sum with c | c
    · exact absurd c h6.1
    · rw [hv.mpr c] at h6; exact absurd h6.2 (by simp)
  rw [if_neg h6]
  refine ⟨fun _ => ⟨by omega, by omega, by omega, by omega, ?_⟩, fun _ => rfl⟩
  by_cases h7 : u16 g 40 = 0
  · exact Or.inl h7
  · right
    apply hv.mp
    cases hx : Csum.transportVerify (pseudo g) (g.drop 34) with
    | true => rfl
    | false => exact absurd ⟨h7, hx⟩ h6

theorem addrMatch_iff (n : Net) (i : Nat) (t : Sock) (g : List Nat) : addrMatch n i t g = true ↔ Admits n i t g := by
  rw [addrMatch, Admits, ← isMcast_iff]
  cases hm : isMcast (dst g) with
  | true =>
    rw [if_pos rfl]
    cases hc : t.conn <;> simp [Bool.or_eq_true, beq_iff_eq, or_assoc]
  | false =>
    rw [if_neg (by simp)]
    cases hc : t.conn <;> simp [peerMatch, hc, Bool.or_eq_true, beq_iff_eq]
    · constructor
      · rintro (⟨h1, h2⟩ | h)
        · exact Or.inr ⟨h1, h2⟩
        · exact Or.inl h
      · rintro (h | ⟨h1, h2⟩)
        · exact Or.inr h
        · exact Or.inl ⟨h1, h2⟩
    · constructor
      · rintro (⟨h1, h2⟩ | h)
        · exact Or.inr ⟨h1, h2⟩
        · exact Or.inl h
      · rintro (h | ⟨h1, h2⟩)
        · exact Or.inr h
        · exact Or.inl ⟨h1, h2⟩

theorem takes_iff (n : Net) (i : Nat) (t : Sock) (g : List Nat) : takes n i t g = true ↔ t.sport = dportOf g ∧ Admits n i t g := by
  rw [takes, Bool.and_eq_true, beq_iff_eq, addrMatch_iff]

theorem mem_queuedEvs (n : Net) (i : Nat) (g : List Nat) (room : Nat → Bool) (socks : List Sock) (e : Ev) :
    e ∈ queuedEvs n i g room socks ↔ ∃ (k : Nat) (t : Sock), socks[k]? = some t ∧ takes n i t g = true ∧ room k = true ∧ e = .queued k i g := by
  rw [queuedEvs, List.mem_flatMap]
  constructor
  · rintro ⟨⟨t, k⟩, hm, he⟩
    rw [List.mem_zipIdx_iff_getElem?] at hm
    simp only at he hm
    by_cases c : (takes n i t g && room k) = true
    · rw [if_pos c, List.mem_singleton] at he
      rw [Bool.and_eq_true] at c
      exact ⟨k, t, hm, c.1, c.2, he⟩
    · rw [if_neg c] at he; cases he
  · rintro ⟨k, t, h1, h2, h3, h4⟩
    refine ⟨(t, k), by rw [List.mem_zipIdx_iff_getElem?]; exact h1, ?_⟩
    simp only [h2, h3, Bool.and_self, if_true, h4, List.mem_singleton]

/-- **C22, delivery (one datagram).** A frame is queued on socket `k` exactly when it carries a correct datagram which
the filter lets through, the socket is bound to its destination port, its addresses admit it, and the buffer has
room. -/
theorem udp_queued_iff (s : St) (i : Nat) (g : List Nat) (veto : Bool) (room : Nat → Bool) (hb : Bytes g) (k j : Nat) (h : List Nat) :
    Ev.queued k j h ∈ (step s (.frame i g veto room)).2.2 ↔
      (j = i ∧ h = g ∧ veto = false ∧ ValidUdp g ∧ room k = true ∧ ∃ t : Sock, s.socks[k]? = some t ∧ t.sport = dportOf g ∧ Admits s.net i t g) := by
  show Ev.queued k j h ∈ (tryRecv s i g veto room).2 ↔ _
  rw [tryRecv, ← udpOk_iff g hb]
  cases hu : udpOk g with
  | false => rw [if_pos rfl]; constructor
             · intro c; cases c
             · rintro ⟨_, _, _, c, _⟩; cases c
  | true =>
    rw [if_neg (by simp)]
    cases veto with
    | true => rw [if_pos rfl]; constructor
              · intro c; cases c
              · rintro ⟨_, _, c, _⟩; cases c
    | false =>
      rw [if_neg (by simp)]
      simp only [List.mem_append, mem_queuedEvs]
      have hno : ¬ Ev.queued k j h ∈ (if s.socks.any (fun t => takes s.net i t g) then ([] : List Ev)
        else if IpIn.answersUnmatched s.net g then [Ev.unreachable i g] else []) := by
        split
        · exact List.not_mem_nil
        · split
          · rw [List.mem_singleton]; exact Ev.noConfusion
          · exact List.not_mem_nil
      constructor
      · rintro (⟨k', t, h1, h2, h3, h4⟩ | c)
        · cases h4
          exact ⟨rfl, rfl, trivial, trivial, h3, t, h1, (takes_iff _ _ _ _).mp h2⟩
        · exact absurd c hno
      · rintro ⟨h1, h2, _, _, h3, t, h4, h5⟩
        subst h1; subst h2
        exact Or.inl ⟨k, t, h4, (takes_iff _ _ _ _).mpr h5, h3, rfl⟩

/-! ## The queue of a socket is what its events say -/

theorem replay_append (k : Nat) (es : List Ev) : ∀ (q : List (List Nat)) (fs : List Ev) (q' : List (List Nat)), replay k q es = some q' →
    replay k q (es ++ fs) = replay k q' fs := by
  induction es with
  | nil => intro q fs q' h; cases h; rfl
  | cons e es ih =>
    intro q fs q' h
    cases e with
    | queued j i g =>
      rw [replay] at h
      show replay k q (.queued j i g :: (es ++ fs)) = _
      rw [replay]
      by_cases c : j = k
      · rw [if_pos c] at h ⊢; exact ih _ _ _ h
      · rw [if_neg c] at h ⊢; exact ih _ _ _ h
    | read j g =>
      rw [replay.eq_def] at h
      show replay k q (.read j g :: (es ++ fs)) = _
      rw [replay.eq_def]
      simp only at h ⊢
      by_cases c : j = k
      · rw [if_pos c] at h ⊢
        cases q with
        | nil => cases h
        | cons x q =>
          simp only at h ⊢
          by_cases d : x = g
          · rw [if_pos d] at h ⊢; exact ih _ _ _ h
          · rw [if_neg d] at h; cases h
      · rw [if_neg c] at h ⊢; exact ih _ _ _ h
    | reset j =>
      rw [replay] at h
      show replay k q (.reset j :: (es ++ fs)) = _
      rw [replay]
      by_cases c : j = k
      · rw [if_pos c] at h ⊢; exact ih _ _ _ h
      · rw [if_neg c] at h ⊢; exact ih _ _ _ h
    | unreachable i g =>
      rw [replay] at h
      show replay k q (.unreachable i g :: (es ++ fs)) = _
      rw [replay]; exact ih _ _ _ h
    | sent a b c d e f =>
      rw [replay] at h
      show replay k q (.sent a b c d e f :: (es ++ fs)) = _
      rw [replay]; exact ih _ _ _ h

/-- The receive queue of socket `k`. -/
def rxOf (s : St) (k : Nat) : List (List Nat) := (s.socks[k]?.map Sock.rx).getD []

theorem rx_set (s : St) (j k : Nat) (t : Sock) (hj : j < s.socks.length) : rxOf (setSock s j t) k = if j = k then t.rx else rxOf s k := by
  rw [rxOf, setSock]
  simp only
  by_cases c : j = k
  · subst c; rw [if_pos rfl, List.getElem?_set_self hj]; rfl
  · rw [if_neg c, List.getElem?_set_ne c]; rfl

theorem rx_same (s : St) (j k : Nat) (t u : Sock) (hj : s.socks[j]? = some u) (he : t.rx = u.rx) : rxOf (setSock s j t) k = rxOf s k := by
  have hlt : j < s.socks.length := by rw [List.getElem?_eq_some_iff] at hj; exact hj.1
  rw [rx_set s j k t hlt]
  by_cases c : j = k
  · subst c; rw [if_pos rfl, he, rxOf, hj]; rfl
  · rw [if_neg c]

theorem keep_rx (s : St) (j k : Nat) (t u : Sock) (hj : s.socks[j]? = some u) (he : t.rx = u.rx) :
    replay k (rxOf s k) [] = some (rxOf (setSock s j t) k) := by rw [rx_same s j k t u hj he]; rfl

/-- The events of the loop over the slots from number `a` on. -/
theorem replay_queuedEvs (n : Net) (i : Nat) (g : List Nat) (room : Nat → Bool) (k : Nat) : ∀ (socks : List Sock) (a : Nat) (q : List (List Nat)),
    replay k q ((socks.zipIdx a).flatMap (fun (t, k) => if takes n i t g && room k then [Ev.queued k i g] else [])) =
      some (match (if a ≤ k then socks[k - a]? else none) with
        | some t => if takes n i t g && room k then q ++ [g] else q
        | none => q) := by
  intro socks
  induction socks with
  | nil => intro a q; rw [List.zipIdx_nil, List.flatMap_nil, replay]; split <;> simp_all
  | cons t ts ih =>
    intro a q
    rw [List.zipIdx_cons, List.flatMap_cons]
    simp only
    by_cases hc : (takes n i t g && room a) = true
    · rw [if_pos hc, List.singleton_append, replay]
      by_cases hk : a = k
      · subst hk
        rw [if_pos rfl, ih, if_neg (by omega), if_pos (Nat.le_refl _), Nat.sub_self]
        simp only [List.getElem?_cons_zero, hc, if_true]
      · rw [if_neg hk, ih]
        by_cases hle : a ≤ k
        · rw [if_pos hle, if_pos (by omega)]
          have : k - a = (k - (a + 1)) + 1 := by omega
          rw [this, List.getElem?_cons_succ]
        · rw [if_neg hle, if_neg (by omega)]
    · rw [if_neg hc, List.nil_append, ih]
      by_cases hle : a ≤ k
      · rw [if_pos hle]
        by_cases hk : a = k
        · subst hk
          rw [if_neg (by omega), Nat.sub_self]
          simp only [List.getElem?_cons_zero]
          rw [if_neg hc]
        · rw [if_pos (by omega)]
          have : k - a = (k - (a + 1)) + 1 := by omega
          rw [this, List.getElem?_cons_succ]
      · rw [if_neg hle, if_neg (by omega)]

theorem getElem?_mapIdx' {α β : Type} (f : α × Nat → β) (l : List α) (k : Nat) : (l.zipIdx.map f)[k]? = l[k]?.map (fun t => f (t, k)) := by
  rw [List.getElem?_map, List.getElem?_zipIdx]
  cases l[k]? with
  | none => rfl
  | some t => simp

theorem step_replay (s : St) (op : Op) (k : Nat) : replay k (rxOf s k) (step s op).2.2 = some (rxOf (step s op).1 k) := by
  cases op with
  | frame i g veto room =>
    show replay k (rxOf s k) (tryRecv s i g veto room).2 = some (rxOf (tryRecv s i g veto room).1 k)
    rw [tryRecv]
    by_cases h1 : udpOk g = false
    · rw [if_pos h1]; rfl
    rw [if_neg h1]
    by_cases h2 : veto = true
    · rw [if_pos h2]; rfl
    rw [if_neg h2]
    simp only
    have hq := replay_queuedEvs s.net i g room k s.socks 0 (rxOf s k)
    rw [if_pos (Nat.zero_le _), Nat.sub_zero] at hq
    rw [queuedEvs, replay_append k _ _ _ _ hq]
    have htail : ∀ q : List (List Nat), replay k q (if s.socks.any (fun t => takes s.net i t g) then ([] : List Ev)
        else if IpIn.answersUnmatched s.net g then [Ev.unreachable i g] else []) = some q := by
      intro q
      split
      · rfl
      · split <;> rfl
    rw [htail, rxOf, rxOf]
    simp only
    rw [getElem?_mapIdx']
    cases s.socks[k]? with
    | none => rfl
    | some t =>
      simp only [Option.map_some, Option.getD_some, accept1]
      by_cases c : (takes s.net i t g && room k) = true
      · rw [if_pos c, if_pos c]
      · rw [if_neg c, if_neg c]
  | socket =>
    show replay k (rxOf s k) (socketOp s).2.2 = some (rxOf (socketOp s).1 k)
    rw [socketOp]
    cases hf : s.socks.findIdx? (fun t => !t.used) with
    | none => rfl
    | some j =>
      have hlt : j < s.socks.length := by
        rw [List.findIdx?_eq_some_iff_getElem] at hf; exact hf.1
      simp only
      rw [replay, rx_set s j k _ hlt]
      by_cases c : j = k
      · rw [if_pos c, if_pos c]; rfl
      · rw [if_neg c, if_neg c]; rfl
  | bind j ip port veto =>
    show replay k (rxOf s k) (bindOp s j ip port veto).2.2 = some (rxOf (bindOp s j ip port veto).1 k)
    rw [bindOp]
    cases hj : s.socks[j]? with
    | none => rfl
    | some t =>
      simp only
      by_cases h1 : ip ≠ 0 ∧ IpIn.isLocal s.net ip = false
      · rw [if_pos h1]; rfl
      rw [if_neg h1]
      by_cases h2 : t.sport ≠ 0
      · rw [if_pos h2]; rfl
      rw [if_neg h2]
      by_cases h3 : portInUse s.socks j (Sock.bindAddr s.net.rt ip) port = true
      · rw [if_pos h3]; rfl
      rw [if_neg h3]
      by_cases h4 : veto = true
      · rw [if_pos h4]; rfl
      rw [if_neg h4]
      exact keep_rx s j k _ t hj (by rfl)
  | connect j ip port =>
    show replay k (rxOf s k) (connectOp s j ip port).2.2 = some (rxOf (connectOp s j ip port).1 k)
    rw [connectOp]
    cases hj : s.socks[j]? with
    | none => rfl
    | some t =>
      simp only
      by_cases h1 : t.blip ≠ 0 ∧ IpIn.isLocal s.net t.blip = false
      · rw [if_pos h1]; rfl
      rw [if_neg h1]
      exact keep_rx s j k _ t hj (by rfl)
  | send j to p rnd fits room =>
    show replay k (rxOf s k) (sendOp s j to p rnd fits room).2.2 = some (rxOf (sendOp s j to p rnd fits room).1 k)
    rw [sendOp]
    cases hj : s.socks[j]? with
    | none => rfl
    | some t =>
      have hd : (dstOf t to).rx = t.rx := by cases to <;> rfl
      simp only
      by_cases h1 : t.dport = 0 ∧ to = none
      · rw [if_pos h1]; rfl
      rw [if_neg h1]
      by_cases h2 : (dstOf t to).dport = 0 ∨ (dstOf t to).rip = 0
      · rw [if_pos h2]; exact keep_rx s j k _ t hj hd
      rw [if_neg h2]
      by_cases h3 : fits = false
      · rw [if_pos h3]; exact keep_rx s j k _ t hj hd
      rw [if_neg h3]
      by_cases h4 : room = false
      · rw [if_pos h4]; exact keep_rx s j k _ t hj hd
      rw [if_neg h4]
      show replay k (rxOf s k) [] = _
      exact keep_rx s j k _ t hj hd
  | recv j len =>
    show replay k (rxOf s k) (recvOp s j len).2.2 = some (rxOf (recvOp s j len).1 k)
    rw [recvOp]
    cases hj : s.socks[j]? with
    | none => rfl
    | some t =>
      simp only
      have hlt : j < s.socks.length := by rw [List.getElem?_eq_some_iff] at hj; exact hj.1
      cases hr : t.rx with
      | nil => rfl
      | cons g rest =>
        simp only
        have key : ∀ t' : Sock, t'.rx = rest → replay k (rxOf s k) [.read j g] = some (rxOf (setSock s j t') k) := by
          intro t' ht'
          rw [replay.eq_def, rx_set s j k t' hlt]
          simp only
          by_cases c : j = k
          · subst c
            rw [if_pos rfl, if_pos rfl, rxOf, hj]
            simp only [Option.map_some, Option.getD_some, hr, if_true]
            rw [ht']; rfl
          · rw [if_neg c, if_neg c]; rfl
        by_cases h1 : ulen g < 8
        · rw [if_pos h1]; exact key _ rfl
        rw [if_neg h1]
        by_cases h2 : ulen g - 8 > len
        · rw [if_pos h2]; exact key _ rfl
        rw [if_neg h2]; exact key _ rfl
  | close j =>
    show replay k (rxOf s k) (closeOp s j).2.2 = some (rxOf (closeOp s j).1 k)
    rw [closeOp]
    cases hj : s.socks[j]? with
    | none => rfl
    | some t =>
      have hlt : j < s.socks.length := by rw [List.getElem?_eq_some_iff] at hj; exact hj.1
      simp only
      rw [replay, rx_set s j k _ hlt]
      by_cases c : j = k
      · rw [if_pos c, if_pos c]; rfl
      · rw [if_neg c, if_neg c]; rfl
  | groups j gs =>
    show replay k (rxOf s k) (groupsOp s j gs).2.2 = some (rxOf (groupsOp s j gs).1 k)
    rw [groupsOp]
    cases hj : s.socks[j]? with
    | none => rfl
    | some t => exact keep_rx s j k _ t hj (by rfl)
  | reconf n => rfl

theorem run_replay (ops : List Op) (k : Nat) : ∀ s : St, replay k (rxOf s k) (run s ops).2 = some (rxOf (run s ops).1 k) := by
  induction ops with
  | nil => intro s; rfl
  | cons op ops ih =>
    intro s
    rw [run]
    simp only
    rw [replay_append k _ _ _ _ (step_replay s op k)]
    exact ih _

/-- **C22, boundaries over histories.** From a stack with empty queues, for every history of arrivals, reads and other
calls and every socket: the frames its reads take out are, between two clearings, exactly the frames queued on it, in
order, each once (a plain queue replays the whole event log and ends with the socket's queue). -/
theorem udp_reads_in_order (net : Net) (n : Nat) (ops : List Op) (k : Nat) :
    replay k [] (run (init net n) ops).2 = some (rxOf (run (init net n) ops).1 k) := by
  have h : rxOf (init net n) k = [] := by
    rw [rxOf, init]
    simp only [List.getElem?_replicate]
    split <;> rfl
  have := run_replay ops k (init net n)
  rw [h] at this
  exact this

/-! ## What one recvfrom returns -/

/-- Every frame waiting in a queue is a correct datagram. -/
def AllValid (s : St) : Prop := ∀ (k : Nat) (g : List Nat), g ∈ rxOf s k → ValidUdp g

theorem mem_replay (k : Nat) (P : List Nat → Prop) (es : List Ev) : ∀ (q q' : List (List Nat)), replay k q es = some q' → (∀ g ∈ q, P g) →
    (∀ i g, Ev.queued k i g ∈ es → P g) → ∀ g ∈ q', P g := by
  induction es with
  | nil => intro q q' h hq _; cases h; exact hq
  | cons e es ih =>
    intro q q' h hq hp
    have hp' : ∀ i g, Ev.queued k i g ∈ es → P g := fun i g hm => hp i g (List.mem_cons_of_mem _ hm)
    cases e with
    | queued j i g =>
      rw [replay] at h
      by_cases c : j = k
      · rw [if_pos c] at h
        refine ih _ _ h ?_ hp'
        intro x hx
        rcases List.mem_append.mp hx with hx | hx
        · exact hq x hx
        · rw [List.mem_singleton] at hx; rw [hx]; exact hp i g (by rw [← c]; exact List.mem_cons_self)
      · rw [if_neg c] at h; exact ih _ _ h hq hp'
    | read j g =>
      rw [replay.eq_def] at h
      simp only at h
      by_cases c : j = k
      · rw [if_pos c] at h
        cases q with
        | nil => cases h
        | cons x q =>
          simp only at h
          by_cases d : x = g
          · rw [if_pos d] at h; exact ih _ _ h (fun y hy => hq y (List.mem_cons_of_mem _ hy)) hp'
          · rw [if_neg d] at h; cases h
      · rw [if_neg c] at h; exact ih _ _ h hq hp'
    | reset j =>
      rw [replay] at h
      by_cases c : j = k
      · rw [if_pos c] at h; exact ih _ _ h (fun _ hx => absurd hx List.not_mem_nil) hp'
      · rw [if_neg c] at h; exact ih _ _ h hq hp'
    | unreachable i g => rw [replay] at h; exact ih _ _ h hq hp'
    | sent a b c d e f => rw [replay] at h; exact ih _ _ h hq hp'

/-- Only an arriving frame is queued. -/
theorem queued_frame (s : St) (op : Op) (k j : Nat) (h : List Nat) (hm : Ev.queued k j h ∈ (step s op).2.2) : ∃ veto room, op = .frame j h veto room := by
  cases op with
  | frame i g veto room =>
    change Ev.queued k j h ∈ (tryRecv s i g veto room).2 at hm
    rw [tryRecv] at hm
    split at hm
    · cases hm
    · split at hm
      · cases hm
      · simp only [List.mem_append, mem_queuedEvs] at hm
        rcases hm with ⟨k', t, _, _, _, h4⟩ | c
        · cases h4; exact ⟨veto, room, rfl⟩
        · split at c
          · cases c
          · split at c
            · rw [List.mem_singleton] at c; cases c
            · cases c
  | socket =>
    exfalso
    change Ev.queued k j h ∈ (socketOp s).2.2 at hm
    rw [socketOp] at hm
    split at hm
    · cases hm
    · rw [List.mem_singleton] at hm; cases hm
  | bind a b c d =>
    exfalso
    change Ev.queued k j h ∈ (bindOp s a b c d).2.2 at hm
    rw [bindOp] at hm
    split at hm
    · cases hm
    · (repeat' split at hm) <;> cases hm
  | connect a b c =>
    exfalso
    change Ev.queued k j h ∈ (connectOp s a b c).2.2 at hm
    rw [connectOp] at hm
    split at hm
    · cases hm
    · split at hm <;> cases hm
  | send a b c d e f =>
    exfalso
    change Ev.queued k j h ∈ (sendOp s a b c d e f).2.2 at hm
    rw [sendOp] at hm
    split at hm
    · cases hm
    · simp only at hm
      (repeat' split at hm)
      · cases hm
      · cases hm
      · cases hm
      · cases hm
      · rw [List.mem_singleton] at hm; cases hm
  | recv a b =>
    exfalso
    change Ev.queued k j h ∈ (recvOp s a b).2.2 at hm
    rw [recvOp] at hm
    split at hm
    · cases hm
    · split at hm
      · cases hm
      · simp only at hm
        (repeat' split at hm) <;> (rw [List.mem_singleton] at hm; cases hm)
  | close a =>
    exfalso
    change Ev.queued k j h ∈ (closeOp s a).2.2 at hm
    rw [closeOp] at hm
    split at hm
    · cases hm
    · rw [List.mem_singleton] at hm; cases hm
  | groups a b =>
    exfalso
    change Ev.queued k j h ∈ (groupsOp s a b).2.2 at hm
    rw [groupsOp] at hm
    split at hm <;> cases hm
  | reconf n => exfalso; cases hm

theorem step_valid (s : St) (op : Op) (hb : ∀ i g v r, op = .frame i g v r → Bytes g) (h : AllValid s) : AllValid (step s op).1 := by
  intro k g hg
  refine mem_replay k ValidUdp _ _ _ (step_replay s op k) (h k) ?_ g hg
  intro i g' hm
  obtain ⟨veto, room, hop⟩ := queued_frame s op k i g' hm
  subst hop
  exact ((udp_queued_iff s i g' veto room (hb _ _ _ _ rfl) k i g').mp hm).2.2.2.1

theorem run_valid (ops : List Op) : ∀ s : St, ByteOps ops → AllValid s → AllValid (run s ops).1 := by
  induction ops with
  | nil => intro s _ h; exact h
  | cons op ops ih =>
    intro s hb h
    refine ih _ (fun i g v r hm => hb i g v r (List.mem_cons_of_mem _ hm)) (step_valid s op ?_ h)
    intro i g v r hop
    exact hb i g v r (by rw [hop]; exact List.mem_cons_self)

theorem init_valid (net : Net) (n : Nat) : AllValid (init net n) := by
  intro k g hg
  have h : rxOf (init net n) k = [] := by
    rw [rxOf, init]
    simp only [List.getElem?_replicate]
    split <;> rfl
  rw [h] at hg; cases hg

/-- **C22, one read.** After any history, if `recvfrom` with a buffer of `len` bytes returns data, they are the whole
payload of the oldest waiting datagram, byte for byte and nothing else (`payload` bytes 42 to 34 + UDP length of its
frame), they fit the buffer, the address and port are those of its sender, and exactly that datagram leaves the
queue. -/
theorem udp_recv_one (net : Net) (n : Nat) (ops : List Op) (hb : ByteOps ops) (k len : Nat) (p : List Nat) (ip : Ip) (port : Nat)
    (hr : (step (run (init net n) ops).1 (.recv k len)).2.1 = .got p ip port) :
    ∃ g rest, rxOf (run (init net n) ops).1 k = g :: rest ∧ rxOf (step (run (init net n) ops).1 (.recv k len)).1 k = rest ∧
      ValidUdp g ∧ p.length + 8 = ulen g ∧ (∀ j, j < p.length → p[j]? = g[42 + j]?) ∧ p.length ≤ len ∧ ip = src g ∧ port = u16 g 34 := by
  have hv := run_valid ops (init net n) hb (init_valid net n)
  generalize (run (init net n) ops).1 = s at hr hv
  have hst := step_replay s (.recv k len) k
  change (recvOp s k len).2.1 = _ at hr
  change replay k (rxOf s k) (recvOp s k len).2.2 = some (rxOf (recvOp s k len).1 k) at hst
  show ∃ g rest, rxOf s k = g :: rest ∧ rxOf (recvOp s k len).1 k = rest ∧ _
  have hval := hv k
  rw [recvOp] at hr
  cases hj : s.socks[k]? with
  | none => rw [hj] at hr; cases hr
  | some t =>
    rw [hj] at hr
    simp only at hr
    have hrx : rxOf s k = t.rx := by rw [rxOf, hj]; rfl
    cases hq : t.rx with
    | nil => rw [hq] at hr; cases hr
    | cons g rest =>
      rw [hq] at hr
      simp only at hr
      by_cases h1 : ulen g < 8
      · rw [if_pos h1] at hr; cases hr
      rw [if_neg h1] at hr
      by_cases h2 : ulen g - 8 > len
      · rw [if_pos h2] at hr; cases hr
      rw [if_neg h2] at hr
      simp only [Res.got.injEq] at hr
      obtain ⟨e1, e2, e3⟩ := hr
      have hg := hval g (by rw [hrx, hq]; exact List.mem_cons_self)
      have ht := hg.total
      have hi := hg.inside
      have hpl : p.length = ulen g - 8 := by rw [← e1, payload, List.length_take, List.length_drop]; omega
      refine ⟨g, rest, by rw [hrx, hq], ?_, hg, by omega, ?_, by omega, e2.symm, e3.symm⟩
      · rw [recvOp, hj] at hst ⊢
        simp only [hq] at hst ⊢
        rw [if_neg h1, if_neg h2] at hst ⊢
        simp only at hst ⊢
        rw [rx_set s k k _ (by rw [List.getElem?_eq_some_iff] at hj; exact hj.1), if_pos rfl]
      · intro j hjl
        rw [← e1, payload, List.getElem?_take, if_pos (by omega), List.getElem?_drop]

/-! ## A connected socket hears only its peer -/

/-- The calls that change the addresses of socket `k`: bind, connect, sendto with an address, close. -/
def Repeers (k : Nat) : Op → Prop
  | .bind j _ _ _ => j = k
  | .connect j _ _ => j = k
  | .send j to _ _ _ _ => j = k ∧ to ≠ none
  | .close j => j = k
  | _ => False

theorem get_set (s : St) (j k : Nat) (t u v : Sock) (hj : s.socks[j]? = some u) (hk : s.socks[k]? = some v) :
    (setSock s j t).socks[k]? = some (if j = k then t else v) := by
  have hlt : j < s.socks.length := by rw [List.getElem?_eq_some_iff] at hj; exact hj.1
  rw [setSock]
  simp only
  by_cases c : j = k
  · subst c; rw [if_pos rfl, List.getElem?_set_self hlt]
  · rw [if_neg c, List.getElem?_set_ne c, hk]

/-- Socket `k` is connected to `a`:`p` from the local address `l`. -/
def Conn (s : St) (k : Nat) (a : Ip) (p : Nat) (l : Ip) : Prop :=
  ∃ t : Sock, s.socks[k]? = some t ∧ t.used = true ∧ t.conn = true ∧ t.rip = a ∧ t.dport = p ∧ t.lip = l

theorem conn_keep (s : St) (op : Op) (k : Nat) (a : Ip) (p : Nat) (l : Ip) (ha : a ≠ 0) (hl : l ≠ 0)
    (h : Conn s k a p l) (hr : ¬ Repeers k op) : Conn (step s op).1 k a p l := by
  obtain ⟨v, hv, c0, c1, c2, c3, c4⟩ := h
  cases op with
  | frame i g veto room =>
    show Conn (tryRecv s i g veto room).1 k a p l
    rw [tryRecv]
    by_cases h1 : udpOk g = false
    · rw [if_pos h1]; exact ⟨v, hv, c0, c1, c2, c3, c4⟩
    rw [if_neg h1]
    by_cases h2 : veto = true
    · rw [if_pos h2]; exact ⟨v, hv, c0, c1, c2, c3, c4⟩
    rw [if_neg h2]
    refine ⟨accept1 s.net i g (room k) v, ?_, ?_⟩
    · simp only; rw [getElem?_mapIdx', hv]; rfl
    · rw [accept1]; split <;> exact ⟨c0, c1, c2, c3, c4⟩
  | socket =>
    show Conn (socketOp s).1 k a p l
    rw [socketOp]
    cases hf : s.socks.findIdx? (fun t => !t.used) with
    | none => exact ⟨v, hv, c0, c1, c2, c3, c4⟩
    | some j =>
      rw [List.findIdx?_eq_some_iff_getElem] at hf
      obtain ⟨hlt, hx, _⟩ := hf
      have hjk : j ≠ k := by
        intro c; subst c
        rw [List.getElem?_eq_getElem hlt] at hv
        rw [Option.some.inj hv, c0] at hx; cases hx
      refine ⟨v, ?_, c0, c1, c2, c3, c4⟩
      show (setSock s j _).socks[k]? = some v
      rw [get_set s j k _ _ v (List.getElem?_eq_getElem hlt) hv, if_neg hjk]
  | bind j ip port veto =>
    have hjk : j ≠ k := hr
    show Conn (bindOp s j ip port veto).1 k a p l
    rw [bindOp]
    cases hj : s.socks[j]? with
    | none => exact ⟨v, hv, c0, c1, c2, c3, c4⟩
    | some t =>
      simp only
      (repeat' split) <;> first
        | exact ⟨v, hv, c0, c1, c2, c3, c4⟩
        | exact ⟨v, by show (setSock s j _).socks[k]? = some v; rw [get_set s j k _ _ v hj hv, if_neg hjk], c0, c1, c2, c3, c4⟩
  | connect j ip port =>
    have hjk : j ≠ k := hr
    show Conn (connectOp s j ip port).1 k a p l
    rw [connectOp]
    cases hj : s.socks[j]? with
    | none => exact ⟨v, hv, c0, c1, c2, c3, c4⟩
    | some t =>
      simp only
      by_cases h1 : t.blip ≠ 0 ∧ IpIn.isLocal s.net t.blip = false
      · rw [if_pos h1]; exact ⟨v, hv, c0, c1, c2, c3, c4⟩
      rw [if_neg h1]
      exact ⟨v, by show (setSock s j _).socks[k]? = some v; rw [get_set s j k _ _ v hj hv, if_neg hjk], c0, c1, c2, c3, c4⟩
  | send j to q rnd fits room =>
    show Conn (sendOp s j to q rnd fits room).1 k a p l
    rw [sendOp]
    cases hj : s.socks[j]? with
    | none => exact ⟨v, hv, c0, c1, c2, c3, c4⟩
    | some t =>
      have key : ∀ t' : Sock, (j = k → t'.used = v.used ∧ t'.conn = v.conn ∧ t'.rip = v.rip ∧ t'.dport = v.dport ∧ t'.lip = v.lip) → Conn (setSock s j t') k a p l := by
        intro t' h
        refine ⟨_, get_set s j k t' _ v hj hv, ?_⟩
        by_cases c : j = k
        · rw [if_pos c]
          obtain ⟨d0, d1, d2, d3, d4⟩ := h c
          exact ⟨by rw [d0, c0], by rw [d1, c1], by rw [d2, c2], by rw [d3, c3], by rw [d4, c4]⟩
        · rw [if_neg c]; exact ⟨c0, c1, c2, c3, c4⟩
      have hto : j = k → t = v ∧ to = none := by
        intro c
        refine ⟨?_, ?_⟩
        · rw [c, hv] at hj; cases hj; rfl
        · cases to with
          | none => rfl
          | some x => exact absurd ⟨c, by simp⟩ hr
      have k1 : j = k → (dstOf t to).used = v.used ∧ (dstOf t to).conn = v.conn ∧ (dstOf t to).rip = v.rip ∧ (dstOf t to).dport = v.dport ∧ (dstOf t to).lip = v.lip := by
        intro c; obtain ⟨d1, d2⟩ := hto c; rw [d1, d2]; exact ⟨rfl, rfl, rfl, rfl, rfl⟩
      have k2 : j = k → (srcOf s.net rnd (dstOf t to)).used = v.used ∧ (srcOf s.net rnd (dstOf t to)).conn = v.conn ∧ (srcOf s.net rnd (dstOf t to)).rip = v.rip ∧
          (srcOf s.net rnd (dstOf t to)).dport = v.dport ∧ (srcOf s.net rnd (dstOf t to)).lip = v.lip := by
        intro c; obtain ⟨d1, d2⟩ := hto c; rw [d1, d2]
        refine ⟨rfl, rfl, rfl, rfl, ?_⟩
        show (if v.lip = 0 then _ else v.lip) = v.lip
        rw [if_neg (by rw [c4]; exact hl)]
      simp only
      by_cases h1 : t.dport = 0 ∧ to = none
      · rw [if_pos h1]; exact ⟨v, hv, c0, c1, c2, c3, c4⟩
      rw [if_neg h1]
      by_cases h2 : (dstOf t to).dport = 0 ∨ (dstOf t to).rip = 0
      · rw [if_pos h2]; exact key _ k1
      rw [if_neg h2]
      by_cases h3 : fits = false
      · rw [if_pos h3]; exact key _ k2
      rw [if_neg h3]
      by_cases h4 : room = false
      · rw [if_pos h4]; exact key _ k2
      rw [if_neg h4]; exact key _ k2
  | recv j len =>
    show Conn (recvOp s j len).1 k a p l
    rw [recvOp]
    cases hj : s.socks[j]? with
    | none => exact ⟨v, hv, c0, c1, c2, c3, c4⟩
    | some t =>
      have key : ∀ t' : Sock, (j = k → t'.used = v.used ∧ t'.conn = v.conn ∧ t'.rip = v.rip ∧ t'.dport = v.dport ∧ t'.lip = v.lip) → Conn (setSock s j t') k a p l := by
        intro t' h
        refine ⟨_, get_set s j k t' _ v hj hv, ?_⟩
        by_cases c : j = k
        · rw [if_pos c]
          obtain ⟨d0, d1, d2, d3, d4⟩ := h c
          exact ⟨by rw [d0, c0], by rw [d1, c1], by rw [d2, c2], by rw [d3, c3], by rw [d4, c4]⟩
        · rw [if_neg c]; exact ⟨c0, c1, c2, c3, c4⟩
      have htv : j = k → t = v := by intro c; rw [c, hv] at hj; cases hj; rfl
      simp only
      cases hq : t.rx with
      | nil => exact ⟨v, hv, c0, c1, c2, c3, c4⟩
      | cons g rest =>
        simp only
        have k2 : j = k → (if t.rip = 0 ∧ src g ≠ t.lip then src g else t.rip) = v.rip := by
          intro c; rw [htv c, if_neg (fun x => ha (by rw [← c2]; exact x.1))]
        by_cases h1 : ulen g < 8
        · rw [if_pos h1]; exact key _ (fun c => ⟨by rw [htv c], by rw [htv c], by rw [htv c], by rw [htv c], by rw [htv c]⟩)
        rw [if_neg h1]
        by_cases h2 : ulen g - 8 > len
        · rw [if_pos h2]; exact key _ (fun c => ⟨by rw [htv c], by rw [htv c], k2 c, by rw [htv c], by rw [htv c]⟩)
        rw [if_neg h2]; exact key _ (fun c => ⟨by rw [htv c], by rw [htv c], k2 c, by rw [htv c], by rw [htv c]⟩)
  | close j =>
    have hjk : j ≠ k := hr
    show Conn (closeOp s j).1 k a p l
    rw [closeOp]
    cases hj : s.socks[j]? with
    | none => exact ⟨v, hv, c0, c1, c2, c3, c4⟩
    | some t => exact ⟨v, by show (setSock s j _).socks[k]? = some v; rw [get_set s j k _ _ v hj hv, if_neg hjk], c0, c1, c2, c3, c4⟩
  | groups j gs =>
    show Conn (groupsOp s j gs).1 k a p l
    rw [groupsOp]
    cases hj : s.socks[j]? with
    | none => exact ⟨v, hv, c0, c1, c2, c3, c4⟩
    | some t =>
      refine ⟨_, get_set s j k _ _ v hj hv, ?_⟩
      by_cases c : j = k
      · have htv : t = v := by rw [c, hv] at hj; cases hj; rfl
        rw [if_pos c, htv]; exact ⟨c0, c1, c2, c3, c4⟩
      · rw [if_neg c]; exact ⟨c0, c1, c2, c3, c4⟩
  | reconf n => exact ⟨v, hv, c0, c1, c2, c3, c4⟩

theorem conn_admits (n : Net) (i : Nat) (t : Sock) (g : List Nat) (hc : t.conn = true) (ha : t.rip ≠ 0) (hp : t.dport ≠ 0) (hl : t.lip ≠ 0)
    (hm : ¬ Mcast (dst g)) (h : Admits n i t g) : src g = t.rip ∧ sportOf g = t.dport ∧ dst g = t.lip := by
  rcases h with ⟨h, _⟩ | ⟨_, h1, h2⟩ | ⟨_, h, _⟩
  · exact absurd h hm
  · obtain ⟨h3, h4⟩ := h2 hc
    rcases h3 with h3 | h3
    · exact absurd h3 hp
    rcases h4 with h4 | h4
    · exact absurd h4 ha
    exact ⟨h4.symm, h3.symm, h1.symm⟩
  · exact absurd h hl

/-- **C22, connect.** A successful `connect` on an open socket makes it connected to that address and port. -/
theorem connect_connects (s : St) (k : Nat) (a : Ip) (p : Nat) (t : Sock) (ht : s.socks[k]? = some t) (hu : t.used = true)
    (h : (step s (.connect k a p)).2.1 = .ok) : ∃ l, Conn (step s (.connect k a p)).1 k a p l := by
  change (connectOp s k a p).2.1 = .ok at h
  show ∃ l, Conn (connectOp s k a p).1 k a p l
  rw [connectOp, ht] at h ⊢
  simp only at h ⊢
  by_cases h1 : t.blip ≠ 0 ∧ IpIn.isLocal s.net t.blip = false
  · rw [if_pos h1] at h; cases h
  rw [if_neg h1]
  exact ⟨_, _, get_set s k k _ t t ht ht, by rw [if_pos rfl]; exact hu, by rw [if_pos rfl], by rw [if_pos rfl], by rw [if_pos rfl], by rw [if_pos rfl]⟩

/-- **C22, connected sockets over histories.** As long as no call changes its addresses, a socket connected to `a`:`p`
from the address `l` is handed no unicast datagram but those from `a`:`p` to `l`. (Missing from the full statement:
multicast datagrams, whose source port is not compared, and a socket whose local address is still 0 while DHCP runs;
see `mcast_port_ignored` and `dhcp_peer_ignored`.) -/
theorem connected_hears_peer_partial (k : Nat) (a : Ip) (p : Nat) (l : Ip) (ha : a ≠ 0) (hp : p ≠ 0) (hl : l ≠ 0) (ops : List Op) :
    ∀ s : St, ByteOps ops → Conn s k a p l → (∀ op ∈ ops, ¬ Repeers k op) →
      ∀ i g, Ev.queued k i g ∈ (run s ops).2 → ¬ Mcast (dst g) → src g = a ∧ u16 g 34 = p ∧ dst g = l := by
  induction ops with
  | nil => intro s _ _ _ i g h; cases h
  | cons op ops ih =>
    intro s hb hc hr i g h hm
    rw [run] at h
    rcases List.mem_append.mp h with h | h
    · obtain ⟨veto, room, hop⟩ := queued_frame s op k i g h
      subst hop
      obtain ⟨_, _, _, _, _, t, ht, _, had⟩ := (udp_queued_iff s i g veto room (hb i g veto room List.mem_cons_self) k i g).mp h
      obtain ⟨v, hv, _, c1, c2, c3, c4⟩ := hc
      rw [hv] at ht
      rw [← Option.some.inj ht] at had
      have := conn_admits s.net i v g c1 (by rw [c2]; exact ha) (by rw [c3]; exact hp) (by rw [c4]; exact hl) hm had
      rw [c2, c3, c4] at this; exact this
    · exact ih _ (fun i g v r hm => hb i g v r (List.mem_cons_of_mem _ hm)) (conn_keep s op k a p l ha hl hc (hr op List.mem_cons_self))
        (fun o ho => hr o (List.mem_cons_of_mem _ ho)) i g h hm

/-- **C22, sending.** What `sendto` puts in the transmit buffer is one datagram with exactly the caller's payload, to
the given address (or the connected peer), from the socket's port; the call then returns the payload's length. -/
theorem udp_send_one (s : St) (k : Nat) (to : Option (Ip × Nat)) (p : List Nat) (rnd : Nat) (fits room : Bool) (n : Nat)
    (h : (step s (.send k to p rnd fits room)).2.1 = .sent n) :
    n = p.length ∧ ∃ t : Sock, s.socks[k]? = some t ∧ ∃ sip sp dip dp, (step s (.send k to p rnd fits room)).2.2 = [.sent k sip sp dip dp p] ∧
      (∀ a q, to = some (a, q) → dip = a ∧ dp = q) ∧ (to = none → dip = t.rip ∧ dp = t.dport) ∧ dip ≠ 0 ∧ dp ≠ 0 ∧ sp ≠ 0 ∧
      (t.sport ≠ 0 → sp = t.sport) ∧ (t.lip ≠ 0 → sip = t.lip) := by
  change (sendOp s k to p rnd fits room).2.1 = .sent n at h
  show n = p.length ∧ ∃ t : Sock, s.socks[k]? = some t ∧ ∃ sip sp dip dp, (sendOp s k to p rnd fits room).2.2 = [.sent k sip sp dip dp p] ∧ _
  rw [sendOp] at h ⊢
  cases hj : s.socks[k]? with
  | none => rw [hj] at h; cases h
  | some t =>
    rw [hj] at h
    simp only at h ⊢
    by_cases h1 : t.dport = 0 ∧ to = none
    · rw [if_pos h1] at h; cases h
    rw [if_neg h1] at h ⊢
    by_cases h2 : (dstOf t to).dport = 0 ∨ (dstOf t to).rip = 0
    · rw [if_pos h2] at h; cases h
    rw [if_neg h2] at h ⊢
    by_cases h3 : fits = false
    · rw [if_pos h3] at h; cases h
    rw [if_neg h3] at h ⊢
    by_cases h4 : room = false
    · rw [if_pos h4] at h; cases h
    rw [if_neg h4] at h ⊢
    simp only [Res.sent.injEq] at h
    have hs : (dstOf t to).sport = t.sport := by cases to <;> rfl
    have hlp : (dstOf t to).lip = t.lip := by cases to <;> rfl
    refine ⟨h.symm, t, rfl, _, _, _, _, rfl, ?_, ?_, fun c => h2 (Or.inr c), fun c => h2 (Or.inl c), ?_, ?_, ?_⟩
    · intro a q e; subst e; exact ⟨rfl, rfl⟩
    · intro e; subst e; exact ⟨rfl, rfl⟩
    · show (if (dstOf t to).sport = 0 then _ else (dstOf t to).sport) ≠ 0
      by_cases c : (dstOf t to).sport = 0
      · rw [if_pos c]; split <;> omega
      · rw [if_neg c]; exact c
    · intro c
      show (if (dstOf t to).sport = 0 then _ else (dstOf t to).sport) = t.sport
      rw [hs, if_neg c]
    · intro c
      show (if (dstOf t to).lip = 0 then _ else (dstOf t to).lip) = t.lip
      rw [hlp, if_neg c]

/-! ## bind -/

/-- Two bindings with the same port collide if one of the addresses is the wildcard or they are the same. -/
def Collide (a b : Ip) : Prop := a = 0 ∨ b = 0 ∨ a = b

theorem portInUse_iff (socks : List Sock) (k : Nat) (ip : Ip) (port : Nat) :
    portInUse socks k ip port = true ↔ port ≠ 0 ∧ ∃ (j : Nat) (t : Sock), j ≠ k ∧ socks[j]? = some t ∧ t.sport = port ∧ Collide t.lip ip := by
  rw [portInUse, Bool.and_eq_true, List.any_eq_true]
  constructor
  · rintro ⟨h1, ⟨t, j⟩, hm, hp⟩
    rw [List.mem_zipIdx_iff_getElem?] at hm
    simp only [Bool.and_eq_true, bne_iff_ne, beq_iff_eq, Bool.or_eq_true] at hp h1
    refine ⟨h1, j, t, hp.1.1, hm, hp.1.2, ?_⟩
    rcases hp.2 with (c | c) | c
    · exact Or.inl c
    · exact Or.inr (Or.inl c)
    · exact Or.inr (Or.inr c)
  · rintro ⟨h1, j, t, h2, h3, h4, h5⟩
    refine ⟨by simpa using h1, (t, j), ?_, ?_⟩
    · rw [List.mem_zipIdx_iff_getElem?]; exact h3
    · simp only [Bool.and_eq_true, bne_iff_ne, beq_iff_eq, Bool.or_eq_true]
      refine ⟨⟨h2, h4⟩, ?_⟩
      rcases h5 with c | c | c
      · exact Or.inl (Or.inl c)
      · exact Or.inl (Or.inr c)
      · exact Or.inr c

/-- **C22, bind.** `bind` succeeds exactly when the address is the wildcard or one of this host's, the socket has no port yet,
the filter does not object, and no other socket has the same port with a colliding address; then the socket has the port
and address (for the wildcard: the host's primary address) and nothing else changes; otherwise nothing changes. -/
theorem udp_bind_exact (s : St) (k : Nat) (ip : Ip) (port : Nat) (veto : Bool) (t : Sock) (hk : s.socks[k]? = some t) :
    ((step s (.bind k ip port veto)).2.1 = .ok ↔
      (ip = 0 ∨ ∃ c ∈ s.net.rt.confs, c.ip = ip) ∧ t.sport = 0 ∧ veto = false ∧
      ¬ (port ≠ 0 ∧ ∃ (j : Nat) (t' : Sock), j ≠ k ∧ s.socks[j]? = some t' ∧ t'.sport = port ∧ Collide t'.lip (Sock.bindAddr s.net.rt ip))) ∧
    ((step s (.bind k ip port veto)).2.1 = .ok → (step s (.bind k ip port veto)).1 =
      { s with socks := s.socks.set k { t with lip := Sock.bindAddr s.net.rt ip, sport := port, blip := ip } }) ∧
    ((step s (.bind k ip port veto)).2.1 ≠ .ok → (step s (.bind k ip port veto)).1 = s) ∧ (step s (.bind k ip port veto)).2.2 = [] := by
  show ((bindOp s k ip port veto).2.1 = .ok ↔ _) ∧ ((bindOp s k ip port veto).2.1 = .ok → (bindOp s k ip port veto).1 = _) ∧
    ((bindOp s k ip port veto).2.1 ≠ .ok → (bindOp s k ip port veto).1 = s) ∧ (bindOp s k ip port veto).2.2 = []
  rw [← portInUse_iff]
  have hloc : (ip = 0 ∨ ∃ c ∈ s.net.rt.confs, c.ip = ip) ↔ ¬ (ip ≠ 0 ∧ IpIn.isLocal s.net ip = false) := by
    rw [IpIn.isLocal]
    by_cases c : ip = 0
    · exact ⟨fun _ x => x.1 c, fun _ => Or.inl c⟩
    · constructor
      · rintro (h | ⟨q, hq, he⟩)
        · exact absurd h c
        · rintro ⟨_, h⟩
          have : (ip != 0#32 && s.net.rt.confs.any (fun c => c.ip == ip)) = true := by
            rw [Bool.and_eq_true, List.any_eq_true]
            exact ⟨by simpa using c, q, hq, by simpa using he⟩
          rw [this] at h; cases h
      · intro h
        cases hb : (ip != 0#32 && s.net.rt.confs.any (fun c => c.ip == ip)) with
        | false => exact absurd ⟨c, hb⟩ h
        | true =>
          rw [Bool.and_eq_true, List.any_eq_true] at hb
          obtain ⟨_, q, hq, he⟩ := hb
          exact Or.inr ⟨q, hq, by simpa using he⟩
  rw [hloc, bindOp, hk]
  dsimp only
  have no : ∀ (r : St × Res × List Ev) (P : Prop), r = (s, .err, []) → ¬ P →
      (r.2.1 = .ok ↔ P) ∧ (r.2.1 = .ok → r.1 = { s with socks := s.socks.set k { t with lip := Sock.bindAddr s.net.rt ip, sport := port, blip := ip } }) ∧ (r.2.1 ≠ .ok → r.1 = s) ∧ r.2.2 = [] := by
    intro r P hr hP
    rw [hr]
    exact ⟨⟨fun c => (by cases c), fun c => absurd c hP⟩, fun c => (by cases c), fun _ => rfl, rfl⟩
  by_cases h1 : ip ≠ 0 ∧ IpIn.isLocal s.net ip = false
  · exact no _ _ (if_pos h1) (fun c => c.1 h1)
  rw [if_neg h1]
  by_cases h2 : t.sport ≠ 0
  · exact no _ _ (if_pos h2) (fun c => h2 c.2.1)
  rw [if_neg h2]
  by_cases h3 : portInUse s.socks k (Sock.bindAddr s.net.rt ip) port = true
  · exact no _ _ (if_pos h3) (fun c => c.2.2.2 h3)
  rw [if_neg h3]
  by_cases h4 : veto = true
  · exact no _ _ (if_pos h4) (fun c => by rw [h4] at c; cases c.2.2.1)
  rw [if_neg h4]
  exact ⟨⟨fun _ => ⟨h1, Classical.byContradiction h2, by simpa using h4, h3⟩, fun _ => rfl⟩, fun _ => rfl, fun c => absurd rfl c, rfl⟩

/-- Interface 0 has 10.0.0.1/24. -/
def net0 : Net := { rt := { confs := [⟨0x0A000001#32, 0xFFFFFF00#32, 0⟩], routes := [], gen := 0, loop := false }, mtu := [1514] }

/-- Non-vacuity: port 53 on the wildcard keeps a second socket off port 53 but not off 54. -/
theorem udp_bind_example :
    let s := (run (init net0 2) [Op.socket, .socket, .bind 0 0 53 false]).1
    (step s (.bind 1 0x0A000001#32 53 false)).2.1 = .err ∧ (step s (.bind 1 0x0A000001#32 54 false)).2.1 = .ok := by
  decide +kernel

/-! ## Examples and what the code does against the property -/

/-- Interface 0 has 10.0.0.1/24. -/
def net1 : Net := { rt := { confs := [⟨0x0A000001#32, 0xFFFFFF00#32, 0⟩], routes := [], gen := 0, loop := false }, mtu := [1514] }

/-- A datagram `a`:`sp` to `d`:`dp` with payload 7, 8, 9 and no checksum. -/
def dg (a : List Nat) (sp : Nat) (d : List Nat) (dp : Nat) : List Nat :=
  [2, 0, 0, 0, 0, 1, 2, 0, 0, 0, 0, 2, 8, 0] ++ Csum.ipSet ([0x45, 0, 0, 31, 0, 1, 0, 0, 64, 17, 0, 0] ++ a ++ d) ++
    [sp / 256, sp % 256, dp / 256, dp % 256, 0, 11, 0, 0, 7, 8, 9, 0, 0]

/-- Non-vacuity: a socket bound to port 53 and connected to 10.0.0.9:99 is handed the datagram of its peer and not that
of 10.0.0.8 (which is answered with port unreachable). The read returns the three bytes and the sender. -/
theorem udp_example :
    let ops := [Op.socket, .bind 0 0 53 false, .connect 0 0x0A000009#32 99,
      .frame 0 (dg [10, 0, 0, 9] 99 [10, 0, 0, 1] 53) false (fun _ => true),
      .frame 0 (dg [10, 0, 0, 8] 99 [10, 0, 0, 1] 53) false (fun _ => true)]
    (run (init net1 2) ops).2 = [.reset 0, .queued 0 0 (dg [10, 0, 0, 9] 99 [10, 0, 0, 1] 53), .unreachable 0 (dg [10, 0, 0, 8] 99 [10, 0, 0, 1] 53)] ∧
    (step (run (init net1 2) ops).1 (.recv 0 100)).2.1 = .got [7, 8, 9] 0x0A000009#32 99 ∧
    Conn (run (init net1 2) (ops.take 3)).1 0 0x0A000009#32 99 0x0A000001#32 := by
  refine ⟨by decide +kernel, by decide +kernel, ?_⟩
  exact ⟨{ used := true, sport := 53, dport := 99, lip := 0x0A000001#32, rip := 0x0A000009#32, conn := true }, by decide +kernel, rfl, rfl, rfl, rfl, rfl⟩

/-- The code against C22: while DHCP runs and the socket has no local address, a connected socket is handed a datagram
from a stranger. -/
theorem dhcp_peer_ignored :
    let n0 : Net := { rt := { confs := [⟨0, 0, 0⟩], routes := [], gen := 0, loop := false }, dhcp := true }
    let ops := [Op.socket, .bind 0 0 53 false, .connect 0 0x0A000009#32 99, .frame 0 (dg [10, 0, 0, 8] 7 [10, 0, 0, 1] 53) false (fun _ => true)]
    (run (init n0 2) ops).2 = [.reset 0, .queued 0 0 (dg [10, 0, 0, 8] 7 [10, 0, 0, 1] 53)] := by
  decide +kernel

/-- The code against C22: a multicast datagram reaches a connected socket although its source port is not the peer's. -/
theorem mcast_port_ignored :
    let ops := [Op.socket, .bind 0 0 53 false, .groups 0 [(0, 0xE0000005#32)], .connect 0 0x0A000009#32 99,
      .frame 0 (dg [10, 0, 0, 9] 7 [224, 0, 0, 5] 53) false (fun _ => true)]
    (run (init net1 2) ops).2 = [.reset 0, .queued 0 0 (dg [10, 0, 0, 9] 7 [224, 0, 0, 5] 53)] := by
  decide +kernel

/-- The code against C22: a `sendto` that fails (the datagram does not fit) has already moved the peer of a connected
socket. -/
theorem sendto_moves_peer :
    let ops := [Op.socket, .bind 0 0 53 false, .connect 0 0x0A000009#32 99, .send 0 (some (0x0A000008#32, 7)) [1] 0 false true,
      .frame 0 (dg [10, 0, 0, 9] 99 [10, 0, 0, 1] 53) false (fun _ => true), .frame 0 (dg [10, 0, 0, 8] 7 [10, 0, 0, 1] 53) false (fun _ => true)]
    (run (init net1 2) ops).2 = [.reset 0, .unreachable 0 (dg [10, 0, 0, 9] 99 [10, 0, 0, 1] 53), .queued 0 0 (dg [10, 0, 0, 8] 7 [10, 0, 0, 1] 53)] := by
  decide +kernel

end Wolf.Udp
