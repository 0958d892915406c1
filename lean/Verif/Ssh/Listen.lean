import Verif.Ssh.Lines
/-! # C130: how the SSH server keeps, and loses, its listening socket -/
namespace Wolf.Ssh
open Sock (setSock freeSlot anyAddr)

/-! ## The socket table under the calls the server makes -/

/-- Slot `j` holds `port` against a wildcard bind. -/
def Held (port : Nat) (net : Sock.St) (j : Nat) (t : Sock.Sock) : Prop :=
  net.socks[j]? = some t ∧ t.used = true ∧ t.sport = port ∧ (t.lip = 0 ∨ anyAddr net.net = 0 ∨ t.lip = anyAddr net.net)

theorem setSock_ne (s : Sock.St) {k j : Nat} (t : Sock.Sock) (h : j ≠ k) : (setSock s k t).socks[j]? = s.socks[j]? := by
  show (s.socks.set k t)[j]? = _
  rw [List.getElem?_set_ne (fun e => h e.symm)]

theorem setSock_eq (s : Sock.St) {k : Nat} (t : Sock.Sock) (h : k < s.socks.length) : (setSock s k t).socks[k]? = some t :=
  List.getElem?_set_self h

theorem lt_of_some {s : Sock.St} {k : Nat} {t : Sock.Sock} (h : s.socks[k]? = some t) : k < s.socks.length := by
  rcases Nat.lt_or_ge k s.socks.length with hl | hl
  · exact hl
  · rw [List.getElem?_eq_none hl] at h; cases h

theorem freeSlot_some {s : Sock.St} {k : Nat} (h : freeSlot s = some k) : ∃ t : Sock.Sock, s.socks[k]? = some t ∧ t.used = false := by
  obtain ⟨hk, h1, -⟩ := (List.findIdx?_eq_some_iff_getElem).mp h
  exact ⟨s.socks[k], List.getElem?_eq_getElem hk, by simpa using h1⟩

theorem freeSlot_none {s : Sock.St} (h : freeSlot s = none) : ∀ (k : Nat) (t : Sock.Sock), s.socks[k]? = some t → t.used = true := by
  intro k t ht
  have := (List.findIdx?_eq_none_iff).mp h t (List.mem_of_getElem? ht)
  simpa using this

theorem portInUse_of {s : Sock.St} {port j k : Nat} {t : Sock.Sock} (hp : port ≠ 0) (h : Held port s j t) (hk : j ≠ k) :
    Sock.portInUse s.socks k (Sock.bindAddr s.net 0) port = true := by
  unfold Sock.portInUse
  have : (t, j) ∈ s.socks.zipIdx := by
    rw [List.mem_zipIdx_iff_getElem?]; exact h.1
  rw [Bool.and_eq_true]
  refine ⟨by simpa using hp, List.any_eq_true.mpr ⟨(t, j), this, ?_⟩⟩
  have e : Sock.bindAddr s.net 0 = anyAddr s.net := by unfold Sock.bindAddr; rw [if_neg (by simp)]
  rw [e]
  obtain ⟨-, -, h2, h3⟩ := h
  simp only [Bool.and_eq_true, Bool.or_eq_true, bne_iff_ne, beq_iff_eq]
  exact ⟨⟨hk, h2⟩, by rcases h3 with h3 | h3 | h3 <;> simp [h3]⟩

theorem closeOp_ne (s : Sock.St) {k j : Nat} (b : Bool) (h : j ≠ k) : (Sock.closeOp s k b).1.socks[j]? = s.socks[j]? := by
  unfold Sock.closeOp
  split
  · rfl
  · split <;> first | rfl | exact setSock_ne s _ h | (split <;> first | rfl | exact setSock_ne s _ h)

theorem closeOp_net (s : Sock.St) (k : Nat) (b : Bool) : (Sock.closeOp s k b).1.net = s.net := by
  unfold Sock.closeOp
  split
  · rfl
  · split <;> first | rfl | (split <;> rfl)

theorem acceptOp_net (s : Sock.St) (k : Nat) (v b : Bool) (r : Nat) : (Sock.acceptOp s k v b r).1.net = s.net := by
  unfold Sock.acceptOp
  repeat' split
  all_goals first | rfl | (dsimp only; repeat' split) <;> rfl

/-- A refused accept leaves every socket in use alone, but the listening one. -/
theorem acceptOp_keep (s : Sock.St) {l j : Nat} (v b : Bool) (r : Nat) (t : Sock.Sock) (h : j ≠ l) (ht : s.socks[j]? = some t) (hu : t.used = true) :
    (Sock.acceptOp s l v b r).1.socks[j]? = some t := by
  unfold Sock.acceptOp
  split
  · exact ht
  split
  · rw [setSock_ne _ _ h]; exact ht
  split
  · exact ht
  split
  · exact ht
  split
  · exact ht
  rename_i i hi
  have hji : j ≠ i := by
    rintro rfl
    obtain ⟨u, h1, h2⟩ := freeSlot_some hi
    rw [ht] at h1; cases h1
    rw [hu] at h2; cases h2
  dsimp only
  split
  · rw [setSock_ne _ _ hji]; exact ht
  split
  · rw [setSock_ne _ _ hji, setSock_ne _ _ h]; exact ht
  · rw [setSock_ne _ _ hji, setSock_ne _ _ h]; exact ht

/-- While another socket in use holds the port, no listening socket can be had. -/
theorem reinit_held (port : Nat) (hp : port ≠ 0) (net : Sock.St) (l : Nat) (e : Env) (j : Nat) (t : Sock.Sock)
    (h : Held port (Sock.closeOp net l e.relistenSend).1 j t) : (reinit port net (some l) e).2 = none := by
  unfold reinit
  dsimp only
  generalize (Sock.closeOp net l e.relistenSend).1 = s at h
  unfold Sock.socketOp
  cases hf : freeSlot s with
  | none => rfl
  | some k =>
    dsimp only
    obtain ⟨u, hu, hu'⟩ := freeSlot_some hf
    have hjk : j ≠ k := by
      rintro rfl
      have := h.1; rw [hu] at this; cases this
      have := h.2.1; rw [hu'] at this; cases this
    generalize hs' : setSock s k (Sock.fresh (s.socks.getD k {})) = s'
    have h' : Held port s' j t := by
      subst hs'
      exact ⟨by rw [setSock_ne _ _ hjk]; exact h.1, h.2.1, h.2.2.1, h.2.2.2⟩
    have pin := portInUse_of hp h' hjk
    have err : (Sock.bindOp s' k 0 port true e.bindVeto).2 = .err := by
      unfold Sock.bindOp
      split
      · rfl
      rw [if_neg (by simp)]
      split
      · rfl
      rw [if_neg (by simp)]
    generalize hb : Sock.bindOp s' k 0 port true e.bindVeto = r at err
    obtain ⟨r1, r2⟩ := r
    dsimp only at err
    subst err
    rfl

/-! ## Losing the listening socket -/

theorem poll_listening {port st : Nat} {w : W} {e : Env} (hp : w.ph = .listening) : poll port st w e = listening port w e := by
  unfold poll; rw [hp]

/-- A poll in LISTENING whose accept answers −1. -/
theorem listening_err {port : Nat} {w : W} {e : Env} {l : Nat} (hl : w.listen = some l)
    (he : (Sock.acceptOp w.net l e.acceptVeto e.acceptSend e.rnd).2.1 = .err) :
    (listening port w e).listen = (reinit port (Sock.acceptOp w.net l e.acceptVeto e.acceptSend e.rnd).1 (some l) e).2 ∧
    (listening port w e).net = (reinit port (Sock.acceptOp w.net l e.acceptVeto e.acceptSend e.rnd).1 (some l) e).1 ∧
    (listening port w e).ph = w.ph := by
  unfold listening
  rw [hl]
  dsimp only
  generalize Sock.acceptOp w.net l e.acceptVeto e.acceptSend e.rnd = r at he ⊢
  obtain ⟨n, res, evs⟩ := r
  dsimp only at he
  subst he
  exact ⟨rfl, rfl, rfl⟩

/-- **Finding** (`lost_while_port_held`): whenever the server finds its listening socket unusable while any other socket,
such as the connection of the client it has just served, still has the port, it loses the listening socket. -/
theorem lost_while_port_held (port st : Nat) (hp : port ≠ 0) (w : W) (e : Env) (l : Nat) (hl : w.listen = some l) (hph : w.ph = .listening)
    (he : (Sock.acceptOp w.net l e.acceptVeto e.acceptSend e.rnd).2.1 = .err) (j : Nat) (t : Sock.Sock) (hj : j ≠ l) (ht : Held port w.net j t) :
    (step port st w (.poll e)).listen = none := by
  show (poll port st w e).listen = none
  rw [poll_listening hph, (listening_err hl he).1]
  refine reinit_held port hp _ l e j t ⟨?_, ht.2.1, ht.2.2.1, ?_⟩
  · rw [closeOp_ne _ _ hj]; exact acceptOp_keep _ _ _ _ t hj ht.1 ht.2.1
  · rw [closeOp_net, acceptOp_net]; exact ht.2.2.2

/-- **Finding** (`lost_to_fin`): a client that connects and closes before the server looks takes the listening socket
with it: it is in CLOSE_WAIT, closing it leaves it in LAST_ACK with the port, and the new socket cannot be bound. -/
theorem lost_to_fin (port st : Nat) (hp : port ≠ 0) (w : W) (e : Env) (l : Nat) (t : Sock.Sock) (hl : w.listen = some l) (hph : w.ph = .listening)
    (hs : t.st = .closeWait) (ht : Held port w.net l t) : (step port st w (.poll e)).listen = none := by
  have he : Sock.acceptOp w.net l e.acceptVeto e.acceptSend e.rnd = (w.net, .err, []) := by
    unfold Sock.acceptOp
    rw [ht.1]
    dsimp only
    rw [if_neg (by rw [hs]; simp), if_neg (by rw [hs]; simp), if_pos (by rw [hs]; simp)]
  show (poll port st w e).listen = none
  rw [poll_listening hph, (listening_err hl (by rw [he])).1, he]
  dsimp only
  have hcl : ∃ u : Sock.Sock, Held port (Sock.closeOp w.net l e.relistenSend).1 l u := by
    unfold Sock.closeOp
    rw [ht.1]
    dsimp only
    rw [hs]
    dsimp only
    cases e.relistenSend
    · rw [if_pos rfl]; exact ⟨t, ht⟩
    · rw [if_neg (by simp)]
      exact ⟨_, setSock_eq _ _ (lt_of_some ht.1), ht.2.1, ht.2.2.1, ht.2.2.2⟩
  obtain ⟨u, hu⟩ := hcl
  exact reinit_held port hp _ l e l u hu

theorem dead_step (port st : Nat) (w : W) (ev : Ev) (hl : w.listen = none) :
    (step port st w ev).listen = none ∧ acceptedN (step port st w ev).acts = acceptedN w.acts := by
  cases ev with
  | net o => exact ⟨hl, rfl⟩
  | poll e =>
    show (poll port st w e).listen = none ∧ acceptedN (poll port st w e).acts = _
    unfold poll
    split
    · unfold listening; rw [hl]; exact ⟨hl, rfl⟩
    · unfold accepting; split <;> exact ⟨hl, rfl⟩
    · unfold keyExchange; split <;> exact ⟨hl, rfl⟩
    · unfold connected
      split
      · dsimp only
        repeat' split
        all_goals exact ⟨hl, rfl⟩
      · exact ⟨hl, rfl⟩
      · exact ⟨hl, rfl⟩
      · exact ⟨hl, rfl⟩
    · unfold closing
      cases w.ssh <;> dsimp only <;> cases w.client <;> exact ⟨hl, rfl⟩

/-- **Finding** (`dead_for_ever`): once it has lost its listening socket the server never has one again, and never
accepts another connection, whatever happens. -/
theorem dead_for_ever (port st : Nat) : ∀ (es : List Ev) (w : W), w.listen = none →
    (run port st w es).listen = none ∧ acceptedN (run port st w es).acts = acceptedN w.acts
  | [], _, hl => ⟨hl, rfl⟩
  | e :: es, w, hl => by
    obtain ⟨h1, h2⟩ := dead_step port st w e hl
    obtain ⟨i1, i2⟩ := dead_for_ever port st es _ h1
    exact ⟨i1, i2.trans h2⟩

/-! ## Keeping it -/

theorem freeSlot_of {s : Sock.St} {k : Nat} {t : Sock.Sock} (h : s.socks[k]? = some t) (hu : t.used = false) : ∃ i, freeSlot s = some i := by
  cases hf : freeSlot s with
  | some i => exact ⟨i, rfl⟩
  | none => have := freeSlot_none hf k t h; rw [hu] at this; cases this

/-- After a refused accept no socket but the listener has a port it did not have. -/
theorem acceptOp_ports (s : Sock.St) {l : Nat} (v b : Bool) (r port : Nat) (hp : port ≠ 0) (he : (Sock.acceptOp s l v b r).2.1 = .err)
    (h : ∀ (j : Nat) (t : Sock.Sock), j ≠ l → s.socks[j]? = some t → t.sport ≠ port) :
    ∀ (j : Nat) (t : Sock.Sock), j ≠ l → (Sock.acceptOp s l v b r).1.socks[j]? = some t → t.sport ≠ port := by
  unfold Sock.acceptOp at he ⊢
  split
  · exact h
  split
  · intro j t hj ht; rw [setSock_ne _ _ hj] at ht; exact h j t hj ht
  split
  · exact h
  split
  · exact h
  split
  · exact h
  rename_i t0 h0 c1 c2 c3 _ i hi
  have closed : ∀ u : Sock.Sock, (Sock.closeSock u).sport = 0 := by intro u; unfold Sock.closeSock; split <;> rfl
  rw [h0] at he
  dsimp only at he
  rw [if_neg c1, if_neg c2, if_neg c3, hi] at he
  dsimp only at he ⊢
  split
  · rename_i hb
    rw [if_pos hb] at he
    cases he
  · rename_i hb
    rw [if_neg hb] at he
    split
    · intro j t hj ht
      by_cases hji : j = i
      · subst hji
        have hlen : j < (setSock s l _).socks.length := lt_of_some (s := setSock s l _) (t := (setSock s l { t0 with
          evR := false, st := .listen, ctrl := false, retries := 0, seq := r, lip := if t0.blip ≠ 0 then t0.blip else t0.lip }).socks[j]?.getD {}) (by
            obtain ⟨u, hu, -⟩ := freeSlot_some hi
            rw [setSock_ne _ _ hj, hu]; rfl)
        rw [setSock_eq _ _ hlen] at ht
        cases ht
        rw [closed]
        exact fun e => hp e.symm
      · rw [setSock_ne _ _ hji, setSock_ne _ _ hj] at ht
        exact h j t hj ht
    · rename_i hv
      rw [if_neg hv] at he
      cases he

/-- **C130, recovery.** When the listening socket is found unusable, nothing but it has the port and it is not being
closed by both sides, the poll gets a new one: it is listening on the port again. -/
theorem reinit_recovers (port st : Nat) (hp : port ≠ 0) (w : W) (e : Env) (l : Nat) (t : Sock.Sock) (hl : w.listen = some l) (hph : w.ph = .listening)
    (ht : w.net.socks[l]? = some t)
    (he : (Sock.acceptOp w.net l e.acceptVeto e.acceptSend e.rnd).2.1 = .err)
    (hs : t.st ≠ .closeWait ∧ t.st ≠ .closing ∧ t.st ≠ .fw1 ∧ t.st ≠ .fw2 ∧ (t.st = .est → t.isL = true))
    (hu : ∀ (j : Nat) (u : Sock.Sock), j ≠ l → w.net.socks[j]? = some u → u.sport ≠ port)
    (hb : e.bindVeto = false) (hv : e.listenVeto = false) :
    ∃ (k : Nat) (u : Sock.Sock), (step port st w (.poll e)).listen = some k ∧ (step port st w (.poll e)).net.socks[k]? = some u ∧
      u.used = true ∧ u.st = .listen ∧ u.isL = true ∧ u.sport = port := by
  show ∃ (k : Nat) (u : Sock.Sock), (poll port st w e).listen = some k ∧ (poll port st w e).net.socks[k]? = some u ∧ _
  rw [poll_listening hph]
  obtain ⟨e1, e2, -⟩ := listening_err (port := port) hl he
  rw [e1, e2]
  have ports := acceptOp_ports w.net e.acceptVeto e.acceptSend e.rnd port hp he hu
  -- the listener after the refused accept can be freed
  have free : ∃ u : Sock.Sock, (Sock.acceptOp w.net l e.acceptVeto e.acceptSend e.rnd).1.socks[l]? = some u ∧
      u.st ≠ .closeWait ∧ u.st ≠ .closing ∧ u.st ≠ .fw1 ∧ u.st ≠ .fw2 ∧ u.st ≠ .est := by
    have hlen := lt_of_some ht
    unfold Sock.acceptOp
    rw [ht]
    dsimp only
    split
    · exact ⟨_, setSock_eq _ _ hlen, by unfold Sock.revert; exact ⟨nofun, nofun, nofun, nofun, nofun⟩⟩
    rename_i c1
    have base : t.st ≠ .est := fun h => c1 ⟨h, hs.2.2.2.2 h⟩
    split
    · exact ⟨t, ht, hs.1, hs.2.1, hs.2.2.1, hs.2.2.2.1, base⟩
    split
    · exact ⟨t, ht, hs.1, hs.2.1, hs.2.2.1, hs.2.2.2.1, base⟩
    split
    · exact ⟨t, ht, hs.1, hs.2.1, hs.2.2.1, hs.2.2.2.1, base⟩
    rename_i c2 c3 _ i hi
    have hli : l ≠ i ∨ t.used = false := by
      by_cases h : l = i
      · subst h
        obtain ⟨u, h1, h2⟩ := freeSlot_some hi
        rw [ht] at h1; cases h1; exact .inr h2
      · exact .inl h
    have c3 : t.st = .synRcvd := by simpa using c3
    by_cases hli' : l = i
    · subst hli'
      have closedSt : ∀ u : Sock.Sock, (Sock.closeSock u).st = .closed := by intro u; unfold Sock.closeSock; split <;> rfl
      split
      · exact ⟨_, setSock_eq _ _ hlen, by rw [closedSt]; exact ⟨nofun, nofun, nofun, nofun, nofun⟩⟩
      split
      · exact ⟨_, setSock_eq _ _ (by show l < (w.net.socks.set l _).length; rw [List.length_set]; exact hlen), by rw [closedSt]; exact ⟨nofun, nofun, nofun, nofun, nofun⟩⟩
      · rename_i d1 d2
        exfalso
        unfold Sock.acceptOp at he
        rw [ht] at he
        dsimp only at he
        rw [if_neg c1, if_neg c2, if_neg (by simp [c3]), hi] at he
        dsimp only at he
        rw [if_neg d1, if_neg d2] at he
        cases he
    · split
      · exact ⟨t, by rw [setSock_ne _ _ hli']; exact ht, hs.1, hs.2.1, hs.2.2.1, hs.2.2.2.1, base⟩
      split
      · refine ⟨_, (setSock_ne _ _ hli').trans (setSock_eq _ _ hlen), ?_⟩; exact ⟨nofun, nofun, nofun, nofun, nofun⟩
      · refine ⟨_, (setSock_ne _ _ hli').trans (setSock_eq _ _ hlen), ?_⟩; exact ⟨nofun, nofun, nofun, nofun, nofun⟩
  generalize (Sock.acceptOp w.net l e.acceptVeto e.acceptSend e.rnd).1 = s at ports free
  obtain ⟨u, hu1, n1, n2, n3, n4, n5⟩ := free
  have hlen := lt_of_some hu1
  have hclose : (Sock.closeOp s l e.relistenSend).1 = setSock s l {} := by
    unfold Sock.closeOp
    rw [hu1]
    dsimp only
    have hcs : Sock.closeSock { u with cb := none } = {} := by unfold Sock.closeSock; rw [if_neg (by simp)]
    split <;> first | (rename_i h; exact absurd h (by assumption)) | (rw [hcs])
  unfold reinit
  dsimp only
  rw [hclose]
  have hports : ∀ (j : Nat) (v : Sock.Sock), (setSock s l {}).socks[j]? = some v → v.sport ≠ port := by
    intro j v hv
    by_cases hj : j = l
    · subst hj
      rw [setSock_eq _ _ hlen] at hv; cases hv
      exact fun e => hp e.symm
    · rw [setSock_ne _ _ hj] at hv; exact ports j v hj hv
  obtain ⟨k, hk⟩ := freeSlot_of (setSock_eq s {} hlen) rfl
  have hklen : k < (setSock s l {}).socks.length := by obtain ⟨v, h1, -⟩ := freeSlot_some hk; exact lt_of_some h1
  generalize setSock s l {} = s1 at hports hk hklen
  unfold Sock.socketOp
  rw [hk]
  dsimp only
  have hkeep : ∀ v : Sock.Sock, (setSock s1 k v).socks.length = s1.socks.length := fun v => List.length_set ..
  have hbind : Sock.bindOp (setSock s1 k (Sock.fresh (s1.socks.getD k {}))) k 0 port true e.bindVeto =
      (setSock (setSock s1 k (Sock.fresh (s1.socks.getD k {}))) k { Sock.fresh (s1.socks.getD k {}) with
        lip := Sock.bindAddr s1.net 0, sport := port, blip := 0 }, .ok) := by
    unfold Sock.bindOp
    rw [setSock_eq _ _ hklen]
    dsimp only
    have pin : Sock.portInUse (setSock s1 k (Sock.fresh (s1.socks.getD k {}))).socks k (Sock.bindAddr (setSock s1 k (Sock.fresh (s1.socks.getD k {}))).net 0) port = false := by
      unfold Sock.portInUse
      rw [Bool.and_eq_false_iff]
      right
      rw [List.any_eq_false]
      rintro ⟨v, j⟩ hm
      rw [List.mem_zipIdx_iff_getElem?] at hm
      dsimp only at hm
      by_cases hj : j = k
      · simp [hj]
      · rw [setSock_ne _ _ hj] at hm
        simp [hports j v hm]
    rw [if_neg (by simp), if_neg (by simp [Sock.fresh]), if_neg (by simp), if_neg (by rw [pin]; simp), if_neg (by rw [hb]; simp)]
    rfl
  rw [hbind]
  dsimp only
  have hlisten : ∀ (s2 : Sock.St) (v : Sock.Sock), s2.socks[k]? = some v → v.st = .closed →
      Sock.listenOp s2 k e.listenVeto = (setSock s2 k { v with st := .listen, isL := true }, .ok) := by
    intro s2 v h1 h2
    unfold Sock.listenOp
    rw [h1]
    dsimp only
    rw [if_neg (by rw [h2]; simp), if_neg (by rw [hv]; simp)]
  rw [hlisten _ _ (setSock_eq _ _ (by rw [hkeep]; exact hklen)) rfl]
  dsimp only
  refine ⟨k, _, rfl, setSock_eq _ _ (by show k < ((s1.socks.set k _).set k _).length; rw [List.length_set, List.length_set]; exact hklen), rfl, rfl, rfl, rfl⟩

/-- **C130, service.** A client whose SYN the listening socket has taken is accepted by the next poll if there is a free
socket, room to answer it and no veto; the listening socket listens on. -/
theorem accept_serves (port st : Nat) (w : W) (e : Env) (l j : Nat) (t : Sock.Sock) (hl : w.listen = some l) (hph : w.ph = .listening)
    (ht : w.net.socks[l]? = some t) (hs : t.st = .synRcvd) (hu : t.used = true) (hf : freeSlot w.net = some j) (hb : e.acceptSend = true) (hv : e.acceptVeto = false) :
    (step port st w (.poll e)).client = some j ∧ (step port st w (.poll e)).ph = .accepting ∧ (step port st w (.poll e)).listen = some l ∧
    ∃ u v : Sock.Sock, (step port st w (.poll e)).net.socks[l]? = some u ∧ u.st = .listen ∧ u.sport = t.sport ∧
      (step port st w (.poll e)).net.socks[j]? = some v ∧ v.rip = t.rip ∧ v.dport = t.dport := by
  have hji : l ≠ j := by
    rintro rfl
    obtain ⟨u, h1, h2⟩ := freeSlot_some hf
    rw [ht] at h1; cases h1; rw [hu] at h2; cases h2
  have hstep : step port st w (.poll e) = listening port w e := poll_listening hph
  rw [hstep]
  unfold listening
  rw [hl]
  dsimp only
  unfold Sock.acceptOp
  rw [ht]
  dsimp only
  rw [if_neg (by rw [hs]; simp), if_neg (by rw [hs]; simp), if_neg (by rw [hs]; simp), hf]
  dsimp only
  rw [if_neg (by rw [hb]; simp), hv]
  rw [if_neg (show ¬ false = true by simp)]
  obtain ⟨u, hu1, -⟩ := freeSlot_some hf
  dsimp only
  refine ⟨rfl, rfl, rfl, _, _, (setSock_ne _ _ hji).trans (setSock_eq _ _ (lt_of_some ht)), ?_, ?_, setSock_eq _ _ ?_, ?_, ?_⟩
  · rfl
  · rfl
  · show j < (w.net.socks.set l _).length
    rw [List.length_set]; exact lt_of_some hu1
  · rfl
  · rfl

/-- **Finding** (`close_refused`): when the FIN cannot be queued because the client does not take what it was sent,
`wolfIP_sock_close` answers "again", the server forgets the descriptor, and the connection stays as it was with nobody
to close it. -/
theorem close_refused (port st : Nat) (w : W) (e : Env) (k : Nat) (t : Sock.Sock) (hph : w.ph = .closing) (hc : w.client = some k)
    (ht : w.net.socks[k]? = some t) (hs : t.st = .est ∨ t.st = .closeWait) (he : e.closeSend = false) :
    (step port st w (.poll e)).net = w.net ∧ (step port st w (.poll e)).client = none ∧ (step port st w (.poll e)).ph = .listening := by
  have hcl : (Sock.closeOp w.net k e.closeSend).1 = w.net := by
    unfold Sock.closeOp
    rw [ht]
    dsimp only
    rcases hs with hs | hs <;> rw [hs] <;> dsimp only <;> rw [if_pos he]
  show (poll port st w e).net = _ ∧ (poll port st w e).client = _ ∧ (poll port st w e).ph = _
  unfold poll
  rw [hph]
  dsimp only
  unfold closing
  cases w.ssh <;> dsimp only <;> rw [hc] <;> exact ⟨hcl, rfl, rfl⟩

/-! ## Concrete histories -/

/-- The server on port 22 with four sockets. -/
def srv : W := start (Sock.run (Sock.init 4 Sock.net1) [.socket, .bind 0 0 22 true false, .listen 0 false]).1 0

/-- A client's segments: SYN, ACK, FIN. -/
def cSyn (p : Nat) : Ev := .net (.segment { Sock.synSeg with dport := 22, sport := p } Sock.orc1)
def cAck (p : Nat) : Ev := .net (.segment { Sock.ackSeg with dport := 22, sport := p } Sock.orc1)
def cFin (p : Nat) : Ev := .net (.segment { Sock.ackSeg with dport := 22, sport := p, fin := true } Sock.orc1)

/-- A whole session: it is accepted, runs two commands and ends; the server listens again. -/
example : let w := run 22 0 srv [cSyn 40000, .poll {}, cAck 40000, .poll { new := some 5 }, .poll { hs := .ok },
      .poll { rd := .data (cInfo ++ [13]) }, .poll { rd := .data (cExit ++ [13]) }]
    ran w.acts = [cInfo, cExit] ∧ w.ph = .closing ∧ w.client = some 1 ∧
    (step 22 0 w (.poll {})).ph = .listening ∧ (step 22 0 w (.poll {})).listen = some 0 ∧ isOpen 1 (step 22 0 w (.poll {})).acts = false := by
  decide +kernel

/-- **Finding** (`dead_by_fin`): one client that connects and closes before the next poll: no client is ever served again. -/
theorem dead_by_fin (es : List Ev) :
    acceptedN (run 22 0 (run 22 0 srv [cSyn 40000, cAck 40000, cFin 40000, .poll {}]) es).acts = 0 := by
  have h : (run 22 0 srv [cSyn 40000, cAck 40000, cFin 40000, .poll {}]).listen = none := by decide +kernel
  rw [(dead_for_ever 22 0 es _ h).2]
  decide +kernel

/-- **Finding** (`dead_by_two_clients`): a second client connects while the first is served; the first leaves; the server is
dead. -/
theorem dead_by_two_clients :
    let w := run 22 0 srv [cSyn 40000, .poll {}, cAck 40000, .poll { new := some 5 }, .poll { hs := .ok }, cSyn 40001, cAck 40001,
      .poll { rd := .data (cExit ++ [13]) }, .poll {}]
    w.listen = some 0 ∧ (step 22 0 w (.poll {})).listen = none := by
  decide +kernel

end Wolf.Ssh
