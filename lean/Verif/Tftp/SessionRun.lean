import Verif.Tftp.Sessions
/-! # C133: the sessions of the TFTP server, over all histories -/
namespace Wolf.Tftp.Srv.Ses
open Wolf.Tftp

/-! ## One step and one slot -/

/-- What a step does to slot `j`. -/
inductive SlotStep (sv : Server) (e : SEv) (j : Nat) (s : Sess) : Prop where
  | same (h1 : (step sv e).1.sess[j]? = some s) (h2 : outsOf j (step sv e).2 = [])
  | poll (env : Nat → SEnv) (now : Nat) (he : e = .poll env now)
      (h1 : (step sv e).1.sess[j]? = some (pollSess sv.cfg.maxImage sv.cfg.maxRetries (env j) j s now).1)
      (h2 : outsOf j (step sv e).2 = outsOf j (pollSess sv.cfg.maxImage sv.cfg.maxRetries (env j) j s now).2)
  | packet (env : SEnv) (m : List Nat) (x : Sess × List SOut) (hu : s.used = true) (he : e = .recv env (portBase + j) s.ip s.port m)
      (hx : (2 ≤ m.length ∧ rd16 m 0 = 5 ∧ x = fin j s) ∨
        (s.isWrite = true ∧ 4 ≤ m.length ∧ rd16 m 0 = 3 ∧ x = recvData sv.cfg.maxImage env j s (rd16 m 2) (m.drop 4)) ∨
        (s.isWrite = false ∧ 4 ≤ m.length ∧ rd16 m 0 = 4 ∧ x = recvAck sv.cfg.maxImage env j s (rd16 m 2)))
      (h1 : (step sv e).1.sess[j]? = some x.1) (h2 : (step sv e).2 = x.2)
  | start (env : SEnv) (ip port : Nat) (m : List Nat) (r : Req) (hu : s.used = false) (he : e = .recv env listenPort ip port m) (hr : parseRequest m = .ok r)
      (hone : ∀ (k : Nat) (t : Sess), sv.sess[k]? = some t → t.used = true → ¬ (t.ip = ip ∧ t.port = port))
      (h1 : (step sv e).1.sess[j]? = some (startReq sv.cfg env j ip port r).1)
      (h2 : (step sv e).2 = (startReq sv.cfg env j ip port r).2)

theorem recv_slot (sv : Server) (env : SEnv) (lp ip port : Nat) (m : List Nat) (j : Nat) (s : Sess) (hs : sv.sess[j]? = some s) :
    SlotStep sv (.recv env lp ip port m) j s := by
  have hj : j < sv.sess.length := (List.getElem?_eq_some_iff.1 hs).1
  have nothing : ∀ a, step sv (.recv env lp ip port m) = (sv, [SOut.err a]) → SlotStep sv (.recv env lp ip port m) j s := fun a h =>
    .same (by rw [h]; exact hs) (by rw [h]; rfl)
  have silent : step sv (.recv env lp ip port m) = (sv, []) → SlotStep sv (.recv env lp ip port m) j s := fun h =>
    .same (by rw [h]; exact hs) (by rw [h]; rfl)
  have key : step sv (.recv env lp ip port m) = receive sv env lp ip port m := rfl
  unfold receive at key
  split at key
  · rename_i hlp
    cases hr : parseRequest m with
    | ok r =>
      rw [hr] at key
      dsimp only at key
      split at key
      · exact silent key
      rename_i hany
      split at key
      · exact nothing _ key
      · rename_i i hi
        rw [List.findIdx?_eq_some_iff_getElem] at hi
        obtain ⟨hlt, hfree, -⟩ := hi
        by_cases hij : i = j
        · subst hij
          have e0 : sv.sess[i] = s := by rw [List.getElem?_eq_getElem hlt] at hs; exact Option.some.inj hs
          refine .start env ip port m r (by rw [e0] at hfree; simpa using hfree) (by rw [hlp]) hr ?_ (by rw [key]; exact List.getElem?_set_self hlt) (by rw [key])
          intro k t hk hu hc
          refine hany ?_
          rw [List.any_eq_true]
          exact ⟨t, List.mem_of_getElem? hk, by simp [hu, hc.1, hc.2]⟩
        · refine .same ?_ ?_
          · rw [key]; exact (List.getElem?_set_ne hij).trans hs
          · rw [key]; exact outsOf_other i j _ (startReq_tagged _ _ _ _ _ _) hij
    | unsupported => rw [hr] at key; exact nothing _ key
    | packet => rw [hr] at key; exact nothing _ key
    | oob => rw [hr] at key; exact nothing _ key
    | running => rw [hr] at key; exact nothing _ key
  · rename_i hlp
    dsimp only at key
    split at key
    · rename_i t ht
      split at key
      · rename_i hc
        have hpb : lp = portBase + (lp - portBase) := by omega
        have put : ∀ x : Sess × List SOut, Tagged (lp - portBase) x.2 →
            step sv (.recv env lp ip port m) = ({ sv with sess := sv.sess.set (lp - portBase) x.1 }, x.2) →
            ((lp - portBase) = j → (2 ≤ m.length ∧ rd16 m 0 = 5 ∧ x = fin j s) ∨
              (s.isWrite = true ∧ 4 ≤ m.length ∧ rd16 m 0 = 3 ∧ x = recvData sv.cfg.maxImage env j s (rd16 m 2) (m.drop 4)) ∨
              (s.isWrite = false ∧ 4 ≤ m.length ∧ rd16 m 0 = 4 ∧ x = recvAck sv.cfg.maxImage env j s (rd16 m 2))) →
            SlotStep sv (.recv env lp ip port m) j s := by
          intro x htag h hx
          by_cases hij : lp - portBase = j
          · have ets : t = s := by rw [hij, hs] at ht; exact (Option.some.inj ht).symm
            refine .packet env m x (by rw [← ets]; exact hc.2.1) ?_ (hx hij) ?_ (by rw [h])
            · rw [← ets, hc.2.2.1, hc.2.2.2, ← hij, ← hpb]
            · rw [h, ← hij]; exact List.getElem?_set_self (by rw [hij]; exact hj)
          · refine .same ?_ ?_
            · rw [h]; exact (List.getElem?_set_ne hij).trans hs
            · rw [h]; exact outsOf_other _ j _ htag hij
        have ets : lp - portBase = j → t = s := fun hij => by rw [hij, hs] at ht; exact (Option.some.inj ht).symm
        split at key
        · rename_i h5
          refine put _ (fin_tagged _ _) key (fun hij => .inl ⟨h5.1, h5.2, ?_⟩)
          rw [ets hij, hij]
        split at key
        · rename_i hw
          split at key
          · exact silent key
          · rename_i hm
            refine put _ (recvData_tagged _ _ _ _ _ _) key (fun hij => .inr (.inl ⟨by rw [← ets hij]; exact hw, by omega, ?_, ?_⟩))
            · exact Decidable.byContradiction fun c => hm (.inr c)
            · rw [ets hij, hij]
        rename_i hw
        split at key
        · exact silent key
        · rename_i hm
          refine put _ (recvAck_tagged _ _ _ _ _) key (fun hij => .inr (.inr ⟨by rw [← ets hij]; simpa using hw, by omega, ?_, ?_⟩))
          · exact Decidable.byContradiction fun c => hm (.inl c)
          · rw [ets hij, hij]
      · exact nothing _ key
    · exact nothing _ key

theorem step_slot (sv : Server) (e : SEv) (j : Nat) (s : Sess) (hs : sv.sess[j]? = some s) : SlotStep sv e j s := by
  cases e with
  | recv env lp ip port m => exact recv_slot sv env lp ip port m j s hs
  | poll env now =>
    have h := pollAll_slot sv.cfg env now sv.sess 0 j s hs
    rw [Nat.zero_add] at h
    exact .poll env now rfl h.1 h.2

theorem step_len (sv : Server) (e : SEv) : (step sv e).1.sess.length = sv.sess.length ∧ (step sv e).1.cfg = sv.cfg := by
  cases e with
  | poll env now => exact ⟨pollAll_length .., rfl⟩
  | recv env lp ip port m =>
    show (receive sv env lp ip port m).1.sess.length = _ ∧ (receive sv env lp ip port m).1.cfg = _
    unfold receive
    split
    · split
      · split
        · exact ⟨rfl, rfl⟩
        · split
          · exact ⟨rfl, rfl⟩
          · exact ⟨List.length_set .., rfl⟩
      · exact ⟨rfl, rfl⟩
      · exact ⟨rfl, rfl⟩
    · dsimp only
      split
      · split
        · split
          · exact ⟨List.length_set .., rfl⟩
          split
          · split
            · exact ⟨rfl, rfl⟩
            · exact ⟨List.length_set .., rfl⟩
          split
          · exact ⟨rfl, rfl⟩
          · exact ⟨List.length_set .., rfl⟩
        · exact ⟨rfl, rfl⟩
      · exact ⟨rfl, rfl⟩

/-! ## Isolation -/

/-- **C133, only its peer drives a session.** A packet that does not come from the session's peer to the session's port, or
is not of the kind the session expects (DATA when it receives, ACK when it sends, or ERROR), leaves the session and what
the server does for it alone. -/
theorem tftp_session_isolated (sv : Server) (env : SEnv) (lp ip port : Nat) (m : List Nat) (j : Nat) (s : Sess) (hs : sv.sess[j]? = some s)
    (hu : s.used = true)
    (hn : ¬ (lp = portBase + j ∧ ip = s.ip ∧ port = s.port ∧
      ((rd16 m 0 = 5 ∧ 2 ≤ m.length) ∨ (rd16 m 0 = (if s.isWrite then 3 else 4) ∧ 4 ≤ m.length)))) :
    (receive sv env lp ip port m).1.sess[j]? = some s ∧ outsOf j (receive sv env lp ip port m).2 = [] := by
  rcases recv_slot sv env lp ip port m j s hs with ⟨h1, h2⟩ | ⟨_, _, he, _, _⟩ | ⟨env', m', x, _, he, hx, h1, h2⟩ | ⟨_, _, _, _, _, hu', _, _, _, _, _⟩
  · exact ⟨h1, h2⟩
  · cases he
  · cases he
    refine absurd ⟨rfl, rfl, rfl, ?_⟩ hn
    rcases hx with q | ⟨q1, q2, q3, _⟩ | ⟨q1, q2, q3, _⟩
    · exact .inl ⟨q.2.1, q.1⟩
    · exact .inr ⟨by rw [q1]; exact q3, q2⟩
    · exact .inr ⟨by rw [q1]; exact q3, q2⟩
  · rw [hu] at hu'; cases hu'

/-- **C133, writes.** Whatever is written comes from the DATA packet the session expected next, from its peer: block number,
data and place. -/
theorem tftp_write_origin (sv : Server) (e : SEv) (j off : Nat) (d : List Nat) (h : .write j off d ∈ (step sv e).2) (hj : j < sv.sess.length) :
    ∃ env m s, sv.sess[j]? = some s ∧ s.used = true ∧ s.isWrite = true ∧ e = .recv env (portBase + j) s.ip s.port m ∧
      4 ≤ m.length ∧ rd16 m 0 = 3 ∧ rd16 m 2 = s.nextBlock ∧ d = m.drop 4 ∧ off = s.nextOffset := by
  have hs : sv.sess[j]? = some sv.sess[j] := List.getElem?_eq_getElem hj
  have hof : ∀ {l : List SOut}, .write j off d ∈ l → .write j off d ∈ outsOf j l := fun h => List.mem_filter.2 ⟨h, by simp [SOut.slot]⟩
  have hfo : ∀ {l : List SOut}, .write j off d ∈ outsOf j l → .write j off d ∈ l := fun h => (List.mem_filter.1 h).1
  have hwin : ∀ M env s, .write j off d ∉ (sendWindow M env j s).2.1 := by
    intro M env s h
    rcases (sendWindow_res M env j s).outs _ h with ⟨_, _, _, q⟩ | q | q <;> cases q
  have hfin : ∀ s, .write j off d ∉ (fin j s).2 := by
    intro s h
    have := (fin_outs j s).2 _ h; cases this
  rcases step_slot sv e j _ hs with ⟨h1, h2⟩ | ⟨env, now, he, h1, h2⟩ | ⟨env', m', x, hu, he, hx, h1, h2⟩ | ⟨env, ip, port, m, r, hu', he, hr, _, h1, h2⟩
  · have := hof h; rw [h2] at this; cases this
  · have := hof h
    rw [h2] at this
    have := hfo this
    exfalso
    unfold pollSess at this
    split at this
    · cases this
    split at this
    · cases this
    split at this
    · cases this
    split at this
    · exact hfin _ this
    dsimp only at this
    split at this
    · simp at this
    split at this
    · simp at this
    · exact hwin _ _ _ this
  · rw [h2] at h
    rcases hx with ⟨_, _, q⟩ | ⟨q1, q2, q3, q4⟩ | ⟨_, _, _, q⟩
    · rw [q] at h; exact absurd h (hfin _)
    · refine ⟨env', m', _, hs, hu, q1, he, q2, q3, ?_⟩
      rw [q4] at h
      unfold recvData at h
      split at h
      · rename_i hn
        refine ⟨hn, ?_⟩
        have fins : ∀ (l : List SOut) (t : Sess), .write j off d ∈ l ++ (fin j t).2 → .write j off d ∈ l := by
          intro l t h
          rcases List.mem_append.1 h with h | h
          · exact h
          · exact absurd h (hfin _)
        have one : .write j off d ∈ [SOut.write j (sv.sess[j]).nextOffset (m'.drop 4)] → d = m'.drop 4 ∧ off = (sv.sess[j]).nextOffset := by
          intro h
          have := List.mem_singleton.1 h
          injection this with _ a b
          exact ⟨b, a⟩
        have two : ∀ n, .write j off d ∈ [SOut.write j (sv.sess[j]).nextOffset (m'.drop 4)] ++ [.ack j n] → d = m'.drop 4 ∧ off = (sv.sess[j]).nextOffset := by
          intro n h
          rcases List.mem_append.1 h with h | h
          · exact one h
          · simp at h
        dsimp only at h
        split at h
        · have := fins _ _ h; simp at this
        split at h
        · exact one (fins _ _ h)
        split at h
        · exact one (fins _ _ h)
        split at h
        · exact one h
        split at h
        · split at h
          · have := fins _ _ h
            rcases List.mem_append.1 this with h | h
            · exact two _ h
            · simp at h
          · exact two _ h
        · split at h
          · have := fins _ _ h
            rcases List.mem_append.1 this with h | h
            · exact one h
            · simp at h
          · exact one h
      · split at h
        · dsimp only at h; split at h <;> simp at h
        · cases h
    · exfalso
      rw [q] at h
      unfold recvAck at h
      split at h
      · cases h
      dsimp only at h
      split at h
      · exact hfin _ h
      · exact hwin _ _ _ h
  · exfalso
    rw [h2] at h
    unfold startReq at h
    dsimp only at h
    split at h
    · simp at h
    split at h
    · simp at h
    have : ∀ t, .write j off d ∉ (startReply sv.cfg env j r t [.openFile j r.filename (decide (r.opcode = 2))]).2 := by
      intro t h
      unfold startReply at h
      split at h
      · dsimp only at h; split at h <;> simp at h
      split at h
      · dsimp only at h; split at h <;> simp at h
      · rcases List.mem_append.1 h with h | h
        · simp at h
        · exact hwin _ _ _ h
    exact this _ h

/-! ## One session per peer -/

theorem turn_of_packet {sv : Server} {env : SEnv} {j : Nat} {s : Sess} {m : List Nat} {x : Sess × List SOut}
    (hx : (2 ≤ m.length ∧ rd16 m 0 = 5 ∧ x = fin j s) ∨
        (s.isWrite = true ∧ 4 ≤ m.length ∧ rd16 m 0 = 3 ∧ x = recvData sv.cfg.maxImage env j s (rd16 m 2) (m.drop 4)) ∨
        (s.isWrite = false ∧ 4 ≤ m.length ∧ rd16 m 0 = 4 ∧ x = recvAck sv.cfg.maxImage env j s (rd16 m 2))) : Turn j s x := by
  rcases hx with ⟨_, _, q⟩ | ⟨_, _, _, q⟩ | ⟨_, _, _, q⟩ <;> rw [q]
  · exact turn_fin _ _
  · exact turn_data _ _ _ _ _ _
  · exact turn_ack _ _ _ _ _

/-- After a step a live session either was live with this peer, or the step is a request from the peer. -/
theorem step_peer (sv : Server) (e : SEv) (j : Nat) (s' : Sess) (hs' : (step sv e).1.sess[j]? = some s') (hu : s'.used = true) :
    (∃ s, sv.sess[j]? = some s ∧ s.used = true ∧ s.ip = s'.ip ∧ s.port = s'.port) ∨
    (∃ env m s, sv.sess[j]? = some s ∧ s.used = false ∧ e = .recv env listenPort s'.ip s'.port m ∧
      (∀ (k : Nat) (t : Sess), sv.sess[k]? = some t → t.used = true → ¬ (t.ip = s'.ip ∧ t.port = s'.port)) ∧
      ∀ k, k ≠ j → (step sv e).1.sess[k]? = sv.sess[k]?) := by
  have hj : j < sv.sess.length := by
    have := (List.getElem?_eq_some_iff.1 hs').1; rw [(step_len sv e).1] at this; exact this
  have hs : sv.sess[j]? = some sv.sess[j] := List.getElem?_eq_getElem hj
  have hturn : ∀ x : Sess × List SOut, Turn j sv.sess[j] x → x.1 = s' → ∃ s, sv.sess[j]? = some s ∧ s.used = true ∧ s.ip = s'.ip ∧ s.port = s'.port := by
    intro x t ex
    rcases t.state with q | ⟨q1, _, q3, q4, _⟩
    · rw [ex, hu] at q; cases q.1
    · rw [ex] at q1 q3 q4
      exact ⟨_, hs, by rw [← q1]; exact hu, q3.symm, q4.symm⟩
  rcases step_slot sv e j _ hs with ⟨h1, h2⟩ | ⟨env, now, he, h1, h2⟩ | ⟨env', m', x, hu', he, hx, h1, h2⟩ | ⟨env, ip, port, m, r, hu', he, hr, hone, h1, h2⟩
  · rw [h1] at hs'; cases hs'; exact .inl ⟨_, hs, hu, rfl, rfl⟩
  · rw [h1] at hs'; exact .inl (hturn _ (turn_poll _ _ _ _ _ _) (Option.some.inj hs'))
  · rw [h1] at hs'; exact .inl (hturn _ (turn_of_packet hx) (Option.some.inj hs'))
  · rw [h1] at hs'
    have e' := Option.some.inj hs'
    rcases (fresh_start sv.cfg env j ip port r).state with q | ⟨_, _, q3, q4, _⟩
    · rw [e', hu] at q; cases q.1
    · rw [e'] at q3 q4
      refine .inr ⟨env, m, _, hs, hu', by rw [q3, q4]; exact he, by rw [q3, q4]; exact hone, ?_⟩
      intro k hk
      by_cases hkl : k < sv.sess.length
      · have hks : sv.sess[k]? = some sv.sess[k] := List.getElem?_eq_getElem hkl
        rcases step_slot sv e k _ hks with ⟨g1, _⟩ | ⟨_, _, g, _, _⟩ | ⟨_, m2, _, _, g, _, _, g2⟩ | ⟨env2, ip2, port2, m2, r2, _, g, gr, _, _, g2⟩
        · rw [g1, hks]
        · rw [he] at g; cases g
        · rw [he] at g
          injection g with _ g _ _ _
          exfalso
          have : (69 : Nat) = 20000 + k := g
          omega
        · exfalso
          rw [he] at g
          cases g
          rw [hr] at gr
          cases gr
          have e1 := congrArg (outsOf j) (h2.symm.trans g2)
          rw [outsOf_other k j _ (startReq_tagged _ _ _ _ _ _) hk] at e1
          rcases (fresh_start sv.cfg env j ip port r).state with w | ⟨_, _, _, _, _, _, _, _, _, ⟨n, w, hm⟩, _⟩
          · rw [e', hu] at w; cases w.1
          · have : SOut.openFile j n w ∈ outsOf j (startReq sv.cfg env j ip port r).2 := List.mem_filter.2 ⟨hm, by simp [SOut.slot]⟩
            rw [e1] at this; cases this
      · rw [List.getElem?_eq_none (l := (step sv e).1.sess) (by rw [(step_len sv e).1]; omega), List.getElem?_eq_none (l := sv.sess) (by omega)]

theorem onePer_step {sv : Server} (h : OnePer sv) (e : SEv) : OnePer (step sv e).1 := by
  intro i j s t hi hj hs ht hip hport
  rcases step_peer sv e i s hi hs with ⟨s0, a1, a2, a3, a4⟩ | ⟨env, m, s0, a1, a2, a3, a4, a5⟩
  · rcases step_peer sv e j t hj ht with ⟨t0, b1, b2, b3, b4⟩ | ⟨env, m, t0, b1, b2, b3, b4, b5⟩
    · exact h i j s0 t0 a1 b1 a2 b2 (by rw [a3, b3, hip]) (by rw [a4, b4, hport])
    · exact absurd ⟨by rw [a3, hip], by rw [a4, hport]⟩ (b4 i s0 a1 a2)
  · refine Decidable.byContradiction fun hne => ?_
    have := a5 j (fun c => hne c.symm)
    rw [hj] at this
    exact a4 j t this.symm ht ⟨hip.symm, hport.symm⟩

theorem run_out (es : List SEv) : ∀ (sv : Server) (o o' : List SOut), (run sv o es).1 = (run sv o' es).1 := by
  induction es with
  | nil => intro sv o o'; rfl
  | cons e es ih => intro sv o o'; exact ih _ _ _

/-- **C133, one session per peer.** However requests arrive, no peer ever has two sessions. -/
theorem tftp_one_session_per_peer (cfg : Cfg) (es : List SEv) : OnePer (run (init cfg) [] es).1 := by
  have : ∀ (es : List SEv) (sv : Server) (o : List SOut), OnePer sv → OnePer (run sv o es).1 := by
    intro es
    induction es with
    | nil => intro sv o h; exact h
    | cons e es ih => intro sv o h; exact ih _ _ (onePer_step h e)
  refine this es _ _ ?_
  intro i j s t hi _ hu
  have := (List.mem_replicate.1 (List.mem_of_getElem? hi)).2
  rw [this] at hu; cases hu

/-! ## Terms -/

/-- **C133, terms.** A session starts under the terms of its request — the values of the options asked for, the size of the
file for a download — and with the options of the request to be acknowledged … -/
theorem tftp_session_terms (cfg : Cfg) (env : SEnv) (i ip port : Nat) (r : Req) (hu : (startReq cfg env i ip port r).1.used = true) :
    (anyOpt r = true → (startReq cfg env i ip port r).1.optionsSent = true ∧ (startReq cfg env i ip port r).1.oackOpts = bitsOf r) ∧
    (∀ v, r.blksize = some v → (startReq cfg env i ip port r).1.neg.blksize = v) ∧
    (∀ v, r.timeout = some v → (startReq cfg env i ip port r).1.neg.timeout = v) ∧
    (∀ v, r.windowsize = some v → (startReq cfg env i ip port r).1.neg.windowsize = v) ∧
    (∀ v, r.tsize = some v → (startReq cfg env i ip port r).1.neg.tsize = some (if r.opcode = 2 then v else env.openSize)) := by
  rcases (fresh_start cfg env i ip port r).state with q | ⟨_, _, _, _, _, _, _, _, _, _, q⟩
  · rw [hu] at q; cases q.1
  · exact q

/-- … and keeps them as long as it lives. -/
theorem tftp_terms_kept (sv : Server) (e : SEv) (j : Nat) (s s' : Sess) (hs : sv.sess[j]? = some s) (hu : s.used = true)
    (hs' : (step sv e).1.sess[j]? = some s') (hu' : s'.used = true) :
    s'.neg = s.neg ∧ s'.oackOpts = s.oackOpts ∧ s'.ip = s.ip ∧ s'.port = s.port ∧ s'.isWrite = s.isWrite := by
  have hturn : ∀ x : Sess × List SOut, Turn j s x → x.1 = s' → s'.neg = s.neg ∧ s'.oackOpts = s.oackOpts ∧ s'.ip = s.ip ∧ s'.port = s.port ∧ s'.isWrite = s.isWrite := by
    intro x t ex
    rcases t.state with q | ⟨q1, q2, q3, q4, q5, q6, q7, _⟩
    · rw [ex, hu'] at q; cases q.1
    · rw [ex] at q3 q4 q5 q6 q7; exact ⟨q6, q7, q3, q4, q5⟩
  rcases step_slot sv e j s hs with ⟨h1, h2⟩ | ⟨env, now, he, h1, h2⟩ | ⟨env', m', x, _, he, hx, h1, h2⟩ | ⟨_, _, _, _, _, hu'', _, _, _, _, _⟩
  · rw [h1] at hs'; cases hs'; exact ⟨rfl, rfl, rfl, rfl, rfl⟩
  · rw [h1] at hs'; exact hturn _ (turn_poll _ _ _ _ _ _) (Option.some.inj hs')
  · rw [h1] at hs'; exact hturn _ (turn_of_packet hx) (Option.some.inj hs')
  · rw [hu] at hu''; cases hu''

end Wolf.Tftp.Srv.Ses
