import Verif.Tcp.Opts
import Verif.Tcp.Paws
/-!
# C88: what two ends of a TCP connection agree on in the handshake

Models the negotiation of window scale, timestamps, SACK and MSS (`src/wolfip.c`): the fields a fresh socket starts with
(`tcp_new_socket` 3092–3116, listener reset 4032–4050), which options a SYN and a SYN-ACK carry (`tcp_send_syn` 3815–3832), how the receiver sets its fields (5458–5488),
the copy `accept` makes (6551–6563), the advertised window (`tcp_adv_win` 3126–3134), how it is read (5489–5495), and the size of what is sent
(`wolfIP_socket_tcp_mss` 1585–1592, `tcp_tx_payload_cap` 1603–1618, the option bytes of a data segment 6660). The option bytes and the parser are those of
`Verif.Tcp.Opts`.
-/
namespace Wolf.Tcp.Neg
open Wolf.Tcp.Opts

/-- TCP_DEFAULT_MSS -/
notation "defMss" => (536 : Nat)

/-- The negotiated fields of a socket. -/
structure Neg where
  wsOffer : Bool
  tsOffer : Bool
  sackOffer : Bool
  wsOn : Bool
  tsOn : Bool
  sackOn : Bool
  sndShift : Nat
  rcvShift : Nat
  peerMss : Nat
deriving DecidableEq, Repr

/-- `while (shift < 14 && (space >> shift) > 0xFFFF) shift++`. 3101–3108. -/
def wscaleGo (space : Nat) : Nat → Nat → Nat
  | 0, shift => shift
  | fuel + 1, shift => if shift < 14 ∧ 65535 < space / 2 ^ shift then wscaleGo space fuel (shift + 1) else shift

def wscale (rxbuf : Nat) : Nat := wscaleGo rxbuf 14 0

/-- `tcp_new_socket`, and a listener made ready again. -/
def fresh (rxbuf : Nat) : Neg :=
  { wsOffer := true, tsOffer := true, sackOffer := true, wsOn := false, tsOn := false, sackOn := false,
    sndShift := 0, rcvShift := wscale rxbuf, peerMss := defMss }

/-- A SYN arrives in LISTEN. 5463–5474. -/
def onSyn (n : Neg) (po : PO) : Neg :=
  { n with
    peerMss := po.mss.getD defMss
    wsOn := po.ws.isSome
    tsOn := po.ts.isSome
    sndShift := po.ws.getD 0
    sackOn := n.sackOffer && po.sackPerm }

/-- A SYN-ACK arrives in SYN_SENT. 5475–5487. -/
def onSynAck (n : Neg) (po : PO) : Neg :=
  { n with
    peerMss := po.mss.getD defMss
    wsOn := n.wsOffer && po.ws.isSome
    sndShift := if n.wsOffer then po.ws.getD 0 else 0
    tsOn := n.tsOffer && po.ts.isSome
    sackOn := n.sackOffer && po.sackPerm }

/-- The options of our SYN. 3826–3832. -/
def synCfg (n : Neg) (mss now ecr : Nat) : Cfg :=
  { incWs := true, incSack := n.sackOffer, incTs := n.tsOffer, mss := mss, shift := n.rcvShift, now := now, ecr := ecr, blocks := [] }

/-- The options of our SYN-ACK. 3820–3825. -/
def synAckCfg (n : Neg) (mss now ecr : Nat) : Cfg :=
  { incWs := n.wsOn, incSack := n.sackOn, incTs := n.tsOn, mss := mss, shift := n.rcvShift, now := now, ecr := ecr, blocks := [] }

/-- The fields `accept` gives the new socket: a fresh one with everything negotiated copied. 6551–6563. -/
def clone (rxbuf : Nat) (l : Neg) : Neg :=
  { fresh rxbuf with
    peerMss := l.peerMss, sndShift := l.sndShift, rcvShift := l.rcvShift, wsOn := l.wsOn, wsOffer := l.wsOffer,
    tsOn := l.tsOn, tsOffer := l.tsOffer, sackOffer := l.sackOffer, sackOn := l.sackOn }

/-- `wolfIP_ip_mtu` of a frame MTU (ETH_HEADER_LEN 14, IP_MTU_MAX 1500). 1564–1577. -/
def ipMtu (frameMtu : Nat) : Nat := min (frameMtu - 14) 1500

/-- `wolfIP_socket_tcp_mss`. 1586–1593. -/
def tcpMss (mtu : Nat) : Nat := mtu - 40

/-- The option budget of a SYN. 3833–3838. -/
def budget (mtu : Nat) : Nat := min (mtu - 40) 40

/-- `tcp_tx_payload_cap` (TCP_OPTIONS_LEN 12). 1603–1618. -/
def payloadCap (mtu peerMss : Nat) : Nat :=
  if 0 < peerMss ∧ peerMss < tcpMss mtu - 12 then peerMss else tcpMss mtu - 12

/-- IP length of a data segment. 6660–6661. -/
def segLen (n : Neg) (payload : Nat) : Nat := 40 + (if n.tsOn then 12 else 0) + payload

/-- `tcp_adv_win` for a segment after the handshake. 3126–3134. -/
def advWin (n : Neg) (space : Nat) : Nat := min (space / 2 ^ (if n.wsOn then n.rcvShift else 0)) 65535

/-- How the window of a segment without SYN is read. 5491–5495. -/
def readWin (n : Neg) (raw : Nat) : Nat := raw * 2 ^ (if n.wsOn then n.sndShift else 0)

/-- The option area of a SYN or SYN-ACK as the other end parses it (`rest`: the payload). -/
def wire (c : Cfg) (b : Nat) (rest : List Nat) : Res PO := parse (hlenByte (synOpts c b).length) (synOpts c b ++ rest)

/-- A handshake between two stacks: `(client, server)` at its end. MTUs, buffer sizes, clocks and echoed values are arbitrary. -/
structure Hs where
  mtuC : Nat
  mtuS : Nat
  rxC : Nat
  rxS : Nat
  nowC : Nat
  ecrC : Nat
  nowS : Nat
  ecrS : Nat

def server (h : Hs) : Option Neg :=
  match wire (synCfg (fresh h.rxC) (tcpMss h.mtuC) h.nowC h.ecrC) (budget h.mtuC) [] with
  | .done po => some (clone h.rxS (onSyn (fresh h.rxS) po))
  | _ => none

def client (h : Hs) : Option Neg :=
  match server h with
  | none => none
  | some s =>
    match wire (synAckCfg s (tcpMss h.mtuS) h.nowS h.ecrS) (budget h.mtuS) [] with
    | .done po => some (onSynAck (fresh h.rxC) po)
    | _ => none

/-! ## Proofs -/

theorem wscaleGo_le (space : Nat) : ∀ fuel shift, shift ≤ 14 → wscaleGo space fuel shift ≤ 14 := by
  intro fuel
  induction fuel with
  | zero => intro shift h; exact h
  | succ fuel ih =>
    intro shift h
    rw [wscaleGo]
    split
    · next hx => exact ih _ (by omega)
    · exact h

theorem wscaleGo_fits (space : Nat) : ∀ fuel shift, shift + fuel = 14 → (∀ k, k < shift → 65535 < space / 2 ^ k) →
    (wscaleGo space fuel shift = 14 ∨ space / 2 ^ wscaleGo space fuel shift ≤ 65535) ∧
    ∀ k, k < wscaleGo space fuel shift → 65535 < space / 2 ^ k := by
  intro fuel
  induction fuel with
  | zero => intro shift h hk; exact ⟨Or.inl (by rw [wscaleGo]; omega), hk⟩
  | succ fuel ih =>
    intro shift h hk
    rw [wscaleGo]
    split
    · next hx =>
      refine ih _ (by omega) ?_
      intro k hk'
      by_cases e : k = shift
      · rw [e]; exact hx.2
      · exact hk k (by omega)
    · next hx =>
      refine ⟨Or.inr ?_, hk⟩
      have : shift < 14 := by omega
      omega

/-- The scale a socket offers is the smallest (up to 14) with which its whole buffer can be advertised. -/
theorem wscale_smallest (rx : Nat) : wscale rx ≤ 14 ∧ (wscale rx = 14 ∨ rx / 2 ^ wscale rx ≤ 65535) ∧ ∀ k, k < wscale rx → 65535 < rx / 2 ^ k :=
  ⟨wscaleGo_le rx 14 0 (by omega), wscaleGo_fits rx 14 0 rfl (by intro k hk; omega)⟩

/-- What a server ends with, by fields. -/
theorem server_spec (h : Hs) (hm : h.mtuC ≤ 1500) (hc : h.nowC < 4294967296) (he : h.ecrC < 4294967296) :
    ∃ s, server h = some s ∧ s.rcvShift = wscale h.rxS ∧ s.wsOffer = true ∧ s.tsOffer = true ∧ s.sackOffer = true ∧
      (s.wsOn = false ∧ s.sndShift = 0 ∨ s.wsOn = true ∧ s.sndShift = wscale h.rxC) ∧
      (s.peerMss = defMss ∨ s.peerMss = tcpMss h.mtuC) ∧
      (64 ≤ h.mtuC → s.wsOn = true ∧ s.tsOn = true ∧ s.sackOn = true ∧ s.peerMss = tcpMss h.mtuC) := by
  have hb : budget h.mtuC ≤ 40 := Nat.min_le_right ..
  have hmss : tcpMss h.mtuC < 65536 := by unfold tcpMss; omega
  obtain ⟨po, hp, p1, p2, p3, p4, p5, p6⟩ := syn_options_round_trip (synCfg (fresh h.rxC) (tcpMss h.mtuC) h.nowC h.ecrC) (budget h.mtuC) [] hb hmss (wscale_smallest h.rxC).1 hc he
  unfold server wire
  rw [hp]
  refine ⟨_, rfl, rfl, rfl, rfl, rfl, ?_, ?_, ?_⟩
  · rcases p2 with p | ⟨_, p⟩
    · left; simp [clone, onSyn, p]
    · right; simp [clone, onSyn, p, synCfg, fresh]
  · rcases p1 with p | p
    · left; simp [clone, onSyn, p]
    · right; simp [clone, onSyn, p, synCfg]
  · intro h64
    have hb24 : 24 ≤ budget h.mtuC := by unfold budget; omega
    obtain ⟨q1, q2, q3, q4⟩ := p6 hb24
    have hpos : 0 < (synCfg (fresh h.rxC) (tcpMss h.mtuC) h.nowC h.ecrC).mss := by show 0 < tcpMss h.mtuC; unfold tcpMss; omega
    refine ⟨?_, ?_, ?_, ?_⟩
    · simp [clone, onSyn, q2 rfl]
    · simp [clone, onSyn, q4 rfl]
    · simp [clone, onSyn, q3 rfl, fresh]
    · simp [clone, onSyn, q1 hpos, synCfg]

/-- C88. Two ends of a connection between two such stacks agree, for every pair of MTUs, buffer sizes and clocks, if all of the server's options fit in its SYN-ACK (an IP
MTU of at least 64): the same extensions are on at both ends, each end reads windows with the scale the other writes them with, and each knows the other's MSS (or assumes 536). -/
theorem handshake_agrees_partial (h : Hs) (hc : h.mtuC ≤ 1500) (hs : 64 ≤ h.mtuS) (hs' : h.mtuS ≤ 1500)
    (hn : h.nowC < 4294967296) (he : h.ecrC < 4294967296) (hn' : h.nowS < 4294967296) (he' : h.ecrS < 4294967296) :
    ∃ s c, server h = some s ∧ client h = some c ∧ s.wsOn = c.wsOn ∧ s.tsOn = c.tsOn ∧ s.sackOn = c.sackOn ∧
      (s.wsOn = true → s.sndShift = c.rcvShift ∧ c.sndShift = s.rcvShift) ∧
      c.peerMss = tcpMss h.mtuS ∧ (s.peerMss = tcpMss h.mtuC ∨ s.peerMss = defMss) ∧
      (64 ≤ h.mtuC → s.wsOn = true ∧ s.tsOn = true ∧ s.sackOn = true ∧ s.peerMss = tcpMss h.mtuC) := by
  obtain ⟨s, e, s1, s2, s3, s4, s5, s6, s7⟩ := server_spec h hc hn he
  have hb : budget h.mtuS ≤ 40 := Nat.min_le_right ..
  have hb24 : 24 ≤ budget h.mtuS := by unfold budget; omega
  have hmss : tcpMss h.mtuS < 65536 := by unfold tcpMss; omega
  have hsh : (synAckCfg s (tcpMss h.mtuS) h.nowS h.ecrS).shift ≤ 14 := by show s.rcvShift ≤ 14; rw [s1]; exact (wscale_smallest h.rxS).1
  obtain ⟨po, hp, p1, p2, p3, p4, p5, p6⟩ := syn_options_round_trip (synAckCfg s (tcpMss h.mtuS) h.nowS h.ecrS) (budget h.mtuS) [] hb hmss hsh hn' he'
  obtain ⟨q1, q2, q3, q4⟩ := p6 hb24
  have hpos : 0 < (synAckCfg s (tcpMss h.mtuS) h.nowS h.ecrS).mss := by show 0 < tcpMss h.mtuS; unfold tcpMss; omega
  have ec : client h = some (onSynAck (fresh h.rxC) po) := by
    unfold client
    rw [e]
    dsimp only
    unfold wire
    rw [hp]
  refine ⟨s, _, e, ec, ?_, ?_, ?_, ?_, ?_, s6.symm, s7⟩
  · cases hw : s.wsOn with
    | true => simp [onSynAck, fresh, q2 hw]
    | false =>
      rcases p2 with p | ⟨p, _⟩
      · simp [onSynAck, fresh, p]
      · have : s.wsOn = true := p
        rw [hw] at this; cases this
  · cases hw : s.tsOn with
    | true => simp [onSynAck, fresh, q4 hw]
    | false =>
      rcases p4 with p | ⟨p, _⟩
      · simp [onSynAck, fresh, p]
      · have : s.tsOn = true := p
        rw [hw] at this; cases this
  · cases hw : s.sackOn with
    | true => simp [onSynAck, fresh, q3 hw]
    | false =>
      rcases p3 with p | p
      · simp [onSynAck, fresh, p]
      · have : s.sackOn = true := p
        rw [hw] at this; cases this
  · intro hw
    refine ⟨?_, ?_⟩
    · rcases s5 with ⟨a, _⟩ | ⟨_, a⟩
      · rw [hw] at a; cases a
      · rw [a]; rfl
    · simp [onSynAck, fresh, q2 hw, synAckCfg]
  · simp [onSynAck, q1 hpos, synAckCfg]

/-- Any peer, any bytes: an extension is on at the end of a handshake only if the peer's SYN or SYN-ACK carried its option, the scale is at most 14 and the one the peer gave, and the MSS is
the one the peer gave or 536. -/
theorem only_what_the_peer_offered (n : Neg) (hlen : Nat) (mem : List Nat) (po : PO) (hp : parse hlen mem = .done po) (r : Neg) (hr : r = onSyn n po ∨ r = onSynAck n po) :
    (r.wsOn = true → ∃ k, po.ws = some k ∧ r.sndShift = k ∧ k ≤ 14) ∧ (r.wsOn = false → n.wsOffer = true → r.sndShift = 0) ∧ (r.tsOn = true → po.ts ≠ none) ∧
    (r.sackOn = true → po.sackPerm = true) ∧ (po.mss = some r.peerMss ∨ po.mss = none ∧ r.peerMss = defMss) ∧ 0 < r.peerMss := by
  obtain ⟨po', hd, hok⟩ := tcp_options_parse_safe hlen mem
  have epo : po' = po := by rw [hp] at hd; cases hd; rfl
  subst epo
  have hws : ∀ k, po'.ws = some k → k ≤ 14 := by
    intro k hk
    exact hok.1 k hk
  have hms : ∀ k, po'.mss = some k → 0 < k := by
    intro k hk
    exact hok.2.1 k hk
  rcases hr with rfl | rfl
  · refine ⟨?_, ?_, ?_, ?_, ?_, ?_⟩
    · intro h
      cases hw : po'.ws with
      | none => simp [onSyn, hw] at h
      | some k => exact ⟨k, rfl, by simp [onSyn, hw], hws k hw⟩
    · intro h _
      cases hw : po'.ws with
      | none => simp [onSyn, hw]
      | some k => simp [onSyn, hw] at h
    · intro h c; simp [onSyn, c] at h
    · intro h
      simp only [onSyn, Bool.and_eq_true] at h
      exact h.2
    · cases hw : po'.mss with
      | none => right; exact ⟨rfl, by simp [onSyn, hw]⟩
      | some k => left; simp [onSyn, hw]
    · cases hw : po'.mss with
      | none => simp [onSyn, hw]
      | some k => simp [onSyn, hw]; exact hms k hw
  · refine ⟨?_, ?_, ?_, ?_, ?_, ?_⟩
    · intro h
      simp only [onSynAck, Bool.and_eq_true] at h
      cases hw : po'.ws with
      | none => rw [hw] at h; exact absurd h.2 (by intro c; cases c)
      | some k => exact ⟨k, rfl, by simp [onSynAck, hw, h.1], hws k hw⟩
    · intro h ho
      cases hw : po'.ws with
      | none => simp [onSynAck, hw]
      | some k => simp [onSynAck, hw, ho] at h
    · intro h c; simp [onSynAck, c] at h
    · intro h
      simp only [onSynAck, Bool.and_eq_true] at h
      exact h.2
    · cases hw : po'.mss with
      | none => right; exact ⟨rfl, by simp [onSynAck, hw]⟩
      | some k => left; simp [onSynAck, hw]
    · cases hw : po'.mss with
      | none => simp [onSynAck, hw]
      | some k => simp [onSynAck, hw]; exact hms k hw

/-- The window: what the reader understands is never more than the space there is, and less by under one unit of the scale, if the ends agree. -/
theorem window_read (w r : Neg) (hon : w.wsOn = r.wsOn) (hsh : w.wsOn = true → r.sndShift = w.rcvShift) (space : Nat)
    (hfit : space / 2 ^ (if w.wsOn then w.rcvShift else 0) ≤ 65535) :
    readWin r (advWin w space) ≤ space ∧ space < readWin r (advWin w space) + 2 ^ (if w.wsOn then w.rcvShift else 0) := by
  have e : (if r.wsOn = true then r.sndShift else 0) = (if w.wsOn = true then w.rcvShift else 0) := by
    rw [← hon]
    cases hw : w.wsOn with
    | true => rw [if_pos rfl, if_pos rfl, hsh hw]
    | false => rfl
  unfold readWin advWin
  rw [e, Nat.min_eq_left hfit]
  generalize (if w.wsOn = true then w.rcvShift else 0) = k
  have hpos : 0 < 2 ^ k := Nat.two_pow_pos k
  refine ⟨Nat.div_mul_le_self .., ?_⟩
  have := Nat.lt_div_mul_add hpos (a := space)
  exact this

/-- … and even if it does not fit, never more than there is. -/
theorem window_never_more (w r : Neg) (hon : w.wsOn = r.wsOn) (hsh : w.wsOn = true → r.sndShift = w.rcvShift) (space : Nat) :
    readWin r (advWin w space) ≤ space := by
  have e : (if r.wsOn = true then r.sndShift else 0) = (if w.wsOn = true then w.rcvShift else 0) := by
    rw [← hon]
    cases hw : w.wsOn with
    | true => rw [if_pos rfl, if_pos rfl, hsh hw]
    | false => rfl
  unfold readWin advWin
  rw [e]
  generalize (if w.wsOn = true then w.rcvShift else 0) = k
  exact Nat.le_trans (Nat.mul_le_mul_right _ (Nat.min_le_left ..)) (Nat.div_mul_le_self ..)

/-- What is sent respects the peer's MSS and our own MTU. -/
theorem segment_fits (n : Neg) (mtu payload : Nat) (hp : 0 < n.peerMss) (hl : payload ≤ payloadCap mtu n.peerMss) (h0 : 0 < payload) :
    payload ≤ n.peerMss ∧ segLen n payload ≤ mtu := by
  unfold payloadCap tcpMss at hl
  unfold segLen
  split at hl
  · refine ⟨hl, ?_⟩
    split <;> omega
  · next hx =>
    refine ⟨by omega, ?_⟩
    split <;> omega

/-- C88, sizes. A full segment fits the receiver's MTU when both ends have the same MTU, or without timestamps. -/
theorem segment_fits_peer_partial (n : Neg) (mtu mtuPeer payload : Nat) (hm : n.peerMss = tcpMss mtuPeer) (hpos : 40 < mtuPeer)
    (hl : payload ≤ payloadCap mtu n.peerMss) (h0 : 0 < payload) (hx : mtu ≤ mtuPeer ∨ n.tsOn = false) : segLen n payload ≤ mtuPeer := by
  rw [hm] at hl
  unfold payloadCap tcpMss at hl
  unfold segLen
  split at hl <;> split <;> simp_all <;> omega

/-! ## What fails -/

/-- With timestamps, a segment for a peer of smaller MTU is up to 12 bytes too long for it: the option bytes are not subtracted from the peer's MSS. For every MTU of the peer that is smaller
by at least 12. -/
theorem mss_overrun (n : Neg) (mtu mtuPeer : Nat) (hm : n.peerMss = tcpMss mtuPeer) (hpos : 40 < mtuPeer) (hlt : mtuPeer + 12 < mtu) (hts : n.tsOn = true) :
    payloadCap mtu n.peerMss = tcpMss mtuPeer ∧ segLen n (payloadCap mtu n.peerMss) = mtuPeer + 12 := by
  have e : payloadCap mtu n.peerMss = tcpMss mtuPeer := by
    rw [hm]
    unfold payloadCap tcpMss
    rw [if_pos (by omega)]
  refine ⟨e, ?_⟩
  rw [e]
  unfold segLen tcpMss
  rw [hts, if_pos rfl]
  omega

/-- On an interface with the smallest MTUs the stack accepts (64 to 66 bytes a frame) no data segment can be sent at all. -/
theorem min_mtu_mute (frame peerMss : Nat) (h2 : frame ≤ 66) : payloadCap (ipMtu frame) peerMss = 0 := by
  unfold payloadCap tcpMss ipMtu
  split <;> omega

/-- A server whose SYN-ACK has no room for the timestamp option (IP MTU 50 to 59) still believes timestamps are on; the client, which does not see the option, has them off. -/
theorem timestamps_disagree (h : Hs) (hc : 64 ≤ h.mtuC) (hc' : h.mtuC ≤ 1500) (hs : 50 ≤ h.mtuS) (hs' : h.mtuS < 60)
    (hn : h.nowC < 4294967296) (he : h.ecrC < 4294967296) (hn' : h.nowS < 4294967296) (he' : h.ecrS < 4294967296) :
    ∃ s c, server h = some s ∧ client h = some c ∧ s.tsOn = true ∧ c.tsOn = false := by
  obtain ⟨s, e, s1, s2, s3, s4, s5, s6, s7⟩ := server_spec h hc' hn he
  obtain ⟨a1, a2, a3, a4⟩ := s7 hc
  have hb : budget h.mtuS ≤ 40 := Nat.min_le_right ..
  have hmss : tcpMss h.mtuS < 65536 := by unfold tcpMss; omega
  have hsh : (synAckCfg s (tcpMss h.mtuS) h.nowS h.ecrS).shift ≤ 14 := by show s.rcvShift ≤ 14; rw [s1]; exact (wscale_smallest h.rxS).1
  have hbb : budget h.mtuS < 20 := by unfold budget; omega
  have hb4 : 10 ≤ budget h.mtuS := by unfold budget; omega
  -- the same bytes as without timestamps
  have hsame : synOpts (synAckCfg s (tcpMss h.mtuS) h.nowS h.ecrS) (budget h.mtuS) = synOpts { synAckCfg s (tcpMss h.mtuS) h.nowS h.ecrS with incTs := false } (budget h.mtuS) := by
    unfold synOpts
    have h1 : ∀ (c : Cfg) (o : List Nat), 7 ≤ o.length → budget h.mtuS < 20 → synTs c (budget h.mtuS) o = o := by
      intro c o ho hb
      unfold synTs
      rw [if_neg (by omega)]
    have hm4 : ∀ (c : Cfg), (synMss c (budget h.mtuS)).length = 4 := by
      intro c; unfold synMss; rw [if_pos (by omega)]; rfl
    have hw7 : ∀ (c : Cfg), c.incWs = true → (synWs c (budget h.mtuS) (synMss c (budget h.mtuS))).length = 7 := by
      intro c hw; unfold synWs; rw [if_pos ⟨hw, by rw [hm4]; omega⟩, List.length_append, hm4]; rfl
    have hk7 : ∀ (c : Cfg), c.incWs = true → 7 ≤ (synSack c (budget h.mtuS) (synWs c (budget h.mtuS) (synMss c (budget h.mtuS)))).length := by
      intro c hw
      unfold synSack
      split
      · rw [List.length_append, hw7 c hw]; simp
      · rw [hw7 c hw]; exact Nat.le_refl 7
    rw [h1 _ _ (hk7 _ a1) hbb, h1 _ _ (hk7 _ a1) hbb]
    rfl
  obtain ⟨po, hp, p1, p2, p3, p4, p5, p6⟩ := syn_options_round_trip { synAckCfg s (tcpMss h.mtuS) h.nowS h.ecrS with incTs := false } (budget h.mtuS) [] hb hmss hsh hn' he'
  have ec : client h = some (onSynAck (fresh h.rxC) po) := by
    unfold client
    rw [e]
    dsimp only
    unfold wire
    rw [hsame, hp]
  refine ⟨s, _, e, ec, a2, ?_⟩
  rcases p4 with p | ⟨p, _⟩
  · simp [onSynAck, p]
  · cases p

/-- After such a handshake the server silently drops every data segment and acknowledgement the client sends. -/
theorem disagree_drops_all (s c : Neg) (hs : s.tsOn = true) (hc : c.tsOn = false) (cfg : Cfg) (hcfg : cfg.incTs = c.tsOn) (payload : List Nat)
    (hn : cfg.now < 4294967296) (he : cfg.ecr < 4294967296) (hb : ∀ b ∈ cfg.blocks, b.1 < 4294967296 ∧ b.2 < 4294967296 ∧ seqLt b.1 b.2 = true)
    (valid : Bool) (lastTs ack seq : Nat) :
    (∃ po, parse (hlenByte (dataOpts cfg).length) (dataOpts cfg ++ payload) = .done po ∧
      Paws.pawsCheck { enabled := s.tsOn, valid := valid, lastTs := lastTs, ack := ack } { ts := po.ts.map (·.1), seq := seq, rst := false } = .drop) ∧
    (∃ po, parse (hlenByte (ackOpts cfg 40).length) (ackOpts cfg 40 ++ payload) = .done po ∧
      Paws.pawsCheck { enabled := s.tsOn, valid := valid, lastTs := lastTs, ack := ack } { ts := po.ts.map (·.1), seq := seq, rst := false } = .drop) := by
  rw [hc] at hcfg
  refine ⟨⟨_, data_options_round_trip cfg payload hn he, ?_⟩, ⟨_, ack_options_round_trip cfg payload hn he hb, ?_⟩⟩ <;>
    (rw [hs, hcfg]; rfl)

/-- … while between ends that agree no segment is dropped for want of the option. -/
theorem agree_passes (s c : Neg) (hag : s.tsOn = c.tsOn) (cfg : Cfg) (hcfg : cfg.incTs = c.tsOn) (payload : List Nat)
    (hn : cfg.now < 4294967296) (he : cfg.ecr < 4294967296) (valid : Bool) (lastTs ack seq : Nat) :
    ∃ po, parse (hlenByte (dataOpts cfg).length) (dataOpts cfg ++ payload) = .done po ∧
      Paws.pawsCheck { enabled := s.tsOn, valid := valid, lastTs := lastTs, ack := ack } { ts := po.ts.map (·.1), seq := seq, rst := false } ≠ .drop := by
  refine ⟨_, data_options_round_trip cfg payload hn he, ?_⟩
  rw [hag, hcfg]
  cases c.tsOn with
  | false => intro c; cases c
  | true =>
    unfold Paws.pawsCheck
    dsimp only [Option.map]
    rw [if_neg (by intro c; cases c), if_pos rfl]
    dsimp only
    split <;> intro c <;> cases c

/-! ## The hypotheses are met -/

/-- Ethernet on both sides, one end with a large receive buffer. -/
def exHs : Hs := { mtuC := ipMtu 1514, mtuS := ipMtu 1536, rxC := 20480, rxS := 1048576, nowC := 1000, ecrC := 0, nowS := 77, ecrS := 1000 }

example : ∃ s c, server exHs = some s ∧ client exHs = some c ∧ s.wsOn = true ∧ c.wsOn = true ∧ c.sndShift = 5 ∧ s.sndShift = 0 ∧ c.peerMss = 1460 ∧ s.peerMss = 1460 := by
  obtain ⟨s, c, e1, e2, h1, h2, h3, h4, h5, h6, h7⟩ := handshake_agrees_partial exHs (by decide) (by decide) (by decide) (by decide) (by decide) (by decide) (by decide)
  obtain ⟨w, _, _, m⟩ := h7 (by decide)
  obtain ⟨a, ha, ra, _⟩ := server_spec exHs (by decide) (by decide) (by decide)
  rw [e1] at ha
  cases ha
  obtain ⟨x, y⟩ := h4 w
  refine ⟨s, c, e1, e2, w, h1 ▸ w, ?_, ?_, h5, m⟩
  · rw [y, ra]; decide
  · have : c.rcvShift = wscale exHs.rxC := by
      unfold client at e2
      rw [e1] at e2
      dsimp only at e2
      split at e2
      · cases e2; rfl
      · cases e2
    rw [x, this]; decide

/-- A window of 70 000 bytes written with scale 5 and read with it. -/
example : readWin { fresh 0 with wsOn := true, sndShift := 5 } (advWin { fresh 1048576 with wsOn := true } 70000) = 69984 := by decide

/-- A peer with MTU 576. -/
example : segLen { fresh 0 with tsOn := true, peerMss := tcpMss 576 } (payloadCap 1500 (tcpMss 576)) = 588 := by decide

end Wolf.Tcp.Neg
