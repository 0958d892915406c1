import Verif.Supp.Frame

/-!
# The WPA supplicant

Model of `src/supplicant/supplicant.c`: the 4-way and group-key handshakes on actual frame bytes, the
PMKSA cache, and the timers.  The cryptographic primitives are parameters (`Crypto`), and the
outcomes of the integrator's callbacks, of the random generator and of the EAP-TLS and SAE engines
are inputs (`Env`).
-/

namespace Wolf.Supp

/-- `struct wpa_ptk`, wpa_crypto.h 52-56. -/
structure Ptk where
  kck : Bytes
  kek : Bytes
  tk : Bytes
  deriving DecidableEq, Repr

/-- The primitives of wpa_crypto.c; `none` is an error return.  The Boolean selects the SHA-256/CMAC
variants (WPA3-SAE) over the SHA-1 ones. -/
structure Crypto where
  /-- `wpa_ptk_derive`, `wpa_ptk_derive_sha256`: PMK, AP address, own address, ANonce, SNonce. -/
  ptk : Bool → Bytes → Bytes → Bytes → Bytes → Bytes → Option Ptk
  /-- `wpa_eapol_mic`, `wpa_eapol_mic_aes_cmac`: KCK, frame. -/
  mic : Bool → Bytes → Bytes → Option Bytes
  /-- `wpa_aes_keyunwrap`: KEK, wrapped data. -/
  unwrap : Bytes → Bytes → Option Bytes
  /-- `wpa_pmk_from_passphrase`: passphrase, SSID. -/
  pmk : Bytes → Bytes → Option Bytes
  /-- `wc_Sha256Hash`. -/
  hash : Bytes → Option Bytes
  /-- RFC 3394: unwrapping drops the 8-byte integrity block (wpa_crypto.c 563-566). -/
  unwrap_len : ∀ k d p, unwrap k d = some p → p.length + 8 = d.length
  /-- `WPA_MIC_LEN`. -/
  mic_len : ∀ b k f m, mic b k f = some m → m.length = 16

/-- `wolfip_auth_mode_t`, supplicant.h 87-98. -/
inductive Mode where
  | psk | eapTls | peap | sae
  deriving DecidableEq, Repr

/-- `wolfip_supplicant_state_t`, supplicant.h 70-85 (two states that are never entered omitted). -/
inductive St where
  | idle | identWait | tlsProg | saeCommit | saeConfirm | m1Wait | m3Wait | auth | failed
  deriving DecidableEq, Repr

/-- The PMKSA cache entry, supplicant.h 270-285.  `ssid` is the first `pmksa_ssid_len` bytes. -/
structure Pmksa where
  magic : Bool
  pmk : Bytes
  pmkid : Bytes
  ppHash : Bytes
  ssid : Bytes
  bssid : Bytes
  havePmkid : Bool
  havePp : Bool
  deriving DecidableEq, Repr

def Pmksa.zero : Pmksa := ⟨false, [], [], [], [], [], false, false⟩

/-- `struct wolfip_supplicant`, supplicant.h 212-300.  `live`: `ops.send_eapol` is set;
`hasInstall`: `ops.install_key` is set.  `fault` is not in the code: it records an access outside a
buffer. -/
structure S where
  ssid : Bytes
  apMac : Bytes
  staMac : Bytes
  mode : Mode
  live : Bool
  hasInstall : Bool
  ownIe : Bytes
  apIe : Bytes
  pmk : Bytes
  ptk : Ptk
  havePtk : Bool
  anonce : Bytes
  snonce : Bytes
  lastReplay : Bytes
  haveReplay : Bool
  m2Send : Nat
  hsStart : Nat
  retries : Nat
  pmkInstalled : Bool
  saeH2e : Bool
  saePmk : Bytes
  saePmkid : Bytes
  cache : Pmksa
  pmkidInIe : Bool
  ppHash : Bytes
  havePpHash : Bool
  st : St
  fault : Bool
  deriving DecidableEq, Repr

/-- `n` zero bytes. -/
def zeros (n : Nat) : Bytes := List.replicate n 0

/-- A zeroed context. -/
def S.zero : S :=
  { ssid := [], apMac := zeros 6, staMac := zeros 6, mode := .psk, live := false,
    hasInstall := false, ownIe := [], apIe := [], pmk := zeros 32,
    ptk := ⟨zeros 16, zeros 16, zeros 16⟩, havePtk := false, anonce := zeros 32,
    snonce := zeros 32, lastReplay := zeros 8, haveReplay := false, m2Send := 0, hsStart := 0,
    retries := 0, pmkInstalled := false, saeH2e := false, saePmk := [], saePmkid := [],
    cache := .zero, pmkidInIe := false, ppHash := [], havePpHash := false, st := .idle,
    fault := false }

/-- What the integrator and the engines do during one call. -/
structure Env where
  rnd : Option Bytes         -- `gen_snonce`
  send : Bool                -- `send_eapol` / `send_auth_frame` return 0
  instPair : Bool            -- `install_key(PAIRWISE)` returns 0
  instGroup : Bool           -- `install_key(GROUP)` returns 0
  engine : Bool              -- EAP request processing / SAE computations succeed
  tlsDone : Bool             -- the TLS handshake is complete
  msk : Option Bytes         -- `eap_tls_engine_export_msk` (first 32 bytes)
  saePmk : Bytes             -- `sae_derive_k_and_pmk`
  saePmkid : Bytes
  deriving DecidableEq, Repr

/-- What a call does to the outside. -/
inductive Ev where
  /-- an EAPOL-Key frame handed to `send_eapol` -/
  | key (f : Bytes)
  /-- an EAPOL-Start, EAP or SAE frame -/
  | other
  /-- `install_key(SUPP_KEY_PAIRWISE, 0, tk)` and whether it returned 0 -/
  | pair (tk : Bytes) (ok : Bool)
  /-- `install_key(SUPP_KEY_GROUP, idx, gtk)` and whether it returned 0 -/
  | group (idx : Nat) (gtk : Bytes) (ok : Bool)
  deriving DecidableEq, Repr

/-- `supp_is_cmac_akm`, supplicant.c 97-105. -/
def S.cmac (s : S) : Bool := decide (s.mode = .sae)

/-- `supp_key_desc_ver`, supplicant.c 107-111. -/
def S.ver (s : S) : Nat := if s.cmac then 0 else 2

/-- `supp_key_info_has`, supplicant.c 136-141; the masks as lists of bit positions. -/
def has (info : Nat) (required forbidden : List Nat) : Bool :=
  required.all (fun k => info.testBit k) && forbidden.all (fun k => !info.testBit k)

/-- `memcmp(a, b) > 0` for two buffers of the same length. -/
def memGt : Bytes → Bytes → Bool
  | a :: as, b :: bs => decide (a > b) || (decide (a = b) && memGt as bs)
  | _, _ => false

/-- supplicant.c 153: the MIC field of the copied frame, zeroed. -/
def zeroMic (f : Bytes) : Bytes := f.take 81 ++ zeros 16 ++ f.drop 97

/-- supplicant.c 196: the MIC stored into the frame. -/
def putMic (f m : Bytes) : Bytes := f.take 81 ++ m ++ f.drop 97

/-- `supp_verify_frame_mic` with `supp_mic_verify`, supplicant.c 144-155, 124-132. -/
def micOk (C : Crypto) (s : S) (v : View) (copy : Bytes) : Bool :=
  decide (C.mic s.cmac s.ptk.kck (zeroMic copy) = some v.mic)

/-- `supp_send_key`, supplicant.c 160-202 (`mic_required` is 1 in every call): the frame, if it gets
built.  The buffer holds 99 + 64 bytes. -/
def mkKey (C : Crypto) (s : S) (info klen : Nat) (replay nonce kd : Bytes) : Option Bytes :=
  if 99 + kd.length > 163 then none
  else match keyBuild 163 info klen replay nonce kd with
    | none => none
    | some f =>
      match C.mic s.cmac s.ptk.kck f with
      | none => none
      | some m => if s.live then some (putMic f m) else none

/-- The rest of `supp_send_key`: hand the frame to `send_eapol`. -/
def sendKey (C : Crypto) (s : S) (e : Env) (info klen : Nat) (replay nonce kd : Bytes) :
    Bool × List Ev :=
  match mkKey C s info klen replay nonce kd with
  | none => (false, [])
  | some f => (e.send, [.key f])

/-- `supp_send_m2`, supplicant.c 612-625. -/
def sendM2 (C : Crypto) (s : S) (e : Env) : Bool × List Ev :=
  sendKey C s e (s.ver + 8 + 256) 16 s.lastReplay s.snonce s.ownIe

/-- `supp_handle_m1`, supplicant.c 629-680. -/
def handleM1 (C : Crypto) (s : S) (v : View) (now : Nat) (e : Env) : S × Bool × List Ev :=
  if has v.keyInfo [3, 7] [8] = false then (s, false, [])
  else
    let s := { s with anonce := v.nonce }
    match e.rnd with
    | none => (s, false, [])
    | some sn =>
      let s := { s with snonce := sn }
      match C.ptk s.cmac s.pmk s.apMac s.staMac s.anonce s.snonce with
      | none => (s, false, [])
      | some p =>
        let s := { s with ptk := p, havePtk := true, lastReplay := v.replay, haveReplay := true }
        match sendM2 C s e with
        | (false, es) => (s, false, es)
        | (true, es) => ({ s with m2Send := now, retries := 3, st := .m3Wait }, true, es)

/-- The element loop of `supp_parse_key_data`, supplicant.c 730-777.  `p` is the unwrapped key data;
every read of it is checked.  `rsn`: an RSN element equal to the AP's was seen; `gtk`: the last group
key.  `fuel` bounds the iterations (every one advances by at least 2). -/
def kdLoop (expect : Bool) (apIe p : Bytes) : Nat → Nat → Bool → Option (Nat × Bytes) →
    M (Bool × Option (Nat × Bytes))
  | 0, _, rsn, gtk => .ok (rsn, gtk)
  | fuel + 1, i, rsn, gtk =>
    if i + 2 ≤ p.length then do
      let type ← ld p i
      let len ← ld p (i + 1)
      if i + 2 + len > p.length then .ok (rsn, gtk)
      else if expect ∧ type = 48 then do
        let ie ← sl p i (len + 2)
        if ie = apIe then kdLoop expect apIe p fuel (i + 2 + len) true gtk
        else .error .reject
      else if type = 221 ∧ len ≥ 6 then do
        let o0 ← ld p (i + 2)
        let o1 ← ld p (i + 3)
        let o2 ← ld p (i + 4)
        let dt ← ld p (i + 5)
        if o0 = 0 ∧ o1 = 15 ∧ o2 = 172 ∧ dt = 1 then
          if len - 6 = 0 ∨ len - 6 > 32 then .error .reject
          else do
            let k ← ld p (i + 6)
            let g ← sl p (i + 8) (len - 6)
            kdLoop expect apIe p fuel (i + 2 + len) rsn (some (k % 4, g))
        else kdLoop expect apIe p fuel (i + 2 + len) rsn gtk
      else kdLoop expect apIe p fuel (i + 2 + len) rsn gtk
    else .ok (rsn, gtk)

/-- The end of `supp_parse_key_data`, supplicant.c 778-783: what must have been found. -/
def kdFinish (expect : Bool) : M (Bool × Option (Nat × Bytes)) → M (Nat × Bytes)
  | .error x => .error x
  | .ok (rsn, gtk) =>
    if expect = true ∧ rsn = false then .error .reject
    else match gtk with
      | none => .error .reject
      | some g => .ok g

/-- `supp_parse_key_data`, supplicant.c 694-783: key index and group key.  A plaintext longer than
the 256-byte buffer would be an overrun. -/
def parseKeyData (C : Crypto) (s : S) (v : View) (expect : Bool) : M (Nat × Bytes) :=
  if v.keyData.length < 24 ∨ v.keyData.length > 264 then .error .reject
  else if v.keyData.length % 8 ≠ 0 then .error .reject
  else if v.keyInfo.testBit 12 = false then .error .reject
  else match C.unwrap s.ptk.kek v.keyData with
    | none => .error .reject
    | some p =>
      if p.length > 256 then .error .oob
      else kdFinish expect (kdLoop expect s.apIe p p.length 0 false none)

/-- A failed parse: the call fails; an out-of-buffer access is recorded. -/
def S.blame (s : S) : Fault → S
  | .oob => { s with fault := true }
  | .reject => s

/-- `supp_handle_group_m1`, supplicant.c 787-842. -/
def handleGroup (C : Crypto) (s : S) (v : View) (copy : Bytes) (e : Env) : S × Bool × List Ev :=
  if has v.keyInfo [7, 8, 9, 12] [] = false then (s, false, [])
  else if s.haveReplay = true ∧ memGt v.replay s.lastReplay = false then (s, false, [])
  else if micOk C s v copy = false then (s, false, [])
  else match parseKeyData C s v false with
    | .error x => (s.blame x, false, [])
    | .ok (idx, gtk) =>
      if s.hasInstall = true ∧ e.instGroup = false then (s, false, [.group idx gtk false])
      else
        let ev := if s.hasInstall then [.group idx gtk true] else []
        let s := { s with lastReplay := v.replay }
        let r := sendKey C s e (s.ver + 256 + 512) 0 s.lastReplay (zeros 32) []
        (s, r.1, ev ++ r.2)

/-- The install step of `supp_handle_m3`, supplicant.c 894-909. -/
def installBoth (s : S) (idx : Nat) (gtk : Bytes) (e : Env) : Bool × List Ev :=
  if s.hasInstall = false then (true, [])
  else if e.instPair = false then (false, [.pair s.ptk.tk false])
  else if gtk.length > 0 then
    (e.instGroup, [.pair s.ptk.tk true, .group idx gtk e.instGroup])
  else (true, [.pair s.ptk.tk true])

/-- The PMKSA update at the end of `supp_handle_m3`, supplicant.c 930-953. -/
def S.remember (s : S) : S :=
  { s with cache := ⟨true, s.pmk, if s.mode = .sae then s.saePmkid else s.cache.pmkid,
      if s.havePpHash then s.ppHash else s.cache.ppHash, s.ssid, s.apMac, decide (s.mode = .sae),
      s.havePpHash⟩ }

/-- `supp_handle_m3`, supplicant.c 846-957. -/
def handleM3 (C : Crypto) (s : S) (v : View) (copy : Bytes) (e : Env) : S × Bool × List Ev :=
  if has v.keyInfo [3, 7, 8, 6] [] = false then (s, false, [])
  else if s.haveReplay = true ∧ memGt v.replay s.lastReplay = false then (s, false, [])
  else if v.nonce ≠ s.anonce then (s, false, [])
  else if micOk C s v copy = false then (s, false, [])
  else match parseKeyData C s v true with
    | .error x => (s.blame x, false, [])
    | .ok (idx, gtk) =>
      let r := installBoth s idx gtk e
      if r.1 = false then (s, false, r.2)
      else
        let s := { s with lastReplay := v.replay }
        let q := sendKey C s e (s.ver + 8 + 256 + 512) 16 s.lastReplay (zeros 32) []
        if q.1 = false then (s, false, r.2 ++ q.2)
        else ({ s.remember with st := .auth }, true, r.2 ++ q.2)

/-- `ret != 0` → FAILED (supplicant.c 1631, 1639). -/
def failIf (r : S × Bool × List Ev) : S × Bool × List Ev :=
  if r.2.1 = true then r else ({ r.1 with st := .failed }, r.2)

/-- `supp_handle_m1_retransmit`, supplicant.c 1581-1598: `none` if the frame is not an M1. -/
def m1Again (C : Crypto) (s : S) (v : View) (now : Nat) (e : Env) : Option (S × List Ev) :=
  if has v.keyInfo [3, 7] [8] = false then none
  else if s.havePtk = true ∧ v.nonce = s.anonce then
    match sendM2 C s e with
    | (true, es) => some ({ s with m2Send := now, retries := 3 }, es)
    | (false, es) => some (s, es)
  else some (s, [])

/-- The dispatch of `supp_rx_key` on the state, supplicant.c 1627-1664. -/
def dispatch (C : Crypto) (s : S) (v : View) (copy : Bytes) (now : Nat) (e : Env) :
    S × Bool × List Ev :=
  match s.st with
  | .m1Wait => failIf (handleM1 C s v now e)
  | .m3Wait =>
    match m1Again C s v now e with
    | some (s', es) => (s', true, es)
    | none => failIf (handleM3 C s v copy e)
  | .auth =>
    if v.keyInfo.testBit 3 = false then handleGroup C s v copy e else (s, false, [])
  | .idle | .identWait | .tlsProg | .saeCommit | .saeConfirm | .failed => (s, false, [])

/-- `memcpy` of `b` into a buffer of `cap` bytes. -/
def fit (cap : Nat) (b : Bytes) : M Bytes := if b.length ≤ cap then .ok b else .error .oob

/-- `supp_rx_key`, supplicant.c 1603-1665; the scratch copy holds 99 + 256 bytes. -/
def rxKey (C : Crypto) (s : S) (frame : Bytes) (now : Nat) (e : Env) : S × Bool × List Ev :=
  match keyParse frame with
  | .error x => (s.blame x, false, [])
  | .ok v =>
    if v.keyInfo % 8 ≠ s.ver then (s, false, [])
    else if v.frameLen > 355 then (s, false, [])
    else match fit 355 (frame.take v.frameLen) with
      | .error x => (s.blame x, false, [])
      | .ok copy => dispatch C s v copy now e

/-- `supp_handle_eap_request`, supplicant.c 474-542 (with the PEAP handler 402-470).  Whether the TLS
engine and the inner method accept the request is `e.engine`. -/
def eapRequest (s : S) (v : EapView) (e : Env) : S × Bool × List Ev :=
  if v.type = 1 then
    if s.st = .identWait ∨ s.st = .tlsProg then
      if s.live = true ∧ e.send = true then ({ s with st := .tlsProg }, true, [.other])
      else (s, false, [])
    else (s, false, [])
  else if v.type = 13 ∨ (v.type = 25 ∧ s.mode = .peap) then
    if s.st ≠ .tlsProg then (s, false, [])
    else if e.engine = true ∧ s.live = true ∧ e.send = true then (s, true, [.other])
    else (s, false, [])
  else (s, false, [])

/-- `supp_handle_eap_success`, supplicant.c 544-572. -/
def eapSuccess (s : S) (e : Env) : S × Bool × List Ev :=
  if ¬ (s.mode = .eapTls ∨ s.mode = .peap) then (s, false, [])
  else if s.st ≠ .tlsProg then (s, false, [])
  else if e.tlsDone = false then (s, false, [])
  else match e.msk with
    | none => (s, false, [])
    | some k => ({ s with pmk := k, st := .m1Wait }, true, [])

/-- `supp_rx_eap`, supplicant.c 576-608. -/
def rxEap (s : S) (frame : Bytes) (e : Env) : S × Bool × List Ev :=
  match rd16 frame 2 with
  | .error x => (s.blame x, false, [])
  | .ok bodyLen =>
    if bodyLen + 4 > frame.length then (s, false, [])
    else match eapParse ((frame.drop 4).take bodyLen) with
      | .error x => (s.blame x, false, [])
      | .ok v =>
        if v.code = 1 then failIf (eapRequest s v e)
        else if v.code = 3 then failIf (eapSuccess s e)
        else if v.code = 4 then ({ s with st := .failed }, false, [])
        else (s, false, [])

/-- `wolfip_supplicant_rx`, supplicant.c 1667-1694. -/
def rx (C : Crypto) (s : S) (frame : Bytes) (now : Nat) (e : Env) : S × Bool × List Ev :=
  if frame.length < 4 then (s, false, [])
  else match ld frame 1 with
    | .error x => (s.blame x, false, [])
    | .ok t =>
      if t = 0 then rxEap s frame e
      else if t ≠ 3 then (s, false, [])
      else rxKey C s frame now e

/-- `struct wolfip_supplicant_cfg`, supplicant.h 118-205.  `eapOk`: the identity and certificate
fields pass `supp_validate_cfg` 985-1014 for the configured EAP mode. -/
structure Cfg where
  ssid : Bytes
  apMac : Bytes
  staMac : Bytes
  mode : Mode
  live : Bool
  hasInstall : Bool
  pass : Option Bytes
  pskPmk : Option Bytes
  mfpc : Bool
  mfpr : Bool
  apIe : Option Bytes
  h2e : Bool
  eapOk : Bool
  deriving DecidableEq, Repr

/-- `supp_validate_cfg`, supplicant.c 962-1022. -/
def validCfg (c : Cfg) : Bool :=
  decide (c.ssid.length ≠ 0 ∧ c.ssid.length ≤ 32) && c.live &&
  match c.mode with
  | .psk =>
    match c.pskPmk with
    | some k => decide (k.length = 32)
    | none => c.pass.isSome
  | .sae =>
    match c.pass with
    | some p => decide (8 ≤ p.length ∧ p.length ≤ 63)
    | none => false
  | .eapTls | .peap => c.eapOk

/-- `supp_build_rsn_ies` with `rsn_ie_build_wpa2_psk_ex`, supplicant.c 1205-1258, rsn_ie.c 22-57: our
own RSN element. -/
def ownIe (c : Cfg) : Bytes :=
  [48, 20, 1, 0, 0, 15, 172, 4, 1, 0, 0, 15, 172, 4, 1, 0, 0, 15, 172,
    match c.mode with
    | .sae => 8
    | .eapTls | .peap => 1
    | .psk => 2,
    (if c.mfpc ∨ c.mfpr then 128 else 0) + (if c.mfpr then 64 else 0), 0]

/-- supplicant.c 1246-1257: the AP's element, or our own. -/
def theApIe (c : Cfg) : Bytes :=
  match c.apIe with
  | some b => if b.length > 0 ∧ b.length ≤ 64 then b else ownIe c
  | none => ownIe c

/-- `supp_pmksa_restore`, supplicant.c 1068-1090: the cache entry that survives `init`, and whether
it is a hit. -/
def restore (old : Pmksa) (c : Cfg) : Pmksa × Bool :=
  if old.magic = true ∧ old.ssid = c.ssid then (old, true) else (.zero, false)

/-- The context set up by `wolfip_supplicant_init` before the key material, supplicant.c 1275-1284. -/
def freshCtx (c : Cfg) (cache : Pmksa) : S :=
  { S.zero with
    ssid := c.ssid, apMac := c.apMac, staMac := c.staMac, mode := c.mode, live := c.live,
    hasInstall := c.hasInstall, cache := cache }

/-- supplicant.c 1101-1106: hash this session's passphrase. -/
def hashPass (C : Crypto) (s : S) (p : Bytes) : S :=
  match C.hash p with
  | some h => { s with ppHash := h, havePpHash := true }
  | none => s

/-- supplicant.c 1107-1127: the cached PMK if it was made from the same passphrase, else PBKDF2. -/
def pickPmk (C : Crypto) (s : S) (p : Bytes) (hit : Bool) : Option S :=
  if s.havePpHash = true ∧ hit = true ∧ s.cache.havePp = true ∧ s.ppHash = s.cache.ppHash then
    some { s with pmk := s.cache.pmk }
  else (C.pmk p s.ssid).map (fun k => { s with pmk := k })

/-- `supp_init_psk`, supplicant.c 1093-1129. -/
def initPsk (C : Crypto) (s : S) (c : Cfg) (hit : Bool) : Option S :=
  match c.pskPmk, c.pass with
  | some k, _ => some { s with pmk := k }
  | none, none => none
  | none, some p => pickPmk C (hashPass C s p) p hit

/-- The engine set-up of the other modes, supplicant.c 1132-1201. -/
def initOther (s : S) (c : Cfg) (e : Env) : Option S :=
  if e.engine then some { s with saeH2e := c.h2e } else none

/-- `wolfip_supplicant_init`, supplicant.c 1260-1320. -/
def init (C : Crypto) (s : S) (c : Cfg) (e : Env) : S × Bool × List Ev :=
  if validCfg c = false then (s, false, [])
  else
    let r := restore s.cache c
    let s1 := { freshCtx c r.1 with fault := s.fault }
    match (if c.mode = .psk then initPsk C s1 c r.2 else initOther s1 c e) with
    | none => ({ S.zero with fault := s.fault }, false, [])
    | some s2 => ({ s2 with ownIe := Supp.ownIe c, apIe := theApIe c }, true, [])

/-- `wolfip_supplicant_kick`, supplicant.c 1425-1466. -/
def kick (s : S) (now : Nat) (e : Env) : S × Bool × List Ev :=
  if s.st ≠ .idle then (s, false, [])
  else
    let s := { s with m2Send := now, hsStart := now, retries := 3 }
    match s.mode with
    | .eapTls | .peap =>
      if s.live = true ∧ e.send = true then ({ s with st := .identWait }, true, [.other])
      else (s, false, [])
    | .sae =>
      if s.pmkInstalled then ({ s with st := .m1Wait }, true, [])
      else if e.engine = true ∧ e.send = true then ({ s with st := .saeCommit }, true, [.other])
      else (s, false, [])
    | .psk => ({ s with st := .m1Wait }, true, [])

/-- `wolfip_supplicant_rx_auth_frame`, supplicant.c 1469-1535. -/
def rxAuth (s : S) (frame : Bytes) (e : Env) : S × Bool × List Ev :=
  if frame.length < 6 then (s, false, [])
  else if s.mode ≠ .sae then (s, false, [])
  else
    let alg := frame.getD 0 0 + 256 * frame.getD 1 0
    let seq := frame.getD 2 0 + 256 * frame.getD 3 0
    let status := frame.getD 4 0 + 256 * frame.getD 5 0
    if alg ≠ 3 then (s, false, [])
    else if status ≠ (if seq = 1 ∧ s.saeH2e = true then 126 else 0) then
      ({ s with st := .failed }, false, [])
    else if seq = 1 then
      if s.st ≠ .saeCommit then (s, false, [])
      else if e.engine = true ∧ e.send = true then
        ({ s with st := .saeConfirm, saePmk := e.saePmk, saePmkid := e.saePmkid }, true, [.other])
      else ({ s with st := .failed }, false, [])
    else if seq = 2 then
      if s.st ≠ .saeConfirm then (s, false, [])
      else if frame.length < 40 then (s, false, [])
      else if e.engine = true then ({ s with st := .m1Wait, pmk := s.saePmk }, true, [])
      else ({ s with st := .failed }, false, [])
    else (s, false, [])

/-- `wolfip_supplicant_tick`, supplicant.c 1538-1582. -/
def tick (C : Crypto) (s : S) (now : Nat) (e : Env) : S × Bool × List Ev :=
  if s.st ≠ .idle ∧ s.st ≠ .auth ∧ s.st ≠ .failed ∧ now > s.hsStart ∧
      now - s.hsStart ≥ 10000 then ({ s with st := .failed }, true, [])
  else if s.st ≠ .m3Wait then (s, true, [])
  else if now ≤ s.m2Send then (s, true, [])
  else if now - s.m2Send < 1000 then (s, true, [])
  else if s.retries = 0 then ({ s with st := .failed }, true, [])
  else
    let s := { s with retries := s.retries - 1 }
    match sendM2 C s e with
    | (false, es) => ({ s with st := .failed }, true, es)
    | (true, es) => ({ s with m2Send := now }, true, es)

/-- `wolfip_supplicant_install_pmk`, supplicant.c 1414-1422. -/
def installPmk (s : S) (k : Bytes) : S × Bool × List Ev :=
  if k.length ≠ 32 then (s, false, [])
  else if s.mode ≠ .sae then (s, false, [])
  else ({ s with pmk := k, pmkInstalled := true }, true, [])

/-- `wolfip_supplicant_pmksa_clear`, supplicant.c 1741-1751. -/
def clear (s : S) : S × Bool × List Ev :=
  ({ s with cache := { s.cache with magic := false, pmk := [], pmkid := [], ssid := [],
                                    havePmkid := false } }, true, [])

/-- supplicant.c 1776-1791: the PMKID appended to our RSN element. -/
def addPmkid (s : S) : Option S :=
  if s.pmkidInIe then some s
  else if s.ownIe.length + 18 ≤ 64 ∧ s.ownIe.length ≥ 22 ∧ s.ownIe.getD 1 0 + 18 ≤ 255 then
    some { s with ownIe := (s.ownIe.set 1 (s.ownIe.getD 1 0 + 18)) ++ [1, 0] ++ s.cache.pmkid,
                  pmkidInIe := true }
  else none

/-- `wolfip_supplicant_pmksa_reconnect`, supplicant.c 1768-1806. -/
def reconnect (s : S) : S × Bool × List Ev :=
  if s.cache.magic = false ∨ s.cache.havePmkid = false then (s, false, [])
  else if s.cache.ssid ≠ s.ssid ∨ s.cache.bssid ≠ s.apMac then (s, false, [])
  else match addPmkid s with
    | none => (s, false, [])
    | some s => ({ s with pmk := s.cache.pmk, pmkInstalled := true, st := .idle, havePtk := false,
                          haveReplay := false, retries := 0, snonce := zeros 32,
                          anonce := zeros 32 }, true, [])

/-- The calls of the API. -/
inductive Op where
  | init (c : Cfg) (e : Env)
  | deinit
  | kick (now : Nat) (e : Env)
  | rx (f : Bytes) (now : Nat) (e : Env)
  | rxAuth (f : Bytes) (e : Env)
  | tick (now : Nat) (e : Env)
  | installPmk (k : Bytes)
  | clear
  | reconnect
  deriving DecidableEq, Repr

/-- One API call: new context, success, effects. -/
def step (C : Crypto) (s : S) : Op → S × Bool × List Ev
  | .init c e => Supp.init C s c e
  | .deinit => ({ S.zero with fault := s.fault }, true, [])
  | .kick now e => Supp.kick s now e
  | .rx f now e => Supp.rx C s f now e
  | .rxAuth f e => Supp.rxAuth s f e
  | .tick now e => Supp.tick C s now e
  | .installPmk k => Supp.installPmk s k
  | .clear => Supp.clear s
  | .reconnect => Supp.reconnect s

/-- A history of calls on a zeroed context. -/
def run (C : Crypto) (ops : List Op) : S := ops.foldl (fun s o => (step C s o).1) S.zero

end Wolf.Supp
