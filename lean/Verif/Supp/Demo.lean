import Verif.Supp.Cache

/-!
# A complete association (non-vacuity of C59, C67, C69, C70)

A toy instance of the primitives and whole histories of the supplicant: a WPA2-PSK association with
its 4-way handshake and a group rekey, and a WPA3-SAE association followed by a PMKSA reconnect.
-/

namespace Wolf.Supp

/-- Toy primitives: the MIC is the key, unwrapping drops 8 bytes, the hash is the identity. -/
def toy : Crypto where
  ptk := fun _ k _ _ an sn => some ⟨an.take 16, sn.take 16, k.take 16⟩
  mic := fun _ k _ => some ((k ++ zeros 16).take 16)
  unwrap := fun _ d => if 8 ≤ d.length then some (d.drop 8) else none
  pmk := fun p ssid => some ((p ++ ssid ++ zeros 32).take 32)
  hash := fun p => some p
  unwrap_len := by
    intro k d p h
    split at h
    · cases h; rw [List.length_drop]; omega
    · cases h
  mic_len := by
    intro b k f m h
    cases h
    rw [List.length_take, List.length_append, zeros, List.length_replicate]
    omega

/-- The integrator's callbacks succeed and the SNonce is all 5s. -/
def good : Env :=
  ⟨some (List.replicate 32 5), true, true, true, true, true, none, List.replicate 32 9,
    List.replicate 16 8⟩

def pskCfg : Cfg :=
  ⟨[104, 105], List.replicate 6 1, List.replicate 6 2, .psk, true, true, some (List.replicate 8 65),
    none, false, false, none, false, false⟩

def saeCfg : Cfg := { pskCfg with mode := .sae }

/-- An EAPOL-Key frame from the AP: `info`, replay counter `r`, nonce all `n`, MIC `mic`, key data. -/
def apFrame (info r n : Nat) (mic kd : Bytes) : Bytes :=
  [2, 3, (95 + kd.length) / 256, (95 + kd.length) % 256, 2, info / 256, info % 256, 0, 16,
    0, 0, 0, 0, 0, 0, 0, r] ++ List.replicate 32 n ++ zeros 32 ++ mic ++
    [kd.length / 256, kd.length % 256] ++ kd

/-- Key data of message 3: integrity block, RSN element, GTK KDE (index 1), padding. -/
def m3Data (akm : Nat) : Bytes :=
  zeros 8 ++ [48, 20, 1, 0, 0, 15, 172, 4, 1, 0, 0, 15, 172, 4, 1, 0, 0, 15, 172, akm, 0, 0] ++
    [221, 22, 0, 15, 172, 1, 1, 0] ++ List.replicate 16 6 ++ [221, 0]

def m1 : Bytes := apFrame 138 1 3 (zeros 16) []
def m3 : Bytes := apFrame 5066 2 3 (List.replicate 16 3) (m3Data 2)

/-- The calls of a PSK association up to message 1. -/
def pskCalls : List Op := [.init pskCfg good, .kick 100 good, .rx m1 110 good]

/-- C59, C70: message 3 completes the handshake and installs both keys, and the message is
acceptable in the sense of `Accepted`. -/
example : (run toy pskCalls).st = .m3Wait ∧
    (step toy (run toy pskCalls) (.rx m3 120 good)).1.st = .auth ∧
    Ev.pair ((List.replicate 8 65 ++ [104, 105] ++ zeros 32).take 16) true ∈
      (step toy (run toy pskCalls) (.rx m3 120 good)).2.2 ∧
    Ev.group 1 (List.replicate 16 6) true ∈
      (step toy (run toy pskCalls) (.rx m3 120 good)).2.2 := by decide +kernel

/-- A message 3 whose replay counter is not larger, whose MIC is wrong, whose nonce differs, or whose
RSN element is another one installs nothing. -/
example :
    (step toy (run toy pskCalls) (.rx (apFrame 5066 1 3 (List.replicate 16 3) (m3Data 2)) 120 good)).2.2 = [] ∧
    (step toy (run toy pskCalls) (.rx (apFrame 5066 2 3 (List.replicate 16 4) (m3Data 2)) 120 good)).2.2 = [] ∧
    (step toy (run toy pskCalls) (.rx (apFrame 5066 2 4 (List.replicate 16 3) (m3Data 2)) 120 good)).2.2 = [] ∧
    (step toy (run toy pskCalls) (.rx (apFrame 5066 2 3 (List.replicate 16 3) (m3Data 1)) 120 good)).2.2 = [] := by
  decide +kernel

/-- Group message 1 after the handshake: a new group key (index 2). -/
def g1 : Bytes :=
  apFrame 4994 3 0 (List.replicate 16 3)
    (zeros 8 ++ [221, 22, 0, 15, 172, 1, 2, 0] ++ List.replicate 16 7)

example : (step toy (run toy (pskCalls ++ [.rx m3 120 good])) (.rx g1 200 good)).2.2.head? =
    some (Ev.group 2 (List.replicate 16 7) true) ∧
    (step toy (run toy (pskCalls ++ [.rx m3 120 good, .rx g1 200 good])) (.rx g1 210 good)).2.2 = [] := by
  decide +kernel

/-- C70: message 2 is sent again after a second without message 3, three times, then the handshake
fails; and ten seconds after its start it fails in any case. -/
example : (step toy (run toy pskCalls) (.tick 1109 good)).2.2 = [] ∧
    (step toy (run toy pskCalls) (.tick 1110 good)).2.2.length = 1 ∧
    tickSends toy (run toy pskCalls) [(1110, good), (2110, good), (3110, good), (4110, good)] = 3 ∧
    (run toy (pskCalls ++ [.tick 1110 good, .tick 2110 good, .tick 3110 good, .tick 4110 good])).st
      = .failed ∧
    (run toy (pskCalls ++ [.tick 10100 good])).st = .failed := by decide +kernel

/-- C69: the hash of the toy instance has no collisions, so `psk_pmk_is_own` applies to it; a second
session on the same network takes the PMK from the cache, one with another passphrase does not. -/
example : NoPskReconnect toy (pskCalls ++ [.rx m3 120 good]) ∧
    (step toy (run toy (pskCalls ++ [.rx m3 120 good])) (.init pskCfg good)).2.1 = true ∧
    (run toy (pskCalls ++ [.rx m3 120 good])).cache.magic = true := by
  refine ⟨?_, by decide +kernel, by decide +kernel⟩
  intro a b h
  have : Op.reconnect ∈ pskCalls ++ [.rx m3 120 good] := by rw [h]; simp
  exact absurd this (by decide +kernel)

/-- An SAE association: commit, confirm, 4-way handshake. -/
def saeCalls : List Op :=
  [.init saeCfg good, .kick 100 good, .rxAuth ([3, 0, 1, 0, 0, 0] ++ zeros 40) good,
    .rxAuth ([3, 0, 2, 0, 0, 0] ++ zeros 40) good, .rx (apFrame 136 1 3 (zeros 16) []) 110 good,
    .rx (apFrame 5064 2 3 (List.replicate 16 3) (m3Data 8)) 120 good]

/-- C69: after it, and a new `init`, the reconnect succeeds with the cached PMK. -/
example : (run toy saeCalls).st = .auth ∧
    (step toy (run toy (saeCalls ++ [.init saeCfg good])) .reconnect).2.1 = true ∧
    (step toy (run toy (saeCalls ++ [.init saeCfg good])) .reconnect).1.pmk = List.replicate 32 9 ∧
    (step toy (run toy (saeCalls ++ [.init { saeCfg with apMac := zeros 6 } good])) .reconnect).2.1
      = false ∧
    (step toy (run toy (saeCalls ++ [.clear, .init saeCfg good])) .reconnect).2.1 = false := by
  decide +kernel

/-- Why `psk_pmk_is_own` excludes reconnects of PSK sessions: after the SAE association, a PSK session
for the same SSID that calls `pmksa_reconnect` gets the SAE association's PMK, not that of its own
passphrase. -/
example : (run toy (saeCalls ++ [.init pskCfg good, .reconnect])).pmk ≠
    (run toy (saeCalls ++ [.init pskCfg good])).pmk := by decide +kernel

end Wolf.Supp
