/-!
# C120: the CYW43439 receive path, for everything the radio can return

Model of src/port/rp2350_cyw43439: `cyw43_sdpcm.c` (whole file), `cyw43_poll`, `cyw43_handle_event`, `f2_read`
(cyw43439_driver.c) and `cyw43_ll_poll` with its two receive callbacks (cyw43439_wifi.c). Every status word and every
octet clocked from the radio is arbitrary. A load, a copy or a bus read outside the buffer it addresses gives `none`.
-/
namespace Wolf.Drv.Cyw

abbrev Bytes := List Nat

/-- `CYW43_IOBUF_SZ`. cyw43439_driver.c 218. -/
notation "iobufSz" => (2048 : Nat)
/-- `sizeof(g_rx_scratch)`, `sizeof(pkt)`. cyw43439_wifi.c 31, 41. -/
notation "scratchSz" => (1536 : Nat)

/-! ## Specification: what an SDPCM packet carries -/

/-- Octet `i`. -/
def oct (p : Bytes) (i : Nat) : Nat := p.getD i 0

/-- The sub-frame of a packet `p` (the octets clocked from the radio): channel and octets. The length is given twice, once
complemented; octet 7 says how long the header is; octets beyond the declared length are not part of it. -/
def inner (p : Bytes) : Option (Nat × Bytes) :=
  let size := oct p 0 + 256 * oct p 1
  if oct p 2 + 256 * oct p 3 + size = 65535 ∧ 0 < size ∧ size ≤ p.length ∧ oct p 7 + 4 ≤ size then
    some (oct p 5 % 16, (p.take size).drop (oct p 7))
  else none

/-- The BDC header: 4 octets and as many words as its last octet says. -/
def unbdc (b : Bytes) : Bytes := b.drop (4 + 4 * oct b 3)

/-- The Ethernet frame a packet carries: data channel, a complete Ethernet header. -/
def frameIn (p : Bytes) : Option Bytes :=
  match inner p with
  | some (ch, b) => if ch = 2 ∧ 14 ≤ (unbdc b).length then some (unbdc b) else none
  | none => none

/-- The event message a packet carries: event channel, long enough for the fields used. -/
def eventIn (p : Bytes) : Option Bytes :=
  match inner p with
  | some (ch, b) => if ch = 1 ∧ 54 ≤ (unbdc b).length then some (unbdc b) else none
  | none => none

/-- EtherType. -/
def typeOf (f : Bytes) : Nat := 256 * oct f 12 + oct f 13

/-- What the driver says about the link. -/
structure Lk where
  up : Bool
  seen : Bool
  keyed : Bool
  bssid : Bytes
deriving DecidableEq

/-- A 32-bit big-endian field. -/
def be32 (e : Bytes) (i : Nat) : Nat := ((oct e i * 256 + oct e (i + 1)) * 256 + oct e (i + 2)) * 256 + oct e (i + 3)

/-- The link after an event. Event codes: 16 link (flag 1: up), 7 association, 46 supplicant (status 6: keyed), 5/6
deauthenticated, 11/12 disassociated. -/
def linkAfter (l : Lk) (e : Bytes) : Lk :=
  let ty := be32 e 28
  let joined : Lk := { l with up := true, seen := true, bssid := (e.drop 48).take 6 }
  let left : Lk := { l with up := false, keyed := false }
  if ty = 16 ∧ oct e 27 % 2 = 1 then joined
  else if ty = 7 ∧ be32 e 32 = 0 then joined
  else if ty = 46 ∧ be32 e 32 = 6 then { l with keyed := true }
  else if ty = 16 ∨ ty = 5 ∨ ty = 6 ∨ ty = 11 ∨ ty = 12 then left
  else l

/-! ## The model -/

/-- Who takes EAPOL frames: nobody, the stage of cyw43439_wifi.c, or the host supplicant (`cyw43_wifi_route_eapol`). -/
inductive Eap where
  | off | stage | host
deriving DecidableEq

/-- The registered callbacks and `ll->mac`. cyw43439_wifi.c 161–186. -/
structure Cfg where
  eap : Eap
  data : Bool
  mac : Bytes

/-- Driver state. `stage` is `g_rx_scratch[0 .. g_rx_len)`; `sup` lists the EAPOL payloads given to the supplicant. -/
structure Cy where
  iobuf : Bytes
  txMax : Nat
  flow : Nat
  lk : Lk
  rx : Nat
  stage : Bytes
  sup : List Bytes

/-- One status read and what the bus returns if a packet is then read. -/
structure Rd where
  st : Nat
  clk : Nat → Nat

/-- cyw43439_driver.c 1523–1525. `STATUS_F2_PKT_AVAILABLE` is bit 8. -/
def idle (r : Rd) : Bool := r.st == 0xFFFFFFFF || r.st / 256 % 2 == 0

/-- 1527: bits 9–19. -/
def rlenOf (r : Rd) : Nat := r.st / 512 % 2048

/-- `(n + 3) & ~3`. cyw43439_driver.c 868. -/
def pad4 (n : Nat) : Nat := (n + 3) / 4 * 4

/-- `cyw43_sdpcm_rlen_ok`. cyw43_sdpcm.c 76–82. -/
def rlenOk (rlen sz : Nat) : Bool := 12 ≤ rlen && pad4 rlen ≤ sz

/-- `f2_read`: the padded length is written to the buffer. cyw43439_driver.c 866–873, rp2350_pio.c 217–241. -/
def f2Read (buf : Bytes) (clk : Nat → Nat) (rlen : Nat) : Option Bytes :=
  if pad4 rlen ≤ buf.length then
    some ((List.range (pad4 rlen)).map (fun i => clk i % 256) ++ buf.drop (pad4 rlen))
  else none

/-- A C subtraction of `uint32_t`. -/
def sub32 (a b : Nat) : Nat := if b ≤ a then a - b else a + 4294967296 - b

/-- A pointer and a length. -/
def slice (buf : Bytes) (off n : Nat) : Option Bytes :=
  if off + n ≤ buf.length then some ((buf.drop off).take n) else none

/-- `cyw43_sdpcm_validate`: `some none`: rejected. The two `|` of disjoint octets are sums. cyw43_sdpcm.c 84–102. -/
def validate (buf : Bytes) (rlen : Nat) : Option (Option (Nat × Nat)) := do
  let b0 ← buf[0]?
  let b1 ← buf[1]?
  let b2 ← buf[2]?
  let b3 ← buf[3]?
  let sz := b0 + 256 * b1
  let szc := b2 + 256 * b3
  if sz ^^^ szc ≠ 65535 ∨ sz = 0 then return none
  if rlen < sz then return none
  let b5 ← buf[5]?
  return some (sz, b5 % 16)

/-- `cyw43_sdpcm_credit_update`. cyw43_sdpcm.c 43–51. -/
def credit (flowB creditB txMax : Nat) : Nat × Nat :=
  (if (creditB + 256 - txMax) % 256 ≤ 0x40 then creditB else txMax, flowB)

/-- `cyw43_sdpcm_hlen_ok`. cyw43_sdpcm.c 104–107. -/
def hlenOk (hlen size : Nat) : Bool := hlen + 4 ≤ size

/-- `cyw43_sdpcm_bdc_payload`: offset, length, EtherType. cyw43_sdpcm.c 109–126. -/
def bdcPayload (buf : Bytes) (hlen size : Nat) : Option (Option (Nat × Nat × Nat)) := do
  let d ← buf[hlen + 3]?
  let doff := 4 + 4 * d
  if size < hlen + doff + 14 then return none
  let off := hlen + doff
  let t0 ← buf[off + 12]?
  let t1 ← buf[off + 13]?
  return some (off, sub32 size off, t0 * 256 + t1)

/-- A big-endian 32-bit load. -/
def ld32 (buf : Bytes) (i : Nat) : Option Nat := do
  let a ← buf[i]?
  let b ← buf[i + 1]?
  let c ← buf[i + 2]?
  let d ← buf[i + 3]?
  return ((a * 256 + b) * 256 + c) * 256 + d

/-- The `switch`. cyw43439_driver.c 1233–1275. -/
def eventApply (buf : Bytes) (e ty st flags : Nat) (l : Lk) : Option Lk :=
  if ty = 16 then
    if flags % 2 = 1 then do
      let src ← slice buf (e + 48) 6
      return { l with bssid := src, up := true, seen := true }
    else some { l with up := false, keyed := false }
  else if ty = 7 then
    if st = 0 then do
      let src ← slice buf (e + 48) 6
      return { l with bssid := src, up := true, seen := true }
    else some l
  else if ty = 46 then
    if st = 6 then some { l with keyed := true } else some l
  else if ty = 5 ∨ ty = 6 ∨ ty = 11 ∨ ty = 12 then some { l with up := false, keyed := false }
  else some l

/-- `cyw43_handle_event`; `ev = &g_iobuf[hlen]`. 1208–1277. -/
def event (buf : Bytes) (hlen len : Nat) (l : Lk) : Option Lk := do
  if len < 4 then return l
  let d ← buf[hlen + 3]?
  let off := 4 + 4 * d
  if len < off + 54 then return l
  let f0 ← buf[hlen + off + 26]?
  let f1 ← buf[hlen + off + 27]?
  let ty ← ld32 buf (hlen + off + 28)
  let st ← ld32 buf (hlen + off + 32)
  eventApply buf (hlen + off) ty st (f0 * 256 + f1) l

/-- `cyw43_eapol_rx_cb`; the result is discarded. cyw43439_wifi.c 34–65. -/
def eapolCb (cfg : Cfg) (c : Cy) (pay : Bytes) : Cy :=
  if scratchSz < pay.length + 14 then c
  else if !c.lk.seen then c
  else { c with stage := cfg.mac ++ c.lk.bssid ++ [0x88, 0x8E] ++ pay }

/-- `cyw43_data_rx_cb`. cyw43439_wifi.c 67–76. -/
def dataCb (c : Cy) (f : Bytes) : Cy := if scratchSz < f.length then c else { c with stage := f }

/-- What the loop of `cyw43_poll` does next. -/
inductive Nx where
  | more | stop
deriving DecidableEq

/-- The data channel. cyw43439_driver.c 1549–1587. -/
def dataFrame (cfg : Cfg) (c : Cy) (hlen size : Nat) : Option (Cy × Nx) := do
  match ← bdcPayload c.iobuf hlen size with
  | none => return (c, .more)
  | some (doff, paylen, etype) =>
    let c := { c with rx := c.rx + 1 }
    if etype < 0x0600 then return (c, .more)
    if etype = 0x888E then
      match cfg.eap with
      | .off => return (c, .stop)
      | .stage => return (eapolCb cfg c (← slice c.iobuf (doff + 14) (sub32 paylen 14)), .stop)
      | .host => return ({ c with sup := c.sup ++ [← slice c.iobuf (doff + 14) (sub32 paylen 14)] }, .stop)
    else if cfg.data then return (dataCb c (← slice c.iobuf doff paylen), .stop)
    else return (c, .stop)

/-- One packet already in the buffer. 1536–1589. -/
def packet (cfg : Cfg) (c : Cy) (rlen : Nat) : Option (Cy × Nx) := do
  match ← validate c.iobuf rlen with
  | none => return (c, .more)
  | some (size, chan) =>
    let h8 ← c.iobuf[8]?
    let h9 ← c.iobuf[9]?
    let cr := credit h8 h9 c.txMax
    let c := { c with txMax := cr.1, flow := cr.2 }
    let hlen ← c.iobuf[7]?
    if !hlenOk hlen size then return (c, .more)
    if chan = 1 then
      let l ← event c.iobuf hlen (sub32 size hlen) c.lk
      return ({ c with lk := l }, .more)
    else if chan = 2 then dataFrame cfg c hlen size
    else return (c, .more)

/-- `cyw43_poll`: the loop over the status words the radio will return; the rest is what later calls will see. The unread
status words after the last one are idle. 1506–1592. -/
def poll (cfg : Cfg) : List Rd → Cy → Option (Cy × List Rd)
  | [], c => some (c, [])
  | r :: rs, c =>
    if idle r then some (c, rs)
    else if !rlenOk (rlenOf r) iobufSz then some (c, rs)
    else do
      let b ← f2Read c.iobuf r.clk (rlenOf r)
      let x ← packet cfg { c with iobuf := b } (rlenOf r)
      match x.2 with
      | .more => poll cfg rs x.1
      | .stop => return (x.1, rs)

/-- `cyw43_ll_poll`: the frame copied to the caller's buffer of `room` octets (`[]`: 0 or an error is returned).
cyw43439_wifi.c 94–115. -/
def llPoll (cfg : Cfg) (room : Nat) (rs : List Rd) (c : Cy) : Option (Cy × List Rd × Bytes) := do
  let x ← poll cfg rs c
  let c1 := x.1
  if c1.stage.length = 0 then return (c1, x.2, [])
  if room < c1.stage.length then return ({ c1 with stage := [] }, x.2, [])
  let f ← slice c1.stage 0 c1.stage.length
  return ({ c1 with stage := [] }, x.2, f)

/-- `n` polls by the stack: the frames it gets. -/
def polls (cfg : Cfg) (room : Nat) : Nat → List Rd → Cy → Option (Cy × List Rd × List Bytes)
  | 0, rs, c => some (c, rs, [])
  | n + 1, rs, c => do
    let x ← llPoll cfg room rs c
    let y ← polls cfg room n x.2.1 x.1
    return (y.1, y.2.1, (if x.2.2 = [] then [] else [x.2.2]) ++ y.2.2)

end Wolf.Drv.Cyw
