/-!
# Links: MTU (C39), VLAN sub-interfaces (C40)

Model of `src/wolfip.c` 1535–1620 (MTU helpers), 1726–1787 (`wolfIP_ll_send_frame`), 9893–10085
(`wolfIP_vlan_create/delete/get`, `wolfIP_mtu_set/get`) and the VLAN demultiplexing of `wolfIP_recv_on`
(10464–10520), built with ETHERNET and WOLFIP_VLAN, without packet filters and packet sockets.
Pointers to devices are indices into the device table.
-/
namespace Wolf.Link

/-! ## Model -/

structure Vlan where
  parent : Nat
  vid : Nat
  pcp : Nat
  dei : Nat
deriving DecidableEq, Repr

/-- `struct wolfIP_ll_dev`; `vlan` is `some` when `vlan_active` (the code keeps `vlan_parent` non-NULL exactly
then). `send`/`poll`: the driver callback is installed. wolfip.h. -/
structure Dev where
  mac : List Nat := List.replicate 6 0
  mtu : Nat := 0
  send : Bool := false
  poll : Bool := false
  nonEth : Bool := false
  vlan : Option Vlan := none
deriving DecidableEq

notation "linkMtu" => (1536 : Nat)
notation "linkMtuMin" => (64 : Nat)
notation "tagLen" => (4 : Nat)
notation "ethHdr" => (14 : Nat)

/-- A physical device's clamped MTU. src/wolfip.c 1546–1555. -/
def physMtu (d : Dev) : Nat :=
  if d.mtu = 0 then linkMtu
  else
    let m := if d.mtu > linkMtu then linkMtu else d.mtu
    if m < linkMtuMin then linkMtuMin else m

/-- `wolfIP_ll_frame_mtu`, following the parent pointers at most `fuel` times (the code recurses; a parent is
never itself a sub-interface). src/wolfip.c 1535–1556. -/
def frameMtuF (devs : List Dev) : Nat → Nat → Nat
  | 0, _ => 0
  | fuel + 1, i =>
    match devs[i]? with
    | none => linkMtu
    | some d =>
      match d.vlan with
      | some v =>
        let p := frameMtuF devs fuel v.parent
        if p > tagLen then p - tagLen else 0
      | none => physMtu d

def frameMtu (devs : List Dev) (i : Nat) : Nat := frameMtuF devs (devs.length + 1) i

/-- `wolfIP_ip_mtu`. src/wolfip.c 1564–1577. -/
def ipMtu (devs : List Dev) (i : Nat) : Nat :=
  let m := frameMtu devs i
  if m ≤ ethHdr then 0 else if m - ethHdr > 1500 then 1500 else m - ethHdr

/-- `wolfIP_socket_tcp_mss`. src/wolfip.c 1585–1592. -/
def tcpMss (devs : List Dev) (i : Nat) : Nat :=
  if ipMtu devs i ≤ 40 then 0 else ipMtu devs i - 40

/-- `tcp_tx_payload_cap` (TCP_OPTIONS_LEN = 12). src/wolfip.c 1603–1619. -/
def payloadCap (devs : List Dev) (i peerMss : Nat) : Nat :=
  let cap := if tcpMss devs i > 12 then tcpMss devs i - 12 else 0
  if peerMss > 0 ∧ peerMss < cap then peerMss else cap

/-- `wolfIP_mtu_set`; `none` is -EINVAL. src/wolfip.c 10066–10081. -/
def mtuSet (devs : List Dev) (i mtu : Nat) : Option (List Dev) :=
  match devs[i]? with
  | none => none
  | some d =>
    some (devs.set i { d with mtu := if mtu = 0 then linkMtu else if mtu < linkMtuMin then linkMtuMin else if mtu > linkMtu then linkMtu else mtu })

/-- `wolfIP_mtu_get`. src/wolfip.c 10083–10091. -/
def mtuGet (devs : List Dev) (i : Nat) : Option Nat := if i < devs.length then some (frameMtu devs i) else none

/-- The tag control information. src/wolfip.c 1776–1778. -/
def tci (v : Vlan) : Nat := v.pcp % 8 * 8192 + v.dei % 2 * 4096 + v.vid % 4096

/-- `wolfIP_ll_send_frame`: which driver is handed which bytes (`none`: -EINVAL).
src/wolfip.c 1726–1787. -/
def sendFrame (devs : List Dev) (i : Nat) (buf : List Nat) : Option (Nat × List Nat) :=
  match devs[i]? with
  | none => none
  | some d =>
    if d.vlan = none ∧ d.send = false then none
    else if buf.length > frameMtu devs i then none
    else if d.nonEth then
      if buf.length ≤ ethHdr then none else some (i, buf.drop ethHdr)
    else
      match d.vlan with
      | some v =>
        match devs[v.parent]? with
        | none => none
        | some p =>
          if buf.length < ethHdr then none
          else if p.send = false then none
          else if buf.length + tagLen > frameMtu devs v.parent then none
          else some (v.parent, buf.take 12 ++ [0x81, 0x00, tci v / 256, tci v % 256] ++ buf.drop 12)
      | none => some (i, buf)

/-- The test for "is the sub-interface `vid` of device `i`". src/wolfip.c 10500–10505, 9930–9935. -/
def isSub (i vid : Nat) (c : Dev) : Bool :=
  match c.vlan with
  | some v => decide (v.parent = i ∧ v.vid = vid)
  | none => false

/-- The first part of `wolfIP_recv_on`: which interface a frame arriving at `i` is handled for, and the frame
as handled (`none`: dropped). src/wolfip.c 10446–10520. -/
def demux (devs : List Dev) (i : Nat) (buf : List Nat) : Option (Nat × List Nat) :=
  match devs[i]? with
  | none => none
  | some d =>
    if d.nonEth then some (i, buf)
    else if buf.length < ethHdr then none
    else if buf.getD 12 0 = 0x81 ∧ buf.getD 13 0 = 0x00 then
      if buf.length < ethHdr + tagLen then none
      else
        let vid := (buf.getD 14 0 * 256 + buf.getD 15 0) % 4096
        match devs.findIdx? (isSub i vid) with
        | none => none
        | some j => some (j, buf.take 12 ++ buf.drop 16)
    else some (i, buf)

/-- WOLFIP_VLAN_MAX. -/
def vlanMax : Nat := 4

/-- `wolfIP_vlan_create`: the new table and the index of the sub-interface (`none`: -EINVAL). The interface
name and the zeroed IP configuration are not modelled. src/wolfip.c 9893–9984. -/
def vlanCreate (devs : List Dev) (parent vid pcp dei : Nat) : Option (List Dev × Nat) :=
  match devs[parent]? with
  | none => none
  | some p =>
    if p.vlan ≠ none then none
    else if p.send = false then none
    else if p.nonEth then none
    else if vid > 4094 then none
    else if pcp > 7 then none
    else if dei > 1 then none
    else if devs.any (isSub parent vid) then none
    else if (devs.filter (fun c => c.vlan.isSome)).length ≥ vlanMax then none
    else
      match (List.range devs.length).find? (fun k => decide (k ≠ parent) && (match devs[k]? with
          | some c => decide (c.vlan = none) && !c.send && !c.poll
          | none => false)) with
      | none => none
      | some k => some (devs.set k { mac := p.mac, nonEth := p.nonEth, vlan := some { parent := parent, vid := vid, pcp := pcp, dei := dei } }, k)

/-- `wolfIP_vlan_delete`. The ARP entries it also clears are not modelled here. src/wolfip.c 9986–10027. -/
def vlanDelete (devs : List Dev) (i : Nat) : Option (List Dev) :=
  match devs[i]? with
  | none => none
  | some d => if d.vlan = none then none else some (devs.set i {})

/-- `wolfIP_vlan_get`. src/wolfip.c 10029–10063. -/
def vlanGet (devs : List Dev) (i : Nat) : Option Vlan :=
  match devs[i]? with
  | none => none
  | some d =>
    match d.vlan with
    | none => none
    | some v => if v.parent < devs.length then some v else none

/-! ## Specification -/

inductive Op where
  | create (parent vid pcp dei : Nat)
  | delete (i : Nat)
  | mtu (i m : Nat)

/-- One call, with the value it returned: the index for a successful create. -/
def step (devs : List Dev) : Op → List Dev × Option Nat
  | .create p vid pcp dei =>
    match vlanCreate devs p vid pcp dei with
    | some (devs', k) => (devs', some k)
    | none => (devs, none)
  | .delete i =>
    match vlanDelete devs i with
    | some devs' => (devs', some i)
    | none => (devs, none)
  | .mtu i m =>
    match mtuSet devs i m with
    | some devs' => (devs', some i)
    | none => (devs, none)

/-- What the caller knows from the answers: the live sub-interfaces. -/
def know (m : Nat → Option Vlan) (o : Op) (r : Option Nat) : Nat → Option Vlan :=
  match o, r with
  | .create p vid pcp dei, some k => fun i => if i = k then some { parent := p, vid := vid, pcp := pcp, dei := dei } else m i
  | .delete i, some _ => fun j => if j = i then none else m j
  | _, _ => m

def run (devs : List Dev) (m : Nat → Option Vlan) : List Op → List Dev × (Nat → Option Vlan)
  | [] => (devs, m)
  | o :: os => run (step devs o).1 (know m o (step devs o).2) os

/-- At start-up no device is a sub-interface. -/
def Fresh (devs : List Dev) : Prop := ∀ d ∈ devs, d.vlan = none

end Wolf.Link
