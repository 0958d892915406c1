/-!
# C38: packet filters

Model of the filter dispatcher (`src/wolfip.c` 838–1085, `wolfip-filter.h`): masks, callback, re-entry lock,
and the chain of consultations before a frame is forwarded (4702–4760). Built with CONFIG_IPFILTER.
-/
namespace Wolf.Filter

/-! ## Model -/

/-- WOLFIP_FILTER_PROTO_*. wolfip-filter.h 28–32. -/
def protoEth : Nat := 0x008f
def protoIp : Nat := 0x0800
def protoTcp : Nat := 6
def protoUdp : Nat := 17
def protoIcmp : Nat := 1

/-- Which setter: wolfIP_filter_set_mask, _eth_mask, _ip_mask, _tcp_mask, _udp_mask, _icmp_mask. -/
inductive Layer where
  | all | eth | ip | tcp | udp | icmp
deriving DecidableEq

/-- Configuration calls. `setCb false` installs NULL. -/
inductive Op where
  | setCb (on : Bool)
  | setMask (l : Layer) (m : Nat)
deriving DecidableEq

/-- The static variables. src/wolfip.c 839–851. -/
structure FSt where
  cb : Bool := false
  mask : Nat := 0
  eth : Nat := 0
  ip : Nat := 0
  tcp : Nat := 0
  udp : Nat := 0
  icmp : Nat := 0
  lock : Bool := false
  touched : Bool := false
deriving DecidableEq

/-- The setters. src/wolfip.c 853–895. -/
def apply (st : FSt) : Op → FSt
  | .setCb on => { st with touched := if on then st.touched else false, cb := on }
  | .setMask .all m => { st with mask := m, touched := true }
  | .setMask .eth m => { st with eth := m, touched := true }
  | .setMask .ip m => { st with ip := m, touched := true }
  | .setMask .tcp m => { st with tcp := m, touched := true }
  | .setMask .udp m => { st with udp := m, touched := true }
  | .setMask .icmp m => { st with icmp := m, touched := true }

/-- `wolfIP_filter_mask_for_proto`. src/wolfip.c 907–923. -/
def maskFor (st : FSt) (proto : Nat) : Nat :=
  if proto = protoEth then (if st.eth ≠ 0 then st.eth else st.mask)
  else if proto = protoIp then (if st.ip ≠ 0 then st.ip else st.mask)
  else if proto = protoTcp then (if st.tcp ≠ 0 then st.tcp else st.mask)
  else if proto = protoUdp then (if st.udp ≠ 0 then st.udp else st.mask)
  else if proto = protoIcmp then (if st.icmp ≠ 0 then st.icmp else st.mask)
  else st.mask

/-- The mask tested by `wolfIP_filter_dispatch`: that of the protocol, or the common one for a NULL `meta`, or
all ones while no mask was configured. src/wolfip.c 936–942. -/
def selMask (st : FSt) (p : Option Nat) : Nat :=
  if st.touched = false then 4294967295 else (match p with
    | none => st.mask
    | some proto => maskFor st proto)

/-- What a callback does when it is called: it may reconfigure the filter and cause further filter events
(by using the stack), depending on the answers, and returns a verdict. -/
inductive Prog where
  | ret (v : Int)
  | cfg (o : Op) (k : Prog)
  | event (r : Nat) (proto : Option Nat) (k : Int → Prog)

/-- What can be observed: the callback is entered, returns, the filter is reconfigured; `deep` marks a
re-entry deeper than the model follows. -/
inductive T where
  | enter (r : Nat) (proto : Option Nat)
  | leave (v : Int)
  | cfgd (o : Op)
  | deep
deriving DecidableEq

/-- Running a callback. -/
def runProg (disp : FSt → Nat → Option Nat → FSt × Int × List T) : FSt → Prog → FSt × Int × List T
  | st, .ret v => (st, v, [])
  | st, .cfg o k =>
    let x := runProg disp (apply st o) k
    (x.1, x.2.1, .cfgd o :: x.2.2)
  | st, .event r p k =>
    let d := disp st r p
    let x := runProg disp d.1 (k d.2.1)
    (x.1, x.2.1, d.2.2 ++ x.2.2)

/-- The behaviour of the callback at each depth of (attempted) re-entry. -/
abbrev Beh := Nat → Nat → Option Nat → Prog

/-- `wolfIP_filter_dispatch`: the new state, the verdict and what was observed. `proto = none` is a NULL
`meta`. src/wolfip.c 925–962. -/
def dispatch (beh : Beh) : Nat → FSt → Nat → Option Nat → FSt × Int × List T
  | 0, st, _, _ => (st, 0, [.deep])
  | n + 1, st, r, p =>
    if st.cb = false then (st, 0, [])
    else if Nat.land (selMask st p) (1 <<< r) = 0 then (st, 0, [])
    else if st.lock then (st, 0, [])
    else
        let x := runProg (dispatch beh n) { st with lock := true } (beh n r p)
        ({ x.1 with lock := false }, x.2.1, .enter r p :: (x.2.2 ++ [.leave x.2.1]))

/-- A filter event raised by the stack outside any callback. -/
def raise (beh : Beh) (st : FSt) (r : Nat) (p : Option Nat) : FSt × Int × List T := dispatch beh 2 st r p

/-- The consultations before a frame goes out, in order; true if it may be sent.
src/wolfip.c 4721–4742 (and the same chain at every other sending place: 2342–2351, 3575–3585, 3762–3772,
4244–4254, 8284–8294, 11367–11380, 11510–11528). -/
def chain (beh : Beh) (r : Nat) : FSt → List Nat → FSt × Bool × List T
  | st, [] => (st, true, [])
  | st, p :: ps =>
    let d := raise beh st r (some p)
    if d.2.1 ≠ 0 then (d.1, false, d.2.2)
    else
      let x := chain beh r d.1 ps
      (x.1, x.2.1, d.2.2 ++ x.2.2)

/-- WOLFIP_FILT_SENDING. wolfip-filter.h 18. -/
def filtSending : Nat := 9

/-- Which layers `wolfIP_forward_packet` asks about a forwarded datagram of `len` bytes (with the Ethernet
header), IP header of `hlen` bytes. The transport layer is not asked when its header is cut short.
src/wolfip.c 1015–1085, 4702–4742. -/
def forwardLayers (ipProto len hlen : Nat) (ethernet : Bool) : List Nat :=
  (if ipProto = 6 then (if len < 14 + hlen + 20 then [] else [protoTcp])
   else if ipProto = 17 then (if len < 14 + hlen + 8 then [] else [protoUdp])
   else if ipProto = 1 then (if len < 14 + hlen + 8 then [] else [protoIcmp])
   else []) ++ [protoIp] ++ (if ethernet then [protoEth] else [])

/-! ## Specification -/

/-- Last element of a list for which `f` is defined. -/
def lastSome {α β : Type} (f : α → Option β) (l : List α) : Option β := (l.filterMap f).getLast?

/-- The configuration calls made so far, by the application or by the callback. -/
def opsOf (tr : List T) : List Op := tr.filterMap fun
  | .cfgd o => some o
  | _ => none

/-- A callback is installed: the last installation call installed one. -/
def Installed (ops : List Op) : Prop := lastSome (fun | .setCb on => some on | _ => none) ops = some true

/-- The mask last given to a setter (0 before). -/
def maskOf (ops : List Op) (l : Layer) : Nat := (lastSome (fun | .setMask l' m => if l' = l then some m else none | _ => none) ops).getD 0

/-- A mask was set (to whatever value) after the callback was last uninstalled. -/
def Configured (ops : List Op) : Prop :=
  ∃ pre l m post, ops = pre ++ .setMask l m :: post ∧ .setCb false ∉ post

/-- The layer a protocol belongs to. -/
def layerOf (proto : Nat) : Option Layer :=
  if proto = protoEth then some .eth else if proto = protoIp then some .ip else if proto = protoTcp then some .tcp
  else if proto = protoUdp then some .udp else if proto = protoIcmp then some .icmp else none

/-- The mask that applies to a protocol: its own if nonzero, else the common one. -/
def effMask (ops : List Op) (p : Option Nat) : Nat :=
  match p.bind layerOf with
  | some l => if maskOf ops l ≠ 0 then maskOf ops l else maskOf ops .all
  | none => maskOf ops .all

/-- Reason `r` is enabled for protocol `p`. -/
def Enabled (ops : List Op) (r : Nat) (p : Option Nat) : Prop :=
  ¬ Configured ops ∨ (effMask ops p).testBit r = true

/-- The callback is never entered while it is running (and the model followed every call). -/
def NoReentry : Bool → List T → Prop
  | _, [] => True
  | false, .enter _ _ :: tr => NoReentry true tr
  | true, .enter _ _ :: _ => False
  | true, .leave _ :: tr => NoReentry false tr
  | false, .leave _ :: _ => False
  | b, .cfgd _ :: tr => NoReentry b tr
  | _, .deep :: _ => False

/-- What an application and the stack do at top level. -/
inductive Act where
  | cfg (o : Op)
  | event (beh : Beh) (r : Nat) (p : Option Nat)

def act (st : FSt) : Act → FSt × List T
  | .cfg o => (apply st o, [.cfgd o])
  | .event beh r p => let d := raise beh st r p; (d.1, d.2.2)

def acts (st : FSt) (tr : List T) : List Act → FSt × List T
  | [] => (st, tr)
  | a :: as => acts (act st a).1 (tr ++ (act st a).2) as

end Wolf.Filter
