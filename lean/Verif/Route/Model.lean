/-
Routing: masks, the route table API and route lookup.
Models src/wolfip.c 1801-1844, 1852-1861, 1957-1981, 2005-2127, 11755-11892 and
`struct wolfIP_route_entry` (1421-1428).  Built with WOLFIP_ENABLE_FORWARDING
(without it the table is absent, i.e. the same model with every slot unused).
-/
namespace Wolf.Route

abbrev Ip := BitVec 32

/-- `struct ipconf` fields used here: address, mask, gateway. -/
structure Conf where
  ip : Ip
  mask : Ip
  gw : Ip
deriving Repr, DecidableEq

/-- `struct wolfIP_route_entry`, wolfip.c 1421-1428. -/
structure Entry where
  used : Bool
  pfx : Ip
  gw : Ip
  order : Nat
  plen : Nat
  ifIdx : Nat
deriving Repr, DecidableEq

/-- A zeroed slot (memset). -/
def Entry.zero : Entry := { used := false, pfx := 0, gw := 0, order := 0, plen := 0, ifIdx := 0 }

/-- The routing part of `struct wolfIP`: the configured interfaces (if_count of
them), the route slots, the generation counter, and whether interface 0 is the
loopback (WOLFIP_ENABLE_LOOPBACK). -/
structure St where
  confs : List Conf
  routes : List Entry
  gen : Nat
  loop : Bool
deriving Repr, DecidableEq

/-- `wolfIP_is_loopback_if`, wolfip.c 45-60. -/
def isLoop (s : St) (i : Nat) : Bool := s.loop && i == 0

/-- `WOLFIP_PRIMARY_IF_IDX` clipped to the interface count, wolfip.c 2018-2021. -/
def primaryIf (s : St) : Nat :=
  if (if s.loop then 1 else 0) < s.confs.length then (if s.loop then 1 else 0) else 0

/-- The bit loop of `wolfIP_mask_prefix_len`, wolfip.c 1810-1821: `n` iterations
remaining, at bit position 32 - n. -/
def maskLoop (mask : Ip) : Nat → Nat → Bool → Option Nat
  | 0, len, _ => some len
  | n + 1, len, seenZero =>
    if mask &&& (0x80000000#32 >>> (32 - (n + 1))) ≠ 0#32 then
      if seenZero then none else maskLoop mask n (len + 1) seenZero
    else maskLoop mask n len true

/-- `wolfIP_mask_prefix_len`, wolfip.c 1801-1824; `none` = -EINVAL. -/
def maskPrefixLen (mask : Ip) : Option Nat := maskLoop mask 32 0 false

/-- `wolfIP_prefix_mask`, wolfip.c 1827-1834. -/
def prefixMask (n : Nat) : Ip :=
  if n = 0 then 0 else if n ≥ 32 then 0xFFFFFFFF#32 else 0xFFFFFFFF#32 <<< (32 - n)

/-- `wolfIP_route_match_prefix`, wolfip.c 1836-1844. -/
def matchPrefix (addr pfx : Ip) (n : Nat) : Bool :=
  if n = 0 then true else (addr &&& prefixMask n) == (pfx &&& prefixMask n)

/-- `ip_is_local_conf`, wolfip.c 1854-1861. -/
def isLocalConf (c : Conf) (addr : Ip) : Bool :=
  if c.mask = 0 then c.ip == addr else (addr &&& c.mask) == (c.ip &&& c.mask)

/-- The loop of `wolfIP_ip_is_broadcast`, wolfip.c 1966-1979. -/
def bcastLoop (addr : Ip) : List Conf → Bool
  | [] => false
  | c :: cs =>
    if c.ip = 0 then bcastLoop addr cs
    else if c.mask = 0 ∨ c.mask = 0xFFFFFFFF#32 then bcastLoop addr cs
    else if addr = (c.ip &&& c.mask) ||| ~~~c.mask then true
    else bcastLoop addr cs

/-- `wolfIP_ip_is_broadcast`, wolfip.c 1957-1981. -/
def isBroadcast (s : St) (addr : Ip) : Bool :=
  if addr = 0xFFFFFFFF#32 then true else bcastLoop addr s.confs

/-- The `best_*` variables once `found` is set. -/
structure Best where
  ifIdx : Nat
  nexthop : Ip
  plen : Nat
  order : Nat
deriving Repr, DecidableEq

/-- The connected-subnet loop of `wolfIP_route_lookup_internal`, wolfip.c
2037-2066; `Sum.inl i` = early return for an exact local address. -/
def connScan (dest : Ip) : List Conf → Nat → Option Best → Sum Nat (Option Best)
  | [], _, best => .inr best
  | c :: cs, i, best =>
    if c.ip = 0 then connScan dest cs (i + 1) best
    else if c.ip = dest then .inl i
    else if !isLocalConf c dest then connScan dest cs (i + 1) best
    else match maskPrefixLen c.mask with
      | none => connScan dest cs (i + 1) best
      | some n =>
        match best with
        | none => connScan dest cs (i + 1) (some ⟨i, dest, n, 0⟩)
        | some b =>
          if n > b.plen then connScan dest cs (i + 1) (some ⟨i, dest, n, 0⟩)
          else connScan dest cs (i + 1) best

/-- The static-route loop of `wolfIP_route_lookup_internal`, wolfip.c 2069-2090. -/
def statScan (dest : Ip) : List Entry → Option Best → Option Best
  | [], best => best
  | r :: rs, best =>
    if !r.used then statScan dest rs best
    else if !matchPrefix dest r.pfx r.plen then statScan dest rs best
    else
      let new : Best := ⟨r.ifIdx, if r.gw ≠ 0 then r.gw else dest, r.plen, r.order⟩
      match best with
      | none => statScan dest rs (some new)
      | some b =>
        if r.plen > b.plen ∨ (r.plen = b.plen ∧ r.order < b.order) ∨
            (r.plen = b.plen ∧ r.order = b.order ∧ r.ifIdx < b.ifIdx)
        then statScan dest rs (some new) else statScan dest rs best

/-- The fallback loop of `wolfIP_route_lookup_internal`, wolfip.c 2097-2111:
(gateway fallback interface, first configured non-loopback interface). -/
def fallbackScan (s : St) : List Conf → Nat → Option Nat × Option Nat → Option Nat × Option Nat
  | [], _, acc => acc
  | c :: cs, i, (g, f) =>
    if c.ip = 0 ∧ c.gw = 0 then fallbackScan s cs (i + 1) (g, f)
    else
      let f' := if !isLoop s i ∧ f = none then some i else f
      let g' := if !isLoop s i ∧ g = none ∧ c.gw ≠ 0 then some i else g
      fallbackScan s cs (i + 1) (g', f')

/-- The end of `wolfIP_route_lookup_internal` when nothing was found, wolfip.c
2092-2121. -/
def fallback (s : St) (dest : Ip) : Nat × Ip :=
  match fallbackScan s s.confs 0 (none, none) with
  | (some g, _) =>
    (g, match s.confs[g]? with
        | some c => if c.gw ≠ 0 then c.gw else dest
        | none => dest)
  | (none, some f) => (f, dest)
  | (none, none) => (primaryIf s, dest)

/-- `wolfIP_route_lookup_internal`, wolfip.c 2005-2127: (interface, next hop), or
`none` for -EINVAL (no interface at all). -/
def lookup (s : St) (dest : Ip) : Option (Nat × Ip) :=
  if s.confs.length = 0 then none
  else if dest = 0 ∨ isBroadcast s dest then some (primaryIf s, dest)
  else match connScan dest s.confs 0 none with
    | .inl i => some (i, dest)
    | .inr best =>
      match statScan dest s.routes best with
      | some b => some (b.ifIdx, b.nexthop)
      | none => some (fallback s dest)

/-! ## Route table API -/

/-- Error codes. -/
inductive Err | inval | nomem
deriving Repr, DecidableEq

/-- `wolfIP_route_count`, wolfip.c 11755-11769. -/
def routeCount (s : St) : Nat := (s.routes.filter (·.used)).length

/-- The loop of `wolfIP_route_get`, wolfip.c 11781-11792. -/
def getLoop : List Entry → Nat → Option Entry
  | [], _ => none
  | r :: rs, k =>
    if !r.used then getLoop rs k
    else match k with
      | 0 => some r
      | k + 1 => getLoop rs k

/-- `wolfIP_route_get`, wolfip.c 11771-11801: (if_idx, prefix, prefix_len, gateway). -/
def routeGet (s : St) (k : Nat) : Option ((Nat × Ip × Nat) × Ip) :=
  (getLoop s.routes k).map (fun r => ((r.ifIdx, r.pfx, r.plen), r.gw))

/-- Result of the scan in `wolfIP_route_add` (wolfip.c 11817-11832): position of the
matching entry, or of the first free slot. -/
def addScan (ifIdx : Nat) (pfx : Ip) (plen : Nat) : List Entry → Nat → Option Nat → Option Nat × Option Nat
  | [], _, free => (none, free)
  | r :: rs, i, free =>
    if !r.used then addScan ifIdx pfx plen rs (i + 1) (if free = none then some i else free)
    else if r.ifIdx = ifIdx ∧ r.plen = plen ∧ r.pfx = pfx then (some i, free)
    else addScan ifIdx pfx plen rs (i + 1) free

/-- `wolfIP_route_add`, wolfip.c 11803-11853.  The generation counter is uint32_t,
the stored interface index uint8_t. -/
def routeAdd (s : St) (ifIdx : Nat) (pfx : Ip) (plen : Nat) (gw : Ip) : St × Option Err :=
  if ifIdx ≥ s.confs.length ∨ plen > 32 then (s, some .inval)
  else
    let p := pfx &&& prefixMask plen
    match addScan ifIdx p plen s.routes 0 none with
    | (some i, _) =>
      ({ s with routes := s.routes.set i { s.routes.getD i Entry.zero with gw := gw } }, none)
    | (none, none) => (s, some .nomem)
    | (none, some i) =>
      ({ s with routes := s.routes.set i { used := true, pfx := p, gw := gw, order := s.gen,
                                           plen := plen, ifIdx := ifIdx % 256 },
                gen := (s.gen + 1) % 2 ^ 32 }, none)

/-- The scan of `wolfIP_route_delete`, wolfip.c 11869-11880. -/
def delScan (ifIdx : Nat) (pfx : Ip) (plen : Nat) : List Entry → Nat → Option Nat
  | [], _ => none
  | r :: rs, i =>
    if !r.used then delScan ifIdx pfx plen rs (i + 1)
    else if r.ifIdx ≠ ifIdx ∨ r.plen ≠ plen ∨ r.pfx ≠ pfx then delScan ifIdx pfx plen rs (i + 1)
    else some i

/-- `wolfIP_route_delete`, wolfip.c 11855-11890. -/
def routeDelete (s : St) (ifIdx : Nat) (pfx : Ip) (plen : Nat) : St × Option Err :=
  if ifIdx ≥ s.confs.length ∨ plen > 32 then (s, some .inval)
  else
    let p := pfx &&& prefixMask plen
    match delScan ifIdx p plen s.routes 0 with
    | some i => ({ s with routes := s.routes.set i Entry.zero }, none)
    | none => (s, some .inval)

end Wolf.Route
