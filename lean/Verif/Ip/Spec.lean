import Verif.Ip.Model
import Verif.Route.Lpm
/-!
# What a well-formed datagram is, and what a relayed one looks like

Stated on the bytes, from RFC 791/1122/1812, without the model's functions except the field readers.
-/
namespace Wolf.IpIn
open Wolf.Route (Ip Conf)
open Wolf.Csum (words)

/-- The bytes of the option area. -/
def optBytes (f : List Nat) : List Nat := (f.take (14 + hlen f)).drop 34

/-- `OptAt o k`: an option starts at byte `k` of the option area `o`. -/
inductive OptAt (o : List Nat) : Nat → Prop
  | first : OptAt o 0
  | nop {k : Nat} : OptAt o k → o[k]? = some 1 → OptAt o (k + 1)
  | next {k t l : Nat} : OptAt o k → o[k]? = some t → t ≠ 0 → t ≠ 1 → o[k + 1]? = some l → OptAt o (k + l)

/-- `a` is a broadcast address of some configured subnet or the limited broadcast. -/
def Bcast (n : Net) (a : Ip) : Prop :=
  a = 0xFFFFFFFF#32 ∨ ∃ c ∈ n.rt.confs, c.ip ≠ 0 ∧ c.mask ≠ 0 ∧ c.mask ≠ 0xFFFFFFFF#32 ∧ a = (c.ip &&& c.mask) ||| ~~~c.mask

/-- First byte of the address. -/
def octet1 (a : Ip) : Nat := a.toNat / 16777216

def Mcast (a : Ip) : Prop := 224 ≤ octet1 a ∧ octet1 a ≤ 239

/-- The header checksum is right: the one's complement sum of the header words is 0xFFFF, i.e. their plain sum is a
non-zero multiple of 65535. -/
def SumOk (hdr : List Nat) : Prop := (words hdr).sum ≠ 0 ∧ (words hdr).sum % 65535 = 0

structure WellFormed (n : Net) (i : Nat) (f : List Nat) : Prop where
  len : 34 ≤ f.length
  version : u8 f 14 / 16 = 4
  hdr : 20 ≤ hlen f ∧ 14 + hlen f ≤ f.length
  total : hlen f ≤ tot f ∧ 14 + tot f ≤ f.length
  sum : SumOk ((f.drop 14).take (hlen f))
  /-- no more-fragments flag and offset zero -/
  whole : u16 f 20 % 16384 = 0
  srcUni : ¬ Bcast n (src f) ∧ ¬ Mcast (src f)
  srcSet : src f ≠ 0 ∨ n.dhcp = true
  loopNet : Route.isLoop n.rt i = true ∨ (octet1 (src f) ≠ 127 ∧ octet1 (dst f) ≠ 127)
  noRoute : ∀ k, OptAt (optBytes f) k → (optBytes f)[k]? ≠ some 0x83 ∧ (optBytes f)[k]? ≠ some 0x89

/-- What the upper layer is given for the frame `f`: the same datagram without its options. -/
structure Delivered (f g : List Nat) : Prop where
  short : g.length ≤ f.length
  payload : g.drop 34 = f.drop (14 + hlen f)
  eth : g.take 14 = f.take 14
  noOpts : u8 g 14 = 0x45
  total : tot g + hlen f = tot f + 20
  fits : 14 + tot g ≤ g.length
  sum : SumOk ((g.drop 14).take 20)
  proto : proto g = proto f
  ttl : ttl g = ttl f
  src : src g = src f
  dst : dst g = dst f

/-- The relayed form of the datagram `ip` (bytes from `ver_ihl` on): the TTL is one lower and positive, the header
checksum is right, and nothing else has changed. -/
structure Relayed (ip ip' : List Nat) : Prop where
  len : ip'.length = ip.length
  ttl : ip'.getD 8 0 + 1 = ip.getD 8 0
  pos : 1 ≤ ip'.getD 8 0
  sum : SumOk (ip'.take (ip'.getD 0 0 % 16 * 4))
  rest : ∀ k, k ≠ 8 → k ≠ 10 → k ≠ 11 → ip'[k]? = ip[k]?

/-- A datagram that may be relayed: well formed, not for this host, not a link-layer broadcast or multicast, and its
source is neither link-local, loopback, one of this host's addresses, nor in the subnet of another interface. -/
structure MayRelay (n : Net) (i : Nat) (f : List Nat) : Prop where
  wf : WellFormed n i f
  notOurs : dst f ≠ 0 ∧ ¬ Bcast n (dst f) ∧ ∀ c ∈ n.rt.confs, c.ip ≠ dst f
  notGroup : isNonEth n i = true ∨ u8 f 0 % 2 = 0
  notLinkLocal : octet1 (src f) ≠ 169 ∨ (src f).toNat / 65536 % 256 ≠ 254
  notLoop : Route.isLoop n.rt i = true ∨ octet1 (src f) ≠ 127
  notSelf : ∀ c ∈ n.rt.confs, c.ip ≠ 0 → c.ip ≠ src f
  notElsewhere : ∀ j c, n.rt.confs[j]? = some c → j ≠ i → c.ip ≠ 0 → c.mask ≠ 0 → (src f &&& c.mask) ≠ (c.ip &&& c.mask)
  hops : 2 ≤ ttl f

/-- Through which interface and to whom: the subnet of another interface that contains the destination, or a static
route that matches it with a prefix at least as long as any other matching one. -/
def RouteOk (n : Net) (d : Ip) (out : Nat) (nh : Ip) : Prop :=
  (nh = d ∧ ∃ c, n.rt.confs[out]? = some c ∧ c.ip ≠ 0 ∧ c.mask ≠ 0 ∧ (d &&& c.mask) = (c.ip &&& c.mask)) ∨
  (∃ r ∈ n.rt.routes, r.used = true ∧ Route.SamePrefix d r.pfx r.plen ∧ r.ifIdx = out ∧ nh = (if r.gw ≠ 0 then r.gw else d) ∧
    ∀ r' ∈ n.rt.routes, r'.used = true → Route.SamePrefix d r'.pfx r'.plen → r'.plen ≤ r.plen)

end Wolf.IpIn
