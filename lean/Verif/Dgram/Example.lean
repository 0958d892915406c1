import Verif.Dgram.Icmp
/-!
# C81: concrete cases and limits

Two Ethernet interfaces (10.0.0.1/24 and 10.0.1.1/24) and VLAN 5 on the first.
-/
namespace Wolf.Dgram
open Wolf.Route (Ip Conf)
open Wolf.IpIn (Net u8 u16 ipAt tot src dst ipBytes)
open Wolf.Csum (ipSet icmpFill Bytes)

def exMac (n : Nat) : List Nat := [2, 0, 0, 0, 0, n]
def exDevs : List Link.Dev :=
  [{ mac := exMac 1, mtu := 1500, send := true, poll := true }, { mac := exMac 2, mtu := 1500, send := true, poll := true },
   { mac := exMac 1, mtu := 1500, send := true, poll := true, vlan := some ⟨0, 5, 0, 0⟩ }]
def exEnv : Env where
  net := { rt := { confs := [⟨0x0A000001#32, 0xFFFFFF00#32, 0⟩, ⟨0x0A000101#32, 0xFFFFFF00#32, 0⟩, ⟨0, 0, 0⟩], routes := [], gen := 0, loop := false } }
  devs := exDevs

/-- An ICMP message from `a` to `b` in a frame for MAC `m`. -/
def exFrame (m : List Nat) (a b : Ip) (msg : List Nat) : List Nat :=
  m ++ exMac 9 ++ [8, 0] ++ ipSet ([0x45, 0, 0, 20 + msg.length, 0, 7, 0, 0, 64, 1, 0, 0] ++ ipBytes a ++ ipBytes b) ++ icmpFill msg msg.length

/-- An echo reply with id 0x1234 and an ICMP error (port unreachable), both to 10.0.0.1. -/
def exReply : List Nat := exFrame (exMac 1) 0x0A000002#32 0x0A000001#32 [0, 0, 0, 0, 0x12, 0x34, 0, 1, 97, 98, 99, 100]
def exError : List Nat := exFrame (exMac 1) 0x0A000002#32 0x0A000001#32 ([3, 3, 0, 0, 0, 0, 0, 0] ++ List.replicate 28 0)
/-- The reply with the tag of VLAN 5. -/
def exTagged : List Nat := exReply.take 12 ++ [0x81, 0, 0, 5] ++ exReply.drop 12

theorem exVlans : VlansDistinct exEnv.devs := by
  intro i g j j' h h'
  have key : ∀ k, SubOf exDevs i g k → k = 2 := by
    rintro k ⟨d, v, hd, hv, _⟩
    match k, hd with
    | 0, hd => cases hd; cases hv
    | 1, hd => cases hd; cases hv
    | 2, _ => rfl
    | (k + 3), hd => cases hd
  rw [key j h, key j' h']

/-- Packet sockets: one for every EtherType, one bound to interface 1, one bound to the VLAN. The first sees the tagged frame
on interface 0, the third the frame without tag, the second nothing. -/
def exPkOps : List PkOp := [.socket 0, .socket 0, .socket 0, .bind 1 1 0, .bind 2 2 0x0800, .frame 0 exTagged {}, .recv 0 100, .recv 2 100, .recv 1 100]

theorem packet_example :
    (pkRun (pkInit exDevs 3) exPkOps).2 = [.reset 0, .reset 1, .reset 2, .queued 0 (0, exTagged), .queued 2 (2, exReply), .read 0 (0, exTagged), .read 2 (2, exReply)] := by
  decide +kernel

/-- **Limit.** Binding a packet socket to interface 0 does not restrict it: it still gets the frames of interface 1. -/
theorem packet_bind_zero_limit :
    (pkRun (pkInit exDevs 3) [.socket 0, .bind 0 0 0, .frame 1 exReply {}]).2 = [.reset 0, .queued 0 (1, exReply)] := by decide +kernel

/-- **Limit.** With a VLAN sub-interface at index 0 a socket gets two copies of one frame (why `packet_once` asks for none). -/
theorem packet_twice_limit :
    (pkRun (pkInit [{ mac := exMac 1, vlan := some ⟨1, 5, 0, 0⟩ }, { mac := exMac 1, mtu := 1500 }] 1) [.socket 0, .frame 1 exTagged {}]).2 =
      [.reset 0, .queued 0 (1, exTagged), .queued 0 (0, exReply)] := by decide +kernel

/-- Raw sockets: an ICMP one and one for UDP, both open; only the first is given the reply, with its header. -/
theorem raw_example :
    (rwRun (rwInit exEnv 2) [.socket 1 false, .socket 17 false, .frame 0 exReply {}, .recv 0 100]).2 =
      [.reset 0, .reset 1, .queued 0 (exReply.drop 14), .read 0 (exReply.drop 14)] := by decide +kernel

/-- The hypotheses of `raw_bound` are met: a socket of protocol 1 bound to 10.0.0.1. -/
theorem raw_bound_example : Has (RwIs 0x0A000001#32 1) (rwRun (rwInit exEnv 2) [.socket 1 false, .bind 0 0x0A000001#32]).1.tab 0 :=
  ⟨_, rfl, rfl, rfl, rfl⟩

/-- **Limit.** Sending restricts an unbound raw socket to the interface last used: after a send through interface 1, the
reply arriving on interface 0, which it was given before, is not given to it any more. -/
theorem raw_send_restricts :
    (rwRun (rwInit exEnv 2) [.socket 1 false, .frame 0 exReply {}, .send 0 (some 0x0A000105#32) [8, 0, 0, 0, 0, 0, 0, 0] false 1 false, .frame 0 exReply {}]).2 =
      [.reset 0, .queued 0 (exReply.drop 14)] := by decide +kernel

/-- ICMP sockets: one with id 0x1234 and one with another id; only the first is given the reply. -/
theorem icmp_example :
    (icRun (icInit exEnv 2) [.socket, .socket, .bind 0 0x0A000001#32 0x1234 false, .bind 1 0x0A000001#32 0x1235 false, .frame 0 exReply {}, .recv 0 100]).2 =
      [.reset 0, .reset 1, .queued 0 exReply, .read 0 exReply] := by decide +kernel

/-- The hypotheses of `icmp_bound` are met. -/
theorem icmp_bound_example : Has (IcIs 0x0A000001#32 0x1234) (icRun (icInit exEnv 2) [.socket, .bind 0 0x0A000001#32 0x1234 false]).1.tab 0 :=
  ⟨_, rfl, rfl, rfl, rfl, rfl⟩

/-- **Limit.** An ICMP socket with an id never sees the errors about what it sent: their id field is 0. A socket without id
sees them, but sending gives it one. -/
theorem icmp_error_limit :
    (icRun (icInit exEnv 1) [.socket, .frame 0 exError {}, .send 0 (some 0x0A000002#32) [8, 0, 0, 0, 0, 0, 0, 0] 77 0 1 false, .frame 0 exError {}]).2 =
      [.reset 0, .queued 0 exError] := by decide +kernel

/-- **Limit.** Calls on a descriptor that is not open are not refused and leak into the next socket: after connecting closed
descriptor 0 to 10.0.0.9, a new ICMP socket takes messages from 10.0.0.9 only, and is not given the reply. -/
theorem icmp_leak_limit :
    (icRun (icInit exEnv 1) [.connect 0 0x0A000009#32, .socket, .frame 0 exReply {}]).2 = [.reset 0] ∧
    (icRun (icInit exEnv 1) [.socket, .frame 0 exReply {}]).2 = [.reset 0, .queued 0 exReply] := by decide +kernel

end Wolf.Dgram
