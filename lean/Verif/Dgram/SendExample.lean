import Verif.Dgram.Accept
/-!
# C82: concrete cases and limits
-/
namespace Wolf.Dgram
open Wolf.Route (Ip Conf)
open Wolf.IpIn (Net u8 u16 ipAt tot src dst ipBytes)
open Wolf.Csum (ipSet icmpFill put16)

/-- ARP knows 10.0.0.2 and 10.0.1.5. -/
def exTx : Tx where
  mac := fun i a => if i = 0 ∧ a = 0x0A000002#32 then some (exMac 9) else if i = 1 ∧ a = 0x0A000105#32 then some (exMac 8) else none

def exPing : List Nat := [8, 0, 0, 0, 0, 0, 0, 1, 97, 98]

/-- The datagram a ping to `d` from 10.0.0.1 becomes. -/
def exPingIp (d : Ip) : List Nat := icHdr 0x0A000001#32 d 0 30 7 ++ icBody 77 exPing

/-- An ICMP socket pings 10.0.0.2: the echo request leaves on interface 0 with the socket's id. -/
theorem icmp_send_example :
    (icRun (icInit exEnv 1) [.socket, .send 0 (some 0x0A000002#32) exPing 77 0 7 true, .flush exTx]).2 =
      [.reset 0, .accepted 0 (List.replicate 14 0 ++ exPingIp 0x0A000002#32),
       .sent 0 0 (List.replicate 14 0 ++ exPingIp 0x0A000002#32) (exMac 9 ++ exMac 1 ++ [8, 0] ++ exPingIp 0x0A000002#32)] ∧
    (exPingIp 0x0A000002#32).drop 20 = icmpFill [8, 0, 0, 0, 0, 77, 0, 1, 97, 98] 10 := by decide +kernel

/-- **Limit.** Head of line: while the MAC of the first destination is unknown, a datagram to a known one waits behind it. -/
theorem icmp_head_of_line :
    (icRun (icInit exEnv 1) [.socket, .send 0 (some 0x0A000003#32) exPing 77 0 7 true, .send 0 (some 0x0A000002#32) exPing 77 0 7 true, .flush exTx]).2.drop 3 =
      [.arp 0 0x0A000003#32] := by decide +kernel

/-- **Limit.** ICMP to a multicast group asks ARP for the group address, so it is never sent and blocks the socket. -/
theorem icmp_multicast_limit :
    (icRun (icInit exEnv 1) [.socket, .send 0 (some 0xE0000001#32) exPing 77 0 7 true, .flush exTx]).2.drop 2 = [.arp 0 0xE0000001#32] := by decide +kernel

/-- A raw socket of protocol 99 sends four bytes to 10.0.1.5. -/
theorem raw_send_example :
    (rwRun (rwInit exEnv 1) [.socket 99 false, .send 0 (some 0x0A000105#32) [1, 2, 3, 4] false 7 true, .flush exTx]).2 =
      [.reset 0, .accepted 0 (List.replicate 14 0 ++ rwHdr { proto := 99 } 0x0A000101#32 0x0A000105#32 4 7 ++ [1, 2, 3, 4]),
       .sent 0 1 (List.replicate 14 0 ++ rwHdr { proto := 99 } 0x0A000101#32 0x0A000105#32 4 7 ++ [1, 2, 3, 4])
         (exMac 8 ++ exMac 2 ++ [8, 0] ++ rwHdr { proto := 99 } 0x0A000101#32 0x0A000105#32 4 7 ++ [1, 2, 3, 4])] := by decide +kernel

/-- A complete datagram to `d` as a caller with IP_HDRINCL builds it. -/
def exOwn (d : Ip) : List Nat := ipSet ([0x45, 0, 0, 24, 0, 7, 0, 0, 64, 99, 0, 0] ++ ipBytes 0x0A000001#32 ++ ipBytes d) ++ [1, 2, 3, 4]

/-- **Limit.** With IP_HDRINCL and no destination argument, the socket remembers the first datagram's destination, and sends
the caller's next datagram, to 10.0.1.5, to the first one's 10.0.0.2. -/
theorem raw_hdrincl_limit :
    (rwRun (rwInit exEnv 1) [.socket 99 true, .send 0 none (exOwn 0x0A000002#32) false 7 true, .send 0 none (exOwn 0x0A000105#32) false 7 true]).2 =
      [.reset 0, .accepted 0 (List.replicate 14 0 ++ exOwn 0x0A000002#32), .accepted 0 (List.replicate 14 0 ++ exOwn 0x0A000002#32)] := by decide +kernel

/-- **Limit.** A failed send (no room) changes the peer: the next send without an address goes there. -/
theorem raw_failed_send_limit :
    (rwRun (rwInit exEnv 1) [.socket 99 false, .connect 0 0x0A000002#32, .send 0 (some 0x0A000105#32) [1, 2, 3, 4] false 7 false, .send 0 none [1, 2, 3, 4] false 7 true]).2 =
      [.reset 0, .accepted 0 (List.replicate 14 0 ++ rwHdr { proto := 99 } 0x0A000101#32 0x0A000105#32 4 7 ++ [1, 2, 3, 4])] := by decide +kernel

/-- **Limit.** A raw datagram to the subnet's broadcast address 10.0.0.255 is not broadcast: ARP is asked for it and the
socket is blocked. -/
theorem raw_broadcast_limit :
    (rwRun (rwInit exEnv 1) [.socket 99 false, .send 0 (some 0x0A0000FF#32) [1, 2, 3, 4] false 7 true, .flush exTx]).2.drop 2 = [.arp 0 0x0A0000FF#32] := by decide +kernel

/-- **Limit.** A raw datagram the driver refuses is lost, while an ICMP or UDP one stays queued. -/
theorem raw_refused_limit :
    (rwRun (rwInit exEnv 1) [.socket 99 false, .send 0 (some 0x0A000002#32) [1, 2, 3, 4] false 7 true, .flush { exTx with link := fun _ _ => false }]).2.drop 2 =
      [.lost 0 (List.replicate 14 0 ++ rwHdr { proto := 99 } 0x0A000001#32 0x0A000002#32 4 7 ++ [1, 2, 3, 4])] ∧
    (icRun (icInit exEnv 1) [.socket, .send 0 (some 0x0A000002#32) exPing 77 0 7 true, .flush { exTx with link := fun _ _ => false }]).2.drop 2 = [] := by decide +kernel

/-- A packet socket sends a frame to interface 1: the source MAC is filled in. -/
def exLl (i : Nat) : Ll := ⟨i, 6, exMac 8, 0x1234⟩
theorem packet_send_example :
    (pkRun (pkInit exDevs 1) [.socket 0, .send 0 (some (exLl 1)) (List.replicate 14 0 ++ [1, 2, 3]) true, .flush {}]).2 =
      [.reset 0, .accepted 0 (exMac 8 ++ exMac 2 ++ [0x12, 0x34, 1, 2, 3]), .sent 0 1 (exMac 8 ++ exMac 2 ++ [0x12, 0x34, 1, 2, 3]) (exMac 8 ++ exMac 2 ++ [0x12, 0x34, 1, 2, 3])] := by
  decide +kernel

/-- **Limit.** Two frames sent through one packet socket to interfaces 1 and 0 before the flush both leave on interface 0. -/
theorem packet_interface_limit :
    (pkRun (pkInit exDevs 1) [.socket 0, .send 0 (some (exLl 1)) (List.replicate 14 0) true, .send 0 (some (exLl 0)) (List.replicate 14 0) true, .flush {}]).2.drop 3 =
      [.sent 0 0 (exMac 8 ++ exMac 2 ++ [0x12, 0x34]) (exMac 8 ++ exMac 2 ++ [0x12, 0x34]), .sent 0 0 (exMac 8 ++ exMac 1 ++ [0x12, 0x34]) (exMac 8 ++ exMac 1 ++ [0x12, 0x34])] := by
  decide +kernel

/-- The hypotheses of `datagram_drain` are met by a table with one UDP-like socket and a datagram to 10.0.0.2. -/
theorem datagram_drain_example :
    (flushTab (α := List Nat) (dgDec exEnv exTx true (fun _ : Unit => 0) (fun _ => none)) [⟨true, (), [], [List.replicate 14 0 ++ exPingIp 0x0A000002#32]⟩]).2 =
      [.sent 0 0 (List.replicate 14 0 ++ exPingIp 0x0A000002#32) (exMac 9 ++ exMac 1 ++ [8, 0] ++ exPingIp 0x0A000002#32)] ∧
    (∀ n, exTx.veto 0 n = false) ∧ (∀ n, exTx.link 0 n = true) := ⟨by decide +kernel, fun _ => rfl, fun _ => rfl⟩

end Wolf.Dgram
