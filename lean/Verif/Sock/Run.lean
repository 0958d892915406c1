import Verif.Sock.Model
/-! # Histories of the socket table, and a concrete one-interface network for the examples -/
namespace Wolf.Sock
open Wolf.Route (Ip)

/-- A history: the operations one after the other; final state and all events in order. -/
def run (s : St) : List Op → St × List Ev
  | [] => (s, [])
  | op :: ops => ((run (step s op).1 ops).1, (step s op).2.2 ++ (run (step s op).1 ops).2)

/-- 10.0.0.2/24, gateway 10.0.0.1. -/
def net1 : Route.St := ⟨[⟨0x0A000002#32, 0xFFFFFF00#32, 0x0A000001#32⟩], [], 0, false⟩

/-- Host and peer. -/
notation "hostA" => (0x0A000002#32 : Ip)
notation "peerA" => (0x0A000007#32 : Ip)

/-- Quiet oracle with a receive space of 1000 bytes and random number 5000. -/
def orc1 : Nat → Orc := fun _ => { space := 1000, rnd := 5000 }

/-- A client at peer:40000 opens a connection to host:80 (ISN 100). -/
def synSeg : Seg := { sport := 40000, dport := 80, src := peerA, dst := hostA, seq := 100, ack := 0, syn := true }
/-- It completes the handshake. -/
def ackSeg : Seg := { sport := 40000, dport := 80, src := peerA, dst := hostA, seq := 101, ack := 5001, ackF := true }
/-- It resets the connection. -/
def rstSeg : Seg := { sport := 40000, dport := 80, src := peerA, dst := hostA, seq := 101, ack := 0, rst := true }

/-- socket, bind 10.0.0.2:80, listen, callback 7. -/
def serve : List Op := [.socket, .bind 0 hostA 80 true false, .listen 0 false, .register 0 (some 7)]

/-- The listener is there and the handshake runs: the example states of the theorems are reached. -/
theorem serve_reached :
    ((run (init 2 net1) serve).1.socks.map (fun t => (t.used, t.st, t.isL, t.sport))) = [(true, .listen, true, 80), (false, .closed, false, 0)] ∧
    ((run (init 2 net1) (serve ++ [.segment synSeg orc1])).1.socks.map (fun t => (t.used, t.st, t.seq, t.ack, t.dport))) =
      [(true, .synRcvd, 5000, 101, 40000), (false, .closed, 0, 0, 0)] ∧
    ((run (init 2 net1) (serve ++ [.segment synSeg orc1, .accept 0 false true 9, .segment ackSeg orc1])).1.socks.map (fun t => (t.used, t.st, t.sport, t.dport))) =
      [(true, .listen, 80, 40000), (true, .est, 80, 40000)] := by
  refine ⟨?_, ?_, ?_⟩ <;> decide +kernel

/-- **Finding (C15, C18).** The client completes the handshake before `accept()` is called, then resets: the RST
closes the listening socket itself. -/
theorem listener_lost_to_rst :
    ((run (init 2 net1) (serve ++ [.segment synSeg orc1, .segment ackSeg orc1])).1.socks.map (fun t => (t.used, t.st, t.isL))) =
      [(true, .est, true), (false, .closed, false)] ∧
    ((run (init 2 net1) (serve ++ [.segment synSeg orc1, .segment ackSeg orc1, .segment rstSeg orc1, .cbBegin 0])).1.socks.map (fun t => (t.used, t.st, t.isL, t.sport))) =
      [(false, .closed, false, 0), (false, .closed, false, 0)] := by
  refine ⟨?_, ?_⟩ <;> decide +kernel

/-- **Finding (C15).** A RST with sequence number 0 to the port of a socket that is merely bound frees that socket,
so a later `listen` on the descriptor does not serve the port. -/
theorem bound_socket_lost_to_rst :
    ((run (init 1 net1) [.socket, .bind 0 hostA 80 true false]).1.socks.map (fun t => (t.used, t.st, t.sport))) = [(true, .closed, 80)] ∧
    ((run (init 1 net1) [.socket, .bind 0 hostA 80 true false, .segment { rstSeg with seq := 0 } orc1]).1.socks.map (fun t => (t.used, t.st, t.sport))) = [(false, .closed, 0)] := by
  refine ⟨?_, ?_⟩ <;> decide +kernel

/-- **Finding (C18).** A FIN before `accept()`: the listening socket goes to CLOSE_WAIT; the pre-accept timer only
disarms itself, and `accept()` then fails for good: the socket never listens again. -/
theorem listener_lost_to_fin :
    ((run (init 2 net1) (serve ++ [.segment synSeg orc1, .segment ackSeg orc1, .segment { ackSeg with fin := true } orc1])).1.socks.map (fun t => (t.used, t.st, t.isL))) =
      [(true, .closeWait, true), (false, .closed, false)] ∧
    ((run (init 2 net1) (serve ++ [.segment synSeg orc1, .segment ackSeg orc1, .segment { ackSeg with fin := true } orc1, .rto 0 {}, .rto 0 {}, .accept 0 false true 1])).1.socks.map (fun t => (t.used, t.st, t.isL))) =
      [(true, .closeWait, true), (false, .closed, false)] := by
  refine ⟨?_, ?_⟩ <;> decide +kernel

/-- **Finding (C18).** An ICMP port unreachable that quotes the SYN-ACK closes the listening socket. -/
theorem listener_lost_to_icmp :
    ((run (init 2 net1) (serve ++ [.segment synSeg orc1, .icmp ⟨true, 3, 0, hostA, peerA, 80, 40000, 5000⟩, .cbBegin 0])).1.socks.map (fun t => (t.used, t.st, t.isL, t.sport))) =
      [(false, .closed, false, 0), (false, .closed, false, 0)] := by
  decide +kernel

/-- **Finding (C17).** A listener answers an ACK sent to a broadcast address with a RST from that address. -/
theorem rst_to_broadcast :
    Route.isBroadcast net1 0x0A0000FF#32 = true ∧
    (step (run (init 1 net1) (serve)).1 (.segment { ackSeg with dst := 0x0A0000FF#32 } orc1)).2.2 =
      [.rst ⟨80, 40000, 0x0A0000FF#32, peerA, 5001, 0, false⟩] := by
  refine ⟨?_, ?_⟩ <;> decide +kernel

/-- **Finding (C19, C60).** Inside the callback for its close event the application closes the socket and opens a
new one, which gets the same slot; when the callback returns, the new socket is destroyed. -/
theorem reopened_socket_lost :
    ((run (init 1 net1) (serve ++ [.segment synSeg orc1, .cbBegin 0, .close 0 true, .socket])).1.socks.map (fun t => (t.used, t.st))) = [(true, .closed)] ∧
    ((run (init 1 net1) (serve ++ [.segment synSeg orc1, .cbBegin 0, .close 0 true, .socket, .cbEnd])).1.socks.map (fun t => (t.used, t.st))) = [(false, .closed)] := by
  refine ⟨?_, ?_⟩ <;> decide +kernel

/-- Two interfaces: 10.0.0.2/24 and 192.168.1.2/24. -/
def net2 : Route.St := ⟨[⟨0x0A000002#32, 0xFFFFFF00#32, 0⟩, ⟨0xC0A80102#32, 0xFFFFFF00#32, 0⟩], [], 0, false⟩

/-- **Finding (C20).** Bound to 0.0.0.0:80 and to 192.168.1.2:80 at the same time: the wildcard bind is recorded
with the primary interface's address. -/
theorem wildcard_overlap :
    (step (run (init 2 net2) [.socket, .socket, .bind 0 0 80 true false]).1 (.bind 1 0xC0A80102#32 80 true false)).2.1 = .ok ∧
    ((run (init 2 net2) [.socket, .socket, .bind 0 0 80 true false, .bind 1 0xC0A80102#32 80 true false]).1.socks.map (fun t => (t.sport, t.blip))) =
      [(80, 0), (80, 0xC0A80102#32)] := by
  refine ⟨?_, ?_⟩ <;> decide +kernel

/-- **Finding (C21).** A connect the filter vetoes leaves the remote address and both ports changed; so does one
that fails because the transmit queue is full (its code is "try again", and the state is still CLOSED). -/
theorem connect_veto_dirty :
    (step (run (init 1 net1) [.socket]).1 (.connect 0 peerA 80 true true true 50000 1)).2.1 = .err ∧
    ((run (init 1 net1) [.socket, .connect 0 peerA 80 true true true 50000 1]).1.socks.map (fun t => (t.st, t.rip, t.dport, t.sport))) = [(.closed, peerA, 80, 50000)] ∧
    ((run (init 1 net1) [.socket, .connect 0 peerA 80 true false false 50000 1]).1.socks.map (fun t => (t.st, t.rip, t.dport, t.sport))) = [(.closed, peerA, 80, 50000)] := by
  refine ⟨?_, ?_, ?_⟩ <;> decide +kernel

end Wolf.Sock
