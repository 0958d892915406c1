{"id": "C01", "title": "Datagram buffers are exact FIFOs", "statement": "For every socket transmit/receive packet buffer, whatever sequence of enqueues and dequeues the application and the network cause, the packets taken out are exactly the packets whose enqueue returned success, in the same order, each with its original length and bytes; a refused enqueue changes nothing.", "quantifier": "every buffer size (multiple of 4), every interleaving of enqueue/dequeue, every packet length up to the maximum frame and every content", "why_tests_cant": "wrap-around, padding and head==tail ambiguity only show for particular combinations of offsets; the offset space times the history space cannot be enumerated by tests", "anchors": ["src/wolfip.c: fifo_init, fifo_push, fifo_peek, fifo_pop, fifo_space, fifo_align_head_pos, fifo_align_tail"]}
{"id": "C02", "title": "Buffer admission check agrees with the enqueue", "statement": "The 'can this many payload bytes be queued now' answer used for write-readiness is true exactly when the enqueue of that many bytes would succeed, and the reported maximum payload is exactly the largest payload that can be queued.", "quantifier": "every reachable buffer state and every payload length", "why_tests_cant": "the two code paths recompute free space independently; agreement must hold in every reachable wrap state", "anchors": ["src/wolfip.c: fifo_can_push_len, fifo_max_push_payload, fifo_push, tx_has_writable_space"]}
{"id": "C03", "title": "TCP delivers the sender's byte stream", "statement": "On one connection, the concatenation of all bytes returned by recv() is at every moment a prefix of the byte stream the peer sent, with no byte lost, duplicated, reordered or altered, however segments are reordered, duplicated, overlapped, re-split or dropped by the network.", "quantifier": "every peer stream, every initial sequence number (including wrap), every sequence of segment arrivals consistent with that stream within the receive window, interleaved with any recv() calls", "why_tests_cant": "arrival orders, overlaps and sequence wrap positions are unbounded", "anchors": ["src/wolfip.c: tcp_recv, tcp_store_ooo_segment, tcp_consume_ooo, queue_insert, queue_pop, wolfIP_sock_recvfrom"]}
{"id": "C04", "title": "Cumulative ACK never acknowledges data the stack does not hold", "statement": "The acknowledgment number emitted always equals the first in-sequence byte not yet accepted: every byte below it has been placed in the receive queue (and stays readable), and it never moves backwards.", "quantifier": "every arrival sequence, every receive-buffer size and every application read pattern", "why_tests_cant": "acknowledging one byte too many is silent data loss that needs a specific loss pattern to be visible", "anchors": ["src/wolfip.c: tcp_recv, tcp_consume_ooo, queue_insert, tcp_send_ack"]}
{"id": "C05", "title": "SACK blocks only report held data", "statement": "Every SACK block the receiver advertises covers only bytes it really holds out of order; there are at most four blocks, each with left edge before right edge, and merging blocks preserves exactly the set of bytes covered.", "quantifier": "every set of out-of-order segments held, in any arrival order, at any sequence position including wrap", "why_tests_cant": "a SACK lie makes the peer discard data; depends on merge order and wrap", "anchors": ["src/wolfip.c: tcp_rebuild_rx_sack, tcp_sort_sack_blocks, tcp_merge_sack_blocks, tcp_store_ooo_segment"]}
{"id": "C06", "title": "TCP receive ring is a bounded byte queue", "statement": "Bytes accepted into a TCP receive buffer are read back once each, in order, in whatever chunk sizes the reader uses; at most size-1 bytes are held and a write that does not fit is refused without changing the buffer.", "quantifier": "every buffer size, every interleaving of inserts and reads of any length", "why_tests_cant": "index wrap with arbitrary chunk sizes", "anchors": ["src/wolfip.c: queue_init, queue_space, queue_len, queue_insert, queue_pop"]}
{"id": "C07", "title": "Sequence number comparison is a sound circular order", "statement": "For any two sequence numbers less than 2^31 apart the comparisons order them as stream positions, regardless of 32-bit wrap; exactly one of a<b, a=b, b<a holds.", "quantifier": "all pairs of 32-bit sequence numbers", "why_tests_cant": "2^64 pairs; the errors sit at wrap and half-range boundaries", "anchors": ["src/wolfip.c: tcp_seq_diff, tcp_seq_leq, tcp_seq_lt, tcp_seq_inc"]}
{"id": "C08", "title": "TCP option parsing is bounded, terminating and inverse to emission", "statement": "Parsing the options of any received segment terminates, never reads outside the segment's header, never reports a window scale above 14 or more than 4 SACK blocks, and parsing the options the stack itself emits returns the values it put in.", "quantifier": "every byte string in the option area, every header length, every emitted option set", "why_tests_cant": "malformed option lengths are unbounded; a bad length byte is an out-of-bounds read or an infinite loop", "anchors": ["src/wolfip.c: tcp_parse_options, tcp_build_ack_options, tcp_build_syn_options, tcp_data_offset_bytes"]}
{"id": "C09", "title": "Timestamp echo follows the newest in-order timestamp", "statement": "When a segment carrying a newer timestamp value advances the connection, the stack remembers that newest value (for echo and for the PAWS check), and a segment older than the remembered value is rejected by PAWS.", "quantifier": "every pair of 32-bit timestamp values and every history of segments", "why_tests_cant": "depends on the numeric relation of arbitrary 32-bit values", "anchors": ["src/wolfip.c: tcp_process_ts, tcp_paws_check"]}
{"id": "C10", "title": "Retransmission and probe timers stay within their bounds", "statement": "Whatever RTT samples arrive and however many consecutive losses occur, the retransmission timeout lies in [1 s, 60 s], its backed-off value never exceeds the stated cap and never decreases with more losses, and zero-window probes are spaced between 1 s and 60 s.", "quantifier": "every sequence of RTT samples and every backoff count", "why_tests_cant": "integer overflow in the estimator or in the shift only appears for particular sample histories", "anchors": ["src/wolfip.c: tcp_rto_update_from_sample, tcp_rto_clamp, tcp_backoff_rto_ms, tcp_persist_interval_ms"]}
{"id": "C11", "title": "Timers fire once, in deadline order, never early, and cancel exactly", "statement": "Every armed timer fires exactly once at the first poll at or after its deadline, in nondecreasing deadline order, unless cancelled; cancelling removes that timer and no other; arming fails only when every slot holds a live timer.", "quantifier": "every sequence of arm, cancel and poll operations with any deadlines", "why_tests_cant": "heap-order corruption depends on the shape of the heap reached by an arbitrary history", "anchors": ["src/wolfip.c: timers_binheap_insert, timers_binheap_pop, timer_binheap_cancel, is_timer_expired, handle_timers"]}
{"id": "C12", "title": "Unacknowledged data is never discarded by an ACK", "statement": "Data accepted by send() stays in the retransmission buffer until an acknowledgment that covers it and that acknowledges only data actually sent has been received.", "quantifier": "every ACK number (including ones beyond what was sent), every set of queued segments", "why_tests_cant": "forged or stray ACK values range over 2^32", "anchors": ["src/wolfip.c: tcp_ack, tcp_process_sack, fifo_pop"]}
{"id": "C13", "title": "Sender window variables stay consistent", "statement": "The oldest-unacknowledged mark only moves forward and never beyond the highest sequence sent; the congestion window starts between two and ten segments and never falls below one segment; a timeout sets it to exactly one segment, the third duplicate ACK to threshold plus three segments; the slow-start threshold is at least two segments after any loss event.", "quantifier": "every history of ACKs, duplicate ACKs, timeouts and window updates", "why_tests_cant": "congestion state is a function of the whole history", "anchors": ["src/wolfip.c: tcp_ack, tcp_rto_cb, tcp_initial_cwnd, tcp_initial_ssthresh"]}
{"id": "C14", "title": "Unacknowledged data keeps being retransmitted", "statement": "As long as a connection in a data-transfer state has sent data unacknowledged, a retransmission timer is armed, and when it fires the oldest unacknowledged segment is queued for retransmission or the connection is closed.", "quantifier": "every connection state in which data may be outstanding, every history of losses", "why_tests_cant": "requires the combination of a rarely visited state with a lost segment", "anchors": ["src/wolfip.c: tcp_rto_cb, tcp_resync_inflight, flush_tcp_tx"]}
{"id": "C15", "title": "Only an exact in-window RST resets a connection", "statement": "A RST tears an established connection down only if its sequence number is exactly the next expected byte; any other RST leaves the connection open (an in-window one elicits a challenge ACK), and a listener is never closed by a RST.", "quantifier": "every RST sequence number, ack number, window and connection state", "why_tests_cant": "blind reset attacks choose values from 2^32", "anchors": ["src/wolfip.c: tcp_input"]}
{"id": "C16", "title": "TCP states follow the connection state diagram", "statement": "Whatever segments arrive, whatever API calls are made and whichever timers fire, a socket's TCP state changes only along the allowed edges, data is delivered to the application only after the handshake acknowledged our SYN, and a socket reaches ESTABLISHED only through SYN_SENT or SYN_RCVD with a valid acknowledgment.", "quantifier": "every interleaving of segments with any flags/seq/ack, API calls and timer expirations", "why_tests_cant": "the product of states, flags and histories is unbounded", "anchors": ["src/wolfip.c: tcp_input, wolfIP_sock_connect, wolfIP_sock_listen, wolfIP_sock_accept, wolfIP_sock_close, tcp_ctrl_rto_cb"]}
{"id": "C17", "title": "No RST storms", "statement": "The stack never answers a RST with a RST, and never sends a RST in answer to a segment whose destination is a broadcast or multicast address.", "quantifier": "every incoming segment and every socket table", "why_tests_cant": "a violation needs an unanticipated combination of header values", "anchors": ["src/wolfip.c: tcp_send_reset_reply, tcp_input"]}
{"id": "C18", "title": "A listener outlives failed handshakes", "statement": "If a half-open connection on a listening socket fails (reset, retransmission limit, or pre-accept timeout), the socket returns to LISTEN with its bound address and port and can serve the next client; accept() also leaves it listening.", "quantifier": "every history of handshakes, resets and timeouts", "why_tests_cant": "a leak of the listener only shows after a particular failing sequence", "anchors": ["src/wolfip.c: tcp_listener_revert_to_listen, tcp_ctrl_rto_cb, wolfIP_sock_accept"]}
{"id": "C19", "title": "The close event is delivered exactly once", "statement": "For every involuntary teardown of a TCP socket with a registered callback, CB_EVENT_CLOSED is delivered exactly once, after which the slot is free; the slot is not handed out by socket() while the notification is pending.", "quantifier": "every interleaving of teardowns, polls, close() and socket() calls", "why_tests_cant": "double or missing notification depends on ordering between RX path and poll", "anchors": ["src/wolfip.c: close_socket, handle_socket_callbacks, wolfIP_sock_socket"]}
{"id": "C20", "title": "Bound endpoints never collide", "statement": "After any sequence of bind() calls that returned success, no two sockets of the same protocol own the same local port with equal or overlapping (wildcard) local addresses.", "quantifier": "every sequence of bind/close calls with any addresses and ports", "why_tests_cant": "quadratic interaction over unbounded call histories", "anchors": ["src/wolfip.c: wolfIP_sock_bind, bind_port_in_use"]}
{"id": "C21", "title": "A failed call leaves the socket as it was", "statement": "When bind() or connect() or listen() returns an error because an argument is invalid, the port is in use or a filter vetoes it, the socket's local/remote address, port and state are what they were before the call.", "quantifier": "every argument combination, every prior state and every filter verdict", "why_tests_cant": "partial updates appear only on particular failing paths", "anchors": ["src/wolfip.c: wolfIP_sock_bind, wolfIP_sock_connect, wolfIP_sock_listen"]}
{"id": "C22", "title": "UDP datagrams go only to the right socket and keep their boundaries", "statement": "A received datagram is queued only on a socket bound to its destination port whose local address and, if connected, peer address and port match; one recvfrom() returns exactly one datagram with the sender's address, never a mix of two.", "quantifier": "every datagram, every socket table and every interleaving of arrivals and reads", "why_tests_cant": "the matching predicate ranges over all addresses and ports", "anchors": ["src/wolfip.c: udp_try_recv, wolfIP_sock_recvfrom"]}
{"id": "C23", "title": "Only well-formed IPv4 packets reach the upper layers", "statement": "A packet is handed to TCP/UDP/ICMP only if its version, header length, total length and header checksum are consistent with the bytes received, it is not a fragment, its source is not broadcast/multicast, it has no source-route option, and 127/8 addresses do not come from a non-loopback interface; the length handed on never exceeds the bytes received.", "quantifier": "every byte string received on every interface and every interface configuration", "why_tests_cant": "packet space is unbounded; each check protects a later memory access", "anchors": ["src/wolfip.c: ip_recv, wolfIP_recv_on"]}
{"id": "C24", "title": "Checksums computed by the stack verify", "statement": "For any header and payload, filling in the IP, TCP, UDP or ICMP checksum makes verification succeed, and changing any single 16-bit word of a covered packet afterwards (other than 0x0000<->0xFFFF) makes it fail.", "quantifier": "every header and payload content and length, odd or even", "why_tests_cant": "one's complement carry folding over arbitrary data", "anchors": ["src/wolfip.c: transport_checksum, transport_verify_checksum, icmp_checksum, iphdr_set_checksum, iphdr_verify_checksum, ip_checksum_buf"]}
{"id": "C25", "title": "Forwarding is safe", "statement": "A forwarded packet leaves with a TTL exactly one lower than it arrived with and a valid header checksum, never with TTL 0, never out of the interface it came in on, never if it arrived as a link-layer broadcast, was addressed to us, or has a spoofed local/martian source; packets parked for ARP are also decremented exactly once.", "quantifier": "every packet, every interface/route configuration and every ARP resolution delay", "why_tests_cant": "routing loops and spoofing need specific configurations", "anchors": ["src/wolfip.c: ip_recv, wolfIP_forward_interface, wolfIP_forward_prepare, arp_queue_packet, arp_flush_pending"]}
{"id": "C26", "title": "Route lookup is longest-prefix match", "statement": "Route lookup returns a connected or static route covering the destination whose prefix is at least as long as that of every other covering route, with ties broken by insertion order; one of our own addresses is delivered locally; if nothing covers the destination the first non-loopback interface with a gateway is used with that gateway, else the destination is taken to be on-link; lookup fails only without any interface.", "quantifier": "every destination, every interface configuration and every routing table", "why_tests_cant": "2^32 destinations times arbitrary tables", "anchors": ["src/wolfip.c: wolfIP_route_lookup, wolfIP_route_lookup_internal, wolfIP_route_match_prefix, wolfIP_prefix_mask"]}
{"id": "C27", "title": "The route table API is a finite map", "statement": "After any sequence of route_add/route_delete calls the table contains exactly one entry per (interface, masked prefix, length) added and not deleted, with the latest gateway; route_count and route_get enumerate exactly those; a failing call changes nothing.", "quantifier": "every sequence of add/delete calls", "why_tests_cant": "histories are unbounded", "anchors": ["src/wolfip.c: wolfIP_route_add, wolfIP_route_delete, wolfIP_route_get, wolfIP_route_count"]}
{"id": "C28", "title": "ARP cache only learns from answers to our own requests", "statement": "Every address mapping the stack uses was supplied by an ARP reply on that interface for an address the stack had itself requested within the pending lifetime; unsolicited replies and requests never change a mapping, and an entry that was neither used nor had its owner's address appear in ARP traffic for longer than the ageing time is not used. (For the unspecified address 0.0.0.0 this fails: an empty slot matches it.)", "quantifier": "every history of ARP packets, lookups and clock values", "why_tests_cant": "cache poisoning depends on attacker-chosen histories", "anchors": ["src/wolfip.c: arp_recv, arp_store_neighbor, arp_neighbor_index, arp_pending_match_and_clear, arp_pending_record, arp_lookup"]}
{"id": "C29", "title": "ARP requests are rate limited", "statement": "Between two ARP address-resolution requests (not DHCP's at most three conflict-detection probes) sent on one interface at least one second of stack time passes (unless the tick source restarted), and every request sent is recorded as pending.", "quantifier": "every history of send attempts and tick values", "why_tests_cant": "depends on arbitrary timing histories", "anchors": ["src/wolfip.c: arp_request, arp_pending_record, wolfIP_poll"]}
{"id": "C30", "title": "DHCP option parsing is bounded and terminating", "statement": "For any DHCP message bytes, iterating the options terminates, reads only bytes inside the received options/sname/file regions, and yields exactly the options of the concatenated regions selected by the overload option.", "quantifier": "every message content and length", "why_tests_cant": "malformed lengths and overload combinations are unbounded", "anchors": ["src/wolfip.c: dhcp_opt_stream_init, dhcp_opt_stream_next, dhcp_opt_stream_next_region"]}
{"id": "C31", "title": "DHCP configures the interface only from a valid ACK", "statement": "The interface address, mask and gateway change through DHCP only by a well-formed DHCPACK that carries our transaction id, the chosen server's identifier, a nonzero lease time and a sane unicast address (all committed together), or by being cleared; a rejected message changes no configuration.", "quantifier": "every received message in every client state", "why_tests_cant": "the malformed-message space is unbounded", "anchors": ["src/wolfip.c: dhcp_poll, dhcp_parse_ack, dhcp_parse_offer, dhcp_lease_ip_sane, dhcp_deconfigure_lease"]}
{"id": "C32", "title": "DHCP lease timers are ordered and the lease is given up on time", "statement": "For any lease/T1/T2 values a server sends, renewal time <= rebinding time <= expiry (T1 at least 1 s; strictly ordered for leases of at least 3 s), retries never land after the deadline they serve, and once the lease has expired the address is removed at the next DHCP timer event.", "quantifier": "every 32-bit lease, T1 and T2 value and every clock value", "why_tests_cant": "ordering fails only for odd small or inconsistent values", "anchors": ["src/wolfip.c: dhcp_schedule_lease_timer, dhcp_renew_rebind_delay_ms, dhcp_timer_cb"]}
{"id": "C33", "title": "DHCP acquisition always terminates or keeps a timer", "statement": "While DHCP is acquiring or holding a lease, a timer is armed after every event, the number of DISCOVER and REQUEST retransmissions is bounded, and retry delays stay within the backoff cap.", "quantifier": "every history of timer expirations, send failures and received messages", "why_tests_cant": "a missing re-arm only shows on a particular failing path", "anchors": ["src/wolfip.c: dhcp_timer_cb, dhcp_send_request, dhcp_send_discover, dhcp_backoff_delay, dhcp_discover_retry_delay"]}
{"id": "C34", "title": "DNS name parsing is bounded and terminating", "statement": "For any DNS response, skipping and copying names terminates (no compression loop), never reads outside the response and never writes outside the output buffer; the copied name is NUL-terminated.", "quantifier": "every response content and every offset", "why_tests_cant": "compression pointer graphs are unbounded", "anchors": ["src/wolfip.c: dns_skip_name, dns_copy_name"]}
{"id": "C35", "title": "A DNS lookup calls back at most once and always frees the resolver", "statement": "A lookup's callback is invoked at most once, only with data from a response that carries its transaction id and repeats its question; while a query is outstanding new lookups are refused without disturbing it; after an answer, an error or the retry limit the resolver accepts new lookups.", "quantifier": "every history of lookups, responses and timeouts", "why_tests_cant": "depends on interleavings of forged or late responses", "anchors": ["src/wolfip.c: nslookup, wolfIP_dns_ptr_lookup, dns_send_query, dns_callback, dns_timeout_cb, dns_abort_query"]}
{"id": "C36", "title": "DNS query encoding is faithful", "statement": "A name accepted by nslookup is encoded so that decoding the query's name yields the same labels, each of 1..63 bytes and at most 255 bytes in total; any other name is refused; reverse lookups ask for the reversed dotted quad under in-addr.arpa.", "quantifier": "every name string and every IPv4 address", "why_tests_cant": "label splitting over arbitrary strings", "anchors": ["src/wolfip.c: dns_send_query, dns_format_ptr_name, dns_write_u8"]}
{"id": "C37", "title": "Dotted-quad text conversion round-trips", "statement": "Formatting any IPv4 address as text and parsing it back returns the same address.", "quantifier": "all 2^32 addresses", "why_tests_cant": "exhaustive testing is impractical and says nothing about the algorithm", "anchors": ["wolfip.h: atoip4, iptoa, atou"]}
{"id": "C38", "title": "Packet filters see what they ask for and can veto it", "statement": "If a filter callback is installed and a reason is enabled (explicitly, by the per-layer mask, or because no mask was ever set) the callback is consulted and its nonzero verdict blocks the packet or socket event; a disabled reason is never blocked; the filter is not re-entered.", "quantifier": "every mask configuration history and every verdict", "why_tests_cant": "mask fallback rules combine over histories", "anchors": ["src/wolfip.c: wolfIP_filter_dispatch, wolfIP_filter_mask_for_proto, wolfIP_filter_set_callback, wolfIP_filter_set_mask"]}
{"id": "C39", "title": "No frame larger than the link MTU is sent", "statement": "Whatever the configured MTU, any frame handed to a driver is at most that interface's MTU, the configured MTU is kept within [minimum, maximum], and a TCP segment built for a route fits.", "quantifier": "every MTU setting, interface kind and payload length", "why_tests_cant": "arithmetic over header sizes and several clamps", "anchors": ["src/wolfip.c: wolfIP_mtu_set, wolfIP_mtu_get, wolfIP_ll_frame_mtu, wolfIP_ip_mtu, wolfIP_socket_tcp_mss, wolfIP_ll_send_frame"]}
{"id": "C40", "title": "VLAN sub-interfaces are consistent and tagging round-trips", "statement": "After any sequence of vlan_create/vlan_delete calls each (parent, vid) names at most one sub-interface and vlan_get returns what was created; a frame sent on a sub-interface carries exactly its tag and, received on the same parent, is delivered untagged to that sub-interface only.", "quantifier": "every call history and every frame", "why_tests_cant": "slot reuse over unbounded histories", "anchors": ["src/wolfip.c: wolfIP_vlan_create, wolfIP_vlan_delete, wolfIP_vlan_get, wolfIP_ll_send_frame, wolfIP_recv_on"]}
{"id": "C41", "title": "The loopback interface is an exact FIFO", "statement": "IP packets of 1 to 1500 bytes sent to the loopback interface are received back once each, in order, unchanged; such a send is refused only when the queue is full, and packets of any other length change nothing.", "quantifier": "every interleaving of sends and polls", "why_tests_cant": "ring index wrap over unbounded histories", "anchors": ["src/wolfip.c: wolfIP_loopback_send, wolfIP_loopback_poll"]}
{"id": "C42", "title": "Multicast membership reflects the sockets joined", "statement": "An interface is a member of a group exactly while at least one socket has joined and not left it; a report is sent on the first join and a leave on the last; failed joins change nothing.", "quantifier": "every sequence of join, leave and close calls", "why_tests_cant": "reference counting over unbounded histories", "anchors": ["src/wolfip.c: mcast_join, mcast_drop, udp_mcast_join, udp_mcast_leave, mcast_is_joined"]}
{"id": "C43", "title": "IGMP query responses are scheduled within the advertised time", "statement": "The response delay chosen for a group is between 1 ms and the query's maximum response time, at most one response is pending per group, and a later query never postpones a pending one.", "quantifier": "every query, every random value and every pending state", "why_tests_cant": "the encoded time ranges and the pending state combine", "anchors": ["src/wolfip.c: igmp_input, igmp_max_resp_ms"]}
{"id": "C44", "title": "ICMP errors cannot be abused", "statement": "The stack never sends an ICMP error about an ICMP error, a fragment or a broadcast/multicast packet; an incoming 'fragmentation needed' can only lower a connection's segment size and never below 536; other ICMP errors close only half-open connections whose sent sequence number they quote.", "quantifier": "every ICMP packet and every connection state", "why_tests_cant": "forged packets range over the whole packet space", "anchors": ["src/wolfip.c: icmp_try_deliver_tcp_error, wolfIP_send_ttl_exceeded, wolfIP_send_port_unreachable, icmp_input"]}
{"id": "C45", "title": "WireGuard replay protection", "statement": "A transport message counter is accepted at most once per session; every counter not yet accepted that is above the highest accepted or within the window is accepted, older ones are rejected.", "quantifier": "every sequence of 64-bit counters", "why_tests_cant": "windows over unbounded sequences", "anchors": ["src/wolfguard/wg_packet.c: wg_counter_validate"]}
{"id": "C46", "title": "WireGuard crypto-routing", "statement": "An outgoing packet is encrypted only for the peer owning the longest allowed-IP prefix that contains its destination; a decrypted packet is injected only if its source address maps to the peer whose key authenticated it.", "quantifier": "every allowed-IP table and every address", "why_tests_cant": "2^32 addresses times arbitrary tables", "anchors": ["src/wolfguard/wg_allowedips.c: wg_allowedips_insert, wg_allowedips_lookup, wg_allowedips_remove_by_peer", "src/wolfguard/wolfguard.c: wolfguard_output", "src/wolfguard/wg_packet.c: wg_handle_data"]}
{"id": "C47", "title": "WireGuard nonces are never reused and expired keys never used", "statement": "For each session key the sequence of nonces used for encryption is strictly increasing, and no message is encrypted or accepted with a key older than 180 s or past the message limit.", "quantifier": "every history of sends, keepalives, handshakes and clock values", "why_tests_cant": "nonce reuse is catastrophic and needs a specific history", "anchors": ["src/wolfguard/wg_packet.c: wg_packet_send, wg_packet_send_keepalive, wg_handle_data", "src/wolfguard/wg_noise.c: wg_noise_begin_session"]}
{"id": "C48", "title": "WireGuard session rotation keeps live sessions apart", "statement": "current, previous and next sessions always occupy different key slots; starting a session never overwrites the current session, and a responder sends with a new session only after receiving on it.", "quantifier": "every history of handshakes and data messages", "why_tests_cant": "slot aliasing depends on the rotation history", "anchors": ["src/wolfguard/wg_noise.c: wg_noise_begin_session", "src/wolfguard/wg_packet.c: wg_handle_data"]}
{"id": "C49", "title": "WireGuard staged packets are kept in order", "statement": "Packets sent while no session exists are held (up to 16, later ones dropped) and, when a session is established, sent in order exactly once; if the drain cannot send them they stay staged unchanged.", "quantifier": "every history of sends and handshake completions", "why_tests_cant": "aliasing between drain and re-stage", "anchors": ["src/wolfguard/wg_packet.c: wg_stage_packet, wg_packet_send_staged"]}
{"id": "C50", "title": "WireGuard keepalive pacing", "statement": "With a persistent keepalive interval of n seconds, an idle session emits at most one keepalive per n seconds; without one, timer keepalives to a peer are at least 10 seconds apart.", "quantifier": "every poll schedule", "why_tests_cant": "depends on poll timing histories", "anchors": ["src/wolfguard/wg_timers.c: wg_timer_persistent_keepalive"]}
{"id": "C51", "title": "ESP anti-replay", "statement": "An inbound ESP sequence number is accepted at most once per SA, sequence number 0 and numbers below the window are rejected, unseen numbers inside or above the window are accepted, and a packet failing authentication does not move the window.", "quantifier": "every sequence of 32-bit sequence numbers and authentication outcomes", "why_tests_cant": "windows over unbounded sequences; shift-by-width edge cases", "anchors": ["src/wolfesp.c: esp_replay_check, esp_replay_commit, esp_transport_unwrap"]}
{"id": "C52", "title": "ESP outbound sequence numbers never repeat", "statement": "Under one SA each sent packet carries a sequence number one higher than the previous; when the counter would wrap sending is refused.", "quantifier": "every number of packets sent", "why_tests_cant": "2^32 packets are needed to reach the boundary", "anchors": ["src/wolfesp.c: esp_transport_wrap"]}
{"id": "C53", "title": "TFTP download is exact", "statement": "The data written by the TFTP client is at every moment exactly the concatenation of blocks 1..k sent by the server, and the transfer is reported complete only after the server's short (final) block.", "quantifier": "every sequence of packet arrivals (loss, duplication, reordering), every negotiated block size and window", "why_tests_cant": "arrival orders and option combinations are unbounded", "anchors": ["src/tftp/wolftftp.c: wolftftp_client_receive, wolftftp_client_accept_data, wolftftp_client_start_rrq"]}
{"id": "C54", "title": "TFTP transfers respect the configured size limit", "statement": "With a nonzero maximum image size, the client never passes more than that many bytes to the sink, and a server never accepts or sends more, whatever the peer sends.", "quantifier": "every sequence of packets", "why_tests_cant": "accumulated over unbounded transfers; unsigned arithmetic wrap", "anchors": ["src/tftp/wolftftp.c: wolftftp_client_accept_data, wolftftp_server_accept_wrq_data, wolftftp_server_send_window"]}
{"id": "C55", "title": "TFTP server sends each block until it is acknowledged", "statement": "When serving a file, the server moves past a block only after the client acknowledged it; duplicate acknowledgments and timeouts only resend unacknowledged blocks with the same content.", "quantifier": "every history of acknowledgments, duplicates and timeouts", "why_tests_cant": "needs specific duplicate/loss interleavings", "anchors": ["src/tftp/wolftftp.c: wolftftp_server_receive, wolftftp_server_send_window, wolftftp_server_poll"]}
{"id": "C56", "title": "TFTP file names cannot escape the root", "statement": "A file name passed to the open callback is nonempty, relative, contains no ':' and no '..' path component for either separator.", "quantifier": "every request packet", "why_tests_cant": "path strings are unbounded", "anchors": ["src/tftp/wolftftp.c: wolftftp_filename_is_safe, wolftftp_parse_request"]}
{"id": "C57", "title": "TFTP numbers and retries are bounded", "statement": "Decimal option values are parsed exactly or refused (no wrap), negotiated block/window/timeout stay in range, and an unanswered client gives up after max_retries retransmissions.", "quantifier": "every option string and every poll schedule", "why_tests_cant": "decimal strings are unbounded; overflow guards", "anchors": ["src/tftp/wolftftp.c: wolftftp_parse_u32, wolftftp_utoa_local, wolftftp_parse_oack, wolftftp_client_poll"]}
{"id": "C58", "title": "HTTP URL coding round-trips in place", "statement": "Decoding never grows or overruns the buffer, decoding an encoded string returns the original, and malformed escapes are refused.", "quantifier": "every string and buffer size", "why_tests_cant": "strings are unbounded", "anchors": ["src/http/httpd.c: http_url_decode, http_url_encode"]}
{"id": "C59", "title": "WPA key handshake replay protection", "statement": "Key frames with a replay counter not greater than the last accepted one are not acted upon, and pairwise keys are installed at most once per handshake; the handshake is complete only once both keys were installed.", "quantifier": "every sequence of key frames", "why_tests_cant": "KRACK-type attacks are particular replays of a history", "anchors": ["src/supplicant/supplicant.c: supp_rx_key, supp_handle_m1, supp_handle_m3, supp_handle_group_m1"]}
{"id": "C60", "title": "Descriptors of different socket kinds never alias", "statement": "Every descriptor returned by socket() or accept() names exactly one slot of exactly one kind; using it never touches a socket of another kind or index.", "quantifier": "every descriptor value and every table size allowed by the configuration", "why_tests_cant": "mark bits and masks interact with configured table sizes", "anchors": ["src/wolfip.c: wolfIP_sock_socket, wolfIP_sock_accept, IS_SOCKET_TCP, SOCKET_UNMARK"]}
{"id": "C61", "title": "ESP replay state survives a persisted restart", "statement": "If the application stores the state handed to the ESP write callback and returns it from the read callback when the SA is re-created, exactly the same inbound sequence numbers are acceptable afterwards as before, and outbound numbers continue without repetition.", "quantifier": "every inbound history before the restart and every sequence number after it", "why_tests_cant": "the failing sequence numbers depend on the history before the restart", "anchors": ["src/wolfesp.c: esp_state_save, esp_state_restore, esp_replay_check", "wolfesp.h: wolfIP_esp_state_write_cb"]}
{"id": "C62", "title": "ESP encapsulation round-trips", "statement": "A packet wrapped under an SA and unwrapped by the peer with the same SA yields exactly the original payload and protocol; the ESP packet is at most 57 bytes longer and its ICV is 4-byte aligned; a packet with a dishonest trailer is refused.", "quantifier": "every payload, protocol, algorithm parameters and sequence state", "why_tests_cant": "padding depends on every payload length and cipher block size", "anchors": ["src/wolfesp.c: esp_transport_wrap, esp_transport_unwrap, esp_send"]}
{"id": "C63", "title": "ICMP echo answers exactly the request", "statement": "An echo request addressed to a local unicast address is answered once, to its sender, with the identifier, sequence number and payload it carried and a valid checksum; echo replies, and requests sent to broadcast or multicast addresses, are never answered, so echo cannot loop or amplify.", "quantifier": "every received datagram and every interface configuration", "why_tests_cant": "payload lengths and addresses are unbounded; loops need histories", "anchors": ["src/wolfip.c: icmp_input"]}
{"id": "C64", "title": "WireGuard handshake initiations are paced", "statement": "A peer is sent at most one handshake initiation per 5 seconds.", "quantifier": "every history of polls, packets and received messages", "why_tests_cant": "depends on the interleaving of traffic, timers and handshake outcomes over minutes", "anchors": ["src/wolfguard/wg_timers.c: wg_timer_handshake_retransmit, wg_timer_rekey_after_time, wg_timer_initiate_after_stale", "src/wolfguard/wg_packet.c: wg_packet_send"]}
{"id": "C65", "title": "WireGuard handshake initiations cannot be replayed", "statement": "Of two handshake initiations accepted from the same peer the later carries a strictly newer timestamp, so a captured initiation is accepted at most once; and two are accepted at least 5 seconds apart.", "quantifier": "every history of received messages, packets and polls", "why_tests_cant": "replays arrive at arbitrary points of unbounded histories", "anchors": ["src/wolfguard/wg_noise.c: wg_noise_consume_initiation", "src/wolfguard/wg_packet.c: wg_handle_initiation"]}
{"id": "C66", "title": "EAP-TLS messages survive fragmentation", "statement": "A TLS message of up to 2048 bytes cut into EAP-TLS fragments for any link MTU of at least 6 is reassembled by the receiver exactly, every fragment fits the MTU, and the TLS engine reads its bytes in order and once; whatever fragments arrive, no buffer is overrun and no message grows beyond its announced length.", "quantifier": "every message, MTU, sequence of received fragments and pattern of reads and writes by the TLS engine", "why_tests_cant": "fragment boundaries and interleavings of reads and fragments are unbounded", "anchors": ["src/supplicant/eap_tls.c: eap_tls_rx_append, eap_tls_tx_build_next", "src/supplicant/eap_tls_engine.c: engine_recv, engine_send"]}
{"id": "C67", "title": "WPA key data cannot be used to downgrade or overflow", "statement": "The group key is taken from received key data only if they unwrap under the current session's key, and in message 3 only if they contain the AP's RSN element byte for byte (and no different one), so a downgrade of the negotiated security is refused; no sequence of received frames makes the supplicant access memory outside its buffers, and an installed group key has 1 to 32 bytes.", "quantifier": "every received frame, key data and history of calls", "why_tests_cant": "element layouts and lengths are attacker-chosen", "anchors": ["src/supplicant/supplicant.c: supp_parse_key_data, supp_rx_key, wolfip_supplicant_rx", "src/supplicant/rsn_ie.c"]}
{"id": "C68", "title": "EAPOL and EAP frames are read as the standards define", "statement": "A received EAPOL-Key frame is accepted exactly if it is well formed, its fields are those at the standard's offsets and the key data lie inside the frame; what the supplicant sends parses back to what it meant; an EAP packet is never read beyond its end.", "quantifier": "every byte string", "why_tests_cant": "the set of malformed frames is unbounded", "anchors": ["src/supplicant/eapol.c: eapol_key_parse, eapol_key_build", "src/supplicant/eap.c: eap_parse"]}
{"id": "C69", "title": "PMKSA caching never crosses networks or passphrases", "statement": "After a successful WPA2-PSK init the PMK is that of the configured passphrase and SSID, whatever was cached before; a PMKSA reconnect succeeds only with the PMK of an earlier completed SAE handshake with the same SSID and AP, not cleared since; deinit and clear remove cached keys.", "quantifier": "every history of inits, handshakes, reconnects and clears over several networks", "why_tests_cant": "stale-cache errors need long cross-network histories", "anchors": ["src/supplicant/supplicant.c: wolfip_supplicant_init, supp_pmksa_restore, supp_init_psk, supp_handle_m3, wolfip_supplicant_pmksa_reconnect, wolfip_supplicant_pmksa_clear"]}
{"id": "C70", "title": "A WPA handshake ends within its deadline", "statement": "A started handshake that has not completed is failed by the first tick 10 seconds or more after its start; message 2 is retransmitted by the timer at most three times for each message 1 answered, at least a second apart.", "quantifier": "every history of calls and clock values", "why_tests_cant": "depends on the timing of frames, ticks and send failures", "anchors": ["src/supplicant/supplicant.c: wolfip_supplicant_tick, wolfip_supplicant_kick, supp_handle_m1"]}
{"id": "C71", "title": "TCP receive window is honoured", "statement": "A segment whose sequence numbers all lie outside the receive window has no effect on the connection (no data, FIN, acknowledgment or SACK state); the acceptability test is RFC 9293's on wrapping numbers; and the right edge of the offered window equals the bytes the application has read plus the buffer capacity, so it never moves back and what is offered is free.", "quantifier": "every peer byte stream, initial sequence number, buffer size, and history of segments and reads", "why_tests_cant": "the window edge depends on the whole history of out-of-order arrivals, trims and reads, and on wrap-around", "anchors": ["src/wolfip.c: tcp_adv_win, tcp_segment_acceptable, tcp_recv, queue_space"]}
{"id": "C72", "title": "TCP sends only what the peer and congestion windows allow", "statement": "New data put on the wire never ends beyond the highest acknowledged position plus the smaller of the peer's advertised window and the congestion window.", "quantifier": "every history of sends, acknowledgments with any numbers, windows and SACK blocks, timer expirations, retransmissions and transmission turns", "why_tests_cant": "the in-flight accounting depends on the whole history of retransmissions and partial acknowledgments", "anchors": ["src/wolfip.c: flush_tcp_tx, tcp_resync_inflight, tcp_mark_unsacked_for_retransmit"]}
{"id": "C73", "title": "TCP reacts to duplicate acknowledgments as RFC 5681 says, and only to those", "statement": "Only an acknowledgment that repeats the last one, carries no data, repeats the window and arrives while data is outstanding counts as a duplicate; every other one that acknowledges nothing new changes neither window, threshold, duplicate count nor recovery state and retransmits nothing. The third duplicate makes the next transmission turn resend the segment holding the first unacknowledged byte, whatever the windows and SACK blocks; acknowledgments of new data grow the window by at most one segment each, and by at most about one segment per window in congestion avoidance.", "quantifier": "every sender state, history and acknowledgment", "why_tests_cant": "depends on the order of duplicates, window updates, SACK blocks and retransmissions", "anchors": ["src/wolfip.c: tcp_ack, tcp_mark_unsacked_for_retransmit, flush_tcp_tx, tcp_find_pending_retrans"]}
{"id": "C74", "title": "TCP delivers exactly what was sent, end to end", "statement": "With wolfIP at both ends and any network between them that delays, drops, duplicates and reorders segments, what the receiving application reads is at every moment a prefix of what the sending application's send() accepted; end of stream is seen only after the sender closed and everything it sent has arrived; every transmitted segment carries the bytes send() accepted at the position its number names; nothing is accepted after close.", "quantifier": "every initial sequence number, buffer size, history of calls, losses, duplications, reorderings and timer expirations, with any forged acknowledgments, provided no segment survives in the network for half the sequence space", "why_tests_cant": "covers unbounded streams and all interleavings of two endpoints and a network", "anchors": ["src/wolfip.c: wolfIP_sock_sendto, flush_tcp_tx, tcp_ack, tcp_recv, tcp_input, wolfIP_sock_recvfrom, wolfIP_sock_close"]}
{"id": "C75", "title": "A mutual TCP close completes", "statement": "When both applications have closed and the network delivers, both ends acknowledge each other's FIN and the passive closer reaches CLOSED.", "quantifier": "every sequence number, window and schedule of deliveries", "why_tests_cant": "needs the two state machines and all interleavings of their segments", "anchors": ["src/wolfip.c: tcp_send_finack, wolfIP_sock_close, tcp_input, tcp_ack, tcp_segment_acceptable"]}
{"id": "C76", "title": "A closed TCP connection is kept until its data and FIN are acknowledged", "statement": "After close(), an acknowledgment takes the connection out of FIN_WAIT_1, CLOSING or LAST_ACK only if it covers every byte send() accepted and the FIN; apart from that only a timer ends it, and only after eight retransmissions of the FIN or fifteen timeouts of the data.", "quantifier": "every history of calls, acknowledgments, timers and transmissions", "why_tests_cant": "depends on the sequence numbers reached by the whole history and on wrap-around", "anchors": ["src/wolfip.c: wolfIP_sock_close, tcp_send_finack, tcp_ack, tcp_rto_cb"]}
{"id": "C77", "title": "HTTP: exactly the well-formed requests reach a handler, with their fields as sent", "statement": "Whatever bytes arrive on a connection, parsing them reads and writes only inside the receive buffer and the request structure and terminates; a handler or page is reached exactly when the bytes are one complete GET or POST request whose path (percent-decoded, below 128 bytes, no line break), query (below 256), header lines (below 1024 in all) and body (below 1024, its length announced by the single decimal Content-Length, no Transfer-Encoding) have the stated form; the handler is the first one registered for the path and it gets path, query, headers and body as sent.", "quantifier": "every byte string received, every table of registered URLs and every history of registrations", "why_tests_cant": "the set of byte strings is unbounded; a test can only try some malformed requests", "anchors": ["src/http/httpd.c: parse_http_request, http_header_value, http_find_url, httpd_register_handler, httpd_register_static_page, http_recv_cb"]}
{"id": "C78", "title": "HTTP: request arguments are found exactly", "statement": "httpd_get_request_arg stores exactly the value of the first name=value pair with the given name if it fits the buffer, returns -1 otherwise, and never reads outside the query or body nor writes beyond the buffer.", "quantifier": "every query or body text, argument name and buffer size", "why_tests_cant": "unbounded inputs, with delimiters in every position", "anchors": ["src/http/httpd.c: httpd_get_request_arg"]}
{"id": "C79", "title": "HTTP: connections are kept apart", "statement": "Every response is written to the connection its request came from, however connections are accepted, closed and reused.", "quantifier": "every history of accepted connections, requests, failing sends, ends of stream and freed sockets", "why_tests_cant": "depends on interleavings of the life cycles of several connections and their reused table entries", "anchors": ["src/http/httpd.c: http_accept_cb, http_recv_cb, http_close_client, http_send_response_headers, http_send_response_body"]}
{"id": "C80", "title": "WireGuard cookie exchange under load", "statement": "While a device is under load it passes a handshake message on only if it carries, besides the MAC keyed with the device's public key, a MAC keyed with the cookie of the address it came from under a secret the device drew at most 120 s ago; any other message changes nothing but may be answered, at its source address, with one cookie reply. An initiator takes at most one cookie per message it sent and only from a reply authenticated against it, attaches it for 120 s, and its next message from the same address is then let through while the responder's secret is fresh.", "quantifier": "every message, source address, clock and history of both devices; arbitrary cryptographic primitives", "why_tests_cant": "the outcome depends on both clocks, on secret rotation and on everything received in between", "anchors": ["src/wolfguard/wg_cookie.c: wg_cookie_validate, wg_cookie_create_reply, wg_cookie_consume_reply, wg_cookie_add_macs", "src/wolfguard/wg_packet.c: wg_handle_initiation, wg_handle_response, wg_handle_cookie", "src/wolfguard/wolfguard.c: wolfguard_poll"]}
{"id": "C81", "title": "ICMP, raw and packet sockets receive exactly their traffic", "statement": "A packet socket is given exactly the frames of the interface and EtherType it listens to, whole, and on a VLAN interface without the tag; a raw socket exactly the IPv4 datagrams with a valid header that reach this host and match its protocol, bound address and interface, header included; an ICMP socket exactly the valid ICMP messages for this host that match its address, id and peer and that the stack does not answer itself. Each gets at most one copy of a frame, recvfrom returns entries whole and in order of arrival, each once, and what a bound socket gets keeps matching its binding whatever else is called.", "quantifier": "every frame, interface configuration, filter verdict, socket table and history of calls and receptions", "why_tests_cant": "depends on every byte of the frame, on the whole socket table and on the order of earlier calls", "anchors": ["src/wolfip.c: icmp_try_recv, raw_try_recv, packet_try_recv, wolfIP_recv_on, ip_recv, icmp_input, wolfIP_sock_recvfrom, wolfIP_sock_bind"]}
{"id": "C82", "title": "ICMP, raw, packet and UDP sockets send exactly what was accepted", "statement": "Whatever leaves the transmit buffer of such a socket is the oldest datagram accepted on it, once, and in order. An accepted datagram is well formed: for ICMP and raw sockets a correct IPv4 header with the destination given, the socket's source address and the caller's bytes (ICMP: with correct checksum and the socket's id), for packet sockets the caller's frame with the addresses filled in. It leaves on the interface and to the next hop that routing gives for its destination, behind the right Ethernet header, and a UDP or ICMP datagram is never dropped: it waits only for the filter, the driver or an ARP answer that is asked for.", "quantifier": "every payload, address, route table, interface configuration, ARP cache, filter and driver behaviour, and history of calls", "why_tests_cant": "depends on everything queued before and on the answers of filter, driver and ARP at each attempt", "anchors": ["src/wolfip.c: wolfIP_sock_sendto, ip_output_add_header, eth_output_add_header, flush_datagram_tx, flush_raw_tx, flush_packet_tx, raw_route_for_ip, wolfIP_sock_connect, wolfIP_sock_setsockopt"]}
{"id": "C83", "title": "Opening, binding, connecting and closing ICMP, raw and packet sockets", "statement": "socket() fails only when every socket of the kind is in use and otherwise opens a free one with empty buffers and, for raw and packet sockets, no setting of an earlier owner. bind() accepts exactly the wildcard and the host's own addresses (packet: exactly the existing interfaces), for ICMP only a socket without id and an id no other socket holds on an overlapping address; a refused bind leaves address and id as they were. connect() sets the peer and picks the source address: the bound one if there is one. setsockopt sets the option named. close() frees the socket and clears its settings. None of these calls changes another socket.", "quantifier": "every socket table, address, id, interface set, route table and filter answer", "why_tests_cant": "the answer depends on the state of every other socket of the kind and on the address configuration at the moment of the call", "anchors": ["src/wolfip.c: wolfIP_sock_socket, icmp_new_socket, raw_new_socket, packet_new_socket, wolfIP_sock_bind, bind_port_in_use, wolfIP_sock_connect, wolfIP_sock_setsockopt, wolfIP_sock_close"]}
{"id": "C84", "title": "Incoming data is announced", "statement": "An application that waits for events misses nothing: bytes or datagrams it can read have a READABLE event pending unless one was delivered that it has not yet acted on (TCP: one successful read per event; datagram sockets: read until EAGAIN), and the end of a stream is announced like data. A pending event is delivered at the next poll, once, with exactly the pending bits, if a callback is registered, and kept otherwise. A connection torn down by a reset or timeout gets exactly one last CLOSED event. can_read says yes exactly when a read would not say EAGAIN.", "quantifier": "every interleaving of arrivals, calls, polls and callback runs on a TCP, UDP, ICMP, raw or packet socket", "why_tests_cant": "a lost wake-up needs a particular interleaving of arrival, dispatch and partial read", "anchors": ["src/wolfip.c: dispatch_events, handle_socket_callbacks, wolfIP_sock_recvfrom, tcp_recv, udp_try_recv, icmp_try_recv, raw_try_recv, packet_try_recv, wolfIP_sock_can_read, wolfIP_register_callback, close_socket"]}
{"id": "C85", "title": "Blocked senders are woken", "statement": "When a send was refused with EAGAIN and no WRITABLE event was delivered and no send accepted since, either something is still in transit, whose departure or acknowledgement will announce room, or WRITABLE is pending, or the connection is over.", "quantifier": "every interleaving of sends, flushes, acknowledgements, polls and callback runs", "why_tests_cant": "a lost wake-up needs a particular interleaving of refusal, transmission and dispatch", "anchors": ["src/wolfip.c: tcp_ack, tcp_input, flush_tcp_tx, flush_datagram_tx, flush_raw_tx, flush_packet_tx, tx_has_writable_space, wolfIP_sock_can_write, wolfIP_sock_sendto"]}
{"id": "C86", "title": "Blocking calls of the FreeRTOS port return", "statement": "A task blocked in recv() returns after the next round of the poll task once there is data, the end of the stream or no connection any more, with the data if there is some. A task blocked in connect(), send() or close() is woken when the connection is established, when everything sent was acknowledged, or when the connection is over, and the call returns.", "quantifier": "every interleaving of segments, timeouts, poll rounds and the task's own calls on a connection", "why_tests_cant": "a lost wake-up needs a particular interleaving of the poll task, the caller and the network", "anchors": ["src/port/freeRTOS/bsd_socket.c: wolfip_bsd_socket_cb, wolfip_bsd_prepare_wait_locked, wolfip_bsd_wait_unlocked, connect, send, sendto, recv, recvfrom, close", "src/wolfip.c: close_socket, handle_socket_callbacks, wolfIP_register_callback"]}
{"id": "C87", "title": "A descriptor of the FreeRTOS port stays with its socket", "statement": "socket() and accept() return the lowest descriptor not open and fail only when no socket or no descriptor is left, without losing either; every later call on the descriptor acts on the socket it was returned for and on no other, until close().", "quantifier": "every history of socket(), accept(), close() and other calls by any tasks, and of connections ended by the stack", "why_tests_cant": "the table and the stack's own slots are recycled independently, so only particular orders show a mix-up", "anchors": ["src/port/freeRTOS/bsd_socket.c: wolfip_bsd_fd_valid, wolfip_bsd_fd_alloc, wolfip_bsd_fd_free, socket, accept, close"]}
{"id": "C88", "title": "The two ends of a TCP connection agree on their options", "statement": "After a handshake between two stacks window scaling, timestamps and SACK are on at both ends or at neither, each end reads the window with the scale it was written with (never more than the space there is, and less by under one unit), and knows the other's MSS. With any peer an extension is on only if the peer offered it, and a segment sent is no larger than the peer's MSS and MTU and our own MTU allow.", "quantifier": "every pair of MTUs, receive buffer sizes and clocks; every option area a peer may send; every window and payload size", "why_tests_cant": "the options left out depend on the MTU of each interface, and a disagreement shows only in later traffic", "anchors": ["src/wolfip.c: tcp_new_socket, tcp_send_syn, tcp_input, wolfIP_sock_accept, tcp_adv_win, wolfIP_socket_tcp_mss, tcp_tx_payload_cap, tcp_paws_check"]}
{"id": "C89", "title": "PEAP: no network without proof of the password", "statement": "In PEAP mode the supplicant goes on to the key handshake, acknowledges the inner authentication or reports a successful result only to a server whose certificate the TLS library accepted in this session and which proved, for the challenge the supplicant last sent it in this session, that it knows the user's password; any wrong or missing proof ends the session for good.", "quantifier": "every sequence of EAP packets, every tunnel content, every outcome of the TLS library, the random generator and the integrator's callbacks, every user name and password", "why_tests_cant": "an attacker chooses the order of the messages; a test only replays the orders its author thought of", "anchors": ["src/supplicant/supplicant.c: supp_handle_eap_request, supp_handle_peap_request, peap_phase2_build_inner, peap_phase2_mschapv2, supp_handle_eap_success, supp_rx_eap"]}
{"id": "C90", "title": "MSCHAPv2 messages and computations are those of the RFCs", "statement": "A challenge is accepted exactly when it is well formed, and its fields are returned; the response built is read back by a server as the same identifier, challenge, NT response and name; the authenticator response is the first S= field with 42 bytes; it is accepted exactly when it is the value RFC 2759 defines for the password, NT response, challenges and name; the NT response and the exported keys are those of RFC 2759 and RFC 3079; no byte outside a message is read.", "quantifier": "every byte string received, every user name, password and challenge, every hash function and block cipher", "why_tests_cant": "the inputs are unbounded and attacker-chosen; test vectors cover a few", "anchors": ["src/supplicant/eap_peap.c: eap_peap_parse_mschapv2_challenge, eap_peap_build_mschapv2_response, eap_peap_extract_authresp", "src/supplicant/mschapv2.c: mschapv2_generate_nt_response, mschapv2_verify_authenticator_response, mschapv2_derive_msk, des_key_setup_parity"]}
{"id": "C91", "title": "A TCP segment from someone who cannot guess the numbers has no effect", "statement": "A segment without RST whose sequence numbers all lie outside the receive window changes nothing about a connection and delivers nothing; whatever segment arrives, the acknowledged position moves only forward and only to a number already sent; and while our FIN is unacknowledged its number is the one after the last byte accepted by send().", "quantifier": "every segment, every window, every connection state and every history of calls, segments and timers", "why_tests_cant": "an attacker chooses among 2^32 numbers, with wrap-around, in every state", "anchors": ["src/wolfip.c: tcp_input, tcp_segment_acceptable, tcp_ack, wolfIP_sock_close, tcp_rto_cb"]}
{"id": "C92", "title": "The broker's flash store survives power failures", "statement": "After any history of put, delete, restart, get and iterate calls, in which each flash command may succeed, report an error or be interrupted by a power failure, the results of the calls are those of a single map: a successful put or delete is never lost, a call that reported an error changed nothing, a call interrupted by a power failure took effect completely or not at all, get returns the map's value and iterate every key of the name space once; and after a restart a put succeeds whenever the stored values and the new one fit in one bank.", "quantifier": "every history of calls, every crash point inside every call, every partially erased sector and torn quadword, every sector size and blob limit", "why_tests_cant": "crash points fall between any two flash commands of any call, and again during recovery", "anchors": ["src/port/stm32h563/mqtt_broker_persist_flash.c: kvf_put, kvf_del, kvf_get, kvf_iter, kvf_compact, kvf_append_record, kvf_rec_parse, MqttBrokerNet_PersistFlash_Init"]}
{"id": "C93", "title": "WPA3-SAE: two ends with the same password agree on the key", "statement": "Two supplicants of the same group and mode, given the same passphrase and network name and each other's addresses, that exchange their commit and confirm frames both accept them and end with the same 32-byte master key, confirmation key and key identifier, whatever random numbers each of them drew (unless the two commits are identical); the confirm of one is accepted by the other for every confirm counter.", "quantifier": "every password, network name, pair of addresses, random scalars and masks, blinding values, both ways of deriving the password element, every curve of the kind used (smooth, prime order, p = 3 mod 4)", "why_tests_cant": "the result depends on group arithmetic over fields of 2^256 elements and more; test vectors cover a handful of scalars and none of the special cases of point addition", "anchors": ["src/supplicant/sae_crypto.c: sae_generate_commit, sae_serialize_commit, sae_parse_peer_commit, sae_derive_k_and_pmk, sae_compute_confirm, sae_verify_peer_confirm, ec_pt_add, ec_pt_dbl, ec_pt_neg", "src/supplicant/supplicant.c: supp_init_sae, wolfip_supplicant_kick, wolfip_supplicant_rx_auth_frame"]}
{"id": "C94", "title": "WPA3-SAE: only a valid commit and a proof of the password are accepted", "statement": "A commit is accepted exactly when it is long enough, of the session's group, its scalar lies in [2, q-1], its element has reduced coordinates and lies on the curve, and it is not our own commit sent back; a confirm is accepted exactly when it is the HMAC under the confirmation key of the counter, the peer's commit and ours; an accepted confirm binds both commits and the key; our own confirm is never accepted back; and whatever frames arrive, the session goes on to the 4-way handshake only after such a commit and such a confirm, with the master key derived from them.", "quantifier": "every frame sequence, every commit and confirm of any length, every counter, every group, barring a collision of HMAC on the two named inputs", "why_tests_cant": "an attacker chooses the octets of the commit; the accepted set is a sparse subset of 2^784 messages", "anchors": ["src/supplicant/sae_crypto.c: sae_parse_peer_commit, sae_verify_peer_confirm, sae_derive_k_and_pmk, build_confirm_input", "src/supplicant/supplicant.c: wolfip_supplicant_rx_auth_frame"]}
{"id": "C95", "title": "WPA3-SAE: hunting and pecking finds the standard's password element", "statement": "The password element is the one IEEE 802.11 defines: the first of the counters 1 to 40 whose candidate is below the prime and an abscissa of the curve, with the ordinate whose parity is that of the seed; it fails exactly when no counter gives one. It depends on the password and the two addresses only - not on the random values that blind the residue test, and not on which end computes it - although the loop always runs 40 rounds and selects without branching.", "quantifier": "every password of 1 to 64 octets, pair of addresses, hash function, and every outcome of the random generator in every round", "why_tests_cant": "the constant-time selection and the blinded test are right only if they are right for each of the 2^40 patterns of valid counters and every blinding value", "anchors": ["src/supplicant/sae_crypto.c: sae_compute_pwe_hnp, sae_qr_blind, sae_find_qnr, sae_buf_shift_right, sqrt_mod_p, curve_rhs, ieee80211_kdf, mac_concat_max_min"]}
{"id": "C96", "title": "WPA3-SAE: hash-to-element maps every password to the standard's point", "statement": "The simplified SWU map is defined for every field element and gives the point RFC 9380 defines (including the exceptional elements); the secret element is the sum of the two images and the password element val times it, never the identity and the same on both ends; the computation fails only if the two images cancel or the password and identifier exceed 128 octets.", "quantifier": "every field element, password, identifier, network name, pair of addresses and hash function", "why_tests_cant": "the exceptional field elements are a handful among 2^256, and which branch is taken depends on quadratic residuosity", "anchors": ["src/supplicant/sae_crypto.c: sswu_map, sswu_inv0, sswu_z_for_group, sae_h2e_compute_pt, sae_compute_pwe_h2e"]}
{"id": "C97", "title": "WPA: the keys and integrity codes are the standards'", "statement": "The pairwise keys are PRF-384 (HMAC-SHA1) or KDF-384 (HMAC-SHA256) of the PMK over the label and the ordered addresses and nonces, cut into KCK, KEK and TK; both ends get the same ones whichever they call their own, and two sessions share the input only if addresses and nonces agree. The EAPOL-Key integrity code is the truncated HMAC-SHA1 or RFC 4493 AES-CMAC of the frame, for every frame length; nothing outside the frame is read; a code is accepted exactly if all its 16 octets are right, and a failure of the cryptographic library accepts nothing.", "quantifier": "every key, address, nonce, frame length and content, output length of the PRF, and every failure of wolfCrypt", "why_tests_cant": "the constants, carries and block boundaries must be right for every length and every subkey; a test vector covers one", "anchors": ["src/supplicant/wpa_crypto.c: wpa_prf_sha1, wpa_kdf_sha256, wpa_ptk_derive, wpa_ptk_derive_sha256, wpa_eapol_mic, wpa_eapol_mic_aes_cmac, wpa_eapol_mic_verify, wpa_const_compare, wpa_aes_keyunwrap"]}
{"id": "C98", "title": "The 4-way handshake completes with a correct authenticator", "statement": "From the moment the supplicant waits for message 1, an authenticator with the same PMK gets it through the handshake: message 2 carries the authenticator's replay counter, our nonce and RSN element and a MIC valid under the KCK both derive; message 3 with a larger replay counter is accepted however many messages 1 were repeated, garbage frames arrived and message-2 timeouts fired in the four seconds before it; the pairwise and then the group key are installed, and message 4 is one the authenticator accepts.", "quantifier": "every PMK, nonce, address, group key, key data layout the standard allows, replay counters, interleaving of retransmissions, ignored frames and timer calls, and every cryptographic primitive of the right shape", "why_tests_cant": "completion under every interleaving of duplicates and timer calls and every admissible message 3 is not a finite set of cases", "anchors": ["src/supplicant/supplicant.c: wolfip_supplicant_rx, supp_handle_m1, supp_handle_m1_retransmit, supp_handle_m3, supp_send_key, wolfip_supplicant_tick", "src/supplicant/eapol.c: eapol_key_parse, eapol_key_build"]}
{"id": "C99", "title": "A station without the keys cannot end the session", "statement": "A frame that is not protected by the session's keys neither ends an authenticated session nor aborts a handshake in progress: it is discarded.", "quantifier": "every received frame, in every state with a pairwise key", "why_tests_cant": "the attacker chooses the frame and the moment", "anchors": ["src/supplicant/supplicant.c: supp_rx_key, supp_rx_eap, supp_handle_m3, supp_handle_group_m1"]}
{"id": "C100", "title": "The WireGuard handshake completes and both ends hold the same keys", "statement": "Two devices configured with each other's public keys and the same pre-shared key complete the handshake when the network delivers both messages, the initiator's clock reads later than the last time stamp the responder accepted, and the responder is not rate limiting that peer: the initiation is accepted, the response is accepted, and the two sessions have the initiator's sending key equal to the responder's receiving key and conversely, each end addresses the other by the index the other chose, and messages and keys are those of the Noise IKpsk2 pattern.", "quantifier": "every pair of configured devices, every choice of ephemeral keys and indices, every clock reading, every hash, HMAC, AEAD and Diffie-Hellman function that satisfies its basic laws", "why_tests_cant": "The keys and random values range over all octet strings; two implementations written by the same hand agree with each other in a test even when both deviate from the pattern, and no test enumerates the configurations.", "anchors": ["src/wolfguard/wg_noise.c: wg_noise_handshake_init, wg_noise_create_initiation, wg_noise_consume_initiation, wg_noise_create_response, wg_noise_consume_response, wg_noise_begin_session", "src/wolfguard/wg_crypto.c: wg_kdf1, wg_kdf2, wg_kdf3, wg_hash2"]}
{"id": "C101", "title": "WireGuard accepts only authenticated handshake messages and its keys bind the handshake", "statement": "An initiation is accepted exactly when it is the Noise message of a configured, active peer: its static key and time stamp sealed under keys derived from the exchanges with this device, with a time stamp later than any accepted from that peer, and no initiation of that peer accepted in the last five seconds. A response is accepted exactly when it answers a pending initiation and its confirmation is the seal under the key derived from both ephemeral exchanges, the static exchange and the pre-shared key. An accepted initiation is refused ever after. Sessions come only from completed handshakes, whose secrets are then erased, and two handshakes whose keys coincide agree in every ephemeral key, exchange and pre-shared key unless HMAC collides on queries they made.", "quantifier": "every message, device state, failure of a primitive, and every pair of handshakes", "why_tests_cant": "The messages come from the network and range over all octet strings; refusing all but one of them cannot be sampled.", "anchors": ["src/wolfguard/wg_noise.c: wg_noise_consume_initiation, wg_noise_consume_response, wg_noise_begin_session", "src/wolfguard/wg_crypto.c: wg_aead_decrypt, wg_memcmp"]}
{"id": "C102", "title": "WireGuard data messages carry packets intact", "statement": "A packet of at most 1536 octets handed to a session is sent as one data message that fits the message buffer; the other end, holding the crossed key, reads the same index and counter in its header and opens it to the packet followed by fewer than 16 zero octets, which the IP length field cuts off again; a longer packet is refused. The receiver opens nothing but exact seals under its key and the counter in the header. A keepalive opens to the empty packet and reaches nobody. Different counters of a session use different nonces, and time stamps are ordered as the clock readings they were made from.", "quantifier": "every packet, key, index and counter, every message, every pair of clock readings", "why_tests_cant": "Buffer sizes, padding and counter encodings have boundary cases at every length and at every octet of a 64-bit counter.", "anchors": ["src/wolfguard/wg_packet.c: wg_packet_send, wg_packet_send_keepalive, wg_handle_data, wg_pad_len", "src/wolfguard/wg_crypto.c: wg_aead_make_nonce, wg_timestamp_now"]}
{"id": "C103", "title": "The DHCP client speaks DHCP: with an honest server it acquires and extends a lease", "statement": "Every DISCOVER, REQUEST and DECLINE the client sends is a complete RFC 2131 message that fits its buffer: type, transaction id, hardware address, magic and option list read back as intended, a selecting REQUEST names the chosen server and address and is broadcast, a renewing one carries the address in use and goes to the server alone, a rebinding one is broadcast. If a server answers each message as RFC 2131 prescribes, starting the client leads, through one offer and one acknowledgement, to exactly the offered address, mask and router on the interface; if nobody claims the address the client is bound after its probes; and a renewal or rebinding prolongs the lease by its full length without changing the address.", "quantifier": "every client state, hardware address, transaction id, clock value, server configuration and lease length", "why_tests_cant": "The end-to-end exchange couples two encoders and two decoders for all field values; a test runs one server with one lease.", "anchors": ["src/wolfip.c: dhcp_send_discover, dhcp_send_request, dhcp_send_decline, dhcp_poll, dhcp_opt_stream_init, dhcp_client_init, dhcp_timer_cb"]}
{"id": "C104", "title": "Every frame the Ethernet controller completed is handed to the stack once, in order and intact", "statement": "For the Ethernet drivers with a descriptor ring (stm32, lpc_enet, stm32f4, va416xx): whatever the controller's DMA engine does while the driver polls, the frames successive polls return are the frames the controller completed, in order, each once, with the octets that were in the buffer at completion, cut to the caller's buffer; descriptors of frames that are not whole give an empty poll; and the engine is never made to write outside the receive buffers.", "quantifier": "every interleaving of single driver accesses and DMA actions, every ring length, frame sequence and caller buffer size", "why_tests_cant": "The engine runs concurrently; a race is a matter of single memory accesses and shows in no unit test of the driver.", "anchors": ["src/port/stm32/stm32_eth.c: eth_poll, eth_init_desc", "src/port/lpc_enet/lpc_enet.c: eth_poll", "src/port/stm32f4/stm32f4_eth.c: eth_poll", "src/port/va416xx/va416xx_eth.c: eth_poll"]}
{"id": "C105", "title": "The descriptor rings do not go dead", "statement": "Between two calls of the driver: a completed frame waits for the stack, or the controller is receiving, or it can fetch a receive descriptor; and while frames wait for transmission the controller is sending or can fetch the next one, where the controller does not go past the descriptor named by the tail pointer.", "quantifier": "every interleaving of single driver accesses and DMA actions, including overruns and the recovery from them", "why_tests_cant": "Deadlock depends on histories of both sides, such as a ring that ran full at a particular moment.", "anchors": ["src/port/stm32/stm32_eth.c: eth_poll, eth_send", "src/port/lpc_enet/lpc_enet.c: eth_poll, eth_send"]}
{"id": "C106", "title": "Every frame eth_send accepted goes out once, in order, intact and padded", "statement": "The frames the controller sends are exactly those of the calls that returned their length (and of a call still running), in order, each followed by zeros up to 60 octets; a call is refused with -1 exactly when the frame is empty or longer than 1536 octets and with -2 exactly when all descriptors hold frames not sent yet, and a refused call changes nothing; no octet outside the transmit buffers is written or sent.", "quantifier": "every interleaving of calls, single driver accesses and DMA actions, every frame and ring length", "why_tests_cant": "The engine reads the buffers while the driver writes others; that no octet of a queued frame is overwritten is a statement about all interleavings.", "anchors": ["src/port/stm32/stm32_eth.c: eth_send", "src/port/lpc_enet/lpc_enet.c: eth_send", "src/port/stm32f4/stm32f4_eth.c: eth_send", "src/port/va416xx/va416xx_eth.c: eth_send"]}
{"id": "C107", "title": "TLS and SSH sessions read and write their own socket", "statement": "After any history of registering contexts, setting sessions up, cleaning them up and freeing them, in any interleaving over any number of sessions: the receive and send callbacks of a session that is set up act on the stack and socket given when it was set up last, and on no other; one that is not set up acts on no socket; and the library is told octets moved, 'try again' or 'over' exactly as the socket call came out.", "quantifier": "every history of glue calls over any number of contexts and sessions, every result of the socket calls", "why_tests_cant": "Descriptors are recycled from a small pool; a confusion of two sessions depends on the order of set-ups and clean-ups in a long history.", "anchors": ["src/port/wolfssl_io.c: wolfSSL_SetIO_wolfIP, wolfSSL_SetIO_wolfIP_CTX, wolfSSL_CleanupIO_wolfIP, wolfIP_io_recv, wolfIP_io_send", "src/port/wolfssh_io.c: wolfSSH_SetIO_wolfIP, wolfSSH_CleanupIO_wolfIP"]}
{"id": "C108", "title": "The descriptor pools of the TLS and SSH glue are not used up", "statement": "After any history in which every session is set up at most once between clean-ups and cleaned up before it is freed, a set-up succeeds whenever fewer sessions than the pool has descriptors are set up; and each of at most eight contexts ever registered stays registered with the stack given last.", "quantifier": "every such history, of any length, over any number of sessions", "why_tests_cant": "A leak shows only after as many leaking steps as the pool has entries, in whatever history contains them.", "anchors": ["src/port/wolfssl_io.c: io_desc_alloc, wolfSSL_SetIO_wolfIP_CTX, wolfSSL_CleanupIO_wolfIP", "src/port/wolfssh_io.c: io_desc_alloc, io_desc_free"]}
{"id": "C109", "title": "The MQTT glue neither leaks nor closes foreign sockets", "statement": "After any history of initialisations, connection attempts (repeated, failing and unfinished ones included), disconnects and clean-ups of the MQTT contexts, the sockets the glue opened and did not close are exactly those its contexts hold, each held by one context, and nothing else was closed; a cleaned-up context holds none; transfers report data, 'try again' or a network error exactly as the socket call came out.", "quantifier": "every history of calls and of results of the stack", "why_tests_cant": "Leaks and double closes depend on error paths in the middle of histories of arbitrary length.", "anchors": ["src/port/wolfmqtt_io.c: wolfmqtt_net_connect, wolfmqtt_net_disconnect, wolfmqtt_net_read, wolfmqtt_net_write, wolfMQTT_Cleanup_wolfIP, wolfMQTT_Init_wolfIP"]}
{"id": "C110", "title": "A descriptor of the POSIX port is what the application opened under it", "statement": "After any history of opening, accepting, using and closing sockets and files: a call on a number acts on exactly the socket or file the application last opened under that number; no two open sockets share a number; the wake-ups of a socket go to its own number; and when all sockets are closed no host descriptor of the port is left open.", "quantifier": "every history of calls, of numbers given out by the host, of slots freed by the stack and of calls by other threads", "why_tests_cant": "Numbers and slots are recycled by the host, the stack and the peer; a confusion needs a particular order of openings, closings and resets.", "anchors": ["src/port/posix/bsd_socket.c: wolfip_fd_alloc, wolfip_fd_release, wolfip_entry_from_internal, wolfip_entry_from_public, socket, accept, close"]}
{"id": "C111", "title": "No wake-up of a blocking call is lost", "statement": "A blocking call of the POSIX port on a descriptor whose socket cannot serve it sleeps, and once the stack announces the event it waits for, or the socket is closed or freed, the call returns within one round of the stack's thread, whatever other calls, polls and events came before; the pending flags and the pipe agree at every moment.", "quantifier": "every interleaving of calls, stack events and callback rounds, every pipe capacity of at least three octets", "why_tests_cant": "A lost wake-up is a matter of one instruction order between two threads and of flags left over from earlier calls.", "anchors": ["src/port/posix/bsd_socket.c: poller_callback, wolfip_wait_for_event_locked, wolfip_drain_pipe_locked, wolfip_accept_common, conditional_steal_blocking_call"]}
{"id": "C112", "title": "poll and select report the readiness of sockets", "statement": "poll and select on a socket of the POSIX port return as soon as a condition asked for holds, report no condition that was not asked for or announced, and report again whatever still holds when they are called again.", "quantifier": "every interleaving of polls, reads, writes and stack events", "why_tests_cant": "Level-triggered semantics is a statement about all histories of readings and arrivals between two polls.", "anchors": ["src/port/posix/bsd_socket.c: poll, select, wolfip_poll_prepare, poller_callback"]}
{"id": "C113", "title": "The result of a send tells what was sent", "statement": "For send, write and sendto of the POSIX port: what the stack has taken is a prefix of the buffer, nothing twice, left out or out of order; a success reports the exact number of octets; a blocking stream call returns success only when all were taken; and a failure means that nothing was taken.", "quantifier": "every buffer, every sequence of partial acceptances, refusals, waits, interruptions and errors", "why_tests_cant": "Partial acceptance depends on buffer levels and timing of the peer's acknowledgements.", "anchors": ["src/port/posix/bsd_socket.c: send, write, sendto"]}
{"id": "C114", "title": "sendmsg and recvmsg gather and scatter exactly", "statement": "sendmsg sends exactly the octets of the parts in order; recvmsg stores what it received in the parts in order, leaves all other memory alone and returns the number of octets; malformed vectors (empty, null parts with a length, a total beyond size_t) are refused, and only they; the TTL is reported exactly when it is known and fits; no access leaves a buffer.", "quantifier": "every vector of any number and size of parts, every datagram", "why_tests_cant": "Overflow of the sum and buffer overruns need particular combinations of lengths.", "anchors": ["src/port/posix/bsd_socket.c: wolfip_calc_msghdr_len, wolfip_flatten_iov, wolfip_scatter_iov, wolfIP_sock_sendmsg, wolfIP_sock_recvmsg, wolfip_fill_ttl_control"]}
{"id": "C115", "title": "getaddrinfo returns the address of the name asked for", "statement": "An address (or canonical name) getaddrinfo returns is an answer to the query made for that very call; no earlier call blocks a later one; results are freed by the allocator they came from; the port is exactly the number the service string denotes, and configured addresses are accepted exactly if they are dotted quads.", "quantifier": "every interleaving of calls, answers, retries and timeouts; every history of results; every string", "why_tests_cant": "Late answers arrive at any point between two steps of a later call.", "anchors": ["src/port/posix/bsd_socket.c: wolfip_dns_begin_wait, wolfip_dns_wait, wolfip_dns_forward_cb, wolfip_dns_forward_query, getaddrinfo, freeaddrinfo, wolfip_parse_service, wolfip_validate_ipv4"]}
{"id": "C116", "title": "Frames received by the Cadence GEM reach the stack once, in order, intact", "statement": "Through each of the three receive paths of the GEM driver (polled ring, interrupt queue, polled queue) the successive successful receive calls give the stack exactly the frames the MAC received, each once, in order and with its octets, cut to the caller's buffer.", "quantifier": "every interleaving of the MAC's steps (fetch, each octet, completion), the interrupt handler's loop turns and the receive call's steps; every ring and queue size", "why_tests_cant": "The MAC and the interrupt handler run between any two instructions of the call.", "anchors": ["src/port/amd/ip/gem_swq.c: gem_isr, gem_swq_drain", "src/port/amd/ip/gem_rx_poll.c: gem_eth_poll", "src/port/amd/ip/gem_rx_swq_poll.c", "src/port/amd/ip/gem_rx_irq.c"]}
{"id": "C117", "title": "The stack never runs out of timers", "statement": "Every timer the stack wants to arm (retransmission and persist timers of each TCP socket, the DHCP client's, the resolver's, deferred multicast reports) is armed: the timer table has room for all that can be outstanding at once, so no connection, lease or query is left without its timeout.", "quantifier": "every history of arming, cancelling and firing by all owners; every number of sockets and memberships", "why_tests_cant": "Needs every owner's timer outstanding at the same moment; the failure is silent.", "anchors": ["src/wolfip.c: timers_binheap_insert, tcp_ctrl_rto_start, tcp_persist_start, dhcp_schedule_timer_at, dns_schedule_timer, igmp_input, MAX_TIMERS"]}
{"id": "C118", "title": "One poll does bounded work and starves nobody", "statement": "A poll call takes at most its budget of frames from each interface, hands each frame to that interface's input exactly as the driver gave it, and a frame with n others before it reaches the stack within n/budget+1 polls whatever arrives later or on other interfaces; it runs each timer that is due at most once, runs none that is not due, leaves none due behind, and ends.", "quantifier": "every set of interfaces, queues, arrivals during the poll, drivers' replies and timer callbacks that arm timers for later", "why_tests_cant": "Arrivals and callbacks happen during the poll itself.", "anchors": ["src/wolfip.c: poll_devices, handle_timers, wolfIP_poll"]}
{"id": "C119", "title": "Rings whose descriptors share cache lines lose, repeat and reorder nothing", "statement": "Through the NXP drivers the successive receive calls give the stack the good frames the MAC received, each once, in order and intact, and a waiting frame is taken by the next call; the frames on the wire are exactly those the send calls took, padded, once each and in order, and a frame waiting is sent at the device's next turn; no transmit buffer is overrun; a call that reports failure has not sent its frame.", "quantifier": "every interleaving of the call's loads, stores and cache operations with the device's completions, evictions and prefetches; every ring size, number of descriptors per line and coherence setting", "why_tests_cant": "The device runs between any two instructions; the cache writes back when it likes.", "anchors": ["src/port/nxp_etsec/nxp_etsec.c: eth_poll, eth_send, dcache_flush", "src/port/nxp_qe_uec/nxp_qe_uec.c: eth_poll, eth_send", "src/port/nxp_fman/nxp_fman.c: eth_send"]}
{"id": "C120", "title": "CYW43439 reception: memory-safe for every radio output, frames exactly once and in order", "statement": "Whatever status words and octets the radio returns, polling the Wi-Fi interface never reads or writes outside a buffer. The frames the stack gets are exactly those carried by the packets read, in order, once each, made only of octets of their own packet; malformed packets are skipped without losing the next; the link state and the EAPOL payloads handed to the supplicant are those the packets say.", "quantifier": "every sequence of status words, every packet content and length, every callback configuration, every number of polls", "why_tests_cant": "the radio's output is arbitrary; tests feed a few well-formed and a few truncated packets", "anchors": ["src/port/rp2350_cyw43439/cyw43_sdpcm.c:cyw43_sdpcm_validate", "src/port/rp2350_cyw43439/cyw43_sdpcm.c:cyw43_sdpcm_bdc_payload", "src/port/rp2350_cyw43439/cyw43439_driver.c:cyw43_poll", "src/port/rp2350_cyw43439/cyw43439_driver.c:cyw43_handle_event", "src/port/rp2350_cyw43439/cyw43439_wifi.c:cyw43_ll_poll"]}
{"id": "C121", "title": "CYW43439 transmission never runs past the window the radio grants", "statement": "A data frame of acceptable size is sent exactly when the radio has not paused the host and the frame's number is below the latest grant, as long as the radio grants in order and at most 64 frames ahead and unanswered control requests run at most 128 past the grant; frames on the wire are numbered consecutively modulo 256, carry the caller's frame exactly, and a corrupt credit octet moves the window by at most 64.", "quantifier": "every interleaving of data frames, control requests and received headers, of any length, through every wrap of the 8-bit counters", "why_tests_cant": "the counters wrap and histories are unbounded; the error cases need more than a hundred frames in a particular order", "anchors": ["src/port/rp2350_cyw43439/cyw43_sdpcm.c:cyw43_sdpcm_credit_update", "src/port/rp2350_cyw43439/cyw43_sdpcm.c:cyw43_sdpcm_tx_ready", "src/port/rp2350_cyw43439/cyw43439_driver.c:bdc_data_tx", "src/port/rp2350_cyw43439/cyw43439_driver.c:cyw43_ioctl"]}
{"id": "C122", "title": "A CYW43439 control request returns its own answer; keys do not stay in driver memory", "statement": "Whatever the radio returns, a control request takes the first answer to its own number among the packets read, returns its status and copies its data within the caller's buffer; a late answer to an earlier request is never taken; without an answer it fails and leaves the buffer alone. After a key is installed, on every path, no copy of it is left in the driver's buffers, and a pairwise key is only sent bound to a known access point.", "quantifier": "every request, every sequence of status words and packets, every length of the caller's buffer", "why_tests_cant": "late, duplicated and foreign answers can come in any order and number", "anchors": ["src/port/rp2350_cyw43439/cyw43439_driver.c:cyw43_ioctl", "src/port/rp2350_cyw43439/cyw43439_driver.c:cyw43_set_key"]}
{"id": "C123", "title": "CYW43439 requests carry exactly what they were given", "statement": "A bus command word holds the function, address and length given; a named-variable request is the name, a NUL and the value, whole, or is refused when it does not fit; the regulatory blob is sent whole, in order, in requests that fit, with the first and only the first marked begin and the last and only the last marked end.", "quantifier": "every name, value and buffer size, every blob of every length", "why_tests_cant": "the boundary cases depend on every combination of lengths, including 32-bit wrap-around", "anchors": ["src/port/rp2350_cyw43439/cyw43_sdpcm.c:cyw43_gspi_cmd", "src/port/rp2350_cyw43439/cyw43_sdpcm.c:cyw43_iovar_build", "src/port/rp2350_cyw43439/cyw43439_driver.c:clm_load"]}
{"id": "C124", "title": "The TFTP client follows a protocol towards the application's storage callbacks", "statement": "Whatever packets arrive and whatever the callbacks answer: the sink is opened once before the first write; every write continues exactly where the previous one ended; nothing is written after a call that failed; verification is asked for once, after the last block, with the number of bytes written; the sink is closed once, as good exactly when the verification succeeded; the transfer is reported complete exactly then.", "quantifier": "every sequence of packets, polls and callback answers", "why_tests_cant": "the histories are unbounded and the callbacks may fail at any call", "anchors": ["src/tftp/wolftftp.c:wolftftp_client_receive", "src/tftp/wolftftp.c:wolftftp_client_accept_data", "src/tftp/wolftftp.c:wolftftp_client_finish", "src/tftp/wolftftp.c:wolftftp_client_poll"]}
{"id": "C125", "title": "Firmware staged in flash: the install request never covers a partial image, whatever fails and whenever power is lost", "statement": "Downloading a firmware image into the update partition of the STM32H563 changes nothing outside the partition; flash is only programmed where it is erased; the install flag is set only by a verified download; if power fails at any moment and the flag is then found set, the whole image is in place; a download reported complete leaves exactly the image, erased flash after it, and the flag.", "quantifier": "every image, every division into blocks, every sequence of packets, every pattern of flash errors, power failing before, during or after any flash operation", "why_tests_cant": "crash points and block boundaries are unbounded in number; tests run on working flash and do not cut power", "anchors": ["src/port/stm32h563/tftp_client_demo.c:demo_open", "src/port/stm32h563/tftp_client_demo.c:demo_write", "src/port/stm32h563/tftp_client_demo.c:demo_verify", "src/port/stm32h563/tftp_client_demo.c:demo_trigger_update", "src/port/stm32h563/tftp_client_demo.c:h5_flash_erase_page"]}
{"id": "C126", "title": "Over-the-air update on ZCU102: the update slot is written once, with exactly the bytes received", "statement": "Whatever the network sends, the update callbacks never write outside the staging buffer; the update slot is not written before the download is complete, and then once, from its start, with exactly the bytes received; the board is reset only after that write succeeded; a failed update leaves no socket open and can be started again.", "quantifier": "every sequence of packets, polls and triggers, every answer of the disk layer", "why_tests_cant": "the histories are unbounded", "anchors": ["src/port/amd/boards/zcu102/ota.c:sink_write", "src/port/amd/boards/zcu102/ota.c:sink_verify", "src/port/amd/boards/zcu102/ota.c:ota_trigger", "src/port/amd/boards/zcu102/ota.c:ota_poll"]}
{"id": "C127", "title": "Membership reports on the wire are reports a router must accept", "statement": "Joining, leaving and answering a query put on the link an IGMPv3 report with exactly one record, for that group and of the right type, from the interface's address to 224.0.0.22 with TTL 1, Router Alert, both checksums right, no trailing bytes, and on Ethernet links the group's MAC address; a report is refused exactly when the group is not multicast, the interface has no address or the frame does not fit the MTU.", "quantifier": "every group, interface address, identification value, record type, MAC address and MTU", "why_tests_cant": "checksums depend on every byte of every address; tests compare a few frames", "anchors": ["src/wolfip.c: igmp_send_report, ip_checksum_buf, mcast_ip_to_eth, eth_output_add_header, wolfIP_ll_send_frame"]}
{"id": "C128", "title": "The TLS client holds its socket and session exactly while it is connected, and always comes to an end", "statement": "After every history of connect, poll, send and close calls the client owns at most one socket and one session and gives both back when it closes, fails or reconnects; a client that ended is clean: it can connect again, any number of times, without running out of socket descriptors of the TLS glue; a server that never answers makes it give up.", "quantifier": "every history of calls, every answer of the stack and of the TLS library, any other users of the TLS glue", "why_tests_cant": "leaks show after the ninth connection, and give-up depends on the schedule of answers", "anchors": ["src/port/tls_client.c: tls_client_connect, tls_client_poll, tls_client_send, tls_client_close", "src/port/rtl8735b/tls_client.c: tls_client_connect, tls_client_poll, tls_client_close", "src/port/wolfssl_io.c: wolfSSL_SetIO_wolfIP, wolfSSL_CleanupIO_wolfIP"]}
{"id": "C129", "title": "The TLS server owns what it accepted, gives it back once, and echoes each client its own data", "statement": "After every history of accepts, callbacks and clean-ups, every open accepted socket and every live session belongs to one slot, sessions read and write their own socket only, and there are never more connections than slots; a connection accepted while a slot is free is served, beyond that it is closed; clean-up closes and frees everything; a callback for a connection that is gone changes nothing; what a session sends back is what it received, in order, and never another client's.", "quantifier": "every history of accepts, client callbacks (stale ones included) and clean-ups, every answer of accept and of wolfSSL, any other users of the TLS glue", "why_tests_cant": "stale callbacks and slot reuse need particular interleavings", "anchors": ["src/port/stm32h563/tls_server.c: tls_listen_cb, tls_client_cb, tls_client_handle_data, tls_client_alloc, tls_client_free, tls_server_cleanup"]}
{"id": "C130", "title": "The SSH server lets in only the configured account, answers each command line once, and keeps serving", "statement": "Only the configured user name with the configured password is let in. After every history the server owns at most one connection and one session, both given back when the client leaves; a session reads and writes its own connection only and can always be set up. Every typed line is executed once, in order, with an answer that fits its buffer whole. A client whose SYN arrived is accepted; when the listening socket becomes unusable the server replaces it.", "quantifier": "every user name and password, every byte stream and every cut of it into reads, every history of polls, network events and answers of the stack and of the SSH library", "why_tests_cant": "lines cut across reads and a listening socket that dies depend on the schedule", "anchors": ["src/port/stm32h563/ssh_server.c: ssh_server_poll, ssh_userauth_cb, handle_command, ssh_reinit_listen, uint_to_str", "src/port/wolfssh_io.c: wolfSSH_SetIO_wolfIP, wolfSSH_CleanupIO_wolfIP", "src/wolfip.c: wolfIP_sock_accept, wolfIP_sock_close"]}
{"id": "C131", "title": "An HTTP client reads exactly the responses the handlers gave", "statement": "Whatever responses handlers make one after the other on a connection, with a length or in chunks, with any data, a client that reads the connection by the rules of RFC 9112 gets exactly those messages in that order: status, reason, type and body, each ending where the next begins. When the transport does not take a write the connection is closed, and nothing is sent after that.", "quantifier": "every sequence of responses (status, texts, data of any length, chunks of any number and size) and every answer of the transport to each write", "why_tests_cant": "framing errors show for particular lengths and particular amounts the transport takes", "anchors": ["src/http/httpd.c: http_send_response_headers, http_send_response_body, http_send_response_chunk, http_send_response_chunk_end, http_close_client, http_status_text"]}
{"id": "C132", "title": "The MQTT client talks only through TLS, delivers in order and lets go", "statement": "Whatever the network, the TLS library and the broker answer, and whenever the user publishes, disconnects or starts the client: every MQTT packet goes through a session whose handshake is complete and that still exists; every connection attempt goes to the configured address and port; every PUBLISH carries the message accepted last under the configured topic, messages complete in the order accepted and none twice, and while connected none but the one in hand is missing; a CONNECT carries the configured identity; no descriptor is closed twice; and at rest no socket, transport descriptor or session is held, so that the client can be started again.", "quantifier": "every history of starts, polls (with every answer of socket, connect, TLS and MQTT library), publications and disconnects", "why_tests_cant": "restarts, failures in the middle and long lives are histories no test enumerates", "anchors": ["src/port/stm32h563/mqtt_client.c: mqtt_client_init, mqtt_client_poll, mqtt_client_publish, mqtt_client_disconnect, mqtt_client_is_connected", "src/port/wolfmqtt_io.c: wolfmqtt_net_connect, wolfMQTT_SetFd_wolfIP"]}
{"id": "C133", "title": "TFTP server sessions are isolated, single per peer, and end", "statement": "Whatever packets and polls reach the server: a packet that does not come from a session's peer to the session's port leaves that session and its file alone; what is written to a file comes from the DATA packet the session expected next, from its peer; a peer never has two sessions; a session runs under the terms its request asked for and the server granted; only blocks handed to storage are acknowledged; only an open file is closed, once, and none stays open without a session; and a session whose peer falls silent is over after two polls more than the configured retries, whatever else arrives.", "quantifier": "every history of packets (from whatever addresses and ports) and polls, with every answer of the storage callbacks", "why_tests_cant": "interleavings of several transfers with strangers, losses and failing storage are histories no test enumerates", "anchors": ["src/tftp/wolftftp.c: wolftftp_server_receive, wolftftp_server_poll, wolftftp_server_start_request, wolftftp_server_finish, wolftftp_server_send_window", "src/tftp/wolftftp.h: struct wolftftp_server_session"]}
{"id": "C134", "title": "Wired 802.1X client: success means an authenticated EAP-TLS exchange", "statement": "dot1x_eaptls_run returns 0 only if another station sent an EAP-Success when the TLS handshake was complete and had produced a key, after the identity was asked for, within ten seconds and with no EAP-Failure before; it does return 0 when an authenticator conducts such an exchange, having sent EAPOL-Start, the identity and the TLS answers, whatever unrelated frames arrive; it never acts on its own echoes or on bare headers; what it sends is framed to the authenticator with its own address and the EAPOL ethertype; socket and supplicant are released once on every path and no key stays behind; and it ends within ten seconds of its start.", "quantifier": "every device and socket outcome, every sequence of received frames, clock values and TLS engine answers", "why_tests_cant": "the run depends on an unbounded interleaving of frames from the network, the clock and a TLS engine; tests exercise single exchanges", "anchors": ["src/port/stm32h563/dot1x_client.c: dot1x_eaptls_run, dot1x_send_eapol", "src/supplicant/supplicant.c: wolfip_supplicant_kick, wolfip_supplicant_rx, wolfip_supplicant_tick"]}
{"id": "C135", "title": "ENETC driver: every frame sent and received once, in order, results truthful", "statement": "Over the ENETC rings every frame eth_send accepts appears on the wire exactly once, in order, padded with zeros to 60 octets and otherwise unchanged; a length is returned only when the frame is on the wire, -1 and -2 only when it will not be sent, -2 exactly when the ring is full; a call waits a bounded time. eth_poll delivers every received frame exactly once, in order, unchanged but for the cut to the caller's buffer, drops those in error, returns the octets stored, and finds nothing exactly when there is nothing; the device loses a frame only when all but one descriptor are in use.", "quantifier": "every interleaving of the driver's register, memory and doorbell actions with the device's, every frame, buffer size and ring size", "why_tests_cant": "driver and device share memory and two indices concurrently; tests have no ENETC and cannot enumerate the interleavings", "anchors": ["src/port/nxp_enetc/nxp_enetc.c: eth_send, eth_poll, enetc_setup_tx_bdr, enetc_setup_rx_bdr"]}
{"id": "C136", "title": "FreeRTOS HTTPS task: every asking client answered once, nothing left in use", "statement": "Every client that completes the TLS handshake and sends a request is answered exactly once, in order of acceptance, with the status page of that moment, whole and within its buffer, the address as four decimal numbers and the uptime in decimal; nobody else is sent an octet, and no client can keep the next from being served. Every descriptor is closed once and every session freed once, on every path; sessions are used only between handshake and release; between clients only the listening descriptor and the context are in use; if the start fails the task ends with nothing in use.", "quantifier": "every outcome of every socket, TLS and clock call, every sequence of clients, every address and uptime", "why_tests_cant": "the paths multiply with every client and every failing call; tests run none of them on the board", "anchors": ["src/port/stm32h563/https_server_freertos.c: https_server_task, https_serve_client, https_tls_recv, https_tls_send"]}
{"id": "C137", "title": "MQTT broker: orderly start, service and release", "statement": "mqtt_broker_init and mqtt_broker_poll set the network up before the broker, the broker before its store, and a TLS context with certificate and key before a broker that uses TLS starts; the broker listens on the configured port, or 8883 with TLS and 1883 without, and runs after the second poll if nothing fails; each poll while running steps it once; mqtt_broker_is_running is 1 exactly from its start to its first failing step; after any failure the next poll releases the broker, once and only if it was made, no TLS context is left, and nothing more happens until it is initialised again, which loses nothing; mqtt_broker_poll returns 0 on success and only then.", "quantifier": "every history of init and poll calls, every configuration, every outcome of every wolfMQTT and wolfSSL call", "why_tests_cant": "the failing paths of the set-up are many and their effects appear polls later; no test drives this module", "anchors": ["src/port/stm32h563/mqtt_broker.c: mqtt_broker_init, mqtt_broker_poll, mqtt_broker_is_running, broker_tls_init"]}
{"id": "C138", "title": "Blocking datagram calls of the FreeRTOS port end when they can", "statement": "A task that called recvfrom (or recv) on a UDP, ICMP, raw or packet socket returns at once if a datagram waits, and otherwise sleeps; once one waits it is woken by the next poll at the latest and returns that datagram, or -1 if its buffer is too small; datagrams are taken in order of arrival, none twice and none lost by sleeping. A task asleep in sendto because the transmit buffer is full is woken by the poll that empties it and then sends.", "quantifier": "every history of calls, arrivals, polls, transmissions and wake-ups, every socket kind and state of its events", "why_tests_cant": "a lost wake-up needs one interleaving out of unboundedly many of the task, the poll task and the network", "anchors": ["src/port/freeRTOS/bsd_socket.c: recvfrom, recv, sendto, send, wolfip_bsd_socket_cb, wolfip_bsd_prepare_wait_locked", "src/wolfip.c: dispatch_events, handle_socket_callbacks, wolfIP_sock_recvfrom, wolfIP_sock_sendto"]}
{"id": "C139", "title": "A received frame goes to IP, ARP or the 802.1X supplicant, to one at most, and only if it is for this station", "statement": "A frame handed in by a driver reaches at most one of IP, ARP and the 802.1X handler, chosen by its EtherType, after at most one VLAN tag has been removed and the interface has become the VLAN's; with two tags, an unknown VLAN, a short header or a packet filter's veto it reaches nobody. A frame addressed to another station, or to a multicast group the interface has not joined, is ignored. A packet of a device without Ethernet reaches IP unchanged if it is within the MTU, and never overruns the buffer it is framed in.", "quantifier": "every device table, frame, length, membership table and filter decision", "why_tests_cant": "the outcome depends on the whole frame together with the device and membership tables; tests sample a few frames", "anchors": ["src/wolfip.c: wolfIP_recv, wolfIP_recv_ex, wolfIP_recv_on, wolfIP_register_eapol_handler"]}
{"id": "C140", "title": "The TTL reported with a received datagram is that datagram's", "statement": "With IP_RECVTTL set on a UDP, ICMP or raw socket, the time to live that recvmsg or wolfIP_sock_get_recv_ttl reports after a receive call is the one the returned datagram arrived with; without the option nothing is reported, and a closed socket's option and value do not reach the next user of the slot.", "quantifier": "every history of arrivals, calls and option changes on all sockets", "why_tests_cant": "a wrong value needs a particular order of arrivals and reads; tests read each datagram before the next comes", "anchors": ["src/wolfip.c: udp_try_recv, wolfIP_sock_setsockopt, wolfIP_sock_get_recv_ttl", "src/port/posix/bsd_socket.c: wolfip_fill_ttl_control, recvmsg"]}
{"id": "C141", "title": "Socket options", "statement": "An option that setsockopt accepted is what getsockopt gives back, as an int or (multicast options) as one octet, and, for type of service and multicast TTL, what the next packets carry; it changes no other option. A refused call changes nothing, an option the socket does not have is refused by both calls, values that do not fit the header are refused, and neither call reads or writes beyond the length the caller gave.", "quantifier": "every kind of socket, option level and name, buffer, length and option state", "why_tests_cant": "the space of level, name, length and value is unbounded; tests try a few combinations", "anchors": ["src/wolfip.c: wolfIP_sock_setsockopt, wolfIP_sock_getsockopt, udp_new_socket, ip_output_add_header"]}
