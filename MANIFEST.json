{
 "claims": [
  {
   "property": "C01",
   "status": "partial",
   "theorems": [
    "Wolf.Fifo.fifo_exact_partial",
    "Wolf.Fifo.fifo_exact_aligned_partial",
    "Wolf.Fifo.fifo_delivers_accepted_prefix_partial",
    "Wolf.Fifo.fifo_walk_exact_partial",
    "Wolf.Fifo.fifo_not_exact",
    "Wolf.Fifo.fifo_exact_fill_lost",
    "Wolf.Fifo.fifo_push_in_bounds",
    "Wolf.Fifo.fifo_empty_accepts"
   ],
   "note": "The full property is false of the code: fifo_not_exact is a proved counterexample at the shipped buffer size. Proved exact for every history without a push that ends in the last partial word (in particular for all lengths divisible by 4)."
  },
  {
   "property": "C02",
   "status": "proved",
   "theorems": [
    "Wolf.Fifo.fifo_admission_exact",
    "Wolf.Fifo.fifo_max_payload_exact"
   ],
   "note": "For every buffer state, reachable or not."
  },
  {
   "property": "C03",
   "status": "proved",
   "theorems": [
    "Wolf.Tcp.tcp_delivers_stream_prefix"
   ],
   "note": "Peer segments limited to half the sequence space around the accepted position (TCP standing assumption)."
  },
  {
   "property": "C04",
   "status": "proved",
   "theorems": [
    "Wolf.Tcp.tcp_ack_exact",
    "Wolf.Tcp.tcp_ack_monotone",
    "Wolf.Tcp.tcp_in_order_accepted"
   ],
   "note": ""
  },
  {
   "property": "C05",
   "status": "proved",
   "theorems": [
    "Wolf.Tcp.tcp_sack_exact",
    "Wolf.Tcp.sack_merge_preserves_coverage",
    "Wolf.Tcp.tcp_sack_first_block"
   ],
   "note": ""
  },
  {
   "property": "C06",
   "status": "proved",
   "theorems": [
    "Wolf.Tcp.rx_ring_is_bounded_byte_queue",
    "Wolf.Tcp.byteQ_bounded"
   ],
   "note": ""
  },
  {
   "property": "C07",
   "status": "proved",
   "theorems": [
    "Wolf.Tcp.seq_order_sound",
    "Wolf.Tcp.seq_trichotomy",
    "Wolf.Tcp.seq_inc_sound",
    "Wolf.Tcp.seq_diff_sound",
    "Wolf.Tcp.seq_ambiguous_at_half"
   ],
   "note": "Distance exactly 2^31 is ambiguous in the code, as the property says \"less than\"."
  },
  {
   "property": "C08",
   "status": "proved",
   "theorems": [
    "Wolf.Tcp.Opts.tcp_options_parse_safe",
    "Wolf.Tcp.Opts.tcp_options_header_only",
    "Wolf.Tcp.Opts.tcp_options_parse_correct",
    "Wolf.Tcp.Opts.syn_options_round_trip",
    "Wolf.Tcp.Opts.ack_options_round_trip",
    "Wolf.Tcp.Opts.data_options_round_trip"
   ],
   "note": "Loads go through a bounds-checked memory and loops through an iteration budget; both are proved never to fail."
  },
  {
   "property": "C09",
   "status": "partial",
   "theorems": [
    "Wolf.Tcp.Paws.paws_rejects_exactly_older",
    "Wolf.Tcp.Paws.paws_exempt",
    "Wolf.Tcp.Paws.ts_recent_update_partial",
    "Wolf.Tcp.Paws.ts_recent_never_backwards_partial",
    "Wolf.Tcp.Paws.ts_newer_remembered_partial",
    "Wolf.Tcp.Paws.ts_newer_in_order_not_remembered"
   ],
   "note": "The rejection half holds exactly. The remember half is violated: the comparison before the update uses a byte-swapped value, so a newer in-order timestamp may not be remembered (ts_newer_in_order_not_remembered)."
  },
  {
   "property": "C10",
   "status": "proved",
   "theorems": [
    "Wolf.Tcp.Rto.rto_in_bounds",
    "Wolf.Tcp.Rto.backoff_bounds_and_monotone",
    "Wolf.Tcp.Rto.persist_interval_bounds",
    "Wolf.Tcp.Rto.persist_interval_doubles",
    "Wolf.Tcp.Rto.rtt_estimate_within_samples",
    "Wolf.Tcp.Rto.rtt_estimate_can_wrap"
   ],
   "note": "Estimate bound for samples up to 67108863 ms; above that the 32-bit arithmetic wraps (rtt_estimate_can_wrap)."
  },
  {
   "property": "C11",
   "status": "proved",
   "theorems": [
    "Wolf.Timers.timers_refine_list",
    "Wolf.Timers.poll_fires_exactly_due"
   ],
   "note": "Deadlines positive (0 is the tombstone value), fewer than 2^32-2 arm operations (32-bit ids). Callbacks that arm/cancel during a poll are covered by interleaving fire with other operations."
  },
  {
   "property": "C12",
   "status": "partial",
   "theorems": [
    "Wolf.Tcp.Snd.unacked_data_is_retained_partial",
    "Wolf.Tcp.Snd.empty_segment_transmission_discards_data",
    "Wolf.Tcp.Snd.ack_beyond_sent_discards_data"
   ],
   "note": "The full property is false of the code; the two violating situations are proved as counterexamples and excluded from the positive theorem."
  },
  {
   "property": "C13",
   "status": "partial",
   "theorems": [
    "Wolf.Tcp.Snd.snd_una_only_forward_partial",
    "Wolf.Tcp.Snd.snd_una_only_by_ack",
    "Wolf.Tcp.Snd.snd_una_can_jump_half",
    "Wolf.Tcp.Snd.initial_cwnd_bounds",
    "Wolf.Tcp.Snd.cwnd_at_least_one_segment",
    "Wolf.Tcp.Snd.timeout_window",
    "Wolf.Tcp.Snd.recovery_entry_window",
    "Wolf.Tcp.Snd.duplicate_inflation"
   ],
   "note": "SND.UNA half is false for exactly one ACK number (2^31 ahead with nothing outstanding, snd_una_can_jump_half). Window half proved while 32-bit counters do not overflow; duplicate_inflation shows inflation is unbounded."
  },
  {
   "property": "C14",
   "status": "partial",
   "theorems": [
    "Wolf.Tcp.Snd.outstanding_data_has_timer_partial",
    "Wolf.Tcp.Snd.timeout_requeues_partial",
    "Wolf.Tcp.Snd.close_wait_data_never_retransmitted",
    "Wolf.Tcp.Snd.last_ack_data_not_retransmitted",
    "Wolf.Tcp.Snd.fin_wait_1_fin_never_retransmitted"
   ],
   "note": "Proved for ESTABLISHED. False of the code in CLOSE_WAIT, LAST_ACK and (for the FIN) FIN_WAIT_1: proved counterexamples."
  },
  {
   "property": "C15",
   "status": "partial",
   "theorems": [
    "Wolf.Sock.rst_exact",
    "Wolf.Sock.rst_handshake",
    "Wolf.Sock.listener_lost_to_rst",
    "Wolf.Sock.bound_socket_lost_to_rst",
    "Wolf.Sock.serve_reached"
   ],
   "note": "RST on synchronized connections and half-open ones is accepted only with the exact next sequence number (or the acceptable ACK in SYN_SENT). Missing: as stated the code also lets an exact-sequence RST destroy a listener whose handshake completed before accept() and a merely bound socket (counterexamples listener_lost_to_rst, bound_socket_lost_to_rst)."
  },
  {
   "property": "C16",
   "status": "proved",
   "theorems": [
    "Wolf.Sock.state_edges",
    "Wolf.Sock.established_only_after_handshake",
    "Wolf.Sock.synchronized_implies_handshake",
    "Wolf.Sock.data_only_after_handshake",
    "Wolf.Sock.handshake_example"
   ],
   "note": "Every state change of every slot under every operation is one of the listed edges under the listed condition, over all histories."
  },
  {
   "property": "C17",
   "status": "partial",
   "theorems": [
    "Wolf.Sock.no_rst_for_rst",
    "Wolf.Sock.rst_content",
    "Wolf.Sock.no_rst_to_group_partial",
    "Wolf.Sock.no_storm_example",
    "Wolf.Sock.rst_to_broadcast"
   ],
   "note": "No RST answers a RST and generated RSTs carry the required numbers. Missing: no RST for group destinations holds only outside the LISTEN arm (counterexample rst_to_broadcast)."
  },
  {
   "property": "C18",
   "status": "partial",
   "theorems": [
    "Wolf.Sock.listener_survives_partial",
    "Wolf.Sock.listener_survives_history_partial",
    "Wolf.Sock.retry_limit_relistens",
    "Wolf.Sock.preaccept_timeout_relistens",
    "Wolf.Sock.accept_keeps_listening",
    "Wolf.Sock.listen_serves",
    "Wolf.Sock.listening_example",
    "Wolf.Sock.listener_lost_to_rst",
    "Wolf.Sock.listener_lost_to_fin",
    "Wolf.Sock.listener_lost_to_icmp"
   ],
   "note": "Survival for all histories without the three losing events; those three are real violations, shown as counterexamples."
  },
  {
   "property": "C19",
   "status": "proved",
   "theorems": [
    "Wolf.Sock.teardown_arms_event",
    "Wolf.Sock.pending_step",
    "Wolf.Sock.pending_run",
    "Wolf.Sock.dispatch_delivers_once",
    "Wolf.Sock.close_event_exactly_once",
    "Wolf.Sock.notify_example",
    "Wolf.Sock.reopened_socket_lost"
   ],
   "note": "For callers that do not reuse a descriptor whose close event is pending; reopened_socket_lost shows what happens otherwise."
  },
  {
   "property": "C20",
   "status": "partial",
   "theorems": [
    "Wolf.Sock.bind_unique_partial",
    "Wolf.Sock.bind_unique_specific",
    "Wolf.Sock.bind_unique_single",
    "Wolf.Sock.bind_example",
    "Wolf.Sock.wildcard_overlap"
   ],
   "note": "Uniqueness for all histories of specific binds, and for wildcard binds with one interface. Missing: wildcard against another interface (counterexample wildcard_overlap)."
  },
  {
   "property": "C21",
   "status": "partial",
   "theorems": [
    "Wolf.Sock.bind_failed_unchanged",
    "Wolf.Sock.listen_failed_unchanged",
    "Wolf.Sock.connect_failed_unchanged_partial",
    "Wolf.Sock.connect_others_unchanged",
    "Wolf.Sock.failed_example",
    "Wolf.Sock.connect_veto_dirty"
   ],
   "note": "Full for bind and listen. Missing: connect refused by the filter or a full queue (counterexample connect_veto_dirty)."
  },
  {
   "property": "C22",
   "status": "partial",
   "theorems": [
    "Wolf.Udp.udp_queued_iff",
    "Wolf.Udp.udp_reads_in_order",
    "Wolf.Udp.udp_recv_one",
    "Wolf.Udp.connect_connects",
    "Wolf.Udp.connected_hears_peer_partial",
    "Wolf.Udp.udp_send_one",
    "Wolf.Udp.udp_bind_exact",
    "Wolf.Udp.udp_bind_example",
    "Wolf.Udp.udp_example",
    "Wolf.Udp.dhcp_peer_ignored",
    "Wolf.Udp.mcast_port_ignored",
    "Wolf.Udp.sendto_moves_peer"
   ],
   "note": "Delivery, order, boundaries and sending for all histories. Missing: the peer filter of a connected socket is not applied in three cases, each shown by a witness (DHCP running, multicast source port, sendto with an address moves the peer). The packet queue is a list (C01 is the FIFO itself)."
  },
  {
   "property": "C23",
   "status": "proved",
   "theorems": [
    "Wolf.IpIn.ip_delivers_only_wellformed",
    "Wolf.IpIn.ip_never_oob",
    "Wolf.IpIn.ip_delivers_wellformed",
    "Wolf.IpIn.ip_delivers_all",
    "Wolf.IpIn.ip_example"
   ],
   "note": "For every frame, length and configuration."
  },
  {
   "property": "C24",
   "status": "proved",
   "theorems": [
    "Wolf.Csum.ip_checksum_verifies",
    "Wolf.Csum.tcp_checksum_verifies",
    "Wolf.Csum.udp_checksum_verifies",
    "Wolf.Csum.icmp_checksum_verifies",
    "Wolf.Csum.transport_detects",
    "Wolf.Csum.transport_detects_pseudo",
    "Wolf.Csum.ip_detects",
    "Wolf.Csum.icmp_detects",
    "Wolf.Csum.zero_ones_undetected"
   ],
   "note": "For frames of at most 65535 bytes. A one-word change is detected except 0x0000<->0xFFFF (proved undetectable)."
  },
  {
   "property": "C25",
   "status": "proved",
   "theorems": [
    "Wolf.IpIn.forward_safe",
    "Wolf.IpIn.forward_once",
    "Wolf.IpIn.forward_complete",
    "Wolf.IpIn.learned_exact",
    "Wolf.IpIn.parked_kept",
    "Wolf.IpIn.forward_example",
    "Wolf.IpIn.park_example"
   ],
   "note": "For every frame and configuration. A multicast IP destination in a unicast frame counts as forwardable (default route)."
  },
  {
   "property": "C26",
   "status": "proved",
   "theorems": [
    "Wolf.Route.route_lookup_longest_prefix",
    "Wolf.Route.route_lookup_fallback",
    "Wolf.Route.route_lookup_own_address",
    "Wolf.Route.route_lookup_broadcast",
    "Wolf.Route.route_lookup_broadcast_if",
    "Wolf.Route.route_lookup_no_interface",
    "Wolf.Route.route_order_is_insertion_order",
    "Wolf.Route.maskPrefixLen_exact"
   ],
   "note": "Connected subnets count as inserted first. An interface with a non-contiguous mask contributes no connected route, as in the code."
  },
  {
   "property": "C27",
   "status": "proved",
   "theorems": [
    "Wolf.Route.route_table_is_map",
    "Wolf.Route.route_failed_call_no_effect",
    "Wolf.Route.maskTo_bits"
   ],
   "note": "At most 256 interfaces (the index is stored in one byte)."
  },
  {
   "property": "C28",
   "status": "proved",
   "theorems": [
    "Wolf.Arp.arp_only_solicited",
    "Wolf.Arp.arp_unsolicited_no_effect",
    "Wolf.Arp.arp_solicited_local",
    "Wolf.Arp.arp_reply_learned",
    "Wolf.Arp.flush_forgets",
    "Wolf.Arp.zero_address_resolves",
    "Wolf.Arp.foreign_request_refreshes"
   ],
   "note": "For every address but 0.0.0.0 (proved exception). Finding: an ARP request with a foreign hardware address also refreshes the age."
  },
  {
   "property": "C29",
   "status": "proved",
   "theorems": [
    "Wolf.Arp.arp_rate_limit",
    "Wolf.Arp.arp_request_recorded"
   ],
   "note": ""
  },
  {
   "property": "C30",
   "status": "proved",
   "theorems": [
    "Wolf.Dhcp.dhcp_options_safe",
    "Wolf.Dhcp.dhcp_options_exact"
   ],
   "note": "Exactness for messages whose overload option is well-formed (length 1, value 1-3, not itself cut by the end of the options field); safety and termination for every message."
  },
  {
   "property": "C31",
   "status": "proved",
   "theorems": [
    "Wolf.Dhcp.dhcp_config_only_from_ack",
    "Wolf.Dhcp.dhcp_ack_applied",
    "Wolf.Dhcp.dhcp_rejected_changes_nothing"
   ],
   "note": "The server identifier is enforced when the offer carried a nonzero one (an offer with server id 0.0.0.0 is accepted by the code and any server may then acknowledge it; shown as an example). A rejected offer still overwrites the remembered server id."
  },
  {
   "property": "C32",
   "status": "partial",
   "theorems": [
    "Wolf.Dhcp.lease_times_ordered",
    "Wolf.Dhcp.dhcp_lease_times_reachable",
    "Wolf.Dhcp.dhcp_expired_lease_given_up_partial",
    "Wolf.Dhcp.expired_lease_survives_a_timer_event",
    "Wolf.Dhcp.dhcp_timer_armed_partial"
   ],
   "note": "Order of lease times and retry deadlines proved in full. Giving up at the NEXT timer event is false while renewing or probing (witness proved); proved: within 1, 2 or 5 timer events by state."
  },
  {
   "property": "C33",
   "status": "partial",
   "theorems": [
    "Wolf.Dhcp.dhcp_timer_armed_partial",
    "Wolf.Dhcp.dhcp_at_most_one_timer",
    "Wolf.Dhcp.dhcp_timer_lost_when_heap_full",
    "Wolf.Dhcp.dhcp_retransmissions_bounded",
    "Wolf.Dhcp.dhcp_unanswered_terminates",
    "Wolf.Dhcp.dhcp_second_attempt_gives_up"
   ],
   "note": "Armed timer proved for histories in which the timer heap had room (with a full heap the timer is lost, witness proved). Finding: the retransmission count is not reset by a new dhcp_client_init."
  },
  {
   "property": "C34",
   "status": "proved",
   "theorems": [
    "Wolf.Dns.dns_names_in_bounds",
    "Wolf.Dns.dns_skip_stays_inside",
    "Wolf.Dns.dns_copy_is_the_name",
    "Wolf.Dns.dns_copy_accepts",
    "Wolf.Dns.dns_skip_is_the_end"
   ],
   "note": ""
  },
  {
   "property": "C35",
   "status": "proved",
   "theorems": [
    "Wolf.Dns.dns_callback_at_most_once",
    "Wolf.Dns.dns_callback_needs_match",
    "Wolf.Dns.dns_answer_is_a_record",
    "Wolf.Dns.busy_lookup_refused",
    "Wolf.Dns.dns_freed_after_callback",
    "Wolf.Dns.dns_idle_accepts",
    "Wolf.Dns.dns_never_stuck"
   ],
   "note": "Assumes the timer insert succeeds and that callbacks do not re-enter the resolver."
  },
  {
   "property": "C36",
   "status": "partial",
   "theorems": [
    "Wolf.Dns.dns_encoding_exact",
    "Wolf.Dns.dns_query_decodes",
    "Wolf.Dns.dns_reverse_name",
    "Wolf.Dns.dns_name_of_256_octets_accepted"
   ],
   "note": "The encoding half is proved; the 255-octet limit is violated by one (dns_name_of_256_octets_accepted)."
  },
  {
   "property": "C37",
   "status": "proved",
   "theorems": [
    "Wolf.Text.dotted_quad_round_trip",
    "Wolf.Text.iptoa_fits"
   ],
   "note": ""
  },
  {
   "property": "C38",
   "status": "partial",
   "theorems": [
    "Wolf.Filter.filter_consulted",
    "Wolf.Filter.filter_not_reentered",
    "Wolf.Filter.filter_vetoes",
    "Wolf.Filter.forward_layers_exact",
    "Wolf.Filter.forward_consults",
    "Wolf.Filter.filter_misses_truncated_forward"
   ],
   "note": "Consultation, veto and no re-entry proved for every history of configuration and arbitrary (also reconfiguring, also re-entering) callbacks. As worded it is not met for a forwarded datagram cut short inside its transport header: the transport layer is then not asked (witness proved)."
  },
  {
   "property": "C39",
   "status": "partial",
   "theorems": [
    "Wolf.Link.frame_fits_mtu",
    "Wolf.Link.mtu_clamped",
    "Wolf.Link.tcp_segment_fits",
    "Wolf.Link.esp_exceeds_mtu"
   ],
   "note": "Proved for the stack without WOLFIP_ESP. With WOLFIP_ESP it is false: esp_send hands the driver longer frames than the MTU (witness proved). Setting the MTU of a VLAN sub-interface has no effect; it is always its parent minus 4."
  },
  {
   "property": "C40",
   "status": "proved",
   "theorems": [
    "Wolf.Link.vlan_table_exact",
    "Wolf.Link.vlan_round_trip",
    "Wolf.Link.vlan_isolation"
   ],
   "note": "For every history of create, delete and MTU calls. The 802.1Q type inside a sub-interface frame (double tagging) is outside the model."
  },
  {
   "property": "C41",
   "status": "proved",
   "theorems": [
    "Wolf.Loopback.loopback_fifo",
    "Wolf.Loopback.loopback_oversize"
   ],
   "note": "Packets of 1501-1522 bytes, which the link layer would admit, are silently dropped (loopback_oversize)."
  },
  {
   "property": "C42",
   "status": "proved",
   "theorems": [
    "Wolf.Mcast.mcast_member_exact",
    "Wolf.Mcast.mcast_join_exact",
    "Wolf.Mcast.mcast_leave_exact",
    "Wolf.Mcast.mcast_close_exact",
    "Wolf.Mcast.mcast_bad_refused",
    "Wolf.Mcast.mcast_join_unopened_leaks"
   ],
   "note": "For every history in which groups are joined on open sockets only, with at most 255 UDP sockets. Joining on a descriptor that was never opened is granted by the code and its membership leaks at close: mcast_join_unopened_leaks is the machine-checked witness."
  },
  {
   "property": "C43",
   "status": "proved",
   "theorems": [
    "Wolf.Mcast.igmp_one_pending",
    "Wolf.Mcast.igmp_query_schedules",
    "Wolf.Mcast.igmp_report_when_due",
    "Wolf.Mcast.maxRespMs_rfc",
    "Wolf.Mcast.validate_iff"
   ],
   "note": "Scheduling is skipped only when the timer heap is full. Timers are a list of pending deadlines (the heap is C11)."
  },
  {
   "property": "C44",
   "status": "partial",
   "theorems": [
    "Wolf.Sock.icmp_error_effect",
    "Wolf.IpIn.errors_only_about_partial",
    "Wolf.IpIn.errors_example",
    "Wolf.IpIn.ttl_about_multicast",
    "Wolf.IpIn.unreachable_about_l2_broadcast"
   ],
   "note": "Incoming errors on TCP and generated errors. Missing: time exceeded is also sent about IP-multicast destinations in unicast frames, and port unreachable about link-layer broadcasts (both witnesses proved)."
  },
  {
   "property": "C45",
   "status": "proved",
   "theorems": [
    "Wolf.Wg.counter_accepted_once",
    "Wolf.Wg.wg_replay_exact",
    "Wolf.Wg.wg_replay_at_most_once",
    "Wolf.Wg.wg_in_order_accepted"
   ],
   "note": ""
  },
  {
   "property": "C46",
   "status": "proved",
   "theorems": [
    "Wolf.Wg.lookup_is_longest",
    "Wolf.Wg.lookup_none",
    "Wolf.Wg.insert_exact",
    "Wolf.Wg.remove_exact",
    "Wolf.Wg.after_twf",
    "Wolf.Wg.inject_only_from_owner",
    "Wolf.Wg.encrypted_only_for_owner"
   ],
   "note": "For every table and every history with prefix lengths at most 32 (the API does not check: a /33 beats a /32). Cryptography is an oracle: which session a message authenticates under is an arbitrary function."
  },
  {
   "property": "C47",
   "status": "proved",
   "theorems": [
    "Wolf.Wg.nonce_strictly_increasing",
    "Wolf.Wg.send_key_fresh",
    "Wolf.Wg.recv_key_fresh",
    "Wolf.Wg.session_derived_once"
   ],
   "note": "For every history, clock, packet, decryption result and crypto failure. Sessions are named by internal_id."
  },
  {
   "property": "C48",
   "status": "proved",
   "theorems": [
    "Wolf.Wg.slots_apart",
    "Wolf.Wg.sessions_apart",
    "Wolf.Wg.responder_waits",
    "Wolf.Wg.handshake_keeps_current",
    "Wolf.Wg.responses_answer",
    "Wolf.Wg.data_by_index"
   ],
   "note": "For every history."
  },
  {
   "property": "C49",
   "status": "partial",
   "theorems": [
    "Wolf.Wg.stage_queue",
    "Wolf.Wg.sendStaged_sendAll",
    "Wolf.Wg.drain_without_session",
    "Wolf.Wg.drain_with_session",
    "Wolf.Wg.drain_subsequence",
    "Wolf.Wg.sent_at_most_once",
    "Wolf.Wg.staged_overtaken"
   ],
   "note": "Order within a drain, no duplication over all histories, nothing lost when the session cannot send. Missing: a responder does not drain when its session is confirmed, so a newer packet can overtake staged ones (staged_overtaken)."
  },
  {
   "property": "C50",
   "status": "partial",
   "theorems": [
    "Wolf.Wg.keepalive_spacing_partial",
    "Wolf.Wg.keepalive_answers_data_partial",
    "Wolf.Wg.persistent_keepalive_every_poll"
   ],
   "note": "Without a persistent interval, proved for all histories. With one it is false: a keepalive is sent on every poll (persistent_keepalive_every_poll)."
  },
  {
   "property": "C51",
   "status": "proved",
   "theorems": [
    "Wolf.Esp.esp_replay_exact",
    "Wolf.Esp.esp_replay_at_most_once",
    "Wolf.Esp.esp_forgery_no_effect"
   ],
   "note": "For SAs with integrity protection (icv_len nonzero), as the code applies the window only to those; cryptographic verification is a parameter."
  },
  {
   "property": "C52",
   "status": "proved",
   "theorems": [
    "Wolf.Esp.esp_oseq_exact",
    "Wolf.Esp.esp_directions_independent"
   ],
   "note": "A number consumed by a send whose encryption then fails is skipped, never reused."
  },
  {
   "property": "C53",
   "status": "partial",
   "theorems": [
    "Wolf.Tftp.tftp_download_prefix",
    "Wolf.Tftp.tftp_download_complete_partial",
    "Wolf.Tftp.tftp_download_truncated",
    "Wolf.Tftp.tftp_download_truncated_512"
   ],
   "note": "The written data is always blocks 1..k of the file (proved for every history). Completion is proved when the block size the client works with is the server's; it is false when the client asked for a larger block size and the server ignored the option (witnesses proved: the client reports success after 512 bytes)."
  },
  {
   "property": "C54",
   "status": "proved",
   "theorems": [
    "Wolf.Tftp.tftp_client_size_limit",
    "Wolf.Tftp.Srv.tftp_server_size_limit"
   ],
   "note": ""
  },
  {
   "property": "C55",
   "status": "partial",
   "theorems": [
    "Wolf.Tftp.Srv.tftp_server_sends_blocks_partial",
    "Wolf.Tftp.Srv.tftp_server_finishes_partial",
    "Wolf.Tftp.Srv.tftp_server_skips_on_duplicate_ack"
   ],
   "note": "False of the code as worded: a repeated acknowledgment makes the server skip unacknowledged blocks (witness proved). Proved for acknowledgments that each arrive at most once, with any loss, reordering, timeout, read or send failure, block size, window and file size below 4 GiB."
  },
  {
   "property": "C56",
   "status": "proved",
   "theorems": [
    "Wolf.Tftp.Srv.tftp_opened_names_safe",
    "Wolf.Tftp.tftp_filename_check_exact",
    "Wolf.Tftp.tftp_request_parse",
    "Wolf.Tftp.tftp_names_any_case"
   ],
   "note": ""
  },
  {
   "property": "C57",
   "status": "proved",
   "theorems": [
    "Wolf.Tftp.tftp_number_exact",
    "Wolf.Tftp.tftp_number_round_trip",
    "Wolf.Tftp.tftp_oack_parse",
    "Wolf.Tftp.tftp_request_parse",
    "Wolf.Tftp.tftp_request_round_trip",
    "Wolf.Tftp.tftp_oack_round_trip",
    "Wolf.Tftp.tftp_retries_bounded",
    "Wolf.Tftp.tftp_unanswered_gives_up",
    "Wolf.Tftp.tftp_request_fits",
    "Wolf.Tftp.tftp_oack_fits"
   ],
   "note": "Retries are counted only when the transport accepts the packet."
  },
  {
   "property": "C58",
   "status": "partial",
   "theorems": [
    "Wolf.Http.url_decode_correct",
    "Wolf.Http.url_decode_never_grows",
    "Wolf.Http.url_encode_correct",
    "Wolf.Http.url_round_trip_partial",
    "Wolf.Http.url_round_trip_fails"
   ],
   "note": "Decoding and encoding proved in full; the round trip holds for strings without a percent sign and is false in general (url_round_trip_fails: \"%41\" comes back as \"A\")."
  },
  {
   "property": "C59",
   "status": "proved",
   "theorems": [
    "Wolf.Supp.pairwise_install_checks",
    "Wolf.Supp.group_install_checks",
    "Wolf.Supp.pairwise_key_provenance",
    "Wolf.Supp.replay_strictly_increases",
    "Wolf.Supp.authenticated_means_installed"
   ],
   "note": "For every history of calls and frames; the cryptographic primitives are arbitrary functions. Supp/Demo.lean runs a complete 4-way handshake and a group rekey."
  },
  {
   "property": "C60",
   "status": "proved",
   "theorems": [
    "Wolf.Fd.fd_names_slot",
    "Wolf.Fd.call_reaches_slot",
    "Wolf.Fd.close_effect",
    "Wolf.Fd.fd_injective",
    "Wolf.Fd.fd_touches_own_slot",
    "Wolf.Fd.any_fd_one_slot",
    "Wolf.Fd.returned_fd_fresh",
    "Wolf.Fd.held_fd_not_reissued",
    "Wolf.Fd.resolve_in_range",
    "Wolf.Fd.fd_example",
    "Wolf.Fd.big_table_aliases"
   ],
   "note": "For every order of mark tests, all tables of at most 255 slots (the compile-time limit) and all histories. What a call does inside the slot it resolves to is an arbitrary function."
  },
  {
   "property": "C61",
   "status": "partial",
   "theorems": [
    "Wolf.Esp.esp_persistence_partial",
    "Wolf.Esp.esp_persisted_replay_accepted",
    "Wolf.Esp.esp_replay_delivered_after_restore"
   ],
   "note": "False of the code: the persistence callbacks carry 32 of the 64 window bits (proved counterexample)."
  },
  {
   "property": "C62",
   "status": "proved",
   "theorems": [
    "Wolf.Esp.esp_round_trip",
    "Wolf.Esp.esp_size_bound",
    "Wolf.Esp.esp_bad_trailer_refused"
   ],
   "note": "Cipher correctness is an explicit hypothesis (CipherOk), satisfied by a toy cipher."
  },
  {
   "property": "C63",
   "status": "proved",
   "theorems": [
    "Wolf.IpIn.echo_exact",
    "Wolf.IpIn.echo_reply_unanswered",
    "Wolf.IpIn.echo_example"
   ],
   "note": "For every datagram and configuration."
  },
  {
   "property": "C64",
   "status": "partial",
   "theorems": [
    "Wolf.Wg.retransmit_paced_partial",
    "Wolf.Wg.initiation_per_packet"
   ],
   "note": "Only retransmissions of an unanswered initiation are paced. In general false: after 120 s each packet sent by the initiator triggers an initiation (initiation_per_packet)."
  },
  {
   "property": "C65",
   "status": "proved",
   "theorems": [
    "Wolf.Wg.initiation_accepted_once",
    "Wolf.Wg.initiation_accept_spacing"
   ],
   "note": "For every history. Authenticity of the timestamp is an oracle."
  },
  {
   "property": "C66",
   "status": "proved",
   "theorems": [
    "Wolf.Supp.eap_tls_buffers_safe",
    "Wolf.Supp.eap_tls_round_trip",
    "Wolf.Supp.eap_tls_delivery"
   ],
   "note": "For all messages, MTUs and interleavings. Note: a final fragment that leaves the message shorter than its announced total is accepted as complete."
  },
  {
   "property": "C67",
   "status": "proved",
   "theorems": [
    "Wolf.Supp.key_data_exact",
    "Wolf.Supp.group_key_size",
    "Wolf.Supp.supplicant_memory_safe"
   ],
   "note": "For every frame and history. Buffers inside the crypto library, the TLS engine and SAE are not modelled."
  },
  {
   "property": "C68",
   "status": "proved",
   "theorems": [
    "Wolf.Supp.key_parse_exact",
    "Wolf.Supp.key_build_parse",
    "Wolf.Supp.eap_parse_safe",
    "Wolf.Supp.sent_key_frame_valid"
   ],
   "note": "For every byte string."
  },
  {
   "property": "C69",
   "status": "partial",
   "theorems": [
    "Wolf.Supp.psk_pmk_is_own",
    "Wolf.Supp.cache_provenance",
    "Wolf.Supp.reconnect_provenance",
    "Wolf.Supp.deinit_erases"
   ],
   "note": "For every history. Missing: a PSK session that calls pmksa_reconnect after an SAE association with the same SSID gets the SAE PMK (shown in Supp/Demo.lean), so psk_pmk_is_own excludes PSK reconnects; and an SAE entry is not bound to the passphrase."
  },
  {
   "property": "C70",
   "status": "proved",
   "theorems": [
    "Wolf.Supp.handshake_deadline",
    "Wolf.Supp.m2_retransmissions_bounded",
    "Wolf.Supp.m2_retry_spacing",
    "Wolf.Supp.m2_copies_spaced"
   ],
   "note": "For every history and clock."
  },
  {
   "property": "C71",
   "status": "proved",
   "theorems": [
    "Wolf.Tcp.acceptable_exact",
    "Wolf.Tcp.outside_window_ignored",
    "Wolf.Tcp.window_edge_exact",
    "Wolf.Tcp.window_never_shrinks",
    "Wolf.Tcp.advWin_le"
   ],
   "note": "For every history of peer segments and reads; acceptability within 2^30 of the window, window_never_shrinks for buffers up to 64 KiB (no scaling)."
  },
  {
   "property": "C72",
   "status": "partial",
   "theorems": [
    "Wolf.Tcp.Snd.send_window_partial",
    "Wolf.Tcp.Snd.window_exceeded_after_fast_retransmit"
   ],
   "note": "For every history, up to the bytes retransmitted in the same turn; window_exceeded_after_fast_retransmit shows that the code really exceeds the advertised window by those. Acknowledgments of data never sent and empty segments transmitted behind data excluded as in C12."
  },
  {
   "property": "C73",
   "status": "proved",
   "theorems": [
    "Wolf.Tcp.Snd.non_duplicate_ignored",
    "Wolf.Tcp.Snd.ack_response",
    "Wolf.Tcp.Snd.additive_increase",
    "Wolf.Tcp.Snd.third_duplicate_retransmits",
    "Wolf.Tcp.Snd.mark_first",
    "Wolf.Tcp.Snd.new_ack_accounting",
    "Wolf.Tcp.Snd.recovery_skipped_with_late_sack"
   ],
   "note": "For every state and history. recovery_skipped_with_late_sack: the retransmission happens but recovery is not entered if the first SACK block comes with the third duplicate."
  },
  {
   "property": "C74",
   "status": "proved",
   "theorems": [
    "Wolf.Tcp.E2E.tcp_end_to_end",
    "Wolf.Tcp.E2E.tcp_end_of_stream",
    "Wolf.Tcp.E2E.tcp_wire_honest",
    "Wolf.Tcp.E2E.tcp_no_send_after_close",
    "Wolf.Tcp.E2E.tcp_close_closes",
    "Wolf.Tcp.Snd.probe_ok"
   ],
   "note": "For every history; TimelyRun is the usual maximum-segment-lifetime assumption (no delivered segment is half the sequence space old). exEvs_ok runs a concrete exchange."
  },
  {
   "property": "C75",
   "status": "partial",
   "theorems": [
    "Wolf.Tcp.Close.close_exchange_partial",
    "Wolf.Tcp.Close.close_never_completes",
    "Wolf.Tcp.Close.old_refused",
    "Wolf.Tcp.Close.fin_done_needs_ack"
   ],
   "note": "False of the code between two wolfIP ends: our FIN consumes no sequence number, so the ACK of the peer FIN is refused (close_never_completes, for all numbers, windows and schedules). Proved: what does hold."
  },
  {
   "property": "C76",
   "status": "proved",
   "theorems": [
    "Wolf.Tcp.Snd.closed_only_when_acknowledged",
    "Wolf.Tcp.Snd.pending_close_kept",
    "Wolf.Tcp.Snd.close_given_up_only_after_retries"
   ],
   "note": "For every history; acknowledgment numbers within half the sequence space of the end of the data."
  },
  {
   "property": "C77",
   "status": "partial",
   "theorems": [
    "Wolf.Http.request_safe",
    "Wolf.Http.request_exact_partial",
    "Wolf.Http.serve_safe",
    "Wolf.Http.handler_exact",
    "Wolf.Http.page_exact",
    "Wolf.Http.handler_registered",
    "Wolf.Http.unfinished_request_is_served",
    "Wolf.Http.nul_ends_path"
   ],
   "note": "Memory safety and dispatch proved in full. request_exact_partial: exactly the requests of the specification are accepted, except that a request whose blank line is missing is accepted as complete too (unfinished_request_is_served), so the full statement is false of the code; an encoded NUL ends the path for the lookup (nul_ends_path)."
  },
  {
   "property": "C78",
   "status": "proved",
   "theorems": [
    "Wolf.Http.get_arg_exact"
   ],
   "note": "For every text, name and buffer size."
  },
  {
   "property": "C79",
   "status": "partial",
   "theorems": [
    "Wolf.Http.kept_apart_partial",
    "Wolf.Http.response_to_other_connection"
   ],
   "note": "For every history without failing sends in otherwise successful requests; response_to_other_connection shows the full statement is false of the code. TLS not modelled."
  },
  {
   "property": "C80",
   "status": "proved",
   "theorems": [
    "Wolf.Wg.Cookie.gate_exact",
    "Wolf.Wg.Cookie.refused_effect",
    "Wolf.Wg.Cookie.reply_exact",
    "Wolf.Wg.Cookie.secret_stable",
    "Wolf.Wg.Cookie.under_load_needs_recent_cookie",
    "Wolf.Wg.Cookie.cookie_accepted_only",
    "Wolf.Wg.Cookie.one_cookie_per_message",
    "Wolf.Wg.Cookie.sent_message_exact",
    "Wolf.Wg.Cookie.under_load_exact",
    "Wolf.Wg.Cookie.cookie_round_trip",
    "Wolf.Wg.Cookie.flood_every_second_cycle_open",
    "Wolf.Wg.Cookie.load_counter_wraps"
   ],
   "note": "For every history, arbitrary primitives (for the round trip: MACs of the right length, decryption undoes encryption, nonzero second MAC). The Noise processing behind the gate is represented by arbitrary further events. Findings proved: under a constant flood every second cycle runs ungated; the 16-bit counter wraps."
  },
  {
   "property": "C81",
   "status": "proved",
   "theorems": [
    "Wolf.Dgram.tap_reads_fifo",
    "Wolf.Dgram.packet_copies_plain",
    "Wolf.Dgram.packet_copies_vlan",
    "Wolf.Dgram.packet_only",
    "Wolf.Dgram.packet_once",
    "Wolf.Dgram.packet_bound",
    "Wolf.Dgram.packet_recv",
    "Wolf.Dgram.raw_exact",
    "Wolf.Dgram.raw_once",
    "Wolf.Dgram.raw_bound",
    "Wolf.Dgram.raw_recv",
    "Wolf.Dgram.icmp_only",
    "Wolf.Dgram.icmp_all",
    "Wolf.Dgram.icmp_once",
    "Wolf.Dgram.icmp_bound",
    "Wolf.Dgram.icmp_recv",
    "Wolf.Dgram.packet_bind_zero_limit",
    "Wolf.Dgram.packet_twice_limit",
    "Wolf.Dgram.raw_send_restricts",
    "Wolf.Dgram.icmp_error_limit",
    "Wolf.Dgram.icmp_leak_limit"
   ],
   "note": "For every frame, configuration and history. Buffers are lists and room is an input (C01 is the FIFO). Limits proved as theorems: binding a packet socket to interface 0 is a wildcard; sending restricts an unbound raw socket to one interface; an ICMP socket with an id never sees ICMP errors; calls on a closed ICMP descriptor leak into the next socket; a VLAN at index 0 duplicates."
  },
  {
   "property": "C82",
   "status": "proved",
   "theorems": [
    "Wolf.Dgram.tap_sends_fifo",
    "Wolf.Dgram.datagram_flush",
    "Wolf.Dgram.datagram_drain",
    "Wolf.Dgram.icmp_flush",
    "Wolf.Dgram.raw_flush",
    "Wolf.Dgram.packet_flush",
    "Wolf.Dgram.icmp_accept",
    "Wolf.Dgram.icmp_accepts",
    "Wolf.Dgram.raw_accept",
    "Wolf.Dgram.packet_accept",
    "Wolf.Dgram.icmp_send_example",
    "Wolf.Dgram.raw_send_example",
    "Wolf.Dgram.packet_send_example",
    "Wolf.Dgram.icmp_head_of_line",
    "Wolf.Dgram.icmp_multicast_limit",
    "Wolf.Dgram.raw_hdrincl_limit",
    "Wolf.Dgram.raw_failed_send_limit",
    "Wolf.Dgram.raw_broadcast_limit",
    "Wolf.Dgram.raw_refused_limit",
    "Wolf.Dgram.packet_interface_limit"
   ],
   "note": "For every history, environment and payload; routing is the lookup of C18/C19, the ARP cache, filter and driver are arbitrary. For UDP the flush theorems (accepted UDP datagrams are in C20). What differs from the plain reading (raw and packet frames a driver refuses are lost; queued packet frames all use the last interface; IP_HDRINCL remembers the first destination; raw to a subnet broadcast and ICMP to a group ask ARP for ever) is in the statements or proved as limits."
  },
  {
   "property": "C83",
   "status": "proved",
   "theorems": [
    "Wolf.Dgram.tap_socket",
    "Wolf.Dgram.tap_close",
    "Wolf.Dgram.packet_bind",
    "Wolf.Dgram.raw_bind",
    "Wolf.Dgram.raw_connect",
    "Wolf.Dgram.icmp_bind",
    "Wolf.Dgram.icmp_connect",
    "Wolf.Dgram.icmp_random_id_limit"
   ],
   "note": "Exact effect of each call in every state. Limits: an ICMP socket keeps the addresses its slot held (calls on a closed descriptor, icmp_leak_limit in C81); a send without bound id picks one without the collision test."
  },
  {
   "property": "C84",
   "status": "partial",
   "theorems": [
    "Wolf.Ready.readable_announced",
    "Wolf.Ready.event_delivered",
    "Wolf.Ready.can_read_exact",
    "Wolf.Ready.readable_true",
    "Wolf.Ready.ready_example",
    "Wolf.Ready.ready_hyps",
    "Wolf.Ready.readable_lost_in_callback",
    "Wolf.Ready.first_event_lost",
    "Wolf.Ready.udp_false_readable",
    "Wolf.ReadyT.tcp_readable_announced",
    "Wolf.ReadyT.tcp_eof_announced",
    "Wolf.ReadyT.tcp_event_delivered",
    "Wolf.ReadyT.tcp_abort_told",
    "Wolf.ReadyT.tcp_last_ack_told",
    "Wolf.ReadyT.tcp_can_read_exact",
    "Wolf.ReadyT.tcp_read_result",
    "Wolf.ReadyT.tcp_ready_example",
    "Wolf.ReadyT.tcp_ready_hyps",
    "Wolf.ReadyT.unread_lost",
    "Wolf.ReadyT.closed_rest_lost"
   ],
   "note": "Proved for UDP, ICMP and TCP sockets and every history; for raw and packet sockets if no datagram arrives while their own callback runs. Without that the claim is false of the code: their loop clears the events after the callback (readable_lost_in_callback, first_event_lost). Further limits: a UDP READABLE event may be stale (udp_false_readable); can_read says yes for bytes left in CLOSING/TIME_WAIT/LAST_ACK that recv no longer gives (unread_lost). The listening phase is C18."
  },
  {
   "property": "C85",
   "status": "partial",
   "theorems": [
    "Wolf.Ready.udp_writable_announced",
    "Wolf.Ready.udp_flush_announces",
    "Wolf.Ready.writable_example",
    "Wolf.Ready.writable_lost",
    "Wolf.Ready.writable_lost_example",
    "Wolf.ReadyT.tcp_writable_announced",
    "Wolf.ReadyT.tcp_ack_announces",
    "Wolf.ReadyT.tcp_write_example",
    "Wolf.ReadyT.can_write_false"
   ],
   "note": "Proved for UDP and TCP and every history in which an empty transmit buffer has room. False of the code for ICMP, raw and packet sockets: flushing them never raises WRITABLE (writable_lost). can_write is 1 in CLOSE_WAIT even when send says EAGAIN (can_write_false)."
  },
  {
   "property": "C86",
   "status": "partial",
   "theorems": [
    "Wolf.Bsd.blocked_call_woken_partial",
    "Wolf.Bsd.recv_returns",
    "Wolf.Bsd.recv_returns_data",
    "Wolf.Bsd.connect_returns_partial",
    "Wolf.Bsd.send_returns_partial",
    "Wolf.Bsd.close_returns_partial",
    "Wolf.Bsd.dead_stuck",
    "Wolf.Bsd.send_reset_hangs",
    "Wolf.Bsd.send_dead_hangs",
    "Wolf.Bsd.connect_refused_hangs",
    "Wolf.Bsd.connect_missed",
    "Wolf.Bsd.close_simultaneous_hangs",
    "Wolf.Bsd.close_full_hangs"
   ],
   "note": "recv: proved for every history. connect, send, close: proved under the stated conditions on the history, and false of the code without them: send() on a reset connection, connect() refused by a reset, close() with a full transmit buffer or when both sides close at once block for ever, each proved for every continuation."
  },
  {
   "property": "C87",
   "status": "partial",
   "theorems": [
    "Wolf.BsdFd.fd_acts_on_own_partial",
    "Wolf.BsdFd.fd_close_own_partial",
    "Wolf.BsdFd.fd_not_shared_partial",
    "Wolf.BsdFd.fd_create",
    "Wolf.BsdFd.fd_create_fails",
    "Wolf.BsdFd.fd_taken_over"
   ],
   "note": "Proved for every history in which the stack frees no slot under an open descriptor; false of the code otherwise (fd_taken_over): a connection that dies under its descriptor leaves the slot to the next socket(), and calls on the old descriptor act on that one."
  },
  {
   "property": "C88",
   "status": "partial",
   "theorems": [
    "Wolf.Tcp.Neg.handshake_agrees_partial",
    "Wolf.Tcp.Neg.only_what_the_peer_offered",
    "Wolf.Tcp.Neg.wscale_smallest",
    "Wolf.Tcp.Neg.window_read",
    "Wolf.Tcp.Neg.window_never_more",
    "Wolf.Tcp.Neg.segment_fits",
    "Wolf.Tcp.Neg.segment_fits_peer_partial",
    "Wolf.Tcp.Neg.agree_passes",
    "Wolf.Tcp.Neg.mss_overrun",
    "Wolf.Tcp.Neg.min_mtu_mute",
    "Wolf.Tcp.Neg.timestamps_disagree",
    "Wolf.Tcp.Neg.disagree_drops_all"
   ],
   "note": "Agreement proved on the bytes of the SYN and SYN-ACK for every MTU of the client and every MTU of at least 78 (frame) of the server. False of the code below: a server whose SYN-ACK has no room for the timestamp option keeps timestamps on and drops everything the peer sends. Sizes: with timestamps a segment exceeds the MTU of a peer with a smaller MTU by 12 bytes (the option is not subtracted from the MSS of the peer)."
  },
  {
   "property": "C89",
   "status": "partial",
   "theorems": [
    "Wolf.Supp.Peap.inner_ack_proved_partial",
    "Wolf.Supp.Peap.peap_needs_tunnel",
    "Wolf.Supp.Peap.wrong_proof_fails",
    "Wolf.Supp.Peap.failed_stays",
    "Wolf.Supp.Peap.peap_success_unproved",
    "Wolf.Supp.Peap.result_tlv_unproved"
   ],
   "note": "The acknowledgement half holds for every session. The full property is false of the code: EAP-Success is honoured once the TLS handshake is complete, whether or not the inner authentication took place (peap_success_unproved, the phase-2 bypass), and a Result TLV is always answered with Success (result_tlv_unproved)."
  },
  {
   "property": "C90",
   "status": "proved",
   "theorems": [
    "Wolf.Supp.challenge_parsed",
    "Wolf.Supp.response_read",
    "Wolf.Supp.authresp_extracted",
    "Wolf.Supp.nt_response_exact",
    "Wolf.Supp.verify_exact",
    "Wolf.Supp.msk_exact"
   ],
   "note": "Hash functions and the block cipher are parameters of known output length."
  },
  {
   "property": "C91",
   "status": "partial",
   "theorems": [
    "Wolf.Sock.blind_segment_harmless_partial",
    "Wolf.Sock.ack_only_sent_partial",
    "Wolf.Sock.fin_number",
    "Wolf.Sock.outside_not_acceptable",
    "Wolf.Sock.blind_window_taken",
    "Wolf.Sock.ack_half_circle_taken",
    "Wolf.Sock.blind_example",
    "Wolf.Sock.fin_example"
   ],
   "note": "False of the code in two points, both proved: the window field of an out-of-window segment is honoured (blind_window_taken), and an acknowledgment exactly 2^31 ahead of an idle connection is taken (ack_half_circle_taken). Everything else is proved for all segments, states and histories."
  },
  {
   "property": "C92",
   "status": "partial",
   "theorems": [
    "Wolf.Kvf.store_crash_safe_partial",
    "Wolf.Kvf.put_succeeds",
    "Wolf.Kvf.torn_header_loses_everything",
    "Wolf.Kvf.torn_header_unexplained",
    "Wolf.Kvf.error_blocks_puts",
    "Wolf.Kvf.torn_tombstone_undeletable"
   ],
   "note": "Proved for every history and crash point if a power failure leaves header quadwords erased or whole (other quadwords may be left with anything). Without that the claim is false of the code: a torn record header makes the next restart reformat the bank and lose every value (torn_header_loses_everything, torn_header_unexplained)."
  },
  {
   "property": "C93",
   "status": "proved",
   "theorems": [
    "Wolf.Sae.sae_agreement",
    "Wolf.Sae.sae_sessions_agree",
    "Wolf.Sae.init_same",
    "Wolf.Sae.rep_add",
    "Wolf.Sae.rep_dbl",
    "Wolf.Sae.rep_mul",
    "Wolf.Sae.toy_setup",
    "Wolf.Sae.sae_sessions_agree_nist",
    "Wolf.Sae.nist_ok",
    "Wolf.Sae.ok256",
    "Wolf.Sae.ok384",
    "Wolf.Sae.order_of_point",
    "Wolf.Sae.pocklington"
   ],
   "note": "For every curve satisfying Setup; P-256 and P-384 are proved to satisfy it (kernel-checked certificates); wolfCrypt point multiplication is the n-fold sum. The group law is Mathlib's."
  },
  {
   "property": "C94",
   "status": "proved",
   "theorems": [
    "Wolf.Sae.parse_exact",
    "Wolf.Sae.verify_exact",
    "Wolf.Sae.compute_exact",
    "Wolf.Sae.confirm_binds",
    "Wolf.Sae.own_confirm_refused",
    "Wolf.Sae.sae_key_needs_confirm"
   ],
   "note": "The two binding theorems name the HMAC collision they exclude."
  },
  {
   "property": "C95",
   "status": "proved",
   "theorems": [
    "Wolf.Sae.hnp_computes_pwe",
    "Wolf.Sae.hnp_symmetric",
    "Wolf.Sae.isPwe_unique",
    "Wolf.Sae.qrBlind_eq",
    "Wolf.Sae.blind_test_zero_is_random",
    "Wolf.Sae.hnp_computes_pwe_nist",
    "Wolf.Sae.mac_order"
   ],
   "note": "The random generator may return anything non-zero modulo p."
  },
  {
   "property": "C96",
   "status": "proved",
   "theorems": [
    "Wolf.Sae.sswu_total",
    "Wolf.Sae.sswu_identity",
    "Wolf.Sae.pt_computed",
    "Wolf.Sae.h2e_pwe_computed",
    "Wolf.Sae.imageOf_unique",
    "Wolf.Sae.h2eVal_comm",
    "Wolf.Sae.pt_computed_nist",
    "Wolf.Sae.mac_order"
   ],
   "note": ""
  },
  {
   "property": "C97",
   "status": "proved",
   "theorems": [
    "Wolf.Supp.prf_exact",
    "Wolf.Supp.kdf_exact",
    "Wolf.Supp.ptk_exact",
    "Wolf.Supp.ptk_symmetric",
    "Wolf.Supp.ptk_context_inj",
    "Wolf.Supp.cmac_exact",
    "Wolf.Supp.cmac_safe",
    "Wolf.Supp.mic_verify_exact",
    "Wolf.Supp.micOk_is_verify",
    "Wolf.Supp.pmk_exact",
    "Wolf.Supp.unwrap_exact"
   ],
   "note": "HMAC, single-block AES and key unwrap are parameters that may fail; what the file builds from them is modelled line by line."
  },
  {
   "property": "C98",
   "status": "proved",
   "theorems": [
    "Wolf.Supp.handshake_completes"
   ],
   "note": "For every Crypto (any functions of the right output sizes); the MIC function must not fail and the integrator must accept frames and keys."
  },
  {
   "property": "C99",
   "status": "partial",
   "theorems": [
    "Wolf.Supp.forged_key_frame_harmless_partial",
    "Wolf.Supp.forged_message3_aborts",
    "Wolf.Supp.forged_failure_aborts"
   ],
   "note": "Proved for key frames in an authenticated session. False of the code otherwise, both proved: a key frame with a wrong MIC ends a handshake in progress (forged_message3_aborts) and an unprotected EAP-Failure ends any session, an authenticated one included (forged_failure_aborts)."
  },
  {
   "property": "C100",
   "status": "proved",
   "theorems": [
    "Wolf.Wg.Noise.handshake_agrees",
    "Wolf.Wg.Noise.configured_pairs",
    "Wolf.Wg.Noise.hsInit_spec",
    "Wolf.Wg.Noise.createInit_complete",
    "Wolf.Wg.Noise.consumeInit_complete",
    "Wolf.Wg.Noise.createResp_complete",
    "Wolf.Wg.Noise.consumeResp_complete",
    "Wolf.Wg.Noise.beginSession_complete"
   ],
   "note": "handshake_agrees: the whole run, against specStatic/specTs/specEmpty/specKeys, closed expressions of Noise IKpsk2. Primitives are parameters with the laws of Prim.Good (met by toy_good); the responder decodes the 65-octet static key and finds the peer."
  },
  {
   "property": "C101",
   "status": "proved",
   "theorems": [
    "Wolf.Wg.Noise.consumeInit_sound",
    "Wolf.Wg.Noise.consumeInit_complete",
    "Wolf.Wg.Noise.consumeResp_sound",
    "Wolf.Wg.Noise.consumeResp_complete",
    "Wolf.Wg.Noise.createInit_sound",
    "Wolf.Wg.Noise.createResp_sound",
    "Wolf.Wg.Noise.beginSession_sound",
    "Wolf.Wg.Noise.keys_bind",
    "Wolf.Wg.Noise.stamps_increase",
    "Wolf.Wg.Noise.same_refused",
    "Wolf.Wg.Noise.differs_false",
    "Wolf.Wg.Noise.memLe_false"
   ],
   "note": "sound directions hold for every pattern of failing primitives. keys_bind names the 32 HMAC queries among which a collision would have to be. The AEAD is deterministic with exact decryption (dec_only), as AES-GCM is."
  },
  {
   "property": "C102",
   "status": "proved",
   "theorems": [
    "Wolf.Wg.Noise.sendData_spec",
    "Wolf.Wg.Noise.data_round_trip",
    "Wolf.Wg.Noise.openData_iff",
    "Wolf.Wg.Noise.openData_fails",
    "Wolf.Wg.Noise.keepalive_round_trip",
    "Wolf.Wg.Noise.padding_harmless",
    "Wolf.Wg.Noise.nonce_injective",
    "Wolf.Wg.Noise.nonce_layout",
    "Wolf.Wg.Noise.timestamp_order",
    "Wolf.Wg.Noise.sendKeepalive_spec",
    "Wolf.Wg.Noise.innerOk_iff",
    "Wolf.Wg.padded_to_sixteen"
   ],
   "note": ""
  },
  {
   "property": "C103",
   "status": "proved",
   "theorems": [
    "Wolf.Dhcp.discover_wellformed",
    "Wolf.Dhcp.request_selecting_wellformed",
    "Wolf.Dhcp.request_extending_wellformed",
    "Wolf.Dhcp.decline_wellformed",
    "Wolf.Dhcp.decode_members",
    "Wolf.Dhcp.options_enc",
    "Wolf.Dhcp.dhcp_acquires",
    "Wolf.Dhcp.dhcp_probed_then_bound",
    "Wolf.Dhcp.dhcp_extends"
   ],
   "note": "readWire is an independent RFC 2131 reader; Srv.answer an RFC 2131 server built on it. dhcp_extends also records that after every renewal the address is probed again (state DAD), during which dhcp_bound() is false."
  },
  {
   "property": "C104",
   "status": "partial",
   "theorems": [
    "Wolf.Drv.eqos_rx_exact",
    "Wolf.Drv.gmac_rx_exact_partial",
    "Wolf.Drv.gmac_rearm_race"
   ],
   "note": "Proved in full for stm32_eth.c and lpc_enet.c. For stm32f4_eth.c and va416xx_eth.c false of the code (gmac_rearm_race): the last descriptor is owned by the engine while its end-of-ring flag is clear; proved for all schedules in which the engine does not fetch at that moment."
  },
  {
   "property": "C105",
   "status": "partial",
   "theorems": [
    "Wolf.Drv.eqos_rx_live_partial",
    "Wolf.Drv.eqos_rx_deaf",
    "Wolf.Drv.tx_live_partial",
    "Wolf.Drv.eqos_tx_wedge"
   ],
   "note": "False of the code in general: eqos_rx_deaf (RBU raised again during polls leaves the tail pointer on the awaited descriptor) and eqos_tx_wedge (a full transmit ring has the tail pointer equal to the current descriptor) are proved; outside these situations progress is proved."
  },
  {
   "property": "C106",
   "status": "proved",
   "theorems": [
    "Wolf.Drv.tx_exact",
    "Wolf.Drv.send_result",
    "Wolf.Drv.send_room"
   ],
   "note": ""
  },
  {
   "property": "C107",
   "status": "partial",
   "theorems": [
    "Wolf.Glue.ssl_io_exact",
    "Wolf.Glue.report_outcome",
    "Wolf.Glue.ssh_io_exact_partial",
    "Wolf.Glue.ssh_clean_io",
    "Wolf.Glue.ssh_double_cleanup"
   ],
   "note": "Proved in full for wolfssl_io.c. For wolfssh_io.c false of the code if a session is cleaned up that is not set up (ssh_double_cleanup: the second clean-up frees the descriptor of another session); proved for histories without that."
  },
  {
   "property": "C108",
   "status": "proved",
   "theorems": [
    "Wolf.Glue.ssl_setup_succeeds",
    "Wolf.Glue.ssh_setup_succeeds",
    "Wolf.Glue.context_registered",
    "Wolf.Glue.ssl_leak",
    "Wolf.Glue.ninth_context"
   ],
   "note": "ssl_leak and ninth_context show that the discipline in the statement is needed: a second set-up without clean-up loses a descriptor; a ninth context is reported as registered but is not."
  },
  {
   "property": "C109",
   "status": "proved",
   "theorems": [
    "Wolf.Glue.Mqtt.mqtt_sockets",
    "Wolf.Glue.Mqtt.mqtt_cleanup",
    "Wolf.Glue.Mqtt.mqtt_results"
   ],
   "note": "The stack is assumed to return descriptors that are not open."
  },
  {
   "property": "C110",
   "status": "partial",
   "theorems": [
    "Wolf.Posix.Fds.fd_exact_partial",
    "Wolf.Posix.Fds.no_leak",
    "Wolf.Posix.Fds.freed_slot_shared",
    "Wolf.Posix.Fds.other_threads_bypass",
    "Wolf.Posix.Fds.foreign_close_hijack"
   ],
   "note": "False of the code when the stack frees a slot a descriptor still refers to (freed_slot_shared), for calls of other threads (other_threads_bypass) and after a close by another thread (foreign_close_hijack); proved for all histories without these."
  },
  {
   "property": "C111",
   "status": "partial",
   "theorems": [
    "Wolf.Posix.tokens_exact",
    "Wolf.Posix.blocked_call_returns",
    "Wolf.Posix.blocked_accept_returns",
    "Wolf.Posix.call_waits",
    "Wolf.Posix.eagain_spin"
   ],
   "note": "No wake-up is lost (proved for every interleaving). The call does not sleep, but spins with the stack locked, when the socket answers -EAGAIN although it is reported ready (eagain_spin: full buffer in CLOSE_WAIT); call_waits excludes that."
  },
  {
   "property": "C112",
   "status": "partial",
   "theorems": [
    "Wolf.Posix.poll_sound",
    "Wolf.Posix.poll_reports_partial",
    "Wolf.Posix.poll_out_deaf",
    "Wolf.Posix.select_out_deaf",
    "Wolf.Posix.poll_forgets",
    "Wolf.Posix.poll_not_level",
    "Wolf.Posix.write_hides_read",
    "Wolf.Posix.select_drops_close"
   ],
   "note": "False of the code in six ways, each proved; soundness of what is reported, and the return of a poll for reading that is blocked when the event is announced, are proved."
  },
  {
   "property": "C113",
   "status": "partial",
   "theorems": [
    "Wolf.Posix.Send.send_exact_partial",
    "Wolf.Posix.Send.failed_send_took_nothing",
    "Wolf.Posix.Send.failed_send_took_some",
    "Wolf.Posix.Send.empty_datagram_not_sent"
   ],
   "note": "The last clause is false for blocking stream calls (failed_send_took_some); it is proved for non-blocking descriptors and datagrams. empty_datagram_not_sent: a send of no octets never reaches the stack."
  },
  {
   "property": "C114",
   "status": "proved",
   "theorems": [
    "Wolf.Posix.Iov.sendmsg_exact",
    "Wolf.Posix.Iov.recvmsg_exact",
    "Wolf.Posix.Iov.ttl_exact",
    "Wolf.Posix.Iov.calcLen_spec"
   ],
   "note": ""
  },
  {
   "property": "C115",
   "status": "partial",
   "theorems": [
    "Wolf.Posix.Gai.answer_is_its_own_partial",
    "Wolf.Posix.Gai.not_wedged",
    "Wolf.Posix.Gai.late_answer_taken",
    "Wolf.Posix.Gai.gai_free_exact",
    "Wolf.Posix.Gai.service_exact",
    "Wolf.Posix.Gai.validate_exact"
   ],
   "note": "False of the code if the answer to a timed-out query arrives between the two steps of a later call (late_answer_taken); proved for all other histories."
  },
  {
   "property": "C116",
   "status": "partial",
   "theorems": [
    "Wolf.Drv.Gem.gem_poll_exact",
    "Wolf.Drv.Gem.gem_swq_exact_partial",
    "Wolf.Drv.Gem.swq_duplicates",
    "Wolf.Drv.Gem.swq_tears"
   ],
   "note": "Proved in full for gem_rx_poll.c. False of gem_swq.c (used by zcu102 and versal): the handler queues the descriptors of the ring again and again until the 64-deep queue is full, so 16 waiting frames are delivered four times each (swq_duplicates) or torn (swq_tears); proved when the handler loop never runs with the whole ring queued."
  },
  {
   "property": "C117",
   "status": "partial",
   "theorems": [
    "Wolf.Poll.timers_never_run_out_partial",
    "Wolf.Poll.timers_run_out",
    "Wolf.Poll.resolver_wedged"
   ],
   "note": "Proved when the memberships number at most MAX_TCPSOCKETS - 2 (so for builds without IP_MULTICAST from two TCP sockets on). False with IP_MULTICAST at the default sizes: one general query fills the table, after which TCP, DHCP and DNS timers are silently not armed (timers_run_out) and the resolver stays busy until an answer comes (resolver_wedged)."
  },
  {
   "property": "C118",
   "status": "proved",
   "theorems": [
    "Wolf.Poll.poll_devices_exact",
    "Wolf.Poll.waiting_frame_reached",
    "Wolf.Poll.poll_timers_end",
    "Wolf.Poll.handle_spec",
    "Wolf.Poll.one_poll"
   ],
   "note": ""
  },
  {
   "property": "C119",
   "status": "partial",
   "theorems": [
    "Wolf.Drv.Line.line_rx_exact_partial",
    "Wolf.Drv.Line.next_call_takes",
    "Wolf.Drv.Line.frame_lost",
    "Wolf.Drv.Line.reordered",
    "Wolf.Drv.LineTx.line_tx_exact_partial",
    "Wolf.Drv.LineTx.device_sends",
    "Wolf.Drv.LineTx.sent_twice",
    "Wolf.Drv.LineTx.wedged",
    "Wolf.Drv.LineTx.late_frame_sent",
    "Wolf.Drv.LineTx.no_overrun"
   ],
   "note": "Proved when device accesses are snooped, or descriptors do not share lines, or no completion falls into the line a call works on. Without snooping (what the comments in the driver assume) it is false: a recycled descriptor is written back together with its neighbours, so a frame received meanwhile is lost and the ring is out of step (frame_lost, reordered), a frame sent meanwhile is sent again (sent_twice), or with the FMan doorbell the ring is stuck for ever (wedged). late_frame_sent: eTSEC reports -1 for a frame it sends later."
  },
  {
   "property": "C120",
   "status": "proved",
   "theorems": [
    "Wolf.Drv.Cyw.cyw_rx_exact",
    "Wolf.Drv.Cyw.poll_exact",
    "Wolf.Drv.Cyw.packet_spec",
    "Wolf.Drv.Cyw.carried",
    "Wolf.Drv.Cyw.frame_of_packet",
    "Wolf.Drv.Cyw.full_frames_dropped",
    "Wolf.Drv.Cyw.noise_unbounded"
   ],
   "note": "Findings proved alongside: the port registers MTU 1500, read by the stack as a frame length with the Ethernet header, so received frames of 1501-1514 octets are always dropped (full_frames_dropped); one poll has no limit on noise frames (noise_unbounded)."
  },
  {
   "property": "C121",
   "status": "proved",
   "theorems": [
    "Wolf.Drv.CywTx.window_exact",
    "Wolf.Drv.CywTx.never_past_window",
    "Wolf.Drv.CywTx.data_exact",
    "Wolf.Drv.CywTx.seq_exact",
    "Wolf.Drv.CywTx.credit_bounded",
    "Wolf.Drv.CywTx.ungated_reopens",
    "Wolf.Drv.CywTx.wedged"
   ],
   "note": "The limits in the statement are needed: 130 unanswered control requests reopen the window (ungated_reopens), 66 make every later grant look corrupt (wedged)."
  },
  {
   "property": "C122",
   "status": "proved",
   "theorems": [
    "Wolf.Drv.CywIoctl.ioctl_exact",
    "Wolf.Drv.CywIoctl.answer_is_ours",
    "Wolf.Drv.CywIoctl.key_scrubbed",
    "Wolf.Drv.CywIoctl.keyStruct_ea",
    "Wolf.Drv.CywIoctl.events_lost",
    "Wolf.Drv.CywIoctl.error_is_timeout"
   ],
   "note": "Findings proved alongside: link events arriving during a control request are lost (events_lost); status -1 and a time-out look the same (error_is_timeout)."
  },
  {
   "property": "C123",
   "status": "proved",
   "theorems": [
    "Wolf.Drv.CywReq.gspi_fields",
    "Wolf.Drv.CywReq.iovar_exact",
    "Wolf.Drv.CywReq.clm_exact"
   ],
   "note": "clm_exact is about the requests sent while the radio accepts each of them."
  },
  {
   "property": "C124",
   "status": "proved",
   "theorems": [
    "Wolf.Tftp.sink_protocol",
    "Wolf.Tftp.complete_means_verified",
    "Wolf.Tftp.no_handle_reopens",
    "Wolf.Tftp.announced_size_ignored"
   ],
   "note": "For sinks whose open provides a handle (otherwise the sink is reopened for every block: no_handle_reopens). Finding: the number given to the verification is the count of bytes received, not the size the server announced, so the \"size mismatch vs tsize\" tests of the two firmware sinks never fire (announced_size_ignored)."
  },
  {
   "property": "C125",
   "status": "partial",
   "theorems": [
    "Wolf.Ota.download_crash_safe_partial",
    "Wolf.Ota.download_complete_installed_partial",
    "Wolf.Ota.flag_only_after_verify",
    "Wolf.Ota.flag_implies_image_partial",
    "Wolf.Ota.success_installs_partial",
    "Wolf.Ota.programs_erased_partial",
    "Wolf.Ota.staging_confined",
    "Wolf.Ota.staging_memory_safe",
    "Wolf.Ota.staging_accepts",
    "Wolf.Ota.erase_selects_page",
    "Wolf.Ota.full_image_clobbered",
    "Wolf.Ota.stale_flag_survives",
    "Wolf.Ota.short_download_flagged"
   ],
   "note": "Confinement and memory safety hold for all images; the rest for images that leave the last quad-word free and a flag that is clear at the start. False of the code otherwise: an image reaching the last quad-word is accepted and the flag is programmed over it (full_image_clobbered); a flag left set is not cleared before the old image is overwritten (stale_flag_survives); a download shorter than announced is flagged (short_download_flagged)."
  },
  {
   "property": "C126",
   "status": "proved",
   "theorems": [
    "Wolf.Ota.Zynq.ota_disk_written_once",
    "Wolf.Ota.Zynq.ota_socket_balanced",
    "Wolf.Ota.Zynq.ota_retry",
    "Wolf.Ota.Zynq.ota_reset_only_complete"
   ],
   "note": "The disk layer is an oracle; one disk_part_write is one step (a power failure inside it is left to the boot loader, as the code says)."
  },
  {
   "property": "C127",
   "status": "proved",
   "theorems": [
    "Wolf.Mcast.Wire.report_wire",
    "Wolf.Mcast.Wire.group_mac",
    "Wolf.Mcast.Wire.report_is_frame",
    "Wolf.Mcast.Wire.join_record_is_current_state"
   ],
   "note": "The frame is built by the same stores as the code. report_is_frame ties it to the reports of C42 and C43. Finding: a join is announced with a current-state record, never with CHANGE_TO_EXCLUDE (RFC 3376 5.1). The ESP branch is not modelled."
  },
  {
   "property": "C128",
   "status": "partial",
   "theorems": [
    "Wolf.Tls.client_holds",
    "Wolf.Tls.rtl_releases",
    "Wolf.Tls.rtl_setup_succeeds",
    "Wolf.Tls.generic_at_most_eight",
    "Wolf.Tls.rtl_gives_up",
    "Wolf.Tls.generic_waits_forever",
    "Wolf.Tls.rtl_flapping_never_ends",
    "Wolf.Tls.send_result",
    "Wolf.Tls.send_ambiguous"
   ],
   "note": "Ownership of socket and session: proved for both clients. The rest holds for the rtl8735b client and is false of src/port/tls_client.c, which never cleans up its glue descriptor (generic_at_most_eight: no handshake after eight sessions) and never gives up (generic_waits_forever). The rtl client gives up on a silent server (rtl_gives_up) but not on a flapping connection (rtl_flapping_never_ends)."
  },
  {
   "property": "C129",
   "status": "partial",
   "theorems": [
    "Wolf.Tls.Srv.server_holds",
    "Wolf.Tls.Srv.server_serves",
    "Wolf.Tls.Srv.server_cleanup",
    "Wolf.Tls.Srv.stale_callback",
    "Wolf.Tls.Srv.echo_order",
    "Wolf.Tls.Srv.echo_exact_partial",
    "Wolf.Tls.Srv.echo_lost"
   ],
   "note": "Ownership, service, clean-up, stale callbacks and order are proved for every history. That everything read is sent back holds as long as wolfSSL_write takes all or fails (echo_exact_partial) and is false otherwise (echo_lost)."
  },
  {
   "property": "C130",
   "status": "partial",
   "theorems": [
    "Wolf.Ssh.auth_exact",
    "Wolf.Ssh.uint_decimal",
    "Wolf.Ssh.answer_fits",
    "Wolf.Ssh.answer_whole",
    "Wolf.Ssh.answer_of",
    "Wolf.Ssh.server_holds",
    "Wolf.Ssh.session_io",
    "Wolf.Ssh.setup_never_fails",
    "Wolf.Ssh.commands_exact_partial",
    "Wolf.Ssh.rest_of_read_lost",
    "Wolf.Ssh.nul_hides",
    "Wolf.Ssh.long_line_stuck",
    "Wolf.Ssh.accept_serves",
    "Wolf.Ssh.reinit_recovers",
    "Wolf.Ssh.lost_while_port_held",
    "Wolf.Ssh.lost_to_fin",
    "Wolf.Ssh.dead_for_ever",
    "Wolf.Ssh.dead_by_fin",
    "Wolf.Ssh.dead_by_two_clients",
    "Wolf.Ssh.close_refused"
   ],
   "note": "Authentication, answers, ownership, session input and output, accepting and recovery (under the conditions of reinit_recovers) are proved for every history. False of the code: a line after another in one read is lost (rest_of_read_lost), a NUL hides the rest (nul_hides), a line of 511 bytes blocks the session (long_line_stuck); a listening socket that cannot be replaced at once is lost for ever (lost_while_port_held, lost_to_fin, dead_for_ever); a refused close leaks the connection (close_refused)."
  },
  {
   "property": "C131",
   "status": "partial",
   "theorems": [
    "Wolf.Http.Resp.number_read",
    "Wolf.Http.Resp.response_read",
    "Wolf.Http.Resp.responses_exact_partial",
    "Wolf.Http.Resp.responses_delivered",
    "Wolf.Http.Resp.closed_silent",
    "Wolf.Http.Resp.page_is_response",
    "Wolf.Http.Resp.bare_never_ends",
    "Wolf.Http.Resp.empty_page_closes",
    "Wolf.Http.Resp.empty_chunk_closes",
    "Wolf.Http.Resp.long_type_cut",
    "Wolf.Http.Resp.short_write_corrupts"
   ],
   "note": "Proved for all responses with data over a transport that refuses or takes whole writes. False of the code otherwise: a write taken in part is not continued (short_write_corrupts); the bare answers (200 OK, 400, 404, 418, 500, 503) announce chunks and never end (bare_never_ends); empty pages and chunks close the connection (empty_page_closes, empty_chunk_closes); a long content type cuts the header (long_type_cut)."
  },
  {
   "property": "C132",
   "status": "partial",
   "theorems": [
    "Wolf.MqttC.mqtt_secure",
    "Wolf.MqttC.mqtt_target",
    "Wolf.MqttC.mqtt_publishes",
    "Wolf.MqttC.mqtt_none_lost",
    "Wolf.MqttC.mqtt_delivers",
    "Wolf.MqttC.mqtt_no_stray_close",
    "Wolf.MqttC.mqtt_connect_params_partial",
    "Wolf.MqttC.mqtt_idle_releases",
    "Wolf.MqttC.mqtt_field",
    "Wolf.MqttC.mqtt_configured",
    "Wolf.MqttC.mqtt_client_dest",
    "Wolf.MqttC.mqtt_at_most_eight",
    "Wolf.MqttC.restart_never_again",
    "Wolf.MqttC.restart_connect_blank",
    "Wolf.MqttC.waits_for_connection",
    "Wolf.MqttC.idle_for_good",
    "Wolf.MqttC.accepted_is_lost",
    "Wolf.MqttC.topics_collide",
    "Wolf.MqttC.callback_reversed"
   ],
   "note": "TLS only, addresses, messages and no double close: proved for all histories. The CONNECT and what is held at rest: proved when the client is started only at rest; false of the code otherwise (restart_connect_blank, restart_never_again). False of the code: I/O set up for more than eight sessions (mqtt_at_most_eight), an accepted message survives an error (accepted_is_lost), long topics are refused (topics_collide), the connect callback of the glue goes to the address given (callback_reversed). The broker certificate is not verified by the code at all."
  },
  {
   "property": "C133",
   "status": "proved",
   "theorems": [
    "Wolf.Tftp.Srv.Ses.tftp_session_isolated",
    "Wolf.Tftp.Srv.Ses.tftp_write_origin",
    "Wolf.Tftp.Srv.Ses.tftp_one_session_per_peer",
    "Wolf.Tftp.Srv.Ses.tftp_session_terms",
    "Wolf.Tftp.Srv.Ses.tftp_terms_kept",
    "Wolf.Tftp.Srv.Ses.tftp_acks_only_written",
    "Wolf.Tftp.Srv.Ses.tftp_files_closed",
    "Wolf.Tftp.Srv.Ses.tftp_session_ends",
    "Wolf.Tftp.Srv.Ses.tftp_session_begins"
   ],
   "note": "Over the server model of C56/C57 (every storage answer free). The end of a session counts polls further apart than its timeout; time is the 32-bit clock of the code, polls less than 24 days apart."
  },
  {
   "property": "C134",
   "status": "partial",
   "theorems": [
    "Wolf.Dot1x.dot1x_success",
    "Wolf.Dot1x.dot1x_result",
    "Wolf.Dot1x.dot1x_authenticates",
    "Wolf.Dot1x.dot1x_io",
    "Wolf.Dot1x.dot1x_wiped",
    "Wolf.Dot1x.dot1x_deadline_partial",
    "Wolf.Dot1x.dot1x_start_lost"
   ],
   "note": "All proved but the ten seconds: when the socket refuses the one EAPOL-Start the client neither repeats it nor times out (dot1x_start_lost), and polls four million times. The TLS engine and the EAP payload bytes are inputs."
  },
  {
   "property": "C135",
   "status": "partial",
   "theorems": [
    "Wolf.Drv.Enetc.enetc_tx_exact",
    "Wolf.Drv.Enetc.enetc_send_result",
    "Wolf.Drv.Enetc.enetc_wait_ends",
    "Wolf.Drv.Enetc.enetc_failed_send_goes_out",
    "Wolf.Drv.Enetc.enetc_rx_exact",
    "Wolf.Drv.Enetc.enetc_rx_empty",
    "Wolf.Drv.Enetc.enetc_rx_room"
   ],
   "note": "All proved but that -1 means not sent: when the bounded wait runs out eth_send returns -1 with the frame still announced, and it goes out later (enetc_failed_send_goes_out). The device is an assumption stated in Drv/Enetc; caches are taken as coherent."
  },
  {
   "property": "C136",
   "status": "partial",
   "theorems": [
    "Wolf.HttpsTask.https_task_legal",
    "Wolf.HttpsTask.https_starts",
    "Wolf.HttpsTask.https_answers",
    "Wolf.HttpsTask.https_page",
    "Wolf.HttpsTask.https_io",
    "Wolf.HttpsTask.https_silent_client"
   ],
   "note": "All proved but that no client can keep the next from being served: there is no time limit on the handshake or the request, so one silent client stops the server for good (https_silent_client). wolfSSL and the clock are inputs."
  },
  {
   "property": "C137",
   "status": "partial",
   "theorems": [
    "Wolf.Broker.broker_legal",
    "Wolf.Broker.broker_starts",
    "Wolf.Broker.broker_serves",
    "Wolf.Broker.broker_down",
    "Wolf.Broker.broker_poll_result",
    "Wolf.Broker.broker_init_again_leaks",
    "Wolf.Broker.broker_freed_unmade"
   ],
   "note": "All proved but three parts that are false: poll returns 0 whatever fails (broker_poll_result), initialising a running TLS broker again loses its context (broker_init_again_leaks), and when the network set-up fails a broker is released that was never made (broker_freed_unmade). wolfMQTT and wolfSSL are inputs."
  },
  {
   "property": "C138",
   "status": "partial",
   "theorems": [
    "Wolf.BsdD.dgram_order",
    "Wolf.BsdD.dgram_recv_wakes",
    "Wolf.BsdD.dgram_recv_now",
    "Wolf.BsdD.dgram_udp_send_wakes",
    "Wolf.BsdD.dgram_send_hangs",
    "Wolf.BsdD.dgram_send_hang_reached"
   ],
   "note": "All proved but sendto on ICMP, raw and packet sockets, where it is false: emptying the buffer raises no event there and the task sleeps for ever (dgram_send_hangs). One task per descriptor; buffer room is an input, for UDP with the space test of the flush loop."
  },
  {
   "property": "C139",
   "status": "partial",
   "theorems": [
    "Wolf.Link.ip_exact",
    "Wolf.Link.arp_exact",
    "Wolf.Link.eapol_exact",
    "Wolf.Link.one_call",
    "Wolf.Link.double_tag_dropped",
    "Wolf.Link.frame_fits",
    "Wolf.Link.point_to_point",
    "Wolf.Link.recvEx_eth",
    "Wolf.Link.foreign_arp_taken",
    "Wolf.Dgram.ipFrame_eq_recvOn"
   ],
   "note": "All proved but one clause, false of the code for ARP and 802.1X: their destination address is not looked at, so such frames for another station are taken (foreign_arp_taken); it is proved for IPv4."
  },
  {
   "property": "C140",
   "status": "partial",
   "theorems": [
    "Wolf.Udp.ttl_own_partial",
    "Wolf.Udp.ttl_is_newest",
    "Wolf.Udp.ttl_reported_iff",
    "Wolf.Udp.ttl_option",
    "Wolf.Udp.ttl_closed",
    "Wolf.Udp.ttl_of_another",
    "Wolf.Dgram.tap_ttl_own_partial",
    "Wolf.Dgram.tap_ttl_is_newest",
    "Wolf.Dgram.tap_ttl_of_another"
   ],
   "note": "False of the code when more than one datagram waits: the slot has one TTL, overwritten at every arrival, so the receive call reports the newest datagram's (ttl_is_newest, ttl_of_another). Proved when the other waiting ones have the same TTL. UDP, raw and ICMP sockets."
  },
  {
   "property": "C141",
   "status": "partial",
   "theorems": [
    "Wolf.Opts.set_get",
    "Wolf.Opts.set_get_if",
    "Wolf.Opts.switch_any_int",
    "Wolf.Opts.raw_switches",
    "Wolf.Opts.set_sent",
    "Wolf.Opts.set_fails_clean",
    "Wolf.Opts.set_changes_one",
    "Wolf.Opts.set_reads_within",
    "Wolf.Opts.get_within",
    "Wolf.Opts.no_buffer",
    "Wolf.Opts.set_octet",
    "Wolf.Opts.unknown_refused_partial",
    "Wolf.Opts.unknown_accepted",
    "Wolf.Opts.hdrincl_not_readable"
   ],
   "note": "False of the code for options a socket does not have: TCP, UDP and ICMP sockets answer success to both calls and do nothing, so getsockopt(SO_ERROR) returns 0 and leaves the caller's variable unwritten (unknown_accepted). Everything else is proved."
  }
 ]
}