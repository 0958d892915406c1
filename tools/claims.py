F='Wolf.Fifo.'; T='Wolf.Tcp.'
c('C01','partial',[F+'fifo_exact_partial',F+'fifo_exact_aligned_partial',F+'fifo_delivers_accepted_prefix_partial',F+'fifo_walk_exact_partial',F+'fifo_not_exact',F+'fifo_exact_fill_lost',F+'fifo_push_in_bounds',F+'fifo_empty_accepts'],
 'The full property is false of the code: fifo_not_exact is a proved counterexample at the shipped buffer size. Proved exact for every history without a push that ends in the last partial word (in particular for all lengths divisible by 4).')
c('C02','proved',[F+'fifo_admission_exact',F+'fifo_max_payload_exact'],'For every buffer state, reachable or not.')
c('C03','proved',[T+'tcp_delivers_stream_prefix'],'Peer segments limited to half the sequence space around the accepted position (TCP standing assumption).')
c('C04','proved',[T+'tcp_ack_exact',T+'tcp_ack_monotone',T+'tcp_in_order_accepted'],'')
c('C05','proved',[T+'tcp_sack_exact',T+'sack_merge_preserves_coverage',T+'tcp_sack_first_block'],'')
c('C06','proved',[T+'rx_ring_is_bounded_byte_queue',T+'byteQ_bounded'],'')
c('C07','proved',[T+'seq_order_sound',T+'seq_trichotomy',T+'seq_inc_sound',T+'seq_diff_sound',T+'seq_ambiguous_at_half'],'Distance exactly 2^31 is ambiguous in the code, as the property says "less than".')
M='Wolf.Timers.'
c('C11','proved',[M+'timers_refine_list',M+'poll_fires_exactly_due'],'Deadlines positive (0 is the tombstone value), fewer than 2^32-2 arm operations (32-bit ids). Callbacks that arm/cancel during a poll are covered by interleaving fire with other operations.')
P=T+'Paws.'
c('C09','partial',[P+'paws_rejects_exactly_older',P+'paws_exempt',P+'ts_recent_update_partial',P+'ts_recent_never_backwards_partial',P+'ts_newer_remembered_partial',P+'ts_newer_in_order_not_remembered'],
 'The rejection half holds exactly. The remember half is violated: the comparison before the update uses a byte-swapped value, so a newer in-order timestamp may not be remembered (ts_newer_in_order_not_remembered).')
R=T+'Rto.'
c('C10','proved',[R+'rto_in_bounds',R+'backoff_bounds_and_monotone',R+'persist_interval_bounds',R+'persist_interval_doubles',R+'rtt_estimate_within_samples',R+'rtt_estimate_can_wrap'],'Estimate bound for samples up to 67108863 ms; above that the 32-bit arithmetic wraps (rtt_estimate_can_wrap).')
S=T+'Snd.'
c('C12','partial',[S+'unacked_data_is_retained_partial',S+'empty_segment_transmission_discards_data',S+'ack_beyond_sent_discards_data'],
 'The full property is false of the code; the two violating situations are proved as counterexamples and excluded from the positive theorem.')
c('C13','partial',[S+'snd_una_only_forward_partial',S+'snd_una_only_by_ack',S+'snd_una_can_jump_half',S+'initial_cwnd_bounds',S+'cwnd_at_least_one_segment',S+'timeout_window',S+'recovery_entry_window',S+'duplicate_inflation'],
 'SND.UNA half is false for exactly one ACK number (2^31 ahead with nothing outstanding, snd_una_can_jump_half). Window half proved while 32-bit counters do not overflow; duplicate_inflation shows inflation is unbounded.')
c('C14','partial',[S+'outstanding_data_has_timer_partial',S+'timeout_requeues_partial',S+'close_wait_data_never_retransmitted',S+'last_ack_data_not_retransmitted',S+'fin_wait_1_fin_never_retransmitted'],
 'Proved for ESTABLISHED. False of the code in CLOSE_WAIT, LAST_ACK and (for the FIN) FIN_WAIT_1: proved counterexamples.')
D='Wolf.Dns.'
c('C34','proved',[D+'dns_names_in_bounds',D+'dns_skip_stays_inside',D+'dns_copy_is_the_name',D+'dns_copy_accepts',D+'dns_skip_is_the_end'],'')
c('C35','proved',[D+'dns_callback_at_most_once',D+'dns_callback_needs_match',D+'dns_answer_is_a_record',D+'busy_lookup_refused',D+'dns_freed_after_callback',D+'dns_idle_accepts',D+'dns_never_stuck'],'Assumes the timer insert succeeds and that callbacks do not re-enter the resolver.')
c('C36','partial',[D+'dns_encoding_exact',D+'dns_query_decodes',D+'dns_reverse_name',D+'dns_name_of_256_octets_accepted'],'The encoding half is proved; the 255-octet limit is violated by one (dns_name_of_256_octets_accepted).')
c('C37','proved',['Wolf.Text.dotted_quad_round_trip','Wolf.Text.iptoa_fits'],'')
WG='Wolf.Wg.'; ES='Wolf.Esp.'
c('C45','proved',['Wolf.Wg.counter_accepted_once',WG+'wg_replay_exact',WG+'wg_replay_at_most_once',WG+'wg_in_order_accepted'],'')
c('C51','proved',[ES+'esp_replay_exact',ES+'esp_replay_at_most_once',ES+'esp_forgery_no_effect'],'For SAs with integrity protection (icv_len nonzero), as the code applies the window only to those; cryptographic verification is a parameter.')
c('C52','proved',[ES+'esp_oseq_exact',ES+'esp_directions_independent'],'A number consumed by a send whose encryption then fails is skipped, never reused.')
c('C61','partial',[ES+'esp_persistence_partial',ES+'esp_persisted_replay_accepted',ES+'esp_replay_delivered_after_restore'],'False of the code: the persistence callbacks carry 32 of the 64 window bits (proved counterexample).')
c('C62','proved',[ES+'esp_round_trip',ES+'esp_size_bound',ES+'esp_bad_trailer_refused'],'Cipher correctness is an explicit hypothesis (CipherOk), satisfied by a toy cipher.')
RT='Wolf.Route.'
c('C26','proved',[RT+'route_lookup_longest_prefix',RT+'route_lookup_fallback',RT+'route_lookup_own_address',RT+'route_lookup_broadcast',RT+'route_lookup_broadcast_if',RT+'route_lookup_no_interface',RT+'route_order_is_insertion_order',RT+'maskPrefixLen_exact'],'Connected subnets count as inserted first. An interface with a non-contiguous mask contributes no connected route, as in the code.')
c('C27','proved',[RT+'route_table_is_map',RT+'route_failed_call_no_effect',RT+'maskTo_bits'],'At most 256 interfaces (the index is stored in one byte).')
CS='Wolf.Csum.'
c('C24','proved',[CS+n for n in ['ip_checksum_verifies','tcp_checksum_verifies','udp_checksum_verifies','icmp_checksum_verifies','transport_detects','transport_detects_pseudo','ip_detects','icmp_detects','zero_ones_undetected']],'For frames of at most 65535 bytes. A one-word change is detected except 0x0000<->0xFFFF (proved undetectable).')
c('C08','proved',['Wolf.Tcp.Opts.'+n for n in ['tcp_options_parse_safe','tcp_options_header_only','tcp_options_parse_correct','syn_options_round_trip','ack_options_round_trip','data_options_round_trip']],'Loads go through a bounds-checked memory and loops through an iteration budget; both are proved never to fail.')
AR='Wolf.Arp.'
c('C28','proved',[AR+n for n in ['arp_only_solicited','arp_unsolicited_no_effect','arp_solicited_local','arp_reply_learned','flush_forgets','zero_address_resolves','foreign_request_refreshes']],'For every address but 0.0.0.0 (proved exception). Finding: an ARP request with a foreign hardware address also refreshes the age.')
c('C29','proved',[AR+'arp_rate_limit',AR+'arp_request_recorded'],'')

DH='Wolf.Dhcp.'
c('C30','proved',[DH+'dhcp_options_safe',DH+'dhcp_options_exact'],'Exactness for messages whose overload option is well-formed (length 1, value 1-3, not itself cut by the end of the options field); safety and termination for every message.')
c('C31','proved',[DH+n for n in ['dhcp_config_only_from_ack','dhcp_ack_applied','dhcp_rejected_changes_nothing']],'The server identifier is enforced when the offer carried a nonzero one (an offer with server id 0.0.0.0 is accepted by the code and any server may then acknowledge it; shown as an example). A rejected offer still overwrites the remembered server id.')
c('C32','partial',[DH+n for n in ['lease_times_ordered','dhcp_lease_times_reachable','dhcp_expired_lease_given_up_partial','expired_lease_survives_a_timer_event','dhcp_timer_armed_partial']],'Order of lease times and retry deadlines proved in full. Giving up at the NEXT timer event is false while renewing or probing (witness proved); proved: within 1, 2 or 5 timer events by state.')
c('C33','partial',[DH+n for n in ['dhcp_timer_armed_partial','dhcp_at_most_one_timer','dhcp_timer_lost_when_heap_full','dhcp_retransmissions_bounded','dhcp_unanswered_terminates','dhcp_second_attempt_gives_up']],'Armed timer proved for histories in which the timer heap had room (with a full heap the timer is lost, witness proved). Finding: the retransmission count is not reset by a new dhcp_client_init.')
HT='Wolf.Http.'
c('C58','partial',[HT+n for n in ['url_decode_correct','url_decode_never_grows','url_encode_correct','url_round_trip_partial','url_round_trip_fails']],'Decoding and encoding proved in full; the round trip holds for strings without a percent sign and is false in general (url_round_trip_fails: "%41" comes back as "A").')
TF='Wolf.Tftp.'
SV='Wolf.Tftp.Srv.'
c('C53','partial',[TF+n for n in ['tftp_download_prefix','tftp_download_complete_partial','tftp_download_truncated','tftp_download_truncated_512']],'The written data is always blocks 1..k of the file (proved for every history). Completion is proved when the block size the client works with is the server\'s; it is false when the client asked for a larger block size and the server ignored the option (witnesses proved: the client reports success after 512 bytes).')
c('C54','proved',[TF+'tftp_client_size_limit',SV+'tftp_server_size_limit'],'')
c('C55','partial',[SV+n for n in ['tftp_server_sends_blocks_partial','tftp_server_finishes_partial','tftp_server_skips_on_duplicate_ack']],'False of the code as worded: a repeated acknowledgment makes the server skip unacknowledged blocks (witness proved). Proved for acknowledgments that each arrive at most once, with any loss, reordering, timeout, read or send failure, block size, window and file size below 4 GiB.')
c('C56','proved',[SV+'tftp_opened_names_safe']+[TF+n for n in ['tftp_filename_check_exact','tftp_request_parse','tftp_names_any_case']],'')
c('C57','proved',[TF+n for n in ['tftp_number_exact','tftp_number_round_trip','tftp_oack_parse','tftp_request_parse','tftp_request_round_trip','tftp_oack_round_trip','tftp_retries_bounded','tftp_unanswered_gives_up','tftp_request_fits','tftp_oack_fits']],'Retries are counted only when the transport accepts the packet.')
FI='Wolf.Filter.'
c('C38','partial',[FI+n for n in ['filter_consulted','filter_not_reentered','filter_vetoes','forward_layers_exact','forward_consults','filter_misses_truncated_forward']],'Consultation, veto and no re-entry proved for every history of configuration and arbitrary (also reconfiguring, also re-entering) callbacks. As worded it is not met for a forwarded datagram cut short inside its transport header: the transport layer is then not asked (witness proved).')
LK='Wolf.Link.'
c('C39','partial',[LK+n for n in ['frame_fits_mtu','mtu_clamped','tcp_segment_fits','esp_exceeds_mtu']],'Proved for the stack without WOLFIP_ESP. With WOLFIP_ESP it is false: esp_send hands the driver longer frames than the MTU (witness proved). Setting the MTU of a VLAN sub-interface has no effect; it is always its parent minus 4.')
c('C40','proved',[LK+n for n in ['vlan_table_exact','vlan_round_trip','vlan_isolation']],'For every history of create, delete and MTU calls. The 802.1Q type inside a sub-interface frame (double tagging) is outside the model.')
c('C41','proved',['Wolf.Loopback.loopback_fifo','Wolf.Loopback.loopback_oversize'],'Packets of 1501-1522 bytes, which the link layer would admit, are silently dropped (loopback_oversize).')
c('C42','proved',['Wolf.Mcast.mcast_member_exact','Wolf.Mcast.mcast_join_exact','Wolf.Mcast.mcast_leave_exact','Wolf.Mcast.mcast_close_exact','Wolf.Mcast.mcast_bad_refused','Wolf.Mcast.mcast_join_unopened_leaks'],'For every history in which groups are joined on open sockets only, with at most 255 UDP sockets. Joining on a descriptor that was never opened is granted by the code and its membership leaks at close: mcast_join_unopened_leaks is the machine-checked witness.')
c('C43','proved',['Wolf.Mcast.igmp_one_pending','Wolf.Mcast.igmp_query_schedules','Wolf.Mcast.igmp_report_when_due','Wolf.Mcast.maxRespMs_rfc','Wolf.Mcast.validate_iff'],'Scheduling is skipped only when the timer heap is full. Timers are a list of pending deadlines (the heap is C11).')
c('C15','partial',['Wolf.Sock.rst_exact','Wolf.Sock.rst_handshake','Wolf.Sock.listener_lost_to_rst','Wolf.Sock.bound_socket_lost_to_rst','Wolf.Sock.serve_reached'],'RST on synchronized connections and half-open ones is accepted only with the exact next sequence number (or the acceptable ACK in SYN_SENT). Missing: as stated the code also lets an exact-sequence RST destroy a listener whose handshake completed before accept() and a merely bound socket (counterexamples listener_lost_to_rst, bound_socket_lost_to_rst).')
c('C16','proved',['Wolf.Sock.state_edges','Wolf.Sock.established_only_after_handshake','Wolf.Sock.synchronized_implies_handshake','Wolf.Sock.data_only_after_handshake','Wolf.Sock.handshake_example'],'Every state change of every slot under every operation is one of the listed edges under the listed condition, over all histories.')
c('C17','partial',['Wolf.Sock.no_rst_for_rst','Wolf.Sock.rst_content','Wolf.Sock.no_rst_to_group_partial','Wolf.Sock.no_storm_example','Wolf.Sock.rst_to_broadcast'],'No RST answers a RST and generated RSTs carry the required numbers. Missing: no RST for group destinations holds only outside the LISTEN arm (counterexample rst_to_broadcast).')
c('C18','partial',['Wolf.Sock.listener_survives_partial','Wolf.Sock.listener_survives_history_partial','Wolf.Sock.retry_limit_relistens','Wolf.Sock.preaccept_timeout_relistens','Wolf.Sock.accept_keeps_listening','Wolf.Sock.listen_serves','Wolf.Sock.listening_example','Wolf.Sock.listener_lost_to_rst','Wolf.Sock.listener_lost_to_fin','Wolf.Sock.listener_lost_to_icmp'],'Survival for all histories without the three losing events; those three are real violations, shown as counterexamples.')
c('C19','proved',['Wolf.Sock.teardown_arms_event','Wolf.Sock.pending_step','Wolf.Sock.pending_run','Wolf.Sock.dispatch_delivers_once','Wolf.Sock.close_event_exactly_once','Wolf.Sock.notify_example','Wolf.Sock.reopened_socket_lost'],'For callers that do not reuse a descriptor whose close event is pending; reopened_socket_lost shows what happens otherwise.')
c('C20','partial',['Wolf.Sock.bind_unique_partial','Wolf.Sock.bind_unique_specific','Wolf.Sock.bind_unique_single','Wolf.Sock.bind_example','Wolf.Sock.wildcard_overlap'],'Uniqueness for all histories of specific binds, and for wildcard binds with one interface. Missing: wildcard against another interface (counterexample wildcard_overlap).')
c('C21','partial',['Wolf.Sock.bind_failed_unchanged','Wolf.Sock.listen_failed_unchanged','Wolf.Sock.connect_failed_unchanged_partial','Wolf.Sock.connect_others_unchanged','Wolf.Sock.failed_example','Wolf.Sock.connect_veto_dirty'],'Full for bind and listen. Missing: connect refused by the filter or a full queue (counterexample connect_veto_dirty).')
II='Wolf.IpIn.'
UD='Wolf.Udp.'
c('C44','partial',['Wolf.Sock.icmp_error_effect']+[II+n for n in ['errors_only_about_partial','errors_example','ttl_about_multicast','unreachable_about_l2_broadcast']],'Incoming errors on TCP and generated errors. Missing: time exceeded is also sent about IP-multicast destinations in unicast frames, and port unreachable about link-layer broadcasts (both witnesses proved).')
c('C22','partial',[UD+n for n in ['udp_queued_iff','udp_reads_in_order','udp_recv_one','connect_connects','connected_hears_peer_partial','udp_send_one','udp_bind_exact','udp_bind_example','udp_example','dhcp_peer_ignored','mcast_port_ignored','sendto_moves_peer']],'Delivery, order, boundaries and sending for all histories. Missing: the peer filter of a connected socket is not applied in three cases, each shown by a witness (DHCP running, multicast source port, sendto with an address moves the peer). The packet queue is a list (C01 is the FIFO itself).')
c('C23','proved',[II+n for n in ['ip_delivers_only_wellformed','ip_never_oob','ip_delivers_wellformed','ip_delivers_all','ip_example']],'For every frame, length and configuration.')
c('C25','proved',[II+n for n in ['forward_safe','forward_once','forward_complete','learned_exact','parked_kept','forward_example','park_example']],'For every frame and configuration. A multicast IP destination in a unicast frame counts as forwardable (default route).')
c('C63','proved',[II+n for n in ['echo_exact','echo_reply_unanswered','echo_example']],'For every datagram and configuration.')
c('C60','proved',['Wolf.Fd.'+n for n in ['fd_names_slot','call_reaches_slot','close_effect','fd_injective','fd_touches_own_slot','any_fd_one_slot','returned_fd_fresh','held_fd_not_reissued','resolve_in_range','fd_example','big_table_aliases']],'For every order of mark tests, all tables of at most 255 slots (the compile-time limit) and all histories. What a call does inside the slot it resolves to is an arbitrary function.')
WG='Wolf.Wg.'
c('C46','proved',[WG+n for n in ['lookup_is_longest','lookup_none','insert_exact','remove_exact','after_twf','inject_only_from_owner','encrypted_only_for_owner']],'For every table and every history with prefix lengths at most 32 (the API does not check: a /33 beats a /32). Cryptography is an oracle: which session a message authenticates under is an arbitrary function.')
c('C47','proved',[WG+n for n in ['nonce_strictly_increasing','send_key_fresh','recv_key_fresh','session_derived_once']],'For every history, clock, packet, decryption result and crypto failure. Sessions are named by internal_id.')
c('C48','proved',[WG+n for n in ['slots_apart','sessions_apart','responder_waits','handshake_keeps_current','responses_answer','data_by_index']],'For every history.')
c('C49','partial',[WG+n for n in ['stage_queue','sendStaged_sendAll','drain_without_session','drain_with_session','drain_subsequence','sent_at_most_once','staged_overtaken']],'Order within a drain, no duplication over all histories, nothing lost when the session cannot send. Missing: a responder does not drain when its session is confirmed, so a newer packet can overtake staged ones (staged_overtaken).')
c('C50','partial',[WG+n for n in ['keepalive_spacing_partial','keepalive_answers_data_partial','persistent_keepalive_every_poll']],'Without a persistent interval, proved for all histories. With one it is false: a keepalive is sent on every poll (persistent_keepalive_every_poll).')
c('C64','partial',[WG+n for n in ['retransmit_paced_partial','initiation_per_packet']],'Only retransmissions of an unanswered initiation are paced. In general false: after 120 s each packet sent by the initiator triggers an initiation (initiation_per_packet).')
c('C65','proved',[WG+n for n in ['initiation_accepted_once','initiation_accept_spacing']],'For every history. Authenticity of the timestamp is an oracle.')
SP='Wolf.Supp.'
c('C59','proved',[SP+n for n in ['pairwise_install_checks','group_install_checks','pairwise_key_provenance','replay_strictly_increases','authenticated_means_installed']],'For every history of calls and frames; the cryptographic primitives are arbitrary functions. Supp/Demo.lean runs a complete 4-way handshake and a group rekey.')
c('C66','proved',[SP+n for n in ['eap_tls_buffers_safe','eap_tls_round_trip','eap_tls_delivery']],'For all messages, MTUs and interleavings. Note: a final fragment that leaves the message shorter than its announced total is accepted as complete.')
c('C67','proved',[SP+n for n in ['key_data_exact','group_key_size','supplicant_memory_safe']],'For every frame and history. Buffers inside the crypto library, the TLS engine and SAE are not modelled.')
c('C68','proved',[SP+n for n in ['key_parse_exact','key_build_parse','eap_parse_safe','sent_key_frame_valid']],'For every byte string.')
c('C69','partial',[SP+n for n in ['psk_pmk_is_own','cache_provenance','reconnect_provenance','deinit_erases']],'For every history. Missing: a PSK session that calls pmksa_reconnect after an SAE association with the same SSID gets the SAE PMK (shown in Supp/Demo.lean), so psk_pmk_is_own excludes PSK reconnects; and an SAE entry is not bound to the passphrase.')
c('C70','proved',[SP+n for n in ['handshake_deadline','m2_retransmissions_bounded','m2_retry_spacing','m2_copies_spaced']],'For every history and clock.')
c('C71','proved',['Wolf.Tcp.'+n for n in ['acceptable_exact','outside_window_ignored','window_edge_exact','window_never_shrinks','advWin_le']],'For every history of peer segments and reads; acceptability within 2^30 of the window, window_never_shrinks for buffers up to 64 KiB (no scaling).')
S='Wolf.Tcp.Snd.'
c('C72','partial',[S+'send_window_partial',S+'window_exceeded_after_fast_retransmit'],'For every history, up to the bytes retransmitted in the same turn; window_exceeded_after_fast_retransmit shows that the code really exceeds the advertised window by those. Acknowledgments of data never sent and empty segments transmitted behind data excluded as in C12.')
c('C73','proved',[S+n for n in ['non_duplicate_ignored','ack_response','additive_increase','third_duplicate_retransmits','mark_first','new_ack_accounting','recovery_skipped_with_late_sack']],'For every state and history. recovery_skipped_with_late_sack: the retransmission happens but recovery is not entered if the first SACK block comes with the third duplicate.')
c('C74','proved',['Wolf.Tcp.E2E.'+n for n in ['tcp_end_to_end','tcp_end_of_stream','tcp_wire_honest','tcp_no_send_after_close','tcp_close_closes']]+[S+'probe_ok'],'For every history; TimelyRun is the usual maximum-segment-lifetime assumption (no delivered segment is half the sequence space old). exEvs_ok runs a concrete exchange.')
c('C75','partial',['Wolf.Tcp.Close.'+n for n in ['close_exchange_partial','close_never_completes','old_refused','fin_done_needs_ack']],'False of the code between two wolfIP ends: our FIN consumes no sequence number, so the ACK of the peer FIN is refused (close_never_completes, for all numbers, windows and schedules). Proved: what does hold.')
c('C76','proved',[S+n for n in ['closed_only_when_acknowledged','pending_close_kept','close_given_up_only_after_retries']],'For every history; acknowledgment numbers within half the sequence space of the end of the data.')
H='Wolf.Http.'
c('C77','partial',[H+n for n in ['request_safe','request_exact_partial','serve_safe','handler_exact','page_exact','handler_registered','unfinished_request_is_served','nul_ends_path']],'Memory safety and dispatch proved in full. request_exact_partial: exactly the requests of the specification are accepted, except that a request whose blank line is missing is accepted as complete too (unfinished_request_is_served), so the full statement is false of the code; an encoded NUL ends the path for the lookup (nul_ends_path).')
c('C78','proved',[H+'get_arg_exact'],'For every text, name and buffer size.')
c('C79','partial',[H+'kept_apart_partial',H+'response_to_other_connection'],'For every history without failing sends in otherwise successful requests; response_to_other_connection shows the full statement is false of the code. TLS not modelled.')
WC='Wolf.Wg.Cookie.'
c('C80','proved',[WC+n for n in ['gate_exact','refused_effect','reply_exact','secret_stable','under_load_needs_recent_cookie','cookie_accepted_only','one_cookie_per_message','sent_message_exact','under_load_exact','cookie_round_trip','flood_every_second_cycle_open','load_counter_wraps']],'For every history, arbitrary primitives (for the round trip: MACs of the right length, decryption undoes encryption, nonzero second MAC). The Noise processing behind the gate is represented by arbitrary further events. Findings proved: under a constant flood every second cycle runs ungated; the 16-bit counter wraps.')
DG='Wolf.Dgram.'
c('C81','proved',[DG+n for n in ['tap_reads_fifo','packet_copies_plain','packet_copies_vlan','packet_only','packet_once','packet_bound','packet_recv','raw_exact','raw_once','raw_bound','raw_recv','icmp_only','icmp_all','icmp_once','icmp_bound','icmp_recv','packet_bind_zero_limit','packet_twice_limit','raw_send_restricts','icmp_error_limit','icmp_leak_limit']],'For every frame, configuration and history. Buffers are lists and room is an input (C01 is the FIFO). Limits proved as theorems: binding a packet socket to interface 0 is a wildcard; sending restricts an unbound raw socket to one interface; an ICMP socket with an id never sees ICMP errors; calls on a closed ICMP descriptor leak into the next socket; a VLAN at index 0 duplicates.')
c('C82','proved',[DG+n for n in ['tap_sends_fifo','datagram_flush','datagram_drain','icmp_flush','raw_flush','packet_flush','icmp_accept','icmp_accepts','raw_accept','packet_accept','icmp_send_example','raw_send_example','packet_send_example','icmp_head_of_line','icmp_multicast_limit','raw_hdrincl_limit','raw_failed_send_limit','raw_broadcast_limit','raw_refused_limit','packet_interface_limit']],'For every history, environment and payload; routing is the lookup of C18/C19, the ARP cache, filter and driver are arbitrary. For UDP the flush theorems (accepted UDP datagrams are in C20). What differs from the plain reading (raw and packet frames a driver refuses are lost; queued packet frames all use the last interface; IP_HDRINCL remembers the first destination; raw to a subnet broadcast and ICMP to a group ask ARP for ever) is in the statements or proved as limits.')

c('C83','proved',[DG+n for n in ['tap_socket','tap_close','packet_bind','raw_bind','raw_connect','icmp_bind','icmp_connect','icmp_random_id_limit']],'Exact effect of each call in every state. Limits: an ICMP socket keeps the addresses its slot held (calls on a closed descriptor, icmp_leak_limit in C81); a send without bound id picks one without the collision test.')

RD='Wolf.Ready.'; RT='Wolf.ReadyT.'
c('C84','partial',[RD+n for n in ['readable_announced','event_delivered','can_read_exact','readable_true','ready_example','ready_hyps','readable_lost_in_callback','first_event_lost','udp_false_readable']]+[RT+n for n in ['tcp_readable_announced','tcp_eof_announced','tcp_event_delivered','tcp_abort_told','tcp_last_ack_told','tcp_can_read_exact','tcp_read_result','tcp_ready_example','tcp_ready_hyps','unread_lost','closed_rest_lost']],'Proved for UDP, ICMP and TCP sockets and every history; for raw and packet sockets if no datagram arrives while their own callback runs. Without that the claim is false of the code: their loop clears the events after the callback (readable_lost_in_callback, first_event_lost). Further limits: a UDP READABLE event may be stale (udp_false_readable); can_read says yes for bytes left in CLOSING/TIME_WAIT/LAST_ACK that recv no longer gives (unread_lost). The listening phase is C18.')
c('C85','partial',[RD+n for n in ['udp_writable_announced','udp_flush_announces','writable_example','writable_lost','writable_lost_example']]+[RT+n for n in ['tcp_writable_announced','tcp_ack_announces','tcp_write_example','can_write_false']],'Proved for UDP and TCP and every history in which an empty transmit buffer has room. False of the code for ICMP, raw and packet sockets: flushing them never raises WRITABLE (writable_lost). can_write is 1 in CLOSE_WAIT even when send says EAGAIN (can_write_false).')
BS='Wolf.Bsd.'; BF='Wolf.BsdFd.'
c('C86','partial',[BS+n for n in ['blocked_call_woken_partial','recv_returns','recv_returns_data','connect_returns_partial','send_returns_partial','close_returns_partial','dead_stuck','send_reset_hangs','send_dead_hangs','connect_refused_hangs','connect_missed','close_simultaneous_hangs','close_full_hangs']],'recv: proved for every history. connect, send, close: proved under the stated conditions on the history, and false of the code without them: send() on a reset connection, connect() refused by a reset, close() with a full transmit buffer or when both sides close at once block for ever, each proved for every continuation.')
c('C87','partial',[BF+n for n in ['fd_acts_on_own_partial','fd_close_own_partial','fd_not_shared_partial','fd_create','fd_create_fails','fd_taken_over']],'Proved for every history in which the stack frees no slot under an open descriptor; false of the code otherwise (fd_taken_over): a connection that dies under its descriptor leaves the slot to the next socket(), and calls on the old descriptor act on that one.')
NG='Wolf.Tcp.Neg.'
c('C88','partial',[NG+n for n in ['handshake_agrees_partial','only_what_the_peer_offered','wscale_smallest','window_read','window_never_more','segment_fits','segment_fits_peer_partial','agree_passes','mss_overrun','min_mtu_mute','timestamps_disagree','disagree_drops_all']],'Agreement proved on the bytes of the SYN and SYN-ACK for every MTU of the client and every MTU of at least 78 (frame) of the server. False of the code below: a server whose SYN-ACK has no room for the timestamp option keeps timestamps on and drops everything the peer sends. Sizes: with timestamps a segment exceeds the MTU of a peer with a smaller MTU by 12 bytes (the option is not subtracted from the MSS of the peer).')
SP='Wolf.Supp.'
c('C89','partial',[SP+'Peap.inner_ack_proved_partial',SP+'Peap.peap_needs_tunnel',SP+'Peap.wrong_proof_fails',SP+'Peap.failed_stays',SP+'Peap.peap_success_unproved',SP+'Peap.result_tlv_unproved'],
 'The acknowledgement half holds for every session. The full property is false of the code: EAP-Success is honoured once the TLS handshake is complete, whether or not the inner authentication took place (peap_success_unproved, the phase-2 bypass), and a Result TLV is always answered with Success (result_tlv_unproved).')
c('C90','proved',[SP+'challenge_parsed',SP+'response_read',SP+'authresp_extracted',SP+'nt_response_exact',SP+'verify_exact',SP+'msk_exact'],'Hash functions and the block cipher are parameters of known output length.')
c('C91','partial',['Wolf.Sock.blind_segment_harmless_partial','Wolf.Sock.ack_only_sent_partial','Wolf.Sock.fin_number','Wolf.Sock.outside_not_acceptable','Wolf.Sock.blind_window_taken','Wolf.Sock.ack_half_circle_taken','Wolf.Sock.blind_example','Wolf.Sock.fin_example'],'False of the code in two points, both proved: the window field of an out-of-window segment is honoured (blind_window_taken), and an acknowledgment exactly 2^31 ahead of an idle connection is taken (ack_half_circle_taken). Everything else is proved for all segments, states and histories.')
KV='Wolf.Kvf.'
c('C92','partial',[KV+n for n in ['store_crash_safe_partial','put_succeeds','torn_header_loses_everything','torn_header_unexplained','error_blocks_puts','torn_tombstone_undeletable']],'Proved for every history and crash point if a power failure leaves header quadwords erased or whole (other quadwords may be left with anything). Without that the claim is false of the code: a torn record header makes the next restart reformat the bank and lose every value (torn_header_loses_everything, torn_header_unexplained).')
SA='Wolf.Sae.'
c('C93','proved',[SA+n for n in ['sae_agreement','sae_sessions_agree','init_same','rep_add','rep_dbl','rep_mul','toy_setup','sae_sessions_agree_nist','nist_ok','ok256','ok384','order_of_point','pocklington']],'For every curve satisfying Setup; P-256 and P-384 are proved to satisfy it (kernel-checked certificates); wolfCrypt point multiplication is the n-fold sum. The group law is Mathlib\'s.')
c('C94','proved',[SA+n for n in ['parse_exact','verify_exact','compute_exact','confirm_binds','own_confirm_refused','sae_key_needs_confirm']],'The two binding theorems name the HMAC collision they exclude.')
c('C95','proved',[SA+n for n in ['hnp_computes_pwe','hnp_symmetric','isPwe_unique','qrBlind_eq','blind_test_zero_is_random','hnp_computes_pwe_nist','mac_order']],'The random generator may return anything non-zero modulo p.')
c('C96','proved',[SA+n for n in ['sswu_total','sswu_identity','pt_computed','h2e_pwe_computed','imageOf_unique','h2eVal_comm','pt_computed_nist','mac_order']],'')

c('C97','proved',[SP+n for n in ['prf_exact','kdf_exact','ptk_exact','ptk_symmetric','ptk_context_inj','cmac_exact','cmac_safe','mic_verify_exact','micOk_is_verify','pmk_exact','unwrap_exact']],'HMAC, single-block AES and key unwrap are parameters that may fail; what the file builds from them is modelled line by line.')

c('C98','proved',[SP+'handshake_completes'],'For every Crypto (any functions of the right output sizes); the MIC function must not fail and the integrator must accept frames and keys.')
c('C99','partial',[SP+n for n in ['forged_key_frame_harmless_partial','forged_message3_aborts','forged_failure_aborts']],'Proved for key frames in an authenticated session. False of the code otherwise, both proved: a key frame with a wrong MIC ends a handshake in progress (forged_message3_aborts) and an unprotected EAP-Failure ends any session, an authenticated one included (forged_failure_aborts).')
NO='Wolf.Wg.Noise.'
c('C100','proved',[NO+n for n in ['handshake_agrees','configured_pairs','hsInit_spec','createInit_complete','consumeInit_complete','createResp_complete','consumeResp_complete','beginSession_complete']],'handshake_agrees: the whole run, against specStatic/specTs/specEmpty/specKeys, closed expressions of Noise IKpsk2. Primitives are parameters with the laws of Prim.Good (met by toy_good); the responder decodes the 65-octet static key and finds the peer.')
c('C101','proved',[NO+n for n in ['consumeInit_sound','consumeInit_complete','consumeResp_sound','consumeResp_complete','createInit_sound','createResp_sound','beginSession_sound','keys_bind','stamps_increase','same_refused','differs_false','memLe_false']],'sound directions hold for every pattern of failing primitives. keys_bind names the 32 HMAC queries among which a collision would have to be. The AEAD is deterministic with exact decryption (dec_only), as AES-GCM is.')
c('C102','proved',[NO+n for n in ['sendData_spec','data_round_trip','openData_iff','openData_fails','keepalive_round_trip','padding_harmless','nonce_injective','nonce_layout','timestamp_order','sendKeepalive_spec','innerOk_iff']]+[WG+'padded_to_sixteen'],'')
c('C103','proved',[DH+n for n in ['discover_wellformed','request_selecting_wellformed','request_extending_wellformed','decline_wellformed','decode_members','options_enc','dhcp_acquires','dhcp_probed_then_bound','dhcp_extends']],'readWire is an independent RFC 2131 reader; Srv.answer an RFC 2131 server built on it. dhcp_extends also records that after every renewal the address is probed again (state DAD), during which dhcp_bound() is false.')
DR='Wolf.Drv.'
c('C104','partial',[DR+n for n in ['eqos_rx_exact','gmac_rx_exact_partial','gmac_rearm_race']],'Proved in full for stm32_eth.c and lpc_enet.c. For stm32f4_eth.c and va416xx_eth.c false of the code (gmac_rearm_race): the last descriptor is owned by the engine while its end-of-ring flag is clear; proved for all schedules in which the engine does not fetch at that moment.')
c('C105','partial',[DR+n for n in ['eqos_rx_live_partial','eqos_rx_deaf','tx_live_partial','eqos_tx_wedge']],'False of the code in general: eqos_rx_deaf (RBU raised again during polls leaves the tail pointer on the awaited descriptor) and eqos_tx_wedge (a full transmit ring has the tail pointer equal to the current descriptor) are proved; outside these situations progress is proved.')
c('C106','proved',[DR+n for n in ['tx_exact','send_result','send_room']],'')
GL='Wolf.Glue.'
c('C107','partial',[GL+n for n in ['ssl_io_exact','report_outcome','ssh_io_exact_partial','ssh_clean_io','ssh_double_cleanup']],'Proved in full for wolfssl_io.c. For wolfssh_io.c false of the code if a session is cleaned up that is not set up (ssh_double_cleanup: the second clean-up frees the descriptor of another session); proved for histories without that.')
c('C108','proved',[GL+n for n in ['ssl_setup_succeeds','ssh_setup_succeeds','context_registered','ssl_leak','ninth_context']],'ssl_leak and ninth_context show that the discipline in the statement is needed: a second set-up without clean-up loses a descriptor; a ninth context is reported as registered but is not.')
c('C109','proved',[GL+'Mqtt.'+n for n in ['mqtt_sockets','mqtt_cleanup','mqtt_results']],'The stack is assumed to return descriptors that are not open.')
PX='Wolf.Posix.'
c('C110','partial',[PX+'Fds.'+n for n in ['fd_exact_partial','no_leak','freed_slot_shared','other_threads_bypass','foreign_close_hijack']],'False of the code when the stack frees a slot a descriptor still refers to (freed_slot_shared), for calls of other threads (other_threads_bypass) and after a close by another thread (foreign_close_hijack); proved for all histories without these.')
c('C111','partial',[PX+n for n in ['tokens_exact','blocked_call_returns','blocked_accept_returns','call_waits','eagain_spin']],'No wake-up is lost (proved for every interleaving). The call does not sleep, but spins with the stack locked, when the socket answers -EAGAIN although it is reported ready (eagain_spin: full buffer in CLOSE_WAIT); call_waits excludes that.')
c('C112','partial',[PX+n for n in ['poll_sound','poll_reports_partial','poll_out_deaf','select_out_deaf','poll_forgets','poll_not_level','write_hides_read','select_drops_close']],'False of the code in six ways, each proved; soundness of what is reported, and the return of a poll for reading that is blocked when the event is announced, are proved.')
c('C113','partial',[PX+'Send.'+n for n in ['send_exact_partial','failed_send_took_nothing','failed_send_took_some','empty_datagram_not_sent']],'The last clause is false for blocking stream calls (failed_send_took_some); it is proved for non-blocking descriptors and datagrams. empty_datagram_not_sent: a send of no octets never reaches the stack.')
c('C114','proved',[PX+'Iov.'+n for n in ['sendmsg_exact','recvmsg_exact','ttl_exact','calcLen_spec']],'')
c('C115','partial',[PX+'Gai.'+n for n in ['answer_is_its_own_partial','not_wedged','late_answer_taken','gai_free_exact','service_exact','validate_exact']],'False of the code if the answer to a timed-out query arrives between the two steps of a later call (late_answer_taken); proved for all other histories.')
c('C116','partial',[DR+'Gem.'+n for n in ['gem_poll_exact','gem_swq_exact_partial','swq_duplicates','swq_tears']],'Proved in full for gem_rx_poll.c. False of gem_swq.c (used by zcu102 and versal): the handler queues the descriptors of the ring again and again until the 64-deep queue is full, so 16 waiting frames are delivered four times each (swq_duplicates) or torn (swq_tears); proved when the handler loop never runs with the whole ring queued.')
c('C117','partial',['Wolf.Poll.'+n for n in ['timers_never_run_out_partial','timers_run_out','resolver_wedged']],'Proved when the memberships number at most MAX_TCPSOCKETS - 2 (so for builds without IP_MULTICAST from two TCP sockets on). False with IP_MULTICAST at the default sizes: one general query fills the table, after which TCP, DHCP and DNS timers are silently not armed (timers_run_out) and the resolver stays busy until an answer comes (resolver_wedged).')
c('C118','proved',['Wolf.Poll.'+n for n in ['poll_devices_exact','waiting_frame_reached','poll_timers_end','handle_spec','one_poll']],'')
c('C119','partial',[DR+'Line.'+n for n in ['line_rx_exact_partial','next_call_takes','frame_lost','reordered']]+[DR+'LineTx.'+n for n in ['line_tx_exact_partial','device_sends','sent_twice','wedged','late_frame_sent','no_overrun']],'Proved when device accesses are snooped, or descriptors do not share lines, or no completion falls into the line a call works on. Without snooping (what the comments in the driver assume) it is false: a recycled descriptor is written back together with its neighbours, so a frame received meanwhile is lost and the ring is out of step (frame_lost, reordered), a frame sent meanwhile is sent again (sent_twice), or with the FMan doorbell the ring is stuck for ever (wedged). late_frame_sent: eTSEC reports -1 for a frame it sends later.')

CY=DR+'Cyw.'
c('C120','proved',[CY+x for x in ['cyw_rx_exact','poll_exact','packet_spec','carried','frame_of_packet','full_frames_dropped','noise_unbounded']],
  'Findings proved alongside: the port registers MTU 1500, read by the stack as a frame length with the Ethernet header, so received frames of 1501-1514 octets are always dropped (full_frames_dropped); one poll has no limit on noise frames (noise_unbounded).')
c('C121','proved',[DR+'CywTx.'+x for x in ['window_exact','never_past_window','data_exact','seq_exact','credit_bounded','ungated_reopens','wedged']],
  'The limits in the statement are needed: 130 unanswered control requests reopen the window (ungated_reopens), 66 make every later grant look corrupt (wedged).')
c('C122','proved',[DR+'CywIoctl.'+x for x in ['ioctl_exact','answer_is_ours','key_scrubbed','keyStruct_ea','events_lost','error_is_timeout']],
  'Findings proved alongside: link events arriving during a control request are lost (events_lost); status -1 and a time-out look the same (error_is_timeout).')
c('C123','proved',[DR+'CywReq.'+x for x in ['gspi_fields','iovar_exact','clm_exact']],
  'clm_exact is about the requests sent while the radio accepts each of them.')

OT='Wolf.Ota.'
c('C124','proved',['Wolf.Tftp.'+x for x in ['sink_protocol','complete_means_verified','no_handle_reopens','announced_size_ignored']],
  'For sinks whose open provides a handle (otherwise the sink is reopened for every block: no_handle_reopens). Finding: the number given to the verification is the count of bytes received, not the size the server announced, so the "size mismatch vs tsize" tests of the two firmware sinks never fire (announced_size_ignored).')
c('C125','partial',[OT+x for x in ['download_crash_safe_partial','download_complete_installed_partial','flag_only_after_verify','flag_implies_image_partial','success_installs_partial','programs_erased_partial','staging_confined','staging_memory_safe','staging_accepts','erase_selects_page','full_image_clobbered','stale_flag_survives','short_download_flagged']],
  'Confinement and memory safety hold for all images; the rest for images that leave the last quad-word free and a flag that is clear at the start. False of the code otherwise: an image reaching the last quad-word is accepted and the flag is programmed over it (full_image_clobbered); a flag left set is not cleared before the old image is overwritten (stale_flag_survives); a download shorter than announced is flagged (short_download_flagged).')
c('C126','proved',[OT+'Zynq.'+x for x in ['ota_disk_written_once','ota_socket_balanced','ota_retry','ota_reset_only_complete']],
  'The disk layer is an oracle; one disk_part_write is one step (a power failure inside it is left to the boot loader, as the code says).')

c('C127','proved',['Wolf.Mcast.Wire.'+x for x in ['report_wire','group_mac','report_is_frame','join_record_is_current_state']],
  'The frame is built by the same stores as the code. report_is_frame ties it to the reports of C42 and C43. Finding: a join is announced with a current-state record, never with CHANGE_TO_EXCLUDE (RFC 3376 5.1). The ESP branch is not modelled.')

c('C128','partial',['Wolf.Tls.'+x for x in ['client_holds','rtl_releases','rtl_setup_succeeds','generic_at_most_eight','rtl_gives_up','generic_waits_forever','rtl_flapping_never_ends','send_result','send_ambiguous']],
  'Ownership of socket and session: proved for both clients. The rest holds for the rtl8735b client and is false of src/port/tls_client.c, which never cleans up its glue descriptor (generic_at_most_eight: no handshake after eight sessions) and never gives up (generic_waits_forever). The rtl client gives up on a silent server (rtl_gives_up) but not on a flapping connection (rtl_flapping_never_ends).')
c('C129','partial',['Wolf.Tls.Srv.'+x for x in ['server_holds','server_serves','server_cleanup','stale_callback','echo_order','echo_exact_partial','echo_lost']],
  'Ownership, service, clean-up, stale callbacks and order are proved for every history. That everything read is sent back holds as long as wolfSSL_write takes all or fails (echo_exact_partial) and is false otherwise (echo_lost).')

c('C130','partial',['Wolf.Ssh.'+x for x in ['auth_exact','uint_decimal','answer_fits','answer_whole','answer_of','server_holds','session_io','setup_never_fails','commands_exact_partial','rest_of_read_lost','nul_hides','long_line_stuck','accept_serves','reinit_recovers','lost_while_port_held','lost_to_fin','dead_for_ever','dead_by_fin','dead_by_two_clients','close_refused']],
  'Authentication, answers, ownership, session input and output, accepting and recovery (under the conditions of reinit_recovers) are proved for every history. False of the code: a line after another in one read is lost (rest_of_read_lost), a NUL hides the rest (nul_hides), a line of 511 bytes blocks the session (long_line_stuck); a listening socket that cannot be replaced at once is lost for ever (lost_while_port_held, lost_to_fin, dead_for_ever); a refused close leaks the connection (close_refused).')

c('C131','partial',['Wolf.Http.Resp.'+x for x in ['number_read','response_read','responses_exact_partial','responses_delivered','closed_silent','page_is_response','bare_never_ends','empty_page_closes','empty_chunk_closes','long_type_cut','short_write_corrupts']],
  'Proved for all responses with data over a transport that refuses or takes whole writes. False of the code otherwise: a write taken in part is not continued (short_write_corrupts); the bare answers (200 OK, 400, 404, 418, 500, 503) announce chunks and never end (bare_never_ends); empty pages and chunks close the connection (empty_page_closes, empty_chunk_closes); a long content type cuts the header (long_type_cut).')

c('C132','partial',['Wolf.MqttC.'+x for x in ['mqtt_secure','mqtt_target','mqtt_publishes','mqtt_none_lost','mqtt_delivers','mqtt_no_stray_close','mqtt_connect_params_partial','mqtt_idle_releases','mqtt_field','mqtt_configured','mqtt_client_dest','mqtt_at_most_eight','restart_never_again','restart_connect_blank','waits_for_connection','idle_for_good','accepted_is_lost','topics_collide','callback_reversed']],
  'TLS only, addresses, messages and no double close: proved for all histories. The CONNECT and what is held at rest: proved when the client is started only at rest; false of the code otherwise (restart_connect_blank, restart_never_again). False of the code: I/O set up for more than eight sessions (mqtt_at_most_eight), an accepted message survives an error (accepted_is_lost), long topics are refused (topics_collide), the connect callback of the glue goes to the address given (callback_reversed). The broker certificate is not verified by the code at all.')

c('C133','proved',['Wolf.Tftp.Srv.Ses.'+x for x in ['tftp_session_isolated','tftp_write_origin','tftp_one_session_per_peer','tftp_session_terms','tftp_terms_kept','tftp_acks_only_written','tftp_files_closed','tftp_session_ends','tftp_session_begins']],
  'Over the server model of C56/C57 (every storage answer free). The end of a session counts polls further apart than its timeout; time is the 32-bit clock of the code, polls less than 24 days apart.')

c('C134','partial',['Wolf.Dot1x.'+x for x in ['dot1x_success','dot1x_result','dot1x_authenticates','dot1x_io','dot1x_wiped','dot1x_deadline_partial','dot1x_start_lost']],
  'All proved but the ten seconds: when the socket refuses the one EAPOL-Start the client neither repeats it nor times out (dot1x_start_lost), and polls four million times. The TLS engine and the EAP payload bytes are inputs.')

c('C135','partial',['Wolf.Drv.Enetc.'+x for x in ['enetc_tx_exact','enetc_send_result','enetc_wait_ends','enetc_failed_send_goes_out','enetc_rx_exact','enetc_rx_empty','enetc_rx_room']],
  'All proved but that -1 means not sent: when the bounded wait runs out eth_send returns -1 with the frame still announced, and it goes out later (enetc_failed_send_goes_out). The device is an assumption stated in Drv/Enetc; caches are taken as coherent.')

c('C136','partial',['Wolf.HttpsTask.'+x for x in ['https_task_legal','https_starts','https_answers','https_page','https_io','https_silent_client']],
  'All proved but that no client can keep the next from being served: there is no time limit on the handshake or the request, so one silent client stops the server for good (https_silent_client). wolfSSL and the clock are inputs.')

c('C137','partial',['Wolf.Broker.'+x for x in ['broker_legal','broker_starts','broker_serves','broker_down','broker_poll_result','broker_init_again_leaks','broker_freed_unmade']],
  'All proved but three parts that are false: poll returns 0 whatever fails (broker_poll_result), initialising a running TLS broker again loses its context (broker_init_again_leaks), and when the network set-up fails a broker is released that was never made (broker_freed_unmade). wolfMQTT and wolfSSL are inputs.')

c('C138','partial',['Wolf.BsdD.'+x for x in ['dgram_order','dgram_recv_wakes','dgram_recv_now','dgram_udp_send_wakes','dgram_send_hangs','dgram_send_hang_reached']],
  'All proved but sendto on ICMP, raw and packet sockets, where it is false: emptying the buffer raises no event there and the task sleeps for ever (dgram_send_hangs). One task per descriptor; buffer room is an input, for UDP with the space test of the flush loop.')

c('C139','partial',['Wolf.Link.'+x for x in ['ip_exact','arp_exact','eapol_exact','one_call','double_tag_dropped','frame_fits','point_to_point','recvEx_eth','foreign_arp_taken']]+['Wolf.Dgram.ipFrame_eq_recvOn'],
  'All proved but one clause, false of the code for ARP and 802.1X: their destination address is not looked at, so such frames for another station are taken (foreign_arp_taken); it is proved for IPv4.')

c('C140','partial',['Wolf.Udp.'+x for x in ['ttl_own_partial','ttl_is_newest','ttl_reported_iff','ttl_option','ttl_closed','ttl_of_another']]+['Wolf.Dgram.'+x for x in ['tap_ttl_own_partial','tap_ttl_is_newest','tap_ttl_of_another']],
  'False of the code when more than one datagram waits: the slot has one TTL, overwritten at every arrival, so the receive call reports the newest datagram\'s (ttl_is_newest, ttl_of_another). Proved when the other waiting ones have the same TTL. UDP, raw and ICMP sockets.')

c('C141','partial',['Wolf.Opts.'+x for x in ['set_get','set_get_if','switch_any_int','raw_switches','set_sent','set_fails_clean','set_changes_one','set_reads_within','get_within','no_buffer','set_octet','unknown_refused_partial','unknown_accepted','hdrincl_not_readable']],
  'False of the code for options a socket does not have: TCP, UDP and ICMP sockets answer success to both calls and do nothing, so getsockopt(SO_ERROR) returns 0 and leaves the caller\'s variable unwritten (unknown_accepted). Everything else is proved.')
