# Formal model of wolfSSL/wolfip in Lean 4 — design

## What this is

`/verif/lean/Verif/` holds executable Lean 4 models of the logic of wolfIP (`/repo/src/wolfip.c`,
`/repo/src/wolfesp.c`, `/repo/src/wolfguard/*`, `/repo/src/tftp/*`, `/repo/src/http/*`,
`/repo/src/supplicant/*`, `/repo/wolfip.h`) and machine-checked theorems about them.  Every
definition carries a comment citing the file and lines it models.  One subsystem per directory:

* `Model*.lean` – the functions of the C code as total computable functions
* `Spec*.lean`  – where needed, the small independent specification the property is stated in
* `Lemmas*/Proof*.lean` – helper lemmas
* `Props*.lean` – the property theorems and, beside each, `example`s showing that a concrete
  non-trivial case meets the hypotheses.

## Trusted base

* Lean 4.33.0's kernel.
* Axioms: at most `propext`, `Classical.choice`, `Quot.sound` for every property theorem
  (printed by `#print axioms`; no own axioms, no `native_decide`, no `bv_decide`).
* The reading of the C code.  The code is never run here; the only link between code and model is
  the line-by-line citation carried by each definition.
* The configuration modelled is `config.h` as committed unless a parameter is left free
  (most buffer sizes, slot counts and MTUs are universally quantified parameters).

### General modelling conventions

* `uint32_t` values are `UInt32`, or `Nat` with an explicit `% 2^32` when the theorem needs linear
  arithmetic; 64-bit tick counters are `Nat` (a 64-bit millisecond counter does not wrap in
  5·10^8 years) except where the code itself mixes widths.
* Memory is a list or a function of bytes; out-of-bounds access is an explicit error outcome
  (`none`) in the parsers whose property is "never reads outside", not an assumption.
* Mutation through pointers becomes a returned record; loops become structural recursion or
  fuel-bounded recursion with a proof that the fuel suffices.
* Crypto primitives (AEAD, HMAC, hash), the random source and the driver callbacks are parameters.
* Byte order: header fields are host-order numbers in the models, except where the property is
  about byte order (timestamp comparison, checksums, address text).

### What is modelled, by file

| Code | Model | Left out of that model |
|------|-------|------------------------|
| `wolfip.c` 206–545 packet FIFO | `Fifo/` (byte memory, offsets, wrap) | pointer alignment; the C `struct` layout (a 16-byte descriptor is four 32-bit words) |
| `wolfip.c` 548–690 receive ring | `Tcp/Queue` | – |
| `wolfip.c` 598–601, 4294–4299, 4937–4951 sequence arithmetic | `Tcp/Seq` | – |
| `wolfip.c` 838–1085 filters | `Filter/` | the metadata fields other than those the decision depends on |
| `wolfip.c` 1414–1435, 2508–2630, 11192–11200 timer heap | `Timers/` | callbacks (they appear as interleaved operations) |
| `wolfip.c` 1535–1787, 9893–10085, 10446–10603 MTU, VLAN, loopback, `ll_send_frame`, frame dispatch | `Link/` | – |
| `wolfip.c` 1922–1955, 7259–7371, IGMP | `Mcast/` | – |
| `wolfip.c` route table and lookup | `Route/` | – |
| `wolfip.c` 2632–2763, 6315–6362, 6718–6783, 7080–7115, 8026–8076 UDP | `Udp/` | the FIFO is a list there (C01 is the FIFO) |
| `wolfip.c` 2864–2952, 3065–3126, 3652–3740, 3905–4066, 5350–5860, 6215–6480, 7662–7760 TCP control plane | `Sock/` | payload (in `Tcp/`), window scaling and SACK state (in `Tcp/Neg`, `Tcp/SackProof`) |
| `wolfip.c` 3126–3650, 4940–5105 TCP receive data plane, SACK generation | `Tcp/Recv*`, `Tcp/SackProof`, `Tcp/Window` | time stamps (in `Tcp/Paws`), options (in `Tcp/Opts`) |
| `wolfip.c` 3791–4291, 5107–5348, 6063–6130, 6560–6640, 11288–11450 TCP transmit data plane | `Tcp/Snd*`, `Tcp/FastRtx`, `Tcp/FinAck` | the FIFO is a list of descriptors; IP/Ethernet output of a segment either succeeds or fails (oracle) |
| `wolfip.c` 2161–2184, 2765–3040, 6360–6415, 6783–6998, 7122–7243, 7742–7770, 7964–8140, 11450–11665 ICMP, raw and packet sockets, datagram flush | `Dgram/` | the FIFO is a list there; event bits, TTL options |
| `wolfip.c` 7373–7517, 7544–7661 socket options | `Opts/` | memberships (in `Mcast/`) |
| `wolfip.c` checksums | `Csum/` | – |
| `wolfip.c` 10131–10440 `ip_recv`, forwarding, ICMP echo and errors | `Ip/` | ESP hook (in `Esp/`) |
| `wolfip.c` ARP | `Arp/` | link addresses are 48-bit numbers |
| `wolfip.c` 8327–9455 DHCP client | `Dhcp/` | logging |
| `wolfip.c` DNS resolver | `Dns/` | random ids are parameters |
| `wolfip.c` event bits, `dispatch_events`, `handle_socket_callbacks`, `can_read`, `can_write` | `Ready/` | buffer room is an input; events re-raised by retransmission marking |
| `port/freeRTOS/bsd_socket.c` | `Bsd/` | one task per descriptor in `Model`; the poll task's sleep times and the log are left out |
| `port/stm32h563/mqtt_broker_persist_flash.c` | `Kvf/` | flash registers, locking, wait loops; the NMI an ECC error raises; the caller's buffer in `kvf_get` |
| `wolfip.c` `atoip4`, `iptoa` | `Text/` | – |
| `wolfip.h` 284–336 and all descriptor tests in `wolfip.c` | `Fd/` | what a call does inside the slot it resolves to (arbitrary function) |
| `wolfesp.c` replay window, sequence numbers, transport encapsulation | `Esp/` | cryptography (oracle with an explicit correctness hypothesis) |
| `wolfguard/wg_packet.c`, `wg_cookie.c`, `wg_noise.c`, `wg_timers.c`, `wg_allowedips.c`, `wolfguard.c`, `wg_crypto.c` | `Wg/` | SHA-256, HMAC, AES-GCM, ECDH (parameters that may fail); in `Wg/Device` the handshake's key material is an oracle, in `Wg/Noise` the keypair slots are left out; zeroisation of local buffers, timing |
| `tftp/wolftftp.c` | `Tftp/` | UDP transport (oracle) |
| `port/stm32h563/tftp_client_demo.c` 204–446, `port/amd/boards/zcu102/ota.c` 77–379 | `Ota/` | flash and SD controllers (specification with torn operations; oracle), the UDP transport |
| `http/httpd.c` | `Http/` | sockets and TLS |
| `supplicant/supplicant.c`, `eapol.c`, `eap.c`, `rsn_ie.c`, `eap_tls.c`, `eap_tls_engine.c` 33–106 | `Supp/` | SAE group arithmetic, TLS engine, AES/HMAC (all parameters); `eap_peap.c`, `mschapv2.c` in `Supp/Mschap`, `Supp/Peap` with hashes and DES as parameters |
| `supplicant/sae_crypto.c` (whole file), `supplicant.c` 1113–1162, 1348–1524 | `Sae/` | wolfCrypt: `mp_*` are residues (no size limit, no allocation failure), `wc_ecc_mulmod` the n-fold sum, HMAC/HKDF arbitrary functions of known output length; zeroisation, timing |
| `supplicant/wpa_crypto.c` (whole file) | `Supp/Wpa`, `Supp/WpaProps`, `Supp/Cmac` | HMAC, one-block AES, RFC 3394 unwrap, PBKDF2 (parameters that may fail); zeroisation, timing |
| `port/stm32/stm32_eth.c` 429–490, 717–807, `port/lpc_enet/lpc_enet.c` 417–481, `port/stm32f4/stm32f4_eth.c` 355–388, 487–571, `port/va416xx/va416xx_eth.c` 613–770: descriptor rings | `Drv/` (one step per access, concurrent DMA engine) | caches, barriers (accesses take effect in program order), descriptor prefetch, PHY and clock set-up |
| `port/wolfssl_io.c`, `port/wolfssh_io.c`, `port/wolfmqtt_io.c` | `Glue/` | what the libraries do with the results; a zero `stack` pointer given by the application; address parsing |
| `port/tls_client.c`, `port/rtl8735b/tls_client.c`, `port/stm32h563/tls_server.c` 199–389 | `Tls/` | TLS itself, SNI and certificate set-up, `wolfSSL_shutdown`, `tls_server_init` |
| `port/stm32h563/ssh_server.c` 92–141, 144–214, 311–527 | `Ssh/` | SSH itself (key exchange, channel), host key and `ssh_server_init`, what `wolfSSH_stream_send` did not take |
| `port/stm32h563/mqtt_client.c`; `port/wolfmqtt_io.c` 91 | `Mqtt/` | wolfMQTT and wolfSSL themselves, certificates (not verified by the code), debug output |
| `port/nxp_enetc/nxp_enetc.c` 385–521 | `Drv/Enetc` | ECAM discovery, MDIO/PHY, station registers; cache maintenance (DMA coherent) |
| `port/stm32h563/mqtt_broker.c` | `Mqtt/Broker` | wolfMQTT and wolfSSL (outcomes as inputs), debug texts |
| `port/stm32h563/https_server_freertos.c` 77–308 | `Http/Task` | wolfSSL (outcomes as inputs), debug texts, `xTaskCreate` |
| `port/stm32h563/dot1x_client.c` 128–305 | `Supp/Dot1x*` | the TLS engine and the bytes of EAP answers (inputs), SysTick set-up, log texts |
| `port/posix/bsd_socket.c` descriptor table, wake-ups, `poll`, `select`, send loops, `sendmsg`/`recvmsg`, `getaddrinfo` | `Posix/` | `getnameinfo`, `gethostbyname`, option tables, start-up (2026–2138); the host's libc |
| `port/amd/ip/gem_swq.c`, `gem_rx_poll.c`, `gem_rx_swq_poll.c`, `gem_rx_irq.c`: receive | `Drv/Gem` | error frames, register accesses, cache maintenance |
| `port/nxp_etsec/nxp_etsec.c` 279–367, `port/nxp_qe_uec/nxp_qe_uec.c` 418–485, `port/nxp_fman/nxp_fman.c` 540–580: datapaths with the data cache | `Drv/Line`, `Drv/LineTx` | register accesses, buffer pointers; FMan receive |
| `port/rp2350_cyw43439/cyw43_sdpcm.c` (whole file), `cyw43439_driver.c` 849–1060, 1170–1277, 1449–1592, `cyw43439_wifi.c` 29–115 | `Drv/Cyw*` | bring-up, firmware download, join sequences, the PIO program; `gspi_service_irq` (clears error bits) |
| `wolfip.c` 11160–11200 and every site that arms a timer | `Poll/` | what input processing does with a frame (arbitrary function) |

### Not modelled anywhere

Compilation, memory safety of pointer casts, alignment and struct packing, thread interleaving
(the stack is single threaded by contract), the other device drivers and BSPs in `/repo/src/port`, the
cryptographic strength of the primitives,
certificate handling.

## Plan per property

| Id | Modelled | How it is proved |
|----|----------|------------------|
| C01 | `fifo_*` 206–555 as offset machine over a byte memory | refinement to a list of packets; invariant over op lists |
| C02 | `fifo_can_push_len`, `fifo_max_push_payload` | equality with `fifo_push` success; binary search correctness by monotonicity |
| C03 | `tcp_recv`, OOO store, rx ring | invariant: every stored byte = stream byte at its offset; induction over segment/recv lists |
| C04 | same | same invariant: ack = ISN+1+accepted count; monotone |
| C05 | SACK rebuild, sort, merge | set-of-covered-bytes preserved by merge; every block ⊆ held OOO data |
| C06 | `queue_*` 548–690 | refinement to bounded byte list |
| C07 | `tcp_seq_*` | arithmetic mod 2^32 |
| C08 | option parser/emitters | total function with explicit error on out-of-bounds; round-trip |
| C09 | `tcp_process_ts`, `tcp_paws_check` | code violates the "remembers newest" half: negation with witness; partial for PAWS half |
| C10 | RTO update/clamp/backoff/persist | arithmetic bounds |
| C11 | binary heap | multiset refinement + heap order |
| C12 | `tcp_ack` pop loop | code violates it for ACK>SND.NXT: negation; partial under ACK ≤ SND.NXT |
| C13 | `tcp_ack`, loss handling | invariant over event lists |
| C14 | `tcp_rto_cb` and arming | code violates it in CLOSE_WAIT/LAST_ACK: negation; partial for the other states |
| C15,C16,C17,C18 | `tcp_input` control skeleton, timers, API | invariant/edge relation over all events |
| C19 | close-notify bookkeeping | history invariant |
| C20,C21 | bind/connect/listen | invariant over op lists; violations of C21 as negations |
| C22 | UDP demux + datagram queue | membership conditions; refinement |
| C23 | `ip_recv` validation | every dispatch implies predicate |
| C24 | checksum functions | one's-complement arithmetic mod 65535 |
| C25 | forwarding block, ARP pending queue | postconditions of each transmitted frame |
| C26 | route lookup | LPM over connected + static routes |
| C27 | route table API | refinement to finite map |
| C28,C29 | ARP | provenance invariant over event histories |
| C30 | option stream | bounds with explicit error outcome; equality with a declarative parser |
| C31,C32,C33 | DHCP client | state-machine invariants |
| C34,C35,C36 | DNS | bounds; history invariant; round-trip |
| C37 | `atoip4`, `iptoa` | round-trip |
| C38 | filter mask/dispatch | decision logic |
| C39 | MTU | invariants on frames handed to a driver |
| C40 | VLAN table and tagging | invariant; round-trip |
| C41 | loopback queue | refinement to list |
| C42,C43 | multicast/IGMP | refinement to finite set; bounds |
| C44 | ICMP error generation and reception | decision logic |
| C45 | `wg_counter_validate` | refinement to a set of accepted counters |
| C46 | allowed-IPs | LPM; injection condition |
| C47,C48,C49,C50 | sessions, staged queue, timers | history invariants; C50 violated: negation |
| C51,C52 | ESP replay / oseq | refinement to set; history invariant |
| C53,C54,C55,C56,C57 | TFTP | history invariants; C53, C55 violated in stated situations: negations |
| C58 | URL codec | round-trip, length |
| C59 | EAPOL-Key handling | history invariant |
| C60 | descriptor marks | bit arithmetic |
| C61 | ESP persistence callbacks | false (32 of 64 window bits saved): negation; partial for the low half |
| C62 | ESP transport encapsulation | round-trip under an explicit cipher hypothesis |
| C63 | `icmp_input` | byte-level equality with the specified reply |
| C64 | WireGuard initiation pacing | history invariant for retransmissions; negation for data-triggered ones |
| C65 | initiation timestamps | history invariant: accepted timestamps strictly increase per peer |
| C66 | EAP-TLS fragmentation, both directions | round-trip over arbitrary MTUs; history invariant |
| C67 | M3 key data | bounds with explicit `oob`; RSN IE equality |
| C68 | EAPOL/EAP parsers | equality with a declarative reading of the standard |
| C69 | PMKSA cache | provenance invariant over histories |
| C70 | supplicant timers | invariant: in a handshake the deadline is set and bounded; spacing of M2 copies |
| C71 | advertised window, acceptability | right edge = read count + buffer size; segments outside change nothing |
| C72 | `flush_tcp_tx` window test | history invariant on stream positions; negation for the fast-retransmit slack |
| C73 | `tcp_ack` duplicate handling | step theorems for every state |
| C74 | sender + network + receiver | product invariant of the C03 and C12 invariants |
| C75 | two closing ends | false of the code: for all schedules the close never completes; partial |
| C76 | `close()` to CLOSED | history invariant |
| C77 | `parse_http_request` to the dispatch, URL table | bounds-checked parser; equality with a declarative grammar; the missing blank line is a counterexample |
| C78 | `httpd_get_request_arg` | equality with "first pair of that name" |
| C79 | HTTP client table and callbacks | history invariant; counterexample for failing sends |
| C80 | `wg_cookie.c` and its callers on both devices | history invariants over both cookie states; two-device round trip |
| C81 | ICMP, raw and packet sockets, reception path from the frame | equality with a declarative description of the frames a socket takes; queue replay over histories |
| C82 | their send calls and flush loops (also the UDP flush) | queue replay over histories; exact description of one flush; content of accepted datagrams |
| C83 | their socket, bind, connect, setsockopt and close calls | exact effect of each call, other sockets framed |
| C84 | event bits, dispatch and reads of one socket of each kind | ghost obligation folded over the history, invariant, all interleavings; partial: raw and packet loops clear after the callback |
| C85 | the same with sends, flushes and acknowledgements | same; partial: false for ICMP, raw and packet |
| C86 | `Bsd/Model`: one pass of each blocking call under the lock, the semaphore, the callback and its mask, over `Ready/Tcp` | invariant "what the call waits for is announced while the task sleeps" by induction over histories; hang theorems for every continuation; partial: false for connect, send, close |
| C87 | `Bsd/Fds`: descriptor table over slots with identities | invariant by induction over histories; partial: false when the stack frees a slot under an open descriptor |
| C88 | `Tcp/Neg`: negotiated fields over the option bytes and parser of `Tcp/Opts` | composition of the two round trips; arithmetic; partial: false for a server with a tiny MTU, and the MSS overrun |
| C89 | `Supp/Peap`: the PEAP session from kick to the key handshake, wolfSSL an oracle; inner method on bytes | invariant over histories (the remembered challenge is the last one answered); partial: EAP-Success is honoured without the inner authentication |
| C90 | `Supp/Mschap`: the inner messages byte for byte, the computations over abstract hashes | equality with definitions transcribed from RFC 2759 / 3079 |
| C91 | `Sock/Blind` on the control-plane model | case analysis per segment against an RFC 793 window specification on numbers modulo 2^32; invariant over histories for the FIN number; two proved counterexamples |
| C92 | `Kvf/` (whole module: layout, append, scan, compaction, restart; every flash command takes its outcome from the environment) | refinement: the active bank holds a log of records at every crash point (invariant), the log determines a map, each call is a step of the map specification `Kvf/Spec`; induction over histories; counterexamples by evaluation |
| C93 | `Sae/Model` (all of `sae_crypto.c`), `Sae/Session` (frames) | the affine formulas of the code represent Mathlib's group law on the curve (`Sae/Curve`), then algebra in the group; message round trip; `Sae/Example` runs it on a curve with 41 points; `Sae/Kernel`, `Sae/Check` prove small checkers sound (modular powers, Pocklington certificates, multiples of the base point in Jacobian coordinates, `gcd(x^p - x, cubic)`), and the kernel evaluates them for P-256 and P-384 (`Sae/P256`, `Sae/P384`, generated by `tools/curves.py`), so `Sae/Nist` has no hypothesis on the curve |
| C94 | same | exact characterisation of acceptance against a specification in `ZMod p`; injectivity of the transcript; induction over the frames received |
| C95 | same, byte masks included | invariant of the 40-round loop ("first valid so far"), Euler's criterion from Mathlib for the blinded test |
| C96 | same | the SWU identity by field algebra; residue symbols multiply |
| C97 | `wpa_crypto.c`: PRF, KDF, address/nonce order, PTK split, AES-CMAC with subkeys, comparison (`Supp/Wpa`) | loops against the formulas of 802.11 and RFC 4493; blocks as 128-bit numbers, doubling in GF(2^128) |
| C98 | supplicant of C59/C70 against a declarative authenticator (`Supp/Complete`) | invariant of the waiting state over benign histories; parser/builder lemmas of C68 |
| C99 | same | proved for authenticated sessions; refuted by two universal counterexamples elsewhere |
| C100 | `Wg/Noise` (`wg_noise.c`, `wg_crypto.c` with key material); spec in `Wg/NoiseProps`: chain and transcript as folds, seals and keys as closed expressions | each step computes the specified values; composition of the four steps |
| C101 | same | inversion of every step; induction over the two chains for the binding |
| C102 | `Wg/Noise` (data messages), `Wg/NoiseData` | little-endian round trip, big-endian order by induction on the octets |
| C103 | `Dhcp/Wire` (messages, reader, server), `Dhcp/Acquire` | read-back of the encoders by offset lemmas; composition with C30–C32 |
| C104 | `Drv/Rx` (driver and DMA engine interleaved access by access), `Drv/RxProps` | invariant over the ring: frames `out … done` are in descriptors `j mod n`, the rest is armed |
| C105 | `Drv/RxLive`, `Drv/TxProps` with a binding tail pointer | invariant: the tail pointer is the descriptor before the driver's index; counterexample schedules with a proof that nothing moves afterwards |
| C106 | `Drv/Tx`, `Drv/TxProps` | invariant over the ring; the log of results is compared with the wire |
| C107 | `Glue/Model` (both pools, contexts, callbacks), `Glue/Props` | invariant over histories: the descriptor of a set-up session holds its stack and socket and is no other session's |
| C108 | `Glue/Props` (`Tidy` histories) | invariant: every descriptor in use belongs to a set-up session; counting |
| C109 | `Glue/Mqtt` | invariant over histories: live sockets are exactly those held |
| C110 | `Posix/Fds` (host table, port table, slots, other threads), `Posix/FdsProps` | invariant over histories: table, back references and slots agree with what the application opened |
| C111 | `Posix/Wake` (pending flags, pipe, callback rounds), `Posix/WakeProps` | invariant over interleavings: flags equal pipe contents; a sleeping call is armed |
| C112 | `Posix/Wake`, `Posix/WakeProps` | same invariant; counterexample runs |
| C113 | `Posix/Send` | induction over the stack's replies |
| C114 | `Posix/Iov` (memory map, checked buffers) | induction over the vector |
| C115 | `Posix/Gai` (wait context, result list, strings), `Posix/GaiProps` | invariant over interleavings; induction over strings |
| C116 | `Drv/Gem`: ring, interrupt queue, octet-by-octet MAC writes, as steps | invariant over interleavings |
| C117 | `Poll/Timers`: every arming site, owners, the bounded table | invariant: live timers have distinct owners, counted; counterexample run |
| C118 | `Poll/Devices`: `poll_devices`, `handle_timers` over arbitrary drivers and callbacks | induction over the budget and over due timers |
| C119 | `Drv/Line`, `Drv/LineTx`: descriptor rings behind a write-back cache with lines of k descriptors | invariant over interleavings; counterexample runs with all continuations |
| C120 | `cyw43_sdpcm.c`, `cyw43_poll`, `cyw43_handle_event`, `cyw43_ll_poll`: status words and octets arbitrary, bounds-checked loads (`Drv/Cyw`) | each packet's effect equals a small independent parse; induction over status words and polls (`Drv/CywProps`) |
| C121 | `bdc_data_tx`, sequence and credit octets against unbounded counters (`Drv/CywTx`) | invariant relating octets to counters; counterexamples beyond the limits |
| C122 | `cyw43_ioctl`, `cyw43_set_key` (`Drv/CywIoctl`) | induction over the tries against `findSome?` of a separate answer parse |
| C123 | `cyw43_gspi_cmd`, `cyw43_iovar_build`, `clm_load` chunks (`Drv/CywReq`) | arithmetic; induction over the offset |
| C124 | the client model of C53 with the answers of the callbacks | the callback sequence of every run is accepted by a small protocol automaton; invariant relating client state to phase |
| C125 | the H5 sink callbacks over a flash specified by erase/program with torn operations | invariant on the logged operations, then composed with the client through C124 |
| C126 | the ZCU102 staging sink and trigger/poll | invariant through C124; small state machine for the rest |
| C127 | the stores of `igmp_send_report` into the zeroed frame | the frame as an explicit list, then the C24 fill lemma for each checksum; a separate record of what a router checks |
| C128 | both TLS clients as machines over the glue model of C107 that other users share; the stack and wolfSSL answer anything | invariants over histories; a counting argument for the descriptor pool; counterexamples for the generic client |
| C129 | the slots, callbacks and clean-up of `tls_server.c` over the same glue model | invariant: open sockets = sockets of slots, live sessions = sessions of slots; echo as a sublist relation on the trace |
| C130 | `ssh_server.c` poll machine over the socket table (`Sock`) and the glue model (`Glue`); wolfSSH answers anything | invariant for ownership; command lines compared with a separate splitter `lines` over the typed stream; listening-socket loss by theorems over all later histories |
| C131 | the response functions of `httpd.c` over a transport that answers each write as it likes | a separate client (line, field, length and chunk reader) applied to what the transport took; induction over responses and chunks |
| C132 | `mqtt_client.c` whole over the wolfMQTT and wolfSSL glue models (C107, C109), every outside answer free | a trace of what the client did with separate specifications over it (secure, targets, publishes, connects); invariants over all histories; counterexample histories for what is false |
| C133 | the TFTP server model of C56/C57, as a machine of packets and polls | a per-slot step relation for isolation, origin and terms; invariants over all histories for peers, acknowledgments and files; induction over the history for the end |
| C134 | `dot1x_eaptls_run` over the supplicant model (Supp/Dot1x): packet socket, framing, loop, ends | a per-turn case analysis of the supplicant before its handshake proper; induction over the turns |
| C135 | `eth_send`, `eth_poll` of the ENETC driver against the index-ring device, one action at a time (Drv/Enetc) | invariants over every interleaving: which descriptors are announced, written, met |
| C136 | the HTTPS task of the FreeRTOS port as a trace of calls over all their outcomes (Http/Task) | a bookkeeper of descriptors, context and sessions accepts every trace, by induction over the clients; answers as a filter of the clients; length bounds for the page |
| C137 | the states of `mqtt_broker.c` and its calls to wolfMQTT and wolfSSL over all outcomes (Mqtt/Broker) | a bookkeeper of network, broker and context accepts every history, by an invariant linking it to the module's state |
| C138 | one pass of `recvfrom`, `sendto`, the semaphore and the callback over the datagram sockets of Ready/Model (Bsd/Dgram) | invariant "asleep with a datagram waiting means an event or the semaphore is set", by induction over histories; hang theorem for every continuation |
| C139 | `wolfIP_recv_on` after the tag handling of Link/Model, `wolfIP_recv_ex` (Link/Dispatch) | each outcome characterised by an inductive specification of how the frame is seen (`View`) and an address predicate (`ForMe`) |
| C140 | `last_pkt_ttl` and `recv_ttl` of the slots on top of Udp/Model (Udp/Ttl); the same for raw and ICMP sockets as a function of their event logs (Dgram/Ttl) | invariant "the recorded TTL is that of the newest waiting datagram" through the replay of the event log |
| C141 | both calls on the options of one slot, buffers as octet lists (Opts/) | case analysis over kind, level and name against a table of options (`Has`) and of expected answers (`Answer`) |

## Method of checking the theorems

Beside each theorem there is an `example` (or a named witness) meeting its hypotheses.  In addition
the models are edited the way realistic bugs would change the program and the whole project is
rebuilt; `seeded/LOG.jsonl` has one line per attempt (definition, edit, claim broken, theorems that
failed, theorems tightened because of a survivor).

## Findings: places where the code does not do what the property says

Those with a theorem name are machine-checked counterexamples in the model.

**TCP sender.**
* Our own FIN consumes no sequence number (`tcp_send_finack` sets `last = seq` and does not advance
  `seq`), so the ACK of the peer's FIN is one too low; a LAST_ACK wolfIP peer refuses it, TIME_WAIT
  re-ACKs everything, and the two ends exchange ACKs until the peer's FIN retries are exhausted
  (C75 `close_never_completes`).
* An ACK above SND.NXT discards data that was sent but not acknowledged, and `flush_tcp_tx` pops the
  oldest data segment after transmitting a pure ACK/FIN queued behind sent data, 11410 (C12).
* A forged ACK exactly 2^31 ahead moves SND.UNA (C13); cwnd inflation is unbounded; `dup_acks` is not
  reset on RTO; an ACK inside a segment counts as forward and as duplicate.
* CLOSE_WAIT does not re-arm the RTO; in LAST_ACK data is never retransmitted; a lost FIN in
  FIN_WAIT_1 is never retransmitted (C14).  TIME_WAIT gets no timer and is reaped only if the
  application closes again; CLOSING has no timer.
* Retransmitted bytes are not counted in flight, so after a fast retransmit new data may exceed the
  peer's window (C72).  If the first SACK block comes with the third duplicate ACK, recovery is never
  entered (C73 `recovery_skipped_with_late_sack`).
* `peer_rwnd` is taken from every non-RST segment before any acceptability test (5489–5500).
* The time stamp comparison is done on byte-swapped values (C09).

**TCP sockets.**
* A RST with the exact sequence number, a FIN, or an ICMP error quoting the SYN-ACK destroys or pins
  a listener whose handshake completed before `accept()` (C15, C18).  A RST with seq 0 closes a merely
  bound socket.  Segments to a bound CLOSED socket's port get no RST.
* `accept()` on an accepted socket still in SYN_RCVD turns it into a listener; a vetoed `listen()`
  leaves `is_listener` set, so a later `connect()` yields an ESTABLISHED socket that `accept()` reverts
  to LISTEN (C16, C21).  A vetoed or refused `connect()` leaves addresses, ports and seq changed.
* A listener answers an ACK addressed to a broadcast or multicast address with a RST sourced from that
  address (C17).
* A socket closed and reopened inside its own callback is destroyed by the reap after the callback
  (11258); `connect()`/`listen()` on a slot with a pending close event is zeroed at the next dispatch
  (C19).  `accept()` failing late arms a CB_EVENT_CLOSED for a descriptor the application never got.
* A wildcard bind records the primary interface's address, so a bind on another interface's address
  does not see the overlap (C20).  Ephemeral ports are random without a uniqueness check; TCP
  `connect()` adds 1024 to a bound port below 1024.
* FIN accepted again in CLOSE_WAIT/CLOSING/TIME_WAIT advances RCV.NXT again; the FIN_WAIT_1 to
  FIN_WAIT_2 test has no upper bound on the ACK; `recv()` cannot read remaining bytes in CLOSING,
  TIME_WAIT and LAST_ACK.

**Packet FIFO.** A packet whose record ends in the last partial word of the buffer is lost when the
aligned head wraps to 0 (C01 `fifo_not_exact`).  `h_wrap = 0 when tail == head` in `fifo_pop` is dead code.

**UDP, ICMP, IP, ARP, routes, links.**
* A connected UDP socket with local address 0 while DHCP runs accepts any peer; multicast delivery to a
  connected socket ignores the source port; `sendto()` with an address redirects the peer filter, even if
  it fails; a datagram to port 0 matches unused slots while DHCP runs (C22).
* A multicast IP destination in a unicast frame is forwarded by the default route and may trigger time
  exceeded; port unreachable is sent for link-layer broadcasts and quotes the rewritten header; time
  exceeded may be sent to 0.0.0.0; fragmentation needed is never sent; a second packet to the same
  unresolved next hop replaces the parked one (C25, C44).
* A forwarded datagram cut inside its transport header bypasses the transport filter (C38).
* `esp_send` ignores the MTU and calls a NULL driver on a VLAN sub-interface; inbound plaintext is
  accepted although an inbound SA exists; the persistence callbacks carry 32 of 64 window bits (C39, C61).
* Static route at order 0 beats an equally long connected subnet on a higher interface; lookup never
  fails when an interface exists.  0.0.0.0 resolves to a zero MAC in the first 120 s; an ARP request with
  a foreign hardware address refreshes the entry's age.
* `mtu_set` on a VLAN sub-interface has no effect; `tcp_send_empty` assumes a 40-byte option budget;
  loopback silently drops 1501–1522-byte packets and blocks if the MTU is lowered; `flush_raw` pops even
  on EAGAIN.
* `setsockopt(IP_ADD_MEMBERSHIP)` on a never-opened descriptor is granted and leaks; `udp_new_socket` does
  not clear old memberships; a general query to 0.0.0.0 passes (C42, C43).
* More than 255 slots per kind would alias descriptors; the compile-time check is needed (C60
  `big_table_aliases`).

**DHCP, DNS, TFTP, HTTP.**

* After every renewal the client probes its own address again and `dhcp_bound()` is false for three seconds
  although the lease is valid (C103).
* `parse_offer` writes the server id before rejecting; an offer with server id 0.0.0.0 is accepted and then
  any server may ACK; option 50 in an ACK overrides yiaddr; a lease expired while RENEWING or probing
  survives the next timer event; `dhcp_client_init` does not reset the retry count; an exhausted REQUEST
  goes to OFF; a timer lost to a full heap is never retried; a non-Ethernet interface never leaves DAD;
  a deadline of 0 is a tombstone (C31–C33).
* A 256-octet DNS name is accepted; a full timer heap leaves the query stuck (C35, C36).
* TFTP: a failed send of the final ACK never completes; blocks longer than the block size are accepted;
  retries are not counted when the send fails; OACK is re-accepted in mid-transfer; no dally; a duplicate
  ACK makes the server skip or send an extra block (C53, C55).
* HTTP: encoding leaves a percent sign alone (C58); `%00` truncates the path match (C77 `nul_ends_path`); a request
  is taken as complete when the segment ends after any header line (C77 `unfinished_request_is_served`); a request path
  that decodes to nothing matches an unused URL entry; when the send of a response fails, the client entry is freed
  but the callback of the half-closed socket is kept, so a later request on it is answered on the connection that got
  the entry (C79 `response_to_other_connection`); a partial send truncates the response silently; an empty static page
  announces chunked coding and sends no chunk.

**WireGuard.** With a persistent interval a keepalive is sent at every poll (C50); after 120 s every packet
sent by the initiator triggers a new initiation, which also invalidates the one in flight (C64); after
giving up at 18 attempts the rekey timer initiates again in the same tick; a responder does not drain its
staged packets when its session is confirmed (C49 `staged_overtaken`), and a drain without a current
session starts its own handshake whose completion discards `next`; a failed `create_response` or
`begin_session` leaves a state in which sends only stage; the expired-key path stages without initiating;
allowed-IP prefixes above 32 are accepted; staged packets above 1536 bytes are truncated and sent; indices
are random without a uniqueness check.

**Supplicant.** One forged unauthenticated key frame (bad MIC, stale replay, group frame) in M1_WAIT or
M3_WAIT, or a forged EAP-Failure/Success/Request or SAE frame in any state, moves the session to FAILED;
the Secure bit of M3 is not required; a retransmitted M1 is answered with the old replay counter; PEAP
accepts EAP-Success without a verified authenticator response and EAP-TLS-typed requests; a PSK session
that reconnects after an SAE association with the same SSID uses the SAE PMK (C69); an SAE entry is not
bound to the passphrase; an EAP-TLS message shorter than announced is accepted as complete.
- WireGuard load detection counts handshake messages per poll cycle and drops back to "not under load" at every
  second cycle of a constant flood, so every other cycle is processed without cookies (C80
  `flood_every_second_cycle_open`); the 16-bit counter wraps at 65536 messages (C80 `load_counter_wraps`).
- ICMP, raw and packet sockets (C81, C82, all proved as theorems named in the manifest): a packet socket bound to interface
  0 gets the frames of every interface; sending or connecting restricts an unbound raw socket to the interface used last;
  an ICMP socket has an id as soon as it sends and then never sees ICMP errors (their id field is 0); operations on an
  ICMP descriptor that is not open are not refused and leak into the next socket; `recvfrom` with too small a buffer
  discards the message; with IP_HDRINCL and no destination the socket remembers the first header's destination and
  rewrites later datagrams to it; a failed send already changed peer and interface; all frames queued on a packet
  socket leave on the interface of the last send; MSG_DONTROUTE has no effect at the flush; raw datagrams to a subnet
  broadcast or a group, and ICMP to a group, ask ARP for that address and block the socket for ever; raw and packet
  frames the driver refuses are lost, while UDP and ICMP ones block the queue (also those larger than the egress MTU,
  for ever); a VLAN sub-interface at index 0 duplicates frames.
- Readiness (C84, C85): `handle_socket_callbacks` clears the events of raw and packet sockets after their callback, so an
  event raised during it is lost; draining an ICMP, raw or packet transmit buffer never raises WRITABLE, so a sender refused
  with EAGAIN is never woken; `can_write` is 1 for a CLOSE_WAIT connection whose buffer is full; bytes received in
  FIN_WAIT_1/2 before the peer's FIN are reported by `can_read` but can no longer be read after it.
- FreeRTOS sockets (C86, C87): `send()` retries a bare −1 once after waiting for an event, so on a connection that was reset it
  blocks for ever; `connect()` refused by a reset blocks for ever (the retry on the freed slot says EAGAIN); `close()` waits
  for CLOSED only, so it never sends its FIN if the transmit buffer was full, and never returns after a simultaneous close; a
  connection freed by the stack under its open descriptor leaves that descriptor pointing at whatever socket is created next.
- TCP options (C88): a server on an interface with a frame MTU of 64–73 cannot fit the timestamp option in its SYN-ACK but keeps
  `ts_enabled`, so it silently drops every later segment of the peer; `tcp_tx_payload_cap` does not subtract the 12 option bytes from
  the peer's MSS, so segments exceed a smaller peer MTU by 12 (RFC 6691); with frame MTU 64–66 no data can be sent at all.
- PEAP (C89): `supp_handle_eap_success` asks only for a completed TLS handshake. A server whose certificate is accepted can skip
  the inner MSCHAPv2 authentication and send EAP-Success: the supplicant goes on to the 4-way handshake without the server ever
  proving that it knows the password (`peap_success_unproved`). A Result TLV is answered with "Success" whatever it says and
  whether or not anything was verified (`result_tlv_unproved`). EAP type 13 is served in PEAP mode as well.
- Flash store (C92): `kvf_rec_parse` reports a record header it does not recognise as corruption and `MqttBrokerNet_PersistFlash_Init`
  answers corruption by formatting the bank, so one power failure while a record header is programmed (the quadword neither erased
  nor valid) costs the whole store at the next boot (`torn_header_loses_everything`). A program error after the header leaves
  `append_off` at a record that is already there: every later put fails until a restart or a compaction (`error_blocks_puts`). A torn
  tombstone cannot be rewritten: the key cannot be deleted until a compaction (`torn_tombstone_undeletable`).
- SAE (C93-C96): a refused commit has already replaced the stored peer scalar (and, if it was a reflection, the peer element):
  harmless only because the session then goes to FAILED (`refused_commit_overwrites`). On an abscissa where the cubic vanishes the
  blinded residue test would answer with the random bit (`blind_test_zero_is_random`); the supported curves have no such abscissa.
  An AP that answers the commit with a request for an anti-clogging token (status 76) or refuses the group (77) ends the session:
  any status other than the expected one moves it to FAILED, in every state.
- **Receive descriptor given back too early** (C104, `stm32f4_eth.c` 512–515, `va416xx_eth.c`): OWN is set first, then
  the second word is written without the end-of-ring flag, then with it. An engine waiting for that descriptor can
  fetch it in between and leave the ring (`gmac_rearm_race`).
- **RBU recovery points at the wrong descriptor** (C105, `stm32_eth.c` 727–732): the tail pointer is set to the last
  descriptor whatever the engine waits for; if that is the last one and the ring is empty, reception stops for good
  (`eqos_rx_deaf`).
- **Full transmit ring** (C105, `stm32_eth.c` 801–803): with all descriptors handed over the tail pointer equals the
  engine's current descriptor, which reads as an empty ring (`eqos_tx_wedge`).
- **SSH clean-up twice** (C107, `wolfssh_io.c`): the clean-up frees the descriptor its session pointed to once, without forgetting
  it in a way a second clean-up notices; if another session got the descriptor in between, that one loses it and a third gets it:
  two sessions share a socket (`ssh_double_cleanup`). The same calls on the wolfSSL glue are harmless.
- **Ninth TLS context** (C108, `wolfssl_io.c`): the table of contexts has eight entries that are never given back; registering a ninth
  context reports success, and every session on it then fails (`ninth_context`). A session set up twice without clean-up leaks a
  descriptor (`ssl_leak`).
- **Descriptor outlives its slot** (C110, `posix/bsd_socket.c`): when the peer resets a connection the stack frees its slot, but the port's entry
  still names it. The next socket gets the slot; calls on the old descriptor then act on the new socket and closing the old one closes the new one
  (`freed_slot_shared`). Calls by threads other than the one that loaded the library act on the wake-up pipe (`other_threads_bypass`).
- **Spin under the lock** (C111): a call that is refused with −EAGAIN while the socket counts as ready retries for ever without
  letting go of the stack's mutex, so that nothing can change (`eagain_spin`).
- **poll and select** (C112): POLLOUT alone never fires (`poll_out_deaf`, `select_out_deaf`); readiness is edge triggered and edges between two polls are
  lost (`poll_forgets`, `poll_not_level`); POLLOUT hides POLLIN (`write_hides_read`); a reset during `select` sets no bit (`select_drops_close`).
- **Partial send reported as failure** (C113): −1 after the stack took the first octets (`failed_send_took_some`). Empty datagrams are never sent (`empty_datagram_not_sent`).
- **Late DNS answer** (C115): `getaddrinfo` can return the address of the previous name (`late_answer_taken`).
- **GEM queue duplicates frames** (C116): `gem_isr` does not mark the descriptors it has queued, so a full ring is queued four times over (`swq_duplicates`),
  and the later copies can be torn (`swq_tears`).
- **Timer table exhaustion** (C117, `IP_MULTICAST`): an IGMP general query arms one timer per membership; the table has 3·MAX_TCPSOCKETS entries, so TCP, DHCP and DNS timers
  are then dropped silently (`timers_run_out`); a DNS query sent then blocks the resolver for ever if no answer comes (`resolver_wedged`).
- **Shared cache lines** (C119): without snooping, writing back a descriptor restores stale neighbours: frames lost and reordered (`frame_lost`, `reordered`), sent twice (`sent_twice`), transmit ring stuck (`wedged`).
  eTSEC reports −1 for a frame that is still sent (`late_frame_sent`).
- CYW43439: `cyw43_wifi_attach` registers `ll->mtu = 1500`; the stack takes that as the frame length including the 14-octet Ethernet header, so every received frame of 1501–1514 octets is dropped (`full_frames_dropped`). Events that arrive while `cyw43_ioctl` waits are discarded, so a deauthentication can go unnoticed, or the first association be missed, after which EAPOL frames are dropped (`events_lost`). Control requests are not gated: 66 unanswered ones make every later grant look corrupt, 130 reopen the window (`wedged`, `ungated_reopens`). `cyw43_poll` has no work limit (`noise_unbounded`). A header length below 12 is accepted (harmless to memory).
- **Firmware staging** (C124–C126): the TFTP client passes its own byte count to `verify`, so both sinks' comparison with `tsize` is empty (`announced_size_ignored`, `short_download_flagged`). On STM32H563 an image that reaches the last 16 bytes of the partition is accepted and then programmed over by the flag (`full_image_clobbered`); a flag left set by an earlier run stays set while the image under it is overwritten (`stale_flag_survives`).
- **IGMP joins** (C127): the unsolicited report for a new membership carries a MODE_IS_EXCLUDE (current-state) record; RFC 3376 §5.1 asks for CHANGE_TO_EXCLUDE_MODE, sent [Robustness Variable] times. It is sent once (`join_record_is_current_state`).
- **TLS client** (C128, `src/port/tls_client.c`): it never calls `wolfSSL_CleanupIO_wolfIP`, so each session keeps a descriptor of the glue's pool of eight; the ninth connection cannot be set up (`generic_at_most_eight`). While the server is silent it polls for ever (`generic_waits_forever`); the rtl8735b bound counts consecutive polls only (`rtl_flapping_never_ends`). `tls_client_send` returns −1 for a full buffer and for a dead connection alike (`send_ambiguous`).
- **TLS server** (C129, `stm32h563/tls_server.c`): when `wolfSSL_write` answers WANT_WRITE or takes part, the rest of the data is dropped without an error (`echo_lost`).
- **SSH server** (C130): only the first line of a read is executed (`rest_of_read_lost`), a NUL hides every later line end (`nul_hides`), a 511-byte line blocks the session for ever (`long_line_stuck`). After `ssh_reinit_listen` fails, `listen_fd` is −1, `wolfIP_sock_accept(-1)` answers −EINVAL, and only −1 starts another attempt: the server never listens again (`dead_for_ever`). One client that connects and closes between two polls is enough (`dead_by_fin`), or a second client during a session (`dead_by_two_clients`). A FIN that cannot be queued leaks the connection (`close_refused`).
- **HTTP responses** (C131): the result of a partial write is not looked at beyond its sign, so the rest of a header or body is dropped and the next write follows in its place (`short_write_corrupts`). A response without data is announced as chunked and never ended: 400, 404, 503 and the ready-made 200/418/500 answers (`bare_never_ends`); an empty static page or chunk closes the connection (`empty_page_closes`, `empty_chunk_closes`).
- **MQTT client** (C132): the wolfSSL I/O descriptor is never given back, so at most eight sessions of a lifetime have I/O, and the result of setting it up is not looked at (`mqtt_at_most_eight`). `mqtt_client_init` clears a running context: the socket, session and transport descriptor of before are lost, the third restart of a running client fails and so does every later one (`restart_never_again`); the function-static `connect_sent` survives, so a client restarted while it waits for the CONNACK sends a CONNECT of zeroes (`restart_connect_blank`). Connection attempts have no time limit and `mqtt_client_disconnect` does nothing meanwhile (`waits_for_connection`); after an error the client stays idle (`idle_for_good`) and drops the accepted message (`accepted_is_lost`); texts that do not fit are cut (`topics_collide`). `wolfmqtt_net_connect` sets `s_addr` in host order, so that on little-endian machines it connects to the byte-reversed address (`callback_reversed`).
- `dot1x_eaptls_run` (stm32h563/dot1x_client.c) ignores the result of `wolfip_supplicant_kick`: if the
  packet socket refuses the EAPOL-Start (link not up yet, queue full), the supplicant stays IDLE, where
  `wolfip_supplicant_tick` never times out; the client stays silent for four million polls
  (`dot1x_start_lost`), and an identity request arriving meanwhile fails the session instead of starting it.
- `nxp_enetc.c` `eth_send`: when the bounded wait for TBCIR runs out it returns -1, but the frame stays
  announced and is sent once the device goes on; a caller that retries has it sent twice
  (`enetc_failed_send_goes_out`).
- `https_server_freertos.c` serves one client at a time over blocking sockets without a time limit: a client
  that connects and says nothing stops the server for everybody (`https_silent_client`).
- `mqtt_broker.c`: `mqtt_broker_poll` returns 0 whatever fails (`broker_poll_result`) and one failing step ends the
  service until the next init; `mqtt_broker_init` of a running broker zeroes it unreleased, so its TLS context
  (and sockets) are lost (`broker_init_again_leaks`); if `MqttBrokerNet_wolfIP_Init` fails, `MqttBroker_Free` is
  called on a zeroed broker `MqttBroker_Init` never saw (`broker_freed_unmade`).
- `freeRTOS/bsd_socket.c` `sendto` on an ICMP, raw or packet socket with a full transmit buffer sleeps for ever: only
  the UDP arm of the flush loop raises CB_EVENT_WRITABLE when frames leave the buffer (src/wolfip.c 11558–11563
  says why UDP does), and `flush_raw_tx` and `flush_packet_tx` raise nothing (`dgram_send_hangs`).
- `wolfIP_recv_on` compares the destination MAC address for IPv4 only: ARP and 802.1X frames addressed to another
  station (a driver in promiscuous mode, a flooding switch) are processed as the station's own (`foreign_arp_taken`).
- IP_RECVTTL: `last_pkt_ttl` is written when a datagram is queued, not when it is read, so with two datagrams waiting
  `recvmsg` returns the first with the TTL of the second (`ttl_of_another`); a TTL-security check (RFC 5082) on the
  value passes for a datagram that arrived with any TTL as long as a later one arrived with 255.
- `wolfIP_sock_getsockopt` returns 0 without writing anything for every option it does not know (and so does
  `wolfIP_sock_setsockopt` on TCP, UDP and ICMP sockets). With the POSIX port, the usual
  `getsockopt(fd, SOL_SOCKET, SO_ERROR, &err, &len)` after a non-blocking connect therefore "succeeds" and the program
  goes by an uninitialised `err` (`unknown_accepted`).
