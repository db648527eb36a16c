# Design: machine-checked model of mavlink-router

Source: `/repo` (mavlink-router, C++), pinned commit. The code was read as text; it was neither built
nor run. Properties are in `properties.jsonl` (C01 …), theorems in `lean/Verif/`, the
property-to-theorem map in `MANIFEST.json`, seeded-bug experiments in `seeded/LOG.jsonl`.

## 1. Layout

* `lean/Verif/Model/*.lean` – the model, one file per C++ unit; every definition cites file and lines.
* `lean/Verif/Spec/*.lean` – specifications written without using the model's helpers.
* `lean/Verif/Lemmas/*.lean` – helper lemmas and invariants.
* `lean/Verif/Props/*.lean` – the property theorems, each followed by a concrete non-trivial `example`
  that meets its hypotheses, and by `#print axioms`-clean proofs (see section 4).

Suffix `_partial`: the English claim is false of the code (or only part of it is proved); the docstring
says what is missing. A claim which is false of the code additionally has a `_violated` /`_witness`
theorem: a concrete input on which the model of the unchanged code breaks the claim.

## 2. Modelling conventions

* Bytes are `UInt8`; 16/32/64-bit counters are `UInt16`/`UInt32`/`UInt64` (modular, as in C++) wherever
  wrap-around is observable; lengths bounded by construction are `Nat`.
* The operating system is a demonic environment: what `read`/`recvfrom`/`write`/`sendto`/`statvfs`/
  `stat`/`unlink`/`mkdir`/`epoll_wait`/the clock return is an argument of the model functions, universally
  quantified in the theorems. No assumption is made on it unless a theorem states it as a hypothesis.
* The MAVLink C library (git submodule, not in the tree) is an environment too: the table
  `mavlink_get_msg_entry` is an arbitrary function `Nat → Option MsgEntry`. The X.25 checksum step
  (`crc_accumulate`) is modelled from the published MAVLink definition; only C04 depends on that definition,
  everything else holds for any checksum function because the model is parametric in it or never unfolds it.
* Undefined behaviour (out-of-bounds access, erase of an end iterator, …) is a distinct outcome
  (`none` / `.ub`), never silently totalised; theorems either prove it unreachable or exhibit a witness.
* Non-termination is made explicit by fuel with a distinguished out-of-fuel result, plus a theorem that
  enough fuel always exists (or a witness that none suffices).
* Logging to stderr (`log_*`), `printf` statistics formatting, `fflush` and other diagnostics are dropped.

## 3. Properties: what is modelled, how it is proved

All properties are expressible in the model. `partial` means that the claim as stated is false of the code (then
there is a `_violated` or `_witness` theorem) or that a hypothesis remains; the note says which.

| id | status | modelled | proof | theorems | note |
|----|--------|----------|-------|----------|------|
| C01 | proved | `read_msg`/`handle_read` on a byte-list receive buffer (Model/Rx) | the event-by-event run refines a stream scanner (Spec/Stream) that never sees chunk boundaries; induction on stream and chunks | `C01_reassembly`, `C01_chunking_irrelevant` | Any frames, any chunking with reads of at most 841 bytes (the space always offered, C02); general form for arbitrary bytes. |
| C02 | proved | `read_msg` on the allocated array, every access checked (Model/RxMem) | no-UB invariant; refinement to the list model; read loop terminates | `C02_receive_memory_safe`, `C02_offered_region`, `C02_read_loop_terminates`, `C02_accesses` | Array-level model with bounds and initialisation checks, refined to the list model. |
| C03 | proved | receive path and router | every message reaching the router is a valid frame; a corrupt one changes counters only | `C03_handed_on_is_valid`, `C03_corrupt_only_counted`, `C03_only_valid_reach_router`, `C03_corrupt_no_effect` | Receive path and router: every message that reaches de-duplication/learning/routing is a valid frame; a corrupt frame on an idle endpoint changes only that endpoint's receive counters. |
| C04 | proved | X.25 step (Model/Crc) | injectivity of the step in both arguments, then induction on the suffix | `C04_one_byte_detected` |  |
| C05 | proved | as C01 | unknown id in the refinement, no CRC hypothesis | `C05_unknown_forwarded` |  |
| C06 | proved | as C01 | marker-free noise is transparent to the scanner | `C06_noise_transparent` |  |
| C07 | partial | as C01 | witness; partial: nothing lost, delivered at later readable events | `C07_violated`, `C07_delivered_later_partial` | False of the code: the read loop stops at the bad frame; proved: nothing is lost and later readable events deliver it. |
| C08 | proved | receive statistics | invariant over histories, modulo 2^32 / 2^64; error count by induction over the frames of the stream | `C08_statistics`, `C08_crc_errors` |  |
| C09 | partial | sequence check | witnesses at wrap-around and after a leading corrupt frame; exact value for all histories by induction over the frames of the stream | `C09_violated`, `C09_violated_first`, `C09_history_partial`, `C09_loss_partial`, `C09_wrap_off_by_one` | False of the code when the sequence number wraps (one too few) and when a corrupt frame precedes the first valid one (its number is added). The exact value of the counter is proved for all histories. |
| C10 | proved | target extraction | equality with a specification on the zero-extended payload | `C10_target_extraction` |  |
| C100 | partial | main loop as interleaving with signals | induction to the end of the loop; witness | `C100_signal_partial`, `C100_next_event_partial`, `C100_violated` | False for a signal between the test of the exit flag and epoll_wait: it takes effect only at the next event. Proved for all other moments. |
| C101 | partial | the same, exit status | invariants; witness | `C101_success`, `C101_failure_partial`, `C101_last_partial`, `C101_violated`, `C101_gives_up` | False: a signal after the error resets the status to 0. Proved without signals and without errors, and in general by which of the two is handled last (C101_last_partial). |
| C102 | partial | end of the main loop, log endpoints | case analysis on the log endpoints; witness | `C102_flight_partial`, `C102_bin_partial`, `C102_readonly_partial`, `C102_violated` | False: the telemetry log is not finished at exit. Proved for the flight-stack logs. |
| C103 | partial | the loop of handle_read with the results of read (Model/Fair), routing with the log endpoints (Model/Routing, LogRouter) | induction on the results of reading; messages sent by each log endpoint per call, counted through the routing loops; witnesses: a PX4 packet that is never done with, block number n answered by n messages | `C103_bounded_partial`, `C103_ends_partial`, `C103_replies_partial`, `C103_routed_partial`, `C103_violated`, `C103_flood` | False of routers with flight logs: one PX4 log packet makes its log endpoint spin for ever (C103_violated), one ArduPilot log block is answered by up to 2^32-1 messages (C103_flood). Proved: one read and at most 140 messages per event, and a bound on all that is written for it in terms of the block numbers received, provided the log endpoints return. |
| C104 | partial | counter and reports of one link | induction over histories; witnesses | `C104_reports_partial`, `C104_nothing_waits_partial`, `C104_violated` | False: a failing UART write is counted as an incomplete message, and counts of a TCP connection that ends before the next report are lost. Proved otherwise. |
| C105 | partial | file, control block and running operation of a log endpoint | invariant over histories; witnesses | `C105_control_block_partial`, `C105_current_partial`, `C105_violated` | False: a log stopped while a sync is running forgets it, and the next log reuses the control block. Proved if logs are stopped while no sync is running. |
| C106 | partial | levels, outputs and the two phases of main; formatted texts are arbitrary | induction over the diagnostics; level and output from the files and arguments (`programDiag`); witnesses | `C106_lines_partial`, `C106_program_partial`, `C106_priorities`, `C106_colours`, `C106_looks`, `C106_violated` | False: the configured level is not used while the configuration is read, and texts of 2048 bytes are cut. Proved otherwise. |
| C107 | partial | heap, poll set and endpoint list of the main loop (Model/Loop) | invariant over histories; witness | `C107_kept_partial`, `C107_violated` | False of TCP clients with RetryTimeout 0: end of file destroys them. Proved of all other configured endpoints. |
| C108 | partial | receive path of every link and router; spec: sequence of completed messages and other events | commutation of routing with erasing the receive buffers; induction over histories; witness | `C108_only_messages`, `C108_segments_partial`, `C108_any_bytes_partial`, `C108_violated` | False of streams with corrupt frames: how far the router gets depends on the reads (see C07). Proved for all streams without corrupt frames; for all streams one history is at most ahead of the other. Clock readings and results of writing are the same functions of the number of checks and writes in both histories. |
| C109 | partial | any number of routers (Model/Routing) with wires between endpoints and messages in transit (Model/Net) | weight of the messages in transit; number of unseen hashes; ring of three as witness | `C109_no_ring_partial`, `C109_dedup_partial`, `C109_violated` | False of rings without de-duplication. Proved of networks without rings, and of all networks as long as everything happens within the de-duplication period. |
| C11 | proved | `_add_sys_comp_id`, `route_msg` (Model/Routing) | invariant: source is in the lists of the endpoint and its group before routing | `C11_no_echo` | Every reachable router state, every message. |
| C110 | proved | routing, learning, de-duplication (Model/Routing); spec: copies of a packet within the period | C88 for both links of the group; induction over the arrivals for de-duplication | `C110_all_links`, `C110_first_copy`, `C110_delivered_once` | All messages, whatever log endpoints do. The copies are those with the same bytes; another packet with the same 64-bit hash is excluded. |
| C111 | partial | write_msg of the links, bytes accepted by the kernel, receive path of the other router | invariant over histories, composed with C01; witness | `C111_stream_partial`, `C111_violated` | False when the kernel takes a part of a message: the beginning of the next one is taken for its end. Proved as long as every write is accepted completely or not at all. |
| C112 | partial | _get_file and _get_prefix on directories (Model/LogDir); spec: alphabetical order of names | comparison of padded decimal numbers; witness | `C112_order_partial`, `C112_violated` | False from log 100000 on: the number has more than the five digits it is padded to, so 100000 sorts in front of 99999. Proved as long as the numbers in the directory are at most 99988. |
| C113 | proved | objects, timers and pointers to timers (Model/Loop); end of the loop (Model/Shutdown) | invariant of histories: no duplicates in the timer and endpoint lists; induction over both lists | `C113_end` | Which timers a destructor looks at and which endpoint is the logger are parameters. Members of groups own each other and are never destroyed; the process ends anyway. |
| C114 | partial | networks of routers with messages in transit (Model/Net), executions with sending, losses and any order (Spec/Talk) | invariants over executions: where addresses are known, the broadcast is known or still coming, the reply is written or still on the way; induction over ways; with de-duplication: the copies of a message that was sent once are in separate parts of the network that have not seen it | `C114_reply_partial`, `C114_reply_dedup_partial`, `C114_private_partial`, `C114_violated` | Proved of networks whose routers use no groups, for addresses other than 2/0 (the one of the log endpoint); that a private message goes nowhere else also with de-duplication and any filters, that the reply arrives with de-duplication if the two messages are sent once (no other message sent has the hash of one of them). With repetitions and de-duplication it is false (C114_violated: a repetition, sent because the first copy got lost behind the router, is dropped). |
| C115 | partial | ULog::_logging_seq, _logging_data_process, _logging_flush (Model/ULog); spec: positions of messages and packets in the stream (Spec/ULogLoss) | invariant over arrivals: in step with the stream, or waiting for the beginning of a message; whole logs from start to stop; concrete witness for short writes | `C115_exact_partial`, `C115_flight_partial`, `C115_only_sent_partial`, `C115_flight_sent_partial`, `C115_violated` | False with short writes (C115_violated: a message that arrived completely is missing, nothing is reported). Exactly the messages that arrived: proved if the kernel takes every write completely (C50_violated: otherwise the buffer can fill up and messages that arrived are dropped). Nothing but messages that were sent, each at most once and in order: proved for any results of the writes, unless the partial buffer error is logged. Messages of at most 1800 bytes; the header packet arrives, with at most 233 bytes. |
| C116 | partial | route_msg with any log endpoints (Model/Routing) and the actual ones (Model/LogRouter); the same router with the log endpoints taken off the list | two routers in lockstep: simulation relation over the loop, messages and events; concrete witness | `C116_partial`, `C116_log_endpoints_partial`, `C116_violated` | Same endpoints in the same order, same arrivals and addresses: proved for any log endpoints. Same bytes: proved unless a log endpoint edits the shared buffer, which only the PX4 log does, with LOGGING_DATA and LOGGING_DATA_ACKED, and for configured links (all endpoints in front of the first log) even then. Missing: the bytes TCP clients get of these two messages (C116_violated: a client that connected later gets other bytes). |
| C117 | proved | route_msg, _add_sys_comp_id and group links under another numbering of the endpoints (Model/Routing) | two routers in lockstep: simulation relation up to a permutation, induction over the depth of nested messages | `C117_order` | The configured endpoints come before the log endpoints, as add_endpoints puts them; events carry the numbers of the endpoints. Requests for EPOLLOUT and the hang-up flag depend on the results of writes and are not compared. |
| C118 | partial | receive path (Model/Rx); histories of the router with descriptors closed and opened (Model/Routing) for C87 | meaning of any bytes followed by frames: the frame begun by the rest of the bytes is at most 280 long, so it ends inside a near frame; induction over the frames; witness: induction over the number of heartbeats, all 256 sequence numbers by evaluation | `C118_recovers_partial`, `C118_violated` | False if frames contain bytes that look like start markers: a frame with a wrong checksum is skipped in whole, so the receiver can stay out of step for ever (C118_violated: any number of valid heartbeats, none received). Proved if the frames among the first 280 bytes contain none. |
| C119 | partial | _add_sys_comp_id and check_packet inside histories of the router (Model/Routing, Model/Dedup) | invariant: no repetition in the lists, pigeonhole; de-duplication: every remembered hash belongs to a recent arrival; witness: the entry in front never expires, induction over the number of messages | `C119_systems`, `C119_dedup_partial`, `C119_dedup_off`, `C119_kept_for_ever`, `C119_violated` | Connected systems: proved. De-duplication: proved for a clock within 32 bits; after the clock wraps an entry in front of the queue can block the removal of all later ones (C119_violated: all messages of all days are kept). |
| C12 | proved | `accept_msg`, `route_msg` | written endpoints = filter of the active endpoints by an independent rule | `C12_exact_delivery`, `C12_once`, `C12_end_to_end`, `arrivals_msgOk` | Written endpoints = active endpoints filtered by the independently stated rule, in order, once each. Every sniffer setting; one above 255 acts as its low byte (C18_alias_witness, C74). |
| C120 | proved | receive path to routing decision (Spec/Stream for frames, Model/Routing for histories) | what is written is a function of the arrivals (C88) that looks only at id, source and target; induction over two lists of arrivals | `C120_frames`, `C120_routed_alike` | C120_frames: frames with the same id, source and contents give messages that are alike. C120_routed_alike: histories with messages that are alike, one by one, are treated alike. The bytes are those that arrived unless a log endpoint that stands before the endpoint edits them (C20), which for links is never the case (C88_links); length and header, and so the form, are kept even then (C20_header_partial). |
| C121 | partial | `handleReadLoop` (Model/ReadLoop): the loop of `handle_read` with `read_msg` and the handling of the message in turn, and the closing of a TCP client by a broken pipe | handling a message commutes with changing the receive buffer of the link; induction over the calls of `read_msg` gives equality with `handleRead` (used everywhere else) unless the link is closed on the way | `C121_handled_partial`, `C121_waiting_partial`, `C121_stops_partial`, `C121_behind_partial`, `C121_violated`, `C121_spill_violated` | The loop is modelled in the order of the code (read_msg and handling alternate). C121_handled_partial: all frames are handled, as if they had been taken out of the buffer first, unless the link is a reconnecting TCP client and a write to it broke the pipe. C121_waiting_partial: in that case too the messages handled are a prefix, in order, and the rest stays complete in the buffer. C121_stops_partial: the link is closed in the event exactly if a write to it reported a broken connection. C121_violated: an answer of a log endpoint finds the connection broken, the third message of the segment is not handled. The loop model lets log endpoints change nothing behind the message; C121_behind_partial proves it of the PX4 log unless the message declares more data than it holds, and C121_spill_violated shows a valid message of that kind destroy the heartbeat behind it. Missing: only these two cases. |
| C122 | partial | opening of all kinds of links with results of the system calls (Model/Open); spec: what each kind needs | case analysis; witness for all results | `C122_opens_partial`, `C122_again_partial`, `C122_seen`, `C122_tcp_partial`, `C122_violated` | False of a TCP client for an address like [ff0::1], which is taken for multicast by the first three letters and never opened. Missing: only such addresses. C122_seen: of the accepted addresses exactly those beginning with [ff0 are refused. |
| C123 | partial | router together with the address state of its UDP endpoints (Model/UdpRouter); spec: the address a system was last heard from | induction on the history; completeness of routing (C88); witness by computation | `C123_reply_partial`, `C123_latest_partial`, `C123_told_partial`, `C123_violated` | False of the code: a UDP server endpoint sends everything to the sender of the latest datagram, so a datagram from anywhere else (even an empty one) redirects the messages for a system. Proved: what is sent goes to the latest sender, and to the system if no other sender was heard since. The witness uses a router with one serial port and one UDP server. |
| C124 | partial | router (Model/Routing); spec: the link a system was last heard on | from the completeness of routing (C88); witness by computation | `C124_follows_partial`, `C124_heard_partial`, `C124_violated` | False of the code: links never forget a system (apart from TCP connections that are closed), so messages for it still go to the old link, and what it sends is kept from everybody behind the old link. Proved: it is reached on the new link, and heard on all links it never was on. |
| C125 | proved | receive path and router (Model/Rx, Model/Routing) over whole histories; spec: an interleaving of the frames of the other links | the messages of each link are the frames of its bytes (C01, induction on the history), all are let in, and the completeness of routing (C88) gives exactly those of other links | `C125_hub`, `C125_bridge`, `C125_started` | From bytes read to what the links are handed; what becomes of it on the wire is C26 to C29 and C111. Links do not come and go in the history. C125_bridge is the case of two links. |
| C126 | partial | configuration files (Model/Conf, Model/Config); spec: the declarations about a set of sections | the parser is a fold over the declarations (induction on the lines), which commutes with selecting sections; endpoints are functions of their section; witness by computation | `C126_others_partial`, `C126_added_partial`, `C126_violated` | False of the code for UDP clients without a port: sections read later come first, so a new section for the same address takes port 14550 and moves the endpoint that was there to 14551. Everything else is proved, for arbitrary changes of other sections (C126_others_partial) and for one more file (C126_added_partial). At the level of parse_confs; the command line adds endpoints behind those (C73). |
| C127 | partial | histories of the log directory (Model/LogDir); spec: the files with a log name, and that the system does what it is asked for | the quotas of C40 at each start, unfinished logs are open (C41) in different endpoints, counting; induction on the history; witness by computation | `C127_bounded_partial`, `C127_started_partial`, `C127_violated` | False of the code: old logs are removed before the new one is created, so that MaxLogFiles + 1 are there with one log endpoint. Proved: never more than MaxLogFiles plus the number of log endpoints, and at most MaxLogFiles finished ones right after a start. |
| C128 | partial | reading of files and command line, start of the program (Model/Config, Cli, Start); spec: what the documentation allows for each option, section and word (Spec/Accept) | each option is accepted on its own, extraction succeeds if each option does, induction on sections and words; files by C64, words by C73, endpoints by C93; witnesses by computation | `C128_files_partial`, `C128_words_partial`, `C128_runs_partial`, `C128_violated` | False of the code: -e with an IPv6 address without port, the letter -T, and upper case IPv6 addresses are refused. Proved: everything else that is documented is accepted, for files, for command lines of any words, and for the start of the program. |
| C129 | partial | the reader of configuration files with pointers into mapped files, every read checked (Model/ConfMem); spec: texts inside objects (Spec/ConfMem) | refinement: each function gives the result of its counterpart on byte lists (Model/Conf) and never reads outside, induction on the text and the lines; witness for every size of the stack | `C129_file`, `C129_files`, `C129_extract_partial`, `C129_value_partial`, `C129_name`, `C129_read`, `C129_violated` | False of the code: numbers and lists are copied to the stack whatever their length (strndupa), so that a value of 8 MiB overruns it. Proved: reading the files is safe for all contents and computes what the model on byte lists (C54 to C56) computes; taking the options out is safe if values are shorter than the stack. The buffer for section names is C57. |
| C13 | proved | `handle_read` over histories | iff history invariant | `C13_learned_is_history`, `C13_passed_iff`, `C13_never_forgotten`, `C13_arrivals_are_received` | Iff over all event histories from configuration. |
| C130 | proved | the .bin log endpoint with all files ever written (Model/BinLog); spec: all files in order, acknowledgements sent while a file was in use, data of each block of each log (Props/BinStored) | every step keeps what is stored and stores what it acknowledges, induction on the history | `C130_stored`, `C130_complete` | The blocks arriving while one file is in use belong to one log, as stated; blocks of other systems or late blocks of an earlier log would be stored and acknowledged too (C68_violated), an example beside the theorem shows it. Block numbers as in C45. |
| C131 | partial | as C115 and C78; spec: packets that ask for an acknowledgement and arrive before those behind them (Spec/ULogAck) | from C115_flight_partial and the acknowledgements of a history (C78); evaluated witnesses | `C131_stored_partial`, `C131_violated`, `C131_violated_short` | False of the code: data are acknowledged before they are looked at, also if no log is open (C131_violated), and with short writes messages in acknowledged packets are missing in the file though nothing is reported (C131_violated_short). Proved from start to stop of a log if the kernel takes every write completely and the packets are not overtaken by later ones; streams as in C115. |
| C132 | partial | router with the actual log endpoints (Model/LogRouter); spec: systems and log endpoints heard behind a link, from the arrivals (Props/LogChain) | from C80, C13 and C88 (what is known is the history); two routers evaluated for the witness | `C132_request_partial`, `C132_passed_on_partial`, `C132_cut_off`, `C132_violated` | False of the code: once a request of another router's log endpoint came in on a link (it does if a component of the logged system is on this side), the own requests are never sent there again (C132_cut_off, C132_violated). Proved for links on which no other log endpoint was heard. |
| C133 | partial | errno behind a diagnostic, and the three places that look at it there (Model/Errno), with start, links, router and poll loop; spec: states with the same traffic, batches in which no broken pipe is involved (Spec/Errno) | start by C89_chosen; two routers with different results of writes side by side, induction on the history; poll loop: results other than EPIPE have the same effect; witnesses by computation | `C133_start_partial`, `C133_start_violated`, `C133_write_partial`, `C133_traffic_partial`, `C133_clients_partial`, `C133_other_links`, `C133_clients_violated` | False of the code: a diagnostic that cannot be written leaves its error number in errno, which is looked at behind it. With the standard error output closed the router does not start without a configuration file (C133_start_violated), clients are kept that are gone, and with a broken pipe clients are disconnected that are not (C133_clients_violated). Proved: everything else, that is, the start if the file exists; what is counted, written and routed; connections if no broken pipe is involved. |
| C134 | partial | poll loop (Model/Loop); results of add_fd (Model/Watch); spec: objects with an open descriptor (Spec/Watch) | invariant: registered iff open, at most one pending reconnect timer for a TCP endpoint and none while connected; induction on the history. Violations: an unregistered endpoint stays so, induction on the history | `C134_listens_partial`, `C134_violated_client`, `C134_violated_start` | False of the code: no caller looks at the result of add_fd for an endpoint; a client or a configured link that epoll_ctl refuses is an endpoint that is written to and never read, for ever (C134_violated_client, C134_violated_start). Proved for all histories in which the registration of endpoints succeeds (that of timers may fail). Log endpoints have no descriptor; the model of the loop keeps them in the poll set like the other endpoints that are not TCP endpoints. |
| C135 | proved | router that closes a broken connection inside write_msg (Model/Broken); spec: states alike up to lossy links, histories alike up to losses (Spec/Broken) | two routers side by side: the loop over all links against the loop over those that stay, both ways; learning commutes with differences in connections; induction on the pair of histories. With nothing broken, the functions of Model/Routing | `C135_undisturbed`, `C135_later`, `C135_closed` | Router with broken connections closed at once inside write_msg and with reading and handling in turns (Model/Broken). C135_later: the main model, in which descriptors change between reads only, has the same traffic. The link that is read from stays connected while its segment is handled; otherwise C121_violated. Time is not part of the statement: a reconnect calls connect on a blocking socket (C96), during which nothing is read. |
| C136 | proved | router with arrivals (Model/Routing); spec: open descriptors and unhandled bytes of the links, who was heard where (Spec/Restart) | received messages depend on unhandled bytes only, not on counters (readMsg, drain side by side); what is let in by the filters if nothing arrives twice (passed_once); what is written by C88, whose rule looks at the past only through who was heard | `C136_past`, `C136_restart` | C136_past: two histories from one configuration, then the same events; also for clients of the TCP server, as far as log endpoints before them do not edit messages (C88_violated). C136_restart: a history and the same router started in the middle of it. With de-duplication on, what it remembers for its period is a further part of the past (C19-C22), which matters only for packets that arrive twice (NoCopies). |
| C137 | partial | the open functions and ipv6_get_scope_id with library results and the contents of unset variables as parameters (Model/OpenV6); spec: the result is the same for all contents (Spec/OpenV6) | induction over the interfaces (scopeScan_listed); agrees with Model/Open when all calls succeed (udpOpenV6_plan); witnesses for the three failures | `C137_udp_partial`, `C137_tcp_partial`, `C137_violated_group`, `C137_violated_address`, `C137_violated_interfaces` | False of the code in three ways: the interface of a joined group is never set (C137_violated_group, for every group server), a text of colons and digits that passes the configuration but is no IPv6 address leaves the address of a UDP client unset (C137_violated_address), and a failure of getifaddrs is not noticed (C137_violated_interfaces). Proved otherwise. Not read in the model: the flow label, which is zeroed. |
| C138 | proved | router with arrivals (Model/Routing); spec: messages from or to a system, histories without its messages (Spec/Stranger) | what is let in by the filters if nothing arrives twice (passed_once); what is written by C88_links; the rule is the same with the arrivals of the system left out (wanted_stranger, induction expected_stranger) | `C138_stranger` | Histories are compared by what arrived (Without): messages of the other systems in the same order on the same links. Links of the configuration, which stand before the log endpoints (C92_links_first); clients of the TCP server can be behind a PX4 log that edits messages (C88_violated). |
| C139 | proved | two routers with different outgoing filters or sniffer (Model/Routing); spec: configurations that differ in outgoing filters only, the messages filters let through (Spec/OutOnly) | lockstep of both runs up to outgoing filters (addSysComp_noOut, runRouter_lock) gives the same arrivals; what is written by C88_links; the rule split into filter and rest (expected_out), and compared with and without sniffer (expected_sniffer, expected_unheard) | `C139_filters`, `C139_sniffer` | Same events in both runs; that the same messages are let in is part of the conclusion. Links of the configuration, which stand before the log endpoints (C92_links_first). |
| C14 | proved | `link_group_member`, `add_endpoints` | equal lists in a group; frame property outside | `C14_group_shares`, `C14_isolated` |  |
| C140 | partial | the router with and without de-duplication (Model/Routing, Model/Dedup); spec: repeats from known senders, grouped copies (Spec/DedupOnly) | same messages in both runs (runRouter_doors); systems seen are the same after every prefix (seen_dedup), so the rule of C88 names the same messages except the dropped ones (expected_dedup); that dropped ones are repeats by C83_copy_passed_partial. Witness: two links that are not grouped | `C140_only_repeats_partial`, `C140_grouped_partial`, `C140_violated` | False of the code: a dropped copy does not teach the link it came on where its sender is. Over two links that are not grouped, the slower one never learns the vehicle: messages for it are no longer sent there, and what it sends on the faster link is sent back to it on the slower one. Proved if senders of dropped repeats were let in before on the same link or a link of its group, in particular (with a sane clock and no colliding packets) if all links that carry the same packets are grouped. |
| C141 | proved | two interleavings of the same events at every link (Model/Routing, Model/Rx); spec: SameAtLinks, AllKnown (Spec/Serve) | arrivals of a link are a function of what happens at it (run_recv); passed is decided by filters (passed_filters); with known senders the rule of C88 does not depend on the prefix (expected_known) | `C141_served` | Any history, then any two interleavings of the same events at each link: same arrivals per link, same bytes handed to every configured link up to the interleaving of origins. De-duplication may be on if no two packets have the same hash, whatever the clock does. That senders are known is part of the claim; an example beside the theorem shows it is needed. |
| C142 | proved | a router with incoming filters and one without, at which only the admitted messages arrive (Model/Routing, Model/Dedup); spec: noIn, Admitted (Spec/InOnly) | passed = admitted (passed_filters, passed_nocopy); what is seen after every prefix agrees (seenAt_unsent), so the rule of C88 names the same messages (expected_unsent) | `C142_unsent` | Whole runs, any two histories with the same admitted messages. With de-duplication a dropped packet is remembered and its copy on another link dropped (C83_violated); the claim excludes copies. |
| C143 | proved | the router with and without a further link (Model/Routing, Model/Dedup); spec: SeenAt/expected of C88, NoCopies (Spec/NoCopies) | the same messages are let in (passed_once, or passed_verdict at the same times); what was seen on a link does not involve an idle one (listener_seen), so the rule of C88 agrees (listener_expected) | `C143_listener` | The further link stands behind the links there were and before the log endpoints; that the order of links does not matter is C117. |
| C144 | proved | two histories of one router with the same messages on different links (Model/Routing, Model/Dedup); spec: Roams (Spec/Roam) | the verdicts of de-duplication depend on contents and times only (passed_verdict); who was seen on the link, or its group, is the same after every prefix (moved_seen), so the rule of C88 names the same messages (moved_expected) | `C144_roaming` | Times of arrival are the clock readings of the de-duplication checks, one for each message. Links of the configuration; clients of the TCP server can be behind a PX4 log that edits messages (C88_violated). |
| C145 | proved | router with arrivals (Model/Routing); spec: let in, Peer, outOk (Spec/Routing) | nobody is seen on the link after any prefix (unseen_quiet), so the rule of C88 reduces to a filter on the arrivals (expected_quiet) | `C145_silent` | Links of the configuration; clients of the TCP server can be behind a PX4 log that edits messages (C88_violated). Which messages are let in is C13_passed_iff and C22. |
| C146 | proved | two routers with different configurations (Model/Routing, Model/Dedup); spec: SameFor (Spec/Concern) | the verdicts of de-duplication depend on contents and times only (passed_verdict); who was seen on the two links, or their groups, is the same after every prefix (agree_seen), so the rule of C88 names the same messages (agree_expected) | `C146_concern` | Times of arrival are the clock readings of the de-duplication checks, one for each message. Links of the configuration; clients of the TCP server can be behind a PX4 log that edits messages (C88_violated). |
| C147 | proved | a router with a client accepted in the middle of the history and another router with a configured link (Model/Routing); spec: SameFor (Spec/Concern) | the rule of C88 from the moment of the connection on (C88_complete_partial), with agreeing pasts (agree_expected) | `C147_client`, `C147_client_logs` | C147_client for any log endpoints that leave the messages alone, C147_client_logs with the actual ones. Times of arrival are the clock readings of the de-duplication checks. That PX4 log data are different for clients is C88_violated. |
| C148 | proved | a router with a client accepted in the middle of the history (Model/Routing); spec: let in, SeenAt, Wanted (Props/Complete) | nothing arrived at the new endpoint before (arrived_at), so nobody is seen there, and the rule of C88 reduces to a filter on the arrivals (expected_fresh) | `C148_fresh`, `C148_fresh_logs` | C148_fresh for any log endpoints that leave the messages alone, C148_fresh_logs with the actual ones. That PX4 log data are different for clients is C88_violated. |
| C15 | proved | recursion on an arbitrary graph | measure: endpoints that lack the address | `C15_learning_terminates` | Arbitrary link graph. |
| C16 | proved | filters | equality with specification; state unchanged | `C16_outgoing_filters`, `C16_filters_only_restrict` |  |
| C17 | proved | filters | equality with specification; state unchanged | `C17_no_trace` | The de-duplication memory is updated before the filters are consulted. |
| C18 | proved | sniffer branch | corollary of the C12 characterisation; aliasing witness | `C18_sniffer_gets_all`, `C18_no_sniffer`, `C18_alias_witness` | Settings above 255 alias modulo 256 (witness). |
| C19 | partial | counter of `route_msg`, non-virtual `accept_msg` | iff theorem on what is counted; witness for disconnected TCP | `C19_counted_partial`, `C19_rule_partial`, `C19_violated` | False of the code for a disconnected TCP client (accept_msg is not virtual). |
| C20 | partial | in-place buffer threaded through the endpoints, with the actual log endpoints (Model/LogRouter) | witness; partial for all other messages | `C20_same_bytes_partial`, `C20_links_partial`, `C20_log_endpoints_partial`, `C20_header_partial`, `C20_violated` | False: the ULog endpoint edits the shared buffer (C20_violated); proved for every endpoint before the log endpoints (all configured links), and for all endpoints and every message other than LOGGING_DATA/LOGGING_DATA_ACKED, and of these the number of bytes, the header and the first four bytes of payload. |
| C21 | proved | generated log messages inside `write_msg`, by timers and at exit; `mainStart` | rejected by every log endpoint; recursion depth; states of a started program are the states the theorem speaks about | `C21_not_to_log`, `C21_depth`, `C21_log_endpoints`, `C21_log_endpoints_depth`, `C21_calls`, `C21_program` | The general theorems assume generated messages come from 2/0; the others are for the modelled log endpoints, without the assumption; the last one from the command line on, timers included. |
| C22 | proved | `DedupImpl::check_packet`, 32-bit milliseconds (Model/Dedup) | refinement to "accepted at most P ms ago" over timed histories | `C22_exact`, `C22_disabled`, `C22_router`, `C22_router_disabled`, `C22_epoch` |  |
| C23 | partial | same | witness; partial: dropped by the code implies dropped by the documented rule | `C23_violated`, `C23_reset_partial` | False of the code: a repeat does not restart the period; proved: every packet the code drops is dropped by the documented rule. |
| C24 | proved | same, any clock | invariant: queue and set agree; UB unreachable; residency bound | `C24_consistent`, `C24_recent_only` |  |
| C25 | partial | same | three witnesses (wrap, clock step, early expiry); partial for non-wrapping clocks | `C25_violated`, `C25_violated_clock_step`, `C25_violated_early_expiry`, `C25_stuck_entry`, `C25_accepts_later_partial` | False of the code around clock wrap and clock steps; proved under stated clock hypotheses. |
| C26 | proved | UDP address state machine with timer (Model/Link) | history invariants with time | `C26_last_sender`, `C26_silent` | A datagram with source port 0 cannot be answered. |
| C27 | proved | UDP address state machine with timer (Model/Link) | history invariants with time | `C27_initial`, `C27_fallback`, `C27_only_recent`, `C27_port_witness` | The 5 s are exact up to when the event loop serves the timer; configured port must be nonzero modulo 65536 (witness). |
| C28 | partial | TCP connection state, timers (Model/Loop) | invariant over poll batches; witnesses | `C28_reconnect_partial`, `C28_fires`, `C28_no_retry`, `C28_violated`, `C28_timer_failure_witness` | Proved when timers can be created and RetryTimeout <= 4294967 s; false for 2^29 (milliseconds wrap to 0, timer disarmed). |
| C29 | partial | `process_tcp_hangups` in the loop | list filter characterisation; witness for groups | `C29_removed_partial`, `C29_others_remain`, `C29_noticed`, `C29_reported`, `C29_violated`, `C29_violated_for_ever` | False of grouped endpoints: the other members own the endpoint, so its descriptor stays open and polled. |
| C30 | proved | baud rate search (Model/Link), with any answers of the device | invariant of the search (the requests made are a prefix of the cycle) over timed events | `C30_kept`, `C30_asked`, `C30_cycle`, `C30_all_tried`, `C30_single`, `C30_prompt`, `C30_no_timer` | The device is asked for the rates in cyclic order whatever it answers (C30_asked); the rate in use is the last one it took. C30_cycle is the case in which it takes all. If the timer cannot be created, nothing is searched and nothing is reported (C30_no_timer). |
| C31 | proved | `write_msg` of the three links, `handle_canwrite` | trace property of issued system calls | `C31_at_most_once`, `C31_canwrite`, `C31_counters` | The UART code also counts failed writes (other than would-block) as sent and incomplete. |
| C32 | proved | object lifetimes in the poll loop | invariant: everything referenced is alive during a batch | `C32_no_use_after_free`, `C32_nothing_destroyed_in_batch`, `C32_no_dangling` |  |
| C33 | proved | `_del_timeouts` on a pointer-linked heap (Model/Timer) | refinement to list filter | `C33_sweep`, `C33_histories`, `C33_iteration` | Pointer-level list refined to a list of timers. |
| C34 | proved | `Timeout::handle_read`, `del_timeout` | trace invariant | `C34_cancelled_never_runs`, `C34_live_runs` |  |
| C35 | proved | `mod_timeout` | arithmetic | `C35_exact` |  |
| C36 | proved | `_get_prefix`, `_get_file`, O_EXCL (Model/LogDir) | list induction | `C36_never_overwrites`, `C36_larger`, `C36_after`, `C36_wrap_witness` | C36_larger: no other creators, no number above 2^32-2 present. C36_wrap_witness shows the wrap beyond that bound. |
| C37 | proved | name formatting and the `sscanf` pattern | digit round trip by induction | `C37_recognised`, `C37_injective`, `C37_histories` | C37_histories: of the files that are in the directory after any history, those the router added, whatever others do there. |
| C38 | proved | `_delete_old_logs` with 64-bit arithmetic | induction over the ordered map; histories; witnesses | `C38_only_finished`, `C38_rest_kept`, `C38_open_log_kept`, `C38_finished_immutable` | The last two are over all histories of starts, writes, stops and crashes. |
| C39 | partial | `_delete_old_logs` with 64-bit arithmetic | induction over the ordered map; histories; witnesses | `C39_order_partial`, `C39_needed_partial`, `C39_violated_statvfs`, `C39_violated_statvfs_all`, `C39_violated_maxfiles`, `C39_overflow_witness` | False when statvfs fails or for limits of 2^63 and more (witnesses); proved when the free space is known and sizes, limits and counts are below 2^63. |
| C40 | partial | `_delete_old_logs` with 64-bit arithmetic | induction over the ordered map; histories; witnesses | `C40_quotas_partial`, `C40_histories`, `C40_violated`, `C40_violated_minfree` | False if finished logs share an index or MinFreeSpace is 2^63 or more (witnesses); proved otherwise, and over histories of the router no two logs share an index. |
| C41 | partial | `mark_unfinished_logs`, `stop`, crashes | invariant: a writable log is open; state equality | `C41_marks_partial`, `C41_nothing_else`, `C41_writable_is_open`, `C41_after_boot`, `C41_violated` | Every writable log is marked at start, for every crash point. Files that are not logs but whose name starts with a digit are marked too (C41_violated). |
| C42 | partial | `_handle_auto_start_stop` and restart paths of TLog, BinLog, ULog | history invariants; witnesses | `C42_payload`, `C42_tlog_partial`, `C42_binlog_partial`, `C42_ulog_partial`, `C42_violated`, `C42_violated_ulog`, `C42_violated_trimmed`, `C42_violated_disabled`, `C42_violated_failed` | False: log data arriving while disarmed create a file; armed flag of a trimmed heartbeat is read from the checksum; one failed start disables logging for good. Proved without these. |
| C43 | partial | TLog writer, independent reader (Model/TLog) | round trip by induction over histories | `C43_files_partial`, `C43_step_partial`, `C43_all_partial`, `C43_reader`, `C43_frames_whole`, `C43_violated` | False when a write is short (results of write are ignored, C43_violated); proved when writes are carried out completely. |
| C44 | partial | accept rule of log endpoints and TLog writer | characterisation of what is taken; witness | `C44_recorded_partial`, `C44_takes`, `C44_violated` | False: messages addressed to a particular system are not recorded; proved: which messages are taken, and that each is recorded exactly once. |
| C45 | proved | BinLog (Model/BinLog) | file as byte function; order independence; acknowledgement iff; witnesses | `C45_files`, `C45_complete`, `C45_order_independent`, `C45_place`, `C45_wraps` | Block numbers below 2^32/200 as stated; C45_wraps shows the bound is needed. C45_files covers failed and short writes too (the file holds what was written; C46: such blocks are not acknowledged). |
| C46 | proved | BinLog (Model/BinLog) | file as byte function; order independence; acknowledgement iff; witnesses | `C46_history`, `C46_ack`, `C46_routed` |  |
| C47 | partial | BinLog (Model/BinLog) | file as byte function; order independence; acknowledgement iff; witnesses | `C47_count_partial`, `C47_session_partial`, `C46_routed`, `C47_violated`, `C47_flood` | False: the negative acknowledgements carry the number of the block that arrived; 2^32-1 of them after block 2^32-1. Proved: their count is the number of skipped blocks. |
| C48 | partial | ULog sequence, buffers, flush with partial writes (Model/ULog) | invariants over histories and arbitrary write results; witnesses | `C48_seq_partial`, `C48_once`, `C48_violated` | False at distances 32768-32770 where the comparison depends on 16 bit wrap-around (C48_violated writes a retransmitted message twice). For histories within half the number space: proved. |
| C49 | partial | ULog sequence, buffers, flush with partial writes (Model/ULog) | invariants over histories and arbitrary write results; witnesses | `C49_format_partial`, `C49_remainder_partial`, `C49_violated` | Proved for all histories and write results unless a message size field of 65533 or more comes up; C49_violated is such a case. |
| C50 | partial | ULog sequence, buffers, flush with partial writes (Model/ULog) | invariants over histories and arbitrary write results; witnesses | `C50_verbatim_partial`, `C50_bytes_partial`, `C50_flight_partial`, `C50_violated` | Verbatim with complete writes; for any write results all bytes are kept unless a drop is reported; short writes alone can cause the drop (C50_violated). |
| C51 | partial | ULog sequence, buffers, flush with partial writes (Model/ULog) | invariants over histories and arbitrary write results; witnesses | `C51_buffers_partial`, `C51_packet_partial`, `C51_violated`, `C51_violated_write`, `C51_violated_offset` | The endpoint's own buffers are never overrun in any history; accesses outside the packet happen for a header packet longer than 233 bytes, a length above 249 or an offset beyond the length (three witnesses). |
| C52 | partial | ULog sequence, buffers, flush with partial writes (Model/ULog) | invariants over histories and arbitrary write results; witnesses | `C52_returns_partial`, `C52_stop_returns`, `C52_violated`, `C52_stop_spins` | False for the message size field 65533 (endless loop, C52_violated); otherwise processing and, with progress of writes, stopping return. |
| C53 | partial | AutoLog (Model/AutoLog) | history induction; witnesses | `C53_choice_partial`, `C53_never_changes`, `C53_violated` | False for heartbeats trimmed before the autopilot field (C53_violated); proved for all histories of whole heartbeats. |
| C54 | proved | ConfFile parser on bytes (Model/Conf) | refinement to last-assignment-wins (Spec/Conf); witnesses | `C54_last_wins`, `C54_reading_exists`, `C54_override` |  |
| C55 | partial | ConfFile parser on bytes (Model/Conf) | refinement to last-assignment-wins (Spec/Conf); witnesses | `C55_lines_partial`, `C55_errors_reported`, `C55_refused_partial`, `C55_violated` | False: a last line without a newline is ignored silently; proved for all lines that end in a newline. |
| C56 | partial | ConfFile parser on bytes (Model/Conf) | refinement to last-assignment-wins (Spec/Conf); witnesses | `C56_layout_partial`, `C56_violated`, `C56_nonempty` | False only if all text is layout: a file with nothing but a comment is accepted, an empty file is refused. Proved for files that are not empty. |
| C57 | partial | ConfFile parser on bytes (Model/Conf) | refinement to last-assignment-wins (Spec/Conf); witnesses | `C57_iterate_partial`, `C57_violated` | False: a section name of the maximal accepted length is copied with its terminator one byte beyond the buffer (C57_violated); proved for all shorter names. |
| C58 | partial | section iteration and option tables (Model/Config) | each endpoint is the reading of one section; per option last assignment or default | `C58_iterate_partial`, `C58_endpoints_partial`, `C58_violated` | False for section names of 100 bytes (undefined behaviour, see C57); proved for all shorter names. |
| C59 | partial | strtoul/strtol/atoi and list parsing (Model/ConfNum) | characterisation of accepted texts; witnesses; whole files with a text that is no number or switch are refused (Props/Refused) | `C59_unsigned_partial`, `C59_decimal_partial`, `C59_int`, `C59_rejects`, `C59_bool`, `C59_refused_partial`, `C59_refused_switches`, `C59_violated` | False for unsigned options given negative numbers, which wrap; the accepted texts and their values are characterised exactly. |
| C60 | partial | strtoul/strtol/atoi and list parsing (Model/ConfNum) | characterisation of accepted texts; witnesses | `C60_uint32_partial`, `C60_uint8_partial`, `C60_any_partial`, `C60_violated`, `C60_violated_negative` | False: items out of range are truncated and non-numeric ones become 0; proved for lists of numbers in range. |
| C61 | partial | `find_next_udp_port` | witnesses; partial while 14551 is free | `C61_port_partial`, `C61_files_partial`, `C61_violated`, `C61_violated_cli` | False: the search stops after one step, and on the command line the address is not yet set. Proved while 14551 is free. |
| C62 | proved | language of the two regular expressions | shape theorem by induction | `C62_shapes`, `C62_accepted`, `C62_endpoints` |  |
| C63 | partial | `validate_config` | witness (65536); partial | `C63_port_partial`, `C63_violated` | False: ports above 65535 are accepted and truncated. Proved: never 0, never absent. |
| C64 | partial | `parse_conf_files` (Model/Cli) | table bounds, sorted order, values; witness | `C64_files_partial`, `C64_values_partial`, `C64_violated` | False: more than 128 regular files overrun the table. Proved up to 128 files with paths below 4096 bytes. |
| C65 | proved | `mkdir_p` on its mutable C string (Model/Mkdir) | buffer invariant; calls = missing prefixes in order | `C65_calls`, `C65_success`, `C65_created` |  |
| C66 | partial | `split_on_last_colon` (Model/Cli) | string lemmas; witness | `C66_no_colon`, `C66_number_partial`, `C66_error`, `C66_violated` | False for -1 (reported as absent) and numbers with a leading 0 (octal); proved for plain decimal numbers below 2^64. |
| C67 | partial | AutoLog (Model/AutoLog) | history induction; witnesses | `C67_configured_partial`, `C67_violated` | False unless LogSystemId is configured. |
| C68 | partial | ULog and BinLog | step equality for other messages; witness | `C68_other_partial`, `C68_violated` | False: log blocks of other systems overwrite the log; all other messages of other systems have no effect. |
| C69 | proved | section iteration and option tables (Model/Config) | each endpoint is the reading of one section; per option last assignment or default | `C69_options` | For section names below 100 bytes (C57). |
| C70 | partial | `getopt_long`, `parse_argv` (Model/Cli); command lines as lists of words (Spec/CliWords) | induction over the words and over the options; added endpoints matched one by one; witnesses | `C70_forms_partial`, `C70_lines_partial`, `C70_together_partial`, `C70_violated` | False for -T, -V (swallow the next argument) and --help (unknown); proved for all others. |
| C71 | partial | address text to socket address (Model/Addr) | digit lemmas; witnesses | `C71_ipv4_partial`, `C71_accepted_partial`, `C71_violated` | False for numbers above 255 (broadcast address) and leading zeros (octal); proved for plain decimal notation up to 255. |
| C72 | partial | address text to socket address (Model/Addr) | digit lemmas; witnesses | `C72_ipv6_partial`, `C72_violated` | False: malformed text is accepted and the failure of inet_pton not checked; proved for well-formed text. |
| C73 | proved | `getopt_long`, `parse_argv` (Model/Cli); command lines as lists of words (Spec/CliWords) | induction over the words and over the options; added endpoints matched one by one; witnesses | `C73_overrides`, `C73_words`, `C73_endpoints`, `C73_end_to_end` |  |
| C74 | partial | sniffer option to routing | composition with C18; witness | `C74_sniffer_partial`, `C74_cli_partial`, `C74_violated` | False: ids are truncated to 8 (files) or 16 bits (command line); proved for ids up to 255. |
| C75 | partial | positional arguments | digit lemmas; witness | `C75_uart_partial`, `C75_violated` | False for hexadecimal, negative and large numbers; proved for plain decimal numbers below 2^31. |
| C76 | proved | start and liveness timers of BinLog and ULog | history invariant relating the timers to the messages since the file was opened; counting within a period | `C76_binlog`, `C76_ulog`, `C80_start_request` | Messages of log protocol ids known; COMMAND_ACK and blocks not truncated below their fields. |
| C77 | proved | start and liveness timers of BinLog and ULog | history invariant relating the timers to the messages since the file was opened; counting within a period | `C77_binlog`, `C77_ulog` | PX4: for checks that return (C52). |
| C78 | partial | acknowledgements in ULog | history induction; witness for a trimmed number | `C78_acked_partial`, `C78_routed_partial`, `C78_violated` | False if MAVLink 2 trims the number: its high byte is read from the checksum. Proved if the number is transmitted. |
| C79 | proved | BinLog | history invariant: pending start implies empty file | `C79_first_block`, `C79_needs_no_again` |  |
| C80 | proved | timers of the log endpoints inside the router | routing of messages from 2/0 never reaches a log endpoint, so each is an ordinary routing step | `C80_routed`, `C80_start_request`, `C80_reaches` |  |
| C81 | proved | router | induction over the history: writes are accounted for by arrivals | `C81_order`, `C81_order_logs`, `C81_arrival_order` |  |
| C82 | proved | router, aggregate timer | counting modulo 2^32 over the history; messages generated by log endpoints are followed through the loop | `C82_reports_add_up`, `C82_reports_add_up_logs`, `C82_report` |  |
| C83 | partial | router, de-duplication | refinement of the router history to the de-duplication rule; witness | `C83_copy_passed_partial`, `C83_violated` | False: the check comes before the incoming filters, so a copy blocked on one link suppresses the copy admitted on another. Proved: a suppressed message repeats a recent new one, passed on unless filtered. |
| C84 | proved | writing on a link, event mask | induction over the history | `C84_watched_iff`, `C84_asked` | C84_watched_iff: the state of one link over its history. C84_asked: which links are asked for by a whole event of the router. |
| C85 | partial | statistics report | exact arithmetic on C08; witness by induction over 42949673 frames | `C85_percent_partial`, `C85_violated` | False from 42949673 errors on: the multiplication by 100 wraps. Proved below that bound. |
| C86 | partial | receive buffer, datagrams | clean streams (C06); witnesses | `C86_datagrams_partial`, `C86_violated`, `C86_long_violated` | False: a datagram cut off in a frame swallows the next sender's frame; bytes beyond 1120 are lost. Proved for datagrams of whole frames. |
| C87 | partial | receive buffer, close and reopen | datagram lemma on the router; witness | `C87_reconnect_partial`, `C87_soon_partial`, `C87_violated` | False: the receive buffer is kept over the reconnect. Proved if it was empty; whatever it contains, all frames are received that do not begin among the first 280 bytes of the new connection, if those contain no start marker inside (any history of the router, any number of earlier connections). |
| C88 | partial | router with links, clients, hang-ups, log endpoints | invariant tying router state to the history of arrivals; induction over events; endpoints are served in the order of their numbers, so log endpoints behind a link cannot touch what it gets; witness for a client behind the PX4 log | `C88_links`, `C88_complete_partial`, `C88_from_start_partial`, `C88_logs_partial`, `C88_violated` | C88_links: a configured link (they stand before the log endpoints, C92_links_first) is handed exactly what is meant for it, byte for byte, whatever log endpoints do. C88_complete_partial: every endpoint is handed exactly the messages meant for it; byte for byte those that no log endpoint before it edits, which with the actual log endpoints (C88_logs_partial) are all but LOGGING_DATA and LOGGING_DATA_ACKED. C88_violated: a client of the TCP server is handed other bytes than arrived. Missing: only that. |
| C89 | proved | command line, environment, files, startup | composition of option parser, file reader and spec of the directory order | `C89_chosen`, `C89_read` |  |
| C90 | partial | startup | the same, for files that exist; witness | `C90_bad_file_partial`, `C90_violated` | False: a missing file named with -c is passed over. Proved for files that exist. |
| C91 | partial | startup | case -V; witness for -h | `C91_information_partial`, `C91_violated` | False: -h is looked at only after the configuration files and ends with a failure status. Proved for -V. |
| C92 | proved | startup, endpoint creation, routing | composition with C62 and the routing rule of C14 - C17 | `C92_endpoints`, `C92_one_each`, `C92_routing`, `C92_links_first` |  |
| C93 | partial | startup, results of system calls | validity of all parsed configurations, then equivalence; witness | `C93_complete_partial`, `C93_violated` | False: if the TCP server port cannot be opened the router runs without it. Proved for the endpoints. |
| C94 | partial | option tables, startup | option tables against lastSet, then CliSays; witness | `C94_general_partial`, `C94_violated` | False for values that do not fit: a de-duplication period of 2^32 ms is taken as 0. Proved otherwise. |
| C95 | proved | terminal attributes and the line discipline effects of the flags | bit-vector reasoning on the flags for all previous settings | `C95_transparent`, `C95_rate`, `C95_succeeds`, `C95_change` |  |
| C96 | partial | system calls of opening and closing links, process history | invariant: open descriptors are a permutation of the held ones; witness with n attempts | `C96_no_leak_partial`, `C96_all_closed_partial`, `C96_violated` | False: a TCP client with an IPv6 multicast address loses one descriptor per attempt. Proved for all other links. |
| C97 | partial | the same | invariant: held descriptors are non-blocking; witness: every retry | `C97_nonblocking_partial`, `C97_no_wait_partial`, `C97_violated` | False: TCP clients call connect on a blocking socket, also when reconnecting. Proved for reading and writing. |
| C98 | partial | classification by text, IPv6 texts of eight groups | digits of the first group; witnesses ff15 and ff0 | `C98_group_partial`, `C98_violated` | False: only texts starting with ff0 count as multicast. Proved for the form ff0x. |
| C99 | partial | classification by text, interface table | the same; witnesses | `C99_own_partial`, `C99_global`, `C99_violated` | False: the interface is found only for addresses of this host. Proved for those. |

## 4. Findings: where the code disagrees with a claim

Each item has a machine-checked witness (theorem in brackets) unless marked *(read)*, which means it was seen while
modelling and has no theorem of its own.

Receiving and routing
* A frame with a bad checksum stops the read loop; valid frames behind it wait for the next readable event [C07_violated].
* The loss counter is one too small when the sequence number wraps [C09_violated, C09_wrap_off_by_one].
* If a corrupt frame is received before the first valid one, the sequence number of the first valid frame is counted as that many lost messages [C09_violated_first].
* `accept_msg` is not virtual: a message for a disconnected TCP client is not counted as undeliverable [C19_violated].
* The ULog endpoint edits the packet in the shared receive buffer, so endpoints behind it (clients of the TCP server, the telemetry log) get altered bytes [C20_violated, C116_violated, C88_violated];
  configured links stand before it and are not affected [C88_links].
* The de-duplication memory is updated before the incoming filters are consulted: the copy of a packet that one link
  blocks makes the router drop the copy that another link admits [C83_violated].
* All routers log as 2/0: once a request of another router's log came in on a link, the own requests are never sent there again, although
  the autopilot is behind it [C132_violated, C132_cut_off].
* De-duplication: a repeat does not restart the period, contrary to the documentation [C23_violated]; after the 32-bit
  millisecond clock wraps, or the wall clock steps back, a message can be dropped for ever [C25_violated, C25_stuck_entry];
  the entry that does not expire also keeps all later ones in memory, which then grows with every message, for 49.7 days
  or for ever [C119_violated, C119_kept_for_ever].
* A frame with a wrong checksum is skipped in whole, with the length it claims: after a single lost byte a receiver can stay out
  of step for ever with a sender whose messages contain a start marker – any number of valid heartbeats, none received
  [C118_violated].
* With de-duplication, a command repeated with the same bytes because its first copy got lost further on is dropped by the first
  router [C114_violated].
* How far the router gets with a stream that contains a corrupt frame depends on how it is cut into reads [C108_violated].
* In a ring of three routers without de-duplication a message can circulate for ever after the loss of one copy: routing rule 1
  ("to prevent message loops") only stops it at links where its sender was seen [C109_violated].
* Sniffer ids are truncated: 257 in a file means 1, 65537 on the command line means 1 [C74_violated, C18_alias_witness].

Links
* A TCP client for [ff0::1], no multicast address, is accepted and never connects [C122_violated].
* A reconnecting TCP client is closed while its own segment is being handled when an answer of a log endpoint finds the
  connection broken: the messages behind stay unhandled in the buffer [C121_violated].
* A valid LOGGING_DATA message that declares 250 to 255 bytes of data (249 fit) and begins a ULog file makes the PX4 log move data
  over the checksum and the first bytes of the message behind it in the receive buffer, which is lost [C121_spill_violated].
* A TCP client with RetryTimeout 0 is destroyed at end of file, although client endpoints "are never destroyed during
  runtime" [C107_violated].
* RetryTimeout of 2^29 s: milliseconds wrap to 0, the timer is disarmed [C28_violated]; if the timer cannot be created
  the endpoint stays disconnected [C28_timer_failure_witness].
* A TCP server connection that is a group member is kept alive by the owning pointers of the others: its descriptor
  stays open and polled after hang-up [C29_violated], and does so whatever happens later [C29_violated_for_ever].
* After a TCP reconnect the bytes of the old connection stay in the receive buffer [C87_violated] and the learned ids are
  kept [C13_never_forgotten];
  with RetryTimeout 0 a failed first connection leaves a dead endpoint [C28_no_retry]; ECONNRESET on read does not itself
  trigger the reconnect, the end of file reported by the next poll does *(read)*.
* An empty or garbage datagram switches the UDP peer [C123_violated]; failed serial
  writes are counted as sent (note of C31).
* One receive buffer serves all UDP senders: a cut-off datagram swallows the next sender's frame [C86_violated]; datagram
  bytes beyond 1120 are lost [C86_long_violated].
* Failing serial writes are reported as incomplete messages; the count of a TCP connection that ends before the next
  report is lost [C104_violated].
* A message of which the kernel takes only a part makes the next router lose the following one too: the beginning of it is taken for
  the missing end [C111_violated].
* Printed percentages wrap from 42949673 errors on [C85_violated].
* A TCP client with an IPv6 multicast address loses one descriptor per attempt [C96_violated]; `connect` is called on a
  blocking socket, so an unreachable peer stops the whole router for the connect time-out, again at every retry
  [C97_violated].
* `reset_uart` first sets the rate to 0, which drops DTR and RTS while opening *(read)*.
* A UDP port that is a multiple of 65536 means "no port" [C27_port_witness].

* A termination signal between the test of the exit flag and `epoll_wait` takes effect only at the next event, usually the
  5 s statistics timer [C100_violated]; a signal after the failure of a serial port makes the exit status 0
  [C101_violated]; errors of `epoll_wait` other than EINTR make the loop spin, `_retcode` is a plain int written by the
  signal handler *(read)*.

Logs
* Names starting with a digit are marked read-only at start even if they are no logs [C41_violated].
* `statvfs` failure or limits of 2^63 and more make the deletion wrong: nothing or everything is deleted
  [C39_violated_statvfs, C39_violated_statvfs_all, C39_violated_maxfiles, C39_overflow_witness, C40_violated_minfree].
* From number 100000 on the names of log files do not sort in the order of creation [C112_violated].
* Logs that share an index hide each other from the deletion [C40_violated].
* Deletion runs before the new file is created, so MaxLogFiles + 1 files exist after a start [C127_violated].
* Log data received while disarmed create a file; one failed start disables logging for good; the armed flag of a
  trimmed heartbeat is read from the checksum bytes [C42_violated, C42_violated_disabled, C42_violated_trimmed].
* TLog ignores the results of `write` [C43_violated]; it takes only broadcasts and messages for its own id
  [C44_violated]; nothing finishes it at exit [C102_violated].
* BinLog: negative acknowledgements carry the number of the block that arrived, and up to 2^32 - 1 of them are sent
  [C47_violated, C47_flood, C103_flood]; offsets wrap beyond block 2^32/200 [C45_wraps].
* ULog: the number acknowledged is read from the checksum bytes if it was trimmed [C78_violated]; sequence comparison inconsistent at distances 32768 to 32770 [C48_violated]; message size 65533 is an endless
  loop [C52_violated], in which the whole router is stuck [C103_violated], 65534 and 65535 wrap [C49_violated]; accesses outside the packet [C51_violated,
  C51_violated_write, C51_violated_offset]; `stop` spins on EAGAIN [C52_stop_spins]; short writes alone can make it
  drop data [C50_violated]; a message that arrived completely can be missing from the log without any report [C115_violated]; data are acknowledged although no log is open, or although they never reach the file [C131_violated, C131_violated_short].
* A log stopped while its background sync is running, or the end of the program, leaves the control block in use by the
  system: it is reused by the next log or freed [C105_violated].
* AutoLog may create a logger for another system than the one that decided [C67_violated], decides on checksum bytes for
  trimmed heartbeats [C53_violated]; log data of any system are accepted [C68_violated].

Configuration
* A configuration file named with -c that does not exist is passed over silently and the router runs with defaults
  [C90_violated]; -h reads the configuration first and ends with status 1 [C91_violated].
* If the TCP server port cannot be opened the router runs without the server [C93_violated].
* DeduplicationPeriod of 2^32 ms switches de-duplication off [C94_violated].
* A last line without newline is ignored [C55_violated]; an empty file is refused, without a message (mmap) [C56_violated].
* A section name of 100 bytes is copied with its NUL beyond the buffer [C57_violated, C58_violated].
* Numbers and lists of numbers are copied to the stack whatever their length: a value longer than the stack overruns it
  [C129_violated].
* `-e` with an IPv6 address and no port is refused, as are IPv6 addresses in upper case [C128_violated].
* More than 128 files in the configuration directory overrun the table [C64_violated].
* "-1" for an unsigned option wraps to 2^64 - 1 [C59_violated]; list items out of range are truncated and non-numeric
  ones become 0 [C60_violated]; ports above 65535 are accepted [C63_violated].
* The automatic UDP port search stops after one step [C61_violated]; on the command line it runs before the address is
  set [C61_violated_cli]. Sections read later come first, so a new file with a UDP client section can change the port of
  an existing one [C126_violated].
* `-T` and `-V` swallow an argument, `--help` is unknown [C70_violated].
* Numbers with leading 0 are octal, "-1" behind a colon means no number [C66_violated]; baud rates in hexadecimal or
  beyond 32 bits are altered [C75_violated].
* Only IPv6 texts starting with "ff0" count as multicast: a server for ff15::1 does not join its group
  [C98_violated]; the interface of a link-local address is looked up among the host's own addresses only, so that a
  link-local peer cannot be reached [C99_violated]; the interface on which an IPv6 group is joined
  is never set [C137_violated_group], a text with colons that is no address leaves the address of a client unset
  [C137_violated_address], and if `getifaddrs` fails its list is followed unset [C137_violated_interfaces].
* A UDP server endpoint answers the sender of the latest datagram only: with two stations on it, or after a stray (even
  empty) datagram, messages for a system go to somebody else's address [C123_violated].
* Links never forget a system: after it has moved to another link its messages are not sent to its former link, so that
  stations behind that link do not hear it any more [C124_violated].
* `Log::logv_to_fd` does not restore `errno` after `writev`. With the standard error output closed the router does not start
  without a configuration file, since the missing file is not recognised as missing [C133_start_violated]; a TCP client that is
  gone is not removed, and with a broken pipe behind the standard error output one that is not gone is disconnected when a
  write fails for a passing reason [C133_clients_violated].
* With de-duplication the slower of two links to a vehicle never learns it, unless they are grouped: messages for the vehicle are
  not sent there, and what it sends is sent back to it over that link [C140_violated].
* The result of `add_fd` is not looked at for endpoints: a client or link that `epoll_ctl` refuses is written to and never read,
  for ever [C134_violated_client, C134_violated_start]; elsewhere in the model this registration succeeds.
* The level of diagnostics is set only after the configuration was read; lines are cut at 2047 bytes [C106_violated].
* 10.0.0.256 is accepted and becomes 255.255.255.255, 010.0.0.1 becomes 8.0.0.1 [C71_violated]; malformed bracketed
  addresses are accepted and `inet_pton` is not checked (for UDP the address is then read from an uninitialised
  variable, for TCP it stays all zero) [C72_violated].

## 5. Trusted base

* Lean 4.33.0 kernel and the axioms reported by `#print axioms` for each property theorem:
  at most `propext`, `Classical.choice`, `Quot.sound`. No own axioms, no `sorry`, no `native_decide`.
* The reading of the C++ code into the model (each definition cites its source lines).
* The files in `lean/Verif/Spec` and the statements in `lean/Verif/Props` say what the claims mean.
* Assumptions on the C library and the system: 64-bit `long`, `size_t`, `off_t`; C locale; C17 `strtoul` (no `0b`);
  glibc `getopt_long` (permutation, abbreviations) and `fnmatch` on a literal prefix and star; `lseek` on an open log
  file succeeds; `errno` is unchanged by the logging functions except in Model/Errno (C133); names of directory entries differ, so the result of
  `qsort` is unique; `inet_pton` is an arbitrary function; `std::hash` is an arbitrary function.
* The message table of the MAVLink library is an arbitrary function, its pack functions yield arbitrary bytes.
* When a log endpoint does not return (C52) the router model goes on without it; no theorem uses what happens then.
* Terminal attributes are stored by the driver as given; their effect on bytes is that of termios(3) (Spec/Termios).
* Signals arrive between steps of the loop model (Model/Exit); memory ordering is not modelled.
* Not modelled: socket options, allocation failure,
  `localtime`, the texts of diagnostics, what an aio operation does to the file.

## 6. Seeded bugs

`seeded/LOG.jsonl` lists the edits that were tried on a copy of the model, the claim each one falsifies, the theorems
whose proof then fails (including those that depend on a failing lemma), and what was tightened as a consequence. Edits
without `breaks` are controls: they do not falsify a claim. Where a statement, not only a proof, no longer compiles with an edit, the build
stops there and the entry is marked inconclusive. Mechanical edits after which the model itself does not compile are left out.
