{
 "claims": [
  {
   "property": "C01",
   "status": "proved",
   "theorems": [
    "Verif.C01_reassembly",
    "Verif.C01_chunking_irrelevant"
   ],
   "note": "Any frames, any chunking with reads of at most 841 bytes (the space always offered, C02); general form for arbitrary bytes."
  },
  {
   "property": "C02",
   "status": "proved",
   "theorems": [
    "Verif.C02_receive_memory_safe",
    "Verif.C02_offered_region",
    "Verif.C02_read_loop_terminates",
    "Verif.C02_accesses"
   ],
   "note": "Array-level model with bounds and initialisation checks, refined to the list model."
  },
  {
   "property": "C03",
   "status": "proved",
   "theorems": [
    "Verif.C03_handed_on_is_valid",
    "Verif.C03_corrupt_only_counted",
    "Verif.C03_only_valid_reach_router",
    "Verif.C03_corrupt_no_effect"
   ],
   "note": "Receive path and router: every message that reaches de-duplication/learning/routing is a valid frame; a corrupt frame on an idle endpoint changes only that endpoint's receive counters."
  },
  {
   "property": "C04",
   "status": "proved",
   "theorems": [
    "Verif.C04_one_byte_detected"
   ],
   "note": ""
  },
  {
   "property": "C05",
   "status": "proved",
   "theorems": [
    "Verif.C05_unknown_forwarded"
   ],
   "note": ""
  },
  {
   "property": "C06",
   "status": "proved",
   "theorems": [
    "Verif.C06_noise_transparent"
   ],
   "note": ""
  },
  {
   "property": "C07",
   "status": "partial",
   "theorems": [
    "Verif.C07_violated",
    "Verif.C07_delivered_later_partial"
   ],
   "note": "False of the code: the read loop stops at the bad frame; proved: nothing is lost and later readable events deliver it."
  },
  {
   "property": "C08",
   "status": "proved",
   "theorems": [
    "Verif.C08_statistics",
    "Verif.C08_crc_errors"
   ],
   "note": ""
  },
  {
   "property": "C09",
   "status": "partial",
   "theorems": [
    "Verif.C09_violated",
    "Verif.C09_violated_first",
    "Verif.C09_history_partial",
    "Verif.C09_loss_partial",
    "Verif.C09_wrap_off_by_one"
   ],
   "note": "False of the code when the sequence number wraps (one too few) and when a corrupt frame precedes the first valid one (its number is added). The exact value of the counter is proved for all histories."
  },
  {
   "property": "C10",
   "status": "proved",
   "theorems": [
    "Verif.C10_target_extraction"
   ],
   "note": ""
  },
  {
   "property": "C100",
   "status": "partial",
   "theorems": [
    "Verif.C100_signal_partial",
    "Verif.C100_next_event_partial",
    "Verif.C100_violated"
   ],
   "note": "False for a signal between the test of the exit flag and epoll_wait: it takes effect only at the next event. Proved for all other moments."
  },
  {
   "property": "C101",
   "status": "partial",
   "theorems": [
    "Verif.C101_success",
    "Verif.C101_failure_partial",
    "Verif.C101_last_partial",
    "Verif.C101_violated",
    "Verif.C101_gives_up"
   ],
   "note": "False: a signal after the error resets the status to 0. Proved without signals and without errors, and in general by which of the two is handled last (C101_last_partial)."
  },
  {
   "property": "C102",
   "status": "partial",
   "theorems": [
    "Verif.C102_flight_partial",
    "Verif.C102_bin_partial",
    "Verif.C102_readonly_partial",
    "Verif.C102_violated"
   ],
   "note": "False: the telemetry log is not finished at exit. Proved for the flight-stack logs."
  },
  {
   "property": "C103",
   "status": "partial",
   "theorems": [
    "Verif.C103_bounded_partial",
    "Verif.C103_ends_partial",
    "Verif.C103_replies_partial",
    "Verif.C103_routed_partial",
    "Verif.C103_violated",
    "Verif.C103_flood"
   ],
   "note": "False of routers with flight logs: one PX4 log packet makes its log endpoint spin for ever (C103_violated), one ArduPilot log block is answered by up to 2^32-1 messages (C103_flood). Proved: one read and at most 140 messages per event, and a bound on all that is written for it in terms of the block numbers received, provided the log endpoints return."
  },
  {
   "property": "C104",
   "status": "partial",
   "theorems": [
    "Verif.C104_reports_partial",
    "Verif.C104_nothing_waits_partial",
    "Verif.C104_violated"
   ],
   "note": "False: a failing UART write is counted as an incomplete message, and counts of a TCP connection that ends before the next report are lost. Proved otherwise."
  },
  {
   "property": "C105",
   "status": "partial",
   "theorems": [
    "Verif.C105_control_block_partial",
    "Verif.C105_current_partial",
    "Verif.C105_violated"
   ],
   "note": "False: a log stopped while a sync is running forgets it, and the next log reuses the control block. Proved if logs are stopped while no sync is running."
  },
  {
   "property": "C106",
   "status": "partial",
   "theorems": [
    "Verif.C106_lines_partial",
    "Verif.C106_program_partial",
    "Verif.C106_priorities",
    "Verif.C106_colours",
    "Verif.C106_looks",
    "Verif.C106_violated"
   ],
   "note": "False: the configured level is not used while the configuration is read, and texts of 2048 bytes are cut. Proved otherwise."
  },
  {
   "property": "C107",
   "status": "partial",
   "theorems": [
    "Verif.C107_kept_partial",
    "Verif.C107_violated"
   ],
   "note": "False of TCP clients with RetryTimeout 0: end of file destroys them. Proved of all other configured endpoints."
  },
  {
   "property": "C108",
   "status": "partial",
   "theorems": [
    "Verif.C108_only_messages",
    "Verif.C108_segments_partial",
    "Verif.C108_any_bytes_partial",
    "Verif.C108_violated"
   ],
   "note": "False of streams with corrupt frames: how far the router gets depends on the reads (see C07). Proved for all streams without corrupt frames; for all streams one history is at most ahead of the other. Clock readings and results of writing are the same functions of the number of checks and writes in both histories."
  },
  {
   "property": "C109",
   "status": "partial",
   "theorems": [
    "Verif.C109_no_ring_partial",
    "Verif.C109_dedup_partial",
    "Verif.C109_violated"
   ],
   "note": "False of rings without de-duplication. Proved of networks without rings, and of all networks as long as everything happens within the de-duplication period."
  },
  {
   "property": "C11",
   "status": "proved",
   "theorems": [
    "Verif.C11_no_echo"
   ],
   "note": "Every reachable router state, every message."
  },
  {
   "property": "C110",
   "status": "proved",
   "theorems": [
    "Verif.C110_all_links",
    "Verif.C110_first_copy",
    "Verif.C110_delivered_once"
   ],
   "note": "All messages, whatever log endpoints do. The copies are those with the same bytes; another packet with the same 64-bit hash is excluded."
  },
  {
   "property": "C111",
   "status": "partial",
   "theorems": [
    "Verif.C111_stream_partial",
    "Verif.C111_violated"
   ],
   "note": "False when the kernel takes a part of a message: the beginning of the next one is taken for its end. Proved as long as every write is accepted completely or not at all."
  },
  {
   "property": "C112",
   "status": "partial",
   "theorems": [
    "Verif.C112_order_partial",
    "Verif.C112_violated"
   ],
   "note": "False from log 100000 on: the number has more than the five digits it is padded to, so 100000 sorts in front of 99999. Proved as long as the numbers in the directory are at most 99988."
  },
  {
   "property": "C113",
   "status": "proved",
   "theorems": [
    "Verif.C113_end"
   ],
   "note": "Which timers a destructor looks at and which endpoint is the logger are parameters. Members of groups own each other and are never destroyed; the process ends anyway."
  },
  {
   "property": "C114",
   "status": "partial",
   "theorems": [
    "Verif.C114_reply_partial",
    "Verif.C114_reply_dedup_partial",
    "Verif.C114_private_partial",
    "Verif.C114_violated"
   ],
   "note": "Proved of networks whose routers use no groups, for addresses other than 2/0 (the one of the log endpoint); that a private message goes nowhere else also with de-duplication and any filters, that the reply arrives with de-duplication if the two messages are sent once (no other message sent has the hash of one of them). With repetitions and de-duplication it is false (C114_violated: a repetition, sent because the first copy got lost behind the router, is dropped)."
  },
  {
   "property": "C115",
   "status": "partial",
   "theorems": [
    "Verif.C115_exact_partial",
    "Verif.C115_flight_partial",
    "Verif.C115_only_sent_partial",
    "Verif.C115_flight_sent_partial",
    "Verif.C115_violated"
   ],
   "note": "False with short writes (C115_violated: a message that arrived completely is missing, nothing is reported). Exactly the messages that arrived: proved if the kernel takes every write completely (C50_violated: otherwise the buffer can fill up and messages that arrived are dropped). Nothing but messages that were sent, each at most once and in order: proved for any results of the writes, unless the partial buffer error is logged. Messages of at most 1800 bytes; the header packet arrives, with at most 233 bytes."
  },
  {
   "property": "C116",
   "status": "partial",
   "theorems": [
    "Verif.C116_partial",
    "Verif.C116_log_endpoints_partial",
    "Verif.C116_violated"
   ],
   "note": "Same endpoints in the same order, same arrivals and addresses: proved for any log endpoints. Same bytes: proved unless a log endpoint edits the shared buffer, which only the PX4 log does, with LOGGING_DATA and LOGGING_DATA_ACKED, and for configured links (all endpoints in front of the first log) even then. Missing: the bytes TCP clients get of these two messages (C116_violated: a client that connected later gets other bytes)."
  },
  {
   "property": "C117",
   "status": "proved",
   "theorems": [
    "Verif.C117_order"
   ],
   "note": "The configured endpoints come before the log endpoints, as add_endpoints puts them; events carry the numbers of the endpoints. Requests for EPOLLOUT and the hang-up flag depend on the results of writes and are not compared."
  },
  {
   "property": "C118",
   "status": "partial",
   "theorems": [
    "Verif.C118_recovers_partial",
    "Verif.C118_violated"
   ],
   "note": "False if frames contain bytes that look like start markers: a frame with a wrong checksum is skipped in whole, so the receiver can stay out of step for ever (C118_violated: any number of valid heartbeats, none received). Proved if the frames among the first 280 bytes contain none."
  },
  {
   "property": "C119",
   "status": "partial",
   "theorems": [
    "Verif.C119_systems",
    "Verif.C119_dedup_partial",
    "Verif.C119_dedup_off",
    "Verif.C119_kept_for_ever",
    "Verif.C119_violated"
   ],
   "note": "Connected systems: proved. De-duplication: proved for a clock within 32 bits; after the clock wraps an entry in front of the queue can block the removal of all later ones (C119_violated: all messages of all days are kept)."
  },
  {
   "property": "C12",
   "status": "proved",
   "theorems": [
    "Verif.C12_exact_delivery",
    "Verif.C12_once",
    "Verif.C12_end_to_end",
    "Verif.arrivals_msgOk"
   ],
   "note": "Written endpoints = active endpoints filtered by the independently stated rule, in order, once each. Every sniffer setting; one above 255 acts as its low byte (C18_alias_witness, C74)."
  },
  {
   "property": "C120",
   "status": "proved",
   "theorems": [
    "Verif.C120_frames",
    "Verif.C120_routed_alike"
   ],
   "note": "C120_frames: frames with the same id, source and contents give messages that are alike. C120_routed_alike: histories with messages that are alike, one by one, are treated alike. The bytes are those that arrived unless a log endpoint that stands before the endpoint edits them (C20), which for links is never the case (C88_links); length and header, and so the form, are kept even then (C20_header_partial)."
  },
  {
   "property": "C121",
   "status": "partial",
   "theorems": [
    "Verif.C121_handled_partial",
    "Verif.C121_waiting_partial",
    "Verif.C121_stops_partial",
    "Verif.C121_behind_partial",
    "Verif.C121_violated",
    "Verif.C121_spill_violated"
   ],
   "note": "The loop is modelled in the order of the code (read_msg and handling alternate). C121_handled_partial: all frames are handled, as if they had been taken out of the buffer first, unless the link is a reconnecting TCP client and a write to it broke the pipe. C121_waiting_partial: in that case too the messages handled are a prefix, in order, and the rest stays complete in the buffer. C121_stops_partial: the link is closed in the event exactly if a write to it reported a broken connection. C121_violated: an answer of a log endpoint finds the connection broken, the third message of the segment is not handled. The loop model lets log endpoints change nothing behind the message; C121_behind_partial proves it of the PX4 log unless the message declares more data than it holds, and C121_spill_violated shows a valid message of that kind destroy the heartbeat behind it. Missing: only these two cases."
  },
  {
   "property": "C122",
   "status": "partial",
   "theorems": [
    "Verif.C122_opens_partial",
    "Verif.C122_again_partial",
    "Verif.C122_seen",
    "Verif.C122_tcp_partial",
    "Verif.C122_violated"
   ],
   "note": "False of a TCP client for an address like [ff0::1], which is taken for multicast by the first three letters and never opened. Missing: only such addresses. C122_seen: of the accepted addresses exactly those beginning with [ff0 are refused."
  },
  {
   "property": "C123",
   "status": "partial",
   "theorems": [
    "Verif.C123_reply_partial",
    "Verif.C123_latest_partial",
    "Verif.C123_told_partial",
    "Verif.C123_violated"
   ],
   "note": "False of the code: a UDP server endpoint sends everything to the sender of the latest datagram, so a datagram from anywhere else (even an empty one) redirects the messages for a system. Proved: what is sent goes to the latest sender, and to the system if no other sender was heard since. The witness uses a router with one serial port and one UDP server."
  },
  {
   "property": "C124",
   "status": "partial",
   "theorems": [
    "Verif.C124_follows_partial",
    "Verif.C124_heard_partial",
    "Verif.C124_violated"
   ],
   "note": "False of the code: links never forget a system (apart from TCP connections that are closed), so messages for it still go to the old link, and what it sends is kept from everybody behind the old link. Proved: it is reached on the new link, and heard on all links it never was on."
  },
  {
   "property": "C125",
   "status": "proved",
   "theorems": [
    "Verif.C125_hub",
    "Verif.C125_bridge",
    "Verif.C125_started"
   ],
   "note": "From bytes read to what the links are handed; what becomes of it on the wire is C26 to C29 and C111. Links do not come and go in the history. C125_bridge is the case of two links."
  },
  {
   "property": "C126",
   "status": "partial",
   "theorems": [
    "Verif.C126_others_partial",
    "Verif.C126_added_partial",
    "Verif.C126_violated"
   ],
   "note": "False of the code for UDP clients without a port: sections read later come first, so a new section for the same address takes port 14550 and moves the endpoint that was there to 14551. Everything else is proved, for arbitrary changes of other sections (C126_others_partial) and for one more file (C126_added_partial). At the level of parse_confs; the command line adds endpoints behind those (C73)."
  },
  {
   "property": "C127",
   "status": "partial",
   "theorems": [
    "Verif.C127_bounded_partial",
    "Verif.C127_started_partial",
    "Verif.C127_violated"
   ],
   "note": "False of the code: old logs are removed before the new one is created, so that MaxLogFiles + 1 are there with one log endpoint. Proved: never more than MaxLogFiles plus the number of log endpoints, and at most MaxLogFiles finished ones right after a start."
  },
  {
   "property": "C128",
   "status": "partial",
   "theorems": [
    "Verif.C128_files_partial",
    "Verif.C128_words_partial",
    "Verif.C128_runs_partial",
    "Verif.C128_violated"
   ],
   "note": "False of the code: -e with an IPv6 address without port, the letter -T, and upper case IPv6 addresses are refused. Proved: everything else that is documented is accepted, for files, for command lines of any words, and for the start of the program."
  },
  {
   "property": "C129",
   "status": "partial",
   "theorems": [
    "Verif.C129_file",
    "Verif.C129_files",
    "Verif.C129_extract_partial",
    "Verif.C129_value_partial",
    "Verif.C129_name",
    "Verif.C129_read",
    "Verif.C129_violated"
   ],
   "note": "False of the code: numbers and lists are copied to the stack whatever their length (strndupa), so that a value of 8 MiB overruns it. Proved: reading the files is safe for all contents and computes what the model on byte lists (C54 to C56) computes; taking the options out is safe if values are shorter than the stack. The buffer for section names is C57."
  },
  {
   "property": "C13",
   "status": "proved",
   "theorems": [
    "Verif.C13_learned_is_history",
    "Verif.C13_passed_iff",
    "Verif.C13_never_forgotten",
    "Verif.C13_arrivals_are_received"
   ],
   "note": "Iff over all event histories from configuration."
  },
  {
   "property": "C130",
   "status": "proved",
   "theorems": [
    "Verif.C130_stored",
    "Verif.C130_complete"
   ],
   "note": "The blocks arriving while one file is in use belong to one log, as stated; blocks of other systems or late blocks of an earlier log would be stored and acknowledged too (C68_violated), an example beside the theorem shows it. Block numbers as in C45."
  },
  {
   "property": "C131",
   "status": "partial",
   "theorems": [
    "Verif.C131_stored_partial",
    "Verif.C131_violated",
    "Verif.C131_violated_short"
   ],
   "note": "False of the code: data are acknowledged before they are looked at, also if no log is open (C131_violated), and with short writes messages in acknowledged packets are missing in the file though nothing is reported (C131_violated_short). Proved from start to stop of a log if the kernel takes every write completely and the packets are not overtaken by later ones; streams as in C115."
  },
  {
   "property": "C132",
   "status": "partial",
   "theorems": [
    "Verif.C132_request_partial",
    "Verif.C132_passed_on_partial",
    "Verif.C132_cut_off",
    "Verif.C132_violated"
   ],
   "note": "False of the code: once a request of another router's log endpoint came in on a link (it does if a component of the logged system is on this side), the own requests are never sent there again (C132_cut_off, C132_violated). Proved for links on which no other log endpoint was heard."
  },
  {
   "property": "C133",
   "status": "partial",
   "theorems": [
    "Verif.C133_start_partial",
    "Verif.C133_start_violated",
    "Verif.C133_write_partial",
    "Verif.C133_traffic_partial",
    "Verif.C133_clients_partial",
    "Verif.C133_other_links",
    "Verif.C133_clients_violated"
   ],
   "note": "False of the code: a diagnostic that cannot be written leaves its error number in errno, which is looked at behind it. With the standard error output closed the router does not start without a configuration file (C133_start_violated), clients are kept that are gone, and with a broken pipe clients are disconnected that are not (C133_clients_violated). Proved: everything else, that is, the start if the file exists; what is counted, written and routed; connections if no broken pipe is involved."
  },
  {
   "property": "C134",
   "status": "partial",
   "theorems": [
    "Verif.C134_listens_partial",
    "Verif.C134_violated_client",
    "Verif.C134_violated_start"
   ],
   "note": "False of the code: no caller looks at the result of add_fd for an endpoint; a client or a configured link that epoll_ctl refuses is an endpoint that is written to and never read, for ever (C134_violated_client, C134_violated_start). Proved for all histories in which the registration of endpoints succeeds (that of timers may fail). Log endpoints have no descriptor; the model of the loop keeps them in the poll set like the other endpoints that are not TCP endpoints."
  },
  {
   "property": "C135",
   "status": "proved",
   "theorems": [
    "Verif.C135_undisturbed",
    "Verif.C135_later",
    "Verif.C135_closed"
   ],
   "note": "Router with broken connections closed at once inside write_msg and with reading and handling in turns (Model/Broken). C135_later: the main model, in which descriptors change between reads only, has the same traffic. The link that is read from stays connected while its segment is handled; otherwise C121_violated. Time is not part of the statement: a reconnect calls connect on a blocking socket (C96), during which nothing is read."
  },
  {
   "property": "C136",
   "status": "proved",
   "theorems": [
    "Verif.C136_past",
    "Verif.C136_restart"
   ],
   "note": "C136_past: two histories from one configuration, then the same events; also for clients of the TCP server, as far as log endpoints before them do not edit messages (C88_violated). C136_restart: a history and the same router started in the middle of it. With de-duplication on, what it remembers for its period is a further part of the past (C19-C22), which matters only for packets that arrive twice (NoCopies)."
  },
  {
   "property": "C137",
   "status": "partial",
   "theorems": [
    "Verif.C137_udp_partial",
    "Verif.C137_tcp_partial",
    "Verif.C137_violated_group",
    "Verif.C137_violated_address",
    "Verif.C137_violated_interfaces"
   ],
   "note": "False of the code in three ways: the interface of a joined group is never set (C137_violated_group, for every group server), a text of colons and digits that passes the configuration but is no IPv6 address leaves the address of a UDP client unset (C137_violated_address), and a failure of getifaddrs is not noticed (C137_violated_interfaces). Proved otherwise. Not read in the model: the flow label, which is zeroed."
  },
  {
   "property": "C138",
   "status": "proved",
   "theorems": [
    "Verif.C138_stranger"
   ],
   "note": "Histories are compared by what arrived (Without): messages of the other systems in the same order on the same links. Links of the configuration, which stand before the log endpoints (C92_links_first); clients of the TCP server can be behind a PX4 log that edits messages (C88_violated)."
  },
  {
   "property": "C139",
   "status": "proved",
   "theorems": [
    "Verif.C139_filters",
    "Verif.C139_sniffer"
   ],
   "note": "Same events in both runs; that the same messages are let in is part of the conclusion. Links of the configuration, which stand before the log endpoints (C92_links_first)."
  },
  {
   "property": "C14",
   "status": "proved",
   "theorems": [
    "Verif.C14_group_shares",
    "Verif.C14_isolated"
   ],
   "note": ""
  },
  {
   "property": "C140",
   "status": "partial",
   "theorems": [
    "Verif.C140_only_repeats_partial",
    "Verif.C140_grouped_partial",
    "Verif.C140_violated"
   ],
   "note": "False of the code: a dropped copy does not teach the link it came on where its sender is. Over two links that are not grouped, the slower one never learns the vehicle: messages for it are no longer sent there, and what it sends on the faster link is sent back to it on the slower one. Proved if senders of dropped repeats were let in before on the same link or a link of its group, in particular (with a sane clock and no colliding packets) if all links that carry the same packets are grouped."
  },
  {
   "property": "C141",
   "status": "proved",
   "theorems": [
    "Verif.C141_served"
   ],
   "note": "Any history, then any two interleavings of the same events at each link: same arrivals per link, same bytes handed to every configured link up to the interleaving of origins. De-duplication may be on if no two packets have the same hash, whatever the clock does. That senders are known is part of the claim; an example beside the theorem shows it is needed."
  },
  {
   "property": "C142",
   "status": "proved",
   "theorems": [
    "Verif.C142_unsent"
   ],
   "note": "Whole runs, any two histories with the same admitted messages. With de-duplication a dropped packet is remembered and its copy on another link dropped (C83_violated); the claim excludes copies."
  },
  {
   "property": "C143",
   "status": "proved",
   "theorems": [
    "Verif.C143_listener"
   ],
   "note": "The further link stands behind the links there were and before the log endpoints; that the order of links does not matter is C117."
  },
  {
   "property": "C144",
   "status": "proved",
   "theorems": [
    "Verif.C144_roaming"
   ],
   "note": "Times of arrival are the clock readings of the de-duplication checks, one for each message. Links of the configuration; clients of the TCP server can be behind a PX4 log that edits messages (C88_violated)."
  },
  {
   "property": "C145",
   "status": "proved",
   "theorems": [
    "Verif.C145_silent"
   ],
   "note": "Links of the configuration; clients of the TCP server can be behind a PX4 log that edits messages (C88_violated). Which messages are let in is C13_passed_iff and C22."
  },
  {
   "property": "C146",
   "status": "proved",
   "theorems": [
    "Verif.C146_concern"
   ],
   "note": "Times of arrival are the clock readings of the de-duplication checks, one for each message. Links of the configuration; clients of the TCP server can be behind a PX4 log that edits messages (C88_violated)."
  },
  {
   "property": "C147",
   "status": "proved",
   "theorems": [
    "Verif.C147_client",
    "Verif.C147_client_logs"
   ],
   "note": "C147_client for any log endpoints that leave the messages alone, C147_client_logs with the actual ones. Times of arrival are the clock readings of the de-duplication checks. That PX4 log data are different for clients is C88_violated."
  },
  {
   "property": "C148",
   "status": "proved",
   "theorems": [
    "Verif.C148_fresh",
    "Verif.C148_fresh_logs"
   ],
   "note": "C148_fresh for any log endpoints that leave the messages alone, C148_fresh_logs with the actual ones. That PX4 log data are different for clients is C88_violated."
  },
  {
   "property": "C15",
   "status": "proved",
   "theorems": [
    "Verif.C15_learning_terminates"
   ],
   "note": "Arbitrary link graph."
  },
  {
   "property": "C16",
   "status": "proved",
   "theorems": [
    "Verif.C16_outgoing_filters",
    "Verif.C16_filters_only_restrict"
   ],
   "note": ""
  },
  {
   "property": "C17",
   "status": "proved",
   "theorems": [
    "Verif.C17_no_trace"
   ],
   "note": "The de-duplication memory is updated before the filters are consulted."
  },
  {
   "property": "C18",
   "status": "proved",
   "theorems": [
    "Verif.C18_sniffer_gets_all",
    "Verif.C18_no_sniffer",
    "Verif.C18_alias_witness"
   ],
   "note": "Settings above 255 alias modulo 256 (witness)."
  },
  {
   "property": "C19",
   "status": "partial",
   "theorems": [
    "Verif.C19_counted_partial",
    "Verif.C19_rule_partial",
    "Verif.C19_violated"
   ],
   "note": "False of the code for a disconnected TCP client (accept_msg is not virtual)."
  },
  {
   "property": "C20",
   "status": "partial",
   "theorems": [
    "Verif.C20_same_bytes_partial",
    "Verif.C20_links_partial",
    "Verif.C20_log_endpoints_partial",
    "Verif.C20_header_partial",
    "Verif.C20_violated"
   ],
   "note": "False: the ULog endpoint edits the shared buffer (C20_violated); proved for every endpoint before the log endpoints (all configured links), and for all endpoints and every message other than LOGGING_DATA/LOGGING_DATA_ACKED, and of these the number of bytes, the header and the first four bytes of payload."
  },
  {
   "property": "C21",
   "status": "proved",
   "theorems": [
    "Verif.C21_not_to_log",
    "Verif.C21_depth",
    "Verif.C21_log_endpoints",
    "Verif.C21_log_endpoints_depth",
    "Verif.C21_calls",
    "Verif.C21_program"
   ],
   "note": "The general theorems assume generated messages come from 2/0; the others are for the modelled log endpoints, without the assumption; the last one from the command line on, timers included."
  },
  {
   "property": "C22",
   "status": "proved",
   "theorems": [
    "Verif.C22_exact",
    "Verif.C22_disabled",
    "Verif.C22_router",
    "Verif.C22_router_disabled",
    "Verif.C22_epoch"
   ],
   "note": ""
  },
  {
   "property": "C23",
   "status": "partial",
   "theorems": [
    "Verif.C23_violated",
    "Verif.C23_reset_partial"
   ],
   "note": "False of the code: a repeat does not restart the period; proved: every packet the code drops is dropped by the documented rule."
  },
  {
   "property": "C24",
   "status": "proved",
   "theorems": [
    "Verif.C24_consistent",
    "Verif.C24_recent_only"
   ],
   "note": ""
  },
  {
   "property": "C25",
   "status": "partial",
   "theorems": [
    "Verif.C25_violated",
    "Verif.C25_violated_clock_step",
    "Verif.C25_violated_early_expiry",
    "Verif.C25_stuck_entry",
    "Verif.C25_accepts_later_partial"
   ],
   "note": "False of the code around clock wrap and clock steps; proved under stated clock hypotheses."
  },
  {
   "property": "C26",
   "status": "proved",
   "theorems": [
    "Verif.C26_last_sender",
    "Verif.C26_silent"
   ],
   "note": "A datagram with source port 0 cannot be answered."
  },
  {
   "property": "C27",
   "status": "proved",
   "theorems": [
    "Verif.C27_initial",
    "Verif.C27_fallback",
    "Verif.C27_only_recent",
    "Verif.C27_port_witness"
   ],
   "note": "The 5 s are exact up to when the event loop serves the timer; configured port must be nonzero modulo 65536 (witness)."
  },
  {
   "property": "C28",
   "status": "partial",
   "theorems": [
    "Verif.C28_reconnect_partial",
    "Verif.C28_fires",
    "Verif.C28_no_retry",
    "Verif.C28_violated",
    "Verif.C28_timer_failure_witness"
   ],
   "note": "Proved when timers can be created and RetryTimeout <= 4294967 s; false for 2^29 (milliseconds wrap to 0, timer disarmed)."
  },
  {
   "property": "C29",
   "status": "partial",
   "theorems": [
    "Verif.C29_removed_partial",
    "Verif.C29_others_remain",
    "Verif.C29_noticed",
    "Verif.C29_reported",
    "Verif.C29_violated",
    "Verif.C29_violated_for_ever"
   ],
   "note": "False of grouped endpoints: the other members own the endpoint, so its descriptor stays open and polled."
  },
  {
   "property": "C30",
   "status": "proved",
   "theorems": [
    "Verif.C30_kept",
    "Verif.C30_asked",
    "Verif.C30_cycle",
    "Verif.C30_all_tried",
    "Verif.C30_single",
    "Verif.C30_prompt",
    "Verif.C30_no_timer"
   ],
   "note": "The device is asked for the rates in cyclic order whatever it answers (C30_asked); the rate in use is the last one it took. C30_cycle is the case in which it takes all. If the timer cannot be created, nothing is searched and nothing is reported (C30_no_timer)."
  },
  {
   "property": "C31",
   "status": "proved",
   "theorems": [
    "Verif.C31_at_most_once",
    "Verif.C31_canwrite",
    "Verif.C31_counters"
   ],
   "note": "The UART code also counts failed writes (other than would-block) as sent and incomplete."
  },
  {
   "property": "C32",
   "status": "proved",
   "theorems": [
    "Verif.C32_no_use_after_free",
    "Verif.C32_nothing_destroyed_in_batch",
    "Verif.C32_no_dangling"
   ],
   "note": ""
  },
  {
   "property": "C33",
   "status": "proved",
   "theorems": [
    "Verif.C33_sweep",
    "Verif.C33_histories",
    "Verif.C33_iteration"
   ],
   "note": "Pointer-level list refined to a list of timers."
  },
  {
   "property": "C34",
   "status": "proved",
   "theorems": [
    "Verif.C34_cancelled_never_runs",
    "Verif.C34_live_runs"
   ],
   "note": ""
  },
  {
   "property": "C35",
   "status": "proved",
   "theorems": [
    "Verif.C35_exact"
   ],
   "note": ""
  },
  {
   "property": "C36",
   "status": "proved",
   "theorems": [
    "Verif.C36_never_overwrites",
    "Verif.C36_larger",
    "Verif.C36_after",
    "Verif.C36_wrap_witness"
   ],
   "note": "C36_larger: no other creators, no number above 2^32-2 present. C36_wrap_witness shows the wrap beyond that bound."
  },
  {
   "property": "C37",
   "status": "proved",
   "theorems": [
    "Verif.C37_recognised",
    "Verif.C37_injective",
    "Verif.C37_histories"
   ],
   "note": "C37_histories: of the files that are in the directory after any history, those the router added, whatever others do there."
  },
  {
   "property": "C38",
   "status": "proved",
   "theorems": [
    "Verif.C38_only_finished",
    "Verif.C38_rest_kept",
    "Verif.C38_open_log_kept",
    "Verif.C38_finished_immutable"
   ],
   "note": "The last two are over all histories of starts, writes, stops and crashes."
  },
  {
   "property": "C39",
   "status": "partial",
   "theorems": [
    "Verif.C39_order_partial",
    "Verif.C39_needed_partial",
    "Verif.C39_violated_statvfs",
    "Verif.C39_violated_statvfs_all",
    "Verif.C39_violated_maxfiles",
    "Verif.C39_overflow_witness"
   ],
   "note": "False when statvfs fails or for limits of 2^63 and more (witnesses); proved when the free space is known and sizes, limits and counts are below 2^63."
  },
  {
   "property": "C40",
   "status": "partial",
   "theorems": [
    "Verif.C40_quotas_partial",
    "Verif.C40_histories",
    "Verif.C40_violated",
    "Verif.C40_violated_minfree"
   ],
   "note": "False if finished logs share an index or MinFreeSpace is 2^63 or more (witnesses); proved otherwise, and over histories of the router no two logs share an index."
  },
  {
   "property": "C41",
   "status": "partial",
   "theorems": [
    "Verif.C41_marks_partial",
    "Verif.C41_nothing_else",
    "Verif.C41_writable_is_open",
    "Verif.C41_after_boot",
    "Verif.C41_violated"
   ],
   "note": "Every writable log is marked at start, for every crash point. Files that are not logs but whose name starts with a digit are marked too (C41_violated)."
  },
  {
   "property": "C42",
   "status": "partial",
   "theorems": [
    "Verif.C42_payload",
    "Verif.C42_tlog_partial",
    "Verif.C42_binlog_partial",
    "Verif.C42_ulog_partial",
    "Verif.C42_violated",
    "Verif.C42_violated_ulog",
    "Verif.C42_violated_trimmed",
    "Verif.C42_violated_disabled",
    "Verif.C42_violated_failed"
   ],
   "note": "False: log data arriving while disarmed create a file; armed flag of a trimmed heartbeat is read from the checksum; one failed start disables logging for good. Proved without these."
  },
  {
   "property": "C43",
   "status": "partial",
   "theorems": [
    "Verif.C43_files_partial",
    "Verif.C43_step_partial",
    "Verif.C43_all_partial",
    "Verif.C43_reader",
    "Verif.C43_frames_whole",
    "Verif.C43_violated"
   ],
   "note": "False when a write is short (results of write are ignored, C43_violated); proved when writes are carried out completely."
  },
  {
   "property": "C44",
   "status": "partial",
   "theorems": [
    "Verif.C44_recorded_partial",
    "Verif.C44_takes",
    "Verif.C44_violated"
   ],
   "note": "False: messages addressed to a particular system are not recorded; proved: which messages are taken, and that each is recorded exactly once."
  },
  {
   "property": "C45",
   "status": "proved",
   "theorems": [
    "Verif.C45_files",
    "Verif.C45_complete",
    "Verif.C45_order_independent",
    "Verif.C45_place",
    "Verif.C45_wraps"
   ],
   "note": "Block numbers below 2^32/200 as stated; C45_wraps shows the bound is needed. C45_files covers failed and short writes too (the file holds what was written; C46: such blocks are not acknowledged)."
  },
  {
   "property": "C46",
   "status": "proved",
   "theorems": [
    "Verif.C46_history",
    "Verif.C46_ack",
    "Verif.C46_routed"
   ],
   "note": ""
  },
  {
   "property": "C47",
   "status": "partial",
   "theorems": [
    "Verif.C47_count_partial",
    "Verif.C47_session_partial",
    "Verif.C46_routed",
    "Verif.C47_violated",
    "Verif.C47_flood"
   ],
   "note": "False: the negative acknowledgements carry the number of the block that arrived; 2^32-1 of them after block 2^32-1. Proved: their count is the number of skipped blocks."
  },
  {
   "property": "C48",
   "status": "partial",
   "theorems": [
    "Verif.C48_seq_partial",
    "Verif.C48_once",
    "Verif.C48_violated"
   ],
   "note": "False at distances 32768-32770 where the comparison depends on 16 bit wrap-around (C48_violated writes a retransmitted message twice). For histories within half the number space: proved."
  },
  {
   "property": "C49",
   "status": "partial",
   "theorems": [
    "Verif.C49_format_partial",
    "Verif.C49_remainder_partial",
    "Verif.C49_violated"
   ],
   "note": "Proved for all histories and write results unless a message size field of 65533 or more comes up; C49_violated is such a case."
  },
  {
   "property": "C50",
   "status": "partial",
   "theorems": [
    "Verif.C50_verbatim_partial",
    "Verif.C50_bytes_partial",
    "Verif.C50_flight_partial",
    "Verif.C50_violated"
   ],
   "note": "Verbatim with complete writes; for any write results all bytes are kept unless a drop is reported; short writes alone can cause the drop (C50_violated)."
  },
  {
   "property": "C51",
   "status": "partial",
   "theorems": [
    "Verif.C51_buffers_partial",
    "Verif.C51_packet_partial",
    "Verif.C51_violated",
    "Verif.C51_violated_write",
    "Verif.C51_violated_offset"
   ],
   "note": "The endpoint's own buffers are never overrun in any history; accesses outside the packet happen for a header packet longer than 233 bytes, a length above 249 or an offset beyond the length (three witnesses)."
  },
  {
   "property": "C52",
   "status": "partial",
   "theorems": [
    "Verif.C52_returns_partial",
    "Verif.C52_stop_returns",
    "Verif.C52_violated",
    "Verif.C52_stop_spins"
   ],
   "note": "False for the message size field 65533 (endless loop, C52_violated); otherwise processing and, with progress of writes, stopping return."
  },
  {
   "property": "C53",
   "status": "partial",
   "theorems": [
    "Verif.C53_choice_partial",
    "Verif.C53_never_changes",
    "Verif.C53_violated"
   ],
   "note": "False for heartbeats trimmed before the autopilot field (C53_violated); proved for all histories of whole heartbeats."
  },
  {
   "property": "C54",
   "status": "proved",
   "theorems": [
    "Verif.C54_last_wins",
    "Verif.C54_reading_exists",
    "Verif.C54_override"
   ],
   "note": ""
  },
  {
   "property": "C55",
   "status": "partial",
   "theorems": [
    "Verif.C55_lines_partial",
    "Verif.C55_errors_reported",
    "Verif.C55_refused_partial",
    "Verif.C55_violated"
   ],
   "note": "False: a last line without a newline is ignored silently; proved for all lines that end in a newline."
  },
  {
   "property": "C56",
   "status": "partial",
   "theorems": [
    "Verif.C56_layout_partial",
    "Verif.C56_violated",
    "Verif.C56_nonempty"
   ],
   "note": "False only if all text is layout: a file with nothing but a comment is accepted, an empty file is refused. Proved for files that are not empty."
  },
  {
   "property": "C57",
   "status": "partial",
   "theorems": [
    "Verif.C57_iterate_partial",
    "Verif.C57_violated"
   ],
   "note": "False: a section name of the maximal accepted length is copied with its terminator one byte beyond the buffer (C57_violated); proved for all shorter names."
  },
  {
   "property": "C58",
   "status": "partial",
   "theorems": [
    "Verif.C58_iterate_partial",
    "Verif.C58_endpoints_partial",
    "Verif.C58_violated"
   ],
   "note": "False for section names of 100 bytes (undefined behaviour, see C57); proved for all shorter names."
  },
  {
   "property": "C59",
   "status": "partial",
   "theorems": [
    "Verif.C59_unsigned_partial",
    "Verif.C59_decimal_partial",
    "Verif.C59_int",
    "Verif.C59_rejects",
    "Verif.C59_bool",
    "Verif.C59_refused_partial",
    "Verif.C59_refused_switches",
    "Verif.C59_violated"
   ],
   "note": "False for unsigned options given negative numbers, which wrap; the accepted texts and their values are characterised exactly."
  },
  {
   "property": "C60",
   "status": "partial",
   "theorems": [
    "Verif.C60_uint32_partial",
    "Verif.C60_uint8_partial",
    "Verif.C60_any_partial",
    "Verif.C60_violated",
    "Verif.C60_violated_negative"
   ],
   "note": "False: items out of range are truncated and non-numeric ones become 0; proved for lists of numbers in range."
  },
  {
   "property": "C61",
   "status": "partial",
   "theorems": [
    "Verif.C61_port_partial",
    "Verif.C61_files_partial",
    "Verif.C61_violated",
    "Verif.C61_violated_cli"
   ],
   "note": "False: the search stops after one step, and on the command line the address is not yet set. Proved while 14551 is free."
  },
  {
   "property": "C62",
   "status": "proved",
   "theorems": [
    "Verif.C62_shapes",
    "Verif.C62_accepted",
    "Verif.C62_endpoints"
   ],
   "note": ""
  },
  {
   "property": "C63",
   "status": "partial",
   "theorems": [
    "Verif.C63_port_partial",
    "Verif.C63_violated"
   ],
   "note": "False: ports above 65535 are accepted and truncated. Proved: never 0, never absent."
  },
  {
   "property": "C64",
   "status": "partial",
   "theorems": [
    "Verif.C64_files_partial",
    "Verif.C64_values_partial",
    "Verif.C64_violated"
   ],
   "note": "False: more than 128 regular files overrun the table. Proved up to 128 files with paths below 4096 bytes."
  },
  {
   "property": "C65",
   "status": "proved",
   "theorems": [
    "Verif.C65_calls",
    "Verif.C65_success",
    "Verif.C65_created"
   ],
   "note": ""
  },
  {
   "property": "C66",
   "status": "partial",
   "theorems": [
    "Verif.C66_no_colon",
    "Verif.C66_number_partial",
    "Verif.C66_error",
    "Verif.C66_violated"
   ],
   "note": "False for -1 (reported as absent) and numbers with a leading 0 (octal); proved for plain decimal numbers below 2^64."
  },
  {
   "property": "C67",
   "status": "partial",
   "theorems": [
    "Verif.C67_configured_partial",
    "Verif.C67_violated"
   ],
   "note": "False unless LogSystemId is configured."
  },
  {
   "property": "C68",
   "status": "partial",
   "theorems": [
    "Verif.C68_other_partial",
    "Verif.C68_violated"
   ],
   "note": "False: log blocks of other systems overwrite the log; all other messages of other systems have no effect."
  },
  {
   "property": "C69",
   "status": "proved",
   "theorems": [
    "Verif.C69_options"
   ],
   "note": "For section names below 100 bytes (C57)."
  },
  {
   "property": "C70",
   "status": "partial",
   "theorems": [
    "Verif.C70_forms_partial",
    "Verif.C70_lines_partial",
    "Verif.C70_together_partial",
    "Verif.C70_violated"
   ],
   "note": "False for -T, -V (swallow the next argument) and --help (unknown); proved for all others."
  },
  {
   "property": "C71",
   "status": "partial",
   "theorems": [
    "Verif.C71_ipv4_partial",
    "Verif.C71_accepted_partial",
    "Verif.C71_violated"
   ],
   "note": "False for numbers above 255 (broadcast address) and leading zeros (octal); proved for plain decimal notation up to 255."
  },
  {
   "property": "C72",
   "status": "partial",
   "theorems": [
    "Verif.C72_ipv6_partial",
    "Verif.C72_violated"
   ],
   "note": "False: malformed text is accepted and the failure of inet_pton not checked; proved for well-formed text."
  },
  {
   "property": "C73",
   "status": "proved",
   "theorems": [
    "Verif.C73_overrides",
    "Verif.C73_words",
    "Verif.C73_endpoints",
    "Verif.C73_end_to_end"
   ],
   "note": ""
  },
  {
   "property": "C74",
   "status": "partial",
   "theorems": [
    "Verif.C74_sniffer_partial",
    "Verif.C74_cli_partial",
    "Verif.C74_violated"
   ],
   "note": "False: ids are truncated to 8 (files) or 16 bits (command line); proved for ids up to 255."
  },
  {
   "property": "C75",
   "status": "partial",
   "theorems": [
    "Verif.C75_uart_partial",
    "Verif.C75_violated"
   ],
   "note": "False for hexadecimal, negative and large numbers; proved for plain decimal numbers below 2^31."
  },
  {
   "property": "C76",
   "status": "proved",
   "theorems": [
    "Verif.C76_binlog",
    "Verif.C76_ulog",
    "Verif.C80_start_request"
   ],
   "note": "Messages of log protocol ids known; COMMAND_ACK and blocks not truncated below their fields."
  },
  {
   "property": "C77",
   "status": "proved",
   "theorems": [
    "Verif.C77_binlog",
    "Verif.C77_ulog"
   ],
   "note": "PX4: for checks that return (C52)."
  },
  {
   "property": "C78",
   "status": "partial",
   "theorems": [
    "Verif.C78_acked_partial",
    "Verif.C78_routed_partial",
    "Verif.C78_violated"
   ],
   "note": "False if MAVLink 2 trims the number: its high byte is read from the checksum. Proved if the number is transmitted."
  },
  {
   "property": "C79",
   "status": "proved",
   "theorems": [
    "Verif.C79_first_block",
    "Verif.C79_needs_no_again"
   ],
   "note": ""
  },
  {
   "property": "C80",
   "status": "proved",
   "theorems": [
    "Verif.C80_routed",
    "Verif.C80_start_request",
    "Verif.C80_reaches"
   ],
   "note": ""
  },
  {
   "property": "C81",
   "status": "proved",
   "theorems": [
    "Verif.C81_order",
    "Verif.C81_order_logs",
    "Verif.C81_arrival_order"
   ],
   "note": ""
  },
  {
   "property": "C82",
   "status": "proved",
   "theorems": [
    "Verif.C82_reports_add_up",
    "Verif.C82_reports_add_up_logs",
    "Verif.C82_report"
   ],
   "note": ""
  },
  {
   "property": "C83",
   "status": "partial",
   "theorems": [
    "Verif.C83_copy_passed_partial",
    "Verif.C83_violated"
   ],
   "note": "False: the check comes before the incoming filters, so a copy blocked on one link suppresses the copy admitted on another. Proved: a suppressed message repeats a recent new one, passed on unless filtered."
  },
  {
   "property": "C84",
   "status": "proved",
   "theorems": [
    "Verif.C84_watched_iff",
    "Verif.C84_asked"
   ],
   "note": "C84_watched_iff: the state of one link over its history. C84_asked: which links are asked for by a whole event of the router."
  },
  {
   "property": "C85",
   "status": "partial",
   "theorems": [
    "Verif.C85_percent_partial",
    "Verif.C85_violated"
   ],
   "note": "False from 42949673 errors on: the multiplication by 100 wraps. Proved below that bound."
  },
  {
   "property": "C86",
   "status": "partial",
   "theorems": [
    "Verif.C86_datagrams_partial",
    "Verif.C86_violated",
    "Verif.C86_long_violated"
   ],
   "note": "False: a datagram cut off in a frame swallows the next sender's frame; bytes beyond 1120 are lost. Proved for datagrams of whole frames."
  },
  {
   "property": "C87",
   "status": "partial",
   "theorems": [
    "Verif.C87_reconnect_partial",
    "Verif.C87_soon_partial",
    "Verif.C87_violated"
   ],
   "note": "False: the receive buffer is kept over the reconnect. Proved if it was empty; whatever it contains, all frames are received that do not begin among the first 280 bytes of the new connection, if those contain no start marker inside (any history of the router, any number of earlier connections)."
  },
  {
   "property": "C88",
   "status": "partial",
   "theorems": [
    "Verif.C88_links",
    "Verif.C88_complete_partial",
    "Verif.C88_from_start_partial",
    "Verif.C88_logs_partial",
    "Verif.C88_violated"
   ],
   "note": "C88_links: a configured link (they stand before the log endpoints, C92_links_first) is handed exactly what is meant for it, byte for byte, whatever log endpoints do. C88_complete_partial: every endpoint is handed exactly the messages meant for it; byte for byte those that no log endpoint before it edits, which with the actual log endpoints (C88_logs_partial) are all but LOGGING_DATA and LOGGING_DATA_ACKED. C88_violated: a client of the TCP server is handed other bytes than arrived. Missing: only that."
  },
  {
   "property": "C89",
   "status": "proved",
   "theorems": [
    "Verif.C89_chosen",
    "Verif.C89_read"
   ],
   "note": ""
  },
  {
   "property": "C90",
   "status": "partial",
   "theorems": [
    "Verif.C90_bad_file_partial",
    "Verif.C90_violated"
   ],
   "note": "False: a missing file named with -c is passed over. Proved for files that exist."
  },
  {
   "property": "C91",
   "status": "partial",
   "theorems": [
    "Verif.C91_information_partial",
    "Verif.C91_violated"
   ],
   "note": "False: -h is looked at only after the configuration files and ends with a failure status. Proved for -V."
  },
  {
   "property": "C92",
   "status": "proved",
   "theorems": [
    "Verif.C92_endpoints",
    "Verif.C92_one_each",
    "Verif.C92_routing",
    "Verif.C92_links_first"
   ],
   "note": ""
  },
  {
   "property": "C93",
   "status": "partial",
   "theorems": [
    "Verif.C93_complete_partial",
    "Verif.C93_violated"
   ],
   "note": "False: if the TCP server port cannot be opened the router runs without it. Proved for the endpoints."
  },
  {
   "property": "C94",
   "status": "partial",
   "theorems": [
    "Verif.C94_general_partial",
    "Verif.C94_violated"
   ],
   "note": "False for values that do not fit: a de-duplication period of 2^32 ms is taken as 0. Proved otherwise."
  },
  {
   "property": "C95",
   "status": "proved",
   "theorems": [
    "Verif.C95_transparent",
    "Verif.C95_rate",
    "Verif.C95_succeeds",
    "Verif.C95_change"
   ],
   "note": ""
  },
  {
   "property": "C96",
   "status": "partial",
   "theorems": [
    "Verif.C96_no_leak_partial",
    "Verif.C96_all_closed_partial",
    "Verif.C96_violated"
   ],
   "note": "False: a TCP client with an IPv6 multicast address loses one descriptor per attempt. Proved for all other links."
  },
  {
   "property": "C97",
   "status": "partial",
   "theorems": [
    "Verif.C97_nonblocking_partial",
    "Verif.C97_no_wait_partial",
    "Verif.C97_violated"
   ],
   "note": "False: TCP clients call connect on a blocking socket, also when reconnecting. Proved for reading and writing."
  },
  {
   "property": "C98",
   "status": "partial",
   "theorems": [
    "Verif.C98_group_partial",
    "Verif.C98_violated"
   ],
   "note": "False: only texts starting with ff0 count as multicast. Proved for the form ff0x."
  },
  {
   "property": "C99",
   "status": "partial",
   "theorems": [
    "Verif.C99_own_partial",
    "Verif.C99_global",
    "Verif.C99_violated"
   ],
   "note": "False: the interface is found only for addresses of this host. Proved for those."
  }
 ]
}