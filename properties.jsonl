{"id": "C01", "title": "Frame reassembly is independent of how the byte stream is split into reads", "statement": "When a peer sends a sequence of well-formed MAVLink 1/2 frames (valid checksum when the message id is known), the endpoint hands to the router exactly those frames, each byte-identical, each once and in order, however the kernel splits the stream into reads; whatever is left over is an incomplete frame that is completed by the next read.", "quantifier": "every finite sequence of well-formed frames, every split of their concatenation into read chunks that fit the receive buffer, every table of known messages", "why_tests_cant": "The number of ways to cut a stream into reads is exponential in its length; a test exercises a handful of cuts.", "anchors": ["src/endpoint.cpp: Endpoint::read_msg", "src/endpoint.cpp: Endpoint::handle_read"]}
{"id": "C02", "title": "No received byte stream can make the receive path access memory outside its buffer", "statement": "For any bytes from any peer, in any chunking, the receive path never reads or writes outside the fixed receive buffer, the buffered amount never exceeds its size, and every read issued to the kernel offers a non-empty (at least 841 byte) free region inside the buffer.", "quantifier": "every byte stream, every chunking, every history of read events including failed checksums, read errors and end-of-file", "why_tests_cant": "Memory safety is a claim about all inputs; a fuzzer only samples them.", "anchors": ["src/endpoint.cpp: Endpoint::read_msg", "src/endpoint.cpp: Endpoint::_check_crc", "src/endpoint.cpp: RX_BUF_MAX_SIZE"]}
{"id": "C03", "title": "A known message with a wrong checksum has no effect on other endpoints", "statement": "A frame with a known message id whose checksum does not match is never handed to the router: it is not forwarded to any endpoint, does not add its source to the list of connected systems and does not enter the de-duplication memory; it is only counted as a CRC error.", "quantifier": "every receive-buffer content, every message table, every router state", "why_tests_cant": "All corruptions of all frames in all states cannot be enumerated.", "anchors": ["src/endpoint.cpp: Endpoint::read_msg", "src/endpoint.cpp: Endpoint::_check_crc", "src/endpoint.cpp: Endpoint::handle_read"]}
{"id": "C04", "title": "A single corrupted byte in a known message is always detected", "statement": "If exactly one byte after the start marker and before the checksum of a valid frame of a known message is altered without altering the frame's length or message id, or a checksum byte is altered, the frame is rejected.", "quantifier": "every valid frame, every byte position in the checksummed region, every replacement value", "why_tests_cant": "256 x length x all frames possibilities; the claim is an algebraic fact on the checksum step.", "anchors": ["src/endpoint.cpp: Endpoint::_check_crc"]}
{"id": "C05", "title": "Unknown message ids are forwarded unchanged as broadcast", "statement": "A complete frame whose message id is not in the message table is handed to the router with its bytes unchanged, no checksum check, and no target (treated as broadcast).", "quantifier": "every frame with an id absent from the table, every table", "why_tests_cant": "Unbounded set of ids, payloads and tables.", "anchors": ["src/endpoint.cpp: Endpoint::read_msg", "src/endpoint.cpp: Endpoint::accept_msg"]}
{"id": "C06", "title": "Noise between frames does not lose frames", "statement": "Bytes that are not start markers, inserted before, between or after frames, are skipped and every well-formed frame around them is still delivered exactly once and in order, for any chunking.", "quantifier": "every sequence of frames and marker-free noise, every chunking that fits the buffer", "why_tests_cant": "Interaction of noise position, chunk boundary and buffer contents is unbounded.", "anchors": ["src/endpoint.cpp: Endpoint::read_msg"]}
{"id": "C07", "title": "A frame that fails its checksum does not swallow or delay the frames behind it", "statement": "Complete valid frames received in the same read behind a frame with a bad checksum are delivered without waiting for the peer to send more data, and are never lost.", "quantifier": "every buffer content made of valid frames and length-consistent frames with bad checksum", "why_tests_cant": "Depends on every position of the bad frame in a read and on what arrives later.", "anchors": ["src/endpoint.cpp: Endpoint::read_msg", "src/endpoint.cpp: Endpoint::handle_read", "src/mainloop.cpp: Mainloop::loop"]}
{"id": "C08", "title": "Reported totals are consistent", "statement": "For every endpoint the reported total of received messages equals handled + checksum errors + sequence losses (in the counters' modular arithmetic), and the handled byte count is the sum of the lengths of the frames handed to the router.", "quantifier": "every history of received bytes", "why_tests_cant": "Counter consistency must hold after every history.", "anchors": ["src/endpoint.cpp: Endpoint::read_msg", "src/endpoint.cpp: Endpoint::print_statistics", "src/logendpoint.cpp: LogEndpoint::_send_msg"]}
{"id": "C09", "title": "Sequence loss counter counts the missing sequence numbers", "statement": "When consecutive frames of one endpoint carry sequence numbers a then b, the reported 'sequence lost' counter grows by the number of sequence numbers strictly between them, modulo 256.", "quantifier": "every pair of 8-bit sequence numbers, every prior counter state", "why_tests_cant": "Tests typically use increasing numbers without wrap-around; the claim is about all pairs and histories.", "anchors": ["src/endpoint.cpp: Endpoint::read_msg"]}
{"id": "C10", "title": "Target address extraction honours MAVLink 2 zero trimming", "statement": "For a known message with target fields, the routing target is the payload byte at the field's offset, or 0 (broadcast) when the field was trimmed from the payload; without target fields the target is absent.", "quantifier": "every known message definition, every payload length and content", "why_tests_cant": "All message definitions x all trimmed lengths.", "anchors": ["src/endpoint.cpp: Endpoint::read_msg"]}
{"id": "C11", "title": "A message is never sent back to the endpoint it came from", "statement": "A message received on an endpoint is never written to that endpoint nor to any endpoint of its group, whatever the message, filters, sniffer setting, or history.", "quantifier": "every router state, every receiving endpoint, every message, every group configuration", "why_tests_cant": "Loop freedom must hold in every reachable state, including ones with arbitrary learned systems.", "anchors": ["src/endpoint.cpp: Endpoint::handle_read", "src/endpoint.cpp: Endpoint::_add_sys_comp_id", "src/endpoint.cpp: Endpoint::accept_msg", "src/mainloop.cpp: Mainloop::route_msg"]}
{"id": "C12", "title": "A message is delivered to exactly the endpoints the routing rules name", "statement": "A routed message is written to exactly those endpoints that have not seen its sender, whose outgoing filters pass it, and for which the message is broadcast, or its target (system and component, or system only for component broadcast) was seen there, or the sniffer system was seen there; each such endpoint gets it once, in endpoint order.", "quantifier": "every message, every set of endpoints with any learned systems and filters, every sniffer setting (a number above 255, which is no system id, acts as its remainder modulo 256)", "why_tests_cant": "The cross product of addresses, learned sets and filters is unbounded.", "anchors": ["src/endpoint.cpp: Endpoint::accept_msg", "src/endpoint.cpp: Endpoint::has_sys_id", "src/endpoint.cpp: Endpoint::has_sys_comp_id", "src/mainloop.cpp: Mainloop::route_msg"]}
{"id": "C13", "title": "Connected-system lists are exactly the learned history", "statement": "At any time a (system, component) address is in an endpoint's list of connected systems iff a message from that address that passed de-duplication and the incoming filters was received on that endpoint or on an endpoint of its group during its lifetime (log endpoints: plus their own fixed address); entries are never forgotten and never duplicated.", "quantifier": "every history of received messages on every set of endpoints and groups", "why_tests_cant": "It is an invariant over unbounded histories.", "anchors": ["src/endpoint.cpp: Endpoint::_add_sys_comp_id", "src/endpoint.cpp: Endpoint::handle_read", "src/logendpoint.cpp: LogEndpoint::LogEndpoint"]}
{"id": "C14", "title": "Grouped endpoints share one list of connected systems", "statement": "Endpoints configured with the same non-empty group name have the same list of connected systems after every history; endpoints with no or different group names do not influence each other's lists.", "quantifier": "every configuration of groups, every history of messages", "why_tests_cant": "Propagation over arbitrary groups and histories.", "anchors": ["src/endpoint.cpp: Endpoint::link_group_member", "src/endpoint.cpp: Endpoint::_add_sys_comp_id", "src/mainloop.cpp: Mainloop::add_endpoints"]}
{"id": "C15", "title": "Learning a system terminates for every group graph", "statement": "Adding a newly seen address to an endpoint and its group members always terminates, with each member updated at most once, whatever the link structure.", "quantifier": "every finite set of endpoints, every link graph between them (cycles included)", "why_tests_cant": "Termination of a mutually recursive propagation cannot be observed by finite runs.", "anchors": ["src/endpoint.cpp: Endpoint::_add_sys_comp_id"]}
{"id": "C16", "title": "Outgoing filters decide exactly as documented", "statement": "A message passes the outgoing filters of an endpoint iff for each of message id, source component and source system: the allow-list is empty or contains it, and the block-list does not contain it. Filters never cause delivery of a message that routing would reject.", "quantifier": "every filter configuration, every message", "why_tests_cant": "Six independent lists of arbitrary content.", "anchors": ["src/endpoint.cpp: Endpoint::accept_msg", "README.md: Message filters"]}
{"id": "C17", "title": "Messages dropped by incoming filters leave no routing trace", "statement": "A message that does not pass the incoming filters of the endpoint it arrives on (allow empty or contains / block does not contain, per identifier) is not forwarded and does not add its source to any list of connected systems.", "quantifier": "every filter configuration, every message, every state", "why_tests_cant": "Unbounded configurations and states.", "anchors": ["src/endpoint.cpp: Endpoint::allowed_by_incoming_filters", "src/endpoint.cpp: Endpoint::handle_read"]}
{"id": "C18", "title": "A sniffer receives everything", "statement": "With a sniffer system id configured (1..255), every routed message not originating from an address seen on the endpoint is written to each endpoint on which that system id was seen, subject only to the outgoing filters of that endpoint; without it the sniffer rule never applies.", "quantifier": "every message, state and sniffer id", "why_tests_cant": "All targets and states.", "anchors": ["src/endpoint.cpp: Endpoint::accept_msg", "src/endpoint.cpp: Endpoint::_add_sys_comp_id", "src/mainloop.cpp: Mainloop::add_endpoints"]}
{"id": "C19", "title": "Undeliverable messages are counted", "statement": "The 'messages to unknown endpoints' counter grows by one exactly for routed messages that no endpoint could take (every endpoint rejected it), in particular when the only matching endpoint is a disconnected TCP client.", "quantifier": "every message and router state", "why_tests_cant": "All states including disconnected endpoints.", "anchors": ["src/mainloop.cpp: Mainloop::route_msg", "src/endpoint.cpp: TcpEndpoint::accept_msg"]}
{"id": "C20", "title": "Delivered bytes are identical to received bytes", "statement": "Every endpoint that accepts a message is handed exactly the bytes that were received, independent of which other endpoints (including log endpoints) also took it and of the endpoint order.", "quantifier": "every message, every endpoint list and order, every log state", "why_tests_cant": "Requires every combination of recipients and log-endpoint internal states.", "anchors": ["src/mainloop.cpp: Mainloop::route_msg", "src/ulog.cpp: ULog::write_msg", "src/ulog.cpp: ULog::_logging_data_process"]}
{"id": "C21", "title": "Router-generated log commands cannot cause further generated messages", "statement": "Messages generated by log endpoints (start/stop/ack commands) are never delivered to a log endpoint, so generation never recurses, whatever is received.", "quantifier": "every message, every router state with any log endpoints", "why_tests_cant": "Recursion depth bound over all inputs.", "anchors": ["src/logendpoint.cpp: LogEndpoint::_send_msg", "src/logendpoint.cpp: LogEndpoint::LogEndpoint", "src/mainloop.cpp: Mainloop::route_msg"]}
{"id": "C22", "title": "De-duplication drops exactly recent repeats", "statement": "With de-duplication period P > 0 and a clock that does not go backwards or exceed 32 bits of milliseconds, a message is dropped iff a message with the same content hash was accepted at most P ms earlier; with P = 0 nothing is dropped.", "quantifier": "every sequence of (time, packet) arrivals with non-decreasing times, every hash function, every P", "why_tests_cant": "History-dependent behaviour over unbounded timed sequences.", "anchors": ["src/dedup.cpp: DedupImpl::check_packet", "src/dedup.cpp: Dedup::check_packet", "src/mainloop.cpp: Mainloop::dedup_check_msg"]}
{"id": "C23", "title": "A repeat resets the de-duplication timer", "statement": "As documented, a dropped repeat restarts the period for that message: a message is dropped iff a copy (dropped or not) was received at most P ms earlier.", "quantifier": "every timed sequence of arrivals", "why_tests_cant": "History-dependent.", "anchors": ["src/dedup.cpp: DedupImpl::check_packet", "README.md: Message de-duplication"]}
{"id": "C24", "title": "De-duplication memory is consistent and bounded by recent traffic", "statement": "For any clock readings (including wrap-around and jumps) the de-duplication memory never holds two entries for one hash, every remembered entry can be expired without undefined behaviour, and with a sane clock it holds only entries accepted at most P ms ago.", "quantifier": "every sequence of packets with arbitrary clock readings", "why_tests_cant": "Container-invariant over unbounded histories, including clock wrap after 49 days.", "anchors": ["src/dedup.cpp: DedupImpl::check_packet"]}
{"id": "C25", "title": "De-duplication keeps working after the millisecond counter wraps", "statement": "After the router has been running for more than 2^32 ms (or the wall clock jumps), messages repeated later than P ms after their acceptance are still accepted.", "quantifier": "every clock value", "why_tests_cant": "Requires 49 days of uptime or clock jumps.", "anchors": ["src/dedup.cpp: DedupImpl::check_packet"]}
{"id": "C26", "title": "UDP server endpoint talks to the last sender only", "statement": "A UDP endpoint in server mode sends nothing until something was received, and afterwards sends every message to the address of the most recent datagram.", "quantifier": "every interleaving of received datagrams, timer expirations and writes (a datagram with source port 0 names no address one can send to; nothing is sent then)", "why_tests_cant": "Unbounded interleavings.", "anchors": ["src/endpoint.cpp: UdpEndpoint::open_ipv4", "src/endpoint.cpp: UdpEndpoint::open_ipv6", "src/endpoint.cpp: UdpEndpoint::_read_msg", "src/endpoint.cpp: UdpEndpoint::write_msg"]}
{"id": "C27", "title": "UDP client endpoint falls back to its configured address after 5 s of silence", "statement": "A UDP endpoint in client mode sends to its configured address until something is received, then to the last sender, and returns to the configured address once 5 s passed without reception; only reception within the last 5 s can make it use another address.", "quantifier": "every timed interleaving of datagrams, timer expirations and writes, every configured port from 1 to 65535", "why_tests_cant": "Timing and history dependent.", "anchors": ["src/endpoint.cpp: UdpEndpoint::_nomessage_timeout_cb", "src/endpoint.cpp: UdpEndpoint::_read_msg", "src/endpoint.cpp: UdpEndpoint::write_msg", "src/mainloop.cpp: Mainloop::mod_timeout"]}
{"id": "C28", "title": "TCP client endpoint always has exactly one pending reconnect while disconnected", "statement": "A configured TCP endpoint with RetryTimeout > 0 is, in every reachable state, either connected and polled with no reconnect pending, or disconnected with exactly one reconnect timer pending; it is never removed from routing. With RetryTimeout <= 0 no reconnect is ever attempted.", "quantifier": "every history of connects, end-of-file, write errors, timer expirations", "why_tests_cant": "Invariant over unbounded histories and interleavings inside one poll batch.", "anchors": ["src/endpoint.cpp: TcpEndpoint::setup", "src/endpoint.cpp: TcpEndpoint::_schedule_reconnect", "src/endpoint.cpp: TcpEndpoint::_retry_timeout_cb", "src/endpoint.cpp: TcpEndpoint::_read_msg", "src/endpoint.cpp: TcpEndpoint::write_msg"]}
{"id": "C29", "title": "A TCP server client that hung up is removed, and only such clients", "statement": "After a poll batch in which a connection without reconnect reported end-of-file or a broken pipe, that endpoint is no longer offered messages nor polled and its descriptor is closed; all other endpoints, in unchanged order, remain.", "quantifier": "every batch of poll events, every endpoint list", "why_tests_cant": "Any combination of hang-ups within a batch.", "anchors": ["src/mainloop.cpp: Mainloop::process_tcp_hangups", "src/mainloop.cpp: Mainloop::loop", "src/mainloop.cpp: Mainloop::route_msg", "src/endpoint.cpp: TcpEndpoint::close"]}
{"id": "C30", "title": "UART baud rate search keeps the first rate that works", "statement": "With several baud rates configured, the rate advances cyclically through the configured list each time 5 s pass without a known valid message, every configured rate is eventually tried, and once a known valid message is received the rate never changes again.", "quantifier": "every list of rates, every history of timer ticks and received messages", "why_tests_cant": "Unbounded histories.", "anchors": ["src/endpoint.cpp: UartEndpoint::_change_baud_cb", "src/endpoint.cpp: UartEndpoint::read_msg", "src/endpoint.cpp: UartEndpoint::add_speeds"]}
{"id": "C31", "title": "A message is written at most once per endpoint, and a short write never delays or duplicates data", "statement": "For each routed message and accepting endpoint at most one write of the whole message is issued; if the kernel takes only part of it or would block, the rest is dropped and nothing is ever re-sent, and the transmit counters account for it.", "quantifier": "every write result sequence (full, short, would-block, error)", "why_tests_cant": "All error interleavings.", "anchors": ["src/endpoint.cpp: UartEndpoint::write_msg", "src/endpoint.cpp: UdpEndpoint::write_msg", "src/endpoint.cpp: TcpEndpoint::write_msg", "src/mainloop.cpp: Mainloop::write_msg", "src/endpoint.cpp: Endpoint::handle_canwrite"]}
{"id": "C32", "title": "Poll events never reach a destroyed endpoint or timer", "statement": "While the events of one poll batch are processed no endpoint or timer that a later event of the same batch refers to is destroyed; destruction only happens after the batch and takes the object out of the poll set.", "quantifier": "every batch of events, every set of endpoints and timers, every handler outcome", "why_tests_cant": "Use-after-free freedom over all interleavings.", "anchors": ["src/mainloop.cpp: Mainloop::loop", "src/mainloop.cpp: Mainloop::process_tcp_hangups", "src/mainloop.cpp: Mainloop::_del_timeouts", "src/mainloop.cpp: Mainloop::del_timeout"]}
{"id": "C33", "title": "Timer list maintenance removes exactly the cancelled timers", "statement": "After each loop iteration exactly the timers that were cancelled (or whose callback asked to stop) are gone and all others remain, in order, whatever their positions in the list.", "quantifier": "every list of timers and every subset of cancelled ones", "why_tests_cant": "All list shapes, including runs of cancelled timers at the head.", "anchors": ["src/mainloop.cpp: Mainloop::_del_timeouts", "src/mainloop.cpp: Mainloop::add_timeout", "src/mainloop.cpp: Mainloop::del_timeout"]}
{"id": "C34", "title": "A cancelled timer's callback never runs again", "statement": "Once a timer was cancelled its callback is never invoked, even if its expiry is already in the current poll batch.", "quantifier": "every interleaving of cancellation and expiry", "why_tests_cant": "Race between events of a batch.", "anchors": ["src/timeout.cpp: Timeout::handle_read", "src/mainloop.cpp: Mainloop::del_timeout"]}
{"id": "C35", "title": "Timer programming is exact", "statement": "A timeout of n milliseconds is programmed as exactly n ms both as first expiry and as period, with a valid nanosecond field; 0 disarms it.", "quantifier": "every 32-bit millisecond value", "why_tests_cant": "2^32 values.", "anchors": ["src/mainloop.cpp: Mainloop::mod_timeout"]}
{"id": "C36", "title": "A new log file never overwrites an existing file and gets a larger number than all existing logs", "statement": "Creating a log file never opens or truncates a file that already exists; without concurrent creators the new file's number is strictly larger than the number of every existing log in the directory (up to 2^32-2).", "quantifier": "every directory content, every order of directory entries", "why_tests_cant": "All directory listings.", "anchors": ["src/logendpoint.cpp: LogEndpoint::_get_prefix", "src/logendpoint.cpp: LogEndpoint::_get_file"]}
{"id": "C37", "title": "Generated log file names are recognised by the clean-up", "statement": "Every log file name the router generates is matched by the pattern the automatic deletion uses, and yields the same index back.", "quantifier": "every index, date and extension", "why_tests_cant": "2^32 indices x all dates.", "anchors": ["src/logendpoint.cpp: LogEndpoint::_get_file", "src/logendpoint.cpp: LogEndpoint::_delete_old_logs"]}
{"id": "C38", "title": "Automatic log deletion only ever removes finished logs", "statement": "Automatic deletion never removes a file that is still writable by the owner (log in progress), a directory, or a file whose name does not match the log name pattern.", "quantifier": "every directory content, every configuration, every free-space reading", "why_tests_cant": "All directory contents and configurations.", "anchors": ["src/logendpoint.cpp: LogEndpoint::_delete_old_logs"]}
{"id": "C39", "title": "Automatic log deletion is oldest-first and minimal", "statement": "Logs are removed in increasing index order and removal stops as soon as both the free-space and file-count limits are satisfied: no log is removed while the limits were already met, and none is kept while an older-or-equal need remains and a newer one is removed.", "quantifier": "every directory content, limits and free-space reading, every pattern of failing removals", "why_tests_cant": "All directories and limit combinations, including measurement failures.", "anchors": ["src/logendpoint.cpp: LogEndpoint::_delete_old_logs"]}
{"id": "C40", "title": "Log quotas are reached", "statement": "After automatic deletion, if removals succeed, either all finished logs are gone or at most MaxLogFiles finished logs remain (when set) and at least MinFreeSpace bytes are free (when set, counting freed file sizes).", "quantifier": "every directory content and configuration", "why_tests_cant": "All directories and limits.", "anchors": ["src/logendpoint.cpp: LogEndpoint::_delete_old_logs"]}
{"id": "C41", "title": "After a crash unfinished logs are marked finished at next start", "statement": "If the router stopped at any point leaving writable log files, the next start with the same log directory marks every one of them read-only before a new log is opened, and touches no other files.", "quantifier": "every crash point, every directory content", "why_tests_cant": "Crash points and directory contents are unbounded.", "anchors": ["src/logendpoint.cpp: LogEndpoint::mark_unfinished_logs", "src/mainloop.cpp: Mainloop::add_endpoints", "src/logendpoint.cpp: LogEndpoint::stop"]}
{"id": "C42", "title": "While-armed mode logs exactly while armed", "statement": "In while-armed mode a log file is open iff the last heartbeat of the logged autopilot said armed; no log file is ever created while it is disarmed.", "quantifier": "every history of messages from all systems", "why_tests_cant": "History-dependent, with interference from other message types.", "anchors": ["src/logendpoint.cpp: LogEndpoint::_handle_auto_start_stop", "src/ulog.cpp: ULog::write_msg", "src/binlog.cpp: BinLog::_restart"]}
{"id": "C43", "title": "Telemetry log records are decodable to the exact messages taken", "statement": "The telemetry log file is the concatenation, in order, of an 8-byte big-endian microsecond timestamp and the unmodified frame for each message the telemetry log accepted while open; a reader recovers exactly those (timestamp, frame) pairs.", "quantifier": "every sequence of messages and timestamps", "why_tests_cant": "Round trip over unbounded sequences.", "anchors": ["src/tlog.cpp: TLog::write_msg"]}
{"id": "C44", "title": "The telemetry log contains all routed traffic", "statement": "With telemetry logging enabled and the log open, every message routed between endpoints is recorded.", "quantifier": "every routed message", "why_tests_cant": "All messages and states.", "anchors": ["src/tlog.cpp: TLog::write_msg", "src/endpoint.cpp: Endpoint::accept_msg", "src/logendpoint.cpp: LogEndpoint::LogEndpoint"]}
{"id": "C45", "title": "ArduPilot log blocks land at their place regardless of order, loss or repetition", "statement": "The .bin file content after any sequence of received blocks is determined by the last data received for each block number: block k occupies bytes [200k, 200k+200), independent of arrival order of different blocks.", "quantifier": "every sequence of blocks with block numbers below 2^32/200", "why_tests_cant": "All permutations and repetitions of unbounded sequences.", "anchors": ["src/binlog.cpp: BinLog::_logging_data_process"]}
{"id": "C46", "title": "An ArduPilot log block is acknowledged iff it was completely written", "statement": "For every received block exactly one acknowledgement for its number is sent if its 200 bytes were written, and none otherwise.", "quantifier": "every sequence of blocks and write results", "why_tests_cant": "All error interleavings.", "anchors": ["src/binlog.cpp: BinLog::_send_ack", "src/binlog.cpp: BinLog::_logging_data_process"]}
{"id": "C47", "title": "Missing ArduPilot log blocks are requested again", "statement": "When a block arrives beyond the highest acknowledged number + 1, a negative acknowledgement is sent for exactly the skipped block numbers.", "quantifier": "every pair of last acknowledged and received numbers", "why_tests_cant": "All gaps.", "anchors": ["src/binlog.cpp: BinLog::_send_ack"]}
{"id": "C48", "title": "ULog sequence tracking accepts each in-order packet once", "statement": "A ULog data packet is processed iff its 16-bit sequence number is ahead of the last processed one by less than half the number space; retransmissions of already processed packets are never written twice.", "quantifier": "every expected/received sequence pair and every history", "why_tests_cant": "2^32 pairs and unbounded histories with wrap-around.", "anchors": ["src/ulog.cpp: ULog::_logging_seq"]}
{"id": "C49", "title": "A ULog file is always a header followed by whole messages", "statement": "Whatever data packets, losses, retransmissions and short or blocked file writes occur, the bytes written to a .ulg file followed by the pending remainder are always the 16-byte header followed by complete length-prefixed ULog messages (unless a write error or oversized remainder was logged).", "quantifier": "every sequence of data packets and write results", "why_tests_cant": "Invariant over unbounded histories with partial writes.", "anchors": ["src/ulog.cpp: ULog::_logging_data_process", "src/ulog.cpp: ULog::_logging_flush"]}
{"id": "C50", "title": "A loss-free ULog stream is stored verbatim", "statement": "If the autopilot's ULog stream arrives without loss (retransmissions allowed), the file content is exactly the stream up to its last complete message.", "quantifier": "every ULog stream made of messages that fit the buffer, every packetisation, every write result pattern without errors", "why_tests_cant": "All packetisations.", "anchors": ["src/ulog.cpp: ULog::_logging_data_process", "src/ulog.cpp: ULog::_logging_flush"]}
{"id": "C51", "title": "No ULog data packet can corrupt memory", "statement": "Processing any received ULog data packet reads and writes only inside the packet's own data and the log endpoint's buffers.", "quantifier": "every packet content and every endpoint state", "why_tests_cant": "All packet contents.", "anchors": ["src/ulog.cpp: ULog::_logging_data_process", "src/ulog.cpp: ULog::write_msg"]}
{"id": "C52", "title": "Processing a ULog data packet always terminates", "statement": "For any received packet and any file-write results that eventually make progress, processing returns.", "quantifier": "every packet content and endpoint state", "why_tests_cant": "Termination over all inputs.", "anchors": ["src/ulog.cpp: ULog::_logging_flush", "src/ulog.cpp: ULog::stop"]}
{"id": "C53", "title": "Automatic flight-stack detection picks the logger once and correctly", "statement": "In auto mode logging is delegated to the PX4 logger iff the first decisive heartbeat of the selected system says PX4, to the ArduPilot logger iff it says ArduPilot, and the choice never changes.", "quantifier": "every history of messages", "why_tests_cant": "Unbounded histories.", "anchors": ["src/autolog.cpp: AutoLog::write_msg"]}
{"id": "C54", "title": "Later configuration overrides earlier, key by key, ignoring case", "statement": "After parsing several files the effective value of (section, key), compared case-insensitively, is the one from the last line that set it; all other keys keep their values.", "quantifier": "every sequence of configuration files", "why_tests_cant": "Unbounded file contents.", "anchors": ["src/common/conf_file.cpp: ConfFile::parse", "src/common/conf_file.cpp: ConfFile::_parse_file", "src/common/conf_file.cpp: ConfFile::_add_section", "src/common/conf_file.cpp: ConfFile::_add_config", "src/common/conf_file.cpp: ConfFile::_find_config"]}
{"id": "C55", "title": "Every line of a configuration file counts", "statement": "Each non-blank, non-comment line of a configuration file is either applied or reported as an error, including the last line whether or not it ends with a newline.", "quantifier": "every file content", "why_tests_cant": "All contents.", "anchors": ["src/common/conf_file.cpp: ConfFile::_parse_file"]}
{"id": "C56", "title": "Whitespace and comments do not change the configuration", "statement": "Surrounding whitespace of lines, keys and values, blank lines and comment lines do not affect the resulting configuration, and stored keys and values are never empty (so option parsers never abort).", "quantifier": "every file content", "why_tests_cant": "All contents.", "anchors": ["src/common/conf_file.cpp: ConfFile::_trim", "src/common/conf_file.cpp: ConfFile::_parse_file", "src/common/conf_file.cpp: ConfFile::_add_config"]}
{"id": "C57", "title": "No section name can overflow the section iterator", "statement": "Iterating sections by pattern is memory safe for every accepted section name.", "quantifier": "every accepted section name", "why_tests_cant": "All names up to the maximal length.", "anchors": ["src/common/conf_file.cpp: ConfFile::get_sections", "src/common/conf_file.cpp: ConfFile::_add_section"]}
{"id": "C58", "title": "Each endpoint section creates exactly one endpoint with its name", "statement": "Iterating a section pattern visits every section whose name starts (case-insensitively) with the endpoint type followed by a space, exactly once, and yields the rest of the name as endpoint name.", "quantifier": "every parsed configuration", "why_tests_cant": "All configurations.", "anchors": ["src/common/conf_file.cpp: ConfFile::get_sections", "src/main.cpp: parse_confs"]}
{"id": "C59", "title": "Numeric options are parsed exactly or rejected", "statement": "A decimal number that fits the option's type is stored exactly; text that is not entirely a number, or does not fit, is rejected and leaves the option unchanged.", "quantifier": "every string", "why_tests_cant": "All strings.", "anchors": ["src/common/util.cpp: safe_atoul", "src/common/util.cpp: safe_atoi", "src/common/conf_file.cpp: DEFINE_PARSE_INT", "src/common/conf_file.cpp: ConfFile::parse_bool"]}
{"id": "C60", "title": "Filter lists are parsed exactly", "statement": "A comma separated list of decimal numbers is parsed to exactly that list of numbers, and a value outside the range of the identifier is not silently turned into another identifier.", "quantifier": "every list of numbers", "why_tests_cant": "Unbounded lists.", "anchors": ["src/common/conf_file.cpp: ConfFile::parse_uint8_vector", "src/common/conf_file.cpp: ConfFile::parse_uint32_vector"]}
{"id": "C61", "title": "Automatically chosen UDP ports do not collide", "statement": "UDP client endpoints configured without a port get the first port from 14550 upward that no earlier configured UDP endpoint with the same address uses.", "quantifier": "every list of previously configured endpoints", "why_tests_cant": "All configurations.", "anchors": ["src/main.cpp: find_next_udp_port", "src/main.cpp: parse_confs", "src/main.cpp: parse_argv"]}
{"id": "C62", "title": "Accepted addresses have the shape the socket code relies on", "statement": "Every address accepted by endpoint validation is either dotted-quad digits without brackets or a bracketed IPv6 text; in particular bracket stripping of an accepted IPv6 address yields the text between the brackets and never under- or overruns.", "quantifier": "every string", "why_tests_cant": "All strings.", "anchors": ["src/endpoint.cpp: validate_ip", "src/endpoint.cpp: validate_ipv4", "src/endpoint.cpp: validate_ipv6", "src/endpoint.cpp: ip_str_is_ipv6", "src/endpoint.cpp: TcpEndpoint::open_ipv6"]}
{"id": "C63", "title": "Validated endpoint configurations are usable", "statement": "An accepted UDP or TCP endpoint configuration has a port in 1..65535.", "quantifier": "every configuration", "why_tests_cant": "All 64-bit port values.", "anchors": ["src/endpoint.cpp: UdpEndpoint::validate_config", "src/endpoint.cpp: TcpEndpoint::validate_config"]}
{"id": "C64", "title": "Any number of files in the configuration directory is handled safely", "statement": "Reading the configuration directory never writes outside its file table, considers files in byte-wise alphabetical order and, up to the supported maximum, all of them.", "quantifier": "every directory content", "why_tests_cant": "All directory sizes.", "anchors": ["src/main.cpp: parse_conf_files"]}
{"id": "C65", "title": "Creating the log directory creates all missing components", "statement": "When the log directory does not exist, directory creation creates every missing component in order and succeeds if each creation succeeds, for every relative or absolute path with any number of separators.", "quantifier": "every path string and every state of the file system", "why_tests_cant": "All path shapes.", "anchors": ["src/common/util.cpp: mkdir_p"]}
{"id": "C66", "title": "Command line address splitting", "statement": "An argument of the form base:number is split at the last colon into base and number; without colon the number is reported as absent; a non-numeric suffix is an error.", "quantifier": "every argument string", "why_tests_cant": "All strings, including IPv6 text with many colons.", "anchors": ["src/main.cpp: split_on_last_colon"]}
{"id": "C67", "title": "Automatic mode logs the system whose heartbeat selected the logger", "statement": "In auto mode, the logger that is chosen logs the system whose heartbeat decided the choice.", "quantifier": "every history of messages from any number of systems", "why_tests_cant": "Depends on the interleaving of messages of several vehicles.", "anchors": ["src/autolog.cpp: AutoLog::write_msg", "src/logendpoint.cpp: LogEndpoint::write_msg"]}
{"id": "C68", "title": "Log data are taken only from the logged system", "statement": "While the log of one system is being written, messages sent by other systems never change the log file and are never acknowledged as log data.", "quantifier": "every log state and every message of another system", "why_tests_cant": "All interleavings of several vehicles.", "anchors": ["src/binlog.cpp: BinLog::write_msg", "src/ulog.cpp: ULog::write_msg"]}
{"id": "C69", "title": "The options of an endpoint section are exactly the endpoint's configuration", "statement": "When reading succeeds, every endpoint belongs to a section of its type and name, and each of its options (mode, address, port, device, baud rates, flow control, filters, group, retry timeout) has the value of the last assignment to it in that section over all files (lists and numbers in decimal notation within range), or its documented default; options of other sections have no influence, and the mandatory options were given.", "quantifier": "every set of configuration files", "why_tests_cant": "All combinations of options, sections, repetition and files.", "anchors": ["src/main.cpp: parse_confs", "src/common/conf_file.cpp: ConfFile::extract_options", "src/endpoint.cpp: option_table"]}
{"id": "C70", "title": "Short and long forms of documented command line options behave the same", "statement": "For every documented option, giving its short form and its long form with the same argument has the same effect, for every position in the command line.", "quantifier": "every command line and every documented option", "why_tests_cant": "All command lines; a wrong option string consumes an unrelated argument.", "anchors": ["src/main.cpp: short_options", "src/main.cpp: long_options", "src/main.cpp: help"]}
{"id": "C71", "title": "An accepted IPv4 address is the address used", "statement": "If an endpoint with a dotted-quad address is accepted, the socket address has exactly the four numbers written.", "quantifier": "every address text", "why_tests_cant": "All texts.", "anchors": ["src/endpoint.cpp: validate_ipv4", "src/endpoint.cpp: UdpEndpoint::open_ipv4", "src/endpoint.cpp: TcpEndpoint::open_ipv4"]}
{"id": "C72", "title": "An accepted IPv6 address is a valid address and is the one used", "statement": "If an endpoint with a bracketed address is accepted, the text between the brackets is an IPv6 address and the socket uses it.", "quantifier": "every address text", "why_tests_cant": "All texts.", "anchors": ["src/endpoint.cpp: validate_ipv6", "src/endpoint.cpp: UdpEndpoint::open_ipv6", "src/endpoint.cpp: TcpEndpoint::open_ipv6"]}
{"id": "C73", "title": "The command line overrides settings and adds endpoints", "statement": "On top of any configuration read from files, an accepted command line adds exactly one endpoint for each -e, each -p and each positional argument, keeps all configured endpoints, gives each setting it mentions the value of the last mention, and leaves all other settings unchanged.", "quantifier": "every configuration and every command line", "why_tests_cant": "All orders and repetitions of arguments.", "anchors": ["src/main.cpp: parse_argv"]}
{"id": "C74", "title": "The sniffer is exactly the configured system", "statement": "If a sniffer system id is given, either it is rejected or exactly the endpoints behind which a component of this system was seen receive all messages.", "quantifier": "every given number and every set of known components", "why_tests_cant": "All numbers; truncation makes another system the sniffer.", "anchors": ["src/main.cpp: parse_argv", "src/main.cpp: parse_confs", "src/mainloop.cpp: Mainloop::route_msg", "src/endpoint.cpp: Endpoint::accept_msg"]}
{"id": "C75", "title": "A positional serial device has the baud rate written behind it", "statement": "A positional argument device:baud of a character device adds one serial endpoint with this device and exactly the baud rate written, or is rejected.", "quantifier": "every device name and every text behind the colon", "why_tests_cant": "All texts.", "anchors": ["src/main.cpp: parse_argv", "src/main.cpp: split_on_last_colon"]}
{"id": "C76", "title": "Start requests go out exactly while a log waits for its stream", "statement": "At every tick of the start timer the log endpoint either sends exactly one start request or does nothing. A request implies that a log file is open and that since it was opened the autopilot has not begun the stream (ArduPilot: block 0, PX4: accepted start command). Conversely, if a file is open and the autopilot has not begun the stream since or by the message that opened it, a request is sent.", "quantifier": "every history of messages, timer ticks and stops; both logger types", "why_tests_cant": "Depends on the whole history: restarts, rejected commands, streams that begin before the file is opened.", "anchors": ["src/logendpoint.cpp: LogEndpoint::start", "src/logendpoint.cpp: LogEndpoint::_remove_logging_start_timeout", "src/binlog.cpp: BinLog::_logging_start_timeout", "src/ulog.cpp: ULog::_logging_start_timeout"]}
{"id": "C77", "title": "A log is restarted exactly when its stream stalls", "statement": "At a liveness check the log is restarted (old file closed, autopilot told to stop, a new file opened if possible) if nothing of the log stream arrived since the previous check, and is left untouched if log data arrived since the previous check.", "quantifier": "every history; every period between checks with fewer than 2^32 events", "why_tests_cant": "Counters that wrap and restarts in the middle of a period cannot be enumerated.", "anchors": ["src/logendpoint.cpp: LogEndpoint::_alive_timeout", "src/binlog.cpp: BinLog::write_msg", "src/ulog.cpp: ULog::write_msg"]}
{"id": "C78", "title": "Every acknowledgeable PX4 log message is acknowledged once with its number", "statement": "The sequence of acknowledgements sent is exactly the sequence of numbers of the received LOGGING_DATA_ACKED messages, duplicates included, in order of arrival.", "quantifier": "every history of messages, timer ticks and stops", "why_tests_cant": "All message contents and MAVLink 2 payload trimming.", "anchors": ["src/ulog.cpp: ULog::write_msg"]}
{"id": "C79", "title": "Every ArduPilot log begins with block 0", "statement": "In every .bin file, closed or open, the first write is of block 0: blocks of an earlier stream that still arrive after the file was opened are not recorded, and as long as start requests are sent the file is empty.", "quantifier": "every history and every result of write other than EAGAIN, which regular files do not return", "why_tests_cant": "All interleavings of restarts with delayed blocks.", "anchors": ["src/binlog.cpp: BinLog::write_msg", "src/binlog.cpp: BinLog::_logging_start_timeout", "src/logendpoint.cpp: LogEndpoint::stop"]}
{"id": "C80", "title": "Log requests go exactly where the autopilot is", "statement": "Every message a log endpoint sends from a timer or at exit (start, stop, acknowledgement) is written unchanged, once, to exactly the endpoints the routing rule names for it: those that know the target and not 2/0, and whose outgoing filters admit it. While a log waits for its stream, every tick of the start timer writes the request to them.", "quantifier": "every reachable router state with the real log endpoints and every timer call", "why_tests_cant": "All routing tables, filters, groups and log histories.", "anchors": ["src/logendpoint.cpp: LogEndpoint::_send_msg", "src/mainloop.cpp: Mainloop::route_msg", "src/binlog.cpp: BinLog::_logging_start_timeout", "src/ulog.cpp: ULog::_logging_start_timeout"]}
{"id": "C81", "title": "Messages keep their order and are neither repeated nor invented", "statement": "For every endpoint that is no log endpoint, the sequence of writes to it that are not messages generated by log endpoints is obtained from the sequence of messages the router passed on, in order of arrival, by leaving some out: no message is repeated, reordered or invented, and the bytes are those received (except LOGGING_DATA and LOGGING_DATA_ACKED, see C20).", "quantifier": "every history of router events from every reachable state", "why_tests_cant": "All interleavings of reads on all endpoints.", "anchors": ["src/endpoint.cpp: Endpoint::handle_read", "src/mainloop.cpp: Mainloop::route_msg"]}
{"id": "C82", "title": "The reports of messages to unknown destinations add up", "statement": "At every tick of the aggregate timer the number of messages nobody took since the last report is reported if positive and starts again from 0; over any history, all reports together and the number not yet reported equal the number of messages, received or generated by log endpoints, that no endpoint took (modulo 2^32).", "quantifier": "every history of router events, every log endpoint", "why_tests_cant": "Sums over unbounded histories with nested routing.", "anchors": ["src/mainloop.cpp: Mainloop::route_msg", "src/mainloop.cpp: Mainloop::_log_aggregate_timeout"]}
{"id": "C83", "title": "De-duplication never suppresses every copy", "statement": "If copies of a packet arrive within the de-duplication period on several endpoints and the incoming filters of at least one of these endpoints admit it, one of the copies is routed.", "quantifier": "every history of arrivals, filters and clock readings", "why_tests_cant": "All orders of arrival over all combinations of filters.", "anchors": ["src/endpoint.cpp: Endpoint::handle_read", "src/dedup.cpp: DedupImpl::check_packet"]}
{"id": "C84", "title": "A blocked link is watched for writability exactly until it is writable", "statement": "At every moment the router asks to be woken when an endpoint becomes writable iff a write on its descriptor would have blocked and since then the descriptor has neither been reported writable nor been replaced: the wake-up is never forgotten and never repeated for ever.", "quantifier": "every history of writes with any results, notifications, reconnects and peer changes, for each link type", "why_tests_cant": "All interleavings; a busy loop or a lost wake-up shows only over time.", "anchors": ["src/mainloop.cpp: Mainloop::write_msg", "src/mainloop.cpp: Mainloop::loop", "src/endpoint.cpp: Endpoint::handle_canwrite"]}
{"id": "C85", "title": "Printed shares of checksum errors and lost messages are the true percentages", "statement": "In the statistics report, the percentage printed for checksum errors is the integer part of 100 times the number of checksum errors over the number of messages seen, the percentage printed for lost messages likewise, and both together are at most 100.", "quantifier": "every history of received bytes, however long", "why_tests_cant": "Wrong values appear only after tens of millions of messages.", "anchors": ["src/endpoint.cpp: Endpoint::print_statistics"]}
{"id": "C86", "title": "UDP datagrams of different senders do not disturb each other", "statement": "Every valid frame contained in a datagram is handed on, whatever was in the datagrams of other senders received before.", "quantifier": "every sequence of datagrams with any content and size", "why_tests_cant": "The failing sequences need particular cut-off datagrams or sizes from several senders.", "anchors": ["src/endpoint.cpp: Endpoint::read_msg", "src/endpoint.cpp: UdpEndpoint::_read_msg"]}
{"id": "C87", "title": "After a TCP reconnect the frames of the new connection are received from the first on", "statement": "When a TCP client endpoint has reconnected, every valid frame at the beginning of the new connection is received, whatever the old connection ended with.", "quantifier": "every reachable state of the router, every end of the old connection, every start of the new one", "why_tests_cant": "Depends on where in a frame the old connection broke off.", "anchors": ["src/endpoint.cpp: TcpEndpoint::close", "src/endpoint.cpp: TcpEndpoint::reopen", "src/endpoint.cpp: Endpoint::read_msg"]}
{"id": "C88", "title": "Every endpoint sends exactly the messages meant for it, in order of arrival", "statement": "From any moment on, an endpoint that is connected then and does not hang up afterwards is handed exactly the arrived messages that are meant for it by the routing rule applied to what had arrived before (sender's endpoint and group, source and destination ids seen on endpoints, filters, sniffer, de-duplication), byte for byte, each once, in order of arrival: nothing is lost in the router, nothing is invented.", "quantifier": "every history of received bytes on all endpoints, accepted clients and hang-ups, every split point", "why_tests_cant": "Equality of two unbounded streams over all histories.", "anchors": ["src/mainloop.cpp: Mainloop::route_msg", "src/mainloop.cpp: Mainloop::loop", "src/endpoint.cpp: Endpoint::accept_msg", "src/endpoint.cpp: Endpoint::handle_read"]}
{"id": "C89", "title": "Configuration comes from the files chosen by command line, environment and defaults, in this order", "statement": "The configuration file is the argument of the last -c, else MAVLINK_ROUTERD_CONF_FILE, else the default, and likewise the directory with -d and MAVLINK_ROUTERD_CONF_DIR; the router runs with the settings of that file and of the regular files of that directory in alphabetical order, and of no other file.", "quantifier": "every command line, environment and content of the file system", "why_tests_cant": "All combinations of options, variables and files.", "anchors": ["src/main.cpp: pre_parse_argv", "src/main.cpp: get_conf_file_name", "src/main.cpp: get_conf_dir", "src/main.cpp: main"]}
{"id": "C90", "title": "A configuration file that cannot be used stops the program", "statement": "If a configuration file named on the command line or found in the directory is missing, unreadable or has a syntax error, the program ends with a failure status instead of running with a part of the configuration.", "quantifier": "every command line, environment and content of the file system", "why_tests_cant": "All ways in which files can be wrong.", "anchors": ["src/main.cpp: parse_conf_files", "src/main.cpp: main", "src/common/conf_file.cpp: ConfFile::parse"]}
{"id": "C91", "title": "Help and version are information only", "statement": "With -h or -V on the command line the program prints and ends successfully, whatever the other options, the configuration files and the devices are.", "quantifier": "every command line with such an option, every environment", "why_tests_cant": "All combinations of other options and broken files.", "anchors": ["src/main.cpp: pre_parse_argv", "src/main.cpp: parse_argv", "src/main.cpp: main"]}
{"id": "C92", "title": "Every configured section and command line endpoint becomes one endpoint with its filters and group, and nothing else does", "statement": "A running router's UART, UDP and TCP endpoints are, type by type, one for each such section of the configuration files with the filters and group its last settings say, followed by the endpoints of the command line, which have no filter and no group; routing then follows those filters from the first message on.", "quantifier": "every command line and configuration for which the router runs", "why_tests_cant": "All configurations, end to end from the bytes of the files to the routing decision.", "anchors": ["src/main.cpp: parse_confs", "src/mainloop.cpp: Mainloop::add_endpoints", "src/endpoint.cpp: UartEndpoint::setup", "src/endpoint.cpp: UdpEndpoint::setup", "src/endpoint.cpp: TcpEndpoint::setup"]}
{"id": "C93", "title": "The router runs with everything it was configured for or not at all", "statement": "The router enters its main loop only if every configured UART and UDP endpoint could be opened and the TCP server listens on its port (unless the port is 0); otherwise the program ends with a failure status.", "quantifier": "every configuration and every pattern of failing system calls", "why_tests_cant": "Failing system calls in all combinations.", "anchors": ["src/mainloop.cpp: Mainloop::add_endpoints", "src/mainloop.cpp: Mainloop::_start_tcp_server", "src/main.cpp: main"]}
{"id": "C94", "title": "General settings have the value of the last file line that sets them unless the command line says otherwise", "statement": "TCP port, sniffer id, de-duplication period, statistics, log directory, log mode, dialect, free space, number of files, log system id and telemetry logging of the running router are the values of the last lines of the section General that set them, changed only by command line options, and their defaults if nothing sets them.", "quantifier": "every command line, environment and configuration for which the router runs", "why_tests_cant": "All values of all options in all files.", "anchors": ["src/main.cpp: parse_confs", "src/main.cpp: parse_argv", "src/mainloop.cpp: Mainloop::add_endpoints", "src/logendpoint.cpp: LogEndpoint::option_table"]}
{"id": "C95", "title": "A serial port passes every byte unchanged whatever its previous settings were", "statement": "After a UART endpoint has been set up, every byte value received from or written to the port passes unchanged, nothing is echoed or interpreted, a read never waits, the line has 8 data bits, no parity and one stop bit, and it runs at the configured rate, with hardware flow control exactly if configured - for all settings another program may have left on the port.", "quantifier": "all previous terminal settings, rates and flow control settings", "why_tests_cant": "2^128 flag combinations the port may have been left in.", "anchors": ["src/endpoint.cpp: UartEndpoint::open", "src/endpoint.cpp: reset_uart", "src/endpoint.cpp: UartEndpoint::set_speed", "src/endpoint.cpp: UartEndpoint::set_flow_control"]}
{"id": "C96", "title": "No descriptor is left open when opening a link fails", "statement": "Whatever system calls fail and however often connections are lost and tried again, the descriptors the process has open for links are exactly those its links use.", "quantifier": "all histories of links and all patterns of failing system calls", "why_tests_cant": "A leak shows only after thousands of failures; all combinations of failing calls.", "anchors": ["src/endpoint.cpp: UartEndpoint::open", "src/endpoint.cpp: UdpEndpoint::open", "src/endpoint.cpp: TcpEndpoint::open", "src/endpoint.cpp: TcpEndpoint::open_ipv6", "src/endpoint.cpp: TcpEndpoint::accept", "src/endpoint.cpp: TcpEndpoint::close", "src/mainloop.cpp: Mainloop::tcp_open", "src/pollable.cpp: Pollable::~Pollable"]}
{"id": "C97", "title": "The router never waits for a single link", "statement": "All descriptors of links are non-blocking before anything is read, written or connected on them, so that one unreachable peer cannot stop the traffic between the others.", "quantifier": "all histories of links and all patterns of failing system calls", "why_tests_cant": "Blocking depends on the network; all orders of links and failures.", "anchors": ["src/endpoint.cpp: UartEndpoint::open", "src/endpoint.cpp: UdpEndpoint::open", "src/endpoint.cpp: TcpEndpoint::open", "src/endpoint.cpp: TcpEndpoint::_retry_timeout_cb", "src/mainloop.cpp: Mainloop::tcp_open"]}
{"id": "C98", "title": "A UDP server configured with an IPv6 multicast group joins that group, and only then", "statement": "A UDP server endpoint joins a group and listens on all addresses exactly if its address is in ff00::/8.", "quantifier": "all IPv6 addresses and spellings", "why_tests_cant": "2^128 addresses, several spellings each.", "anchors": ["src/endpoint.cpp: ipv6_is_multicast", "src/endpoint.cpp: UdpEndpoint::open_ipv6"]}
{"id": "C99", "title": "A link-local IPv6 endpoint uses an interface", "statement": "For a link-local or unique local address the socket address names the interface that has this address or reaches it; other addresses name none.", "quantifier": "all IPv6 addresses, spellings and interface tables", "why_tests_cant": "All addresses and all interface tables.", "anchors": ["src/endpoint.cpp: ipv6_is_linklocal", "src/endpoint.cpp: ipv6_get_scope_id", "src/endpoint.cpp: UdpEndpoint::open_ipv6", "src/endpoint.cpp: TcpEndpoint::open_ipv6"]}
{"id": "C100", "title": "A termination signal ends the program at once", "statement": "After SIGTERM or SIGINT arrives at any moment while the router runs, the router finishes what it is doing and ends without waiting for further traffic.", "quantifier": "all moments at which a signal can arrive, all histories", "why_tests_cant": "The moments are between two instructions; a test cannot hit all of them.", "anchors": ["src/mainloop.cpp: Mainloop::loop", "src/mainloop.cpp: Mainloop::request_exit", "src/mainloop.cpp: exit_signal_handler"]}
{"id": "C101", "title": "The exit status tells whether the router failed", "statement": "The program ends with status 0 if it was asked to stop, and with a failure status if it stopped because a serial port or socket it depends on failed.", "quantifier": "all histories of events, errors and signals", "why_tests_cant": "All interleavings of signals and errors.", "anchors": ["src/mainloop.cpp: Mainloop::loop", "src/mainloop.cpp: Mainloop::request_exit", "src/main.cpp: main"]}
{"id": "C102", "title": "All log files are finished when the program ends", "statement": "When the router ends after a signal or failure, every log file it had open has been completed, closed and marked as finished (read-only), and the autopilot was told to stop sending log data.", "quantifier": "all states of all kinds of log endpoints, all results of file operations", "why_tests_cant": "All states of the log protocols at the moment of the exit.", "anchors": ["src/mainloop.cpp: Mainloop::loop", "src/logendpoint.cpp: LogEndpoint::stop", "src/ulog.cpp: ULog::stop", "src/binlog.cpp: BinLog::stop", "src/tlog.cpp: TLog::stop", "src/autolog.cpp: AutoLog::stop"]}
{"id": "C103", "title": "A busy link cannot monopolise the router", "statement": "Each time a link is found readable, the router reads from it at most once and routes a bounded number of messages before it serves the other links, timers and signals.", "quantifier": "all data and all results of reading, also links on which data never cease", "why_tests_cant": "An endless stream of data is no finite test.", "anchors": ["src/endpoint.cpp: Endpoint::handle_read", "src/endpoint.cpp: Endpoint::read_msg"]}
{"id": "C104", "title": "The reports of incomplete messages add up", "statement": "The counts in the warnings about incomplete messages add up to the number of messages of which only a part was sent, each message being counted in exactly one warning.", "quantifier": "all histories of links, results of writing and timers", "why_tests_cant": "All interleavings of partial writes, ticks, disconnections and counter overflow.", "anchors": ["src/endpoint.cpp: Endpoint::log_aggregate", "src/endpoint.cpp: UartEndpoint::write_msg", "src/endpoint.cpp: UdpEndpoint::write_msg", "src/endpoint.cpp: TcpEndpoint::write_msg", "src/mainloop.cpp: Mainloop::_log_aggregate_timeout"]}
{"id": "C105", "title": "Logs are synced to disk in the background with a valid control block", "statement": "While a log is open, a sync of this file is under way after every tick of the sync timer, and the control block given to the system is neither reused nor freed before the system is done with it.", "quantifier": "all histories of starting and stopping logs and all durations of sync operations", "why_tests_cant": "The duration of a sync depends on the disk; the error is a data race with the kernel or C library.", "anchors": ["src/logendpoint.cpp: LogEndpoint::_fsync", "src/logendpoint.cpp: LogEndpoint::stop", "src/logendpoint.cpp: LogEndpoint::start", "src/logendpoint.h: LogEndpoint"]}
{"id": "C106", "title": "Diagnostics appear completely, once, and exactly at the configured level", "statement": "Every diagnostic of the program whose level is at most the configured one appears exactly once, as one complete line, on the chosen output (standard error or system log); no other one appears.", "quantifier": "all sequences of diagnostics, texts, levels and outputs", "why_tests_cant": "All texts and lengths, in both phases of the program.", "anchors": ["src/common/log.cpp: Log::logv", "src/common/log.cpp: Log::logv_to_fd", "src/common/log.cpp: Log::open", "src/common/log.cpp: Log::syslog_log_level", "src/main.cpp: main"]}
{"id": "C107", "title": "Configured endpoints are never destroyed while the router runs", "statement": "As documented, UART, UDP and TCP client endpoints (and log endpoints) of the configuration exist until the router ends; whatever happens on their links they stay among the endpoints messages are offered to.", "quantifier": "all configurations and all histories of connections, disconnections, reads, writes and timers", "why_tests_cant": "All interleavings of hang-ups, reconnections, server connections coming and going.", "anchors": ["README.md: Endpoints", "src/mainloop.cpp: Mainloop::process_tcp_hangups", "src/endpoint.cpp: TcpEndpoint::handle_read", "src/mainloop.cpp: Mainloop::add_endpoints"]}
{"id": "C108", "title": "The way received bytes are cut into reads has no influence", "statement": "Two histories in which each link receives the same bytes, cut into reads (segments of a TCP connection, serial reads) in different ways, with the messages completing in the same order relative to all other events, lead to the same messages sent to the same links, the same learned addresses, the same duplicates dropped and the same logs.", "quantifier": "all router states, all byte streams and all ways of cutting them into reads, all other events", "why_tests_cant": "The ways of cutting a stream are exponentially many, and they are decided by the kernel.", "anchors": ["src/endpoint.cpp: Endpoint::handle_read", "src/endpoint.cpp: Endpoint::read_msg", "src/mainloop.cpp: Mainloop::route_msg"]}
{"id": "C109", "title": "Messages do not circulate between routers for ever", "statement": "In a network of routers every message is received only finitely often, since (as documented) a message is not sent to a link on which its sender has been seen, to prevent message loops.", "quantifier": "all numbers of routers, all connections between them, all settings, all orders of delivery and losses", "why_tests_cant": "Networks, interleavings and losses are unbounded.", "anchors": ["README.md: Message Routing", "src/endpoint.cpp: Endpoint::accept_msg", "src/mainloop.cpp: Mainloop::route_msg", "src/dedup.cpp: Dedup::check_packet"]}
{"id": "C110", "title": "Parallel links of a group are redundant", "statement": "With parallel links grouped at both ends, the same outgoing filters on them, a sane clock and a de-duplication period covering the delay between them, every message for the group is sent on every link of it; when at least one copy arrives, the receiving router delivers it exactly once to each endpoint meant to get it and never sends it back on a link of the group.", "quantifier": "all configurations, histories, losses and delays on the links up to the period", "why_tests_cant": "Losses, delays and interleavings of the links are unbounded.", "anchors": ["README.md: Endpoint groups", "src/endpoint.cpp: Endpoint::accept_msg", "src/endpoint.cpp: Endpoint::link_group_member", "src/dedup.cpp: Dedup::check_packet", "src/mainloop.cpp: Mainloop::route_msg"]}
{"id": "C111", "title": "A router receives what the router at the other end of a stream link wrote", "statement": "Of two routers connected by a serial line or TCP connection, one receives exactly the messages, in order, that the other one could hand completely to its kernel; a message that could not be written has no influence on the others.", "quantifier": "all sequences of messages, results of the system calls and ways of reading the bytes", "why_tests_cant": "The results of writing depend on the load of the line; the effect of a cut-off message shows at the other end, on later messages.", "anchors": ["src/endpoint.cpp: UartEndpoint::write_msg", "src/endpoint.cpp: TcpEndpoint::write_msg", "src/endpoint.cpp: Endpoint::read_msg"]}
{"id": "C112", "title": "Log files sorted by name are in order of creation", "statement": "The name of a new log file is behind the names of all log files in the directory in alphabetical order, whatever the date says, so that sorting by name gives the order of the flights.", "quantifier": "all directory contents, dates, extensions and interferences of other processes", "why_tests_cant": "Depends on directory contents accumulated over years of use, and on wrong clocks.", "anchors": ["src/logendpoint.cpp: LogEndpoint::_get_file", "src/logendpoint.cpp: LogEndpoint::_get_prefix", "README.md: Flight Stack Logging"]}
{"id": "C113", "title": "Ending the router is memory safe", "statement": "When the router ends, after whatever happened before, nothing that is already destroyed is used and nothing is destroyed twice; each timer is freed exactly once, no endpoint is registered any more, and every endpoint outside of groups is destroyed and its descriptor closed, apart from the flight-stack logger.", "quantifier": "all configurations, event histories and ways of stopping the log", "why_tests_cant": "Which timers exist and who points to them depends on the whole history of the process.", "anchors": ["src/mainloop.cpp: Mainloop::loop", "src/mainloop.cpp: Mainloop::clear_endpoints", "src/endpoint.cpp: UdpEndpoint::~UdpEndpoint", "src/pollable.cpp: Pollable::~Pollable"]}
{"id": "C114", "title": "A reply finds its way back across any number of routers, and goes nowhere else", "statement": "In a network of routers without rings, once a broadcast of a vehicle (or of a ground station) has got through, a message sent to it from anywhere in the network that is neither lost nor filtered is written to the link where the vehicle is; a message for one of its components is seen only by the routers on the way, which send it only in that direction (sniffers aside).", "quantifier": "all numbers of routers and tree-shaped connections, all positions of the two, all other traffic, all orders of delivery and losses of other messages", "why_tests_cant": "Networks, interleavings, losses and the traffic of others are unbounded.", "anchors": ["README.md: Message Routing", "src/endpoint.cpp: Endpoint::accept_msg", "src/endpoint.cpp: Endpoint::_add_sys_comp_id", "src/mainloop.cpp: Mainloop::route_msg"]}
{"id": "C115", "title": "A ULog file with losses consists of the messages that arrived", "statement": "When packets of a PX4 log stream get lost on the way, the log file consists of the header and exactly those log messages all bytes of which arrived, each once, complete and in the order in which they were sent; no message is put together from pieces of several.", "quantifier": "all log streams and ways of cutting them into packets, all patterns of losses and repetitions, all results of the writes", "why_tests_cant": "Which packets get lost, and where the boundaries of messages lie in them, is unbounded; a file with a mixed message looks like a good one until it is analysed.", "anchors": ["src/ulog.cpp: ULog::_logging_data_process", "src/ulog.cpp: ULog::_logging_seq", "src/ulog.cpp: ULog::_logging_flush", "README.md: Flight Stack Logging"]}
{"id": "C116", "title": "Logging does not change what is delivered", "statement": "For the same traffic, connections and clock, a router with logging turned on gives its serial, UDP and TCP endpoints the same messages of vehicles and ground stations, with the same bytes and in the same order, as without; it also accepts the same messages and learns the same addresses. (What the log endpoints themselves send is extra.)", "quantifier": "all configurations, log endpoints, event histories and results of writes", "why_tests_cant": "A statement about pairs of runs over unbounded histories; the difference shows only for the endpoints behind the log in the list and only for some messages.", "anchors": ["src/mainloop.cpp: Mainloop::route_msg", "src/mainloop.cpp: Mainloop::add_endpoints", "src/ulog.cpp: ULog::write_msg", "src/logendpoint.cpp: LogEndpoint::_send_msg"]}
{"id": "C117", "title": "The order of the endpoints in the configuration does not matter", "statement": "If the same endpoints are configured in another order and the same things happen, every endpoint, log and TCP client is given the same messages in the same order, the same messages are accepted, and the same number of undeliverable messages is reported.", "quantifier": "all configurations, permutations, event histories, log endpoints and results of writes", "why_tests_cant": "A statement about pairs of runs for all permutations and unbounded histories.", "anchors": ["src/mainloop.cpp: Mainloop::add_endpoints", "src/mainloop.cpp: Mainloop::route_msg", "src/endpoint.cpp: Endpoint::_add_sys_comp_id", "src/endpoint.cpp: Endpoint::link_group_member"]}
{"id": "C118", "title": "Reception recovers after a disturbance", "statement": "Whatever an endpoint has received before \u2013 bytes lost, added or altered on the line, a connection cut off inside a message \u2013 valid frames sent afterwards are received again: only frames that begin among the first 280 bytes behind the disturbance can be lost.", "quantifier": "all byte streams received before, all sequences of valid frames afterwards, all ways in which the kernel hands out the bytes", "why_tests_cant": "Disturbances and the bytes behind them are unbounded; whether the receiver falls in step again depends on the contents of the messages.", "anchors": ["src/endpoint.cpp: Endpoint::read_msg", "src/endpoint.cpp: Endpoint::handle_read"]}
{"id": "C119", "title": "What the router remembers of the traffic stays bounded", "statement": "However long the router runs and whatever it receives, every endpoint remembers each system and component once, so at most 65536 of them, and the de-duplication memory holds at most as many entries as messages were received within the last period (none if it is switched off).", "quantifier": "all configurations, all histories of events, all contents of messages, all clock readings", "why_tests_cant": "Growth shows only after weeks of traffic, and only for some times of arrival.", "anchors": ["src/endpoint.cpp: Endpoint::_add_sys_comp_id", "src/dedup.cpp: DedupImpl::check_packet", "src/mainloop.cpp: Mainloop::dedup_check_msg"]}
{"id": "C120", "title": "A message is routed alike in every form it can have on the wire", "statement": "Without de-duplication, or as long as no packet arrives twice, a message is let in or not, and forwarded to the same endpoints, whether it arrives as MAVLink 1 or MAVLink 2, signed or not, with zeros at the end of its payload trimmed or not, and whatever its sequence number and flags; each endpoint gets it in the form in which it arrived.", "quantifier": "all pairs of histories in which the same messages arrive in different forms, all configurations and message tables", "why_tests_cant": "A statement about pairs of runs over unbounded histories, all messages and all routing states.", "anchors": ["src/endpoint.cpp: Endpoint::read_msg", "src/endpoint.cpp: Endpoint::accept_msg", "src/endpoint.cpp: Endpoint::allowed_by_incoming_filters", "src/mainloop.cpp: Mainloop::route_msg"]}
{"id": "C121", "title": "Messages that arrived are handled, even if their connection breaks", "statement": "When an endpoint becomes readable, every message that has arrived completely, behind valid ones, is checked for duplicates, filtered, learned from and routed before the router turns to anything else. Handling one message - including what log endpoints send in answer to it and whatever the kernel says to the writes - never removes or alters the messages behind it.", "quantifier": "all configurations, states of the router, segments of valid frames, log endpoints and results of writes", "why_tests_cant": "Depends on the number of messages in one segment and on which of the writes caused by each of them fails.", "anchors": ["src/endpoint.cpp: Endpoint::handle_read", "src/endpoint.cpp: Endpoint::read_msg", "src/endpoint.cpp: TcpEndpoint::write_msg", "src/mainloop.cpp: Mainloop::route_msg"]}
{"id": "C122", "title": "A link opens exactly if the kernel lets it", "statement": "A configured link, an accepted TCP client and an attempt to connect again end up with an open descriptor exactly if the kernel grants the descriptor and everything that kind of link needs: the settings of a serial device; permission to broadcast for a UDP client; the port, and the group of a multicast address, for a UDP server; the connection for a TCP client whose address is no multicast address; and not to block. Other links are not affected.", "quantifier": "all kinds of links, all results of the system calls, all states of the other links", "why_tests_cant": "All combinations of failing and succeeding calls at start and at run time; a link that never opens because of its address is noticed only with that address.", "anchors": ["src/endpoint.cpp: UdpEndpoint::open", "src/endpoint.cpp: UdpEndpoint::open_ipv6", "src/endpoint.cpp: TcpEndpoint::open", "src/endpoint.cpp: TcpEndpoint::open_ipv6", "src/endpoint.cpp: UartEndpoint::setup", "src/mainloop.cpp: Mainloop::tcp_open"]}
{"id": "C123", "title": "A message for a system behind a UDP server endpoint goes to the address that system sends from", "statement": "A message addressed to a system and component that has been heard on a UDP server endpoint, when sent through that endpoint, goes to the address from which that system and component was last heard there.", "quantifier": "all configurations, all histories of datagrams from any number of senders with any contents, all messages on other links", "why_tests_cant": "Depends on how the datagrams of several senders interleave with the messages of other links; a test has one sender.", "anchors": ["src/endpoint.cpp: UdpEndpoint::_read_msg", "src/endpoint.cpp: UdpEndpoint::write_msg", "src/endpoint.cpp: Endpoint::accept_msg", "src/mainloop.cpp: Mainloop::route_msg"]}
{"id": "C124", "title": "A system can move to another link", "statement": "When a system that was heard on one link is heard on another one, it can be reached there from then on: what is addressed to it goes to the new link and no longer to the old one, and what it broadcasts goes to all links other than its own, so that stations behind its former link keep hearing it.", "quantifier": "all configurations, all histories of messages on all links", "why_tests_cant": "Depends on the whole history of each link; the router behaves differently only after a system has moved.", "anchors": ["src/endpoint.cpp: Endpoint::_add_sys_comp_id", "src/endpoint.cpp: Endpoint::accept_msg", "src/mainloop.cpp: Mainloop::route_msg"]}
{"id": "C125", "title": "With default settings the router is a transparent hub", "statement": "Configure any number of links and nothing else (no filters, groups or de-duplication). Whatever valid messages the links bring, cut into reads and interleaved in any way: every link is handed exactly the messages the other links brought, each once, byte for byte, and those of one link in their order - if they are broadcasts or addressed to systems heard on that link before, and their senders were not heard on that link itself. With two links the router is a transparent bridge in both directions.", "quantifier": "any number of links of any kind, all sequences of valid frames on each of them, all ways to cut them into reads and to interleave the reads, all earlier histories", "why_tests_cant": "Needs all interleavings and all segmentations of several byte streams at once; a test plays a few messages through two links.", "anchors": ["src/endpoint.cpp: Endpoint::read_msg", "src/endpoint.cpp: Endpoint::handle_read", "src/endpoint.cpp: Endpoint::accept_msg", "src/mainloop.cpp: Mainloop::route_msg"]}
{"id": "C126", "title": "Configuring one endpoint does not change another", "statement": "A further configuration file, wherever in the order it is read, changes only what it mentions: every endpoint whose section does not occur in it has exactly the configuration it had without the file (name, addresses, ports, filters, group), endpoints of other sections appear or vanish nowhere, and without a section General in it all other settings stay as they are. More generally, endpoints depend only on what the files say about their own sections, and on the order of these lines.", "quantifier": "all sets of configuration files, all further files at all places, both accepted by the router", "why_tests_cant": "Relates two program starts for arbitrary file contents; tests read fixed files.", "anchors": ["src/common/conf_file.cpp: ConfFile::_parse_file", "src/common/conf_file.cpp: ConfFile::get_sections", "src/main.cpp: parse_confs", "src/main.cpp: find_next_udp_port"]}
{"id": "C127", "title": "The log directory never holds more logs than configured", "statement": "With MaxLogFiles set, the log directory never holds more log files than that, whatever sequence of logs is started, written, stopped or cut short by crashes, as long as old logs can be removed and nobody else creates files there.", "quantifier": "all limits, all numbers of log endpoints, all histories of starts, writes, stops, crashes and restarts", "why_tests_cant": "The bound is over unbounded histories including crashes at any point and several log endpoints that share the directory.", "anchors": ["src/logendpoint.cpp: LogEndpoint::_delete_old_logs", "src/logendpoint.cpp: LogEndpoint::start", "src/logendpoint.cpp: LogEndpoint::stop", "src/logendpoint.cpp: LogEndpoint::mark_unfinished_logs"]}
{"id": "C128", "title": "A configuration written as documented is accepted", "statement": "If configuration files and command line are written as the help text and the sample configuration document (section names within the limit, numbers in range, the listed words in any case, addresses and ports where they are required), the program accepts them all together and starts, unless the system refuses to open a serial port or a socket.", "quantifier": "all sets of files and directories, all declarations in them in any order and number, all command lines of documented words in any order, number and form", "why_tests_cant": "A test starts the program with a few configurations; that no valid combination of values, sections, files and options is refused concerns all of them.", "anchors": ["src/main.cpp: parse_confs", "src/main.cpp: parse_argv", "src/main.cpp: parse_conf_files", "src/endpoint.cpp: UdpEndpoint::validate_config", "src/endpoint.cpp: TcpEndpoint::validate_config", "src/common/conf_file.cpp: ConfFile::extract_options", "src/logendpoint.cpp: parse_fcu_id"]}
{"id": "C129", "title": "Reading configuration files is memory safe", "statement": "Whatever bytes the configuration files contain, reading them and taking the options out of them touches only memory of the program's own data: the mapped files and the option names are never read outside their ends, what is kept for later points into the mapped files, no assertion fails, and no copy of a value overruns the stack.", "quantifier": "all files, all numbers of files, all option tables, all results of the option parsers", "why_tests_cant": "Reading one byte behind a mapping goes unnoticed except when the file ends exactly at a page; a sanitizer run covers the files it is given only.", "anchors": ["src/common/conf_file.cpp: ConfFile::_parse_file", "src/common/conf_file.cpp: ConfFile::_trim", "src/common/conf_file.cpp: ConfFile::_add_section", "src/common/conf_file.cpp: ConfFile::_add_config", "src/common/conf_file.cpp: ConfFile::_extract_options_from_section", "src/common/conf_file.cpp: ConfFile::parse_uint32_vector"]}
{"id": "C130", "title": "An acknowledged log block is in the log file for good", "statement": "When the autopilot is told that a log block is stored, the file that is open at that moment contains all 200 bytes of the block at its place, and keeps them until the end, whatever is lost, repeated, reordered, cut by a full disk or restarted later. Once blocks 0 to N-1 are acknowledged the file begins with exactly these blocks in order. (The blocks arriving while one file is in use are taken to be blocks of one log, with numbers below 2^32/200.)", "quantifier": "all histories of messages, timer events, stops and restarts, all outcomes of the file system, all block contents", "why_tests_cant": "The autopilot drops a block from its memory as soon as it is acknowledged, so a single history in which an acknowledged block is missing is a hole in the log; the histories are unbounded interleavings of losses, short writes and restarts.", "anchors": ["src/binlog.cpp: BinLog::write_msg", "src/binlog.cpp: BinLog::_logging_data_process", "src/binlog.cpp: BinLog::_send_ack", "src/logendpoint.cpp: LogEndpoint::start"]}
{"id": "C131", "title": "PX4 log data are stored once they are acknowledged", "statement": "When the autopilot is told that packets with log data were received (LOGGING_ACK), every log message all bytes of which came in these packets is in the log file when it is closed, and every packet that asks for it is acknowledged.", "quantifier": "all log streams and ways of cutting them into packets, all losses and repetitions, all states of the log endpoint, all results of the writes", "why_tests_cant": "The autopilot drops what is acknowledged; whether it is stored depends on the state of log, buffer and disk, in which tests try single packets.", "anchors": ["src/ulog.cpp: ULog::write_msg", "src/ulog.cpp: ULog::_logging_data_process", "src/ulog.cpp: ULog::_logging_flush", "src/ulog.cpp: ULog::stop"]}
{"id": "C132", "title": "Several routers on the way to the autopilot can log", "statement": "Where several routers stand between each other and the autopilot and more than one of them logs, the log requests of each reach the autopilot: while a log waits for the stream of a system, each of its requests is written once to every link behind which the system was heard (unless outgoing filters forbid it), and a router on the way passes the requests of the others on to every other such link, whether it logs itself or not.", "quantifier": "every configuration and history of each router on the way, every log endpoint and system", "why_tests_cant": "All routers use the same address (2/0) for their log endpoints; whether a request is stopped depends on what was heard on a link at any earlier time, and on what components of the same system are behind the other routers.", "anchors": ["src/logendpoint.h: LOG_ENDPOINT_SYSTEM_ID", "src/logendpoint.cpp: LogEndpoint::_send_msg", "src/ulog.cpp: ULog::_logging_start_timeout", "src/endpoint.cpp: Endpoint::accept_msg"]}
{"id": "C133", "title": "The router does the same whether or not its diagnostics can be written", "statement": "With which configuration the router runs, what it delivers to whom, and which connections it keeps do not depend on whether its diagnostics can be written: it makes no difference that the standard error output is closed, its pipe broken or full, or that there is no system log.", "quantifier": "all hosts, configurations and command lines, all histories of traffic, all results of system calls, all results of writing the diagnostics", "why_tests_cant": "errno is shared between the system call that failed and the diagnostic about it; the combinations of a failing call with a failing diagnostic do not occur in a test environment, whose standard error output always works.", "anchors": ["src/common/log.cpp: Log::logv_to_fd", "src/common/conf_file.cpp: ConfFile::parse", "src/main.cpp: parse_conf_files", "src/endpoint.cpp: TcpEndpoint::write_msg", "src/endpoint.cpp: UdpEndpoint::write_msg"]}
{"id": "C134", "title": "The router waits for exactly what is open", "statement": "At every moment the router waits for input on exactly the descriptors that are open: every serial line, UDP socket, connected TCP link, accepted client and running timer is registered once with the poll set, and nothing else is; so no open link is left unread, no event comes for something that is gone, and none comes twice.", "quantifier": "all configurations, all histories of connections made, lost and made again, of clients coming and going, of timers started, changed and cancelled, all results of system calls", "why_tests_cant": "Links are registered and unregistered at seven places; whether one is forgotten depends on the order of losses, reconnects and removals, of which there are unboundedly many.", "anchors": ["src/mainloop.cpp: Mainloop::add_fd", "src/mainloop.cpp: Mainloop::handle_tcp_connection", "src/mainloop.cpp: Mainloop::add_endpoints", "src/mainloop.cpp: Mainloop::add_timeout", "src/endpoint.cpp: TcpEndpoint::setup", "src/endpoint.cpp: TcpEndpoint::_retry_timeout_cb", "src/endpoint.cpp: TcpEndpoint::close"]}
{"id": "C135", "title": "A link that is lost disturbs no other link", "statement": "Whether, when and how often a TCP link is lost, refuses data, would block or comes back, even in the middle of a segment from another link, and whether a client of the TCP server goes away, makes no difference to the rest, as long as the other links bring the same: the same messages are passed on, every other link is handed the same bytes in the same order, every link learns the same systems, and logs, de-duplication and, unless a client is removed, the count of messages without a destination are the same.", "quantifier": "all configurations, all pairs of histories that agree up to losses, reconnects and removals of any set of links from which nothing is read meanwhile, all results of all writes in both, all moments of closing", "why_tests_cant": "Two histories are compared; the moments of loss, the results of writes and the messages are unbounded, and links share the buffer, the routing loop, learned addresses and de-duplication.", "anchors": ["src/endpoint.cpp: TcpEndpoint::write_msg", "src/endpoint.cpp: TcpEndpoint::_schedule_reconnect", "src/endpoint.cpp: TcpEndpoint::close", "src/endpoint.cpp: Endpoint::handle_read", "src/endpoint.cpp: Endpoint::accept_msg", "src/mainloop.cpp: Mainloop::write_msg", "src/mainloop.cpp: Mainloop::route_msg", "src/mainloop.cpp: Mainloop::process_tcp_hangups"]}
{"id": "C136", "title": "Of the past the router remembers only who was heard where", "statement": "Without de-duplication, or as long as no packet arrives twice, two routers with the same configuration and arbitrarily different pasts - for instance one that has been running for weeks and one that was just restarted - treat everything from some moment on the same, provided that by then the same systems were heard on the same links and the same bytes of half received messages are left on each link: the same messages are let in, and every configured link is handed the same of them, byte for byte, in the same order (what log endpoints themselves send aside). What was routed, lost, counted or logged before has no influence; in particular a restart is forgotten once everybody who was known has been heard again.", "quantifier": "every configuration, every two histories of received bytes, clients, hang-ups, lost connections, log activity and timers, every further history", "why_tests_cant": "The statement compares two runs with unrelated unbounded pasts; a test can compare a few pairs of histories, not show that no other state (counters, sequence numbers, buffers, logs) leaks into routing.", "anchors": ["src/mainloop.cpp: Mainloop::route_msg", "src/endpoint.cpp: Endpoint::handle_read", "src/endpoint.cpp: Endpoint::read_msg", "src/endpoint.cpp: Endpoint::accept_msg", "src/endpoint.cpp: Endpoint::_add_sys_comp_id"]}
{"id": "C137", "title": "How an IPv6 link is opened depends on its configuration and the host only", "statement": "Which address and interface an IPv6 link (UDP or TCP, client or server, group or not) is opened with is determined by its configured address and the interfaces of the host: the same configuration gives the same link at every start, and no value that the program never set takes part.", "quantifier": "every accepted address text, every answer of the address and interface functions of the C library, all leftover contents of local variables", "why_tests_cant": "What a variable that was never set holds is the same in most test runs (usually zero in a fresh process), so that tests pass; the claim is about all contents of memory and all failures of library calls.", "anchors": ["src/endpoint.cpp: UdpEndpoint::open_ipv6", "src/endpoint.cpp: TcpEndpoint::open_ipv6", "src/endpoint.cpp: ipv6_get_scope_id"]}
{"id": "C138", "title": "A further system does not disturb the others", "statement": "Without de-duplication, or as long as no packet arrives twice, whether or not some system is in the network, unless it is the configured sniffer, makes no difference to the traffic between the others: every configured link is handed the same of the messages that are neither from that system nor addressed to it, byte for byte and in the same order (what log endpoints themselves send aside), whatever that system sends, how much, on which links and to whom.", "quantifier": "every configuration, every system id, every two histories of received bytes, clients, hang-ups, lost connections and timers in which the same messages of the other systems arrive", "why_tests_cant": "Two runs are compared whose traffic differs by an unbounded number of arbitrary messages, at every position; learned addresses, groups, filters and the sniffer all take part in deciding where the other messages go.", "anchors": ["src/mainloop.cpp: Mainloop::route_msg", "src/endpoint.cpp: Endpoint::accept_msg", "src/endpoint.cpp: Endpoint::_add_sys_comp_id", "src/endpoint.cpp: Endpoint::handle_read", "src/endpoint.cpp: Endpoint::allowed_by_incoming_filters"]}
{"id": "C139", "title": "Outgoing filters and the sniffer concern the links they name only", "statement": "If only outgoing filters of some links are changed and the same things happen, the same messages are accepted, every other configured link is handed the same bytes in the same order, and a changed link is handed, of the same messages in the same order, exactly those that its filters let through. If a sniffer is configured and the same things happen, no link is handed less than without, and a configured link on which the sniffer system is not heard is handed exactly the same. (What log endpoints themselves send aside.)", "quantifier": "every two configurations that differ in outgoing filters only, or in the sniffer, all event histories, de-duplication, log endpoints and results of writes", "why_tests_cant": "Two runs of differently configured routers are compared for arbitrary traffic; filters are evaluated inside the loop that also decides about learned addresses, unknown destinations and the shared buffer.", "anchors": ["src/endpoint.cpp: Endpoint::accept_msg", "src/mainloop.cpp: Mainloop::route_msg", "src/endpoint.cpp: Endpoint::handle_read", "src/endpoint.cpp: Endpoint::allowed_by_incoming_filters"]}
{"id": "C140", "title": "De-duplication takes repeats away and does nothing else", "statement": "If de-duplication is turned on and the same things happen, every configured link is handed, of what it is handed without de-duplication, everything but the messages that repeat an earlier one within the period, in the same order and byte for byte, and nothing in addition. (What log endpoints themselves send aside.)", "quantifier": "all configurations, periods and hash functions, all histories of received bytes, clients, hang-ups, lost connections and timers", "why_tests_cant": "Two runs of the router are compared over arbitrary traffic; de-duplication acts before addresses are learned, so that a dropped copy can change where later messages go, arbitrarily long afterwards.", "anchors": ["src/endpoint.cpp: Endpoint::handle_read", "src/dedup.cpp: Dedup::check_packet", "src/endpoint.cpp: Endpoint::_add_sys_comp_id", "src/endpoint.cpp: Endpoint::accept_msg", "src/mainloop.cpp: Mainloop::route_msg"]}
{"id": "C141", "title": "Which of several ready links is served first does not matter", "statement": "Without de-duplication, or as long as no packet arrives twice (within or across links), once all senders have been heard on their links, the order in which the router serves links that have something to read has no influence on where messages go: if the same is received on every link, but the reads of different links follow each other differently, the same messages are let in from every link, and every configured link is handed the same messages, byte for byte, those from each link in the same order. (What log endpoints themselves send aside.)", "quantifier": "all configurations, all histories up to some moment, and from then on all two interleavings of the same events at the links (reads of any bytes, failed reads, links closed and reopened), any timers in between", "why_tests_cant": "Which ready descriptor is reported first is up to the kernel; the number of interleavings grows without bound, and a test sees the one the kernel happens to choose.", "anchors": ["src/mainloop.cpp: Mainloop::loop", "src/endpoint.cpp: Endpoint::handle_read", "src/mainloop.cpp: Mainloop::route_msg", "src/endpoint.cpp: Endpoint::accept_msg", "src/endpoint.cpp: Endpoint::_add_sys_comp_id"]}
{"id": "C142", "title": "What incoming filters drop might as well never have been sent", "statement": "Without de-duplication, or as long as no packet arrives twice, a router with incoming filters does for its configured links exactly what a router without them does at which the messages the filters drop never arrive: every configured link is handed the same bytes in the same order, over the whole run. The dropped messages have no late effect on routing, learning, groups or the sniffer either. (What log endpoints themselves send aside.)", "quantifier": "all configurations, all incoming filters on any of the links, all pairs of histories of received bytes, clients, hang-ups, lost connections and timers in which the admitted messages of the one are the messages of the other", "why_tests_cant": "The claim compares two different runs of unbounded length and is about the absence of any late effect of arbitrarily many dropped messages; a test can only look at a few effects of a few messages.", "anchors": ["src/endpoint.cpp: Endpoint::allowed_by_incoming_filters", "src/endpoint.cpp: Endpoint::handle_read", "src/endpoint.cpp: Endpoint::_add_sys_comp_id", "src/endpoint.cpp: Endpoint::accept_msg", "src/mainloop.cpp: Mainloop::route_msg"]}
{"id": "C143", "title": "A link that only listens does not change what the others are handed", "statement": "Adding a further link on which nothing arrives - whatever its kind, filters and group - changes nothing for the links there were: if the same messages arrive at the other links - with de-duplication at the same times, or no packet twice - each of them is handed the same bytes in the same order, over the whole run. (What log endpoints themselves send aside.)", "quantifier": "all configurations of links and log endpoints, every further link, all pairs of histories in which the same messages arrive at the links there were", "why_tests_cant": "Two differently configured routers are compared over unbounded traffic; groups, the shared message buffer, the loop over the links and the numbering of log endpoints behind the links all could make an idle link felt.", "anchors": ["src/mainloop.cpp: Mainloop::add_endpoints", "src/mainloop.cpp: Mainloop::route_msg", "src/endpoint.cpp: Endpoint::link_group_member", "src/endpoint.cpp: Endpoint::_add_sys_comp_id", "src/endpoint.cpp: Endpoint::accept_msg"]}
{"id": "C144", "title": "Which of the other links a message comes from makes no difference", "statement": "If the same messages arrive in the same order and at the same times, but some of them on other links - as when a vehicle or ground station moves from one radio to another - every configured link is handed the same bytes in the same order, provided the incoming filters of the two links say the same of such a message and both or none of the two belong to the receiving link and its group. De-duplication may be on or off, and packets may be repeated. (What log endpoints themselves send aside.)", "quantifier": "all configurations, all pairs of histories of received bytes, clients, hang-ups, lost connections and timers in which the same messages arrive on different links", "why_tests_cant": "Pairs of unbounded runs are compared; every remembered address, group and de-duplication entry could give away where earlier messages came from.", "anchors": ["src/endpoint.cpp: Endpoint::accept_msg", "src/endpoint.cpp: Endpoint::_add_sys_comp_id", "src/mainloop.cpp: Mainloop::route_msg", "src/mainloop.cpp: Mainloop::dedup_check_msg", "src/endpoint.cpp: Endpoint::allowed_by_incoming_filters"]}
{"id": "C145", "title": "A link on which nobody is heard is handed the broadcasts and nothing else", "statement": "As long as nothing is let in on a link and the links of its group, the link is handed exactly the messages let in on other links that name no target system or system 0 and pass its outgoing filters - each once, in order of arrival, byte for byte - and never a message addressed to a system, whatever the sniffer setting, the other links and the traffic on them. (What log endpoints themselves send aside.)", "quantifier": "all configurations, all histories of received bytes, clients, hang-ups, lost connections, timers and clock readings", "why_tests_cant": "The absence of any addressed message on the link has to hold for every traffic on all the other links for as long as the router runs.", "anchors": ["src/endpoint.cpp: Endpoint::accept_msg", "src/endpoint.cpp: Endpoint::_add_sys_comp_id", "src/mainloop.cpp: Mainloop::route_msg"]}
{"id": "C146", "title": "Of the rest of the configuration, only incoming filters and the group concern a link", "statement": "Take two routers configured differently - more, fewer or other links, in another order, of other kinds, in other groups, with other outgoing filters, with or without logs behind the links - but with the same sniffer setting, and a configured link of each with outgoing filters that say the same. If the same messages arrive in the same order - with de-duplication set alike and at the same times, or without it, or no packet twice -, each is let in by the incoming filters in both or in none, and each arrives on the link or its group in both or in none, then the two links are handed the same bytes in the same order. (What log endpoints themselves send aside.)", "quantifier": "all pairs of configurations, all pairs of links in them, all pairs of histories of received bytes, clients, hang-ups, lost connections and timers in which the same messages arrive", "why_tests_cant": "Pairs of arbitrary configurations are compared over unbounded traffic; a test compares a few configurations on a few messages.", "anchors": ["src/mainloop.cpp: Mainloop::add_endpoints", "src/mainloop.cpp: Mainloop::route_msg", "src/mainloop.cpp: Mainloop::dedup_check_msg", "src/endpoint.cpp: Endpoint::accept_msg", "src/endpoint.cpp: Endpoint::_add_sys_comp_id", "src/endpoint.cpp: Endpoint::link_group_member"]}
{"id": "C147", "title": "A client of the TCP server is served like a configured link", "statement": "From the moment a client of the TCP server is connected until it hangs up, it is handed the same bytes in the same order as a configured link without outgoing filters and group would be in its place - of any kind, at any position, in any other configuration with the same sniffer setting. The same messages have to arrive in the same order (with de-duplication set alike and at the same times, or without it, or no packet twice), on the client where they arrive on the link, and be let in or not in both. What a log endpoint sends itself is left aside, and no PX4 log data (LOGGING_DATA, LOGGING_DATA_ACKED) pass, which a PX4 log edits on their way to TCP clients (C88).", "quantifier": "all pairs of configurations, all clients, all links without outgoing filters, all histories before and after the client connects", "why_tests_cant": "When the client connects, what happened before, which other clients come and go and how long it stays are unlimited; a test connects a client at a few moments.", "anchors": ["src/mainloop.cpp: Mainloop::handle_tcp_connection", "src/mainloop.cpp: Mainloop::route_msg", "src/endpoint.cpp: Endpoint::accept_msg", "src/endpoint.cpp: Endpoint::_add_sys_comp_id", "src/endpoint.cpp: TcpEndpoint::accept"]}
{"id": "C148", "title": "A newly connected client of the TCP server inherits nothing", "statement": "Whatever was heard before - also from an earlier client in the same place that has hung up -, a client that connects to the TCP server is handed, until a message from it is let in, exactly the messages let in from others since then that name no target system or system 0: each once, in order of arrival, byte for byte; and never a message addressed to a system, whatever the sniffer setting. What log endpoints send themselves is left aside, and no PX4 log data (LOGGING_DATA, LOGGING_DATA_ACKED) pass, which a PX4 log edits on their way to TCP clients (C88).", "quantifier": "all configurations, all histories before the client connects, with any number of earlier clients, and all histories after", "why_tests_cant": "That nothing of an earlier connection survives has to hold for every earlier history; a test tries a few.", "anchors": ["src/mainloop.cpp: Mainloop::handle_tcp_connection", "src/mainloop.cpp: Mainloop::route_msg", "src/endpoint.cpp: Endpoint::accept_msg", "src/endpoint.cpp: TcpEndpoint::accept"]}
