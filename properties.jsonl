{"id": "C01", "title": "Packet framing does not depend on how the stream is cut", "statement": "Feeding a byte stream to the protocol decoder reports the same commands, in the same order, and ends in the same error/no-error condition, no matter how the bytes are split over successive feed calls (including empty feeds and one byte at a time).", "quantifier": "all byte streams and all ways of cutting a stream into chunks", "why_tests_cant": "the number of cuts of a stream is exponential in its length and short reads depend on the kernel; tests use a handful of cuts", "anchors": ["milter/core/milter-decoder.c:milter_decoder_decode", "milter/core/milter-decoder.c:decode_command_length"]}
{"id": "C02", "title": "Every command survives encode then decode", "statement": "If an MTA-side encoder writes any session - a sequence of protocol commands in which option negotiation, if present, comes first - whose arguments are representable in the protocol (strings without NUL, non-empty where the decoder demands it), a decoder fed the concatenated packets reports exactly that sequence with exactly those arguments and no error.", "quantifier": "all finite sequences of commands with arbitrary arguments", "why_tests_cant": "arguments are unbounded strings and byte blobs, sequences are unbounded", "anchors": ["milter/core/milter-command-encoder.c:milter_command_encoder_encode_*", "milter/core/milter-command-decoder.c:milter_command_decoder_decode"]}
{"id": "C03", "title": "Every reply survives encode then decode", "statement": "If a milter-side encoder writes any sequence of protocol replies, the negotiate reply (if present) first, with representable arguments, a reply decoder fed the concatenated packets reports exactly that sequence of replies with those arguments and no error.", "quantifier": "all finite sequences of replies with arbitrary arguments", "why_tests_cant": "unbounded arguments and sequences", "anchors": ["milter/core/milter-reply-encoder.c:milter_reply_encoder_encode_*", "milter/core/milter-reply-decoder.c:milter_reply_decoder_decode"]}
{"id": "C04", "title": "An encoded packet depends only on the command being encoded", "statement": "The packet produced by an encoder is a 4-byte big-endian length followed by exactly that many payload bytes, and it is a function of the command and its arguments only, never of what the same encoder object encoded before.", "quantifier": "all encoders histories and all commands", "why_tests_cant": "needs every history of calls on one encoder object", "anchors": ["milter/core/milter-encoder.c:milter_encoder_pack", "milter/core/milter-encoder.c:milter_encoder_encode_negotiate", "milter/core/milter-encoder.c:milter_encoder_clear_buffer"]}
{"id": "C05", "title": "Decoding a packet reads nothing outside that packet", "statement": "What the decoder reports for a packet is determined by the bytes of that packet alone; bytes that follow it in the stream (the next packet) never change it and no byte past the received data is read.", "quantifier": "all packets (well formed or hostile) and all following bytes", "why_tests_cant": "over-reads only show for particular malformed packets and particular neighbours", "anchors": ["milter/core/milter-decoder.c:milter_decoder_decode_null_terminated_value", "milter/core/milter-decoder.c:milter_decoder_decode_header_content", "milter/core/milter-reply-decoder.c:decode_reply_insert_header", "milter/core/milter-reply-decoder.c:decode_reply_change_header", "milter/core/milter-command-decoder.c:decode_*"]}
{"id": "C06", "title": "A malformed packet silences the decoder for good", "statement": "Once the decoder has rejected a packet, no later input makes it report another command; and ending a stream in the middle of a packet is reported as an error while ending it on a packet boundary is not.", "quantifier": "all byte streams, all continuations after the error", "why_tests_cant": "the continuation is unbounded", "anchors": ["milter/core/milter-decoder.c:milter_decoder_decode", "milter/core/milter-decoder.c:milter_decoder_end_decode"]}
{"id": "C07", "title": "Bodies are cut into bounded packets without loss", "statement": "Sending a body of any size as body or replace-body packets yields packets of at most 65535 body bytes each whose payloads concatenate to exactly the original body.", "quantifier": "all bodies of any length", "why_tests_cant": "length is unbounded; boundary is at 64 KiB multiples", "anchors": ["milter/core/milter-command-encoder.c:milter_command_encoder_encode_body", "milter/core/milter-reply-encoder.c:milter_reply_encoder_encode_replace_body", "milter/client/milter-client-context.c:milter_client_context_replace_body", "milter/server/milter-server-context.c:flush_body"]}
{"id": "C08", "title": "Macro definitions survive the wire with braces normalised", "statement": "A macro table sent with define-macro is decoded to the same table with enclosing braces stripped from the names; when one packet defines a name twice the last definition wins.", "quantifier": "all macro tables", "why_tests_cant": "tables are unbounded maps over strings", "anchors": ["milter/core/milter-command-encoder.c:encode_macros", "milter/core/milter-command-decoder.c:decode_define_macros"]}
{"id": "C09", "title": "SMTP reply codes are formatted and parsed consistently", "statement": "A single-line reply made of a 4xx/5xx code, an optional enhanced status code and a message is transmitted and decoded to the same three parts; a multi-line message becomes one line per input line, each carrying the same code and enhanced code.", "quantifier": "all codes, enhanced codes and messages", "why_tests_cant": "strings are unbounded", "anchors": ["milter/core/milter-utils.c:milter_utils_format_reply_code", "milter/core/milter-reply-decoder.c:decode_reply_reply_code"]}
{"id": "C10", "title": "Custom reply validation accepts exactly the legal codes", "statement": "Setting a custom SMTP reply succeeds exactly when the code is 400..599 and the enhanced code, if any, has the form class.subject.detail with class equal to the first digit of the code and one to three digits for subject and detail; on failure the previously set reply is left unchanged.", "quantifier": "all codes and all strings", "why_tests_cant": "the accepted language is defined over all strings", "anchors": ["milter/client/milter-client-context.c:milter_client_context_set_reply", "milter/client/milter-client-context.c:extended_code_parse"]}
{"id": "C11", "title": "Option negotiation never grants what one side did not offer", "statement": "Combining the MTA's and a milter's options keeps exactly the actions and steps both sides set, takes the milter's version, and refuses a milter whose version is newer; combining is idempotent and the flag part does not depend on the order.", "quantifier": "all 32-bit versions, action and step words", "why_tests_cant": "2^96 option pairs", "anchors": ["milter/core/milter-option.c:milter_option_combine"]}
{"id": "C12", "title": "Merging milters' options disables an event only if every milter disabled it", "statement": "Merging the options of several milters leaves a no-event or no-reply bit set only if all of them set it, sets a capability (yes) bit if any of them set it, and ORs actions, whatever the order in which the milters answer.", "quantifier": "all lists of options and all orders", "why_tests_cant": "order and flag space are unbounded", "anchors": ["milter/core/milter-option.c:milter_option_merge", "milter/core/milter-option.c:milter_step_flags_merge"]}
{"id": "C13", "title": "Status severity is a consistent total order on real decisions", "statement": "The status comparison used to aggregate replies is a total order on discard > reject > temporary-failure > continue > skip > accept; folding any list of such replies gives their maximum, independent of order and of repetition.", "quantifier": "all finite lists of replies and their permutations", "why_tests_cant": "permutations grow factorially", "anchors": ["milter/core/milter-protocol.c:milter_status_compare", "milter/manager/milter-manager-children.c:compile_reply_status"]}
{"id": "C14", "title": "Header list operations behave as documented list edits", "statement": "Adding, appending, inserting, changing and deleting headers on a header list act as the obvious list edits (n-th header of that name, position, delete on absent value) and leave every other header and the order untouched.", "quantifier": "all header lists, names, values and indexes", "why_tests_cant": "lists and indexes unbounded", "anchors": ["milter/core/milter-headers.c:milter_headers_*"]}
{"id": "C15", "title": "Header edits sent to the MTA reproduce the milters' final headers", "statement": "After all milters have edited the headers, the add/insert/change/delete-header replies sent to the MTA, applied in order by the MTA to the original headers, produce the header list the milters ended up with.", "quantifier": "all original and all final header lists", "why_tests_cant": "pairs of unbounded lists; failure needs particular duplicates", "anchors": ["milter/manager/milter-manager-children.c:emit_header_signals"]}
{"id": "C16", "title": "A macro lookup sees exactly what was defined up to the current stage", "statement": "A macro lookup returns the value defined for that name in the latest protocol stage not after the current one, names may be given with or without braces, and macros of later stages are not visible; every define is visible to the next lookup.", "quantifier": "all histories of macro definitions, context changes and lookups", "why_tests_cant": "history unbounded, and a cache makes the result history-dependent", "anchors": ["milter/core/milter-protocol-agent.c:milter_protocol_agent_get_macro", "milter/core/milter-protocol-agent.c:milter_protocol_agent_get_available_macros", "milter/core/milter-protocol-agent.c:milter_protocol_agent_set_macros"]}
{"id": "C17", "title": "Macros of one message are not visible in the next", "statement": "After the message-related data is reset (abort or next message), macros defined for envelope-from or any later stage are gone, and macros of the connection and helo stages are still there.", "quantifier": "all histories before the reset", "why_tests_cant": "history unbounded", "anchors": ["milter/core/milter-protocol-agent.c:milter_protocol_agent_clear_message_related_macros"]}
{"id": "C18", "title": "Merged macro requests are the union of what milters asked for", "statement": "Merging macro requests yields, for each stage, every symbol any milter requested, exactly once if inputs have no duplicates, with earlier symbols keeping their order; stages nobody requested stay absent.", "quantifier": "all request tables", "why_tests_cant": "unbounded tables", "anchors": ["milter/core/milter-macros-requests.c:milter_macros_requests_merge"]}
{"id": "C19", "title": "ESMTP argument parsing accepts exactly the path grammar it documents", "statement": "Parsing a MAIL FROM/RCPT TO argument returns the mailbox between the angle brackets verbatim and each parameter with its value, rejects text after a malformed part, and never reads past the end of the argument.", "quantifier": "all argument strings", "why_tests_cant": "the language is infinite; over-reads only for unterminated quotes or brackets", "anchors": ["milter/core/milter-esmtp.c:milter_esmtp_parse_mail_from_argument", "milter/core/milter-esmtp.c:milter_esmtp_parse_rcpt_to_argument"]}
{"id": "C20", "title": "Connection specs parse back to what was printed", "statement": "Formatting an address as a connection spec and parsing the spec gives back the address; a spec with a port above 65535, with a non-digit port, without a scheme or with an unknown scheme is rejected.", "quantifier": "all addresses and all spec strings", "why_tests_cant": "spec strings unbounded", "anchors": ["milter/core/milter-connection.c:milter_connection_parse_spec", "milter/core/milter-connection.c:milter_connection_address_to_spec"]}
{"id": "C21", "title": "File modes parse to the permission bits they spell", "statement": "An octal mode of one to three digits parses to its numeric value, a symbolic mode to the union of the bits it names, the empty string to mode 0; anything else is rejected.", "quantifier": "all strings", "why_tests_cant": "strings unbounded", "anchors": ["milter/core/milter-utils.c:milter_utils_parse_file_mode"]}
{"id": "C22", "title": "The writer delivers bytes in order without loss or duplication", "statement": "However the socket accepts data (any partial write sizes, any interleaving with further writes), the bytes that reached the channel are a prefix of the bytes written, and the writer reports flushed only after everything written before the flush request reached the channel.", "quantifier": "all schedules of writes, flush requests and partial-write sizes", "why_tests_cant": "schedules are unbounded", "anchors": ["milter/core/milter-writer.c:milter_writer_write", "milter/core/milter-writer.c:write_watch_func", "milter/core/milter-writer.c:milter_writer_flush"]}
{"id": "C23", "title": "The manager answers each command once, after all milters answered", "statement": "In the session phases handled in parallel (connect, helo, envelope-from, envelope-recipient, data, unknown), the manager reports exactly one reply to the MTA per command, and only once every live milter has answered, failed or timed out, in whatever order that happens.", "quantifier": "all sets of milters, all orders and kinds of answers", "why_tests_cant": "interleavings of replies are factorial", "anchors": ["milter/manager/milter-manager-children.c:remove_child_from_queue", "milter/manager/milter-manager-children.c:init_reply_queue", "milter/manager/milter-manager-children.c:cb_continue"]}
{"id": "C24", "title": "The reply to the MTA is the most severe of the milters' replies", "statement": "The single reply the manager reports for a parallel phase is the maximum, in the severity order, of the decisions of the milters, with a failed milter counting as its configured fallback, independent of the order of arrival.", "quantifier": "all sets of milters, all answers and all arrival orders", "why_tests_cant": "orders are factorial", "anchors": ["milter/manager/milter-manager-children.c:compile_reply_status", "milter/manager/milter-manager-children.c:emit_reply_status_of_state"]}
{"id": "C25", "title": "A failed milter counts as its fallback and is never consulted again", "statement": "When a milter times out, errors or disconnects, its configured fallback status enters the decision for the current phase, the session goes on, and that milter receives no further command in the session.", "quantifier": "all crash points and all subsequent commands", "why_tests_cant": "crash points and continuations unbounded", "anchors": ["milter/manager/milter-manager-children.c:expire_child", "milter/manager/milter-manager-children.c:cb_error", "milter/manager/milter-manager-children.c:cb_writing_timeout", "milter/manager/milter-manager-children.c:cb_reading_timeout", "milter/manager/milter-manager-children.c:cb_end_of_message_timeout"]}
{"id": "C26", "title": "A milter in evaluation mode cannot influence the session", "statement": "Replacing the replies of a milter marked as evaluation mode by plain continue replies leaves everything the MTA sees unchanged.", "quantifier": "all sessions, all behaviours of the evaluation-mode milter", "why_tests_cant": "behaviours and sessions unbounded", "anchors": ["milter/manager/milter-manager-children.c:cb_reject", "milter/manager/milter-manager-children.c:cb_temporary_failure", "milter/manager/milter-manager-children.c:cb_discard", "milter/manager/milter-manager-children.c:cb_accept", "milter/manager/milter-manager-child.c:milter_manager_child_is_evaluation_mode"]}
{"id": "C27", "title": "Message modifications are accepted only at end of message", "statement": "A header/recipient/sender/body/quarantine modification reported by a milter before end-of-message has no effect on the message and makes the manager drop that milter.", "quantifier": "all phases and all modification requests", "why_tests_cant": "needs every reachable state", "anchors": ["milter/manager/milter-manager-children.c:cb_add_header", "milter/manager/milter-manager-children.c:cb_replace_body", "milter/manager/milter-manager-children.c:cb_change_from", "milter/server/milter-server-context.c:cb_decoder_add_header"]}
{"id": "C28", "title": "Milters are chained: each sees the message as left by its predecessors", "statement": "During message content each milter is sent, in configuration order, the header list and the body as edited by the milters before it, one command at a time, and the next milter starts only when the previous one has given its end-of-message reply.", "quantifier": "all messages, all milter lists, all edits", "why_tests_cant": "unbounded messages and lists", "anchors": ["milter/manager/milter-manager-children.c:send_first_command_to_next_child", "milter/manager/milter-manager-children.c:send_next_header_to_child", "milter/manager/milter-manager-children.c:send_body_to_child"]}
{"id": "C29", "title": "The body handed to the next milter is the stored body, in chunks", "statement": "The chunks replayed to a later milter concatenate to the stored body and none exceeds the configured chunk size, whether the body is held in memory or was spilled to a file.", "quantifier": "all bodies, all chunk sizes", "why_tests_cant": "unbounded sizes; spill boundary at 5 MiB", "anchors": ["milter/manager/milter-manager-children.c:milter_manager_children_body_save", "milter/manager/milter-manager-children.c:send_body_to_child"]}
{"id": "C30", "title": "Nothing of one message leaks into the next message of the session", "statement": "After the reply to end-of-message or an abort, headers, body, replaced body, changed sender, quarantine reason and collected statuses of that message have no effect on the next message in the same session.", "quantifier": "all message sequences in a session", "why_tests_cant": "histories unbounded", "anchors": ["milter/manager/milter-manager-children.c:dispose_message_related_data", "milter/client/milter-client-context.c:milter_client_context_reset_message_related_data"]}
{"id": "C31", "title": "The manager's negotiation reply covers all milters", "statement": "The option reported to the MTA never suppresses an event (no-event bits are always cleared), grants skip-like capabilities only if the MTA offered them and some milter asked, and asks for no protocol version above the supported one.", "quantifier": "all milter option sets and MTA options", "why_tests_cant": "flag space and milter lists unbounded", "anchors": ["milter/manager/milter-manager-children.c:reply_negotiate", "milter/manager/milter-manager-children.c:milter_manager_children_negotiate"]}
{"id": "C32", "title": "At most one command is outstanding per milter", "statement": "A server context refuses (busy) to send a command while it is waiting for the reply to an earlier one; only abort and quit may be sent at any time.", "quantifier": "all histories of calls and replies", "why_tests_cant": "histories unbounded", "anchors": ["milter/server/milter-server-context.c:write_packet", "milter/server/milter-server-context.c:milter_server_context_is_processing"]}
{"id": "C33", "title": "A milter that was told to quit is never listened to again", "statement": "After quit was sent to a milter, none of its later replies is reported, whatever it sends.", "quantifier": "all later reply sequences", "why_tests_cant": "unbounded continuation", "anchors": ["milter/server/milter-server-context.c:check_reply_after_quit", "milter/server/milter-server-context.c:cb_decoder_*"]}
{"id": "C34", "title": "Replies are reported only when the protocol state allows them", "statement": "A modification reply is reported only in end-of-message state and skip only in body state; in any other state it produces an invalid-state error instead.", "quantifier": "all states and replies", "why_tests_cant": "needs all reachable states", "anchors": ["milter/server/milter-server-context.c:cb_decoder_add_header", "milter/server/milter-server-context.c:cb_decoder_skip", "milter/server/milter-server-context.c:invalid_state"]}
{"id": "C35", "title": "Steps the milter negotiated away are never sent", "statement": "If the negotiated step flags disable an event, the corresponding command is never written to that milter and is instead answered with continue (skip for body) on its behalf.", "quantifier": "all step words and command sequences", "why_tests_cant": "flag space and sequences unbounded", "anchors": ["milter/server/milter-server-context.c:milter_server_context_is_enable_step", "milter/server/milter-server-context.c:milter_server_context_connect"]}
{"id": "C36", "title": "Recipients a milter refused are excluded from its message", "statement": "For each recipient, after the milter's reply the recipient is counted accepted, temporarily failed or rejected exactly according to that reply, and a milter with no accepted recipient is not given the message.", "quantifier": "all sequences of recipients and replies", "why_tests_cant": "unbounded sequences", "anchors": ["milter/server/milter-server-context.c:milter_server_context_envelope_recipient", "milter/server/milter-server-context.c:milter_server_context_has_accepted_recipient", "milter/core/milter-message-result.c:milter_message_result_remove_recipient"]}
{"id": "C37", "title": "A milter receives exactly the body bytes of the current message", "statement": "The body packets a server context writes for a message concatenate to the body chunks passed to it for that message, for chunks of any size.", "quantifier": "all chunk sequences of any sizes, all flush schedules, aborts at any point", "why_tests_cant": "unbounded sizes and schedules", "anchors": ["milter/server/milter-server-context.c:milter_server_context_body", "milter/server/milter-server-context.c:flush_body", "milter/server/milter-server-context.c:reset_message_related_data"]}
{"id": "C38", "title": "The SMTP reply sent to the MTA matches the decision", "statement": "When the decision for a command is temporary-failure the MTA receives a temporary-failure or 4xx reply, when it is reject the MTA receives reject or a 5xx reply, never the opposite class.", "quantifier": "all histories of custom replies and decisions in a session", "why_tests_cant": "needs history of a session", "anchors": ["milter/client/milter-client-context.c:create_reply_packet", "milter/client/milter-client-context.c:milter_client_context_set_reply"]}
{"id": "C39", "title": "Message modifications are sent only when negotiated and in the right state", "statement": "A modification request on the MTA-facing context writes a packet only in end-of-message state and only if the corresponding action flag was negotiated; otherwise it fails and writes nothing.", "quantifier": "all states, options and requests", "why_tests_cant": "2^32 options times all states", "anchors": ["milter/client/milter-client-context.c:validate_state", "milter/client/milter-client-context.c:validate_action", "milter/client/milter-client-context.c:milter_client_context_add_header"]}
{"id": "C40", "title": "Buffered modifications reach the MTA before the final reply and in order", "statement": "With any packet buffer size, the bytes written to the MTA for an end-of-message are the modification packets in call order, then quarantine if any, then the final reply, and no modification is written for a message that was aborted.", "quantifier": "all modification sequences, all buffer sizes, all sizes of packets", "why_tests_cant": "sizes and sequences unbounded", "anchors": ["milter/client/milter-client-context.c:write_packet_on_end_of_message", "milter/client/milter-client-context.c:flush", "milter/client/milter-client-context.c:reply_on_end_of_message"]}
{"id": "C41", "title": "The leader turns each manager decision into a reply to the pending command", "statement": "A decision reported by the milters' aggregate is sent as the response of the command the MTA is waiting on, moves the leader to the replied state of that command, and a second decision for the same command is an error that sends nothing.", "quantifier": "all command/decision histories", "why_tests_cant": "histories unbounded", "anchors": ["milter/manager/milter-manager-leader.c:reply", "milter/manager/milter-manager-leader.c:next_state", "milter/manager/milter-manager-leader.c:milter_manager_leader_end_of_message"]}
{"id": "C42", "title": "Control protocol packets survive encode then decode", "statement": "Every control command and every control reply the encoder can produce is decoded back to the same request or reply with the same payload.", "quantifier": "all payloads", "why_tests_cant": "unbounded payload strings", "anchors": ["milter/manager/milter-manager-control-command-encoder.c", "milter/manager/milter-manager-control-command-decoder.c", "milter/manager/milter-manager-control-reply-encoder.c", "milter/manager/milter-manager-control-reply-decoder.c", "milter/manager/milter-manager-reply-decoder.c"]}
{"id": "C43", "title": "Launch requests survive encode then decode", "statement": "A launch request for any command line and optional user name is decoded to the same command line and user name.", "quantifier": "all strings", "why_tests_cant": "unbounded strings", "anchors": ["milter/manager/milter-manager-launch-command-encoder.c", "milter/manager/milter-manager-launch-command-decoder.c"]}
{"id": "C44", "title": "A decision from several signal handlers is the last one before a final decision", "statement": "When several handlers are attached to one event, a handler returning not-change leaves the accumulated decision, the first handler that returns anything other than not-change/default/continue/all-options ends the emission and is the result.", "quantifier": "all handler lists and return values", "why_tests_cant": "unbounded lists", "anchors": ["milter/client/milter-client-context.c:status_accumulator"]}
{"id": "C45", "title": "Merging milter definitions keeps unspecified settings", "statement": "Merging a milter definition into another replaces the connection spec, description, user and command only where the other one specifies them, always takes timeouts, enabled flag and conditions from the other, and leaves the definition untouched when the other's connection spec is invalid.", "quantifier": "all pairs of definitions", "why_tests_cant": "product of unbounded fields", "anchors": ["milter/manager/milter-manager-egg.c:milter_manager_egg_merge"]}
{"id": "C46", "title": "Each command is answered according to the failing milters at negotiation", "statement": "If some milters cannot be reached at negotiation, the session proceeds with the rest unless the most severe fallback among the unreachable ones is reject, temporary-failure or discard, in which case no reached milter is used.", "quantifier": "all subsets of failing milters and fallbacks", "why_tests_cant": "subsets exponential", "anchors": ["milter/manager/milter-manager-children.c:check_fallback_status_on_negotiate"]}
{"id": "C47", "title": "No flush request is forgotten when packets are written through the agent", "statement": "When every flush request follows a non-empty write (as when packets are written through the agent) and the channel reports no error, a writer that has no callback left to run has reported flushed at a moment when everything written had been sent, with nothing written or requested since.", "quantifier": "all schedules of packet writes, partial-write sizes, flush retries and packets written from inside the flushed handler", "why_tests_cant": "schedules are unbounded", "anchors": ["milter/core/milter-writer.c:milter_writer_flush", "milter/core/milter-writer.c:flush_watch_func", "milter/core/milter-agent.c:milter_agent_write_packet"]}
{"id": "C48", "title": "Macros sent along with a command", "statement": "Before each command the macros sent to a milter are exactly those defined for that stage and, if the milter asked for particular macros at that stage, only those it asked for; a command for which nothing is left to send is not preceded by a macro definition.", "quantifier": "all macro tables, all stages, all lists of requested macros", "why_tests_cant": "sets of macros and requests are unbounded", "anchors": ["milter/server/milter-server-context.c:prepend_macro", "milter/server/milter-server-context.c:filter_macros"]}
{"id": "C49", "title": "A refusal ends the message for every milter, a refused recipient does not", "statement": "When the decision about the sender or DATA is a refusal, or any decision is to discard, the message ends for every milter: each milter still taking part is told to abort and none takes part afterwards. After any other decision, in particular a refused recipient, everyone who wants to go on takes part and nobody is told to abort.", "quantifier": "all sets of milters, all answers and all arrival orders", "why_tests_cant": "orders are factorial", "anchors": ["milter/manager/milter-manager-children.c:remove_child_from_queue", "milter/manager/milter-manager-children.c:milter_manager_children_abort"]}
{"id": "C50", "title": "Each command is answered by exactly one reply, for the milter's decision", "statement": "In a session on the milter side, each command of the MTA is answered by exactly one reply, the one that says the milter's decision, after the modifications of an ended message and before anything written for the next command; commands without an answer get none.", "quantifier": "all sessions, all lists of handlers with any calls and decisions", "why_tests_cant": "sessions and handler lists are unbounded", "anchors": ["milter/client/milter-client-context.c:reply", "milter/client/milter-client-context.c:reply_on_end_of_message", "milter/client/milter-client-context.c:cb_decoder_envelope_from"]}
{"id": "C51", "title": "Data kept for a message is gone when the next message starts", "statement": "Values a milter stores for a mail transaction, and macros defined for it, are not visible in the next transaction of the same session, while macros of the connection stay.", "quantifier": "all sessions, all ways a message can end", "why_tests_cant": "histories are unbounded", "anchors": ["milter/client/milter-client-context.c:milter_client_context_reset_message_related_data", "milter/client/milter-client-context.c:milter_client_context_set_mail_transaction_shelf_value"]}
{"id": "C52", "title": "The wait for the next command is limited, the milter's work is not", "statement": "The timeout of a milter's session runs only while the milter waits for the MTA: it never ends a session while the milter is at work on a command, and it is running after each reply.", "quantifier": "all sessions, all calls made while working, all moments the timer may fire", "why_tests_cant": "schedules are unbounded", "anchors": ["milter/client/milter-client-context.c:cb_timeout", "milter/client/milter-client-context.c:write_packet_without_error_handling"]}
{"id": "C53", "title": "The MTA reads exactly one reply per command, the milters' most severe decision", "statement": "In a whole session (MTA connection, leader, milters), when the MTA sends a command that goes to all milters at once (CONNECT, HELO, MAIL, RCPT, DATA, unknown), nothing is written to the MTA until every milter it was meant for has answered or failed, and then exactly one reply packet is written for it, which decodes to the most severe of the milters' decisions, with the reply code that goes with it.", "quantifier": "every reachable state of a session at rest, every number of milters, every such command and every order of flushes, answers, failures, timeouts and disconnections", "why_tests_cant": "The result depends on the interleaving of answers and failures of any number of milters and on everything that was said on the session before; tests with a fixed set of milters only see a few of them.", "anchors": ["/repo/milter/manager/milter-manager-leader.c: reply, cb_reply_code, cb_error", "/repo/milter/manager/milter-manager-children.c: remove_child_from_queue, emit_reply_status_of_state", "/repo/milter/client/milter-client-context.c: reply, create_reply_packet"]}
{"id": "C54", "title": "Each milter has one definition, the one the configuration files built up", "statement": "After any sequence of define_milter and remove_milter statements a milter name is defined at most once; looking the name up gives what its latest definition made of the definition that was in force before it (a fresh one if there was none), and statements about other names change nothing about it.", "quantifier": "all sequences of definitions and removals, all names and all changes a block makes", "why_tests_cant": "The result depends on the whole history of statements over unboundedly many names.", "anchors": ["milter/manager/milter-manager-configuration.c:milter_manager_configuration_find_egg, milter_manager_configuration_remove_egg_by_name, milter_manager_configuration_add_egg", "binding/ruby/lib/milter/manager.rb:EggConfigurationLoader"]}
{"id": "C55", "title": "A session consults exactly the enabled, reachable-by-spec milters with their own settings", "statement": "When a session starts, the milters it consults are the enabled definitions with a connection spec, in configuration order, each with the name, timeouts, user, command, fallback status, evaluation mode and conditions of its definition and the address its connection spec denotes.", "quantifier": "all configurations", "why_tests_cant": "lists of any length and every combination of set and unset fields", "anchors": ["milter/manager/milter-manager-configuration.c:milter_manager_configuration_setup_children", "milter/manager/milter-manager-egg.c:milter_manager_egg_hatch"]}
{"id": "C56", "title": "What the MTA reads in answer to a whole message", "statement": "When the MTA sends a message and every milter answers continue and makes its modification requests at the end of the message, the MTA reads exactly one continue for every header, for the end of the headers and for every piece of the body; and in answer to the end of the message it reads the modifications the requests of all milters together amount to, as far as the MTA granted them at negotiation, each once and in order (recipients, body, headers, sender, quarantine), then continue, and nothing else but progress reports.", "quantifier": "all sessions and histories before the message, all numbers of milters, all messages (any number of headers and body pieces) and all lists of modification requests of each milter", "why_tests_cant": "It composes the milter chain, the leader and the buffering of the MTA's connection over messages and chains of unbounded size.", "anchors": ["milter/manager/milter-manager-children.c:milter_manager_children_header, emit_header_signals, emit_replace_body_signal, cb_continue", "milter/manager/milter-manager-leader.c:milter_manager_leader_end_of_message, reply", "milter/client/milter-client-context.c:milter_client_context_add_header, reply_on_end_of_message"]}
{"id": "C57", "title": "After the message the MTA's copy is what the milters made of it", "statement": "An MTA that grants all kinds of changes and applies the replies it reads at the end of a message to its copy of the message ends up with the message the last milter of the chain left: the same headers with the same multiplicities, the body, the envelope sender, the recipients and the quarantine reason.", "quantifier": "all sessions, chains of milters, messages with distinct header names, and modification requests", "why_tests_cant": "The replies are a difference computed against the original message; whether applying it gives the final message has to hold for every message and every sequence of edits.", "anchors": ["milter/manager/milter-manager-children.c:emit_header_signals, emit_replace_body_signal, emit_signals_on_end_of_message", "milter/manager/milter-manager-leader.c:cb_insert_header, cb_change_header, cb_delete_header, cb_replace_body", "milter/client/milter-client-context.c:milter_client_context_insert_header, milter_client_context_replace_body"]}
{"id": "C58", "title": "A string of flag names sets exactly the flags it says", "statement": "For a string such as \"+debug|-info\" given for log levels or items: a flag is set in the result exactly if the last name in the list that stands for it adds it, or, if no name stands for it, if the list begins with a sign and the flag was set before; names that are not known are reported, all of them and in order. The name of an enumeration value denotes that value.", "quantifier": "all flag classes, all lists of names with and without signs, all flags set before and all default flags", "why_tests_cant": "Lists of any length, in which later names undo earlier ones; tests look at a dozen strings.", "anchors": ["milter/core/milter-utils.c:milter_utils_flags_from_string, milter_utils_enum_from_string, milter_utils_get_enum_nick_name"]}
{"id": "C59", "title": "A log message is written exactly where its level was asked for", "statement": "After any sequence of changes of log levels, by value or by name, of the logger and the syslog logger, and of other parties' interests, a message is written to the log exactly if its level is among those last asked for (or the default ones), and to syslog exactly if its level is among those asked for there (or, by default, those anybody wants); in particular the check that saves formatting a message nobody wants never suppresses one that is wanted.", "quantifier": "all histories of calls, all levels", "why_tests_cant": "The combined level is maintained incrementally over histories of any length by several parties.", "anchors": ["milter/core/milter-logger.c:milter_logger_set_target_level, milter_logger_set_target_level_by_string, milter_logger_set_interesting_level, milter_logger_default_log_handler", "milter/core/milter-syslog-logger.c:milter_syslog_logger_set_target_level, cb_log"]}
{"id": "C60", "title": "Every session is counted and let go exactly once", "statement": "From the moment a connection is accepted until its session is let go, the session is counted as one; each session is let go at most once, never before it ended, and an ended session has been let go when the event loop next comes to rest; the number of sessions reported to maintenance and used for the limit is exactly the number of sessions accepted and not yet let go.", "quantifier": "all histories of connections, starts that fail, ends, idle moments, changes of configuration and shutdowns, in all run modes", "why_tests_cant": "Counters and lists are updated from several callbacks, in any order and for any number of sessions.", "anchors": ["milter/client/milter-client.c:single_thread_process_client_channel, cb_finished, finish_processing, dispose_finished_data, milter_client_dispose"]}
{"id": "C61", "title": "max-connections is a limit, and the only reason not to accept", "statement": "With max-connections set, there are never more sessions than that, and a waiting connection is accepted exactly when there are fewer, as soon as one ends (doc: a new connection waits until an existing one is closed).", "quantifier": "all histories, limits and run modes", "why_tests_cant": "The limit has to hold at every moment of every history, and waiting must end in every one.", "anchors": ["milter/client/milter-client.c:accept_connection_fd, server_watch_func, worker_accept_watch_func", "doc/configuration.rd:manager.max_connections"]}
{"id": "C62", "title": "Maintenance happens once per so many sessions, and when nothing is going on", "statement": "When sessions are let go, maintenance is asked for exactly if no session is left, or there is a maintenance interval and a multiple of it is reached by the number of sessions processed; with an interval of 0 it never happens (doc/configuration.rd); and the number of sessions let go is reported.", "quantifier": "all histories of fewer than 2^32 connections and all intervals", "why_tests_cant": "Sessions are let go in batches of any size, so multiples can be passed rather than met.", "anchors": ["milter/client/milter-client.c:milter_client_need_maintain, dispose_finished_data, milter_client_maintain"]}
{"id": "C63", "title": "A shutdown ends the client as soon as, and not before, all sessions have ended", "statement": "After a shutdown is asked for no connection is accepted, the sessions being served go on to their ends, and the event loop is told to quit exactly when the last has been let go (at once if there is none).", "quantifier": "all histories before and after the shutdown", "why_tests_cant": "The decision is taken in several callbacks on the basis of a counter; every order of ends has to lead to exactly one quit.", "anchors": ["milter/client/milter-client.c:milter_client_shutdown, finish_processing, dispose_finished_data"]}
{"id": "C64", "title": "A connection that cannot be accepted does no harm", "statement": "If accepting a connection fails for whatever reason, it is reported (unless there was nothing to accept), nothing else changes, and later connections are accepted as before.", "quantifier": "all states of the client and all reasons", "why_tests_cant": "The failure can come at any moment of any history; afterwards everything has to be as before.", "anchors": ["milter/client/milter-client.c:accept_connection_fd, server_accept, server_watch_func, worker_accept_watch_func"]}
{"id": "C65", "title": "The periodical check never touches a session that is gone, and each session object is let go once", "statement": "Whatever the order in which sessions begin, end of themselves, or are ended because the check finds their SMTP client gone, each leader is let go at most once and only after its session ended, the check never follows a list node that was removed, and a session that ended is not checked any more.", "quantifier": "all histories of sessions, checks and changes of the interval", "why_tests_cant": "The position at which the next check continues is a pointer into a list that changes between and during checks.", "anchors": ["milter/manager/milter-manager.c:connection_check, cb_leader_finished, dispose_finished_leaders, connection_established"]}
{"id": "C66", "title": "Every session gets its turn in the periodical check, at the interval configured", "statement": "While sessions exist and an interval is configured, the check is scheduled, at the interval configured when the last session began; and each session that lasts is checked after a number of checks bounded by the number of sessions, although only 30 are looked at each time and new sessions are put in front.", "quantifier": "all histories of sessions, checks and changes of the interval, all numbers of sessions", "why_tests_cant": "Fairness under any interleaving with an unbounded number of sessions.", "anchors": ["milter/manager/milter-manager.c:connection_check, start_periodical_connection_checker, dispose_periodical_connection_checker, cb_leader_finished"]}
{"id": "C67", "title": "A filter written for libmilter gets the callbacks due, in order, with the data of the session", "statement": "For commands in the order of SMTP, a filter registered with smfi_register has its callbacks called for each command, in order, with the arguments of the command, and no others: the whole body is given to xxfi_body, xxfi_eom is called at the end of the message unless the filter decided on its last chunk, xxfi_abort exactly for messages that began and are aborted, and xxfi_close at the end of the session, once, after which nothing is called any more.", "quantifier": "all filters (any programs as callbacks), all command sequences of any length, timeouts and hang-ups at any point", "why_tests_cant": "Callbacks are arbitrary programs and sessions unbounded; which callbacks are called depends on the state left by all earlier commands.", "anchors": ["libmilter/libmilter-compatible.c:setup_client_context_signals, cb_end_of_message, cb_abort, cb_finished"]}
{"id": "C68", "title": "The MTA reads for each command what the filter's callbacks said", "statement": "Whatever a libmilter filter does in its callbacks, the MTA reads for each command exactly one answer, the one for the value returned last, with the custom reply the filter set last; at the end of a message first the modifications the filter made, in order, and the quarantine; nothing for macros and aborts.", "quantifier": "all filters, all sessions, all commands", "why_tests_cant": "A callback may call the library any number of times and depend on what the calls return; replies set earlier stay in force.", "anchors": ["libmilter/libmilter-compatible.c:libmilter_compatible_convert_status_to, cb_connect .. cb_abort, smfi_setreply .. smfi_quarantine", "milter/client/milter-client-context.c:reply"]}
{"id": "C69", "title": "A libmilter filter is negotiated for what it registered", "statement": "The MTA's offer is answered with the actions and steps the filter chose in xxfi_negotiate, with everything offered if it asks for that, or with a refusal; without xxfi_negotiate with the actions of xxfi_flags and only those steps left out that the filter has no callbacks for; macros asked for with smfi_setsymlist are requested from the MTA.", "quantifier": "all filters, all offers of the MTA", "why_tests_cant": "All combinations of offer, flags and callbacks.", "anchors": ["libmilter/libmilter-compatible.c:cb_negotiate, smfi_setsymlist", "milter/client/milter-client-context.c:negotiate_response"]}
{"id": "C70", "title": "A call of the libmilter library succeeds exactly if it takes effect", "statement": "smfi_setreply and smfi_setmlreply succeed exactly for a legal code and enhanced code, and lines of at most 980 bytes without carriage return; a modification succeeds exactly at the end of a message, with its arguments, and if the MTA agreed to it in the negotiation.", "quantifier": "all filters, sessions, codes, texts and numbers of lines", "why_tests_cant": "The result depends on the state of the session and on unbounded strings.", "anchors": ["libmilter/libmilter-compatible.c:smfi_setreply, smfi_setmlreply, smfi_addheader .. smfi_quarantine"]}
{"id": "C71", "title": "The settings of a libmilter process are those of the last legal calls", "statement": "After any sequence of smfi_register, smfi_setconn, smfi_setbacklog, smfi_settimeout and smfi_setdbg, each setting is the one of the last call for it that was legal, a refused call changes nothing, and a higher debug level writes at least the messages a lower one does, level 0 none.", "quantifier": "all sequences of calls with all arguments", "why_tests_cant": "Any history of calls.", "anchors": ["libmilter/libmilter-compatible.c:smfi_register, smfi_setconn, smfi_setbacklog, smfi_settimeout, smfi_setdbg, libmilter_compatible_reset"]}
{"id": "C72", "title": "The reader hands on what the peer sent, in order and completely", "statement": "Whatever the sizes of reads, the cuts of the network and the order of events, the bytes a reader hands on are at each moment a prefix of those the peer has sent; when it says that it has finished without an error, everything the peer sent was handed on; and once the peer has hung up it does finish.", "quantifier": "all byte sequences, all ways they arrive, all results of reads, all schedules of the event loop", "why_tests_cant": "The result depends on how the kernel cuts the stream and on the order in which the event loop reports input and hang-up.", "anchors": ["core/milter-reader.c:read_watch_func, error_watch_func, read_from_channel"]}
{"id": "C73", "title": "A reader ends once and touches nothing after it", "statement": "A reader says at most once that it has finished and hands on nothing after that; after a request to stop it hands on nothing more; it never uses memory its owner has released.", "quantifier": "all histories of starts, arrivals, reads, errors, hang-ups and shutdowns", "why_tests_cant": "Needs every interleaving; use of freed memory is usually not visible in a test.", "anchors": ["core/milter-reader.c:finish, milter_reader_shutdown", "core/milter-agent.c:cb_reader_finished"]}
{"id": "C74", "title": "What one agent encodes the other decodes, over any network", "statement": "Commands (and replies) that one side encodes and gives to its writer are decoded by the other side in the same order and with the same contents, whatever the sizes of writes and reads and the cuts of the network; at each moment a prefix of them, and all of them in the end.", "quantifier": "all lists of legal commands and replies, all schedules of writer and reader, all cuts of the stream", "why_tests_cant": "The product of two schedules with unbounded messages.", "anchors": ["core/milter-writer.c", "core/milter-reader.c", "core/milter-decoder.c", "core/milter-command-encoder.c", "core/milter-reply-encoder.c"]}
{"id": "C75", "title": "Callbacks of a libmilter filter run as written, with the private data and macros of their session", "statement": "Every callback of a filter written for libmilter runs as the filter wrote it, with the arguments of the command; smfi_getpriv gives what the last smfi_setpriv of this session set, in whichever callback it was, and NULL before; smfi_getsymval gives the values the MTA had defined till then; the result of every other call is that of the call.", "quantifier": "all filters (any deterministic program in each callback), all sequences of commands and timeouts of a session", "why_tests_cant": "A filter is an arbitrary program and a session an arbitrary sequence of commands; the state flows through both.", "anchors": ["libmilter/libmilter-compatible.c:smfi_getpriv, smfi_setpriv, smfi_getsymval, cb_*", "core/milter-protocol-agent.c:milter_protocol_agent_get_macro"]}
{"id": "C76", "title": "Sources of the event loop are called while they are there, and are removed and told of exactly once", "statement": "Every source added to the event loop gets an id that is not 0 and not that of any source there is; only sources that are there are called, and they can be called as long as they are there; a source goes when it is removed by its id, when its function returns FALSE, and, for child processes, after one call, and never otherwise; each removal is told exactly once, and at once.", "quantifier": "all histories in which functions add and remove sources and run and quit the loop, nested in any way", "why_tests_cant": "Ids come round after 2^32 sources; functions called by the loop may remove themselves and others, to any depth.", "anchors": ["core/milter-libev-event-loop.c:add_watcher, remove_watcher, destroy_watcher, io_func, child_func, timer_func, idle_func", "core/milter-event-loop.c:milter_event_loop_remove"]}
{"id": "C77", "title": "Quitting the event loop ends the innermost run", "statement": "Runs of the event loop may be nested; each quit is for the innermost run that was not told to quit yet, and is refused if there is none; a run leaves if and only if it was told to, at its next turn.", "quantifier": "all histories of runs, quits and calls of sources, nested in any way", "why_tests_cant": "The counter and the saved depths must agree after every nesting of runs and quits.", "anchors": ["core/milter-event-loop.c:milter_event_loop_run_without_custom, milter_event_loop_quit"]}
{"id": "C78", "title": "A reader reports failures and ends for the right reasons", "statement": "A started reader says an error exactly when a read fails or the event loop reports one that is not just a hang-up, and then ends at once; it ends also at the end of the connection and when it is asked to stop; otherwise it goes on.", "quantifier": "all histories of starts, arrivals, reads of any size and result, errors, hang-ups and requests to stop", "why_tests_cant": "Depends on the result of every read and on when handlers ask the reader to stop.", "anchors": ["core/milter-reader.c:read_from_channel, read_watch_func, error_watch_func, finish, milter_reader_shutdown"]}
{"id": "C79", "title": "A reload is like a restart", "statement": "After a reload the configuration in force is what the configuration files on disk, read from the default settings, say (with the command line on top), whatever was in force before and however often the files were changed and read.", "quantifier": "all files, all contents of files as sequences of settings, all previous configurations and all histories of file changes, reloads and controller commands", "why_tests_cant": "Depends on every setting having a place in the reset and on the history of earlier files.", "anchors": ["manager/milter-manager-configuration.c:milter_manager_configuration_reload, milter_manager_configuration_clear, find_file, load_custom_if_exist", "manager/milter-manager.c:milter_manager_reload"]}
{"id": "C80", "title": "A reload that fails keeps the configuration in force", "statement": "If the configuration file cannot be read, a reload is reported as failed and the milters and settings in force stay in force; when the file is back, the next reload takes it.", "quantifier": "all configurations in force, all states of the files", "why_tests_cant": "Needs every configuration and every way of failing.", "anchors": ["manager/milter-manager-configuration.c:milter_manager_configuration_reload"]}
{"id": "C81", "title": "A saved custom configuration is the one that is loaded", "statement": "After a custom configuration was saved successfully, the next reload runs exactly it after the main configuration; if it cannot be saved, nothing on disk changes.", "quantifier": "all contents, load paths, permissions and files that are already there", "why_tests_cant": "Depends on the load path and on what is in each of its directories.", "anchors": ["manager/milter-manager-configuration.c:milter_manager_configuration_save_custom, load_custom_if_exist, find_file"]}
{"id": "C82", "title": "The command line wins over the configuration file", "statement": "An option given on the command line is in force from the start on, whatever the configuration files say and however often they are reloaded.", "quantifier": "all command lines, files, and histories of reloads", "why_tests_cant": "Every option against every file and every history.", "anchors": ["manager/milter-manager-main.c:apply_command_line_options, milter_manager_init, milter_manager_main", "manager/milter-manager.c:milter_manager_reload, apply_custom_..."]}
{"id": "C83", "title": "The controller's reply says what happened", "statement": "Each command to the controller gets a reply of success exactly if it took effect: a configuration was saved, or the configuration was reloaded; otherwise the reply is an error and nothing has changed. Questions change nothing.", "quantifier": "all states of manager and files, all commands", "why_tests_cant": "Every failure of every command.", "anchors": ["manager/milter-manager-controller-context.c:cb_decoder_set_configuration, cb_decoder_reload, cb_decoder_get_configuration"]}
{"id": "C84", "title": "Privileges are dropped only by root", "statement": "A manager that was not started by root does not run in privilege mode, whatever its files say.", "quantifier": "all files, command lines and environments", "why_tests_cant": "Needs every configuration file.", "anchors": ["manager/milter-manager-main.c:milter_manager_main"]}
{"id": "C85", "title": "The XML of the configuration says what the configuration is", "statement": "The XML the controller hands out is a well-formed document that reads as exactly the milters and conditions in force, with their settings and in their order, whatever characters names, descriptions, specs and commands contain.", "quantifier": "all configurations and all byte strings in them", "why_tests_cant": "Escaping must be right for every string; no text may open or close an element.", "anchors": ["manager/milter-manager-configuration.c:milter_manager_configuration_to_xml_string", "manager/milter-manager-egg.c:milter_manager_egg_to_xml_string", "core/milter-utils.c:milter_utils_xml_append_text_element"]}
{"id": "C86", "title": "What the controller hands out can be handed back", "statement": "The XML of a configuration, handed back as the custom configuration, restores every milter as it was.", "quantifier": "all configurations to hand out and all configurations to load into", "why_tests_cant": "All combinations of settings of a milter and of what is there already.", "anchors": ["binding/ruby/lib/milter/manager.rb:XMLConfigurationLoader, EggConfigurationLoader", "manager/milter-manager-configuration.c:milter_manager_configuration_to_xml_string"]}
{"id": "C87", "title": "An agent ends once", "statement": "However it ends - end of file, an error, a shut down asked for by its owner or by a handler of one of its signals - an agent says that it has finished exactly once, decodes nothing after that, and says so as soon as there is a reason.", "quantifier": "all histories of reads, writes, errors and calls, all behaviours of handlers, which may call the agent again from inside", "why_tests_cant": "Reentrant calls at every point of every history.", "anchors": ["core/milter-agent.c:milter_agent_start, milter_agent_shutdown, cb_reader_finished, cb_reader_error, cb_writer_error", "core/milter-reader.c:milter_reader_shutdown"]}
{"id": "C88", "title": "Privileges are dropped, completely and for good", "statement": "A milter or manager started by root serves its peers only as the configured user and in the configured group and that user's groups; it can never become anything else again; if it cannot become that user it does not serve at all; its socket belongs to that user.", "quantifier": "all databases of users and groups, all configured users and groups, all refusals of the kernel, all later system calls", "why_tests_cant": "The claim is about everything the process could do later, and tests do not run as root.", "anchors": ["client/milter-client.c:milter_client_drop_privilege, switch_user, switch_group, find_password", "manager/milter-manager-main.c:milter_manager_main"]}
{"id": "C89", "title": "The process launcher starts a command once, as the user asked for, and says so", "statement": "Each request gets exactly one reply, of success exactly if a process was started; at no time do two processes run the same command line; a command that ended can be started again; a command runs as the user asked for or not at all.", "quantifier": "all histories of requests and of processes that end, all databases of users, all refusals of the kernel", "why_tests_cant": "All histories and all failures between fork and exec.", "anchors": ["manager/milter-manager-process-launcher.c:launch, setup_child, is_already_launched, child_watch_func, cb_decoder_launch"]}
{"id": "C90", "title": "A condition decides whether a milter is applied, with what it is told", "statement": "At each event of a session a milter is stopped if and only if some block for the event, of some condition attached to it, returns true; blocks are asked in order, each is given what the event carries, sees the macros of the event and those earlier blocks wrote; a block that raises does not stop the milter; a milter with no block for an event is not affected.", "quantifier": "all lists of conditions, all blocks, all events, all macros", "why_tests_cant": "Blocks are arbitrary code and may write macros other blocks read.", "anchors": ["binding/ruby/lib/milter/manager.rb:Milter::Manager::ApplicableCondition, setup stoppers", "server/milter-server-context.c:stop_on_accumulator"]}
{"id": "C91", "title": "\"Remote Network\" stops exactly the clients that are not remote", "statement": "With the condition Remote Network a milter is stopped at the connection if and only if the client's address is known and local: not in a network declared remote and either local by nature (loopback, private, link local, UNIX socket) or in a network declared local.", "quantifier": "all addresses, all lists of declared networks", "why_tests_cant": "All addresses of IPv4 and IPv6 and all prefix lengths.", "anchors": ["data/applicable-conditions/remote-network.conf", "binding/ruby/lib/milter/manager/address-matcher.rb", "binding/ruby/lib/milter/socket-address.rb"]}
{"id": "C92", "title": "\"Restrict Accounts\" applies a milter to messages for the accounts", "statement": "With restricted accounts a milter is applied to a message if and only if one of its recipients is one of the accounts.", "quantifier": "all lists of recipients, all tests of accounts, all macros the MTA sends", "why_tests_cant": "All orders and numbers of recipients.", "anchors": ["data/applicable-conditions/restrict-accounts.conf", "manager/milter-manager-children.c:milter_manager_children_define_macro"]}
{"id": "C93", "title": "\"Authenticated\" and \"Unauthenticated\" decide by whether the client has authenticated", "statement": "A session counts as authenticated if and only if the MTA has sent the macro auth_type or auth_authen; the conditions about authentication decide by that alone. A macro may be named with or without braces.", "quantifier": "all histories of macros", "why_tests_cant": "All histories of macro definitions.", "anchors": ["data/applicable-conditions/authentication.conf", "binding/ruby/lib/milter/manager/child-context.rb:authenticated?"]}
{"id": "C94", "title": "A Postfix regexp table is read and looked up as Postfix does", "statement": "A table is refused if and only if it has an invalid line or an if without endif; looking up a text gives the action of the first rule, not within a condition that does not apply, whose pattern applies, with $1, ${1}, $(1) replaced by what the groups matched and $$ by $; nothing in the text looked up is itself expanded.", "quantifier": "all tables, all patterns, all texts, all nestings of if", "why_tests_cant": "All nestings and all contents of groups.", "anchors": ["binding/ruby/lib/milter/manager/postfix-regexp-table.rb"]}
{"id": "C95", "title": "A Postfix CIDR table gives the first network that has the address", "statement": "Looking up an address gives the action of the first line whose network contains it, and nothing if none does.", "quantifier": "all tables, all addresses", "why_tests_cant": "All addresses and prefix lengths.", "anchors": ["binding/ruby/lib/milter/manager/postfix-cidr-table.rb"]}
{"id": "C96", "title": "A session is ended as disconnected only if the client's connection is gone", "statement": "The netstat connection checker says a client is disconnected if and only if the last output of netstat that is not older than the life time says that the connection is not established, and a session is ended by the checkers if and only if some checker says so.", "quantifier": "all outputs of netstat, all addresses, all histories of checks and clocks", "why_tests_cant": "All outputs and all histories.", "anchors": ["binding/ruby/lib/milter/manager/netstat-connection-checker.rb", "binding/ruby/lib/milter/manager.rb:1037-1058", "manager/milter-manager-leader.c:milter_manager_leader_check_connection"]}
{"id": "C97", "title": "A whole session: one answer for each command, each message handed on, and the manager is ready for the next", "statement": "However many commands the MTA sends one after the other (connection, HELO, senders, recipients, DATA, unknown commands, giving up a message) and however many messages, and however the milters answer, fail or disconnect in between, each command is sent exactly once to every milter it is meant for at that point, each milter gets a message as the milters before it left it, the MTA is told exactly one thing for each command (the most severe of the decisions) and after a message what all requests amount to, and after each of them the manager is ready for the next one.", "quantifier": "all numbers of milters, all sequences of commands and messages, all orders of answers and failures, all requests at the end of a message", "why_tests_cant": "Unboundedly many commands, milters and interleavings; what one command leaves behind meets the next one.", "anchors": ["manager/milter-manager-children.c:init_reply_queue", "manager/milter-manager-children.c:remove_child_from_queue", "manager/milter-manager-children.c:milter_manager_children_abort", "server/milter-server-context.c:flushed"]}
{"id": "C98", "title": "Worker processes serve and end like a single client", "statement": "With n_workers processes, every connection taken by a worker is one session of that worker; a session is let go once, after its end; a worker ends only when the master has gone (shut down, died, or failed to start) or it was told to itself, it then takes no further connection, finishes the sessions it has and ends with the last of them. max-connections limits the number of sessions, a reload takes effect for the sessions after it, a worker that died is replaced, and the client has ended only when the sessions have.", "quantifier": "all numbers of workers, all results of the forks, all histories of connections, sessions, deaths of workers and master, shutdowns, changes and reloads of the configuration", "why_tests_cant": "Processes die and notice each other's end at any moment; the claim is about every order of that.", "anchors": ["client/milter-client.c:client_run_workers", "client/milter-client.c:worker_watch_master", "client/milter-client.c:run_worker", "client/milter-client.c:run_master", "client/milter-client.c:watch_worker_process", "manager/milter-manager-main.c:reload_configuration_request"]}
{"id": "C99", "title": "A milter may leave or refuse a message before its end", "statement": "While a message arrives, the milter that is reading it gets each part as it comes and the MTA is told to continue once for each part. A milter that accepts before the end gets nothing more of the message; the next milter then gets everything that has arrived, in order, and reads on, so that what the others see and what the MTA is told at the end is as if the one that left had not been there. If a milter refuses the message before its end, the MTA is told the refusal in answer to the part that came last, nobody gets anything more of the message, and those who have not seen it are told to abort. If everybody has accepted, the MTA is told that the message is accepted, and the next message starts afresh.", "quantifier": "all numbers of milters, all messages and ways to send them, all points at which milters accept or refuse, also while they are getting earlier parts again", "why_tests_cant": "who leaves when, and where in the replay, is unbounded; each test fixes one such course.", "anchors": ["milter/manager/milter-manager-children.c:cb_accept", "milter/manager/milter-manager-children.c:cb_reject", "milter/manager/milter-manager-children.c:send_first_command_to_next_child", "milter/manager/milter-manager-children.c:send_next_header_to_child", "milter/manager/milter-manager-children.c:cb_continue", "milter/manager/milter-manager-children.c:emit_reply_for_message_oriented_command"]}
{"id": "C100", "title": "When the MTA ends the session, so do the conversations with the milters", "statement": "When the MTA quits, every milter that is still there and has not been told to quit before is told to quit, once, and no milter that is gone is told anything; the end of the session is announced once at most in the whole session, and only if the MTA has quit. After the announcement no result of a negotiation reaches the MTA, whatever the milters still send.", "quantifier": "all states a session can be in when the MTA quits, all histories before and after it", "why_tests_cant": "A session can be ended at any moment of any conversation with any number of milters.", "anchors": ["milter/manager/milter-manager-children.c:milter_manager_children_quit", "milter/manager/milter-manager-children.c:remove_child_from_queue_in_negotiate", "milter/manager/milter-manager-children.c:cb_finished"]}
{"id": "C101", "title": "Milters are asked at DATA even if the MTA does not send DATA", "statement": "If the MTA speaks a version of the protocol that has DATA but goes on from the recipients to the message without it, the milters are asked as if it had sent DATA. The command is kept meanwhile: if they all let the message pass it is carried out then, and the MTA is answered once; if one refuses, the MTA gets the refusal as the answer to its command. No part of the message is lost or changes place.", "quantifier": "all states in which the first command of a message arrives, all numbers of milters and what they have declined", "why_tests_cant": "It depends on what each milter has negotiated and on the order of all answers.", "anchors": ["milter/manager/milter-manager-children.c:need_data_commmand_emulation", "milter/manager/milter-manager-children.c:milter_manager_children_header", "milter/manager/milter-manager-children.c:process_pending_message_request", "milter/manager/milter-manager-children.c:remove_child_from_queue"]}
{"id": "C102", "title": "A milter that skips the rest of the body still decides at the end of the message", "statement": "If a milter answers a piece of the body with skip, the MTA is told to continue, the milter is sent no more of the body of this message and is still asked at its end, with what the MTA sends along with the end; the other milters get the whole body. In the next message it is sent the body again.", "quantifier": "all positions of the milter, all numbers of pieces that follow, all bodies, all states in which a milter is to answer a piece of the body", "why_tests_cant": "Whether a milter has skipped is a mark that lasts for an unbounded number of pieces and messages, and it is set in two different paths.", "anchors": ["milter/manager/milter-manager-children.c:cb_skip", "milter/manager/milter-manager-children.c:milter_manager_children_body", "milter/manager/milter-manager-children.c:send_body_to_child", "milter/server/milter-server-context.c:milter_server_context_reset_message_related_data"]}
{"id": "C103", "title": "A Ruby milter is called once for each command, with what the MTA sent", "statement": "For each command of the MTA the callback of a milter written in Ruby that belongs to it is called once, with the arguments the MTA sent, if the milter defines it; nothing is called for a command the milter has no callback for. In an abort abort is called, at the end of the session finished. All of the body of a message is shown to the callback body.", "quantifier": "all milters (all sets of callbacks, all programs in them), all states of a session, all commands", "why_tests_cant": "Milters are arbitrary programs; the callbacks they define form an exponential number of combinations with the commands and states.", "anchors": ["binding/ruby/lib/milter/client.rb:setup_session", "binding/ruby/lib/milter/client/session.rb"]}
{"id": "C104", "title": "What the MTA reads is what the Ruby milter decided last", "statement": "The answer the MTA reads to a command is the one for the last decision the milter made in the callback (accept, reject, temporary failure, discard, continue, or a reply of its own with its code, extended code and text), after the modifications in their order at the end of a message; if the callback raises, it is the answer for the fallback status. A reply belongs to the command it was given for.", "quantifier": "all milters whose callbacks are arbitrary programs over the interface, all histories of a session, all commands, all exceptions", "why_tests_cant": "Callbacks may decide any number of times and raise anywhere, and what they do in one callback may act on later commands.", "anchors": ["binding/ruby/lib/milter/client/session.rb", "binding/ruby/lib/milter/client/session-context.rb", "binding/ruby/lib/milter/client.rb", "binding/ruby/ext/client/rb-milter-client-context.c"]}
{"id": "C105", "title": "A Ruby milter starts each message afresh", "statement": "What a milter keeps about a message in its instance variables is reset before the next message of the session: at an abort, and when the milter has ended the message.", "quantifier": "all milters, all orderly histories of commands with any number of messages", "why_tests_cant": "It is an invariant over histories of unbounded length, with resets at four different places.", "anchors": ["binding/ruby/lib/milter/client/session.rb:reset", "binding/ruby/lib/milter/client.rb:setup_session"]}
{"id": "C106", "title": "The MTA is asked to leave out exactly the steps a Ruby milter has no callback for", "statement": "In the negotiation a milter written in Ruby accepts the actions the MTA offers and asks the MTA to leave out exactly those of the steps offered for which it has no callback; so everything it has a callback for is sent to it.", "quantifier": "all sets of callbacks, all offers", "why_tests_cant": "2^9 sets of callbacks with 2^64 offers and all versions.", "anchors": ["binding/ruby/lib/milter/client.rb:setup_session", "binding/ruby/lib/milter/client/session.rb:negotiate", "binding/ruby/ext/core/rb-milter-option.c"]}
{"id": "C107", "title": "Several Ruby milters run as one decide like their most severe", "statement": "If several classes are registered, each of them that has a callback for a command is called once for it, in the order of registration, until one raises. The MTA reads one answer: the most severe of their decisions, with the text of the milter that made it, or the fallback status if one raised. At an abort each of them starts afresh, and each gets what it would get alone.", "quantifier": "all lists of milters of any length, all programs in them, all histories", "why_tests_cant": "The combinations of milters, decisions and exceptions are unbounded.", "anchors": ["binding/ruby/lib/milter/client/composite-session.rb", "binding/ruby/lib/milter/client.rb", "milter/core/milter-utils.c:milter_status_compare"]}
{"id": "C108", "title": "A milter that a condition stops takes no part, and the others and the MTA do not notice", "statement": "If an applicable condition stops a milter at the connection, at HELO, at MAIL FROM or for a recipient, that milter is not sent the command; every other milter the command is meant for is sent it once; the MTA is told one reply when they have answered, the most severe of their decisions. A milter stopped at the connection or HELO is dismissed and is sent nothing for the rest of the session; one stopped at MAIL FROM is sent nothing of the message; one stopped for a recipient goes on with the message.", "quantifier": "all numbers of milters, all sets of stopped milters, all orders of writes, answers, failures and disconnections of the others, all states at rest", "why_tests_cant": "Which milters are stopped, and in which order the others answer or fail while the stopped ones leave, cannot be enumerated.", "anchors": ["milter/manager/milter-manager-children.c:cb_stopped", "milter/server/milter-server-context.c:stop_on_state", "milter/manager/milter-manager-applicable-condition.c", "data/applicable-conditions"]}
{"id": "C109", "title": "Each message a milter is given is reported exactly once, with what became of it", "statement": "For each message a milter is given, exactly one report is made about it (the message-processed signal, on which statistics and logs rest): with the milter's decision if it decides, at whatever command of the message; with 'no change' or quarantine if it lets the message pass at its end, whatever it changed; with abort if the MTA gives the message up, unless that is after a recipient and recipients were refused, when it is the last refusal. The report lists exactly the accepted recipients, and those refused for now and for good, as the milter answered. It tells the sender, the header fields in order, the size of the body, the header fields the milter adds and removes, whether it wants the message in quarantine, and the command the message was settled at.", "quantifier": "all messages (any number of recipients, header fields and body pieces in any order, any refusals of recipients), all ways in which they end", "why_tests_cant": "The number of recipients, the mixture of refusals and the place where the message ends are unbounded.", "anchors": ["milter/server/milter-server-context.c:emit_message_processed_signal, ensure_message_result, process_next_state", "milter/core/milter-message-result.c"]}
{"id": "C110", "title": "When the client disconnects while milters are at work, the MTA gets the configured answer and the milters are let go", "statement": "If the connection check finds that the SMTP client is gone while a milter has not answered the command or the part of the message the MTA waits for, the MTA is told exactly the configured fallback status at disconnect; the milters that have been told of a message are told to give it up and all that are there to quit; and whatever the milters do after that, the MTA is told nothing more. If the client is there or nobody is being waited for, checking the connection changes nothing.", "quantifier": "all sessions, all points of all conversations with any number of milters", "why_tests_cant": "The check may come between any two events of any conversation.", "anchors": ["milter/manager/milter-manager-leader.c:milter_manager_leader_check_connection", "milter/manager/milter-manager-children.c:milter_manager_children_is_waiting_reply, milter_manager_children_abort, milter_manager_children_quit"]}
{"id": "C111", "title": "The condition \"Trust\" tells a milter about trusted senders, and no others", "statement": "With the condition \"Trust\", for each MAIL FROM <user@domain> the milter is given the macro trusted_domain = yes if and only if the domain is one of the configured ones (in whatever case) or matches one of the configured expressions, together with exactly the macros the MTA gave; the milter is never stopped by it. A line of a list file with a domain makes that domain trusted, whatever blanks surround it; comments and empty lines make none.", "quantifier": "all lists of domains, senders, macros of the MTA, earlier histories of the session, lines of files", "why_tests_cant": "Senders and lists are unbounded texts, and what earlier messages left behind must not matter.", "anchors": ["data/applicable-conditions/trust.conf", "binding/ruby/lib/milter/manager.rb:define_applicable_condition"]}
{"id": "C112", "title": "\"No Stress\" and \"Stress Notify\" act exactly when the MTA is under stress", "statement": "A milter with \"No Stress\" is stopped at the connection if and only if the number of SMTP sessions has reached the threshold and the threshold is not zero; with \"Stress Notify\" it is never stopped and is given stress = yes under the same condition. The threshold is the one that was set, else the one detected when it was first needed, and stays. For Postfix it is three quarters of the process limit that master.cf gives for the service smtp, or else of the default limit.", "quantifier": "all thresholds, numbers of sessions, macros, histories of questions, master.cf files", "why_tests_cant": "Configuration files and the order in which sessions ask are unbounded.", "anchors": ["data/applicable-conditions/stress.conf", "binding/ruby/lib/milter/manager/breaker.rb"]}
{"id": "C113", "title": "The DNSBL conditions go by what the lists say about the client's own address", "statement": "With \"DNSBL Listed\" a milter is stopped at the connection if and only if the client is on none of the configured lists; with \"Not DNSBL Listed\" if and only if it is on one of them, in whatever order the answers arrive. Each list is asked for the numbers of the client's IPv4 address backwards; different addresses give different questions; a client without an IPv4 address is on no list.", "quantifier": "all addresses, lists, answers of DNS and orders in which they arrive", "why_tests_cant": "There are 2^32 addresses, any number of lists and any order of answers.", "anchors": ["data/applicable-conditions/dnsbl.conf"]}
{"id": "C114", "title": "\"Sendmail Compatible\" only fills in what Postfix has not given", "statement": "With \"Sendmail Compatible\" no milter is stopped. If the MTA calls itself Postfix (macro v), then at the connection the milter's conditions and stages see if_addr, if_name and daemon_port, and at MAIL a dummy i, where the MTA did not give them; what the MTA gave stays as it is, and for another MTA nothing changes. A name is one that DNS gave for that very address, now or earlier, and fewer than a hundred are remembered.", "quantifier": "all macros of all stages, results of netstat and DNS, histories of questions to the cache", "why_tests_cant": "The cache's contents depend on the whole history, and macros of earlier stages show through.", "anchors": ["data/applicable-conditions/sendmail-compatible.conf"]}
{"id": "C115", "title": "In the course of a session the MTA reads exactly one answer per command, in order", "statement": "However a session got where it is, for any number of further commands and messages, each answered by the milters as C97 has it, the MTA reads one answer for every command, in the order of its commands: the decision; at the end of a message first the requests of the milters together as far as the MTA has granted them, then the reason for a quarantine, then the decision. Nothing is written when the MTA gives up a message.", "quantifier": "all reachable states of a session at rest, all courses of commands and messages with any number of milters, all orders of their answers", "why_tests_cant": "The number of commands, messages and milters and the order of events are unbounded.", "anchors": ["milter/manager/milter-manager-leader.c", "milter/manager/milter-manager-children.c", "milter/client/milter-client-context.c"]}
{"id": "C116", "title": "milter-test-server reads a mail file as the mail it is", "statement": "Given --mail-file, milter-test-server shows the milter exactly the header fields of the file in their order (with folded lines kept) and exactly its body, whether lines end in LF or CRLF and whether or not the file starts with the first line of an mbox; the sender is the address of the last From field and the recipients are those of the To fields, unless there are none.", "quantifier": "all mail files: any number of fields, folded lines, blanks, any body; any chunk size", "why_tests_cant": "Files are unbounded texts.", "anchors": ["tool/milter-test-server.c:parse_mail_contents, parse_header, append_header_value, collect_body, extract_path_from_mail_address"]}
{"id": "C117", "title": "milter-test-server tells a milter the mail in the order of the protocol, and stops when the milter has decided", "statement": "A milter that lets the mail pass is told exactly connection, HELO, sender, each recipient, the unknown command, DATA, each header field, the end of the header, each piece of the body, the end of the message and quit, in this order, less what it asked to leave out, whichever commands it does not answer; refused recipients are exactly those that are not kept. After accept, discard or a refusal (of anything but a recipient, or of the last recipient left) nothing more of the mail is told, only abort and quit. After skip the rest of the body is left out.", "quantifier": "all mails, all options a milter negotiates, all answers of the milter", "why_tests_cant": "Mails, negotiated options and sequences of answers are unbounded, and most combinations of options are never tried.", "anchors": ["tool/milter-test-server.c:cb_continue, cb_state_transited, cb_reject, cb_temporary_failure, cb_reply_code, cb_skip, send_abort"]}
{"id": "C118", "title": "milter-test-server shows the message the milter's changes make, and the true differences", "statement": "The message shown at the end is the one that was sent with the changes the milter asked for at the end of the message applied in their order (headers, recipients, sender, body). Of the lines printed for headers, recipients and sender, those without + are exactly what was sent and those without - exactly the result, in order.", "quantifier": "all messages and all sequences of changes", "why_tests_cant": "Lists of headers and changes are unbounded and the comparison has many cases.", "anchors": ["tool/milter-test-server.c:print_headers, print_envelope_recipients, print_envelope_from, print_body, cb_add_header, cb_insert_header, cb_change_header, cb_delete_header, cb_change_from, cb_add_recipient, cb_delete_recipient, cb_replace_body"]}
{"id": "C119", "title": "milter-test-server gives a milter the macros it asks for", "statement": "When a milter asks at negotiation for certain macros at a stage, milter-test-server takes note of each of them once and goes on.", "quantifier": "all lists of macros a milter may ask for", "why_tests_cant": "Whether the loop ends depends on the length of the list.", "anchors": ["tool/milter-test-server.c:set_macro, set_macros_for_each_stage"]}
{"id": "C120", "title": "Each milter of a session is connected to and offered the options once, with one more try and one launch if that fails", "statement": "A milter that can be reached is connected to once and offered the options once. A milter that cannot be connected to is tried exactly once more, after being launched (once) if the manager may launch it; it is never launched otherwise.", "quantifier": "all numbers of milters, all outcomes and orders of connection attempts, timers, launches and answers", "why_tests_cant": "Attempts, timers and launches of the milters of a session interleave in every order.", "anchors": ["milter/manager/milter-manager-children.c:milter_manager_children_negotiate, prepare_retry_establish, retry_establish, cb_ready, cb_connection_error, cb_connection_timeout, milter_manager_children_start_child"]}
{"id": "C121", "title": "The MTA's offer is answered exactly once, when it is decided about every milter", "statement": "The MTA's negotiation is answered as soon as every milter of the session has answered the offer or has been given up, not before, and only once; until then some milter is being connected to, has a timer running or has the offer. A session without milters is answered once.", "quantifier": "all numbers of milters, all outcomes and orders of connection attempts, timers, launches, answers and departures", "why_tests_cant": "A lost or doubled answer depends on the order in which attempts, timers and answers of all milters come.", "anchors": ["milter/manager/milter-manager-children.c:remove_queue_in_negotiate, negotiate_reply, cb_ready, retry_establish, cb_connection_error"]}
{"id": "C122", "title": "Every request on a control connection is answered once, in order", "statement": "However requests and replies are cut into reads and whatever else happens to the manager meanwhile, each request on a control connection gets exactly one reply, in the order of the requests, the outcome is that of handling requests and other happenings one after the other in their orders, and the peer decodes exactly these replies.", "quantifier": "all sequences of requests, all ways to cut both streams into reads, all other happenings in between", "why_tests_cant": "Sequences of requests and their fragmentation are unbounded.", "anchors": ["milter/manager/milter-manager-controller.c:process_connection", "milter/manager/milter-manager-controller-context.c:cb_decoder_set_configuration, cb_decoder_reload, cb_decoder_get_status, cb_decoder_get_configuration", "milter/manager/milter-manager-control-command-decoder.c:decode", "milter/core/milter-agent.c:cb_reader_flow"]}
{"id": "C123", "title": "Shell variables of init scripts are read as the shell would set them", "statement": "When milters are detected, the variables read from init scripts and the files they source are those a shell would have after running the same assignments: quotes removed, variables expanded, comments ignored, later assignments replacing earlier ones.", "quantifier": "all files of assignments, comments and blank lines, of any length, with values in any quotes and any number of variables", "why_tests_cant": "Files are unbounded texts and every assignment depends on those before it.", "anchors": ["binding/ruby/lib/milter/manager/detector.rb:extract_variables, normalize_variable_value, expand_variable"]}
{"id": "C124", "title": "The socket of a milter is what its own configuration file says", "statement": "The socket that is read from clamav-milter.conf, opendkim.conf and greylist.conf is what the last line that sets it says; comments, blank lines and other settings do not matter.", "quantifier": "all files of such lines, of any length", "why_tests_cant": "Configuration files are unbounded texts.", "anchors": ["binding/ruby/lib/milter/manager/clamav-milter-config-parser.rb:parse", "binding/ruby/lib/milter/manager/opendkim-config-parser.rb:parse", "binding/ruby/lib/milter/manager/milter-greylist-config-parser.rb:parse, socket"]}
{"id": "C125", "title": "The manager waits for milter-greylist as long as it keeps clients waiting", "statement": "For milter-greylist the writing, reading and end-of-message timeouts are extended by the longest time for which any list for recipients in its configuration keeps a client waiting, whatever unit it is given in.", "quantifier": "all configurations, all numbers and units", "why_tests_cant": "The longest wait is a maximum over an unbounded file.", "anchors": ["binding/ruby/lib/milter/manager/milter-greylist-config-parser.rb:parse, extract_tarpit, resolve_time, apply"]}
{"id": "C126", "title": "A detected milter is connected to where it listens", "statement": "The connection spec of a detected milter is the socket that the shell would give the milter from its init script and the file in /etc/sysconfig, or the one in its own configuration file, or the argument of -p; a path is made a spec of a UNIX socket and doubled prefixes are made one.", "quantifier": "all scripts, files, options and specs", "why_tests_cant": "It ranges over all contents of files and all command lines.", "anchors": ["binding/ruby/lib/milter/manager/detector.rb:apply, extract_parameter_from_flags, normalize_spec", "binding/ruby/lib/milter/manager/redhat-init-detector.rb:parse_custom_conf, guess_spec"]}
{"id": "C127", "title": "What --show-config shows can be loaded and is the configuration in force", "statement": "The output of milter-manager --show-config has the syntax of milter-manager.conf: loaded as a configuration file by a process without milters and conditions, it gives all settings, the conditions (names and descriptions) and the milters (all settings and conditions, in order) of the configuration that was shown, whatever characters the texts in it contain.", "quantifier": "all configurations: any values of the 41 settings, any numbers of conditions and milters, any texts, any previous settings of the loading process", "why_tests_cant": "It ranges over all configurations and all texts, which are quoted and unquoted by different programs.", "anchors": ["binding/ruby/lib/milter/manager.rb:ConfigurationDumper, ConfigurationLoader, EggConfigurationLoader", "binding/ruby/lib/milter/client/configuration.rb:MilterConfigurationLoader, LogConfigurationLoader, DatabaseConfigurationLoader", "doc/configuration.rd"]}
{"id": "C128", "title": "A policy restricts its milters to the sessions that meet it, and nothing else", "statement": "A milter listed by policies (define_policy) takes part in a message exactly if the session meets every criterion given by every policy that lists it; a criterion that is not given asks for nothing, and a milter no policy lists is not affected. Defining policies changes no other setting of any milter.", "quantifier": "all lists of policies, all criteria, all milters, all sessions with any recipients and any macros; all configurations", "why_tests_cant": "It ranges over all policies and sessions; the only test has one policy with one criterion and stops after connect.", "anchors": ["binding/ruby/lib/milter/manager/policy-manager.rb:PolicyManager, Policy", "binding/ruby/lib/milter/manager.rb:define_policy, apply_policies, define_milter"]}
{"id": "C129", "title": "The address and the domain of an envelope address", "statement": "For every envelope address a milter written in Ruby is given, in angle brackets with a display name before and parameters behind, or bare, address_spec is the mailbox in lower case and domain its domain, and the empty reverse-path has the empty address and no domain.", "quantifier": "all local parts and domains, all texts around the address", "why_tests_cant": "It ranges over all byte strings.", "anchors": ["binding/ruby/lib/milter/client/envelope-address.rb:EnvelopeAddress"]}
{"id": "C130", "title": "Package options are read as they were written", "statement": "package.options given as text \"NAME1=VALUE1,NAME2=VALUE2,...\", with any blanks around the equal signs and commas, or as a Hash, has exactly the given names and values when it is read.", "quantifier": "all numbers of options, all names and values, all blanks", "why_tests_cant": "It ranges over all texts.", "anchors": ["binding/ruby/lib/milter/manager.rb:parsed_package_options, PackageConfigurationLoader", "doc/configuration.rd:package.options"]}
{"id": "C131", "title": "load finds files in the order of the load path", "statement": "load with a relative path reads the file, or the files of the directory, that the first directory of the load path which has it has; with a pattern nothing is called like, it reads the files that match in every directory of the load path, in order; with an absolute path it reads that file. It is an error only if nothing is there, and directories are never read as files.", "quantifier": "all contents of the disk, all load paths and paths", "why_tests_cant": "It ranges over all file systems.", "anchors": ["binding/ruby/lib/milter/core/path.rb:PathResolver", "binding/ruby/lib/milter/manager.rb:load, load_if_exist, resolve_path"]}
{"id": "C132", "title": "UNIX sockets and PID files are as configured and do not stay behind", "statement": "While the manager (or its controller) listens on a UNIX socket, the socket is at its path with the configured mode and group; an existing socket is replaced only if it is to be removed, and otherwise listening fails and it stays. When the manager has ended, its socket, its controller's socket and its PID file are gone if they are to be removed. At no moment does anything change at any other path. Over any life of a controller it has at most the socket it listens on.", "quantifier": "all contents of the disk, all outcomes of system calls, all things other processes do meanwhile, all lives of a controller", "why_tests_cant": "It ranges over all failures of system calls and all interleavings with other processes.", "anchors": ["milter/core/milter-connection.c: milter_connection_listen", "milter/client/milter-client.c: milter_client_listen, milter_client_run, milter_client_cleanup, change_unix_socket_mode, change_unix_socket_group", "milter/manager/milter-manager-controller.c: milter_manager_controller_listen, dispose_spec", "milter/manager/milter-manager-main.c"]}
{"id": "C133", "title": "A milter started by systemd is found where its unit says", "statement": "For every unit file (sections, settings, comments, blanks) and every set of environment files, the manager finds a milter at the socket its environment gives, with the description of the unit, and uses it if systemd starts it; otherwise the init script's detection is used. clamav-milter is found where the configuration file named by its command says, unless that file is the example.", "quantifier": "all unit files and environment files, all scripts", "why_tests_cant": "It ranges over all unit files.", "anchors": ["binding/ruby/lib/milter/manager/systemd-detector.rb", "binding/ruby/lib/milter/manager/debian-systemd-detector.rb", "binding/ruby/lib/milter/manager/redhat-systemd-detector.rb", "binding/ruby/lib/milter/manager/debian-detector.rb"]}
{"id": "C134", "title": "rspamd's proxy is found where rspamd binds it", "statement": "For every list of workers, the manager connects to the address the first proxy for milters is bound to: the port of the host, the port of this machine if it is bound to all interfaces, or the path. If there is no such proxy nothing is found.", "quantifier": "all lists of workers, hosts, ports, paths", "why_tests_cant": "It ranges over all configurations of rspamd.", "anchors": ["binding/ruby/lib/milter/manager/rspamd-proxy-detector.rb: detect"]}
{"id": "C135", "title": "A milter of Debian's init scripts is found where its files say", "statement": "For every init script and every file in /etc/default, the manager finds the milter at the first of SOCKET, SOCKFILE and CONNECTION_SPEC that the shell would have set, or else at the argument of -p among its options, and it is enabled unless ENABLED is 0.", "quantifier": "all init scripts and default files, all scripts' names", "why_tests_cant": "It ranges over all files.", "anchors": ["binding/ruby/lib/milter/manager/debian-init-detector.rb", "binding/ruby/lib/milter/manager/init-detector.rb", "binding/ruby/lib/milter/manager/detector.rb"]}
{"id": "C136", "title": "A milter of FreeBSD is found where rc.conf says and enabled if rc.conf says so", "statement": "For every script in rc.d and all contents of rc.conf, rc.conf.local and rc.conf.d, the manager takes each variable of a milter from the last line that sets it, or else from the default of the script; the milter is enabled if and only if its variable enable is yes, and found at its variable socket, sockfile or connection_spec, or at the argument of -p among its flags. Profiles of OpenDKIM are milters of their own.", "quantifier": "all scripts, all contents of the three files, all names", "why_tests_cant": "It ranges over all files; the tests replace the methods by which the files are found.", "anchors": ["binding/ruby/lib/milter/manager/rcng-detector.rb", "binding/ruby/lib/milter/manager/freebsd-rc-detector.rb"]}
{"id": "C137", "title": "A milter written in Ruby runs with the settings it was given last", "statement": "For every command line and all configuration files loaded by it, a milter written in Ruby starts with each documented setting as it was given last, and with the documented default if it was not given. With a wrong option or a configuration in error it does not start. The command line wins over configuration files.", "quantifier": "all command lines, all configuration files and files loaded by them, all values", "why_tests_cant": "It ranges over all command lines and files.", "anchors": ["binding/ruby/lib/milter/client/command-line.rb", "binding/ruby/lib/milter/client/configuration.rb", "binding/ruby/lib/milter/client.rb", "binding/ruby/ext/client/rb-milter-client.c"]}
{"id": "C138", "title": "Whoever listens at a milter is told once of each message, with what became of it", "statement": "For every sequence of commands from the MTA and whatever the milter does in its handlers, a milter's message-processed signal is given once for each message the milter is done with, with the milter's answer, and never for anything else.", "quantifier": "all sequences of commands, all behaviours of handlers, including answers given later and repeated answers", "why_tests_cant": "It ranges over all histories and all behaviours of handlers.", "anchors": ["milter/client/milter-client-context.c:emit_message_processed_signal", "milter/client/milter-client-context.c:end_of_message_response", "milter/client/milter-client-context.c:abort_response", "milter/client/milter-client-context.c:ensure_message_result"]}
{"id": "C139", "title": "On Red Hat, a milter that upstart starts is found where its job says", "statement": "For every machine, a milter whose upstart job starts by itself is used, at the socket its configuration says, with the comments at the head of the job as its description, and is started with upstart's start. A unit of systemd that is enabled goes before a job that is enabled, which goes before an init script.", "quantifier": "all jobs, configuration files and machines", "why_tests_cant": "It ranges over all files.", "anchors": ["binding/ruby/lib/milter/manager/redhat-upstart-detector.rb", "binding/ruby/lib/milter/manager/redhat-detector.rb", "binding/ruby/lib/milter/manager/detector.rb"]}
{"id": "C140", "title": "On pkgsrc, a milter is found where rc.conf says, and used if rc.conf says so", "statement": "For every machine with pkgsrc, a milter is enabled if and only if the variable that its script names for that is yes by the files of settings, and its socket is what these files, the defaults in its script, its flags or its configuration say.", "quantifier": "all scripts in rc.d, all files of settings, all package options", "why_tests_cant": "It ranges over all files.", "anchors": ["binding/ruby/lib/milter/manager/pkgsrc-rc-detector.rb", "binding/ruby/lib/milter/manager/rcng-detector.rb", "binding/ruby/lib/milter/manager/enma-socket-detector.rb"]}
{"id": "C141", "title": "What the comments at the head of an init script say is what the detection goes by", "statement": "For every init script, the value of each keyword in its block of comments (Linux Standard Base), with its lines joined by spaces, and the value of each tag of chkconfig outside of it, is the one the detection of milters uses; the last one counts.", "quantifier": "all init scripts: all comments around the block, all keywords and values, all tags", "why_tests_cant": "It ranges over all texts of scripts.", "anchors": ["binding/ruby/lib/milter/manager/init-detector.rb", "binding/ruby/lib/milter/manager/redhat-init-detector.rb parse_tag_block", "binding/ruby/lib/milter/manager/debian-init-detector.rb parse_init_script"]}
{"id": "C142", "title": "A milter written in Python is called for each command, and the MTA reads what it said", "statement": "For every milter written in Python and every command of a session: the callback due is called once with what the MTA sent; the MTA reads one answer, the one for the last decision made in it with the custom reply set last, after the modifications; if an exception leaves the callback, whatever on_error does, it reads the fallback status; after an abort the milter has been reset.", "quantifier": "all milters, with all they may do in a callback and in on_error, all sessions, all commands", "why_tests_cant": "It ranges over all programs of callbacks and all sequences of commands.", "anchors": ["binding/python/gi/overrides/MilterClient/client.py _setup_session", "binding/python/gi/overrides/MilterClient/session.py Session", "binding/python/gi/overrides/MilterClient/session_context.py SessionContext", "milter/client/milter-client-context.c"]}
{"id": "C143", "title": "A milter written in Python negotiates what it has callbacks for", "statement": "For every milter written in Python and every offer of an MTA, the answer asks to leave out exactly the steps the milter has no callback for, as far as offered, wants replies for all, takes all actions, and has leading spaces of header values kept just if the milter needs them.", "quantifier": "all sets of callbacks, all options offered", "why_tests_cant": "It ranges over all sets of callbacks and all offers.", "anchors": ["binding/python/gi/overrides/MilterClient/session.py negotiate"]}
{"id": "C144", "title": "A milter written in Python runs with the settings given to it", "statement": "For every command line of a milter written in Python, the milter runs with the settings given last, on the command line or in a configuration file, and with the documented defaults for those not given.", "quantifier": "all command lines and configuration files", "why_tests_cant": "It ranges over all combinations of options and files.", "anchors": ["binding/python/gi/overrides/MilterClient/command_line.py CommandLine"]}
{"id": "C145", "title": "What a milter written in Python keeps of a message is gone when the next begins", "statement": "For every milter written in Python and every order of commands SMTP allows: whenever no message is under way, what the milter keeps is what its reset leaves, if at the end of each message it accepts, discards, rejects, puts off or quarantines it, or its on_error does after an exception.", "quantifier": "all milters, all sequences of commands in the order of SMTP", "why_tests_cant": "It ranges over all programs of callbacks and all histories of messages in a session.", "anchors": ["binding/python/gi/overrides/MilterClient/session.py Session", "binding/python/gi/overrides/MilterClient/client.py _setup_session"]}
{"id": "C146", "title": "The sample milter that replaces text leaves the message with all matches replaced and nothing else changed", "statement": "For every session of milter-replace.rb, every message and all patterns: the replies the MTA reads at the end of the message make of its copy the message with each header value and the body replaced by the first pattern that changes it, each header in its place, all else unchanged; and then the message goes on.", "quantifier": "all patterns, headers, bodies, splittings into chunks, histories of the session", "why_tests_cant": "Tests send one message over a new connection; the claim is about every message, every splitting into chunks, every history of aborted and delivered messages of the session and every pattern.", "anchors": ["binding/ruby/sample/milter-replace.rb: MilterReplace#header, #body, #end_of_message, #reset", "binding/ruby/lib/milter/client/session.rb: change_header, replace_body"]}
{"id": "C147", "title": "The sample milter for a pattern refuses exactly the messages with the pattern in the subject or in the body", "statement": "For every session of milter-regexp.rb: a subject, whatever the case of its name, a part of the body, and at the end of the message the whole body are answered with a rejection if the pattern matches them, and with continue otherwise, whatever messages came before.", "quantifier": "all patterns, headers, bodies, splittings into chunks, histories of the session", "why_tests_cant": "Tests send one message over a new connection; the claim is about every message, every splitting into chunks, every history of aborted and delivered messages of the session and every pattern.", "anchors": ["binding/ruby/sample/milter-regexp.rb: MilterRegexp#header, #body, #end_of_message"]}
{"id": "C148", "title": "The sample milter against empty bodies refuses exactly the messages whose body is blank", "statement": "For every session of milter-reject-empty-body.rb: at the end of a message the MTA reads 550 5.7.1 must have body if the body of this message is white space only, and continue otherwise, however the body was split and whatever messages came before.", "quantifier": "all bodies, splittings into chunks, histories of the session", "why_tests_cant": "Tests send one message over a new connection; the claim is about every message, every splitting into chunks, every history of aborted and delivered messages of the session and every pattern.", "anchors": ["binding/ruby/sample/milter-reject-empty-body.rb: MilterRejectEmptyBody#body, #end_of_message, #abort"]}
{"id": "C149", "title": "The statistics of the log have exactly what the log says of each minute, over all runs", "statement": "After any number of runs of milter-manager-log-analyzer over a log that grows and may be rotated in between, each database (sessions, what became of them, what headers report, what became of the sessions of each milter, what headers of each milter report) has one row for every minute from the first with anything to count to the last with anything to count that was complete at the last run, in the order of time, and the row says exactly what the log says of that minute: no line is lost at the border of two runs and none is counted twice.", "quantifier": "all logs, all splittings into runs with overlaps and rotations, all times of runs, all milters", "why_tests_cant": "Tests feed one file in one run; the claim is about every log and every way to cut it into runs, at any second of a minute.", "anchors": ["tool/milter-manager-log-analyzer: GraphGenerator#prepare, #feed, #flush, #fill_no_data_span, MiltersGraphGenerator#feed, MilterManagerLogAnalyzer#update"]}
{"id": "C150", "title": "An answer put off is the answer that would have been given at once", "statement": "A milter in Ruby or Python may put the answer of a callback off with delay_response and give it later, from a timer or when a child has ended. The MTA then reads what it reads from a milter whose callback does all that at once, only later; if it gives the message up in the meantime, it reads nothing; and what the milter answered has no effect on later commands.", "quantifier": "all milters, sessions and commands; for the samples all schedules of commands, aborts, timers and children", "why_tests_cant": "Tests wait for one answer to one message; the claim is about every callback, and every order in which children end, messages are given up and new ones come.", "anchors": ["binding/ruby/lib/milter/client/session.rb: delay_response, add_timeout", "binding/ruby/lib/milter/client.rb: setup_session", "binding/python/gi/overrides/MilterClient/session.py: _delay_response, _watch_child, _remove_source", "binding/ruby/sample/milter-tarpit.rb", "binding/python/sample/milter-external.py", "client/milter-client-context.c: end_of_message_response"]}
{"id": "C151", "title": "milter-reject-nil-sender.rb refuses the messages whose Sender is nil, and no others", "statement": "In every session the MTA reads, for a header Sender with the word \"nil\" in its value, a refusal with code 550 and the reason \"broken Sender header\"; for every other header, and every other command it waits for, it reads that the message goes on.", "quantifier": "all sessions, points in them, commands, names and values of headers", "why_tests_cant": "A test tries a few values at one point of one session; the claim is about every value (words that only contain nil, at the ends or in the middle) after every history.", "anchors": ["binding/ruby/sample/milter-reject-nil-sender.rb: MilterRejectNilSender#header", "binding/ruby/lib/milter/client/session.rb: reject"]}
{"id": "C152", "title": "milter-replace.py replaces what its patterns match, in every message", "statement": "At the end of each message the MTA reads replies from milter-replace.py that make of the message the one with everything the patterns match replaced: in the value of each header, in its place, and in the body, by the first pattern that changes it; then the message goes on.", "quantifier": "all patterns, sessions with aborted messages, messages and ways to cut bodies into chunks", "why_tests_cant": "A test replaces one word in one message; the claim is about all headers of the same name, all bodies in any encoding and all messages of a session.", "anchors": ["binding/python/sample/milter-replace.py: MilterReplace", "binding/python/gi/overrides/MilterClient/session.py: _change_header, _replace_body", "binding/python/gi/overrides/MilterClient/client.py: _setup_session"]}
{"id": "C153", "title": "Milter::TestServer#run returns what milter-test-server ends with", "statement": "The result of Milter::TestServer#run has the status, with the reply if there is one, the time, and the sender, recipients, headers and body of the message as the milter under test has left it.", "quantifier": "all results of milter-test-server: statuses, replies, addresses before and after, headers before and after, bodies", "why_tests_cant": "A test parses one output; the claim is that printing and reading fit together for every message and every change a milter makes.", "anchors": ["tool/milter-test-server.c: print_result, print_status, print_message, print_envelope, print_headers, print_header, print_body", "binding/ruby/lib/milter/server/testing.rb: TestServer#run, parse, TestServerResult"]}
{"id": "C154", "title": "A directory of modules is loaded completely, once, and in one order", "statement": "Loading the modules of a directory gives, for each file NAME.so in it, one module NAME that can be found by this name, unless a module with this file name was loaded before, which then stays; nothing else is loaded, loading the directory again changes nothing, and the result does not depend on the order in which the system lists the directory. A single module is loaded by its name with or without the suffix.", "quantifier": "all directories, all orders in which they are listed, all modules loaded before, all names", "why_tests_cant": "Tests have one directory; names with the suffix at odd places and files beside modules matter, and so does the listing order, which a test does not choose.", "anchors": ["milter/manager/milter-manager-module.c: milter_manager_module_load_modules_unique, milter_manager_module_load_modules, milter_manager_module_load_module, milter_manager_module_find"]}
{"id": "C155", "title": "A session result holds the message results added and the time between start and stop", "statement": "The message results of a session result are those added and not removed since, in the order they were added; each is held by exactly as many references as it is times in the list; the elapsed time is that between start and stop, or what it was set to.", "quantifier": "all histories of calls", "why_tests_cant": "Which message results are there, and what is freed, depends on the whole history of additions, removals and replacements of the list.", "anchors": ["milter/core/milter-session-result.c: milter_session_result_add_message_result, milter_session_result_remove_message_result, milter_session_result_set_message_results, milter_session_result_start, milter_session_result_stop, milter_session_result_get_elapsed_time"]}
{"id": "C156", "title": "milter-test-client lets every mail pass as it is", "statement": "Whatever an MTA offers and sends, it reads from milter-test-client the answer to its offer, which leaves out no request and no answer, and then one \"continue\" for each request it waits for: no modification, no refusal, and nothing else.", "quantifier": "all offers, all sequences of commands with any number of messages and aborts, ended by quit or by closing the connection", "why_tests_cant": "The tool is meant to be put behind any MTA; a test has some sessions, and an answer too many or too few shows only in the course that leads to it.", "anchors": ["tool/milter-test-client.c: cb_negotiate, setup_context_signals", "milter/client/milter-client-context.c"]}
{"id": "C157", "title": "milter-report-statistics reports the processes it was asked for, with their numbers", "statement": "Each report has one line for each process, other than the report itself, whose program has one of the names given (also with libtool's lt- in front) and whose command line matches all filters, or which was given with --pid; the line has the id, the sizes, the processor time, the number of open files and the command line of this process; if there is no such process, it says so.", "quantifier": "all processes that exist, all arguments they have, all names, filters and ids asked for", "why_tests_cant": "The processes of a machine are not chosen by a test; arguments and names of programs are arbitrary bytes.", "anchors": ["tool/milter-report-statistics: LinuxStatuses, LinuxStatuses::Top, LinuxStatuses::Status, MilterStatisticsReporter#report, MilterStatisticsReporter#target_process?"]}
{"id": "C158", "title": "milter-test-client-libmilter answers every request the MTA waits for", "statement": "Whatever an MTA offers and sends, it reads from milter-test-client-libmilter the answer to its offer, which takes only what was offered and leaves out no request, and then one \"continue\" for each request for whose answer it waits by the option so negotiated: no modification, no refusal, and nothing else.", "quantifier": "all offers, all sequences of commands with any number of messages and aborts", "why_tests_cant": "Whether an answer is missing depends on the offer; a test has the offer of one MTA.", "anchors": ["tool/milter-test-client-libmilter.c: smfilter, mlfi_negotiate, mlfi_helo, mlfi_envfrom, mlfi_body", "libmilter/libmilter-compatible.c"]}
{"id": "C159", "title": "milter-performance-check sends every mail once and then reports", "statement": "With any number of concurrent connections, and however the threads are scheduled, every mail is sent exactly as often as it is in the list of mails, and then the report is printed.", "quantifier": "all lists of mails, all numbers of connections, all schedules of the threads", "why_tests_cant": "A test sees one schedule; a mail lost or sent twice, or a thread that waits for ever, depends on who comes first to the queue.", "anchors": ["tool/milter-performance-check: MilterPerformanceChecker#send_mails_in_parallel, #run_single_worker"]}
{"id": "C160", "title": "The report of milter-performance-check counts every mail", "statement": "However sending a mail ends (sent, a 4XX or 5XX answer of the server, a timeout, an error of the system, a closed connection), the report counts it, as a temporary failure, a reject or an error if it was one, and the times reported are the greatest, the least and the average over all mails.", "quantifier": "all numbers of mails, all ways in which they end, all orders in which they end", "why_tests_cant": "A test has a server with some answers; the answer that is not counted is one nobody thought of.", "anchors": ["tool/milter-performance-check: MilterPerformanceChecker#send_mail, MilterPerformanceChecker::Statistics"]}
{"id": "C161", "title": "milter-performance-check sends a mail with the envelope its headers and the options say", "statement": "A mail is sent from the forced sender if there is one, else from the address in its header From, else from the next of the senders given, which are used in turn; and to the forced recipients if there are any, else to the addresses in its headers To and Cc, else to the recipients given.", "quantifier": "all mails, all options, all numbers of mails", "why_tests_cant": "Headers are arbitrary texts, and the turn of a sender depends on all mails before.", "anchors": ["tool/milter-performance-check: MilterPerformanceChecker#prepare_send_mail, #next_from, #parse_mail_source, #parse_recipient_header, #extract_mail_address"]}
{"id": "C162", "title": "milter-performance-analyzer draws what the periodical report says", "statement": "From the periodical report of milter-performance-check, whatever follows it, one point is drawn for each line, in their order: at the seconds since the first line, with the greatest, the least and the average time of that line.", "quantifier": "all reports: all numbers of lines, all times, all values, all widths of columns, everything after the report", "why_tests_cant": "Reports are of any length and begin at any time of the day.", "anchors": ["tool/milter-performance-analyzer: MilterPerformanceAnalyzer#run, #report", "tool/milter-performance-check: PeriodicalStatisticsReporter#report"]}
{"id": "C163", "title": "The periodical report of milter-performance-check counts each mail once", "statement": "With --report-periodically, however the threads take turns, each mail that has been sent is counted in exactly one line of the periodical report: that of the period in which its sending ended.", "quantifier": "all numbers of mails and periods, all orders in which the threads take turns", "why_tests_cant": "The thread that reports and the threads that send run at the same time.", "anchors": ["tool/milter-performance-check: PeriodicalStatisticsReporter#run, MilterPerformanceChecker#update_statistics"]}
{"id": "C164", "title": "milter-performance-check takes a period for what it says", "statement": "A period in an option (--period, --interval, --flood, --report-periodically) is digits, perhaps a point and more digits, and perhaps a unit (s, sec, second, seconds, m, min, minute, minutes, h, hour, hours) in letters of any case. It is taken for that many seconds, minutes or hours, or seconds if there is no unit. Every other text is rejected as an invalid argument.", "quantifier": "all texts given to an option", "why_tests_cant": "Texts are of any length and numbers of any size.", "anchors": ["tool/milter-performance-check: MilterPerformanceChecker#parse_period"]}
{"id": "C165", "title": "milter-performance-check sends mails for a period, or spread over one", "statement": "With --flood=PERIOD each connection sends the mails in their order, again and again, begins no mail after it has found the period over, and ends then. With --interval and --period each mail is sent once, in their order, with one pause less than there are mails.", "quantifier": "all mails, all periods, all times that sending takes", "why_tests_cant": "How many mails are sent depends on how long each of them takes.", "anchors": ["tool/milter-performance-check: MilterPerformanceChecker#send_mails_in_flood, #send_mails_in_interval, #send_mails_in_period, #run"]}
{"id": "C166", "title": "What is logged from Ruby, and callbacks that raise", "statement": "A message that Ruby code logs at an interesting level is logged line by line, complete and in order; a block that makes the message is called only at an interesting level. An exception is logged with its class, message and backtrace. A callback under guard that raises any exception gives the fallback, and the exception is logged.", "quantifier": "all messages, all exceptions, all callbacks", "why_tests_cant": "Messages and exceptions are arbitrary.", "anchors": ["binding/ruby/lib/milter/core/logger.rb: Milter::Logger#log, #ensure_message", "binding/ruby/lib/milter/core/callback.rb: Milter::Callback.guard"]}
