{
 "claims": [
  {
   "property": "C01",
   "status": "partial",
   "theorems": [
    "Verif.Props.C01_framing",
    "Verif.Props.C01_commands_partial",
    "Verif.Props.C01_replies_partial",
    "Verif.Props.C01_violated"
   ],
   "note": "Proved for every stream whose packets are self-contained; the excluded malformed packets really violate it (C01_violated)."
  },
  {
   "property": "C02",
   "status": "proved",
   "theorems": [
    "Verif.Props.C02"
   ],
   "note": "For sessions in which option negotiation, if present, comes first (a later one is the C04 violation); packets below 2^31 bytes; inet_ntop/inet_pton are parameters with round-trip laws."
  },
  {
   "property": "C03",
   "status": "proved",
   "theorems": [
    "Verif.Props.C03"
   ],
   "note": "For sessions in which the negotiate reply, if present, comes first."
  },
  {
   "property": "C04",
   "status": "partial",
   "theorems": [
    "Verif.Props.C04_commands_partial",
    "Verif.Props.C04_replies_partial",
    "Verif.Props.C04_violated"
   ],
   "note": "Holds for everything except option negotiation, for which it is violated."
  },
  {
   "property": "C05",
   "status": "partial",
   "theorems": [
    "Verif.Props.C05_commands_partial",
    "Verif.Props.C05_replies_partial",
    "Verif.Props.C05_violated",
    "Verif.Props.C05_empty_violated"
   ],
   "note": "Exact characterisation for commands; violated for the excluded malformed packets."
  },
  {
   "property": "C06",
   "status": "proved",
   "theorems": [
    "Verif.Props.C06_silent",
    "Verif.Props.C06_end"
   ],
   "note": ""
  },
  {
   "property": "C07",
   "status": "proved",
   "theorems": [
    "Verif.Props.C07_replace_body",
    "Verif.Props.C07_body"
   ],
   "note": ""
  },
  {
   "property": "C08",
   "status": "proved",
   "theorems": [
    "Verif.Props.C08_last_wins",
    "Verif.Props.C08_table"
   ],
   "note": ""
  },
  {
   "property": "C09",
   "status": "partial",
   "theorems": [
    "Verif.Props.C09_lines",
    "Verif.Props.C09_transport_partial",
    "Verif.Props.C09_no_extended_violated",
    "Verif.Props.C09_no_message_violated"
   ],
   "note": "Transport holds with an enhanced code and a non-empty one-line message; violated without an enhanced code and without a message."
  },
  {
   "property": "C10",
   "status": "proved",
   "theorems": [
    "Verif.Props.C10_accepts",
    "Verif.Props.C10_stores"
   ],
   "note": ""
  },
  {
   "property": "C100",
   "status": "proved",
   "theorems": [
    "Verif.Props.C100_quit",
    "Verif.Props.C100_once",
    "Verif.Props.C100_no_offer"
   ],
   "note": "C100_quit is about any state, reachable or not, and writes that succeed. A session without milters answers the negotiation from the idle loop and does so even after the end: excluded by the hypothesis of C100_no_offer."
  },
  {
   "property": "C101",
   "status": "partial",
   "theorems": [
    "Verif.Props.C101_as_data",
    "Verif.Props.C101_kept",
    "Verif.Props.C101_waiting",
    "Verif.Props.C101_decided",
    "Verif.Props.C101_carried_out",
    "Verif.Props.C101_header_lost_violated"
   ],
   "note": "C101_waiting and C101_decided follow every course of events of the conversation (flushes, answers, failures, in any order) while a milter has not answered, and when they refuse or all accept. C101_carried_out does the same when they let the message pass: the kept header or end of headers goes to the first milter that follows the message (a message that begins with its body is not covered). If all milters have declined DATA, the first command of the message is lost: C101_header_lost_violated."
  },
  {
   "property": "C102",
   "status": "partial",
   "theorems": [
    "Verif.Props.C102_situation",
    "Verif.Props.C102_skip_partial",
    "Verif.Props.C102_replay_partial",
    "Verif.Props.C102_next_message_violated",
    "Verif.Props.C102_not_asked_violated"
   ],
   "note": "Within a message it holds. The mark is taken away by an abort only, so in the next message the milter is not sent the body (C102_next_message_violated), and a milter behind the first is not even asked at its end (C102_not_asked_violated)."
  },
  {
   "property": "C103",
   "status": "partial",
   "theorems": [
    "Verif.Props.Ruby.C103_partial",
    "Verif.Props.Ruby.C103_last_chunk_violated"
   ],
   "note": "All but the part of the body that comes with the end of the message, which is shown to no callback (C103_last_chunk_violated)."
  },
  {
   "property": "C104",
   "status": "partial",
   "theorems": [
    "Verif.Props.Ruby.C104_partial",
    "Verif.Props.Ruby.C104_no_session",
    "Verif.Props.Ruby.C104_stale_reply_violated",
    "Verif.Props.Ruby.C104_reject_code_violated",
    "Verif.Props.Ruby.C104_quarantine_violated"
   ],
   "note": "For milters that do not put off their answers and add no recipients with parameters. Departures: a reply stays for later commands of the session; reject with a code of another class raises; a quarantine before the end of the message is a plain accept."
  },
  {
   "property": "C105",
   "status": "partial",
   "theorems": [
    "Verif.Props.Ruby.C105_partial",
    "Verif.Props.Ruby.C105_continue_violated",
    "Verif.Props.Ruby.C105_exception_violated",
    "Verif.Props.Ruby.C105_composite_violated"
   ],
   "note": "For milters whose end_of_message always ends with one of the methods that end a message. A message passed with continue or ended by an exception does not reset; several milters as one are never reset."
  },
  {
   "property": "C106",
   "status": "proved",
   "theorems": [
    "Verif.Props.Ruby.C106_negotiate"
   ],
   "note": "For milters without a negotiate of their own."
  },
  {
   "property": "C107",
   "status": "partial",
   "theorems": [
    "Verif.Props.Ruby.C107_partial",
    "Verif.Props.Ruby.C107_name_violated",
    "Verif.Props.Ruby.C107_reply_violated",
    "Verif.Props.Ruby.C107_leading_space_violated",
    "Verif.Props.Ruby.C105_composite_violated"
   ],
   "note": "For decisions that are not written with dashes. The text may be that of another milter than the one whose decision counts; leading space is lost if one of the milters does not need it; no milter is reset."
  },
  {
   "property": "C108",
   "status": "partial",
   "theorems": [
    "Verif.Props.C108_partial",
    "Verif.Props.C108_after_partial",
    "Verif.Props.C108_data_violated",
    "Verif.Props.C108_second_violated",
    "Verif.Props.C108_alone_violated"
   ],
   "note": "For commands that find the manager at rest and, at MAIL FROM, milters that are not still marked as following the previous message. Departures: at DATA the MTA is told accept before the other milters have answered; at the second message of a session the milter is sent the recipients all the same; a milter that is alone turns the next recipient into an error."
  },
  {
   "property": "C109",
   "status": "partial",
   "theorems": [
    "Verif.Props.C109_partial",
    "Verif.Props.C109_kept",
    "Verif.Props.C109_sender",
    "Verif.Props.C109_stale_violated",
    "Verif.Props.C109_order_violated"
   ],
   "note": "For commands that are answered before the next is sent, pieces of the body up to one chunk, milters that declined nothing. A refusal of a recipient outlives its message: an abandoned later message is reported as refused, C109_stale_violated. Header fields of one name are reported in reverse, C109_order_violated."
  },
  {
   "property": "C11",
   "status": "proved",
   "theorems": [
    "Verif.Props.C11",
    "Verif.Props.C11_algebra"
   ],
   "note": ""
  },
  {
   "property": "C110",
   "status": "partial",
   "theorems": [
    "Verif.Props.C110_partial",
    "Verif.Props.C110_message_partial",
    "Verif.Props.C110_end_partial",
    "Verif.Props.C110_milters"
   ],
   "note": "C110_milters is about any state. The MTA's side is for commands to all milters, the parts of a message before its end, and its end as long as the MTA has heard nothing but progress of it (and not an end that arrives before the answer to what came before it). A configured refusal after a reply code has been passed on is excluded (C53_stale_code_violated)."
  },
  {
   "property": "C111",
   "status": "partial",
   "theorems": [
    "Verif.Props.Shipped.C111_trusted_partial",
    "Verif.Props.Shipped.C111_told_partial",
    "Verif.Props.Shipped.C111_file",
    "Verif.Props.Shipped.C111_file_other",
    "Verif.Props.Shipped.C111_stale_violated",
    "Verif.Props.Shipped.C111_quoted_violated",
    "Verif.Props.Shipped.C111_capital_violated"
   ],
   "note": "For users without an at sign and domains configured in small letters (a list file makes them so); what the milter is told for MTAs that give macros for MAIL."
  },
  {
   "property": "C112",
   "status": "partial",
   "theorems": [
    "Verif.Props.Shipped.C112_stress",
    "Verif.Props.Shipped.C112_stays",
    "Verif.Props.Shipped.C112_limit_partial",
    "Verif.Props.Shipped.C112_threshold",
    "Verif.Props.Shipped.C112_client_violated"
   ],
   "note": "The type of a service in master.cf is not looked at: smtp unix before smtp inet is taken for it, C112_client_violated. The lines before are comments, continuations or other services. The number of sessions and what postconf prints are parameters."
  },
  {
   "property": "C113",
   "status": "proved",
   "theorems": [
    "Verif.Props.Shipped.C113_dnsbl",
    "Verif.Props.Shipped.C113_distinct"
   ],
   "note": "The answers of DNS are a function; the event loop that collects them delivers each once, in any order."
  },
  {
   "property": "C114",
   "status": "proved",
   "theorems": [
    "Verif.Props.Shipped.C114_from",
    "Verif.Props.Shipped.C114_connect",
    "Verif.Props.Shipped.C114_names"
   ],
   "note": "What netstat says about a client is a function of its address."
  },
  {
   "property": "C115",
   "status": "partial",
   "theorems": [
    "Verif.Props.C115_partial"
   ],
   "note": "Missing: commands for which no milter is there any more (C53_nobody_violated), DATA in between (C36), reply codes the MTA's side refuses (C53_code_violated), plain refusals after a reply code (C53_stale_code_violated), MTAs that offer only one of the two flags for recipients."
  },
  {
   "property": "C116",
   "status": "partial",
   "theorems": [
    "Verif.Props.TestServer.C116_partial",
    "Verif.Props.TestServer.C116_defaults",
    "Verif.Props.TestServer.C116_list_violated",
    "Verif.Props.TestServer.C116_comma_violated",
    "Verif.Props.TestServer.C116_blank_violated",
    "Verif.Props.TestServer.C116_nul_violated",
    "Verif.Props.TestServer.C116_case_violated"
   ],
   "note": "For fields with legal names and no NUL, one address per From and To field."
  },
  {
   "property": "C117",
   "status": "partial",
   "theorems": [
    "Verif.Props.TestServer.C117_partial",
    "Verif.Props.TestServer.C117_stops_partial",
    "Verif.Props.TestServer.C117_everybody_partial",
    "Verif.Props.TestServer.C117_skip_partial",
    "Verif.Props.TestServer.C117_silent_violated",
    "Verif.Props.TestServer.C117_recipient_violated"
   ],
   "note": "For milters that answer everything, or that do not answer a stage only where the following stages that are left out are not answered either (Flows). Otherwise the tool hangs: C117_silent_violated, C117_recipient_violated."
  },
  {
   "property": "C118",
   "status": "partial",
   "theorems": [
    "Verif.Props.TestServer.C118_printed",
    "Verif.Props.TestServer.C118_changes",
    "Verif.Props.TestServer.C118_empty_violated"
   ],
   "note": "A body replaced by nothing is shown as it was, C118_empty_violated."
  },
  {
   "property": "C119",
   "status": "partial",
   "theorems": [
    "Verif.Props.TestServer.C119_partial",
    "Verif.Props.TestServer.C119_loop_violated"
   ],
   "note": "For at most one macro per stage; with two or more the tool loops forever."
  },
  {
   "property": "C12",
   "status": "partial",
   "theorems": [
    "Verif.Props.C12_partial",
    "Verif.Props.C12_order_partial",
    "Verif.Props.C12_violated"
   ],
   "note": "Proved when all milters ask for the same protocol version; with differing versions the merge depends on the order and drops options (C12_violated)."
  },
  {
   "property": "C120",
   "status": "partial",
   "theorems": [
    "Verif.Props.Launch.C120_partial",
    "Verif.Props.Launch.C120_again",
    "Verif.Props.Launch.C120_offer_violated",
    "Verif.Props.Launch.C120_launch_violated",
    "Verif.Props.Launch.C120_late_violated"
   ],
   "note": "Upper bounds for everyone (twice tried, never launched, offered once; with launching three, two, two), and the second attempt after an immediate failure. A launched milter may be tried three times, launched and offered twice; a connection that fails later is not tried again."
  },
  {
   "property": "C121",
   "status": "partial",
   "theorems": [
    "Verif.Props.Launch.C121_partial",
    "Verif.Props.Launch.C121_waiting",
    "Verif.Props.Launch.C121_unlaunched_partial",
    "Verif.Props.Launch.C121_none",
    "Verif.Props.Launch.C121_launch_violated",
    "Verif.Props.Launch.C121_leaves_violated"
   ],
   "note": "Answered iff decided about everyone, and somebody to wait for until then, without restriction; only once if nobody can be launched and no milter leaves between its answer and the next command of the MTA. Otherwise the answer may be sent twice."
  },
  {
   "property": "C122",
   "status": "partial",
   "theorems": [
    "Verif.Props.ControlSession.C122_served",
    "Verif.Props.ControlSession.C122_partial",
    "Verif.Props.ControlSession.C122_unknown_violated",
    "Verif.Props.ControlSession.C122_status_violated"
   ],
   "note": "For requests the manager knows, replies other than status and below 2^24 bytes. A request it does not know leaves the connection open and dead; the reply to get-status cannot be decoded."
  },
  {
   "property": "C123",
   "status": "partial",
   "theorems": [
    "Verif.Props.Detector.C123_partial",
    "Verif.Props.Detector.C123_unset_violated",
    "Verif.Props.Detector.C123_single_violated",
    "Verif.Props.Detector.C123_hash_violated",
    "Verif.Props.Detector.C123_name_violated"
   ],
   "note": "For files of assignments, comments and blank lines without number signs in quotes, whose variables are set and not called name. Variables that are not set stay as they are written, single quotes do not protect variables, a number sign in quotes begins a comment."
  },
  {
   "property": "C124",
   "status": "partial",
   "theorems": [
    "Verif.Props.Detector.C124_partial",
    "Verif.Props.Detector.C124_greylist_partial",
    "Verif.Props.Detector.C124_comment_violated",
    "Verif.Props.Detector.C124_blanks_violated"
   ],
   "note": "What the last line says, for all files. Comments and blanks behind a value become part of it."
  },
  {
   "property": "C125",
   "status": "partial",
   "theorems": [
    "Verif.Props.Detector.C125_partial",
    "Verif.Props.Detector.C125_continued_violated",
    "Verif.Props.Detector.C125_second_violated"
   ],
   "note": "For files without continued lines and with at most one wait per line. Continued lines are never joined, a second wait in a line is missed."
  },
  {
   "property": "C126",
   "status": "partial",
   "theorems": [
    "Verif.Props.Detector.C126_form",
    "Verif.Props.Detector.C126_word",
    "Verif.Props.Detector.C126_joined",
    "Verif.Props.Detector.C126_redhat_partial",
    "Verif.Props.Detector.C126_redhat_alone_partial",
    "Verif.Props.Detector.C126_opendkim_partial"
   ],
   "note": "The form of the spec and the arguments of options without restriction; the whole detection on Red Hat systems for scripts made of assignments. Debian and FreeBSD are C135 and C136, systemd is C133, pkgsrc only as far as it shares this code."
  },
  {
   "property": "C127",
   "status": "partial",
   "theorems": [
    "Verif.Props.Dump.C127_partial",
    "Verif.Props.Dump.C127_options_violated",
    "Verif.Props.Dump.C127_spec_violated",
    "Verif.Props.Dump.C127_extra_violated"
   ],
   "note": "For configurations whose milters all have connection specs and command options. A configuration with a milter without command options, which is the usual kind, is shown in a way that cannot be loaded. Extra options of the database are not shown; what conditions do (their stoppers) is code and not shown either."
  },
  {
   "property": "C128",
   "status": "partial",
   "theorems": [
    "Verif.Props.Policy.C128_partial",
    "Verif.Props.Policy.C128_sound_partial",
    "Verif.Props.Policy.C128_apply_partial",
    "Verif.Props.Policy.C128_unlisted_violated",
    "Verif.Props.Policy.C128_two_violated",
    "Verif.Props.Policy.C128_not_given_violated",
    "Verif.Props.Policy.C128_helo_violated",
    "Verif.Props.Policy.C128_fqdn_violated",
    "Verif.Props.Policy.C128_settings_violated"
   ],
   "note": "What the code does is proved exactly, for all policies and sessions. It differs from what is meant: a milter some policy does not list is stopped at DATA; a criterion not given is never met; HELO is never looked at; fallback status and evaluation mode of all milters are lost. That define_policy means what the property says is read off its names and the one test: it is not documented."
  },
  {
   "property": "C129",
   "status": "partial",
   "theorems": [
    "Verif.Props.EnvelopeAddress.C129_partial",
    "Verif.Props.EnvelopeAddress.C129_null",
    "Verif.Props.EnvelopeAddress.C129_nil",
    "Verif.Props.EnvelopeAddress.C129_quoted_violated",
    "Verif.Props.EnvelopeAddress.C129_route_violated"
   ],
   "note": "For addresses without angle brackets and line feeds inside. Quoted local parts with an angle bracket are cut; source routes are kept."
  },
  {
   "property": "C13",
   "status": "proved",
   "theorems": [
    "Verif.Props.C13_order",
    "Verif.Props.C13_max",
    "Verif.Props.C13_order_free"
   ],
   "note": ""
  },
  {
   "property": "C130",
   "status": "partial",
   "theorems": [
    "Verif.Props.PackageOptions.C130_written_partial",
    "Verif.Props.PackageOptions.C130_hash_partial",
    "Verif.Props.PackageOptions.C130_comma_violated"
   ],
   "note": "For names and values without commas and blanks at their ends, and names without an equal sign; a value with a comma is cut."
  },
  {
   "property": "C131",
   "status": "partial",
   "theorems": [
    "Verif.Props.Path.C131_first_partial",
    "Verif.Props.Path.C131_pattern_partial",
    "Verif.Props.Path.C131_absolute",
    "Verif.Props.Path.C131_no_directory",
    "Verif.Props.Path.C131_empty_violated"
   ],
   "note": "An empty directory counts as missing and hides what later directories of the load path have."
  },
  {
   "property": "C132",
   "status": "partial",
   "theorems": [
    "Verif.Props.UnixSocket.C132_only_there",
    "Verif.Props.UnixSocket.C132_listening_partial",
    "Verif.Props.UnixSocket.C132_starts",
    "Verif.Props.UnixSocket.C132_kept",
    "Verif.Props.UnixSocket.C132_gone_partial",
    "Verif.Props.UnixSocket.C132_controller_gone_partial",
    "Verif.Props.UnixSocket.C132_nothing_else",
    "Verif.Props.UnixSocket.C132_controller_partial",
    "Verif.Props.UnixSocket.C132_controller_once",
    "Verif.Props.UnixSocket.C132_mode_partial",
    "Verif.Props.UnixSocket.C132_mode_zero_violated",
    "Verif.Props.UnixSocket.C132_file_violated",
    "Verif.Props.UnixSocket.C132_window_violated",
    "Verif.Props.UnixSocket.C132_group_violated",
    "Verif.Props.UnixSocket.C132_mode_failed_violated",
    "Verif.Props.UnixSocket.C132_listen_violated",
    "Verif.Props.UnixSocket.C132_left_violated",
    "Verif.Props.UnixSocket.C132_takeover_violated"
   ],
   "note": "The code departs from the full property: a file that is no socket is removed; for a moment the socket has the mode of the umask; an unknown group or a failed chmod is no obstacle; the socket stays if listen(), dropping privileges, becoming a daemon or writing the PID file fails; a manager that ends removes the socket of its successor."
  },
  {
   "property": "C133",
   "status": "partial",
   "theorems": [
    "Verif.Props.Detector.C133_unit",
    "Verif.Props.Detector.C133_partial",
    "Verif.Props.Detector.C133_choice_partial",
    "Verif.Props.Detector.C133_clamav_partial",
    "Verif.Props.Detector.C133_inline_violated",
    "Verif.Props.Detector.C133_expand_violated",
    "Verif.Props.Detector.C133_reset_violated",
    "Verif.Props.Detector.C133_continued_violated",
    "Verif.Props.Detector.C133_override_violated"
   ],
   "note": "For units with environment files without dollar signs, continuations and resets. Sockets named by ExecStart or Environment and the administrator's own units are not seen."
  },
  {
   "property": "C134",
   "status": "partial",
   "theorems": [
    "Verif.Props.Detector.C134_host_partial",
    "Verif.Props.Detector.C134_any",
    "Verif.Props.Detector.C134_path",
    "Verif.Props.Detector.C134_ipv6_violated",
    "Verif.Props.Detector.C134_no_proxy_violated"
   ],
   "note": "IPv6 addresses give a spec that is none; rspamd without a proxy for milters is an exception."
  },
  {
   "property": "C135",
   "status": "partial",
   "theorems": [
    "Verif.Props.Detector.C135_enabled_partial",
    "Verif.Props.Detector.C135_socket_partial",
    "Verif.Props.Detector.C135_arguments_partial",
    "Verif.Props.Detector.C135_greylist_violated"
   ],
   "note": "For files of assignments, as C123. milter-greylist's own configuration is not looked at."
  },
  {
   "property": "C136",
   "status": "partial",
   "theorems": [
    "Verif.Props.Detector.C136_enabled_partial",
    "Verif.Props.Detector.C136_socket_partial",
    "Verif.Props.Detector.C136_flags_partial",
    "Verif.Props.Detector.C136_others",
    "Verif.Props.Detector.C136_equals_violated",
    "Verif.Props.Detector.C136_flags_violated",
    "Verif.Props.Detector.C136_comment_violated",
    "Verif.Props.Detector.C136_default_violated",
    "Verif.Props.Detector.C136_first_violated",
    "Verif.Props.Detector.C136_profiles_violated"
   ],
   "note": "For values without variables and equals signs, lines without comments behind them, at most one default. The code departs otherwise, and profiles raise an exception."
  },
  {
   "property": "C137",
   "status": "partial",
   "theorems": [
    "Verif.Props.RubySettings.C137_last_partial",
    "Verif.Props.RubySettings.C137_wrong",
    "Verif.Props.RubySettings.C137_ignored_violated",
    "Verif.Props.RubySettings.C137_maintenance_violated",
    "Verif.Props.RubySettings.C137_order_violated",
    "Verif.Props.RubySettings.C137_illegal_violated",
    "Verif.Props.RubySettings.C137_name_violated",
    "Verif.Props.RubySettings.C137_negative_violated"
   ],
   "note": "For settings that setup hands on, files without errors, and options other than --maintenance-interval, with files at the place of their -c. Four documented settings never take effect, --maintenance-interval always fails, a file wins over options before it, and a file with an illegal status is used as far as it goes."
  },
  {
   "property": "C138",
   "status": "partial",
   "theorems": [
    "Verif.Props.C138_partial",
    "Verif.Props.C138_refused_violated"
   ],
   "note": "The exact account for all histories in which a milter does not answer the end of a message from within its abort handler: one report for each end of a message that is answered, with the answer. Messages settled before their end, or given up, are never reported. What the report says beyond the answer is not modelled on this side (C109 has it for the server side)."
  },
  {
   "property": "C139",
   "status": "partial",
   "theorems": [
    "Verif.Props.Upstart.C139_job",
    "Verif.Props.Upstart.C139_clamav_partial",
    "Verif.Props.Upstart.C139_greylist_partial",
    "Verif.Props.Upstart.C139_choice",
    "Verif.Props.Upstart.C139_command_partial",
    "Verif.Props.Upstart.C139_other_violated",
    "Verif.Props.Upstart.C139_command_violated",
    "Verif.Props.Upstart.C139_comments_violated"
   ],
   "note": "For clamav-milter and milter-greylist with their configuration named on the command line; what is read of a job and the choice are for all jobs. Jobs of other milters are never used, and where there is a service command the job is started with start as an extra argument."
  },
  {
   "property": "C14",
   "status": "proved",
   "theorems": [
    "Verif.Props.C14_delete",
    "Verif.Props.C14_change",
    "Verif.Props.C14_insert",
    "Verif.Props.C14_add",
    "Verif.Props.C14_append",
    "Verif.Props.C14_remove",
    "Verif.Props.C14_index",
    "Verif.Props.C14_copy",
    "Verif.Props.C14_nth",
    "Verif.Props.C14_lookup",
    "Verif.Props.C14_find"
   ],
   "note": ""
  },
  {
   "property": "C140",
   "status": "partial",
   "theorems": [
    "Verif.Props.Pkgsrc.C140_enabled_partial",
    "Verif.Props.Pkgsrc.C140_socket_partial",
    "Verif.Props.Pkgsrc.C140_flags_partial",
    "Verif.Props.Pkgsrc.C140_enma_partial",
    "Verif.Props.Pkgsrc.C140_rcvar_violated"
   ],
   "note": "For scripts and files of settings whose values have no variables and no equals signs, as for FreeBSD (C136). A script that names another variable than its name is never enabled by it."
  },
  {
   "property": "C141",
   "status": "partial",
   "theorems": [
    "Verif.Props.C141_debian_partial",
    "Verif.Props.C141_redhat_partial",
    "Verif.Props.C141_config",
    "Verif.Props.C141_value_violated",
    "Verif.Props.C141_shebang_violated",
    "Verif.Props.C141_tab_violated",
    "Verif.Props.C141_empty_violated"
   ],
   "note": "For blocks whose values have no colon right after a letter or hyphen and go on after a space. A value with such a colon ends at the word before it; on Debian an option for the shell in the first line hides the block; a tab after the mark of a comment keeps the mark in the value; a block of an empty comment raises an exception. On Red Hat the tags are proved for scripts without a block, and descriptions that go on after a backslash are left out."
  },
  {
   "property": "C142",
   "status": "partial",
   "theorems": [
    "Verif.Props.Python.C142_called_partial",
    "Verif.Props.Python.C142_partial",
    "Verif.Props.Python.C142_abort_resets",
    "Verif.Props.Python.C142_empty_chunk_violated",
    "Verif.Props.Python.C142_last_chunk_violated",
    "Verif.Props.Python.C142_abort_violated",
    "Verif.Props.Python.C142_no_session_violated"
   ],
   "note": "For milters whose abort does not raise, chunks of a body that are not empty, and decisions that are an answer. For an empty chunk the milter is not called and the fallback status is answered; an exception in abort leaves the milter as it was and its status for the next message; if a session cannot be made the MTA reads continue for everything, whatever the fallback status."
  },
  {
   "property": "C143",
   "status": "partial",
   "theorems": [
    "Verif.Props.Python.C143_partial",
    "Verif.Props.Python.C143_leading_space_violated"
   ],
   "note": "Leading spaces of header values are asked for just if the milter does not need them."
  },
  {
   "property": "C144",
   "status": "partial",
   "theorems": [
    "Verif.Props.PythonSettings.C144_partial",
    "Verif.Props.PythonSettings.C144_group_violated",
    "Verif.Props.PythonSettings.C144_file_violated",
    "Verif.Props.PythonSettings.C144_mode_violated",
    "Verif.Props.PythonSettings.C144_fallback_violated",
    "Verif.Props.PythonSettings.C144_two_files_violated"
   ],
   "note": "For command lines with at most one configuration file and without --group; in the file without user, group, level and path; with modes that begin with 0. --group sets the user; the four settings of a file are not read; other modes are taken as decimal; a fallback status in a file is not checked; a second file brings back the settings of the first."
  },
  {
   "property": "C145",
   "status": "partial",
   "theorems": [
    "Verif.Props.Python.C145_partial",
    "Verif.Props.Python.C145_continue_violated",
    "Verif.Props.Python.C145_exception_violated",
    "Verif.Props.Python.C145_reply_violated",
    "Verif.Props.Python.C142_abort_violated"
   ],
   "note": "Without milters that end a message with continue, or with an exception and the on_error of the library (also one from a reply that cannot be set), or whose abort raises: these are not reset, and what they keep of the message is there in the next."
  },
  {
   "property": "C146",
   "status": "partial",
   "theorems": [
    "Verif.Props.Samples.C146_partial",
    "Verif.Props.Samples.C146_next_violated",
    "Verif.Props.Samples.C146_spelling_violated",
    "Verif.Props.Samples.C146_patterns_violated",
    "Verif.Props.Samples.C146_last_violated"
   ],
   "note": "Only the first message of a session that gets to its end, names of headers in one spelling, one pattern at most that changes the body, no part of the body with the end of the message: the code fails for all others. Patterns are functions that do not raise; they do not make a text empty."
  },
  {
   "property": "C147",
   "status": "partial",
   "theorems": [
    "Verif.Props.Samples.C147_partial",
    "Verif.Props.Samples.C147_next_violated",
    "Verif.Props.Samples.C147_last_violated"
   ],
   "note": "At the end of the message only if the session has shown no other body, and without a part of the body that comes with the end: the code fails for these."
  },
  {
   "property": "C148",
   "status": "partial",
   "theorems": [
    "Verif.Props.Samples.C148_partial",
    "Verif.Props.Samples.C148_next_violated",
    "Verif.Props.Samples.C148_last_violated"
   ],
   "note": "Only the first message of a session that gets to its end, and no part of the body with the end of the message: the code fails for the others."
  },
  {
   "property": "C149",
   "status": "partial",
   "theorems": [
    "Verif.Props.LogAnalyzer.C149_partial",
    "Verif.Props.LogAnalyzer.C149_never_more",
    "Verif.Props.LogAnalyzer.C149_milter_report_violated",
    "Verif.Props.LogAnalyzer.C149_quarantine_violated",
    "Verif.Props.LogAnalyzer.C149_order_violated"
   ],
   "note": "C149_partial: not what headers report by milter, nor quarantined messages, nor logs whose minutes are out of order: the code fails for these. C149_never_more is about all five kinds of databases and any logs and runs: one row for each minute, and no line is counted twice or in another minute. The year of a line, time zones and rrdtool itself are not modelled."
  },
  {
   "property": "C15",
   "status": "partial",
   "theorems": [
    "Verif.Props.C15_edited_partial",
    "Verif.Props.C15_content_partial",
    "Verif.Props.C15_unchanged",
    "Verif.Props.C15_order_violated",
    "Verif.Props.C15_repeated_violated",
    "Verif.Props.C15_reorder_violated"
   ],
   "note": "Content (as a multiset) proved for distinct original names; order and repeated headers are violated by the code."
  },
  {
   "property": "C150",
   "status": "partial",
   "theorems": [
    "Verif.Props.Later.C150_partial",
    "Verif.Props.Later.C150_external",
    "Verif.Props.Later.C150_abort_violated",
    "Verif.Props.Later.C150_status_violated"
   ],
   "note": "C150_partial is about any milter in Ruby, in any session; C150_external about all schedules of milter-external.py. Not messages given up while milter-tarpit.rb waits, nor what comes after the answer: the code fails for these. Time itself is not modelled."
  },
  {
   "property": "C151",
   "status": "partial",
   "theorems": [
    "Verif.Props.Samples.C151_partial",
    "Verif.Props.Samples.C151_spelling_violated"
   ],
   "note": "Not other spellings of the name Sender: the code fails for these. Values are in ASCII."
  },
  {
   "property": "C152",
   "status": "partial",
   "theorems": [
    "Verif.Props.SamplesPython.C152_partial",
    "Verif.Props.SamplesPython.C152_encoding_violated",
    "Verif.Props.SamplesPython.C152_next_violated",
    "Verif.Props.SamplesPython.C152_last_violated"
   ],
   "note": "Only the first message of a session that gets to its end, with a body in UTF-8, no part of it with the end of the message, names of headers spelled in one way and at most one pattern that changes the body: the code fails for the others."
  },
  {
   "property": "C153",
   "status": "partial",
   "theorems": [
    "Verif.Props.Testing.C153_partial",
    "Verif.Props.Testing.C153_headers_violated",
    "Verif.Props.Testing.C153_lines_violated",
    "Verif.Props.Testing.C153_reply_violated",
    "Verif.Props.Testing.C153_error_violated",
    "Verif.Props.Testing.C153_body_violated"
   ],
   "note": "Status, time, sender, recipients and body (with a line feed more) for all results; headers only if none was changed and each has one line, and no replies of several lines, errors or NULs: the code fails for these. Conversions of character sets are not modelled."
  },
  {
   "property": "C154",
   "status": "partial",
   "theorems": [
    "Verif.Props.Module.C154_partial",
    "Verif.Props.Module.C154_order",
    "Verif.Props.Module.C154_twice_violated",
    "Verif.Props.Module.C154_dot_violated",
    "Verif.Props.Module.C154_name_violated"
   ],
   "note": "Order, finding and keeping for all directories; completeness and uniqueness for directories without a file NAME beside NAME.so and without names that end in so but not in .so: the code fails for these. What is done with an open library is not modelled."
  },
  {
   "property": "C155",
   "status": "partial",
   "theorems": [
    "Verif.Props.SessionResult.C155_partial",
    "Verif.Props.SessionResult.C155_twice_violated",
    "Verif.Props.SessionResult.C155_own_violated"
   ],
   "note": "References and times for all histories; the list for those in which nothing is added while it is there: the code removes one of several only, and uses freed memory when it is given its own list. Times are in microseconds, not gdouble."
  },
  {
   "property": "C156",
   "status": "proved",
   "theorems": [
    "Verif.Props.TestClient.C156"
   ],
   "note": "For the handlers of the tool and the client context below them. What is printed is not modelled; the variant with libmilter is not modelled."
  },
  {
   "property": "C157",
   "status": "partial",
   "theorems": [
    "Verif.Props.Statistics.C157_partial",
    "Verif.Props.Statistics.C157_cpu_violated",
    "Verif.Props.Statistics.C157_pid_violated",
    "Verif.Props.Statistics.C157_fds_violated"
   ],
   "note": "On Linux. Choice of processes, id, sizes and command line for all processes without --pid; the processor time is never shown, the number of files is two too high, and --pid ends with an error. Regular expressions are arbitrary tests."
  },
  {
   "property": "C158",
   "status": "partial",
   "theorems": [
    "Verif.Props.TestClientLibmilter.C158_partial",
    "Verif.Props.TestClientLibmilter.C158_wait_violated"
   ],
   "note": "For MTAs that offer to go on without the answers to greetings, senders and parts of the body; others wait for ever. With the library of this repository. What is printed is not modelled."
  },
  {
   "property": "C159",
   "status": "partial",
   "theorems": [
    "Verif.Props.PerformanceCheck.C159_partial",
    "Verif.Props.PerformanceCheck.C159_hang_violated"
   ],
   "note": "Every mail once for every schedule; the report for one connection only: with more, a thread can wait for ever. --interval, --period, --flood and several worker processes are not modelled."
  },
  {
   "property": "C16",
   "status": "partial",
   "theorems": [
    "Verif.Props.C16_partial",
    "Verif.Props.C16_library_calls",
    "Verif.Props.C16_violated",
    "Verif.Props.C16_unknown_violated"
   ],
   "note": "Proved for histories without the variadic set_macros call, which leaves a stale cache (C16_violated); macros of the unknown-command stage are never visible (C16_unknown_violated)."
  },
  {
   "property": "C160",
   "status": "partial",
   "theorems": [
    "Verif.Props.PerformanceStatistics.C160_partial",
    "Verif.Props.PerformanceStatistics.C160_lost_violated"
   ],
   "note": "For all endings but 50X, 53X, unknown codes and a closed connection, after which the program ends without a report. The exceptions of Net::SMTP are specified, not verified; times are natural numbers; layout is not modelled."
  },
  {
   "property": "C161",
   "status": "partial",
   "theorems": [
    "Verif.Props.PerformanceEnvelope.C161_partial",
    "Verif.Props.PerformanceEnvelope.C161_name_violated"
   ],
   "note": "For recipients without names; one with a name is used with it. How a text is split into headers, the greeting and authentication are not modelled."
  },
  {
   "property": "C162",
   "status": "partial",
   "theorems": [
    "Verif.Props.PerformanceAnalyzer.C162_partial",
    "Verif.Props.PerformanceAnalyzer.C162_midnight_violated"
   ],
   "note": "For reports within one day; over midnight the points jump back by a day. gnuplot and the options are not modelled."
  },
  {
   "property": "C163",
   "status": "partial",
   "theorems": [
    "Verif.Props.PerformancePeriod.C163_partial",
    "Verif.Props.PerformancePeriod.C163_lost_violated"
   ],
   "note": "No mail is counted more often than it was sent, for all schedules, and lines are exact if no mail ends while a period does; mails that end between two periods, or after the last line, are in no line."
  },
  {
   "property": "C164",
   "status": "partial",
   "theorems": [
    "Verif.Props.PerformanceOption.C164_partial",
    "Verif.Props.PerformanceOption.C164_point_violated"
   ],
   "note": "All texts of that form are taken for what they say, and all others rejected but those with another byte in the place of the point, which are taken for something else or end the program."
  },
  {
   "property": "C165",
   "status": "partial",
   "theorems": [
    "Verif.Props.PerformanceFlood.C165_partial",
    "Verif.Props.PerformanceFlood.C165_empty_violated"
   ],
   "note": "If there are mails; with --n-mails=0 a flood never ends. The length of a pause is not modelled."
  },
  {
   "property": "C166",
   "status": "partial",
   "theorems": [
    "Verif.Props.RubyLogger.C166_partial",
    "Verif.Props.RubyLogger.C166_backtrace_violated"
   ],
   "note": "For exceptions that have been raised; one that has not has no backtrace, and logging it raises NoMethodError. Carriage returns at the end of a line are dropped."
  },
  {
   "property": "C17",
   "status": "proved",
   "theorems": [
    "Verif.Props.C17_cleared",
    "Verif.Props.C17_lookup"
   ],
   "note": ""
  },
  {
   "property": "C18",
   "status": "proved",
   "theorems": [
    "Verif.Props.C18_union",
    "Verif.Props.C18_order"
   ],
   "note": "Assumes g_utf8_collate compares equal only equal strings."
  },
  {
   "property": "C19",
   "status": "partial",
   "theorems": [
    "Verif.Props.C19_grammar",
    "Verif.Props.C19_safe_partial",
    "Verif.Props.C19_violated",
    "Verif.Props.C19_quote_violated",
    "Verif.Props.C19_merge_violated"
   ],
   "note": "Acceptance and results characterised exactly by a grammar; no over-read for arguments without an unterminated quote or bracket, which do over-read."
  },
  {
   "property": "C20",
   "status": "partial",
   "theorems": [
    "Verif.Props.C20_round_trip",
    "Verif.Props.C20_inet_partial",
    "Verif.Props.C20_bad_port",
    "Verif.Props.C20_scheme",
    "Verif.Props.C20_port_violated",
    "Verif.Props.C20_long_path_violated"
   ],
   "note": "Port numbers are read with atoi, so some numbers above 65535 are accepted; over-long unix paths overflow the buffer."
  },
  {
   "property": "C21",
   "status": "proved",
   "theorems": [
    "Verif.Props.C21"
   ],
   "note": ""
  },
  {
   "property": "C22",
   "status": "partial",
   "theorems": [
    "Verif.Props.C22_ordered",
    "Verif.Props.C22_complete",
    "Verif.Props.C22_flushed_partial",
    "Verif.Props.C22_shutdown_violated",
    "Verif.Props.C22_error_violated"
   ],
   "note": "Order and completeness proved for all histories; honest flushed reports for histories without write errors, broken connection and shutdown, which violate them."
  },
  {
   "property": "C23",
   "status": "partial",
   "theorems": [
    "Verif.Props.C23_partial",
    "Verif.Props.C23_stop_violated",
    "Verif.Props.C23_declined_violated",
    "Verif.Props.C23_disconnect_violated",
    "Verif.Props.C23_no_reply_violated"
   ],
   "note": "Proved for any number of milters and every schedule of commands going out, answers, errors, reading timeouts and disconnections, from a state at rest until after the decision. The code fails it when the manager stops a milter at DATA, for a milter declining a command it would not have answered, for a disconnection after the reply, and for a milter that negotiated not to answer MAIL FROM (violated theorems)."
  },
  {
   "property": "C24",
   "status": "partial",
   "theorems": [
    "Verif.Props.C24_partial",
    "Verif.Props.C24_order_partial",
    "Verif.Props.C24_writing_timeout_violated",
    "Verif.Props.C24_stale_code_violated",
    "Verif.Props.C24_shutdown_violated"
   ],
   "note": "Proved for any number of milters and every schedule as in C23: the reply is a decision of maximal severity among those of the milters, fallbacks of failed milters included, independent of the order. The code fails it for a failure before the command has gone out, for the text of an older reply code, and for shutdown and connection-failure replies."
  },
  {
   "property": "C25",
   "status": "partial",
   "theorems": [
    "Verif.Props.C25_given_up",
    "Verif.Props.C25_never_consulted_partial",
    "Verif.Props.C25_disconnected",
    "Verif.Props.C25_violated"
   ],
   "note": "A milter that failed counts as its fallback and is given up, in every execution; no further command is shown for milters given up by the server context. A milter that disconnects while another one is served the message is still sent commands and the session hangs (C25_violated)."
  },
  {
   "property": "C26",
   "status": "partial",
   "theorems": [
    "Verif.Props.C26_refusal_partial",
    "Verif.Props.C26_modification",
    "Verif.Props.C26_accept_violated",
    "Verif.Props.C26_code_violated"
   ],
   "note": "Every refusal and every change told to the MTA has a milter that counts (or a fallback) as its origin. The full property is false: a rejection of a header by a milter in evaluation mode ends the message for the other milters, and its reply code text is used."
  },
  {
   "property": "C27",
   "status": "proved",
   "theorems": [
    "Verif.Props.C27_no_effect",
    "Verif.Props.C27_irrelevant",
    "Verif.Props.C27_progress",
    "Verif.Props.C27_dropped"
   ],
   "note": ""
  },
  {
   "property": "C28",
   "status": "partial",
   "theorems": [
    "Verif.Props.C28_partial",
    "Verif.Props.C28_chain_partial",
    "Verif.Props.C28_refusal_partial",
    "Verif.Props.C28_empty_body_violated",
    "Verif.Props.C28_no_header_violated",
    "Verif.Props.C28_two_bodies_violated",
    "Verif.Props.C28_twice_violated"
   ],
   "note": "Proved for every message, every number of milters and all requests: each milter gets the message as its predecessors left it, command by command, and the MTA is told the sum of the changes, provided that the milters answer everything before the end with continue, no milter removes all headers or the whole body, and nobody invents a body. Each of these provisos is needed: see the _violated witnesses. At the end a milter may continue, accept (the MTA is told accept if all do) or, by C28_refusal_partial, refuse: then the MTA is told the changes so far and the refusal, and everybody else is told to abort."
  },
  {
   "property": "C29",
   "status": "partial",
   "theorems": [
    "Verif.Props.C29_partial",
    "Verif.Props.C29_kept_partial",
    "Verif.Props.C29_zero_violated"
   ],
   "note": "Proved for every body, in memory or in the temporary file, and every chunk size from 1 to 65535; a chunk size of 0 can be configured and the body is then never sent (C29_zero_violated)."
  },
  {
   "property": "C30",
   "status": "partial",
   "theorems": [
    "Verif.Props.C30_abort",
    "Verif.Props.C30_reply",
    "Verif.Props.C30_status_violated",
    "Verif.Props.C30_header_violated",
    "Verif.Props.C30_replaced_violated"
   ],
   "note": "Everything stored for a message is forgotten at an abort and at a final reply, for every execution. Three pieces of per-message state survive (the last decision, the header position after an abort among the headers, the body-replaced mark): the _violated theorems."
  },
  {
   "property": "C31",
   "status": "proved",
   "theorems": [
    "Verif.Props.C31"
   ],
   "note": ""
  },
  {
   "property": "C32",
   "status": "partial",
   "theorems": [
    "Verif.Props.C32_partial",
    "Verif.Props.C32_refused",
    "Verif.Props.C32_abort_quit",
    "Verif.Props.C32_violated",
    "Verif.Props.C32_body_timeout_violated"
   ],
   "note": "For every history of calls, replies, flushes, timeouts and nested handler calls no command is written while another is outstanding, except that a body command stops counting once it has gone out; a refused call reports busy and writes nothing; abort and quit are always written. The body exception is real: C32_violated and C32_body_timeout_violated give histories where the code sends the next command without the body reply and never times the milter out."
  },
  {
   "property": "C33",
   "status": "proved",
   "theorems": [
    "Verif.Props.C33"
   ],
   "note": "All histories before and after quit; only a later set_quitted(FALSE), which nothing in the repository calls, is excluded."
  },
  {
   "property": "C34",
   "status": "proved",
   "theorems": [
    "Verif.Props.C34_only_allowed",
    "Verif.Props.C34_error",
    "Verif.Props.C34_reported"
   ],
   "note": "All states. tempfail, reject, accept, discard, connection-failure and shutdown are allowed in every state by the code, which the specification Allowed records."
  },
  {
   "property": "C35",
   "status": "proved",
   "theorems": [
    "Verif.Props.C35",
    "Verif.Props.C35_calls",
    "Verif.Props.C35_on_behalf"
   ],
   "note": "C35 covers every history in which no negotiate call follows the first body chunk; C35_calls covers every call in every state."
  },
  {
   "property": "C36",
   "status": "partial",
   "theorems": [
    "Verif.Props.C36",
    "Verif.Props.C36_has_accepted",
    "Verif.Props.C36_data_partial",
    "Verif.Props.C36_second_refusal_violated"
   ],
   "note": "All recipient/answer sequences, one exchange at a time. C36_second_refusal_violated shows that a second refusal without a pending recipient is undefined behaviour. That a milter without accepted recipient is not given the message is C36_data_partial, for schedules as in C23."
  },
  {
   "property": "C37",
   "status": "partial",
   "theorems": [
    "Verif.Props.C37_partial",
    "Verif.Props.C37_small",
    "Verif.Props.C37_abort_violated",
    "Verif.Props.C37_end_violated"
   ],
   "note": "Conservation over the whole session for every history, exactness for chunks up to 65535 bytes. The per-message statement is false for larger chunks: the two _violated theorems."
  },
  {
   "property": "C38",
   "status": "partial",
   "theorems": [
    "Verif.Props.C38_partial",
    "Verif.Props.C38_alone_partial",
    "Verif.Props.C38_reply_partial",
    "Verif.Props.C38_other_class_violated",
    "Verif.Props.C38_earlier_command_violated",
    "Verif.Props.C38_empty_text_violated"
   ],
   "note": "For every session: with no custom reply in force, or one of the class of the decision and with a text, the reply has the class of the decision. The code never checks the class of the custom reply against the decision and never forgets it: see the _violated theorems."
  },
  {
   "property": "C39",
   "status": "partial",
   "theorems": [
    "Verif.Props.C39_refused_partial",
    "Verif.Props.C39_accepted_partial",
    "Verif.Props.C39_quarantine_violated",
    "Verif.Props.C39_recipient_parameters_violated",
    "Verif.Props.C39_recipient_parameters_refused_violated"
   ],
   "note": "Proved for every session and every modification except quarantine (no check at all) and recipients with parameters when their flag and the one for plain recipients differ (only the latter is checked): see the _violated theorems."
  },
  {
   "property": "C40",
   "status": "partial",
   "theorems": [
    "Verif.Props.C40_partial",
    "Verif.Props.C40_decoded_partial",
    "Verif.Props.C40_aborted_violated",
    "Verif.Props.C40_empty_body_violated",
    "Verif.Props.C40_empty_name_violated"
   ],
   "note": "Proved for every buffer size, every list of calls and every session before it, as long as no end of a message was left without its answer. Violated by an abort after the end of the message, and for calls with an empty body or header name."
  },
  {
   "property": "C41",
   "status": "partial",
   "theorems": [
    "Verif.Props.C41_partial",
    "Verif.Props.C41_second_partial",
    "Verif.Props.C41_late_partial",
    "Verif.Props.C41_disconnected_partial",
    "Verif.Props.C41_modification",
    "Verif.Props.C41_nobody_violated",
    "Verif.Props.C41_body_violated",
    "Verif.Props.C41_refused_violated",
    "Verif.Props.C41_negotiation_violated",
    "Verif.Props.C41_negotiation_silent_violated",
    "Verif.Props.C41_code_violated"
   ],
   "note": "For every session that starts with a negotiation and in which the MTA sends one command at a time and the milters take every command: the decision becomes the one answer of the pending command, a second one is refused and writes nothing, a late one writes nothing. Two answers are written when no milter can be asked, on body chunks, and for refused commands; a reply code without enhanced status code is never answered."
  },
  {
   "property": "C42",
   "status": "partial",
   "theorems": [
    "Verif.Props.C42_commands",
    "Verif.Props.C42_replies_partial",
    "Verif.Props.C42_status_violated",
    "Verif.Props.ControlSession.C42_reply_stream_partial",
    "Verif.Props.C42_nul_violated",
    "Verif.Props.C42_failure_violated"
   ],
   "note": "Commands with text payload in any chunking; replies packet by packet. Status replies are rejected by the decoder, payloads with an inner NUL are over-read, a failure text runs into a following packet of 2^24 bytes or more."
  },
  {
   "property": "C43",
   "status": "partial",
   "theorems": [
    "Verif.Props.C43_partial",
    "Verif.Props.C43_violated"
   ],
   "note": "Command line and user name not empty; an empty command line is rejected, an empty user name is read back as none."
  },
  {
   "property": "C44",
   "status": "proved",
   "theorems": [
    "Verif.Props.C44",
    "Verif.Props.C44_deferred"
   ],
   "note": ""
  },
  {
   "property": "C45",
   "status": "proved",
   "theorems": [
    "Verif.Props.C45_taken",
    "Verif.Props.C45_refused",
    "Verif.Props.C45_only",
    "Verif.Props.C45_condition"
   ],
   "note": "Merging a definition into itself (aliased objects) is not modelled."
  },
  {
   "property": "C46",
   "status": "proved",
   "theorems": [
    "Verif.Props.C46"
   ],
   "note": ""
  },
  {
   "property": "C47",
   "status": "proved",
   "theorems": [
    "Verif.Props.C47",
    "Verif.Props.C47_violated"
   ],
   "note": "C47_violated shows that a lone flush request (not made through the agent) can be lost."
  },
  {
   "property": "C48",
   "status": "partial",
   "theorems": [
    "Verif.Props.C48_partial",
    "Verif.Props.C48_stage",
    "Verif.Props.C48_plain",
    "Verif.Props.C48_braces_violated",
    "Verif.Props.C48_other_stage_violated"
   ],
   "note": "For a milter that asked for no particular macros, or asked for some at this stage by plain name: exactly the wanted macros are defined, in one packet just before the command. Violated for names asked for with braces and for stages the milter did not mention."
  },
  {
   "property": "C49",
   "status": "partial",
   "theorems": [
    "Verif.Props.C49_partial"
   ],
   "note": "Proved for any number of milters and every schedule as in C23, in the phases where all milters are asked at once; the schedules excluded are those of C23."
  },
  {
   "property": "C50",
   "status": "partial",
   "theorems": [
    "Verif.Props.C50_partial",
    "Verif.Props.C50_no_reply_violated",
    "Verif.Props.C50_twice_violated"
   ],
   "note": "For every session of commands answered by their handlers, with the exact modifications, quarantine request and custom reply. Decisions that are no reply leave the MTA without an answer, and nothing prevents a second answer: _violated theorems."
  },
  {
   "property": "C51",
   "status": "partial",
   "theorems": [
    "Verif.Props.C51_partial",
    "Verif.Props.C51_violated"
   ],
   "note": "Holds after an abort; violated after a message that ended normally."
  },
  {
   "property": "C52",
   "status": "partial",
   "theorems": [
    "Verif.Props.C52_partial",
    "Verif.Props.C52_waits",
    "Verif.Props.C52_modification_violated",
    "Verif.Props.C52_progress_violated"
   ],
   "note": "Holds as long as nothing is written before the answer; a modification that is flushed or a report of progress starts the timer."
  },
  {
   "property": "C53",
   "status": "partial",
   "theorems": [
    "Verif.Props.C53_partial",
    "Verif.Props.C53_nobody_violated",
    "Verif.Props.C53_no_milter_violated",
    "Verif.Props.C53_code_violated",
    "Verif.Props.C53_stale_code_violated"
   ],
   "note": "End to end for every reachable session at rest: bytes written to the MTA. Excluded: the schedules excluded in C23, reply codes the MTA's context does not accept (no reply at all), a plain refusal after a reply code (sent with the old code); two replies are written when no milter is left."
  },
  {
   "property": "C54",
   "status": "partial",
   "theorems": [
    "Verif.Props.C54_partial",
    "Verif.Props.C54_fallback_violated",
    "Verif.Props.C54_order_violated"
   ],
   "note": "Holds with the exception that a repeated definition forgets the fallback status, the evaluation mode and options given without a command, and moves the milter to the end."
  },
  {
   "property": "C55",
   "status": "partial",
   "theorems": [
    "Verif.Props.C55_partial",
    "Verif.Props.C55_unresolved_violated"
   ],
   "note": "A spec whose host does not resolve when the session starts still gives a child, which cannot be reached."
  },
  {
   "property": "C56",
   "status": "partial",
   "theorems": [
    "Verif.Props.C56_partial",
    "Verif.Props.C56_refusal_partial"
   ],
   "note": "Before the end of the message the milters say continue; other decisions are C49, C24 and C53. At the end they may continue, accept or refuse.  The cases in which C28 fails are excluded, and so is an end of the message that arrives before the answer to what came before it."
  },
  {
   "property": "C57",
   "status": "partial",
   "theorems": [
    "Verif.Props.C57_partial",
    "Verif.Props.C57_empty_body_violated"
   ],
   "note": "As C56; header names are distinct (C15 fails otherwise, and does not keep the order when headers are deleted or moved), and a body replaced by an empty one is excluded, where the property fails."
  },
  {
   "property": "C58",
   "status": "proved",
   "theorems": [
    "Verif.Props.C58",
    "Verif.Props.C58_enum"
   ],
   "note": ""
  },
  {
   "property": "C59",
   "status": "partial",
   "theorems": [
    "Verif.Props.C59_log_partial",
    "Verif.Props.C59_syslog_partial",
    "Verif.Props.C59_names",
    "Verif.Props.C59_property_violated",
    "Verif.Props.C59_nothing_violated"
   ],
   "note": "Levels are set by the functions, not as GObject properties, where the property fails.  Taking all levels away gives the default ones."
  },
  {
   "property": "C60",
   "status": "partial",
   "theorems": [
    "Verif.Props.C60_partial",
    "Verif.Props.C60_disposed",
    "Verif.Props.C60_accept_loop_violated",
    "Verif.Props.C60_destroyed_violated",
    "Verif.Props.C60_destroyed_partial"
   ],
   "note": "For every history in which the counter is not changed by two threads at once.  With a thread of its own for accepting (the accept-loop mode) it is, and a session is lost from the count; destroying the client while finished sessions wait lets them go twice."
  },
  {
   "property": "C61",
   "status": "partial",
   "theorems": [
    "Verif.Props.C61_limit_partial",
    "Verif.Props.C61_accept_partial",
    "Verif.Props.C61_stall_violated"
   ],
   "note": "The limit is kept; but in the default mode and in a worker the thread that would let sessions go is the one that sleeps until one has gone, so the client stalls for ever (C61_stall_violated)."
  },
  {
   "property": "C62",
   "status": "partial",
   "theorems": [
    "Verif.Props.C62_partial",
    "Verif.Props.C62_never_violated"
   ],
   "note": "As C60; fewer than 2^32 connections.  An interval of 0, documented as never, still gives maintenance whenever no session is left."
  },
  {
   "property": "C63",
   "status": "partial",
   "theorems": [
    "Verif.Props.C63_partial",
    "Verif.Props.C63_no_more"
   ],
   "note": "As C60; unless the client has stalled (C61); fewer than 2^32 connections.  That the shutdown runs in a signal handler is not modelled."
  },
  {
   "property": "C64",
   "status": "partial",
   "theorems": [
    "Verif.Props.C64_partial",
    "Verif.Props.C64_worker_violated"
   ],
   "note": "Not for a worker, which accepts nothing any more after a failure."
  },
  {
   "property": "C65",
   "status": "proved",
   "theorems": [
    "Verif.Props.C65",
    "Verif.Props.C65_finished"
   ],
   "note": ""
  },
  {
   "property": "C66",
   "status": "partial",
   "theorems": [
    "Verif.Props.C66_turn_partial",
    "Verif.Props.C66_interval",
    "Verif.Props.C66_timer_partial",
    "Verif.Props.C66_timer_violated"
   ],
   "note": "Every session gets its turn while the timer goes.  After a check that found the clients of all sessions gone the timer is not started again (C66_timer_violated)."
  },
  {
   "property": "C67",
   "status": "partial",
   "theorems": [
    "Verif.Props.LibMilter.C67_partial",
    "Verif.Props.LibMilter.C67_body_partial",
    "Verif.Props.LibMilter.C67_close",
    "Verif.Props.LibMilter.C67_last_chunk_violated",
    "Verif.Props.LibMilter.C67_abort_unknown_violated",
    "Verif.Props.LibMilter.C67_abort_decided_violated",
    "Verif.Props.LibMilter.C67_quit_violated"
   ],
   "note": "Proved for all filters that do not use the context in xxfi_negotiate and have xxfi_eom if they have xxfi_body, and all orderly sessions. Without xxfi_eom the last chunk is lost; xxfi_abort is called after an unknown command and after a decision; not at the end of a session within a message."
  },
  {
   "property": "C68",
   "status": "partial",
   "theorems": [
    "Verif.Props.LibMilter.C68_partial"
   ],
   "note": "For every reachable session, every filter and every command. Missing: values that are no reply, replies without an enhanced code, recipients with parameters (C38, C39)."
  },
  {
   "property": "C69",
   "status": "partial",
   "theorems": [
    "Verif.Props.LibMilter.C69_partial",
    "Verif.Props.LibMilter.C69_steps_violated",
    "Verif.Props.LibMilter.C69_silent_violated",
    "Verif.Props.LibMilter.C69_context_violated",
    "Verif.Props.LibMilter.C69_symbols_violated"
   ],
   "note": "The reply is the one the filter chose. Without xxfi_negotiate the MTA is asked to leave out everything it offers to leave out and told the filter may do anything; some values of xxfi_negotiate leave the MTA without an answer; its context is not usable; smfi_setsymlist does nothing."
  },
  {
   "property": "C70",
   "status": "partial",
   "theorems": [
    "Verif.Props.LibMilter.C70_partial",
    "Verif.Props.LibMilter.C70_digits",
    "Verif.Props.LibMilter.C70_code_violated",
    "Verif.Props.LibMilter.C70_quarantine_violated"
   ],
   "note": "Codes with trailing text or overflow are accepted; smfi_quarantine always succeeds."
  },
  {
   "property": "C71",
   "status": "partial",
   "theorems": [
    "Verif.Props.LibMilter.C71_settings",
    "Verif.Props.LibMilter.C71_refused",
    "Verif.Props.LibMilter.C71_debug_partial",
    "Verif.Props.LibMilter.C71_debug_violated"
   ],
   "note": "Level 0 should write nothing and writes more than level 1."
  },
  {
   "property": "C72",
   "status": "partial",
   "theorems": [
    "Verif.Props.Reader.C72_faithful",
    "Verif.Props.Reader.C72_complete_partial",
    "Verif.Props.Reader.C72_ends_partial",
    "Verif.Props.Reader.C72_violated"
   ],
   "note": "The prefix property holds for every history. Completeness holds if the event loop reports no error or hang-up to the reader; with GLib's loop a hang-up is reported together with the last input, and what one read of 4096 bytes leaves is lost."
  },
  {
   "property": "C73",
   "status": "partial",
   "theorems": [
    "Verif.Props.Reader.C73_end",
    "Verif.Props.Reader.C73_memory_partial",
    "Verif.Props.Reader.C73_memory_violated",
    "Verif.Props.Reader.C73_stop_violated"
   ],
   "note": "One end, and nothing after it, for every history. The callback writes to the reader after its owner has let go of it; what is left in the channel's buffer is handed on after a request to stop."
  },
  {
   "property": "C74",
   "status": "proved",
   "theorems": [
    "Verif.Props.Reader.C74_commands",
    "Verif.Props.Reader.C74_commands_all",
    "Verif.Props.Reader.C74_replies",
    "Verif.Props.Reader.C74_replies_all"
   ],
   "note": "Writer, network, reader and decoder together, for every schedule; the network is a parameter that passes on a prefix of what was written. At the end for undisturbed readers (C72)."
  },
  {
   "property": "C75",
   "status": "proved",
   "theorems": [
    "Verif.Props.LibMilter.C75"
   ],
   "note": "For filters that leave the unusable context of xxfi_negotiate alone (C69). The program of each callback is a parameter; the macros are those of C16."
  },
  {
   "property": "C76",
   "status": "partial",
   "theorems": [
    "Verif.Props.EventLoop.C76_partial",
    "Verif.Props.EventLoop.C76_first_partial",
    "Verif.Props.EventLoop.C76_callable_partial",
    "Verif.Props.EventLoop.C76_violated",
    "Verif.Props.EventLoop.C76_zero_interval_violated"
   ],
   "note": "libev's event loop; libev is a parameter that calls started watchers only. Holds for the first 2^32-2 sources, and for all as long as an id is not given out again while the function of its former source runs; once the ids have come round that happens, and the wrong source is removed. A timer of interval 0 is called once although it asks for more."
  },
  {
   "property": "C77",
   "status": "proved",
   "theorems": [
    "Verif.Props.EventLoop.C77"
   ],
   "note": "For every nesting of runs, quits, calls and removals."
  },
  {
   "property": "C78",
   "status": "proved",
   "theorems": [
    "Verif.Props.Reader.C78_read",
    "Verif.Props.Reader.C78_error",
    "Verif.Props.Reader.C78_shutdown",
    "Verif.Props.Reader.C78_ends"
   ],
   "note": "In every reachable state; the use of freed memory of C73 is left aside."
  },
  {
   "property": "C79",
   "status": "partial",
   "theorems": [
    "Verif.Props.Configuration.C79_partial",
    "Verif.Props.Configuration.C79_history_partial",
    "Verif.Props.Configuration.C79_violated",
    "Verif.Props.Configuration.C79_load_path_violated"
   ],
   "note": "Files that take the package platform or options away, or change the load path, leave traces."
  },
  {
   "property": "C80",
   "status": "partial",
   "theorems": [
    "Verif.Props.Configuration.C80_partial",
    "Verif.Props.Configuration.C80_violated"
   ],
   "note": "The configuration is cleared before the file is looked for."
  },
  {
   "property": "C81",
   "status": "partial",
   "theorems": [
    "Verif.Props.Configuration.C81_partial",
    "Verif.Props.Configuration.C81_only",
    "Verif.Props.Configuration.C81_violated"
   ],
   "note": "An unwritable directory earlier in the load path with a custom configuration hides the saved one."
  },
  {
   "property": "C82",
   "status": "partial",
   "theorems": [
    "Verif.Props.Configuration.C82_partial",
    "Verif.Props.Configuration.C82_hangup_partial",
    "Verif.Props.Configuration.C82_controller_partial",
    "Verif.Props.Configuration.C82_violated",
    "Verif.Props.Configuration.C82_packet_buffer_size_violated",
    "Verif.Props.Configuration.C82_syslog_violated"
   ],
   "note": "Some options are lost at the start, others at a reload by way of the controller."
  },
  {
   "property": "C83",
   "status": "partial",
   "theorems": [
    "Verif.Props.Configuration.C83_partial",
    "Verif.Props.Configuration.C83_violated"
   ],
   "note": "The reply to a reload is always success."
  },
  {
   "property": "C84",
   "status": "partial",
   "theorems": [
    "Verif.Props.Configuration.C84_partial",
    "Verif.Props.Configuration.C84_violated"
   ],
   "note": "The file decides after all."
  },
  {
   "property": "C85",
   "status": "partial",
   "theorems": [
    "Verif.Props.Xml.C85_partial",
    "Verif.Props.Xml.C85_violated",
    "Verif.Props.Xml.C85_carriage_return_violated"
   ],
   "note": "For all texts without control characters."
  },
  {
   "property": "C86",
   "status": "partial",
   "theorems": [
    "Verif.Props.XmlLoader.C86_partial",
    "Verif.Props.XmlLoader.C86_back_partial",
    "Verif.Props.XmlLoader.C86_violated",
    "Verif.Props.XmlLoader.C86_conditions_violated",
    "Verif.Props.XmlLoader.C86_command_violated"
   ],
   "note": "The loader refuses elements the manager writes."
  },
  {
   "property": "C87",
   "status": "partial",
   "theorems": [
    "Verif.Props.Agent.C87_partial",
    "Verif.Props.Agent.C87_ends",
    "Verif.Props.Agent.C87_violated",
    "Verif.Props.Agent.C87_unstarted_violated"
   ],
   "note": "The end is said twice if a handler of the end asks for a shut down, never by an agent that was not started."
  },
  {
   "property": "C88",
   "status": "partial",
   "theorems": [
    "Verif.Props.Privilege.C88_partial",
    "Verif.Props.Privilege.C88_not_root",
    "Verif.Props.Privilege.C88_refused",
    "Verif.Props.Privilege.C88_serves",
    "Verif.Props.Privilege.C88_violated",
    "Verif.Props.Privilege.C88_socket_violated"
   ],
   "note": "Without a configured group, the groups of root are kept."
  },
  {
   "property": "C89",
   "status": "partial",
   "theorems": [
    "Verif.Props.Launcher.C89_answered",
    "Verif.Props.Launcher.C89_identity_partial",
    "Verif.Props.Launcher.C89_once",
    "Verif.Props.Launcher.C89_again",
    "Verif.Props.Launcher.C89_violated",
    "Verif.Props.Launcher.C89_not_root_violated"
   ],
   "note": "If it cannot become the user, the command is run all the same."
  },
  {
   "property": "C90",
   "status": "partial",
   "theorems": [
    "Verif.Props.Conditions.C90_stop_partial",
    "Verif.Props.Conditions.C90_not_asked",
    "Verif.Props.Conditions.C90_pure",
    "Verif.Props.Conditions.C90_macros_partial",
    "Verif.Props.Conditions.C90_body_violated",
    "Verif.Props.Conditions.C90_body_blind_violated",
    "Verif.Props.Conditions.C90_helo_violated"
   ],
   "note": "For all events but chunks of the body, for which blocks are not given the chunk; HELO blocks do not see the macros of their stage."
  },
  {
   "property": "C91",
   "status": "proved",
   "theorems": [
    "Verif.Props.Conditions.C91_remote_network",
    "Verif.Props.Conditions.C91_local_or_remote"
   ],
   "note": ""
  },
  {
   "property": "C92",
   "status": "partial",
   "theorems": [
    "Verif.Props.Conditions.C92_exactly",
    "Verif.Props.Conditions.C92_alike_partial",
    "Verif.Props.Conditions.C92_last_decides",
    "Verif.Props.Conditions.C92_order_violated"
   ],
   "note": "If the recipients are all restricted or all not; otherwise the last recipient decides."
  },
  {
   "property": "C93",
   "status": "proved",
   "theorems": [
    "Verif.Props.Conditions.C93_authenticated",
    "Verif.Props.Conditions.C93_told",
    "Verif.Props.Conditions.C93_braces"
   ],
   "note": ""
  },
  {
   "property": "C94",
   "status": "partial",
   "theorems": [
    "Verif.Props.Tables.C94_variables",
    "Verif.Props.Tables.C94_rules",
    "Verif.Props.Tables.C94_conditions_partial",
    "Verif.Props.Tables.C94_after_partial",
    "Verif.Props.Tables.C94_refused",
    "Verif.Props.Tables.C94_unended",
    "Verif.Props.Tables.C94_endif_violated",
    "Verif.Props.Tables.C94_twice_violated",
    "Verif.Props.Tables.C94_stray_endif_violated",
    "Verif.Props.Tables.C94_flag_violated"
   ],
   "note": "For tables with nothing after endif, or after two of them if the outer condition applies; actions within conditions are expanded twice."
  },
  {
   "property": "C95",
   "status": "proved",
   "theorems": [
    "Verif.Props.Tables.C95_first"
   ],
   "note": ""
  },
  {
   "property": "C96",
   "status": "partial",
   "theorems": [
    "Verif.Props.Netstat.C96_disconnected_partial",
    "Verif.Props.Netstat.C96_check",
    "Verif.Props.Netstat.C96_lifetime_violated",
    "Verif.Props.Netstat.C96_mapped_violated"
   ],
   "note": "For IPv4 clients whose address is written plainly; the life time of the output is not kept."
  },
  {
   "property": "C97",
   "status": "partial",
   "theorems": [
    "Verif.Props.C97_partial"
   ],
   "note": "For courses in which a milter fails only after it got the command (C24_writing_timeout_violated), nobody disconnects between commands (C23_disconnect_violated), everybody answers all commands (C23_no_reply_violated) and no condition stops a milter (C23_stop_violated). If all milters have refused all recipients, the MTA is told nothing at DATA. Messages: as C28 and C99, with milters accepting or refusing at any point, as long as not everybody accepts before the end; nothing is left over from an earlier message (C30), in particular no refusal."
  },
  {
   "property": "C98",
   "status": "partial",
   "theorems": [
    "Verif.Props.Workers.C98_served_partial",
    "Verif.Props.Workers.C98_ends",
    "Verif.Props.Workers.C98_orphan_partial",
    "Verif.Props.Workers.C98_limit_partial",
    "Verif.Props.Workers.C98_limit_violated",
    "Verif.Props.Workers.C98_reload_violated",
    "Verif.Props.Workers.C98_replaced_violated",
    "Verif.Props.Workers.C98_waits_violated",
    "Verif.Props.Workers.C98_orphan_violated"
   ],
   "note": "The limit is one for each worker, a reload does not reach the workers, dead workers are not replaced, the master returns at once, and a worker that is full when a connection comes in stalls (C61) and never ends."
  },
  {
   "property": "C99",
   "status": "partial",
   "theorems": [
    "Verif.Props.C99_reading_partial",
    "Verif.Props.C99_message_partial",
    "Verif.Props.C99_refusal_partial",
    "Verif.Props.C99_late_violated",
    "Verif.Props.C99_both_violated",
    "Verif.Props.C99_next_violated"
   ],
   "note": "As long as one milter does not accept before the end. When everybody accepts before the end, the MTA may be told to continue instead, and what has arrived is kept and goes out with the next message. Skip is not among the answers considered."
  }
 ]
}