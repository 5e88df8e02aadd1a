# Formal model of milter-manager in Lean 4: design

The source modelled is `/repo` (milter-manager, C/GLib).  Paths below are
relative to `/repo/milter` unless they start with another top-level directory.
Lean sources are in `/verif/lean/Verif`.

## Conventions

* A byte string is `List UInt8`.  A C string is a byte list without NUL; where
  the code lets a C string run into foreign memory the model takes the foreign
  bytes as an extra argument or returns a distinct `ub` outcome (`HRes.ub`, or
  the outer `none` where the definition says so).
* Functions with side effects become total functions on an explicit state; GLib
  signal emissions and socket writes are recorded in a log that only grows.
* `Core/`, `Client/`, `Server/`, `Manager/` hold the model, with a citation of
  file and lines on every definition, and (in separate files) lemmas about it.
* `Spec/*.lean` hold small specifications that do not use the model's helpers.
* `Props/*.lean` (namespace `Verif.Props`) hold the property theorems and, next
  to each, an `example` showing that a concrete case meets its hypotheses.  The
  theorem of property `Cnn` is called `Cnn...`.
* Where the code does not have the property, a theorem named `..._violated`
  proves the negation on a concrete witness and the strongest version found to
  be true is proved with the suffix `_partial`; its comment says what is
  missing.
* `MANIFEST.json` lists the theorems per property, `AXIOMS.md` the axioms of
  each (generated from `#print axioms`), `seeded/LOG.jsonl` the wrong programs
  the theorems were tested against.

## Trusted base

* Lean's kernel (4.33.0) and at most the axioms `propext`, `Classical.choice`,
  `Quot.sound`, theorem by theorem in `AXIOMS.md`.  No axiom is added; there is
  no `sorry`, `admit`, `native_decide`, `bv_decide`, `implemented_by` or
  `unsafe`.
* The reading of the C code: each model definition is a hand translation, to be
  compared with the lines it cites.
* GLib and libc, which are replaced by lists, functions and parameters:
  * `GString`, `GList`, `GHashTable`, `GObject` signals with accumulators behave
    as documented.  Iteration order of hash tables is a parameter (`sort` of
    macros, `order` of macro requests): theorems hold for every order.
  * `inet_pton`/`inet_ntop` are a parameter with the two round-trip laws
    (`Spec.InetLaws`), `getaddrinfo` an arbitrary function.
  * `g_utf8_collate` is an arbitrary comparison; C18 assumes that it calls
    only equal strings equal.
  * `atoi` is glibc's on a 64-bit system.
  * Sockets and the event loop: a writer takes any part of what it is given or
    fails; readiness, timeouts, errors and disconnections come in any order, as
    events the theorems quantify over.  In `Manager/Children` the results of
    operations on a milter's connection that the model cannot know (could the
    connection be set up, could the packet be handed to the writer) are a list
    of answers, over which all theorems quantify.
* The recursion of `milter-manager-children.c` through signal handlers is
  modelled with a bound on the depth of calls; a run that exceeds the bound
  has no result.  Safety theorems say "if the run has a result", for every
  bound.  C23, C24, C28, C53, C56 and C57 also say that there is a result, for
  every bound of at least 2.

## What is modelled

| code | model |
|------|-------|
| `core/milter-decoder.c`, `milter-command-decoder.c`, `milter-reply-decoder.c` | `Core/Decoder`, `CommandDecoder`, `ReplyDecoder` |
| `core/milter-encoder.c`, `milter-command-encoder.c`, `milter-reply-encoder.c` | `Core/CommandEncoder`, `ReplyEncoder`, `BodyChunks` |
| `core/milter-utils.c`: reply codes, status severity, file modes, enum and flag names | `Core/ReplyCode`, `Status`, `FileMode`, `Names` |
| `core/milter-logger.c`, `core/milter-syslog-logger.c`: which messages are written | `Core/Logger` |
| `core/milter-option.c`, `milter-macros-requests.c`, `milter-headers.c`, `milter-protocol-agent.c`, `milter-esmtp.c`, `milter-connection.c` (specs), `milter-writer.c`, `milter-reader.c`, `milter-event-loop.c` and `milter-libev-event-loop.c` | `Core/Option`, `MacrosRequests`, `Headers`, `ProtocolAgent`, `Esmtp`, `Connection`, `Writer`, `Reader`, `EventLoop` |
| `client/milter-client-context.c`: replies, modifications, buffering, quarantine, timer, status accumulator, message data | `Client/Context`, `Client/SetReply` |
| `server/milter-server-context.c`: states, outstanding commands, body leftovers, recipients, timeouts, replies, macros | `Server/Context`, `Server/Macros` |
| `manager/milter-manager-children.c`: all of it but logging; launching and retries on their own | `Manager/Children`, `HeaderDiff`, `Manager/Launch` |
| `manager/milter-manager-controller.c` (a connection), `milter-manager-controller-context.c` | `Manager/ControlSession`, `Manager/Configuration` |
| `manager/milter-manager-leader.c` and how `milter-manager.c` 600-880 connects it to the context | `Manager/Leader` |
| `client/milter-client.c`: accepting, limit, counting, letting go, maintenance, shutdown | `Client/Service` |
| `client/milter-client.c` 698-703, 2109-2210, 2408-2516: master and worker processes | `Client/Workers` |
| `libmilter/libmilter-compatible.c`: callbacks, functions for callbacks, settings | `Client/LibMilter` |
| `binding/ruby/lib/milter/client.rb` 145-211, `client/session.rb`, `client/session-context.rb`, `client/composite-session.rb`, `client/fallback-session.rb`, `binding/ruby/ext/client/rb-milter-client-context.c`: callbacks, decisions, several milters as one | `Client/Ruby` |
| `manager/milter-manager.c`: list of leaders and connection check | `Manager/Checker` |
| context, leader and children together | `Manager/Session` |
| `manager/milter-manager-control-*`, `milter-manager-launch-*` codecs | `Manager/ControlCodec` |
| `manager/milter-manager-egg.c`, `milter-manager-applicable-condition.c` (merge), the egg list of `milter-manager-configuration.c`, `binding/ruby/lib/milter/manager.rb` 461-467, 1113-1121, 1206-1210 | `Manager/Egg` |
| `manager/milter-manager-configuration.c`: settings, clearing, loading, saving; `milter-manager-main.c` and `milter-client-main.c`: options; `milter-manager.c`: reload; `milter-manager-controller-context.c`: callbacks | `Manager/Configuration` |
| `core/milter-utils.c` 658-706, the XML of configuration and eggs; `binding/ruby/lib/milter/manager.rb` 524-707 | `Core/Xml`, `Manager/ConfigurationXml`, `Core/XmlReader` (specified), `Manager/XmlLoader` |
| `core/milter-agent.c` | `Core/Agent` |
| `client/milter-client.c` 1762-1907, `manager/milter-manager-main.c` 638-706, `manager/milter-manager-process-launcher.c` | `Core/Credentials` (specified), `Client/Privilege`, `Manager/Startup`, `Manager/Launcher` |
| `binding/ruby/lib/milter/manager.rb` 1037-1058, 1213-1410, `child-context.rb`, `address-matcher.rb`, `core/macro.rb`, `data/applicable-conditions/{authentication,remote-network,restrict-accounts,s25r}.conf` | `Manager/Conditions` |
| `data/applicable-conditions/{trust,stress,dnsbl,sendmail-compatible}.conf`, `breaker.rb` and the reading of master.cf | `Manager/Shipped` |
| `tool/milter-test-server.c`: mail files, the conversation, what is printed | `Tool/TestServer` |
| `detector.rb`, `redhat-init-detector.rb`, `clamav-milter-config-parser.rb`, `opendkim-config-parser.rb`, `milter-greylist-config-parser.rb`, `enma-socket-detector.rb` | `Manager/Detector` |
| `binding/ruby/lib/milter/manager.rb` 83-87, 150-360, 405-508, 709-1235; `client/configuration.rb` 165-260, 448-760 | `Manager/Dump` |
| `policy-manager.rb`; `manager.rb` 461-492, 502-513 | `Manager/Policy` |
| `client/envelope-address.rb` | `Client/EnvelopeAddress` |
| `manager.rb` 89-99, 709-740 | `Manager/PackageOptions` |
| `core/path.rb`; `manager.rb` 441-454, 495-499 | `Manager/Path` |
| `milter-connection.c` 342-435, `milter-client.c` (sockets, PID file, clean-up), `milter-manager-controller.c` 106-165, 331-485, `milter-manager-main.c` 641-732 | `Core/UnixSocket` |
| `systemd-detector.rb`, `redhat-systemd-detector.rb`, `debian-systemd-detector.rb`, `debian-detector.rb`, `rspamd-proxy-detector.rb` | `Manager/Systemd` |
| `debian-init-detector.rb`, `rcng-detector.rb`, `freebsd-rc-detector.rb` | `Manager/DetectorRc` |
| `client/command-line.rb`, `client/configuration.rb`, setters in `rb-milter-client.c` | `Client/RubySettings` |
| `redhat-upstart-detector.rb`, `redhat-detector.rb`, `pkgsrc-rc-detector.rb` | `Manager/DetectorUpstart` |
| `init-detector.rb` (54-75), `redhat-init-detector.rb` (72-120), `debian-init-detector.rb` (55-65) | `Manager/InitInfo` |
| `binding/python/gi/overrides/MilterClient/client.py`, `session.py`, `session_context.py` | `Client/Python` (PyGObject is assumed to turn a `GError` into an exception, and to leave a signal without an answer, 0, if a handler raises; strings that are not UTF-8 are left out) |
| `binding/python/gi/overrides/MilterClient/command_line.py` | `Client/PythonSettings` (`argparse` and `configparser` are not modelled: a command line is the list of its options, a file that of its settings) |
| `binding/ruby/sample/milter-replace.rb`, `milter-regexp.rb`, `milter-reject-empty-body.rb` (regular expressions, `gsub`, `=~` and `NKF.nkf` are functions that do not raise) | `Client/Samples` |
| `tool/milter-manager-log-analyzer`: from lines to databases (`report_key` is a function; no year, no time zones, no graphs) | `Tool/LogAnalyzer` |
| `delay_response` with a later answer; `milter-tarpit.rb`, `milter-external.py` (a timer fires, and a child ends, at any time) | `Client/Later` |
| `binding/ruby/sample/milter-reject-nil-sender.rb` (values in ASCII) | `Client/Samples` |
| `binding/python/sample/milter-replace.py` (regular expressions are functions) | `Client/SamplesPython` |
| `tool/milter-test-server.c` 1977-2308 (output), `binding/ruby/lib/milter/server/testing.rb` (parsing; no character sets) | `Tool/Testing` |
| `manager/milter-manager-module.c` (loading of directories, finding; not the use of libraries) | `Manager/Module` |
| `core/milter-session-result.c` | `Core/SessionResult` |
| `tool/milter-test-client.c` (what it answers, not what it prints) | `Tool/TestClient` |
| `tool/milter-report-statistics` (Linux; not the options and the layout) | `Tool/Statistics` |
| `tool/milter-test-client-libmilter.c` (what it answers, not what it prints) | `Tool/TestClientLibmilter` |
| `tool/milter-performance-check` (parallel sending, floods, intervals, statistics, periodical report, envelopes, periods in options; not the other options, the mails and the layout) | `Tool/PerformanceCheck`, `Tool/PerformanceStatistics`, `Tool/PerformanceEnvelope`, `Tool/PerformancePeriod`, `Tool/PerformanceOption`, `Tool/PerformanceFlood` |
| `tool/milter-performance-analyzer` (not the options and gnuplot) | `Tool/PerformanceAnalyzer` |
| `binding/ruby/lib/milter/core/logger.rb` (not `ActiveRecordLogger`), `callback.rb` | `Client/RubyLogger` |
| `postfix-regexp-table.rb`, `postfix-cidr-table.rb` (regular expressions are functions) | `Manager/Tables` |
| `netstat-connection-checker.rb`, `manager/milter-manager-leader.c` 360-374 | `Manager/Netstat` |

Not modelled: memory management (except where it shows as use after free or
reading out of bounds), GLib's event loop (`milter-glib-event-loop.c`),
the text of log messages, the times and children in message results (statistics), the configuration language
(a file is the list of calls it makes) apart from the definition of milters and
the loading of XML, modules, D-Bus, the
other tools not in the table.  The length of a timeout is not modelled, only when timers are
running.  Not part of the repository and therefore specified, not verified:
GLib's markup escaping, XML readers (REXML), libev, the kernel's sockets, the
MTA.

Simplifications that matter are noted on the definitions.  The main ones:

* In `Manager/Session` the leader hears the signals of the children object
  after the call that emits them, in the same order, instead of during it.
* In `Server/Context` and `Client/Context` handlers of signals are lists of
  calls that are fixed before the signal is emitted.
* Packet lengths are below 2^31 in round-trip theorems (the code keeps them in
  32 bits).

## Property by property

| id | model | how it is proved | status |
|----|-------|------------------|--------|
| C01 | decoder state machine over an arbitrary packet handler | feed of a concatenation = feed of the parts, by induction; instantiated with both handlers | partial: malformed packets that are over-read |
| C02 | command encoder and decoder | per-command round trip, then induction on the sequence through the framing machine, for every chunking | proved |
| C03 | reply encoder and decoder | same | proved |
| C04 | encoder objects with their retained buffer | induction on histories | partial: negotiate does not clear the buffer |
| C05 | handlers get the whole receive buffer and the packet length | handler(buf,len) = handler(take len buf,len) | partial |
| C06 | decoder machine | induction on later feeds | proved |
| C07 | body/replace-body encoders and the loops that use `packed_size` | induction on the body length | proved |
| C08 | `encode_macros`, `decode_define_macros` | round trip | proved |
| C09 | `milter_utils_format_reply_code`, reply-code decoder | round trip | partial |
| C10 | `milter_client_context_set_reply`, `extended_code_parse_*` | equivalence with a grammar | proved |
| C11, C12 | `core/milter-option.c` | bitwise algebra, permutation invariance | proved; C12 partial (versions) |
| C13 | `milter_status_compare` | case analysis, permutation invariance of the fold | proved |
| C14 | `core/milter-headers.c` | equivalence with list specifications | proved |
| C15 | `emit_header_signals` and an MTA that applies the edits | induction on the final list | partial: order, repeated headers |
| C16, C17 | `core/milter-protocol-agent.c` | refinement to a cache-free lookup, by induction on histories | C16 partial, C17 proved |
| C18 | `core/milter-macros-requests.c` | list induction | proved |
| C19 | `core/milter-esmtp.c` | equivalence with a grammar | partial: unterminated quotes |
| C20 | `core/milter-connection.c` | round trip | partial: port overflow, long paths |
| C21 | file mode parsing | equivalence with a grammar | proved |
| C22, C47 | `core/milter-writer.c` | invariant over all schedules | C22 partial, C47 proved |
| C23, C24, C49 | children: the phases in which all milters are asked at once | invariant over all schedules of answers, failures, timeouts and disconnections | partial |
| C25, C26, C27, C30, C46 | children | invariants over all executions | C27, C46 proved |
| C28, C29 | children: the phase in which the message is handed from milter to milter | refinement to a chain of drafts | partial |
| C31 | negotiation part of the children | bitwise algebra | proved |
| C32-C37 | server context | invariants over all call/reply histories | C33, C34, C35 proved |
| C38-C40, C44, C50-C52 | client context | invariants over histories | C44 proved |
| C41 | leader with the client context | transition function and induction | partial |
| C42, C43 | control and launch codecs | round trip | partial |
| C45, C54, C55 | milter definitions | case analysis; refinement of histories of definitions to a map | C45 proved |
| C48 | macros prepended to a command | equivalence with a selection | partial |
| C53 | the whole session | composition of C23/C24 with the leader and the context, down to bytes | partial |
| C56 | a whole message in a session | composition of C28, C41 and C40, by induction over the exchanges of the message | partial |
| C58 | strings of flag names | induction over the list of names, bit by bit | proved |
| C59 | loggers | invariant over histories of calls | partial |
| C60 | accepting, counting and letting go of sessions | invariant over histories: each session is in exactly one place | partial |
| C61 | limit of connections | the invariant of C60; the stall by induction over what follows | partial |
| C62 | maintenance | the invariant of C60, arithmetic of multiples passed | partial |
| C63 | shutdown | the invariant of C60 | partial |
| C64 | failed accept | case analysis over all states | partial |
| C65 | leaders of the manager and the connection check | invariant over histories: each leader in one place, the pointer splits the list | proved |
| C66 | turns and timer of the connection check | decreasing bound on the checks to wait for, over histories | partial |
| C67 | callbacks of a libmilter filter | the state of the context determines whether a message has begun; induction over commands | partial |
| C68 | replies to the MTA from a libmilter filter | composition of C50 with the model of callbacks as programs | partial |
| C69 | negotiation by a libmilter filter | case analysis, down to bytes | partial |
| C70 | results of the library's functions | induction over the program of a callback, with C10 and C39 | partial |
| C71 | settings of a libmilter process | induction over the calls; C59 for the log | partial |
| C72 | reader: bytes handed on, sent, waiting | invariant: handed on ++ waiting = sent; progress by induction over rounds of reading | partial |
| C73 | reader: its end, its owner, its memory | invariant over all events | partial |
| C74 | writer, network, reader and decoder together | C22 and C72 with the round trips C02, C03 | proved |
| C75 | callbacks of a libmilter filter as programs, private data, macros | induction over the program and over the events; C16 for macros | proved |
| C76 | sources of libev's event loop, their ids, calls and removals | refinement of a small specification of what may follow (`Fine`), invariant over all events; witness by induction over 2^32 sources | partial |
| C77 | nested runs and quits of an event loop | invariant: saved depth = runs further out not told yet | proved |
| C78 | reader: errors and reasons to end | exact outcome of every callback in every reachable state | proved |
| C79 | the settings, `clear`, finding, loading and reloading of files; a file is a sequence of calls it makes | every setting is reset: reload = the calls of the files on the defaults; invariant over histories | partial: package settings set to NULL, load path |
| C80 | same | a reload without file is reported and forgotten by the next | partial: the configuration in force is lost meanwhile |
| C81 | saving of the custom configuration, load path, permissions | which file is written, and that the loader finds it | partial: hidden by an earlier directory |
| C82 | command line options, `milter_manager_reload` | invariant over histories | partial: several options are lost |
| C83 | controller callbacks | case analysis over all states | partial: reload always says success |
| C84 | `milter_manager_main` | equality of the two starts | partial: it is the file that decides |
| C85 | XML writer; the reader is a specification after XML 1.0 | compositional: what each piece of text reads as and adds to the tree | partial: control characters |
| C86 | XML writer and the Ruby listener that loads it | events of the document, then a run of the listener by induction on the milters | partial: three kinds of XML that are refused |
| C87 | agent, with handlers that call it again | invariant of reentrant runs, by induction on the history | partial: the end is said twice if its handler shuts down; never if the agent was not started |
| C88 | dropping of privileges, start of the manager, system calls about ids | case analysis; for good: induction on later system calls | partial: groups of root are kept if no group is configured; chown is not checked |
| C89 | process launcher | invariant of the list of processes against the processes that run, by induction on the history | partial: a process that cannot become the user runs all the same |
| C90 | applicable conditions and their stoppers (`Manager/Conditions`) | induction on conditions and blocks | partial: blocks for body chunks are not given the chunk; HELO blocks run in the wrong macro stage |
| C91 | address matcher, `remote-network.conf` | arithmetic on prefixes | proved |
| C92 | `restrict-accounts.conf`, macros of the MTA | induction on recipients | partial: the last recipient decides |
| C93 | `authentication.conf`, macros | case analysis; told: history of macros | proved |
| C94 | tables of regular expressions; patterns are parameters | induction on lines and texts, against `Spec/Tables` | partial: `endif`, double expansion, stray `endif`, flag `i` |
| C95 | CIDR tables | induction on lines | proved |
| C96 | netstat checker, connection checkers of the leader; netstat's output is a parameter | induction on lines of the output and on checks | partial: life time, mapped addresses |
| C97 | the children object from one command to the next; `Spec/Rounds` says what a course of a session is | the invariant of C23 carried past the end of a command: everything but aborts is done, and flushing the aborts gives the state the next command starts from; induction on the course; messages by the theorems of C28, which also say what they leave behind | partial: as C23 and C28 |
| C98 | master, pipe and workers, each worker a machine of `Client/Service`; fork, pipe and the sharing of the listening socket are the operating system's | each worker's history projected to a history of `Client/Service` (invariant), then C60-C63; simulation for the reload | partial: limit, reload, replacement, waiting, stalled workers |
| C99 | the children object while a message arrives; `Spec/Early` says what courses there are | the invariant of the intake (C28) with the queue of what has arrived; the handover of C28 for a message that has not ended; induction on the course; a refusal at any point by the lemma for the end of the message | partial: everybody accepts before the end; skip |
| C100 | quit of all milters in any state (exact output), the announcement over all histories, the negotiation after the end | `C100_quit` by induction over the milters; `C100_once`, `C100_no_offer` by the paths of `ChildrenOps` and induction over histories |
| C101 | the emulated DATA and the kept command | `C101_as_data`: the same as DATA, for all states; `C101_kept` from the start of a conversation (C23); `C101_waiting`, `C101_decided`, `C101_carried_out` by the invariant of conversations (C23) with a kept command, for all courses of events; the departure by a concrete session |
| C102 | cb_skip in both paths, the pieces that follow, the end of the message | the exact effect on any state in which a milter is to answer a piece, by induction over the pieces; two departures by concrete sessions | partial: the next message |
| C103 | the Ruby callbacks of `Milter::Client` as programs over the session interface | by cases over commands, for all programs and states | partial: what comes with the end of the message |
| C104 | decisions, replies, exceptions and modifications of Ruby callbacks on top of the client context | invariant of sessions (`Good`), `C40` for what is written, induction over programs | partial: three departures |
| C105 | instance variables over a history | invariant over orderly histories, for any predicate that `reset` establishes | partial: continue, exceptions, several milters |
| C106 | `negotiate` of a Ruby session and the bits of the steps | bit by bit, for all offers and sets of callbacks |
| C107 | `CompositeSession` | induction over the milters; severity from C13 | partial: four departures |
| C108 | `cb_stopped` and the four `stop-on-...` signals in the manager, with an environment that says which milters are stopped | the conversation of C23 started from another position: induction over the milters offered the command, then the invariant of C23 over the events | partial: DATA, second messages, a milter alone |
| C109 | the message result kept by the server context and the `message-processed` signal, in the model of the context of C36 | an invariant of the context between the commands of a message (During), one lemma per way a message ends, induction over the commands; recipients and header fields up to order, the sender, the size of the body and the changes (Describes) | partial: a refusal outlives its message, header fields of one name are reversed |
| C110 | the connection check of the leader in the model of a whole session (C53) | exact output of abort and quit in any state by induction over the milters; the conversation invariant of C23 tells when a milter is waited for | partial: an end of a message that arrives before the answer to its last part |
| C111 | trust.conf as a condition in the model of conditions (C44-C49): sender's domain, list files, macros given | case-insensitivity as a relation on texts; exact macro table after any history | partial: quoted users, capitals in the configuration, MTAs without macros for MAIL |
| C112 | stress.conf, breaker.rb and the parser of master.cf; postconf and netstat are parameters | by cases; induction over questions and over the lines of the file | partial: "smtp unix" before "smtp inet" |
| C113 | dnsbl.conf; DNS is a function, the order of answers a permutation | induction over answers; splitting the question recovers the address | proved |
| C114 | sendmail-compatible.conf over the macro tables of the agent; netstat and DNS are functions | exact table seen before and after; induction over the questions to the cache | proved |
| C115 | the whole session (C53) run through a course (C97) | the leader between two commands (Idle), exact reaction to each command and answer, induction over the course | partial: departures of C53 |
| C116 | the parser of mail files of milter-test-server.c, down to g_strsplit | a mail is written as a text (Spec/TestServer), parsing inverts writing, induction over fields and lines | partial: one address per field, no NUL |
| C117 | the callbacks of milter-test-server.c as functions of the context's state and the negotiated option; replies are a list | what is still to be said (left) is shown to lose exactly one command per turn; induction over the script; refused recipients by an invariant up to permutation | partial: options for which the tool hangs |
| C118 | the changes and the printing functions | functional induction over the comparison; induction over the changes | partial: the empty body |
| C119 | the loop of set_macro | induction over the turns | partial: two macros or more loop forever |
| C120 | milter-manager-children.c's connection attempts, timers and launches, per milter, as a state machine of their own (`Manager/Launch`) | invariant that bounds attempts, launches and offers by what is still pending, preserved by every event | partial: launching may double attempts |
| C121 | the same machine with the queue of milters not yet decided about | invariant relating the queue to the decisions in the log; answers counted by decisions | partial: the answer may be sent twice |
| C122 | the agent's reader, the request decoder and the callbacks as one fold over reads and other happenings (`Manager/ControlSession`) | framing lemmas for handlers that see what follows in the buffer; induction over reads builds the serial history | partial: unknown requests, status |
| C123 | detector.rb's regular expressions for assignments and variables, written out as functions over bytes (`Manager/Detector`) | independent grammar of assignment files with a shell semantics (`Spec/Detector`); the functions applied to a printed file give what the shell gives, by induction over lines and parts | partial: quoting, unset variables |
| C124 | the parsers of clamav-milter, opendkim and milter-greylist | grammar of such files; induction over lines | partial: comments and blanks behind values |
| C125 | milter-greylist's parser and `apply` | grammar with waits; the maximum over the file | partial: continued lines |
| C126 | `apply`, `extract_parameter_from_flags`, `guess_spec` of Red Hat init scripts | C123, C124 and lemmas about prefixes and options put together | partial: scripts made of assignments |
| C127 | the dumper and the setters of the loader (`Manager/Dump`) | a small reader of the Ruby the output is written in (`Spec/Dump`); every line is read as the statement it was written for; the statements, carried out one after the other, copy the configuration | partial: milters without command options |
| C128 | policies as an applicable condition; applying them to the definitions (`Manager/Policy`) | the decision at each command is characterised; none in a session iff all policies are met; induction over the redefined milters | partial |
| C129 | the regular expressions of `EnvelopeAddress` as functions (`Client/EnvelopeAddress`) | leftmost matches, for all texts around the address | partial: quoted brackets, source routes |
| C130 | splitting and joining of package options (`Manager/PackageOptions`) | induction over the options | partial: commas in values |
| C131 | `resolve_path` over any disk (`Manager/Path`) | induction over the load path | partial: empty directories |
| C132 | the disk as a map with its history, every system call succeeding or not (`Core/UnixSocket`) | case analysis over all outcomes; induction over the life of a controller | partial: see the departures |
| C133 | unit files, environment files, the choice of detector (`Manager/Systemd`) | printing and reading a unit; induction over its lines | partial: sockets outside environment files |
| C134 | the spec made of rspamd's `bind_socket` (`Manager/Systemd`) | composed with the parser of specs (C20) | partial: IPv6, no proxy |
| C135 | init scripts and /etc/default of Debian (`Manager/DetectorRc`) | composed with the reading of assignments (C123) | partial: files of assignments |
| C136 | scripts in rc.d, the three files of settings, FreeBSD's rules (`Manager/DetectorRc`) | printing and reading scripts and settings; induction over lines | partial: see the departures |
| C137 | command lines and configuration files of milters written in Ruby, and the setters of the client (`Client/RubySettings`) | induction over nested files and options; a table of settings by key | partial: see the departures |
| C138 | the message-processed signal of the client context and the result it carries, as a flag (`Client/Context`) | invariant over the log of events, calls of handlers included | partial: messages settled before their end are never reported |
| C139 | jobs of upstart, the choice on Red Hat (`Manager/DetectorUpstart`) | induction over the lines of a job; composition with C124 and C126 | partial: see the departures |
| C140 | scripts of pkgsrc, files of settings, enma.conf (`Manager/DetectorUpstart`) | induction over lines, reusing what was proved for FreeBSD | partial: see the departures |
| C141 | the comments at the head of init scripts (`Manager/InitInfo`), against `Spec/InitInfo` | induction over lines, fields and folded lines | partial: see the departures |
| C142 | sessions of the Python binding (`Client/Python`), against `Spec/Python` and the specification of C103 and C104 | the session is that of an honest object as in C104, by a simulation that reads what was done in the terms of C104 | partial: see the departures |
| C143 | the option a Python milter answers with | the steps in any order, then as C106 | partial: see the departures |
| C144 | the command line and the configuration files of a Python milter (`Client/PythonSettings`), against `Spec/PythonSettings` | induction over options and over the entries of a file | partial: see the departures |
| C145 | the instance variables of a Python milter over a session (`Client/Python`) | invariant over the commands, induction over the program of the callback and that of `on_error` | partial: see the departures |
| C146 | milter-replace.rb as a class of `Client/Ruby`, with the copy of the message an MTA has (`Spec/Samples`) | invariant of what is kept over the commands, induction over headers and patterns | partial: see the departures |
| C147 | milter-regexp.rb likewise | the same, and the answer to one callback | partial: see the departures |
| C148 | milter-reject-empty-body.rb likewise | the same | partial: see the departures |
| C149 | the generators of milter-manager-log-analyzer as folds over lines, a database is the list of its updates (`Tool/LogAnalyzer`); the table of a log is specified by minutes (`Spec/LogAnalyzer`) | an invariant ties the rows written and the data in memory to the lines fed; a run is split at the minute of the one before; induction over runs; milters that appear in the middle of a run are compared with ones that were there from its start; for any logs an invariant says that nothing is counted twice | partial: see the departures |
| C150 | a block that runs later in a session of Ruby or Python, and answers; milter-tarpit.rb and milter-external.py with their timers and children (`Client/Later`) | a context that waits and is answered is the one answered at once, by equations of the client context; for milter-external.py an invariant of the children watched, over all schedules | partial: see the departures |
| C151 | milter-reject-nil-sender.rb with its regular expression (`Client/Samples`) | induction over the value for the pattern, and what a Ruby callback's answer is read as, in any session | partial: see the departures |
| C152 | milter-replace.py as a class of `Client/Python`, with the decoding of the body (`Client/SamplesPython`) | what the Python binding makes the MTA read (C142) and the effect of the changes on the MTA's copy (C146); texts in UTF-8 decode, by induction over their characters | partial: see the departures |
| C153 | the output of milter-test-server and the Ruby class that parses it (`Tool/Testing`) | the lines of what is printed, then each of them read, by induction over recipients and headers; C118 for what the marks mean | partial: see the departures |
| C154 | which files of a directory are loaded as modules, and how they are found (`Manager/Module`) | uniqueness of sorted lists, then what each entry adds, by induction over the entries | partial: see the departures |
| C155 | the object and a history of calls (`Core/SessionResult`) | induction over histories | partial: see the departures |
| C156 | the handlers of the tool (`Tool/TestClient`) on the client context (`Client/Context`) | induction over the commands, with the state of the context as invariant | proved |
| C157 | the files of /proc and what is made of them (`Tool/Statistics`) | what the kernel writes is read back, by induction over fields and arguments; then the choice, process by process | partial: see the departures |
| C158 | the callbacks of the tool (`Tool/TestClientLibmilter`) in the library (`Client/LibMilter`) | induction over the commands, with the state of the context as invariant | partial: see the departures |
| C159 | the queue and the threads, one turn at a time (`Tool/PerformanceCheck`) | an invariant that counts each mail in queue, threads and what was sent; a measure of the turns left; induction over schedules | partial: see the departures |
| C160 | `rescue` clauses and statistics (`Tool/PerformanceStatistics`) | induction over the mails | partial: see the departures |
| C161 | from headers and options to the envelope (`Tool/PerformanceEnvelope`) | what is written in a header is read back, by induction over texts and lists; turns by induction over the mails | partial: see the departures |
| C162 | from the text of a report to the values that are drawn (`Tool/PerformanceAnalyzer`) | columns and times that are written are read back, by induction over texts; rows by induction over the lines | partial: see the departures |
| C163 | the reporting thread and the sending threads, step by step (`Tool/PerformancePeriod`) | invariant over all schedules; induction over the periods | partial: see the departures |
| C164 | from a text to seconds (`Tool/PerformanceOption`) | both directions, by splitting texts at their digits | partial: see the departures |
| C165 | the loop of a flooding thread for all readings of the clock, and the pauses (`Tool/PerformanceFlood`) | induction over the readings, and over the mails | partial: see the departures |
| C166 | `log` and `guard` (`Client/RubyLogger`) | the lines of a text that was joined from lines, by induction | partial: see the departures |
| C57 | the MTA's copy of the message | C56 and C15; the MTA's reading of replies is `Spec/Copy` | partial |

All properties can be expressed in a model.  Timing (how long a timeout is) and
the delivery of main-loop events are environment input: theorems quantify over
all their orders.

## Where the code departs from the properties

Each item with a theorem name is proved of the model; the others were seen while
reading.

Codecs:
* A length below 1 (or negative) makes the decoder compute with a negative
  length; one-byte `D`, zero-length `E` and `B` are read past the end
  (`C01_violated`, `C05_violated`, `C05_empty_violated`).  Insert/change-header
  replies are read up to two bytes past the packet.
* The negotiate encoder does not clear the encoder's buffer: a second
  negotiation on one encoder repeats the first (`C04_violated`).
* Reply codes without enhanced status code or text are not read back
  (`C09_..._violated`).
* `insertHeader` with an empty value comes back as NULL, `changeHeader` with an
  empty value as a deletion.
* The status reply of the control protocol is rejected by its own decoder, a
  configuration with an inner NUL is over-read (`C42_..._violated`); an empty
  command line cannot be launched (`C43_violated`).

Options, macros, headers:
* Merging options with different protocol versions depends on the order
  (`C12_violated`).
* The variadic `set_macros` leaves a stale lookup cache (`C16_violated`); macros
  of the unknown-command stage are never visible (`C16_unknown_violated`).
* Header changes told to the MTA do not reproduce reordered or repeated headers
  (`C15_..._violated`).
* Macros requested as `{name}` are not sent (`C48_braces_violated`); a milter
  that asked for macros at one stage gets none at the others
  (`C48_other_stage_violated`).

Parsing:
* Ports above 65535 are accepted when `atoi` overflows (`C20_port_violated`);
  unix paths over 107 bytes overflow `sun_path` (`C20_long_path_violated`).
* Unterminated `[` or `"` in ESMTP paths is read past the NUL
  (`C19_violated`, `C19_quote_violated`); merging parameters uses freed memory
  (`C19_merge_violated`).

Writer:
* `flushed` is reported at shutdown without a request, and at once after a write
  error (`C22_shutdown_violated`, `C22_error_violated`); a lone flush request is
  lost (`C47_violated`).

Server context:
* A body chunk stops counting as outstanding once it has gone out, so the next
  command can overtake its answer, without timeout (`C32_violated`,
  `C32_body_timeout_violated`).
* A second refusal without pending recipient is undefined behaviour
  (`C36_second_refusal_violated`).
* What is left of a large chunk crosses an abort and the end of a message
  (`C37_abort_violated`, `C37_end_violated`).

Children object:
* C23: two replies or none when the manager stops a milter at DATA, when a
  milter declines a command it would not have answered, when it disconnects
  after its reply, when it negotiated not to answer MAIL FROM.
* C24: failure before the command went out, text of an older reply code,
  shutdown and connection-failure passed on at once.
* C25: a milter that disconnects while another one is served is still sent
  commands and the session hangs (`C25_violated`).
* C26: a milter in evaluation mode that rejects a header ends the message for
  the others (`C26_accept_violated`), and its reply text is used
  (`C26_code_violated`).
* C28: a milter that empties the body hides the message from the next one
  (`C28_empty_body_violated`); removing the only header hangs the session
  (`C28_no_header_violated`); two milters that both replace a missing body get
  their bodies concatenated (`C28_two_bodies_violated`); a milter that answers
  twice counts twice (`C28_twice_violated`).  Not a departure, but to be known: a
  refusal at the end of the message comes after the changes asked for so far, which the
  MTA is told nevertheless (`C28_refusal_partial`, `C56_refusal_partial`).
* C29: chunk size 0 can be configured and the body is never sent
  (`C29_zero_violated`).
* C30: last decision, header position and body-replaced mark survive a message.

Client context:
* The custom reply is used for any refusal, whatever its class, and never
  forgotten (`C38_..._violated`).
* Quarantine is not checked against the negotiated actions, recipients with
  parameters are checked against the wrong flag (`C39_..._violated`).
* An abort leaves the packets buffered for the message, which are then sent with
  the next (`C40_aborted_violated`).
* Statuses that are no reply leave the MTA without an answer, nothing prevents a
  second answer (`C50_..._violated`).
* Message data is cleared at an abort only (`C51_violated`).
* The timer for the MTA runs while the milter works if it has written something
  (`C52_..._violated`).

Leader and session:
* When no milter is left, the fallback is written twice for each command
  (`C41_nobody_violated`, `C53_nobody_violated`, `C53_no_milter_violated`).
* A second decision on a body chunk is taken (`C41_body_violated`); a refused
  command is answered but leaves the state open (`C41_refused_violated`).
* A reply code without enhanced status code makes the leader complain and answer
  nothing (`C41_code_violated`, `C53_code_violated`).
* A refusal without code is sent with the code of an earlier one
  (`C53_stale_code_violated`).

Configuration:
* Defining a milter again forgets its fallback status and evaluation mode
  (`C54_fallback_violated`) and moves it to the end (`C54_order_violated`).
* A milter whose host does not resolve at the start of a session is consulted
  without an address (`C55_unresolved_violated`).

Logging:
* Setting the logger's `target-level` property does not tell the check that
  saves formatting unwanted messages (`C59_property_violated`).
* Taking away all levels ("-all") leaves the value that means the default ones
  (`C59_nothing_violated`).

Accepting and counting (`client/milter-client.c`):
* When a connection comes while `max-connections` sessions exist, the thread of
  the event loop sleeps until there are fewer; in the default mode and in a
  worker this is the thread that serves the sessions, so none ever ends
  (`C61_stall_violated`).
* In the accept-loop mode two threads change the counter without a lock
  (`C60_accept_loop_violated`); a shutdown then never ends.
* Destroying the client frees the sessions waiting to be freed twice
  (`C60_destroyed_violated`).
* A worker drops its watch after any accept error but EAGAIN
  (`C64_worker_violated`).
* With a maintenance interval of 0, documented as "never", maintenance happens
  whenever no session is left (`C62_never_violated`).
* Not modelled, but seen: `max-connections` counts per worker process; the
  multi-thread mode swaps the arguments of its thread function; the shutdown
  runs in a signal handler and takes a mutex.

Connection check (`manager/milter-manager.c`):
* `connection_check` answers "no more" when it has emptied the list, but
  `periodical_connection_checker_id` keeps its value, so that the sessions that
  begin later are not checked (`C66_timer_violated`).

The library with libmilter's interface (`libmilter/libmilter-compatible.c`):
* The handler of the signal "negotiate" has one parameter less than the signal
  has arguments, so what `xxfi_negotiate` gets as its context is the object of
  the macros requests (`C69_context_violated`).
* `smfi_setsymlist` writes into an object nobody keeps (`C69_symbols_violated`).
* Without `xxfi_negotiate`, or when it returns SMFIS_ALL_OPTS, the MTA's own offer
  is sent back, by which the MTA is asked to leave out every step it can leave
  out; `xxfi_flags` is never looked at (`C69_steps_violated`).
* Values other than SMFIS_CONTINUE, SMFIS_ALL_OPTS and SMFIS_REJECT of
  `xxfi_negotiate` leave the MTA without an answer (`C69_silent_violated`).
* A filter with `xxfi_body` and without `xxfi_eom` does not get the part of the body
  that comes with the end of the message (`C67_last_chunk_violated`).
* `xxfi_abort` is called outside of a message after an unknown command, and for
  messages the filter already decided on; it is not called when a session ends
  within a message (`C67_..._violated`).
* `smfi_setreply` reads the code with `atoi` (`C70_code_violated`);
  `smfi_quarantine` always succeeds (`C70_quarantine_violated`).
* `smfi_setdbg (0)` selects the default messages instead of none
  (`C71_debug_violated`).

Reader (`core/milter-reader.c`):
* GLib's loop calls the callback for input and the one for hang-up in one
  round; the first reads at most 4096 bytes and what is buffered, the second
  finishes without reading the rest (`C72_violated`).  libev's error events are
  truncated to a `short` that is 0, so there the second callback is never called.
* `read_watch_func` writes `priv->processing` after `finish`, when the agent, which
  owns the reader, has let go of it: freed memory at every end of a connection
  (`C73_memory_violated`).
* Buffered input is handed on although a handler has shut the reader down
  (`C73_stop_violated`).

Event loop on libev (`core/milter-libev-event-loop.c`):
* A callback remembers the id of its source, calls its function and removes the
  id if the function returns FALSE.  If the function has removed its own source
  and added another, and the ids have come round, the new source may have the
  same id and is removed (`C76_violated`).
* A timer of interval 0 has no repeat interval for libev, which stops it before
  it calls it; its function is not called again although it returns TRUE, and
  the source stays (`C76_zero_interval_violated`).  GLib's loop calls it again.

Configuration (`manager/milter-manager-configuration.c`, `milter-manager-main.c`,
`milter-manager.c`, `milter-manager-controller-context.c`):
* `clear_package` resets the platform and options of the package only if they are
  not NULL, so that NULL stays (`C79_violated`); the load path is not reset at all
  (`C79_load_path_violated`).
* `milter_manager_configuration_reload` clears everything before it looks for the
  file: while the file is missing there are no milters and mail passes unfiltered
  (`C80_violated`).
* A custom configuration is saved in the first directory that can be written, but
  loaded from the first that has one (`C81_violated`).
* The controller reloads the configuration without putting the command line on
  top (`C82_violated`); `--packet-buffer-size`, `--syslog` and `--syslog-facility`
  are lost when the configuration is loaded at the start (`C82_..._violated`).
* The reply to a reload is success even if it failed (`C83_violated`).  Also
  `Milter::Callback.guard` swallows the exceptions of a broken file, so that the
  reload itself counts as a success.
* Privilege mode is turned off for a manager not started by root before the
  configuration is loaded, which may turn it on again (`C84_violated`).
* `g_markup_escape_text` writes control characters as references that XML 1.0 does
  not allow (`C85_violated`); carriage returns are not escaped
  (`C85_carriage_return_violated`).
* The loader of XML refuses `<last-modified>` and `<applicable-conditions>` in
  `<configuration>`, both of which the manager writes (`C86_violated`,
  `C86_conditions_violated`), and calls `empty?` on nil for a command without
  options (`C86_command_violated`).  All of this is only logged.

Agents (`core/milter-agent.c`):
* When the peer closes the connection, `cb_reader_finished` emits "finished"
  before the agent forgets its reader's end; a handler that shuts the agent down
  makes it emit "finished" again (`C87_violated`).
* An agent that has a reader but was not started never emits "finished", however
  often it is shut down (`C87_unstarted_violated`).

Privileges (`client/milter-client.c`, `manager/milter-manager-process-launcher.c`):
* `switch_group` returns at once if no group is configured, which is the default:
  a process started by root keeps group 0 and all supplementary groups of root
  (`C88_violated`).
* That the owner of the UNIX socket could not be changed is set as an error but
  not returned (`C88_socket_violated`).
* `setup_child` only logs that it could not change the ids; the command is run,
  as root, and the reply is success (`C89_violated`).  The same with a launcher
  that is not root (`C89_not_root_violated`), which C84's violation makes
  possible.

Applicable conditions (`binding/ruby/lib/milter/manager.rb`, `data/applicable-conditions`):
* A block for chunks of the body is given the name of its condition in place of the
  chunk (`manager.rb` 1389; `C90_body_violated`, `C90_body_blind_violated`).
* `milter_server_context_helo` does not set the macro stage, unlike all other
  commands, so that blocks for HELO run with the stage of the connection or with
  none: they do not see the macros of HELO and what they write is lost
  (`C90_helo_violated`).
* "Restrict Accounts": if the MTA sends macros with RCPT, the tables are replaced
  for each recipient and the last recipient alone decides; if it sends none, one
  recipient that is not restricted keeps the milter from the message
  (`C92_last_decides`, `C92_order_violated`).

Postfix tables (`postfix-regexp-table.rb`):
* `endif` pops the table of the condition and leaves the parser in it, so that rules
  after `endif` still depend on the condition (`C94_endif_violated`).
* Actions within a condition are expanded twice, so that a `$1` in the text looked
  up is expanded (`C94_twice_violated`).
* `endif` without `if` is accepted (`C94_stray_endif_violated`); the flag `i` of a
  pattern has no effect (`C94_flag_violated`).

Connection checker (`netstat-connection-checker.rb`):
* `@last_update` is never set, so netstat runs at each check (`C96_lifetime_violated`).
* A client with an IPv4-mapped IPv6 address is never found (`C96_mapped_violated`).

Worker processes (`client/milter-client.c`, `n_workers`):
* `max-connections` is counted by each worker for itself: `n` workers serve `n` times as many (`C98_limit_violated`).
* A reload changes the configuration of the process that does it. SIGHUP goes to the master, which serves no session; a
  worker's configuration is the one at the time of the fork (`C98_reload_violated`).  (The controller's socket is opened
  before the fork and watched by the event loop all processes inherit, so a command of the controller is carried out by
  whichever process accepts it first; this is not modelled beyond "some worker reloads".)
* `watch_worker_process` does nothing: a dead worker is not replaced, and when all are dead the master runs on without
  serving anybody (`C98_replaced_violated`).
* The master returns from a shutdown, and removes PID file and socket, while workers still serve sessions
  (`C98_waits_violated`).
* A worker that is full when a connection comes in sleeps in its event loop (C61) and so never notices that the master has
  gone (`C98_orphan_violated`).
* When every milter has accepted a message before its end, the MTA is told the combined status of the command that came last.
  If somebody said continue to an earlier command of the same kind (an earlier header, say), that is "continue": the MTA goes on
  with the message, and the next part ends the session in an error (`C99_late_violated`, `C99_both_violated`).
* What has arrived of a message that every milter has accepted before its end is not forgotten.  An MTA that has been told
  "accept" goes on with the next message without an abort; its milters then get the header of the first message again, and the MTA
  gets no answer at the end (`C99_next_violated`).
- C101: the command is kept only after the emulated DATA has been sent to the milters (children.c 3616-3630 and the same in end-of-header, body and end-of-message). If all milters declined DATA, the answer to it is complete before that: the MTA is told to continue, nobody is shown the command, and it stays kept. It is brought out by the next command whose answers are collected, or dropped at the end of the message (`C101_header_lost_violated`: a message passes whose first header no milter has seen).
- C102: `skip_body` of a server context is set when the milter skips (milter-server-context.c 3271) and taken away only by `milter_server_context_reset_message_related_data` (1825-1847), for an abort. After a message with a skip that passes, the milter is not sent the body of the next message (`C102_next_message_violated`); a milter behind the first is not asked at its end either, since `send_body_to_child` (children.c 4004-4032) takes the refusal to send for the end, and the message passes (`C102_not_asked_violated`).
- C103: the chunk that comes with the end of the message is given to no callback of a Ruby milter: client.rb connects `end-of-message` to a callback without arguments (`C103_last_chunk_violated`). (libmilter gives it to the body callback.)
- C104: a reply set with `reject(code: ..., reason: ...)` stays in the client context and is used for later commands: a recipient put off with `temporary_failure` after another was rejected with 550 is answered with 550 (`C104_stale_reply_violated`). `reject(:code => 450)` alone raises, since the default extended code begins with 5, and the fallback status, accept by default, is answered (`C104_reject_code_violated`). `quarantine` before the end of a message accepts it without quarantine (`C104_quarantine_violated`).
- C105: `reset` is called by the methods that end a message and by abort. A message that passes with `continue` or whose callback raises is not followed by a reset (`C105_continue_violated`, `C105_exception_violated`). `CompositeSession` has no `reset` at all; in an abort it raises NoMethodError, which is caught, and its milters keep what they know of the message (`C105_composite_violated`).
- C107: a status written with dashes, which a single milter may use, raises in `CompositeSession#ensure_status` (`C107_name_violated`); the reply of one milter goes with the decision of another (`C107_reply_violated`); the bit for leading space is removed if any of the milters does not need it (`C107_leading_space_violated`).
- Not modelled, but seen: `watch_io` in client/session.rb 150 uses an undefined `interval`, so it always raises NameError.
- C108: stopping a milter at DATA (as `data/applicable-conditions/restrict-accounts.conf` does) makes `cb_stopped` (children.c 2154-2208) abort it and start the next milter as if the message were being handed on; the MTA is told accept before the others have answered DATA, and their answers are lost (`C108_data_violated`). `milter_server_context_envelope_from` (server-context.c 1893-1903) returns before it touches `processing_message` when the milter is stopped; after a message that passed it is still TRUE, so the milter gets the recipients of a message whose sender it never saw (`C108_second_violated`). A milter that is alone and stopped at MAIL FROM leaves nobody for the recipient, which is an error and answered with the configured fallback (`C108_alone_violated`).
- C109: `priv->envelope_recipient_status` (server-context.c 1061-1106, 1372-1383) is set when a recipient is refused and reset only by an abort. After a message with a refused recipient that passed, giving up the next message at a recipient reports reject instead of abort (`C109_stale_violated`).
- C111: trust.conf adds `trusted_domain` to the macros of MAIL; if the MTA gives none for the next message, the old one is sent again (`C111_stale_violated`). The domain is what follows the first "@" (`C111_quoted_violated`); a domain added in the configuration file with a capital never matches (`C111_capital_violated`).
- C112: the type of a master.cf entry is ignored (`C112_client_violated`).
- dnsbl.conf (seen, not modelled): setting `name_server` and then `name_servers` raises a TypeError.
- C116: several recipients in one To field (`C116_list_violated`, `C116_comma_violated`), a first line that is a continuation (`C116_blank_violated`: crash), a body with NUL (`C116_nul_violated`), a field written "from" (`C116_case_violated`).
- Simplifications of `Manager/Shipped`: ASCII only when changing case; the product with 0.75 is exact (it is below 2^51); `to_i` without underscores and signs; postconf's output is a parameter.
- C117: `cb_state_transited` goes on after an unanswered command only through stages that are themselves unanswered: with NO_REPLY_CONNECT and NO_HELO, or NO_REPLY_RCPT and NO_DATA, the tool waits forever (`C117_silent_violated`, `C117_recipient_violated`).
- C118: an empty replacement of the body is not shown (`C118_empty_violated`).
- C119: `set_macro` advances with `g_list_next (symbols)` where `symbols` is the first node: two or more macros make it loop forever (`C119_loop_violated`).
- C120: with privileged mode, a launcher and a command, a milter that cannot be connected to at once gets two timers for the second attempt (milter-manager-children.c 2950 and 3152): it is connected to twice and offered the options twice (`C120_offer_violated`), or launched twice (`C120_launch_violated`). A connection that fails later is not tried again unless the milter can be launched (`C120_late_violated`).
- C121: the MTA's offer is answered twice when a milter that cannot be launched is given up by both timers (`C121_launch_violated`), and when a milter leaves between its answer and the MTA's next command (`C121_leaves_violated`).
- C122: after a request the manager does not know the control connection stays open, and neither that request nor any later one is answered (`C122_unknown_violated`); the reply to get-status cannot be decoded (`C122_status_violated`).
- C123: a variable that is not set is left as it is written instead of being nothing (`C123_unset_violated`); variables in single quotes are expanded (`C123_single_violated`); a number sign in quotes begins a comment (`C123_hash_violated`); a variable called `name` is that of the script, not of the file (`C123_name_violated`).
- C124: a comment behind a value becomes part of the socket (`C124_comment_violated`), and so do blanks (`C124_blanks_violated`).
- C125: `normalize_lines` tests a line with its line feed for a final backslash (milter-greylist-config-parser.rb 76), so continued lines are never joined and a wait in the continuation is missed (`C125_continued_violated`); only the first wait in a line counts (`C125_second_violated`).
- Simplifications of `Manager/Detector`: regular expressions over bytes, ASCII only; `Shellwords.split` and the output of rspamadm are parameters; files are read whole.
- C127: `command_options=` (manager.rb 1162-1170) asks `nil` whether it is empty, and `connection_spec=` of an egg takes no `nil`: every configuration with a milter without command options or connection spec is shown in a way that cannot be loaded (`C127_options_violated`, `C127_spec_violated`). `database.extra_options` are not shown (`C127_extra_violated`).
- Seen, not modelled: package settings never get a location, so they are always shown as "default"; the location of `manager.packet_buffer_size` is recorded as `manager.size`; conditions given with `applicable_conditions=` get no location; `fallback_status` of `ManagerConfigurationLoader::ConfigurationWrapper` (manager.rb 936-938) asks an instance variable that is never set.
- Simplifications of `Manager/Dump`: numbers of seconds are whole and below 10^16; bytes from 0x80 on are written as they are; setters given a value of another kind raise; the place of an assignment is not recorded; the settings of syslog are copied at once rather than at the end of the file.
- C128: `stop_on_data?` of a policy is true for milters the policy does not list, and one policy is enough to stop: a milter not listed by all policies is stopped at DATA (`C128_unlisted_violated`), so that two policies for different milters leave no milter at all (`C128_two_violated`). A criterion that was not given is `nil`, which `===` nothing: a policy with a sender only stops its milters at connect (`C128_not_given_violated`). `PolicyManager#stop_on_helo?` uses an undefined name, so that HELO is never looked at (`C128_helo_violated`, `C128_fqdn_violated`). Applying policies defines every milter again, which loses fallback status and evaluation mode (`C128_settings_violated`, see C54).
- C129: `<"a>b"@x>` is taken for the address `"a` (`C129_quoted_violated`); `<@relay:a@x>` keeps its route (`C129_route_violated`).
- C130: a Hash with a comma in a value is not given back (`C130_comma_violated`).
- C131: an empty directory is an error and hides files of later directories (`C131_empty_violated`); an absolute path to a directory is not expanded, unlike a relative one (`C131_absolute`).
- Simplifications: the criteria of a policy do not change anything; blanks around separators are taken off pieces cut at the separators, which is what the regular expressions `\s*,\s*` and `\s*=\s*` match; the disk does not change while a path is looked for.
- C132: with removal on creation, `milter_connection_listen` unlinks whatever is at the path (`C132_file_violated`); between `bind` and `chmod` the socket has the permissions of the umask (`C132_window_violated`); an unknown group and a failing `chmod` are reported, but listening goes on (`C132_group_violated`, `C132_mode_failed_violated`); mode 0 means the default (`C132_mode_zero_violated`); the socket stays behind if `listen` fails after `bind`, if privileges cannot be dropped, if becoming a daemon fails, or if the PID file cannot be written (`C132_listen_violated`, `C132_left_violated`); a manager that ends removes what is at its path even if another instance has put its socket there (`C132_takeover_violated`).
- C133: neither `Environment=` nor the options in `ExecStart=` are looked at for the socket (`C133_inline_violated`); variables in environment files are expanded, which systemd does not do (`C133_expand_violated`); an empty `EnvironmentFile=` does not reset (`C133_reset_violated`); continuation lines are not joined (`C133_continued_violated`); units in /etc/systemd/system are not read (`C133_override_violated`).
- C134: `[::1]:11332` is cut at its first colon (`C134_ipv6_violated`); `rspamd_proxy["rspamd_proxy"]` raises NoMethodError if no worker is a proxy for milters (`C134_no_proxy_violated`).
- Simplifications for C132-C134: no symbolic links; a UNIX socket's path is not cut; the outcome of rspamadm is its list of workers; `bind_socket` is one text.
- C135: on Debian the socket in milter-greylist's configuration is not looked at (`C135_greylist_violated`), while it is on Red Hat.
- C136: `(.+)=(.+)` in `parse_rc_conf` splits a line at its last equals sign, so a value that has one is lost (`C136_equals_violated`, `C136_flags_violated`); a comment behind a setting becomes part of the value, so that `x_enable="YES" # text` means no (`C136_comment_violated`); defaults written `${x_enable:="NO"}`, the usual form, set a variable named `enable:` (`C136_default_violated`); of two defaults the last counts (`C136_first_violated`); for profiles of OpenDKIM `FreeBSDRCProfileDetector` calls the private methods `rc_d`, `rc_conf` and `rc_conf_d` of the detector it was made by, which is NoMethodError (`C136_profiles_violated`); the tests define those methods anew, as public ones.
- Simplifications for C135 and C136: files are bytes, while Ruby raises an exception if a file that is matched is not UTF-8; the block of comments of an init script is a parameter there (it is read in C141).
- C137: `MilterConfiguration#setup` does not hand on `max_connections`, `suspend_time_on_unacceptable`, `remove_unix_socket_on_create` and `remove_unix_socket_on_close`, which doc/ruby-milter-configuration.rd lists (`C137_ignored_violated`); `--maintenance-interval` has no `Integer`, so its argument stays a text and setting the property raises TypeError (`C137_maintenance_violated`); `-c` is carried out where it stands, so files win over options before it (`C137_order_violated`); `load_path` logs `InvalidValue` and goes on (`C137_illegal_violated`); a comma at the end of the line that sets `@name` in `clear` makes it an array (`C137_name_violated`), which shows only if a configuration is used without `CommandLine`; `NUM2UINT` turns a negative number into a large one (`C137_negative_violated`).
- Simplifications for C137: `OptionParser` is trusted to split the command line, to complete words and to convert numbers; the database, the level and the path of the log and hooks are left out; that GObject properties of Ruby refuse texts for numbers and `nil` for enumerations is taken from ruby-gnome.
- C109: the header fields in the report are put there with `milter_headers_add_header`, which puts a field before others of its name, so they are not in the order of the message (`C109_order_violated`).
- C138: `message-processed` of a client context is emitted only from `end_of_message_response` (abort_response drops the result without a report), so a message refused or accepted at its sender, recipients, header or body is never reported (`C138_refused_violated`).  Not modelled: the state in the client's result stays unset (the switch in `emit_message_processed_signal` has no case for END_OF_MESSAGE_REPLIED), and sender, recipients and header fields are never put into it.
- C139: `RedHatUpstartDetector#command` is always `/sbin/start`, but its options are those of `service` or `systemctl` wherever there is a `service` command, which Red Hat always has (`C139_command_violated`); the detector finds a socket for clamav-milter and milter-greylist only (`C139_other_violated`); a job of comments only has no description (`C139_comments_violated`).
- C140: `PkgsrcRCDetector` looks for a line `rcvar=` in rc.conf and not in the script, so a script that names another variable than its name is not enabled by that variable (`C140_rcvar_violated`).  `File.join` is taken as joining with a slash: that it merges adjacent slashes is left out.
- C141: the expression that finds keywords in the comments of an init script, `/([a-zA-Z\-]+):\s*/` in effect, also matches inside values: `see http://x.org` gives the value `see` and a keyword `http` (`C141_value_violated`); on Debian the first line is taken off by `#!\s*/bin/sh\s*`, so an option of the shell stays and hides the whole block (`C141_shebang_violated`); the mark of a comment is taken off only with a space after it, so that a line that goes on after a tab keeps its mark (`C141_tab_violated`); a block of one empty comment raises an exception (`C141_empty_violated`).
- C142: for a body chunk of no bytes the signal carries no `GBytes`, so the Python binding raises before the milter is called, and the MTA reads the fallback status, by default "accept" (`C142_empty_chunk_violated`); what comes with the end of a message is not shown to the milter (`C142_last_chunk_violated`); in `on_abort` an exception is logged by `milter.core.Logger.error(error)`, a method without its object, which raises again, so that neither the session nor its status are reset (`C142_abort_violated`); if the class of sessions raises, no handler is connected and everything passes, whatever the fallback status (`C142_no_session_violated`; Ruby answers with the fallback status).
- C143: `negotiate` in session.py removes HEADER_VALUE_WITH_LEADING_SPACE if the milter needs it and keeps it otherwise; Ruby does the opposite (`C143_leading_space_violated`).
- C144: `--group` calls `set_effective_user` (`C144_group_violated`); `set_config` looks a setting up by the name of the attribute, so `user`, `group`, `level` and `path` are not found (`C144_file_violated`); a mode that does not begin with 0 is taken as decimal (`C144_mode_violated`); `available_values` is not used (`C144_fallback_violated`); all files are read into one `ConfigParser`, and each reading applies all of it (`C144_two_files_violated`).
- C145: `_continue`, and a callback that says nothing, do not reset (`C145_continue_violated`); after an exception the answer is the fallback status and nothing is reset unless the milter's own `on_error` does (`C145_exception_violated`), and `_reject` or `_temporary_failure` with a code that does not go with the default enhanced code raise (`C145_reply_violated`: the message that was to be refused is accepted).
- C146: milter-replace.rb is not reset when a message goes on, so the body of one message is put before that of the next, possibly for another recipient (`C146_next_violated`); headers are counted by the spelling of their names, MTAs count without regard to case (`C146_spelling_violated`); each pattern that changes the body sends a whole body, and the MTA joins them (`C146_patterns_violated`); what comes with the end of the message is lost if the body is replaced (`C146_last_violated`).
- C147: milter-regexp.rb never empties `@body` (it has no `reset`), so after a body with the pattern every message of the session is refused (`C147_next_violated`); what comes with the end is not looked at (`C147_last_violated`).
- C148: milter-reject-empty-body.rb forgets `@have_body` on abort only, so after a message with a body an empty one goes on (`C148_next_violated`); a body that comes with the end is refused (`C148_last_violated`).
- C149: a generator for a milter is made at the first `[milter][end]` line of a run, so what headers of the milter report before is lost (`C149_milter_report_violated`); the pattern for `[reply]` does not allow for the tag the manager writes at the end of the line, so `[reply][end-of-message][quarantine](tag)` is never counted (`C149_quarantine_violated`); a line of an earlier minute than the current one empties the counts of the current one (`C149_order_violated`). Seen, not modelled: the year of a line is taken to be that of the run, so in January lines of December are in the future and are skipped.
- C150: `abort` of milter-tarpit.rb leaves the timer, so the answer to a message that was given up is read as one to whatever the MTA sends next (`C150_abort_violated`). The status of a late answer stays in the session context, since it is cleared only after callbacks: the next callback that decides nothing answers with it (`C150_status_violated`). Seen, not modelled: `watch_io` of session.rb passes an undefined `interval` and always raises.
- C151: milter-reject-nil-sender.rb compares the name of the header as it is spelled, so `sender: nil` goes on (`C151_spelling_violated`). Values outside ASCII are not modelled: `\b` is then a boundary of Unicode words, and a value that is not UTF-8 raises.
- C152: milter-replace.py decodes the body as UTF-8 after it has changed the headers; another body raises, so the message is half changed and gets the fallback status, "accept" (`C152_encoding_violated`). It is not reset after a message either (`C152_next_violated`) and does not see what comes with the end of the message (`C152_last_violated`); spellings and several patterns are as in C146.
- C153: `parse` of testing.rb does not look at the marks of headers, so deleted ones are returned as "- name" and new ones as "+ name" (`C153_headers_violated`); further lines of a value become headers (`C153_lines_violated`); a reply of several lines, and any error of the tool, raises NoMethodError (`C153_reply_violated`, `C153_error_violated`); the body has a line feed more and ends at a NUL (`C153_body_violated`). A header without a value crashes milter-test-server when it prints the message (`g_strsplit(NULL)`).
- C154: `milter_manager_module_load_module` looks for the suffix "so" without the dot, so a file `also` is loaded as a module that cannot be found (`C154_dot_violated`) and `also.so` is not loaded by the name `also` (`C154_name_violated`); a file NAME beside NAME.so loads the module twice, because only modules of earlier directories are looked for (`C154_twice_violated`).
- C155: `milter_session_result_remove_message_result` goes on from a node it has cut off, so only the first of several equal entries is removed (`C155_twice_violated`), and the node is never freed; `milter_session_result_set_message_results` frees the list before it goes through the new one, which may be the same (`C155_own_violated`).
- C157: `LinuxStatuses` never hands an id to its `Top` object, so %CPU and CPU time are always empty (`C157_cpu_violated`); `Pathname#entries` has "." and "..", so two files too many are counted (`C157_fds_violated`); `find_pid` hands a String where a Pathname is needed, so `--pid` and `--pid-directory` end with NoMethodError (`C157_pid_violated`).
- C158: milter-test-client-libmilter answers a greeting, a sender and a part of the body with SMFIS_NOREPLY also if the MTA has not offered to go on without the answer, so such an MTA waits until its timeout (`C158_wait_violated`).
- C159: a thread of milter-performance-check asks `queue.empty?` and then waits in `queue.pop`; another may have taken the last mail in between, or before the thread has started. It then waits for ever, and no report is printed, or Ruby ends the program with "No live threads left" (`C159_hang_violated`).
- C160: `send_mail` does not rescue Net::SMTPSyntaxError (50X), Net::SMTPAuthenticationError (53X), Net::SMTPUnknownError and EOFError, and `Thread.abort_on_exception` makes each of them end the program without a report (`C160_lost_violated`). Not modelled: `--report-statistics-data` raises NoMethodError, because it uses `@report_statistics_data` where `@statistics_data_reporter` is meant.
- C161: `parse_mail_source` throws the result of `recipients.collect` away, so a recipient "Name <address>" is sent to the server as it is (`C161_name_violated`). Not modelled: the default mechanism for authentication is "auth" where "auto" is meant, so `--auth-user` without `--auth-mechanism` ends with ArgumentError.
- C162: milter-performance-analyzer takes the times of a report as times of one day, so a line after midnight is drawn before all the others, at minus a day (`C162_midnight_violated`).
- C163: the reporter sets `@statistics` to nil before it writes a line and sets it again afterwards, and nothing waits for its last line, so mails that end in between, or in the last period, are in no line (`C163_lost_violated`).
- C164: the point in the regular expression of `parse_period` is not escaped, so it is any character: "1e5" is 100000 seconds, "0x10s" 16, "1_5" 15, and "1,5s" ends the program with ArgumentError (`C164_point_violated`).
- C165: with `--n-mails=0` and `--flood=PERIOD` the loop never looks at the clock and never ends (`C165_empty_violated`).
- C166: `ensure_message` joins the backtrace of an exception, which is nil if the exception was never raised, so `Milter::Logger.error(SomeError.new)` raises NoMethodError (`C166_backtrace_violated`).
