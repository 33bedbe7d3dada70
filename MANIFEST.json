{
 "claims": [
  {
   "property": "C01",
   "status": "proved",
   "theorems": [
    "Verif.C01_resolvable_iff_outstanding",
    "Verif.C01_unresolvable_keyError",
    "Verif.C01_held_iff_outstanding"
   ],
   "note": "all histories of get_proxy/delete, all id() reuse"
  },
  {
   "property": "C02",
   "status": "proved",
   "theorems": [
    "Verif.C02_ref_ids_distinct"
   ],
   "note": ""
  },
  {
   "property": "C03",
   "status": "proved",
   "theorems": [
    "Verif.C03_object_id_iff_same_object"
   ],
   "note": ""
  },
  {
   "property": "C04",
   "status": "proved",
   "theorems": [
    "Verif.C04_no_stale_aliasing",
    "Verif.C04_stale_proxy_fails"
   ],
   "note": ""
  },
  {
   "property": "C05",
   "status": "proved",
   "theorems": [
    "Verif.C05_delete_succeeds_iff",
    "Verif.C05_rejected_delete_changes_nothing",
    "Verif.C05_delete_keeps_others"
   ],
   "note": ""
  },
  {
   "property": "C06",
   "status": "partial",
   "theorems": [
    "Verif.C06_negation",
    "Verif.C06_deleted_unusable_partial"
   ],
   "note": "documented behaviour is false of the code (negation proved with a witness); the partial theorem characterises when a deleted proxy stops working"
  },
  {
   "property": "C07",
   "status": "proved",
   "theorems": [
    "Verif.C07_one_reply_each",
    "Verif.C07_nothing_unsolicited"
   ],
   "note": "Every run of the server machine; replies recognised by action and req_id fields. Needs int among the serialize types."
  },
  {
   "property": "C08",
   "status": "proved",
   "theorems": [
    "Verif.C08_innermost_first"
   ],
   "note": "Requests nested by reentrancy end innermost first."
  },
  {
   "property": "C09",
   "status": "proved",
   "theorems": [
    "Verif.C09_keeps_serving"
   ],
   "note": "Well-formed messages, default types among the serialize types, no lone surrogates in exception texts."
  },
  {
   "property": "C10",
   "status": "partial",
   "theorems": [
    "Verif.C10_negation",
    "Verif.C10_fatal_messages_partial",
    "Verif.C10_serializers",
    "Verif.C10_surrogates"
   ],
   "note": "False in the code (witness); the exact set of messages that end an idle server is characterised."
  },
  {
   "property": "C100",
   "status": "partial",
   "theorems": [
    "Verif.C100_child_partial",
    "Verif.C100_kills",
    "Verif.C100_ended",
    "Verif.C100_daemon_partial",
    "Verif.C100_fails_daemon",
    "Verif.C100_fails_race",
    "Verif.C100_fails_cleaner"
   ],
   "note": "holds for children unless another thread polls between check and signal; false for daemons and ProcessCleaner, which signal whatever has the pid now"
  },
  {
   "property": "C101",
   "status": "partial",
   "theorems": [
    "Verif.C101_plain_partial",
    "Verif.C101_result",
    "Verif.C101_fails",
    "Verif.C101_fails_undeferred",
    "Verif.C101_pickled",
    "Verif.C101_fails_pickled",
    "Verif.C101_timer",
    "Verif.C101_fails_value"
   ],
   "note": "holds for proxies not derived by attribute access; copying p.a calls copy() of the remote object and __setattr__ of the attribute (so a Timer with such a callback usually never calls it); pickling loses the options"
  },
  {
   "property": "C102",
   "status": "partial",
   "theorems": [
    "Verif.C102_safe",
    "Verif.C102_distinct",
    "Verif.C102_asks_partial",
    "Verif.C102_fails"
   ],
   "note": "without safe_print the text is the object's only in mode sync; in mode off str(p) raises TypeError"
  },
  {
   "property": "C103",
   "status": "proved",
   "theorems": [
    "Verif.C103_received",
    "Verif.C103_defaults",
    "Verif.C103_derived"
   ],
   "note": ""
  },
  {
   "property": "C104",
   "status": "proved",
   "theorems": [
    "Verif.C104_read_back",
    "Verif.C104_dumps_writable",
    "Verif.C104_number_text",
    "Verif.C104_fits",
    "Verif.C104_transport",
    "Verif.C104_injective",
    "Verif.C104_incomplete",
    "Verif.C104_ascii"
   ],
   "note": "Byte level of both formats, written out as the libraries work; assumes of floats only that repr of a finite float is a JSON number that float reads back (FmtLib.Laws). Examples: trees with all kinds of items, a run of two clients and a server with real bytes."
  },
  {
   "property": "C105",
   "status": "partial",
   "theorems": [
    "Verif.C105_abandoned",
    "Verif.C105_partial",
    "Verif.Ex.C105_fails"
   ],
   "note": "False of the code: requests running at a close end with ZMQError and are never answered; run_forever ends by an exception iff the outermost of them wanted a reply. Proved: exactly what happens (C105_abandoned), and that run_forever returns if the outermost wanted no reply."
  },
  {
   "property": "C106",
   "status": "partial",
   "theorems": [
    "Verif.C106_truthful",
    "Verif.C106_answer",
    "Verif.C106_disconnected_partial",
    "Verif.C106_close_server_partial",
    "Verif.Ex.C106_fails",
    "Verif.C106_stays"
   ],
   "note": "False of the code for a client that closed its own socket: disconnected() and close_server() then return True while the server runs. Proved for clients with an open socket, reading messages raising no ZMQError of its own."
  },
  {
   "property": "C107",
   "status": "partial",
   "theorems": [
    "Verif.C107_returns_partial",
    "Verif.C107_message",
    "Verif.C107_again",
    "Verif.C107_fails",
    "Verif.C107_client"
   ],
   "note": "Full statement false: close() in a thread without a client raises ConnectionRefusedError once the server has closed (C107_fails), and TimeoutError if the server does not answer within a second. Proved for all runs: when close() returns, the server was closed when it was called, or one close request was sent and answered and the server was closed in the run (C107_returns_partial); at most one message is sent and it is a close request (C107_message); with a client that knows of the close, it can be called again without effect (C107_again)."
  },
  {
   "property": "C108",
   "status": "partial",
   "theorems": [
    "Verif.C108_seen_partial",
    "Verif.C108_order",
    "Verif.C108_delivered",
    "Verif.C108_fails"
   ],
   "note": "False of the code for filters: QtLogHandler replaces Handler.handle, so that filters added to the viewer's handler have no effect (C108_fails, for all histories). Proved for all histories: which records are given to the viewer, exactly once each, by levels and propagation (C108_seen_partial; loggers of StdioLogSenders and below are left out, since these set levels without Python's knowledge, see C97); order and uniqueness (C108_order); delivery (C108_delivered)."
  },
  {
   "property": "C109",
   "status": "proved",
   "theorems": [
    "Verif.C109_transcript",
    "Verif.C109_text"
   ],
   "note": "Over every run of the model of a server and its clients (World). Stack and traceback texts are those of the process state in which the exception was caught; the str() of other values than lists, tuples and texts of str is a TypeError."
  },
  {
   "property": "C11",
   "status": "proved",
   "theorems": [
    "Verif.C11_error_reported",
    "Verif.C11_unreadable_reported",
    "Verif.C11_result_reported",
    "Verif.C11_call_outcome",
    "Verif.C11_no_mask",
    "Verif.C11_names"
   ],
   "note": ""
  },
  {
   "property": "C110",
   "status": "proved",
   "theorems": [
    "Verif.C110_one_at_a_time",
    "Verif.C110_timer",
    "Verif.C110_limit",
    "Verif.C110_start",
    "Verif.C110_refused",
    "Verif.Ex.C110_async"
   ],
   "note": "A callback in mode async may overlap (Ex.C110_async shows why the sync mode is needed); with unknown keywords start_timer raises TypeError but the server holds the callback from then on (C110_refused)."
  },
  {
   "property": "C111",
   "status": "partial",
   "theorems": [
    "Verif.C111_silent_partial",
    "Verif.C111_asks",
    "Verif.C111_lost",
    "Verif.Ex.C111_fails",
    "Verif.C111_where",
    "Verif.C111_only",
    "Verif.C111_in_order"
   ],
   "note": "True if safe_print is on in default_proxy_options (the default); with safe_print off, the log call of process_msg asks the server for the repr of each received proxy, and an exception of that loses the result."
  },
  {
   "property": "C112",
   "status": "proved",
   "theorems": [
    "Verif.C112_json",
    "Verif.C112_msgpack",
    "Verif.C112_unique",
    "Verif.C112_writes",
    "Verif.C112_short",
    "Verif.C112_refused_json",
    "Verif.C112_refused_msgpack",
    "Verif.C112_deep"
   ],
   "note": "The grammars are in Spec/JsonText and Spec/MsgpackBytes. Which float a number text is, and widening a 32-bit float, are parameters. Simplifications of the model: a lone surrogate escape is refused by the model (Python accepts it), extension types are refused."
  },
  {
   "property": "C113",
   "status": "proved",
   "theorems": [
    "Verif.C113_code",
    "Verif.C113_kept"
   ],
   "note": "Python's Popen.poll (os.waitpid) is modelled, not the kernel."
  },
  {
   "property": "C114",
   "status": "partial",
   "theorems": [
    "Verif.C114_direct",
    "Verif.C114_same_partial",
    "Verif.C114_child_partial",
    "Verif.C114_fails_name",
    "Verif.C114_fails_empty",
    "Verif.C114_fails_truthy",
    "Verif.C114_script"
   ],
   "note": "The full statement is false: words with blanks, empty words and values that are true without being True (C114_fails_*). Proved for all commands whose words the shell leaves as they are. The shell is modelled for texts without its special characters."
  },
  {
   "property": "C115",
   "status": "partial",
   "theorems": [
    "Verif.C115_exact",
    "Verif.C115_exclusive",
    "Verif.C115_undecodable",
    "Verif.C115_fails_lost",
    "Verif.C115_fails_waits",
    "Verif.C115_fails_other",
    "Verif.C115_fails_other_wrong"
   ],
   "note": "False of the code in both halves: a reply with missing fields takes its request out of the table and leaves it pending for ever (C115_fails_lost, C115_fails_waits), and the exception of a reply that cannot be read is raised in whichever call reads it (C115_fails_other, C115_fails_other_wrong). C115_exact is what does hold: a readable reply says an outcome, which becomes that of the request, or is wrong in one of five listed ways."
  },
  {
   "property": "C116",
   "status": "partial",
   "theorems": [
    "Verif.C116_made",
    "Verif.C116_partial",
    "Verif.C116_keeps",
    "Verif.Ex.C116_fails_thread",
    "Verif.Ex.C116_fails_race",
    "Verif.Ex.C116_fails_closed",
    "Verif.Ex.C116_fails_broken"
   ],
   "note": "In all histories the client a proxy uses was made for the address of the proxy by a thread that used the proxy, and is kept for ever once settled. Proved in full for proxies used by one thread whose client was neither closed nor failed to connect. Refuted otherwise: used by two threads, first used by two threads at once, client closed, client whose construction fails."
  },
  {
   "property": "C117",
   "status": "partial",
   "theorems": [
    "Verif.C117_resolved",
    "Verif.C117_value_partial",
    "Verif.C117_fails"
   ],
   "note": "In every run an answered get_obj request reports what the proxy resolved to when the server read it, exceptions included; with return type value the object arrives by value or the serializer's exception does. Refuted for objects of classes outside the types to serialize: they arrive as another proxy, not as an exception."
  },
  {
   "property": "C118",
   "status": "proved",
   "theorems": [
    "Verif.C118_local_client",
    "Verif.C118_same_client"
   ],
   "note": "All histories; that the same living client is returned each time is for orderly closing (C39)."
  },
  {
   "property": "C119",
   "status": "proved",
   "theorems": [
    "Verif.C119_serving",
    "Verif.C119_connected",
    "Verif.C119_answered",
    "Verif.C119_bounded",
    "Verif.C119_rest"
   ],
   "note": "C119_bounded: moves \u2264 3 \u00d7 requests in every undisturbed run; C119_rest: when no step can move anything every future is answered (messages the client cannot decode are excluded, see C34 and C115)."
  },
  {
   "property": "C12",
   "status": "proved",
   "theorems": [
    "Verif.C12_result_by_proxy",
    "Verif.C12_result_by_value",
    "Verif.C12_types",
    "Verif.C12_numpy_float"
   ],
   "note": ""
  },
  {
   "property": "C120",
   "status": "proved",
   "theorems": [
    "Verif.C120_relayed",
    "Verif.C120_exact",
    "Verif.C120_home",
    "Verif.C120_proxy",
    "Verif.C120_shared"
   ],
   "note": "msgpack; the processes in between serialize at least the types of the first sender and do not own the proxies of the message"
  },
  {
   "property": "C121",
   "status": "partial",
   "theorems": [
    "Verif.C121_handed_out_partial",
    "Verif.C121_given_back_partial",
    "Verif.C121_kept_after_failure",
    "Verif.C121_negation",
    "Verif.C121_handed_out_json_partial",
    "Verif.C121_kept_after_failure_json"
   ],
   "note": "False in the code for messages that cannot be sent: references handed out before the failure stay in the table and nobody knows them (both formats). Proved for msgpack and JSON messages that are sent (the partial theorems; given_back applies to every table)."
  },
  {
   "property": "C122",
   "status": "proved",
   "theorems": [
    "Verif.C122_parsed",
    "Verif.C122_accepted",
    "Verif.C122_same",
    "Verif.C122_refused",
    "Verif.C122_setup",
    "Verif.C122_texts"
   ],
   "note": "argparse of Python 3.11 without the text it prints and the exit status; C122_accepted: exactly the lines of the grammar CmdLine are accepted"
  },
  {
   "property": "C123",
   "status": "proved",
   "theorems": [
    "Verif.C123_mixed",
    "Verif.C123_route",
    "Verif.C123_tuple"
   ],
   "note": "Numpy arrays are left out here (they are compared by elements, see C17, C18 and C120)."
  },
  {
   "property": "C124",
   "status": "proved",
   "theorems": [
    "Verif.C124_real_time",
    "Verif.C124_not_before"
   ],
   "note": "Real-time order of executions; with C71 (what each action does) this gives linearizability of the requests that end in the step that reads them."
  },
  {
   "property": "C125",
   "status": "partial",
   "theorems": [
    "Verif.C125_own_arguments",
    "Verif.C125_client",
    "Verif.C125_server_partial",
    "Verif.C125_negation"
   ],
   "note": "Proved for all histories in which overlapping calls agree, which those of a client always do and those of a server do unless it is closed in the middle of a call; the full statement is false for that case (C125_negation)."
  },
  {
   "property": "C126",
   "status": "proved",
   "theorems": [
    "Verif.C126_session",
    "Verif.C126_signals",
    "Verif.C126_no_zombie",
    "Verif.C126_stdio",
    "Verif.C126_files",
    "Verif.C126_setsid",
    "Verif.C126_starts",
    "Verif.C126_ordinary",
    "Verif.C126_ordinary_key",
    "Verif.C126_leader",
    "Verif.C126_tty"
   ],
   "note": "Posix only. Process numbers are not used again, an orphan goes to process 0 (no subreapers), stopped processes and files sent through sockets are left out. C126_starts: the bootstrap can always run to its end."
  },
  {
   "property": "C127",
   "status": "proved",
   "theorems": [
    "Verif.C127_with_numpy",
    "Verif.C127_never_another",
    "Verif.C127_numpy_refused",
    "Verif.C127_free_arrives",
    "Verif.C127_free_arrives_json",
    "Verif.C127_json_float64",
    "Verif.C127_sent",
    "Verif.C127_sent_arrives",
    "Verif.C127_default_types",
    "Verif.C127_server",
    "Verif.C127_client",
    "Verif.C127_server_all"
   ],
   "note": "Bare describes a process without numpy whose libraries are otherwise the same: pickles that need numpy raise ImportError, others are unchanged."
  },
  {
   "property": "C128",
   "status": "partial",
   "theorems": [
    "Verif.C128_faithful",
    "Verif.C128_negation",
    "Verif.C128_negation_json",
    "Verif.C128_negation_exec",
    "Verif.C128_refused",
    "Verif.C128_served_text",
    "Verif.C128_written_partial",
    "Verif.C128_written_json_partial",
    "Verif.C128_json_no_exec",
    "Verif.C128_harmless_partial",
    "Verif.C128_harmless_json_partial"
   ],
   "note": "False as stated: any bytes can be made to reach pickle.loads and any text beginning with [ reaches exec (C128_negation*), even for a dict sent by an unmodified sender. Proved instead: messages written by dumps for supported values run only pickles made by pickle.dumps and names of structured dtypes; JSON never reaches exec; a message in which no map value is the text pickle or ndarray runs nothing."
  },
  {
   "property": "C129",
   "status": "partial",
   "theorems": [
    "Verif.C129_faithful",
    "Verif.C129_negation",
    "Verif.C129_negation_json",
    "Verif.C129_written_partial",
    "Verif.C129_written_json_partial",
    "Verif.C129_harmless_partial",
    "Verif.C129_addressed_partial"
   ],
   "note": "the full statement is false of the code: C129_negation(_json) gives, for every receiver and every proxy of another process, messages an unmodified sender writes for ordinary dicts whose reading asks that process; proved: messages written for supported values, and all messages without the texts proxy and pickle, are read without a request; requests go only to addresses in the message (pickles and served proxies apart)"
  },
  {
   "property": "C13",
   "status": "partial",
   "theorems": [
    "Verif.C13_negation",
    "Verif.C13_value_unserializable_partial"
   ],
   "note": "False in the code for objects of other classes (they arrive as proxies); proved when the serializer raises."
  },
  {
   "property": "C130",
   "status": "partial",
   "theorems": [
    "Verif.C130_options",
    "Verif.C130_negation",
    "Verif.C130_negation_delete",
    "Verif.C130_negation_print",
    "Verif.C130_given_partial",
    "Verif.C130_written_partial",
    "Verif.C130_written_json_partial"
   ],
   "note": "full statement false: entries of a proxy's dict in a message become options of the proxy object (serializer.py:188, proxy.py:83-90); C130_options says exactly which options a proxy read from any message has"
  },
  {
   "property": "C131",
   "status": "partial",
   "theorems": [
    "Verif.C131_only_loses",
    "Verif.C131_enough_partial",
    "Verif.C131_at_most",
    "Verif.C131_fails"
   ],
   "note": "The full statement is false of the code: replies beyond the limit of a queue are dropped (C131_fails, for every limit). Proved instead: limited queues only lose messages; they change nothing for clients whose outstanding replies fit; bound on the replies that arrive."
  },
  {
   "property": "C132",
   "status": "partial",
   "theorems": [
    "Verif.C132_selected_partial",
    "Verif.C132_by_proxy_partial",
    "Verif.C132_refused",
    "Verif.C132_native",
    "Verif.C132_no_tuple",
    "Verif.C132_no_request",
    "Verif.C132_server_ends",
    "Verif.C132_server_ends_by_result",
    "Verif.C132_json_errors",
    "Verif.C132_fails",
    "Verif.C132_json_selected_partial",
    "Verif.C132_json_by_proxy"
   ],
   "note": "The statement is false of the code and this is proved: with any list without tuple, msgpack can send no tuple, array, proxy or unlisted object (C132_no_tuple), a client can make no request about a proxy (C132_no_request), and a server ends at the first failing request (C132_server_ends, C132_fails) or result sent by proxy. Types of the message format are sent by value whether listed or not (C132_native). Proved in the positive for lists with tuple, int and dtype: what arrives at every depth (C132_selected_partial), that unlisted objects can be sent (C132_by_proxy_partial), and the TypeError without server for all lists (C132_refused). With JSON errors are reported and unlisted objects sent by proxy whatever the list (C132_json_errors, C132_json_by_proxy); what arrives is what the list says if it has dtype (C132_json_selected_partial)."
  },
  {
   "property": "C133",
   "status": "partial",
   "theorems": [
    "Verif.C133_find_partial",
    "Verif.C133_found_partial",
    "Verif.C133_fails_case",
    "Verif.C133_fails_underscore",
    "Verif.C133_fails_kill",
    "Verif.C133_fails_ignored",
    "Verif.C133_kill_partial",
    "Verif.C133_platform",
    "Verif.C133_pattern"
   ],
   "note": "False in the code: an underscore (or %, [) in the text is a wildcard, case is ignored, and with the default empty prefix kill_procs kills every process with a readable command line. Proved for texts of ordinary characters, up to characters WMI takes for the same. WMI is modelled; texts with quotes, or with backslashes used otherwise, are outside the model."
  },
  {
   "property": "C134",
   "status": "partial",
   "theorems": [
    "Verif.C134_agrees",
    "Verif.C134_reaches",
    "Verif.C134_fails",
    "Verif.C134_unknown",
    "Verif.C134_fails_asks",
    "Verif.C134_relayed"
   ],
   "note": "False of the code as stated: True (or 1.0) names object 1 (C134_fails), and an unknown id with an option in the message makes the server ask itself (C134_fails_asks). Proved for all fields: what is reached (C134_reaches), how unknown ids are refused when no options are given (C134_unknown), agreement with the reading of the other theorems for fields of the usual types (C134_agrees), relaying (C134_relayed)."
  },
  {
   "property": "C135",
   "status": "partial",
   "theorems": [
    "Verif.C135_fails",
    "Verif.C135_written_partial",
    "Verif.C135_only",
    "Verif.C135_read",
    "Verif.C135_transport_partial",
    "Verif.C135_fails_between"
   ],
   "note": "The expectation is refuted for every limit (C135_fails, C135_fails_between); the _partial theorems say exactly which values are written and read."
  },
  {
   "property": "C136",
   "status": "partial",
   "theorems": [
    "Verif.C136_asked",
    "Verif.C136_partial",
    "Verif.C136_ends",
    "Verif.C136_order",
    "Verif.C136_last_first",
    "Verif.C136_daemon",
    "Verif.C136_fails",
    "Verif.C136_fails_hang"
   ],
   "note": "C136_partial: once the program of a process is over the processes reach, in a bounded number of their own steps whatever times out, a state where none goes on (C136_ends: there is one), and there everything below it is gone, at any depth, provided nothing below was killed or hangs. C136_asked: every process that ends by itself has asked its children. C136_order: without timeouts and kills parents go after their descendants. C136_last_first: in reverse order of starting. C136_daemon: daemons go on. The full statement is false of the code: C136_fails (a grandchild of a killed child), C136_fails_hang."
  },
  {
   "property": "C137",
   "status": "partial",
   "theorems": [
    "Verif.C137_partial",
    "Verif.C137_exact",
    "Verif.C137_told",
    "Verif.C137_fails",
    "Verif.C137_fails_closed",
    "Verif.C137_fails_delete"
   ],
   "note": "Holds at the server that made the proxy, and for clients that have read the message of the closed server. Fails otherwise: the object and reference ids of every server begin with 0 and a proxy in a message carries only the address and these ids, so a proxy of a server that is gone reaches (and releases) the object of its successor that has the same ids; C137_fails gives this for all objects."
  },
  {
   "property": "C138",
   "status": "partial",
   "theorems": [
    "Verif.C138_partial",
    "Verif.C138_renewed",
    "Verif.C138_crash",
    "Verif.C138_fails",
    "Verif.C138_stranger"
   ],
   "note": "Holds for clients that were not told that the server closed (it crashed, or did not know them) and for clients made anew. Fails for clients that were told: the flag is never reset and get_client keeps returning the client, so every request raises RuntimeError until the user closes the client."
  },
  {
   "property": "C139",
   "status": "proved",
   "theorems": [
    "Verif.C139_merged",
    "Verif.C139_passed",
    "Verif.C139_all"
   ],
   "note": "Model/LogNet.lean composes any number of LogSenders with one LogServer; ZeroMQ keeps the order of each sender and loses nothing. Records in which JSON changes something (tuples, keys that are not texts) are counted, but only for plain records the theorem says what is read. C139_merged holds whatever the other processes do with their senders; for a process that closes its sender or connects it anew it says that only records it logged are read."
  },
  {
   "property": "C14",
   "status": "proved",
   "theorems": [
    "Verif.C14_last_published",
    "Verif.C14_unknown_name",
    "Verif.C14_known_name"
   ],
   "note": "Names are strings or other hashable keys."
  },
  {
   "property": "C140",
   "status": "proved",
   "theorems": [
    "Verif.C140_others",
    "Verif.C139_merged",
    "Verif.C140_fair",
    "Verif.C140_hop"
   ],
   "note": "Any record that can be sent can be read and keeps its level (lemma sent_good), and one that cannot be sent ends only the sender of its own process (C74_fails). The level must be a number, which the logging module has checked before by comparing it with the level of the handler. The senders of the other processes may also be connected anew, closed or dead. C140_fair: in every infinite history in which the threads and ZeroMQ always get another turn, not only in some continuation."
  },
  {
   "property": "C141",
   "status": "partial",
   "theorems": [
    "Verif.C141_partial",
    "Verif.C141_labels",
    "Verif.C141_fails"
   ],
   "note": "Fails from the second server on (C141_fails): host, process and thread are overwritten with those of the process in between, for every record and all names. C141_partial: everything else survives any number of hops; C141_labels says whose names are found at each hop."
  },
  {
   "property": "C142",
   "status": "partial",
   "theorems": [
    "Verif.C142_exact",
    "Verif.C142_partial",
    "Verif.C142_fails",
    "Verif.C142_self"
   ],
   "note": "Fails where senders lead back to a process (C142_fails, C142_self): such a record is forwarded for ever. C142_exact: the processes where a plain record is handled are those along the senders up to the first server with a higher level; C142_partial: without a way back, the number is bounded and no process handles it twice, whatever it holds."
  },
  {
   "property": "C143",
   "status": "proved",
   "theorems": [
    "Verif.C143_once",
    "Verif.C143_passed",
    "Verif.C143_all",
    "Verif.C143_order",
    "Verif.C143_label",
    "Verif.C143_fair"
   ],
   "note": "Model/LogAll.lean composes the senders and the server (C139) with the handler (C53, C54). At exit records can be lost (C53_fails, C74_close), so C143_all is about a process that goes on. The host in the label is wrong for other hosts (C73_fails). C143_fair: the same for every infinite history in which the threads, ZeroMQ and the clock go on."
  },
  {
   "property": "C15",
   "status": "proved",
   "theorems": [
    "Verif.C15_notifies",
    "Verif.C15_closer_reply",
    "Verif.C15_unsupported",
    "Verif.C15_unregistered"
   ],
   "note": "Assumes the other clients last named supported serializers; an example shows what happens otherwise."
  },
  {
   "property": "C16",
   "status": "proved",
   "theorems": [
    "Verif.C16_nothing_more",
    "Verif.C16_unregistered"
   ],
   "note": ""
  },
  {
   "property": "C17",
   "status": "proved",
   "theorems": [
    "Verif.C17_msgpack_transport",
    "Verif.C17_msgpack_exact",
    "Verif.C17_inexact_numbers"
   ],
   "note": "numpy scalars: bool, integer and floating kinds (timedelta64 and longdouble lose information, see Sendable); subclasses of the built-in types arrive as their base value"
  },
  {
   "property": "C18",
   "status": "proved",
   "theorems": [
    "Verif.C18_json_transport",
    "Verif.C18_json_exact",
    "Verif.C18_bad_key",
    "Verif.C18_inexact_numbers"
   ],
   "note": "arrays of structured dtype are excluded (they fail)"
  },
  {
   "property": "C19",
   "status": "proved",
   "theorems": [
    "Verif.C19_msgpack_reserved_key",
    "Verif.C19_json_reserved_key"
   ],
   "note": ""
  },
  {
   "property": "C20",
   "status": "proved",
   "theorems": [
    "Verif.C20_msgpack_other_keys",
    "Verif.C20_json_other_keys",
    "Verif.C20_json_key_names"
   ],
   "note": ""
  },
  {
   "property": "C21",
   "status": "proved",
   "theorems": [
    "Verif.C21_there_and_back",
    "Verif.C21_attribute_chain",
    "Verif.C21_owner_resolves"
   ],
   "note": "msgpack"
  },
  {
   "property": "C22",
   "status": "proved",
   "theorems": [
    "Verif.C22_datetime_roundtrip",
    "Verif.C22_date_roundtrip",
    "Verif.C22_timezone_lost",
    "Verif.C22_short_year_refused",
    "Verif.C22_year_text",
    "Verif.C22_date_text",
    "Verif.C22_datetime_text",
    "Verif.C22_date_message",
    "Verif.C22_datetime_message"
   ],
   "note": "strptime is modelled as the regular expression it compiles to; the accepted ASCII texts are characterised exactly."
  },
  {
   "property": "C23",
   "status": "proved",
   "theorems": [
    "Verif.C23_msgpack_array",
    "Verif.C23_json_array"
   ],
   "note": ""
  },
  {
   "property": "C24",
   "status": "proved",
   "theorems": [
    "Verif.C24_msgpack_refused",
    "Verif.C24_json_refused"
   ],
   "note": ""
  },
  {
   "property": "C25",
   "status": "proved",
   "theorems": [
    "Verif.C25_base64_roundtrip",
    "Verif.C25_base64_text",
    "Verif.C25_base64_injective",
    "Verif.C25_read",
    "Verif.C25_one_meaning",
    "Verif.C25_noise",
    "Verif.C25_followed"
   ],
   "note": "C25_read characterises the texts that are read (noise between letters and anything behind the padding is skipped)."
  },
  {
   "property": "C26",
   "status": "proved",
   "theorems": [
    "Verif.C26_ids_increase",
    "Verif.log_transmits"
   ],
   "note": ""
  },
  {
   "property": "C27",
   "status": "proved",
   "theorems": [
    "Verif.C27_own_reply_only",
    "Verif.C27_others_unchanged",
    "Verif.C27_reply_sets"
   ],
   "note": "C27_reply_sets (the converse) needs that all messages read so far are ones a server sends."
  },
  {
   "property": "C28",
   "status": "proved",
   "theorems": [
    "Verif.C28_outcome_fixed"
   ],
   "note": ""
  },
  {
   "property": "C29",
   "status": "proved",
   "theorems": [
    "Verif.C29_disconnect_ends_futures",
    "Verif.C29_later_sends_fail"
   ],
   "note": "For messages a server sends; a malformed reply (without error field) takes a future out of the table and leaves it pending for ever, shown by an example."
  },
  {
   "property": "C30",
   "status": "proved",
   "theorems": [
    "Verif.C30_unserializable",
    "Verif.C30_no_trace"
   ],
   "note": "The request id is used up. Proxies made before the failure stay in the local table (see C06)."
  },
  {
   "property": "C31",
   "status": "partial",
   "theorems": [
    "Verif.C31_invalid_sync_is_sent",
    "Verif.C31_invalid_sync_raises_partial"
   ],
   "note": "Does not hold: the request is sent before the mode is checked. Proved: the negation, and that ValueError is raised and no future stays."
  },
  {
   "property": "C32",
   "status": "partial",
   "theorems": [
    "Verif.C32_done_never_reads",
    "Verif.C32_reading_sees_reply_partial",
    "Verif.C32_done_iff"
   ],
   "note": "Does not hold: done() never reads the socket. Proved: the negation for every number of polls, and that reading sees the reply."
  },
  {
   "property": "C33",
   "status": "proved",
   "theorems": [
    "Verif.C33_not_early",
    "Verif.C33_done_returns",
    "Verif.C33_returns_at_once",
    "Verif.C33_reply_in_time",
    "Verif.C33_gives_up",
    "Verif.C33_nothing_comes"
   ],
   "note": "Time in integer nanoseconds; a TimeoutError raised by decoding or by requests served meanwhile is excluded in C33_not_early."
  },
  {
   "property": "C34",
   "status": "proved",
   "theorems": [
    "Verif.C34_result",
    "Verif.C34_options",
    "Verif.C34_never_twice"
   ],
   "note": "Any number of clients; clients are not in the server's own thread; requests without reply: see C35 (subsequence)."
  },
  {
   "property": "C35",
   "status": "proved",
   "theorems": [
    "Verif.C35_in_order",
    "Verif.C35_no_gaps"
   ],
   "note": "Without gaps unless the connection loses messages; with loss, still in order and never twice."
  },
  {
   "property": "C36",
   "status": "partial",
   "theorems": [
    "Verif.C36_no_pending_partial",
    "Verif.C36_answers_partial",
    "Verif.Ex.C36_fails"
   ],
   "note": "Proved for every client, and for a closing client that asked for its reply by value and holds the future. For return_type='proxy' the claim is false: Ex.C36_fails."
  },
  {
   "property": "C37",
   "status": "partial",
   "theorems": [
    "Verif.C37_learns_partial",
    "Verif.Ex.C37_fails"
   ],
   "note": "False in the code: a client closing the server with sync='off' never learns of it (Ex.C37_fails); everyone else does (C37_learns_partial)."
  },
  {
   "property": "C38",
   "status": "partial",
   "theorems": [
    "Verif.C38_one_per_thread",
    "Verif.C38_get_server",
    "Verif.C38_get_server_answers",
    "Verif.C38_second_partial",
    "Verif.C38_one_thread_partial",
    "Verif.Ex.C38_fails_race",
    "Verif.Ex.C38_fails_again",
    "Verif.C38_bound",
    "Verif.C38_unregister"
   ],
   "note": "At most one server per thread and get_server hold in all interleavings. One thread per server fails if two threads register the same server at once (proved), KeyError fails for a server registered in the thread before (proved); both hold otherwise."
  },
  {
   "property": "C39",
   "status": "partial",
   "theorems": [
    "Verif.C39_same_client_partial",
    "Verif.C39_new_client_partial",
    "Verif.C39_returned_partial",
    "Verif.C39_failed",
    "Verif.Ex.C39_fails"
   ],
   "note": "Holds in histories where clients are closed by their own thread, once, after construction; fails otherwise (proved), because of C40."
  },
  {
   "property": "C40",
   "status": "partial",
   "theorems": [
    "Verif.C40_close_partial",
    "Verif.C40_others",
    "Verif.Ex.C40_fails",
    "Verif.Ex.C40_fails_twice",
    "Verif.C40_closed",
    "Verif.C40_closed_disconnected",
    "Verif.C40_closed_reads"
   ],
   "note": "False in the code: closing from another thread, or twice, removes another client from the cache (proved). Holds in orderly histories."
  },
  {
   "property": "C41",
   "status": "partial",
   "theorems": [
    "Verif.C41_unique_partial",
    "Verif.C41_same_server_partial",
    "Verif.C41_default_partial",
    "Verif.Ex.C41_fails",
    "Verif.C41_default_name"
   ],
   "note": "False for names with dots or colons (proved); holds for names without separators, and for clients of one server with default process and thread names."
  },
  {
   "property": "C42",
   "status": "partial",
   "theorems": [
    "Verif.C42_checked_partial",
    "Verif.C42_unchecked_partial",
    "Verif.C42_port",
    "Verif.C42_refused",
    "Verif.Ex.C42_fails"
   ],
   "note": "An address followed by one newline is accepted as well (proved); otherwise exact."
  },
  {
   "property": "C43",
   "status": "partial",
   "theorems": [
    "Verif.C43_no_request_partial",
    "Verif.C43_resolves_partial",
    "Verif.C43_unresolved_partial",
    "Verif.C43_undeferred",
    "Verif.Ex.C43_fails",
    "Verif.C43_names",
    "Verif.C43_flag",
    "Verif.C43_undefer"
   ],
   "note": "False for names the proxy object has itself (_client, __doc__, ...), which never reach the server; proved for all other names and every proxy with defer_getattr True; with defer_getattr False each access is shown to be one get_obj request."
  },
  {
   "property": "C44",
   "status": "partial",
   "theorems": [
    "Verif.C44_partial",
    "Verif.C44_equal",
    "Verif.Ex.C44_fails",
    "Verif.C44_empty"
   ],
   "note": "False: p.x == p.y is True locally, but __hash__ includes the attributes. Proved for proxies with equal attributes."
  },
  {
   "property": "C45",
   "status": "partial",
   "theorems": [
    "Verif.C45_all_or_nothing_partial",
    "Verif.C45_nothing",
    "Verif.C45_known",
    "Verif.Ex.C45_fails"
   ],
   "note": "All-or-nothing is proved for every option dictionary; the exception is KeyError except for an option named self (TypeError)."
  },
  {
   "property": "C46",
   "status": "partial",
   "theorems": [
    "Verif.C46_call_partial",
    "Verif.C46_invokes_partial",
    "Verif.Ex.C46_fails"
   ],
   "note": "Proved up to the server's invocation, for every call without a keyword named self, which Python cannot pass (TypeError)."
  },
  {
   "property": "C47",
   "status": "partial",
   "theorems": [
    "Verif.C47_operators",
    "Verif.C47_forwards_partial",
    "Verif.Ex.C47_fails"
   ],
   "note": "False for __rxor__, which forwards to __ror__; proved for the other 47 operators."
  },
  {
   "property": "C48",
   "status": "partial",
   "theorems": [
    "Verif.C48_kept_partial",
    "Verif.C48_released",
    "Verif.C48_parent",
    "Verif.Ex.C48_fails",
    "Verif.C48_sent"
   ],
   "note": "False: derived proxies inherit auto_delete and release the parent's reference when collected. Proved for programs that collect only handed-out proxies with auto_delete on; release is proved for all programs."
  },
  {
   "property": "C49",
   "status": "proved",
   "theorems": [
    "Verif.C49",
    "Verif.C49_no_deadlock",
    "Verif.C49_bounded",
    "Verif.C49_finishes",
    "Verif.C49_replies",
    "Verif.C49_needs_reentrant",
    "Verif.C49_needs_own_futures"
   ],
   "note": "For every number of threads (with run_forever, lazy, Qt or no servers), every history of sends (sync, async, off), waits, nested requests, replies and timeouts. Assumed: reentrant clients, and code waits only for futures it made itself (all synchronous calls do); both are shown to be necessary. Beyond the property: once user code stops making calls, every history ends and nothing is unfinished."
  },
  {
   "property": "C50",
   "status": "proved",
   "theorems": [
    "Verif.C50_at_most",
    "Verif.C50_at_most_one",
    "Verif.C50_exactly",
    "Verif.C50_can_finish",
    "Verif.C50_no_limit",
    "Verif.C50_fair"
   ],
   "note": "A limit of zero or less allows one call. Times are integers. C50_fair: a started timer with a limit finishes in every infinite history in which its thread and the clock go on and nobody starts it again."
  },
  {
   "property": "C51",
   "status": "partial",
   "theorems": [
    "Verif.C51_turns_partial",
    "Verif.C51_calls_partial",
    "Verif.C51_turn_then_call",
    "Verif.Ex.C51_fails"
   ],
   "note": "The interval separates the turns the thread takes; the callback itself may begin later than its turn, so two begins can be closer than the interval (C51_fails)."
  },
  {
   "property": "C52",
   "status": "proved",
   "theorems": [
    "Verif.C52_stop",
    "Verif.C52_no_turn"
   ],
   "note": ""
  },
  {
   "property": "C53",
   "status": "partial",
   "theorems": [
    "Verif.C53_conserved",
    "Verif.C53_at_most_once",
    "Verif.C53_written",
    "Verif.C53_flush",
    "Verif.C53_final_partial",
    "Verif.C53_progress",
    "Verif.Ex.C53_fails",
    "Verif.Ex.C53_fails_level",
    "Verif.C53_fair"
   ],
   "note": "Conservation, at most once and progress are proved for every interleaving. Exactly once after a final flush is false: records the polling thread holds at exit, and records of unknown level with colours, are lost. C53_fair: without flush every record is treated in every infinite history in which the polling thread and the clock go on."
  },
  {
   "property": "C54",
   "status": "proved",
   "theorems": [
    "Verif.C54_order",
    "Verif.C54_stable",
    "Verif.C54_stream",
    "Verif.Ex.C54_late",
    "Verif.Ex.C54_flush_breaks"
   ],
   "note": "For histories without a flush by somebody else, with every record in time."
  },
  {
   "property": "C55",
   "status": "proved",
   "theorems": [
    "Verif.C55_filter",
    "Verif.C55_level",
    "Verif.C55_order",
    "Verif.C55_fixed",
    "Verif.C55_all",
    "Verif.C55_stop",
    "Verif.C55_effective",
    "Verif.C55_level_other",
    "Verif.C55_current"
   ],
   "note": ""
  },
  {
   "property": "C56",
   "status": "proved",
   "theorems": [
    "Verif.C56_order",
    "Verif.C56_stop",
    "Verif.C56_all",
    "Verif.C56_constructed",
    "Verif.C56_closed",
    "Verif.C56_always"
   ],
   "note": "C56_always holds for every history, with connecting anew, closing and threads that die: what is sent is a subsequence of what was given. The others are about a connected sender that nobody connects anew or closes."
  },
  {
   "property": "C57",
   "status": "proved",
   "theorems": [
    "Verif.C57_lines",
    "Verif.C57_all",
    "Verif.C57_fails_last",
    "Verif.C57_fails_decode"
   ],
   "note": "For UTF-8 output ending in a newline, as stated. What happens otherwise is proved too."
  },
  {
   "property": "C58",
   "status": "partial",
   "theorems": [
    "Verif.C58_child_partial",
    "Verif.C58_fails_level",
    "Verif.C58_fails_str",
    "Verif.C58_fails_str_error",
    "Verif.C58_fails_negative",
    "Verif.C58_fails_flags",
    "Verif.C58_types",
    "Verif.C58_fails_dash",
    "Verif.C58_level",
    "Verif.C58_level_bool",
    "Verif.C58_fails_option",
    "Verif.C58_address"
   ],
   "note": "every option arrives as wanted, for all requests of the documented types (log address as bytes) whose level is not negative; but the level is lost without a log address, a str log address is refused, negative levels end the child, flags given as 0 or 1 are accepted and ignored C58_types: which arguments are refused; C58_fails_dash: names beginning with a dash end the child. C58_fails_option: a name that can be read as an option, also abbreviated, is one."
  },
  {
   "property": "C59",
   "status": "proved",
   "theorems": [
    "Verif.C59_capture",
    "Verif.C59_refused",
    "Verif.C59_accepted"
   ],
   "note": ""
  },
  {
   "property": "C60",
   "status": "partial",
   "theorems": [
    "Verif.C60_fails",
    "Verif.C60_fails_timeout",
    "Verif.C60_reported_partial",
    "Verif.boot_no_error"
   ],
   "note": "false in the code: the line that logs the error raises KeyError, so the child dies without a report and start_process ends with TimeoutError; an error that were reported would be raised as wanted"
  },
  {
   "property": "C61",
   "status": "partial",
   "theorems": [
    "Verif.C61_copy_partial",
    "Verif.C61_zeros_partial",
    "Verif.C61_restored",
    "Verif.C61_restored_any",
    "Verif.C61_shared_partial",
    "Verif.C61_fails_scalar",
    "Verif.C61_fails_empty",
    "Verif.C61_fails_offset"
   ],
   "note": "Holds for every array with at least one dimension and no empty dimension, of any strides and offset; pickled and restored for every window that begins with its block. Fails for arrays without dimensions (IndexError), without elements (ValueError), and for wrapped arrays that do not begin at the start of their block (the pickled form has no offset)."
  },
  {
   "property": "C62",
   "status": "partial",
   "theorems": [
    "Verif.C62_partial",
    "Verif.C62_all",
    "Verif.C62_fails",
    "Verif.C62_fails_restored"
   ],
   "note": "The code unlinks every block wrapped in the process, requested or not (it tests the method shmem.close instead of the flag). What was requested is unlinked."
  },
  {
   "property": "C63",
   "status": "proved",
   "theorems": [
    "Verif.C63_bound",
    "Verif.C63_exact",
    "Verif.C63_tight"
   ],
   "note": "Exact arithmetic; float rounding not modelled."
  },
  {
   "property": "C64",
   "status": "partial",
   "theorems": [
    "Verif.C64_find_partial",
    "Verif.C64_kill_partial",
    "Verif.C64_fails_header",
    "Verif.C64_fails_empty",
    "Verif.C64_fails",
    "Verif.C64_fails_kill",
    "Verif.C64_fails_default",
    "Verif.C64_int",
    "Verif.C64_undecodable"
   ],
   "note": "find_procs is exact unless the search text is part of the header's COMMAND (or empty): ValueError. kill_procs ignores its argument. C64_int: the texts int() accepts and their values."
  },
  {
   "property": "C65",
   "status": "partial",
   "theorems": [
    "Verif.C65_results",
    "Verif.C65_requests",
    "Verif.C65_all",
    "Verif.C65_fails",
    "Verif.C65_fails_dead"
   ],
   "note": "C65_results: for every history, what was sent followed by what waits is what the Qt thread produced, in order. C65_requests: what was processed is a prefix of the readable requests, in order, each once. C65_all: if every request can be read, then after enough steps all are processed and all results sent. Missing: a malformed message kills the poll thread (C65_fails_dead) and then nothing is relayed any more (C65_fails), so the full statement is false."
  },
  {
   "property": "C66",
   "status": "partial",
   "theorems": [
    "Verif.C66_first",
    "Verif.C66_imported",
    "Verif.C66_same",
    "Verif.C66_good",
    "Verif.C66_history",
    "Verif.C66_refuses",
    "Verif.C66_fails",
    "Verif.C66_fails_incomplete",
    "Verif.C66_order",
    "Verif.C66_order_imported"
   ],
   "note": "Proved for every set of complete bindings (all three modules installed or none): which binding is chosen, the same namespace after every history, refusal of a conflicting request. False otherwise: with an incomplete binding a later call returns a partial namespace (C66_fails_incomplete); after a failed request a binding imported by the program is not noticed (C66_fails)."
  },
  {
   "property": "C67",
   "status": "partial",
   "theorems": [
    "Verif.C67_sound",
    "Verif.C67_exits_partial",
    "Verif.C67_late",
    "Verif.C67_ends",
    "Verif.C67_bound",
    "Verif.C67_exited",
    "Verif.C67_running",
    "Verif.C67_fails"
   ],
   "note": "holds if the output pipes are closed when the child exits; if a process started by the child keeps them open, wait raises TimeoutError though the child has exited"
  },
  {
   "property": "C68",
   "status": "proved",
   "theorems": [
    "Verif.C68_json_key_collisions"
   ],
   "note": ""
  },
  {
   "property": "C69",
   "status": "proved",
   "theorems": [
    "Verif.C69_object_ids_never_reused",
    "Verif.C69_one_id_per_object"
   ],
   "note": ""
  },
  {
   "property": "C70",
   "status": "partial",
   "theorems": [
    "Verif.C70_negation",
    "Verif.C70_only_close_closes_partial"
   ],
   "note": "False in the code (undecodable close request); proved that only close requests close anything."
  },
  {
   "property": "C71",
   "status": "proved",
   "theorems": [
    "Verif.C71_message_fields",
    "Verif.C71_message_refused",
    "Verif.C71_call",
    "Verif.C71_call_ends",
    "Verif.C71_call_nothing",
    "Verif.C71_call_default_kwargs",
    "Verif.C71_get_obj",
    "Verif.C71_get_obj_foreign",
    "Verif.C71_set_item",
    "Verif.C71_delete",
    "Verif.C71_ping",
    "Verif.C71_unknown",
    "Verif.C71_import",
    "Verif.C71_import_from",
    "Verif.C71_import_no_text",
    "Verif.C71_no_options",
    "Verif.C71_missing_option",
    "Verif.C71_call_odd"
   ],
   "note": "get_item is C14, close is C15."
  },
  {
   "property": "C72",
   "status": "partial",
   "theorems": [
    "Verif.C72_started_partial",
    "Verif.C72_no_crash_partial",
    "Verif.C72_dead",
    "Verif.Ex.C72_fails",
    "Verif.Ex.C72_fails_again",
    "Verif.Ex.C72_fails_race"
   ],
   "note": "Holds for a timer started once. A start() during the end of the thread is lost, one after it raises RuntimeError, one of a running timer can kill its thread with TypeError."
  },
  {
   "property": "C73",
   "status": "partial",
   "theorems": [
    "Verif.C73_header",
    "Verif.C73_names_partial",
    "Verif.C73_fails",
    "Verif.C73_colors",
    "Verif.C73_thread_label"
   ],
   "note": "One header per host, process and thread; process and thread of forwarded records are right; the host is always the local one."
  },
  {
   "property": "C74",
   "status": "partial",
   "theorems": [
    "Verif.C74_dead",
    "Verif.C74_fails",
    "Verif.C74_fails_early",
    "Verif.Ex.C74_exception",
    "Verif.Ex.C74_arguments",
    "Verif.Ex.C74_close",
    "Verif.Ex.C74_early",
    "Verif.C74_fails_reconnect",
    "Verif.C74_refused",
    "Verif.C74_closing"
   ],
   "note": "False in the code: the negation is proved with witnesses."
  },
  {
   "property": "C75",
   "status": "proved",
   "theorems": [
    "Verif.C75_record",
    "Verif.C75_delivered",
    "Verif.C75_args"
   ],
   "note": ""
  },
  {
   "property": "C76",
   "status": "proved",
   "theorems": [
    "Verif.C76_address",
    "Verif.C76_once"
   ],
   "note": ""
  },
  {
   "property": "C77",
   "status": "partial",
   "theorems": [
    "Verif.C77_fails",
    "Verif.C77_fails_kill",
    "Verif.C77_partial"
   ],
   "note": "false in the code; what remains: a child whose error was reported does not run a server"
  },
  {
   "property": "C78",
   "status": "partial",
   "theorems": [
    "Verif.C78_fails",
    "Verif.C78_partial"
   ],
   "note": "false in the code when something waits; without a waiting thread everything is logged"
  },
  {
   "property": "C79",
   "status": "proved",
   "theorems": [
    "Verif.C79_status",
    "Verif.C79_timeout",
    "Verif.C79_received",
    "Verif.C79_child"
   ],
   "note": ""
  },
  {
   "property": "C80",
   "status": "partial",
   "theorems": [
    "Verif.C80_partial",
    "Verif.C80_block",
    "Verif.C80_fails_zombie",
    "Verif.C80_fails_foreign",
    "Verif.C80_fails_group",
    "Verif.C80_fails_all",
    "Verif.C80_fails_overflow"
   ],
   "note": "False in the code: processes that ended but were not waited for are reported as running; processes of other users are neither killed nor reported; add accepts 0, False and -1, for which the own group or every process is killed (C80_fails_group, C80_fails_all); an int that is no pid raises OverflowError and leaves the later ones running. Proved for pids that stand for one other process each and that run or are gone (C80_partial); C80_block: what is collected, for any calls of add, valid or not."
  },
  {
   "property": "C81",
   "status": "partial",
   "theorems": [
    "Verif.C81_windows_partial",
    "Verif.C81_windows_line",
    "Verif.C81_check",
    "Verif.C81_fails",
    "Verif.C81_fails_udp",
    "Verif.C81_skip",
    "Verif.C81_words",
    "Verif.C81_words_linux"
   ],
   "note": "On Linux no port is ever listed (AttributeError lsplit); on Windows TCP is right, UDP is skipped. C81_check: which local ports the quick check calls open."
  },
  {
   "property": "C82",
   "status": "partial",
   "theorems": [
    "Verif.C82_fails",
    "Verif.C82_fails_sent"
   ],
   "note": "False in the code: the name received is bytes and is compared with the str 'STOP', so from no state and by no history does the thread leave its loop (C82_fails), and the stop message is sent to a client of name STOP (C82_fails_sent)."
  },
  {
   "property": "C83",
   "status": "partial",
   "theorems": [
    "Verif.C83_fails",
    "Verif.C83_fails_quit",
    "Verif.C83_left_partial",
    "Verif.C83_quits_partial",
    "Verif.C83_no_app",
    "Verif.C83_leaves",
    "Verif.C83_only_closed"
   ],
   "note": "False in the code: requests arriving after the close are executed and answered while the event loop lives (C83_fails), with quit_on_close those already queued (C83_fails_quit). C83_left_partial: after the end of the event loop nothing is executed, whatever happens. C83_quits_partial: close requests the end of the loop."
  },
  {
   "property": "C84",
   "status": "proved",
   "theorems": [
    "Verif.C84_one_reply",
    "Verif.C84_sent",
    "Verif.C84_accepted"
   ],
   "note": "Refinement: the relay inside the Qt server makes the steps of a relay history of C65; the server part satisfies the protocol of C07 although nested event loops process requests at any depth."
  },
  {
   "property": "C85",
   "status": "proved",
   "theorems": [
    "Verif.C85_answered",
    "Verif.C85_not_early",
    "Verif.C85_nested"
   ],
   "note": "For all lists of tries, each with any turns of waiting, user code served meanwhile included."
  },
  {
   "property": "C86",
   "status": "partial",
   "theorems": [
    "Verif.C86_fast_partial",
    "Verif.C86_fails"
   ],
   "note": "False in the code: each ping is waited for 0.1 s only and its future is then dropped, so a server with a latency of 0.15 s is never connected (C86_fails). C86_fast_partial: an answer read within 0.1 s of its ping establishes the connection, after any tries that timed out and any late answers."
  },
  {
   "property": "C87",
   "status": "partial",
   "theorems": [
    "Verif.C87_fails",
    "Verif.C87_registry_partial",
    "Verif.C87_success",
    "Verif.C87_registered"
   ],
   "note": "False in the code for start_local_server: the local server stays registered (C87_fails). The registry of clients is restored in all cases (C87_registry_partial); C87_success: exactly when the constructor returns."
  },
  {
   "property": "C88",
   "status": "proved",
   "theorems": [
    "Verif.C88_call",
    "Verif.C88_returns"
   ],
   "note": "C88_call holds in every run under the assumptions about codec and sockets (World). C88_returns begins in any reachable state in which the server is healthy and nothing of the calling client is under way."
  },
  {
   "property": "C89",
   "status": "partial",
   "theorems": [
    "Verif.C89_items_partial",
    "Verif.C89_fails",
    "Verif.C89_never_ends",
    "Verif.C89_contains",
    "Verif.C89_stops"
   ],
   "note": "False of the code: the remote IndexError arrives as RemoteCallException, so no loop over a proxy ends normally and `x in p` is never False (C89_fails for every list, C89_never_ends for every object). Proved: the loop asks for items 0,1,2,... only, visits exactly the answers in order; membership is True iff an item before the exception matches."
  },
  {
   "property": "C90",
   "status": "partial",
   "theorems": [
    "Verif.C90_len_partial",
    "Verif.C90_fails",
    "Verif.C90_long",
    "Verif.C90_bad_length",
    "Verif.C90_integers"
   ],
   "note": "False of the code: __bool__ is not forwarded; testing a proxy of an object without __len__ raises (C90_fails). Proved for objects with __len__ and without __bool__."
  },
  {
   "property": "C91",
   "status": "partial",
   "theorems": [
    "Verif.C91_binary_partial",
    "Verif.C91_inplace_partial",
    "Verif.C91_fails",
    "Verif.C91_fails_inplace"
   ],
   "note": "False of the code: NotImplemented comes back as a proxy, so the right operand is never asked, and in-place operators do not fall back (C91_fails, C91_fails_inplace for all operators). Proved: equal outcome whenever the method exists and does not return NotImplemented."
  },
  {
   "property": "C92",
   "status": "proved",
   "theorems": [
    "Verif.C92_publish",
    "Verif.C92_lookup",
    "Verif.C92_transfer",
    "Verif.C92_delete",
    "Verif.C92_import",
    "Verif.C92_ping"
   ],
   "note": "In every run under the assumptions about codec and sockets (World); the client process runs no server at the address of the server it asks (ClientProc)."
  },
  {
   "property": "C93",
   "status": "proved",
   "theorems": [
    "Verif.C93_read_back"
   ],
   "note": "In every run under the assumptions about codec and sockets (World)."
  },
  {
   "property": "C94",
   "status": "partial",
   "theorems": [
    "Verif.C94_exact",
    "Verif.C94_thread_partial",
    "Verif.C94_default",
    "Verif.C94_host",
    "Verif.C94_fails",
    "Verif.C94_asked"
   ],
   "note": "False of the code: names are kept by ident and never removed, so a thread with a reused ident has the name of an ended one (C94_fails for every name and ident). C94_exact says what is returned after every history; C94_thread_partial: right if the ident was not named before."
  },
  {
   "property": "C95",
   "status": "proved",
   "theorems": [
    "Verif.C95_logged",
    "Verif.C95_again",
    "Verif.C95_text"
   ],
   "note": "All histories of the modelled logging calls. Above level WARNING the exception is seen nowhere; this is part of the statement."
  },
  {
   "property": "C96",
   "status": "proved",
   "theorems": [
    "Verif.C96_displays",
    "Verif.C96_level",
    "Verif.C96_raises",
    "Verif.C96_observed",
    "Verif.C96_propagate"
   ],
   "note": "All histories of the modelled logging calls. Two calls display everything twice; this is part of the statement."
  },
  {
   "property": "C97",
   "status": "partial",
   "theorems": [
    "Verif.C97_sent_partial",
    "Verif.C97_local_partial",
    "Verif.C97_fails_twice",
    "Verif.C97_fails_lost",
    "Verif.C97_fails_level"
   ],
   "note": "False of the code when id(proc) is reused (after a failed start): lines also go to the earlier log server, or only there, or are let through by the earlier level. Proved for ids not used before, levels other than 0."
  },
  {
   "property": "C98",
   "status": "proved",
   "theorems": [
    "Verif.C98_first",
    "Verif.C98_array",
    "Verif.C98_dates",
    "Verif.C98_number",
    "Verif.C98_exceptions",
    "Verif.C98_json_first",
    "Verif.C98_log",
    "Verif.C98_log_args",
    "Verif.C98_proxy_extra",
    "Verif.C98_json_array",
    "Verif.C98_tuple",
    "Verif.C98_array_data",
    "Verif.C98_log_array",
    "Verif.C98_proxy_key",
    "Verif.C98_proxy_least"
   ],
   "note": ""
  },
  {
   "property": "C99",
   "status": "proved",
   "theorems": [
    "Verif.C99_started",
    "Verif.C99_returns",
    "Verif.C99_failed"
   ],
   "note": "starting a process from the arguments of start_process to the object returned"
  }
 ]
}
