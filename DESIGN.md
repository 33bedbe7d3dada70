# Design of the formal model of teleprox

## Method

The code in /repo is read as text and modelled by hand, function by function, as total computable
Lean 4 functions. Exceptions are values (`Except Exc`). State is passed explicitly. Concurrency and
reentrancy are modelled by state machines: an event is one atomic step of one participant, the
environment chooses the events, and a theorem over all lists of events covers all interleavings.
Each definition cites the lines it models and states its simplifications.

Layout of `lean/Verif`:

- `Model/*`: the model of the code, and of library behaviour as far as the code uses it.
- `Spec/*`: small specifications that do not use the model's helpers.
- `Proof/*`: lemmas and invariants.
- `Props/*`: the property theorems (names begin with the id of the property), each with a concrete
  case that meets its hypotheses. Small specifications used only once stand at the top of these files.

`seeded/LOG.jsonl` records edits of the model that a bug would make, and which theorems failed then. The first 647
were made by hand; the others by a program that changed constants, comparisons, conditions and branches of the
definitions one at a time (the claim in these lines is the comment of the definition). Edits that no theorem
noticed led to new or tighter theorems, except those that change nothing observable, entries of tables
taken from elsewhere (Unicode digits, names of Python's own attributes), and branches marked as outside the model.

### What the names of theorems say

- `Cnn_...`: proves (a part of) the statement.
- `Cnn_..._partial`: the statement holds only under further hypotheses; the note in MANIFEST.json
  and the comment say what is missing.
- `Cnn_negation`, `Cnn_fails...`: the statement (or its rest) is false of the code; the theorem is a
  witness or a general refutation. These properties are "partial" in the manifest. They are kept
  because a user would rely on them, or because the documentation promises them.
- `Cnn_fair`: "in the end" for every infinite history in which the named threads always get another turn, ZeroMQ
  delivers again and again and, where somebody sleeps, the clock passes every time. These are assumptions about the
  scheduler, ZeroMQ and the clock. The others ("it only takes going on") say that a continuation exists.

## What is modelled for each property, and how it is proved

| Property | What is modelled | How it is proved |
|---|---|---|
| C01-C06, C69 | reference table of the server (`get_proxy`, `_get_object_id`, `delete`, `unwrap_proxy`); objects are uids; `id()` is any function that may collide for objects not alive together | refinement to the set of outstanding references, induction over histories; C06 by witness |
| C07-C11, C70 | server as a stack machine: `recv` reads a request, `ret` ends the innermost running call | counting invariants over event lists; simulation; C10, C70 by witness plus exact characterisation |
| C12, C13 | composition of the action's result, automatic proxies and serializer | calculation; C13 by witness |
| C14, C71 | namespace and actions inside the stack machine | refinement to "last write wins"; case analysis of each action |
| C15, C16 | `close` action and server loop | fold characterisation; invariant of the closed state |
| C17-C25, C68 | Python values as an inductive type, wire trees, `encode`/`decode`, strided arrays, date strings, base64, all concrete | structural induction, round-trip laws |
| C26-C32 | client as a state machine (`send`, `process_msg`, disconnect, dropped futures) | invariants over event lists; C31, C32 refuted |
| C33 | waiting loop with an arbitrary arrival schedule, integer nanoseconds | induction over the schedule |
| C85-C87 | `ensure_connection` on top of the waiting loop; constructor of the client | induction over tries; waiting is a history of the client; C86, C87 refuted |
| C34-C37 | n clients, server, FIFO channels that may break | inductive invariants relating logs of both sides; C36, C37 refuted for special cases |
| C88 | the same system with calls through proxies | composition of C34, C46, C21, C17/C18, C11, C27 |
| C92, C93 | the same system with the client's own requests (`client[name]`, `transfer`, `delete`, `_import`, `ping`) | composition of C34, C21, C71, C14 and the invariants of the reference table |
| C38-C42 | registries with threads as state machines; names; the address pattern as a scanner | invariants over histories; equivalence with a declarative grammar; refutations |
| C43-C48 | proxies, options, operator table, collection of proxies | induction on chains and histories; table check; refutations |
| C89-C91 | `for` and `in` by Python's sequence protocol on `__getitem__`; truth by `__len__`; dispatch of operators, over any methods of the object | induction over the answers; case analysis; refuted for every list, object and operator |
| C49 | threads with stacks of frames, all messages between them | invariant "each awaited call is somewhere"; the awaited request made last cannot be blocked; potential function for termination |
| C50-C52, C72 | timer thread, start and stop as a state machine with integer time | invariants; C51, C72 refuted for special cases |
| C53-C57, C73-C76, C78 | log handler, log sender and server, pipe poller | multiset and order invariants, induction on streams; refutations; C53_fair follows the polling thread through an infinite history (`Endless`) |
| C94-C97 | names of threads; Python's tree of loggers with levels, propagation and cached decisions; `basic_config`, `log_exceptions`, `StdioLogSender` | invariants over histories; "last write" refinement; C94, C97 refuted |
| C58-C60, C67, C77, C79 | construction of the command line, parsing in the child, start-up handshake, waiting | string lemmas, case analysis, state machine invariants; C60, C77 refuted |
| C61, C62 | blocks of shared memory, strided windows | index arithmetic; C62 refuted |
| C63 | the clock estimate over rationals | inequalities over sums |
| C64, C80, C81 | output of `ps` and `netstat` as bytes, process table | parsing lemmas; refutations |
| C65, C66, C82-C84 | Qt relay thread; choice of the binding; Qt server as relay plus server | invariants over histories; refinement of the relay; C82, C83 refuted |
| C98 | the decoders of both serializers and of the log server on any message | induction over the message; exact conditions for arrays, dates and numbers |
| C99 | request, command line, child script and report as one chain | composition of C58, C59, C60's invariants and C77 |
| C100 | table of pids with reuse, `Popen` objects, threads between check and signal | invariant relating unreaped children to the table; refuted for daemons, the cleaner and a race |
| C101-C103 | copying, pickling, printing and receiving proxies, over any answers of the server | case analysis, digit strings; invariant of the timer; C101, C102 refuted for special cases |
| C104 | UTF-8, decimal numbers, the bytes of msgpack and the text of JSON, writers and readers | mutual induction over trees, prefix-extension of the reader |
| C105 | a close request among nested running requests | induction over the events after the close; refuted, exact outcome proved |
| C106 | origin of the disconnected flag, `disconnected()` and `close_server()` over any run | origin of the flag in the client's history, causality of replies; refuted for closed sockets |
| C107 | `RPCServer.close()` in any thread, over any run | composes C106's origin of replies with the wait of `close_server`; refuted in threads without a client |
| C108 | `LogViewer` and `QtLogHandler` over the tree of loggers, threads and the queue of Qt | invariants: place of the handler, rightness of the level caches, order of serial numbers; refuted for filters |
| C109 | `_send_error` and `RemoteCallException.__str__` over the runs of server and clients | from C34: the reply read is the one made by the execution; the text is computed |
| C110 | runs of server, clients and a timer (`TSys`) | a counting invariant: a request answered at its client is not running any more (C34, C35); the timer's thread makes a request only after the last was answered or a call failed, which ends the timer |
| C111 | `process_msg` with the printing of the message (`Cli.processPrinted`) | printing asks nobody if `safe_print` is on (C102, C103); concrete witness otherwise |
| C112 | `jsLoad`, `mpLoad` and the grammars of the two formats (`JsonText`, `MpBytes`) | both directions by induction on the depth: what is read is a text of the grammar, and every text of the grammar is read, whatever follows it; error classes by the same induction |
| C113 | `PidSt` (exit codes) | invariant: every known code is that of a process that ended so in the history (`EndedWith`), no other entry of the table is for that process; codes once known stay, by induction on the history |
| C114 | `popenArgv`, `finalArgv` (the shell) over all launches of `startPlan` | splitting the joined text gives back words without blanks; refuted for names with blanks, empty names and shell=1 |
| C115 | `Cli.receive`, `Cli.waitFor` on arbitrary messages | exact outcome of every reply (says something, or wrong in one of five ways); refuted: lost replies leave requests pending for ever, exceptions reach the wrong waiter |
| C116 | `HoldSt` (the `_client_` of each proxy over the registry of clients) | refinement to `CacheSt` plus invariant: what a proxy holds was made for its address by a thread that used it; refuted for proxies used by several threads, closed clients and clients whose construction failed |
| C117 | `PObj.getValue`, `getObjReq` over whole system runs (`Sys`) | the reply of an answered get_obj request is what the proxy resolved to when the server read it, including its exceptions (what the serializers read of a proxy that does not resolve); refuted for objects outside the types to serialize |
| C118 | `localClient` over `RegSt` and `CacheSt` | invariants of both registries (C38, C39) |
| C119 | whole system runs (`Sys`) nobody disturbs (`UndisturbedSys`) | potential 3·(messages to the server) + 2·(running user code) + (messages to clients) decreases with every move; counts of accepted, ended and open requests (C07) with C09 and C35 give the answers |
| C120 | `msgpackDumps` and `msgpackLoads` composed over a list of hops (`relay`) | induction over the hops with `Arrives` to the first sender as invariant: what has arrived is sendable, packable, not nested more deeply and holds no foreign object, and packing such a value ignores the server (`pack_same`); `arrives_comp` composes the hops; C01 for the shared reference |
| C121 | `msgpackDumps` with its changes of `Refs`; a whole server (`Srv.run`) for the refutation | sending is replacing every foreign object by a fresh proxy and then sending (`fac`, induction over the depth); the fresh references extend the history (`handAll_reach`); C01, C02, C05 for giving back in any order; refuted: a failed `dumps` keeps the references it made |
| C122 | `argTok`, `takeToks`, `parseArgs`, `childSetup`, `bootChild` | a grammar of command lines (`Spec/CommandLine.lean`); every line of it is parsed by induction over the options as written, the converse by induction over the number of words |
| C123 | `pack`/`unpack`, `jpack`/`junpack` | one predicate implies what C17 and C18 ask; closed under the JSON view, which is idempotent; induction over the route |
| C124 | `Sys.step`, `Srv.step`, `Cli.step` | C34 on the run and on its prefix; ids of later requests are fresh; executions restricted to the rest of the history |
| C125 | `SerSt.step` | invariant: the attributes fit all calls in progress |
| C126 | `UxSt.step`, `UxSt.bootStep` | invariants: groups belong to sessions, the daemon's session has no terminal and no foreground group, open files do not cross lines of descent |
| C127 | `packIf`, `unpackIf`, `jpackIf`, `junpackIf`, `allSerializers` | induction over the message with `SameOrImport`; a hybrid library that knows no dtype turns a process without numpy into one of C17/C18 |
| C128 | `unpackT`, `junpackT`, `decodeRuns` | a library that refuses all but the allowed calls reads the same message (C17/C18 on the guarded ends); induction over the message for harmless ones |
| C129 | `unpackQ`, `junpackQ`, `decodeAsk` | a reading that ends without a request agrees with `unpack` (`ReadsAs`); one invariant over the message (`AskInv`) for harmless and for addressed messages |
| C130 | `PObj.ofDict`, `decodeMakes`, `PObj.collected` | options of `ObjectProxy(**dct)` and then `_set_proxy_options` as dict updates over distinct keys (`optionArgs_get`, `setOptions_gives`); messages of `dumps` are `Clean` by induction over the written value |
| C131 | `Sys.runCap` | a balance of requests wanting a reply, running requests, replies under way and replies read, as an invariant of steps and cuts (`sys_step_balance`, `run_balance`); cuts as lost messages (`stepCap_refines`) |
| C132 | `pack`, `encode`, `Srv.respond` with any list of types | the transport induction of C17 with `Selected` in place of `Arrives`; failure by induction over the remaining depth: the proxy made for a tuple holds a tuple again (`pack_tuple_raises`) |
| C133 | `findWin`, `likeMatch`, `killWin` | a pattern `%text%` matches iff the text occurs up to `same` (`likeMatch_any`, `likeMatch_lits`); refutations for all texts |
| C134 | `decodeLoose`, `looseProxyOf` | case analysis of every field; agreement with `proxyOfDict` and `Refs.unwrap` for fields of the usual types (`looseProxyOf_typed`); refutations for all tables |
| C135 | `jpackLim`, `junpackLim` | induction over the depth (`jpack_limits`) and over the tree (`junpack_lim`): with the limit the outcome is the same, or `ValueError` |
| C136 | `FamSt.step` | invariants over histories (`FamSt.Inv`, `Ordered`, `LastFirst`, `Alone`); the steps left (`FamSt.left`) fall with every step a process does by itself; induction over the tree of processes (`Below`) |
| C137, C138 | `SuccSt.step` | invariant `SuccInv`: the table of each server so far is one of C01–C04 (`Reach`); induction over histories; the ids of objects handed out in turn (`given_spec`) |
| C139, C140 | `LogNetSt.step` | each sender and the server are runs of C55, C56 (`NetAt`, projections of an interleaving); what JSON writes JSON reads (`dumps_loads`), so no record stops the server (`sent_good`); what a sender sends is a subsequence of what it was given, whatever happens to it (`SenderAny`); going on: senders, deliveries, server in turn; for every fair infinite history each of the three hops is a counter that only grows and grows with its turn (`ratchet`) |
| C141, C142 | `hop`, `trail` | a plain record arrives as a plain record (`arrives_plain`), so induction over the hops; the places are those of `route`, a walk along the senders that looks at levels only |
| C143 | `LogAll.step` | a history is one of `LogNetSt` and one of `HandlerSt` side by side (`all_run`); C139, C53, C54 carry over; going on: C139_all, then the polling thread (C53_progress); fair histories: the events of each side form a sequence of their own (`grows_seq`), to which C140_fair and C53_fair apply |

## Trusted base

1. Lean's kernel (4.33.0). No `sorry`, no `native_decide`, no `bv_decide`, no axioms of our own,
   no Mathlib module is imported.
2. The axioms `propext`, `Classical.choice`, `Quot.sound`; the list per theorem is at the end.
3. That the model says what the code says. The citations in the comments are meant for checking
   this; nothing else checks it. The seeded edits check only that the theorems depend on the model.
4. Assumptions about libraries and systems, below.

### Assumptions about libraries and systems

- **ZeroMQ**: messages between two sockets stay in order and are not duplicated or changed; any of
  those under way may be lost (`loseUp`, `loseDown`). A ROUTER socket reaches the DEALER socket of the
  given identity, and drops messages for unknown identities and for full
  queues (`Limits`, C131). Reading is fair in no particular way.
- **msgpack, json**: call hooks as documented, refuse what they are documented to refuse. Their bytes
  are modelled (`Formats`): that trees are read back unchanged is proved (C104) for trees within the
  sizes of the formats. What remains assumed is that `repr` of a finite float has the form of a JSON
  number and `float` reads it back (`FmtLib.Laws`). `World.small` keeps the runs of C34-C37, C88, C92 and
  C93 within these sizes: lengths below 2^32, integers of at most 4300 digits in JSON, one NaN.
  The writers themselves do not check the sizes in the model (Python raises ValueError or OverflowError).
- **pickle**: an abstract pair of functions with the law that what was dumped is loaded.
- **numpy**: strided arrays, `tobytes`, `frombuffer`, dtype strings, from the documentation.
- **Python**: dictionaries keep insertion order; `int`, `str.strip`, `str.split`, `re.match` for the patterns
  used, UTF-8 decoding, `strftime`/`strptime` for the formats used, `base64` (with its tolerance for other characters and trailing text), numpy's `reshape` are modelled concretely.
  Reference counting is modelled as: an object nobody refers to may be collected at any moment.
- **Threads**: the operations given as one event are atomic. They were chosen such that each event
  touches shared state once, or under a lock.
- **Operating system**: pipes keep order; exit codes, signals and process tables as documented (posix).
- **Qt**: queued signals are delivered in order in the receiving thread.

### What is not modelled

- Rounding of floating-point numbers (C63 uses rationals, times are integers elsewhere).
- the layout of the widget in `log/logviewer.py`, `qt.py`, the examples, the tests, `processspawner.py` (an alias).
- Daemons on Windows.
- Windows except `netstat` and the quick port check; `conda` beyond the command line.
- Log messages of the RPC layer itself, except that evaluating them may raise (C60).
- Memory exhaustion, KeyboardInterrupt and other asynchronous exceptions, signals, interpreter exit
  except where a property is about it (C53, C62).
- Subclasses of built-in types with overridden methods, metaclasses, `__getattr__` of user classes: user
  code is arbitrary, but values are of the types listed in `Model/Value.lean`.

### Hypotheses

Each property theorem with hypotheses is applied, at the end of its file under "The theorems on these cases" (or in a file
`*Example.lean` beside it), to concrete data that meet them: `example := C12_x … (proof of hypothesis) …`. So no theorem
holds only because its hypotheses contradict each other. For C92 and C117 the hypotheses are shown to hold together, without the application.

### Module by module

| Code | Model | Left out |
|---|---|---|
| server.py 90-125 registry | Registry | |
| server.py `__init__` | Server (state), Address | socket options, choice of the port by the system |
| server.py `get_proxy`, `unwrap_proxy`, `_get_object_id` | Refs, Unwrap | weak references are not used by the code |
| server.py `_read_one`, `_process_one`, `process_action`, `_send_*` | Server | log calls; the action `import` uses an abstract module table |
| server.py `run_forever`, `run_lazy`, `close` | Server, Threads | `_atexit` |
| client.py registry, `get_client`, `forget_client`, `__init__` | Registry | zmq options |
| client.py `check_address` | Address | TCP itself |
| client.py `send`, `process_msg`, `_server_disconnected`, `close_server`, convenience methods | Client | |
| client.py `process_until_future`, `_read_and_process_one`, `Future` | Wait, Client, Threads | |
| client.py `ensure_connection`, `__init__` | Connect, Registry | a local server that cannot be started |
| client.py `measure_clock_diff` | Clock | rounding |
| proxy.py | Proxy, Lifetime, Protocol | caches |
| serializer.py | Value, Text, NdArray, Serializer, Formats | bytes of pickles; extension types of msgpack |
| timer.py | Timer | |
| log/handler.py | LogHandler | colour codes (only which levels are known) |
| log/remote.py | LogRemote | |
| log/__init__.py, log/stdio.py, excepthooks of log/handler.py | Stdio, Logging | |
| process.py, bootstrap.py | Process | `shell=True`, Windows; argparse is that of Python 3.11 (checked against it with 6000 random command lines), without the text it prints and the exit status |
| shmem.py | Shmem | object dtypes |
| util.py | Util, Address | |
| qt_poll_thread.py, qt_util.py | Qt | |
| qt_server.py | QtServer, Threads | the 0.1 s wait of `_final_close` |
| process.py, util.py (pids) | Kill | Windows |
| log/logviewer.py | LogViewer | layout and style of the widget |
| server.py (`close`, `_atexit`) | CloseCall | |
| client.py `RemoteCallException.__str__`, server.py `_send_error` | Client (`remoteText`), Heap (`transcript`) | |
| client.py line 547 (printing of messages) | Printing | values of the reader's own process in a message |
| server.py `start_timer`, a timer with a proxy as callback | ServerTimer | the thread's client is connected before the first call |
| the grammars of JSON and msgpack (not code of the package; RFC 8259, the msgpack specification) | Spec/JsonText, Spec/MsgpackBytes | floats are parameters; no extension types |
| process.py lines 180-188, 206 (`shell`) | Shell | only texts without special characters of the shell (others are outside the model); the first word is a program |
| proxy.py:98-124, 149-153; server.py:127-134 | Model/ProxyClient.lean | proxies are numbers with an address; threads switch between `get_client` and the assignment, and between the assignment and the return |
| serializer.py:70-81, 239-253, 283-290 (attributes of a serializer) | `Model/SerState.lean` | user code inside a call is any sequence of further calls of the same object; servers stand for their addresses |
| bootstrap.py:32-46; process.py:189-217 (daemons) | `Model/Daemon.lean` | posix only; process numbers are not used again; no subreapers, stopped processes or files sent through sockets |
| serializer.py:10-20, 39-46, 102-172, 235-262, 293-325; server.py:151-155, 278-282; client.py:163-166 (missing packages) | `Model/Optional.lean` | ModuleNotFoundError is ImportError; Qt types are not modelled; without numpy a pickle is read as with numpy unless its value holds numpy objects |
| serializer.py:156-195, 246-259, 288-291, 311-323 (calls that run what arrived) | `Model/Exec.lean` | only exact str and bytes objects reach `exec` and `pickle.loads`; what these calls then do is not modelled |
| serializer.py:156-195, 246-259, 288-291 with proxy.py (uses of a proxy while a message is read) | `Model/Asks.lean` | the reading stops at the first request: what the other process answers is not modelled; numpy given a proxy as a number's value is not modelled |
| serializer.py:187-192 with proxy.py:61-127, 258-269 (options in the dict of a proxy) | `Model/ReceivedOptions.lean` | only the first five fields and the options are looked at; when the proxy is collected is not modelled, only what is sent then |
| server.py 137, 343, 409 | `Model/Limits.lean` | the queues on both sides and the network are one queue of length `cap` per client; requests are delayed by full queues but not lost |
| util.py 41-78 on Windows and elsewhere | `Model/FindWin.lean` | WMI is a table of processes and a reading of the query (quotes, `%`, `_`, `[...]`), in which how characters compare is left open; queries that are not one condition are outside the model |
| serializer.py:185-194, server.py:216-228, proxy.py:83-137 with fields of any type | `Model/LooseProxy.lean` | only the dict of the proxy itself; the reading stops at a request to the server itself; an address that is neither text nor bytes equals no address |
| serializer.py 283-291 with a limit on digits | `Model/JsonDigits.lean` | the limit is a number of digits; the other modules have none |
| process.py 238-241, 266-331 and bootstrap.py 117-125 for many processes | `Model/Family.lean` | atexit of Python: the registered calls run last first, exceptions are printed; starting a process is one step; close requests are not lost; other atexit calls (of servers, log senders, log handlers, shared memory) are in `CloseCall`, `LogRemote`, `LogHandler`, `Shmem` |
| server.py 136-228, 364-411 and client.py 69-89, 283-285, 575-601 for servers that follow one another at one address | `Model/Succession.lean` | of requests only what they do with the table; zmq connects again by itself and keeps what was sent in between; a new client can be made only while a server listens |
| log/remote.py 139-203 in every process and 237-266 in one | `Model/LogNet.lean` | all senders are connected to the one server and undisturbed; ZeroMQ loses nothing and keeps the order of each sender; all processes write JSON the same way |
| log/remote.py 15, 76-114, 172-183, 258-265 in one process after the other | `Model/LogHops.lean` | senders and servers are alive and connected; no logger is disabled, filters or keeps records from its parents |
| log/remote.py:160-266 with log/handler.py:73-124 (from logging to the stream) | `Model/LogAll.lean` | loggers that filter or do not hand up; what a record without `created` or `thread` gets |

## Where the code and the expectations disagree

Each item is proved as a theorem or example unless marked (read), which means found by reading only.

Server
- A deleted proxy goes on working while other references to the same object exist (C06).
- Some malformed messages end the server loop: the exact set is given (C10). An undecodable `close` request
  closes the socket without unregistering (C70).
- `return_type='auto'` with a class that cannot be serialized sends a proxy, no error (C13).
- `import` with names to import from the module fails with AttributeError for ordinary modules, since it calls
  `mod.__getattr__` (C71_import_from).
- A dtype text that starts with `[` is executed, and pickles are loaded: a peer can run any code (read; outside C98).
- The unit of a numpy timedelta is lost, and a long double is rounded to a float (C17_inexact_numbers, C98_number).
- Closing stops with KeyError at the first client whose last message named an unknown serializer; the clients after
  it are not told (C15_unsupported).
- With msgpack an exception whose traceback has lone surrogates ends the server instead of being answered (C10_surrogates).
- `close()` of a server that never ran raises; `unwrap_proxy` builds its error from `proxy.obj_id`, which is a remote
  attribute; `PickleSerializer` is text inside a docstring (read).

Client
- `call_obj` with its own defaults (`kwargs=None`) always fails remotely with TypeError (C71_call_default_kwargs).
- The request is sent before the mode `sync` is checked (C31); `Future.done()` never reads (C32).
- A malformed reply takes a future out of the table and leaves it pending for ever (C29 example).
- A close request with `return_type='proxy'`, with a dropped future, or with `sync='off'`: the closing client
  never learns that the server has gone (C36, C37).
- A server whose answers take more than 0.1 s is never connected, though the timeout is 1 s (C86). A client that
  cannot be made leaves its local server registered (C87).
- `Future.exception()` is inherited and blocks for ever on a pending future, as nobody else reads (read).
- `poller.poll(itimeout)` gets seconds where milliseconds are meant, so the loop spins (read; harmless for C33).

Registries, names, addresses
- Two threads registering the same server at once both succeed (C38_fails_race); registering again after the end
  silently does nothing (C38_fails_again).
- Closing a client from another thread or twice removes another client from the cache (C39, C40).
- Dots and colons in names make client names collide (C41). An address with a trailing newline is accepted (C42),
  as are digits of other scripts; a port above 65535 raises OverflowError (C42_port).

Proxies
- Names the proxy class has itself are resolved locally (C43). `p.x == p.y` is True locally though the hashes
  differ (C44). A keyword named `self` is a TypeError (C45, C46). `__rxor__` forwards to `__ror__` (C47).
- Derived and copied proxies inherit `auto_delete` and release the reference of their parent (C48).
- A loop over a proxy never ends normally: the remote IndexError arrives as RemoteCallException. For the same reason
  `x in p` is never False (C89).
- `bool(p)` asks `__len__`; `__bool__` of the object is ignored, and an object without length raises (C90).
- NotImplemented comes back as a proxy, so reflected methods are never tried, and in-place operators do not fall
  back to binary ones (C91).

Timers
- A limit of zero or less allows one call (C50). The callback may begin later than its turn, so two begins can
  be closer than the interval (C51). `start()` while the thread ends is lost, after its end RuntimeError, and
  racing with the running thread it can kill it (C72).

Logging
- Records held by the polling thread at exit are lost, and records of unknown levels with colours (C53).
  A flush by another thread while polling breaks the order (C54). The host in headers is always the local one,
  since the attribute is called `host_name` on one side and `hostname` on the other (C73).
- A record that JSON or `%` cannot format kills the forwarding thread; closing drops what is queued; the handler
  is attached before its queue exists, so records logged meanwhile raise AttributeError where they are logged
  (C74_fails_early). A malformed message kills the log server's thread (read).
- The last character of an unterminated last line is dropped, invalid UTF-8 ends the forwarding (C57).
- `wait()` competes with the forwarding thread for the output of the child (C78).
- `set_logger_address` with the address of the own log server loops records for ever (read). `basic_config` called
  twice raises after adding a second handler (C96 example).
- A thread that reuses the ident of an ended one has its name (C94). With a root level above WARNING unhandled
  exceptions are seen nowhere, not even on stderr (C95).
- The logger for the output of a child is named after `id(proc)`. If the id is used again (possible after a failed
  start), lines go to the earlier log server too, or only there (C97).

Processes
- The log level is lost without a log address, a str log address (the documented type) is refused, negative
  levels end the child, flags given as 0 or 1 are ignored (C58).
- An error while the server starts in the child is not reported: formatting its log message raises KeyError, so
  the parent waits for its timeout (C60). The child stays (inverted condition before `kill`) (C77).
- `wait` raises TimeoutError although the child has exited if a grandchild holds the pipe (C67).

Others
- Shared arrays without dimensions or elements fail, offsets are lost (C61); every block is unlinked, requested or
  not (C62). `find_procs` fails for parts of the header, `kill_procs` ignores its argument (C64). The cleaner
  reports zombies and ignores processes of other users; it accepts the pids 0, False and -1, for which it kills its own group (itself included) or every process, and one int that is no pid stops the cleaning with OverflowError (C80). `netstat` never lists anything on Linux (C81).
- A malformed message ends the Qt relay (C65); `stop()` never ends it (C82). After a failed `import_qt` a later
  call returns a namespace without modules, and a binding imported meanwhile is not noticed (C66).
- A closed Qt server still executes the requests that reach the Qt thread (C83).
- `DaemonProcess.kill` kills whatever has the pid of the daemon now; `ProcessCleaner` signals pids of children that have ended and been waited for;
  `ChildProcess.kill` can do so only if another thread polls between check and signal (C100).
- Process names beginning with a dash are taken for options; mostly the child ends (C58_fails_dash). If the name can be read as an option, also abbreviated (`--q`, `--verb`), the child starts without a name but with that option (C58_fails_option). Names that look like negative numbers or contain a blank arrive.
- With `conda_env` or `shell=True` the process known to the parent is the wrapper: `kill` kills `conda` or the shell, not the server (read).
- `_copy` of a proxy derived by attribute access calls `copy()` of the remote object and sets an attribute there (`self._parent_proxy.copy()` and the assignment go through
  `__getattr__` and `__setattr__`). A `Timer` with a callback such as `proxy.method` usually dies of this before its first call (C101). Pickled proxies lose their options.
- Requests running when a server is closed are never answered: replying raises ZMQError, and if the outermost one wanted a reply `run_forever` ends by this exception (C105).
- After `close()` of a client (which promises to leave the server running), its `disconnected()` is True and `close_server()` returns True without sending anything (C106).
- `RPCServer.close()` (documented thread-safe) raises ConnectionRefusedError in a thread without a client once the server has closed, and TimeoutError if the server does not answer within a second; `_atexit` calls it without a guard (C107).
- `QtLogHandler` replaces `handle`, so filters added to it are ignored (C108). A LogViewer never removes its handler.
- `process_msg` prints every message (`"    => %s" % msg`, client.py:547) even if nothing is logged. With `safe_print` off in `default_proxy_options` this asks the server for the `__repr__` of every received proxy, and if that raises, the result just received is lost: the call raises the exception of `__repr__` and its future stays pending (C111).
- `start_process(shell=True)` joins its command with blanks and without quoting: a name with a blank ends the child with an error of its command line (and the parent waits ten seconds for a TimeoutError), an empty name is lost; `shell=1` starts the program without any arguments (C114).
- A reply that cannot be decoded raises in whichever call reads it, often `result()` of another request, and the request it answers is never told; a reply without its fields also takes the future out of the table, so not even the disconnect message ends it (C115).
- A proxy keeps the first client it got. Used in a second thread it uses the first thread's socket (zmq sockets are not safe for this); after that client is closed the proxy is dead although `get_client` would make a new client (C116). Two threads that use a proxy for the first time at once can both end with the client of either.
- `_get_value()` promises an exception for objects that are not serializable; objects of classes outside the types to serialize give another proxy instead (C117). Its branch for proxies of the local server is dead code, because `get_client` never returns None, whatever its documentation says.
- A reply (or request) that cannot be serialized leaves in the server's table the references `encode` made for the objects that came before the failure. The client is told the error only, so nobody can ever delete these references and the objects stay alive as long as the server (C121).
- bootstrap.py: `--loglevel` without a value is accepted and ends the child with AttributeError; any text after `--qt` switches Qt on (`--qt=no` too), while a text after `--daemon` does not make a daemon (C122).
- serializer.py: the arguments of `dumps`/`loads` live in attributes of the serializer object. A server closed while it serializes a reply encodes the rest of this reply with the default types and without a server (C125).
- Documentation: README and the docstrings of proxy.py mention `request.hasResult()` and `proc._import(...)`; neither exists (not a property here).
- serializer.py:167-174: whoever can reach the socket can run any code in the process: `pickle.loads` and `exec` get what arrives, before the request is looked at. Even a plain dict with the key `___type_name___` sent by an unmodified client does it (C128).
- serializer.py:163-191: a proxy in a message where a plain field is expected (type name, dtype, tuple data, attributes, shape, address) makes `loads` send a request to the address named in the message and wait for the answer, before the request is looked at. Even a plain dict `{'___type_name___': proxy}` sent by an unmodified client does it (C129).
- serializer.py:188, proxy.py:83-90: entries of a proxy's dict in a message that are not fields become options of the proxy object. A message with `auto_delete: True` makes its reader send a delete request when the proxy is collected, even if it names an object of the reader itself and is unwrapped; one with `safe_print: False` makes the debug print of a client (client.py:547) send a request. Servers give no options of their own, so nothing prevails over the message there (C130).
- server.py:137, 343: the ROUTER socket keeps the default limit of its queues and is not told to report what it cannot send. A client that makes many asynchronous requests before it reads has replies dropped silently: their futures stay pending forever though the server carried the requests out (C131).
- serializer.py:96-124, proxy.py:121-137, server.py:325-343: with `serialize_types` that lack `tuple`, such as `(np.ndarray,)`, the proxy made in place of a tuple contains an empty tuple, which is replaced by a proxy, and so on until msgpack's nesting limit. So nothing can be sent by proxy, arrays cannot be sent even if listed (their shape is a tuple), and because errors are reported as a tuple, a server with such a list ends at the first request that fails (C132). Each attempt also leaves hundreds of references in the server's table.
- util.py:59, 69: on Windows the search text is put unescaped into a `like` pattern, so `_`, `%` and `[` are wildcards, and case is ignored. With the default prefix `''`, `kill_procs` kills every process of the machine that has a readable command line, itself included (C133).
- server.py:223-224: the message of the KeyError reads `proxy.obj_id`, which is no field of the proxy but an attribute of the remote object. With `defer_getattr` or `safe_print` other than True in the message, the server sends a request to itself while it reads the request. Ids are not checked for their type: `True` names object 1 (C134).
- serializer.py:286, 291: integers of more than 4300 digits are refused by the JSON serializer (Python 3.11 and later), although JSON has them (C135).
- process.py:278, 309-317: a process ended by a signal (`kill()` of a child among them) runs no atexit calls, so the processes it started go on for ever (C136).
- server.py:173-181, 216-221: object ids and reference ids of every server begin with 0. After a server ended and another listens at its address, proxies of the first reach objects of the second (the one with the same place in the order of handing out), and deleting them releases these objects (C137).
- client.py:283-285: `send` does not read messages, so a request sent after a server closed, before the message about it was read, goes to the next server at the address, though its future then fails with RuntimeError (C137).
- client.py:69-89, 581: a client that was told that its server closed stays the client of the thread for this address: a new server there cannot be used before `client.close()` is called (C138).
- log/remote.py:178-182: `_handle` overwrites host, process and thread of records that came from another process: after the second log server a record is labelled with the process in between, and its thread id is looked up among the threads of that process (C141).
- log/remote.py:104-114, 265: records the log server of a process reads go to the root logger and so to the sender of the same process. A sender connected to the log server of its own process (`set_logger_address(get_logger_address())` after `start_log_server()`), or two processes that log to each other, forward every record for ever (C142).

## Axioms of each theorem in the manifest

- no axioms (9): C101_pickled, C103_defaults, C11_names, C45_nothing, Ex.C45_fails, C60_reported_partial, C67_exited,
  Ex.C72_fails_again, C87_fails.
- `propext` (58): C101_fails_pickled, C102_safe, C102_fails, C108_delivered, C108_fails, C109_text, C11_no_mask,
  C111_where, C111_only, C111_in_order, C115_exclusive, Ex.C116_fails_thread, Ex.C116_fails_race,
  Ex.C116_fails_closed, Ex.C116_fails_broken, C126_tty, C127_default_types, C20_json_key_names, C32_done_never_reads,
  Ex.C38_fails_race, Ex.C38_fails_again, C41_unique_partial, C42_refused, Ex.C43_fails, C43_names, C43_flag,
  C43_undefer, C44_partial, C44_equal, C44_empty, Ex.C46_fails, Ex.C47_fails, Ex.C51_fails, C55_level, C55_effective,
  C55_level_other, C58_fails_negative, C61_fails_empty, C61_fails_offset, C65_fails, C65_fails_dead, C66_imported,
  C66_fails, C66_fails_incomplete, C66_order_imported, C67_running, C71_message_fields, C71_message_refused,
  Ex.C72_fails, Ex.C72_fails_race, C73_colors, C76_once, C82_fails_sent, C83_no_app, C87_registry_partial, C94_host,
  C95_again, C96_raises.
- `propext`, `Quot.sound` (127): C06_negation, C100_child_partial, C100_kills, C100_ended, C100_daemon_partial,
  C100_fails_daemon, C100_fails_race, C100_fails_cleaner, C101_timer, C104_dumps_writable, C107_client, C112_short,
  C113_code, C113_kept, C116_made, C116_partial, C116_keeps, C118_local_client, C118_same_client, C12_numpy_float,
  C125_negation, C126_ordinary, C126_ordinary_key, C126_leader, C127_sent, C127_server_all, C132_refused, C132_native,
  C132_json_errors, C133_find_partial, C133_found_partial, C133_fails_case, C133_fails_underscore, C133_fails_kill,
  C133_fails_ignored, C133_kill_partial, C133_pattern, C135_fails, C136_fails, C136_fails_hang, C137_exact, C137_told,
  C137_fails, C137_fails_closed, C137_fails_delete, C138_partial, C138_renewed, C138_crash, C138_fails,
  C15_unsupported, C15_unregistered, C18_bad_key, C20_json_other_keys, C21_owner_resolves, C25_base64_roundtrip,
  C25_base64_injective, C25_followed, C30_unserializable, C31_invalid_sync_is_sent, C32_done_iff, C38_one_per_thread,
  C38_get_server, C38_get_server_answers, C38_second_partial, C38_bound, C38_unregister, C39_same_client_partial,
  C39_new_client_partial, C39_returned_partial, C39_failed, Ex.C39_fails, C40_close_partial, C40_others, Ex.C40_fails,
  Ex.C40_fails_twice, C41_same_server_partial, C47_operators, C48_parent, Ex.C48_fails, C48_sent, C49_bounded,
  C49_replies, C49_needs_reentrant, C49_needs_own_futures, C51_turn_then_call, C52_stop, C52_no_turn, C58_level,
  C60_fails_timeout, C61_restored_any, C61_fails_scalar, C62_partial, C62_all, C62_fails, C62_fails_restored,
  C65_results, C65_requests, C65_all, C66_first, C66_same, C66_refuses, C66_order, C67_sound, C67_exits_partial,
  C67_late, C67_ends, C67_bound, C67_fails, C72_dead, C77_fails, C77_fails_kill, C77_partial, C79_status, C79_timeout,
  C79_received, C80_block, C80_fails_zombie, C80_fails_group, C80_fails_all, C80_fails_overflow, C82_fails,
  C96_displays, C96_propagate, C97_fails_twice, C97_fails_lost, C97_fails_level, C99_returns.
- `propext`, `Classical.choice`, `Quot.sound` (496): C01_resolvable_iff_outstanding, C01_unresolvable_keyError,
  C01_held_iff_outstanding, C02_ref_ids_distinct, C03_object_id_iff_same_object, C04_no_stale_aliasing,
  C04_stale_proxy_fails, C05_delete_succeeds_iff, C05_rejected_delete_changes_nothing, C05_delete_keeps_others,
  C06_deleted_unusable_partial, C07_one_reply_each, C07_nothing_unsolicited, C08_innermost_first, C09_keeps_serving,
  C10_negation, C10_fatal_messages_partial, C10_serializers, C10_surrogates, C101_plain_partial, C101_result,
  C101_fails, C101_fails_undeferred, C101_fails_value, C102_distinct, C102_asks_partial, C103_received, C103_derived,
  C104_read_back, C104_number_text, C104_fits, C104_transport, C104_injective, C104_incomplete, C104_ascii,
  C105_abandoned, C105_partial, Ex.C105_fails, C106_truthful, C106_answer, C106_disconnected_partial,
  C106_close_server_partial, Ex.C106_fails, C106_stays, C107_returns_partial, C107_message, C107_again, C107_fails,
  C108_seen_partial, C108_order, C109_transcript, C11_error_reported, C11_unreadable_reported, C11_result_reported,
  C11_call_outcome, C110_one_at_a_time, C110_timer, C110_limit, C110_start, C110_refused, Ex.C110_async,
  C111_silent_partial, C111_asks, C111_lost, Ex.C111_fails, C112_json, C112_msgpack, C112_unique, C112_writes,
  C112_refused_json, C112_refused_msgpack, C112_deep, C114_direct, C114_same_partial, C114_child_partial,
  C114_fails_name, C114_fails_empty, C114_fails_truthy, C114_script, C115_exact, C115_undecodable, C115_fails_lost,
  C115_fails_waits, C115_fails_other, C115_fails_other_wrong, C117_resolved, C117_value_partial, C117_fails,
  C119_serving, C119_connected, C119_answered, C119_bounded, C119_rest, C12_result_by_proxy, C12_result_by_value,
  C12_types, C120_relayed, C120_exact, C120_home, C120_proxy, C120_shared, C121_handed_out_partial,
  C121_given_back_partial, C121_kept_after_failure, C121_negation, C121_handed_out_json_partial,
  C121_kept_after_failure_json, C122_parsed, C122_accepted, C122_same, C122_refused, C122_setup, C122_texts,
  C123_mixed, C123_route, C123_tuple, C124_real_time, C124_not_before, C125_own_arguments, C125_client,
  C125_server_partial, C126_session, C126_signals, C126_no_zombie, C126_stdio, C126_files, C126_setsid, C126_starts,
  C127_with_numpy, C127_never_another, C127_numpy_refused, C127_free_arrives, C127_free_arrives_json,
  C127_json_float64, C127_sent_arrives, C127_server, C127_client, C128_faithful, C128_negation, C128_negation_json,
  C128_negation_exec, C128_refused, C128_served_text, C128_written_partial, C128_written_json_partial,
  C128_json_no_exec, C128_harmless_partial, C128_harmless_json_partial, C129_faithful, C129_negation,
  C129_negation_json, C129_written_partial, C129_written_json_partial, C129_harmless_partial, C129_addressed_partial,
  C13_negation, C13_value_unserializable_partial, C130_options, C130_negation, C130_negation_delete,
  C130_negation_print, C130_given_partial, C130_written_partial, C130_written_json_partial, C131_only_loses,
  C131_enough_partial, C131_at_most, C131_fails, C132_selected_partial, C132_by_proxy_partial, C132_no_tuple,
  C132_no_request, C132_server_ends, C132_server_ends_by_result, C132_fails, C132_json_selected_partial,
  C132_json_by_proxy, C133_platform, C134_agrees, C134_reaches, C134_fails, C134_unknown, C134_fails_asks,
  C134_relayed, C135_written_partial, C135_only, C135_read, C135_transport_partial, C135_fails_between, C136_asked,
  C136_partial, C136_ends, C136_order, C136_last_first, C136_daemon, C137_partial, C138_stranger, C139_merged,
  C139_passed, C139_all, C14_last_published, C14_unknown_name, C14_known_name, C140_others, C140_fair, C140_hop,
  C141_partial, C141_labels, C141_fails, C142_exact, C142_partial, C142_fails, C142_self, C143_once, C143_passed,
  C143_all, C143_order, C143_label, C143_fair, C15_notifies, C15_closer_reply, C16_nothing_more, C16_unregistered,
  C17_msgpack_transport, C17_msgpack_exact, C17_inexact_numbers, C18_json_transport, C18_json_exact,
  C18_inexact_numbers, C19_msgpack_reserved_key, C19_json_reserved_key, C20_msgpack_other_keys, C21_there_and_back,
  C21_attribute_chain, C22_datetime_roundtrip, C22_date_roundtrip, C22_timezone_lost, C22_short_year_refused,
  C22_year_text, C22_date_text, C22_datetime_text, C22_date_message, C22_datetime_message, C23_msgpack_array,
  C23_json_array, C24_msgpack_refused, C24_json_refused, C25_base64_text, C25_read, C25_one_meaning, C25_noise,
  C26_ids_increase, log_transmits, C27_own_reply_only, C27_others_unchanged, C27_reply_sets, C28_outcome_fixed,
  C29_disconnect_ends_futures, C29_later_sends_fail, C30_no_trace, C31_invalid_sync_raises_partial,
  C32_reading_sees_reply_partial, C33_not_early, C33_done_returns, C33_returns_at_once, C33_reply_in_time,
  C33_gives_up, C33_nothing_comes, C34_result, C34_options, C34_never_twice, C35_in_order, C35_no_gaps,
  C36_no_pending_partial, C36_answers_partial, Ex.C36_fails, C37_learns_partial, Ex.C37_fails, C38_one_thread_partial,
  C40_closed, C40_closed_disconnected, C40_closed_reads, C41_default_partial, Ex.C41_fails, C41_default_name,
  C42_checked_partial, C42_unchecked_partial, C42_port, Ex.C42_fails, C43_no_request_partial, C43_resolves_partial,
  C43_unresolved_partial, C43_undeferred, Ex.C44_fails, C45_all_or_nothing_partial, C45_known, C46_call_partial,
  C46_invokes_partial, C47_forwards_partial, C48_kept_partial, C48_released, C49, C49_no_deadlock, C49_finishes,
  C50_at_most, C50_at_most_one, C50_exactly, C50_can_finish, C50_no_limit, C50_fair, C51_turns_partial,
  C51_calls_partial, C53_conserved, C53_at_most_once, C53_written, C53_flush, C53_final_partial, C53_progress,
  Ex.C53_fails, Ex.C53_fails_level, C53_fair, C54_order, C54_stable, C54_stream, Ex.C54_late, Ex.C54_flush_breaks,
  C55_filter, C55_order, C55_fixed, C55_all, C55_stop, C55_current, C56_order, C56_stop, C56_all, C56_constructed,
  C56_closed, C56_always, C57_lines, C57_all, C57_fails_last, C57_fails_decode, C58_child_partial, C58_fails_level,
  C58_fails_str, C58_fails_str_error, C58_fails_flags, C58_types, C58_fails_dash, C58_level_bool, C58_fails_option,
  C58_address, C59_capture, C59_refused, C59_accepted, C60_fails, boot_no_error, C61_copy_partial, C61_zeros_partial,
  C61_restored, C61_shared_partial, C63_bound, C63_exact, C63_tight, C64_find_partial, C64_kill_partial,
  C64_fails_header, C64_fails_empty, C64_fails, C64_fails_kill, C64_fails_default, C64_int, C64_undecodable, C66_good,
  C66_history, C68_json_key_collisions, C69_object_ids_never_reused, C69_one_id_per_object, C70_negation,
  C70_only_close_closes_partial, C71_call, C71_call_ends, C71_call_nothing, C71_call_default_kwargs, C71_get_obj,
  C71_get_obj_foreign, C71_set_item, C71_delete, C71_ping, C71_unknown, C71_import, C71_import_from,
  C71_import_no_text, C71_no_options, C71_missing_option, C71_call_odd, C72_started_partial, C72_no_crash_partial,
  C73_header, C73_names_partial, C73_fails, C73_thread_label, C74_dead, C74_fails, C74_fails_early, Ex.C74_exception,
  Ex.C74_arguments, Ex.C74_close, Ex.C74_early, C74_fails_reconnect, C74_refused, C74_closing, C75_record,
  C75_delivered, C75_args, C76_address, C78_fails, C78_partial, C79_child, C80_partial, C80_fails_foreign,
  C81_windows_partial, C81_windows_line, C81_check, C81_fails, C81_fails_udp, C81_skip, C81_words, C81_words_linux,
  C83_fails, C83_fails_quit, C83_left_partial, C83_quits_partial, C83_leaves, C83_only_closed, C84_one_reply,
  C84_sent, C84_accepted, C85_answered, C85_not_early, C85_nested, C86_fast_partial, C86_fails, C87_success,
  C87_registered, C88_call, C88_returns, C89_items_partial, C89_fails, C89_never_ends, C89_contains, C89_stops,
  C90_len_partial, C90_fails, C90_long, C90_bad_length, C90_integers, C91_binary_partial, C91_inplace_partial,
  C91_fails, C91_fails_inplace, C92_publish, C92_lookup, C92_transfer, C92_delete, C92_import, C92_ping,
  C93_read_back, C94_exact, C94_thread_partial, C94_default, C94_fails, C94_asked, C95_logged, C95_text, C96_level,
  C96_observed, C97_sent_partial, C97_local_partial, C98_first, C98_array, C98_dates, C98_number, C98_exceptions,
  C98_json_first, C98_log, C98_log_args, C98_proxy_extra, C98_json_array, C98_tuple, C98_array_data, C98_log_array,
  C98_proxy_key, C98_proxy_least, C99_started, C99_failed.
