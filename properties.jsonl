{"id": "C01", "title": "An object stays resolvable exactly while a proxy to it is outstanding", "statement": "After any history of RPCServer.get_proxy calls (successful or rejected) and delete requests, a proxy with object id k resolves on its server to object o if and only if at least one proxy with that object id was handed out for o and has not been deleted yet. So the object is never released early and never kept after the last delete.", "quantifier": "every finite history of get_proxy / delete operations, every object, every address reuse the Python allocator may perform once an object is no longer held", "why_tests_cant": "leaks and premature releases depend on the interleaving of an unbounded number of hand-outs and deletes, and on id() reuse that a test cannot force", "anchors": ["teleprox/server.py:RPCServer.get_proxy", "teleprox/server.py:RPCServer._get_object_id", "teleprox/server.py:RPCServer.unwrap_proxy", "teleprox/server.py:RPCServer.process_action (delete)"]}
{"id": "C02", "title": "Reference ids are never repeated", "statement": "Every proxy a server hands out carries a reference id different from the reference id of every proxy handed out before, whatever was deleted or rejected in between.", "quantifier": "every finite history of get_proxy / delete operations", "why_tests_cant": "a repeat could appear only after an arbitrarily long history", "anchors": ["teleprox/server.py:RPCServer.get_proxy"]}
{"id": "C03", "title": "Object ids identify live objects", "statement": "At any time, two outstanding proxies of one server carry the same object id if and only if they were handed out for the same object.", "quantifier": "every history of get_proxy / delete operations and every pair of outstanding proxies", "why_tests_cant": "needs all pairs over all histories, including address reuse", "anchors": ["teleprox/server.py:RPCServer._get_object_id", "teleprox/server.py:RPCServer.get_proxy"]}
{"id": "C04", "title": "A stale proxy never reaches a different object", "statement": "If two proxies handed out at any two times carry the same object id then they were handed out for the same object, even if the first object has since been released and Python has reused its id(). A proxy whose object was released can therefore only fail, never act on another object.", "quantifier": "every history, every pair of hand-outs at any two moments, every reuse of id() values", "why_tests_cant": "id() reuse is allocator dependent and cannot be provoked for every history by a test", "anchors": ["teleprox/server.py:RPCServer._get_object_id", "teleprox/server.py:RPCServer.get_proxy", "teleprox/server.py:RPCServer.process_action (delete)"]}
{"id": "C05", "title": "A rejected delete changes nothing", "statement": "A delete request for a reference that is not outstanding (never issued, already deleted, or with mismatched object id) raises KeyError and leaves every other proxy working exactly as before; a delete of an outstanding reference succeeds.", "quantifier": "every history and every (object id, reference id) pair", "why_tests_cant": "requires all reachable reference tables", "anchors": ["teleprox/server.py:RPCServer.process_action (delete)"]}
{"id": "C06", "title": "A deleted proxy cannot be used any more (documented)", "statement": "RPCClient.delete documents that after a proxy is deleted it cannot be used to access the object even if the server still holds the object for other proxies.", "quantifier": "every history and every deleted proxy", "why_tests_cant": "universal over histories; the counterexample needs a second outstanding proxy", "anchors": ["teleprox/client.py:RPCClient.delete", "teleprox/server.py:RPCServer.unwrap_proxy"]}
{"id": "C07", "title": "Exactly one reply per request", "statement": "For every request with a non-negative request id that a server has finished handling, the server has sent exactly one reply carrying that request id, to the caller that sent it; it never sends a reply to a request sent with sync=off, and never an unsolicited one.", "quantifier": "every sequence of requests from any set of clients, every nesting of reentrant requests, every outcome of the invoked code", "why_tests_cant": "requires all interleavings and nestings of reentrant calls", "anchors": ["teleprox/server.py:RPCServer._process_one", "teleprox/server.py:RPCServer._send_result", "teleprox/server.py:RPCServer._send_error"]}
{"id": "C08", "title": "Reentrant requests are answered innermost first", "statement": "If a server receives a request while it is still executing an earlier call (because that call is waiting on another server), the later request is finished and answered before the earlier one.", "quantifier": "every nesting of reentrant requests", "why_tests_cant": "unbounded nesting depth", "anchors": ["teleprox/server.py:RPCServer._process_one", "teleprox/client.py:RPCClient.process_until_future"]}
{"id": "C09", "title": "No client request stops the server", "statement": "Whatever a request asks for (unknown action, missing or ill-typed options, undecodable payload, a call that raises any exception including SystemExit, a result that cannot be serialized), a server keeps serving afterwards unless the request is close, provided the message names a supported serializer and the caller identity is valid UTF-8.", "quantifier": "every request message, every server state, every outcome of the invoked code", "why_tests_cant": "universal over messages and exceptions", "anchors": ["teleprox/server.py:RPCServer._process_one", "teleprox/server.py:RPCServer.process_action"]}
{"id": "C10", "title": "No message at all can stop the server", "statement": "A server keeps serving after receiving any message, including one naming an unsupported serializer.", "quantifier": "every message", "why_tests_cant": "universal over messages; the unmodified code violates it for unsupported serializers", "anchors": ["teleprox/server.py:RPCServer._process_one", "teleprox/server.py:RPCServer._send_result"]}
{"id": "C11", "title": "Remote exceptions reach the caller with their type", "statement": "If the requested action raises an exception of class E on the server, the requester gets RemoteCallException whose type_str is the name of E (for both serializers); if it returns normally and the result is serializable the requester gets the result and no exception.", "quantifier": "every exception, every result value, both serializers", "why_tests_cant": "universal over values and exception classes", "anchors": ["teleprox/server.py:RPCServer._process_one", "teleprox/server.py:RPCServer._send_error", "teleprox/client.py:RPCClient.process_msg", "teleprox/client.py:RemoteCallException"]}
{"id": "C12", "title": "Return type selects value or proxy", "statement": "With return_type auto a result is sent by value if its type is among the serialize types and as a proxy to the very result object otherwise; with return_type proxy it is always sent as a proxy to the result object.", "quantifier": "every result object, every serialize_types setting, every server state", "why_tests_cant": "universal over results and configurations", "anchors": ["teleprox/server.py:RPCServer._process_one", "teleprox/server.py:RPCServer.auto_proxy", "teleprox/server.py:RPCServer.get_proxy"]}
{"id": "C13", "title": "return_type value raises for unserializable objects (documented)", "statement": "ObjectProxy._get_value documents that if the object is not serializable an exception is raised.", "quantifier": "every unserializable object", "why_tests_cant": "universal over objects; the unmodified code returns a proxy instead", "anchors": ["teleprox/proxy.py:ObjectProxy._get_value", "teleprox/server.py:RPCServer._process_one", "teleprox/serializer.py:Serializer.encode"]}
{"id": "C14", "title": "Published names behave like one shared dictionary", "statement": "client[name] (from any client) returns the object most recently published under that name by server[name]=obj or client[name]=obj, and raises a remote KeyError if nothing was published under it; no other request changes the names.", "quantifier": "every history of requests from any number of clients", "why_tests_cant": "unbounded histories", "anchors": ["teleprox/server.py:RPCServer.__getitem__", "teleprox/server.py:RPCServer.__setitem__", "teleprox/server.py:RPCServer.process_action", "teleprox/client.py:RPCClient.__getitem__", "teleprox/client.py:RPCClient.__setitem__"]}
{"id": "C15", "title": "Closing a server notifies every known client exactly once", "statement": "When a server handles a close request, each client it has ever received a request from, except the one asking, is sent exactly one disconnect message in the serializer that client last used; the asking client gets the reply True (if it asked for a reply) and no disconnect message.", "quantifier": "every set of known clients and serializers, every requester", "why_tests_cant": "unbounded client sets", "anchors": ["teleprox/server.py:RPCServer.process_action (close)", "teleprox/server.py:RPCServer._process_one"]}
{"id": "C16", "title": "A closed server executes nothing more", "statement": "After a server run with run_forever has handled a close request it invokes no object, changes no published name and sends no reply for any later message, and it is no longer the thread's registered server.", "quantifier": "every continuation of every history after close", "why_tests_cant": "unbounded continuations", "anchors": ["teleprox/server.py:RPCServer.run_forever", "teleprox/server.py:RPCServer.running", "teleprox/server.py:RPCServer.process_action (close)", "teleprox/server.py:RPCServer.unregister_server"]}
{"id": "C17", "title": "msgpack transport is lossless for supported values", "statement": "For every value built from None, bool, int of any size, float, str, bytes, list, tuple, dict with str or bytes keys, naive datetime, date, numpy array, numpy real scalar, picklable supported types and object proxies, nested to any depth the packer accepts, loads(dumps(v)) equals v with the same types (arrays compared by dtype, shape and elements).", "quantifier": "every value of unbounded size and nesting", "why_tests_cant": "infinite domain of nested values", "anchors": ["teleprox/serializer.py:MsgpackSerializer.dumps", "teleprox/serializer.py:MsgpackSerializer.loads", "teleprox/serializer.py:Serializer.encode", "teleprox/serializer.py:Serializer.decode"]}
{"id": "C18", "title": "JSON transport is lossless up to tuple/list and numpy float", "statement": "For the same values with str keys, the JSON serializer returns v with every tuple replaced by the list of its items and every numpy float64 scalar by the plain float, and nothing else changed.", "quantifier": "every value of unbounded size and nesting", "why_tests_cant": "infinite domain of nested values", "anchors": ["teleprox/serializer.py:JsonSerializer.dumps", "teleprox/serializer.py:JsonSerializer.loads", "teleprox/serializer.py:JsonSerializer.encode", "teleprox/serializer.py:JsonSerializer.decode"]}
{"id": "C19", "title": "Dictionaries using the reserved type key never survive transport", "statement": "A dict that contains the reserved key ___type_name___ is never returned unchanged by loads(dumps(d)), with either serializer: whatever comes back as a dict lacks that key. (Excluded: values under the key that say pickle or proxy, which make the receiver unpickle or resolve arbitrary data, and values that are themselves proxies or foreign objects.)", "quantifier": "every dict containing the reserved key", "why_tests_cant": "infinite domain", "anchors": ["teleprox/serializer.py:encode_key", "teleprox/serializer.py:Serializer.decode", "teleprox/serializer.py:JsonSerializer.decode"]}
{"id": "C20", "title": "Dictionaries with other key types are refused or coerced, never silently scrambled by msgpack", "statement": "If a value contains anywhere a dict with a key that is neither str nor bytes (nor a proxy or foreign object), msgpack loads(dumps(v)) never returns: it raises. JSON turns int, bool, None and float keys into strings and refuses bytes and tuple keys.", "quantifier": "every value containing such a dict at any depth", "why_tests_cant": "infinite domain of nested values", "anchors": ["teleprox/serializer.py:MsgpackSerializer.loads", "teleprox/serializer.py:JsonSerializer.dumps"]}
{"id": "C21", "title": "A proxy sent back to its owner becomes the original object", "statement": "If a server sends an unserializable object o anywhere inside a message, the receiver sees a proxy there; when that proxy (with any attributes added) is sent back to the owning server before being deleted, the owner sees o itself (or the value of that attribute chain on o), not a proxy.", "quantifier": "every object, every position in every nested value, every attribute chain, every reachable reference table", "why_tests_cant": "infinite domain", "anchors": ["teleprox/serializer.py:Serializer.encode", "teleprox/serializer.py:Serializer.decode", "teleprox/server.py:RPCServer.get_proxy", "teleprox/server.py:RPCServer.unwrap_proxy"]}
{"id": "C22", "title": "Dates and times survive transport to the microsecond", "statement": "Every naive datetime with year 1000..9999 and every date with year 1000..9999 is restored exactly by the string format used on the wire; a timezone is always lost and years below 1000 are refused on platforms that do not zero-pad %Y.", "quantifier": "every datetime and date", "why_tests_cant": "domain too large to enumerate; boundaries in the parser", "anchors": ["teleprox/serializer.py:Serializer.encode", "teleprox/serializer.py:Serializer.decode"]}
{"id": "C23", "title": "Arrays keep dtype, shape and every element whatever their memory layout", "statement": "For every array with any shape, strides (negative, zero, transposed) and offset, the array received has the same dtype and shape and the same element at every index.", "quantifier": "every shape, stride vector, offset, buffer and multi-index", "why_tests_cant": "unbounded dimensions and layouts", "anchors": ["teleprox/serializer.py:Serializer.encode", "teleprox/serializer.py:Serializer.decode", "teleprox/serializer.py:JsonSerializer.encode", "teleprox/serializer.py:JsonSerializer.decode"]}
{"id": "C24", "title": "Without a local server, unserializable arguments are refused, not dropped", "statement": "If no RPCServer runs in the thread, serializing a value raises TypeError exactly when some object of a type outside the serialize types occurs in it (at any depth), for values otherwise serializable; nothing is sent.", "quantifier": "every nested value", "why_tests_cant": "infinite domain", "anchors": ["teleprox/serializer.py:Serializer.encode", "teleprox/client.py:RPCClient.send"]}
{"id": "C25", "title": "Binary data survives the JSON text encoding", "statement": "For every byte string of every length, base64 decoding of its base64 text is the byte string, the text uses only the base64 alphabet, and its length is 4*ceil(n/3). A text is read as bytes exactly if it is ASCII and made of groups of four letters (the last one may be two or three letters with padding), where characters outside the alphabet may stand anywhere and whatever follows the padding of the last group is not looked at; it is never read as two different byte strings.", "quantifier": "every byte string; every text", "why_tests_cant": "unbounded", "anchors": ["teleprox/serializer.py:JsonSerializer.encode", "teleprox/serializer.py:JsonSerializer.decode"]}
{"id": "C26", "title": "Request ids are distinct", "statement": "All requests one client sends expecting a reply carry pairwise distinct, increasing request ids; requests sent with sync=off carry -1.", "quantifier": "every sequence of client operations", "why_tests_cant": "unbounded sequences", "anchors": ["teleprox/client.py:RPCClient.send"]}
{"id": "C27", "title": "A future receives the reply to its own request and nothing else", "statement": "A pending future becomes done only by a reply message carrying its own request id or by a disconnect; it then holds exactly that reply's value or error, and no other future changes.", "quantifier": "every message sequence in every order, with duplicates and unknown ids", "why_tests_cant": "all orders and duplications of messages", "anchors": ["teleprox/client.py:RPCClient.process_msg", "teleprox/client.py:Future"]}
{"id": "C28", "title": "Results never change once set", "statement": "Once a future is done its outcome never changes, whatever messages (late, duplicate, foreign, disconnect) arrive afterwards and whatever else the client does.", "quantifier": "every continuation of every history", "why_tests_cant": "unbounded continuations", "anchors": ["teleprox/client.py:RPCClient.process_msg", "teleprox/client.py:RPCClient._server_disconnected"]}
{"id": "C29", "title": "A disconnect fails every pending future and every later send", "statement": "After a client processes a disconnect message, or the True reply to its own close request, every future that was pending raises RuntimeError (none is left pending), and every later send raises RuntimeError and transmits nothing; close_server then returns True without transmitting.", "quantifier": "every client history, every number of pending futures", "why_tests_cant": "unbounded numbers of futures and histories", "anchors": ["teleprox/client.py:RPCClient._server_disconnected", "teleprox/client.py:RPCClient._close_request_returned", "teleprox/client.py:RPCClient.send", "teleprox/client.py:RPCClient.close_server"]}
{"id": "C30", "title": "A request that cannot be serialized leaves no trace", "statement": "If the arguments cannot be serialized, send raises, transmits nothing, leaves no pending future, and later requests are matched to their replies as usual.", "quantifier": "every client state and arguments", "why_tests_cant": "universal over states", "anchors": ["teleprox/client.py:RPCClient.send"]}
{"id": "C31", "title": "An invalid sync mode is rejected before anything is sent (expected)", "statement": "send with a sync value other than sync, async or off raises ValueError without contacting the server.", "quantifier": "every client state and sync value", "why_tests_cant": "universal; the unmodified code transmits the request first", "anchors": ["teleprox/client.py:RPCClient.send", "teleprox/proxy.py:ObjectProxy._set_proxy_options"]}
{"id": "C32", "title": "Polling done() eventually sees an arrived result (documented)", "statement": "Future documents that done() tells whether the return value has arrived.", "quantifier": "every number of polls, every content of the socket", "why_tests_cant": "a test can only poll finitely often; the unmodified code never reads the socket in done()", "anchors": ["teleprox/client.py:Future"]}
{"id": "C33", "title": "Waiting for a result does not time out early", "statement": "result(timeout=t) raises TimeoutError only after at least t minus one millisecond has elapsed (no local server in the thread), it never raises TimeoutError once the future is done, and it returns as soon as the reply has been processed, whatever other messages arrive in between.", "quantifier": "every arrival schedule of messages and every timeout", "why_tests_cant": "all schedules and real-valued times", "anchors": ["teleprox/client.py:RPCClient.process_until_future", "teleprox/client.py:RPCClient._read_and_process_one", "teleprox/client.py:Future.result"]}
{"id": "C34", "title": "End-to-end: a result is the outcome of that very request, executed at most once", "statement": "With any number of clients on one server, if a future of client c for request k holds outcome r then the server executed the request c sent under k and that execution produced r; no request is ever executed twice.", "quantifier": "every interleaving of client sends, server steps, reentrant nesting, deliveries, dropped futures and server crashes", "why_tests_cant": "all interleavings and crash points", "anchors": ["teleprox/client.py:RPCClient.send", "teleprox/client.py:RPCClient.process_msg", "teleprox/server.py:RPCServer._process_one"]}
{"id": "C35", "title": "Requests of one client execute in the order sent", "statement": "The server starts the requests of one client in exactly the order that client sent them, without gaps.", "quantifier": "every interleaving with other clients", "why_tests_cant": "all interleavings", "anchors": ["teleprox/client.py:RPCClient.send", "teleprox/server.py:RPCServer._read_one", "teleprox/server.py:RPCServer.run_forever"]}
{"id": "C36", "title": "A graceful close leaves no future hanging", "statement": "After a server closed gracefully and a connected client has read all its incoming messages, none of that client's futures is pending: requests the server had answered before closing hold their answers and all others raise RuntimeError, provided the client asking for the close asked for a reply.", "quantifier": "every interleaving and every set of outstanding requests", "why_tests_cant": "all interleavings", "anchors": ["teleprox/server.py:RPCServer.process_action (close)", "teleprox/client.py:RPCClient._server_disconnected", "teleprox/client.py:RPCClient._close_request_returned"]}
{"id": "C37", "title": "A client that closes the server with sync=off still learns about it (expected)", "statement": "After close_server(sync='off') has been handled, the closing client reports disconnected() True once it has read its messages.", "quantifier": "every history", "why_tests_cant": "universal; the unmodified code sends the closing client nothing in this case", "anchors": ["teleprox/server.py:RPCServer.process_action (close)", "teleprox/client.py:RPCClient.close_server"]}
{"id": "C38", "title": "At most one server per thread, and get_server returns the own one", "statement": "At any time at most one server is registered for a thread, no server is registered for two threads, registering a second server in a thread raises KeyError and changes nothing, and get_server() returns the server registered for the calling thread or None.", "quantifier": "every interleaving of register/unregister calls from all threads", "why_tests_cant": "all interleavings", "anchors": ["teleprox/server.py:RPCServer.register_server", "teleprox/server.py:RPCServer.unregister_server", "teleprox/server.py:RPCServer.get_server"]}
{"id": "C39", "title": "One client per thread and address", "statement": "In every history of get_client, RPCClient(...) and close calls, get_client(a) in thread t returns the same client until it is closed; constructing a second client for the same address in the same thread raises KeyError; a construction that fails leaves no cached client.", "quantifier": "every interleaving over all threads and addresses", "why_tests_cant": "all interleavings", "anchors": ["teleprox/client.py:RPCClient.get_client", "teleprox/client.py:RPCClient.__init__", "teleprox/client.py:RPCClient.forget_client", "teleprox/client.py:RPCClient.close"]}
{"id": "C40", "title": "Closing a client affects only that client (expected)", "statement": "client.close() removes that client, and only that client, from the per-thread cache, from whichever thread it is called.", "quantifier": "every thread and history", "why_tests_cant": "needs a cross-thread history; violated by the unmodified code when close is called from another thread", "anchors": ["teleprox/client.py:RPCClient.close", "teleprox/client.py:RPCClient.forget_client"]}
{"id": "C41", "title": "Client socket identities are unique", "statement": "Two clients with different host, process, thread name or address use different socket identities.", "quantifier": "every pair of name components", "why_tests_cant": "infinite domain; false without restrictions on the names", "anchors": ["teleprox/client.py:RPCClient.__init__"]}
{"id": "C42", "title": "Server addresses are parsed exactly", "statement": "check_address extracts host h and port n from an address exactly when the address is tcp://h:digits with non-empty h without newline; anything else is reported as not checkable (None).", "quantifier": "every address string", "why_tests_cant": "infinite domain", "anchors": ["teleprox/client.py:RPCClient.check_address"]}
{"id": "C43", "title": "Attribute chains resolve step by step on the server", "statement": "For a proxy p and any attribute names a1..an, the proxy p.a1...an is created without contacting the server and resolves there to getattr(...getattr(o,a1)...,an), failing with the first attribute error in that order.", "quantifier": "every attribute chain and every object", "why_tests_cant": "unbounded chains", "anchors": ["teleprox/proxy.py:ObjectProxy.__getattr__", "teleprox/proxy.py:ObjectProxy._deferred_attr", "teleprox/server.py:RPCServer.unwrap_proxy"]}
{"id": "C44", "title": "Equal proxies have equal hashes (Python contract)", "statement": "Whenever two proxies compare equal without contacting the server, their hashes are equal, so proxies work as dict keys.", "quantifier": "every pair of proxies", "why_tests_cant": "infinite domain; false for proxies with different attributes of one object", "anchors": ["teleprox/proxy.py:ObjectProxy.__eq__", "teleprox/proxy.py:ObjectProxy.__hash__"]}
{"id": "C45", "title": "Proxy options are updated all or nothing", "statement": "_set_proxy_options either applies all given options and no other, or raises KeyError and changes none.", "quantifier": "every option dictionary and proxy", "why_tests_cant": "universal over dictionaries", "anchors": ["teleprox/proxy.py:ObjectProxy._set_proxy_options"]}
{"id": "C46", "title": "Call options never leak into the remote arguments", "statement": "Calling a proxy passes to the remote function exactly the positional arguments and the keyword arguments other than _sync, _return_type and _timeout; those three override the proxy's own settings for this call only.", "quantifier": "every argument list, keyword dictionary and proxy setting", "why_tests_cant": "universal over dictionaries", "anchors": ["teleprox/proxy.py:ObjectProxy.__call__", "teleprox/client.py:RPCClient.call_obj"]}
{"id": "C47", "title": "Operators act as the same operator on the remote object", "statement": "Every operator special method defined by ObjectProxy forwards to the special method of the same name on the remote object with the same arguments.", "quantifier": "every operator method of the class", "why_tests_cant": "finite table, false for one entry", "anchors": ["teleprox/proxy.py:ObjectProxy.__rxor__", "teleprox/proxy.py:ObjectProxy.__add__"]}
{"id": "C48", "title": "With auto_delete the remote object lives as long as the proxy (expected)", "statement": "If auto_delete is set on a proxy, the server keeps the object while that proxy (or a proxy derived from it) is alive and releases the reference when it is collected.", "quantifier": "every sequence of attribute accesses, derivations and collections", "why_tests_cant": "depends on garbage collection order; false in the unmodified code", "anchors": ["teleprox/proxy.py:ObjectProxy.__del__", "teleprox/proxy.py:ObjectProxy._deferred_attr"]}
{"id": "C49", "title": "Mutually recursive synchronous calls never deadlock", "statement": "If all calls are synchronous and made through reentrant clients by threads that run their servers, then in every reachable situation in which some call is unfinished, some thread can make progress: a request or reply can be read by a thread that is waiting for it, or some thread is executing user code.", "quantifier": "every number of threads, every call graph including cycles and self calls, every interleaving", "why_tests_cant": "all interleavings of unbounded recursion", "anchors": ["teleprox/client.py:RPCClient.process_until_future", "teleprox/client.py:RPCClient._get_poller", "teleprox/server.py:RPCServer._process_one"]}
{"id": "C50", "title": "A timer respects its limit", "statement": "A timer started once with limit n>=1 invokes its callback at most n times, and exactly n times if it is neither stopped nor failing.", "quantifier": "every schedule of timer thread and start/stop calls", "why_tests_cant": "all interleavings", "anchors": ["teleprox/timer.py:Timer._run", "teleprox/timer.py:Timer.start"]}
{"id": "C51", "title": "A timer keeps its interval", "statement": "Between two consecutive callback starts of a timer that is not restarted, at least the interval elapses.", "quantifier": "every callback duration and every clock behaviour", "why_tests_cant": "real time, all durations", "anchors": ["teleprox/timer.py:Timer._run"]}
{"id": "C52", "title": "stop() stops a timer", "statement": "After stop() returns (and without another start()), at most one further callback invocation begins, namely one whose turn had been taken before stop().", "quantifier": "every interleaving of the timer thread with stop()", "why_tests_cant": "all interleavings", "anchors": ["teleprox/timer.py:Timer.stop", "teleprox/timer.py:Timer._run"]}
{"id": "C53", "title": "The log handler loses and duplicates nothing", "statement": "Every record given to RPCLogHandler is written exactly once after a final flush, whatever the interleaving of emit, the polling thread and flush.", "quantifier": "every interleaving and every record set", "why_tests_cant": "all interleavings", "anchors": ["teleprox/log/handler.py:RPCLogHandler.emit", "teleprox/log/handler.py:RPCLogHandler.poll_records", "teleprox/log/handler.py:RPCLogHandler.flush_records"]}
{"id": "C54", "title": "Log records are written in creation order", "statement": "If every record reaches the handler no later than the hold-back delay after its creation, the polling thread writes records in non-decreasing creation time; records with equal time keep arrival order.", "quantifier": "every arrival schedule within the delay", "why_tests_cant": "all schedules", "anchors": ["teleprox/log/handler.py:RPCLogHandler.emit", "teleprox/log/handler.py:RPCLogHandler.poll_records"]}
{"id": "C55", "title": "The log server forwards exactly the records at or above the level", "statement": "A LogServer with filtering passes to its logger, in order of arrival, exactly the received records whose level is at least the logger's effective level; without filtering it passes all.", "quantifier": "every record sequence and level", "why_tests_cant": "unbounded sequences", "anchors": ["teleprox/log/remote.py:LogServer.run"]}
{"id": "C56", "title": "The log sender forwards records in order until closed", "statement": "A connected LogSender transmits every queued record, in order, up to the first one that cannot be formatted or serialized. Whatever else happens to a sender, what it transmits are records it was given, in order, none twice, to an address it was connected to.", "quantifier": "every record sequence, every history of a sender", "why_tests_cant": "unbounded sequences; false without the last clause", "anchors": ["teleprox/log/remote.py:LogSender.run", "teleprox/log/remote.py:LogSender._handle", "teleprox/log/remote.py:LogSender.close"]}
{"id": "C57", "title": "Every output line of a child becomes one log message", "statement": "For every byte stream a child writes that ends in a newline, the messages logged are exactly its lines without their newline, in order, each with the prefix.", "quantifier": "every output stream and chunking", "why_tests_cant": "unbounded streams; the last character is lost when the stream does not end with a newline", "anchors": ["teleprox/log/stdio.py:PipePoller.run"]}
{"id": "C58", "title": "The child is configured as requested", "statement": "For every combination of start_process parameters accepted, the options the bootstrap script parses from the command line (name, qt, daemon, log address, log level, listen address, bootstrap address, name prefix) equal the requested ones, for str addresses, bytes log addresses and names that the command line takes for words (not starting with a dash, or like a negative number or with a blank).", "quantifier": "every parameter combination and string", "why_tests_cant": "infinite domain", "anchors": ["teleprox/process.py:start_process", "teleprox/bootstrap.py"]}
{"id": "C59", "title": "Standard output capture follows the documented defaults", "statement": "stdout/stderr of a child are captured to the log exactly when log_stdio is True, or log_stdio is None, the child is no daemon, stdout and stderr are not given and a log address is known; daemons always run with no standard streams; incompatible combinations are refused.", "quantifier": "every parameter combination", "why_tests_cant": "combinatorial", "anchors": ["teleprox/process.py:start_process"]}
{"id": "C60", "title": "A child whose server cannot start is reported as RuntimeError (expected)", "statement": "If the RPC server in the child cannot be created, start_process raises RuntimeError with the child's traceback.", "quantifier": "every failure of server construction", "why_tests_cant": "needs failure injection; false in the unmodified code: TimeoutError", "anchors": ["teleprox/bootstrap.py", "teleprox/process.py:start_process"]}
{"id": "C61", "title": "A shared array sees the same elements in every process", "statement": "SharedNDArray.copy(arr) holds the elements of arr at every index, and an array restored in another process from its pickled form reads, at every index, the same memory.", "quantifier": "every array and index", "why_tests_cant": "unbounded dimensions", "anchors": ["teleprox/shmem.py:SharedNDArray.copy", "teleprox/shmem.py:SharedNDArray.__reduce__", "teleprox/shmem.py:SharedNDArray.__reload__"]}
{"id": "C62", "title": "Shared memory is only unlinked if requested (documented)", "statement": "close_all closes and unlinks exactly the shared memory blocks whose array was created with close=True.", "quantifier": "every set of arrays", "why_tests_cant": "universal; the unmodified code unlinks all", "anchors": ["teleprox/shmem.py:close_all"]}
{"id": "C63", "title": "The clock offset estimate is accurate to half the round trip", "statement": "If the remote clock differs from the local one by a constant d and each remote reading happens between the corresponding local readings, measure_clock_diff returns a value within half the longest round-trip time of d.", "quantifier": "every sequence of readings", "why_tests_cant": "real-valued inputs", "anchors": ["teleprox/client.py:RPCClient.measure_clock_diff"]}
{"id": "C64", "title": "Process search and cleanup act on the requested processes (expected)", "statement": "kill_procs(search) kills only processes whose command line contains search; find_procs returns exactly the processes whose command line contains the search string.", "quantifier": "every process listing and search string", "why_tests_cant": "infinite domain; kill_procs ignores its argument", "anchors": ["teleprox/util.py:find_procs", "teleprox/util.py:kill_procs"]}
{"id": "C65", "title": "The Qt relay neither loses, duplicates nor reorders messages", "statement": "The poll thread hands each incoming request to the Qt thread exactly once in arrival order and sends each result exactly once in the order produced, to the client it is addressed to.", "quantifier": "every arrival schedule", "why_tests_cant": "all schedules", "anchors": ["teleprox/qt_poll_thread.py:QtPollThread.run"]}
{"id": "C66", "title": "The first importable Qt binding is used, once", "statement": "import_qt returns a namespace of the already imported binding if any, else of the first importable one in the documented order, always the same namespace afterwards, and refuses a conflicting explicit request.", "quantifier": "every set of installed bindings and call sequence", "why_tests_cant": "combinatorial histories", "anchors": ["teleprox/qt_util.py:import_qt", "teleprox/qt_util.py:check_qt_imported"]}
{"id": "C67", "title": "Child process shutdown terminates within its timeout", "statement": "ChildProcess.wait returns the exit code if the process exits within the timeout and raises TimeoutError otherwise, never blocking beyond the timeout by more than one polling sleep; stop and kill on an exited process do nothing.", "quantifier": "every exit time and timeout", "why_tests_cant": "real time", "anchors": ["teleprox/process.py:ChildProcess.wait", "teleprox/process.py:ChildProcess.stop", "teleprox/process.py:ChildProcess.kill"]}
{"id": "C68", "title": "Colliding JSON keys: the last entry wins", "statement": "If several keys of a dict get the same JSON name (such as 1 and \"1\"), the JSON receiver gets exactly one entry of that name, holding what the last of them held, and every other entry is unaffected.", "quantifier": "every dict of supported values", "why_tests_cant": "infinite domain", "anchors": ["teleprox/serializer.py:JsonSerializer.dumps", "teleprox/serializer.py:JsonSerializer.loads"]}
{"id": "C69", "title": "Object ids are never reused over the life of a server", "statement": "Whatever requests a server handles and whatever its process does, an object id that once resolved to an object never resolves to a different object later, and at any time at most one object id resolves to a given object.", "quantifier": "every run of a server, every later point of it", "why_tests_cant": "reuse of id() depends on the allocator and unbounded histories", "anchors": ["teleprox/server.py:RPCServer.get_proxy", "teleprox/server.py:RPCServer._get_object_id", "teleprox/server.py:RPCServer.process_action"]}
{"id": "C70", "title": "Only a close request that was carried out stops a server (expected)", "statement": "A server whose socket is closed has carried out a close request: it is marked closed, unregistered and has told its clients.", "quantifier": "every run of a server", "why_tests_cant": "universal over requests; an undecodable close request closes the socket in the unmodified code", "anchors": ["teleprox/server.py:RPCServer._process_one", "teleprox/server.py:RPCServer._final_close"]}
{"id": "C71", "title": "Every action does what the request says", "statement": "A readable message is taken apart exactly as sent. A call request invokes exactly the object, arguments and keyword arguments given, once, and its outcome is that of the invocation; get_obj, set_item, delete, import, ping and unknown actions have the documented outcomes; a delete removes exactly the reference named.", "quantifier": "every server state, every message and payload", "why_tests_cant": "universal over states, options and objects", "anchors": ["teleprox/server.py:RPCServer._read_one", "teleprox/server.py:RPCServer.process_action"]}
{"id": "C72", "title": "A started timer calls its callback (expected)", "statement": "If start() of a timer returns normally, the timer calls its callback at least once afterwards, unless it is stopped or the callback fails; its thread never dies of an exception of its own.", "quantifier": "every interleaving of the timer thread with calls of start and stop", "why_tests_cant": "the window between the last call and the end of the thread, and the two unlocked reads of _last_call_time, are microseconds wide", "anchors": ["teleprox/timer.py:Timer.start", "teleprox/timer.py:Timer._run"]}
{"id": "C73", "title": "Log lines are labelled with where the record was logged (expected)", "statement": "Lines written by RPCLogHandler for records of one host, process and thread begin with one header that contains these three names; for a forwarded record they are the host, process and thread it was logged in.", "quantifier": "every history of records and every forwarded record", "why_tests_cant": "needs several hosts; false in the unmodified code for the host: the sender writes host_name, the handler reads hostname", "anchors": ["teleprox/log/handler.py:RPCLogHandler.get_thread_header", "teleprox/log/remote.py:LogSender._handle"]}
{"id": "C74", "title": "Log forwarding survives bad records and closing (expected)", "statement": "A record that cannot be formatted or serialized does not stop the forwarding of later records, and records logged before close() are sent.", "quantifier": "every sequence of records", "why_tests_cant": "false in the unmodified code: logger.exception in a child ends forwarding for good; close() drops what is queued", "anchors": ["teleprox/log/remote.py:LogSender.run", "teleprox/log/remote.py:LogSender._handle", "teleprox/log/remote.py:LogSender.close"]}
{"id": "C75", "title": "A forwarded record arrives as it was logged", "statement": "A record with JSON fields logged in a process with an undisturbed LogSender is read by the log server with the message formatted, empty arguments, the names of host, process and thread added and every other field unchanged; records arrive one for one in the order logged.", "quantifier": "every record with JSON fields, every names, every interleaving of sender and server", "why_tests_cant": "infinite domain of records and interleavings", "anchors": ["teleprox/log/remote.py:LogSender._handle", "teleprox/log/remote.py:LogServer.run"]}
{"id": "C76", "title": "The log address of a process", "statement": "get_logger_address() returns the address of the log server started in this process, if any, else the last address set, else None; a second start_log_server raises and changes nothing.", "quantifier": "every sequence of calls", "why_tests_cant": "unbounded sequences", "anchors": ["teleprox/log/remote.py:start_log_server", "teleprox/log/remote.py:get_logger_address", "teleprox/log/remote.py:set_logger_address"]}
{"id": "C77", "title": "A failed start leaves no child running (expected)", "statement": "If start_process raises, no process started by it goes on running.", "quantifier": "every delay of the child and every failure", "why_tests_cant": "needs orphaned processes; false in the unmodified code: after a timeout the child is never killed, and after a reported error it is killed only if it has already exited", "anchors": ["teleprox/process.py:start_process", "teleprox/bootstrap.py"]}
{"id": "C78", "title": "Waiting for a child does not lose its output (expected)", "statement": "Everything a child with captured output writes is logged, also while ChildProcess.wait, stop or kill wait for it.", "quantifier": "every interleaving of the writer, the polling thread and communicate()", "why_tests_cant": "race; false in the unmodified code: communicate() reads from the same pipe", "anchors": ["teleprox/process.py:ChildProcess.wait", "teleprox/log/stdio.py:PipePoller"]}
{"id": "C79", "title": "The report of a child reaches its parent", "statement": "start_process gets exactly the status its child came to; it gives up only after ten seconds in which the child sent nothing; a status sent before is received; the child stops reporting when it is answered, or after ten seconds.", "quantifier": "every interleaving and all delays of the two processes", "why_tests_cant": "unbounded interleavings and times", "anchors": ["teleprox/process.py:start_process", "teleprox/bootstrap.py"]}
{"id": "C80", "title": "The process cleaner ends and reports what still runs (expected)", "statement": "ProcessCleaner.__exit__ kills every collected process that still runs, touches no other, and, unless the block itself raised, raises an AssertionError naming exactly the collected processes that still ran.", "quantifier": "every list of calls of add with any arguments, valid or not, and every state of the system", "why_tests_cant": "all process tables; zombies, processes of other users, process groups", "anchors": ["teleprox/util.py:ProcessCleaner.__exit__", "teleprox/util.py:ProcessCleaner.add", "teleprox/util.py:assert_pids_dead"]}
{"id": "C81", "title": "netstat lists the ports in use (documented)", "statement": "netstat() returns one Port for each entry in the output of the netstat program, with its protocol, address, port, state and pid.", "quantifier": "every listing, on Linux and Windows", "why_tests_cant": "infinite domain; on Linux it never lists any", "anchors": ["teleprox/util.py:netstat", "teleprox/util.py:check_tcp_port"]}
{"id": "C82", "title": "Stopping the Qt poll thread ends it (expected)", "statement": "After QtPollThread.stop() the poll thread leaves its loop once the results sent before have been forwarded, and nothing is sent to any client because of the stop.", "quantifier": "every state of the relay and every history after it", "why_tests_cant": "concurrent histories; the tests end the process instead", "anchors": ["teleprox/qt_poll_thread.py:QtPollThread.stop", "teleprox/qt_poll_thread.py:QtPollThread.run"]}
{"id": "C83", "title": "A closed Qt server executes nothing more (expected)", "statement": "After a QtRPCServer has processed a close request, it begins no other request and calls no user code for clients.", "quantifier": "every history of the poll thread, the Qt thread and the clients; quit_on_close on or off", "why_tests_cant": "interleavings of the poll thread and the event loop", "anchors": ["teleprox/qt_server.py:QtRPCServer.process_action", "teleprox/qt_server.py:QtRPCServer._final_close", "teleprox/qt_poll_thread.py:QtPollThread.run"]}
{"id": "C84", "title": "A Qt server answers each request once and in order", "statement": "For every history of a QtRPCServer: for each caller and id as many replies are sent as requests whose processing ended normally; what the poll thread sends, followed by what waits in it, is what the Qt thread sent, in order; the requests begun, followed by those on their way, are the first messages that arrived, decoded, in order.", "quantifier": "every history of the poll thread, the Qt thread (with nested event loops) and the clients", "why_tests_cant": "unbounded interleavings of two threads and nested event loops", "anchors": ["teleprox/qt_server.py:QtRPCServer", "teleprox/qt_poll_thread.py:QtPollThread.run", "teleprox/server.py:RPCServer._process_one"]}
{"id": "C85", "title": "A client that could be made has spoken with its server", "statement": "ensure_connection returns only if a ping sent in its last turn was answered with a result, and that answer was read in the same turn, begun before the deadline; its TimeoutError is raised only when the clock has reached the deadline.", "quantifier": "every schedule of messages, clock readings and nested user code", "why_tests_cant": "unbounded schedules and interleavings", "anchors": ["teleprox/client.py:RPCClient.ensure_connection", "teleprox/client.py:RPCClient.ping"]}
{"id": "C86", "title": "A server that answers within the timeout is connected (expected)", "statement": "If the server answers every ping within the timeout of ensure_connection (1 s), the connection is established.", "quantifier": "every latency below the timeout", "why_tests_cant": "needs control over latencies", "anchors": ["teleprox/client.py:RPCClient.ensure_connection"]}
{"id": "C87", "title": "A failed construction leaves the thread as it was (expected)", "statement": "If RPCClient(...) raises, the registries of clients and servers of the thread are as before; if it returns, the client is registered.", "quantifier": "every outcome of each step of the constructor", "why_tests_cant": "failures at each step", "anchors": ["teleprox/client.py:RPCClient.__init__"]}
{"id": "C88", "title": "A call through a proxy runs the object it stands for and returns its result", "statement": "When a future of a call p(*args, **kw) through an object proxy is answered, the server read exactly that call, resolved p in its reference table (and along p's attributes) to the function, invoked it once with the arguments as the serializer carries them, that invocation ended, and the future reports its outcome: the exception, the value as carried, or a proxy to the very object. Conversely, when a healthy server reads the call, the called code returns a serializable value and the client reads the reply, the future holds that value.", "quantifier": "for all runs of one server with any number of clients (any interleaving, nested calls, lost messages), all proxies that can be made, all arguments and keywords other than self, both serializers", "why_tests_cant": "Composes proxy, client, channels, reference table, serializer, stack of nested calls and reply; a test sees one run of it", "anchors": ["teleprox/proxy.py:316-347", "teleprox/client.py:227-319", "teleprox/client.py:531-561", "teleprox/server.py:238-415"]}
{"id": "C89", "title": "Loops and membership tests over a proxy behave as over the object (expected)", "statement": "`for x in p` visits the items of the remote sequence in order and then ends; `x in p` is True if an item equals x and False otherwise.", "quantifier": "for all proxies, all remote sequences of any length, all outcomes of the requests", "why_tests_cant": "Sequences of any length; the end of the loop depends on which exception arrives, not on the items", "anchors": ["teleprox/proxy.py:359-360", "teleprox/client.py:RPCClient.process_msg"]}
{"id": "C90", "title": "The truth value of a proxy is that of the object (expected)", "statement": "bool(p) equals bool(obj): __bool__ if the object has one, otherwise whether its length is not 0, otherwise True.", "quantifier": "for all proxies and all combinations of __bool__ and __len__ of the object", "why_tests_cant": "Objects with and without each method and every length", "anchors": ["teleprox/proxy.py:374-375"]}
{"id": "C91", "title": "Operators on a proxy have the outcome of operators on the object (expected)", "statement": "p op x and p op= x give what obj op x and obj op= x give under Python's dispatch: left method, reflected method of the right operand if that is missing or returns NotImplemented, in-place falling back to binary, TypeError otherwise.", "quantifier": "for all proxies, all operators of the class, all methods of both operands, all values", "why_tests_cant": "Every operator with every behaviour of both operands", "anchors": ["teleprox/proxy.py:374-513", "teleprox/server.py:302-317"]}
{"id": "C92", "title": "The requests of a client do what they say, from end to end", "statement": "When the future of client[name] = v is answered, the server has put v, as it arrived, under the name and changed no other name; client[name] reports what the name held when the server read the request, KeyError if nothing; transfer(v) reports v as it arrived; delete of a proxy removes exactly that reference, for good, or reports KeyError if it is not held, and touches no other reference; _import(name) imports exactly the module of that name, once, and reports what its dotted name leads to or what was raised; ping reports pong.", "quantifier": "for all runs of any number of clients with one server, all interleavings, lost connections, both serializers, all names and values that can be sent, all proxies", "why_tests_cant": "Depends on every interleaving of requests of several clients, on the serializers and on what runs in between; a test sees one schedule", "anchors": ["teleprox/client.py:RPCClient.transfer", "teleprox/client.py:RPCClient._import", "teleprox/client.py:RPCClient.ping", "teleprox/client.py:RPCClient.delete", "teleprox/client.py:RPCClient.__getitem__", "teleprox/client.py:RPCClient.__setitem__", "teleprox/server.py:RPCServer.process_action"]}
{"id": "C93", "title": "A value published by one client is what another client reads", "statement": "If client n publishes v under a name and gets its answer, and afterwards client m asks for the name and gets its answer, and the server published nothing else under that name in between, then m gets v as it arrived at the server: carried by the serializer of m, or as a proxy to that very object.", "quantifier": "for all runs, all clients n and m, all serializers, all values that can be sent, all events in between", "why_tests_cant": "All interleavings with requests of other clients and nested calls", "anchors": ["teleprox/client.py:RPCClient.__getitem__", "teleprox/client.py:RPCClient.__setitem__", "teleprox/server.py:RPCServer.process_action"]}
{"id": "C94", "title": "The name of a thread is the one it was given (expected)", "statement": "get_thread_name() in a thread returns the name last given to that thread with set_thread_name, else thread-<ident in hex>; different threads without names have different names; host and process names are the last ones set.", "quantifier": "for all histories of threads beginning, ending and being named, with idents reused as Python does", "why_tests_cant": "Needs the reuse of thread idents by the operating system, over long histories", "anchors": ["teleprox/log/remote.py:25-66"]}
{"id": "C95", "title": "After log_exceptions() every unhandled exception is logged exactly once", "statement": "After log_exceptions() or basic_config() and as long as nobody else sets a hook, each unhandled exception in any thread gives exactly one WARNING record of the root logger and calls no other hook; it goes to all handlers of the root if the level of the root is at most WARNING, nowhere otherwise; installing again changes nothing; the text holds every entry of the stack and every entry of the formatted exception after its first.", "quantifier": "for all histories of logging calls before and after, all threads", "why_tests_cant": "Interplay of hooks, levels, caches and handlers over arbitrary histories", "anchors": ["teleprox/log/handler.py:127-151"]}
{"id": "C96", "title": "basic_config displays every record once per call, at or above the level", "statement": "A record handled by a logger whose ancestors propagate is displayed once for each call of basic_config with a valid level, calls that raise because a log server exists included; the root lets records through exactly from the level last set; basic_config raises ValueError or TypeError for a level that does not exist, Exception if it is to start a second log server, nothing else.", "quantifier": "for all histories of logging configuration, all logger names, all levels", "why_tests_cant": "Arbitrary histories of configuration, trees of loggers and cached decisions", "anchors": ["teleprox/log/__init__.py:14-36", "teleprox/log/remote.py:76-87"]}
{"id": "C97", "title": "Each line of a child process is logged once, at its log server (expected)", "statement": "The lines a child prints are each sent once to the log address of the child and nowhere else, or handled by the handlers of this process if there is no address, stdout as INFO and stderr as WARNING, exactly if the level given for the child lets them through.", "quantifier": "for all histories of processes started and loggers configured, all ids of process objects including reused ones", "why_tests_cant": "Object ids are reused only by chance; histories of any length", "anchors": ["teleprox/log/stdio.py:27-48", "teleprox/process.py:206-211"]}
{"id": "C98", "title": "Malformed typed messages are refused with a definite exception", "statement": "A typed message (array, tuple, bytes, date, time, number, proxy, none) without the field it is read by first raises KeyError, with a field of a wrong type the exception of its kind; arrays are decoded exactly if dtype, data and shape (one dimension may be left open) fit, else ValueError or, for a shape that is none, TypeError; dates that do not exist and times out of range raise ValueError; whatever a message holds, decoding raises nothing but KeyError, TypeError, ValueError, AttributeError, binascii.Error or what pickle, numpy and the table of the server raise. Log messages: an object or an array of pairs of a name and a value (or an empty text) gives a record in which every missing field has its default; no JSON, another text and an array with a sequence of another length give ValueError, anything else TypeError.", "quantifier": "for all typed messages, all fields and all nested values, for both serializers and for the log server", "why_tests_cant": "The values of the fields are unbounded; tests try a handful of malformed messages", "anchors": ["teleprox/serializer.py:156-198", "teleprox/serializer.py:311-325", "teleprox/log/remote.py:253-275"]}
{"id": "C99", "title": "Starting a process gives a process of the kind asked for, connected to the server asked for", "statement": "If start_process comes to launching the child and the child can be set up with its server bound at address a, then whatever the order and number of reports, the parent can only come back with an object of the kind asked for (daemon or child), carrying the name, pid and Qt flag of the child, connected to a; it does come back if it still waits when the report was sent; a child that cannot be set up is never taken for a started one.", "quantifier": "for all requests of documented types, all environments, all histories of the report between child and parent", "why_tests_cant": "The handshake repeats its message an arbitrary number of times and each option passes through a command line", "anchors": ["teleprox/process.py:29-241", "teleprox/bootstrap.py:19-119"]}
{"id": "C100", "title": "kill signals the process it was made for and no other (expected)", "statement": "ChildProcess.kill, DaemonProcess.kill and ProcessCleaner send SIGKILL to the process they were made for and to no other, although pids are used again; a running child is killed, an ended one is not signalled.", "quantifier": "for all histories of processes that start, end and are waited for, with pids used again, and all interleavings of threads", "why_tests_cant": "Pids are reused only by chance after long histories", "anchors": ["teleprox/process.py:244-263", "teleprox/process.py:308-316", "teleprox/util.py:10-38", "teleprox/util.py:106-117"]}
{"id": "C101", "title": "Copying a proxy gives an equal proxy without contacting the server (expected)", "statement": "ObjectProxy._copy returns a proxy for the same object and attributes with the same options, does not contact the server and does not fail; pickling and copy.copy likewise.", "quantifier": "for all proxies a program can get hold of, all answers of the server", "why_tests_cant": "Every way of deriving and configuring proxies, every behaviour of the remote object", "anchors": ["teleprox/proxy.py:116-147", "teleprox/timer.py:60-66"]}
{"id": "C102", "title": "Printing a proxy is safe and identifies its object (expected)", "statement": "With safe_print, repr(p) and str(p) are made without contacting the server, of address, id, type and attributes; texts of proxies for different objects of a server differ. Without it, str(p) is the text of the object, unchanged, and repr(p) its repr within the frame of a proxy.", "quantifier": "for all proxies and options", "why_tests_cant": "Every combination of options, arbitrary ids and types", "anchors": ["teleprox/proxy.py:241-247", "teleprox/proxy.py:368-372"]}
{"id": "C103", "title": "Options of proxies come from the client that received them and are passed on to attributes", "statement": "A proxy received by a client has the options in default_proxy_options of the client and the defaults for the rest; a name there that is no option makes receiving any proxy raise KeyError; attributes of a proxy have its options.", "quantifier": "for all dictionaries of options, all proxies", "why_tests_cant": "Universal over option dictionaries", "anchors": ["teleprox/proxy.py:83-114", "teleprox/proxy.py:225-228", "teleprox/proxy.py:289-300", "teleprox/serializer.py:188-190", "teleprox/client.py:154", "teleprox/client.py:525"]}
{"id": "C104", "title": "Messages are read back from their bytes", "statement": "The bytes one side writes for a message (decimal number, UTF-8 texts, msgpack or JSON tree) are read by the other side as the same message, for every tree the serializers make of a value within the sizes of the formats; different trees have different bytes; a msgpack message cut short or with something after it is refused; JSON messages are printable ASCII.", "quantifier": "for all integers, all texts, all trees of any size and of any depth the serializers make, both formats", "why_tests_cant": "Trees of any shape, all lengths around the size classes of msgpack, all characters; tests check samples", "anchors": ["teleprox/serializer.py:244", "teleprox/serializer.py:259", "teleprox/serializer.py:286", "teleprox/serializer.py:291", "teleprox/client.py:295-302", "teleprox/server.py:243-246"]}
{"id": "C105", "title": "Closing a server lets the requests it is carrying out end", "statement": "When a close request is handled while other requests are being carried out (their code serves requests while it runs), each of them that wants a reply is still answered when its code ends, and run_forever then returns normally.", "quantifier": "for all servers with any stack of running requests, all close requests, all sequences of events afterwards", "why_tests_cant": "Needs any depth of nested requests and any order of their ends after a close", "anchors": ["teleprox/server.py:262-323", "teleprox/server.py:386-412", "teleprox/server.py:435-454"]}
{"id": "C106", "title": "disconnected() and close_server() tell the truth", "statement": "disconnected() returns True only if the server was closed; close_server() returns True, at once or as the answer to its request, only if the server was closed.", "quantifier": "for all runs of a server and any number of clients, in any order and with losses, all moments at which a client asks, any messages arrived but unread", "why_tests_cant": "Depends on all interleavings of requests, replies, losses and closes", "anchors": ["teleprox/client.py:213-225", "teleprox/client.py:519-586", "teleprox/client.py:595-614", "teleprox/server.py:386-412"]}
{"id": "C107", "title": "RPCServer.close() closes the server, from any thread and any number of times", "statement": "RPCServer.close() is documented as thread-safe: in whatever thread and however often it is called, it sends at most one message, a request to close, and when it returns the server has been closed.", "quantifier": "for all runs of a server and any number of clients, all moments of the call, any messages arrived but unread, anything that happens while it waits", "why_tests_cant": "Depends on all interleavings of the calling thread, the server and the other clients, and on whether the thread has a client already", "anchors": ["teleprox/server.py:417-433", "teleprox/client.py:69-89", "teleprox/client.py:603-614"]}
{"id": "C108", "title": "A log viewer shows the records of its logger, each once, filtered by its handler (expected)", "statement": "A LogViewer made for a logger is given every record that the loggers below it let through and propagate, exactly once and no other; level and filters of its handler are respected; what is logged in other threads is shown by the thread of the widget, in the order in which each thread logged it.", "quantifier": "for all histories of logging configuration, loggers, levels, propagation, threads and turns of the event loop", "why_tests_cant": "Depends on the tree of loggers, on Python's cache of levels and on all interleavings of threads with the event loop", "anchors": ["teleprox/log/logviewer.py:23-58"]}
{"id": "C109", "title": "A remote exception carries the transcript of the original", "statement": "When the future of a request raises RemoteCallException, the server carried out that very request and it raised an exception of the class named by type_str (or its result could not be serialized), and str() of the RemoteCallException is the heading \"===> Remote exception was:\" followed by, in this order, client name and number of the request, the stack of the server at the moment the exception was caught, the caught-here mark, and Python's formatted account of the exception.", "quantifier": "all servers, clients, serializers, requests, exceptions, and all interleavings of sending, delivery, nested serving and closing", "why_tests_cant": "Tests look at the transcript of a single exception in a single thread; a transcript of another request, of a stale exception, or one cut by a serializer appears only under nested or concurrent requests.", "anchors": ["teleprox/client.py:637-645", "teleprox/client.py:656-658", "teleprox/server.py:325-330"]}
{"id": "C110", "title": "A client that waits has one request running at a time; calls of a server timer never overlap", "statement": "A client that makes a request only after its earlier ones were answered has at most one request running in the server at any time, however deeply the server nests. In particular the calls of a timer started by start_timer never overlap in the server, whatever times out or is stopped and started, the server begins no more of them than the timer made and no more than its limit; the callback is called through a proxy to that very object which the server keeps alive.", "quantifier": "all servers, clients, heaps, serializers and interleavings of sending, serving, nesting, delivery, clock ticks, time-outs, starts and stops of the timer", "why_tests_cant": "An overlap needs a callback that lets the server serve others while it waits, a slow reply, and a timer that becomes due at that moment.", "anchors": ["teleprox/server.py:484-498", "teleprox/timer.py:38-89", "teleprox/client.py:227-319"]}
{"id": "C111", "title": "Reading a result involves no further requests (expected)", "statement": "Processing a message from the server sends nothing and has only the effect the message stands for: a reply sets its future, a disconnect message ends the pending ones.", "quantifier": "all clients, options of received proxies, messages and answers of the server", "why_tests_cant": "Tests use the default options of proxies and objects with a harmless __repr__; the extra requests go unnoticed unless they fail or reorder.", "anchors": ["teleprox/client.py:539-561", "teleprox/proxy.py:241-247", "teleprox/serializer.py:188-190"]}
{"id": "C112", "title": "Messages of any implementation of the formats are read as what they say", "statement": "JsonSerializer.loads and MsgpackSerializer.loads (up to the decoding of tagged dicts) accept exactly the byte strings that RFC 8259 (UTF-8 JSON texts, with Python's NaN and Infinity) and the msgpack specification (without extension types) give a meaning, and read them as that meaning, however they are written: any white space, any escapes, any form of numbers, lengths and integers in more bytes than needed. What dumps writes is among them, with msgpack in the fewest bytes (floats aside). Everything else is refused, with UnicodeDecodeError exactly for bytes that are no UTF-8 (JSON), ExtraData exactly for a message with something after it (msgpack), RecursionError or StackError for messages that are nested too deeply.", "quantifier": "all byte strings, all message trees, all ways of writing them", "why_tests_cant": "the texts and bytes of one message are infinitely many, and tests only read what the package itself writes; a clause of a grammar that a reader forgets shows with messages of other implementations only", "anchors": ["teleprox/serializer.py:239-259", "teleprox/serializer.py:283-291", "teleprox/server.py:243-246"]}
{"id": "C113", "title": "poll() tells the truth about a child", "statement": "ChildProcess.poll() gives None exactly as long as the process it was started for runs; afterwards it gives the code with which that very process ended (-9 if it was killed), the first time and every time after, even if the pid has been given to another process meanwhile.", "quantifier": "every history of processes that start, end, are killed and waited for, by any number of threads, with pids used again", "why_tests_cant": "needs pids used again and threads that poll and kill at certain moments", "anchors": ["teleprox/process.py:ChildProcess.poll", "teleprox/process.py:ChildProcess.kill", "teleprox/process.py:ChildProcess.wait"]}
{"id": "C114", "title": "start_process(shell=True) starts the same child (expected)", "statement": "With shell=True (or any true value), start_process runs the same program with the same arguments as with shell=False, whatever the name, addresses and paths are.", "quantifier": "every call of start_process and every shell environment (files that match patterns)", "why_tests_cant": "needs names and paths with characters the shell knows; false in the unmodified code for names with blanks, empty names and shell=1", "anchors": ["teleprox/process.py:start_process"]}
{"id": "C115", "title": "A reply that cannot be read ends its own request and disturbs no other (expected)", "statement": "A reply that cannot be decoded, or lacks the fields of a reply, ends the request it answers with an error; requests of the same client that it does not answer are not affected.", "quantifier": "all clients, histories, replies, waiting requests, turns of the waiting loop and later histories", "why_tests_cant": "Replies are only malformed with a server of another version or values whose decoding fails in the client; which request suffers depends on the order in which replies arrive and are waited for.", "anchors": ["teleprox/client.py:502-561", "teleprox/client.py:466-500", "teleprox/client.py:670-677"]}
{"id": "C116", "title": "A proxy works with the client of the thread that uses it (expected)", "statement": "Every use of a proxy goes through the client that get_client gives the calling thread for the address of the proxy's server.", "quantifier": "all histories of making and using proxies, getting, making, connecting and closing clients by all threads, at every interleaving of the steps of _client()", "why_tests_cant": "The cached client only matters when a proxy crosses threads or its client is closed; the wrong client usually works for a while, because zmq sockets often survive unsynchronised use.", "anchors": ["teleprox/proxy.py:149-153", "teleprox/client.py:68-97", "teleprox/client.py:119-171"]}
{"id": "C117", "title": "_get_value() gives the value of the object, or raises", "statement": "An answered _get_value() of a proxy gives the value of the object the proxy stands for when the server reads the request; it raises if the proxy does not resolve any more or the object is not serializable.", "quantifier": "all runs of a server with any number of clients, both serializers, all proxies of the server with any chain of attributes", "why_tests_cant": "The result depends on what other clients did to the object and its references between sending and reading; only the classes of objects a test happens to use are tried.", "anchors": ["teleprox/proxy.py:230-239", "teleprox/client.py:338-350", "teleprox/server.py:208-228"]}
{"id": "C118", "title": "local_client() gives the calling thread its client for its own server", "statement": "RPCServer.local_client() returns a client that the calling thread made for the address of the server registered for this thread, making one if there is none; without a server it raises.", "quantifier": "all histories of registering and unregistering servers and of getting, making, connecting and closing clients in all threads", "why_tests_cant": "Needs servers and clients in several threads; tests use one server in one thread.", "anchors": ["teleprox/server.py:127-134", "teleprox/client.py:68-90"]}
{"id": "C119", "title": "Every request is answered and the system comes to rest", "statement": "In a system of a server and any number of clients, in which nobody asks to close the server and no message is lost: the server goes on serving, no client reports disconnected(); at most three steps per request move something (the server takes the message, user code returns, the client takes the reply), however the steps are interleaved; and when nothing can move any more, every future is answered.", "quantifier": "all numbers of clients, all interleavings of requests, serving, returning user code (nested in any way) and reading; all requests other than close, all results", "why_tests_cant": "liveness over all interleavings of any length; tests run a few short schedules and cannot show that no schedule leaves a future pending", "anchors": ["teleprox/server.py:238-343", "teleprox/client.py:227-319", "teleprox/client.py:502-561"]}
{"id": "C120", "title": "Values and proxies survive being handed on through any number of processes", "statement": "A supported value sent with msgpack and handed on from process to process gets through every hop, and the last receiver gets what the first sender would have sent it directly: the same value at every depth, and for an object sent by proxy a proxy of the original server that resolves there to that object. The processes in between hand out no references of their own and need no server. A proxy handed on keeps server, object, reference and attributes; sent home it becomes the original object. All copies share one reference: once the owner has no reference to the object left, every copy fails with KeyError, as RPCClient.delete documents for proxies sent to a third process.", "quantifier": "all supported values of any nesting within the limit of msgpack, all numbers of hops and processes, all reference tables, all libraries obeying the stated laws", "why_tests_cant": "the number of hops is unbounded and the property needs every supported value to be a fixed point after the first hop; tests pass single proxies between two or three processes", "anchors": ["teleprox/serializer.py:103-259", "teleprox/server.py:193-234", "teleprox/client.py:378-406"]}
{"id": "C121", "title": "A message hands out one reference per object sent by proxy, and giving them back restores the table", "statement": "Every reference a server holds because of a message was given to the receiver: a message hands out exactly one new reference for every occurrence of an object sent by proxy, in order of occurrence, and no other, and the receiver gets the message with proxies holding exactly these references in the places of the objects. Giving back each of them once, in any order, always succeeds and leaves the table answering every lookup as before the message. A message that cannot be sent hands out nothing.", "quantifier": "all values of any nesting, all tables reached by any history of other references, all orders of giving back", "why_tests_cant": "tests give back one or two proxies in one order and look at one object; they cannot cover all nestings, repeated objects and orders, nor show that no further reference is left behind", "anchors": ["teleprox/serializer.py:96-154", "teleprox/server.py:193-236", "teleprox/server.py:295-343", "teleprox/client.py:393-403"]}
{"id": "C122", "title": "Command line of the bootstrap script", "statement": "The script that start_process runs accepts at most one process name and its options in any order, before and behind the name, each alone, as --option=value or as --option value, in full or abbreviated as long as only one option is meant. The last one of each kind counts and options that are not given keep their documented defaults; the child is set up as they say (name, listening address, Qt, printing, daemon, log address and level, bootstrap address, name prefix). A word is taken for a name or a value if it does not begin with a dash, or is a lone dash, or looks like a negative number or contains a blank without being an option; after -- every word is. An option alone is not followed by the name. Every other command line is refused before anything else is done, and no command line can be read in two ways.", "quantifier": "all command lines: any words in any number and order, all values", "why_tests_cant": "the tests only use command lines that start_process builds; the number of possible command lines is unbounded", "anchors": ["teleprox/bootstrap.py:8-30", "teleprox/bootstrap.py:33", "teleprox/bootstrap.py:54-95"]}
{"id": "C123", "title": "Handing a message on over connections with different serializers loses no more than one JSON transport", "statement": "A value both serializers support (lists, tuples, dicts with plain string keys, numbers, text, bytes, naive datetimes, dates, known numpy scalars and dtypes, picklable objects of the serialized types, proxies of other servers) that is handed on from process to process, each connection with its own serializer, always arrives. Without a JSON connection on the way it arrives unchanged; with at least one it arrives with tuples as lists and float64 scalars as floats, wherever and however often JSON was used.", "quantifier": "all such values of any nesting allowed by the depth limits; all routes of any length; every choice of serializer per connection; all proper senders, tables and receivers", "why_tests_cant": "tests send a value once over one serializer; the composition of transports with different serializers is not tested, and the routes and values are unbounded", "anchors": ["teleprox/serializer.py:239-259", "teleprox/serializer.py:274-291", "teleprox/serializer.py:83-150"]}
{"id": "C124", "title": "A request sent after a result was seen is carried out after it (real-time order)", "statement": "If some client has seen the answer of a request, and after that the same or another client sends a request which is answered too, then the first request was carried out completely, from reading its message to sending its reply, before the second one was sent, and the second one was carried out wholly afterwards, starting from the server state of then; both clients see the outcomes of just these executions. No request is ever started before it is sent.", "quantifier": "all runs of one server and any number of clients: all interleavings, nested requests, lost messages and closed connections; every pair of requests", "why_tests_cant": "tests look at single interleavings; the order must hold under every scheduling of clients, server and user code", "anchors": ["teleprox/server.py:238-345", "teleprox/client.py:227-319", "teleprox/client.py:502-561"]}
{"id": "C125", "title": "No call of a serializer sees the arguments of another", "statement": "dumps and loads keep their arguments (server, serialize types, proxy options) in attributes of the serializer object, which is used for all messages and may be called again while a call is in progress (pickling and unwrapping run user code that may make requests). Expected: every encode and decode finds the arguments of the call it belongs to, or the server of the thread if the call names none; nothing is left over from earlier, failed or nested calls.", "quantifier": "all histories of calls of any nesting, returning or raising; all arguments; a server appearing or disappearing in the thread between calls", "why_tests_cant": "tests call a serializer once at a time; the leak needs a call nested in another with other arguments", "anchors": ["teleprox/serializer.py:70-81", "teleprox/serializer.py:239-259", "teleprox/serializer.py:283-291", "teleprox/server.py:289-342", "teleprox/server.py:404", "teleprox/client.py:299", "teleprox/client.py:525"]}
{"id": "C126", "title": "A daemon is independent of the process and the terminal that started it (documented)", "statement": "From the moment a daemon is born by the second fork: it stays in a session that none of the processes existing then, except the one that forked it and only exits, is ever in; closing a terminal, its keys and the end of a session leader never send a signal to it or to others in its session, and a signal to a process group reaches it only if all members of the group are in its session; no program has to wait for it after it ends; when it begins to serve its only open files are its own /dev/null, and it never shares an open file with a process that was there before it; os.setsid is never refused during the bootstrap.", "quantifier": "for all histories of a posix system with any number of processes, groups, sessions, terminals and open files, before, during and after the bootstrap, and any system calls of all other programs", "why_tests_cant": "Depends on terminals, job control and the moment at which processes end; a test sees one shell and one order", "anchors": ["teleprox/process.py:101-111, 189-217", "teleprox/bootstrap.py:32-46"]}
{"id": "C127", "title": "Processes need not have the same optional packages", "statement": "numpy and msgpack may be missing in a process. Where a process with numpy reads a value from a message, a process without numpy reads the same value or raises ImportError, and never another value; a message that contains anything of numpy at any depth raises ImportError; values without numpy objects are sent and read exactly as by a process with numpy, with both serializers. A server can be created whatever is installed; a client is refused with ValueError for a serializer it does not have, and otherwise finds the same serializer at the server if it is json or the server has msgpack.", "quantifier": "for all messages (any tree, not only those teleprox writes), all values of any depth, all reference tables, all combinations of installed packages and all serializer names", "why_tests_cant": "The test environment has both packages installed; the guarded branches never run in tests", "anchors": ["teleprox/serializer.py:10-20", "teleprox/serializer.py:39-55", "teleprox/serializer.py:102-172", "teleprox/serializer.py:235-262", "teleprox/serializer.py:293-325", "teleprox/server.py:151-155", "teleprox/server.py:278-282", "teleprox/client.py:163-166"]}
{"id": "C128", "title": "Reading a message runs no code that arrived with it", "statement": "Reading a message with loads passes nothing that arrived in the message to pickle.loads or exec.", "quantifier": "for all messages, senders and receivers, in both wire formats", "why_tests_cant": "A test can only try messages; whether some message reaches pickle.loads or exec, and which messages surely do not, is a statement about all of them.", "anchors": ["teleprox/serializer.py:156-195", "teleprox/serializer.py:311-323", "teleprox/serializer.py:246-259"]}
{"id": "C129", "title": "Reading a message makes no request", "statement": "Serializer.loads contacts no other process: decoding a message sends no request, whatever fields hold proxies. False of the code: decode compares, calls, iterates and reshapes with whatever the fields are, and these methods of ObjectProxy send a request to the address named in the message and wait for the answer, so a message can make its reader contact any address and block. What holds: a message written by dumps for a supported value is read without a request; so is every message in which no value of a map is the text proxy or pickle; and, apart from pickles and served proxies, a request goes only to an address that is a text of the message.", "quantifier": "every message tree, every receiver (with or without server), every proxy of another process, both formats", "why_tests_cant": "the places where a field of unexpected type is used as an object are found by looking at all branches for all types of fields, not by sending usual values", "anchors": ["teleprox/serializer.py:Serializer.decode", "teleprox/serializer.py:JsonSerializer.decode", "teleprox/proxy.py:ObjectProxy.__eq__", "teleprox/proxy.py:ObjectProxy.__call__", "teleprox/proxy.py:ObjectProxy.__len__"]}
{"id": "C130", "title": "A received proxy behaves as its reader chose", "statement": "The options of a proxy that arrives in a message are those the receiving side gives (default_proxy_options) and the defaults for the rest; the message names an object, it does not choose how the receiver behaves. False of the code: entries of the dict of a proxy that are not fields of the proxy are passed on as options, so a plain dict sent by any program sets every option the reader does not give itself; with auto_delete the reader sends a delete request when it drops the proxy, without safe_print printing the message asks the process it names. What holds: each option is the one the reader gives, else the one in the message, else the default; an option that the reader gives itself is never changed by a message; and a message written by dumps for a value in which no dict uses the reserved key carries no options, whatever options the proxies of the sender have.", "quantifier": "every message tree, every sending program, every proxy and object id, every set of options given by the reader, every option, both formats", "why_tests_cant": "a test sends the proxies that dumps writes; that entries of a dict become options shows only for messages nobody writes on purpose", "anchors": ["teleprox/serializer.py:Serializer.decode", "teleprox/proxy.py:ObjectProxy.__init__", "teleprox/proxy.py:ObjectProxy._set_proxy_options", "teleprox/proxy.py:ObjectProxy.__del__"]}
{"id": "C131", "title": "Any number of requests may be pending", "statement": "Asynchronous requests may be made in any number before their results are read: a request that the server carries out has its future set once the client reads what comes. False of the code: the ROUTER socket of the server drops messages for a client whose queue is full (the default limit of ZeroMQ) without an error, so for every length of the queue two requests more than fit leave a future pending forever, with the server serving and no connection broken. What holds: with limited queues nothing happens that could not happen with unlimited queues and lost messages; if no client ever has more replies outstanding than fit, limited queues change nothing at all; and beyond what was read, at most as many replies as fit the queue (and the news of the server's end) arrive.", "quantifier": "every length of the queues, every number of clients and requests, all interleavings of requests, deliveries, executions, losses and closing", "why_tests_cant": "a test makes a few requests; the limit of the queues is in the thousands and depends on when the client reads", "anchors": ["teleprox/server.py:RPCServer.__init__", "teleprox/server.py:RPCServer._send_result", "teleprox/server.py:RPCServer._send_error", "teleprox/client.py:RPCClient.send", "teleprox/client.py:RPCClient.process_until_future"]}
{"id": "C132", "title": "The list of serialize types decides what is sent by value", "statement": "With serialize_types given (client.py:53-58), exactly the objects of the listed types are sent by value; objects of other types are sent by proxy if the sender has a server, and are refused with TypeError if not; requests that fail are still answered with the error.", "quantifier": "for all lists of types, all values at any nesting, all reference tables, and all server states in which a request completes", "why_tests_cant": "tests use the default list, or one list at a time; that no list without tuple can send anything by proxy needs an induction over the depth of the recursion, which ends only at the serializer's limit", "anchors": ["teleprox/client.py:53-58", "teleprox/client.py:299", "teleprox/serializer.py:96-154", "teleprox/serializer.py:239-244", "teleprox/server.py:190-191", "teleprox/server.py:296-343"]}
{"id": "C133", "title": "Process search on Windows finds the processes asked for (expected)", "statement": "On Windows find_procs(search) returns exactly the processes whose command line contains the search string, and kill_procs(search) kills only such processes; on platforms other than Linux and Windows NotImplementedError is raised.", "quantifier": "every list of processes, search string and way WMI compares characters", "why_tests_cant": "the search string goes unescaped into a pattern of the query, so there are infinitely many strings with another meaning; tests run on one platform, and a test of the default prefix would kill the machine", "anchors": ["teleprox/util.py:41-62", "teleprox/util.py:64-78", "teleprox/process.py:26"]}
{"id": "C134", "title": "A proxy in a message names an object by the id the server gave out, and reading it contacts nobody", "statement": "The dict of a proxy of the reader's own server is resolved to an object only if its id is an integer that the server handed out and still holds; every other id is refused, and resolving sends no request. False of the code: decode builds proxies of fields of any type, so True names object 1 and an address may be bytes; and the message of the KeyError for an unknown id reads the attribute obj_id of the proxy, so that with an option defer_getattr or safe_print other than True in the message the server sends a request to itself while it reads the request. What holds: whatever the fields are, only an object in the table whose id equals the number in the message is reached, and exactly the one that a proper proxy with that id and these attributes stands for; without options in the message unknown ids are refused with KeyError or TypeError and nobody is contacted; proxies of other processes are kept and relayed with their fields as they came.", "quantifier": "every dict of a proxy with fields of any type, every table of the server, every reader, every set of options", "why_tests_cant": "a test sends proxies that dumps wrote; ids that are no integers and options in the dict only occur in messages made by hand", "anchors": ["teleprox/serializer.py:Serializer.decode", "teleprox/server.py:RPCServer.unwrap_proxy", "teleprox/proxy.py:ObjectProxy.__init__", "teleprox/proxy.py:ObjectProxy.__getattr__", "teleprox/proxy.py:ObjectProxy.__getstate__"]}
{"id": "C135", "title": "Integers of any size survive JSON (expected)", "statement": "JSON has integers of any size and the JSON serializer carries them unchanged. False of the code since Python 3.11: json.dumps and json.loads convert between integers and text and refuse more than 4300 digits, so such an integer is refused with ValueError when it is written (as value or as key), or when it is read if the writing process has a higher limit. Otherwise the limit changes nothing: a value whose integers are within the limit is written to the same message as without the limit, what a process could write every process with the same or a higher limit reads as C18 says, and messages without longer integers are read as without a limit.", "quantifier": "every value and message tree, every limit of the writer and of the reader", "why_tests_cant": "tests use integers of a few digits; the limit depends on the Python version", "anchors": ["teleprox/serializer.py:283-291"]}
{"id": "C136", "title": "The processes a process started end with it (expected)", "statement": "When the program of a process is over or its server was closed, every process it started with start_process (except daemons), and every process those started, ends too: each ending process asks its children, the last started first, to close and waits for them; a child that does not answer in time does not keep the others from being asked; daemons are left alone. False of the code below a process that is ended by a signal (ChildProcess.kill() among others), because the calls registered with atexit do not run then, and for children that carry out something that never ends.", "quantifier": "all forests of processes, all histories of starts, close requests, kills, hangs, timeouts and ends in any order", "why_tests_cant": "The tests start one or two processes and stop them one by one; what becomes of deeper trees, with timeouts in between, and when a process in the middle is killed depends on the order of steps of many processes.", "anchors": ["teleprox/process.py:266-331", "teleprox/bootstrap.py:117-125", "teleprox/server.py:444-454"]}
{"id": "C137", "title": "A proxy reaches the object it was made for, or nothing (expected)", "statement": "Servers may follow one another at one address, because a server is closed or its process ends. A request with a proxy made by one of these servers reaches the object the proxy was made for, or raises; it never reaches an object of another server, and deleting the proxy releases no object of another server.", "quantifier": "every history of requests, closings, crashes, starts of servers and new clients at one address, any number of clients, all objects", "why_tests_cant": "tests keep one server per address; that the ids of another server are the same numbers shows only when an address is used again while proxies of the first server are left", "anchors": ["/repo/teleprox/server.py:173-228", "/repo/teleprox/server.py:364-370", "/repo/teleprox/proxy.py:121-135", "/repo/teleprox/client.py:283-285"]}
{"id": "C138", "title": "The server that takes the place of another can be used (expected)", "statement": "When a server has ended and another listens at its address, the clients of the first can send requests to the second, which are carried out in turn.", "quantifier": "every history of requests, closings, crashes, starts of servers and new clients at one address", "why_tests_cant": "it needs an address that is used again by another server, in all orders of messages about the closing and later requests", "anchors": ["/repo/teleprox/client.py:69-89", "/repo/teleprox/client.py:283-285", "/repo/teleprox/client.py:575-586"]}
{"id": "C139", "title": "The logs of many processes come together in one", "statement": "Any number of processes log to one log server. However the processes, their senders, ZeroMQ and the server take turns, the records the server reads are a merge of what the processes logged: each comes from one process, and those of a process with an undisturbed LogSender are the first records it logged, one for one and in the order logged, plain records being read formatted and with the names of their process. They are read in the order of arrival, and those not below the level of the logger are passed to it. If the server is not stopped, all senders are undisturbed and all records are plain, every record of every process is read in the end, once.", "quantifier": "every number of processes, every record with a number as its level, every interleaving of all senders, deliveries, the server and changes of its level", "why_tests_cant": "no test has more than one sender; interleavings of several threads and processes cannot be enumerated", "anchors": ["/repo/teleprox/log/remote.py:139-203", "/repo/teleprox/log/remote.py:237-266"]}
{"id": "C140", "title": "No process keeps the log records of another from arriving", "statement": "Whatever other processes log, even records that cannot be formatted or serialized, and whatever they do with their senders, every record of a process with an undisturbed sender all whose records are plain is read by the log server in the end, in order, once, if only the threads go on and the server is not stopped.", "quantifier": "every number of processes, every history of logging in them with any records that have a number as their level, every interleaving", "why_tests_cant": "the thread of the server dies with the first record it cannot read, so one test per kind of record would be needed; the claim is about all records and all interleavings", "anchors": ["/repo/teleprox/log/remote.py:160-183", "/repo/teleprox/log/remote.py:253-266"]}
{"id": "C141", "title": "A record keeps its origin through any number of log servers (expected)", "statement": "A process that has a log server and a log sender forwards what its server reads. However many log servers a record with JSON fields passes through, it is handled at each with its message formatted once, its other attributes as logged, and labelled with the host, the process and the thread where it was logged.", "quantifier": "every record with JSON fields, every arrangement of senders and servers, every number of hops, all names", "why_tests_cant": "tests have one sender and one server; that names are overwritten on the second way shows only with three processes", "anchors": ["/repo/teleprox/log/remote.py:172-183", "/repo/teleprox/log/remote.py:258-265", "/repo/teleprox/log/remote.py:104-114"]}
{"id": "C142", "title": "Forwarding of a record ends (expected)", "statement": "However processes are connected with set_logger_address and start_log_server, a record is handled a bounded number of times, and at most once in each process.", "quantifier": "every arrangement of senders and servers, every record with JSON fields, all levels", "why_tests_cant": "a loop shows only as a program that does not come to rest; arrangements cannot be enumerated", "anchors": ["/repo/teleprox/log/remote.py:76-114", "/repo/teleprox/log/remote.py:172-183", "/repo/teleprox/log/remote.py:258-265"]}
{"id": "C143", "title": "What any process logs is written once by the handler of the process with the server", "statement": "The process with the log server has an RPCLogHandler on its root logger. In every history, what this handler has treated and what it still holds are exactly the records of its own process and the records the server passed on, each once; those passed on come from what the processes logged. If all senders are undisturbed, all records plain and not below the level of the server, the server not stopped and nobody flushes, then, by going on, every record of every process comes to be treated exactly once, on the stream if it can be formatted, labelled with its process and thread. Records that reach the handler within 0.2 s of their creation, from whatever process, are on the stream in order of creation.", "quantifier": "every number of processes, every history of logging in all of them, every interleaving of senders, deliveries, the server, the polling thread and the clock", "why_tests_cant": "the path leads through a queue and a thread in each process, sockets, a thread in the server and a sorting thread; tests see a few of its interleavings", "anchors": ["/repo/teleprox/log/remote.py:160-183", "/repo/teleprox/log/remote.py:250-266", "/repo/teleprox/log/handler.py:73-93", "/repo/teleprox/log/handler.py:95-124"]}
