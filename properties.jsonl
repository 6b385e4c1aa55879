{"id": "C01", "title": "Request frames round-trip", "statement": "For every BoltRequest object whose to_stream() returns bytes, BoltRequest.from_stream of those bytes returns a package with the same proto, ptype, cmdcode, ver2, request_id, codec, timeout, header mapping (same keys, values and order) and content.", "quantifier": "every header mapping, content, id, timeout, packet type, command code and codec", "why_tests_cant": "infinitely many headers/contents and all 2^32 ids and timeouts", "anchors": ["anthunder/protocol/_package_base.py:BoltPackage.from_stream", "anthunder/protocol/_request_pkg.py:BoltRequest.to_stream"]}
{"id": "C02", "title": "Response frames round-trip", "statement": "For every BoltResponse object whose to_stream() returns bytes, BoltResponse.from_stream of those bytes returns a package with the same proto, ptype, cmdcode, ver2, request_id, codec, respstatus, header mapping and content.", "quantifier": "every header mapping, content, id and status", "why_tests_cant": "infinitely many inputs", "anchors": ["anthunder/protocol/_package_base.py:BoltPackage.from_stream", "anthunder/protocol/_response_pkg.py:BoltResponse.to_stream"]}
{"id": "C03", "title": "Frames have exactly the documented bolt v1 byte layout", "statement": "The bytes of a request are: proto(1) type(1) cmdcode(2) ver2(1) requestId(4) codec(1) timeout(4) classLen(2) headerLen(2) contentLen(4), all big-endian two's complement, followed by class name, header bytes and content; a response has respstatus(2) in place of timeout. The three length fields equal the lengths of the three body parts.", "quantifier": "every encodable package", "why_tests_cant": "the layout must hold for all field values, including sign and byte order at every magnitude", "anchors": ["anthunder/protocol/_request_pkg.py:BoltRequest.fmt", "anthunder/protocol/_response_pkg.py:BoltResponse.fmt", "anthunder/protocol/__init__.py"]}
{"id": "C04", "title": "Encoding succeeds exactly on representable packages, and fails only with protocol errors", "statement": "to_stream() returns bytes iff the id is an int in [-2^31,2^31), the timeout an int in [-2^31,2^31) (requests), content is a bytes object shorter than 2^32 and the encoded header is shorter than 65536; in every other case it raises EncodeError or ParamTypeError (never silently truncates or wraps).", "quantifier": "every constructible package, including wrongly typed ids, timeouts and contents", "why_tests_cant": "boundary and type space is unbounded", "anchors": ["anthunder/protocol/_request_pkg.py:BoltRequest.to_stream", "anthunder/protocol/_response_pkg.py:BoltResponse.to_stream", "anthunder/protocol/_package_base.py:BoltPackage.validate"]}
{"id": "C05", "title": "Decoding arbitrary bytes is total and only fails with DecodeError", "statement": "For every byte string, BoltRequest.from_stream / BoltResponse.from_stream terminates and either returns a package or raises DecodeError; no other exception escapes.", "quantifier": "every byte string", "why_tests_cant": "adversarial inputs of every length", "anchors": ["anthunder/protocol/_package_base.py:BoltPackage.from_stream", "anthunder/protocol/_package_base.py:bolt_content_from_stream", "anthunder/protocol/_package_base.py:bolt_header_from_stream"]}
{"id": "C06", "title": "Decoding accepts only complete frames of exactly the declared length", "statement": "If from_stream accepts a byte string, its length is the fixed header size plus the three declared lengths; consequently no proper prefix and no proper extension of an accepted frame is accepted.", "quantifier": "every byte string and every prefix/extension of it", "why_tests_cant": "every truncation and extension of every frame", "anchors": ["anthunder/protocol/_package_base.py:BoltPackage.from_stream"]}
{"id": "C07", "title": "Decoded packages only contain protocol-defined codes", "statement": "Whenever from_stream returns a package, the wire codes for proto, type, cmdcode, ver2, codec (and status) are among the codes listed in constants.py and the package reports exactly these; a frame with any other code is rejected with DecodeError.", "quantifier": "every byte string", "why_tests_cant": "all code values in all frames", "anchors": ["anthunder/protocol/constants.py", "anthunder/protocol/_package_base.py:BoltPackage.__init__"]}
{"id": "C08", "title": "Header mappings round-trip", "statement": "SofaHeader.from_bytes(h.to_bytes()) equals h, including key order, for every header of strings that to_bytes accepts (any Unicode, empty keys and values included).", "quantifier": "every header mapping of strings", "why_tests_cant": "unbounded set of Unicode strings and mapping sizes", "anchors": ["anthunder/protocol/_sofa_header.py:SofaHeader.to_bytes", "anthunder/protocol/_sofa_header.py:SofaHeader.from_bytes"]}
{"id": "C09", "title": "Header parsing terminates on every input and accepts exactly the length-prefixed grammar", "statement": "SofaHeader.from_bytes terminates for every byte string. It returns a mapping iff the bytes are an even-length concatenation of items (4-byte big-endian length n in [0,2^31) followed by n bytes of valid UTF-8, or the 4-byte null marker); otherwise it raises DecodeError or UnicodeDecodeError.", "quantifier": "every byte string", "why_tests_cant": "termination and the exact accepted language concern all inputs (an infinite loop was shipped before 0.5.6)", "anchors": ["anthunder/protocol/_sofa_header.py:_bytes_to_str", "anthunder/protocol/_sofa_header.py:SofaHeader.from_bytes"]}
{"id": "C10", "title": "Java null strings decode to the empty string; other negative lengths are rejected", "statement": "A length field of -1 contributes exactly one empty string and consumes exactly four bytes wherever it occurs; every other negative length raises DecodeError.", "quantifier": "every position in every byte string and every negative 32-bit length", "why_tests_cant": "2^31 lengths at every position", "anchors": ["anthunder/protocol/_sofa_header.py:_bytes_to_str"]}
{"id": "C11", "title": "Duplicate header keys: the last value wins", "statement": "When a key occurs several times in header bytes, the parsed mapping holds the value of its last occurrence, and holds exactly the keys that occur.", "quantifier": "every list of key/value pairs", "why_tests_cant": "every multiplicity and position of duplicates", "anchors": ["anthunder/protocol/_sofa_header.py:SofaHeader.from_bytes"]}
{"id": "C12", "title": "A package's wire header is a snapshot taken at construction", "statement": "After a package is constructed, no sequence of mutations of the header object (update, pop, clear, ...) changes the bytes to_stream() produces, and h[k]=v never changes a header.", "quantifier": "every sequence of mutations", "why_tests_cant": "every history of mutations", "anchors": ["anthunder/protocol/_package_base.py:BoltPackage.__init__", "anthunder/protocol/_sofa_header.py:SofaHeader.__setitem__"]}
{"id": "C13", "title": "len(header) is the wire length", "statement": "For every header that can be serialised, len(header) is the number of bytes of its serialised form, which equals 8 per entry plus the UTF-8 lengths of its strings, and equals the headerLen field of a frame that carries it.", "quantifier": "every header mapping", "why_tests_cant": "all Unicode strings", "anchors": ["anthunder/protocol/_sofa_header.py:SofaHeader.__len__", "anthunder/protocol/_package_base.py:BoltPackage.header_len"]}
{"id": "C14", "title": "Request ids always fit the wire format", "statement": "Every id ever issued by the process-wide id source lies in [0, 2^31-1], hence is encodable, for every random start value and every number of draws.", "quantifier": "every start value and every draw number", "why_tests_cant": "2^31 start values and unbounded draws with wrap-around", "anchors": ["anthunder/helpers/request_id.py:RequestId"]}
{"id": "C15", "title": "Request ids do not repeat within any window of 2^31 draws", "statement": "Any two draws fewer than 2^31 positions apart give different ids, across wrap-around, and draws exactly 2^31 apart give the same id.", "quantifier": "every start value and every pair of draws", "why_tests_cant": "needs 2^31 draws per start value", "anchors": ["anthunder/helpers/request_id.py:RequestId"]}
{"id": "C16", "title": "Heartbeat packets are empty-bodied and echo the id", "statement": "HeartbeatRequest/HeartbeatResponse for any id encode to exactly the fixed header with zero class, header and content lengths; the response decodes to the same id, status SUCCESS, cmdcode HEARTBEAT.", "quantifier": "every 32-bit id", "why_tests_cant": "all ids", "anchors": ["anthunder/command/heartbeat.py"]}
{"id": "C17", "title": "Failure responses carry the given id and status", "statement": "FailResponse.response_to(id, s) for every id and status encodes and decodes back to a RESPONSE package with that id, that status, empty header and empty content.", "quantifier": "every 32-bit id and every status", "why_tests_cant": "all ids and statuses", "anchors": ["anthunder/command/fail_response.py"]}
{"id": "C18", "title": "The request header built for a call names the target and carries every extra and trace item", "statement": "build_header(ctx, interface, method, app, uid, **extra) yields a mapping with sofa_head_target_service = service = interface, sofa_head_method_name = method, sofa_head_target_app = app, uid = uid, every extra and every trace item; it raises TypeError exactly when an extra or trace item collides with one of the reserved names.", "quantifier": "every interface, method, app, uid, extras and trace baggage", "why_tests_cant": "unbounded key sets and collisions", "anchors": ["anthunder/protocol/_sofa_header.py:SofaHeader.build_header"]}
{"id": "C19", "title": "inject then extract reproduces the trace context", "statement": "Extracting from a carrier into which a context was injected gives a context whose trace id, rpc id and every other baggage item have the same string form, whatever other keys the carrier holds.", "quantifier": "every context obtainable through the API and every carrier", "why_tests_cant": "unbounded baggage and carriers", "anchors": ["mytracer/tracer.py:MyTracer.inject", "mytracer/tracer.py:MyTracer.extract"]}
{"id": "C20", "title": "Trace context survives a call", "statement": "The context a server extracts from a received request header has the same trace id, rpc id and baggage strings as the context the client passed to the call, after encoding and decoding the frame.", "quantifier": "every context and every call", "why_tests_cant": "every baggage mapping; composition of four functions", "anchors": ["anthunder/protocol/_sofa_header.py:SofaHeader.build_header", "anthunder/protocol/_rpc_trace_context.py:RpcTraceContext", "mytracer/tracer.py:MyTracer.extract"]}
{"id": "C21", "title": "extract is total on any carrier", "statement": "extract returns a context or raises InvalidCarrierException; it raises exactly when the rpc id's last segment is not an integer or a trace key clashes with a constructor parameter; without trace keys it returns a fresh trace id and rpc id 1.", "quantifier": "every string carrier", "why_tests_cant": "all carriers", "anchors": ["mytracer/tracer.py:MyTracer.extract", "mytracer/span_context.py:SpanContext.__init__"]}
{"id": "C22", "title": "Rpc ids round-trip through their string form", "statement": "For every RpcId created through the API from dot-free segments, splitting str(id) on dots and rebuilding gives an equal RpcId.", "quantifier": "every segment list", "why_tests_cant": "unbounded segments, ints of any size", "anchors": ["mytracer/_rpc_id.py:RpcId.__init__", "mytracer/_rpc_id.py:RpcId.__str__"]}
{"id": "C23", "title": "Child and follow-up rpc ids have the documented shape", "statement": "A child span's id is its parent's id extended by one segment, which is one more than the number of children and follow-ups already created under that parent; a follow-up's id is its predecessor's with the last segment incremented, whatever the history.", "quantifier": "every history of span creations", "why_tests_cant": "all creation histories", "anchors": ["mytracer/_rpc_id.py:RpcId._new_child_of", "mytracer/_rpc_id.py:RpcId._new_follows_from"]}
{"id": "C24", "title": "Rpc ids are unique within a trace", "statement": "All spans created (directly or transitively) from one root span have pairwise different rpc ids.", "quantifier": "every history of child_of / follows_from creations", "why_tests_cant": "all creation histories and orders", "anchors": ["mytracer/_rpc_id.py:RpcId"]}
{"id": "C25", "title": "Every derived span keeps the trace id and baggage", "statement": "Every span derived from a span by any chain of child_of / follows_from references has the same trace id and the same baggage apart from the rpc id.", "quantifier": "every chain of derivations", "why_tests_cant": "chains of every length", "anchors": ["mytracer/span_context.py:SpanContext.__init__", "mytracer/tracer.py:MyTracer.start_span"]}
{"id": "C26", "title": "Deriving a span never changes existing contexts", "statement": "Creating spans, injecting, or trying to set a baggage item never changes the baggage or rpc id (string form) of an existing context.", "quantifier": "every history of tracer operations", "why_tests_cant": "all histories", "anchors": ["mytracer/span_context.py:_ImmutableDict", "mytracer/_rpc_id.py:RpcId"]}
{"id": "C27", "title": "Generated trace ids are unique", "statement": "Two trace ids generated by one process are different unless generated in the same millisecond with their draw numbers a positive multiple of 8001 apart; ids of different hosts or processes differ.", "quantifier": "every pair of generated ids, every host, pid, time", "why_tests_cant": "all pairs over time", "anchors": ["mytracer/_trace_id.py:TraceId"]}
{"id": "C28", "title": "Tags given at span creation are recorded on the span", "statement": "start_span(name, tags=d) returns a span whose tags are exactly d.", "quantifier": "every tag dictionary", "why_tests_cant": "all dictionaries", "anchors": ["mytracer/tracer.py:MyTracer.start_span", "mytracer/helpers.py"]}
{"id": "C29", "title": "The recently-used container never exceeds its capacity", "statement": "After any sequence of operations the container holds at most maxsize entries and no key twice.", "quantifier": "every operation sequence, every capacity", "why_tests_cant": "all histories", "anchors": ["mysockpool/recently_used_container.py:RecentlyUsedContainer"]}
{"id": "C30", "title": "The recently-used container behaves as a map", "statement": "A successful get returns the value most recently set for that key and a key that was never set, was deleted, cleared or evicted is reported missing; operations on one key never change another key's value except by eviction.", "quantifier": "every operation sequence", "why_tests_cant": "all histories", "anchors": ["mysockpool/recently_used_container.py:RecentlyUsedContainer"]}
{"id": "C31", "title": "Eviction removes the least recently used key", "statement": "When an insertion exceeds the capacity the key evicted is the one whose last use (get or set) is oldest.", "quantifier": "every operation sequence", "why_tests_cant": "all histories", "anchors": ["mysockpool/recently_used_container.py:RecentlyUsedContainer.__setitem__"]}
{"id": "C32", "title": "Every value that leaves the container is disposed exactly once, and stored values are never disposed", "statement": "For any history of operations over distinct values, the values passed to dispose_func plus the values still stored are exactly the values ever set, each once.", "quantifier": "every operation sequence", "why_tests_cant": "all histories", "anchors": ["mysockpool/recently_used_container.py:RecentlyUsedContainer"]}
{"id": "C33", "title": "The pool manager returns one pool per address", "statement": "Asking for a key again before max_pools other keys were asked for returns the same pool, and two different keys never share a pool.", "quantifier": "every request sequence", "why_tests_cant": "all histories", "anchors": ["mysockpool/pool_manager.py:PoolManager.connection_pool_from_pool_key"]}
{"id": "C34", "title": "Every pool the manager created is managed or closed", "statement": "After any sequence of requests and clears, at most max_pools pools are managed, each of these is open, and every other pool it ever created has been closed.", "quantifier": "every request sequence", "why_tests_cant": "all histories", "anchors": ["mysockpool/pool_manager.py:PoolManager"]}
{"id": "C35", "title": "A pooled connection is never handed to two holders", "statement": "Whatever the interleaving of threads calling get_conn and put_conn (each putting back only what it holds, once), a connection returned by get_conn is not in the pool and not held by anyone else.", "quantifier": "every thread interleaving", "why_tests_cant": "all schedules", "anchors": ["mysockpool/connection_pool.py:ConnectionPool.get_conn", "mysockpool/connection_pool.py:ConnectionPool.put_conn"]}
{"id": "C36", "title": "Free connections are bounded and reused last-in-first-out", "statement": "The pool never keeps more than max_free_connections free connections, and get_conn on a pool with enough free connections returns the one put back most recently.", "quantifier": "every history", "why_tests_cant": "all histories", "anchors": ["mysockpool/connection_pool.py:ConnectionPool"]}
{"id": "C37", "title": "The connection cap is respected", "statement": "The pool never has more than max_connections connections counted, for any history and any interleaving of threads.", "quantifier": "every history and interleaving", "why_tests_cant": "all schedules", "anchors": ["mysockpool/connection_pool.py:ConnectionPool._new_conn"]}
{"id": "C38", "title": "The connection count is accurate", "statement": "num_connections equals the number of open connections that are free or handed out.", "quantifier": "every history of get/put/drop/close", "why_tests_cant": "all histories", "anchors": ["mysockpool/connection_pool.py:ConnectionPool"]}
{"id": "C39", "title": "get_conn never returns a dropped connection", "statement": "The connection returned by get_conn has not been closed and was not detected as dropped.", "quantifier": "every history and every drop pattern", "why_tests_cant": "all histories", "anchors": ["mysockpool/connection_pool.py:ConnectionPool.get_conn", "mysockpool/utils.py:is_connection_dropped"]}
{"id": "C40", "title": "A closed pool hands out nothing and keeps nothing", "statement": "close() closes every free connection; afterwards every get_conn raises ClosedPoolError and every put_conn closes the connection given.", "quantifier": "every history before and after close", "why_tests_cant": "all histories", "anchors": ["mysockpool/connection_pool.py:ConnectionPool.close"]}
{"id": "C41", "title": "connection_scope returns the connection exactly once", "statement": "Whether the body of a connection_scope finishes or raises, a connection acquired is put back exactly once, and nothing is put back if acquisition failed; the body's exception propagates.", "quantifier": "every pool state and body outcome", "why_tests_cant": "all states and outcomes", "anchors": ["mysockpool/pool_manager.py:PoolManager.connection_scope"]}
{"id": "C42", "title": "Address resolution", "statement": "A call to an interface goes to its SERVICE_MAP entry (a bare host gets port 12200), and to the mesh address if there is no entry.", "quantifier": "every service map and interface", "why_tests_cant": "all maps", "anchors": ["anthunder/client/base.py:_BaseClient._get_address"]}
{"id": "C43", "title": "A service map entry is never overwritten by assignment", "statement": "Under any sequence of assignments, subscribes and unsubscribes, the address of an interface stays the one first assigned until it is removed; assigning an existing key raises KeyError and changes nothing.", "quantifier": "every history", "why_tests_cant": "all histories", "anchors": ["anthunder/helpers/immutable_dict.py:ImmutableValueDict", "anthunder/client/base.py:_BaseClient.subscribe"]}
{"id": "C44", "title": "subscribe/unsubscribe effects", "statement": "subscribe posts one subscription per interface and maps each new interface to the mesh address iff the mesh accepted; unsubscribe removes the entry iff the mesh accepted; failures for one interface do not affect the others; without a mesh nothing changes.", "quantifier": "every list of interfaces, service map and mesh behaviour", "why_tests_cant": "all histories and mesh responses", "anchors": ["anthunder/client/base.py:_BaseClient.subscribe", "anthunder/client/base.py:_BaseClient.unsubscribe"]}
{"id": "C45", "title": "Application registration is posted until first success and never again", "statement": "For any sequence of startup calls and mesh answers, exactly one accepted registration is posted, none is posted after it, and startup returns True exactly once registered.", "quantifier": "every sequence of mesh answers", "why_tests_cant": "all histories", "anchors": ["anthunder/mesh/mesh_client.py:MeshClient.startup"]}
{"id": "C46", "title": "A mesh call succeeds only on HTTP 200 with success true", "statement": "_post returns the result iff the status code is 200 and the body's success is the boolean True; otherwise ConnectionError.", "quantifier": "every status code and body", "why_tests_cant": "all answers", "anchors": ["anthunder/mesh/mesh_client.py:MeshClient._post"]}
{"id": "C47", "title": "Falsy application attributes are not posted", "statement": "The registration payload holds exactly the attributes with a truthy value, unchanged.", "quantifier": "every attribute assignment", "why_tests_cant": "all values", "anchors": ["anthunder/mesh/mesh_client.py:ApplicationInfo", "anthunder/mesh/mesh_client.py:MeshClient.startup"]}
{"id": "C48", "title": "publish announces every registered interface", "statement": "publish posts each registered interface once, in registration order, with the listening port; it stops at the first refusal; unpublish likewise.", "quantifier": "every registry and mesh behaviour", "why_tests_cant": "all registries", "anchors": ["anthunder/listener/base_listener.py:BaseListener.publish", "anthunder/listener/base_listener.py:BaseListener.unpublish"]}
{"id": "C49", "title": "Synchronous client reassembles responses under any segmentation", "statement": "The outcome of invoke_sync depends only on the response byte stream, not on how it is split into received chunks.", "quantifier": "every response and every chunking", "why_tests_cant": "exponentially many segmentations", "anchors": ["anthunder/client/client.py:Client.invoke_sync"]}
{"id": "C50", "title": "Synchronous client returns only its own successful response", "statement": "If invoke_sync returns content, the bytes read form a frame with the request's id and status SUCCESS and that content; another id or status raises ServerError.", "quantifier": "every peer byte stream", "why_tests_cant": "adversarial peers", "anchors": ["anthunder/client/client.py:Client.invoke_sync"]}
{"id": "C51", "title": "Synchronous client reads exactly one frame", "statement": "invoke_sync consumes exactly the bytes of one frame and leaves any following bytes on the connection.", "quantifier": "every peer byte stream and chunking", "why_tests_cant": "all streams", "anchors": ["anthunder/client/client.py:Client.invoke_sync"]}
{"id": "C52", "title": "Synchronous calls end by their deadline", "statement": "invoke_sync returns or raises at most timeout+1s after it was called (whatever the peer does).", "quantifier": "every peer behaviour", "why_tests_cant": "all peer behaviours incl. closing", "anchors": ["anthunder/client/client.py:Client.invoke_sync"]}
{"id": "C53", "title": "Synchronous client transmits a request at most once", "statement": "A call makes at most three connection attempts and at most one of them transmits; it stops after the first transmission.", "quantifier": "every pattern of connection failures", "why_tests_cant": "all failure patterns", "anchors": ["anthunder/client/client.py:Client._raw_invoke"]}
{"id": "C54", "title": "Synchronous client reuses pooled connections", "statement": "A connection put back after a successful call is used by the next call to the same address.", "quantifier": "every sequence of calls", "why_tests_cant": "all histories", "anchors": ["anthunder/client/client.py:Client._get_pool"]}
{"id": "C55", "title": "Asynchronous client: a call only completes with its own response", "statement": "Under any interleaving of any number of calls, frames, failures and retries, content delivered to a call is the content of a SUCCESS response frame carrying that call's id, received while the call was pending.", "quantifier": "every schedule and every peer", "why_tests_cant": "all interleavings", "anchors": ["anthunder/client/aio_client.py:AioClient.invoke", "anthunder/client/aio_client.py:AioClient._recv_response"]}
{"id": "C56", "title": "Asynchronous client: an error status never yields content", "statement": "A call whose response has a non-SUCCESS status never returns content; the caller gets an exception.", "quantifier": "every schedule, status and peer", "why_tests_cant": "all interleavings", "anchors": ["anthunder/client/aio_client.py:AioClient._recv_response"]}
{"id": "C57", "title": "Asynchronous client: stray and duplicate responses are ignored", "statement": "A response whose id has no pending call changes nothing: no call is woken, no response is stored.", "quantifier": "every state reachable under any schedule", "why_tests_cant": "all states", "anchors": ["anthunder/client/aio_client.py:AioClient._recv_response"]}
{"id": "C58", "title": "Asynchronous client keeps no bookkeeping for finished calls", "statement": "When every call has finished, no pending-request and no stored-response entry remains.", "quantifier": "every schedule", "why_tests_cant": "all interleavings", "anchors": ["anthunder/client/aio_client.py:AioClient.request_mapping", "anthunder/client/aio_client.py:AioClient.response_mapping"]}
{"id": "C59", "title": "Asynchronous client: no response is lost", "statement": "If a SUCCESS response with a pending call's id is processed, that call eventually (once scheduled) returns that content.", "quantifier": "every schedule", "why_tests_cant": "all interleavings", "anchors": ["anthunder/client/aio_client.py:AioClient._send_request", "anthunder/client/aio_client.py:AioClient.invoke"]}
{"id": "C60", "title": "Asynchronous client writes a request at most three times", "statement": "Whatever fails, the frame of one call is written to connections at most three times, and never again after a write+flush succeeded.", "quantifier": "every schedule and failure pattern", "why_tests_cant": "all interleavings", "anchors": ["anthunder/client/aio_client.py:AioClient._send_request"]}
{"id": "C61", "title": "Asynchronous client shares one connection per address", "statement": "As long as no send fails, any number of concurrent calls to one address open exactly one connection and all use it.", "quantifier": "every schedule", "why_tests_cant": "all interleavings", "anchors": ["anthunder/client/aio_client.py:AioClient._get_connection"]}
{"id": "C62", "title": "One caller's bad request does not disturb other calls", "statement": "A call whose request cannot be encoded fails alone: connections used by other calls stay in use.", "quantifier": "every schedule", "why_tests_cant": "all interleavings", "anchors": ["anthunder/client/aio_client.py:AioClient._send_request"]}
{"id": "C63", "title": "Losing the connection ends the calls pending on it", "statement": "When a connection is lost, every call waiting for a response on it is completed (with an error).", "quantifier": "every schedule", "why_tests_cant": "all interleavings", "anchors": ["anthunder/client/aio_client.py:AioClient._recv_response"]}
{"id": "C64", "title": "Heartbeats succeed against a correct server", "statement": "If the server answers a heartbeat with a matching SUCCESS heartbeat response, invoke_heartbeat returns True and the timer keeps going.", "quantifier": "every schedule", "why_tests_cant": "all interleavings", "anchors": ["anthunder/client/aio_client.py:AioClient.invoke_heartbeat", "anthunder/client/aio_client.py:AioClient._heartbeat_timer"]}
{"id": "C65", "title": "One-way calls are marked one-way on the wire", "statement": "The frame sent by invoke_oneway has packet type ONEWAY, for both clients.", "quantifier": "every call", "why_tests_cant": "all inputs", "anchors": ["anthunder/client/aio_client.py:AioClient.invoke_oneway", "anthunder/client/client.py:Client.invoke_oneway"]}
{"id": "C66", "title": "Server framing is independent of TCP segmentation", "statement": "What the server does with a byte stream depends only on the bytes, not on the chunks they arrive in.", "quantifier": "every stream and every chunking", "why_tests_cant": "exponentially many segmentations", "anchors": ["anthunder/listener/aio_listener.py:AioListener._handler_connection"]}
{"id": "C67", "title": "Pipelined requests are each handled exactly once, in order", "statement": "A stream that is the concatenation of well-formed request frames causes exactly one dispatch per frame, in order, with the frame's id, header, body, type and timeout.", "quantifier": "every sequence of frames", "why_tests_cant": "unbounded sequences", "anchors": ["anthunder/listener/aio_listener.py:AioListener._handler_connection"]}
{"id": "C68", "title": "The connection survives a rejected request", "statement": "A frame with a wrong class name or a RESPONSE command code is answered CLIENT_SEND_ERROR with its id, and the frames after it are handled as if it had not been sent.", "quantifier": "every such frame and every continuation", "why_tests_cant": "unbounded continuations", "anchors": ["anthunder/listener/aio_listener.py:AioListener._handler_connection"]}
{"id": "C69", "title": "The connection survives an undecodable header", "statement": "A frame whose header cannot be parsed is answered CODEC_EXCEPTION with its id, and the frames after it are handled normally.", "quantifier": "every such frame and every continuation", "why_tests_cant": "unbounded continuations", "anchors": ["anthunder/listener/aio_listener.py:AioListener._handler_connection"]}
{"id": "C70", "title": "Every heartbeat is acknowledged", "statement": "Each heartbeat frame, whatever its class name, header and content, causes exactly one heartbeat response with its id and SUCCESS and no dispatch.", "quantifier": "every heartbeat frame", "why_tests_cant": "all frames", "anchors": ["anthunder/listener/aio_listener.py:AioListener._handler_connection"]}
{"id": "C71", "title": "Every reply answers a received request", "statement": "Every frame the server writes on a connection is a well-formed response whose id is the id of a frame received earlier on that connection, for any input bytes and any schedule.", "quantifier": "every byte stream and schedule", "why_tests_cant": "adversarial streams, all schedules", "anchors": ["anthunder/listener/aio_listener.py:AioListener"]}
{"id": "C72", "title": "Every two-way request gets exactly one response", "statement": "Each two-way request received completely gets exactly one response (unless the connection is closed first).", "quantifier": "every stream, service outcome and schedule", "why_tests_cant": "all schedules", "anchors": ["anthunder/listener/aio_listener.py:AioListener._dispatch"]}
{"id": "C73", "title": "One-way requests get no response", "statement": "No response is written for a one-way request.", "quantifier": "every stream, service outcome and schedule", "why_tests_cant": "all schedules", "anchors": ["anthunder/listener/aio_listener.py:AioListener._dispatch"]}
{"id": "C74", "title": "Response status reflects what happened", "statement": "Missing service or method name: CLIENT_SEND_ERROR; unknown service or method: NO_PROCESSOR; service construction failure: SERVER_EXCEPTION; timeout/cancel: TIMEOUT; service raised: UNKNOWN; non-empty bytes returned: SUCCESS with these bytes.", "quantifier": "every request, registry and service outcome", "why_tests_cant": "all combinations", "anchors": ["anthunder/listener/aio_listener.py:AioListener._dispatch", "anthunder/listener/aio_listener.py:AioThreadpoolRequestHandler.handle_request"]}
{"id": "C75", "title": "Responses carry their own request's result under any completion order", "statement": "For any number of concurrent requests on a connection and any completion order, a SUCCESS response with a request's id carries the value returned by the invocation made for that request.", "quantifier": "every schedule", "why_tests_cant": "all completion orders", "anchors": ["anthunder/listener/aio_listener.py:AioListener._dispatch"]}
{"id": "C76", "title": "Server timeouts follow the request's timeout field", "statement": "A request with timeout<=0 is never answered TIMEOUT because of elapsed time; one with timeout>0 that has not completed by then is answered TIMEOUT and its late result is discarded.", "quantifier": "every schedule and timeout", "why_tests_cant": "all schedules", "anchors": ["anthunder/listener/aio_listener.py:AioListener._dispatch"]}
{"id": "C77", "title": "Responses are never interleaved on the wire", "statement": "The bytes the server writes on a connection are always a concatenation of complete response frames, so a client can parse them sequentially.", "quantifier": "every schedule", "why_tests_cant": "all schedules", "anchors": ["anthunder/listener/aio_listener.py:AioListener._write_msg"]}
{"id": "C78", "title": "Service name resolution", "statement": "The service invoked is sofa_head_target_service if present and non-empty, else service; an empty or absent name or method is refused.", "quantifier": "every header mapping", "why_tests_cant": "all headers", "anchors": ["anthunder/listener/aio_listener.py:AioListener._dispatch"]}
{"id": "C79", "title": "Registrations: the last one wins and extra arguments are passed", "statement": "After any sequence of registrations a request for an interface is served by the factory registered last for it, called with the request's context and the extra arguments of that registration.", "quantifier": "every history of registrations", "why_tests_cant": "all histories", "anchors": ["anthunder/listener/aio_listener.py:register_interface", "anthunder/listener/sock_listener.py:register_interface"]}
{"id": "C80", "title": "Listeners have independent registries", "statement": "Registering an interface on one listener does not make it available on another.", "quantifier": "every pair of listeners and history", "why_tests_cant": "all histories", "anchors": ["anthunder/listener/base_listener.py:BaseHandler.interface_mapping"]}
{"id": "C81", "title": "A request is answered at most once", "statement": "No two responses with the same id are written on a connection on which all request ids are distinct.", "quantifier": "every stream, close and schedule", "why_tests_cant": "all schedules", "anchors": ["anthunder/listener/aio_listener.py:AioListener._handler_connection"]}
{"id": "C82", "title": "The service method is invoked exactly once with exactly the request body", "statement": "Each accepted request causes exactly one submission of the named method with the body bytes of that request and the context extracted from its header.", "quantifier": "every stream and schedule", "why_tests_cant": "all schedules", "anchors": ["anthunder/listener/aio_listener.py:AioThreadpoolRequestHandler.handle_request"]}
{"id": "C83", "title": "Socket listener answers a well-formed request with the method's result", "statement": "A connection that delivers one well-formed request for a registered method (under any segmentation) gets exactly one response with its id and the method's bytes.", "quantifier": "every request and segmentation", "why_tests_cant": "all inputs", "anchors": ["anthunder/listener/sock_listener.py:SockBoltHandler.handle"]}
{"id": "C84", "title": "Socket listener handler ends when the peer closes", "statement": "If the peer closes the connection before a full request arrived, the handler terminates.", "quantifier": "every truncated stream", "why_tests_cant": "all truncations", "anchors": ["anthunder/listener/sock_listener.py:SockBoltHandler._readexactly"]}
{"id": "C85", "title": "Socket listener reports errors to the caller", "statement": "A request for an unknown service or method gets a NO_PROCESSOR response.", "quantifier": "every request", "why_tests_cant": "all inputs", "anchors": ["anthunder/listener/sock_listener.py:SockBoltHandler.handle"]}
{"id": "C86", "title": "A synchronous call returns exactly what the service method returns", "statement": "Whatever the synchronous client and the asyncio listener do and however the bytes are cut in both directions, if invoke_sync returns, the listener has made exactly the one call asked for and the value is the bytes it returned. When the request has arrived and everything has settled, invoke_sync returns exactly the bytes the method returned (if non-empty and shorter than 2^32), raises ServerError if the listener refused the request or the method failed, and goes on waiting if the listener answers nothing.", "quantifier": "every method, body, context and segmentation", "why_tests_cant": "composition over unbounded inputs and segmentations", "anchors": ["anthunder/client/client.py:Client.invoke_sync", "anthunder/listener/aio_listener.py:AioListener"]}
{"id": "C87", "title": "An asynchronous call returns exactly what the service method returns", "statement": "Any number of concurrent calls over any number of connections, each answered by an asyncio listener in any order: a call that returns a response returns exactly the bytes that its own method invocation returned; and a waiting call whose response has arrived returns once the reading task has had enough turns and nothing is cancelled or lost.", "quantifier": "every number of calls and completion order", "why_tests_cant": "all interleavings of client and server", "anchors": ["anthunder/client/aio_client.py:AioClient.invoke", "anthunder/listener/aio_listener.py:AioListener"]}
{"id": "C88", "title": "Rpc ids are equal exactly when they look equal", "statement": "Two RpcId objects built from dot-free segments compare equal if and only if their string forms are equal.", "quantifier": "all argument lists of ints and strings", "why_tests_cant": "unbounded ids; the constructor normalises numeric strings", "anchors": ["mytracer/_rpc_id.py:RpcId.__eq__", "mytracer/_rpc_id.py:RpcId.__str__"]}
{"id": "C89", "title": "Received packages can be sent on", "statement": "Every package accepted by from_stream can be encoded again and decodes to the identical package; the bytes are unchanged exactly if the sender used the standard class name and the canonical header encoding, and the header never grows.", "quantifier": "all byte strings", "why_tests_cant": "all inputs, including duplicate keys, nulls and foreign class names", "anchors": ["anthunder/protocol/_package_base.py:BoltPackage.to_stream", "anthunder/protocol/_sofa_header.py:SofaHeader"]}
{"id": "C90", "title": "Frames delimit themselves", "statement": "A byte stream is a concatenation of accepted frames in at most one way.", "quantifier": "all sequences of frames", "why_tests_cant": "unbounded sequences", "anchors": ["anthunder/protocol/_package_base.py:BoltPackage.from_stream"]}
{"id": "C91", "title": "A synchronous call sends its whole request", "statement": "What a synchronous call puts on the wire is the complete frame of its request.", "quantifier": "all calls and all behaviours of the socket", "why_tests_cant": "short writes depend on the operating system", "anchors": ["anthunder/client/client.py:Client._raw_invoke", "mysockpool/connection.py:SocketConnection.send"]}
{"id": "C92", "title": "A call whose request was not sent fails at once", "statement": "If nothing of the request was sent, invoke_sync ends with an exception without waiting for a response.", "quantifier": "all calls and failures", "why_tests_cant": "all failure patterns of connecting, encoding and sending", "anchors": ["anthunder/client/client.py:Client._raw_invoke", "anthunder/client/client.py:Client.invoke_sync"]}
{"id": "C93", "title": "The connection pool does not deadlock", "statement": "In every interleaving of any number of threads, a thread inside a pool call can take its next step, or waits for the lock whose holder releases it with its next step, or waits in a blocking pool for a connection; a get_conn or put_conn takes at most 17 steps of its own.", "quantifier": "all interleavings of any number of threads", "why_tests_cant": "unbounded interleavings", "anchors": ["mysockpool/connection_pool.py:ConnectionPool"]}
{"id": "C94", "title": "A single thread sees the sequential pool", "statement": "Every history of complete pool operations is an execution of the thread-level behaviour with one thread, with the same queue, counter, connections made, closed and held.", "quantifier": "all histories", "why_tests_cant": "refinement between two models", "anchors": ["mysockpool/connection_pool.py:ConnectionPool"]}
{"id": "C95", "title": "Asynchronous client dials an address once at a time", "statement": "At any time at most one call is connecting to a given address; a call that waits for the dial lock waits for a call that is connecting, and goes on when that one is done, has failed or was cancelled.", "quantifier": "all schedules", "why_tests_cant": "all interleavings of calls, dials, failures and cancellations", "anchors": ["anthunder/client/aio_client.py:AioClient._get_connection", "anthunder/client/aio_client.py:AioClient._send_request"]}
{"id": "C96", "title": "Asynchronous client retries failed sends", "statement": "A send that fails while attempts are left is tried again, on the connection that is then in use or a new one, with one attempt less.", "quantifier": "all schedules", "why_tests_cant": "all interleavings of calls that share a connection", "anchors": ["anthunder/client/aio_client.py:AioClient._send_request"]}
{"id": "C97", "title": "Giving up a connection leaves the others alone", "statement": "When a call gives up a broken connection, the other connections stay in use, are still read and are not closed.", "quantifier": "all schedules", "why_tests_cant": "all interleavings of calls that share a connection", "anchors": ["anthunder/client/aio_client.py:AioClient._send_request"]}
{"id": "C98", "title": "Asynchronous client: the packages read are those of the byte stream", "statement": "On each connection of the asyncio client, the packages its reading task processes are the packages contained in the bytes received on that connection: the stream is cut into frames in the only possible way by the declared lengths, frames that cannot be decoded are skipped, and the others are processed in order. At any moment a beginning of that list has been processed; when the reading task has nothing left to do and the connection was neither lost nor given up, all of it has. The division into TCP segments, the scheduling and everything else the client does have no influence.", "quantifier": "for all schedules of calls, dials, drains, cancellations, data segments, EOFs and resets on any number of connections, and all bytes received", "why_tests_cant": "A test feeds a few well-formed responses, usually one per segment; the claim is about every byte stream, every split, and every interleaving with other coroutines.", "anchors": ["anthunder/client/aio_client.py:220-260", "anthunder/protocol/_package_base.py:115-137"]}
{"id": "C99", "title": "Ids of asynchronous calls are distinct", "statement": "If all the ids of a client's calls (one-way, synchronous, asynchronous, heartbeats) were drawn within a window of 2^31 draws of the process-wide generator, no two of the calls carry the same id, whatever the starting id and the interleaving; so a response can end only the call it answers. Two calls drawn 2^31 apart carry the same id: the window is sharp.", "quantifier": "for all starting ids, all positions of draws within a window of 2^31 and all schedules of the client", "why_tests_cant": "Wrap-around happens after up to 2^31 draws from a random start, and collisions need calls around it.", "anchors": ["anthunder/helpers/request_id.py:24-28", "anthunder/protocol/_request_pkg.py:48-51", "anthunder/command/heartbeat.py:33-35", "anthunder/client/aio_client.py:201-212"]}
{"id": "C100", "title": "The listener's treatment of every byte stream", "statement": "Every byte sequence is, in exactly one way, a sequence of frames and pieces of frames to which the asyncio listener reacts in a fixed way: complete frames with decodable header are dispatched, acknowledged or refused; a header section that is no sequence of strings is answered CODEC_EXCEPTION and reading goes on right after it; a string that is no UTF-8 is answered UNKNOWN and the connection is closed. The connection is closed exactly in that last case, or if the stream ends (then after CONNECTION_CLOSED for the frame last begun); no other bytes make the reader stop, and it never dies from an unbound variable.", "quantifier": "for all byte streams, all segmentations and all schedules without a connection reset in which the reader has caught up", "why_tests_cant": "Fuzzing samples malformed streams; the claim classifies all of them, including the state left over from one frame to the next.", "anchors": ["anthunder/listener/aio_listener.py:180-271", "anthunder/protocol/_sofa_header.py:55-104"]}
{"id": "C101", "title": "recvexactly reads exactly the bytes asked for", "statement": "`SocketConnection.recvexactly(size)` returns, if it returns, exactly the next `size` bytes of the stream and consumes no others, however the network cuts them; when the stream has that many bytes it returns after at most `size` rounds; consecutive calls read consecutive parts.", "quantifier": "for all sizes, all streams, all segmentations, spurious select timeouts and failures", "why_tests_cant": "Loopback tests deliver the bytes in one or two pieces; the claim covers every segmentation and every length.", "anchors": ["mysockpool/connection.py:68-76"]}
{"id": "C102", "title": "recvexactly ends when the peer has closed", "statement": "If the peer closes the connection, a pending `recvexactly` ends.", "quantifier": "for all sizes, all streams that end, and all segmentations", "why_tests_cant": "Needs a peer that closes in the middle of a message; a hanging test is taken for a slow one.", "anchors": ["mysockpool/connection.py:68-76"]}
{"id": "C103", "title": "Waiting for sockets; dropped connections", "statement": "`wait_for_read`/`wait_for_write` give exactly the sockets that are ready, without a timeout at least one, and raise SocketValueError exactly when a socket is closed or given twice; a connection counts as dropped exactly when its socket is None, closed, or has something to read.", "quantifier": "for all lists of sockets in any state, one socket or many, both events, with and without waiting", "why_tests_cant": "A test needs real sockets in every combination of states, duplicates included.", "anchors": ["mysockpool/_wait.py:32-64", "mysockpool/utils.py:26-45"]}
{"id": "C104", "title": "Connections of a listener do not affect one another", "statement": "A connection of an asyncio listener behaves as if it were the only one: its state is that after a schedule of its own events, the registrations and the clock since it was accepted, with the executor starting and ending its calls. So every message on a connection answers a request received on that connection, and the requests recognised there depend on the bytes received there only.", "quantifier": "for all numbers of connections, all interleavings of their events, all registries and service behaviours", "why_tests_cant": "Cross-talk between connections shows only under particular interleavings of many clients.", "anchors": ["anthunder/listener/aio_listener.py:108-178", "anthunder/listener/aio_listener.py:180-271"]}
{"id": "C105", "title": "At most thirty methods at once, started in order", "statement": "All connections of a listener together, at most thirty service methods are running at any time, and methods are started in the order in which the calls were submitted: a call submitted before one that has been started has been started or cancelled itself.", "quantifier": "for all schedules of all connections and threads", "why_tests_cant": "Order and limit are about races between threads, connections and time-outs; a test sees one run.", "anchors": ["anthunder/listener/aio_listener.py:51-76"]}
{"id": "C106", "title": "Calls are taken up whatever other methods do", "statement": "Every call submitted to the executor is started (or cancelled) eventually, whatever the methods that are running do.", "quantifier": "for all schedules; in particular with methods that never return", "why_tests_cant": "Needs thirty stuck methods at the same time.", "anchors": ["anthunder/listener/aio_listener.py:51-76"]}
{"id": "C107", "title": "A request answered TIMEOUT is not executed", "statement": "The method of a request that was answered TIMEOUT because its deadline had passed is not executed.", "quantifier": "for all schedules of requests, threads and time", "why_tests_cant": "Needs control over when a thread picks up the call relative to the deadline.", "anchors": ["anthunder/listener/aio_listener.py:153-166"]}
{"id": "C108", "title": "After shutdown nothing is served", "statement": "After `shutdown` no connection is accepted and no service method is started any more.", "quantifier": "for all schedules before and after the shutdown", "why_tests_cant": "A test stops the listener when everything is quiet; the claim is about connections that stay open.", "anchors": ["anthunder/listener/aio_listener.py:108-121"]}
{"id": "C109", "title": "A synchronous call to the socket listener returns exactly what the service method returns", "statement": "Whatever the synchronous client and the socket listener do and however the bytes are cut in both directions, if invoke_sync returns, the listener has made exactly the one call asked for and the value is the bytes it returned. When the request has arrived and the handler has ended without a reset, invoke_sync returns the bytes the method returned (also none at all), raises ServerError if a name in the request is empty, and goes on waiting if the method failed or returned something other than bytes, was not found, or the trace context could not be decoded.", "quantifier": "every method, body, context, registry, segmentation and interleaving", "why_tests_cant": "composition over unbounded inputs and segmentations", "anchors": ["anthunder/client/client.py:Client.invoke_sync", "anthunder/listener/sock_listener.py:SockBoltHandler"]}
{"id": "C110", "title": "What the socket listener makes of an arbitrary byte stream", "statement": "The bytes a connection of the socket listener receives are of exactly one of three kinds: an incomplete frame, a frame whose header section cannot be decoded, a whole frame (unique). Without a reset the handler does nothing and does not end in the first case, sends and calls nothing and ends in the second, and does what the frame asks for in the third, never looking at what follows.", "quantifier": "every byte stream, segmentation and interleaving", "why_tests_cant": "inputs are arbitrary bytes, cut arbitrarily", "anchors": ["anthunder/listener/sock_listener.py:SockBoltHandler", "mysockpool/connection.py:recvexactly"]}
{"id": "C111", "title": "Every request on a connection of the socket listener is served", "statement": "Every well-formed request that arrives on a connection, for a method that is registered, is called with its body.", "quantifier": "every sequence of requests", "why_tests_cant": "tests use one connection per call", "anchors": ["anthunder/listener/sock_listener.py:SockBoltHandler.handle"]}
{"id": "C112", "title": "Any number of clients of one asyncio listener each get their own result", "statement": "Whatever happens on the other connections, whatever the pool threads do and however the bytes are cut: a call of a synchronous or asyncio client that returns has returned the bytes of the one call that the listener made for it, the call asked for; and a synchronous call ends as its call has fared once its own connection has settled.", "quantifier": "every number of connections, schedule of the event loop, pool threads and clients", "why_tests_cant": "composition over unbounded numbers of clients and interleavings", "anchors": ["anthunder/listener/aio_listener.py:AioListener", "anthunder/client/client.py:Client.invoke_sync", "anthunder/client/aio_client.py:AioClient"]}
{"id": "C113", "title": "Connections of the socket listener do not influence each other", "statement": "The state of each connection of a socket listener is that after its own events and the registrations since it was accepted, whatever happens on the others; so a synchronous call on any of them returns exactly what its service method returns.", "quantifier": "every number of connections and interleaving of the handler threads", "why_tests_cant": "interleavings of threads cannot be enumerated", "anchors": ["anthunder/listener/sock_listener.py:SockListener", "anthunder/listener/sock_listener.py:SockBoltHandler"]}
{"id": "C114", "title": "The asyncio client works with the socket listener", "statement": "When the connections of an asyncio client lead to socket listeners, a call whose request a listener has received, which is done with the connection that the client has read to its end, is not left waiting; and what a call returns is the bytes returned by the call it asked for.", "quantifier": "every number of calls and connections, interleaving and segmentation", "why_tests_cant": "needs both sides with several calls in flight on one connection", "anchors": ["anthunder/client/aio_client.py:AioClient._get_connection", "anthunder/listener/sock_listener.py:SockBoltHandler.handle"]}
{"id": "C115", "title": "A process registers its application with the mesh once", "statement": "Whatever clients and listeners a process constructs, and whatever else it does with them, the application is registered with the mesh at most once (MeshClient is declared a singleton).", "quantifier": "every sequence of constructions and operations of clients and listeners of one process", "why_tests_cant": "needs reasoning over all histories of a process; the metaclass declaration looks effective", "anchors": ["anthunder/mesh/mesh_client.py:MeshClient", "anthunder/helpers/singleton.py:Singleton", "anthunder/client/base.py:_BaseClient.__init__", "anthunder/listener/base_listener.py:BaseListener.__init__"]}
{"id": "C116", "title": "An assigned service address stays in effect", "statement": "Once the address of an interface has been assigned, calls to this interface go to this address, whatever clients subscribe or unsubscribe later; interfaces never assigned go to the mesh.", "quantifier": "every history of a process with any number of clients and any mesh", "why_tests_cant": "the table is shared by all clients of the process; histories are unbounded", "anchors": ["anthunder/client/base.py:_BaseClient.subscribe", "anthunder/client/base.py:_BaseClient.unsubscribe", "anthunder/client/base.py:_BaseClient._get_address", "anthunder/helpers/immutable_dict.py:ImmutableValueDict"]}
{"id": "C117", "title": "A listener announces only its own interfaces", "statement": "publish of a listener announces to the mesh only interfaces registered with the handler of this listener, with its port and application name.", "quantifier": "every history of a process with any number of listeners", "why_tests_cant": "needs several listeners in one process and all histories", "anchors": ["anthunder/listener/base_listener.py:BaseHandler", "anthunder/listener/base_listener.py:BaseListener.publish"]}
{"id": "C118", "title": "Children of one span made by several threads have different rpc ids", "statement": "Threads that make children of one RpcId concurrently obtain children with different ids.", "quantifier": "every number of threads and interleaving of their accesses to the counter", "why_tests_cant": "interleavings of single reads and writes cannot be enumerated or provoked by tests", "anchors": ["mytracer/_rpc_id.py:RpcId._new_child_of"]}
{"id": "C119", "title": "Concurrent startups of a mesh client register once", "statement": "Threads calling startup of one MeshClient any number of times post registrations that the mesh refuses and then at most one that it accepts, and nothing after it; a call that returns returns True after the registration was accepted.", "quantifier": "every number of threads and calls, interleaving, and mesh", "why_tests_cant": "interleavings of lock operations and posts cannot be enumerated", "anchors": ["anthunder/mesh/mesh_client.py:MeshClient.startup"]}
{"id": "C120", "title": "In a quiet system no call is left waiting", "statement": "In a system of an asyncio client and the listeners it is connected to, when nothing is left to do on the connection on which a call has sent its request (all bytes have arrived on both sides, the listener has handled all requests, nothing is lost or closed), the call can go on.", "quantifier": "every schedule of client, listeners and network, every number of calls and connections", "why_tests_cant": "quantifies over all joint schedules of both sides and every chunking of the network", "anchors": ["anthunder/client/aio_client.py:AioClient.invoke", "anthunder/client/aio_client.py:AioClient._recv_response", "anthunder/listener/aio_listener.py:AioListener._dispatch"]}
{"id": "C121", "title": "A container shared by threads behaves as one used sequentially", "statement": "Whatever the threads sharing a RecentlyUsedContainer do and however they are scheduled, the calls that have got the lock form one sequential history: every returned call has the result it has in that history, the history respects time and contains each call once, the content and the disposed values are those of the history, and some thread can always go on while a call is unfinished.", "quantifier": "every number of threads, every interleaving of the single accesses, every size of the container, every sequence of calls", "why_tests_cant": "depends on all interleavings of threads at the granularity of single dictionary accesses", "anchors": ["mysockpool/recently_used_container.py:RecentlyUsedContainer.__getitem__", "mysockpool/recently_used_container.py:RecentlyUsedContainer.__setitem__", "mysockpool/recently_used_container.py:RecentlyUsedContainer.clear", "mysockpool/pool_manager.py:PoolManager.connection_pool_from_pool_key"]}
{"id": "C122", "title": "Threads sharing a pool manager get open pools, one per key", "statement": "With max_pools > 0, a pool returned by connection_pool_from_pool_key is not closed when it is returned and no thread is about to close it; calls for the same key with no clear and fewer than max_pools other keys between them return the same pool; calls for different keys never return the same pool.", "quantifier": "every number of threads, every interleaving, every max_pools > 0, all keys", "why_tests_cant": "depends on all interleavings of threads calling the manager", "anchors": ["mysockpool/pool_manager.py:PoolManager.connection_pool_from_pool_key", "mysockpool/pool_manager.py:PoolManager.clear", "mysockpool/recently_used_container.py:RecentlyUsedContainer"]}
{"id": "C123", "title": "Closing a pool leaves nothing open but what users hold", "statement": "When a pool has been closed and all calls on it have ended, every connection that was in the pool or in use when it was disabled, or has been made since, is closed or still held by a user, however the threads were scheduled.", "quantifier": "every number of threads, every interleaving, every moment of the close", "why_tests_cant": "depends on where other threads stand between reading self.pool and using the queue", "anchors": ["mysockpool/connection_pool.py:ConnectionPool.close", "mysockpool/connection_pool.py:ConnectionPool.put_conn", "mysockpool/connection_pool.py:ConnectionPool.get_conn"]}
{"id": "C124", "title": "Closing a pool ends the calls that wait for a connection", "statement": "After a blocking pool has been closed, a thread that waits in get_conn can come to the end of its call without its timeout expiring.", "quantifier": "every reachable state of a closed pool, every continuation", "why_tests_cant": "a statement about all continuations: that a thread waits for ever cannot be observed by a finite test", "anchors": ["mysockpool/connection_pool.py:ConnectionPool.close", "mysockpool/connection_pool.py:ConnectionPool.get_conn"]}
{"id": "C125", "title": "A synchronous call opens at most one connection", "statement": "A call of the synchronous client opens at most one new connection to the server.", "quantifier": "every state of the pools, every call, every behaviour of the network", "why_tests_cant": "counts sockets opened inside the pool library; mocks of the pool hide them", "anchors": ["anthunder/client/client.py:Client._raw_invoke", "anthunder/client/client.py:Client._get_pool", "anthunder/client/client.py:Client.invoke_sync", "anthunder/client/client.py:Client.invoke_oneway", "mysockpool/connection_pool.py:ConnectionPool.get_conn"]}
{"id": "C126", "title": "Dead connections: a synchronous call gets past them or fails at once", "statement": "A synchronous call gets a new connection in each of its attempts. If all of them are dead, it fails at once with an exception, nothing having been sent; if one of the three is alive and takes the request, the request is sent on it exactly once and the call proceeds as on a connection that was alive from the start.", "quantifier": "every state of the pools, every call, every pattern of dead connections", "why_tests_cant": "all combinations of dead connections and send results over the attempts", "anchors": ["anthunder/client/client.py:Client._raw_invoke", "anthunder/client/client.py:Client.invoke_sync", "mysockpool/connection.py:SocketConnection.send", "mysockpool/connection_pool.py:ConnectionPool.get_conn"]}
{"id": "C127", "title": "Threads sharing the asyncio client get the results of their own calls", "statement": "When any number of threads call invoke_sync, invoke_async and invoke_oneway on one client, what invoke_sync returns and what a callback is called with is the content of a SUCCESS response with the id of that very call; a thread in invoke_sync can always go on, by the outcome or by its timeout; and what it returned is final, even if the response comes later.", "quantifier": "every history of callers and event loop, every arrival of responses", "why_tests_cant": "quantifies over all interleavings of caller threads, event loop, timeouts and cancellations", "anchors": ["anthunder/client/aio_client.py:AioClient.invoke_sync", "anthunder/client/aio_client.py:AioClient.invoke_async", "anthunder/client/aio_client.py:AioClient.callback_wrapper", "anthunder/client/aio_client.py:AioClient.invoke"]}
{"id": "C128", "title": "Calls that timed out leave nothing behind", "statement": "When all calls of invoke_sync have returned or raised (a timeout included), no event of theirs is left in request_mapping.", "quantifier": "every history of callers and event loop", "why_tests_cant": "a leak that shows only after many calls to a server that does not answer", "anchors": ["anthunder/client/aio_client.py:AioClient.invoke_sync", "anthunder/client/aio_client.py:AioClient.invoke", "anthunder/client/aio_client.py:AioClient._send_request"]}
{"id": "C129", "title": "A callback is called exactly once", "statement": "When a call of invoke_async with a callback is over, the callback has been called exactly once.", "quantifier": "every history of callers and event loop, every outcome of the call", "why_tests_cant": "needs all ways in which a call can end", "anchors": ["anthunder/client/aio_client.py:AioClient.invoke_async", "anthunder/client/aio_client.py:AioClient.callback_wrapper"]}
{"id": "C130", "title": "A call of the asyncio client is executed at most once", "statement": "The method of a call of the asyncio client is submitted for execution at most once by the server, counted over all connections of the client to it.", "quantifier": "every history of the client's event loop, every listener, every cutting of the bytes into chunks, every failure of connections", "why_tests_cant": "needs a connection that fails after the bytes went out, together with the server's bookkeeping on both connections", "anchors": ["anthunder/client/aio_client.py:AioClient._send_request", "anthunder/client/aio_client.py:AioClient._get_connection", "anthunder/listener/aio_listener.py:AioListener._handler_connection", "anthunder/listener/aio_listener.py:AioListener._dispatch"]}
{"id": "C131", "title": "A call of the synchronous client is executed at most once", "statement": "The method of a call of the synchronous client (one-way calls included) is submitted for execution at most once, and what is submitted is what the call asks for; with the asyncio listener and with the socket listener.", "quantifier": "every call, every pattern of failed attempts, every cutting of the bytes into chunks, every run of the listener", "why_tests_cant": "needs failed and partial sends in the retry loop together with the listeners' framing", "anchors": ["anthunder/client/client.py:Client._raw_invoke", "anthunder/client/client.py:Client.invoke_sync", "anthunder/client/client.py:Client.invoke_oneway", "anthunder/listener/aio_listener.py:AioListener._handler_connection", "anthunder/listener/sock_listener.py:SockBoltHandler.handle"]}
{"id": "C132", "title": "Different calls of one trace have different rpc ids, over any number of processes", "statement": "When span contexts travel in the headers of requests from process to process, the headers of two different calls never carry the same pair of trace id and rpc id, and two contexts with the same pair are the two ends of one call.", "quantifier": "every number of processes, every sequence of span creations, calls and receptions in them, every further header of the calls", "why_tests_cant": "needs programs in several processes that interleave making spans, calling and serving", "anchors": ["mytracer/_rpc_id.py:RpcId", "mytracer/span_context.py:SpanContext", "mytracer/tracer.py:MyTracer", "anthunder/protocol/_sofa_header.py:SofaHeader.build_header", "anthunder/listener/aio_listener.py:AioListener._dispatch"]}
{"id": "C133", "title": "The server waits as long as the caller said", "statement": "The timeout given to a call is the timeout that the listener applies to the execution of that call.", "quantifier": "every call with every timeout, every schedule of the asyncio client and of the listeners it is joined to; every run of the synchronous client", "why_tests_cant": "needs a client, an encoded frame and a listener's timer observed together for every timeout value", "anchors": ["anthunder/client/aio_client.py:AioClient.invoke_sync", "anthunder/client/aio_client.py:AioClient.invoke_async", "anthunder/client/client.py:Client.invoke_sync", "anthunder/protocol/_request_pkg.py:BoltRequest.new_request", "anthunder/listener/aio_listener.py:AioListener._dispatch"]}
{"id": "C134", "title": "Threads calling through one asyncio client get the results executed for their own calls", "statement": "Whatever a thread that calls through the asyncio client gets, or its callback is given, is what an execution of the called method for that very call returned at the listener, and no two calls get the result of one execution.", "quantifier": "every number of threads, every kind of call, every schedule of threads, event loop, connections and listeners, every service", "why_tests_cant": "needs threads, an event loop, several connections and listeners interleaved in every order", "anchors": ["anthunder/client/aio_client.py:AioClient.invoke_sync", "anthunder/client/aio_client.py:AioClient.invoke_async", "anthunder/client/aio_client.py:AioClient.callback_wrapper", "anthunder/client/aio_client.py:AioClient._recv_response", "anthunder/listener/aio_listener.py:AioListener._dispatch"]}
{"id": "C135", "title": "Responses carry the trace context of their request", "statement": "The header of a successful response holds every trace context item of the header of the request it answers.", "quantifier": "every request with trace context items, every schedule of a connection, every service", "why_tests_cant": "needs every header with trace items sent through a listener and the response bytes decoded", "anchors": ["anthunder/listener/aio_listener.py:AioListener._dispatch", "anthunder/listener/sock_listener.py:SockBoltHandler.handle", "anthunder/protocol/_response_pkg.py:BoltResponse.response_to"]}
{"id": "C136", "title": "Times of spans", "statement": "A start time given to start_span is the span's start time until set_start_time gives another one; a with block sets the start time when it is entered and the finish time when it is left, however it is left.", "quantifier": "every program that makes and uses spans, every time", "why_tests_cant": "start and finish times depend on the clock; all orders of calls on all spans have to be covered", "anchors": ["mytracer/span.py:MySpan", "mytracer/tracer.py:MyTracer.start_span"]}
{"id": "C137", "title": "Spans do not disturb each other", "statement": "After a span has been made, its context never changes, and its name, tags and times change only by calls on that very span.", "quantifier": "every program over the tracing API, every span, every further sequence of calls", "why_tests_cant": "needs all sequences of calls on all spans", "anchors": ["mytracer/span.py:MySpan", "mytracer/tracer.py:MyTracer.start_span", "mytracer/helpers.py:child_span_of", "mytracer/helpers.py:follows_span_from", "mytracer/span_context.py:SpanContext"]}
{"id": "C138", "title": "Spans derived by the helpers", "statement": "child_span_of and follows_span_from give a new unfinished span with the given name or else that of the other span, the given tags, the other span's trace id and baggage, and a new rpc id.", "quantifier": "every program over the tracing API, every span in it, every name and all tags", "why_tests_cant": "needs spans with every history", "anchors": ["mytracer/helpers.py:child_span_of", "mytracer/helpers.py:follows_span_from", "mytracer/tracer.py:MyTracer.start_span"]}
{"id": "C139", "title": "Back pressure loses no message", "statement": "As long as the connection is kept, every coroutine that writes a message and is over has written it exactly once.", "quantifier": "every number of writers on one connection, every order in which they run, every rate at which the network takes the bytes, both kinds of flow control of asyncio", "why_tests_cant": "needs a peer that reads slowly at the right moment, with several writers at work, on the Python versions concerned", "anchors": ["anthunder/listener/aio_listener.py:AioListener._write_msg", "anthunder/client/aio_client.py:AioClient._send_request"]}
{"id": "C140", "title": "Writers do not wait for ever", "statement": "A writer is suspended only while the connection is up and its buffer is above the low limit; from every state the event loop and the network alone bring all writers to their end.", "quantifier": "every reachable state of writers, buffer and connection", "why_tests_cant": "lost wake-ups need a particular interleaving of waiting, resuming and losing the connection", "anchors": ["anthunder/listener/aio_listener.py:AioListener._write_msg", "anthunder/client/aio_client.py:AioClient._send_request"]}
{"id": "C141", "title": "How much is buffered for a slow peer", "statement": "The bytes buffered on a connection exceed the high limit by at most one message.", "quantifier": "every number of writers on one connection, every order in which they run, every rate at which the network takes the bytes", "why_tests_cant": "needs many writers waiting at once and the worst order in which they are resumed", "anchors": ["anthunder/listener/aio_listener.py:AioListener._write_msg", "anthunder/client/aio_client.py:AioClient._send_request"]}
{"id": "C142", "title": "Methods may call their own listener", "statement": "If service methods wait for calls to the same listener and no call needs itself, then from every reachable state things can go on so that the methods of all open calls end.", "quantifier": "every number of connections and calls, every relation of calls needing calls without a cycle, every schedule", "why_tests_cant": "needs thirty concurrent methods that all wait; tests have a handful of calls", "anchors": ["anthunder/listener/aio_listener.py:AioThreadpoolRequestHandler", "anthunder/listener/aio_listener.py:AioThreadpoolRequestHandler.handle_request"]}
{"id": "C143", "title": "publish announces what is registered, also while interfaces are registered", "statement": "A call of publish (unpublish) announces every interface registered before it exactly once, in order, and returns, if the mesh accepts all requests, whatever other threads register meanwhile.", "quantifier": "every number of threads in publish, every order of registrations and steps, every mesh", "why_tests_cant": "the registration has to fall between two requests of another thread", "anchors": ["anthunder/listener/base_listener.py:BaseListener.publish", "anthunder/listener/base_listener.py:BaseListener.unpublish"]}
{"id": "C144", "title": "Threads do not overwrite entries of the service map", "statement": "Under assignments by any number of threads an entry of SERVICE_MAP keeps its value until it is removed.", "quantifier": "every number of threads, every interleaving of lookups, stores and removals", "why_tests_cant": "needs a switch of threads between two lines of __setitem__", "anchors": ["anthunder/helpers/immutable_dict.py:ImmutableValueDict.__setitem__", "anthunder/client/base.py:_BaseClient.subscribe"]}
{"id": "C145", "title": "shutdown of the asyncio listener ends the accepting of connections", "statement": "When a call of shutdown has returned, the asyncio listener accepts no connection any more.", "quantifier": "every number of threads calling shutdown, at any moment of the start of the listener", "why_tests_cant": "shutdown has to fall into the short time before the server is known", "anchors": ["anthunder/listener/aio_listener.py:AioListener.run_forever", "anthunder/listener/aio_listener.py:AioListener.shutdown"]}
{"id": "C146", "title": "run_forever of the asyncio listener ends after shutdown", "statement": "When a call of shutdown has returned, the thread in run_forever can leave it.", "quantifier": "every schedule of run_forever and calls of shutdown", "why_tests_cant": "tests run the listener in a daemon thread and do not look whether it ends", "anchors": ["anthunder/listener/aio_listener.py:AioListener.run_forever", "anthunder/listener/aio_listener.py:AioListener.shutdown"]}
{"id": "C147", "title": "shutdown of the socket listener ends and ends the accepting of connections", "statement": "A call of shutdown ends when the threads go on; when it has returned no connection is accepted until run_forever is called again, and clients that try to connect are refused.", "quantifier": "every number of threads calling shutdown, every schedule, both variants of socketserver", "why_tests_cant": "concerns all interleavings of the flag and the event of socketserver", "anchors": ["anthunder/listener/sock_listener.py:SockListener.run_forever", "anthunder/listener/sock_listener.py:SockListener.shutdown"]}
{"id": "C148", "title": "A socket listener can be started again", "statement": "When all calls of shutdown have returned, run_forever serves again.", "quantifier": "every schedule of earlier runs and shutdowns", "why_tests_cant": "needs calls of shutdown that overlap or are repeated", "anchors": ["anthunder/listener/sock_listener.py:SockListener.run_forever", "anthunder/listener/sock_listener.py:SockListener.shutdown"]}
{"id": "C149", "title": "Connections that work are kept", "statement": "As long as no connection is lost, every request can be encoded and no call is cancelled in the middle of a send (Python 3.7), the asyncio client keeps its connections: their reading tasks run on, there is one for each address and it is the one used, and no call writes its message twice.", "quantifier": "every number of calls over shared connections, every order of their steps, every rate at which the network takes the bytes, both kinds of flow control of asyncio", "why_tests_cant": "needs several calls at once on a connection whose peer reads slowly, with one of them in a drain when another comes to its own", "anchors": ["anthunder/client/aio_client.py:AioClient._send_request", "anthunder/client/aio_client.py:AioClient._get_connection", "anthunder/client/aio_client.py:AioClient._recv_response"]}
{"id": "C150", "title": "Requests call only what the service offers", "statement": "What a listener calls for a request is a method that the class of the service object offers (a function defined in one of its classes under a name without a leading underscore), namely the one named in the request.", "quantifier": "every service class and object, every header of a request, every schedule", "why_tests_cant": "tests call the methods that exist and are meant to be called; nobody sends the names of attributes", "anchors": ["anthunder/listener/aio_listener.py:AioThreadpoolRequestHandler.handle_request", "anthunder/listener/sock_listener.py:SockServiceHandler.handle_request"]}
{"id": "C151", "title": "Threads sharing a synchronous client get the results of their own calls", "statement": "Any number of threads make calls through one synchronous client. However their steps interleave, no connection is used by two calls, every call fares as it would alone, and what invoke_sync returns is what the listener's method returned for the request of this thread.", "quantifier": "all interleavings of any number of calls, attempts, kernel answers and cuts of the byte streams, with either listener", "why_tests_cant": "the tests call from one thread; a mix-up needs two calls in flight at the same moment", "anchors": ["anthunder/client/client.py:Client._raw_invoke", "anthunder/client/client.py:Client.invoke_sync", "anthunder/client/client.py:Client.invoke_oneway", "anthunder/client/client.py:Client._get_pool", "mysockpool/connection_pool.py:ConnectionPool.get_conn"]}
{"id": "C152", "title": "Slow readers get all their responses from the asyncio listener", "statement": "On a connection of the asyncio listener that is not reset, back pressure only delays: the reader goes on serving the connection, and once everything has settled every response owed has been written once.", "quantifier": "all schedules of a connection: bytes received, runs of the coroutines and calls, and bytes taken by the socket, with either flow control of asyncio", "why_tests_cant": "the tests read every response at once, so that the transport never pauses the protocol", "anchors": ["anthunder/listener/aio_listener.py:AioListener._write_msg", "anthunder/listener/aio_listener.py:AioListener._handler_connection", "anthunder/listener/aio_listener.py:AioListener._dispatch"]}
{"id": "C153", "title": "Back pressure and lost connections never mix up results", "statement": "Calls of an asyncio client over connections to asyncio listeners, with the flow control of the transports on both ends: however slowly the sockets take bytes, whichever drains raise, whatever responses get lost and whichever connections are reset, a call that returns has returned the bytes of the one method execution made for it, no execution answers two calls, and a listener writes each answer at most once.", "quantifier": "all schedules of client and listeners, buffer limits and Python versions, any number of calls and connections", "why_tests_cant": "needs slow sockets on both sides, several calls and every interleaving of their drains", "anchors": ["anthunder/client/aio_client.py:AioClient.invoke", "anthunder/client/aio_client.py:AioClient._recv_response", "anthunder/listener/aio_listener.py:AioListener._write_msg", "anthunder/listener/aio_listener.py:AioListener._handler_connection"]}
{"id": "C154", "title": "A received rpc id keeps its text", "statement": "The context extracted from a request's header has exactly the rpc id text that the header carries; the id is refused exactly when its last dot-separated part is not an integer literal.", "quantifier": "all headers, all texts over Unicode", "why_tests_cant": "int() accepts blanks, signs, underscores, leading zeros and the digits of every script; tests use plain decimal ids", "anchors": ["mytracer/_rpc_id.py:RpcId.__init__", "mytracer/_rpc_id.py:RpcId.__str__", "mytracer/span_context.py:SpanContext.__init__", "mytracer/tracer.py:MyTracer.extract"]}
{"id": "C155", "title": "Only calls of the protocol are executed", "statement": "Every method a listener runs was asked for by a frame of protocol BOLT, version REMOTING, codec PROTOBUF, command REQUEST, type REQUEST or ONEWAY, and the class of requests.", "quantifier": "every byte stream, every schedule, both listeners", "why_tests_cant": "tests only send frames built by the project's own clients, whose codes are always right", "anchors": ["anthunder/listener/aio_listener.py:AioListener._handler_connection", "anthunder/listener/sock_listener.py:SockBoltHandler.handle", "anthunder/protocol/_package_base.py:BoltPackage.bolt_header_from_stream"]}
{"id": "C156", "title": "Only responses of the protocol complete calls", "statement": "Every call that returns content, of either client, was answered by a frame of type and command RESPONSE, codec PROTOBUF and the class of responses.", "quantifier": "every byte stream, every schedule, both clients", "why_tests_cant": "tests only answer with frames built by the project's own listeners; the test for the class name compares a class attribute with itself", "anchors": ["anthunder/client/client.py:Client.invoke_sync", "anthunder/client/aio_client.py:AioClient._recv_response", "anthunder/protocol/_package_base.py:BoltPackage.bolt_content_from_stream"]}
{"id": "C157", "title": "Read-only dictionaries keep their entries", "statement": "Whatever is done to a SofaHeader, to the baggage of a span context or to a service map, an entry that is there keeps its value.", "quantifier": "all dictionaries of the three classes, all sequences of the operations of dict", "why_tests_cant": "the tests only try assignment by subscript, the one operation the classes override", "anchors": ["anthunder/protocol/_sofa_header.py:SofaHeader.__setitem__", "mytracer/span_context.py:_ImmutableDict.__setitem__", "anthunder/helpers/immutable_dict.py:ImmutableValueDict.__setitem__"]}
{"id": "C158", "title": "An injected context can be extracted from any carrier that takes it", "statement": "If inject raises nothing, extract on the carrier gives the items of the injected context, whichever dictionary class the carrier is.", "quantifier": "all contexts a tracer makes, all carriers of the dictionary classes of the project", "why_tests_cant": "the tests inject into plain dictionaries; a SofaHeader drops every item without a word", "anchors": ["mytracer/tracer.py:MyTracer.inject", "mytracer/tracer.py:MyTracer.extract", "anthunder/protocol/_sofa_header.py:SofaHeader.__setitem__"]}
{"id": "C159", "title": "Connections that nobody can use are closed", "statement": "At every moment each open connection of the socket pool can still be reached by the program; whatever can be reached is not taken away; a synchronous call leaves no connection open.", "quantifier": "all histories of operations on references to connections, pools, managers and pool errors; all calls of the synchronous client", "why_tests_cant": "depends on what refers to what: leaks show up as descriptors running out after many calls, and the tests make a few calls per process", "anchors": ["mysockpool/connection.py:SocketConnection.__del__", "mysockpool/exceptions.py:MysockpoolError.__init__", "anthunder/client/client.py:Client._get_pool", "anthunder/client/client.py:Client._raw_invoke"]}
{"id": "C160", "title": "A client class has one object", "statement": "All constructions of a class that is meant to be a singleton (Client, AioClient, MeshClient) give the same object.", "quantifier": "all sequences of constructions with any arguments and raising constructors; all interleavings of threads", "why_tests_cant": "the tests construct each client once; concurrent first constructions are not tried", "anchors": ["anthunder/helpers/singleton.py:Singleton.__call__", "anthunder/client/client.py:Client", "anthunder/client/aio_client.py:AioClient", "anthunder/mesh/mesh_client.py:MeshClient"]}
{"id": "C161", "title": "Back pressure holds calls of the asyncio client up only while the socket takes nothing", "statement": "Calls are suspended by back pressure only on connections that are up and buffer more than the low limit of the transport; every call suspended on a connection goes on as soon as the socket has taken the buffer down to the low limit, or the connection is lost.", "quantifier": "all executions of the asyncio client with flow control on its connections: any calls, buffer limits with low \u2264 high, message sizes, moments at which the socket takes bytes, losses and cancellations", "why_tests_cant": "needs a peer that stops reading with many calls in flight; a waiter that is never woken is a call that hangs until its timeout, which a test against a fast server never meets", "anchors": ["anthunder/client/aio_client.py:AioClient._send", "anthunder/client/aio_client.py:AioClient._get_connection"]}
{"id": "C162", "title": "A call that is refused leaves nothing behind", "statement": "When invoke_oneway, invoke_sync or invoke_async of the asyncio client raises at once (bad timeout, request that cannot be built), no coroutine has been submitted and the client is as it was.", "quantifier": "all histories of a client, all methods and arguments", "why_tests_cant": "the tests give timeouts that are numbers; that a call goes on after its method has raised is not seen by the caller", "anchors": ["anthunder/client/aio_client.py:AioClient.invoke_oneway", "anthunder/client/aio_client.py:AioClient.invoke_sync", "anthunder/client/aio_client.py:AioClient.invoke_async"]}
{"id": "C163", "title": "The server of performance_aio.py runs the calls one after the other and counts them", "statement": "With the CoroExecutor methods run one at a time in the order of their submission; a request answered TIMEOUT is never run; a request whose method was run gets the result of the method, however long it took; the counter is the number of calls of hello that have returned, and the rates printed add up to it.", "quantifier": "all schedules of any number of connections, all methods and durations", "why_tests_cant": "a benchmark looks at totals only; the order of the calls and the races between deadlines and results depend on the schedule", "anchors": ["performance_aio.py:CoroExecutor", "performance_aio.py:Counter", "performance_aio.py:TestSampleServicePb.hello", "anthunder/listener/aio_listener.py:AioListener._dispatch"]}
{"id": "C164", "title": "Back pressure holds responses of the asyncio listener up only while the socket takes nothing", "statement": "Coroutines of a connection are suspended by back pressure only while the connection is up and the transport buffers more than its low limit; once the socket has taken the buffer down to the low limit every message that waits is written as soon as its coroutine runs, and the reader goes on; the bytes written are those the socket has taken and those buffered.", "quantifier": "all schedules of a connection of the asyncio listener with flow control: any requests, results, buffer limits with low \u2264 high, and moments at which the socket takes bytes or the peer resets", "why_tests_cant": "needs a peer that stops reading with many responses to write; a writer that is never woken is a response that never comes, which a test that reads everything at once never meets", "anchors": ["anthunder/listener/aio_listener.py:AioListener._write_msg", "anthunder/listener/aio_listener.py:AioListener._handler_connection"]}
{"id": "C165", "title": "What the asyncio listener holds for a client that does not read is bounded", "statement": "However many requests a client sends without reading the responses, the bytes the listener holds for it, in the buffer of the transport and in coroutines suspended by back pressure, stay below a bound that depends only on the limits of the transport and the longest message.", "quantifier": "all schedules of a connection of the asyncio listener with either flow control of asyncio, all message sizes", "why_tests_cant": "a test client reads its responses; the growth needs a client that sends and never reads", "anchors": ["anthunder/listener/aio_listener.py:AioListener._write_msg", "anthunder/listener/aio_listener.py:AioListener._handler_connection"]}
{"id": "C166", "title": "The text of an error says what happened", "statement": "str() of an error about a pool is the pool and the message it was made with; the text of the error for a response status tells the status, and different statuses have different texts; the other errors of the package say what they were made with, after the prefix of their class if it has one.", "quantifier": "all error classes, all pools and messages, all statuses", "why_tests_cant": "tests check the class of an error, not its text", "anchors": ["mysockpool/exceptions.py:MysockpoolError.__init__", "anthunder/exceptions.py:ServerError.from_statuscode", "anthunder/exceptions.py:ServerError.__init__", "anthunder/exceptions.py:ClientError.__init__"]}
{"id": "C167", "title": "An error passed to another process keeps its text", "statement": "The copy of an error that pickle makes, when it leaves a process of a process pool, is of the same class and has the same text.", "quantifier": "all error classes and all arguments, any number of copies", "why_tests_cant": "tests do not pass errors between processes", "anchors": ["mysockpool/exceptions.py:MysockpoolError.__reduce__", "anthunder/exceptions.py:ServerError.__init__"]}
{"id": "C168", "title": "Everything for the mesh goes to the mesh address in effect", "statement": "Heartbeats, and calls of interfaces subscribed through the mesh, go to the value that mesh_service_address has when they are sent.", "quantifier": "all histories of assignments, subscriptions, calls and ticks of the timer", "why_tests_cant": "the heartbeat timer fires after thirty seconds; tests end before", "anchors": ["anthunder/client/aio_client.py:AioClient._init", "anthunder/client/aio_client.py:AioClient._heartbeat_timer", "anthunder/client/base.py:_BaseClient.subscribe", "anthunder/client/base.py:_BaseClient._get_address"]}
{"id": "C169", "title": "Back pressure on both sides does not lead to a deadlock", "statement": "In a system of an asyncio client and asyncio listeners whose sockets take bytes only while there is room, in every state in which nothing can happen any more on a connection that is up, no call, no task and no reader is held up by flow control and everything written has arrived; a call that still waits for its response then, if no task of the listener waits for its method, does so because the trace context of its request could not be read or its method returned no non-empty bytes.", "quantifier": "all limits of the buffers and sizes of the sockets, all schedules of client, listeners and network; the part on responses for asyncio protocols that keep all their waiters", "why_tests_cant": "needs both sides to have full buffers at the same time; no test fills one", "anchors": ["anthunder/client/aio_client.py:AioClient._send_request", "anthunder/client/aio_client.py:AioClient._recv_response", "anthunder/listener/aio_listener.py:AioListener._write_msg", "anthunder/listener/aio_listener.py:AioListener._handler_connection"]}
{"id": "C170", "title": "A request whose method raises is answered, whatever the exception", "statement": "When the method called for a two-way request at the asyncio listener has raised an exception, and nothing is left to do for the request, and the connection is open, a response has been written.", "quantifier": "all services, registries, schedules and exceptions", "why_tests_cant": "no test has a service that raises; the outcome depends on how asyncio copies an exception from one future to another", "anchors": ["anthunder/listener/aio_listener.py:AioListener._dispatch", "anthunder/listener/aio_listener.py:AioThreadpoolRequestHandler.handle_request"]}
{"id": "C171", "title": "A service cannot stop the asyncio listener", "statement": "Whatever the methods and classes of services do (sys.exit() included), the event loop of the listener goes on serving its connections.", "quantifier": "all services, registries, schedules of connections, thread pool and loop", "why_tests_cant": "a test would have to call sys.exit in a service and then look at the other connections", "anchors": ["anthunder/listener/aio_listener.py:AioListener._dispatch", "anthunder/listener/aio_listener.py:AioListener.run_forever"]}
{"id": "C172", "title": "Without new calls everything comes to rest, and every call is over or unanswered for a known reason", "statement": "From the moment on when no further call is made, the asyncio client and its listeners can only do finitely many things (passing of time and registrations aside), in whatever order they happen; when nothing more can happen by itself, every call is over, or its connection was closed, reset or given up, or the listener will never answer it: it could not read the trace context, the method returned something that is not a non-empty bytes of a size that fits, or it raised StopIteration.", "quantifier": "all requests made by the client, services, registries, and all endless schedules without further calls of any number of calls on any number of connections", "why_tests_cant": "a test runs one schedule for a limited time; that every schedule ends needs a measure that goes down", "anchors": ["anthunder/client/aio_client.py:AioClient._send_request", "anthunder/client/aio_client.py:AioClient._recv_response", "anthunder/listener/aio_listener.py:AioListener._handler_connection", "anthunder/listener/aio_listener.py:AioListener._dispatch"]}
{"id": "C173", "title": "With back pressure on both sides everything comes to rest as well, and every call is over or unanswered for a known reason", "statement": "With send buffers that have limits, sockets that take bytes only while there is room and calls and tasks that are held up in drain, the asyncio client and its listeners can only do finitely many things once no further call is made (passing of time and registrations aside), whatever closes, resets, cancellations and partial transfers happen; when nothing more can happen by itself, every call is over, or its connection is not up (a call that is still in a drain then has more than the low limit buffered), or the listener will never answer it for one of three reasons: unreadable trace context, a return value that is not a non-empty bytes of a size that fits, or StopIteration.", "quantifier": "all limits of the buffers with low at most high, all sockets that hold at least one byte, requests, services, registries and endless schedules without further calls; the part on what rest means for listener protocols that keep all their waiters and connections that are not reset on the listener's side", "why_tests_cant": "a test runs one schedule and never fills a send buffer; that every schedule ends needs a measure that goes down", "anchors": ["anthunder/client/aio_client.py:AioClient._send_request", "anthunder/client/aio_client.py:AioClient._recv_response", "anthunder/listener/aio_listener.py:AioListener._write_msg", "anthunder/listener/aio_listener.py:AioListener._handler_connection", "anthunder/listener/aio_listener.py:AioListener._dispatch"]}
{"id": "C174", "title": "A response that cannot be decoded ends its call", "statement": "Once a frame with the id of a waiting call has arrived on a healthy connection and been read, the call can go on. (In the asyncio client this holds for frames that can be decoded only: one with an unlisted type, command, version, codec or status, or with a header section that is no list of strings, is logged and wakes nobody, so the call waits for ever unless it is cancelled; everything else that is received is processed as if that frame had not been sent. The synchronous client raises instead.)", "quantifier": "all schedules, requests with distinct ids, streams of frames that fit the layout and segmentations of them", "why_tests_cant": "tests decode well-formed responses only; that a call never ends cannot be observed in a finite run", "anchors": ["anthunder/client/aio_client.py:AioClient._recv_response", "anthunder/client/aio_client.py:AioClient.invoke", "anthunder/protocol/_package_base.py:BoltPackage.bolt_content_from_stream", "anthunder/client/client.py:Client.invoke_sync"]}
{"id": "C175", "title": "A mesh that comes up later is used", "statement": "A client posts what it subscribes and unsubscribes, and a listener what it publishes, also if the mesh could not be reached when the object was made. (It does not: the answer to the registration in the constructor decides once and for all; if it was not accepted, subscribe, unsubscribe, publish and unpublish change nothing, without an exception, whatever the mesh would answer by then; if it was, every later call posts.)", "quantifier": "all meshes whose answers depend on the requests so far, applications, and calls of all clients and listeners of a process before, between and after", "why_tests_cant": "a test has a mesh that is up or down for the whole run", "anchors": ["anthunder/client/base.py:_BaseClient.__init__", "anthunder/client/base.py:_BaseClient.subscribe", "anthunder/client/base.py:_BaseClient.unsubscribe", "anthunder/listener/base_listener.py:BaseListener.__init__", "anthunder/listener/base_listener.py:BaseListener.publish", "anthunder/listener/base_listener.py:BaseListener.unpublish"]}
{"id": "C176", "title": "What a connection holds of unread input is bounded", "statement": "Whatever a peer sends, and however fast, a connection of the asyncio listener or client holds at most a constant number of bytes that it has received and not yet read (twice the limit of the StreamReader and one chunk of the transport). (It does not: the reader asks for as many bytes as the peer declares, and all of them are collected first. What holds is the bound with the declared length in it, four gigabytes at most. The transport is never held back for ever.)", "quantifier": "all limits, byte streams, ways of cutting them, schedules, services, calls and connections", "why_tests_cant": "a test sends short messages; a peer that declares four gigabytes and sends them slowly is not what it tries", "anchors": ["anthunder/listener/aio_listener.py:AioListener._handler_connection", "anthunder/client/aio_client.py:AioClient._recv_response"]}
{"id": "C177", "title": "sendall sends everything", "statement": "SocketConnection.sendall(bytes) on a connection that is open and writable does not raise as long as the socket does not fail, and once it has returned, all bytes have been handed to the operating system, once and in order. (It can raise: the connections of the pool do not block, so sendall raises BlockingIOError as soon as the operating system has no room, after any part of the bytes has been sent, and the caller cannot tell which.)", "quantifier": "all byte sequences, all ways the operating system takes them, blocking and non-blocking connections", "why_tests_cant": "a test sends little over the loopback, where the operating system takes everything at once", "anchors": ["mysockpool/connection.py:SocketConnection.sendall"]}
{"id": "C178", "title": "The backlog of a connection is bounded", "statement": "The number of calls that one connection has made the asyncio listener accept and that no worker has taken up yet is bounded by a constant. (It is not: the reader goes on reading whatever is in the queue of the executor, so a peer that sends requests and reads nothing gets a backlog of any length. What holds is that the peer has paid for every call with 66 bytes and the content.)", "quantifier": "all services, registries, byte streams and schedules", "why_tests_cant": "a test sends a few requests; how the backlog grows with what is sent, for every stream, is a statement about all of them", "anchors": ["anthunder/listener/aio_listener.py:AioListener._handler_connection", "anthunder/listener/aio_listener.py:AioListener._dispatch"]}
{"id": "C179", "title": "Callbacks may use the client", "statement": "A callback of invoke_async may call the client like any other code: invoke_sync called in a callback returns the content of the response when the server answers in time, and other calls go on meanwhile. (They do not: callbacks run in the thread of the event loop, so invoke_sync in a callback always ends with TimeoutError, and until it does, no call of the client gets any further. invoke_async and invoke_oneway are fine.)", "quantifier": "all histories of callers, loop and callbacks, all programs of callbacks, all servers", "why_tests_cant": "a test whose callback only stores its argument does not see it; that no timing whatever helps is a statement about all schedules", "anchors": ["anthunder/client/aio_client.py:AioClient.invoke_async", "anthunder/client/aio_client.py:AioClient.callback_wrapper", "anthunder/client/aio_client.py:AioClient.invoke_sync"]}
{"id": "C180", "title": "The generator of request ids does not grow", "statement": "Drawing request ids takes no memory: after any number of draws, the generator holds as much as before the first one. (It does not: itertools.cycle keeps every id that the chained ranges have yielded, so the process keeps one integer per request, up to 2^31 of them. The ids are those of the specification nevertheless, and the generator never ends.)", "quantifier": "all starts, all numbers of draws", "why_tests_cant": "a test draws some thousand ids; the list that cycle keeps is not visible from Python", "anchors": ["anthunder/helpers/request_id.py:RequestId"]}
{"id": "C181", "title": "What a call returns does not depend on the timing", "statement": "If the service methods are functions of interface, method and body, then two calls of the asyncio client with equal interface, method and body that both get a result get the same result, in any two runs: whatever the schedules, other threads and calls beside, request ids, connections, segments, Python versions and numbers of listeners.", "quantifier": "all pairs of runs of clients with any threads and any number of asyncio listeners", "why_tests_cant": "a statement about pairs of executions; a test sees one schedule at a time", "anchors": ["anthunder/client/aio_client.py:AioClient.invoke", "anthunder/client/aio_client.py:AioClient._recv_response", "anthunder/listener/aio_listener.py:AioListener._dispatch"]}
{"id": "C182", "title": "Heartbeats go on", "statement": "A client that has found a mesh sends a heartbeat every 30 seconds as long as it lives, to a server that acknowledges them. (It does not: the acknowledgement makes the call raise KeyError, which ends the coroutine of the timer, and nobody looks at it. A client whose connections lead to listeners of this project sends at most one heartbeat in its life.)", "quantifier": "all histories of client, timer and listeners", "why_tests_cant": "needs a test that runs for minutes against a real listener; that nothing else the client does helps is a statement about all histories", "anchors": ["anthunder/client/aio_client.py:AioClient._heartbeat_timer", "anthunder/client/aio_client.py:AioClient.invoke_heartbeat", "anthunder/client/aio_client.py:AioClient._recv_response"]}
{"id": "C183", "title": "A synchronous call gives up when its time is over", "statement": "A synchronous call to which nothing comes raises TimeoutError when the timeout that the caller gave is over. (It does not: it waits a second longer, and it counts with the clock of the system, so setting that clock back or forward while the call waits makes it wait longer or give up early by as much.)", "quantifier": "all clocks, timeouts, streams and sequences of rounds of the receiving loop", "why_tests_cant": "tests use one clock and do not set it; that the call is not early or late however the peer spreads its bytes is about all sequences of arrivals", "anchors": ["anthunder/client/client.py:Client.invoke_sync"]}
{"id": "C184", "title": "Methods that do not return hold up nothing but their own results", "statement": "Whatever the methods of an asyncio listener do, and also if none of them ever returns or is started again, the listener goes on by itself until on every connection all bytes received have been read, every heartbeat has been acknowledged, every refusal and every TIMEOUT that is due has been written; all that is left are two-way calls without a timeout whose method has been submitted.", "quantifier": "all histories of a listener with any number of connections, any state of its thread pool and its queue", "why_tests_cant": "needs methods that block for ever in all thirty threads at any moment; a test shows one moment, the claim is that from every moment the loop can finish everything else without the pool", "anchors": ["anthunder/listener/aio_listener.py:AioListener._handler_connection", "anthunder/listener/aio_listener.py:AioListener._dispatch", "anthunder/listener/aio_listener.py:AioListener._write_msg", "anthunder/listener/aio_listener.py:AioThreadpoolRequestHandler.handle_request"]}
{"id": "C185", "title": "A call of the asyncio client is answered by the server it was sent to", "statement": "What a call of the asyncio client returns has come on the connection its request was last written to, a connection to the address the call was made for. (It need not: request_mapping is shared by all connections, so that any connected peer that sends a SUCCESS response with the id of a waiting call completes that call. What holds: a peer to which the request was written completes the call only if it was the last one written to, and if peers answer only what they were asked the claim is true.)", "quantifier": "all schedules of any number of calls and connections, any bytes sent by the peers, connections that fail and calls written again", "why_tests_cant": "tests use one server, or servers that answer only their own requests; what a second connected server can do with a guessed id, and what a late answer on a connection that was given up does, needs arbitrary interleavings over several connections", "anchors": ["anthunder/client/aio_client.py:AioClient._recv_response", "anthunder/client/aio_client.py:AioClient.invoke", "anthunder/client/aio_client.py:AioClient._send_request"]}
{"id": "C186", "title": "Rpc ids taken from requests can be sent on despite the interpreter's limit for decimal digits", "statement": "Current interpreters raise ValueError when int() or str() meets a number of more than 4300 decimal digits. Whatever rpc id a request brings, the context made from it, and every child and follow-up derived from it, still has a text that can be injected into a further request. (Follow-ups need not: a peer that sends as many nines as the limit allows makes an id whose follow-up has no text. What holds: the id of the received context itself always has a text, with which the same id is made again, and derived ids have one as long as the last numbers stay below the limit by the number of derivations.)", "quantifier": "every digit limit, every received text, every sequence of derivations", "why_tests_cant": "the numbers must have thousands of digits and sit exactly at the limit of the interpreter; tests use ids of a few digits", "anchors": ["mytracer/_rpc_id.py:RpcId.__init__", "mytracer/_rpc_id.py:RpcId.__str__", "mytracer/_rpc_id.py:RpcId._new_follows_from", "mytracer/_rpc_id.py:RpcId._new_child_of", "mytracer/span_context.py:SpanContext.__init__"]}
{"id": "C187", "title": "A pool refuses a connection only after it has made as many as it may", "statement": "get_conn of a pool that does not block raises EmptyPoolError only if the pool has made max_connections connections. (It need not be so: a connection is counted before its socket is created, so every creation that fails, as when the process has no file descriptor left, uses up one of max_connections for good. What holds: the connections made and the failed creations are together at least max_connections.)", "quantifier": "every configuration, every history of operations, sockets that can be created or not in any pattern", "why_tests_cant": "tests do not run out of file descriptors, and the effect shows only after as many failures as the pool may have connections; that it never recovers is a statement about all later histories", "anchors": ["mysockpool/connection_pool.py:ConnectionPool._new_conn", "mysockpool/connection_pool.py:ConnectionPool.get_conn", "mysockpool/connection.py:SocketConnection.__init__"]}
{"id": "C188", "title": "Requests are served whether or not the name of the host can be resolved", "statement": "The asyncio listener serves every request whose service and method are named and whose rpc id is in order, also while the host cannot resolve its own name, and spans can be started there. (It does not: a trace id is made from the address of the host name, so that a request that carries no trace id is dropped without an answer and no first span of a trace can be started. What holds: with requests that carry a trace id the listener behaves as if the name could be resolved.)", "quantifier": "all schedules of a connection of the asyncio listener, any bytes received, names that can be resolved or not at any moment", "why_tests_cant": "tests run where the host name resolves; the failure is that of a name server at the moment a task starts, and that the request is never answered is a statement about all later schedules", "anchors": ["mytracer/_trace_id.py:TraceId.__init__", "mytracer/span_context.py:SpanContext.__init__", "mytracer/tracer.py:MyTracer.extract", "anthunder/listener/aio_listener.py:AioListener._dispatch"]}
{"id": "C189", "title": "A request that is refused is not executed", "statement": "When the asyncio listener refuses a request (a name is missing, the trace context cannot be read, there is no such method, or handling it failed), its method is not executed. (It can be: the executor queues a call before it starts a thread for it; where no thread can be started, submit raises, the request is answered SERVER_EXCEPTION, and a worker that becomes free runs the method all the same. What holds: every other refused request has no call in the queue.)", "quantifier": "all schedules of a connection of the asyncio listener, any bytes received, threads that can be started or not at any moment", "why_tests_cant": "the limit of threads of a process is not reached in tests, and that nothing ever takes the queued call back is a statement about all later schedules", "anchors": ["anthunder/listener/aio_listener.py:AioThreadpoolRequestHandler.handle_request", "anthunder/listener/aio_listener.py:AioListener._dispatch"]}
{"id": "C190", "title": "Service objects that take long to make hold up nothing else", "statement": "While the asyncio listener makes a service object for one request, other connections go on being read and answered. (They do not: the class is called in the thread of the event loop, only the method runs in the pool. Until the object is there no connection is accepted, read or answered, and requests whose time is over are not told so. What holds: apart from the waiting the listener behaves as if service objects were made in no time.)", "quantifier": "all schedules of a listener with any number of connections, classes that take any time, registrations and methods that go on meanwhile", "why_tests_cant": "service classes of tests return at once; that nothing else moves, and that every state is one of the listener without such classes, are statements about all interleavings", "anchors": ["anthunder/listener/aio_listener.py:AioThreadpoolRequestHandler.handle_request", "anthunder/listener/aio_listener.py:AioListener._dispatch"]}
{"id": "C191", "title": "An interrupt while waiting for the mesh reaches the program", "statement": "A call that is interrupted (KeyboardInterrupt, SystemExit) while it waits for an answer of the mesh ends with the interrupt. (The constructors of clients and listeners do not: their bare `except` swallows it, and the object made never uses the mesh. subscribe, unsubscribe, publish and unpublish end with the interrupt exactly if they were interrupted.)", "quantifier": "all meshes (functions of the whole history), all states of the process, all calls", "why_tests_cant": "tests have no user that presses Ctrl-C; which calls let interrupts pass, at any of their requests, is a statement about all meshes and states", "anchors": ["anthunder/client/base.py:_BaseClient.__init__", "anthunder/listener/base_listener.py:BaseListener.__init__", "anthunder/client/base.py:_BaseClient.subscribe", "anthunder/mesh/mesh_client.py:MeshClient._post"]}
{"id": "C192", "title": "Every call of clients and listeners that uses the mesh ends", "statement": "Constructors, subscribe, unsubscribe, publish and unpublish end whatever the mesh does. (They do not: requests are posted without a timeout. A call hangs exactly if its last request is never answered, and then the rest of the program is not executed.)", "quantifier": "all meshes that may leave requests unanswered, all programs", "why_tests_cant": "a test mesh answers; that the last unanswered request is the only reason to hang is a statement about all meshes and programs", "anchors": ["anthunder/mesh/mesh_client.py:MeshClient._post", "anthunder/mesh/mesh_client.py:MeshClient.startup", "anthunder/client/base.py:_BaseClient.subscribe", "anthunder/listener/base_listener.py:BaseListener.publish"]}
{"id": "C193", "title": "A process whose socket listener was shut down ends when its peers have gone", "statement": "After shutdown of the socket listener, when every peer has closed its connection and methods end, the process ends. (It does not: the threads of connections are no daemons, and one whose peer closed before a whole request had arrived goes round for ever. n peers that connect and close leave n such threads. The process can end exactly if on every connection a whole frame arrived, or one whose header cannot be decoded, or a reset.)", "quantifier": "all schedules of a listener with any number of connections and any bytes on them", "why_tests_cant": "a test kills its server; which of all connection histories keep a process alive is a statement about all byte streams and interleavings", "anchors": ["anthunder/listener/sock_listener.py:SockListener.shutdown", "anthunder/listener/sock_listener.py:SockBoltHandler._readexactly", "anthunder/listener/sock_listener.py:SockBoltHandler.handle"]}
{"id": "C194", "title": "A synchronous call with a long timeout waits", "statement": "Whatever timeout the caller gives, of those that a request can carry (below 2^31 ms), a synchronous call to which nothing comes ends with TimeoutError. (Not so: a second is added to the timeout, and epoll refuses more than 2^31-1 ms. With 2147483647, the largest there is, the request is sent and the call raises OverflowError at once, even if the response has come. Up to 2147482647 all is well, unless the system clock is set back.)", "quantifier": "all clocks, timeouts, streams and sequences of rounds of the receiving loop", "why_tests_cant": "tests do not wait 24 days; the boundary is found by looking at all timeouts and all clocks", "anchors": ["anthunder/client/client.py:Client.invoke_sync"]}
{"id": "C195", "title": "A pool to which everything was given back hands out connections", "statement": "A pool that does not block, to which every connection it has handed out was given back, hands out a connection. (It need not: a get_conn that takes a free connection and cannot replace it raises and loses the one it took, which stays counted. A pool with the default arguments that was exhausted twenty times refuses for ever though nobody holds a connection. Proved exactly when a pool refuses, in every history.)", "quantifier": "all histories of calls on a pool, all pool arguments", "why_tests_cant": "a test would have to exhaust the pool as often as it may have connections; exactly when it refuses is a statement about all histories", "anchors": ["mysockpool/connection_pool.py:ConnectionPool.get_conn", "mysockpool/connection_pool.py:ConnectionPool._new_conn"]}
{"id": "C196", "title": "The end of a process deals with the requests it has accepted", "statement": "When a process with an asyncio listener (run_threading) is over, every request whose call was given to the thread pool has been executed and answered. (Answered it need not be: the process ends as soon as the threads of the pool have nothing to do, wherever the daemon thread of the loop is. Executed it is, or its deadline has passed before. From the end of the main thread on nothing is given to the pool; requests are refused at once. A method that does not return keeps the process alive for ever; if the methods return the process ends.)", "quantifier": "all schedules of the listener, its threads and the end of the main thread", "why_tests_cant": "whether the response is written before the interpreter is gone is a race at exit; that nothing accepted is left unexecuted is a statement about all schedules", "anchors": ["anthunder/listener/base_listener.py:BaseListener.run_threading", "anthunder/listener/aio_listener.py:AioThreadpoolRequestHandler.handle_request", "anthunder/listener/aio_listener.py:AioListener._dispatch"]}
{"id": "C197", "title": "unpublish withdraws what was announced", "statement": "After a listener of a process has called unpublish, the mesh holds no announcement by this process that it has accepted and not been asked to withdraw. (It does where it refuses one: the loop ends with the first refusal and the interfaces after it stay announced, however often unpublish is called. Proved exactly which are withdrawn, in every history of a process with any number of listeners, and that all are if the mesh accepts every request, also those announced by other listeners.)", "quantifier": "all histories of a process, all answers of the mesh", "why_tests_cant": "which announcements remain depends on the order of registrations of all listeners and on where the mesh refuses; tests use a mesh that accepts everything", "anchors": ["anthunder/listener/base_listener.py:BaseListener.unpublish", "anthunder/listener/base_listener.py:BaseListener.publish", "anthunder/mesh/mesh_client.py:MeshClient.unpublish"]}
{"id": "C198", "title": "The service map agrees with the subscriptions the mesh holds", "statement": "In every history of a process with any number of clients and listeners, and whatever the mesh answers, an interface to which the program has assigned no address is in SERVICE_MAP exactly if the mesh has accepted a subscription of it and, since then, no unsubscription. With an assigned address only one direction holds: what the mesh holds a subscription of is in the map.", "quantifier": "all histories of a process, all answers of the mesh", "why_tests_cant": "the map and the mesh are changed by different statements, between which a post can fail, and entries are shared by all clients; agreement in all histories is an invariant", "anchors": ["anthunder/client/base.py:_BaseClient.subscribe", "anthunder/client/base.py:_BaseClient.unsubscribe", "anthunder/helpers/immutable_dict.py:ImmutableValueDict.__setitem__"]}
{"id": "C199", "title": "A request of which only a part arrives is not executed", "statement": "For both listeners, at any moment of any schedule, with resets, with the end of the stream or without: if what has arrived on a connection is some whole frames and a proper part of one more, then what has been done is what an initial part of the whole frames asks for, each once and in their order (and at the end of the stream CONNECTION_CLOSED, with the id of the cut request if its fixed part had arrived); no method is run with anything of the cut request. The socket listener, which reads one request, runs nothing and writes nothing.", "quantifier": "all byte streams that are whole frames and a part of one, all ways of cutting, all schedules and resets", "why_tests_cant": "a cut can fall on any byte, together with any interleaving of reads, resets and calls in progress; that an empty content makes the last read a read of nothing is one of the places that a test would have to hit", "anchors": ["anthunder/listener/aio_listener.py:AioListener._handler_connection", "anthunder/listener/sock_listener.py:SockBoltHandler.handle", "anthunder/listener/sock_listener.py:SockBoltHandler._readexactly"]}
{"id": "C200", "title": "A response of which only a part arrives completes no call", "statement": "For both clients: a call returns only what a whole response carries. The synchronous client, when only a proper part of the response arrives, goes on waiting, or ends by its timeout or an error of the socket, and does not give the connection back to the pool. The asyncio client, along every schedule with lost connections and retries: if what arrived on each connection is some whole responses and a part of one more, every call that has returned has returned the content of one of the whole ones with its id and status SUCCESS.", "quantifier": "all responses, all ways of cutting, all schedules", "why_tests_cant": "a cut can fall on any byte and meets any state of the reading loops; tests cut at a few places", "anchors": ["anthunder/client/client.py:Client.invoke_sync", "anthunder/client/aio_client.py:AioClient._recv_response"]}
{"id": "C201", "title": "What is announced is served", "statement": "While the mesh holds an announcement of a service by this process, the process has a listener with the announced port that serves. (False: publish does not ask whether the listener serves, and shutdown withdraws nothing. A program that publishes only with listeners that serve, and shuts a listener down only when nothing is announced at its port, has the property.)", "quantifier": "all meshes, all sequences of calls of the clients and listeners of a process, run_forever and shutdown included", "why_tests_cant": "the tests publish at a stub that keeps nothing and never look at the mesh after shutdown; the order that is sufficient is a statement about all programs", "anchors": ["anthunder/listener/base_listener.py:BaseListener.publish", "anthunder/listener/base_listener.py:BaseListener.unpublish", "anthunder/listener/aio_listener.py:AioListener.shutdown", "anthunder/listener/sock_listener.py:SockListener.shutdown"]}
{"id": "C202", "title": "The socket listener takes no notice of five fields of a request", "statement": "What a connection of the socket listener does (the method called, its arguments, the messages written, each at its moment, and the end of the thread) does not depend on the fields protocol code, type of the call, version, codec and timeout of the request: two peers whose bytes differ in these fields only, sent in the same pieces, see the same at every moment of every schedule. So a one-way call is answered like a two-way call, a call whose time is over is executed and answered, and a request of any protocol and codec is taken for one of bolt v1.", "quantifier": "all pairs of byte streams that differ in these fields, all segmentations and schedules, with resets and the end of the stream", "why_tests_cant": "a relation between two runs for all values of the fields and all interleavings; a test compares a few pairs", "anchors": ["anthunder/listener/sock_listener.py:SockBoltHandler.handle", "anthunder/listener/sock_listener.py:SockBoltHandler._readexactly"]}
{"id": "C203", "title": "A shared pool refuses a connection only while it has max_connections", "statement": "Threads share a pool that is open, does not block and need keep nothing free: get_conn raises EmptyPoolError only when the connections that are free, held, or in the hands of other calls are max_connections at least. (False: num_connections += 1 is outside the lock, a decrement between its read and its write is lost, and the count can drift up to max_connections with one connection open, whatever max_connections is. True of schedules without such a decrement.)", "quantifier": "all pool settings with min_free 0, all numbers of threads, all interleavings of get_conn, put_conn and closing of held connections", "why_tests_cant": "the tests of the pool use one thread at a time, and a lost update needs a switch between two bytecodes", "anchors": ["mysockpool/connection_pool.py:ConnectionPool._new_conn", "mysockpool/connection_pool.py:ConnectionPool.get_conn", "mysockpool/connection_pool.py:ConnectionPool.put_conn"]}
{"id": "C204", "title": "The connections of a shared pool are bounded", "statement": "A pool shared by n threads never has more connections free or held than max_connections + (n - 1). (False: of two increments of num_connections that overlap one is lost, so the count can sink without limit, and two threads can come to hold any number of connections. True of runs in which no thread writes the count while another is between reading and writing it and no dropped connection is found.)", "quantifier": "all pool settings, all numbers of threads, all interleavings of get_conn, put_conn, close and closing of held connections", "why_tests_cant": "the tests of the pool use one thread at a time; a lost update needs a switch between two bytecodes, and the drift shows only after many of them", "anchors": ["mysockpool/connection_pool.py:ConnectionPool._new_conn", "mysockpool/connection_pool.py:ConnectionPool.get_conn", "mysockpool/connection_pool.py:ConnectionPool.put_conn"]}
{"id": "C205", "title": "The socket listener serves requests whether or not the name of the host can be resolved", "statement": "The thread of a connection of the socket listener ends without a call on a host whose name cannot be resolved only where it does so on any other host. (False: a request without a trace id needs a new one, which resolves the name of the host; the exception ends the thread and the connection is closed without an answer. True of requests that carry a trace id.)", "quantifier": "all services and registries, all byte streams and schedules, the name being resolvable at some moments and not at others", "why_tests_cant": "the tests run where the name of the host is known", "anchors": ["anthunder/listener/sock_listener.py:SockBoltHandler.handle", "mytracer/tracer.py:MyTracer.extract", "mytracer/_trace_id.py:TraceId.__init__"]}
{"id": "C206", "title": "Peers that leave do not use up the threads of the socket listener", "statement": "A process can run a limited number of threads. When all peers of its socket listener have closed their connections and no method is running, the listener comes to have a thread for the next connection. (False: a thread whose peer closed in the middle of a request reads on for ever. As many peers as there can be threads, each connecting and leaving, put an end to the service: every later connection is closed at once. Connections that got a thread are served as without a limit.)", "quantifier": "all limits, services and registries, all schedules of a socket listener with any number of connections", "why_tests_cant": "the tests never close a connection before the answer and have two or three threads; that it stays so for ever is a statement about all continuations", "anchors": ["anthunder/listener/sock_listener.py:SockListener.__init__", "anthunder/listener/sock_listener.py:SockBoltHandler._readexactly", "anthunder/listener/sock_listener.py:SockBoltHandler.handle"]}
{"id": "C207", "title": "Calls made with the asyncio client are sent before the process ends", "statement": "When a process that has used the asyncio client is over, the request of every call that was made and has not raised an exception was sent. (False: the loop of the client runs in a daemon thread, so that a one-way or asynchronous call that is the last thing the main thread does is lost, whether or not there is a connection. A call whose response invoke_sync has returned was sent.)", "quantifier": "all schedules of a process with an asyncio client: any calls of the main thread, any interleaving with the coroutines, any behaviour of the peers, the process ending at any time", "why_tests_cant": "the tests wait for the answers or sleep before they end; that the request is lost whatever went before is a statement about all histories", "anchors": ["anthunder/client/aio_client.py:AioClient._init", "anthunder/client/aio_client.py:AioClient.invoke_oneway", "anthunder/client/aio_client.py:AioClient.invoke_sync", "anthunder/client/aio_client.py:AioClient.invoke_async"]}
{"id": "C208", "title": "An asyncio client made before a fork works in the child", "statement": "When a process that has an asyncio client forks, calls through the client work in the child: invoke_sync may come to return a response. (False: the thread of the loop does not exist in the child. There invoke_sync always ends with a TimeoutError and one-way calls are lost, without any request being sent. The connections and calls of the parent are not touched.)", "quantifier": "all schedules of the parent before the fork, all calls of the child in any order", "why_tests_cant": "the tests never fork; that no call of the child is ever sent is a statement about all its executions", "anchors": ["anthunder/client/aio_client.py:AioClient.__init__", "anthunder/client/aio_client.py:AioClient._init", "anthunder/client/aio_client.py:AioClient.invoke_sync", "anthunder/client/aio_client.py:AioClient.invoke_oneway"]}
