# Formal model of alipay/sofa-bolt-python in Lean 4 — design

## Layout

    lean/Verif/Model/   shallow executable models of the Python code, one file per source area
    lean/Verif/Spec/    small specifications, written without the model's helpers
    lean/Verif/Lemmas/  helper lemmas (never cited as claims)
    lean/Verif/Props/   the property theorems (C01 ...), one file per area, each with non-vacuity examples

Every definition in `Model/` has a comment citing the file and lines of /repo it models and
naming every simplification. Exceptions are values (`Except PyExc α`). Python `str` is a list of
code points (surrogates allowed, as in Python), `bytes` is `List UInt8`, `dict` is an
insertion-ordered association list, dynamically typed arguments are `PyObj`.

Concurrent parts (asyncio client, asyncio listener, connection pool with threads) are
small-step state machines whose *events* are chosen by an adversary; theorems quantify over every
list of events (every schedule, peer behaviour, failure pattern).

A property that the code violates is kept at full strength as a `def CNN_full : Prop`, refuted by a
theorem `CNN_violated : ¬ CNN_full` with a concrete witness, and accompanied by the strongest
`CNN_..._partial` theorem found.

## Trusted base

* The Lean 4.33.0 kernel. No `sorry`, no `native_decide`, no `bv_decide`, no axioms of our own, no Mathlib module
  is imported. `decide +kernel` is used for concrete runs (examples and counterexamples): the kernel evaluates the
  decision procedure itself, nothing else is trusted.
* Axioms: every theorem named in MANIFEST.json depends on a subset of `propext`, `Classical.choice`, `Quot.sound`.
  `Verif/Audit.lean` prints the list for each of them during the build.
* Our reading of the Python code (nothing was run) and of the library/interpreter semantics the model
  builds in; each is stated where it is modelled: `struct` (sizes, ranges, exact-length unpack), UTF-8
  codec (strict), `dict` order and its iterators, `int(str)` with the decimal digits of Unicode 14, `IntEnum` lookup, `queue.LifoQueue`,
  `OrderedDict`, `itertools.cycle/chain`, asyncio (code between awaits is atomic; StreamReader.readexactly;
  Event; Lock; `wait_for`), `concurrent.futures` (a started call cannot be cancelled; `ThreadPoolExecutor` takes calls from a FIFO queue with at
  most `max_workers` threads), `requests` (as an oracle
  giving status and JSON body), sockets (as byte streams with adversarial segmentation), `socketserver` (one thread
  per connection, the connection is closed when `handle` is left; `serve_forever` and `shutdown` with their flag and event), reference counting of CPython (C159 only: an object is
  freed, and `__del__` runs, as soon as nothing refers to it; objects that refer to each other are not).

## What is modelled

| model file | source | remarks |
|------------|--------|---------|
| Py, Struct | the parts of the interpreter and of `struct` that the code uses |
| Header | protocol/_sofa_header.py, _rpc_trace_context.py |
| Package | protocol/constants.py, _package_base.py, _request_pkg.py, _response_pkg.py, command/*.py, helpers/request_id.py |
| Tracer | mytracer/*.py |
| Container | mysockpool/recently_used_container.py, the pool map of pool_manager.py |
| Pool | connection_pool.py call by call, pool_manager.py `connection_scope` |
| PoolThreads | connection_pool.py, one shared access per step, any number of threads |
| Mesh | client/base.py, mesh/mesh_client.py, helpers/immutable_dict.py, publish/unpublish of listener/base_listener.py |
| SyncClient | client/client.py |
| AioClient | client/aio_client.py: any number of calls and connections, locks, retries, cancellation (3.7 and 3.8 rules) |
| Handler | the handler classes of both listeners and their shared registry |
| AioListener | listener/aio_listener.py, one connection: reader, tasks, futures, timeouts, writes |
| AioServer | listener/aio_listener.py, all connections of a listener, the thread pool with its thirty threads, shutdown |
| SockListener | listener/sock_listener.py, one connection |
| SockServer | listener/sock_listener.py, all connections, accept and shutdown |
| Process | all clients and listeners of a process with the state they share: service table, interface mapping, mesh |
| Threads | interleavings of `RpcId._new_child_of` and of `MeshClient.startup` |
| PoolWorld | mysockpool/pool_manager.py with mysockpool/connection_pool.py (manager and the contents of its pools) |
| SyncPools | anthunder/client/client.py with mysockpool (whole calls on real pools) |
| AioCallers | anthunder/client/aio_client.py (the calling threads, their futures, timeouts and callbacks) |
| TraceNet | mytracer, `build_header`, `extract` in the listeners | several processes; contexts travel in encoded headers |
| SpanApi | mytracer/span.py, helpers.py, tracer.py | span objects with names, tags and times |
| Drain | aio_listener.py `_write_msg`, aio_client.py `_send` | flow control of one connection shared by many writers |
| SharedDicts | base_listener.py `publish`/`unpublish`, immutable_dict.py | threads that iterate the registry while others register; threads that assign to `SERVICE_MAP` |
| Lifecycle | aio_listener.py, sock_listener.py `run_forever`/`shutdown`, socketserver `serve_forever`/`shutdown` | starting and stopping listeners from several threads |
| AioFlow | aio_client.py `_send_request` over asyncio's flow control | the client with `drain` decided by the transport |
| Attrs | `getattr(svc_obj, method)`, aio_listener.py:69, sock_listener.py:55 | attribute lookup through classes, object and `object` |
| SyncThreads | client.py:55-141 | steps of any number of calls of one synchronous client |
| ListenerFlow | aio_listener.py:123-271 | a connection of the asyncio listener with the flow control of its transport |
| ReadOnly | anthunder/protocol/_sofa_header.py:89-95, mytracer/span_context.py:28-30, anthunder/helpers/immutable_dict.py:25-29, mytracer/tracer.py:133-134 | dictionary subclasses with overridden `__setitem__`, under all operations of dict |
| Refs | mysockpool/connection.py:81-82, exceptions.py:28-30, connection_pool.py:66-178, pool_manager.py:45-98, client/client.py:72-97, 134 | objects and references, freed by counting; the references that a synchronous call takes and drops |
| Singleton | helpers/singleton.py, client/client.py:44-45, client/aio_client.py:47-48, mesh/mesh_client.py:70-71 | which classes have the metaclass; constructions in one thread and in several |
| CoroExecutor | performance_aio.py | the executor whose calls run on the event loop, `wait_for` of Python 3.5-3.11, the counter and what it prints |
| Errors | anthunder/exceptions.py, protocol/exceptions.py, mysockpool/exceptions.py | arguments can be pickled |
| MeshAddress | anthunder/client/base.py, aio_client.py:51-73, 121-125 | answers of the mesh are events |
| AioExit | listener/aio_listener.py, with services that raise SystemExit | a call that ended in SystemExit is one that is never delivered |
| InputFlow | listener/aio_listener.py, client/aio_client.py: AioListener and AioClient with the input flow control of asyncio's StreamReader (pause above 2*limit, resume when waiting or at most limit left) |
| SendAll | mysockpool/connection.py: SocketConnection.sendall, the operating system as environment |
| Callbacks | client/aio_client.py: callbacks of AioClient as code that runs in the thread of the event loop |
| IdGen | helpers/request_id.py: `cycle(chain(range, range))` as an object with state |
| HeartbeatTimer | client/aio_client.py: `_heartbeat_timer` beside the client, with time |
| SyncWait | client/client.py: the receiving loop of `invoke_sync` with time |
| DigitLimit | mytracer/_rpc_id.py with an interpreter that refuses `int(str)` and `str(int)` beyond a number of decimal digits (the limit is a parameter; the other models have none) |
| PoolSockets | mysockpool/connection_pool.py when `socket.socket()` can fail |
| HostName | mytracer/_trace_id.py, span_context.py, tracer.py and `_dispatch` of the asyncio listener where `gethostbyname` can fail (in the other models a fresh trace id is always there) |
| ExecutorFull | `handle_request` and `_dispatch` of the asyncio listener where `executor.submit` can fail after having queued the call (as in concurrent/futures/thread.py; trusted) |
| SlowService | `handle_request` of the asyncio listener where calling the service class takes time in the thread of the loop |
| MeshSilent | Process where a post may never return or be interrupted |
| SockExit | threads of `ThreadingTCPServer` that are no daemons, and the end of the interpreter |
| SyncLongWait | SyncWait with the largest timeout that `epoll.poll` takes |
| ProcessEnd | base_listener.run_threading, aio_listener.handle_request at interpreter exit (`_python_exit` of concurrent.futures.thread, trusted) |
| Serving | run_forever and shutdown of listeners next to the calls of Process |
| SockHostName | the handler of the socket listener when no trace id can be made |
| SockThreads | a socket listener in a process with a limit on threads |
| ClientEnd | the end of a process that has an asyncio client |
| ClientFork | an asyncio client in a process made by `fork` |
| ContainerThreads | mysockpool/recently_used_container.py, mysockpool/pool_manager.py | threads, single accesses, RLock |
| SockConn | mysockpool/connection.py `recvexactly`, _wait.py, utils.py |

`Props/EndToEnd*.lean` connect the client models with the listener model by byte streams that are cut at will.

## What is not modelled

* logging, `__repr__`/`__str__` of packages, `setup.py`, demos, tests, generated protobuf code;
* real time in the clients (timeouts are schedule events; the listener has a clock), memory, OS socket options,
  event-loop thread start-up and shutdown, `uvloop` selection;
* exceptions that are no `Exception` (KeyboardInterrupt, SystemExit), except `CancelledError` in the asyncio client and SystemExit
  in the services of the asyncio listener (model AioExit);
* python 2.7 compatibility paths; from Python 3.12 on a StopIteration raised by a method reaches the listener as a RuntimeError
  (in the models: `other`), before that as modelled by `PyExc.stopIteration`.

In the models of the connections `StreamWriter.drain` is taken to suspend or return (in the client also to fail); what it
does under back pressure, with the AssertionError that a second waiter gets on Python 3.5-3.7, is in the model Drain. In the model of one connection (AioListener) the
executor starts queued calls in any order; the model of the whole listener (AioServer) has the queue and the threads.

Each model file lists its own simplifications at the top.

## Where the code disagrees with a property

Each of these is a theorem `CNN_violated` (or one that says it always happens), with a concrete run as witness.

* C18-C20: baggage named like an attribute of `RpcTraceContext` (`expand`, `prefix`, `self`) breaks or renames the
  trace headers; a carrier with `rpc_trace_context.self` cannot be extracted.
* C24: a follow-up of an older sibling gets an rpc id that is in use. C28: tags given at span creation are unpacked
  from the keys, so every non-empty dictionary raises or is mangled.
* C31: overwriting a present key does not make it recently used. C36: `max_free_connections=0` means unbounded.
* C37: the connection count is incremented outside the lock. C38: the count drifts when connections are dropped or the
  cap is hit while replenishing. C39: a dropped connection is closed, uncounted and then returned.
* C46: a JSON body that is no object escapes as AttributeError.
* C91, C92: a short write is not completed, and errors while sending are dropped, so the call waits for nothing.
* C52: a peer that closes the connection makes the synchronous client spin for ever. C54: every call makes a new
  PoolManager, so no connection is reused.
* C58, C59: the asyncio client leaks entries of cancelled calls; a response that arrives during the second `drain` is
  lost and the call fails with KeyError. C62: an unencodable request cancels the reader of the shared connection.
  C63: calls waiting on a lost connection are never woken. C64: the acknowledgement of a heartbeat makes
  `invoke_heartbeat` raise and ends the timer. C65: asyncio one-way calls are sent as REQUEST.
* C95-C97: when several asyncio calls notice a broken connection, only the first is sent again; the others fail with a
  swallowed KeyError or throw away the connection that has replaced the broken one; two calls can dial one address.
* C69, C70: after an undecodable header the listener takes the content for the next frame; such a heartbeat is not
  acknowledged. C72: empty or non-bytes results are never answered. C73: refused one-way requests are answered.
  C80: all listeners of a process share one registry. C81: closing the connection can answer the last request twice.
* C106-C108: thirty methods that do not return block all others; a method that has been started goes on after its caller
  was told TIMEOUT; shutdown leaves the connections being served.
* C102: `recvexactly` loops for ever when the peer has closed.
* C84: the socket listener loops for ever on a truncated request. C85: it does not report unknown services.
* C111, C114: the socket listener serves one request per connection; the asyncio client shares connections, so its later
  calls are never answered by it.
* C115-C117: every client and listener registers the application again; any client's unsubscribe removes an assigned
  address; a listener announces the interfaces of all listeners of the process.
* C120: a call whose method returns b'' waits for ever, although nothing is left to do anywhere.
* C123: closing a pool leaves a connection open that a thread puts or takes at the same time.
* C124: closing a blocking pool does not wake the threads that wait in get_conn.
* C125: a synchronous call opens two connections in each attempt and one more for giving the connection back.
* C128: a timed-out call of the asyncio client leaves its coroutine and its event until a response comes.
* C129: the callback of invoke_async never hears of a failure.
* C130: a flush that fails after the bytes went out makes the asyncio client send the request again; the method runs twice.
* C132: a context used for two calls, or for a call and for making children, gives equal rpc ids within one trace.
* C133: a timeout of 0 is sent as -1: at once for the caller, never for the listener.
* C135: the listeners send responses with empty headers; the context injected in `_dispatch` goes nowhere.
* C136: `with` overwrites a given start time; 0 is taken for no start time.
* C138: the helpers fail on tags as `start_span` does.
* C139: on Python 3.5-3.7 a message whose writer starts while another writer waits for the network is lost (AssertionError in `drain`).
* C141: later versions resume all waiting writers at once; they write without looking at the buffer again.
* C142: methods that wait for calls to their own listener can occupy all thirty threads, for ever.
* C143: an interface registered while another thread publishes makes `publish` raise `RuntimeError` and leave out the rest.
* C144: `ImmutableValueDict.__setitem__` looks first and stores later; two threads can overwrite each other's entry.
* C145: `AioListener.shutdown` right after `run_threading` does nothing; the server starts afterwards.
* C146: `AioListener.run_forever` is never left, also after `shutdown`.
* C147: `SockListener.shutdown` waits for ever if `run_forever` has not been called; the socket is never closed, so clients can still connect and wait.
* C148: `SockListener.shutdown` of a stopped listener makes the next `run_forever` return at once.
* C149: with the single waiter of Python 3.5-3.7, a call that comes to a `drain` while another waits gives up the shared connection: its reading task is cancelled, and calls waiting for responses on it wait for ever.
* C150: a request for `__class__` makes another service object with the body of the request as its context; private methods and attributes of the object can be called.
* C152: with one waiter per protocol (Python 3.5-3.7), a slow reader of a large response loses later responses, and a
  refusal (aio_listener.py:231, 237) that comes meanwhile ends the reader and leaves the connection open and deaf.
* C154: parts of a received rpc id that are integer literals in an unusual spelling are rewritten (mytracer/_rpc_id.py:37-41).
* C155: both listeners execute frames of any protocol, version, type and codec, and of any command but 0 and 2 (aio_listener.py:200-230, sock_listener.py:94-112).
* C156: both clients take frames of any class, type and codec for responses (aio_client.py:233 compares a class attribute with itself; client.py:134-141).
* C157: `update`, `del`, `pop`, `popitem` and `clear` change dictionaries that are meant to be read-only (_sofa_header.py:89-95, span_context.py:28-30, immutable_dict.py:25-29).
* C158: injecting into a SofaHeader has no effect and raises nothing (_sofa_header.py:94-95, tracer.py:133-134).
* C159: errors of a pool refer to themselves and keep the pool's connections open until the cycle collector runs (exceptions.py:30).
* C160: `__metaclass__ = Singleton` has no effect in Python 3 (client.py:45, aio_client.py:48, mesh_client.py:71); `Singleton.__call__` is not safe for threads (singleton.py:30-32).
* C162: `invoke_async` looks at the timeout after it has submitted the coroutine (aio_client.py:100-102).
* C165: a client that sends heartbeats and reads nothing makes the asyncio listener hold one answer per heartbeat.
* C166: the text of every pool error is that of a pair of the error and the intended text.
* C167: copies of errors in other processes get a second prefix (ServerError, ClientError) or lose pool and message (mysockpool).
* C168: heartbeats go to the mesh address of the client's construction, whatever is assigned to `mesh_service_address` later.
* C170: a method that raises StopIteration leaves its request unanswered (before Python 3.12).
* C171: `sys.exit()` in a service stops the loop of the asyncio listener.
* C174: a response that cannot be decoded (an unlisted status, say) wakes nobody in the asyncio client, the call waits for ever.
* C175: a mesh that is down when a client or listener is made is never used by it, and nothing tells the caller of subscribe or publish.
* C176: a peer that declares a content of up to 4 GiB gets the listener (or client) to hold as much, before anything is checked.
* C177: `sendall` on a connection of the pool (not blocking) raises BlockingIOError after part of the bytes.
* C178: the asyncio listener reads on whatever is queued; a peer can make it queue any number of calls.
* C179: `invoke_sync` in a callback of `invoke_async` blocks the event loop until its timeout, and never returns a result.
* C180: `itertools.cycle` keeps every request id that was ever drawn (up to 2^31).
* C182: a client sends one heartbeat in its life: its acknowledgement ends the timer.
* C183: a synchronous call waits a second longer than asked, and as long as the clock of the system says.
* C185: a response completes a waiting call whichever connection it comes on; the ids are consecutive, so that a connected peer that has seen one can answer calls made to another server.
* C186: `_new_follows_from` adds one to a number of any size; the result of an id at the digit limit of the interpreter has no text.
* C187: `_new_conn` counts a connection before it creates the socket; creations that fail are never taken back, and a pool that met `max_connections` of them refuses everything for ever.
* C188: `TraceId()` resolves the host name; where that fails, `extract` raises for requests without a trace id, outside every `try` of `_dispatch`, and the caller gets no answer.
* C189: `ThreadPoolExecutor.submit` queues a call before it starts a thread; if that fails, the caller is told SERVER_EXCEPTION and the method runs later.
* C190: service objects are made in the thread of the event loop, so that a slow class holds up every connection.
* C191: an interrupt during the construction of a client or listener is swallowed by a bare `except`.
* C192: a mesh that does not answer makes calls hang, there is no timeout.
* C193: peers of the socket listener that close early leave threads for ever, and the process does not end.
* C194: synchronous calls with timeouts in the last second before 2^31 ms raise OverflowError after they have sent.
* C195: a pool that was exhausted often enough refuses for ever, though all its connections were given back.
* C196: a process can end before the response of a call it has executed is written.
* C197: a mesh that refuses to withdraw one service is not asked about those registered after it.
* C201: services are announced by listeners that do not serve yet, or do not any more.
* C203: a decrement is lost between the read and the write of `num_connections += 1`, and the pool refuses too early.
* C204: an increment is lost when two overlap, and a shared pool can have any number of connections.
* C205: without the name of the host the socket listener drops requests that carry no trace id.
* C206: peers that connect and leave use up the threads of a socket listener for good.
* C207: one-way calls made just before the process ends are lost.
* C208: an asyncio client made before a fork is dead in the child.
* C118: threads that make children of one span at the same time may give them the same rpc id.

## The project's own tests

`Verif/Props/RepoTests.lean` replays the assertions of the repository's unit tests (tests/) on the model as kernel-checked
examples: the bytes, ids, names and counts the tests expect from the code are what the model computes.

## Seeded faults

`seeded/LOG.jsonl` records edits of the model that mimic realistic bugs, made in a scratch copy: the definition, the
edit, the claim it breaks, the property theorems whose proofs failed, and the theorems tightened because of it.

## Plan per property

See the table at the end of the file; the "how" column names the proof method.

| id | what is modelled | how it is proved |
|----|------------------|------------------|
| C01,C02 | struct module, UTF-8, SofaHeader, BoltPackage constructors, to_stream/from_stream | algebraic round-trip; generic `unpack (pack)` lemma by induction on the format |
| C03 | to_stream | equality with a byte layout written out by hand in `Spec/Wire.lean` |
| C04 | validate + struct range checks | iff characterisation by case analysis |
| C05-C07 | from_stream on arbitrary bytes | case analysis, length lemma for unpack |
| C08-C11,C13 | `_bytes_to_str` loop (well-founded recursion), dict(zip) | induction; relation to an inductive grammar in `Spec/Header.lean` |
| C12 | header object as mutable cell, package holding the snapshot | induction on mutation lists |
| C14,C15 | cycle(chain(range,range)) as a list-backed stream | modular arithmetic |
| C16,C17 | command/*.py | computation on symbolic ids + C02 |
| C18,C20 | build_header, RpcTraceContext | dict lemmas; expected violation of C20 for baggage keys `prefix`/`expand` |
| C19,C21-C27 | RpcId heap (objects with parent links), TraceId, SpanContext, tracer | induction on histories; expected violation of C24 (follows_from of an older sibling) |
| C28 | start_span tag loop | expected violation (iterates over keys) |
| C29-C32 | OrderedDict container | refinement to a reference LRU with time stamps; expected violation of C31 (overwrite does not refresh) and of C32 when the same value is stored again |
| C33,C34 | PoolManager over the container | invariant |
| C35,C37 | small-step thread model of get_conn/put_conn/_new_conn | invariant over all interleavings; expected violation of C37 by the unlocked increment |
| C36,C38-C41 | sequential pool model | invariant over histories; expected violations of C38 (drop, EmptyPoolError leak), C39 (dropped connection returned) |
| C42-C48 | SERVICE_MAP, _BaseClient, MeshClient with an oracle mesh | decision logic + induction on histories |
| C49-C53 | recv loop with adversarial chunking, retry loop | loop invariant; expected violation of C52 (peer close) |
| C54 | PoolManager() per call | expected violation |
| C55-C64 | AioClient coroutines, maps, locks, receive loops as a small-step machine | invariant over all event lists; expected violations of C58, C59, C62, C63, C64 |
| C65 | invoke_oneway of both clients | expected violation for AioClient |
| C66-C82 | listener connection machine (reader, dispatch tasks, writer) | incremental = batch parsing; invariants over all event lists; expected violations C69, C72, C73, C80, C81 |
| C83-C85 | SockBoltHandler.handle | expected violations C84, C85 |
| C88-C94 | same models | C88-C90 from the round-trip lemmas; C91, C92 expected violations; C93 rank function and lock invariant; C94 simulation |
| C95-C97 | AioClient machine | lock invariant over all event lists; expected violations |
| C98 | AioClient machine, Package | invariant relating the log of a connection to the unique cutting of the bytes received |
| C99 | RequestId, AioClient machine | closed form of the generator; window argument |
| C100 | AioListener machine | total grammar of input streams, soundness against the reader, existence, uniqueness |
| C101-C103 | SockConn | loop invariant; case analysis; C102 expected violation |
| C104-C108 | AioServer machine over AioListener | projection to one connection; invariant of queue and threads; expected violations C106-C108 |
| C109 | sync client and socket listener | composition with C83 and C49 |
| C110,C111 | SockListener | grammar of input streams; invariant; C111 expected violation |
| C112 | AioServer with the clients | C104 and the end-to-end theorems |
| C113,C114 | SockServer (connections of one listener), AioClient with SockListener | projection to one connection; composition; C114 expected violation |
| C115-C117 | Process (the objects of one process and the class attributes they share) | invariants over all histories; expected violations |
| C118,C119 | Threads | interleaving machines; lock invariant; C118 expected violation |
| C120 | comp(AioClient, AioListener) in one schedule (Lemmas/Joint) | invariants of both sides, causality of responses; expected violation |
| C121,C122 | ContainerThreads | invariant over interleavings: the steps done under the lock so far are a prefix of the next sequential call |
| C123,C124 | PoolThreads | invariant from the moment the pool is disabled; expected violations |
| C34 | PoolWorld | the pools of a manager over whole histories |
| C125,C126 | SyncPools | refinement to SyncClient in the environment made by the pools; counting; C125 expected violated |
| C127-C129 | AioCallers | invariant over histories of callers and event loop, on top of C55; C128, C129 expected violated |
| C130,C131 | Client, AioClient, AioListener, SockListener | counting frames sent and frames dispatched; C130 expected violated |
| C132 | TraceNet | invariant over runs of several processes on the segment lists of all contexts; expected violated unless a context serves one call only |
| C133 | comp | the frame of a call against the task the listener makes of it; expected violated at 0 |
| C134 | comp | the callers' invariant composed with the task behind each response |
| C135 | comp | messages of both listeners decoded; expected violated |
| C136-C138 | SpanApi | effect of every later call on one span; contexts by the tracer invariant; expected violated for `with`, 0 and tags |
| C139-C141 | Drain | invariant of waiters, buffer and log over all events; rank of a writer for progress; potential (buffer + blind writers) for the bound; C139 expected violated for Python 3.5-3.7, C141 for later ones |
| C142 | AioServer | rank of calls: some running method can end or a thread is free; invariant `thirty wait for queued calls`; expected violated |
| C143 | SharedDicts | invariant: what a thread has announced is a prefix of the registry at its call; expected violated |
| C144 | SharedDicts | number of threads between lookup and store as potential; expected violated |
| C145-C148 | Lifecycle | invariants over all interleavings of the starting thread and the stopping ones; rank for the end of `shutdown`; all expected violated in part |
| C149 | AioFlow | flow control and client in step; every run is a run of AioClient (refinement), then C61 and C130; expected violated where one waiter is kept |
| C150 | Attrs | Python's attribute lookup in place of the abstract `getattr`, then C74, C78, C110; expected violated (`__class__`, private names) |
| C151 | SyncThreads | invariant: every call has managers of its own, and its frame is that of a sequential call; then C112, C113 |
| C152 | ListenerFlow | simulation by `lrun` while no `drain` raises; explicit continuation for progress; symbolic run for the violation |
| C153 | FlowEndToEnd | lagging simulation of `lfRun` by `lrun` (a lost response is one not written yet), `afRun_trace`, `own_task` of C87 |
| C154 | RpcIdText | grammar of `int()` as an inductive predicate, equivalence with the parser; splitting and joining at dots |
| C155,C156 | Intake | grammar of streams (C100), exact outcome of a frame (C49, C110), frame injectivity |
| C157,C158 | ReadOnly | induction over operations; loop of inject per class of carrier; C19 |
| C159 | Refs | rank of kinds decreases along references, so counting frees what is out of reach; bound on the variables that hold an object |
| C160 | Singleton | stored instances stay; invariants of the calls in threads |
| C161 | AioFlow | invariant of each connection's flow control: waiters only while it is paused and up, paused only above the low limit |
| C162 | AioCallers | cases of the methods; what is on the wire was encoded |
| C163 | CoroExecutor | refinement to AioServer, invariant over events |
| C164 | ListenerFlow | invariant over events |
| C165 | ListenerFlow | invariant over events, a family of schedules |
| C166,C167 | Errors | case analysis, induction on the number of copies |
| C168 | MeshAddress | induction over events |
| C169 | AioFlow, ListenerFlow | who can go on in a state; simulation by the system of C120 |
| C170 | AioListener | invariant of the listener (C70-C82) plus stability of calls that are over |
| C171 | AioExit | reduction to AioServer; what does not change once the loop has stopped |
| C172 | Joint (Lemmas) | lexicographic measure over client calls, listener reading, listener work, client reading; who_waits (C120) at rest |
| C173 | AioFlow, ListenerFlow | the measure of C172, then one for buffers, waiters and woken; C169 at rest |
| C174 | AioClient, SyncClient | the log of processed packages of C98 continued over a part of a schedule; C63 for the waiting |
| C175 | Process | clients and listeners stay what the registration made them; C44, C48 |
| C176 | InputFlow | invariant: a reader that asks for n bytes holds at most max(2*limit, n-1) before a chunk comes; rank of the reader for the resumption |
| C177 | SendAll | invariant sent ++ rest = data; outcome of a blocking socket by induction over what the operating system offers |
| C178 | AioListener | induction over the requests sent, with C66/C67 for the reader; potential: cost of calls, unstarted tasks, buffer and message being read is at most what was received |
| C179 | Callbacks | invariant: the call the loop's thread waits in is pending; refinement to histories of AioCallers |
| C180 | IdGen | invariant over the number of draws: first pass, second range, later passes |
| C181 | - | a statement about two runs, from the execution behind each result (C134) |
| C182 | HeartbeatTimer | invariant linking the timer's place to the heartbeats sent; with asyncio listeners by C55 and the frames sent |
| C183 | SyncWait | the receiving loop with real time and the clock of the system; runs shown to be those of C52 |
| C184 | AioServer | well-founded induction on what is left to read and to do, by steps that need no thread; ledger of messages for connections at rest |
| C185 | AioClient | invariants: connections a call has left are cancelled, addresses of the connections written to; provenance of the delivered package |
| C186 | DigitLimit | size of a number from the number of its digits, both ways; induction over the derivations |
| C187 | PoolSockets | counting of made and failed connections over histories; a state that is never left |
| C188 | HostName | equality of runs with and without the name; ended tasks never change and write nothing |
| C189 | ExecutorFull | invariant: every future belongs to one task; what an event can do to tasks and futures (`Move`) |
| C190 | SlowService | standstill as in C171; refinement: registrations made meanwhile commute with what the other threads do |
| C191,C192 | MeshSilent | last request of a call: induction over the loops, then over programs |
| C193 | SockExit | C110 for each connection, by C113; connections end one after the other |
| C194 | SyncLongWait | reduction to SyncWait: what is left of the time does not grow if the clock is not set back |
| C195 | PoolRecovers | the ledger of C38; refusing with nothing held is an absorbing state |
| C196 | ProcessEnd | the invariant of the pool (C105) kept by the refusing listener |
| C197 | Unpublish | what the mesh holds, from the log of posts; C48 |
| C198 | Subscribed | what the mesh holds, from the log of posts; invariant over the histories |
| C199 | CutOff | a proper part of a frame wants nothing in the grammar of streams; the socket listener with resets follows the one without |
| C200 | CutResponse | a proper part of a response has no beginning as long as it says; C50, C55 and the unique cut of streams |
| C201 | Serving | the posts of each call (C197), induction over the calls |
| C202 | SockBlind | simulation of a run by the one with zeros in the fields |
| C203 | PoolThreads | a bound of the count by the connections there are, kept by every step; symbolic runs of the drifting round |
| C204 | PoolThreads | the count bounds the connections and is bounded by the checks passed, kept by every step; symbolic runs of the losing round |
| C205 | SockHostName | the extraction lemmas of C188, induction over the events |
| C206 | SockThreads | the threads of peers that left stay, counted; comparison with the listener without a limit, event by event |
| C207 | ClientEnd | the schedule of the client inside the process; only calls that have been written come to have a response |
| C208 | ClientFork | invariant of the child: its calls are where they began, the rest is the parent's |
| C86,C87 | composition of the client and listener models | composition of the theorems above |
