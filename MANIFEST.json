{
 "claims": [
  {
   "property": "C01",
   "status": "proved",
   "theorems": [
    "Bolt.C01_request_roundtrip"
   ],
   "note": ""
  },
  {
   "property": "C02",
   "status": "proved",
   "theorems": [
    "Bolt.C02_response_roundtrip"
   ],
   "note": ""
  },
  {
   "property": "C03",
   "status": "proved",
   "theorems": [
    "Bolt.C03_byte_layout"
   ],
   "note": ""
  },
  {
   "property": "C04",
   "status": "proved",
   "theorems": [
    "Bolt.C04_encodable_iff"
   ],
   "note": ""
  },
  {
   "property": "C05",
   "status": "proved",
   "theorems": [
    "Bolt.C05_decode_total"
   ],
   "note": ""
  },
  {
   "property": "C06",
   "status": "proved",
   "theorems": [
    "Bolt.C06_exact_length"
   ],
   "note": ""
  },
  {
   "property": "C07",
   "status": "proved",
   "theorems": [
    "Bolt.C07_known_codes"
   ],
   "note": ""
  },
  {
   "property": "C08",
   "status": "proved",
   "theorems": [
    "Bolt.C08_header_roundtrip",
    "Bolt.C08_header_serialises"
   ],
   "note": ""
  },
  {
   "property": "C09",
   "status": "proved",
   "theorems": [
    "Bolt.C09_parse_grammar",
    "Bolt.C09_flatten_even"
   ],
   "note": ""
  },
  {
   "property": "C10",
   "status": "proved",
   "theorems": [
    "Bolt.C10_java_null"
   ],
   "note": ""
  },
  {
   "property": "C11",
   "status": "proved",
   "theorems": [
    "Bolt.C11_last_wins"
   ],
   "note": ""
  },
  {
   "property": "C12",
   "status": "proved",
   "theorems": [
    "Bolt.C12_snapshot"
   ],
   "note": ""
  },
  {
   "property": "C13",
   "status": "proved",
   "theorems": [
    "Bolt.C13_len"
   ],
   "note": ""
  },
  {
   "property": "C14",
   "status": "proved",
   "theorems": [
    "Bolt.C14_id_range"
   ],
   "note": ""
  },
  {
   "property": "C15",
   "status": "proved",
   "theorems": [
    "Bolt.C15_id_window"
   ],
   "note": ""
  },
  {
   "property": "C16",
   "status": "proved",
   "theorems": [
    "Bolt.C16_heartbeat"
   ],
   "note": ""
  },
  {
   "property": "C17",
   "status": "proved",
   "theorems": [
    "Bolt.C17_fail_response"
   ],
   "note": ""
  },
  {
   "property": "C18",
   "status": "partial",
   "theorems": [
    "Bolt.C18_violated",
    "Bolt.C18_build_header_partial",
    "Bolt.C18_exact_partial"
   ],
   "note": "The code violates the full property: a baggage item named like an attribute of RpcTraceContext (expand, prefix, self, ...) makes build_header raise or rename every trace item (C18_violated). Proved for every other baggage; exactly: unless a further header is itself a trace key, the asked header is built iff no further header is reserved, no item is called self, __class__, __dict__, __weakref__ or expand, and an item called prefix has the standard prefix as value (C18_exact_partial)."
  },
  {
   "property": "C19",
   "status": "partial",
   "theorems": [
    "Bolt.C19_violated",
    "Bolt.C19_inject_extract_partial",
    "Bolt.C19_exact_partial"
   ],
   "note": "The code violates the full property: a carrier already holding rpc_trace_context.self or rpc_trace_context.reference makes extract raise (C19_violated). Proved for every context of every history and every carrier without these two keys; with one of them extract always raises InvalidCarrierException (C19_exact_partial)."
  },
  {
   "property": "C20",
   "status": "partial",
   "theorems": [
    "Bolt.C20_violated",
    "Bolt.C20_context_survives_call_partial",
    "Bolt.C20_exact_partial"
   ],
   "note": "The code violates the full property: a baggage item called prefix renames every trace header (C20_violated). Proved for all contexts without items named like attributes of RpcTraceContext, and extras that are not themselves trace keys; a call that can be sent loses the context whenever it has an item called prefix other than the standard prefix (C20_exact_partial)."
  },
  {
   "property": "C21",
   "status": "proved",
   "theorems": [
    "Bolt.C21_extract_total"
   ],
   "note": "the name of the host being resolvable where a trace id is generated; C188 has the rest"
  },
  {
   "property": "C22",
   "status": "proved",
   "theorems": [
    "Bolt.C22_rpcid_roundtrip"
   ],
   "note": ""
  },
  {
   "property": "C23",
   "status": "proved",
   "theorems": [
    "Bolt.C23_rpcid_shape",
    "Bolt.C23_roots"
   ],
   "note": ""
  },
  {
   "property": "C24",
   "status": "partial",
   "theorems": [
    "Bolt.C24_violated",
    "Bolt.C24_rpcids_unique_partial",
    "Bolt.C24_collision"
   ],
   "note": "The code violates the full property: child, child, follow-up of the first child gives 1.2 twice (C24_violated). Proved for all histories in which follow-ups are made only from the newest id under a parent (hence all histories of children); the first other follow-up always gives a second context the id of an older one (C24_collision)."
  },
  {
   "property": "C25",
   "status": "proved",
   "theorems": [
    "Bolt.C25_derived_keeps_baggage"
   ],
   "note": ""
  },
  {
   "property": "C26",
   "status": "proved",
   "theorems": [
    "Bolt.C26_contexts_immutable",
    "Bolt.C26_set_baggage_refused"
   ],
   "note": ""
  },
  {
   "property": "C27",
   "status": "partial",
   "theorems": [
    "Bolt.C27_violated",
    "Bolt.C27_trace_ids_unique_partial",
    "Bolt.C27_collisions"
   ],
   "note": "As stated (any clock value) it fails for clock values of different digit counts (C27_violated). Proved: within one process for all clocks; across hosts for all clocks; across processes of a host for 13-digit millisecond clocks (years 2001-2286); all other collisions need clocks with a power of ten between them."
  },
  {
   "property": "C28",
   "status": "partial",
   "theorems": [
    "Bolt.C28_violated",
    "Bolt.C28_tags_recorded_partial"
   ],
   "note": "The code violates the property for every non-empty tag dictionary (the loop iterates keys); proved: the tags are recorded iff the dictionary is empty."
  },
  {
   "property": "C29",
   "status": "proved",
   "theorems": [
    "Bolt.C29_capacity"
   ],
   "note": ""
  },
  {
   "property": "C30",
   "status": "proved",
   "theorems": [
    "Bolt.C30_map"
   ],
   "note": ""
  },
  {
   "property": "C31",
   "status": "partial",
   "theorems": [
    "Bolt.C31_violated",
    "Bolt.C31_lru_partial",
    "Bolt.C31_every_history_partial"
   ],
   "note": "The code violates the full property: overwriting a present key does not refresh its position (C31_violated). Proved for every history that never overwrites a present key, which is how PoolManager uses the container; and for every history that the keys are ordered by last read or first insertion and that eviction removes the oldest."
  },
  {
   "property": "C32",
   "status": "proved",
   "theorems": [
    "Bolt.C32_dispose_once"
   ],
   "note": "Proved as a permutation for every history, distinct values or not."
  },
  {
   "property": "C33",
   "status": "proved",
   "theorems": [
    "Bolt.C33_one_pool"
   ],
   "note": ""
  },
  {
   "property": "C34",
   "status": "proved",
   "theorems": [
    "Bolt.C34_managed_or_closed",
    "Bolt.C34_evicted_closed"
   ],
   "note": ""
  },
  {
   "property": "C35",
   "status": "proved",
   "theorems": [
    "Bolt.C35_exclusive"
   ],
   "note": "Every interleaving of any number of threads, one step per shared-state access."
  },
  {
   "property": "C36",
   "status": "partial",
   "theorems": [
    "Bolt.C36_violated",
    "Bolt.C36_lifo_partial",
    "Bolt.C36_grows",
    "Bolt.C36_free_bound_threads_partial"
   ],
   "note": "max_free_connections=0 makes the queue unbounded (C36_violated), any number of free connections is possible then, whatever max_connections (C36_grows). Proved: the bound for max_free_connections>=1, also for every thread interleaving; the order for all."
  },
  {
   "property": "C37",
   "status": "partial",
   "theorems": [
    "Bolt.C37_violated",
    "Bolt.C37_unbounded",
    "Bolt.C37_cap_threads_partial",
    "Bolt.C37_cap_sequential_partial"
   ],
   "note": "The increment is outside the lock: two threads exceed the cap (C37_violated). Proved for sequential histories and for all interleavings in which the check-and-increment sections do not overlap."
  },
  {
   "property": "C38",
   "status": "partial",
   "theorems": [
    "Bolt.C38_violated",
    "Bolt.C38_violated_by_exhaustion",
    "Bolt.C38_count_partial",
    "Bolt.C38_ledger_partial"
   ],
   "note": "Violated by dropped connections and by EmptyPoolError while replenishing. Proved for histories without drops, counting the connections lost by failing get_conn calls; and for every history the exact ledger: while open num = free + held + lost - dropped, frozen once closed."
  },
  {
   "property": "C39",
   "status": "partial",
   "theorems": [
    "Bolt.C39_violated",
    "Bolt.C39_returned_open_partial",
    "Bolt.C39_exact_partial"
   ],
   "note": "get_conn closes a dropped connection and returns it (C39_violated). Proved: without drops what is returned is open, and in every history only a connection detected as dropped is returned closed; exactly when the returned connection is closed."
  },
  {
   "property": "C40",
   "status": "proved",
   "theorems": [
    "Bolt.C40_closed_pool"
   ],
   "note": "Sequential histories."
  },
  {
   "property": "C41",
   "status": "proved",
   "theorems": [
    "Bolt.C41_scope"
   ],
   "note": ""
  },
  {
   "property": "C42",
   "status": "proved",
   "theorems": [
    "Bolt.C42_address"
   ],
   "note": ""
  },
  {
   "property": "C43",
   "status": "proved",
   "theorems": [
    "Bolt.C43_first_assignment_wins"
   ],
   "note": "Histories made of assignments, subscribe and unsubscribe; dict.update and setdefault (which bypass __setitem__) are not part of the claim."
  },
  {
   "property": "C44",
   "status": "proved",
   "theorems": [
    "Bolt.C44_subscribe",
    "Bolt.C44_unsubscribe"
   ],
   "note": ""
  },
  {
   "property": "C45",
   "status": "proved",
   "theorems": [
    "Bolt.C45_startup"
   ],
   "note": "Calls of one MeshClient; the RLock serialises concurrent calls."
  },
  {
   "property": "C46",
   "status": "partial",
   "theorems": [
    "Bolt.C46_violated",
    "Bolt.C46_post_partial",
    "Bolt.C46_exact"
   ],
   "note": "A 200 answer whose body is not a JSON object escapes as AttributeError/ValueError, and failures of the HTTP library keep their type. The iff for returning the result is proved for every answer, and the exact outcome for each."
  },
  {
   "property": "C47",
   "status": "proved",
   "theorems": [
    "Bolt.C47_payload"
   ],
   "note": ""
  },
  {
   "property": "C48",
   "status": "proved",
   "theorems": [
    "Bolt.C48_publish",
    "Bolt.C48_unpublish"
   ],
   "note": ""
  },
  {
   "property": "C49",
   "status": "proved",
   "theorems": [
    "Bolt.C49_segmentation"
   ],
   "note": ""
  },
  {
   "property": "C50",
   "status": "proved",
   "theorems": [
    "Bolt.C50_own_success"
   ],
   "note": ""
  },
  {
   "property": "C51",
   "status": "proved",
   "theorems": [
    "Bolt.C51_one_frame"
   ],
   "note": ""
  },
  {
   "property": "C52",
   "status": "partial",
   "theorems": [
    "Bolt.C52_violated",
    "Bolt.C52_violated_by_send",
    "Bolt.C52_deadline_partial",
    "Bolt.C52_exact",
    "Bolt.C52_never"
   ],
   "note": "A peer that closes the connection makes the receive loop spin for ever; send may block without timeout. Proved: ends at the deadline when nothing is ready after it, and bounded rounds without EOF; exactly when a call is still receiving; a peer that closes within its response keeps the call for ever, always."
  },
  {
   "property": "C53",
   "status": "proved",
   "theorems": [
    "Bolt.C53_at_most_once"
   ],
   "note": ""
  },
  {
   "property": "C54",
   "status": "partial",
   "theorems": [
    "Bolt.C54_violated",
    "Bolt.C54_never_reused_partial"
   ],
   "note": "_get_pool makes a new PoolManager per call, so no connection is ever reused; that is what is proved."
  },
  {
   "property": "C55",
   "status": "proved",
   "theorems": [
    "Bolt.C55_own_response",
    "Bolt.C55_content"
   ],
   "note": "every schedule of the small-step model, for calls with different request ids"
  },
  {
   "property": "C56",
   "status": "proved",
   "theorems": [
    "Bolt.C56_error_status"
   ],
   "note": "for the first frame processed for the call"
  },
  {
   "property": "C57",
   "status": "proved",
   "theorems": [
    "Bolt.C57_stray",
    "Bolt.C57_duplicate"
   ],
   "note": ""
  },
  {
   "property": "C58",
   "status": "partial",
   "theorems": [
    "Bolt.C58_violated",
    "Bolt.C58_leftovers_partial"
   ],
   "note": "violated: entries of cancelled calls and of calls answered while still being flushed are never removed; proved: nothing else is left"
  },
  {
   "property": "C59",
   "status": "partial",
   "theorems": [
    "Bolt.C59_violated",
    "Bolt.C59_waiting_partial",
    "Bolt.C59_early"
   ],
   "note": "violated: a response processed while the request is being flushed makes the call fail with KeyError, always (C59_early); proved for calls that already wait"
  },
  {
   "property": "C60",
   "status": "proved",
   "theorems": [
    "Bolt.C60_three_writes",
    "Bolt.C60_no_more",
    "Bolt.C60_on_the_wire"
   ],
   "note": ""
  },
  {
   "property": "C61",
   "status": "proved",
   "theorems": [
    "Bolt.C61_one_connection"
   ],
   "note": "dials may fail; no send fails means no drain raises and every request can be encoded"
  },
  {
   "property": "C62",
   "status": "partial",
   "theorems": [
    "Bolt.C62_violated",
    "Bolt.C62_always",
    "Bolt.C62_alone_partial"
   ],
   "note": "violated: the reading task of the shared connection is cancelled, always; proved: nothing is written for the bad call, and other calls only get their own responses"
  },
  {
   "property": "C63",
   "status": "partial",
   "theorems": [
    "Bolt.C63_violated",
    "Bolt.C63_waits",
    "Bolt.C63_closed_partial"
   ],
   "note": "violated: nobody wakes the waiting calls, whatever comes after; proved: the connection is closed and never read again, a cancelled call ends"
  },
  {
   "property": "C64",
   "status": "partial",
   "theorems": [
    "Bolt.C64_violated",
    "Bolt.C64_never",
    "Bolt.C64_ordinary_partial",
    "Bolt.C64_timer"
   ],
   "note": "violated: an acknowledgement with the heartbeat command code always makes the call raise and the timer end; proved for ordinary responses"
  },
  {
   "property": "C65",
   "status": "partial",
   "theorems": [
    "Bolt.C65_violated",
    "Bolt.C65_aio",
    "Bolt.C65_sync_partial"
   ],
   "note": "violated by the asyncio client, which always sends type REQUEST; proved for the synchronous client"
  },
  {
   "property": "C66",
   "status": "proved",
   "theorems": [
    "Bolt.C66_chunking",
    "Bolt.C66_prefix",
    "Bolt.C66_progress"
   ],
   "note": ""
  },
  {
   "property": "C67",
   "status": "proved",
   "theorems": [
    "Bolt.C67_pipelined"
   ],
   "note": ""
  },
  {
   "property": "C68",
   "status": "proved",
   "theorems": [
    "Bolt.C68_survives_rejection"
   ],
   "note": ""
  },
  {
   "property": "C69",
   "status": "partial",
   "theorems": [
    "Bolt.C69_violated",
    "Bolt.C69_undecodable_header_partial"
   ],
   "note": "After an undecodable header the reader does not skip the content of the frame and parses it as the next frame. Proved: answered CODEC_EXCEPTION with its id and the stream after the header bytes is handled normally (so the claim holds for empty contents)."
  },
  {
   "property": "C70",
   "status": "partial",
   "theorems": [
    "Bolt.C70_violated",
    "Bolt.C70_heartbeats_partial"
   ],
   "note": "A heartbeat with an undecodable header is answered CODEC_EXCEPTION. Proved for every heartbeat with a decodable header."
  },
  {
   "property": "C71",
   "status": "proved",
   "theorems": [
    "Bolt.C71_replies_to_requests"
   ],
   "note": ""
  },
  {
   "property": "C72",
   "status": "partial",
   "theorems": [
    "Bolt.C72_violated",
    "Bolt.C72_one_response_partial",
    "Bolt.C72_at_most_one",
    "Bolt.C72_ledger"
   ],
   "note": "A two-way request whose method returns b'' or a non-bytes value, or whose trace context cannot be decoded, is never answered. Proved: exactly one otherwise; never more than one."
  },
  {
   "property": "C73",
   "status": "partial",
   "theorems": [
    "Bolt.C73_violated",
    "Bolt.C73_oneway_partial",
    "Bolt.C73_exact"
   ],
   "note": "A refused one-way request (missing names, unknown service, failed construction) is answered. Proved: no answer to one whose call was submitted; exactly which are answered, with what."
  },
  {
   "property": "C74",
   "status": "proved",
   "theorems": [
    "Bolt.C74_status"
   ],
   "note": ""
  },
  {
   "property": "C75",
   "status": "proved",
   "theorems": [
    "Bolt.C75_own_result"
   ],
   "note": ""
  },
  {
   "property": "C76",
   "status": "proved",
   "theorems": [
    "Bolt.C76_timeout_only_when_due",
    "Bolt.C76_late_result_discarded"
   ],
   "note": ""
  },
  {
   "property": "C77",
   "status": "proved",
   "theorems": [
    "Bolt.C77_no_interleaving"
   ],
   "note": ""
  },
  {
   "property": "C78",
   "status": "proved",
   "theorems": [
    "Bolt.C78_resolution",
    "Bolt.C78_refused"
   ],
   "note": ""
  },
  {
   "property": "C79",
   "status": "proved",
   "theorems": [
    "Bolt.C79_last_wins",
    "Bolt.C79_serving"
   ],
   "note": ""
  },
  {
   "property": "C80",
   "status": "partial",
   "theorems": [
    "Bolt.C80_violated",
    "Bolt.C80_shared_partial"
   ],
   "note": "interface_mapping is a class attribute shared by all handlers. Proved: every listener sees all registrations of the process."
  },
  {
   "property": "C81",
   "status": "partial",
   "theorems": [
    "Bolt.C81_violated",
    "Bolt.C81_distinct_partial",
    "Bolt.C81_open_partial",
    "Bolt.C81_again"
   ],
   "note": "When the client closes its side, CONNECTION_CLOSED is written with the id of the last request, which may have been answered. Proved: no other duplicates; none while the client keeps the connection open; the CONNECTION_CLOSED message with the last id is always written."
  },
  {
   "property": "C82",
   "status": "proved",
   "theorems": [
    "Bolt.C82_call_of_request",
    "Bolt.C82_request_has_call",
    "Bolt.C82_exactly_one"
   ],
   "note": ""
  },
  {
   "property": "C83",
   "status": "proved",
   "theorems": [
    "Bolt.C83_answer",
    "Bolt.C83_progress"
   ],
   "note": "Safety (exactly one call, exactly one answer) for every chunking and interleaving without a connection reset; progress: four turns of the thread and the end of the method end the handler."
  },
  {
   "property": "C84",
   "status": "partial",
   "theorems": [
    "Bolt.C84_violated",
    "Bolt.C84_never_ends",
    "Bolt.C84_reset_partial"
   ],
   "note": "Violated: at the end of the stream inside a request _readexactly loops for ever; proved for every truncated request. Proved positively: a reset ends the handler, and so does a complete request (C83_progress)."
  },
  {
   "property": "C85",
   "status": "partial",
   "theorems": [
    "Bolt.C85_violated",
    "Bolt.C85_silent",
    "Bolt.C85_reported_partial"
   ],
   "note": "Violated: for an unknown service or method the connection is closed without an answer; proved for every such request. Proved positively: missing names are answered CLIENT_SEND_ERROR, heartbeats acknowledged."
  },
  {
   "property": "C86",
   "status": "proved",
   "theorems": [
    "Bolt.C86_returns_result",
    "Bolt.C86_ends_accordingly"
   ],
   "note": "Synchronous client and asyncio listener composed: the listener has received some beginning of what the client wrote, the client some beginning of what the listener wrote. Safety for every schedule, and the outcome once everything has settled. The timeout of invoke_sync and other calls on the same pooled connection are outside this statement (see C49-C54)."
  },
  {
   "property": "C87",
   "status": "proved",
   "theorems": [
    "Bolt.C87_own_result",
    "Bolt.C87_completes"
   ],
   "note": "Asyncio client and any number of asyncio listeners composed. Safety for all schedules with distinct request ids; liveness for a call that waits when its response has arrived (responses that come earlier are C59)."
  },
  {
   "property": "C88",
   "status": "proved",
   "theorems": [
    "Bolt.C88_rpc_eq_iff_str"
   ],
   "note": "For segments without dots; an example shows that a dot inside a segment has to be excluded."
  },
  {
   "property": "C89",
   "status": "proved",
   "theorems": [
    "Bolt.C89_reencode"
   ],
   "note": "For BoltRequest and BoltResponse, the classes that decode."
  },
  {
   "property": "C90",
   "status": "proved",
   "theorems": [
    "Bolt.C90_unique_split"
   ],
   "note": "For streams of frames of one kind, as each side reads them."
  },
  {
   "property": "C91",
   "status": "partial",
   "theorems": [
    "Bolt.C91_violated",
    "Bolt.C91_whole_partial"
   ],
   "note": "violated: send may accept a part and its result is ignored; proved: a beginning of the frame, at most once, and the whole frame when the operating system takes all bytes"
  },
  {
   "property": "C92",
   "status": "partial",
   "theorems": [
    "Bolt.C92_violated",
    "Bolt.C92_at_once_partial"
   ],
   "note": "violated: exceptions of send and to_stream are dropped and the call waits for a response to nothing; proved: it fails at once when the request cannot be built or no connection was obtained (then with NameError)"
  },
  {
   "property": "C93",
   "status": "proved",
   "theorems": [
    "Bolt.C93_no_deadlock",
    "Bolt.C93_calls_end"
   ],
   "note": "Over every interleaving. close() takes one step per connection in the queue plus three, see act_close."
  },
  {
   "property": "C94",
   "status": "proved",
   "theorems": [
    "Bolt.C94_sequential_refines"
   ],
   "note": "For histories without a get_conn that waits for ever."
  },
  {
   "property": "C95",
   "status": "partial",
   "theorems": [
    "Bolt.C95_violated",
    "Bolt.C95_one_dial_partial",
    "Bolt.C95_nobody_stuck"
   ],
   "note": "violated: after a failed send the lock of the address is dropped, and a call that waits for it dials beside the one that made a new lock; proved: at most one dial per address while no send has failed, and over all schedules each lock has at most one holder, a taken lock has a holder that is connecting, which frees it however connecting ends"
  },
  {
   "property": "C96",
   "status": "partial",
   "theorems": [
    "Bolt.C96_violated",
    "Bolt.C96_retried_partial",
    "Bolt.C96_exact"
   ],
   "note": "violated: of several calls that notice a broken connection only the first is retried, the others end with None because connection_mapping.pop raises KeyError; proved when the entries of the address are still there, in particular for the first failure, and exactly then; otherwise the call is over"
  },
  {
   "property": "C97",
   "status": "partial",
   "theorems": [
    "Bolt.C97_violated",
    "Bolt.C97_others_partial",
    "Bolt.C97_dropped"
   ],
   "note": "violated: a late notice removes the connection that has replaced the broken one, which is then neither used nor closed; proved: connections of other addresses stay in use, and no other connection is touched otherwise; the address of a connection given up is always left without one"
  },
  {
   "property": "C98",
   "status": "proved",
   "theorems": [
    "Bolt.C98_frames",
    "Bolt.C98_segments"
   ],
   "note": "the log of a connection is a prefix of the decoded frames of the bytes received, all of them once the reading task has settled"
  },
  {
   "property": "C99",
   "status": "proved",
   "theorems": [
    "Bolt.C99_ids_distinct"
   ],
   "note": "discharges the hypothesis DistinctIds of C55 and others for ids drawn from the generator"
  },
  {
   "property": "C100",
   "status": "proved",
   "theorems": [
    "Bolt.C100_every_stream"
   ],
   "note": "total grammar of input streams, existence and uniqueness included"
  },
  {
   "property": "C101",
   "status": "proved",
   "theorems": [
    "Bolt.C101_exact",
    "Bolt.C101_returns",
    "Bolt.C101_consecutive"
   ],
   "note": ""
  },
  {
   "property": "C102",
   "status": "partial",
   "theorems": [
    "Bolt.C102_violated",
    "Bolt.C102_never_ends",
    "Bolt.C102_ends_partial"
   ],
   "note": "violated: at the end of the stream recv gives no bytes and the loop goes round for ever; proved: it ends when the bytes are there, and when the socket fails"
  },
  {
   "property": "C103",
   "status": "proved",
   "theorems": [
    "Bolt.C103_wait",
    "Bolt.C103_dropped"
   ],
   "note": ""
  },
  {
   "property": "C104",
   "status": "proved",
   "theorems": [
    "Bolt.C104_alone",
    "Bolt.C104_no_crosstalk"
   ],
   "note": "the properties of single connections hold of every connection of every listener"
  },
  {
   "property": "C105",
   "status": "proved",
   "theorems": [
    "Bolt.C105_workers"
   ],
   "note": ""
  },
  {
   "property": "C106",
   "status": "partial",
   "theorems": [
    "Bolt.C106_violated",
    "Bolt.C106_starved",
    "Bolt.C106_taken_partial"
   ],
   "note": "violated: thirty methods that do not return keep every other call of every connection from being started; proved: with fewer running, every call is taken up"
  },
  {
   "property": "C107",
   "status": "partial",
   "theorems": [
    "Bolt.C107_violated",
    "Bolt.C107_not_started_partial"
   ],
   "note": "violated: a method that has been started goes on; proved: at that moment the method has been started already, or it never is"
  },
  {
   "property": "C108",
   "status": "partial",
   "theorems": [
    "Bolt.C108_violated",
    "Bolt.C108_no_connection_partial",
    "Bolt.C108_serves_on"
   ],
   "note": "violated: connections accepted before go on being served; proved: no connection is accepted any more, and nothing else changes: all that is there goes on as if shutdown had not been called"
  },
  {
   "property": "C109",
   "status": "proved",
   "theorems": [
    "Bolt.C109_returns_result",
    "Bolt.C109_ends_accordingly"
   ],
   "note": "both directions; end to end through the frames of both sides"
  },
  {
   "property": "C110",
   "status": "proved",
   "theorems": [
    "Bolt.C110_every_stream"
   ],
   "note": ""
  },
  {
   "property": "C111",
   "status": "partial",
   "theorems": [
    "Bolt.C111_violated",
    "Bolt.C111_at_most_one",
    "Bolt.C111_first_partial"
   ],
   "note": "violated: a connection serves one request only; proved: at most one call and one message per connection, and the first request is served"
  },
  {
   "property": "C112",
   "status": "proved",
   "theorems": [
    "Bolt.C112_sync",
    "Bolt.C112_sync_ends",
    "Bolt.C112_aio"
   ],
   "note": ""
  },
  {
   "property": "C113",
   "status": "proved",
   "theorems": [
    "Bolt.C113_alone",
    "Bolt.C113_sync",
    "Bolt.C113_sync_ends"
   ],
   "note": ""
  },
  {
   "property": "C114",
   "status": "partial",
   "theorems": [
    "Bolt.C114_violated",
    "Bolt.C114_own_result_partial",
    "Bolt.C114_first"
   ],
   "note": "violated: the second of two calls on the shared connection waits for ever; proved: a call that returns has returned its own result, and was the first one sent on its connection, the others are never answered"
  },
  {
   "property": "C115",
   "status": "partial",
   "theorems": [
    "Bolt.C115_violated",
    "Bolt.C115_one_each_partial"
   ],
   "note": "violated: __metaclass__ has no effect in Python 3; proved: exactly one registration is posted for each client and listener constructed"
  },
  {
   "property": "C116",
   "status": "partial",
   "theorems": [
    "Bolt.C116_violated",
    "Bolt.C116_entry_partial",
    "Bolt.C116_kept_partial",
    "Bolt.C116_unassigned"
   ],
   "note": "violated: an accepted unsubscribe of any client removes the assigned address; proved: exactly which operations give or remove an address, addresses stay in effect otherwise, unassigned interfaces go to the mesh"
  },
  {
   "property": "C117",
   "status": "partial",
   "theorems": [
    "Bolt.C117_violated",
    "Bolt.C117_all_partial"
   ],
   "note": "violated: interface_mapping is shared by all handlers; proved: publish announces exactly the interfaces registered in the process, up to the first refusal"
  },
  {
   "property": "C118",
   "status": "partial",
   "theorems": [
    "Bolt.C118_violated",
    "Bolt.C118_later",
    "Bolt.C118_alone_partial",
    "Bolt.C118_range"
   ],
   "note": "violated: the counter is not locked, and one late thread makes any number of later children collide, also when nobody else makes children any more; proved: children made one at a time are numbered 1, 2, 3, ..., and all numbers are between one and the number of calls"
  },
  {
   "property": "C119",
   "status": "proved",
   "theorems": [
    "Bolt.C119_startup_threads"
   ],
   "note": ""
  },
  {
   "property": "C120",
   "status": "partial",
   "theorems": [
    "Bolt.C120_violated",
    "Bolt.C120_who_waits_partial"
   ],
   "note": "violated: a method that returns b'' leaves the caller waiting; proved: the exact reasons for which a call is left waiting in a quiet system (the method's result is not a non-empty bytes, or the trace context of the request cannot be read)"
  },
  {
   "property": "C121",
   "status": "proved",
   "theorems": [
    "Bolt.C121_atomic"
   ],
   "note": "linearizability of the container with its RLock, ledger of calls and disposals, absence of deadlock"
  },
  {
   "property": "C122",
   "status": "proved",
   "theorems": [
    "Bolt.C122_manager_threads"
   ],
   "note": "needs max_pools > 0: with max_pools = 0 the returned pool is already closed (example beside the theorem)"
  },
  {
   "property": "C123",
   "status": "partial",
   "theorems": [
    "Bolt.C123_violated",
    "Bolt.C123_violated_by_get",
    "Bolt.C123_bounded_leak_partial"
   ],
   "note": "violated: a put_conn that read self.pool before the close leaves its connection in the abandoned queue, a get_conn that read it loses the connection it pops; proved: not more connections are left than there were threads at these points when the pool was disabled"
  },
  {
   "property": "C124",
   "status": "partial",
   "theorems": [
    "Bolt.C124_violated",
    "Bolt.C124_blocked_partial"
   ],
   "note": "violated: the waiting thread waits for ever; proved: it can go on iff another thread is about to put, and calls that start after the close end at once"
  },
  {
   "property": "C125",
   "status": "partial",
   "theorems": [
    "Bolt.C125_violated",
    "Bolt.C125_connections_partial"
   ],
   "note": "violated by every call: two connections are opened in each attempt and one more for giving the connection back; proved: exactly that number, and at most one of them is used"
  },
  {
   "property": "C126",
   "status": "proved",
   "theorems": [
    "Bolt.C126_dead_connections"
   ],
   "note": ""
  },
  {
   "property": "C127",
   "status": "proved",
   "theorems": [
    "Bolt.C127_own_result"
   ],
   "note": ""
  },
  {
   "property": "C128",
   "status": "partial",
   "theorems": [
    "Bolt.C128_violated",
    "Bolt.C128_stays",
    "Bolt.C128_ended_partial"
   ],
   "note": "violated: the coroutine of a caller that gave up waits on, and its event stays until a response with its id comes; proved: nothing is left of calls whose coroutine has ended with a response or None"
  },
  {
   "property": "C129",
   "status": "partial",
   "theorems": [
    "Bolt.C129_violated",
    "Bolt.C129_callback_partial"
   ],
   "note": "violated: the callback is not called when the call fails; proved: at most once, and exactly once with the content if the call ended with a response"
  },
  {
   "property": "C130",
   "status": "partial",
   "theorems": [
    "Bolt.C130_violated",
    "Bolt.C130_executions_partial",
    "Bolt.C130_asked"
   ],
   "note": "violated: a flush that fails after the bytes went out makes the client send the request again on a new connection, and the method runs twice; proved: at most as often as its frame was sent, which is at most three times, and at most once if no flush of the call fails; each time it is what the call asks for"
  },
  {
   "property": "C131",
   "status": "proved",
   "theorems": [
    "Bolt.C131_at_most_once",
    "Bolt.C131_at_most_once_sock"
   ],
   "note": ""
  },
  {
   "property": "C132",
   "status": "partial",
   "theorems": [
    "Bolt.C132_violated",
    "Bolt.C132_once_violated",
    "Bolt.C132_trace_ids_partial"
   ],
   "note": "violated: two calls with one context have the same ids (nothing makes a child per call), and even with one call per context a child that the caller makes of a context it sent and a child that the callee makes of the same context get the same rpc id; proved for programs in which a context used for a call is used for nothing else and received contexts are not passed on: all calls have different ids, and contexts with equal ids are the two ends of one call"
  },
  {
   "property": "C133",
   "status": "partial",
   "theorems": [
    "Bolt.C133_violated",
    "Bolt.C133_timeout_partial",
    "Bolt.C133_timeout_sync_partial",
    "Bolt.C133_unsent"
   ],
   "note": "violated: a timeout of 0 means 'at once' to the caller and is sent as -1, which the listener takes for 'no timeout'; proved: the listener applies exactly the integer the caller gave otherwise, -1 for 0, None and oneway calls, and nothing is sent for timeouts that do not fit 32 bits or are no integers"
  },
  {
   "property": "C134",
   "status": "proved",
   "theorems": [
    "Bolt.C134_own_result"
   ],
   "note": "the requests in flight have different ids (C10 bounds when that is guaranteed)"
  },
  {
   "property": "C135",
   "status": "partial",
   "theorems": [
    "Bolt.C135_violated",
    "Bolt.C135_empty_headers_partial",
    "Bolt.C135_empty_headers_sock_partial"
   ],
   "note": "violated: the context is injected into a dict that is not used; proved: every message of either listener, on every stream of bytes, has an empty header"
  },
  {
   "property": "C136",
   "status": "partial",
   "theorems": [
    "Bolt.C136_violated",
    "Bolt.C136_times_partial",
    "Bolt.C136_with"
   ],
   "note": "violated: entering a with block overwrites the given start time, and a start time of 0 is ignored; proved: the exact start and finish time of every span after any further calls, and the times of a with block"
  },
  {
   "property": "C137",
   "status": "proved",
   "theorems": [
    "Bolt.C137_isolated"
   ],
   "note": ""
  },
  {
   "property": "C138",
   "status": "partial",
   "theorems": [
    "Bolt.C138_violated",
    "Bolt.C138_derived_partial"
   ],
   "note": "violated by tags (see C28): with tags the helpers raise or record other tags; proved without tags"
  },
  {
   "property": "C139",
   "status": "partial",
   "theorems": [
    "Bolt.C139_violated",
    "Bolt.C139_default_violated",
    "Bolt.C139_written_partial",
    "Bolt.C139_delivered_partial",
    "Bolt.C139_assertion_partial",
    "Bolt.C139_alone_partial"
   ],
   "note": "violated on the Python versions of setup.py (3.5-3.7), whose flow control has room for one waiter: a writer that starts while another waits fails and writes nothing; proved: exactly then; the claim for later versions; the claim for writers one at a time; what is written in every case"
  },
  {
   "property": "C140",
   "status": "proved",
   "theorems": [
    "Bolt.C140_waits",
    "Bolt.C140_default",
    "Bolt.C140_woken",
    "Bolt.C140_finishes"
   ],
   "note": ""
  },
  {
   "property": "C141",
   "status": "partial",
   "theorems": [
    "Bolt.C141_violated",
    "Bolt.C141_bound_partial",
    "Bolt.C141_single_partial"
   ],
   "note": "violated where all waiters are kept: those resumed together write without looking; proved: at most one message for each unfinished writer, and the claim for a single waiter"
  },
  {
   "property": "C142",
   "status": "partial",
   "theorems": [
    "Bolt.C142_violated",
    "Bolt.C142_few_partial",
    "Bolt.C142_deadlock"
   ],
   "note": "violated: thirty methods that wait for calls in the queue wait for ever; proved: the claim if fewer than thirty calls need others, and that the thirty can be freed only by cancelling a queued call"
  },
  {
   "property": "C143",
   "status": "partial",
   "theorems": [
    "Bolt.C143_violated",
    "Bolt.C143_exact_partial",
    "Bolt.C143_quiet_partial",
    "Bolt.C143_ends",
    "Bolt.C143_log"
   ],
   "note": "violated: the registry is iterated live, a new interface makes the iterator raise RuntimeError and the rest is left out; proved: what is announced in each case, the claim if nothing new is registered, and that every call ends"
  },
  {
   "property": "C144",
   "status": "partial",
   "theorems": [
    "Bolt.C144_violated",
    "Bolt.C144_few_partial",
    "Bolt.C144_settled_partial",
    "Bolt.C144_alone_partial",
    "Bolt.C144_same_partial",
    "Bolt.C144_value",
    "Bolt.C144_keyerror"
   ],
   "note": "violated: __setitem__ looks first and stores later; proved: the number of changes is bounded by the threads in between; the claim when no thread is in between, when threads do not overlap, and for equal values"
  },
  {
   "property": "C145",
   "status": "partial",
   "theorems": [
    "Bolt.C145_violated",
    "Bolt.C145_running_partial",
    "Bolt.C145_noop"
   ],
   "note": "violated: a call before the server is known has no effect, the server starts afterwards; proved: the claim for calls made while the loop runs"
  },
  {
   "property": "C146",
   "status": "partial",
   "theorems": [
    "Bolt.C146_violated",
    "Bolt.C146_stays_partial",
    "Bolt.C146_left_partial"
   ],
   "note": "violated: nothing stops the loop; proved: run_forever is never left once the server has been started, and is left exactly when it could not be started"
  },
  {
   "property": "C147",
   "status": "partial",
   "theorems": [
    "Bolt.C147_violated",
    "Bolt.C147_violated_refused",
    "Bolt.C147_stopped_partial",
    "Bolt.C147_returns_partial",
    "Bolt.C147_hangs"
   ],
   "note": "violated: without run_forever shutdown waits for ever, and the socket stays open, so that clients can connect and wait; proved: it ends if run_forever was ever called, and nothing is accepted afterwards"
  },
  {
   "property": "C148",
   "status": "partial",
   "theorems": [
    "Bolt.C148_violated",
    "Bolt.C148_serves_partial",
    "Bolt.C148_once_partial"
   ],
   "note": "violated: a call of shutdown when the listener has stopped makes the next run_forever return at once; proved: the claim if no request is left over, as after a single call"
  },
  {
   "property": "C149",
   "status": "partial",
   "theorems": [
    "Bolt.C149_violated",
    "Bolt.C149_kept_partial",
    "Bolt.C149_exact_partial",
    "Bolt.C149_given_up",
    "Bolt.C149_refines"
   ],
   "note": "violated with a single waiter (Python 3.5-3.7): a call that comes to a drain while another one waits cancels the reading task of the connection all of them share; proved: the claim where any number may wait or no two calls are in a drain at once, exactly when a connection is given up, and that nothing is read from it afterwards"
  },
  {
   "property": "C150",
   "status": "partial",
   "theorems": [
    "Bolt.C150_violated",
    "Bolt.C150_called_partial",
    "Bolt.C150_refused_partial",
    "Bolt.C150_everyone",
    "Bolt.C150_builtin",
    "Bolt.C150_sock"
   ],
   "note": "violated: a request for __class__ makes another service object with the body as its context, and private methods and attributes can be called as well; proved: exactly which names are refused, what is called for the others, that ordinary names reach the method of that name, and that requests for what every object has never get a result"
  },
  {
   "property": "C151",
   "status": "proved",
   "theorems": [
    "Bolt.C151_own_connection",
    "Bolt.C151_alone",
    "Bolt.C151_oneway",
    "Bolt.C151_open",
    "Bolt.C151_own_result",
    "Bolt.C151_own_result_sock",
    "Bolt.C151_ends",
    "Bolt.C151_put"
   ],
   "note": "steps of any number of calls interleaved at the statements that touch pools and sockets; no connection is shared, each call is as if alone, results are those of the own request with either listener, and calls end as their request has fared"
  },
  {
   "property": "C152",
   "status": "partial",
   "theorems": [
    "Bolt.C152_violated",
    "Bolt.C152_refines_partial",
    "Bolt.C152_progress_partial",
    "Bolt.C152_dies",
    "Bolt.C152_drops",
    "Bolt.C152_never_again"
   ],
   "note": "violated on the Python versions of setup.py (one waiter per protocol): a response of more than 64 KiB that is not read at once makes the refusal of the next frame raise out of _handler_connection; the connection stays open and is never read again. Holds where all waiters are kept, or where nobody comes to write while another one waits: the connection refines the one without flow control and everything ready gets written"
  },
  {
   "property": "C153",
   "status": "proved",
   "theorems": [
    "Bolt.C153_own_result",
    "Bolt.C153_writes",
    "Bolt.C153_at_most_once"
   ],
   "note": "composes the flow-controlled client (afRun) with flow-controlled listeners (lfRun) through C87's own_task; C153_writes simulates a listener whose drains raise by one whose drains have not ended yet"
  },
  {
   "property": "C154",
   "status": "partial",
   "theorems": [
    "Bolt.C154_violated",
    "Bolt.C154_parts_partial",
    "Bolt.C154_kept_partial",
    "Bolt.C154_understood",
    "Bolt.C154_int"
   ],
   "note": "violated: an rpc id with a part such as 07, +1, 1_0 or a number in other digits is rewritten ('0.07' becomes '0.7'), so different ids of a caller become equal. The exact rewriting, when the text is kept, when the id is refused, and the grammar of int() are proved"
  },
  {
   "property": "C155",
   "status": "partial",
   "theorems": [
    "Bolt.C155_violated",
    "Bolt.C155_checked_partial",
    "Bolt.C155_sock_checked_partial",
    "Bolt.C155_ignored"
   ],
   "note": "violated: protocol, version, codec and type are never looked at and any command but HEARTBEAT and RESPONSE passes for REQUEST, at both listeners. Proved for every stream: what is run is the content of a whole frame with the class of requests, a decodable header and another command; and that protocol, version and codec have no influence"
  },
  {
   "property": "C156",
   "status": "partial",
   "theorems": [
    "Bolt.C156_violated",
    "Bolt.C156_sync_partial",
    "Bolt.C156_aio_partial",
    "Bolt.C156_class_ignored"
   ],
   "note": "violated: the class name read is dropped (the test of aio_client.py:233 compares a class attribute with itself), type and codec are not compared, and the synchronous client takes even a heartbeat for the response. Proved: exactly which frames the synchronous client takes, and what the asyncio client requires"
  },
  {
   "property": "C157",
   "status": "partial",
   "theorems": [
    "Bolt.C157_violated",
    "Bolt.C157_spared_partial",
    "Bolt.C157_assignments"
   ],
   "note": "violated: only __setitem__ is overridden, so update replaces and pop, del, popitem and clear remove entries in all three classes. Proved: entries survive everything else, and exactly what assignment by subscript does in each class"
  },
  {
   "property": "C158",
   "status": "partial",
   "theorems": [
    "Bolt.C158_violated",
    "Bolt.C158_carriers_partial",
    "Bolt.C158_taken_partial"
   ],
   "note": "violated: a SofaHeader, the carrier that the documentation of extract names, ignores every assignment, so inject succeeds and nothing is there. Proved: exactly what inject makes of a carrier of each class, and the round trip for the classes that take the items"
  },
  {
   "property": "C159",
   "status": "partial",
   "theorems": [
    "Bolt.C159_violated",
    "Bolt.C159_released_partial",
    "Bolt.C159_in_use",
    "Bolt.C159_call"
   ],
   "note": "violated: EmptyPoolError and ClosedPoolError refer to themselves (args) and to the pool, so a dropped error keeps the pool and its open connections until a cycle collection. Proved: without such errors every open connection can be reached; nothing that can be reached is freed or closed by itself; a synchronous call leaves no connection open"
  },
  {
   "property": "C160",
   "status": "partial",
   "theorems": [
    "Bolt.C160_violated",
    "Bolt.C160_one_object_partial",
    "Bolt.C160_made_once_partial",
    "Bolt.C160_threads_violated",
    "Bolt.C160_threads_partial"
   ],
   "note": "violated: the classes assign __metaclass__, which Python 3 ignores; and where Singleton is the metaclass, threads that construct at the same time get different objects. Proved: where it is the metaclass, one thread gets one object, made once; and calls that begin after one has returned construct nothing"
  },
  {
   "property": "C161",
   "status": "proved",
   "theorems": [
    "Bolt.C161_flow",
    "Bolt.C161_waits",
    "Bolt.C161_runs",
    "Bolt.C161_goes_on",
    "Bolt.C161_lost"
   ],
   "note": "over the asyncio client with flow control; low limit at most the high limit (asyncio requires it)"
  },
  {
   "property": "C162",
   "status": "partial",
   "theorems": [
    "Bolt.C162_violated",
    "Bolt.C162_refused_partial",
    "Bolt.C162_unwritten"
   ],
   "note": "violated: invoke_async with a callback divides the timeout after the coroutine was submitted; a string raises TypeError and the coroutine runs. Proved: exactly when each method raises, returns or waits, that nothing is submitted in all other cases of raising, and that the coroutine in question never writes"
  },
  {
   "property": "C163",
   "status": "proved",
   "theorems": [
    "Bolt.C163_listener",
    "Bolt.C163_order",
    "Bolt.C163_timeout",
    "Bolt.C163_answered",
    "Bolt.C163_taken",
    "Bolt.C163_counted",
    "Bolt.C163_printed"
   ],
   "note": "the listener with the CoroExecutor refines the listener with the pool; C107 and, for methods that return, C106 hold of it as stated"
  },
  {
   "property": "C164",
   "status": "proved",
   "theorems": [
    "Bolt.C164_waits",
    "Bolt.C164_task",
    "Bolt.C164_reader",
    "Bolt.C164_reset",
    "Bolt.C164_runs",
    "Bolt.C164_bytes"
   ],
   "note": "for both forms of the flow control of asyncio (one waiter, or all); what a second waiter does to a connection with room for one is C152"
  },
  {
   "property": "C165",
   "status": "partial",
   "theorems": [
    "Bolt.C165_violated",
    "Bolt.C165_flood",
    "Bolt.C165_single_partial"
   ],
   "note": "violated from Python 3.10 on: the reader goes on reading while the responses wait, each in its own task, so n heartbeats of a client that does not read make the listener hold n answers. Proved with a single waiter (Python 3.5-3.7), where the other responses are dropped: at most the high limit and one message, two once the connection is closed"
  },
  {
   "property": "C166",
   "status": "partial",
   "theorems": [
    "Bolt.C166_violated",
    "Bolt.C166_never",
    "Bolt.C166_pool_partial",
    "Bolt.C166_text",
    "Bolt.C166_status",
    "Bolt.C166_literal",
    "Bolt.C166_literal_inj",
    "Bolt.C166_printable",
    "Bolt.C166_class",
    "Bolt.C166_other_arguments"
   ],
   "note": "violated by every error about a pool: the constructor passes the object itself on as the first of its arguments, so the text is that of a pair of the error and the intended text. Proved for the other classes, with the exact text of the pool errors"
  },
  {
   "property": "C167",
   "status": "partial",
   "theorems": [
    "Bolt.C167_violated",
    "Bolt.C167_copy_partial",
    "Bolt.C167_exact",
    "Bolt.C167_grows"
   ],
   "note": "violated: the copy of a ServerError or ClientError has its prefix once more, that of an error of mysockpool says None instead of pool and message. Proved: every error can be copied, the class is kept, the copies of the other classes are the same, and exactly which texts are kept"
  },
  {
   "property": "C168",
   "status": "partial",
   "theorems": [
    "Bolt.C168_violated",
    "Bolt.C168_heartbeat",
    "Bolt.C168_beats",
    "Bolt.C168_subscribed",
    "Bolt.C168_unassigned_partial"
   ],
   "note": "violated when the address is assigned after the client was made, as performance_aio.py does: the timer has the address of the construction for ever, a subscription the one of its time. Proved exactly so, and as listed without later assignments"
  },
  {
   "property": "C169",
   "status": "proved",
   "theorems": [
    "Bolt.C169_none_held",
    "Bolt.C169_who_waits"
   ],
   "note": "what happens with a protocol that has room for one waiter only is the subject of C149 and C152"
  },
  {
   "property": "C170",
   "status": "partial",
   "theorems": [
    "Bolt.C170_violated",
    "Bolt.C170_raised_partial",
    "Bolt.C170_returned",
    "Bolt.C170_stop_iteration"
   ],
   "note": "violated by StopIteration before Python 3.12 (asyncio.Future.set_exception refuses it): the request is answered TIMEOUT when its time is up, and never if it has no timeout; all other exceptions are answered"
  },
  {
   "property": "C171",
   "status": "partial",
   "theorems": [
    "Bolt.C171_violated",
    "Bolt.C171_same_partial",
    "Bolt.C171_cause",
    "Bolt.C171_frozen",
    "Bolt.C171_unanswered"
   ],
   "note": "violated: SystemExit raised by the method of a two-way request, or by a service class, leaves run_forever; then no connection is accepted, read or answered any more; holds without SystemExit and for methods of one-way requests"
  },
  {
   "property": "C172",
   "status": "proved",
   "theorems": [
    "Bolt.C172_comes_to_rest",
    "Bolt.C172_at_rest",
    "Bolt.C172_every_call_ends"
   ],
   "note": "a measure that every effective event lowers; what is true when no event has an effect; the two together for endless schedules that do not stop while there is something to do"
  },
  {
   "property": "C173",
   "status": "proved",
   "theorems": [
    "Bolt.C173_comes_to_rest",
    "Bolt.C173_at_rest",
    "Bolt.C173_every_call_ends"
   ],
   "note": "the measure of C172 followed by one for the buffers, the waiters and the woken of each connection; at rest a connection that is up is stuck in the sense of C169"
  },
  {
   "property": "C174",
   "status": "partial",
   "theorems": [
    "Bolt.C174_violated",
    "Bolt.C174_understood_partial",
    "Bolt.C174_waits",
    "Bolt.C174_skipped",
    "Bolt.C174_sync"
   ],
   "note": "false for frames that cannot be decoded (an unlisted status is enough); proved for all others, with the exact description of the rest: the call waits, nobody else notices, and the synchronous client raises"
  },
  {
   "property": "C175",
   "status": "partial",
   "theorems": [
    "Bolt.C175_violated",
    "Bolt.C175_client_partial",
    "Bolt.C175_listener_partial"
   ],
   "note": "false for a mesh that is down for the first request only; proved: the answer to the registration decides for good, with the exact effect of all later calls in either case"
  },
  {
   "property": "C176",
   "status": "partial",
   "theorems": [
    "Bolt.C176_violated",
    "Bolt.C176_listener_partial",
    "Bolt.C176_client_partial",
    "Bolt.C176_grows",
    "Bolt.C176_reached",
    "Bolt.C176_client_grows",
    "Bolt.C176_schedules",
    "Bolt.C176_client_schedules",
    "Bolt.C176_resumes",
    "Bolt.C176_client_resumes"
   ],
   "note": "false as stated for listener and client: a declared content is collected whole, for every length up to 2^32-1 (C176_grows); proved: max(2*limit, declared-1)+chunk, hence an absolute bound; flow control loses nothing and does not block for ever"
  },
  {
   "property": "C177",
   "status": "partial",
   "theorems": [
    "Bolt.C177_violated",
    "Bolt.C177_cut",
    "Bolt.C177_prefix_partial",
    "Bolt.C177_blocking",
    "Bolt.C177_closed"
   ],
   "note": "false as stated for the connections of the pool, which do not block (C177_cut: for every proper part of the bytes there is a run that raises after exactly it); proved: what is sent is a prefix, all of it when the call returns; for blocking connections the outcome exactly"
  },
  {
   "property": "C178",
   "status": "partial",
   "theorems": [
    "Bolt.C178_violated",
    "Bolt.C178_grows",
    "Bolt.C178_paid_partial"
   ],
   "note": "false as stated: for every request the service takes and every n there is a run with n calls queued (C178_grows); proved: all calls ever accepted, with 66 bytes and the content each, fit into what the peer has sent"
  },
  {
   "property": "C179",
   "status": "partial",
   "theorems": [
    "Bolt.C179_violated",
    "Bolt.C179_times_out",
    "Bolt.C179_stalls",
    "Bolt.C179_others_go_on",
    "Bolt.C179_refines_partial"
   ],
   "note": "false as stated: every invoke_sync in a callback on the loop's thread times out (C179_times_out), and nothing happens on the loop meanwhile (C179_stalls); proved: invoke_async/invoke_oneway in callbacks do not block, and everything else is as without callbacks (refinement)"
  },
  {
   "property": "C180",
   "status": "partial",
   "theorems": [
    "Bolt.C180_violated",
    "Bolt.C180_kept_partial",
    "Bolt.C180_same"
   ],
   "note": "false as stated: every id drawn is kept, min(n, 2^31) after n draws, exactly (C180_kept_partial); proved: the iterators yield the ids of requestIdAt and never stop (C180_same)"
  },
  {
   "property": "C181",
   "status": "proved",
   "theorems": [
    "Bolt.C181_same_result",
    "Bolt.C181_determined"
   ],
   "note": ""
  },
  {
   "property": "C182",
   "status": "partial",
   "theorems": [
    "Bolt.C182_violated",
    "Bolt.C182_once",
    "Bolt.C182_acknowledged",
    "Bolt.C182_over",
    "Bolt.C182_look",
    "Bolt.C182_spacing_partial"
   ],
   "note": "false as stated: against asyncio listeners at most one heartbeat is ever sent (C182_once), and against any server that does not answer heartbeats with ordinary responses (C182_acknowledged); proved: the exact reaction to each end of a heartbeat, 30 seconds between any two, one at a time"
  },
  {
   "property": "C183",
   "status": "partial",
   "theorems": [
    "Bolt.C183_violated",
    "Bolt.C183_exact",
    "Bolt.C183_late",
    "Bolt.C183_clock",
    "Bolt.C183_not_early_partial",
    "Bolt.C183_not_later",
    "Bolt.C183_timed",
    "Bolt.C183_ready"
   ],
   "note": "false as stated: one second late with every clock that goes right (C183_late), by any amount late or early if the clock is set (C183_clock); proved: the exact moment for every clock, and for a clock that goes right that the call is never early and no round ends later"
  },
  {
   "property": "C184",
   "status": "proved",
   "theorems": [
    "Bolt.C184_comes_to_ease",
    "Bolt.C184_answered",
    "Bolt.C184_heartbeats"
   ],
   "note": "from every state of every listener, by steps of the event loop alone; back pressure left out here (see C152, C164, C173)"
  },
  {
   "property": "C185",
   "status": "partial",
   "theorems": [
    "Bolt.C185_violated",
    "Bolt.C185_always",
    "Bolt.C185_asked_partial",
    "Bolt.C185_faithful",
    "Bolt.C185_address"
   ],
   "note": "false as listed: any connection can complete any waiting call; proved that it always does, that connections a call has left never complete it, and the claim for peers that answer only what they were asked"
  },
  {
   "property": "C186",
   "status": "partial",
   "theorems": [
    "Bolt.C186_violated",
    "Bolt.C186_always",
    "Bolt.C186_received",
    "Bolt.C186_text",
    "Bolt.C186_ordinary",
    "Bolt.C186_derived_partial"
   ],
   "note": "false as listed: the follow-up of an id of as many nines as the limit allows has no text, for every limit; proved that received ids always have a text that makes them again, exactly which ids have a text, that short ids are those of the model without a limit, and that derived ids have a text below the limit"
  },
  {
   "property": "C187",
   "status": "partial",
   "theorems": [
    "Bolt.C187_violated",
    "Bolt.C187_always",
    "Bolt.C187_count_partial",
    "Bolt.C187_calm",
    "Bolt.C187_same"
   ],
   "note": "false as listed: failed creations are counted; proved that a pool with as many failures as it may have connections never hands out one again, that made and failed connections together reach the limit whenever a call is refused, hence the claim for histories without failures, in which the pool is the one of the other properties"
  },
  {
   "property": "C188",
   "status": "partial",
   "theorems": [
    "Bolt.C188_violated",
    "Bolt.C188_always",
    "Bolt.C188_extract",
    "Bolt.C188_root",
    "Bolt.C188_named_partial"
   ],
   "note": "false as listed: a request without a trace id started while the name cannot be resolved is dropped; proved that this always happens and is never repaired, what extract and a first span do exactly, and that with trace ids the connection behaves as the one of the other properties"
  },
  {
   "property": "C189",
   "status": "partial",
   "theorems": [
    "Bolt.C189_violated",
    "Bolt.C189_always",
    "Bolt.C189_refused_partial",
    "Bolt.C189_same",
    "Bolt.C189_step"
   ],
   "note": "false as listed: a request whose submit could not start a thread is answered SERVER_EXCEPTION and its call stays queued; proved that this always happens and that the call is never withdrawn; every other refused request has no call, and every queued call belongs to exactly one request"
  },
  {
   "property": "C190",
   "status": "partial",
   "theorems": [
    "Bolt.C190_violated",
    "Bolt.C190_always",
    "Bolt.C190_late",
    "Bolt.C190_threads",
    "Bolt.C190_refines_partial",
    "Bolt.C190_same"
   ],
   "note": "false as listed: the loop stands still while a service class is called; proved that it always does, that the threads of the pool go on, and that every state is one of the listener whose objects are made in no time, so that its other properties hold"
  },
  {
   "property": "C191",
   "status": "partial",
   "theorems": [
    "Bolt.C191_violated",
    "Bolt.C191_interrupt_partial",
    "Bolt.C191_always",
    "Bolt.C191_unused"
   ],
   "note": "false as listed: the constructors swallow interrupts; proved that all other calls pass them on, exactly, and that an interrupted construction always returns an object that leaves the mesh alone"
  },
  {
   "property": "C192",
   "status": "partial",
   "theorems": [
    "Bolt.C192_violated",
    "Bolt.C192_hangs_partial",
    "Bolt.C192_program",
    "Bolt.C192_always",
    "Bolt.C192_same"
   ],
   "note": "false as listed: no timeout on posts; proved exactly when a call and a program hang, and that a mesh that answers gives the behaviour of Model/Process.lean"
  },
  {
   "property": "C193",
   "status": "partial",
   "theorems": [
    "Bolt.C193_violated",
    "Bolt.C193_exits_partial",
    "Bolt.C193_always",
    "Bolt.C193_threads"
   ],
   "note": "false as listed: a peer that closes early leaves a thread for which the interpreter waits for ever; proved exactly when the process can end, that such a peer always prevents it, and that the number of threads left is not bounded"
  },
  {
   "property": "C194",
   "status": "partial",
   "theorems": [
    "Bolt.C194_violated",
    "Bolt.C194_short_partial",
    "Bolt.C194_exact",
    "Bolt.C194_always",
    "Bolt.C194_clock"
   ],
   "note": "false as listed for the last second of the range of timeouts; proved exactly which timeouts work, that the others always raise OverflowError after the request was sent, and that for the others the call is that of C183"
  },
  {
   "property": "C195",
   "status": "partial",
   "theorems": [
    "Bolt.C195_violated",
    "Bolt.C195_exact_partial",
    "Bolt.C195_lost",
    "Bolt.C195_always"
   ],
   "note": "false as listed: each refusal at the limit loses a connection; proved exactly when an open pool refuses, that refusals lose connections, and that a pool that refuses while nobody holds a connection refuses for ever"
  },
  {
   "property": "C196",
   "status": "partial",
   "theorems": [
    "Bolt.C196_violated",
    "Bolt.C196_executed_partial",
    "Bolt.C196_closed",
    "Bolt.C196_refused",
    "Bolt.C196_hangs",
    "Bolt.C196_ends",
    "Bolt.C196_same",
    "Bolt.C196_refusal"
   ],
   "note": "false as listed: the process can be gone before the loop has written the response of an executed call; proved that every call given to the pool is executed or had expired, that nothing is accepted after the main thread has ended, when the process ends and when it does not"
  },
  {
   "property": "C197",
   "status": "partial",
   "theorems": [
    "Bolt.C197_violated",
    "Bolt.C197_exact_partial",
    "Bolt.C197_withdrawn_partial",
    "Bolt.C197_registered",
    "Bolt.C197_stuck"
   ],
   "note": "false as listed: a refusal ends the loop; proved exactly which services are withdrawn, that all are if the mesh accepts, and that a mesh that refuses the first one keeps all others announced for ever"
  },
  {
   "property": "C198",
   "status": "proved",
   "theorems": [
    "Bolt.C198_agree",
    "Bolt.C198_subscribed"
   ],
   "note": "an invariant of all histories of a process; the calls of different threads do not overlap"
  },
  {
   "property": "C199",
   "status": "proved",
   "theorems": [
    "Bolt.C199_aio_acts",
    "Bolt.C199_aio_tasks",
    "Bolt.C199_aio_calls",
    "Bolt.C199_aio_rest",
    "Bolt.C199_sock"
   ],
   "note": "both listeners, any schedule, with resets"
  },
  {
   "property": "C200",
   "status": "proved",
   "theorems": [
    "Bolt.C200_sync",
    "Bolt.C200_sync_call",
    "Bolt.C200_aio"
   ],
   "note": "both clients, any schedule"
  },
  {
   "property": "C201",
   "status": "partial",
   "theorems": [
    "Bolt.C201_violated",
    "Bolt.C201_left",
    "Bolt.C201_apart",
    "Bolt.C201_always",
    "Bolt.C201_served_partial"
   ],
   "note": "false as listed: a listener can announce its services before it serves, and shutdown leaves them announced; proved that run_forever and shutdown never change what is announced, and that programs that publish only while serving and withdraw before shutdown have the property"
  },
  {
   "property": "C202",
   "status": "proved",
   "theorems": [
    "Bolt.C202_zeros",
    "Bolt.C202_blind"
   ],
   "note": "a relation between two runs of one connection; in particular timeouts and one-way calls mean nothing to the socket listener"
  },
  {
   "property": "C203",
   "status": "partial",
   "theorems": [
    "Bolt.C203_violated",
    "Bolt.C203_worst",
    "Bolt.C203_counts_partial"
   ],
   "note": "false as listed: lost decrements let the count drift up to any max_connections while one connection is open; proved for all schedules in which no surplus connection is counted out between another thread's read and write of the count"
  },
  {
   "property": "C204",
   "status": "partial",
   "theorems": [
    "Bolt.C204_violated",
    "Bolt.C204_worst",
    "Bolt.C204_bound_partial"
   ],
   "note": "false as listed: lost increments let two threads hold any number of connections; proved, refills and close included, for all runs in which no writes of the count overlap and no connection is found dropped"
  },
  {
   "property": "C205",
   "status": "partial",
   "theorems": [
    "Bolt.C205_violated",
    "Bolt.C205_always",
    "Bolt.C205_named_partial"
   ],
   "note": "false as listed: a request without a trace id is dropped and its connection closed without an answer; proved for requests that carry one, which are treated exactly as on other hosts"
  },
  {
   "property": "C206",
   "status": "partial",
   "theorems": [
    "Bolt.C206_violated",
    "Bolt.C206_always",
    "Bolt.C206_others",
    "Bolt.C206_threads_partial"
   ],
   "note": "false as listed: threads of peers that left early never end, and when they are as many as there can be no connection is served any more; proved that the connections that got a thread behave as without a limit, and that the limit is not felt while it is not reached"
  },
  {
   "property": "C207",
   "status": "partial",
   "theorems": [
    "Bolt.C207_violated",
    "Bolt.C207_always",
    "Bolt.C207_own",
    "Bolt.C207_waited_partial"
   ],
   "note": "false as listed: a one-way or asynchronous call made just before the main thread ends is never sent; proved that it is so after every history, and that a call whose response invoke_sync has returned was sent"
  },
  {
   "property": "C208",
   "status": "partial",
   "theorems": [
    "Bolt.C208_violated",
    "Bolt.C208_always",
    "Bolt.C208_apart_partial"
   ],
   "note": "false as listed: in the child no thread runs the loop, so every invoke_sync times out and nothing is sent; proved for all schedules, and that the child does not touch the connections and calls of the parent"
  }
 ]
}