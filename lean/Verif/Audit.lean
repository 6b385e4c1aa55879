import Verif.Props.AioCallers
import Verif.Props.AioClient
import Verif.Props.AioDial
import Verif.Props.AioExit
import Verif.Props.AioFail
import Verif.Props.AioFlow
import Verif.Props.AioFlowWait
import Verif.Props.AioFrames
import Verif.Props.AioIds
import Verif.Props.AioSend
import Verif.Props.AioServer
import Verif.Props.AioShare
import Verif.Props.AtMostOnce
import Verif.Props.Attrs
import Verif.Props.Backlog
import Verif.Props.Callbacks
import Verif.Props.ClientEnd
import Verif.Props.ClientFork
import Verif.Props.ComesToRest
import Verif.Props.Container
import Verif.Props.ContainerMore
import Verif.Props.ContainerThreads
import Verif.Props.CoroExecutor
import Verif.Props.CutOff
import Verif.Props.CutResponse
import Verif.Props.DigitLimit
import Verif.Props.Drain
import Verif.Props.EndToEnd
import Verif.Props.EndToEndAio
import Verif.Props.EndToEndServer
import Verif.Props.EndToEndSock
import Verif.Props.EndToEndThreads
import Verif.Props.Errors
import Verif.Props.ExecutorFull
import Verif.Props.FlowEndToEnd
import Verif.Props.FlowQuiet
import Verif.Props.FlowRest
import Verif.Props.Header
import Verif.Props.HeartbeatTimer
import Verif.Props.HostName
import Verif.Props.IdGen
import Verif.Props.InputFlow
import Verif.Props.Intake
import Verif.Props.Lifecycle
import Verif.Props.ListenerCalls
import Verif.Props.ListenerFlow
import Verif.Props.ListenerFlowWait
import Verif.Props.ListenerHeld
import Verif.Props.ListenerReader
import Verif.Props.ListenerReplies
import Verif.Props.ListenerStream
import Verif.Props.Mesh
import Verif.Props.MeshAddress
import Verif.Props.MeshLate
import Verif.Props.MeshSilent
import Verif.Props.Nested
import Verif.Props.Pool
import Verif.Props.PoolClose
import Verif.Props.PoolDrift
import Verif.Props.PoolLedger
import Verif.Props.PoolManager
import Verif.Props.PoolOverrun
import Verif.Props.PoolProgress
import Verif.Props.PoolRecovers
import Verif.Props.PoolSockets
import Verif.Props.PoolThreads
import Verif.Props.PoolWorld
import Verif.Props.Process
import Verif.Props.ProcessEnd
import Verif.Props.Quiet
import Verif.Props.ReadOnly
import Verif.Props.Refs
import Verif.Props.Refused
import Verif.Props.Remaining
import Verif.Props.RepoTests
import Verif.Props.RequestId
import Verif.Props.ResponseContext
import Verif.Props.RpcEq
import Verif.Props.RpcIdText
import Verif.Props.SendAll
import Verif.Props.Serving
import Verif.Props.SharedDicts
import Verif.Props.Singleton
import Verif.Props.SlowService
import Verif.Props.SockBlind
import Verif.Props.SockConn
import Verif.Props.SockExit
import Verif.Props.SockHostName
import Verif.Props.SockListener
import Verif.Props.SockServer
import Verif.Props.SockStream
import Verif.Props.SockThreads
import Verif.Props.SpanApi
import Verif.Props.Spans
import Verif.Props.StopIteration
import Verif.Props.StuckMethods
import Verif.Props.Subscribed
import Verif.Props.SyncClient
import Verif.Props.SyncLongWait
import Verif.Props.SyncPools
import Verif.Props.SyncSend
import Verif.Props.SyncThreads
import Verif.Props.SyncThreadsOpen
import Verif.Props.SyncWait
import Verif.Props.Threads
import Verif.Props.Timeouts
import Verif.Props.Timing
import Verif.Props.TraceNet
import Verif.Props.Tracer
import Verif.Props.Undecodable
import Verif.Props.Unpublish
import Verif.Props.WhoAnswers
import Verif.Props.Wire
import Verif.Props.WireMore
/-!
# Axioms of the property theorems

One line for each theorem named in MANIFEST.json; the build prints the axioms each of them depends on. They are among
`propext`, `Classical.choice` and `Quot.sound`.
-/

#print axioms Bolt.C01_request_roundtrip
#print axioms Bolt.C02_response_roundtrip
#print axioms Bolt.C03_byte_layout
#print axioms Bolt.C04_encodable_iff
#print axioms Bolt.C05_decode_total
#print axioms Bolt.C06_exact_length
#print axioms Bolt.C07_known_codes
#print axioms Bolt.C08_header_roundtrip
#print axioms Bolt.C08_header_serialises
#print axioms Bolt.C09_parse_grammar
#print axioms Bolt.C09_flatten_even
#print axioms Bolt.C10_java_null
#print axioms Bolt.C11_last_wins
#print axioms Bolt.C12_snapshot
#print axioms Bolt.C13_len
#print axioms Bolt.C14_id_range
#print axioms Bolt.C15_id_window
#print axioms Bolt.C16_heartbeat
#print axioms Bolt.C17_fail_response
#print axioms Bolt.C18_violated
#print axioms Bolt.C18_build_header_partial
#print axioms Bolt.C18_exact_partial
#print axioms Bolt.C19_violated
#print axioms Bolt.C19_inject_extract_partial
#print axioms Bolt.C19_exact_partial
#print axioms Bolt.C20_violated
#print axioms Bolt.C20_context_survives_call_partial
#print axioms Bolt.C20_exact_partial
#print axioms Bolt.C21_extract_total
#print axioms Bolt.C22_rpcid_roundtrip
#print axioms Bolt.C23_rpcid_shape
#print axioms Bolt.C23_roots
#print axioms Bolt.C24_violated
#print axioms Bolt.C24_rpcids_unique_partial
#print axioms Bolt.C24_collision
#print axioms Bolt.C25_derived_keeps_baggage
#print axioms Bolt.C26_contexts_immutable
#print axioms Bolt.C26_set_baggage_refused
#print axioms Bolt.C27_violated
#print axioms Bolt.C27_trace_ids_unique_partial
#print axioms Bolt.C27_collisions
#print axioms Bolt.C28_violated
#print axioms Bolt.C28_tags_recorded_partial
#print axioms Bolt.C29_capacity
#print axioms Bolt.C30_map
#print axioms Bolt.C31_violated
#print axioms Bolt.C31_lru_partial
#print axioms Bolt.C31_every_history_partial
#print axioms Bolt.C32_dispose_once
#print axioms Bolt.C33_one_pool
#print axioms Bolt.C34_managed_or_closed
#print axioms Bolt.C34_evicted_closed
#print axioms Bolt.C35_exclusive
#print axioms Bolt.C36_violated
#print axioms Bolt.C36_lifo_partial
#print axioms Bolt.C36_grows
#print axioms Bolt.C36_free_bound_threads_partial
#print axioms Bolt.C37_violated
#print axioms Bolt.C37_unbounded
#print axioms Bolt.C37_cap_threads_partial
#print axioms Bolt.C37_cap_sequential_partial
#print axioms Bolt.C38_violated
#print axioms Bolt.C38_violated_by_exhaustion
#print axioms Bolt.C38_count_partial
#print axioms Bolt.C38_ledger_partial
#print axioms Bolt.C39_violated
#print axioms Bolt.C39_returned_open_partial
#print axioms Bolt.C39_exact_partial
#print axioms Bolt.C40_closed_pool
#print axioms Bolt.C41_scope
#print axioms Bolt.C42_address
#print axioms Bolt.C43_first_assignment_wins
#print axioms Bolt.C44_subscribe
#print axioms Bolt.C44_unsubscribe
#print axioms Bolt.C45_startup
#print axioms Bolt.C46_violated
#print axioms Bolt.C46_post_partial
#print axioms Bolt.C46_exact
#print axioms Bolt.C47_payload
#print axioms Bolt.C48_publish
#print axioms Bolt.C48_unpublish
#print axioms Bolt.C49_segmentation
#print axioms Bolt.C50_own_success
#print axioms Bolt.C51_one_frame
#print axioms Bolt.C52_violated
#print axioms Bolt.C52_violated_by_send
#print axioms Bolt.C52_deadline_partial
#print axioms Bolt.C52_exact
#print axioms Bolt.C52_never
#print axioms Bolt.C53_at_most_once
#print axioms Bolt.C54_violated
#print axioms Bolt.C54_never_reused_partial
#print axioms Bolt.C55_own_response
#print axioms Bolt.C55_content
#print axioms Bolt.C56_error_status
#print axioms Bolt.C57_stray
#print axioms Bolt.C57_duplicate
#print axioms Bolt.C58_violated
#print axioms Bolt.C58_leftovers_partial
#print axioms Bolt.C59_violated
#print axioms Bolt.C59_waiting_partial
#print axioms Bolt.C59_early
#print axioms Bolt.C60_three_writes
#print axioms Bolt.C60_no_more
#print axioms Bolt.C60_on_the_wire
#print axioms Bolt.C61_one_connection
#print axioms Bolt.C62_violated
#print axioms Bolt.C62_always
#print axioms Bolt.C62_alone_partial
#print axioms Bolt.C63_violated
#print axioms Bolt.C63_waits
#print axioms Bolt.C63_closed_partial
#print axioms Bolt.C64_violated
#print axioms Bolt.C64_never
#print axioms Bolt.C64_ordinary_partial
#print axioms Bolt.C64_timer
#print axioms Bolt.C65_violated
#print axioms Bolt.C65_aio
#print axioms Bolt.C65_sync_partial
#print axioms Bolt.C66_chunking
#print axioms Bolt.C66_prefix
#print axioms Bolt.C66_progress
#print axioms Bolt.C67_pipelined
#print axioms Bolt.C68_survives_rejection
#print axioms Bolt.C69_violated
#print axioms Bolt.C69_undecodable_header_partial
#print axioms Bolt.C70_violated
#print axioms Bolt.C70_heartbeats_partial
#print axioms Bolt.C71_replies_to_requests
#print axioms Bolt.C72_violated
#print axioms Bolt.C72_one_response_partial
#print axioms Bolt.C72_at_most_one
#print axioms Bolt.C72_ledger
#print axioms Bolt.C73_violated
#print axioms Bolt.C73_oneway_partial
#print axioms Bolt.C73_exact
#print axioms Bolt.C74_status
#print axioms Bolt.C75_own_result
#print axioms Bolt.C76_timeout_only_when_due
#print axioms Bolt.C76_late_result_discarded
#print axioms Bolt.C77_no_interleaving
#print axioms Bolt.C78_resolution
#print axioms Bolt.C78_refused
#print axioms Bolt.C79_last_wins
#print axioms Bolt.C79_serving
#print axioms Bolt.C80_violated
#print axioms Bolt.C80_shared_partial
#print axioms Bolt.C81_violated
#print axioms Bolt.C81_distinct_partial
#print axioms Bolt.C81_open_partial
#print axioms Bolt.C81_again
#print axioms Bolt.C82_call_of_request
#print axioms Bolt.C82_request_has_call
#print axioms Bolt.C82_exactly_one
#print axioms Bolt.C83_answer
#print axioms Bolt.C83_progress
#print axioms Bolt.C84_violated
#print axioms Bolt.C84_never_ends
#print axioms Bolt.C84_reset_partial
#print axioms Bolt.C85_violated
#print axioms Bolt.C85_silent
#print axioms Bolt.C85_reported_partial
#print axioms Bolt.C86_returns_result
#print axioms Bolt.C86_ends_accordingly
#print axioms Bolt.C87_own_result
#print axioms Bolt.C87_completes
#print axioms Bolt.C88_rpc_eq_iff_str
#print axioms Bolt.C89_reencode
#print axioms Bolt.C90_unique_split
#print axioms Bolt.C91_violated
#print axioms Bolt.C91_whole_partial
#print axioms Bolt.C92_violated
#print axioms Bolt.C92_at_once_partial
#print axioms Bolt.C93_no_deadlock
#print axioms Bolt.C93_calls_end
#print axioms Bolt.C94_sequential_refines
#print axioms Bolt.C95_violated
#print axioms Bolt.C95_one_dial_partial
#print axioms Bolt.C95_nobody_stuck
#print axioms Bolt.C96_violated
#print axioms Bolt.C96_retried_partial
#print axioms Bolt.C96_exact
#print axioms Bolt.C97_violated
#print axioms Bolt.C97_others_partial
#print axioms Bolt.C97_dropped
#print axioms Bolt.C98_frames
#print axioms Bolt.C98_segments
#print axioms Bolt.C99_ids_distinct
#print axioms Bolt.C100_every_stream
#print axioms Bolt.C101_exact
#print axioms Bolt.C101_returns
#print axioms Bolt.C101_consecutive
#print axioms Bolt.C102_violated
#print axioms Bolt.C102_never_ends
#print axioms Bolt.C102_ends_partial
#print axioms Bolt.C103_wait
#print axioms Bolt.C103_dropped
#print axioms Bolt.C104_alone
#print axioms Bolt.C104_no_crosstalk
#print axioms Bolt.C105_workers
#print axioms Bolt.C106_violated
#print axioms Bolt.C106_starved
#print axioms Bolt.C106_taken_partial
#print axioms Bolt.C107_violated
#print axioms Bolt.C107_not_started_partial
#print axioms Bolt.C108_violated
#print axioms Bolt.C108_no_connection_partial
#print axioms Bolt.C108_serves_on
#print axioms Bolt.C109_returns_result
#print axioms Bolt.C109_ends_accordingly
#print axioms Bolt.C110_every_stream
#print axioms Bolt.C111_violated
#print axioms Bolt.C111_at_most_one
#print axioms Bolt.C111_first_partial
#print axioms Bolt.C112_sync
#print axioms Bolt.C112_sync_ends
#print axioms Bolt.C112_aio
#print axioms Bolt.C113_alone
#print axioms Bolt.C113_sync
#print axioms Bolt.C113_sync_ends
#print axioms Bolt.C114_violated
#print axioms Bolt.C114_own_result_partial
#print axioms Bolt.C114_first
#print axioms Bolt.C115_violated
#print axioms Bolt.C115_one_each_partial
#print axioms Bolt.C116_violated
#print axioms Bolt.C116_entry_partial
#print axioms Bolt.C116_kept_partial
#print axioms Bolt.C116_unassigned
#print axioms Bolt.C117_violated
#print axioms Bolt.C117_all_partial
#print axioms Bolt.C118_violated
#print axioms Bolt.C118_later
#print axioms Bolt.C118_alone_partial
#print axioms Bolt.C118_range
#print axioms Bolt.C119_startup_threads
#print axioms Bolt.C120_violated
#print axioms Bolt.C120_who_waits_partial
#print axioms Bolt.C121_atomic
#print axioms Bolt.C122_manager_threads
#print axioms Bolt.C123_violated
#print axioms Bolt.C123_violated_by_get
#print axioms Bolt.C123_bounded_leak_partial
#print axioms Bolt.C124_violated
#print axioms Bolt.C124_blocked_partial
#print axioms Bolt.C125_violated
#print axioms Bolt.C125_connections_partial
#print axioms Bolt.C126_dead_connections
#print axioms Bolt.C127_own_result
#print axioms Bolt.C128_violated
#print axioms Bolt.C128_stays
#print axioms Bolt.C128_ended_partial
#print axioms Bolt.C129_violated
#print axioms Bolt.C129_callback_partial
#print axioms Bolt.C130_violated
#print axioms Bolt.C130_executions_partial
#print axioms Bolt.C130_asked
#print axioms Bolt.C131_at_most_once
#print axioms Bolt.C131_at_most_once_sock
#print axioms Bolt.C132_violated
#print axioms Bolt.C132_once_violated
#print axioms Bolt.C132_trace_ids_partial
#print axioms Bolt.C133_violated
#print axioms Bolt.C133_timeout_partial
#print axioms Bolt.C133_timeout_sync_partial
#print axioms Bolt.C133_unsent
#print axioms Bolt.C134_own_result
#print axioms Bolt.C135_violated
#print axioms Bolt.C135_empty_headers_partial
#print axioms Bolt.C135_empty_headers_sock_partial
#print axioms Bolt.C136_violated
#print axioms Bolt.C136_times_partial
#print axioms Bolt.C136_with
#print axioms Bolt.C137_isolated
#print axioms Bolt.C138_violated
#print axioms Bolt.C138_derived_partial
#print axioms Bolt.C139_violated
#print axioms Bolt.C139_default_violated
#print axioms Bolt.C139_written_partial
#print axioms Bolt.C139_delivered_partial
#print axioms Bolt.C139_assertion_partial
#print axioms Bolt.C139_alone_partial
#print axioms Bolt.C140_waits
#print axioms Bolt.C140_default
#print axioms Bolt.C140_woken
#print axioms Bolt.C140_finishes
#print axioms Bolt.C141_violated
#print axioms Bolt.C141_bound_partial
#print axioms Bolt.C141_single_partial
#print axioms Bolt.C142_violated
#print axioms Bolt.C142_few_partial
#print axioms Bolt.C142_deadlock
#print axioms Bolt.C143_violated
#print axioms Bolt.C143_exact_partial
#print axioms Bolt.C143_quiet_partial
#print axioms Bolt.C143_ends
#print axioms Bolt.C143_log
#print axioms Bolt.C144_violated
#print axioms Bolt.C144_few_partial
#print axioms Bolt.C144_settled_partial
#print axioms Bolt.C144_alone_partial
#print axioms Bolt.C144_same_partial
#print axioms Bolt.C144_value
#print axioms Bolt.C144_keyerror
#print axioms Bolt.C145_violated
#print axioms Bolt.C145_running_partial
#print axioms Bolt.C145_noop
#print axioms Bolt.C146_violated
#print axioms Bolt.C146_stays_partial
#print axioms Bolt.C146_left_partial
#print axioms Bolt.C147_violated
#print axioms Bolt.C147_violated_refused
#print axioms Bolt.C147_stopped_partial
#print axioms Bolt.C147_returns_partial
#print axioms Bolt.C147_hangs
#print axioms Bolt.C148_violated
#print axioms Bolt.C148_serves_partial
#print axioms Bolt.C148_once_partial
#print axioms Bolt.C149_violated
#print axioms Bolt.C149_kept_partial
#print axioms Bolt.C149_exact_partial
#print axioms Bolt.C149_given_up
#print axioms Bolt.C149_refines
#print axioms Bolt.C150_violated
#print axioms Bolt.C150_called_partial
#print axioms Bolt.C150_refused_partial
#print axioms Bolt.C150_everyone
#print axioms Bolt.C150_builtin
#print axioms Bolt.C150_sock
#print axioms Bolt.C151_own_connection
#print axioms Bolt.C151_alone
#print axioms Bolt.C151_oneway
#print axioms Bolt.C151_open
#print axioms Bolt.C151_own_result
#print axioms Bolt.C151_own_result_sock
#print axioms Bolt.C151_ends
#print axioms Bolt.C151_put
#print axioms Bolt.C152_violated
#print axioms Bolt.C152_refines_partial
#print axioms Bolt.C152_progress_partial
#print axioms Bolt.C152_dies
#print axioms Bolt.C152_drops
#print axioms Bolt.C152_never_again
#print axioms Bolt.C153_own_result
#print axioms Bolt.C153_writes
#print axioms Bolt.C153_at_most_once
#print axioms Bolt.C154_violated
#print axioms Bolt.C154_parts_partial
#print axioms Bolt.C154_kept_partial
#print axioms Bolt.C154_understood
#print axioms Bolt.C154_int
#print axioms Bolt.C155_violated
#print axioms Bolt.C155_checked_partial
#print axioms Bolt.C155_sock_checked_partial
#print axioms Bolt.C155_ignored
#print axioms Bolt.C156_violated
#print axioms Bolt.C156_sync_partial
#print axioms Bolt.C156_aio_partial
#print axioms Bolt.C156_class_ignored
#print axioms Bolt.C157_violated
#print axioms Bolt.C157_spared_partial
#print axioms Bolt.C157_assignments
#print axioms Bolt.C158_violated
#print axioms Bolt.C158_carriers_partial
#print axioms Bolt.C158_taken_partial
#print axioms Bolt.C159_violated
#print axioms Bolt.C159_released_partial
#print axioms Bolt.C159_in_use
#print axioms Bolt.C159_call
#print axioms Bolt.C160_violated
#print axioms Bolt.C160_one_object_partial
#print axioms Bolt.C160_made_once_partial
#print axioms Bolt.C160_threads_violated
#print axioms Bolt.C160_threads_partial
#print axioms Bolt.C161_flow
#print axioms Bolt.C161_waits
#print axioms Bolt.C161_runs
#print axioms Bolt.C161_goes_on
#print axioms Bolt.C161_lost
#print axioms Bolt.C162_violated
#print axioms Bolt.C162_refused_partial
#print axioms Bolt.C162_unwritten
#print axioms Bolt.C163_listener
#print axioms Bolt.C163_order
#print axioms Bolt.C163_timeout
#print axioms Bolt.C163_answered
#print axioms Bolt.C163_taken
#print axioms Bolt.C163_counted
#print axioms Bolt.C163_printed
#print axioms Bolt.C164_waits
#print axioms Bolt.C164_task
#print axioms Bolt.C164_reader
#print axioms Bolt.C164_reset
#print axioms Bolt.C164_runs
#print axioms Bolt.C164_bytes
#print axioms Bolt.C165_violated
#print axioms Bolt.C165_flood
#print axioms Bolt.C165_single_partial
#print axioms Bolt.C166_violated
#print axioms Bolt.C166_never
#print axioms Bolt.C166_pool_partial
#print axioms Bolt.C166_text
#print axioms Bolt.C166_status
#print axioms Bolt.C166_literal
#print axioms Bolt.C166_literal_inj
#print axioms Bolt.C166_printable
#print axioms Bolt.C166_class
#print axioms Bolt.C166_other_arguments
#print axioms Bolt.C167_violated
#print axioms Bolt.C167_copy_partial
#print axioms Bolt.C167_exact
#print axioms Bolt.C167_grows
#print axioms Bolt.C168_violated
#print axioms Bolt.C168_heartbeat
#print axioms Bolt.C168_beats
#print axioms Bolt.C168_subscribed
#print axioms Bolt.C168_unassigned_partial
#print axioms Bolt.C169_none_held
#print axioms Bolt.C169_who_waits
#print axioms Bolt.C170_violated
#print axioms Bolt.C170_raised_partial
#print axioms Bolt.C170_returned
#print axioms Bolt.C170_stop_iteration
#print axioms Bolt.C171_violated
#print axioms Bolt.C171_same_partial
#print axioms Bolt.C171_cause
#print axioms Bolt.C171_frozen
#print axioms Bolt.C171_unanswered
#print axioms Bolt.C172_comes_to_rest
#print axioms Bolt.C172_at_rest
#print axioms Bolt.C172_every_call_ends
#print axioms Bolt.C173_comes_to_rest
#print axioms Bolt.C173_at_rest
#print axioms Bolt.C173_every_call_ends
#print axioms Bolt.C174_violated
#print axioms Bolt.C174_understood_partial
#print axioms Bolt.C174_waits
#print axioms Bolt.C174_skipped
#print axioms Bolt.C174_sync
#print axioms Bolt.C175_violated
#print axioms Bolt.C175_client_partial
#print axioms Bolt.C175_listener_partial
#print axioms Bolt.C176_violated
#print axioms Bolt.C176_listener_partial
#print axioms Bolt.C176_client_partial
#print axioms Bolt.C176_grows
#print axioms Bolt.C176_reached
#print axioms Bolt.C176_client_grows
#print axioms Bolt.C176_schedules
#print axioms Bolt.C176_client_schedules
#print axioms Bolt.C176_resumes
#print axioms Bolt.C176_client_resumes
#print axioms Bolt.C177_violated
#print axioms Bolt.C177_cut
#print axioms Bolt.C177_prefix_partial
#print axioms Bolt.C177_blocking
#print axioms Bolt.C177_closed
#print axioms Bolt.C178_violated
#print axioms Bolt.C178_grows
#print axioms Bolt.C178_paid_partial
#print axioms Bolt.C179_violated
#print axioms Bolt.C179_times_out
#print axioms Bolt.C179_stalls
#print axioms Bolt.C179_others_go_on
#print axioms Bolt.C179_refines_partial
#print axioms Bolt.C180_violated
#print axioms Bolt.C180_kept_partial
#print axioms Bolt.C180_same
#print axioms Bolt.C181_same_result
#print axioms Bolt.C181_determined
#print axioms Bolt.C182_violated
#print axioms Bolt.C182_once
#print axioms Bolt.C182_acknowledged
#print axioms Bolt.C182_over
#print axioms Bolt.C182_look
#print axioms Bolt.C182_spacing_partial
#print axioms Bolt.C183_violated
#print axioms Bolt.C183_exact
#print axioms Bolt.C183_late
#print axioms Bolt.C183_clock
#print axioms Bolt.C183_not_early_partial
#print axioms Bolt.C183_not_later
#print axioms Bolt.C183_timed
#print axioms Bolt.C183_ready
#print axioms Bolt.C184_comes_to_ease
#print axioms Bolt.C184_answered
#print axioms Bolt.C184_heartbeats
#print axioms Bolt.C185_violated
#print axioms Bolt.C185_always
#print axioms Bolt.C185_asked_partial
#print axioms Bolt.C185_faithful
#print axioms Bolt.C185_address
#print axioms Bolt.C186_violated
#print axioms Bolt.C186_always
#print axioms Bolt.C186_received
#print axioms Bolt.C186_text
#print axioms Bolt.C186_ordinary
#print axioms Bolt.C186_derived_partial
#print axioms Bolt.C187_violated
#print axioms Bolt.C187_always
#print axioms Bolt.C187_count_partial
#print axioms Bolt.C187_calm
#print axioms Bolt.C187_same
#print axioms Bolt.C188_violated
#print axioms Bolt.C188_always
#print axioms Bolt.C188_extract
#print axioms Bolt.C188_root
#print axioms Bolt.C188_named_partial
#print axioms Bolt.C189_violated
#print axioms Bolt.C189_always
#print axioms Bolt.C189_refused_partial
#print axioms Bolt.C189_same
#print axioms Bolt.C189_step
#print axioms Bolt.C190_violated
#print axioms Bolt.C190_always
#print axioms Bolt.C190_late
#print axioms Bolt.C190_threads
#print axioms Bolt.C190_refines_partial
#print axioms Bolt.C190_same
#print axioms Bolt.C191_violated
#print axioms Bolt.C191_interrupt_partial
#print axioms Bolt.C191_always
#print axioms Bolt.C191_unused
#print axioms Bolt.C192_violated
#print axioms Bolt.C192_hangs_partial
#print axioms Bolt.C192_program
#print axioms Bolt.C192_always
#print axioms Bolt.C192_same
#print axioms Bolt.C193_violated
#print axioms Bolt.C193_exits_partial
#print axioms Bolt.C193_always
#print axioms Bolt.C193_threads
#print axioms Bolt.C194_violated
#print axioms Bolt.C194_short_partial
#print axioms Bolt.C194_exact
#print axioms Bolt.C194_always
#print axioms Bolt.C194_clock
#print axioms Bolt.C195_violated
#print axioms Bolt.C195_exact_partial
#print axioms Bolt.C195_lost
#print axioms Bolt.C195_always
#print axioms Bolt.C196_violated
#print axioms Bolt.C196_executed_partial
#print axioms Bolt.C196_closed
#print axioms Bolt.C196_refused
#print axioms Bolt.C196_hangs
#print axioms Bolt.C196_ends
#print axioms Bolt.C196_same
#print axioms Bolt.C196_refusal
#print axioms Bolt.C197_violated
#print axioms Bolt.C197_exact_partial
#print axioms Bolt.C197_withdrawn_partial
#print axioms Bolt.C197_registered
#print axioms Bolt.C197_stuck
#print axioms Bolt.C198_agree
#print axioms Bolt.C198_subscribed
#print axioms Bolt.C199_aio_acts
#print axioms Bolt.C199_aio_tasks
#print axioms Bolt.C199_aio_calls
#print axioms Bolt.C199_aio_rest
#print axioms Bolt.C199_sock
#print axioms Bolt.C200_sync
#print axioms Bolt.C200_sync_call
#print axioms Bolt.C200_aio
#print axioms Bolt.C201_violated
#print axioms Bolt.C201_left
#print axioms Bolt.C201_apart
#print axioms Bolt.C201_always
#print axioms Bolt.C201_served_partial
#print axioms Bolt.C202_zeros
#print axioms Bolt.C202_blind
#print axioms Bolt.C203_violated
#print axioms Bolt.C203_worst
#print axioms Bolt.C203_counts_partial
#print axioms Bolt.C204_violated
#print axioms Bolt.C204_worst
#print axioms Bolt.C204_bound_partial
#print axioms Bolt.C205_violated
#print axioms Bolt.C205_always
#print axioms Bolt.C205_named_partial
#print axioms Bolt.C206_violated
#print axioms Bolt.C206_always
#print axioms Bolt.C206_others
#print axioms Bolt.C206_threads_partial
#print axioms Bolt.C207_violated
#print axioms Bolt.C207_always
#print axioms Bolt.C207_own
#print axioms Bolt.C207_waited_partial
#print axioms Bolt.C208_violated
#print axioms Bolt.C208_always
#print axioms Bolt.C208_apart_partial
