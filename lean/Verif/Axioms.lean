import Verif.Props.Links
import Verif.Props.Trace
import Verif.Props.Errors
import Verif.Props.Retry
import Verif.Props.Loops
import Verif.Props.Results
import Verif.Props.Run
import Verif.Props.Record
import Verif.Props.Steps
import Verif.Props.Snapshot
import Verif.Props.Serial
import Verif.Props.Subflows
import Verif.Props.Definition
import Verif.Props.Registry
import Verif.Props.Mock
import Verif.Props.Scopes
import Verif.Props.Outputs
import Verif.Props.Support
import Verif.Props.Manager
import Verif.Props.Concurrent
import Verif.Props.SkipOption
import Verif.Props.OnDemand
import Verif.Props.Graph
import Verif.Props.Events
import Verif.Props.Data
import Verif.Props.Cover
import Verif.Props.Accumulate
import Verif.Props.Failure
import Verif.Props.ConcOrder
import Verif.Props.ConcFail
import Verif.Props.ConcLeft
import Verif.Props.ConcPlain
import Verif.Props.ConcTerm
import Verif.Props.Activity
import Verif.Props.Calls
import Verif.Props.Attrs
import Verif.Props.Resolve
import Verif.Props.Inputs
import Verif.Props.Launch
import Verif.Props.Resume
import Verif.Props.Cycle
import Verif.Props.Server
import Verif.Props.Spans
import Verif.Props.Delays
import Verif.Props.Recording
import Verif.Props.Interface
import Verif.Props.Rounds
import Verif.Props.Bound
import Verif.Props.Service
import Verif.Props.ConcRun
import Verif.Props.Returns
import Verif.Props.Verdicts
import Verif.Props.Ends
import Verif.Props.HandlerRun
import Verif.Props.Settings
import Verif.Props.Setup
import Verif.Props.Ahead
import Verif.Props.Determined
import Verif.Props.Context
import Verif.Props.Panics
import Verif.Props.Inspect
import Verif.Props.TaskIds
import Verif.Props.SpanTags
import Verif.Props.ConcDemand
import Verif.Props.ConcRecord
import Verif.Props.Intercept
import Verif.Props.Faithful
import Verif.Props.FaithfulRun

/-
The axioms every property theorem depends on, printed during the build. Allowed: `propext`, `Classical.choice`, `Quot.sound`.
-/

#print axioms Flow.C01_ready_iff
#print axioms Flow.C01_evaluated_only_when_ready
#print axioms Flow.C01_decided_by_source
#print axioms Flow.C01_ready_when
#print axioms Flow.C01_waits_when
#print axioms Flow.C02_skip_iff
#print axioms Flow.C02_skip_links
#print axioms Flow.C02_skipped_only_when
#print axioms Flow.C02_skipped_when
#print axioms Flow.C02_never_executed_partial
#print axioms Flow.C02_skipped_iff_partial
#print axioms Flow.C02_negation
#print axioms Flow.C03_links_after_success
#print axioms Flow.C03_fails_iff
#print axioms Flow.C03_first_error
#print axioms Flow.C03_links_decided
#print axioms Flow.C04_error_links
#print axioms Flow.C04_handled_locally
#print axioms Flow.C05_order_after_success
#print axioms Flow.C05_order_after_failure
#print axioms Flow.C05_followed_first
#print axioms Flow.C05_entered_after_success
#print axioms Flow.C05_entered_after_failure
#print axioms Flow.C06_executed_partial
#print axioms Flow.C06_executed_only_partial
#print axioms Flow.C06_schedule_independent_partial
#print axioms Flow.C06_negation
#print axioms Flow.C07_at_most_once_partial
#print axioms Flow.C07_one_decision_partial
#print axioms Flow.C07_negation
#print axioms Flow.C07_negation_subflow
#print axioms Flow.C08_finishes_partial
#print axioms Flow.C08_finishes_no_loops_partial
#print axioms Flow.C08_not_stuck_partial
#print axioms Flow.C08_not_stuck_subflows_partial
#print axioms Flow.C08_rests_calls_partial
#print axioms Flow.C08_finishes_calls_partial
#print axioms Flow.C08_finishes_one_end_partial
#print axioms Flow.C08_negation
#print axioms Flow.C08_negation_settings
#print axioms Flow.C09_not_premature_partial
#print axioms Flow.C09_negation
#print axioms Flow.C10_finished_stays_finished
#print axioms Flow.C10_finished_is_final
#print axioms Flow.C100_interleaving
#print axioms Flow.C100_at_most_one
#print axioms Flow.C100_truth_partial
#print axioms Flow.C100_limit
#print axioms Flow.C100_delivers
#print axioms Flow.C100_over
#print axioms Flow.C100_final_partial
#print axioms Flow.C100_negation_changed
#print axioms Flow.C100_negation_running
#print axioms Flow.C100_negation_never
#print axioms Flow.C101_declared_partial
#print axioms Flow.C101_negation_default
#print axioms Flow.C101_negation_subflow
#print axioms Flow.C101_negation_unreadable
#print axioms Flow.C102_same
#print axioms Flow.C102_verdicts_partial
#print axioms Flow.C102_true
#print axioms Flow.C102_status_partial
#print axioms Flow.C102_evaluation
#print axioms Flow.C102_failure
#print axioms Flow.C102_called
#print axioms Flow.C102_flow_partial
#print axioms Flow.C102_resumed
#print axioms Flow.C102_expected
#print axioms Flow.C102_mocked
#print axioms Flow.C102_skipped
#print axioms Flow.C102_negation_round
#print axioms Flow.C102_negation_retry
#print axioms Flow.C102_negation_panic
#print axioms Flow.C102_negation_called
#print axioms Flow.C102_negation_flow
#print axioms Flow.C103_ends_partial
#print axioms Flow.C103_outcome_partial
#print axioms Flow.C103_negation_recursion
#print axioms Flow.C104_since
#print axioms Flow.C104_executed_partial
#print axioms Flow.C104_executed_only_partial
#print axioms Flow.C104_at_most_once_partial
#print axioms Flow.C104_one_decision_partial
#print axioms Flow.C104_not_stuck_partial
#print axioms Flow.C104_skipped_iff_partial
#print axioms Flow.C104_not_premature_partial
#print axioms Flow.C104_finishes_partial
#print axioms Flow.C104_no_panic
#print axioms Flow.C104_applies
#print axioms Flow.C104_negation_panic
#print axioms Flow.C104_negation_called
#print axioms Flow.C104_negation_identifiers
#print axioms Flow.C105_names
#print axioms Flow.C105_stable
#print axioms Flow.C105_fallback
#print axioms Flow.C105_recorded_is_seen
#print axioms Flow.C105_options
#print axioms Flow.C105_limit
#print axioms Flow.C105_limit_default
#print axioms Flow.C105_limit_same_partial
#print axioms Flow.C105_limit_text
#print axioms Flow.C105_negation_names
#print axioms Flow.C105_negation_limit
#print axioms Flow.C106_once
#print axioms Flow.C106_own_partial
#print axioms Flow.C106_resource
#print axioms Flow.C106_remote_partial
#print axioms Flow.C106_set
#print axioms Flow.C106_provided
#print axioms Flow.C106_negation_second
#print axioms Flow.C106_negation_packages
#print axioms Flow.C106_negation_mode
#print axioms Flow.C106_negation_replaced
#print axioms Flow.C107_ahead
#print axioms Flow.C107_ahead_calls
#print axioms Flow.C107_stops_partial
#print axioms Flow.C107_negation
#print axioms Flow.C108_data_partial
#print axioms Flow.C108_outcome_partial
#print axioms Flow.C108_called_partial
#print axioms Flow.kept_of_writes
#print axioms Flow.C108_result_partial
#print axioms Flow.C108_negation
#print axioms Flow.C109_inputs
#print axioms Flow.C109_legacy
#print axioms Flow.C109_configured
#print axioms Flow.C109_outputs_partial
#print axioms Flow.C109_undeclared
#print axioms Flow.C109_legacy_default
#print axioms Flow.C109_setting
#print axioms Flow.C109_negation_kept
#print axioms Flow.C109_negation_configured
#print axioms Flow.C109_negation_expression
#print axioms Flow.C109_negation_loop
#print axioms Flow.C11_idle_partial
#print axioms Flow.C11_negation_executes
#print axioms Flow.C11_negation_status
#print axioms Flow.C110_caught_partial
#print axioms Flow.C110_source
#print axioms Flow.C110_negation
#print axioms Flow.C110_negation_link
#print axioms Flow.C111_conditions
#print axioms Flow.C111_compiled
#print axioms Flow.C111_tasks
#print axioms Flow.C111_links
#print axioms Flow.C111_negation
#print axioms Flow.C112_same
#print axioms Flow.C112_tag
#print axioms Flow.C112_round
#print axioms Flow.C112_entered
#print axioms Flow.C112_kept
#print axioms Flow.C112_repeated
#print axioms Flow.C112_distinct_partial
#print axioms Flow.C112_untraced
#print axioms Flow.C112_negation_entered
#print axioms Flow.C112_negation_turns
#print axioms Flow.C113_stable
#print axioms Flow.C113_task
#print axioms Flow.C113_nested
#print axioms Flow.C113_called_partial
#print axioms Flow.C113_negation
#print axioms Flow.C114_key_same_flow
#print axioms Flow.C114_key
#print axioms Flow.C114_evaluation
#print axioms Flow.C114_until
#print axioms Flow.C114_unused
#print axioms Flow.C114_only_partial
#print axioms Flow.C114_results
#print axioms Flow.C114_start
#print axioms Flow.C114_negation_name
#print axioms Flow.C114_negation_id
#print axioms Flow.C114_negation_handler
#print axioms Flow.C115_attempt_partial
#print axioms Flow.C115_evaluation_partial
#print axioms Flow.C115_run_partial
#print axioms Flow.C115_negation
#print axioms Flow.C12_return_partial
#print axioms Flow.C12_caller_partial
#print axioms Flow.C12_negation
#print axioms Flow.C12_negation_subflow
#print axioms Flow.C12_negation_nil
#print axioms Flow.C13_unhandled_error
#print axioms Flow.C13_caller_partial
#print axioms Flow.C13_negation_limit
#print axioms Flow.C14_started_at_most_once
#print axioms Flow.C14_handler_started
#print axioms Flow.C15_failure_in_handler_partial
#print axioms Flow.C15_negation
#print axioms Flow.C16_others_unchanged_partial
#print axioms Flow.C16_negation
#print axioms Flow.C17_results_only_at_end
#print axioms Flow.C17_at_most_one
#print axioms Flow.C17_exactly_one_partial
#print axioms Flow.C17_identifier
#print axioms Flow.C17_negation_none
#print axioms Flow.C17_negation_reply
#print axioms Flow.C17_negation_assertion
#print axioms Flow.C18_at_most
#print axioms Flow.C18_starts_at_zero
#print axioms Flow.C18_limit_reported
#print axioms Flow.C18_loop_partial
#print axioms Flow.C18_loop_reported_partial
#print axioms Flow.C18_negation_concurrent
#print axioms Flow.C18_negation_restart
#print axioms Flow.C19_attempts
#print axioms Flow.C19_at_most
#print axioms Flow.C19_negation
#print axioms Flow.C20_iterator
#print axioms Flow.C20_nothing
#print axioms Flow.C20_again
#print axioms Flow.C21_do_while
#print axioms Flow.C21_index_condition
#print axioms Flow.C22_post_do_while_partial
#print axioms Flow.C22_stuck
#print axioms Flow.C22_post_iterator_partial
#print axioms Flow.C22_negation
#print axioms Flow.C23_appends_partial
#print axioms Flow.C23_accumulated_partial
#print axioms Flow.C23_prefix_partial
#print axioms Flow.C23_one_per_iteration_partial
#print axioms Flow.C23_negation
#print axioms Flow.C24_only_actor_changes
#print axioms Flow.C27_start_subflow
#print axioms Flow.C25_completed
#print axioms Flow.C25_failed
#print axioms Flow.C25_resumed
#print axioms Flow.C25_negation
#print axioms Flow.C25_negation_lost
#print axioms Flow.C26_unique_ids
#print axioms Flow.C27_start
#print axioms Flow.C27_negation
#print axioms Flow.C27_negation_default
#print axioms Flow.C28_no_outputs_partial
#print axioms Flow.C28_negation_recorder
#print axioms Flow.C28_negation_listener
#print axioms Flow.C29_working
#print axioms Flow.C29_attributes
#print axioms Flow.C29_reserved
#print axioms Flow.C30_graph
#print axioms Flow.C30_unique
#print axioms Flow.C30_rejected
#print axioms Flow.C30_engine
#print axioms Flow.C30_accepted
#print axioms Flow.C30_header
#print axioms Flow.C30_negation_duplicate
#print axioms Flow.C30_negation_type
#print axioms Flow.C31_restorable
#print axioms Flow.C31_restored_partial
#print axioms Flow.C31_items
#print axioms Flow.C31_negation_panic
#print axioms Flow.C31_negation_host
#print axioms Flow.C31_negation_task
#print axioms Flow.C32_unique_partial
#print axioms Flow.C32_negation
#print axioms Flow.C32_negation_case
#print axioms Flow.C33_unnamed
#print axioms Flow.C33_kept_partial
#print axioms Flow.C33_order_partial
#print axioms Flow.C33_status_partial
#print axioms Flow.C33_negation_order
#print axioms Flow.C33_negation_order_case
#print axioms Flow.C33_negation_lost
#print axioms Flow.C33_negation_panic
#print axioms Flow.C33_negation_status
#print axioms Flow.C33_negation_subflow
#print axioms Flow.C34_new
#print axioms Flow.C34_restart_partial
#print axioms Flow.C34_negation
#print axioms Flow.C35_status
#print axioms Flow.C35_queue
#print axioms Flow.C35_attrs
#print axioms Flow.C35_links_partial
#print axioms Flow.C35_tasks_partial
#print axioms Flow.C35_uri
#print axioms Flow.C35_negation_handler
#print axioms Flow.C35_negation_link
#print axioms Flow.C36_tasks_partial
#print axioms Flow.C36_links_partial
#print axioms Flow.C36_status_partial
#print axioms Flow.C36_attrs_partial
#print axioms Flow.C36_uri_partial
#print axioms Flow.C36_negation_attrs
#print axioms Flow.C36_negation_attr_case
#print axioms Flow.C36_negation_deleted
#print axioms Flow.C36_negation_queue_lost
#print axioms Flow.C36_negation_queue_order
#print axioms Flow.C36_negation_queue_finished
#print axioms Flow.C36_negation_input_changed
#print axioms Flow.C36_negation_subflow
#print axioms Flow.C36_negation_subflow_status
#print axioms Flow.C37_top_partial
#print axioms Flow.C37_negation
#print axioms Flow.C38_recorded
#print axioms Flow.C38_names
#print axioms Flow.C38_initialised_partial
#print axioms Flow.C38_negation
#print axioms Flow.C39_stable
#print axioms Flow.C39_once
#print axioms Flow.C39_failure
#print axioms Flow.C40_accepted_partial
#print axioms Flow.C40_stable_partial
#print axioms Flow.C40_definition_partial
#print axioms Flow.C40_valid_partial
#print axioms Flow.C40_negation
#print axioms Flow.C41_never_called
#print axioms Flow.C41_exception_attempt
#print axioms Flow.C41_exception
#print axioms Flow.C41_outputs
#print axioms Flow.C41_negation
#print axioms Flow.C42_once
#print axioms Flow.C43_progress_partial
#print axioms Flow.C43_returns_partial
#print axioms Flow.C43_negation
#print axioms Flow.C43_negation_case
#print axioms Flow.C43_update_partial
#print axioms Flow.C43_negation_update
#print axioms Flow.C44_waits_partial
#print axioms Flow.C44_once_partial
#print axioms Flow.C44_negation
#print axioms Flow.C44_negation_skipped
#print axioms Flow.C45_error_not_false_partial
#print axioms Flow.C45_panic_is_false
#print axioms Flow.C45_negation
#print axioms Flow.C46_with_error_link
#print axioms Flow.C46_without_error_link
#print axioms Flow.C46_in_handler_partial
#print axioms Flow.C46_names_the_task
#print axioms Flow.C46_negation
#print axioms Flow.C47_queue_log
#print axioms Flow.C47_pending
#print axioms Flow.C47_step
#print axioms Flow.C47_executes_one
#print axioms Flow.C48_read_partial
#print axioms Flow.C48_read_names_partial
#print axioms Flow.C48_negation
#print axioms Flow.C49_chosen_partial
#print axioms Flow.C49_negation
#print axioms Flow.C50_plain_partial
#print axioms Flow.C50_negation
#print axioms Flow.C51_same
#print axioms Flow.C51_run
#print axioms Flow.C52_read_partial
#print axioms Flow.C52_read_doWhile_partial
#print axioms Flow.C52_rejected
#print axioms Flow.C52_rejected_value
#print axioms Flow.C52_task_partial
#print axioms Flow.C52_negation
#print axioms Flow.C52_negation_types
#print axioms Flow.C53_unique_partial
#print axioms Flow.C53_negation
#print axioms Flow.C54_refused
#print axioms Flow.C54_first
#print axioms Flow.C54_result_partial
#print axioms Flow.C54_steps
#print axioms Flow.C54_definition
#print axioms Flow.C54_same_partial
#print axioms Flow.C54_concurrent_partial
#print axioms Flow.C54_concurrent_truth_partial
#print axioms Flow.C54_concurrent_same
#print axioms Flow.C54_concurrent_limit
#print axioms Flow.C54_concurrent_delivers
#print axioms Flow.C54_negation_limit
#print axioms Flow.C54_negation_called
#print axioms Flow.C54_negation_dies
#print axioms Flow.C54_negation_id
#print axioms Flow.C54_negation_inputs
#print axioms Flow.C54_negation_concurrent
#print axioms Flow.C55_task_events_in_order
#print axioms Flow.C56_started_first_partial
#print axioms Flow.C56_at_most_once_partial
#print axioms Flow.C56_once_partial
#print axioms Flow.C56_negation
#print axioms Flow.C57_subflow_host_partial
#print axioms Flow.C57_only_failed
#print axioms Flow.C57_negation_flow
#print axioms Flow.C57_negation_task
#print axioms Flow.C58_completed_reports_all_partial
#print axioms Flow.C58_outputs_only_completed_partial
#print axioms Flow.C58_returned_partial
#print axioms Flow.C58_negation_output
#print axioms Flow.C58_negation_return
#print axioms Flow.C59_parent_partial
#print axioms Flow.C59_negation
#print axioms Flow.C60_declared_values_partial
#print axioms Flow.C60_negation_started
#print axioms Flow.C61_never_called
#print axioms Flow.C61_bad_inputs
#print axioms Flow.C61_mapping_error
#print axioms Flow.C61_bad_outputs_partial
#print axioms Flow.C61_negation
#print axioms Flow.C62_links
#print axioms Flow.C62_tasks
#print axioms Flow.C62_determined
#print axioms Flow.C62_statuses
#print axioms Flow.C62_each_evaluation
#print axioms Flow.C62_no_evaluation
#print axioms Flow.C62_subflows
#print axioms Flow.C62_named
#print axioms Flow.C62_loop
#print axioms Flow.C63_transparent_partial
#print axioms Flow.C63_never_completes
#print axioms Flow.C63_negation
#print axioms Flow.C64_flags_partial
#print axioms Flow.C64_negation
#print axioms Flow.C64_negation_late
#print axioms Flow.C65_handler_after_start
#print axioms Flow.C65_once
#print axioms Flow.C66_called
#print axioms Flow.C66_resumed
#print axioms Flow.C67_waits_partial
#print axioms Flow.C67_negation
#print axioms Flow.C68_read
#print axioms Flow.C68_configured
#print axioms Flow.C68_rejected
#print axioms Flow.C69_order
#print axioms Flow.C69_ready
#print axioms Flow.C70_completed_partial
#print axioms Flow.C70_negation
#print axioms Flow.C71_over_partial
#print axioms Flow.C71_negation
#print axioms Flow.C71_negation_twice
#print axioms Flow.C71_negation_handler
#print axioms Flow.C72_tree_partial
#print axioms Flow.C72_before_handler_partial
#print axioms Flow.C72_negation
#print axioms Flow.C73_once
#print axioms Flow.C74_not_lost
#print axioms Flow.C75_no_lost_join
#print axioms Flow.C75_all_end
#print axioms Flow.C76_applied_partial
#print axioms Flow.C76_told_partial
#print axioms Flow.C76_only_settings
#print axioms Flow.C76_invalid
#print axioms Flow.C76_logged
#print axioms Flow.C76_negation_error
#print axioms Flow.C76_negation_order
#print axioms Flow.C76_negation_first
#print axioms Flow.C76_negation_panic
#print axioms Flow.C77_main_partial
#print axioms Flow.C77_negation_handler
#print axioms Flow.C77_negation_panic
#print axioms Flow.C78_inputs
#print axioms Flow.C78_outputs
#print axioms Flow.C78_rejects
#print axioms Flow.C79_no_skip
#print axioms Flow.C79_progress
#print axioms Flow.C79_all_done
#print axioms Flow.C80_bound
#print axioms Flow.C80_ends
#print axioms Flow.C81_accepted
#print axioms Flow.C81_accepts
#print axioms Flow.C81_settings
#print axioms Flow.C82_changes
#print axioms Flow.C82_kept
#print axioms Flow.C82_mapped
#print axioms Flow.C82_available
#print axioms Flow.C83_activity
#print axioms Flow.C83_activity_unset
#print axioms Flow.C83_error
#print axioms Flow.C83_iteration
#print axioms Flow.C83_iteration_do_while
#print axioms Flow.C83_iteration_outside
#print axioms Flow.C83_accumulated
#print axioms Flow.C83_flowctx
#print axioms Flow.C83_flowctx_subflow
#print axioms Flow.C84_only
#print axioms Flow.C84_call
#print axioms Flow.C84_data_flow
#print axioms Flow.C85_start_partial
#print axioms Flow.C85_starts
#print axioms Flow.C85_restart
#print axioms Flow.C85_needs_state
#print axioms Flow.C85_resume
#print axioms Flow.C85_restart_unknown
#print axioms Flow.C85_negation_flow
#print axioms Flow.C85_negation_resource
#print axioms Flow.C85_negation_resume
#print axioms Flow.C85_negation_op
#print axioms Flow.C86_start_partial
#print axioms Flow.C86_restart
#print axioms Flow.C86_negation_data
#print axioms Flow.C86_negation_resume
#print axioms Flow.C87_started
#print axioms Flow.C87_result
#print axioms Flow.C87_negation_default
#print axioms Flow.C88_continues_partial
#print axioms Flow.C88_at_rest_partial
#print axioms Flow.C88_plain_partial
#print axioms Flow.C88_tester_partial
#print axioms Flow.C88_negation_loop
#print axioms Flow.C88_negation_result
#print axioms Flow.C88_negation_handler
#print axioms Flow.C88_negation_names
#print axioms Flow.C88_negation_namesake
#print axioms Flow.C89_never_executed
#print axioms Flow.Srv.C90_wait_partial
#print axioms Flow.Srv.C90_running_partial
#print axioms Flow.Srv.C90_stop_partial
#print axioms Flow.Srv.C90_bounded_partial
#print axioms Flow.Srv.C90_start_partial
#print axioms Flow.Srv.C90_ends_partial
#print axioms Flow.Srv.C90_once_partial
#print axioms Flow.Srv.C90_admitted_partial
#print axioms Flow.Srv.C90_isStarted_partial
#print axioms Flow.Srv.C90_notStarted_partial
#print axioms Flow.Srv.C90_timeout_partial
#print axioms Flow.Srv.C90_negation_restart
#print axioms Flow.Srv.C90_negation_isStarted
#print axioms Flow.Srv.C90_negation_later
#print axioms Flow.C91_identified
#print axioms Flow.C92_same
#print axioms Flow.C92_task_partial
#print axioms Flow.C92_result
#print axioms Flow.C92_attempts
#print axioms Flow.C92_resumed
#print axioms Flow.C92_parent
#print axioms Flow.C92_flow_partial
#print axioms Flow.C92_top_partial
#print axioms Flow.C92_negation_twice
#print axioms Flow.C92_negation_lost
#print axioms Flow.C92_negation_flow_twice
#print axioms Flow.C92_negation_flow_lost
#print axioms Flow.C92_negation_stalled
#print axioms Flow.C93_same
#print axioms Flow.C93_evaluation_partial
#print axioms Flow.C93_resumed
#print axioms Flow.C93_idle
#print axioms Flow.C93_interval
#print axioms Flow.C93_negation_last
#print axioms Flow.C93_negation_called
#print axioms Flow.C94_same
#print axioms Flow.C94_start
#print axioms Flow.C94_current
#print axioms Flow.C94_steps_partial
#print axioms Flow.C94_end_partial
#print axioms Flow.C94_concurrent_same
#print axioms Flow.C94_concurrent_partial
#print axioms Flow.C94_concurrent_end
#print axioms Flow.C94_negation_limit
#print axioms Flow.C94_negation_origin
#print axioms Flow.C94_negation_twice
#print axioms Flow.C94_negation_stalled
#print axioms Flow.C94_negation_concurrent
#print axioms Flow.C94_negation_concurrent_status
#print axioms Flow.Iface.C95_exclusive
#print axioms Flow.Iface.C95_once
#print axioms Flow.Iface.C95_settled
#print axioms Flow.Iface.C95_alone
#print axioms Flow.Iface.C95_progress
#print axioms Flow.Iface.C95_negation_stale
#print axioms Flow.C96_iterator
#print axioms Flow.C96_do_while
#print axioms Flow.C96_negation_budget
#print axioms Flow.C97_bound_partial
#print axioms Flow.C97_alone
#print axioms Flow.C97_plain
#print axioms Flow.C97_stays
#print axioms Flow.BoundCase.C97_negation
#print axioms Flow.C98_accepted_partial
#print axioms Flow.C98_task_partial
#print axioms Flow.C98_negation
#print axioms Flow.C99_unreadable
#print axioms Flow.C99_start
#print axioms Flow.C99_restart_partial
#print axioms Flow.C99_negation_restart
#print axioms Flow.C99_negation_resume
