{
 "claims": [
  {
   "property": "C01",
   "status": "proved",
   "theorems": [
    "Manul.C01_to_process_authentic",
    "Manul.C01_cached_authentic"
   ],
   "note": ""
  },
  {
   "property": "C02",
   "status": "proved",
   "theorems": [
    "Manul.C02_exactly_one_row",
    "Manul.C02_decision_table",
    "Manul.C02_outcome_determined"
   ],
   "note": ""
  },
  {
   "property": "C03",
   "status": "proved",
   "theorems": [
    "Manul.C03_finalize_signed",
    "Manul.C03_payload_signed"
   ],
   "note": ""
  },
  {
   "property": "C04",
   "status": "partial",
   "theorems": [
    "Manul.C04_payload_permanent",
    "Manul.C04_evidence_permanent",
    "Manul.C04_error_never_dropped_partial",
    "Manul.C04_error_permanent_partial",
    "Manul.C04_one_message_counts",
    "Manul.C04_payload_or_evidence",
    "Manul.C04_error_replaced_violation",
    "Manul.C04_payload_and_error_violation"
   ],
   "note": "The full statement fails: with overlapping processing the unprovable error of a party is replaced by a later one, and after a duplicate a party has both a payload and an error (violation theorems). Proved: payloads and evidence are permanent, errors are never dropped, at most one processed message per party is added, errors are permanent under sequential processing."
  },
  {
   "property": "C05",
   "status": "proved",
   "theorems": [
    "Manul.C05_finalize_keys",
    "Manul.C05_payload_keys"
   ],
   "note": ""
  },
  {
   "property": "C06",
   "status": "proved",
   "theorems": [
    "Manul.C06_characterisation",
    "Manul.C06_yes_permanent",
    "Manul.C06_never_permanent"
   ],
   "note": ""
  },
  {
   "property": "C07",
   "status": "partial",
   "theorems": [
    "Manul.C07_ignored",
    "Manul.C07_permanent_in_round",
    "Manul.C07_permanent_in_run",
    "Manul.C07_no_payload_partial",
    "Manul.C07_echo_violation"
   ],
   "note": "The last clause fails for echo rounds: a banned party's cached message is applied when the echo round is entered (C07_echo_violation). Proved: bans are permanent within and across rounds, later messages are ignored, and no cached message of a banned party is applied in a main round."
  },
  {
   "property": "C08",
   "status": "partial",
   "theorems": [
    "Manul.C08_step_partial",
    "Manul.C08_run_partial",
    "Manul.C08_new",
    "Manul.C08_no_crash_partial",
    "Manul.C08_outsider_violation",
    "Manul.C08_unexpected_violation",
    "Manul.C08_cached_unexpected_violation",
    "Manul.C08_cached_duplicate_violation",
    "Manul.C08_banned_twice_violation",
    "Manul.C08_exact"
   ],
   "note": "A peer can make a node fail: unexpected sender, message repeated after being kept, party banned twice (violations). Proved that these are the only causes: C08_exact is an if-and-only-if for every event of a run, provided the methods of the rounds do not fail under an invariant of the protocol and evidence for expected senders can be assembled."
  },
  {
   "property": "C09",
   "status": "partial",
   "theorems": [
    "Manul.C09_violation",
    "Manul.C09_hang",
    "Manul.C09_processed_partial",
    "Manul.C09_exact"
   ],
   "note": "The full statement fails (C09_violation; C09_hang: the round stays NotYet forever). Proved for parties whose message was processed."
  },
  {
   "property": "C10",
   "status": "partial",
   "theorems": [
    "Manul.C10_result_partial",
    "Manul.C10_terminate",
    "Manul.C10_errors_violation",
    "Manul.C10_never_reported_violation"
   ],
   "note": "Result is proved; terminate_due_to_errors reports Terminated and NotEnoughMessages is never reported (violation theorems)."
  },
  {
   "property": "C11",
   "status": "proved",
   "theorems": [
    "Manul.C11_report_exact",
    "Manul.C11_every_report",
    "Manul.C11_not_heard"
   ],
   "note": ""
  },
  {
   "property": "C12",
   "status": "proved",
   "theorems": [
    "Manul.C12_update_keeps",
    "Manul.C12_refuses",
    "Manul.C12_run"
   ],
   "note": ""
  },
  {
   "property": "C13",
   "status": "proved",
   "theorems": [
    "Manul.C13_declared",
    "Manul.C13_undeclared_refused",
    "Manul.C13_no_repetition",
    "Manul.C13_never_refused"
   ],
   "note": ""
  },
  {
   "property": "C14",
   "status": "proved",
   "theorems": [
    "Manul.C14_order_independent"
   ],
   "note": ""
  },
  {
   "property": "C15",
   "status": "proved",
   "theorems": [
    "Manul.C15_parallel_equals_sequential",
    "Manul.C15_sequential_equals_parallel",
    "Manul.C15_completion"
   ],
   "note": ""
  },
  {
   "property": "C16",
   "status": "partial",
   "theorems": [
    "Manul.C16_exact_partial",
    "Manul.C16_returned_partial",
    "Manul.C16_dropped_violation",
    "Manul.C16_banned_violation"
   ],
   "note": "Two clauses fail: messages kept for a child round are dropped on entering the echo round (C16_dropped_violation), and a banned sender's message is handed to the echo round (C16_banned_violation). The rest is proved."
  },
  {
   "property": "C17",
   "status": "proved",
   "theorems": [
    "Manul.C17_agreement",
    "Manul.C17_runs",
    "Manul.C17_mutual"
   ],
   "note": "Agreement between the holder of a pack and its acceptor, at the level of echo rounds and of runs. In runs, that the broadcast stored under A's name is A's (no forgery) and the absence of a hash collision are hypotheses."
  },
  {
   "property": "C18",
   "status": "proved",
   "theorems": [
    "Manul.C18_table",
    "Manul.C18_unique"
   ],
   "note": "Given the broadcasts of all expected parties (C20_complete shows runs have them) and total metadata serialization."
  },
  {
   "property": "C19",
   "status": "proved",
   "theorems": [
    "Manul.C19_honest_pack",
    "Manul.C19_delivered",
    "Manul.C19_regular"
   ],
   "note": "Consistency of the graph and absence of equivocation are hypotheses on the two echo rounds; C19_regular derives the graph condition for all-to-all communication."
  },
  {
   "property": "C20",
   "status": "partial",
   "theorems": [
    "Manul.C20_no_local_error",
    "Manul.C20_complete",
    "Manul.C20_no_panic_partial",
    "Manul.C20_exact",
    "Manul.C20_typed",
    "Manul.C20_no_message_violation"
   ],
   "note": "Proved for protocols whose rounds followed by an echo round insist on an echo broadcast (C20_typed: typed rounds whose EchoBroadcast is not NoMessage). C20_exact: in any run, a message of a sender can make the echo round fail if and only if the broadcast of an expected third party is missing. Missing: rounds declaring Receive with NoMessage, where the claim is false (C20_no_message_violation)."
  },
  {
   "property": "C21",
   "status": "proved",
   "theorems": [
    "Manul.C21_malformed_verifies",
    "Manul.C21_recorded"
   ],
   "note": "For protocols whose round_info agrees with their round ids (TagConsistent)."
  },
  {
   "property": "C22",
   "status": "proved",
   "theorems": [
    "Manul.C22_represents"
   ],
   "note": "C22_represents: the recorded evidence makes verify call the protocol's check with exactly the parts it asked for; it therefore verifies iff the protocol's check accepts them."
  },
  {
   "property": "C23",
   "status": "proved",
   "theorems": [
    "Manul.C23_mismatched_verifies"
   ],
   "note": "For rounds that do not report the errors of the echo round (true of all typed protocols, typed_noEchoErr)."
  },
  {
   "property": "C24",
   "status": "partial",
   "theorems": [
    "Manul.C24_invalid_echo_partial",
    "Manul.C24_invalid_echo_violation"
   ],
   "note": "Proved for entries not signed by the party named. Missing: entries signed for another session or round, where the claim is false (C24_invalid_echo_violation)."
  },
  {
   "property": "C25",
   "status": "partial",
   "theorems": [
    "Manul.C25_direct_iff",
    "Manul.C25_echo_iff",
    "Manul.C25_normal_iff",
    "Manul.C25_no_framing_partial",
    "Manul.C25_no_destinations_violation"
   ],
   "note": "Exact characterization of verification (iff) and no framing, up to hash collisions, of sessions that have somebody to send to. Missing: sessions without destinations sign empty parts and can be framed (C25_no_destinations_violation)."
  },
  {
   "property": "C26",
   "status": "partial",
   "theorems": [
    "Manul.C26_mismatched_iff",
    "Manul.C26_framing_violation",
    "Manul.C26_two_broadcasts_partial",
    "Manul.C26_no_framing_partial"
   ],
   "note": "Exact characterization (iff). The claim fails for every honest session (C26_framing_violation): a signed normal broadcast passes as a second echo broadcast. Proved when the hash is that of an echo broadcast."
  },
  {
   "property": "C27",
   "status": "partial",
   "theorems": [
    "Manul.C27_invalid_echo_iff",
    "Manul.C27_framing_violation",
    "Manul.C27_no_framing_partial"
   ],
   "note": "Exact characterization (iff). The claim fails for every honest party in every echo round (C27_framing_violation). Proved for entries that are not signed by the party named."
  },
  {
   "property": "C28",
   "status": "proved",
   "theorems": [
    "Manul.C28_bound"
   ],
   "note": ""
  },
  {
   "property": "C29",
   "status": "partial",
   "theorems": [
    "Manul.C29_filed_partial",
    "Manul.C29_misfiled_violation"
   ],
   "note": "Proved for all kinds but MismatchedBroadcasts, whose evidence is filed under the reporting party (C29_misfiled_violation)."
  },
  {
   "property": "C30",
   "status": "partial",
   "theorems": [
    "Manul.C30_signed_partial",
    "Manul.C30_unchecked_violation",
    "Manul.C30_wrong_party_violation"
   ],
   "note": "Fails for MismatchedBroadcasts evidence, whose inner party need not be the accused one (C30_unchecked_violation, C30_wrong_party_violation); proved for everything else."
  },
  {
   "property": "C31",
   "status": "proved",
   "theorems": [
    "Manul.C31_part_preimage_injective",
    "Manul.C31_part_hash_injective",
    "Manul.C31_digest_injective",
    "Manul.C31_digest_injective_fixed_length",
    "Manul.C31_domains_separated",
    "Manul.C31_part_layout",
    "Manul.C31_digest_layout",
    "Manul.C31_session_id_layout",
    "Manul.C31_session_id"
   ],
   "note": ""
  },
  {
   "property": "C32",
   "status": "proved",
   "theorems": [
    "Manul.C32_accepts_iff_distinct",
    "Manul.C32_exact",
    "Manul.C32_order_irrelevant",
    "Manul.C32_round_trip",
    "Manul.C32_echo_message_round_trip"
   ],
   "note": ""
  },
  {
   "property": "C33",
   "status": "proved",
   "theorems": [
    "Manul.C33_split_of_group",
    "Manul.C33_group_of_split",
    "Manul.C33_split_fails_iff",
    "Manul.C33_group_injective",
    "Manul.C33_group_keeps",
    "Manul.C33_echo",
    "Manul.C33_non_echo",
    "Manul.C33_echo_injective",
    "Manul.C33_group_echo"
   ],
   "note": ""
  },
  {
   "property": "C34",
   "status": "proved",
   "theorems": [
    "Manul.C34_display_injective"
   ],
   "note": ""
  },
  {
   "property": "C35",
   "status": "partial",
   "theorems": [
    "Manul.C35_new",
    "Manul.C35_linear",
    "Manul.C35_linear_terminating",
    "Manul.C35_consecutive",
    "Manul.C35_overflow_violation",
    "Manul.C35_with_children",
    "Manul.C35_with_siblings"
   ],
   "note": "Consecutive rounds name each other for numbers 1..255; new_linear(255) overflows (C35_overflow_violation)."
  },
  {
   "property": "C36",
   "status": "proved",
   "theorems": [
    "Manul.C36_simultaneous",
    "Manul.C36_commutes_with_grouping",
    "Manul.C36_echo_transition"
   ],
   "note": ""
  },
  {
   "property": "C37",
   "status": "proved",
   "theorems": [
    "Manul.C37_chain_executions",
    "Manul.C37_second_executions",
    "Manul.C37_entry",
    "Manul.C37_first_failures",
    "Manul.C37_second_failures",
    "Manul.C37_refusals",
    "Manul.C37_session"
   ],
   "note": "Executions of the chain are exactly the executions of P1 followed by those of P2 (round-level semantics), and every session of a chain ending with a result is such an execution."
  },
  {
   "property": "C38",
   "status": "proved",
   "theorems": [
    "Manul.C38_disjoint",
    "Manul.C38_nested_disjoint",
    "Manul.C38_nested_injective",
    "Manul.C38_delegation",
    "Manul.C38_no_other",
    "Manul.C38_foreign",
    "Manul.C38_required",
    "Manul.C38_required_only"
   ],
   "note": "Delegation and disjointness for arbitrarily nested chains; foreign rounds lead to a local error."
  },
  {
   "property": "C39",
   "status": "partial",
   "theorems": [
    "Manul.C39_declared",
    "Manul.C39_result_exact",
    "Manul.C39_session_expects",
    "Manul.C39_undeclared",
    "Manul.C39_local_ok",
    "Manul.C39_relation_partial",
    "Manul.C39_join_violation"
   ],
   "note": "Declared transitions proved; mutual consistency of parents and children fails at the join (C39_join_violation)."
  },
  {
   "property": "C40",
   "status": "proved",
   "theorems": [
    "Manul.C40_extended_is_overridden",
    "Manul.C40_no_extensions",
    "Manul.C40_default_extensions",
    "Manul.C40_local",
    "Manul.C40_one_extension",
    "Manul.C40_evidence",
    "Manul.C40_dynamic_violation"
   ],
   "note": "Bisimulation with the overridden protocol for all executions; no extensions, default extensions and locality as corollaries. Rounds that are not typed give a local error (shown separately)."
  },
  {
   "property": "C41",
   "status": "proved",
   "theorems": [
    "Manul.C41_no_errors",
    "Manul.C41_finishes",
    "Manul.C41_terminates",
    "Manul.C41_results",
    "Manul.C41_one_way_violation"
   ],
   "note": "Allows message patterns beyond all-to-all; C41_one_way_violation shows the restriction on the pattern is needed."
  },
  {
   "property": "C42",
   "status": "partial",
   "theorems": [
    "Manul.C42_deadlock_destinations_violation",
    "Manul.C42_deadlock_processing_violation",
    "Manul.C42_join_completes_partial",
    "Manul.C42_exact"
   ],
   "note": "The statement fails: join deadlocks when more than 100 items are outstanding (two violation theorems). C42_exact characterizes completion; C42_join_completes_partial covers at most 100 items."
  },
  {
   "property": "C43",
   "status": "partial",
   "theorems": [
    "Manul.C43_exact",
    "Manul.C43_lost",
    "Manul.C43_sequential_partial",
    "Manul.C43_parallel_partial",
    "Manul.C43_violation"
   ],
   "note": "Proved for run_session and, if no processed result is outstanding, for par_run_session; fails in general for par_run_session, which drops processed results on cancel (C43_violation). C43_exact: a party is reported missing if and only if it was expected and every message accepted from it is still being processed."
  },
  {
   "property": "C44",
   "status": "partial",
   "theorems": [
    "Manul.C44_exactly_once",
    "Manul.C44_drains",
    "Manul.C44_sender_order",
    "Manul.C44_pop_panics",
    "Manul.C44_any_next",
    "Manul.C44_len",
    "Manul.C44_reports",
    "Manul.C44_run_sync_panic_partial",
    "Manul.C44_panic_exact",
    "Manul.C44_no_messages_violation"
   ],
   "note": "Queue part proved for all histories; run_sync refines run_session; the claim that run_sync never panics is false (no messages at the start): proved as C44_no_messages_violation, with the positive part C44_run_sync_panic_partial."
  },
  {
   "property": "C45",
   "status": "partial",
   "theorems": [
    "Manul.C45_origin_partial",
    "Manul.C45_destination_ignored",
    "Manul.C45_violation"
   ],
   "note": "The statement fails: the destination is neither signed nor checked (negation proved). Proved: an accepted direct message of a party following the protocol was sent by it in the same round and session, to somebody"
  },
  {
   "property": "C46",
   "status": "proved",
   "theorems": [
    "Manul.C46_builder",
    "Manul.C46_stored",
    "Manul.C46_verified"
   ],
   "note": "All chains of builder calls; storage and re-verification exact."
  },
  {
   "property": "C47",
   "status": "proved",
   "theorems": [
    "Manul.C47_result",
    "Manul.C47_agreement",
    "Manul.C47_finishes",
    "Manul.C47_answer",
    "Manul.C47_free",
    "Manul.C47_untraceable"
   ],
   "note": "Over the network model, with the test parameters of the dev module and any random number source."
  },
  {
   "property": "C48",
   "status": "proved",
   "theorems": [
    "Manul.C48_result",
    "Manul.C48_finishes",
    "Manul.C48_terminates",
    "Manul.C48_overflow_violation"
   ],
   "note": "Under the no-overflow hypothesis of the statement (n <= 16 parties with consecutive positions); C48_overflow_violation shows that it is needed."
  },
  {
   "property": "C49",
   "status": "proved",
   "theorems": [
    "Manul.C49_result_is_execution",
    "Manul.C49_prefix_is_execution"
   ],
   "note": "Round-level executions as specification; every run of run_session with a result refines one."
  },
  {
   "property": "C50",
   "status": "partial",
   "theorems": [
    "Manul.C50_local_errors",
    "Manul.C50_no_panic_partial",
    "Manul.C50_accessors",
    "Manul.C50_typed",
    "Manul.C50_chain",
    "Manul.C50_no_errors_violation",
    "Manul.C50_honest_violation"
   ],
   "note": "C50_local_errors shows that verification fails locally only where the protocol's checks or the metadata encoding do. C50_accessors, C50_typed and C50_chain show that the library's own readers and the chain combinator add no panics. The property as stated is false: NoProtocolErrors::verify_messages_constitute_error panics (C50_no_errors_violation, C50_honest_violation), so the absence of panics needs an assumption on the protocol's checks (C50_no_panic_partial)."
  },
  {
   "property": "C51",
   "status": "proved",
   "theorems": [
    "Manul.C51_cooperative",
    "Manul.C51_finishes",
    "Manul.C51_terminates",
    "Manul.C51_results",
    "Manul.C51_double_simple",
    "Manul.C51_double_simple_finishes"
   ],
   "note": ""
  },
  {
   "property": "C52",
   "status": "proved",
   "theorems": [
    "Manul.C52_digest",
    "Manul.C52_digest_length",
    "Manul.C52_in_bounds",
    "Manul.C52_update_append",
    "Manul.C52_operations",
    "Manul.C52_other_key",
    "Manul.C52_collision",
    "Manul.C52_not_injective",
    "Manul.C52_tampering",
    "Manul.C52_forgery"
   ],
   "note": ""
  },
  {
   "property": "C53",
   "status": "proved",
   "theorems": [
    "Manul.C53_simple_alone",
    "Manul.C53_simple",
    "Manul.C53_double_simple",
    "Manul.C53_dining",
    "Manul.C53_refines",
    "Manul.C53_outcome",
    "Manul.C53_reports",
    "Manul.C53_panic_exact",
    "Manul.C53_reports_exact",
    "Manul.C53_returns",
    "Manul.C53_terminates",
    "Manul.C53_execution_results",
    "Manul.C53_results"
   ],
   "note": ""
  },
  {
   "property": "C54",
   "status": "proved",
   "theorems": [
    "Manul.C54_network",
    "Manul.C54_run_sync"
   ],
   "note": ""
  },
  {
   "property": "C55",
   "status": "partial",
   "theorems": [
    "Manul.C55_no_blame_partial",
    "Manul.C55_no_echo",
    "Manul.C55_all_honest",
    "Manul.C55_results_partial",
    "Manul.C55_dining",
    "Manul.C55_simple_partial",
    "Manul.C55_violation",
    "Manul.C55_panic_violation"
   ],
   "note": "proved if nobody sends two different signed echo broadcasts for the same round; with equivocation the claim fails (C55_violation); for protocols without echo broadcasts proved in full"
  },
  {
   "property": "C56",
   "status": "proved",
   "theorems": [
    "Manul.C56_integrity",
    "Manul.C56_finalizing",
    "Manul.C56_together"
   ],
   "note": ""
  },
  {
   "property": "C57",
   "status": "proved",
   "theorems": [
    "Manul.C57_agreement",
    "Manul.C57_payloads",
    "Manul.C57_everybody"
   ],
   "note": ""
  },
  {
   "property": "C58",
   "status": "partial",
   "theorems": [
    "Manul.C58_no_failure",
    "Manul.C58_refines",
    "Manul.C58_silent",
    "Manul.C58_terminates",
    "Manul.C58_returns_partial",
    "Manul.C58_deadlock_one_round_violation",
    "Manul.C58_deadlock_violation"
   ],
   "note": "Safety, termination and the refinement are proved for any number of parties; that run_async returns is proved for at most 51 parties. This bound is sharp: with 52 or more parties the code can deadlock (C58_deadlock_violation)."
  },
  {
   "property": "C59",
   "status": "proved",
   "theorems": [
    "Manul.C59_partial_echo",
    "Manul.C59_partial_echo_returns",
    "Manul.C59_partial_echo_test",
    "Manul.C59_judges_violation",
    "Manul.C59_leaver_violation",
    "Manul.C59_no_errors",
    "Manul.C59_finishes",
    "Manul.C59_terminates",
    "Manul.C59_results"
   ],
   "note": "The conditions windowEcho and windowNext of Scheme.Pattern are necessary (C59_judges_violation, C59_leaver_violation)."
  },
  {
   "property": "C60",
   "status": "proved",
   "theorems": [
    "Manul.C60_report",
    "Manul.C60_exact",
    "Manul.C60_execution",
    "Manul.C60_running"
   ],
   "note": "The environment must be orderly (OrderlyEvent); without that results are dropped, see C15 and C43."
  },
  {
   "property": "C61",
   "status": "proved",
   "theorems": [
    "Manul.C61_no_errors",
    "Manul.C61_finishes",
    "Manul.C61_terminates",
    "Manul.C61_results",
    "Manul.C61_join",
    "Manul.C61_completes"
   ],
   "note": "The channels of run_async and between tasks and host are left out of the network; the join is covered by C61_join (at most 100 other parties) and C42."
  },
  {
   "property": "C62",
   "status": "partial",
   "theorems": [
    "Manul.C62_recorded",
    "Manul.C62_simple_detects",
    "Manul.C62_simple_verifies",
    "Manul.C62_simple_frames_violation",
    "Manul.C62_simple_local",
    "Manul.C62_simple_run_partial",
    "Manul.C62_simple_overflow_violation",
    "Manul.C62_accessors"
   ],
   "note": "verify_evidence of simple accepts any message of the right type, so an honest party can be framed (C62_simple_frames_violation); with overflow checks a party can stop others by naming a large position (C62_simple_overflow_violation); evidence of invalid echos is covered by C24. The rest is proved."
  },
  {
   "property": "C63",
   "status": "proved",
   "theorems": [
    "Manul.C63_terminates",
    "Manul.C63_blamed",
    "Manul.C63_reports",
    "Manul.C63_no_other",
    "Manul.C63_sync",
    "Manul.C63_sync_returns",
    "Manul.C63_extend_one",
    "Manul.C63_check",
    "Manul.C63_check_panics",
    "Manul.C63_detects",
    "Manul.C63_detects_returns",
    "Manul.C63_honest",
    "Manul.C63_simple",
    "Manul.C63_simple_returns",
    "Manul.C63_simple_honest"
   ],
   "note": "Deviations are in direct messages; the deviating party otherwise follows the protocol. Descriptions of evidence are a parameter."
  },
  {
   "property": "C64",
   "status": "partial",
   "theorems": [
    "Manul.C64_default_broadcasts",
    "Manul.C64_default_direct",
    "Manul.C64_implemented",
    "Manul.C64_missing_broadcast",
    "Manul.C64_missing_direct",
    "Manul.C64_no_echo_violation",
    "Manul.C64_async_violation",
    "Manul.C64_echo_violation",
    "Manul.C64_results_partial",
    "Manul.C64_returns_partial",
    "Manul.C64_async_partial",
    "Manul.C64_work",
    "Manul.C64_work_overflow"
   ],
   "note": "The code violates the second half: all benchmarks fail as EmptyRound has an echo broadcast but no method making it (C64_no_echo_violation, C64_echo_violation, C64_async_violation). Proved for the benchmarks with that type replaced by NoMessage, and for one round with an echo round."
  },
  {
   "property": "C65",
   "status": "proved",
   "theorems": [
    "Manul.C65_downcast",
    "Manul.C65_downcast_round",
    "Manul.C65_no_message",
    "Manul.C65_part_round_trip",
    "Manul.C65_finalize",
    "Manul.C65_chain_first",
    "Manul.C65_chain_second",
    "Manul.C65_register",
    "Manul.C65_wrap_round",
    "Manul.C65_extended",
    "Manul.C65_extended_finalize",
    "Manul.C65_typed"
   ],
   "note": ""
  },
  {
   "property": "C66",
   "status": "partial",
   "theorems": [
    "Manul.C66_no_failure",
    "Manul.C66_refines",
    "Manul.C66_terminates",
    "Manul.C66_returns_partial",
    "Manul.C66_sequential_partial",
    "Manul.C66_silent_violation",
    "Manul.C66_deadlock_one_round_violation",
    "Manul.C66_deadlock_violation",
    "Manul.C66_simple_partial"
   ],
   "note": "Safety, termination and the refinement are proved for any number of parties; that run_async returns is proved for at most 51 parties. This bound is sharp: with 52 or more parties the code can deadlock (C66_deadlock_violation). That schedules without offload_processing carry over is proved for parties that do not send to more than 100 others while expecting nothing; those deadlock (C66_silent_violation)."
  },
  {
   "property": "C67",
   "status": "partial",
   "theorems": [
    "Manul.C67_senders_only",
    "Manul.C67_report",
    "Manul.C67_cache",
    "Manul.C67_bounded_partial",
    "Manul.C67_simple_partial",
    "Manul.C67_flood_violation",
    "Manul.C67_errors_violation",
    "Manul.C67_unbounded_violation"
   ],
   "note": "The bounds are proved in terms of the parties in whose name messages are given to the session.  As stated the claim is false: nothing checks that a sender is a party of the session before its message is cached or an error is recorded for it, so outsiders can make a session keep arbitrarily much (C67_flood_violation, C67_errors_violation, C67_unbounded_violation)."
  },
  {
   "property": "C68",
   "status": "proved",
   "theorems": [
    "Manul.C68_refines",
    "Manul.C68_complete",
    "Manul.C68_sent",
    "Manul.C68_once",
    "Manul.C68_progress",
    "Manul.C68_failed"
   ],
   "note": "Refinement in both directions between the driver that sends one message at a time and the coarse driver; sent messages, progress and failure characterised."
  },
  {
   "property": "C69",
   "status": "partial",
   "theorems": [
    "Manul.C69_refines",
    "Manul.C69_complete",
    "Manul.C69_sent",
    "Manul.C69_failure_fatal",
    "Manul.C69_progress",
    "Manul.C69_bounded",
    "Manul.C69_cancel_partial",
    "Manul.C69_cancel_ignored",
    "Manul.C69_local_error",
    "Manul.C69_failure_unnoticed",
    "Manul.C69_failure_violation",
    "Manul.C69_cancel_violation"
   ],
   "note": "Refinement, messages sent, fatality of failures, progress and cancellation in the loop are proved; that a failure or a cancellation ends the run at once is false (C69_failure_violation, C69_cancel_violation)."
  },
  {
   "property": "C70",
   "status": "partial",
   "theorems": [
    "Manul.C70_same_evidence",
    "Manul.C70_kind",
    "Manul.C70_protocol_text",
    "Manul.C70_protocol_round",
    "Manul.C70_round_violation",
    "Manul.C70_round_partial",
    "Manul.C70_unverified",
    "Manul.C70_lines",
    "Manul.C70_brief_partial",
    "Manul.C70_brief_violation",
    "Manul.C70_description_violation"
   ],
   "note": "proved: the recorded evidence, the kind of offence in its description, round number and text of protocol errors, the lines of brief, and that reports with one-line texts can be read back; the round of a protocol error, received evidence and reports with arbitrary texts violate the statement (C70_round_violation, C70_description_violation, C70_brief_violation)"
  },
  {
   "property": "C71",
   "status": "partial",
   "theorems": [
    "Manul.C71_refines",
    "Manul.C71_covers",
    "Manul.C71_no_failure",
    "Manul.C71_terminates",
    "Manul.C71_returns_partial",
    "Manul.C71_deadlock_one_round_violation",
    "Manul.C71_deadlock_violation"
   ],
   "note": "Both simulations, safety and termination are proved for any number of parties; that run_async returns is proved for at most 51 parties. This bound is sharp: with 52 or more parties the code can deadlock (C71_deadlock_violation)."
  },
  {
   "property": "C72",
   "status": "proved",
   "theorems": [
    "Manul.C72_verdict",
    "Manul.C72_convinces",
    "Manul.C72_recorded",
    "Manul.C72_report",
    "Manul.C72_no_blame",
    "Manul.C72_not_accepted",
    "Manul.C72_caught",
    "Manul.C72_kept",
    "Manul.C72_framing_violation"
   ],
   "note": "evidence filed under the name of a dishonest echoer is outside the statement: it can accuse an honest party (C72_framing_violation)"
  },
  {
   "property": "C73",
   "status": "proved",
   "theorems": [
    "Manul.C73_accused",
    "Manul.C73_kind_confusion",
    "Manul.C73_if_kinds_were_signed"
   ],
   "note": ""
  },
  {
   "property": "C74",
   "status": "partial",
   "theorems": [
    "Manul.C74_message",
    "Manul.C74_evidence",
    "Manul.C74_message_injective",
    "Manul.C74_evidence_injective",
    "Manul.C74_verdict",
    "Manul.C74_map",
    "Manul.C74_duplicates",
    "Manul.C74_refuses",
    "Manul.C74_trailing_violation",
    "Manul.C74_evidence_trailing_violation",
    "Manul.C74_padded_violation",
    "Manul.C74_signature_violation"
   ],
   "note": "a value is read from many byte strings: what follows is ignored, lengths can be padded (C74_trailing_violation, C74_padded_violation, C74_signature_violation)"
  },
  {
   "property": "C75",
   "status": "proved",
   "theorems": [
    "Manul.C75_acyclic",
    "Manul.C75_mainIds",
    "Manul.C75_strict",
    "Manul.C75_noEchoErr",
    "Manul.C75_chain_iff",
    "Manul.C75_nested",
    "Manul.C75_network",
    "Manul.C75_simple_chain",
    "Manul.C75_extend",
    "Manul.C75_extend_strict_iff",
    "Manul.C75_extend_not_strict"
   ],
   "note": ""
  },
  {
   "property": "C76",
   "status": "proved",
   "theorems": [
    "Manul.C76_independent",
    "Manul.C76_integrity",
    "Manul.C76_accused",
    "Manul.C76_distinct_needed"
   ],
   "note": ""
  },
  {
   "property": "C77",
   "status": "proved",
   "theorems": [
    "Manul.C77_charges",
    "Manul.C77_own_protocol",
    "Manul.C77_other_protocol_violation"
   ],
   "note": "C77_charges is the classification; C77_own_protocol and C77_other_protocol_violation are about evidence of malformed messages"
  },
  {
   "property": "C78",
   "status": "proved",
   "theorems": [
    "Manul.C78_cause",
    "Manul.C78_cause_running",
    "Manul.C78_silent",
    "Manul.C78_authenticated",
    "Manul.C78_blamed",
    "Manul.C78_refused_blamed",
    "Manul.C78_anybody"
   ],
   "note": "causes of unprovable errors among the messages delivered; converse; attack without authentication"
  },
  {
   "property": "C79",
   "status": "proved",
   "theorems": [
    "Manul.C79_traced",
    "Manul.C79_traced_running",
    "Manul.C79_silent",
    "Manul.C79_held",
    "Manul.C79_accused",
    "Manul.C79_self"
   ],
   "note": "invariant over runs; every part of the evidence is traced to a signed message given to the session"
  },
  {
   "property": "C80",
   "status": "proved",
   "theorems": [
    "Manul.C80_waits",
    "Manul.C80_accountable",
    "Manul.C80_success",
    "Manul.C80_stops",
    "Manul.C80_rest",
    "Manul.C80_settles",
    "Manul.C80_always",
    "Manul.C80_dining",
    "Manul.C80_simple",
    "Manul.C80_equivocation"
   ],
   "note": "With the assumption that nobody equivocates; C80_equivocation shows that it is needed."
  },
  {
   "property": "C81",
   "status": "proved",
   "theorems": [
    "Manul.C81_entered",
    "Manul.C81_behind",
    "Manul.C81_rounds",
    "Manul.C81_apart",
    "Manul.C81_window"
   ],
   "note": "C81_entered, C81_behind and C81_rounds for all protocols in the network controlled by an adversary; C81_apart (consecutive rounds of the plan) and C81_window for protocols following a plan, with parties that do not follow it."
  },
  {
   "property": "C82",
   "status": "proved",
   "theorems": [
    "Manul.C82_finalize",
    "Manul.C82_stored",
    "Manul.C82_filed",
    "Manul.C82_malformed_verifies",
    "Manul.C82_mismatched_verifies",
    "Manul.C82_invalid_echo",
    "Manul.C82_represents",
    "Manul.C82_integrity",
    "Manul.C82_finalizing",
    "Manul.C82_report",
    "Manul.C82_agreement"
   ],
   "note": "C82_finalize, C82_stored, C82_filed, C82_malformed_verifies, C82_mismatched_verifies and C82_invalid_echo (exactly when evidence of an invalid echo verifies) for one session; C82_integrity, C82_finalizing, C82_report and C82_agreement for the network."
  },
  {
   "property": "C83",
   "status": "proved",
   "theorems": [
    "Manul.C83_verdict",
    "Manul.C83_recorded",
    "Manul.C83_report",
    "Manul.C83_no_blame",
    "Manul.C83_not_accepted",
    "Manul.C83_caught",
    "Manul.C83_kept",
    "Manul.C83_accused",
    "Manul.C83_kind_confusion",
    "Manul.C83_if_kinds_were_signed"
   ],
   "note": "C83_not_accepted, C83_verdict, C83_caught, C83_kept, C83_recorded, C83_report and C83_no_blame; C83_accused, C83_kind_confusion and C83_if_kinds_were_signed."
  },
  {
   "property": "C84",
   "status": "proved",
   "theorems": [
    "Manul.C84_entered",
    "Manul.C84_behind",
    "Manul.C84_rounds",
    "Manul.C84_runs"
   ],
   "note": "C84_entered, C84_behind, C84_rounds and C84_runs."
  },
  {
   "property": "C85",
   "status": "partial",
   "theorems": [
    "Manul.C85_no_blame_partial",
    "Manul.C85_no_echo",
    "Manul.C85_results_partial",
    "Manul.C85_tasks_partial",
    "Manul.C85_dining",
    "Manul.C85_simple_partial",
    "Manul.C85_violation"
   ],
   "note": "proved if nobody sends two different signed echo broadcasts for the same round; with equivocation the claim fails (C85_violation); for protocols without echo broadcasts proved in full"
  },
  {
   "property": "C86",
   "status": "proved",
   "theorems": [
    "Manul.C86_waits",
    "Manul.C86_accountable",
    "Manul.C86_success",
    "Manul.C86_stops",
    "Manul.C86_rest",
    "Manul.C86_settles",
    "Manul.C86_always",
    "Manul.C86_dining",
    "Manul.C86_simple",
    "Manul.C86_equivocation"
   ],
   "note": "With the assumption that nobody equivocates; C86_equivocation shows that it is needed."
  },
  {
   "property": "C87",
   "status": "proved",
   "theorems": [
    "Manul.C87_refines",
    "Manul.C87_fails",
    "Manul.C87_settled",
    "Manul.C87_late",
    "Manul.C87_reports",
    "Manul.C87_hasty",
    "Manul.C87_single_settled",
    "Manul.C87_single_late"
   ],
   "note": "Nothing is assumed of the parties. C87_late and C87_hasty show that run_async fails on messages to parties that have returned, which run_sync drops."
  },
  {
   "property": "C88",
   "status": "proved",
   "theorems": [
    "Manul.C88_cause",
    "Manul.C88_traced",
    "Manul.C88_running",
    "Manul.C88_tasks",
    "Manul.C88_silent",
    "Manul.C88_authenticated",
    "Manul.C88_held",
    "Manul.C88_accused",
    "Manul.C88_blamed",
    "Manul.C88_refused_blamed",
    "Manul.C88_completed",
    "Manul.C88_immediate",
    "Manul.C88_dropped_violation"
   ],
   "note": "C88_dropped_violation shows that results outstanding at the end of a round are lost; C88_immediate that this does not happen with run_session."
  },
  {
   "property": "C89",
   "status": "proved",
   "theorems": [
    "Manul.C89_refines",
    "Manul.C89_fails",
    "Manul.C89_settled",
    "Manul.C89_late",
    "Manul.C89_reports",
    "Manul.C89_artifacts",
    "Manul.C89_hasty"
   ],
   "note": "Nothing is assumed of the parties. C89_late and C89_hasty: as C87_late and C87_hasty, for parties using par_run_session."
  },
  {
   "property": "C90",
   "status": "proved",
   "theorems": [
    "Manul.C90_no_errors",
    "Manul.C90_finishes",
    "Manul.C90_terminates",
    "Manul.C90_results",
    "Manul.C90_completes",
    "Manul.C90_driver",
    "Manul.C90_sequential",
    "Manul.C90_parallel"
   ],
   "note": "Every party uses the driver it likes; see C41 and C61 for the networks in which all use the same."
  },
  {
   "property": "C91",
   "status": "partial",
   "theorems": [
    "Manul.C91_no_blame_partial",
    "Manul.C91_no_echo",
    "Manul.C91_results_partial",
    "Manul.C91_waits",
    "Manul.C91_accountable",
    "Manul.C91_success",
    "Manul.C91_stops",
    "Manul.C91_rest",
    "Manul.C91_settles",
    "Manul.C91_always",
    "Manul.C91_sequential",
    "Manul.C91_parallel",
    "Manul.C91_dining",
    "Manul.C91_simple_partial",
    "Manul.C91_violation",
    "Manul.C91_equivocation"
   ],
   "note": "wrong if somebody sends different echo broadcasts in the same round (C91_violation); proved for all other behaviour, and without restriction for protocols without echo broadcasts"
  },
  {
   "property": "C92",
   "status": "proved",
   "theorems": [
    "Manul.C92_integrity",
    "Manul.C92_finalizing",
    "Manul.C92_report",
    "Manul.C92_agreement",
    "Manul.C92_verdict",
    "Manul.C92_recorded",
    "Manul.C92_kept",
    "Manul.C92_no_blame",
    "Manul.C92_not_accepted",
    "Manul.C92_blamed",
    "Manul.C92_caught",
    "Manul.C92_caught_parallel",
    "Manul.C92_accused",
    "Manul.C92_kind_confusion",
    "Manul.C92_if_kinds_were_signed",
    "Manul.C92_entered",
    "Manul.C92_behind",
    "Manul.C92_rounds",
    "Manul.C92_runs",
    "Manul.C92_sequential",
    "Manul.C92_parallel"
   ],
   "note": "For protocols with main-round ids, strict echo decoding and no repeated rounds where echo rounds are concerned (each hypothesis is in the theorem that needs it; C75 shows that the combinators keep them). Unforgeability is the same assumption as in C56."
  },
  {
   "property": "C93",
   "status": "proved",
   "theorems": [
    "Manul.C93_independent",
    "Manul.C93_integrity",
    "Manul.C93_agreement",
    "Manul.C93_accused",
    "Manul.C93_rounds",
    "Manul.C93_sequential",
    "Manul.C93_distinct_needed"
   ],
   "note": "Session ids have to be different (C93_distinct_needed); the other hypotheses are those of C92."
  },
  {
   "property": "C94",
   "status": "proved",
   "theorems": [
    "Manul.C94_untraceable",
    "Manul.C94_one_to_one",
    "Manul.C94_network",
    "Manul.C94_example"
   ],
   "note": "The view of a diner consists of its rounds and the contents of messages; signatures and random numbers are not part of it."
  },
  {
   "property": "C95",
   "status": "proved",
   "theorems": [
    "Manul.C95_charges",
    "Manul.C95_own_protocol",
    "Manul.C95_sequential",
    "Manul.C95_other_protocol_violation"
   ],
   "note": "C95_charges is the classification; C95_own_protocol and C95_other_protocol_violation are about evidence of malformed messages; C95_sequential relates it to C77"
  },
  {
   "property": "C96",
   "status": "partial",
   "theorems": [
    "Manul.C96_malformed",
    "Manul.C96_mismatched",
    "Manul.C96_invalid_echo_partial",
    "Manul.C96_protocol",
    "Manul.C96_only"
   ],
   "note": "evidence of a wrong echo message need not verify (C96_invalid_echo_partial says exactly when it does; the code violates the rest, see C24_invalid_echo_violation); the rest is proved"
  }
 ]
}
