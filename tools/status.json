{
 "C31": [
  "proved",
  ""
 ],
 "C32": [
  "proved",
  ""
 ],
 "C33": [
  "proved",
  ""
 ],
 "C34": [
  "proved",
  ""
 ],
 "C35": [
  "partial",
  "Consecutive rounds name each other for numbers 1..255; new_linear(255) overflows (C35_overflow_violation)."
 ],
 "C36": [
  "proved",
  ""
 ],
 "C01": [
  "proved",
  ""
 ],
 "C02": [
  "proved",
  ""
 ],
 "C04": [
  "partial",
  "The full statement fails: with overlapping processing the unprovable error of a party is replaced by a later one, and after a duplicate a party has both a payload and an error (violation theorems). Proved: payloads and evidence are permanent, errors are never dropped, at most one processed message per party is added, errors are permanent under sequential processing."
 ],
 "C06": [
  "proved",
  ""
 ],
 "C09": [
  "partial",
  "The full statement fails (C09_violation; C09_hang: the round stays NotYet forever). Proved for parties whose message was processed."
 ],
 "C14": [
  "proved",
  ""
 ],
 "C45": [
  "partial",
  "The statement fails: the destination is neither signed nor checked (negation proved). Proved: an accepted direct message of a party following the protocol was sent by it in the same round and session, to somebody"
 ],
 "C03": [
  "proved",
  ""
 ],
 "C05": [
  "proved",
  ""
 ],
 "C07": [
  "partial",
  "The last clause fails for echo rounds: a banned party's cached message is applied when the echo round is entered (C07_echo_violation). Proved: bans are permanent within and across rounds, later messages are ignored, and no cached message of a banned party is applied in a main round."
 ],
 "C10": [
  "partial",
  "Result is proved; terminate_due_to_errors reports Terminated and NotEnoughMessages is never reported (violation theorems)."
 ],
 "C15": [
  "proved",
  ""
 ],
 "C42": [
  "partial",
  "The statement fails: join deadlocks when more than 100 items are outstanding (two violation theorems). C42_exact characterizes completion; C42_join_completes_partial covers at most 100 items."
 ],
 "C43": [
  "partial",
  "Proved for run_session and, if no processed result is outstanding, for par_run_session; fails in general for par_run_session, which drops processed results on cancel (C43_violation). C43_exact: a party is reported missing if and only if it was expected and every message accepted from it is still being processed."
 ],
 "C11": [
  "proved",
  ""
 ],
 "C12": [
  "proved",
  ""
 ],
 "C13": [
  "proved",
  ""
 ],
 "C16": [
  "partial",
  "Two clauses fail: messages kept for a child round are dropped on entering the echo round (C16_dropped_violation), and a banned sender's message is handed to the echo round (C16_banned_violation). The rest is proved."
 ],
 "C17": [
  "proved",
  "Agreement between the holder of a pack and its acceptor, at the level of echo rounds and of runs. In runs, that the broadcast stored under A's name is A's (no forgery) and the absence of a hash collision are hypotheses."
 ],
 "C18": [
  "proved",
  "Given the broadcasts of all expected parties (C20_complete shows runs have them) and total metadata serialization."
 ],
 "C19": [
  "proved",
  "Consistency of the graph and absence of equivocation are hypotheses on the two echo rounds; C19_regular derives the graph condition for all-to-all communication."
 ],
 "C20": [
  "partial",
  "Proved for protocols whose rounds followed by an echo round insist on an echo broadcast (C20_typed: typed rounds whose EchoBroadcast is not NoMessage). C20_exact: in any run, a message of a sender can make the echo round fail if and only if the broadcast of an expected third party is missing. Missing: rounds declaring Receive with NoMessage, where the claim is false (C20_no_message_violation)."
 ],
 "C08": [
  "partial",
  "A peer can make a node fail: unexpected sender, message repeated after being kept, party banned twice (violations). Proved that these are the only causes: C08_exact is an if-and-only-if for every event of a run, provided the methods of the rounds do not fail under an invariant of the protocol and evidence for expected senders can be assembled."
 ],
 "C21": [
  "proved",
  "For protocols whose round_info agrees with their round ids (TagConsistent)."
 ],
 "C22": [
  "proved",
  "C22_represents: the recorded evidence makes verify call the protocol's check with exactly the parts it asked for; it therefore verifies iff the protocol's check accepts them."
 ],
 "C23": [
  "proved",
  "For rounds that do not report the errors of the echo round (true of all typed protocols, typed_noEchoErr)."
 ],
 "C24": [
  "partial",
  "Proved for entries not signed by the party named. Missing: entries signed for another session or round, where the claim is false (C24_invalid_echo_violation)."
 ],
 "C29": [
  "partial",
  "Proved for all kinds but MismatchedBroadcasts, whose evidence is filed under the reporting party (C29_misfiled_violation)."
 ],
 "C25": [
  "partial",
  "Exact characterization of verification (iff) and no framing, up to hash collisions, of sessions that have somebody to send to. Missing: sessions without destinations sign empty parts and can be framed (C25_no_destinations_violation)."
 ],
 "C26": [
  "partial",
  "Exact characterization (iff). The claim fails for every honest session (C26_framing_violation): a signed normal broadcast passes as a second echo broadcast. Proved when the hash is that of an echo broadcast."
 ],
 "C27": [
  "partial",
  "Exact characterization (iff). The claim fails for every honest party in every echo round (C27_framing_violation). Proved for entries that are not signed by the party named."
 ],
 "C28": [
  "proved",
  ""
 ],
 "C30": [
  "partial",
  "Fails for MismatchedBroadcasts evidence, whose inner party need not be the accused one (C30_unchecked_violation, C30_wrong_party_violation); proved for everything else."
 ],
 "C37": [
  "proved",
  "Executions of the chain are exactly the executions of P1 followed by those of P2 (round-level semantics), and every session of a chain ending with a result is such an execution."
 ],
 "C38": [
  "proved",
  "Delegation and disjointness for arbitrarily nested chains; foreign rounds lead to a local error."
 ],
 "C39": [
  "partial",
  "Declared transitions proved; mutual consistency of parents and children fails at the join (C39_join_violation)."
 ],
 "C49": [
  "proved",
  "Round-level executions as specification; every run of run_session with a result refines one."
 ],
 "C40": [
  "proved",
  "Bisimulation with the overridden protocol for all executions; no extensions, default extensions and locality as corollaries. Rounds that are not typed give a local error (shown separately)."
 ],
 "C46": [
  "proved",
  "All chains of builder calls; storage and re-verification exact."
 ],
 "C44": [
  "partial",
  "Queue part proved for all histories; run_sync refines run_session; the claim that run_sync never panics is false (no messages at the start): proved as C44_no_messages_violation, with the positive part C44_run_sync_panic_partial."
 ],
 "C41": [
  "proved",
  "Allows message patterns beyond all-to-all; C41_one_way_violation shows the restriction on the pattern is needed."
 ],
 "C47": [
  "proved",
  "Over the network model, with the test parameters of the dev module and any random number source."
 ],
 "C48": [
  "proved",
  "Under the no-overflow hypothesis of the statement (n <= 16 parties with consecutive positions); C48_overflow_violation shows that it is needed."
 ],
 "C50": [
  "partial",
  "C50_local_errors shows that verification fails locally only where the protocol's checks or the metadata encoding do. C50_accessors, C50_typed and C50_chain show that the library's own readers and the chain combinator add no panics. The property as stated is false: NoProtocolErrors::verify_messages_constitute_error panics (C50_no_errors_violation, C50_honest_violation), so the absence of panics needs an assumption on the protocol's checks (C50_no_panic_partial)."
 ],
 "C51": [
  "proved",
  ""
 ],
 "C52": [
  "proved",
  ""
 ],
 "C53": [
  "proved",
  ""
 ],
 "C54": [
  "proved",
  ""
 ],
 "C55": [
  "partial",
  "proved if nobody sends two different signed echo broadcasts for the same round; with equivocation the claim fails (C55_violation); for protocols without echo broadcasts proved in full"
 ],
 "C56": [
  "proved",
  ""
 ],
 "C57": [
  "proved",
  ""
 ],
 "C58": [
  "partial",
  "Safety, termination and the refinement are proved for any number of parties; that run_async returns is proved for at most 51 parties. This bound is sharp: with 52 or more parties the code can deadlock (C58_deadlock_violation)."
 ],
 "C59": [
  "proved",
  "The conditions windowEcho and windowNext of Scheme.Pattern are necessary (C59_judges_violation, C59_leaver_violation)."
 ],
 "C60": [
  "proved",
  "The environment must be orderly (OrderlyEvent); without that results are dropped, see C15 and C43."
 ],
 "C61": [
  "proved",
  "The channels of run_async and between tasks and host are left out of the network; the join is covered by C61_join (at most 100 other parties) and C42."
 ],
 "C62": [
  "partial",
  "verify_evidence of simple accepts any message of the right type, so an honest party can be framed (C62_simple_frames_violation); with overflow checks a party can stop others by naming a large position (C62_simple_overflow_violation); evidence of invalid echos is covered by C24. The rest is proved."
 ],
 "C63": [
  "proved",
  "Deviations are in direct messages; the deviating party otherwise follows the protocol. Descriptions of evidence are a parameter."
 ],
 "C64": [
  "partial",
  "The code violates the second half: all benchmarks fail as EmptyRound has an echo broadcast but no method making it (C64_no_echo_violation, C64_echo_violation, C64_async_violation). Proved for the benchmarks with that type replaced by NoMessage, and for one round with an echo round."
 ],
 "C65": [
  "proved",
  ""
 ],
 "C66": [
  "partial",
  "Safety, termination and the refinement are proved for any number of parties; that run_async returns is proved for at most 51 parties. This bound is sharp: with 52 or more parties the code can deadlock (C66_deadlock_violation). That schedules without offload_processing carry over is proved for parties that do not send to more than 100 others while expecting nothing; those deadlock (C66_silent_violation)."
 ],
 "C67": [
  "partial",
  "The bounds are proved in terms of the parties in whose name messages are given to the session.  As stated the claim is false: nothing checks that a sender is a party of the session before its message is cached or an error is recorded for it, so outsiders can make a session keep arbitrarily much (C67_flood_violation, C67_errors_violation, C67_unbounded_violation)."
 ],
 "C68": [
  "proved",
  "Refinement in both directions between the driver that sends one message at a time and the coarse driver; sent messages, progress and failure characterised."
 ],
 "C69": [
  "partial",
  "Refinement, messages sent, fatality of failures, progress and cancellation in the loop are proved; that a failure or a cancellation ends the run at once is false (C69_failure_violation, C69_cancel_violation)."
 ],
 "C70": [
  "partial",
  "proved: the recorded evidence, the kind of offence in its description, round number and text of protocol errors, the lines of brief, and that reports with one-line texts can be read back; the round of a protocol error, received evidence and reports with arbitrary texts violate the statement (C70_round_violation, C70_description_violation, C70_brief_violation)"
 ],
 "C71": [
  "partial",
  "Both simulations, safety and termination are proved for any number of parties; that run_async returns is proved for at most 51 parties. This bound is sharp: with 52 or more parties the code can deadlock (C71_deadlock_violation)."
 ],
 "C72": [
  "proved",
  "evidence filed under the name of a dishonest echoer is outside the statement: it can accuse an honest party (C72_framing_violation)"
 ],
 "C73": [
  "proved",
  ""
 ],
 "C74": [
  "partial",
  "a value is read from many byte strings: what follows is ignored, lengths can be padded (C74_trailing_violation, C74_padded_violation, C74_signature_violation)"
 ],
 "C75": [
  "proved",
  ""
 ],
 "C76": [
  "proved",
  ""
 ],
 "C77": [
  "proved",
  "C77_charges is the classification; C77_own_protocol and C77_other_protocol_violation are about evidence of malformed messages"
 ],
 "C78": [
  "proved",
  "causes of unprovable errors among the messages delivered; converse; attack without authentication"
 ],
 "C79": [
  "proved",
  "invariant over runs; every part of the evidence is traced to a signed message given to the session"
 ],
 "C80": [
  "proved",
  "With the assumption that nobody equivocates; C80_equivocation shows that it is needed."
 ],
 "C81": [
  "proved",
  "C81_entered, C81_behind and C81_rounds for all protocols in the network controlled by an adversary; C81_apart (consecutive rounds of the plan) and C81_window for protocols following a plan, with parties that do not follow it."
 ],
 "C82": [
  "proved",
  "C82_finalize, C82_stored, C82_filed, C82_malformed_verifies, C82_mismatched_verifies and C82_invalid_echo (exactly when evidence of an invalid echo verifies) for one session; C82_integrity, C82_finalizing, C82_report and C82_agreement for the network."
 ],
 "C83": [
  "proved",
  "C83_not_accepted, C83_verdict, C83_caught, C83_kept, C83_recorded, C83_report and C83_no_blame; C83_accused, C83_kind_confusion and C83_if_kinds_were_signed."
 ],
 "C84": [
  "proved",
  "C84_entered, C84_behind, C84_rounds and C84_runs."
 ],
 "C85": [
  "partial",
  "proved if nobody sends two different signed echo broadcasts for the same round; with equivocation the claim fails (C85_violation); for protocols without echo broadcasts proved in full"
 ],
 "C86": [
  "proved",
  "With the assumption that nobody equivocates; C86_equivocation shows that it is needed."
 ],
 "C87": [
  "proved",
  "Nothing is assumed of the parties. C87_late and C87_hasty show that run_async fails on messages to parties that have returned, which run_sync drops."
 ],
 "C88": [
  "proved",
  "C88_dropped_violation shows that results outstanding at the end of a round are lost; C88_immediate that this does not happen with run_session."
 ],
 "C89": [
  "proved",
  "Nothing is assumed of the parties. C89_late and C89_hasty: as C87_late and C87_hasty, for parties using par_run_session."
 ],
 "C90": [
  "proved",
  "Every party uses the driver it likes; see C41 and C61 for the networks in which all use the same."
 ],
 "C91": [
  "partial",
  "wrong if somebody sends different echo broadcasts in the same round (C91_violation); proved for all other behaviour, and without restriction for protocols without echo broadcasts"
 ],
 "C92": [
  "proved",
  "For protocols with main-round ids, strict echo decoding and no repeated rounds where echo rounds are concerned (each hypothesis is in the theorem that needs it; C75 shows that the combinators keep them). Unforgeability is the same assumption as in C56."
 ],
 "C93": [
  "proved",
  "Session ids have to be different (C93_distinct_needed); the other hypotheses are those of C92."
 ],
 "C94": [
  "proved",
  "The view of a diner consists of its rounds and the contents of messages; signatures and random numbers are not part of it."
 ],
 "C95": [
  "proved",
  "C95_charges is the classification; C95_own_protocol and C95_other_protocol_violation are about evidence of malformed messages; C95_sequential relates it to C77"
 ],
 "C96": [
  "partial",
  "evidence of a wrong echo message need not verify (C96_invalid_echo_partial says exactly when it does; the code violates the rest, see C24_invalid_echo_violation); the rest is proved"
 ]
}