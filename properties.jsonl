{"id": "C01", "title": "Only authentic messages are accepted", "statement": "If preprocess_message answers ToProcess or Cached for a message attributed to `from`, then all three parts carry this session's id and one common round id, that id is the current round (ToProcess) or a declared simultaneous round (Cached), and all three signatures verify under `from`'s key for exactly those parts.", "quantifier": "every session state, accumulator, sender, and every (adversarial) message", "why_tests_cant": "The message is attacker-chosen; a test tries a handful of corruptions, not all byte strings, states and round ids.", "anchors": ["manul/src/session/session.rs:Session::preprocess_message", "manul/src/session/message.rs:Message::unify_metadata", "manul/src/session/message.rs:CheckedMessage::into_verified"]}
{"id": "C02", "title": "Preprocessing follows one decision table", "statement": "preprocess_message's outcome and its whole effect on the accumulator are determined by the documented sequence of checks (banned, metadata, session id, duplicate/cached/unexpected round, signature): exactly one outcome applies, each refusal other than 'banned' records exactly one unprovable error for the sender and changes nothing else, and a banned sender's message changes nothing at all.", "quantifier": "every session state, accumulator, sender and message", "why_tests_cant": "Covers the full product of conditions, including priorities between simultaneous failures.", "anchors": ["manul/src/session/session.rs:Session::preprocess_message", "manul/src/session/session.rs:RoundAccumulator"]}
{"id": "C03", "title": "Every payload a round is finalized with was signed by its owner", "statement": "In every execution of run_session, each payload handed to Round::finalize for party p is the result of receive_message on three message parts that were signed by p for this session and this round (including messages cached in an earlier round).", "quantifier": "every protocol, every sequence of incoming messages, every point of the run", "why_tests_cant": "Needs an invariant over unbounded adversarial histories, across rounds and through the cache.", "anchors": ["manul/src/session/tokio.rs:run_session", "manul/src/session/session.rs:Session::finalize_round", "manul/src/session/session.rs:Session::add_processed_message"]}
{"id": "C04", "title": "At most one message per party and round counts", "statement": "Within a round, once a payload (or an error) for a party is recorded it is never replaced or dropped by any later call, and the accumulator never holds two results of one party.", "quantifier": "every sequence of accumulator operations in a round", "why_tests_cant": "Histories of calls are unbounded and interleave arbitrarily.", "anchors": ["manul/src/session/session.rs:RoundAccumulator::add_processed_message", "manul/src/session/session.rs:RoundAccumulator::mark_processing"]}
{"id": "C05", "title": "finalize sees exactly the expected parties", "statement": "When can_finalize is Yes in any reachable accumulator, the payload map passed to Round::finalize has exactly the parties of expecting_messages_from as keys, and under run_session the artifact map has exactly message_destinations as keys.", "quantifier": "every reachable accumulator / run", "why_tests_cant": "Quantifies over all histories, including refused, erroneous and duplicate messages.", "anchors": ["manul/src/session/session.rs:RoundAccumulator::can_finalize", "manul/src/session/session.rs:Session::finalize_round", "manul/src/session/tokio.rs:run_session"]}
{"id": "C06", "title": "can_finalize answers are definitive", "statement": "Yes and Never are permanent: no later sequence of API calls on the same accumulator changes them; Yes is answered iff every expected party has a recorded payload, Never iff no further party can be recorded and someone expected has none.", "quantifier": "every reachable accumulator and every continuation", "why_tests_cant": "Permanence speaks about all continuations.", "anchors": ["manul/src/session/session.rs:RoundAccumulator::can_finalize", "manul/src/session/session.rs:CanFinalize"]}
{"id": "C07", "title": "Banned parties stay banned and are ignored", "statement": "Once a party has a provable or unprovable error recorded, every later message from it is answered Error and leaves the accumulator unchanged, in this and in all later rounds, and no message of it cached earlier is applied in a later round.", "quantifier": "every run prefix, every later message from the banned party", "why_tests_cant": "All continuations of all runs; the cache path crosses rounds.", "anchors": ["manul/src/session/session.rs:Session::preprocess_message", "manul/src/session/session.rs:Session::finalize_round", "manul/src/session/transcript.rs:Transcript::is_banned"]}
{"id": "C08", "title": "Remote parties cannot crash the local session", "statement": "If the local user code never returns LocalError and signing/serialization succeed, then no sequence of messages from other parties makes preprocess_message, add_processed_message, finalize_round or terminate return a LocalError; misbehaviour only shows up in the report.", "quantifier": "every adversarial message sequence", "why_tests_cant": "A test cannot enumerate adversarial schedules; the claim is universally quantified over them.", "anchors": ["manul/src/session/session.rs:Session::preprocess_message", "manul/src/session/session.rs:RoundAccumulator::add_processed_message", "manul/src/session/transcript.rs:Transcript::update"]}
{"id": "C09", "title": "A round with every missing party banned is not left hanging", "statement": "If each expected party without a payload is banned (so that none of its messages can ever be accepted), can_finalize answers Never rather than NotYet, so that the documented drivers terminate with a report.", "quantifier": "every reachable accumulator", "why_tests_cant": "Liveness over all continuations.", "anchors": ["manul/src/session/session.rs:RoundAccumulator::can_finalize", "manul/src/session/session.rs:RoundAccumulator::register_unprovable_error", "manul/src/session/tokio.rs:run_session"]}
{"id": "C10", "title": "The reported outcome reflects the reason for stopping", "statement": "SessionReport.outcome is Result(r) exactly if Round::finalize returned r, Terminated if the user terminated, NotEnoughMessages if the session was terminated because the round could not be finalized due to misbehaving nodes.", "quantifier": "every session, accumulator and driver run", "why_tests_cant": "All ways a session can end.", "anchors": ["manul/src/session/session.rs:Session::terminate", "manul/src/session/session.rs:Session::terminate_due_to_errors", "manul/src/session/transcript.rs:SessionOutcome"]}
{"id": "C11", "title": "Reports are complete and exact", "statement": "The final SessionReport contains every error recorded in any round (none lost, none invented, each attached to the same party) and, for each round, missing_messages lists exactly the expected parties from which no processed message had been added.", "quantifier": "every run, from the first round to any kind of termination", "why_tests_cant": "Needs an invariant over whole runs.", "anchors": ["manul/src/session/transcript.rs:Transcript::update", "manul/src/session/transcript.rs:SessionReport", "manul/src/session/session.rs:Session::terminate_inner"]}
{"id": "C12", "title": "The transcript never overwrites", "statement": "Recorded messages of a round are never overwritten or lost by later rounds; re-entering a round id already recorded is refused with LocalError.", "quantifier": "every transcript and every update", "why_tests_cant": "All histories.", "anchors": ["manul/src/session/transcript.rs:Transcript::update"]}
{"id": "C13", "title": "Only declared transitions are taken", "statement": "Successive round ids of a session are: the echo round of the current round, or a declared child of the (main) round; any other next round is refused with LocalError. Hence with an acyclic child relation no round id repeats and the transcript never refuses an update because of a repeated round.", "quantifier": "every protocol, every run", "why_tests_cant": "All protocols and runs.", "anchors": ["manul/src/session/session.rs:Session::finalize_round", "manul/src/protocol/round_id.rs:TransitionInfo", "manul/src/session/echo.rs:EchoRound::transition_info"]}
{"id": "C14", "title": "Delivery order does not matter", "statement": "For messages of distinct senders for the current round, any permutation of the delivery order yields the same payloads, recorded messages, errors, still-missing set and can_finalize answer.", "quantifier": "every list of messages from distinct senders and every permutation of it", "why_tests_cant": "n! schedules.", "anchors": ["manul/src/session/session.rs:Session::preprocess_message", "manul/src/session/session.rs:RoundAccumulator::add_processed_message"]}
{"id": "C15", "title": "Parallel processing is equivalent to sequential processing", "statement": "Interleaving preprocess_message and add_processed_message calls in any order allowed by par_run_session (each verified message added later, in any order) gives the same accumulator as processing each message to completion on arrival, for messages of distinct senders.", "quantifier": "every interleaving", "why_tests_cant": "All schedules of a concurrent driver.", "anchors": ["manul/src/session/tokio.rs:par_run_session", "manul/src/session/tokio.rs:run_session", "manul/src/session/session.rs:Session::process_message"]}
{"id": "C16", "title": "Cached messages are delivered, once, in the next round", "statement": "A message answered Cached is returned by finalize_round when the session enters the round it was sent for, exactly once, provided its sender has not been banned; messages for other rounds or from banned senders are not returned.", "quantifier": "every reachable accumulator, every transition", "why_tests_cant": "Histories spanning several rounds with early senders.", "anchors": ["manul/src/session/session.rs:Session::finalize_round", "manul/src/session/session.rs:filter_messages", "manul/src/session/session.rs:PreprocessOutcome"]}
{"id": "C17", "title": "Echo broadcast agreement", "statement": "If honest party B accepts honest party A's echo-round message, then for every party whose broadcast is covered by it, A and B hold byte-identical echo broadcasts of the round (assuming the hash has no collision between the two).", "quantifier": "every pair of states, every set of broadcasts, any behaviour of the other parties", "why_tests_cant": "Adversarial equivocation strategies are unbounded.", "anchors": ["manul/src/session/echo.rs:EchoRound::receive_message", "manul/src/session/echo.rs:EchoRound::make_normal_broadcast"]}
{"id": "C18", "title": "Echo round decision table", "statement": "EchoRound::receive_message classifies every pack: wrong parts / undecodable => the corresponding Invalid* error; missing or extra keys => unprovable; otherwise the first sender in key order whose entry has a bad signature or other metadata => InvalidEcho, or a different hash => MismatchedBroadcasts; otherwise accepted.", "quantifier": "every echo-round state, sender and pack", "why_tests_cant": "All packs.", "anchors": ["manul/src/session/echo.rs:EchoRound::receive_message"]}
{"id": "C19", "title": "Honest echo packs are never blamed", "statement": "If everyone involved sends each broadcast to all (no equivocation) and the communication graph is consistent, then the echo pack produced by an honest node is accepted by every honest node.", "quantifier": "every consistent configuration and broadcast contents", "why_tests_cant": "All configurations.", "anchors": ["manul/src/session/echo.rs:EchoRound::make_normal_broadcast", "manul/src/session/echo.rs:EchoRound::receive_message", "manul/src/session/session.rs:Session::new_for_next_round"]}
{"id": "C20", "title": "The echo round does not panic", "statement": "No incoming message makes the echo round panic (the internal expect on previously received broadcasts never fires) in sessions whose rounds were finalized on CanFinalize::Yes.", "quantifier": "every run and adversarial pack", "why_tests_cant": "Panic reachability under all inputs.", "anchors": ["manul/src/session/echo.rs:EchoRound::receive_message", "manul/src/session/session.rs:Session::finalize_round", "manul/src/protocol/dyn_round.rs:RoundWrapper::receive_message"]}
{"id": "C21", "title": "Recorded deserialization evidence verifies", "statement": "Whenever a message is refused because a part cannot be deserialized (or is present where none is allowed), the Evidence placed in the report verifies with Evidence::verify for the culprit.", "quantifier": "every typed protocol, round, and malformed message", "why_tests_cant": "All malformed payloads.", "anchors": ["manul/src/session/evidence.rs:Evidence::new_invalid_direct_message", "manul/src/session/evidence.rs:Evidence::verify", "manul/src/protocol/round_info.rs:RoundInfoObject", "manul/src/protocol/dyn_round.rs:RoundWrapper::receive_message"]}
{"id": "C22", "title": "Recorded protocol evidence re-presents the original messages", "statement": "Whenever a protocol error is recorded with well-formed required_messages, all framework checks of ProtocolEvidence::verify pass and ProtocolError::verify_evidence is called with exactly the messages the culprit sent (and the echo broadcasts everyone was bound to by the culprit's echo pack).", "quantifier": "every transcript reached by a run, every set of required messages present in it", "why_tests_cant": "All histories and requirement sets.", "anchors": ["manul/src/session/evidence.rs:Evidence::new_provable_error", "manul/src/session/evidence.rs:ProtocolEvidence::verify", "manul/src/protocol/evidence.rs:RequiredMessages"]}
{"id": "C23", "title": "Recorded mismatched-broadcast evidence verifies", "statement": "Whenever the echo round reports MismatchedBroadcasts, the recorded Evidence verifies and names the party both of whose signatures it contains.", "quantifier": "every reachable echo-round state and pack", "why_tests_cant": "All packs.", "anchors": ["manul/src/session/echo.rs:MismatchedBroadcastsError::verify_evidence", "manul/src/session/evidence.rs:Evidence::new_echo_round_error"]}
{"id": "C24", "title": "Recorded invalid-echo evidence verifies", "statement": "Whenever the echo round reports InvalidEcho, the recorded Evidence verifies.", "quantifier": "every reachable echo-round state and pack", "why_tests_cant": "All packs.", "anchors": ["manul/src/session/echo.rs:InvalidEchoError::verify_evidence", "manul/src/session/evidence.rs:InvalidEchoEvidence"]}
{"id": "C25", "title": "Invalid-message evidence cannot frame an honest party", "statement": "If Evidence of kind InvalidDirectMessage/InvalidEchoBroadcast/InvalidNormalBroadcast verifies against p, then p's key validates a signature over a part of that very kind whose payload is indeed invalid for the round; an honest p (which only signs parts produced by its rounds) can never be accused.", "quantifier": "every Evidence value, however constructed", "why_tests_cant": "Evidence may be forged arbitrarily.", "anchors": ["manul/src/session/evidence.rs:InvalidDirectMessageEvidence::verify", "manul/src/session/evidence.rs:InvalidEchoBroadcastEvidence::verify", "manul/src/session/evidence.rs:InvalidNormalBroadcastEvidence::verify"]}
{"id": "C26", "title": "Mismatched-broadcast evidence cannot frame an honest party", "statement": "If MismatchedBroadcasts Evidence verifies against p, then p signed two different echo broadcasts for the same session and round; an honest p can never be accused.", "quantifier": "every Evidence value, however constructed", "why_tests_cant": "Forged evidence.", "anchors": ["manul/src/session/echo.rs:MismatchedBroadcastsError::verify_evidence", "manul/src/session/message.rs:SignedMessageHash", "manul/src/session/evidence.rs:Evidence::verify"]}
{"id": "C27", "title": "Invalid-echo evidence cannot frame an honest party", "statement": "If InvalidEcho Evidence verifies against p, then p signed an echo pack containing an entry that is not a correctly signed hash for that session and round; an honest p can never be accused.", "quantifier": "every Evidence value, however constructed", "why_tests_cant": "Forged evidence.", "anchors": ["manul/src/session/echo.rs:InvalidEchoError::verify_evidence", "manul/src/session/evidence.rs:InvalidEchoEvidence::verify"]}
{"id": "C28", "title": "Protocol evidence is bound to the culprit, session and rounds", "statement": "If Evidence of kind Protocol verifies, then every message shown to ProtocolError::verify_evidence was signed by the guilty party (combined echos: by their originators and listed by hash in a pack signed by the guilty party), all under one session id and under the round each is filed for.", "quantifier": "every Evidence value, however constructed", "why_tests_cant": "Forged evidence.", "anchors": ["manul/src/session/evidence.rs:ProtocolEvidence::verify", "manul/src/protocol/evidence.rs:EvidenceMessages"]}
{"id": "C29", "title": "Errors are filed under the guilty party", "statement": "Each entry of SessionReport.provable_errors is keyed by the party its Evidence accuses (guilty_party).", "quantifier": "every run", "why_tests_cant": "All runs, including echo-round mismatches.", "anchors": ["manul/src/session/session.rs:RoundAccumulator::add_processed_message", "manul/src/session/transcript.rs:SessionReport", "manul/src/session/evidence.rs:Evidence::guilty_party"]}
{"id": "C30", "title": "Evidence accuses the party it proves guilty", "statement": "If Evidence::verify succeeds, the party returned by guilty_party is the one whose signatures the evidence exhibits.", "quantifier": "every Evidence value, however constructed", "why_tests_cant": "Forged evidence.", "anchors": ["manul/src/session/evidence.rs:Evidence::verify", "manul/src/session/evidence.rs:Evidence::guilty_party"]}
{"id": "C31", "title": "Message-part hashing is injective and domain separated", "statement": "Two message parts have the same hash preimage iff they are of the same kind and have the same payload (none and empty differ); the signed-digest preimage determines metadata and part hash for prefix-free metadata encodings, for hashes of any length.", "quantifier": "all kinds, payloads and metadata", "why_tests_cant": "All byte strings.", "anchors": ["manul/src/protocol/message.rs:ProtocolMessagePartHashable::hash", "manul/src/session/message.rs:message_digest"]}
{"id": "C32", "title": "SerializableMap round trip", "statement": "Serializing a map and deserializing gives the map back; a sequence of pairs deserializes iff its keys are distinct, and then to the map with exactly these pairs, whatever their order.", "quantifier": "all maps and all pair sequences", "why_tests_cant": "All sequences.", "anchors": ["manul/src/utils/serializable_map.rs:SerializableMap"]}
{"id": "C33", "title": "Round id algebra", "statement": "split_group inverts group_under, grouping is injective and preserves the echo flag, ids grouped under different groups never coincide, echo/non_echo are mutually inverse where defined and fail elsewhere.", "quantifier": "all round ids and groups", "why_tests_cant": "Unbounded nesting depth.", "anchors": ["manul/src/protocol/round_id.rs:RoundId"]}
{"id": "C34", "title": "Round ids print unambiguously", "statement": "Display for RoundId is injective (distinct round ids have distinct renderings).", "quantifier": "all pairs of round ids", "why_tests_cant": "Unbounded nesting depth.", "anchors": ["manul/src/protocol/round_id.rs:RoundId::fmt"]}
{"id": "C35", "title": "Linear transition infos are consistent", "statement": "new_linear(n)/new_linear_terminating(n) declare n+1 as the child of n and n-1 as its parent, so that consecutive linear rounds name each other; with_children and with_siblings change only their own field.", "quantifier": "all round numbers", "why_tests_cant": "All 256 numbers and arbitrary sets; overflow behaviour.", "anchors": ["manul/src/protocol/round_id.rs:TransitionInfo"]}
{"id": "C36", "title": "Acceptable simultaneous rounds", "statement": "simultaneous_rounds lists the echo id exactly if an echo round follows, and the parents otherwise, plus all siblings and children; it commutes with grouping, and the echo round's transition info keeps the main round's children.", "quantifier": "all transition infos", "why_tests_cant": "All transition infos.", "anchors": ["manul/src/protocol/round_id.rs:TransitionInfo::simultaneous_rounds", "manul/src/protocol/round_id.rs:TransitionInfo::echo", "manul/src/protocol/round_id.rs:TransitionInfo::group_under"]}
{"id": "C37", "title": "A chained protocol is the sequential composition", "statement": "Executing Chained(P1,P2) is executing P1, then P2 with inputs derived from P1's result: rounds, messages, payload handling and results agree step by step, and the result of the chain is the result of P2.", "quantifier": "all protocols P1, P2 and all executions", "why_tests_cant": "Refinement over all executions.", "anchors": ["manul/src/combinators/chain.rs:ChainedRound", "manul/src/combinators/chain.rs:ChainedEntryPoint"]}
{"id": "C38", "title": "Chained round ids do not clash and route evidence back", "statement": "Round infos and evidence checks of a chained protocol are delegated to the sub-protocol whose group the round id carries, with all ids ungrouped; rounds of the two sub-protocols never share an id.", "quantifier": "all round ids, evidence messages, nested chains", "why_tests_cant": "Unbounded nesting.", "anchors": ["manul/src/combinators/chain.rs:ChainedProtocol::round_info", "manul/src/combinators/chain.rs:RoundInfo1", "manul/src/combinators/chain.rs:RoundInfo2", "manul/src/protocol/round_id.rs:RoundId::group_under"]}
{"id": "C39", "title": "Chained transitions are declared", "statement": "If P1's rounds declare may_produce_result truthfully and only take declared transitions, the chained session never fails with 'Unexpected next round id', and the declared parent/child relation of the chained protocol is mutually consistent when those of P1 and P2 are.", "quantifier": "all protocols", "why_tests_cant": "All protocols.", "anchors": ["manul/src/combinators/chain.rs:ChainedRound::transition_info", "manul/src/combinators/chain.rs:ChainedRound::finalize"]}
{"id": "C40", "title": "Extending with no extensions changes nothing", "statement": "An ExtendableEntryPoint without extensions produces a session observationally equal to the original protocol's: same messages, same acceptance, same results; an extension of one round affects only that round's extended methods.", "quantifier": "all protocols of typed rounds, all executions", "why_tests_cant": "Bisimulation over all executions.", "anchors": ["manul/src/dev/extend.rs:ExtendableEntryPoint", "manul/src/dev/extend.rs:PassthroughRound", "manul/src/dev/extend.rs:ExtendedRound"]}
{"id": "C41", "title": "Honest asynchronous runs succeed", "statement": "If all parties run run_session honestly on a linear all-to-all protocol (with or without echo rounds) over an asynchronous network with arbitrary reordering across and within links, then no party ever records an error, bans anyone, drops a needed message or fails with a LocalError.", "quantifier": "every number of parties, every delivery schedule", "why_tests_cant": "Infinitely many schedules.", "anchors": ["manul/src/session/tokio.rs:run_session", "manul/src/session/session.rs:Session::preprocess_message", "manul/src/session/session.rs:Session::finalize_round", "manul/src/protocol/round_id.rs:TransitionInfo::simultaneous_rounds"]}
{"id": "C42", "title": "par_run_session's join phase cannot deadlock", "statement": "After the round's message loop ends, joining the message-creating and message-processing tasks always completes.", "quantifier": "every number of destinations and outstanding tasks, every schedule", "why_tests_cant": "Depends on more than 100 in-flight items and scheduling.", "anchors": ["manul/src/session/tokio.rs:par_run_session"]}
{"id": "C43", "title": "Cancelling loses no received message", "statement": "When a session is cancelled, a party whose message was received and verified is not reported as missing.", "quantifier": "every schedule of cancellation vs. processing", "why_tests_cant": "Schedules.", "anchors": ["manul/src/session/tokio.rs:par_run_session", "manul/src/session/tokio.rs:run_session"]}
{"id": "C44", "title": "The dev message queue neither loses nor duplicates nor reorders", "statement": "run_sync's queue returns every pushed message exactly once; in ordered mode the messages of each sender come out in the order pushed; run_sync never panics on an empty queue.", "quantifier": "every push/pop sequence and random choice", "why_tests_cant": "All sequences.", "anchors": ["manul/src/dev/run_sync.rs:Messages", "manul/src/dev/run_sync.rs:run_sync"]}
{"id": "C45", "title": "Messages are bound to their destination", "statement": "A direct message accepted by a node was created for that node.", "quantifier": "every message and every receiving node", "why_tests_cant": "Adversarial rerouting.", "anchors": ["manul/src/session/message.rs:Message", "manul/src/session/session.rs:Session::preprocess_message"]}
{"id": "C46", "title": "Required message parts are never empty", "statement": "RequiredMessageParts built through its API always names at least one part, and only the parts asked for are required, stored and re-verified.", "quantifier": "every sequence of builder calls", "why_tests_cant": "All builder sequences.", "anchors": ["manul/src/protocol/evidence.rs:RequiredMessageParts", "manul/src/session/evidence.rs:ProtocolEvidence"]}
{"id": "C47", "title": "Dining cryptographers result", "statement": "In the dining-cryptographers example all three parties compute the same answer for 'did a diner pay', equal to the XOR of the three paid flags, for all coin tosses.", "quantifier": "all tosses and flags, all delivery orders", "why_tests_cant": "Small but total; through the model's session semantics.", "anchors": ["examples/dining_cryptographers.rs:Round2::finalize"]}
{"id": "C48", "title": "Simple example result", "statement": "In the simple example with n parties every party finishes with the same result, the protocol's sum over all positions, as long as no u8 overflow occurs.", "quantifier": "all n", "why_tests_cant": "All n.", "anchors": ["examples/src/simple.rs:Round2::finalize"]}
{"id": "C49", "title": "A session's run is an execution of the protocol", "statement": "A run of a session that reports a result has executed the protocol from the round made by the entry point to that result: in every round the messages received are those of exactly the expected parties and signed by them, messages are made for exactly the destinations, and the round is finalized with what the round itself made of these messages.", "quantifier": "all protocols, all runs", "why_tests_cant": "Refinement over all runs and all protocols.", "anchors": ["manul/src/session/session.rs:Session::finalize_round", "manul/src/session/session.rs:Session::make_message", "manul/src/session/tokio.rs:run_session", "manul/src/protocol/dyn_round.rs:RoundWrapper"]}
{"id": "C50", "title": "Verifying evidence does not panic", "statement": "Verifying evidence received from another party does not panic: it succeeds, rejects the evidence, or returns a local error, and a local error comes only from the protocol's own checks or from encoding metadata.", "quantifier": "all protocols, all evidence, all shared data", "why_tests_cant": "The evidence is chosen by another party; all evidence of all protocols cannot be sampled.", "anchors": ["manul/src/session/evidence.rs:Evidence::verify", "manul/src/protocol/evidence.rs:NoProtocolErrors", "manul/src/protocol/evidence.rs:EvidenceMessages"]}
{"id": "C51", "title": "Chaining preserves completion", "statement": "If all parties executing the first protocol finish, and all parties executing the second one with the entry points made from any results of the first finish, then all parties executing the chained protocol over an asynchronous network finish without errors, with the results of the second protocol run on the results of the first.", "quantifier": "all pairs of protocols, all schedules, all numbers of parties", "why_tests_cant": "All protocols, joins and schedules; parties are in different parts of the chain at the same time.", "anchors": ["manul/src/combinators/chain.rs:ChainedRound", "manul/src/combinators/chain.rs:ChainedJoin", "examples/src/simple_chain.rs:DoubleSimpleProtocol"]}
{"id": "C52", "title": "The session parameters for tests are functional", "statement": "The hasher for tests computes the xor of 32-byte chunks, independently of how the data is split into updates, and its indexing never panics; signing and serializing succeed, a signature verifies under exactly the key of its signer, and what is serialized is deserialized to itself. They give no security: the hash has collisions and signatures do not bind the message.", "quantifier": "all data, all splits, all keys, all random sources", "why_tests_cant": "All data and all ways to split it.", "anchors": ["manul/src/dev/session_parameters.rs:TestHasher", "manul/src/dev/session_parameters.rs:TestSigner", "manul/src/dev/session_parameters.rs:TestVerifier"]}
{"id": "C53", "title": "run_sync of parties following the protocol returns everybody's results", "statement": "If all parties follow a cooperative protocol and somebody sends a message in the first stage, run_sync, for every order of the nodes and of the delivery of messages, terminates after a bounded number of deliveries without failing or panicking, and reports for exactly the given parties the results of an execution of the protocol, with nothing recorded against anybody; ExecutionResult::results returns these results, and for arbitrary reports the ids of the nodes without a result. In particular the tests and the example using run_sync in the repository cannot fail.", "quantifier": "all cooperative protocols, all numbers of parties, all random choices of run_sync", "why_tests_cant": "The delivery order is random; a test exercises one order per run, and one protocol.", "anchors": ["manul/src/dev/run_sync.rs:run_sync", "manul/src/dev/run_sync.rs:propagate", "manul/src/dev/run_sync.rs:ExecutionResult::results", "examples/src/simple.rs:tests", "examples/src/simple_chain.rs:tests", "examples/dining_cryptographers.rs:main"]}
{"id": "C54", "title": "Results do not depend on the schedule", "statement": "For a protocol that uses no random numbers, every party that finishes has the same result in all executions over the network and in all executions with run_sync, whatever the order in which messages are delivered and parties are scheduled.", "quantifier": "all cooperative protocols without randomness, all pairs of schedules", "why_tests_cant": "There are exponentially many schedules; comparing all of them is impossible.", "anchors": ["manul/src/session/tokio.rs:run_session", "manul/src/dev/run_sync.rs:run_sync", "manul/src/session/session.rs:RoundAccumulator"]}
{"id": "C55", "title": "Parties that follow the protocol are not blamed by each other, whatever the others send", "statement": "In a network with authenticated channels in which an arbitrary set of parties follows a protocol and the others put arbitrary messages on the wire at any time, no party that follows the protocol records an error (provable or not) or a missing message against another party that follows it, and the result of every party that finishes is one its last round returns for payloads made of the messages of the parties following the protocol and of arbitrary messages of the others.", "quantifier": "all protocols whose rounds accept the messages of the parties following them, all sets of such parties, all behaviours of the others, all schedules", "why_tests_cant": "The behaviours of malicious parties and the schedules are unbounded; the tests with misbehaving parties try a few specific messages.", "anchors": ["manul/src/session/session.rs:Session::preprocess_message", "manul/src/session/session.rs:RoundAccumulator", "manul/src/session/echo.rs:EchoRound::receive_message", "manul/src/session/tokio.rs:run_session"]}
{"id": "C56", "title": "Nothing is accepted in the name of a party that it has not sent", "statement": "In a network controlled by an adversary that can lose, duplicate, delay, redirect and recombine messages, attribute them to anybody and make up others, but cannot forge signatures of the parties that follow the protocol: whatever such a party accepts in a round in the name of another such party, the other party has sent in the round with the same id of the same session; the payloads its rounds are finalized with are made of such messages.  If no round can be repeated, the three parts come from one round visit of the sender.", "quantifier": "all protocols, all sets of parties following them, all behaviours of the adversary, all schedules", "why_tests_cant": "The adversary's behaviours are unbounded; tests try single forged or replayed messages.", "anchors": ["manul/src/session/message.rs:Message::verify", "manul/src/session/session.rs:Session::preprocess_message", "manul/src/session/session.rs:Session::finalize_round", "manul/src/session/tokio.rs:run_session"]}
{"id": "C57", "title": "Echo rounds guarantee agreement over a network controlled by an adversary", "statement": "In the network of C56, if two parties that follow the protocol are in the echo round of the same round (not necessarily at the same time), expect each other's echo message, and can finalize it, then they hold byte-identical broadcasts of every party whose broadcast both of them check (with all-to-all communication: of everybody), and the payloads they have made of messages of this party were made with this broadcast.", "quantifier": "all protocols, all sets of parties following them, all behaviours of the adversary including equivocation by the other parties, all schedules; collision-free hash on the broadcasts held, echo messages decode to what was encoded", "why_tests_cant": "Equivocation strategies combined with network schedules are unbounded.", "anchors": ["manul/src/session/echo.rs:EchoRound::make_normal_broadcast", "manul/src/session/echo.rs:EchoRound::receive_message", "manul/src/session/session.rs:Session::finalize_round"]}
{"id": "C58", "title": "run_async returns the results of parties following the protocol", "statement": "run_async of parties following a cooperative protocol (as in C41) never fails: the dispatcher finds a channel for every message and never sends to a party that has returned, no task records an error or fails, and the number of steps of all tasks is bounded. When nothing more can happen, all tasks have returned and run_async returns the reports of all parties, with the results of an execution of the protocol, whatever the scheduler and the dispatcher's random choices.", "quantifier": "all cooperative protocols, all sets of parties, all schedules of the tasks, all random choices of the dispatcher, channels with room for 100 messages", "why_tests_cant": "Deadlocks of bounded channels depend on the schedule and on the number of parties; tests run few parties with one schedule.", "anchors": ["manul/src/dev/tokio.rs:message_dispatcher", "manul/src/dev/tokio.rs:run_async", "manul/src/session/tokio.rs:run_session"]}
{"id": "C59", "title": "Partial participation in echo rounds: groups finish with the results of an honest execution", "statement": "In a protocol whose parties take part in echo rounds in different ways (send only, receive only, default, or no communication) as declared in CommunicationInfo, and whose parties declare matching sets of destinations, senders and echo participants and only send to those that must already have come so far as to accept the message, a group of parties following the protocol over a network that delays and reorders messages never records an error, always finishes, within a bounded number of steps, and returns the results of an execution of the protocol. This holds for the protocol of src/tests/partial_echo.rs with any matching inputs, and run_sync returns for it.", "quantifier": "all protocols, all matching patterns of communication, all parties, all schedules; both conditions on who may send to whom are shown to be necessary by witnesses", "why_tests_cant": "The test checks one pattern of five nodes with one kind of schedule; the patterns and the interleavings are unbounded.", "anchors": ["manul/src/protocol/round.rs:EchoRoundParticipation", "manul/src/session/session.rs:Session::new", "manul/src/session/session.rs:Session::terminate_inner", "manul/src/session/echo.rs:EchoRound", "manul/src/tests/partial_echo.rs:partial_echo"]}
{"id": "C60", "title": "A run of par_run_session is a run of the sequential driver", "statement": "If messages do not arrive twice for the same round, and a message of a party whose earlier message is being processed only arrives if the processing will succeed, then every report of par_run_session, through any number of rounds and for every order in which results of tasks reach the host task, is the report of a run through the rounds of run_session with the same messages: it contains exactly the errors recorded in its rounds and the parties not heard, and a reported result is that of an execution of the protocol.", "quantifier": "all protocols, all runs through any number of rounds, every interleaving of arrivals, processing results and created messages", "why_tests_cant": "All schedules of a concurrent driver over several rounds.", "anchors": ["manul/src/session/tokio.rs:par_run_session", "manul/src/session/tokio.rs:run_session", "manul/src/session/session.rs:Session::finalize_round"]}
{"id": "C61", "title": "Groups using par_run_session finish with the results of an honest execution", "statement": "In a group of parties that follow a protocol and use par_run_session over a network that delays and reorders messages, with results of the tasks creating and processing messages arriving in any order, nobody ever records an error or fails, the group always finishes, within a bounded number of steps, and the results are those of an honest execution of the protocol. When a round ends all messages have been processed, and with at most 100 other parties the join of the tasks always comes to its end.", "quantifier": "all protocols with matching patterns of communication, all parties, all schedules of the network and of the tasks", "why_tests_cant": "The tests run a few parties with few schedules; interleavings of tasks and messages are unbounded.", "anchors": ["manul/src/session/tokio.rs:par_run_session", "manul/src/dev/tokio.rs:run_async", "manul/src/session/session.rs:Session"]}
{"id": "C62", "title": "Evidence of typed protocol errors: what verify_evidence sees, and the protocol simple", "statement": "When a round rejects a message with a protocol error and the run got the earlier messages the error asks for, the error is recorded with evidence and without a local error. Verifying evidence from a report calls verify_evidence of that error, and the accessors of EvidenceMessages return exactly the parts asked for of the rejected message, of the messages earlier rounds accepted from that party, and of the echo broadcasts of the other parties. In the example protocol simple, whatever the other parties send, a message naming a wrong position is recorded as provable in both rounds, all evidence of a report verifies except that of an invalid echo, and other parties cannot make the methods of the rounds fail; evidence only verifies against parties that deviated.", "quantifier": "all typed protocols, all runs with arbitrary other parties, all evidence; for simple all sets of ids, wire formats and session parameters", "why_tests_cant": "The tests check one misbehaviour per protocol; the claims are about every message sequence and every error.", "anchors": ["manul/src/protocol/evidence.rs:EvidenceMessages", "manul/src/session/evidence.rs:Evidence::new_provable_error", "manul/src/session/evidence.rs:EvidenceEnum::verify", "manul/src/protocol/dyn_round.rs:BoxedReceiveError", "examples/src/simple.rs:Round1ProtocolError", "examples/src/simple.rs:Round2ProtocolError"]}
{"id": "C63", "title": "A party that sends wrong direct messages is blamed by everybody, and the misbehaviour checks detect it", "statement": "In a network of parties executing run_session, if one party, from some stage on, sends direct messages other than those of the protocol, and the others reject those of that stage with a provable error, then whatever the schedule: the network comes to rest after a bounded number of steps, every other party then has a report with exactly one error, a provable one of that party, nobody ever stops with a local error, and nothing is ever recorded against anybody else. run_sync returns these reports for every order of delivery. check_evidence accepts exactly the reports in which the target reports no provable error and all others report exactly one, of the target, with the description and verifying; check_evidence_with_extensions succeeds for such misbehaviour and fails if nobody misbehaves. In particular both tests of the example protocol simple pass for every order of delivery and any number of parties from 2 to 256, as long as the sums do not overflow.", "quantifier": "all cooperating protocols (schemes of communication), groups of parties, deviating parties and stages, schedules and orders of delivery; for simple all wire formats and session parameters", "why_tests_cant": "The tests run three parties with one random order of delivery per execution; the claim is about every schedule and every number of parties.", "anchors": ["manul/src/dev/misbehave.rs:extend_one", "manul/src/dev/misbehave.rs:check_evidence", "manul/src/dev/misbehave.rs:check_evidence_with_extensions", "manul/src/dev/misbehave.rs:check_evidence_with_extension", "manul/src/dev/run_sync.rs:run_sync", "examples/src/simple_test.rs:round1_attributable_failure", "examples/src/simple_test.rs:round2_attributable_failure"]}
{"id": "C64", "title": "Message methods left out of a round, and the protocols of the benchmarks", "statement": "A message method that a round does not implement may be relied upon exactly if the message type is NoMessage (for direct messages also if the artifact type is NoArtifact): it then produces no message, and otherwise the session ends with a local error as soon as the round has somebody to send messages to. The protocols of the benchmarks empty_rounds and async_session, executed by any number of nodes and rounds, with or without echo rounds, run to their end for every order of delivery and give everybody a result, so that the unwrap and assert in the benchmarks succeed.", "quantifier": "all typed protocols and choices of implemented methods; all numbers of nodes and rounds, session parameters, wire formats, random numbers and orders of delivery", "why_tests_cant": "The benchmarks are not run by the tests at all, and a run covers one number of nodes and one order of delivery.", "anchors": ["manul/src/protocol/round.rs:make_direct_message", "manul/src/protocol/round.rs:make_echo_broadcast", "manul/src/protocol/round.rs:make_normal_broadcast", "manul/src/protocol/round.rs:new_if_equals", "manul/benches/empty_rounds.rs:EmptyRound", "manul/benches/empty_rounds.rs:bench_empty_rounds", "manul/benches/async_session.rs:do_work", "manul/benches/async_session.rs:bench_async_session"]}
{"id": "C65", "title": "Type erasure is invisible: downcasts cannot fail, and extensions override exactly the methods of the rounds they are for", "statement": "Payloads, artifacts and rounds are boxed without their types. In every run of a session, whatever messages arrive, each round's finalize is called with payloads its own receive_message has returned and artifacts its own make_direct_message (or that of its extension) has returned, all of its own types, and with no downcast failing; the same holds inside chained protocols. Downcasting a box succeeds exactly for the type it was made of. The map of extensions filled by extend() holds under each round type the last extension registered for it, wrap_round never reaches its expect, and a session with extensions behaves exactly like one of the protocol whose rounds have the extensions' methods.", "quantifier": "all protocols with round types that have their own message, payload, artifact and error types; all sequences of registered extensions, session parameters, events and random numbers", "why_tests_cant": "The tests run a few protocols; a mismatch of types would be a run-time error in one state of one protocol.", "anchors": ["manul/src/protocol/dyn_round.rs:RoundWrapper", "manul/src/protocol/dyn_round.rs:downcast", "manul/src/protocol/dyn_round.rs:try_downcast", "manul/src/protocol/round.rs:new_if_equals", "manul/src/dev/extend.rs:extend_round", "manul/src/dev/extend.rs:wrap_round", "manul/src/dev/extend.rs:extend", "manul/src/combinators/chain.rs:finalize"]}
{"id": "C66", "title": "run_async with offload_processing: no task fails, it ends, and it returns everybody's report", "statement": "When run_async executes the sessions with offload_processing on, whatever the schedule of the parties, their processing tasks and the dispatcher, no task fails and nobody is blamed, the states are those possible over an asynchronous network, the number of steps is bounded, and when nothing more can happen all parties' reports are returned with the results of an execution of the protocol. Offloading makes no other outcomes possible than an asynchronous network does, and every schedule without offloading has a counterpart with it.", "quantifier": "all protocols, communication patterns, numbers of parties, session parameters, random numbers and schedules", "why_tests_cant": "The test executes three parties once with one schedule chosen by the runtime; channels fill up only with many parties and unlucky schedules.", "anchors": ["manul/src/dev/tokio.rs:run_async", "manul/src/dev/tokio.rs:message_dispatcher", "manul/src/session/tokio.rs:par_run_session", "examples/tests/async_runner.rs:async_run"]}
{"id": "C67", "title": "The state a session keeps is bounded by the number of parties and rounds", "statement": "Whatever messages arrive, and however many, the number of messages, parts of messages and errors that a session keeps in its accumulator and transcript is bounded by the number of the parties of the session, the number of rounds simultaneous with the current one and the number of rounds of the run. It keeps something of a party, or reports an error of it, only if a message has been given to it in the name of that party, and at most one message of a party for each simultaneous round is kept for later.", "quantifier": "all protocols, session parameters, sequences of messages with any contents and any senders, random numbers", "why_tests_cant": "Tests send a handful of messages from the parties of the session; a bound is a statement about all sequences of messages.", "anchors": ["manul/src/session/session.rs:preprocess_message", "manul/src/session/session.rs:RoundAccumulator", "manul/src/session/session.rs:cache_message", "manul/src/session/session.rs:register_unprovable_error", "manul/src/session/transcript.rs:update"]}
{"id": "C68", "title": "run_session sends one message to every destination of every round, one at a time, and a closed channel ends it", "statement": "However slowly the outgoing channel takes the messages, run_session gets into the same states and returns the same reports as a driver that sends all messages of a round at once, and the other way round. At any time, also after any error, exactly one message for every destination of every finished round has been sent, in order, and those for the first few destinations of the current round; each is signed by this party for this session, that round and that recipient. As long as the channel takes the messages, a round gets to the point where it waits for messages or to an error; if the channel has been closed, the run ends with an error, not with a report.", "quantifier": "all protocols, session parameters, schedules of the channel, sequences of incoming messages, random numbers", "why_tests_cant": "Tests use channels that are large enough and always open; the interleaving of the channel with the loop is never varied.", "anchors": ["manul/src/session/tokio.rs:run_session", "manul/src/session/tokio.rs:MessageOut"]}
{"id": "C69", "title": "par_run_session with slow or closed channels, failing tasks and cancellation", "statement": "However slowly the outgoing channel takes the messages, and whichever tasks fail or panic, par_run_session returns no other reports than with an ideal channel and tasks that do not panic. At any time exactly one message for every destination of every finished round has been sent and at most one for every destination of the current round; a report is returned only when all have been sent and no task has failed. It waits for others only when all results of its tasks have been received; a failure of a task ends the run at once, and so does a cancellation, whatever the driver is doing.", "quantifier": "all protocols, session parameters, schedules of the tasks and channels, sequences of incoming messages, random numbers", "why_tests_cant": "Tests use channels that are large enough and always open, tasks that succeed, and never cancel a run; schedules are those the runtime happens to choose.", "anchors": ["manul/src/session/tokio.rs:par_run_session", "manul/src/session/tokio.rs:run_session", "manul/src/session/tokio.rs:MessageOut"]}
{"id": "C70", "title": "Descriptions of evidence and printed reports tell the truth", "statement": "The description of a piece of evidence tells the kind of offence that the evidence proves, and for protocol errors the round and the text of the error; this also holds for evidence received from somebody else that verifies. SessionReport::brief has one line for the outcome and one for each party accused and each round with missing messages, and the outcome, who is accused of what, and who is missing in which round can be read back from it.", "quantifier": "all messages, errors, texts, pieces of evidence and reports", "why_tests_cant": "Tests compare a few descriptions by substring and never look at printed reports; they cannot show that no two different reports are printed alike, nor that no verified evidence has a misleading description.", "anchors": ["manul/src/session/evidence.rs:Evidence", "manul/src/session/echo.rs:InvalidEchoError", "manul/src/session/transcript.rs:SessionReport", "manul/src/session/transcript.rs:SessionOutcome", "manul/src/protocol/errors.rs:RemoteError"]}
{"id": "C71", "title": "run_async with messages made, sent and processed one at a time", "statement": "When the parties of run_async make, send and process their messages one at a time and the scheduler may switch between tasks at each of these points, nothing else is possible than when a party makes a whole round's messages at once, and everything that is possible then still is: no task fails and nobody is blamed, the number of steps is bounded, and when nothing more can happen the reports of all parties are returned with the results of an execution of the protocol.", "quantifier": "all cooperative protocols and communication patterns, all sets of parties, all schedules of the tasks, all random choices of the dispatcher, channels with room for 100 messages", "why_tests_cant": "Tests run three parties with the one schedule the runtime picks; interleavings within a round and full channels need many parties and unlucky schedules.", "anchors": ["manul/src/dev/tokio.rs:run_async", "manul/src/dev/tokio.rs:message_dispatcher", "manul/src/session/tokio.rs:run_session"]}
{"id": "C72", "title": "Those who send different broadcasts to different parties are found out", "statement": "In an open network where an adversary controls everything but the parties following the protocol: if the echo rounds of two parties following the protocol hold different broadcasts of some party, neither accepts the echo message of the other, so neither completes the round; if they expect broadcasts of the same parties, being given the other's echo message makes each record evidence that a party not following the protocol has signed two different broadcasts. Evidence recorded on the word of a party following the protocol never accuses one that does, convinces everybody, and stays in the report.", "quantifier": "all protocols with consistent round ids, session parameters, sets of parties, subsets following the protocol, behaviours of the adversary (replay, reordering, mixing parts, own signatures), executions", "why_tests_cant": "Tests have one cheating party in one fixed execution; they cannot range over adversaries that mix parts of different messages, nor show that honest parties are never accused.", "anchors": ["manul/src/session/echo.rs:EchoRound", "manul/src/session/session.rs:Session::finalize_round", "manul/src/session/session.rs:RoundAccumulator", "manul/src/session/evidence.rs:MismatchedBroadcastsEvidence"]}
{"id": "C73", "title": "How a party following the protocol can be accused", "statement": "In an open network where an adversary controls everything but the parties following the protocol: evidence in the report of a party following the protocol that accuses a party following the protocol is either filed under the name of the accused, who has then really sent a message in a round that is not an echo round which that round refused; or it is filed under the name of somebody not following the protocol and consists of the echo broadcast the accused has really made beside another hash signed by the accused for the same round. If signed hashes cannot be forged, that other hash is the one of the normal broadcast or of a direct message of the accused in the same round; so if signatures told the kind of what is signed, the second case could not occur.", "quantifier": "all protocols with consistent round ids, session parameters, sets of parties, subsets following the protocol, behaviours of the adversary, executions, reports and evidence in them", "why_tests_cant": "Tests cannot enumerate what an adversary can make out of signed parts; the claim is a complete list of the ways a false accusation can come about.", "anchors": ["manul/src/session/echo.rs:EchoRound", "manul/src/session/evidence.rs:MismatchedBroadcastsEvidence", "manul/src/session/message.rs:SignedMessageHash", "manul/src/session/session.rs:RoundAccumulator"]}
{"id": "C74", "title": "Messages and evidence survive being sent as bytes, and have one encoding", "statement": "In the binary wire format: a message (an evidence) that was serialized is deserialized to itself, whatever follows it; deserialization looks only at the bytes it consumes, and never consumes fewer bytes than serialization writes for the same value; different values have different encodings, none a prefix of another; evidence read from bytes gives the same verdict as the original; maps are read from their pairs in any order and refused if a key occurs twice. Every value is read from one byte string only.", "quantifier": "all messages, all evidence (all variants), all byte strings, all encodings of party identifiers that have these properties", "why_tests_cant": "The tests never deserialize a message or evidence; the claim is about all values and all byte strings.", "anchors": ["manul/src/dev/wire_format.rs:BinaryFormat", "manul/src/protocol/wire_format.rs:BoxedFormat::deserialize", "manul/src/session/message.rs:Message", "manul/src/session/evidence.rs:Evidence", "manul/src/utils/serializable_map.rs:SerializableMap"]}
{"id": "C75", "title": "What is proved about networks applies to chained protocols", "statement": "What the results about networks ask of a protocol (round ids not of echo rounds, no round its own descendant, no message without an echo broadcast accepted where an echo round follows, no errors of echo rounds returned by user code) holds of a chain exactly if it holds of both parts, so of protocols chained to any depth if it holds of the protocols they are made of; the example simple_chain has it. Running a protocol with extensions keeps the ids, the order of rounds and the errors; it keeps the insistence on echo broadcasts exactly if the protocol insists on them in all rounds whose messages may be echoed.", "quantifier": "all protocols, joins, nestings of chains, extensions, session parameters, open networks and executions", "why_tests_cant": "The tests run one chain of two copies of one protocol, with parties that follow it.", "anchors": ["manul/src/combinators/chain.rs:ChainedRound", "manul/src/protocol/round_id.rs:TransitionInfo", "manul/src/dev/extend.rs:ExtendableEntryPoint", "examples/src/simple_chain.rs"]}
{"id": "C76", "title": "Sessions executed at the same time do not interfere", "statement": "If the same parties, using the same keys in all of them, execute any number of sessions with different session ids at the same time, of any protocols, and an adversary controls everything else and can use what is sent in one session in the others, then every session by itself goes through an execution that an adversary could have brought about without the other sessions. In particular what a session accepts from a party following the protocol has been sent by it in the same session, and an accusation of such a party rests on what it has done in the same session. With equal session ids this is not so.", "quantifier": "all numbers of sessions, protocols, session parameters, parties, behaviours of the adversary and interleavings", "why_tests_cant": "The tests never run two sessions at the same time.", "anchors": ["manul/src/session/message.rs:MessageMetadata", "manul/src/session/session.rs:SessionId", "manul/src/session/session.rs:Session::preprocess_message"]}
{"id": "C77", "title": "What can be charged against a party following the protocol", "statement": "Consider parties executing any number of sessions with different ids with the same keys, and an adversary controlling everything else, who makes up evidence out of anything that was sent, without forging signatures. If the evidence is accepted against a party following its protocols, verified for whatever protocol, then it is one of these: a message the party has really sent in a main round of one of the sessions, which the protocol given to the verifier finds malformed; a correct echo message of the party; a normal broadcast that happens to be readable as a wrong echo message; an inconsistency of somebody else; an echo broadcast of the party beside the hash of a part of another kind it has sent in the same round; or messages the party has really sent, all in one session, which the protocol itself finds fault with. Evidence of malformed messages is refused if it is verified for the protocol of the session it is about; the crate does not make sure that it is.", "quantifier": "all protocols, numbers of sessions, behaviours of the adversary, interleavings and evidence", "why_tests_cant": "The tests verify evidence only in the protocol it was made in, and only evidence made by honest parties.", "anchors": ["manul/src/session/evidence.rs:Evidence::verify", "manul/src/session/evidence.rs:ProtocolEvidence::verify", "manul/src/session/evidence.rs:MismatchedBroadcastsEvidence", "manul/src/session/echo.rs:InvalidEchoError::verify_evidence"]}
{"id": "C78", "title": "Why a session blames a party without proof", "statement": "Every error without proof in the report of a session has its cause in messages given to the session in the name of the party: one refused because of what it contains (for a reason in the table of C02), one for a round for which the party had signed an earlier one, or one signed by the party for a round of the session and refused by that round. Conversely a party in whose name a message is refused is blamed in the report. A party in whose name nothing is given has no such error; and if only messages the party has signed for the session are given in its name, at most one for each round, then it has signed a message for a round not expected at that time or one that a round refuses. Without such authentication by the transport anybody can have any party blamed with a message nobody has signed.", "quantifier": "all protocols, entry points, runs and sequences of messages from anybody", "why_tests_cant": "The tests look at the reports of a few scripted wrong messages; that no other behaviour leads to blame needs all runs.", "anchors": ["manul/src/session/session.rs:Session::preprocess_message", "manul/src/session/session.rs:RoundAccumulator::add_processed_message", "manul/src/session/session.rs:RoundAccumulator::register_unprovable_error", "manul/src/session/transcript.rs:Transcript::update"]}
{"id": "C79", "title": "Where the evidence in a report comes from", "statement": "All evidence listed under a party in the report of a session is about a message given to the session in the name of this party, which the party has signed for a round of the session and which this round has refused. Everything else in the evidence (messages of earlier rounds, echo broadcasts of other parties, sets of hashes of echo rounds) was given to the session, signed by the party in whose name it was given for the round under which it is listed, or is the echo broadcast of the session itself; broadcasts under the own name are always the own ones. So no evidence is listed under a party that has signed nothing given to the session; evidence accusing another party than the one under which it is listed consists of the broadcast of the accused as given to the session and the hash of another one signed by the accused for the same round; and a session accuses its own party in this way only if this party has signed the hash of something it has not broadcast in the session.", "quantifier": "all protocols whose rounds do not return errors of echo rounds, all entry points, runs and sequences of messages from anybody", "why_tests_cant": "The tests produce evidence in a few scripted runs and check that it verifies; that evidence is never made from anything but what the parties have signed in the session needs all runs.", "anchors": ["manul/src/session/session.rs:RoundAccumulator::add_processed_message", "manul/src/session/session.rs:RoundAccumulator::register_provable_error", "manul/src/session/evidence.rs:Evidence::new_provable_error", "manul/src/session/evidence.rs:Evidence::new_echo_round_error", "manul/src/session/transcript.rs:Transcript::update"]}
{"id": "C80", "title": "If honest parties do not finish, somebody can be held responsible", "statement": "Some parties follow the protocol and the others send whatever they like, without sending different signed echo broadcasts in one round. Whenever all parties following the protocol have started, everything they have sent each other has arrived, and none of them can finish its round or give up, then all of them have ended with a result, or one of them has ended with a local error, or one of them is waiting for a message of a party that does not follow the protocol, or has ended with a report that has an entry against such a party. From every state of the network the parties following the protocol get to such a state in finitely many steps, whatever the order of the steps, unless the others go on sending. In particular no message between parties following the protocol is lost or refused, and they never wait for each other in a circle.", "quantifier": "all protocols following a plan of stages for the parties that follow it and returning results in the last stage only, all such sets of parties, all messages of the others, all orders of delivery", "why_tests_cant": "The tests run a few protocols with one deviating party and a fixed scheduler; that the parties following the protocol can only be stopped by somebody who can be named needs all behaviours of the others and all orders of events.", "anchors": ["manul/src/session/session.rs:RoundAccumulator::can_finalize", "manul/src/session/session.rs:Session::preprocess_message", "manul/src/session/session.rs:Session::terminate_due_to_errors", "manul/src/session/session.rs:RoundAccumulator::add_processed_message", "manul/src/session/session.rs:Session::finalize_round"]}
{"id": "C81", "title": "Honest parties are never more than one round apart", "statement": "A session takes messages of its own round and of the few rounds named by its transition info only. This is enough for parties following the protocol: nobody leaves a round before all parties following the protocol from which it expects messages are in this round; two running ones that expect messages from each other in all rounds have left the same rounds, or one of them has left the round the other one is in and otherwise the same rounds; and whenever a message from one of them reaches another one that is running, it is for the round the recipient is in, and is accepted, or for the one right after it, and is kept.", "quantifier": "the first two parts: all protocols in which no round can be repeated, all sets of parties following the protocol, all behaviours of a network controlled by an adversary that cannot forge their signatures; the rest: all protocols following a plan of stages, all sets of parties following it, all messages of the others (without equivocation), all orders of delivery", "why_tests_cant": "The tests deliver messages in a few random orders; that no order makes a message of an honest party come too early to be kept or too late to be used is a statement about all schedules and all behaviours of the others.", "anchors": ["manul/src/session/session.rs:Session::preprocess_message", "manul/src/session/session.rs:RoundAccumulator::can_finalize", "manul/src/protocol/round_id.rs:TransitionInfo::simultaneous_rounds", "manul/src/session/session.rs:Session::finalize_round"]}
{"id": "C82", "title": "The safety guarantees hold for par_run_session in any environment", "statement": "Whatever messages arrive and in whatever order the spawned tasks finish (also when a party sends further messages while an earlier one is still being processed, where par_run_session and run_session differ): par_run_session finalizes a round only with payloads of exactly the expected parties, computed from parts they have signed for this session and round, and with artifacts of exactly the destinations; evidence in its reports is filed under the party it accuses (except for mismatched broadcasts), and verifies if it is about malformed parts or mismatched broadcasts. In a network controlled by an adversary that cannot forge signatures of the parties following the protocol, what they accept from each other they have sent in that round, evidence against them is based on what they have sent, and two of them leaving the same echo round hold the same broadcasts.", "quantifier": "all protocols, messages, schedules of the spawned tasks, sets of parties following the protocol, and behaviours of the network", "why_tests_cant": "The tests run par_run_session with honest parties and the schedules of one tokio runtime; the statement is about all interleavings of tasks with messages chosen by an adversary.", "anchors": ["manul/src/session/tokio.rs:par_run_session", "manul/src/session/session.rs:Session::preprocess_message", "manul/src/session/session.rs:RoundAccumulator::add_processed_message", "manul/src/session/session.rs:Session::finalize_round", "manul/src/session/echo.rs:EchoRound::receive_message"]}
{"id": "C83", "title": "Those who send different broadcasts to users of par_run_session are found out, and how its users can be accused", "statement": "In an open network where an adversary controls everything but the parties following the protocol, who use par_run_session, whatever the order in which their spawned tasks finish: if the echo rounds of two of them hold different broadcasts of some party, neither accepts the echo message of the other; if they expect broadcasts of the same parties, the result of processing the other's echo message makes each record evidence that a party not following the protocol has signed two different broadcasts, and recorded evidence stays in the report. Evidence recorded on the word of a party following the protocol accuses one that does only over a message it has sent that was refused. Evidence in reports that accuses a party following the protocol is about a message it has really sent which was refused, or it has its echo broadcast beside the hash of its normal broadcast or of a direct message of the same round; if signatures told the kind of what is signed, only the former would be possible.", "quantifier": "all protocols with consistent round ids, session parameters, sets of parties, subsets following the protocol, schedules of the spawned tasks, behaviours of the adversary, executions, reports and evidence in them", "why_tests_cant": "The tests of par_run_session have no cheating parties, and cannot range over schedules and over what an adversary can make out of signed parts.", "anchors": ["manul/src/session/tokio.rs:par_run_session", "manul/src/session/echo.rs:EchoRound", "manul/src/session/session.rs:RoundAccumulator", "manul/src/session/evidence.rs:MismatchedBroadcastsEvidence", "manul/src/session/message.rs:SignedMessageHash"]}
{"id": "C84", "title": "Parties using par_run_session stay within one round of each other", "statement": "In an open network where an adversary controls everything but the parties following the protocol, who use par_run_session, whatever the order in which their spawned tasks finish: when a party can finalize its round, the parties following the protocol from which it expects messages have entered that round; two running parties that always expect messages from each other have left the same rounds, or one of them has in addition left exactly the round the other one is in. Every party of the network is in a state a run of par_run_session can get into, so what holds for single sessions holds for each of them.", "quantifier": "all protocols without repeated rounds, session parameters, sets of parties, subsets following the protocol, schedules of the spawned tasks, behaviours of the adversary, executions", "why_tests_cant": "Tests observe a few schedules of a runtime with honest parties; the bound is an invariant over all schedules and adversaries.", "anchors": ["manul/src/session/tokio.rs:par_run_session", "manul/src/session/session.rs:Session::finalize_round", "manul/src/session/session.rs:RoundAccumulator::can_finalize", "manul/src/session/session.rs:Session::preprocess_message"]}
{"id": "C85", "title": "Parties using par_run_session are not blamed by each other, whatever the others send", "statement": "In a network with authenticated channels in which an arbitrary set of parties follows a protocol, using par_run_session, and the others put arbitrary messages on the wire at any time, no party that follows the protocol records an error (provable or not) or a missing message against another party that follows it, whatever the order in which messages arrive and spawned tasks end. Every message of such a party that another one is processing will be accepted. The result of every party that finishes is one its last round returns for payloads made of the messages of the parties following the protocol and of arbitrary messages of the others.", "quantifier": "all protocols whose rounds make their direct messages and accept the messages of the parties following them, all sets of such parties, all behaviours of the others, all orders of delivery and of the results of the spawned tasks", "why_tests_cant": "The behaviours of malicious parties, the schedules of the runtime and the orders of delivery are unbounded; the tests run a few executions with one of them.", "anchors": ["manul/src/session/tokio.rs:par_run_session", "manul/src/session/session.rs:Session::preprocess_message", "manul/src/session/session.rs:RoundAccumulator::add_processed_message", "manul/src/session/echo.rs:EchoRound::receive_message"]}
{"id": "C86", "title": "If honest parties using par_run_session do not finish, somebody can be held responsible", "statement": "Some parties follow the protocol, using par_run_session, and the others send whatever they like, without sending different signed echo broadcasts in one round. Whenever all parties following the protocol have started, everything they have sent each other has arrived, none of their spawned tasks is left, and none of them can finish its round or give up, then all of them have ended with a result, or one of them has ended with a local error, or one of them is waiting for a message of a party that does not follow the protocol, or has ended with a report that has an entry against such a party. From every state of the network the parties following the protocol get to such a state in finitely many steps, whatever the order of deliveries and of the results of the tasks, unless the others go on sending.", "quantifier": "all protocols following a plan of stages for the parties that follow it, making their direct messages and returning results in the last stage only, all such sets of parties, all messages of the others, all orders of delivery and of the results of the spawned tasks", "why_tests_cant": "The tests run a few protocols with one deviating party under one runtime; that honest parties can only be stopped by somebody who can be named, and cannot go on forever, needs all behaviours of the others and all orders of events.", "anchors": ["manul/src/session/tokio.rs:par_run_session", "manul/src/session/session.rs:RoundAccumulator::can_finalize", "manul/src/session/session.rs:Session::terminate_due_to_errors", "manul/src/session/session.rs:Session::finalize_round"]}
{"id": "C87", "title": "run_async of arbitrary parties: what it returns, and when it cannot return any more", "statement": "Whatever the protocol and the parties do (they may misbehave, return early or send to strangers): as long as the dispatcher of run_async has not failed, the parties are in states possible over an asynchronous network that loses, duplicates and makes up nothing; the dispatcher fails only if a message is in transit to a party that has returned or to nobody; when it returns, every message ever made has reached the channel of its destination and all parties have returned; the reports run_async returns are those of an execution over such a network. Once a message is on the way to a party that has returned, or to nobody, run_async does not return reports any more, so that whether it returns can depend on the schedule.", "quantifier": "all protocols, groups of parties, schedules of the tasks, random choices of the dispatcher", "why_tests_cant": "Whether a message reaches a channel before its owner returns depends on the schedule; a test sees one.", "anchors": ["manul/src/dev/tokio.rs:message_dispatcher", "manul/src/dev/tokio.rs:run_async"]}
{"id": "C88", "title": "What a party using par_run_session holds against others comes from messages given to it", "statement": "Whatever messages arrive and in whichever order the tasks finish: every error without proof that a session run by par_run_session has recorded has its cause in a message given to it in the name of the party (refused because of its contents, repeated, or refused by a round although signed for it); all evidence is made of messages given to the session, signed by the parties for the rounds in which they are used, or of its own broadcasts; a party in whose name nothing was given is not blamed; a party that has an error, or whose refused message's processing result was received, is blamed in the report. Results of tasks still outstanding at the end of a round are lost, unlike with run_session.", "quantifier": "all protocols, session parameters, messages given to the session, orders of task completions, random choices", "why_tests_cant": "The claim is about every mixture of messages from arbitrary senders and every interleaving of arriving messages with finishing tasks.", "anchors": ["manul/src/session/tokio.rs:par_run_session", "manul/src/session/session.rs:preprocess_message", "manul/src/session/session.rs:add_processed_message", "manul/src/session/session.rs:finalize_round"]}
{"id": "C89", "title": "run_async with offload_processing of arbitrary parties", "statement": "Whatever the protocol and the parties do (they may misbehave, return early or send to strangers), if the parties use par_run_session: as long as the dispatcher of run_async has not failed, the parties are in states possible over an asynchronous network that loses, duplicates and makes up nothing; the dispatcher fails only if a message is in transit to a party that has returned or to nobody; when it returns, every message a host has received from its tasks has reached the channel of its destination and all parties have returned; the reports run_async returns are those of an execution over such a network. Adding the artifact of a message never fails. Once a message is on the way to a party that has returned, or to nobody, run_async does not return reports any more, so that whether it returns can depend on the schedule.", "quantifier": "all protocols, groups of parties, schedules of the tasks of the parties and their message tasks, random choices of the dispatcher", "why_tests_cant": "Whether a message reaches a channel before its owner returns depends on the schedule of all tasks; a test sees one.", "anchors": ["manul/src/dev/tokio.rs:message_dispatcher", "manul/src/dev/tokio.rs:run_async", "manul/src/session/tokio.rs:par_run_session"]}
{"id": "C90", "title": "Parties using run_session and par_run_session can be mixed", "statement": "If all parties follow a cooperative protocol over a network that delays and reorders messages arbitrarily, and every party uses run_session or par_run_session as it likes, then nobody ever records an error, misses a message or fails; the number of steps is bounded; when nothing more can happen everybody has returned a result; the results are those of an execution of the protocol in which everybody follows it; and every partial execution can be completed.", "quantifier": "all cooperative protocols, groups of parties, choices of the drivers, delays and orders of the messages, orders of the tasks", "why_tests_cant": "The tests run all parties with the same driver.", "anchors": ["manul/src/session/tokio.rs:run_session", "manul/src/session/tokio.rs:par_run_session"]}
{"id": "C91", "title": "Parties using either driver among parties that do not follow the protocol", "statement": "Let some parties follow a protocol, each using run_session or par_run_session as it likes, and let the others send anything they can. Then a party following the protocol never records anything against another one that does; the parties following it cannot go on forever by themselves, and once they are stuck all of them have results, or one has failed locally, or one waits for, or accuses in its report, a party that does not follow the protocol.", "quantifier": "all protocols that cope with arbitrary messages, groups of parties, sets of parties following the protocol, choices of the drivers, messages of the others, orders of delivery and of the tasks", "why_tests_cant": "The tests run all parties with the same driver, and misbehaviour is scripted.", "anchors": ["manul/src/session/tokio.rs:run_session", "manul/src/session/tokio.rs:par_run_session", "manul/src/session/session.rs:RoundAccumulator", "manul/src/session/echo.rs:EchoRound"]}
{"id": "C92", "title": "Parties using either driver in a network controlled by an adversary", "statement": "Let some parties follow a protocol, each using run_session or par_run_session as it likes, and let an adversary control the network and everybody else, with the only restriction that it cannot forge signatures of the parties following the protocol. Then what a party accepts from another one following the protocol was sent by it in the same round of the same session; two parties that have finished the same echo round hold the same broadcasts; evidence that accuses a party following the protocol is over a refused message of its own, or misquotes it; and two running parties that expect messages from each other are at most one round apart.", "quantifier": "all protocols (for echo rounds: with main-round ids and no repeated rounds), groups of parties, sets of parties following the protocol, choices of the drivers, adversaries, orders of the tasks", "why_tests_cant": "The tests run all parties with the same driver in a network that delivers every message to its recipient.", "anchors": ["manul/src/session/tokio.rs:run_session", "manul/src/session/tokio.rs:par_run_session", "manul/src/session/session.rs:Session::process_message", "manul/src/session/echo.rs:EchoRound"]}
{"id": "C93", "title": "Sessions executed at the same time with either driver do not interfere", "statement": "Let parties use the same keys in any number of sessions of any protocols, executed at the same time, using run_session in some and par_run_session in others, in a network controlled by an adversary who can use what is sent in one session in another. If no two sessions have the same id, every session by itself goes through an execution that is possible without the others, so that what C92 says of a session holds in the presence of others; with equal ids a session accepts messages of another.", "quantifier": "all families of sessions with different ids (any protocols, any number), sets of parties following the protocols, choices of the drivers, adversaries, interleavings", "why_tests_cant": "No test runs two sessions with the same keys, or uses both drivers.", "anchors": ["manul/src/session/message.rs:SignedMessagePart", "manul/src/session/session.rs:SessionId", "manul/src/session/tokio.rs:run_session", "manul/src/session/tokio.rs:par_run_session"]}
{"id": "C94", "title": "No diner learns which of the others paid", "statement": "In the example of the dining cryptographers, if every diner may have paid or not, then whatever the diners have done so far, a diner cannot tell which of the other two paid: there is an execution in which the other two have exchanged who paid, and in which the diner has the same coin, sends and receives the same messages, sees the same broadcasts of everybody, and everybody obtains the same result. These executions correspond one-to-one, so that equally many go with what the diner sees. With the entry point of the example this does not help, as only diner 0 ever pays.", "quantifier": "all executions of the three diners at any pace, all of their coins and payments, each diner as the observer", "why_tests_cant": "A test sees one execution at a time; the property is about what cannot be told apart.", "anchors": ["examples/dining_cryptographers.rs:Round1::make_direct_message", "examples/dining_cryptographers.rs:Round2::make_normal_broadcast", "examples/dining_cryptographers.rs:Round2::finalize", "examples/dining_cryptographers.rs:DiningEntryPoint::make_round"]}
{"id": "C95", "title": "What can be charged against a party using either driver", "statement": "Any number of sessions with different ids are executed at once over a network controlled by an adversary, every party using run_session or par_run_session in each of them as it likes. Whatever evidence is accepted by Evidence::verify, for whatever protocol, against a party following the protocols of its sessions, and whoever has made it up, is of one of the kinds listed in C77: it shows things the party has really sent, all in one session, unless it is the kind of evidence that does not compare the accused with the signer. Evidence of malformed messages is refused if it is verified for the protocol of the session it is about.", "quantifier": "all protocols, sessions, assignments of drivers to parties and sessions, behaviours of the adversary, and all evidence", "why_tests_cant": "Tests verify evidence made by the library in runs of one session; here the evidence is arbitrary, and so are the executions and the interleaving of drivers.", "anchors": ["manul/src/session/evidence.rs:Evidence::verify", "manul/src/session/echo.rs:MismatchedBroadcastsError::verify_evidence", "manul/src/session/echo.rs:InvalidEchoError::verify_evidence", "manul/src/session/tokio.rs:run_session", "manul/src/session/tokio.rs:par_run_session"]}
{"id": "C96", "title": "The evidence in a report convinces whoever reads it from bytes", "statement": "Any number of sessions with different ids are executed at once over a network controlled by an adversary, with either driver. If the report of a party following the protocol contains evidence of a malformed message, it is filed under the party it accuses, and whoever reads the evidence from its bytes and verifies it for the protocol of the session finds that party guilty. The same holds for evidence of different broadcasts against the party that has made them, and for evidence of a wrong echo message. Evidence of a protocol error gives whoever reads it the verdict of the protocol on exactly the parts it asked for. No bytes convince anybody that a party following the protocol is guilty, except in the ways of C95.", "quantifier": "all protocols, sessions, assignments of drivers, behaviours of the adversary, reports and evidence in them, descriptions, trailing bytes, and (for the last part) all bytes", "why_tests_cant": "Tests verify a few pieces of evidence where they were made; here they cross a network as bytes, and every report of every execution is covered.", "anchors": ["manul/src/session/evidence.rs:Evidence::verify", "manul/src/session/evidence.rs:Evidence", "manul/src/session/session.rs:Session::process_message", "manul/src/session/transcript.rs:SessionReport", "manul/src/dev/wire_format.rs:BinaryFormat"]}
