import json
S="manul/src/session/session.rs";M="manul/src/session/message.rs";T="manul/src/session/transcript.rs";E="manul/src/session/echo.rs";V="manul/src/session/evidence.rs";K="manul/src/session/tokio.rs";R="manul/src/protocol/round_id.rs";C="manul/src/combinators/chain.rs";PM="manul/src/protocol/message.rs";DR="manul/src/protocol/dyn_round.rs";RI="manul/src/protocol/round_info.rs";PE="manul/src/protocol/evidence.rs";SM="manul/src/utils/serializable_map.rs";RS="manul/src/dev/run_sync.rs";X="manul/src/dev/extend.rs";SI="examples/src/simple.rs";DI="examples/dining_cryptographers.rs"
P=[]
def p(title,statement,q,why,*anchors):
    P.append(dict(id="C%02d"%(len(P)+1),title=title,statement=statement,quantifier=q,why_tests_cant=why,anchors=list(anchors)))
p("Only authentic messages are accepted",
 "If preprocess_message answers ToProcess or Cached for a message attributed to `from`, then all three parts carry this session's id and one common round id, that id is the current round (ToProcess) or a declared simultaneous round (Cached), and all three signatures verify under `from`'s key for exactly those parts.",
 "every session state, accumulator, sender, and every (adversarial) message","The message is attacker-chosen; a test tries a handful of corruptions, not all byte strings, states and round ids.",
 S+":Session::preprocess_message",M+":Message::unify_metadata",M+":CheckedMessage::into_verified")
p("Preprocessing follows one decision table",
 "preprocess_message's outcome and its whole effect on the accumulator are determined by the documented sequence of checks (banned, metadata, session id, duplicate/cached/unexpected round, signature): exactly one outcome applies, each refusal other than 'banned' records exactly one unprovable error for the sender and changes nothing else, and a banned sender's message changes nothing at all.",
 "every session state, accumulator, sender and message","Covers the full product of conditions, including priorities between simultaneous failures.",
 S+":Session::preprocess_message",S+":RoundAccumulator")
p("Every payload a round is finalized with was signed by its owner",
 "In every execution of run_session, each payload handed to Round::finalize for party p is the result of receive_message on three message parts that were signed by p for this session and this round (including messages cached in an earlier round).",
 "every protocol, every sequence of incoming messages, every point of the run","Needs an invariant over unbounded adversarial histories, across rounds and through the cache.",
 K+":run_session",S+":Session::finalize_round",S+":Session::add_processed_message")
p("At most one message per party and round counts",
 "Within a round, once a payload (or an error) for a party is recorded it is never replaced or dropped by any later call, and the accumulator never holds two results of one party.",
 "every sequence of accumulator operations in a round","Histories of calls are unbounded and interleave arbitrarily.",
 S+":RoundAccumulator::add_processed_message",S+":RoundAccumulator::mark_processing")
p("finalize sees exactly the expected parties",
 "When can_finalize is Yes in any reachable accumulator, the payload map passed to Round::finalize has exactly the parties of expecting_messages_from as keys, and under run_session the artifact map has exactly message_destinations as keys.",
 "every reachable accumulator / run","Quantifies over all histories, including refused, erroneous and duplicate messages.",
 S+":RoundAccumulator::can_finalize",S+":Session::finalize_round",K+":run_session")
p("can_finalize answers are definitive",
 "Yes and Never are permanent: no later sequence of API calls on the same accumulator changes them; Yes is answered iff every expected party has a recorded payload, Never iff no further party can be recorded and someone expected has none.",
 "every reachable accumulator and every continuation","Permanence speaks about all continuations.",
 S+":RoundAccumulator::can_finalize",S+":CanFinalize")
p("Banned parties stay banned and are ignored",
 "Once a party has a provable or unprovable error recorded, every later message from it is answered Error and leaves the accumulator unchanged, in this and in all later rounds, and no message of it cached earlier is applied in a later round.",
 "every run prefix, every later message from the banned party","All continuations of all runs; the cache path crosses rounds.",
 S+":Session::preprocess_message",S+":Session::finalize_round",T+":Transcript::is_banned")
p("Remote parties cannot crash the local session",
 "If the local user code never returns LocalError and signing/serialization succeed, then no sequence of messages from other parties makes preprocess_message, add_processed_message, finalize_round or terminate return a LocalError; misbehaviour only shows up in the report.",
 "every adversarial message sequence","A test cannot enumerate adversarial schedules; the claim is universally quantified over them.",
 S+":Session::preprocess_message",S+":RoundAccumulator::add_processed_message",T+":Transcript::update")
p("A round with every missing party banned is not left hanging",
 "If each expected party without a payload is banned (so that none of its messages can ever be accepted), can_finalize answers Never rather than NotYet, so that the documented drivers terminate with a report.",
 "every reachable accumulator","Liveness over all continuations.",
 S+":RoundAccumulator::can_finalize",S+":RoundAccumulator::register_unprovable_error",K+":run_session")
p("The reported outcome reflects the reason for stopping",
 "SessionReport.outcome is Result(r) exactly if Round::finalize returned r, Terminated if the user terminated, NotEnoughMessages if the session was terminated because the round could not be finalized due to misbehaving nodes.",
 "every session, accumulator and driver run","All ways a session can end.",
 S+":Session::terminate",S+":Session::terminate_due_to_errors",T+":SessionOutcome")
p("Reports are complete and exact",
 "The final SessionReport contains every error recorded in any round (none lost, none invented, each attached to the same party) and, for each round, missing_messages lists exactly the expected parties from which no processed message had been added.",
 "every run, from the first round to any kind of termination","Needs an invariant over whole runs.",
 T+":Transcript::update",T+":SessionReport",S+":Session::terminate_inner")
p("The transcript never overwrites",
 "Recorded messages of a round are never overwritten or lost by later rounds; re-entering a round id already recorded is refused with LocalError.",
 "every transcript and every update","All histories.",
 T+":Transcript::update")
p("Only declared transitions are taken",
 "Successive round ids of a session are: the echo round of the current round, or a declared child of the (main) round; any other next round is refused with LocalError. Hence with an acyclic child relation no round id repeats and the transcript never refuses an update because of a repeated round.",
 "every protocol, every run","All protocols and runs.",
 S+":Session::finalize_round",R+":TransitionInfo",E+":EchoRound::transition_info")
p("Delivery order does not matter",
 "For messages of distinct senders for the current round, any permutation of the delivery order yields the same payloads, recorded messages, errors, still-missing set and can_finalize answer.",
 "every list of messages from distinct senders and every permutation of it","n! schedules.",
 S+":Session::preprocess_message",S+":RoundAccumulator::add_processed_message")
p("Parallel processing is equivalent to sequential processing",
 "Interleaving preprocess_message and add_processed_message calls in any order allowed by par_run_session (each verified message added later, in any order) gives the same accumulator as processing each message to completion on arrival, for messages of distinct senders.",
 "every interleaving","All schedules of a concurrent driver.",
 K+":par_run_session",K+":run_session",S+":Session::process_message")
p("Cached messages are delivered, once, in the next round",
 "A message answered Cached is returned by finalize_round when the session enters the round it was sent for, exactly once, provided its sender has not been banned; messages for other rounds or from banned senders are not returned.",
 "every reachable accumulator, every transition","Histories spanning several rounds with early senders.",
 S+":Session::finalize_round",S+":filter_messages",S+":PreprocessOutcome")
p("Echo broadcast agreement",
 "If honest party B accepts honest party A's echo-round message, then for every party whose broadcast is covered by it, A and B hold byte-identical echo broadcasts of the round (assuming the hash has no collision between the two).",
 "every pair of states, every set of broadcasts, any behaviour of the other parties","Adversarial equivocation strategies are unbounded.",
 E+":EchoRound::receive_message",E+":EchoRound::make_normal_broadcast")
p("Echo round decision table",
 "EchoRound::receive_message classifies every pack: wrong parts / undecodable => the corresponding Invalid* error; missing or extra keys => unprovable; otherwise the first sender in key order whose entry has a bad signature or other metadata => InvalidEcho, or a different hash => MismatchedBroadcasts; otherwise accepted.",
 "every echo-round state, sender and pack","All packs.",
 E+":EchoRound::receive_message")
p("Honest echo packs are never blamed",
 "If everyone involved sends each broadcast to all (no equivocation) and the communication graph is consistent, then the echo pack produced by an honest node is accepted by every honest node.",
 "every consistent configuration and broadcast contents","All configurations.",
 E+":EchoRound::make_normal_broadcast",E+":EchoRound::receive_message",S+":Session::new_for_next_round")
p("The echo round does not panic",
 "No incoming message makes the echo round panic (the internal expect on previously received broadcasts never fires) in sessions whose rounds were finalized on CanFinalize::Yes.",
 "every run and adversarial pack","Panic reachability under all inputs.",
 E+":EchoRound::receive_message",S+":Session::finalize_round",DR+":RoundWrapper::receive_message")
p("Recorded deserialization evidence verifies",
 "Whenever a message is refused because a part cannot be deserialized (or is present where none is allowed), the Evidence placed in the report verifies with Evidence::verify for the culprit.",
 "every typed protocol, round, and malformed message","All malformed payloads.",
 V+":Evidence::new_invalid_direct_message",V+":Evidence::verify",RI+":RoundInfoObject",DR+":RoundWrapper::receive_message")
p("Recorded protocol evidence re-presents the original messages",
 "Whenever a protocol error is recorded with well-formed required_messages, all framework checks of ProtocolEvidence::verify pass and ProtocolError::verify_evidence is called with exactly the messages the culprit sent (and the echo broadcasts everyone was bound to by the culprit's echo pack).",
 "every transcript reached by a run, every set of required messages present in it","All histories and requirement sets.",
 V+":Evidence::new_provable_error",V+":ProtocolEvidence::verify",PE+":RequiredMessages")
p("Recorded mismatched-broadcast evidence verifies",
 "Whenever the echo round reports MismatchedBroadcasts, the recorded Evidence verifies and names the party both of whose signatures it contains.",
 "every reachable echo-round state and pack","All packs.",
 E+":MismatchedBroadcastsError::verify_evidence",V+":Evidence::new_echo_round_error")
p("Recorded invalid-echo evidence verifies",
 "Whenever the echo round reports InvalidEcho, the recorded Evidence verifies.",
 "every reachable echo-round state and pack","All packs.",
 E+":InvalidEchoError::verify_evidence",V+":InvalidEchoEvidence")
p("Invalid-message evidence cannot frame an honest party",
 "If Evidence of kind InvalidDirectMessage/InvalidEchoBroadcast/InvalidNormalBroadcast verifies against p, then p's key validates a signature over a part of that very kind whose payload is indeed invalid for the round; an honest p (which only signs parts produced by its rounds) can never be accused.",
 "every Evidence value, however constructed","Evidence may be forged arbitrarily.",
 V+":InvalidDirectMessageEvidence::verify",V+":InvalidEchoBroadcastEvidence::verify",V+":InvalidNormalBroadcastEvidence::verify")
p("Mismatched-broadcast evidence cannot frame an honest party",
 "If MismatchedBroadcasts Evidence verifies against p, then p signed two different echo broadcasts for the same session and round; an honest p can never be accused.",
 "every Evidence value, however constructed","Forged evidence.",
 E+":MismatchedBroadcastsError::verify_evidence",M+":SignedMessageHash",V+":Evidence::verify")
p("Invalid-echo evidence cannot frame an honest party",
 "If InvalidEcho Evidence verifies against p, then p signed an echo pack containing an entry that is not a correctly signed hash for that session and round; an honest p can never be accused.",
 "every Evidence value, however constructed","Forged evidence.",
 E+":InvalidEchoError::verify_evidence",V+":InvalidEchoEvidence::verify")
p("Protocol evidence is bound to the culprit, session and rounds",
 "If Evidence of kind Protocol verifies, then every message shown to ProtocolError::verify_evidence was signed by the guilty party (combined echos: by their originators and listed by hash in a pack signed by the guilty party), all under one session id and under the round each is filed for.",
 "every Evidence value, however constructed","Forged evidence.",
 V+":ProtocolEvidence::verify",PE+":EvidenceMessages")
p("Errors are filed under the guilty party",
 "Each entry of SessionReport.provable_errors is keyed by the party its Evidence accuses (guilty_party).",
 "every run","All runs, including echo-round mismatches.",
 S+":RoundAccumulator::add_processed_message",T+":SessionReport",V+":Evidence::guilty_party")
p("Evidence accuses the party it proves guilty",
 "If Evidence::verify succeeds, the party returned by guilty_party is the one whose signatures the evidence exhibits.",
 "every Evidence value, however constructed","Forged evidence.",
 V+":Evidence::verify",V+":Evidence::guilty_party")
p("Message-part hashing is injective and domain separated",
 "Two message parts have the same hash preimage iff they are of the same kind and have the same payload (none and empty differ); the signed-digest preimage determines metadata and part hash for prefix-free metadata encodings, for hashes of any length.",
 "all kinds, payloads and metadata","All byte strings.",
 PM+":ProtocolMessagePartHashable::hash",M+":message_digest")
p("SerializableMap round trip",
 "Serializing a map and deserializing gives the map back; a sequence of pairs deserializes iff its keys are distinct, and then to the map with exactly these pairs, whatever their order.",
 "all maps and all pair sequences","All sequences.",
 SM+":SerializableMap")
p("Round id algebra",
 "split_group inverts group_under, grouping is injective and preserves the echo flag, ids grouped under different groups never coincide, echo/non_echo are mutually inverse where defined and fail elsewhere.",
 "all round ids and groups","Unbounded nesting depth.",
 R+":RoundId")
p("Round ids print unambiguously",
 "Display for RoundId is injective (distinct round ids have distinct renderings).",
 "all pairs of round ids","Unbounded nesting depth.",
 R+":RoundId::fmt")
p("Linear transition infos are consistent",
 "new_linear(n)/new_linear_terminating(n) declare n+1 as the child of n and n-1 as its parent, so that consecutive linear rounds name each other; with_children and with_siblings change only their own field.",
 "all round numbers","All 256 numbers and arbitrary sets; overflow behaviour.",
 R+":TransitionInfo")
p("Acceptable simultaneous rounds",
 "simultaneous_rounds lists the echo id exactly if an echo round follows, and the parents otherwise, plus all siblings and children; it commutes with grouping, and the echo round's transition info keeps the main round's children.",
 "all transition infos","All transition infos.",
 R+":TransitionInfo::simultaneous_rounds",R+":TransitionInfo::echo",R+":TransitionInfo::group_under")
p("A chained protocol is the sequential composition",
 "Executing Chained(P1,P2) is executing P1, then P2 with inputs derived from P1's result: rounds, messages, payload handling and results agree step by step, and the result of the chain is the result of P2.",
 "all protocols P1, P2 and all executions","Refinement over all executions.",
 C+":ChainedRound",C+":ChainedEntryPoint")
p("Chained round ids do not clash and route evidence back",
 "Round infos and evidence checks of a chained protocol are delegated to the sub-protocol whose group the round id carries, with all ids ungrouped; rounds of the two sub-protocols never share an id.",
 "all round ids, evidence messages, nested chains","Unbounded nesting.",
 C+":ChainedProtocol::round_info",C+":RoundInfo1",C+":RoundInfo2",R+":RoundId::group_under")
p("Chained transitions are declared",
 "If P1's rounds declare may_produce_result truthfully and only take declared transitions, the chained session never fails with 'Unexpected next round id', and the declared parent/child relation of the chained protocol is mutually consistent when those of P1 and P2 are.",
 "all protocols","All protocols.",
 C+":ChainedRound::transition_info",C+":ChainedRound::finalize")
p("Extending with no extensions changes nothing",
 "An ExtendableEntryPoint without extensions produces a session observationally equal to the original protocol's: same messages, same acceptance, same results; an extension of one round affects only that round's extended methods.",
 "all protocols of typed rounds, all executions","Bisimulation over all executions.",
 X+":ExtendableEntryPoint",X+":PassthroughRound",X+":ExtendedRound")
p("Honest asynchronous runs succeed",
 "If all parties run run_session honestly on a linear all-to-all protocol (with or without echo rounds) over an asynchronous network with arbitrary reordering across and within links, then no party ever records an error, bans anyone, drops a needed message or fails with a LocalError.",
 "every number of parties, every delivery schedule","Infinitely many schedules.",
 K+":run_session",S+":Session::preprocess_message",S+":Session::finalize_round",R+":TransitionInfo::simultaneous_rounds")
p("par_run_session's join phase cannot deadlock",
 "After the round's message loop ends, joining the message-creating and message-processing tasks always completes.",
 "every number of destinations and outstanding tasks, every schedule","Depends on more than 100 in-flight items and scheduling.",
 K+":par_run_session")
p("Cancelling loses no received message",
 "When a session is cancelled, a party whose message was received and verified is not reported as missing.",
 "every schedule of cancellation vs. processing","Schedules.",
 K+":par_run_session",K+":run_session")
p("The dev message queue neither loses nor duplicates nor reorders",
 "run_sync's queue returns every pushed message exactly once; in ordered mode the messages of each sender come out in the order pushed; run_sync never panics on an empty queue.",
 "every push/pop sequence and random choice","All sequences.",
 RS+":Messages",RS+":run_sync")
p("Messages are bound to their destination",
 "A direct message accepted by a node was created for that node.",
 "every message and every receiving node","Adversarial rerouting.",
 M+":Message",S+":Session::preprocess_message")
p("Required message parts are never empty",
 "RequiredMessageParts built through its API always names at least one part, and only the parts asked for are required, stored and re-verified.",
 "every sequence of builder calls","All builder sequences.",
 PE+":RequiredMessageParts",V+":ProtocolEvidence")
p("Dining cryptographers result",
 "In the dining-cryptographers example all three parties compute the same answer for 'did a diner pay', equal to the XOR of the three paid flags, for all coin tosses.",
 "all tosses and flags, all delivery orders","Small but total; through the model's session semantics.",
 DI+":Round2::finalize")
p("Simple example result",
 "In the simple example with n parties every party finishes with the same result, the protocol's sum over all positions, as long as no u8 overflow occurs.",
 "all n","All n.",
 SI+":Round2::finalize")
open('/verif/properties.jsonl','w').write(''.join(json.dumps(x)+'\n' for x in P))
print(len(P))
for x in P: print(x['id'],x['title'])
