# Formal model of manul in Lean 4 — design

Source: `/repo` (entropyxyz/manul, pinned commit), read as text. Model and proofs: `/verif/lean`.
Properties: `/verif/properties.jsonl` (C01…). Theorem names, status and what is missing per property: `/verif/MANIFEST.json`.
Theorems tried against wrong programs: `/verif/seeded/LOG.jsonl`.

## Layout

* `Verif/Model/*` — the model, one definition per function of the code, each citing file and lines. Nothing is assumed there.
* `Verif/Spec/*` — the specifications the theorems are stated with (authenticity, decision tables, executions of a protocol,
  what evidence shows, networks of honest parties, …) and the assumptions on cryptography and serialization as named
  predicates. They use the data types of the model, not its functions, wherever the property is not about a function itself.
* `Verif/Props/*` — the theorems named after the properties (`Cnn_…`) and, beside them, examples showing that the hypotheses
  can be met by concrete executions. `…_violation`: the property fails in the code; the theorem is the negation, with a
  concrete witness or for every instance. `…_partial`: only part of the property; the manifest says what is missing.
* `Verif/Lemmas/*` — proofs.

## Modelling decisions

* `BTreeMap`/`BTreeSet` become `BMap`/`BSet`: lists with strictly increasing keys (a structure carrying the sortedness
  proof), so that iteration order and equality are those of the Rust containers.
* Bytes are lists of `U8 = Fin 256`.
* The session parameters (`SessionParameters`: verifier ids, signer, signature, digest, wire format) are a structure `SP` of
  functions. Nothing is assumed about them in the model; each theorem that needs something (signing is correct, no collision
  between two given preimages, prefix-free metadata encoding, round trips) lists it as a hypothesis. Two instances are built:
  `toy` (used for concrete executions) and `testParams` (the parameters of the `dev` module), for which the operational
  assumptions are proved.
* A digest object is represented by the byte string it has absorbed; `verify_digest` gets that byte string.
* RNG: every consumer receives a value of an abstract type `Rng`; `fork i` gives what the i-th consumer sees. Statements
  quantify over all `Rng` values, and in reachability relations every step may bring a new one.
* A protocol is a *round machine* `Proto`: a type of round objects (`Box<dyn DynRound>`) with the methods of the `DynRound`
  trait as functions, and `Protocol::round_info`. Typed rounds (`RoundWrapper`), chained rounds and extended rounds are
  constructions producing such machines. The session is generic over the machine. The echo round is modelled explicitly as a
  second kind of round object.
* `LocalError` is an inductive type with one constructor per raising site (strings dropped); `panic!`, `expect`, indexing and
  overflow become error values of their own, so "no LocalError" and "no panic" are statements about results. When a `&mut`
  method returns `Err`, the modified value is not returned (all drivers abort on `Err`).
* Drivers (`run_session`, `par_run_session`, `run_sync`) are step machines or relations; the environment chooses the events,
  so "every schedule" is "every reachable state". A network of parties running `run_session` is a transition system whose
  steps are starting a party, a step of a party, and the delivery of any message in transit; for C55, C80, C85, C86 and C91 there is a further step,
  a party that does not follow the protocol putting any message on the wire under its own name. The messages of a round are
  sent together: if making one of them fails, the model sends none, whereas the code has already sent the previous ones
  (except for C56, C57, C72, C73, C82, C83 and C84, whose network allows both).
* For C56, C57, C72, C73, C82, C83, C84 and C92 the network belongs to an adversary (`Verif/Spec/Open.lean`, `ParOpen.lean`, `MixOpen.lean`): any message can be given to any party in anybody's
  name at any time; the only condition is `Unforged`: a part with a signature that verifies under the key of a party following
  the protocol, for this session, has been sent by that party in this execution. So a session id is used once, and signatures
  and the hash that is signed are ideal.
  For C76 any number of sessions are executed at once (`Verif/Spec/Multi.lean`), and what is signed has been sent in one of them.  For C77
  the same is required of what is signed in the evidence (`Verif/Spec/Charges.lean`).
* Where a property quantifies over an attacker, the attacker is arbitrary: messages, evidence and packs are arbitrary values of
  the model's types, not only those some party makes.

## What is modelled

| file in `/repo` | module | left out |
|---|---|---|
| `manul/src/protocol/round_id.rs` | `Model/RoundId` | `Debug` |
| `manul/src/protocol/message.rs`, `session/message.rs` | `Model/Message` | `Debug`, accessors |
| `manul/src/protocol/{round,dyn_round,round_info,dyn_evidence,errors}.rs` | `Model/Round`, `Model/Typed`, `Model/Erased` | `description()` strings (parameters in `Model/Describe`) |
| `manul/src/protocol/round.rs:147-217` (default message methods) | `Model/Defaults` | the texts of the errors |
| `manul/src/protocol/evidence.rs` | `Model/Round`, `Model/Typed` | `description()` |
| `manul/src/session/session.rs` | `Model/Session` | `SessionId::random` |
| `manul/src/session/{transcript,evidence}.rs` | `Model/Evidence`, `Model/Session`, `Model/Describe` (descriptions, `brief()`) | `Debug` |
| `manul/src/session/echo.rs` | `Model/Echo`, `Model/Evidence` | `Debug` |
| `manul/src/session/tokio.rs` | `Model/Driver`, `Model/MixNet` (a network of parties using either driver), `Model/Send` (the sequential driver one message at a time, with a slow or closed outgoing channel), `Model/Par`, `Model/ParSend` (the parallel driver one message at a time, with a slow or closed channel and tasks that fail or panic) | tracing |
| `manul/src/combinators/chain.rs` | `Model/Chain` | `Debug` |
| `manul/src/dev/extend.rs` | `Model/Extend`, `Model/Erased` | |
| `manul/src/dev/run_sync.rs` | `Model/RunSync` | the distribution of random choices |
| `manul/src/dev/misbehave.rs` | `Model/Misbehave` | the texts of errors and descriptions (a predicate on evidence stands for the check of the description) |
| `examples/src/simple_test.rs` | `Model/SimpleTest` | |
| `manul/src/dev/tokio.rs` | `Model/RunAsync` (a round's messages are made at once), `Model/RunAsyncSend` (one at a time), `Model/RunAsyncPar` (with `offload_processing`) | sessions are created when their tasks start; a receiver is dropped when its task returns |
| `examples/tests/async_runner.rs` | `Props/RunAsyncPar` (`C66_simple_partial`) | |
| `manul/src/dev/session_parameters.rs` | `Model/TestParams` | the RNG behind signing is any source of numbers |
| `manul/src/dev/wire_format.rs` (`BinaryFormat`, i.e. postcard) | `Model/Codec` (what the session itself serializes), `Model/Wire` (`Message`, `Evidence`) | lengths and enum tags unbounded; `HumanReadableFormat` |
| `manul/src/utils/serializable_map.rs` | `Model/Message` (`collectUnique`), `Model/Codec` | size hints |
| `examples/src/simple.rs` | `Model/Simple` | serialization of its messages is a parameter |
| `examples/src/simple_chain.rs` | `Model/SimpleChain` | |
| `examples/dining_cryptographers.rs` | `Model/Dining` | printing |
| `manul/src/tests/partial_echo.rs` (the protocol and its inputs) | `Model/PartialEcho` | serialization of its messages is a parameter |
| `manul/benches/{empty_rounds,async_session}.rs` (the protocols) | `Model/Bench` | `round_info` (`unimplemented!()`), measuring |

Not modelled: tracing, memory and time, tokio's scheduler fairness, `Debug`/`Display` except for `RoundId`, evidence and reports, the compile-time
mechanics of type erasure, the wire formats of user messages, and the tests
themselves.

## Trusted base

* Lean's kernel (`vcheck` replays every module), and the axioms of Lean's standard library listed per theorem below
  (`propext`, `Quot.sound`, `Classical.choice`). No axioms of our own, no `sorry`, no `native_decide`, no `bv_decide`.
* The faithfulness of the hand translation. Each definition cites what it translates, and simplifications are stated there.
* The hypotheses named in the theorems. The cryptographic ones are in `Verif/Spec/Assumptions.lean`.

## Disagreements between the code and the properties

Each is a theorem (name in parentheses); the positive part is proved beside it.

1. `terminate_due_to_errors` passes the wrong flag: the outcome is `Terminated`, and `NotEnoughMessages` is never reported
   (`C10_…violation`).
2. `InvalidEcho` evidence compares the metadata of the echoed hash (main round) with that of the pack (echo round), which always
   differ: every honest pack is evidence against its honest sender (`C27_framing_violation`), and entries signed for another
   round are refused by the verifier's own rules (`C24_invalid_echo_violation`).
3. `MismatchedBroadcasts` evidence names a party inside that is not compared with `guilty_party` (`C30_…violation`).
4. `MismatchedBroadcasts` evidence is filed under the party that sent the pack, not the one that equivocated
   (`C29_misfiled_violation`).
5. The kind of a part is not visible in a `SignedMessageHash`: the hash of a normal broadcast passes as one of an echo broadcast,
   and honest parties are framed (`C26_framing_violation`), also in the reports of other honest parties (`C72_framing_violation`; `C73_kind_confusion` shows that this is the only way).
6. The destination of a message is neither signed nor checked (`C45_…violation`).
7. `preprocess_message` does not check that the sender is expected: a verified message of another party makes
   `add_processed_message` fail with a `LocalError` (`C08_…violation`).
8. A message kept for a later round is not marked as being processed there; a repeated copy aborts the session (C08).
9. Entering an echo round does not filter the kept messages of banned parties (C07, C16, C08).
10. Messages kept for a child or sibling round are dropped on entering the echo round (`C16_dropped_violation`).
11. A ban by `preprocess_message` does not remove the party from the set of missing ones: the round stays `NotYet` for ever
    (`C09_violation`, `C09_hang`).
12. `par_run_session` deadlocks if more than 100 results are outstanding when it joins its tasks (C42) and drops processed
    results on cancellation (`C43_violation`), so that a party whose message the round refuses is not blamed (`C88_dropped_violation`;
    with `run_session` it is, `C88_immediate`).
13. `run_sync` panics if no party sends anything at the start (`C44_no_messages_violation`), for parties following the protocol
    exactly if nobody sends anything at all (`C53_panic_exact`), so always with a single party (`C53_simple_alone`); in ordered mode `Messages::len` is
    the number of senders, so "… more in the queue" in the log is not the number of messages (`C44_len`).
14. `new_linear(255)` overflows (`C35_overflow_violation`); the example protocol overflows from 17 parties on
    (`C48_overflow_violation`).
15. Evidence of a chained protocol that mentions rounds of the other part gives `EvidenceError::Local` instead of
    `InvalidEvidence` (`C38_foreign`).
16. `simultaneous_rounds` omits the parents when an echo round follows; the first round of the second protocol of a chain does
    not name a parent in the first (`C39_join_violation`).
17. The echo round's `expect` can fire for rounds that declare `Receive` with `NoMessage` as echo broadcast
    (`C20_no_message_violation`).  `C20_exact` gives the exact condition: a message can make the echo round fail if and only if the
    broadcast of some expected party other than its sender is missing.
18. With overlapping processing a duplicate leaves a party with both a payload and an error (C04).
19. `ExtendableEntryPoint` cannot extend a chained protocol (`C40_dynamic_violation`).
20. `may_produce_result` is not enforced by sessions; an undeclared result inside a chain gives "Unexpected next round id"
    (`C39_undeclared`).
21. A required previous part that was empty is not recorded, and `new_provable_error` fails with a `LocalError` (C08, C22).
22. A session without destinations signs empty parts, which verify as evidence against it (`C25_no_destinations_violation`).
23. Honest parties of a protocol that is not all-to-all can record errors against each other, since only the adjacent rounds are
    accepted (`C41_one_way_violation`).
24. `NoProtocolErrors` can be deserialized from anything and panics in `verify_evidence`; the verifier of received evidence can
    be made to panic (C50).
25. A party that sends different echo broadcasts makes parties following the protocol blame each other: the party that reports the
    difference is the one recorded (`C55_violation`, the network version of 4); it can make all of them end with reports that
    accuse only each other (`C80_equivocation`); it is the same with `par_run_session` (`C85_violation`, `C86_equivocation`) and when the drivers are mixed (`C91_violation`, `C91_equivocation`).  The example protocol does not check the position
    in a message; one message makes a receiver panic if overflow checks are on (`C55_panic_violation`).
26. `run_async` can deadlock with 52 or more parties (102 in protocols with a single round without echo broadcasts): the
    dispatcher waits for room in the channel of a party that itself waits for room in the channel of the dispatcher
    (`C58_deadlock_violation`, `C71_deadlock_violation`, `C58_deadlock_one_round_violation`); `offload_processing` changes nothing about that
    (`C66_deadlock_violation`, `C66_deadlock_one_round_violation`).  With `offload_processing` a party that sends messages to more
    than 100 others in a first round in which it expects none never returns (`C66_silent_violation`, the network version of the
    deadlock of C42).
27. Parties that declare `Receive` and exchange echo messages without hearing from each other in the main round blame each other
    if one is a round ahead: its echo message arrives too early (`C59_judges_violation`).
28. A party that declares `Send` goes on to the next round while its receivers are still in the echo round; its next message,
    which they have kept, is dropped when they enter the echo round (10), and the group never finishes (`C59_leaver_violation`).
29. `verify_evidence` of the example protocol accepts every message of the right type (its comments say that the check is left
    out): the message of a party following the protocol is evidence against it (`C62_simple_frames_violation`).
30. The error of `check_evidence` for several provable errors (`misbehave.rs:75-78`) gives the length of the joined descriptions
    instead of the number of errors; and a provable error in the report of the target panics (`misbehave.rs:59`) instead of returning
    an error (`C63_check_panics`).  Texts are not modelled.
31. All benchmarks fail: `EmptyRound` declares an `EchoBroadcast` type but does not implement `make_echo_broadcast`
    (`empty_rounds.rs:86`, `async_session.rs:101`), so the default method returns a local error when its session is created
    (`C64_no_echo_violation`, `C64_async_violation`), and `EmptyRoundWithEcho` is followed by `EmptyRound`
    (`empty_rounds.rs:185`, `C64_echo_violation`).  The benchmarks of `run_async` ignore the error and measure nothing else.  With
    `NoMessage` as the type they would run to their end (`C64_results_partial`).
32. Nothing checks that a sender is a party of the session before its message is cached or an error is recorded for it
    (`session.rs:300-394`): outsiders with keys of their own make a session keep, and report, arbitrarily much
    (`C67_unbounded_violation`).
33. `par_run_session` joins its tasks only after the loop of a round (`tokio.rs:340-354`) and keeps senders of their channels itself:
    a creation task that fails, or a processing task that panics, is not noticed until the round ends for another reason, possibly
    never (`C69_failure_violation`); `run_session` returns the error at once.
34. Neither driver watches the cancellation while it waits for the outgoing channel (`tokio.rs:99-105, 297-306, 362-366`): with a
    channel nobody empties a cancelled run does not end (`C69_cancel_violation`).
35. The description is a part of `Evidence` that is sent along and not covered by `Evidence::verify` (`evidence.rs:30-34, 200-210`):
    evidence that verifies can be described as anything (`C70_description_violation`).  The description of a protocol error has only
    the round number (`evidence.rs:52, 103`), which does not tell apart the stages of a chain (`C70_round_violation`).  `brief()`
    prints texts as they are: one with a line break forges an accusation of somebody else (`C70_brief_violation`).
36. Deserializers are not asked whether anything is left (`protocol/wire_format.rs:83-90`, `session/message.rs:30-36`), and postcard
    accepts lengths written with more bytes than needed: a value has many encodings (`C74_trailing_violation`,
    `C74_padded_violation`), and anybody can change the bytes of a signature so that it still verifies
    (`C74_signature_violation`).  What is signed is unaffected.
37. Evidence does not tell which protocol it is about, and `Evidence::verify` (`session/evidence.rs:200-210`) is not told the session
    or compares anything with its id: what a party has correctly sent in a session of one protocol can be accepted as malformed
    when the verifier is given another protocol (`C77_other_protocol_violation`).  `C77_charges` lists everything else that can be
    charged against a party following the protocol.
38. `preprocess_message` (`session/session.rs:300-394`) records an error for the party named as the sender before any signature is
    checked, and its documentation does not say that the caller has to authenticate the sender: anybody who can give a session a
    message in the name of a party gets it banned for the rest of the session, with a message that nobody has signed (`C78_anybody`).
    `C78_authenticated` says what remains if the transport does authenticate.
39. `message_dispatcher` (`dev/tokio.rs:49-61`) fails when the destination of a message has returned, whereas `run_sync` drops such
    a message (`dev/run_sync.rs:225-250`).  So with parties that do not wait for everybody who sends to them, or that stop early
    because somebody misbehaves, `run_async` returns an error in some schedules although all parties return reports (`C87_late`,
    `C87_single_late`, `C87_hasty`, `C89_late`, `C89_hasty`).

## Proof method per property

| id | modelled | proof |
|----|----------|-------|
| C01 | `Session.preprocess` | case analysis against an independent authenticity predicate |
| C02 | same | equality with a separately written decision table |
| C03 | driver | invariant over all reachable states |
| C04 | accumulator ops | invariant and monotonicity over lists of operations; negations for overlapping processing |
| C05 | accumulator, driver | invariant |
| C06 | accumulator | characterisation, permanence over lists of operations |
| C07 | session, driver | monotonicity; the echo transition fails: witness |
| C08 | session | witnesses; classification of all failing steps, with the exact condition (`C08_exact`), for protocols whose methods do not fail under an invariant of their rounds |
| C09 | accumulator | general hang theorem; positive part for processed senders |
| C10 | session | direct; negation |
| C11 | driver | invariant over runs |
| C12 | transcript | direct |
| C13 | session | direct, induction along runs |
| C14, C15 | accumulator, parallel driver | commutation of operations, permutation induction |
| C16 | session | exact description of the returned list; witnesses |
| C17–C20 | echo round | loop lemmas, agreement at the level of rounds and of runs |
| C21–C24 | evidence creation and verification | completeness: what runs record verifies |
| C25–C30 | evidence verification | exact characterisations, soundness against honest sessions; framing theorems |
| C31–C36 | encodings, round ids | injectivity and round trips |
| C37–C39 | chain combinator | refinement of executions in both directions; witness for the join |
| C40 | extension combinator | bisimulation |
| C41 | network of sessions | inductive invariant over the network; termination measure; deadlock freedom |
| C42, C43 | join phase of `par_run_session` | transition system; deadlock above capacity, progress below; a balance of accepted, pending and added messages gives exactly who is reported missing (`C43_exact`) |
| C44 | `run_sync` | multiset and order invariants of the queue; witness |
| C45 | session, open network | negation; what is left (sent by its sender in this round, to somebody) is a corollary of C56 |
| C46 | builder API | closure induction |
| C47, C48 | example protocols | instances of C41 with an invariant on round objects |
| C49 | driver | refinement of runs to executions of the protocol |
| C50 | evidence verification | case analysis: local errors only come from the checks of the protocol |
| C51 | network of parties executing a chain | every history of the chain splits into histories of its parts; the chain is cooperative, so C41 applies; when exactly it panics: the party started first of two that communicate cannot have finished (`C53_panic_exact`) |
| C52 | test parameters | induction over the data |
| C53 | `run_sync` of a group | simulation: each step of `run_sync` is a sequence of steps of the network (dropped messages stay in transit), so C41 applies |
| C54 | pairs of executions | histories of a protocol without randomness agree stage by stage |
| C55 | network with arbitrary parties | inductive invariant over the network: what honest parties have sent and stored is what their histories contain; messages of others are constrained only by what was accepted |
| C56 | open network | inductive invariant over the network with an adversary: what is stored or cached satisfies unforgeability, what was sent comes from rounds the senders have visited |
| C57 | open network | C56's invariant gives the genuineness assumption of C17; echo round ids occur once in a run |
| C58 | `run_async` | refinement: the channels and the dispatcher hold the messages in transit of the network of C59, up to order; at most two messages per party are in transit to a party, so 51 parties never fill a channel; potential function; an explicit schedule that ends in a deadlock for any larger number of parties |
| C59 | network of sessions with partial participation | the invariant of C41 generalised to schemes (`Spec/Scheme`); C41, C53, C54, C58 are stated for or follow from schemes; witnesses for the two conditions |
| C60 | `par_run_session` over several rounds | simulation: the local parts of the accumulator, the outstanding tasks applied, are those of the sequential driver; induction over orderly runs to `Ends` |
| C61 | network of `par_run_session` | refinement to the network of C59 with deliveries at any time: simulation of every party (C60), messages in transit and unsent ones are those in transit there up to order; potential function for all steps; C42 for the join |
| C62 | typed errors, accessors of `EvidenceMessages`, `simple` | C22 composed with the typed wrappers; rounds of `simple` with arbitrary other parties by induction on visited rounds; C08 instantiated with an invariant of its rounds |
| C63 | network with one deviating party, `run_sync`, `misbehave.rs` | simulation by the network in which nobody deviates and the messages of the deviating party from that stage on are never delivered; the scheme of C41 for extended protocols; the extended party as a deviating one; `simple` as an instance |
| C64 | default methods of `Round`, protocols of the benchmarks | calculation on the typed wrappers; invariant "the round cannot be followed by another" along `Reach`; the benchmarks as a plan of C41 |
| C65 | rounds with their own types, boxes, extensions of round types | `FinalizeArgs` of C05 read backwards through the wrappers; simulation of sessions whose round objects are represented differently (`Lemmas/Reshape`) |
| C66 | `run_async` with `offload_processing` | refinement to the network of C61, in which the parties that have joined their tasks have already finalized, for all random numbers they may take; simulation of the schedules of C58 (`Lemmas/RunAsyncSim`), by which its deadlocks carry over |
| C67 | what a session keeps | invariant of runs whose messages come in the name of parties of a set (`Lemmas/Bound`), counting of keys; a flood of messages by induction on their number with the decision table of C02 |
| C68 | sending one message at a time | invariant relating every state of the fine-grained driver to one of the coarse driver with outputs (`SendInv` in `Lemmas/Send`), and the converse simulation |
| C69 | the parallel driver with slow channels and failing tasks | refinement invariant to `Model/Par` (`PSInv`), permutations of commuting artifact insertions, counting of destinations (`SentNow`), a decreasing measure within a round; witnesses by evaluation |
| C70 | descriptions and printed reports | the report as joined lines (`reportLines`), injectivity of joining and of rows by cutting at separators; witnesses by evaluation |
| C71 | `run_async`, one message at a time | simulation in both directions between this model and the one of C58 (`SAsync.Sim`), with a potential function for the steps that do not show; C58's theorems and deadlocks carry over |
| C72 | open network, echo rounds | C56's invariant extended by where recorded evidence comes from; exhaustive verdict on the echo message of an honest sender; framing by a dishonest one: witness |
| C73 | open network, evidence in reports | C72's invariant; the verdict on the message the evidence was recorded for; the broadcast held of an honest party is the one it made |
| C74 | messages and evidence as bytes | compositional: every combinator of codecs keeps `Codec.Exact`; UTF-8 from Lean's library |
| C75 | network results for chained and extended protocols | induction on the nesting; paths in the graph of rounds of a chain stay in a part or go from the first to the second |
| C76 | several sessions at once, with the same keys | every step of one session is one of the open network with that session alone; packets carry the id of their session (`OpenInv.own`) |
| C77 | evidence made up by anybody out of what was sent in several sessions | case analysis of `Evidence::verify` over C25–C28; C76 and `OpenInv.own` for what was sent, `OpenInv.unique` for the hashes, `honest_pack` for echo messages |
| C78 | runs with the list of messages given to the session (`ReachVia`) | induction over the run; the invariant `CauseInv` relates errors, the set of processing and the cache to earlier messages; C02 for the causes, C07 for the converse |
| C79 | runs with the list of messages given to the session (`ReachVia`), evidence with its origin (`Traced`) | induction over the run; the invariant `TraceInv` relates the evidence and all stored parts to messages given; cached messages by the invariant of C78 |
| C80 | network with arbitrary parties, states in which the parties following the protocol are stuck (`Stalled`) | the invariant of C55, extended: every message between them is on the wire, has been received or kept, or its recipient has ended; strong induction on the number of rounds entered by the party that waits; reports by the structure of runs (C10, C11); termination by the lexicographic order of the rounds the parties may still enter and the number of packets in transit |
| C81 | the networks of C56 (first two parts) and of C55 | C05 and C56 for the first part; induction over the steps of the network for the second: a party leaves a round only when the others have entered it, and no party has left a round the other one enters now; for the rest the invariant of C55: no party enters a position before the ones it expects have entered the one before, and messages on the wire are not for earlier positions than the recipient's |
| C82 | `ParAny` (all event sequences of `par_run_session`) and the network of C56 with parties using `par_run_session` | the rounds of such a run are those of C03/C05 except for the order of operations; the invariants of the accumulator (`RInv`, `QInv`) are kept by every operation, the tasks carry messages found authentic when they were taken in; from there on as for C03, C05, C21, C23, C29, C56 and C57 |
| C83 | `ParRefused`, `ParMisquoted` (`Verif/Spec/ParAccused.lean`), the network of C82 | the arguments of C72 and C73 on the invariant of C82: the sessions of a party have distinct round ids, so a signed part determines the session it was made in; `C83_caught` is about the event with which the result of a task comes back, and `C83_kept` follows the evidence through the operations of the accumulator. As in C72_framing_violation, evidence filed under the name of somebody not following the protocol can accuse a party that does |
| C84 | `ParHasEntered`, `ParAlwaysExpects` (`Verif/Spec/ParLockStep.lean`), the network of C82 | as for C81 on the invariant of C82: what a party can finalize with was signed for that round, so whoever sent it has been there |
| C85 | the network of C55 with parties using `par_run_session` (`Verif/Spec/ParByzantine.lean`), without failing creation tasks (`DirectsMade`, `EnvOk`) | simulation (`PSim`): every state of this network corresponds to a state of the network of C55 with the invariant of C55 in which the messages being processed are still on the wire, and those still to be sent are already on it, compared as multisets; what a party had to send or to process when it ended with an error is left over; each step corresponds to one step, to none, or to a step after taking some cached messages back to the wire |
| C86 | the same network, states in which the parties following the protocol are stuck and have no tasks left (`PStalled`) | C80 for the corresponding state; reports by the structure of runs of `par_run_session` (C82); termination by the lexicographic order of the rounds the parties may still enter and the weighted number of packets, tasks and unsent messages |
| C87 | `run_async` (`AsyncStep`) of any group of parties | simulation by the network for as long as the dispatcher has not failed; a message that cannot be passed on stays on the way until the dispatcher fails; a group with a schedule that returns and one that cannot; `C87_single_late` and `C87_single_settled` for parties that make, send and process one message at a time (`SAsyncStep`) |
| C88 | runs of `par_run_session` in an arbitrary environment with the messages given to them (`ParVia`) | the invariants of C78 and C79, which do not depend on the driver, and an invariant for the messages in processing tasks; `C88_dropped_violation` by evaluation |
| C89 | `run_async` with `offload_processing` (`PAsyncStep`) of any group of parties | as for C87, with the network of C61; the destinations of the creation tasks left and of the artifacts added are all different |
| C90 | network of parties using either driver (`MixStep`) | a party using `run_session` is one using `par_run_session` that has nothing left to do, so the invariant of C61 applies; `C90_sequential` and `C90_parallel`: if all parties use the same driver, the network is that of C41 and that of C61 |
| C91 | network of parties using either driver among arbitrary ones (`MixByzStep`) | as for C90: the simulation of C85 and C86 covers a party using `run_session`, seen as one that does its tasks at once; `C91_sequential` and `C91_parallel`: if all parties use the same driver, the network is that of C55 and that of C85; `C91_violation`: somebody who equivocates makes a party using one driver blame one using the other |
| C92 | open network of parties using either driver (`MixOpenStep`) | refinement: a network with fewer restrictions than both drivers (`LooseStep` in `Lemmas/ParOpen.lean`: a party is in any round it can be in and applies any operations of the parallel accumulator) includes the network of C82 to C84 and this one, the messages a party using `run_session` processes at once being delivered and completed; the invariants of C82, C83 and C84 are proved for it (`Lemmas/Loose.lean`); `C92_sequential` and `C92_parallel`: if all parties use the same driver, the network is that of C56 and that of C82; `C92_caught` and `C92_caught_parallel`: a party that gets or completes an echo message disagreeing with its own broadcasts records an error, whichever driver it and the other party use (one step of the driver, the message being authentic by the invariant) |
| C93 | several sessions at once with either driver (`MixMultiStep`) | as for C76: what has been sent in a session has its id in all signed parts (invariant of C92), so by induction over the execution of all sessions each of them takes steps of the network of C92; `C93_sequential`: with `run_session` everywhere these are the executions of C76 |
| C94 | executions of the dining cryptographers (`Honest` of C41) and what a diner sees of them (`SameView`) | a map on executions that exchanges the payments of the other two diners and turns the coin they share if these differ; by induction it yields executions, and applied twice it gives back the first one; `C94_network` links it to the results in a network of C41 (the two executions are histories of C41, not states of sessions: signatures and random numbers are not part of the view) |
| C95 | executions of several sessions with either driver (C93), arbitrary evidence, `MixChargeable` | as C77, from the invariant of C92 for every session and the facts about what a session signs and holds in any round of either driver; `C95_sequential`: the same as C77 if nobody uses `par_run_session` |
| C96 | the same, and the encoding of evidence (C74) | the origin of evidence in a report (invariant of C92), the lemmas of C21, C22, C23 and C24 about evidence made from a message, and the round trip of C74; partial for wrong echo messages, for the reason of C24 (`C24_invalid_echo_violation`) |

## Axioms per theorem

None:
C33_group_keeps, C35_new.

`propext`:
C31_digest_injective, C31_domains_separated, C31_session_id, C33_echo_injective, C33_group_echo, C33_group_injective, C33_group_of_split, C33_split_of_group, C34_display_injective, C38_nested_injective, C46_builder.

`Quot.sound`, `propext`:
C31_digest_injective_fixed_length, C31_part_hash_injective, C31_part_preimage_injective, C32_accepts_iff_distinct, C32_echo_message_round_trip, C32_exact, C32_order_irrelevant, C32_round_trip, C33_echo, C33_non_echo, C33_split_fails_iff, C38_nested_disjoint, C42_deadlock_destinations_violation, C42_deadlock_processing_violation, C42_join_completes_partial, C47_untraceable, C52_forgery, C52_operations, C52_other_key, C52_tampering, C52_update_append, C64_work, C64_work_overflow.

`Classical.choice`, `Quot.sound`, `propext`:
C01_cached_authentic, C01_to_process_authentic, C02_decision_table, C02_exactly_one_row, C02_outcome_determined, C03_finalize_signed, C03_payload_signed, C04_error_never_dropped_partial, C04_error_permanent_partial, C04_error_replaced_violation, C04_evidence_permanent, C04_one_message_counts, C04_payload_and_error_violation, C04_payload_or_evidence, C04_payload_permanent, C05_finalize_keys, C05_payload_keys, C06_characterisation, C06_never_permanent, C06_yes_permanent, C07_echo_violation, C07_ignored, C07_no_payload_partial, C07_permanent_in_round, C07_permanent_in_run, C08_banned_twice_violation, C08_cached_duplicate_violation, C08_cached_unexpected_violation, C08_exact, C08_new, C08_no_crash_partial, C08_outsider_violation, C08_run_partial, C08_step_partial, C08_unexpected_violation, C09_exact, C09_hang, C09_processed_partial, C09_violation, C10_errors_violation, C10_never_reported_violation, C10_result_partial, C10_terminate, C11_every_report, C11_not_heard, C11_report_exact, C12_refuses, C12_run, C12_update_keeps, C13_declared, C13_never_refused, C13_no_repetition, C13_undeclared_refused, C14_order_independent, C15_completion, C15_parallel_equals_sequential, C15_sequential_equals_parallel, C16_banned_violation, C16_dropped_violation, C16_exact_partial, C16_returned_partial, C17_agreement, C17_mutual, C17_runs, C18_table, C18_unique, C19_delivered, C19_honest_pack, C19_regular, C20_complete, C20_exact, C20_no_local_error, C20_no_message_violation, C20_no_panic_partial, C20_typed, C21_malformed_verifies, C21_recorded, C22_represents, C23_mismatched_verifies, C24_invalid_echo_partial, C24_invalid_echo_violation, C25_direct_iff, C25_echo_iff, C25_no_destinations_violation, C25_no_framing_partial, C25_normal_iff, C26_framing_violation, C26_mismatched_iff, C26_no_framing_partial, C26_two_broadcasts_partial, C27_framing_violation, C27_invalid_echo_iff, C27_no_framing_partial, C28_bound, C29_filed_partial, C29_misfiled_violation, C30_signed_partial, C30_unchecked_violation, C30_wrong_party_violation, C31_digest_layout, C31_part_layout, C31_session_id_layout, C35_consecutive, C35_linear, C35_linear_terminating, C35_overflow_violation, C35_with_children, C35_with_siblings, C36_commutes_with_grouping, C36_echo_transition, C36_simultaneous, C37_chain_executions, C37_entry, C37_first_failures, C37_refusals, C37_second_executions, C37_second_failures, C37_session, C38_delegation, C38_disjoint, C38_foreign, C38_no_other, C38_required, C38_required_only, C39_declared, C39_join_violation, C39_local_ok, C39_relation_partial, C39_result_exact, C39_session_expects, C39_undeclared, C40_default_extensions, C40_dynamic_violation, C40_evidence, C40_extended_is_overridden, C40_local, C40_no_extensions, C40_one_extension, C41_finishes, C41_no_errors, C41_one_way_violation, C41_results, C41_terminates, C42_exact, C43_exact, C43_lost, C43_parallel_partial, C43_sequential_partial, C43_violation, C44_any_next, C44_drains, C44_exactly_once, C44_len, C44_no_messages_violation, C44_panic_exact, C44_pop_panics, C44_reports, C44_run_sync_panic_partial, C44_sender_order, C45_destination_ignored, C45_origin_partial, C45_violation, C46_stored, C46_verified, C47_agreement, C47_answer, C47_finishes, C47_free, C47_result, C48_finishes, C48_overflow_violation, C48_result, C48_terminates, C49_prefix_is_execution, C49_result_is_execution, C50_accessors, C50_chain, C50_honest_violation, C50_local_errors, C50_no_errors_violation, C50_no_panic_partial, C50_typed, C51_cooperative, C51_double_simple, C51_double_simple_finishes, C51_finishes, C51_results, C51_terminates, C52_collision, C52_digest, C52_digest_length, C52_in_bounds, C52_not_injective, C53_dining, C53_double_simple, C53_execution_results, C53_outcome, C53_panic_exact, C53_refines, C53_reports, C53_reports_exact, C53_results, C53_returns, C53_simple, C53_simple_alone, C53_terminates, C54_network, C54_run_sync, C55_all_honest, C55_dining, C55_no_blame_partial, C55_no_echo, C55_panic_violation, C55_results_partial, C55_simple_partial, C55_violation, C56_finalizing, C56_integrity, C56_together, C57_agreement, C57_everybody, C57_payloads, C58_deadlock_one_round_violation, C58_deadlock_violation, C58_no_failure, C58_refines, C58_returns_partial, C58_silent, C58_terminates, C59_finishes, C59_judges_violation, C59_leaver_violation, C59_no_errors, C59_partial_echo, C59_partial_echo_returns, C59_partial_echo_test, C59_results, C59_terminates, C60_exact, C60_execution, C60_report, C60_running, C61_completes, C61_finishes, C61_join, C61_no_errors, C61_results, C61_terminates, C62_accessors, C62_recorded, C62_simple_detects, C62_simple_frames_violation, C62_simple_local, C62_simple_overflow_violation, C62_simple_run_partial, C62_simple_verifies, C63_blamed, C63_check, C63_check_panics, C63_detects, C63_detects_returns, C63_extend_one, C63_honest, C63_no_other, C63_reports, C63_simple, C63_simple_honest, C63_simple_returns, C63_sync, C63_sync_returns, C63_terminates, C64_async_partial, C64_async_violation, C64_default_broadcasts, C64_default_direct, C64_echo_violation, C64_implemented, C64_missing_broadcast, C64_missing_direct, C64_no_echo_violation, C64_results_partial, C64_returns_partial, C65_chain_first, C65_chain_second, C65_downcast, C65_downcast_round, C65_extended, C65_extended_finalize, C65_finalize, C65_no_message, C65_part_round_trip, C65_register, C65_typed, C65_wrap_round, C66_deadlock_one_round_violation, C66_deadlock_violation, C66_no_failure, C66_refines, C66_returns_partial, C66_sequential_partial, C66_silent_violation, C66_simple_partial, C66_terminates, C67_bounded_partial, C67_cache, C67_errors_violation, C67_flood_violation, C67_report, C67_senders_only, C67_simple_partial, C67_unbounded_violation, C68_complete, C68_failed, C68_once, C68_progress, C68_refines, C68_sent, C69_bounded, C69_cancel_ignored, C69_cancel_partial, C69_cancel_violation, C69_complete, C69_failure_fatal, C69_failure_unnoticed, C69_failure_violation, C69_local_error, C69_progress, C69_refines, C69_sent, C70_brief_partial, C70_brief_violation, C70_description_violation, C70_kind, C70_lines, C70_protocol_round, C70_protocol_text, C70_round_partial, C70_round_violation, C70_same_evidence, C70_unverified, C71_covers, C71_deadlock_one_round_violation, C71_deadlock_violation, C71_no_failure, C71_refines, C71_returns_partial, C71_terminates, C72_caught, C72_convinces, C72_framing_violation, C72_kept, C72_no_blame, C72_not_accepted, C72_recorded, C72_report, C72_verdict, C73_accused, C73_if_kinds_were_signed, C73_kind_confusion, C74_duplicates, C74_evidence, C74_evidence_injective, C74_evidence_trailing_violation, C74_map, C74_message, C74_message_injective, C74_padded_violation, C74_refuses, C74_signature_violation, C74_trailing_violation, C74_verdict, C75_acyclic, C75_chain_iff, C75_extend, C75_extend_not_strict, C75_extend_strict_iff, C75_mainIds, C75_nested, C75_network, C75_noEchoErr, C75_simple_chain, C75_strict, C76_accused, C76_distinct_needed, C76_independent, C76_integrity, C77_charges, C77_other_protocol_violation, C77_own_protocol, C78_anybody, C78_authenticated, C78_blamed, C78_cause, C78_cause_running, C78_refused_blamed, C78_silent, C79_accused, C79_held, C79_self, C79_silent, C79_traced, C79_traced_running, C80_accountable, C80_always, C80_dining, C80_equivocation, C80_rest, C80_settles, C80_simple, C80_stops, C80_success, C80_waits, C81_apart, C81_behind, C81_entered, C81_rounds, C81_window, C82_agreement, C82_filed, C82_finalize, C82_finalizing, C82_integrity, C82_invalid_echo, C82_malformed_verifies, C82_mismatched_verifies, C82_report, C82_represents, C82_stored, C83_accused, C83_caught, C83_if_kinds_were_signed, C83_kept, C83_kind_confusion, C83_no_blame, C83_not_accepted, C83_recorded, C83_report, C83_verdict, C84_behind, C84_entered, C84_rounds, C84_runs, C85_dining, C85_no_blame_partial, C85_no_echo, C85_results_partial, C85_simple_partial, C85_tasks_partial, C85_violation, C86_accountable, C86_always, C86_dining, C86_equivocation, C86_rest, C86_settles, C86_simple, C86_stops, C86_success, C86_waits, C87_fails, C87_hasty, C87_late, C87_refines, C87_reports, C87_settled, C87_single_late, C87_single_settled, C88_accused, C88_authenticated, C88_blamed, C88_cause, C88_completed, C88_dropped_violation, C88_held, C88_immediate, C88_refused_blamed, C88_running, C88_silent, C88_tasks, C88_traced, C89_artifacts, C89_fails, C89_hasty, C89_late, C89_refines, C89_reports, C89_settled, C90_completes, C90_driver, C90_finishes, C90_no_errors, C90_parallel, C90_results, C90_sequential, C90_terminates, C91_accountable, C91_always, C91_dining, C91_equivocation, C91_no_blame_partial, C91_no_echo, C91_parallel, C91_rest, C91_results_partial, C91_sequential, C91_settles, C91_simple_partial, C91_stops, C91_success, C91_violation, C91_waits, C92_accused, C92_agreement, C92_behind, C92_blamed, C92_caught, C92_caught_parallel, C92_entered, C92_finalizing, C92_if_kinds_were_signed, C92_integrity, C92_kept, C92_kind_confusion, C92_no_blame, C92_not_accepted, C92_parallel, C92_recorded, C92_report, C92_rounds, C92_runs, C92_sequential, C92_verdict, C93_accused, C93_agreement, C93_distinct_needed, C93_independent, C93_integrity, C93_rounds, C93_sequential, C94_example, C94_network, C94_one_to_one, C94_untraceable, C95_charges, C95_other_protocol_violation, C95_own_protocol, C95_sequential, C96_invalid_echo_partial, C96_malformed, C96_mismatched, C96_only, C96_protocol.
