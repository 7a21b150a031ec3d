import Verif.Model.Echo

/-!
# Sessions and round accumulators

Model of `/repo/manul/src/session/session.rs` and of the report in `/repo/manul/src/session/transcript.rs`.

A method taking `&mut self` returns the new value; when it returns `Err` the caller always aborts, so the modified value
is dropped.
-/

namespace Manul

/-- `SessionOutcome` (`session/transcript.rs:199-206`). -/
inductive SessionOutcome (Res : Type) where
  | result (r : Res)
  | notEnoughMessages
  | terminated

/-- `SessionReport` (`session/transcript.rs:224-233`). -/
structure Report {sp : SP} (P : Proto sp) where
  outcome : SessionOutcome P.Result
  provable : BMap sp.Id (Evidence sp)
  unprovable : BMap sp.Id RErr
  missing : BMap RoundId (BSet sp.Id)

/-- `SessionReport::new` (`session/transcript.rs:240-247`). -/
def Report.new {sp : SP} {P : Proto sp} (o : SessionOutcome P.Result) (t : Transcript sp) : Report P :=
  ⟨o, t.provable, t.unprovable, t.missing⟩

/-- `Session` (`session/session.rs:110-122`); the wire format is part of `sp`. -/
structure Session {sp : SP} (P : Proto sp) where
  sessionId : Bytes
  signer : sp.Signer
  me : sp.Id
  round : SRound P
  comm : CommInfo sp.Id
  echoInfo : Option (EchoInfo sp.Id)
  echo : SignedPart .echo
  normal : SignedPart .normal
  transition : TransitionInfo
  transcript : Transcript sp

/-- `RoundAccumulator` (`session/session.rs:556-568`). -/
structure Accum {sp : SP} (P : Proto sp) where
  notSent : BSet sp.Id
  expecting : BSet sp.Id
  processing : BSet sp.Id
  payloads : BMap sp.Id (Option P.Payload)
  artifacts : BMap sp.Id (Option P.Artifact)
  cached : BMap sp.Id (BMap RoundId (VerifiedMessage sp))
  echos : BMap sp.Id (SignedPart .echo)
  normals : BMap sp.Id (SignedPart .normal)
  directs : BMap sp.Id (SignedPart .direct)
  provable : BMap sp.Id (Evidence sp)
  unprovable : BMap sp.Id RErr

/-- `CanFinalize` (`session/session.rs:544-552`). -/
inductive CanFinalize where
  | yes | notYet | never
deriving DecidableEq, Repr

/-- `PreprocessOutcome` (`session/session.rs:776-788`). -/
inductive PreOutcome (sp : SP) where
  | toProcess (m : VerifiedMessage sp)
  | cached
  | error (e : RErr)

/-- `PreprocessOutcome::ok` (`session/session.rs:800-805`). -/
def PreOutcome.ok? {sp : SP} : PreOutcome sp → Option (VerifiedMessage sp)
  | .toProcess m => some m
  | _ => none

/-- `ProcessedMessage` (`session/session.rs:769-772`). -/
structure Processed {sp : SP} (P : Proto sp) where
  message : VerifiedMessage sp
  result : Except (RecvErr sp) (Option P.Payload)

/-- `ProcessedArtifact` (`session/session.rs:763-766`). -/
structure ProcessedArtifact {sp : SP} (P : Proto sp) where
  destination : sp.Id
  artifact : Option P.Artifact

/-- `RoundOutcome` (`session/session.rs:126-136`). -/
inductive RoundOutcome {sp : SP} (P : Proto sp) where
  | finished (r : Report P)
  | anotherRound (s : Session P) (cached : List (VerifiedMessage sp))

namespace Accum

variable {sp : SP} {P : Proto sp}

/-- `RoundAccumulator::new` (`session.rs:575-589`). -/
def new (expecting : BSet sp.Id) : Accum P where
  notSent := expecting
  expecting := expecting
  processing := BMap.empty
  payloads := BMap.empty
  artifacts := BMap.empty
  cached := BMap.empty
  echos := BMap.empty
  normals := BMap.empty
  directs := BMap.empty
  provable := BMap.empty
  unprovable := BMap.empty

/-- `RoundAccumulator::can_finalize` (`session.rs:591-603`). -/
def canFinalize (a : Accum P) : CanFinalize :=
  if a.expecting.elems.all (fun k => a.payloads.contains k) then .yes
  else if a.notSent.isEmpty = false then .notYet
  else .never

/-- `RoundAccumulator::is_banned` (`session.rs:605-607`). -/
def isBanned (a : Accum P) (who : sp.Id) : Bool := a.provable.contains who || a.unprovable.contains who

/-- `RoundAccumulator::message_is_being_processed` (`session.rs:609-611`). -/
def isProcessing (a : Accum P) (who : sp.Id) : Bool := a.processing.contains who

/-- `RoundAccumulator::message_is_cached` (`session.rs:613-619`). -/
def isCached (a : Accum P) (who : sp.Id) (r : RoundId) : Bool :=
  match a.cached.get? who with
  | some e => e.contains r
  | none => false

/-- `RoundAccumulator::register_unprovable_error` (`session.rs:621-629`). -/
def registerUnprovable (a : Accum P) (who : sp.Id) (e : RErr) : Except LErr (Accum P) :=
  if a.unprovable.contains who then .error .dupUnprovable
  else .ok { a with unprovable := a.unprovable.insert who e }

/-- `RoundAccumulator::register_provable_error` (`session.rs:631-639`). -/
def registerProvable (a : Accum P) (who : sp.Id) (e : Evidence sp) : Except LErr (Accum P) :=
  if a.provable.contains who then .error .dupProvable
  else .ok { a with provable := a.provable.insert who e }

/-- `RoundAccumulator::mark_processing` (`session.rs:641-650`). -/
def markProcessing (a : Accum P) (m : VerifiedMessage sp) : Except LErr (Accum P) :=
  if a.processing.contains m.sender then .error .dupProcessing
  else .ok { a with processing := BSet.insert a.processing m.sender }

/-- `RoundAccumulator::add_artifact` (`session.rs:654-666`). -/
def addArtifact (a : Accum P) (p : ProcessedArtifact P) : Except LErr (Accum P) :=
  if a.artifacts.contains p.destination then .error .dupArtifact
  else .ok { a with artifacts := a.artifacts.insert p.destination p.artifact }

/-- Insert a part unless it is empty (`session.rs:692-700`). -/
def insertPart {k : PartKind} (m : BMap sp.Id (SignedPart k)) (who : sp.Id) (p : SignedPart k) :
    BMap sp.Id (SignedPart k) :=
  if p.part.isNone then m else m.insert who p

/-- `RoundAccumulator::add_processed_message` (`session.rs:668-747`). -/
def addProcessed (t : Transcript sp) (a : Accum P) (p : Processed P) : Except LErr (Accum P) :=
  let who := p.message.sender
  if a.payloads.contains who then .error .dupPayload
  else if a.notSent.contains who = false then .error .unexpectedSender
  else
    let a' := { a with notSent := a.notSent.erase who }
    match p.result with
    | .ok payload => .ok
      { a' with
        echos := insertPart a'.echos who p.message.echo
        normals := insertPart a'.normals who p.message.normal
        directs := insertPart a'.directs who p.message.direct
        payloads := a'.payloads.insert who payload }
    | .error .invalidDirect => a'.registerProvable who ⟨who, .invalidDirect p.message.direct⟩
    | .error .invalidEcho => a'.registerProvable who ⟨who, .invalidEchoBroadcast p.message.echo⟩
    | .error .invalidNormal => a'.registerProvable who ⟨who, .invalidNormal p.message.normal⟩
    | .error (.protocol required serialized) =>
      match Evidence.newProvableError who p.message.echo p.message.normal p.message.direct required serialized t with
      | .error e => .error e
      | .ok ev => a'.registerProvable who ev
    | .error (.unprovable e) => .ok { a' with unprovable := a'.unprovable.insert who e }
    | .error (.echo e) => a'.registerProvable who (Evidence.newEchoRoundError who p.message.normal e)
    | .error (.local e) => .error e

/-- `RoundAccumulator::cache_message` (`session.rs:749-759`). -/
def cacheMessage (a : Accum P) (m : VerifiedMessage sp) : Except LErr (Accum P) :=
  let entry := (a.cached.get? m.sender).getD BMap.empty
  if entry.contains m.metadata.roundId then .error .dupCached
  else .ok { a with cached := a.cached.insert m.sender (entry.insert m.metadata.roundId m) }

/-- `filter_messages` (`session.rs:808-816`). -/
def filterMessages (cached : BMap sp.Id (BMap RoundId (VerifiedMessage sp))) (r : RoundId) :
    List (VerifiedMessage sp) :=
  cached.values.filterMap (fun m => m.get? r)

end Accum

namespace Session

variable {sp : SP} {P : Proto sp}

/-- The `echo_round_info` computed in `new_for_next_round` (`session.rs:187-209`). -/
def makeEchoInfo (me : sp.Id) (comm : CommInfo sp.Id) (sendsEcho : Bool) : Option (EchoInfo sp.Id) :=
  match comm.participation with
  | .default =>
    if sendsEcho then some ⟨comm.destinations, comm.destinations, BSet.insert comm.expecting me⟩ else none
  | .send => none
  | .receive targets => some ⟨targets, targets, comm.expecting⟩

/-- `Session::new_for_next_round` (`session.rs:158-224`). -/
def newForNextRound (rng : sp.Rng) (sessionId : Bytes) (signer : sp.Signer) (round : SRound P)
    (transcript : Transcript sp) : Except LErr (Session P) :=
  match round.transition with
  | .error e => .error e
  | .ok transition =>
    let comm := round.comm
    match (if comm.destinations.isEmpty then Except.ok Part.none else round.makeEcho (sp.fork rng 0)) with
    | .error e => .error e
    | .ok echo =>
      match SignedPart.new sp (sp.fork rng 1) signer sessionId transition.id echo with
      | .error e => .error e
      | .ok signedEcho =>
        match (if comm.destinations.isEmpty then Except.ok Part.none else round.makeNormal (sp.fork rng 2)) with
        | .error e => .error e
        | .ok normal =>
          match SignedPart.new sp (sp.fork rng 3) signer sessionId transition.id normal with
          | .error e => .error e
          | .ok signedNormal => .ok
            { sessionId := sessionId
              signer := signer
              me := sp.verifyingKey signer
              round := round
              comm := comm
              echoInfo := makeEchoInfo (sp.verifyingKey signer) comm (!signedEcho.part.isNone)
              echo := signedEcho
              normal := signedNormal
              transition := transition
              transcript := transcript }

/-- `Session::new` (`session.rs:144-156`). -/
def new (rng : sp.Rng) (sessionId : Bytes) (signer : sp.Signer) (ep : EntryPoint P) : Except LErr (Session P) :=
  match ep.makeRound (sp.fork rng 0) sessionId (sp.verifyingKey signer) with
  | .error e => .error e
  | .ok r => newForNextRound (sp.fork rng 1) sessionId signer (.main r) Transcript.new

/-- `Session::round_id` (`session.rs:283-285`). -/
def roundId (s : Session P) : RoundId := s.transition.id

/-- `Session::message_destinations` (`session.rs:237-239`). -/
def destinations (s : Session P) : BSet sp.Id := s.comm.destinations

/-- `Session::make_message` (`session.rs:244-271`). -/
def makeMessage (s : Session P) (rng : sp.Rng) (dest : sp.Id) : Except LErr (Message sp × ProcessedArtifact P) :=
  match s.round.makeDirect (sp.fork rng 0) dest with
  | .error e => .error e
  | .ok (direct, artifact) =>
    match Message.new (sp.fork rng 1) s.signer s.sessionId s.transition.id dest direct s.echo s.normal with
    | .error e => .error e
    | .ok m => .ok (m, ⟨dest, artifact⟩)

/-- Record an unprovable error and return it as the outcome (the repeated pattern of `session.rs:315-377`). -/
def reject (a : Accum P) (who : sp.Id) (e : RErr) : Except LErr (Accum P × PreOutcome sp) :=
  match a.registerUnprovable who e with
  | .error err => .error err
  | .ok a' => .ok (a', .error e)

/-- The signature verification and routing part of `preprocess_message` (`session.rs:363-393`). -/
def verifyAndRoute (a : Accum P) (sender : sp.Id) (m : CheckedMessage) (thisRound : Bool) :
    Except LErr (Accum P × PreOutcome sp) :=
  match m.verify sp sender with
  | .error .invalidSignature => reject a sender .badSignature
  | .error .signatureMismatch => reject a sender .sigMismatch
  | .error (.local e) => .error e
  | .ok vm =>
    if thisRound then
      match a.markProcessing vm with
      | .error e => .error e
      | .ok a' => .ok (a', .toProcess vm)
    else
      match a.cacheMessage vm with
      | .error e => .error e
      | .ok a' => .ok (a', .cached)

/-- `Session::preprocess_message` (`session.rs:300-394`). -/
def preprocess (s : Session P) (a : Accum P) (sender : sp.Id) (m : Message sp) :
    Except LErr (Accum P × PreOutcome sp) :=
  if s.transcript.isBanned sender || a.isBanned sender then .ok (a, .error .banned)
  else
    match m.unifyMetadata with
    | none => reject a sender .metadata
    | some c =>
      if c.metadata.sessionId ≠ s.sessionId then reject a sender .session
      else
        match s.transition.simultaneousRounds s.echoInfo.isSome with
        | .error e => .error e
        | .ok acceptable =>
          if c.metadata.roundId = s.roundId then
            if a.isProcessing sender then reject a sender .alreadyProcessing
            else verifyAndRoute a sender c true
          else if acceptable.contains c.metadata.roundId then
            if a.isCached sender c.metadata.roundId then reject a sender .alreadyCached
            else verifyAndRoute a sender c false
          else reject a sender .unexpectedRound

/-- `Session::process_message` (`session.rs:399-412`). -/
def process (s : Session P) (m : VerifiedMessage sp) : Processed P := ⟨m, s.round.receive m.sender m.dyn⟩

/-- `Session::add_processed_message` (`session.rs:415-421`). -/
def addProcessed (s : Session P) (a : Accum P) (p : Processed P) : Except LErr (Accum P) :=
  a.addProcessed s.transcript p

/-- `Session::make_accumulator` (`session.rs:424-426`). -/
def makeAccum (s : Session P) : Accum P := Accum.new s.comm.expecting

/-- The call of `Transcript::update` shared by termination and finalization (`session.rs:435-444, 476-485`). -/
def updatedTranscript (s : Session P) (a : Accum P) : Except LErr (Transcript sp) :=
  s.transcript.update s.roundId s.me s.echo a.echos a.normals a.directs a.provable a.unprovable a.notSent

/-- `Session::terminate_inner` (`session.rs:428-451`). -/
def terminateInner (s : Session P) (a : Accum P) (notEnough : Bool) : Except LErr (Report P) :=
  match s.updatedTranscript a with
  | .error e => .error e
  | .ok t => .ok (Report.new (if notEnough then .notEnoughMessages else .terminated) t)

/-- `Session::terminate` (`session.rs:454-456`). -/
def terminate (s : Session P) (a : Accum P) : Except LErr (Report P) := s.terminateInner a false

/-- `Session::terminate_due_to_errors` (`session.rs:463-465`). -/
def terminateDueToErrors (s : Session P) (a : Accum P) : Except LErr (Report P) := s.terminateInner a false

/-- The transition into an echo round (`session.rs:487-503`). -/
def startEcho (s : Session P) (rng : sp.Rng) (a : Accum P) (t : Transcript sp) (info : EchoInfo sp.Id)
    (r : P.Rd) : Except LErr (RoundOutcome P) :=
  match t.echoBroadcasts s.roundId with
  | .error e => .error e
  | .ok ebs =>
    let round : SRound P := .echo ⟨s.me, ebs, info, r, a.payloads, a.artifacts⟩
    match round.transition with
    | .error e => .error e
    | .ok tr =>
      match newForNextRound rng s.sessionId s.signer round t with
      | .error e => .error e
      | .ok s' => .ok (.anotherRound s' (Accum.filterMessages a.cached tr.id))

/-- The non-echo part of `finalize_round` (`session.rs:505-533`). -/
def finalizeProper (s : Session P) (rng : sp.Rng) (a : Accum P) (t : Transcript sp) :
    Except LErr (RoundOutcome P) :=
  match s.round.finalize (sp.fork rng 0) a.payloads a.artifacts with
  | .error e => .error e
  | .ok (.result r) => .ok (.finished (Report.new (.result r) t))
  | .ok (.anotherRound r) =>
    let rid := (P.transition r).id
    if s.transition.children.contains rid = false then .error .unexpectedNextRound
    else
      match newForNextRound (sp.fork rng 1) s.sessionId s.signer (.main r) t with
      | .error e => .error e
      | .ok s' => .ok (.anotherRound s'
          ((Accum.filterMessages a.cached rid).filter (fun m => !t.isBanned m.sender)))

/-- `Session::finalize_round` (`session.rs:468-534`).  An echo round never has an `echo_round_info` (it sends no echo
broadcast, `makeEchoInfo` with `Default` participation), so the main round is what `self.round` holds in the first
branch; for a hypothetical echo round inside an echo round Rust's `transition_info` would panic, as here. -/
def finalizeRound (s : Session P) (rng : sp.Rng) (a : Accum P) : Except LErr (RoundOutcome P) :=
  match s.updatedTranscript a with
  | .error e => .error e
  | .ok t =>
    match s.echoInfo with
    | some info =>
      match s.round with
      | .main r => s.startEcho (sp.fork rng 1) a t info r
      | .echo _ => .error .panicMainIsEcho
    | none => s.finalizeProper rng a t

end Session

end Manul
