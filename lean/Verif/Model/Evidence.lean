import Verif.Model.Round

/-!
# Transcript and evidence

Model of `/repo/manul/src/session/transcript.rs` and `/repo/manul/src/session/evidence.rs`, and of the evidence
verification in `/repo/manul/src/session/echo.rs`.
-/

namespace Manul

/-- `ProtocolEvidence` (`session/evidence.rs:345-356`). -/
structure ProtocolEvidence (sp : SP) where
  error : Bytes
  direct : Option (SignedPart .direct)
  echo : Option (SignedPart .echo)
  normal : Option (SignedPart .normal)
  directs : BMap RoundId (SignedPart .direct)
  echos : BMap RoundId (SignedPart .echo)
  normals : BMap RoundId (SignedPart .normal)
  otherEchos : BMap RoundId (BMap sp.Id (SignedPart .echo))
  echoHashes : BMap RoundId (SignedPart .normal)

/-- `EvidenceEnum` (`session/evidence.rs:215-222`). -/
inductive EvBody (sp : SP) where
  | protocol (e : ProtocolEvidence sp)
  | invalidDirect (m : SignedPart .direct)
  | invalidEchoBroadcast (m : SignedPart .echo)
  | invalidNormal (m : SignedPart .normal)
  /-- `InvalidEchoEvidence` (`session/evidence.rs:225-228`) -/
  | invalidEcho (m : SignedPart .normal) (sender : sp.Id)
  /-- `MismatchedBroadcastsEvidence` (`session/evidence.rs:252-254`) -/
  | mismatched (guilty : sp.Id) (weReceived : SignedPart .echo) (echoed : SignedHash)

/-- `Evidence` (`session/evidence.rs:30-34`), description dropped. -/
structure Evidence (sp : SP) where
  guilty : sp.Id
  body : EvBody sp

/-- `Transcript` (`session/transcript.rs:16-23`). -/
structure Transcript (sp : SP) where
  echos : BMap RoundId (BMap sp.Id (SignedPart .echo))
  normals : BMap RoundId (BMap sp.Id (SignedPart .normal))
  directs : BMap RoundId (BMap sp.Id (SignedPart .direct))
  provable : BMap sp.Id (Evidence sp)
  unprovable : BMap sp.Id RErr
  missing : BMap RoundId (BSet sp.Id)

namespace Transcript

variable {sp : SP}

/-- `Transcript::new` (`transcript.rs:30-39`). -/
def new : Transcript sp := ⟨BMap.empty, BMap.empty, BMap.empty, BMap.empty, BMap.empty, BMap.empty⟩

/-- The loops at `transcript.rs:88-104`: insert every error, failing on a party that already has one. -/
def mergeErrors {E : Type} (err : LErr) (all : BMap sp.Id E) (new : BMap sp.Id E) : Except LErr (BMap sp.Id E) :=
  foldE (fun m e => if m.contains e.1 then .error err else .ok (m.insert e.1 e.2)) all new.toList

/-- `Transcript::update` (`transcript.rs:42-128`). -/
def update (t : Transcript sp) (roundId : RoundId) (me : sp.Id) (myEcho : SignedPart .echo)
    (echos : BMap sp.Id (SignedPart .echo)) (normals : BMap sp.Id (SignedPart .normal))
    (directs : BMap sp.Id (SignedPart .direct)) (provable : BMap sp.Id (Evidence sp))
    (unprovable : BMap sp.Id RErr) (missing : BSet sp.Id) : Except LErr (Transcript sp) :=
  if t.echos.contains roundId then .error .transcriptEcho
  else if t.normals.contains roundId then .error .transcriptNormal
  else if t.directs.contains roundId then .error .transcriptDirect
  else
    match mergeErrors .transcriptProvable t.provable provable with
    | .error e => .error e
    | .ok allProvable =>
      match mergeErrors .transcriptUnprovable t.unprovable unprovable with
      | .error e => .error e
      | .ok allUnprovable =>
        if t.missing.contains roundId then .error .transcriptMissing
        else .ok
          { echos := t.echos.insert roundId (echos.insert me myEcho)
            normals := t.normals.insert roundId normals
            directs := t.directs.insert roundId directs
            provable := allProvable
            unprovable := allUnprovable
            missing := if missing.isEmpty then t.missing else t.missing.insert roundId missing }

/-- The common body of `get_echo_broadcast`, `get_normal_broadcast`, `get_direct_message`
(`transcript.rs:130-167`). -/
def getPart {k : PartKind} (m : BMap RoundId (BMap sp.Id (SignedPart k))) (roundId : RoundId) (who : sp.Id) :
    Except LErr (SignedPart k) :=
  match m.get? roundId with
  | none => .error .noEntry
  | some r => okOr .noEntry (r.get? who)

/-- `Transcript::is_banned` (`transcript.rs:169-171`). -/
def isBanned (t : Transcript sp) (who : sp.Id) : Bool := t.provable.contains who || t.unprovable.contains who

/-- `Transcript::echo_broadcasts` (`transcript.rs:173-181`). -/
def echoBroadcasts (t : Transcript sp) (roundId : RoundId) : Except LErr (BMap sp.Id (SignedPart .echo)) :=
  okOr .noEntry (t.echos.get? roundId)

/-- `Transcript::get_other_echo_broadcasts` (`transcript.rs:183-194`). -/
def otherEchoBroadcasts (t : Transcript sp) (roundId : RoundId) (exceptFor : sp.Id) :
    Except LErr (BMap sp.Id (SignedPart .echo)) :=
  match t.echos.get? roundId with
  | none => .error .noEntry
  | some m => .ok (m.erase exceptFor)

end Transcript

namespace Evidence

variable {sp : SP}

/-- The accumulated maps of the `previous_rounds` loop (`evidence.rs:70-72`). -/
structure Prev (sp : SP) where
  echos : BMap RoundId (SignedPart .echo)
  normals : BMap RoundId (SignedPart .normal)
  directs : BMap RoundId (SignedPart .direct)

/-- One step of `evidence.rs:74-84` for one kind: fetch the part if it is required. -/
def fetch {k : PartKind} (required : Bool) (src : BMap RoundId (BMap sp.Id (SignedPart k))) (roundId : RoundId)
    (who : sp.Id) (acc : BMap RoundId (SignedPart k)) : Except LErr (BMap RoundId (SignedPart k)) :=
  if required then
    match Transcript.getPart src roundId who with
    | .error e => .error e
    | .ok p => .ok (acc.insert roundId p)
  else .ok acc

/-- The body of the loop at `evidence.rs:74-84`. -/
def fetchPrevious (t : Transcript sp) (who : sp.Id) (acc : Prev sp) (e : RoundId × RequiredParts) :
    Except LErr (Prev sp) :=
  match fetch e.2.echo t.echos e.1 who acc.echos with
  | .error e => .error e
  | .ok echos =>
    match fetch e.2.normal t.normals e.1 who acc.normals with
    | .error e => .error e
    | .ok normals =>
      match fetch e.2.direct t.directs e.1 who acc.directs with
      | .error e => .error e
      | .ok directs => .ok ⟨echos, normals, directs⟩

/-- The accumulated maps of the `combined_echos` loop (`evidence.rs:87-88`). -/
structure Combined (sp : SP) where
  echoHashes : BMap RoundId (SignedPart .normal)
  otherEchos : BMap RoundId (BMap sp.Id (SignedPart .echo))

/-- The body of the loop at `evidence.rs:90-99`. -/
def fetchCombined (t : Transcript sp) (who : sp.Id) (acc : Combined sp) (r : RoundId) : Except LErr (Combined sp) :=
  match r.echo with
  | .error e => .error e
  | .ok re =>
    match Transcript.getPart t.normals re who with
    | .error e => .error e
    | .ok n =>
      match t.otherEchoBroadcasts r who with
      | .error e => .error e
      | .ok o => .ok ⟨acc.echoHashes.insert r n, acc.otherEchos.insert r o⟩

/-- `Evidence::new_provable_error` (`evidence.rs:41-123`). -/
def newProvableError (who : sp.Id) (echo : SignedPart .echo) (normal : SignedPart .normal)
    (direct : SignedPart .direct) (required : RequiredMessages) (serialized : Except LErr Bytes)
    (t : Transcript sp) : Except LErr (Evidence sp) :=
  match foldE (fetchPrevious t who) ⟨BMap.empty, BMap.empty, BMap.empty⟩
      (match required.previous with | none => [] | some m => m.toList) with
  | .error e => .error e
  | .ok prev =>
    match foldE (fetchCombined t who) ⟨BMap.empty, BMap.empty⟩
        (match required.combined with | none => [] | some s => s.elems) with
    | .error e => .error e
    | .ok comb =>
      match serialized with
      | .error e => .error e
      | .ok err => .ok
        { guilty := who
          body := .protocol
            { error := err
              direct := if required.thisRound.direct then some direct else none
              echo := if required.thisRound.echo then some echo else none
              normal := if required.thisRound.normal then some normal else none
              directs := prev.directs
              echos := prev.echos
              normals := prev.normals
              otherEchos := comb.otherEchos
              echoHashes := comb.echoHashes } }

/-- `Evidence::new_echo_round_error` (`evidence.rs:125-148`). -/
def newEchoRoundError (who : sp.Id) (normal : SignedPart .normal) : EchoErr sp → Evidence sp
  | .invalidEcho sender => ⟨who, .invalidEcho normal sender⟩
  | .mismatched guilty w e => ⟨guilty, .mismatched guilty w e⟩

/-- `InvalidEchoError::verify_evidence` (`session/echo.rs:55-84`). -/
def verifyInvalidEchoError (sender : sp.Id) (metadata : Metadata) (pack : EchoPack sp) : Except EvErr Unit :=
  match pack.get? sender with
  | none => .error .invalid
  | some h =>
    match h.verify sp sender with
    | .error (.local e) => .error (.local e)
    | .error .invalidSignature => .ok ()
    | .error .signatureMismatch => .ok ()
    | .ok _ => if h.metadata ≠ metadata then .ok () else .error .invalid

/-- Deserialization of a normal broadcast into an `EchoRoundMessage` (`protocol/message.rs:108-122` at
`T = EchoRoundMessage`, which is not `NoMessage`). -/
def deserializePack (sp : SP) (p : Part .normal) : Option (EchoPack sp) :=
  match p.payload with
  | none => none
  | some b => sp.deEcho b

/-- `InvalidEchoEvidence::verify` (`evidence.rs:231-248`). -/
def verifyInvalidEcho (guilty : sp.Id) (m : SignedPart .normal) (sender : sp.Id) : Except EvErr Unit :=
  match m.verify sp guilty with
  | .error e => .error e.toEvErr
  | .ok _ =>
    match deserializePack sp m.part with
    | none => .error .invalid
    | some pack => verifyInvalidEchoError sender m.metadata pack

/-- `MismatchedBroadcastsError::verify_evidence` (`session/echo.rs:103-122`). -/
def verifyMismatched (guilty : sp.Id) (w : SignedPart .echo) (e : SignedHash) : Except EvErr Unit :=
  match w.verify sp guilty with
  | .error err => .error err.toEvErr
  | .ok _ =>
    match e.verify sp guilty with
    | .error err => .error err.toEvErr
    | .ok _ =>
      if w.metadata = e.metadata ∧ e.isHashOf sp w = false then .ok () else .error .invalid

/-- `EchoRound::verify_normal_broadcast_is_invalid` (`session/echo.rs:196-201`, `protocol/message.rs:82-90`). -/
def echoNormalInvalid (sp : SP) (p : Part .normal) : Except EvErr Unit :=
  match deserializePack sp p with
  | none => .ok ()
  | some _ => .error .invalid

/-- The common body of `Invalid{DirectMessage,EchoBroadcast,NormalBroadcast}Evidence::verify`
(`evidence.rs:266-286, 293-313, 320-340`). -/
def verifyInvalidPart {k : PartKind} {I : Type} (sp : SP) (guilty : sp.Id) (m : SignedPart k)
    (info : RoundId → Option I) (echoCheck : Part k → Except EvErr Unit)
    (mainCheck : I → Part k → Except EvErr Unit) : Except EvErr Unit :=
  match m.verify sp guilty with
  | .error e => .error e.toEvErr
  | .ok _ =>
    if m.metadata.roundId.isEcho then echoCheck m.part
    else
      match info m.metadata.roundId with
      | none => .error .invalid
      | some i => mainCheck i m.part

/-- `verify_message_parts` (`evidence.rs:358-382`). -/
def verifyParts {k : PartKind} (who : sp.Id) (sessionId : Bytes) (m : BMap RoundId (SignedPart k)) :
    Except EvErr (BMap RoundId (Part k)) :=
  foldE (fun acc (e : RoundId × SignedPart k) =>
    match e.2.verify sp who with
    | .error err => .error err.toEvErr
    | .ok _ =>
      if e.2.metadata.sessionId ≠ sessionId ∨ e.2.metadata.roundId ≠ e.1 then .error .invalid
      else .ok (acc.insert e.1 e.2.part)) BMap.empty m.toList

/-- `verify_message_part` (`evidence.rs:384-413`). -/
def verifyPart {k : PartKind} (who : sp.Id) (sessionId : Bytes) (roundId : RoundId)
    (m : Option (SignedPart k)) : Except EvErr (Option (Part k)) :=
  match m with
  | none => .ok none
  | some p =>
    if p.metadata.sessionId ≠ sessionId ∨ p.metadata.roundId ≠ roundId then .error .invalid
    else
      match p.verify sp who with
      | .error err => .error err.toEvErr
      | .ok _ => .ok (some p.part)

/-- The inner loop at `evidence.rs:485-517`: one echoed hash and the corresponding attached echo broadcast. -/
def verifyEchoed (sessionId : Bytes) (roundId : RoundId) (attached : BMap sp.Id (SignedPart .echo))
    (acc : BMap sp.Id (Part .echo)) (e : sp.Id × SignedHash) : Except EvErr (BMap sp.Id (Part .echo)) :=
  if e.2.metadata.sessionId ≠ sessionId ∨ e.2.metadata.roundId ≠ roundId then .error .invalid
  else
    match e.2.verify sp e.1 with
    | .error err => .error err.toEvErr
    | .ok _ =>
      match attached.get? e.1 with
      | none => .error .invalid
      | some b =>
        if b.metadata.sessionId ≠ sessionId ∨ b.metadata.roundId ≠ roundId then .error .invalid
        else if e.2.isHashOf sp b = false then .error .invalid
        else
          match b.verify sp e.1 with
          | .error err => .error err.toEvErr
          | .ok _ => .ok (acc.insert e.1 b.part)

/-- One iteration of the outer loop at `evidence.rs:456-519`. -/
def verifyCombined (who : sp.Id) (sessionId : Bytes) (other : BMap RoundId (BMap sp.Id (SignedPart .echo)))
    (acc : BMap RoundId (BMap sp.Id (Part .echo))) (e : RoundId × SignedPart .normal) :
    Except EvErr (BMap RoundId (BMap sp.Id (Part .echo))) :=
  match e.2.metadata.roundId.nonEcho with
  | .error _ => .error .invalid
  | .ok mainRoundId =>
    if e.2.metadata.sessionId ≠ sessionId ∨ mainRoundId ≠ e.1 then .error .invalid
    else
      match e.2.verify sp who with
      | .error err => .error err.toEvErr
      | .ok _ =>
        match deserializePack sp e.2.part with
        | none => .error .invalid
        | some pack =>
          match other.get? e.1 with
          | none => .error .invalid
          | some attached =>
            match foldE (verifyEchoed sessionId e.1 attached) BMap.empty pack.toList with
            | .error err => .error err
            | .ok msgs => .ok (acc.insert e.1 msgs)

/-- Merging the verified parts of the previous rounds (`evidence.rs:529-547`). -/
def mergeParts (echos : BMap RoundId (Part .echo)) (normals : BMap RoundId (Part .normal))
    (directs : BMap RoundId (Part .direct)) : BMap RoundId EvMsg :=
  let all := BSet.ofList (BSet.elems echos.keys ++ BSet.elems normals.keys ++ BSet.elems directs.keys)
  BMap.ofList (all.elems.map (fun r => (r, ⟨directs.get? r, normals.get? r, echos.get? r⟩)))

/-- The metadata of the trigger message (`evidence.rs:432-442`). -/
def triggerMetadata (e : ProtocolEvidence sp) : Option Metadata :=
  match e.direct with
  | some m => some m.metadata
  | none =>
    match e.echo with
    | some m => some m.metadata
    | none =>
      match e.normal with
      | some m => some m.metadata
      | none => none

/-- `ProtocolEvidence::verify` (`evidence.rs:420-564`). -/
def verifyProtocol (P : Proto sp) (guilty : sp.Id) (shared : P.Shared) (e : ProtocolEvidence sp) :
    Except EvErr Unit :=
  match triggerMetadata e with
  | none => .error .invalid
  | some m =>
    match verifyPart guilty m.sessionId m.roundId e.direct with
    | .error err => .error err
    | .ok direct =>
    match verifyPart guilty m.sessionId m.roundId e.echo with
    | .error err => .error err
    | .ok echo =>
    match verifyPart guilty m.sessionId m.roundId e.normal with
    | .error err => .error err
    | .ok normal =>
    match verifyParts guilty m.sessionId e.directs with
    | .error err => .error err
    | .ok directs =>
    match verifyParts guilty m.sessionId e.echos with
    | .error err => .error err
    | .ok echos =>
    match verifyParts guilty m.sessionId e.normals with
    | .error err => .error err
    | .ok normals =>
    match foldE (verifyCombined guilty m.sessionId e.otherEchos) BMap.empty e.echoHashes.toList with
    | .error err => .error err
    | .ok combined =>
    match P.roundInfo m.roundId with
    | none => .error .invalid
    | some info =>
      info.verifyEvidence m.roundId e.error guilty m.sessionId shared ⟨direct, normal, echo⟩
        (mergeParts echos normals directs) combined

/-- `Evidence::verify` (`evidence.rs:200-210`). -/
def verify (P : Proto sp) (shared : P.Shared) (ev : Evidence sp) : Except EvErr Unit :=
  match ev.body with
  | .protocol e => verifyProtocol P ev.guilty shared e
  | .invalidDirect m => verifyInvalidPart sp ev.guilty m P.roundInfo Part.verifyIsSome RoundInfo.directInvalid
  | .invalidEchoBroadcast m =>
    verifyInvalidPart sp ev.guilty m P.roundInfo Part.verifyIsSome RoundInfo.echoInvalid
  | .invalidNormal m =>
    verifyInvalidPart sp ev.guilty m P.roundInfo (echoNormalInvalid sp) RoundInfo.normalInvalid
  | .invalidEcho m sender => verifyInvalidEcho ev.guilty m sender
  | .mismatched guilty w e => verifyMismatched guilty w e

end Evidence

end Manul
