import Verif.Model.Message

/-!
# Rounds and protocols

Model of the traits in `/repo/manul/src/protocol/{round,dyn_round,round_info,evidence,dyn_evidence}.rs` as records of
functions.  A protocol is given by a type of round objects (everything that can be inside a `BoxedRound`) and the
methods of `DynRound` on them, and `Protocol::round_info`.

Simplifications: one payload type and one artifact type per protocol (the `Any` boxes of different rounds are the
union); `description()` strings are dropped.
-/

namespace Manul

/-- `EchoRoundParticipation` (`protocol/round.rs:340-355`). -/
inductive EchoParticipation (Id : Type) [LinearOrder Id] where
  | default
  | send
  | receive (targets : BSet Id)

/-- `CommunicationInfo` (`protocol/round.rs:248-270`). -/
structure CommInfo (Id : Type) [LinearOrder Id] where
  destinations : BSet Id
  expecting : BSet Id
  participation : EchoParticipation Id

/-- `CommunicationInfo::regular` (`protocol/round.rs:277-283`). -/
def CommInfo.regular {Id : Type} [LinearOrder Id] (others : BSet Id) : CommInfo Id :=
  ⟨others, others, .default⟩

/-- `RequiredMessageParts` (`protocol/evidence.rs:281-285`). -/
structure RequiredParts where
  echo : Bool
  normal : Bool
  direct : Bool
deriving DecidableEq

/-- `RequiredMessages` (`protocol/evidence.rs:332-336`). -/
structure RequiredMessages where
  thisRound : RequiredParts
  previous : Option (BMap RoundId RequiredParts)
  combined : Option (BSet RoundId)

/-- `RequiredMessages::group_under` (`protocol/evidence.rs:361-381`). -/
def RequiredMessages.groupUnder (r : RequiredMessages) (g : U8) : RequiredMessages where
  thisRound := r.thisRound
  previous := r.previous.map (fun m => BMap.ofList (m.toList.map (fun e => (e.1.groupUnder g, e.2))))
  combined := r.combined.map (TransitionInfo.mapSet (·.groupUnder g))

/-- `EchoRoundError` (`session/echo.rs:30-43`). -/
inductive EchoErr (sp : SP) where
  /-- `InvalidEchoError` (`session/echo.rs:46-48`) -/
  | invalidEcho (sender : sp.Id)
  /-- `MismatchedBroadcastsError` (`session/echo.rs:88-92`) -/
  | mismatched (guilty : sp.Id) (weReceived : SignedPart .echo) (echoed : SignedHash)

/-- `BoxedReceiveError` (`protocol/dyn_round.rs:340-354`).  A `BoxedProtocolError` (`dyn_evidence.rs:31-34`) is its
required messages and the result of serializing it (`dyn_evidence.rs:25-27`). -/
inductive RecvErr (sp : SP) where
  | local (e : LErr)
  | invalidDirect
  | invalidEcho
  | invalidNormal
  | protocol (required : RequiredMessages) (serialized : Except LErr Bytes)
  | unprovable (e : RErr)
  | echo (e : EchoErr sp)

/-- `BoxedReceiveError::group_under` (`protocol/dyn_round.rs:365-371`). -/
def RecvErr.groupUnder {sp : SP} (g : U8) : RecvErr sp → RecvErr sp
  | .protocol r s => .protocol (r.groupUnder g) s
  | e => e

/-- `EvidenceProtocolMessage` (`protocol/evidence.rs:52-56`). -/
structure EvMsg where
  direct : Option (Part .direct)
  normal : Option (Part .normal)
  echo : Option (Part .echo)
deriving DecidableEq

/-- `RoundInfo`/`DynRoundInfo` (`protocol/round_info.rs:13-44`). -/
structure RoundInfo (sp : SP) (Shared : Type) where
  directInvalid : Part .direct → Except EvErr Unit
  echoInvalid : Part .echo → Except EvErr Unit
  normalInvalid : Part .normal → Except EvErr Unit
  /-- arguments: round id, serialized error, guilty party, shared randomness, shared data, the message that triggered
  the error, the previous messages, the combined echos -/
  verifyEvidence : RoundId → Bytes → sp.Id → Bytes → Shared → EvMsg → BMap RoundId EvMsg →
    BMap RoundId (BMap sp.Id (Part .echo)) → Except EvErr Unit

/-- `FinalizeOutcome` (`protocol/round.rs:288-293`). -/
inductive Outcome (Rd Res : Type) where
  | anotherRound (r : Rd)
  | result (r : Res)

/-- `Protocol` (`protocol/round.rs:296-306`) together with the `DynRound` methods of its rounds
(`protocol/dyn_round.rs:70-109`). -/
structure Proto (sp : SP) where
  Rd : Type
  Payload : Type
  Artifact : Type
  Result : Type
  Shared : Type
  transition : Rd → TransitionInfo
  comm : Rd → CommInfo sp.Id
  makeDirect : Rd → sp.Rng → sp.Id → Except LErr (Part .direct × Artifact)
  makeEcho : Rd → sp.Rng → Except LErr (Part .echo)
  makeNormal : Rd → sp.Rng → Except LErr (Part .normal)
  receive : Rd → sp.Id → DynMsg → Except (RecvErr sp) Payload
  finalize : Rd → sp.Rng → BMap sp.Id Payload → BMap sp.Id Artifact → Except LErr (Outcome Rd Result)
  roundInfo : RoundId → Option (RoundInfo sp Shared)

/-- `EntryPoint` (`protocol/round.rs:313-331`). -/
structure EntryPoint {sp : SP} (P : Proto sp) where
  entryRoundId : RoundId
  makeRound : sp.Rng → Bytes → sp.Id → Except LErr P.Rd

end Manul
