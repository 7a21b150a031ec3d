import Verif.Model.Driver
import Verif.Model.Extend

/-!
# What can be observed of a session, and what an extension is meant to do
-/

namespace Manul

variable {sp : SP}

/-- What can be observed of a run between two events: the round, the state of every message, and the report or error
at the end. -/
inductive Seen (sp : SP) (Payload Artifact Result : Type) where
  | running (round : RoundId) (destinations expecting : BSet sp.Id) (status : CanFinalize)
      (notSent processing : BSet sp.Id)
      (payloads : BMap sp.Id (Option Payload)) (artifacts : BMap sp.Id (Option Artifact))
      (cached : BMap sp.Id (BMap RoundId (VerifiedMessage sp)))
      (echos : BMap sp.Id (SignedPart .echo)) (normals : BMap sp.Id (SignedPart .normal))
      (directs : BMap sp.Id (SignedPart .direct))
      (provable : BMap sp.Id (Evidence sp)) (unprovable : BMap sp.Id RErr)
      (transcript : Transcript sp)
  | failed (e : LErr)
  | report (outcome : SessionOutcome Result) (provable : BMap sp.Id (Evidence sp)) (unprovable : BMap sp.Id RErr)
      (missing : BMap RoundId (BSet sp.Id))

/-- The observation of a state of the driver. -/
def RunState.seen {P : Proto sp} : RunState P → Seen sp P.Payload P.Artifact P.Result
  | .running s a => .running s.roundId s.comm.destinations s.comm.expecting a.canFinalize a.notSent a.processing
      a.payloads a.artifacts a.cached a.echos a.normals a.directs a.provable a.unprovable s.transcript
  | .done (.error e) => .failed e
  | .done (.ok r) => .report r.outcome r.provable r.unprovable r.missing

/-- Playing events one after another: for every event the messages sent out and the observation afterwards, `none` for
an event that cannot happen at that point (it is skipped). -/
def play {P : Proto sp} : RunState P → List (Event sp) →
    List (Option (List (Message sp) × Seen sp P.Payload P.Artifact P.Result))
  | _, [] => []
  | st, ev :: evs =>
    match step st ev with
    | none => none :: play st evs
    | some (st', out) => some (out, st'.seen) :: play st' evs

/-- Everything that can be observed of a session: creating it from an entry point, sending out the messages of the
first round, and then a list of events. -/
def behaviour {P : Proto sp} (ep : EntryPoint P) (sid : Bytes) (signer : sp.Signer) (rng rng' : sp.Rng)
    (evs : List (Event sp)) :
    Except LErr ((List (Message sp) × Seen sp P.Payload P.Artifact P.Result) ×
      List (Option (List (Message sp) × Seen sp P.Payload P.Artifact P.Result))) :=
  match Session.new rng sid signer ep with
  | .error e => .error e
  | .ok s =>
    match start s rng' with
    | (st, out) => .ok ((out, st.seen), play st evs)

/-- The round of the protocol a session is in: that round itself, or the one whose echo round is running. -/
def SRound.inner {P : Proto sp} : SRound P → P.Rd
  | .main r => r
  | .echo e => e.main

/-- A run is in a round satisfying `ok`, and so is any round it can enter next. -/
def RunState.Within {P : Proto sp} (ok : P.Rd → Prop) : RunState P → Prop
  | .done _ => True
  | .running s a => ok s.round.inner ∧ (a.canFinalize = .yes → ∀ rng r,
      s.round.finalize rng a.payloads a.artifacts = .ok (.anotherRound r) → ok r)

/-- Playing the events, a run stays in rounds satisfying `ok`. -/
def PlaysWithin {P : Proto sp} (ok : P.Rd → Prop) : RunState P → List (Event sp) → Prop
  | st, [] => st.Within ok
  | st, ev :: evs => st.Within ok ∧
    match step st ev with
    | none => PlaysWithin ok st evs
    | some (st', _) => PlaysWithin ok st' evs

/-- A session created from the entry point stays in rounds satisfying `ok`. -/
def BehavesWithin {P : Proto sp} (ok : P.Rd → Prop) (ep : EntryPoint P) (sid : Bytes) (signer : sp.Signer)
    (rng rng' : sp.Rng) (evs : List (Event sp)) : Prop :=
  (∀ r, ep.makeRound (sp.fork rng 0) sid (sp.verifyingKey signer) = .ok r → ok r) ∧
  ∀ s, Session.new rng sid signer ep = .ok s → PlaysWithin ok (start s rng').1 evs

/-- The protocol a set of extensions is meant to give: the rounds themselves are unchanged, and in a round whose type
has an extension the four extensible methods are those of the extension. -/
def overridden (P : Proto sp) {Tag : Type} (tag : P.Rd → Tag) (exts : Tag → Option (Ext P)) : Proto sp where
  Rd := P.Rd
  Payload := P.Payload
  Artifact := P.Artifact
  Result := P.Result
  Shared := P.Shared
  transition := P.transition
  comm := P.comm
  makeDirect := fun r => ((exts (tag r)).getD (Ext.default P)).makeDirect r
  makeEcho := fun r => ((exts (tag r)).getD (Ext.default P)).makeEcho r
  makeNormal := fun r => ((exts (tag r)).getD (Ext.default P)).makeNormal r
  receive := P.receive
  finalize := fun r => ((exts (tag r)).getD (Ext.default P)).finalize r
  roundInfo := P.roundInfo

/-- The entry point of the overridden protocol: the original one. -/
def overriddenEntry {P : Proto sp} {Tag : Type} (tag : P.Rd → Tag) (exts : Tag → Option (Ext P)) (ep : EntryPoint P) :
    EntryPoint (overridden P tag exts) where
  entryRoundId := ep.entryRoundId
  makeRound := ep.makeRound

end Manul
