import Verif.Model.Session

/-!
# Specification: authenticity and the preprocessing table
-/

namespace Manul

variable {sp : SP} {P : Proto sp}

/-- The signature attached to the part verifies under the key of `who`, for exactly the metadata and the part. -/
def SigValid (who : sp.Id) {k : PartKind} (p : SignedPart k) : Prop :=
  ∃ d sig, sp.messageDigest p.metadata (sp.partHash p.part) = .ok d ∧ sp.deSig p.sig = some sig ∧
    sp.verify who d sig = true

/-- The signature bytes cannot be decoded. -/
def SigUndecodable (sp : SP) {k : PartKind} (p : SignedPart k) : Prop := sp.deSig p.sig = none

/-- The signature can be decoded but does not verify. -/
def SigWrong (who : sp.Id) {k : PartKind} (p : SignedPart k) : Prop :=
  ∃ d sig, sp.messageDigest p.metadata (sp.partHash p.part) = .ok d ∧ sp.deSig p.sig = some sig ∧
    sp.verify who d sig = false

/-- The part is for the given session and round and signed by `who`. -/
def AuthenticPart (who : sp.Id) (sid : Bytes) (rid : RoundId) {k : PartKind} (p : SignedPart k) : Prop :=
  p.metadata = ⟨sid, rid⟩ ∧ SigValid who p

/-- All three parts are for the given session and round and signed by `who`. -/
def Authentic (who : sp.Id) (sid : Bytes) (rid : RoundId) (direct : SignedPart .direct) (echo : SignedPart .echo)
    (normal : SignedPart .normal) : Prop :=
  AuthenticPart who sid rid direct ∧ AuthenticPart who sid rid echo ∧ AuthenticPart who sid rid normal

/-- Somebody has an error recorded, in an earlier round or in this one. -/
def HasError (s : Session P) (a : Accum P) (who : sp.Id) : Prop :=
  (∃ e, s.transcript.provable.get? who = some e) ∨ (∃ e, s.transcript.unprovable.get? who = some e) ∨
    (∃ e, a.provable.get? who = some e) ∨ (∃ e, a.unprovable.get? who = some e)

/-- The round is one whose messages may arrive while the session is in its current round. -/
def Simultaneous (s : Session P) (r : RoundId) : Prop :=
  (if s.echoInfo.isSome then s.transition.id.echo = .ok r else s.transition.parents.contains r = true) ∨
    s.transition.siblings.contains r = true ∨ s.transition.children.contains r = true

/-- A message of the party for the round is in the cache. -/
def IsCached (a : Accum P) (who : sp.Id) (r : RoundId) : Prop :=
  ∃ e m, a.cached.get? who = some e ∧ e.get? r = some m

/-- The three parts disagree about their session or round. -/
def Incoherent (m : Message sp) : Prop :=
  m.echo.metadata ≠ m.direct.metadata ∨ m.normal.metadata ≠ m.direct.metadata

/-- Checking the signatures of the direct message, the echo broadcast and the normal broadcast in this order, the first
one that is not valid is undecodable. -/
def FirstBadUndecodable (who : sp.Id) (m : Message sp) : Prop :=
  SigUndecodable sp m.direct ∨ (SigValid who m.direct ∧ SigUndecodable sp m.echo) ∨
    (SigValid who m.direct ∧ SigValid who m.echo ∧ SigUndecodable sp m.normal)

/-- Checking the signatures in this order, the first one that is not valid is decodable but wrong. -/
def FirstBadWrong (who : sp.Id) (m : Message sp) : Prop :=
  SigWrong who m.direct ∨ (SigValid who m.direct ∧ SigWrong who m.echo) ∨
    (SigValid who m.direct ∧ SigValid who m.echo ∧ SigWrong who m.normal)

/-- What happens to a message. -/
inductive Verdict where
  /-- the sender is banned: nothing happens -/
  | ignore
  /-- an unprovable error is recorded for the sender -/
  | refuse (e : RErr)
  /-- it is returned for processing -/
  | process
  /-- it is kept for a later round -/
  | keep
deriving DecidableEq

/-- The message passes all checks up to the duplicate check and belongs to the current round. -/
def ForThisRound (s : Session P) (a : Accum P) (sender : sp.Id) (m : Message sp) : Prop :=
  ¬ HasError s a sender ∧ ¬ Incoherent m ∧ m.direct.metadata.sessionId = s.sessionId ∧
    m.direct.metadata.roundId = s.transition.id

/-- The message passes all checks up to the duplicate check and belongs to a simultaneous round. -/
def ForOtherRound (s : Session P) (a : Accum P) (sender : sp.Id) (m : Message sp) : Prop :=
  ¬ HasError s a sender ∧ ¬ Incoherent m ∧ m.direct.metadata.sessionId = s.sessionId ∧
    m.direct.metadata.roundId ≠ s.transition.id ∧ Simultaneous s m.direct.metadata.roundId

/-- The table. -/
inductive Row (s : Session P) (a : Accum P) (sender : sp.Id) (m : Message sp) : Verdict → Prop where
  | banned : HasError s a sender → Row s a sender m .ignore
  | metadata : ¬ HasError s a sender → Incoherent m → Row s a sender m (.refuse .metadata)
  | session : ¬ HasError s a sender → ¬ Incoherent m → m.direct.metadata.sessionId ≠ s.sessionId →
      Row s a sender m (.refuse .session)
  | round : ¬ HasError s a sender → ¬ Incoherent m → m.direct.metadata.sessionId = s.sessionId →
      m.direct.metadata.roundId ≠ s.transition.id → ¬ Simultaneous s m.direct.metadata.roundId →
      Row s a sender m (.refuse .unexpectedRound)
  | duplicate : ForThisRound s a sender m → a.processing.contains sender = true →
      Row s a sender m (.refuse .alreadyProcessing)
  | cachedTwice : ForOtherRound s a sender m → IsCached a sender m.direct.metadata.roundId →
      Row s a sender m (.refuse .alreadyCached)
  | badSignature₁ : ForThisRound s a sender m → a.processing.contains sender = false →
      FirstBadUndecodable sender m → Row s a sender m (.refuse .badSignature)
  | badSignature₂ : ForOtherRound s a sender m → ¬ IsCached a sender m.direct.metadata.roundId →
      FirstBadUndecodable sender m → Row s a sender m (.refuse .badSignature)
  | mismatch₁ : ForThisRound s a sender m → a.processing.contains sender = false →
      FirstBadWrong sender m → Row s a sender m (.refuse .sigMismatch)
  | mismatch₂ : ForOtherRound s a sender m → ¬ IsCached a sender m.direct.metadata.roundId →
      FirstBadWrong sender m → Row s a sender m (.refuse .sigMismatch)
  | process : ForThisRound s a sender m → a.processing.contains sender = false →
      Authentic sender s.sessionId s.transition.id m.direct m.echo m.normal → Row s a sender m .process
  | keep : ForOtherRound s a sender m → ¬ IsCached a sender m.direct.metadata.roundId →
      Authentic sender s.sessionId m.direct.metadata.roundId m.direct m.echo m.normal → Row s a sender m .keep

/-- The message as it is handed on. -/
def verifiedOf (sender : sp.Id) (m : Message sp) : VerifiedMessage sp :=
  ⟨sender, m.direct.metadata, m.direct, m.echo, m.normal⟩

/-- The new accumulator and the answer. -/
def Verdict.effect (a : Accum P) (sender : sp.Id) (m : Message sp) : Verdict → Accum P × PreOutcome sp
  | .ignore => (a, .error .banned)
  | .refuse e => ({ a with unprovable := a.unprovable.insert sender e }, .error e)
  | .process => ({ a with processing := BSet.insert a.processing sender }, .toProcess (verifiedOf sender m))
  | .keep =>
    let entry := ((a.cached.get? sender).getD BMap.empty).insert m.direct.metadata.roundId (verifiedOf sender m)
    ({ a with cached := a.cached.insert sender entry }, .cached)

end Manul
