import Verif.Spec.Auth
import Verif.Spec.Par

/-!
# Specification: runs of a session, round by round
-/

namespace Manul

variable {sp : SP} {P : Proto sp}

/-- A run started with `s₀` has finished the rounds of `trail` (each with its final accumulator) and is in the round of `s`,
which it entered with the messages `cached`. -/
inductive Visits (s₀ : Session P) : List (Session P × Accum P) → Session P → List (VerifiedMessage sp) → Prop where
  | first : Visits s₀ [] s₀ []
  | next {trail : List (Session P × Accum P)} {s s' : Session P} {cached cached' : List (VerifiedMessage sp)}
      {rng rng' : sp.Rng} {l : List (sp.Id × Message sp)} {a : Accum P} :
      Visits s₀ trail s cached → SeqRound s rng cached l a → a.canFinalize = .yes →
      s.finalizeRound rng' a = .ok (.anotherRound s' cached') → Visits s₀ (trail ++ [(s, a)]) s' cached'

/-- A run is in the round of `s` with accumulator `a`. -/
def InRound (s₀ : Session P) (trail : List (Session P × Accum P)) (s : Session P) (a : Accum P) : Prop :=
  ∃ cached rng l, Visits s₀ trail s cached ∧ SeqRound s rng cached l a

/-- How a run ends with a report. -/
inductive EndKind (Res : Type) where
  /-- `Round::finalize` returned a result -/
  | result (r : Res)
  /-- the round could not be finalized any more -/
  | errors
  /-- cancelled by the user -/
  | cancelled

/-- A run ends in the round of `s` with accumulator `a` and report `r`. -/
inductive Ends (s₀ : Session P) (trail : List (Session P × Accum P)) (s : Session P) (a : Accum P) (r : Report P) :
    EndKind P.Result → Prop where
  | result {rng : sp.Rng} {res : P.Result} : InRound s₀ trail s a → a.canFinalize = .yes →
      s.finalizeRound rng a = .ok (.finished r) → s.echoInfo = none →
      s.round.finalize (sp.fork rng 0) a.payloads a.artifacts = .ok (.result res) → Ends s₀ trail s a r (.result res)
  | errors : InRound s₀ trail s a → a.canFinalize = .never → s.terminateDueToErrors a = .ok r →
      Ends s₀ trail s a r .errors
  | cancelled : InRound s₀ trail s a → a.canFinalize = .notYet → s.terminateDueToErrors a = .ok r →
      Ends s₀ trail s a r .cancelled

/-- The round object whose `finalize` is called in the round, with the payloads and artifacts it is given before they are
downcast. -/
def finalizing (s : Session P) (a : Accum P) :
    P.Rd × BMap sp.Id (Option P.Payload) × BMap sp.Id (Option P.Artifact) :=
  match s.round with
  | .main r => (r, a.payloads, a.artifacts)
  | .echo e => (e.main, e.payloads, e.artifacts)

/-- The payload is what the round makes of three parts signed by the party for this session and round. -/
def SignedPayload (P : Proto sp) (sid : Bytes) (r : P.Rd) (x : sp.Id) (v : P.Payload) : Prop :=
  ∃ (d : SignedPart .direct) (e : SignedPart .echo) (n : SignedPart .normal),
    Authentic x sid (P.transition r).id d e n ∧ P.receive r x ⟨e.part, n.part, d.part⟩ = .ok v

/-- What `finalize` of a round is called with: payloads the round has made of messages of exactly the expected parties, and
artifacts it has made for exactly the destinations. -/
structure FinalizeArgs (P : Proto sp) (r : P.Rd) (ps : BMap sp.Id P.Payload) (as : BMap sp.Id P.Artifact) : Prop where
  payloadKeys : ∀ x, ps.contains x = (P.comm r).expecting.contains x
  artifactKeys : ∀ x, as.contains x = (P.comm r).destinations.contains x
  payload : ∀ x w, ps.get? x = some w → ∃ m, P.receive r x m = .ok w
  artifact : ∀ x w, as.get? x = some w → ∃ rng p, P.makeDirect r rng x = .ok (p, w)

/-- Any number of steps of the driver. -/
inductive Steps : RunState P → RunState P → Prop where
  | refl {st : RunState P} : Steps st st
  | step {st st' st'' : RunState P} {ev : Event sp} {out : List (Message sp)} :
      Steps st st' → step st' ev = some (st'', out) → Steps st st''

end Manul
