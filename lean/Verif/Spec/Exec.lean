import Verif.Spec.Run

/-!
# Specification: executions of a protocol

The execution of a protocol by one party as a sequence of rounds, without sessions: in every round the party makes messages,
turns messages received into payloads, and finalizes the round with these payloads and the artifacts of the messages made.
-/

namespace Manul

variable {sp : SP}

/-- What happens in one round. -/
structure RoundTrace (sp : SP) where
  id : RoundId
  comm : CommInfo sp.Id
  /-- the echo broadcast, if one is made, and the random numbers used -/
  echo : Option (sp.Rng × Part .echo)
  normal : Option (sp.Rng × Part .normal)
  /-- the direct messages made -/
  directs : BMap sp.Id (sp.Rng × Part .direct)
  /-- the messages received and accepted -/
  received : BMap sp.Id DynMsg
  /-- the random numbers used in finalization -/
  finRng : sp.Rng

/-- The round produces the messages of the trace, leaving the artifacts `as`, and accepts the messages of the trace, giving the
payloads `ps`. -/
structure Performs (P : Proto sp) (r : P.Rd) (t : RoundTrace sp) (ps : BMap sp.Id P.Payload) (as : BMap sp.Id P.Artifact) :
    Prop where
  id : t.id = (P.transition r).id
  comm : t.comm = P.comm r
  echo : ∀ rng p, t.echo = some (rng, p) → P.makeEcho r rng = .ok p
  normal : ∀ rng p, t.normal = some (rng, p) → P.makeNormal r rng = .ok p
  directs : ∀ x rng p, t.directs.get? x = some (rng, p) → ∃ a, P.makeDirect r rng x = .ok (p, a) ∧ as.get? x = some a
  noDirect : ∀ x, t.directs.get? x = none → as.get? x = none
  received : ∀ x m, t.received.get? x = some m → ∃ v, P.receive r x m = .ok v ∧ ps.get? x = some v
  notReceived : ∀ x, t.received.get? x = none → ps.get? x = none

/-- The protocol, in round `r`, goes through the rounds of the trace and returns the result. -/
inductive Exec (P : Proto sp) : P.Rd → List (RoundTrace sp) → P.Result → Prop where
  | last {r : P.Rd} {t : RoundTrace sp} {ps : BMap sp.Id P.Payload} {as : BMap sp.Id P.Artifact} {res : P.Result} :
      Performs P r t ps as → P.finalize r t.finRng ps as = .ok (.result res) → Exec P r [t] res
  | step {r r' : P.Rd} {t : RoundTrace sp} {ts : List (RoundTrace sp)} {ps : BMap sp.Id P.Payload}
      {as : BMap sp.Id P.Artifact} {res : P.Result} :
      Performs P r t ps as → P.finalize r t.finRng ps as = .ok (.anotherRound r') → Exec P r' ts res → Exec P r (t :: ts) res

/-- The protocol goes from `r` through the rounds of the trace to `r'`. -/
inductive ExecTo (P : Proto sp) : P.Rd → List (RoundTrace sp) → P.Rd → Prop where
  | refl {r : P.Rd} : ExecTo P r [] r
  | step {r r' r'' : P.Rd} {t : RoundTrace sp} {ts : List (RoundTrace sp)} {ps : BMap sp.Id P.Payload}
      {as : BMap sp.Id P.Artifact} :
      Performs P r t ps as → P.finalize r t.finRng ps as = .ok (.anotherRound r') → ExecTo P r' ts r'' → ExecTo P r (t :: ts) r''

/-- A round as a session of the given id executes it: it receives the messages of exactly the parties expected, signed by them for
this session and round, and makes direct messages for exactly the destinations, and broadcasts if there are any destinations. -/
structure InSession (sid : Bytes) (t : RoundTrace sp) : Prop where
  received : ∀ x, t.received.contains x = t.comm.expecting.contains x
  signed : ∀ x m, t.received.get? x = some m → ∃ (d : SignedPart .direct) (e : SignedPart .echo) (n : SignedPart .normal),
    Authentic x sid t.id d e n ∧ m = ⟨e.part, n.part, d.part⟩
  directs : ∀ x, t.directs.contains x = t.comm.destinations.contains x
  echo : t.echo.isSome = !t.comm.destinations.isEmpty
  normal : t.normal.isSome = !t.comm.destinations.isEmpty

/-- The ids of the rounds of the protocol (leaving out echo rounds) a run has gone through. -/
def mainIds {P : Proto sp} (trail : List (Session P × Accum P)) : List RoundId :=
  trail.filterMap (fun q =>
    match q.1.round with
    | .main r => some (P.transition r).id
    | .echo _ => none)

/-- The same happens in both rounds: all messages are the same, the id of the round of the chain carries the group, and the
sub-protocol's round is finalized with the random numbers `fk` takes from those of the chain. -/
structure SameRound (g : U8) (fk : sp.Rng → sp.Rng) (c t : RoundTrace sp) : Prop where
  id : c.id = t.id.groupUnder g
  comm : c.comm = t.comm
  echo : c.echo = t.echo
  normal : c.normal = t.normal
  directs : c.directs = t.directs
  received : c.received = t.received
  finRng : t.finRng = fk c.finRng

/-- Every round only takes the transitions it declares. -/
structure Declared (P : Proto sp) : Prop where
  next : ∀ r rng ps as r', FinalizeArgs P r ps as → P.finalize r rng ps as = .ok (.anotherRound r') →
    (P.transition r).children.contains (P.transition r').id = true
  result : ∀ r rng ps as res, FinalizeArgs P r ps as → P.finalize r rng ps as = .ok (.result res) →
    (P.transition r).mayProduceResult = true

/-- A round follows another in some execution. -/
inductive Follows (P : Proto sp) : P.Rd → P.Rd → Prop where
  | refl {r : P.Rd} : Follows P r r
  | next {r r' r'' : P.Rd} {rng : sp.Rng} {ps : BMap sp.Id P.Payload} {as : BMap sp.Id P.Artifact} :
      Follows P r r' → FinalizeArgs P r' ps as → P.finalize r' rng ps as = .ok (.anotherRound r'') → Follows P r r''

/-- Parents and children agree: of the rounds following `r₀`, one declares another as its child exactly if the other declares it
as its parent. -/
def Consistent (P : Proto sp) (r₀ : P.Rd) : Prop :=
  ∀ r r', Follows P r₀ r → Follows P r₀ r' →
    ((P.transition r).children.contains (P.transition r').id = true ↔
      (P.transition r').parents.contains (P.transition r).id = true)

end Manul
