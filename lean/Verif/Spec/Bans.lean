import Verif.Spec.Auth
import Verif.Spec.Run

/-!
# Specification: why a session holds something against a party
-/

namespace Manul

variable {sp : SP} {P : Proto sp}

/-- A message given to a running session in the name of somebody, and the state of the session at that time. -/
structure Delivery (P : Proto sp) where
  session : Session P
  accum : Accum P
  sender : sp.Id
  message : Message sp

/-- A run of `run_session`, with all messages given to it in order. -/
inductive ReachVia (s₀ : Session P) : List (Delivery P) → RunState P → Prop where
  | start (rng : sp.Rng) : ReachVia s₀ [] (start s₀ rng).1
  | step {l : List (Delivery P)} {st st' : RunState P} {ev : Event sp} {out : List (Message sp)} : ReachVia s₀ l st →
      (∀ x m, ev ≠ .deliver x m) → step st ev = some (st', out) → ReachVia s₀ l st'
  | deliver {l : List (Delivery P)} {s : Session P} {a : Accum P} {st' : RunState P} {x : sp.Id} {m : Message sp}
      {out : List (Message sp)} : ReachVia s₀ l (.running s a) → step (.running s a) (.deliver x m) = some (st', out) →
      ReachVia s₀ (l ++ [⟨s, a, x, m⟩]) st'

/-- The session objects of the rounds of a run of `run_session`. -/
def InRun (s₀ s : Session P) : Prop := ∃ trail cached, Visits s₀ trail s cached

/-- Why the error `r` is recorded for party `x`, if `l` are the messages that have been given to the session, and `V` the session
objects of its rounds. -/
inductive Cause (V : Session P → Prop) (l : List (Delivery P)) (x : sp.Id) : RErr → Prop where
  /-- a message in the name of `x` was refused because of its contents (the table of C02) -/
  | message {d : Delivery P} {r : RErr} : d ∈ l → d.sender = x → Row d.session d.accum x d.message (.refuse r) →
      r ≠ .alreadyProcessing → r ≠ .alreadyCached → Cause V l x r
  /-- a message in the name of `x` was refused because an earlier one for the same session and round, which `x` has signed, was not -/
  | repeated {l₁ l₂ : List (Delivery P)} {d d' : Delivery P} {r : RErr} : l = l₁ ++ d :: l₂ → d' ∈ l₁ → d.sender = x →
      d'.sender = x → Row d.session d.accum x d.message (.refuse r) → r = .alreadyProcessing ∨ r = .alreadyCached →
      Authentic x d.message.direct.metadata.sessionId d.message.direct.metadata.roundId d'.message.direct d'.message.echo
        d'.message.normal → Cause V l x r
  /-- a round of the session has refused a message in the name of `x`, which `x` has signed for that round -/
  | processed {d : Delivery P} {s : Session P} {r : RErr} : d ∈ l → d.sender = x → V s →
      Authentic x s.sessionId s.transition.id d.message.direct d.message.echo d.message.normal →
      s.round.receive x ⟨d.message.echo.part, d.message.normal.part, d.message.direct.part⟩ = .error (.unprovable r) →
      Cause V l x r

/-- All parts of the message are signed by the party in whose name it was given, for the session and one round. -/
def Delivery.Signed (sid : Bytes) (d : Delivery P) : Prop :=
  ∃ rid, Authentic d.sender sid rid d.message.direct d.message.echo d.message.normal

/-- No two messages in the name of `x` are for the same round. -/
def OncePerRound (x : sp.Id) (l : List (Delivery P)) : Prop :=
  l.Pairwise (fun d d' => d.sender = x → d'.sender = x → d.message.direct.metadata.roundId ≠ d'.message.direct.metadata.roundId)

/-- The party is listed in the report as guilty, with or without proof. -/
def Report.Faults (rep : Report P) (x : sp.Id) : Prop :=
  (∃ ev, rep.provable.get? x = some ev) ∨ ∃ r, rep.unprovable.get? x = some r

end Manul
