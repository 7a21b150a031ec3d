import Verif.Spec.Open

/-!
# Specification: several sessions at once

The same parties, with the same keys, execute any number of sessions of any protocols.  As in `Spec/Open` everything but the
parties in `H` belongs to an adversary, who can use what they have sent in one session in another.
-/

namespace Manul

variable {sp : SP}

/-- Sessions: their protocols and the groups executing them.  (A party takes part in a session if it is started in it.) -/
structure Sessions (sp : SP) (K : Type) where
  proto : K → Proto sp
  group : (k : K) → Group (proto k)

/-- The states of all sessions. -/
abbrev Nets {K : Type} (S : Sessions sp K) := (k : K) → Net (S.proto k)

/-- Signatures of the parties in `H` are not forged: whatever verifies under one of their keys for one of the sessions, they have
sent, in whichever session. -/
structure UnforgedAll {K : Type} (S : Sessions sp K) (H : sp.Id → Prop) (n : Nets S) (m : Message sp) : Prop where
  direct : ∀ x k, H x → SigValid x m.direct → m.direct.metadata.sessionId = (S.group k).sid →
    ∃ k', ∃ q ∈ (n k').wire, q.src = x ∧ q.message.direct.metadata = m.direct.metadata ∧ q.message.direct.part = m.direct.part
  echo : ∀ x k, H x → SigValid x m.echo → m.echo.metadata.sessionId = (S.group k).sid →
    ∃ k', ∃ q ∈ (n k').wire, q.src = x ∧ q.message.echo.metadata = m.echo.metadata ∧ q.message.echo.part = m.echo.part
  normal : ∀ x k, H x → SigValid x m.normal → m.normal.metadata.sessionId = (S.group k).sid →
    ∃ k', ∃ q ∈ (n k').wire, q.src = x ∧ q.message.normal.metadata = m.normal.metadata ∧ q.message.normal.part = m.normal.part

/-- One step of a session in which only messages allowed by `may` are delivered (`OpenStep` for any condition on messages). -/
inductive StepIf {P : Proto sp} (may : Message sp → Prop) (g : Group P) (H : sp.Id → Prop) : Net P → Net P → Prop where
  | start {n : Net P} {i : sp.Id} (rng rng' : sp.Rng) : H i → n.node i = none →
      StepIf may g H n (n.put i (g.startNode i rng rng').1 (g.startNode i rng rng').2)
  | act {n : Net P} {i : sp.Id} {st st' : RunState P} {ev : Event sp} {out : List (Message sp)} : n.node i = some st →
      (∀ y m, ev = .deliver y m → may m) → step st ev = some (st', out) → StepIf may g H n (n.put i st' out)
  | startFails {n : Net P} {i : sp.Id} {s₀ : Session P} {e : LErr} {out : List (Message sp)} (rng rng' : sp.Rng) : H i →
      n.node i = none → Session.new rng g.sid (g.signer i) (g.ep i) = .ok s₀ → startRound s₀ rng' [] = .error e →
      (∀ m ∈ out, MadeIn s₀ m) → StepIf may g H n (n.put i (.done (.error e)) out)
  | enterFails {n : Net P} {i : sp.Id} {s s' : Session P} {a : Accum P} {cached : List (VerifiedMessage sp)} {e : LErr}
      {out : List (Message sp)} (rng rng' : sp.Rng) : n.node i = some (.running s a) → a.canFinalize = .yes →
      s.finalizeRound rng a = .ok (.anotherRound s' cached) → startRound s' rng' cached = .error e →
      (∀ m ∈ out, MadeIn s' m) → StepIf may g H n (n.put i (.done (.error e)) out)

/-- One of the sessions makes a step. -/
inductive MultiStep {K : Type} [DecidableEq K] (S : Sessions sp K) (H : sp.Id → Prop) (n : Nets S) : Nets S → Prop where
  | step (k : K) {n' : Net (S.proto k)} : StepIf (UnforgedAll S H n) (S.group k) H (n k) n' →
      MultiStep S H n (Function.update n k n')

/-- What the sessions can reach. -/
inductive MultiReach {K : Type} [DecidableEq K] (S : Sessions sp K) (H : sp.Id → Prop) : Nets S → Prop where
  | init : MultiReach S H (fun _ => Net.init)
  | step {n n' : Nets S} : MultiReach S H n → MultiStep S H n n' → MultiReach S H n'

/-- No two sessions have the same id. -/
def Sessions.Distinct {K : Type} (S : Sessions sp K) : Prop := ∀ k k', (S.group k).sid = (S.group k').sid → k = k'

end Manul
