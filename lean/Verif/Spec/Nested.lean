import Verif.Spec.Crash
import Verif.Spec.Evidence
import Verif.Model.Chain
import Verif.Model.Extend

/-!
# Specification: protocols built of other protocols
-/

namespace Manul

variable {sp : SP}

/-- What the results about networks (C54–C57, C72, C73) ask of a protocol. -/
structure NetReady (P : Proto sp) : Prop where
  mainIds : MainIds P
  acyclic : Acyclic P
  strict : EchoStrict P
  noEchoErr : NoEchoErr P

/-- The protocol is made of protocols satisfying `Base` by chaining them, to any depth and in any order, with any joins. -/
inductive Nested (Base : Proto sp → Prop) : Proto sp → Prop where
  | base {P : Proto sp} : Base P → Nested Base P
  | chain {P1 P2 : Proto sp} (J : ChainJoin P1 P2) : Nested Base P1 → Nested Base P2 → Nested Base (Manul.chain P1 P2 J)

/-- Rounds whose messages may be echoed do not accept messages without an echo broadcast, whether or not this node sends one. -/
def EchoAlways (P : Proto sp) : Prop :=
  ∀ r x m v, ((P.comm r).participation = .default ∨ ∃ targets, (P.comm r).participation = .receive targets) →
    P.receive r x m = .ok v → m.echo.isNone = false

end Manul
