import Mathlib.Logic.Relation
import Verif.Spec.Run

/-!
# Specification: the order of rounds
-/

namespace Manul

variable {sp : SP}

/-- A round with the first id declares the second one as a child. -/
def ChildOf (P : Proto sp) (a b : RoundId) : Prop :=
  ∃ r, (P.transition r).id = a ∧ (P.transition r).children.contains b = true

/-- No round is its own descendant. -/
def Acyclic (P : Proto sp) : Prop := ∀ a, ¬ Relation.TransGen (ChildOf P) a a

/-- The protocol does not use the ids reserved for echo rounds. -/
def MainIds (P : Proto sp) : Prop := ∀ r, (P.transition r).id.isEcho = false

/-- The round ids of a run so far. -/
def trailIds {P : Proto sp} (trail : List (Session P × Accum P)) : List RoundId := trail.map (fun q => q.1.transition.id)

end Manul
