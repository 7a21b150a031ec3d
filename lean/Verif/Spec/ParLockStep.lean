import Verif.Spec.LockStep
import Verif.Spec.ParOpen

/-!
# Specification: how far apart parties using `par_run_session` are
-/

namespace Manul

variable {sp : SP} {P : Proto sp}

/-- The party has been in this round, or is in it, or has ended. -/
def ParHasEntered (n : PNet P) (x : sp.Id) (id : RoundId) : Prop :=
  (∃ s st, n.node x = some (.running s st) ∧ (s.transition.id = id ∨ Passed s id)) ∨ ∃ r, n.node x = some (.done r)

/-- Whatever round party `i` may be in, it expects a message from party `x`. -/
def ParAlwaysExpects (g : Group P) (i x : sp.Id) : Prop := ∀ s, ParVisitedBy g i s → s.comm.expecting.contains x = true

end Manul
