import Verif.Model.Misbehave

/-!
# Specification: what `check_evidence` accepts
-/

namespace Manul

variable {sp : SP} {P : Proto sp}

/-- The report has exactly one provable error: evidence against party `t` that has the description and verifies. -/
def Report.Proves (t : sp.Id) (shared : P.Shared) (described : Evidence sp → Bool) (rep : Report P) : Prop :=
  ∃ ev, (∀ x, rep.provable.get? x = if x = t then some ev else none) ∧ described ev = true ∧ ev.verify P shared = .ok ()

/-- The misbehaviour of party `t` is detected: `t` has a report without provable errors, and all other reports prove it. -/
def Detected (t : sp.Id) (reports : BMap sp.Id (Report P)) (shared : P.Shared) (described : Evidence sp → Bool) : Prop :=
  (∃ rep, reports.get? t = some rep ∧ ∀ x, rep.provable.get? x = none) ∧
    ∀ i rep, i ≠ t → reports.get? i = some rep → rep.Proves t shared described

end Manul
