import Verif.Spec.Par

/-!
# Specification: what a cancelled round reports as missing
-/

namespace Manul

variable {sp : SP} {P : Proto sp}

/-- How many of the messages are from a party. -/
def countFrom (x : sp.Id) (l : List (VerifiedMessage sp)) : Nat := (l.filter (fun m => decide (m.sender = x))).length

/-- How many messages of a party a round of the parallel driver has accepted: those it was entered with, and the one delivered. -/
def acceptedFrom (x : sp.Id) (cached : List (VerifiedMessage sp)) (st : ParSt P) : Nat :=
  countFrom x cached + if st.accum.processing.contains x then 1 else 0

/-- A report says that no message of a party arrived in a round. -/
def ReportedMissing (r : Report P) (rid : RoundId) (x : sp.Id) : Prop :=
  ∃ m, r.missing.get? rid = some m ∧ m.contains x = true

end Manul
