import Verif.Model.Evidence

/-!
# Local errors and panics while verifying evidence

Evidence comes from other parties, so verifying it should answer "valid" or "invalid" and not fail locally.
-/

namespace Manul

/-- If the result is a local error, that error is one of `Q`. -/
def LocalOnly {α : Type} (Q : LErr → Prop) (r : Except EvErr α) : Prop := ∀ e, r = .error (.local e) → Q e

/-- The result stands for a panic. -/
def Panics {α : Type} (r : Except EvErr α) : Prop := ∃ e, r = .error (.local e) ∧ e.isPanic = true

/-- The checks a protocol provides for verifying evidence (`RoundInfo`) only fail locally with errors of `Q`. -/
def ChecksLocalOnly {sp : SP} (Q : LErr → Prop) (P : Proto sp) : Prop :=
  ∀ rid info, P.roundInfo rid = some info →
    (∀ p, LocalOnly Q (info.directInvalid p)) ∧ (∀ p, LocalOnly Q (info.echoInvalid p)) ∧
    (∀ p, LocalOnly Q (info.normalInvalid p)) ∧
    ∀ rid' err guilty sid shared m prev comb, LocalOnly Q (info.verifyEvidence rid' err guilty sid shared m prev comb)

end Manul
