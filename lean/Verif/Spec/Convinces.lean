import Verif.Model.Wire

/-!
# Specification: evidence sent to somebody as bytes
-/

namespace Manul

variable {sp : SP}

/-- Whoever reads the bytes as evidence finds that they accuse `x`, and gets the verdict from `verify`. -/
def ReadsAs (id : Codec sp.Id) (P : Proto sp) (shared : P.Shared) (b : Bytes) (x : sp.Id) (verdict : Except EvErr Unit) : Prop :=
  ∃ d, (Codec.evidence id).read b = some d ∧ d.guilty = x ∧ d.verify P shared = verdict

/-- The bytes are those of the evidence with some description, possibly with something after them. -/
def IsSentAs (id : Codec sp.Id) (ev : Evidence sp) (b : Bytes) : Prop :=
  ∃ (d : DEvidence sp) (rest : Bytes), d.guilty = ev.guilty ∧ d.body = ev.body ∧ b = (Codec.evidence id).enc d ++ rest

end Manul
