import Verif.Model.Wire

/-!
# Specification: a binary format
-/

namespace Manul

/-- What one expects of an encoder `enc` and a decoder `dec`. -/
structure Codec.Exact {α : Type} (c : Codec α) : Prop where
  /-- what was written is read back, and what follows it is left -/
  trip : ∀ a rest, c.dec (c.enc a ++ rest) = some (a, rest)
  /-- what is read is the beginning, and what comes later does not matter -/
  reads : ∀ b a rest, c.dec b = some (a, rest) → ∃ used, b = used ++ rest ∧ (∀ r, c.dec (used ++ r) = some (a, r)) ∧
    (c.enc a).length ≤ used.length

end Manul
