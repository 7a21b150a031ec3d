import Verif.Spec.Network

/-! # Specification: protocols that use no random numbers -/

namespace Manul

variable {sp : SP} {P : Proto sp}

/-- The callbacks do not depend on the random numbers they are given. -/
structure Group.Deterministic (g : Group P) : Prop where
  start : ∀ i rng rng', (g.ep i).makeRound rng g.sid i = (g.ep i).makeRound rng' g.sid i
  echo : ∀ r rng rng', P.makeEcho r rng = P.makeEcho r rng'
  normal : ∀ r rng rng', P.makeNormal r rng = P.makeNormal r rng'
  direct : ∀ r rng rng' j, P.makeDirect r rng j = P.makeDirect r rng' j
  finalize : ∀ r rng rng' ps arts, P.finalize r rng ps arts = P.finalize r rng' ps arts

end Manul
