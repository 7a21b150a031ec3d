import Verif.Spec.Deviate
import Verif.Spec.Extend

/-!
# Specification: a party whose extensions change its direct messages
-/

namespace Manul

variable {sp : SP} {P : Proto sp} {Tag : Type}

/-- The rounds of party `t` (those satisfying `inv` at each stage) have extensions that change nothing but direct messages, and only
from stage `K` on; the others reject those of stage `K`, and can make evidence of this as described by `ch`. -/
structure Misdirects (sc : Scheme P) (tag : P.Rd → Tag) (exts : Tag → Option (Ext P)) (t : sp.Id) (K : Nat)
    (ch : Charge sp) (inv : Nat → P.Rd → Prop) : Prop where
  party : sc.g.parties.contains t = true
  stage : K < sc.n
  expected : ∀ i, sc.g.parties.contains i = true → i ≠ t → (sc.expects K i).contains t = true
  start : ∀ rng r, (sc.g.ep t).makeRound rng sc.g.sid t = .ok r → inv 0 r
  next : ∀ {k r}, inv k r → ∀ rng ps as q, P.finalize r rng ps as = .ok (.anotherRound q) → inv (k + 1) q
  makeEcho : ∀ {k r x}, inv k r → exts (tag r) = some x → ∀ rng, x.makeEcho r rng = P.makeEcho r rng
  makeNormal : ∀ {k r x}, inv k r → exts (tag r) = some x → ∀ rng, x.makeNormal r rng = P.makeNormal r rng
  finalize : ∀ {k r x}, inv k r → exts (tag r) = some x → ∀ rng ps as, x.finalize r rng ps as = P.finalize r rng ps as
  makeDirect : ∀ {k r x}, inv k r → exts (tag r) = some x → ∀ rng j p art, P.makeDirect r rng j = .ok (p, art) →
    ∃ p', x.makeDirect r rng j = .ok (p', art) ∧ (k < K → p' = p)
  rejected : ∀ (G : History P) i (ci ct : Cell P) rng p art, Honest sc.g G → sc.g.parties.contains i = true → i ≠ t →
    (G i)[K]? = some ci → (G t)[K]? = some ct → inv K ct.rd → (overridden P tag exts).makeDirect ct.rd rng i = .ok (p, art) →
    ∃ err, P.receive ci.rd t ⟨ct.echo, ct.normal, p⟩ = .error err ∧ err.Provable ∧ ch.error err
  evidence : ∀ i, sc.g.parties.contains i = true → i ≠ t → ∀ rng s₀,
    Session.new rng sc.g.sid (sc.g.signer i) (sc.g.ep i) = .ok s₀ → ∀ s a, Reach s₀ (.running s a) →
    s.transition.id = sc.rid K → MakesEvidence ch s

/-- Party `t` has the extensions, the others have none. -/
def onlyAt (t : sp.Id) (exts : Tag → Option (Ext P)) (i : sp.Id) : Tag → Option (Ext P) := if i = t then exts else fun _ => none

end Manul
