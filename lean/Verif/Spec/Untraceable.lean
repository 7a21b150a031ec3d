import Verif.Spec.Dining

/-!
# Specification: what a dining cryptographer knows of the others

`/repo/examples/dining_cryptographers.rs:29-32`: if one of the cryptographers paid, the others do not learn who.
-/

namespace Manul

variable {R : RandomSource}

/-- Every diner can have tossed either side, and can have paid or not. -/
def AnyCoins (g : Group (dining R).wrap) : Prop :=
  ∀ (i : U8) (toss paid : Bool), diners.contains i = true → ∃ rng, (g.ep i).makeRound rng g.sid i = .ok (DinerSt.r1 i toss paid)

/-- Whether a diner has paid. -/
def DinerSt.hasPaid : DinerSt → Bool
  | .r1 _ _ paid => paid
  | .r2 _ _ _ paid => paid

/-- In all its rounds, the diner has this answer to whether they paid. -/
def Pays (G : History (dining R).wrap) (i : U8) (paid : Bool) : Prop := ∀ c ∈ G i, DinerSt.hasPaid c.rd = paid

/-- Diner `i` sees the same in both executions: the own rounds with the own coin and all messages made in them, how far the others
are, all broadcasts of the others, and the direct messages of the others to `i`. -/
structure SameView (i : U8) (G G' : History (dining R).wrap) : Prop where
  own : G' i = G i
  stages : ∀ j, (G' j).length = (G j).length
  broadcasts : ∀ j (k : Nat) c c', (G j)[k]? = some c → (G' j)[k]? = some c' → c'.echo = c.echo ∧ c'.normal = c.normal
  directs : ∀ j (k : Nat) c c', (G j)[k]? = some c → (G' j)[k]? = some c' → c'.directs.get? i = c.directs.get? i

end Manul
