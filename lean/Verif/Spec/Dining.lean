import Verif.Model.Dining
import Verif.Spec.Network

/-! # Specification of the protocol of the dining cryptographers -/

namespace Manul

/-- The three diners. -/
def diners : BSet U8 := BSet.ofList [0, 1, 2]

/-- All three diners execute the protocol; the coins and who pays are arbitrary. -/
structure DiningParty {R : RandomSource} (g : Group (dining R).wrap) : Prop where
  parties : g.parties = diners
  start : ∀ i : U8, diners.contains i = true → ∀ rng, ∃ toss paid, (g.ep i).makeRound rng g.sid i = .ok (DinerSt.r1 i toss paid)

/-- Who is sent messages. -/
def diningDests (k : Nat) (i : U8) : BSet U8 := if k = 0 then BSet.ofList [dinerAt i 1] else otherDiners i

/-- Whose messages are expected. -/
def diningExpects (k : Nat) (i : U8) : BSet U8 := if k = 0 then BSet.ofList [dinerAt i 2] else otherDiners i

/-- The plan of the execution: messages to the neighbour, and then to everybody. -/
def diningPlan {R : RandomSource} (g : Group (dining R).wrap) : Plan (dining R).wrap where
  g := g
  rid k := RoundId.new (Fin.ofNat 256 (k + 1))
  echoAt _ := false
  n := 2
  dests := diningDests
  expects := diningExpects

/-- The bit of a diner: their own coin, the coin of the neighbour, and whether they paid. -/
def dinerBit (toss paid : U8 → Bool) (i : U8) : Bool := (toss i ^^ toss (dinerAt i 2)) ^^ paid i

end Manul
