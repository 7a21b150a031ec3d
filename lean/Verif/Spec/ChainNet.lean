import Verif.Spec.Network
import Verif.Model.Chain

/-!
# Specification: executions of a chained protocol by all its parties

A plan for a chained protocol consists of a plan for the first protocol and, for all results the parties may obtain in it, a
plan for the second one.
-/

namespace Manul

variable {sp : SP} {P1 P2 : Proto sp}

/-- How the execution of a chained protocol goes: the plan of the first protocol, the data each party keeps for the join, and
the stages of the second protocol. -/
structure ChainPlan {sp : SP} {P1 P2 : Proto sp} (J : ChainJoin P1 P2) where
  pl1 : Plan P1
  data : sp.Id → J.Data
  rid2 : Nat → RoundId
  echoAt2 : Nat → Bool
  n2 : Nat
  dests2 : Nat → sp.Id → BSet sp.Id
  expects2 : Nat → sp.Id → BSet sp.Id

namespace ChainPlan

variable {J : ChainJoin P1 P2}

/-- The parties execute the second protocol, each with the entry point made from its result of the first one. -/
def group2 (c : ChainPlan J) (res : sp.Id → P1.Result) : Group P2 where
  parties := c.pl1.g.parties
  signer := c.pl1.g.signer
  ep i := ⟨J.entryRoundId, J.makeRound2 (c.data i) (res i)⟩
  sid := c.pl1.g.sid

/-- The plan for the second protocol. -/
def plan2 (c : ChainPlan J) (res : sp.Id → P1.Result) : Plan P2 :=
  ⟨c.group2 res, c.rid2, c.echoAt2, c.n2, c.dests2, c.expects2⟩

/-- The parties execute the chained protocol. -/
def group (c : ChainPlan J) : Group (chain P1 P2 J) where
  parties := c.pl1.g.parties
  signer := c.pl1.g.signer
  ep i := chainEntry (c.pl1.g.ep i) (c.data i)
  sid := c.pl1.g.sid

/-- Stage by stage, first the one protocol and then the other. -/
def both {α : Type} (c : ChainPlan J) (f1 f2 : Nat → α) (k : Nat) : α := if k < c.pl1.n then f1 k else f2 (k - c.pl1.n)

/-- The plan for the chained protocol. -/
def plan (c : ChainPlan J) : Plan (chain P1 P2 J) where
  g := c.group
  rid := c.both (fun k => (c.pl1.rid k).groupUnder 1) (fun k => (c.rid2 k).groupUnder 2)
  echoAt := c.both c.pl1.echoAt c.echoAt2
  n := c.pl1.n + c.n2
  dests := c.both c.pl1.dests c.dests2
  expects := c.both c.pl1.expects c.expects2

/-- The given parties have executed the first protocol and obtained these results. -/
def Obtained (c : ChainPlan J) (G : History P1) (D : sp.Id → Prop) (res : sp.Id → P1.Result) : Prop :=
  ∀ i, D i → c.pl1.g.parties.contains i = true ∧ (G i).length = c.pl1.n ∧ ∃ rng, Finalizes G i rng (.result (res i))

/-- The first protocol is cooperative, and so is the second one, with the entry points made from any results of the first one.
The rounds of the first protocol that give a result declare so, and the entry point of the second one declares its first round.
At the join, as elsewhere, parties send messages only to those they have heard from in the stage before. -/
structure Cooperates (c : ChainPlan J) : Prop where
  first : Cooperative c.pl1
  second : ∀ G D res, Honest c.pl1.g G → c.Obtained G D res →
    ∃ res', (∀ i, D i → res' i = res i) ∧ Cooperative (c.plan2 res')
  results : Nonempty P1.Result
  mayResult : ∀ G i r, Honest c.pl1.g G → c.pl1.g.parties.contains i = true → Entering c.pl1.g G i r →
    (G i).length + 1 = c.pl1.n → (P1.transition r).mayProduceResult = true
  entry : J.entryRoundId = c.rid2 0
  windowJoin : ∀ i j, 1 < c.pl1.n → c.pl1.g.parties.contains i = true → (c.dests2 0 i).contains j = true →
    (c.pl1.expects (c.pl1.n - 1) i).contains j = true
  windowSecond : ∀ i j, 1 < c.n2 → c.pl1.g.parties.contains i = true → (c.dests2 1 i).contains j = true →
    (c.expects2 0 i).contains j = true

end ChainPlan

end Manul
