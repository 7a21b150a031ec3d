import Verif.Model.Network
import Verif.Spec.Assumptions
import Verif.Spec.Auth

/-!
# Specification: honest executions of a protocol by all its parties

Histories record, without sessions, what each party has done in each stage.  A protocol is cooperative if its callbacks succeed
in all such histories.
-/

namespace Manul

variable {sp : SP} {P : Proto sp}

/-- What a party does in one stage of the protocol: its round object, its broadcasts, and its direct messages with their
artifacts. -/
structure Cell {sp : SP} (P : Proto sp) where
  rd : P.Rd
  echo : Part .echo
  normal : Part .normal
  directs : BMap sp.Id (Part .direct × P.Artifact)

/-- What each party has done so far, stage by stage. -/
abbrev History {sp : SP} (P : Proto sp) := sp.Id → List (Cell P)

/-- The other parties. -/
def Group.others (g : Group P) (i : sp.Id) : BSet sp.Id := g.parties.erase i

/-- The messages are made by the round object: a direct message for each of its destinations, and broadcasts if there are
any. -/
structure Cell.Made (c : Cell P) : Prop where
  alone : (P.comm c.rd).destinations.isEmpty = true → c.echo = Part.none ∧ c.normal = Part.none
  echo : (P.comm c.rd).destinations.isEmpty = false → ∃ rng, P.makeEcho c.rd rng = .ok c.echo
  normal : (P.comm c.rd).destinations.isEmpty = false → ∃ rng, P.makeNormal c.rd rng = .ok c.normal
  dests : ∀ j, c.directs.contains j = (P.comm c.rd).destinations.contains j
  direct : ∀ j x, c.directs.get? j = some x → ∃ rng, P.makeDirect c.rd rng j = .ok x

/-- The payloads party `i` makes in stage `k` of the messages of the parties its round expects messages from. -/
structure PayloadsOf (G : History P) (i : sp.Id) (k : Nat) (ps : BMap sp.Id P.Payload) : Prop where
  keys : ∃ c, (G i)[k]? = some c ∧ ∀ j, ps.contains j = (P.comm c.rd).expecting.contains j
  value : ∀ j v, ps.get? j = some v → ∃ ci cj p art, (G i)[k]? = some ci ∧ (G j)[k]? = some cj ∧
    cj.directs.get? i = some (p, art) ∧ P.receive ci.rd j ⟨cj.echo, cj.normal, p⟩ = .ok v

/-- Party `i` finalizes the stage it is in, with these random numbers and this outcome. -/
def Finalizes (G : History P) (i : sp.Id) (rng : sp.Rng) (o : Outcome P.Rd P.Result) : Prop :=
  ∃ k c ps, (G i).length = k + 1 ∧ (G i)[k]? = some c ∧ PayloadsOf G i k ps ∧
    P.finalize c.rd rng ps (c.directs.mapVal (fun _ x => x.2)) = .ok o

/-- Party `i` enters its next stage with the given round object. -/
def Entering (g : Group P) (G : History P) (i : sp.Id) (r : P.Rd) : Prop :=
  (G i = [] ∧ ∃ rng, (g.ep i).makeRound rng g.sid i = .ok r) ∨ ∃ rng, Finalizes G i rng (.anotherRound r)

/-- Everybody follows the protocol, at their own pace. -/
inductive Honest (g : Group P) : History P → Prop where
  | nil : Honest g (fun _ => [])
  | enter {G : History P} {i : sp.Id} {c : Cell P} : Honest g G → g.parties.contains i = true → Entering g G i c.rd →
      c.Made → Honest g (Function.update G i (G i ++ [c]))

/-- How the execution goes: the parties, the ids of the rounds of the `n` stages, which of them have an echo broadcast, and who
sends messages to whom. -/
structure Plan {sp : SP} (P : Proto sp) where
  g : Group P
  rid : Nat → RoundId
  echoAt : Nat → Bool
  n : Nat
  dests : Nat → sp.Id → BSet sp.Id
  expects : Nat → sp.Id → BSet sp.Id

/-- Everybody sends messages to everybody in all stages. -/
def Plan.allToAll (g : Group P) (rid : Nat → RoundId) (echoAt : Nat → Bool) (n : Nat) : Plan P :=
  ⟨g, rid, echoAt, n, fun _ => g.others, fun _ => g.others⟩

/-- The pattern of communication: parties expect the messages sent to them; it is all-to-all if there is an echo broadcast;
and, from the third stage on, parties send messages only to those they have heard from in the stage before. -/
structure Pattern (pl : Plan P) : Prop where
  matched : ∀ k i j, k < pl.n → pl.g.parties.contains i = true → pl.g.parties.contains j = true →
    (pl.dests k i).contains j = (pl.expects k j).contains i
  dests : ∀ k i j, k < pl.n → pl.g.parties.contains i = true → (pl.dests k i).contains j = true →
    (pl.g.others i).contains j = true
  expects : ∀ k i j, k < pl.n → pl.g.parties.contains i = true → (pl.expects k i).contains j = true →
    (pl.g.others i).contains j = true
  echoDests : ∀ k i, k < pl.n → pl.echoAt k = true → pl.g.parties.contains i = true → pl.dests k i = pl.g.others i
  echoExpects : ∀ k i, k < pl.n → pl.echoAt k = true → pl.g.parties.contains i = true → pl.expects k i = pl.g.others i
  window : ∀ k i j, 0 < k → k + 1 < pl.n → pl.g.parties.contains i = true → (pl.dests (k + 1) i).contains j = true →
    (pl.expects k i).contains j = true

/-- The rounds of the protocol follow the plan, and its callbacks succeed as long as everybody follows the protocol. -/
structure Cooperative (pl : Plan P) : Prop where
  stages : 0 < pl.n
  ids : ∀ k l, k < pl.n → l < pl.n → pl.rid k = pl.rid l → k = l
  notEcho : ∀ k, k < pl.n → (pl.rid k).isEcho = false
  company : ∀ k i, k < pl.n → pl.echoAt k = true → pl.g.parties.contains i = true → (pl.g.others i).isEmpty = false
  pattern : Pattern pl
  start : ∀ i, pl.g.parties.contains i = true → ∀ rng, ∃ r, (pl.g.ep i).makeRound rng pl.g.sid i = .ok r
  id : ∀ G i r, Honest pl.g G → pl.g.parties.contains i = true → Entering pl.g G i r →
    (P.transition r).id = pl.rid (G i).length
  child : ∀ G i r, Honest pl.g G → pl.g.parties.contains i = true → Entering pl.g G i r → (G i).length + 1 < pl.n →
    (P.transition r).children.contains (pl.rid ((G i).length + 1)) = true
  comm : ∀ G i r, Honest pl.g G → pl.g.parties.contains i = true → Entering pl.g G i r →
    P.comm r = ⟨pl.dests (G i).length i, pl.expects (G i).length i, .default⟩
  makeEcho : ∀ G i r, Honest pl.g G → pl.g.parties.contains i = true → Entering pl.g G i r →
    (pl.dests (G i).length i).isEmpty = false →
    ∀ rng, ∃ p, P.makeEcho r rng = .ok p ∧ p.payload.isSome = pl.echoAt (G i).length
  makeNormal : ∀ G i r, Honest pl.g G → pl.g.parties.contains i = true → Entering pl.g G i r →
    (pl.dests (G i).length i).isEmpty = false → ∀ rng, ∃ p, P.makeNormal r rng = .ok p
  makeDirect : ∀ G i r, Honest pl.g G → pl.g.parties.contains i = true → Entering pl.g G i r →
    ∀ j, (pl.dests (G i).length i).contains j = true → ∀ rng, ∃ x, P.makeDirect r rng j = .ok x
  receive : ∀ (G : History P) i j (k : Nat) (ci cj : Cell P) p art, Honest pl.g G → (pl.expects k i).contains j = true →
    pl.g.parties.contains i = true → (G i)[k]? = some ci → (G j)[k]? = some cj → cj.directs.get? i = some (p, art) →
    ∃ v, P.receive ci.rd j ⟨cj.echo, cj.normal, p⟩ = .ok v
  finalize : ∀ (G : History P) i (k : Nat) (c : Cell P) ps, Honest pl.g G → pl.g.parties.contains i = true →
    (G i).length = k + 1 → (G i)[k]? = some c → PayloadsOf G i k ps →
    ∀ rng, ∃ o, P.finalize c.rd rng ps (c.directs.mapVal (fun _ x => x.2)) = .ok o ∧
      if k + 1 < pl.n then ∃ r, o = .anotherRound r else ∃ res, o = .result res

/-- The keys belong to the ids. -/
def Group.KeysMatch (g : Group P) : Prop := ∀ i, g.parties.contains i = true → sp.verifyingKey (g.signer i) = i

/-- Nothing is recorded against anybody, and the run has not failed. -/
def Clean : RunState P → Prop
  | .running s a => (∀ x, ¬ HasError s a x) ∧ s.transcript.missing.isEmpty = true
  | .done r => ∃ rep v, r = .ok rep ∧ rep.outcome = .result v ∧ rep.provable.isEmpty = true ∧ rep.unprovable.isEmpty = true ∧
      rep.missing.isEmpty = true

/-- What the network can reach in `k` steps. -/
inductive NetTakes (g : Group P) : Nat → Net P → Prop where
  | init : NetTakes g 0 Net.init
  | step {k : Nat} {n n' : Net P} : NetTakes g k n → NetStep g n n' → NetTakes g (k + 1) n'

/-- Everybody has finished with a result, and nothing is recorded against anybody. -/
def AllFinished (g : Group P) (n : Net P) : Prop :=
  ∀ i, g.parties.contains i = true → ∃ rep v, n.node i = some (.done (.ok rep)) ∧ rep.outcome = .result v ∧
    rep.provable.isEmpty = true ∧ rep.unprovable.isEmpty = true ∧ rep.missing.isEmpty = true

end Manul
