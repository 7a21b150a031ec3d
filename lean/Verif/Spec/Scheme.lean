import Verif.Spec.Network

/-!
# Specification: executions with partial participation in echo rounds

The parties of a stage with echo broadcasts may send without taking part in the echo round
(`EchoRoundParticipation::Send`), take part without sending (`Receive`), or not communicate at all.
-/

namespace Manul

variable {sp : SP} {P : Proto sp}

/-- A plan together with the participation of the parties in the echo rounds. -/
structure Scheme {sp : SP} (P : Proto sp) extends Plan P where
  part : Nat → sp.Id → EchoParticipation sp.Id

/-- The scheme of a plan: everybody takes part in the same way. -/
def Plan.scheme (pl : Plan P) : Scheme P := { pl with part := fun _ _ => .default }

namespace Scheme

variable (sc : Scheme P)

/-- Whether a party has an echo round in a stage. -/
def runsEcho (k : Nat) (i : sp.Id) : Bool :=
  match sc.part k i with
  | .default => sc.echoAt k && !(sc.dests k i).isEmpty
  | .send => false
  | .receive _ => true

/-- Whom a party exchanges echo messages with. -/
def peers (k : Nat) (i : sp.Id) : BSet sp.Id :=
  match sc.part k i with
  | .default => sc.dests k i
  | .send => BMap.empty
  | .receive ts => ts

/-- Whose broadcasts a party compares in the echo round. -/
def compares (k : Nat) (i x : sp.Id) : Bool :=
  match sc.part k i with
  | .receive _ => (sc.expects k i).contains x
  | _ => decide (x = i) || (sc.expects k i).contains x

/-- Nobody ever expects a message, in a round or in an echo round. -/
def Silent : Prop :=
  ∀ k i j, k < sc.n → sc.g.parties.contains i = true →
    (sc.expects k i).contains j = false ∧ (sc.runsEcho k i = true → (sc.peers k i).contains j = false)

/-- The parties agree on the pattern of communication: they expect the messages sent to them, in rounds and in echo rounds, and
those who exchange echo messages have received broadcasts of the same parties. -/
structure Matching : Prop where
  matched : ∀ k i j, k < sc.n → sc.g.parties.contains i = true → sc.g.parties.contains j = true →
    (sc.dests k i).contains j = (sc.expects k j).contains i
  dests : ∀ k i j, k < sc.n → sc.g.parties.contains i = true → (sc.dests k i).contains j = true →
    (sc.g.others i).contains j = true
  expects : ∀ k i j, k < sc.n → sc.g.parties.contains i = true → (sc.expects k i).contains j = true →
    (sc.g.others i).contains j = true
  echoStage : ∀ k i, k < sc.n → sc.g.parties.contains i = true → sc.runsEcho k i = true → sc.echoAt k = true
  peers : ∀ k i j, k < sc.n → sc.g.parties.contains i = true → sc.runsEcho k i = true → (sc.peers k i).contains j = true →
    (sc.g.others i).contains j = true ∧ sc.runsEcho k j = true ∧ (sc.peers k j).contains i = true
  compared : ∀ k i j, k < sc.n → sc.g.parties.contains i = true → sc.runsEcho k i = true → (sc.peers k i).contains j = true →
    ∀ x, (sc.expects k j).contains x = (sc.compares k i x && !decide (x = j))

/-- The pattern of communication.  Moreover parties send messages only to those they know to have come so far that they accept
them. -/
structure Pattern : Prop extends sc.Matching where
  windowEcho : ∀ k i j, 0 < k → k < sc.n → sc.g.parties.contains i = true → sc.runsEcho k i = true →
    (sc.peers k i).contains j = true → (sc.expects k i).contains j = true
  windowNext : ∀ k i j, k + 1 < sc.n → sc.g.parties.contains i = true → (sc.dests (k + 1) i).contains j = true →
    if sc.runsEcho k j then sc.runsEcho k i = true ∧ (sc.peers k i).contains j = true
    else 0 < k → (sc.expects k i).contains j = true

/-- The rounds of the protocol follow the scheme, and its callbacks succeed as long as everybody follows the protocol. -/
structure Cooperative : Prop where
  stages : 0 < sc.n
  ids : ∀ k l, k < sc.n → l < sc.n → sc.rid k = sc.rid l → k = l
  notEcho : ∀ k, k < sc.n → (sc.rid k).isEcho = false
  pattern : sc.Pattern
  start : ∀ i, sc.g.parties.contains i = true → ∀ rng, ∃ r, (sc.g.ep i).makeRound rng sc.g.sid i = .ok r
  id : ∀ G i r, Honest sc.g G → sc.g.parties.contains i = true → Entering sc.g G i r →
    (P.transition r).id = sc.rid (G i).length
  child : ∀ G i r, Honest sc.g G → sc.g.parties.contains i = true → Entering sc.g G i r → (G i).length + 1 < sc.n →
    (P.transition r).children.contains (sc.rid ((G i).length + 1)) = true
  comm : ∀ G i r, Honest sc.g G → sc.g.parties.contains i = true → Entering sc.g G i r →
    P.comm r = ⟨sc.dests (G i).length i, sc.expects (G i).length i, sc.part (G i).length i⟩
  makeEcho : ∀ G i r, Honest sc.g G → sc.g.parties.contains i = true → Entering sc.g G i r →
    (sc.dests (G i).length i).isEmpty = false →
    ∀ rng, ∃ p, P.makeEcho r rng = .ok p ∧ p.payload.isSome = sc.echoAt (G i).length
  makeNormal : ∀ G i r, Honest sc.g G → sc.g.parties.contains i = true → Entering sc.g G i r →
    (sc.dests (G i).length i).isEmpty = false → ∀ rng, ∃ p, P.makeNormal r rng = .ok p
  makeDirect : ∀ G i r, Honest sc.g G → sc.g.parties.contains i = true → Entering sc.g G i r →
    ∀ j, (sc.dests (G i).length i).contains j = true → ∀ rng, ∃ x, P.makeDirect r rng j = .ok x
  receive : ∀ (G : History P) i j (k : Nat) (ci cj : Cell P) p art, Honest sc.g G → (sc.expects k i).contains j = true →
    sc.g.parties.contains i = true → (G i)[k]? = some ci → (G j)[k]? = some cj → cj.directs.get? i = some (p, art) →
    ∃ v, P.receive ci.rd j ⟨cj.echo, cj.normal, p⟩ = .ok v
  finalize : ∀ (G : History P) i (k : Nat) (c : Cell P) ps, Honest sc.g G → sc.g.parties.contains i = true →
    (G i).length = k + 1 → (G i)[k]? = some c → PayloadsOf G i k ps →
    ∀ rng, ∃ o, P.finalize c.rd rng ps (c.directs.mapVal (fun _ x => x.2)) = .ok o ∧
      if k + 1 < sc.n then ∃ r, o = .anotherRound r else ∃ res, o = .result res

end Scheme

end Manul
