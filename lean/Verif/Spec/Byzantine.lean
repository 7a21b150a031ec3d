import Verif.Spec.Network

/-!
# Specification: some of the parties do not follow the protocol

The network of `Verif.Model.Network` with parties that send whatever they like.  Channels are authenticated: a party can put
messages on the wire only under its own name.
-/

namespace Manul

variable {sp : SP} {P : Proto sp}

/-- One step of the network in which the parties in `H` follow the protocol; packets in `adv` can be sent by the others. -/
inductive ByzStep (g : Group P) (H : sp.Id → Prop) (adv : Packet sp → Prop) : Net P → Net P → Prop where
  | start {n : Net P} {i : sp.Id} (rng rng' : sp.Rng) : H i → n.node i = none →
      ByzStep g H adv n (n.put i (g.startNode i rng rng').1 (g.startNode i rng rng').2)
  | tick {n : Net P} {i : sp.Id} {st st' : RunState P} {rng : sp.Rng} {out : List (Message sp)} : n.node i = some st →
      step st (.tick rng) = some (st', out) → ByzStep g H adv n (n.put i st' out)
  | deliver {n : Net P} {st st' : RunState P} {p : Packet sp} {w w' : List (Packet sp)} {out : List (Message sp)} :
      n.wire = w ++ p :: w' → n.node p.dest = some st → step st (.deliver p.src p.message) = some (st', out) →
      ByzStep g H adv n (Net.put ⟨n.node, w ++ w'⟩ p.dest st' out)
  | inject {n : Net P} {p : Packet sp} : ¬ H p.src → adv p → ByzStep g H adv n ⟨n.node, n.wire ++ [p]⟩

/-- The states the network can be in. -/
inductive ByzReach (g : Group P) (H : sp.Id → Prop) (adv : Packet sp → Prop) : Net P → Prop where
  | init : ByzReach g H adv Net.init
  | step {n n' : Net P} : ByzReach g H adv n → ByzStep g H adv n n' → ByzReach g H adv n'

/-- Payloads party `i` may have at the end of stage `k`: those of the parties in `H` are made of their messages, the others of
any messages the round accepts. -/
structure PayloadsAmong (H : sp.Id → Prop) (G : History P) (i : sp.Id) (k : Nat) (ps : BMap sp.Id P.Payload) : Prop where
  keys : ∃ c, (G i)[k]? = some c ∧ ∀ j, ps.contains j = (P.comm c.rd).expecting.contains j
  honest : ∀ j v, H j → ps.get? j = some v → ∃ ci cj p art, (G i)[k]? = some ci ∧ (G j)[k]? = some cj ∧
    cj.directs.get? i = some (p, art) ∧ P.receive ci.rd j ⟨cj.echo, cj.normal, p⟩ = .ok v
  other : ∀ j v, ps.get? j = some v → ∃ ci m, (G i)[k]? = some ci ∧ P.receive ci.rd j m = .ok v

/-- Party `i` finalizes the stage it is in, with these random numbers and this outcome. -/
def FinalizesAmong (H : sp.Id → Prop) (G : History P) (i : sp.Id) (rng : sp.Rng) (o : Outcome P.Rd P.Result) : Prop :=
  ∃ k c ps, (G i).length = k + 1 ∧ (G i)[k]? = some c ∧ PayloadsAmong H G i k ps ∧
    P.finalize c.rd rng ps (c.directs.mapVal (fun _ x => x.2)) = .ok o

/-- Party `i` enters its next stage with the given round object. -/
def EnteringAmong (g : Group P) (H : sp.Id → Prop) (G : History P) (i : sp.Id) (r : P.Rd) : Prop :=
  (G i = [] ∧ ∃ rng, (g.ep i).makeRound rng g.sid i = .ok r) ∨ ∃ rng, FinalizesAmong H G i rng (.anotherRound r)

/-- The parties in `H` follow the protocol, at their own pace; of the others nothing is recorded. -/
inductive HonestAmong (g : Group P) (H : sp.Id → Prop) : History P → Prop where
  | nil : HonestAmong g H (fun _ => [])
  | enter {G : History P} {i : sp.Id} {c : Cell P} : HonestAmong g H G → H i → EnteringAmong g H G i c.rd →
      c.Made → HonestAmong g H (Function.update G i (G i ++ [c]))

/-- The rounds of the protocol follow the plan for the parties in `H`, whatever the others do: they accept each other's
messages, and in stages with an echo broadcast they accept no message without one.  Making messages and finalizing may fail. -/
structure Robust (pl : Plan P) (H : sp.Id → Prop) : Prop where
  members : ∀ i, H i → pl.g.parties.contains i = true
  stages : 0 < pl.n
  ids : ∀ k l, k < pl.n → l < pl.n → pl.rid k = pl.rid l → k = l
  notEcho : ∀ k, k < pl.n → (pl.rid k).isEcho = false
  company : ∀ k i, k < pl.n → pl.echoAt k = true → H i → (pl.g.others i).isEmpty = false
  pattern : Pattern pl
  id : ∀ G i r, HonestAmong pl.g H G → H i → EnteringAmong pl.g H G i r → (P.transition r).id = pl.rid (G i).length
  bound : ∀ G i r, HonestAmong pl.g H G → H i → EnteringAmong pl.g H G i r → (G i).length < pl.n
  child : ∀ G i r, HonestAmong pl.g H G → H i → EnteringAmong pl.g H G i r → (G i).length + 1 < pl.n →
    (P.transition r).children.contains (pl.rid ((G i).length + 1)) = true
  comm : ∀ G i r, HonestAmong pl.g H G → H i → EnteringAmong pl.g H G i r →
    P.comm r = ⟨pl.dests (G i).length i, pl.expects (G i).length i, .default⟩
  makeEcho : ∀ G i r, HonestAmong pl.g H G → H i → EnteringAmong pl.g H G i r →
    (pl.dests (G i).length i).isEmpty = false →
    ∀ rng p, P.makeEcho r rng = .ok p → p.payload.isSome = pl.echoAt (G i).length
  receive : ∀ (G : History P) i j (k : Nat) (ci cj : Cell P) p art, HonestAmong pl.g H G → H i → H j →
    (pl.expects k i).contains j = true → (G i)[k]? = some ci → (G j)[k]? = some cj → cj.directs.get? i = some (p, art) →
    ∃ v, P.receive ci.rd j ⟨cj.echo, cj.normal, p⟩ = .ok v
  insists : ∀ (G : History P) i j (k : Nat) (ci : Cell P) m v, HonestAmong pl.g H G → H i → (G i)[k]? = some ci →
    pl.echoAt k = true → P.receive ci.rd j m = .ok v → m.echo.payload.isSome = true

/-- Nobody sends two different echo broadcasts, both correctly signed, for the same stage. -/
def NoEquivocation (pl : Plan P) (H : sp.Id → Prop) (adv : Packet sp → Prop) : Prop :=
  ∀ p p' k, ¬ H p.src → p'.src = p.src → adv p → adv p' → k < pl.n → pl.echoAt k = true →
    AuthenticPart p.src pl.g.sid (pl.rid k) p.message.echo → AuthenticPart p.src pl.g.sid (pl.rid k) p'.message.echo →
    p.message.echo.part = p'.message.echo.part

/-- Nothing is recorded against `j`. -/
def NotBlamed (j : sp.Id) : RunState P → Prop
  | .running s a => ¬ HasError s a j ∧ ∀ r x, s.transcript.missing.get? r = some x → x.contains j = false
  | .done r => ∀ rep, r = .ok rep → rep.provable.get? j = none ∧ rep.unprovable.get? j = none ∧
      ∀ r x, rep.missing.get? r = some x → x.contains j = false

end Manul
