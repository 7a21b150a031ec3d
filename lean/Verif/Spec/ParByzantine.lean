import Verif.Model.ParNet
import Verif.Spec.Stall

/-!
# Specification: parties using `par_run_session` among parties that do not follow the protocol

The network is that of `Spec/Byzantine`, with parties using `par_run_session`.  Of the other parties nothing is known, except which
packets they can put on the wire.
-/

namespace Manul

variable {sp : SP} {P : Proto sp}

/-- One step of the network.  The parties in `H` follow the protocol, the others can put the packets allowed by `adv` on the wire. -/
inductive PByzStep (g : Group P) (H : sp.Id → Prop) (adv : Packet sp → Prop) : PNet P → PNet P → Prop where
  | start {n : PNet P} {i : sp.Id} (rng rng' : sp.Rng) : H i → n.node i = none →
      PByzStep g H adv n (n.put i (g.startPar i rng rng') [])
  /-- the loop of a round ends -/
  | tick {n : PNet P} {i : sp.Id} {s : Session P} {st : ParSt P} {st' : ParState P} {rng : sp.Rng} :
      n.node i = some (.running s st) → parStep (.running s st) (.tick rng) = some st' →
      PByzStep g H adv n (n.put i st' (parOut st (.tick rng)))
  /-- the result of a task is received -/
  | task {n : PNet P} {i : sp.Id} {s : Session P} {st : ParSt P} {st' : ParState P} {o : ParOp sp} :
      n.node i = some (.running s st) → o.Enabled st → parStep (.running s st) (.op o) = some st' →
      PByzStep g H adv n (n.put i st' (parOut st (.op o)))
  /-- a message is received -/
  | deliver {n : PNet P} {s : Session P} {st : ParSt P} {st' : ParState P} {p : Packet sp} {w w' : List (Packet sp)} :
      n.wire = w ++ p :: w' → n.node p.dest = some (.running s st) →
      parStep (.running s st) (.op (.deliver p.src p.message)) = some st' →
      PByzStep g H adv n (PNet.put ⟨n.node, w ++ w'⟩ p.dest st' [])
  | inject {n : PNet P} {p : Packet sp} : ¬ H p.src → adv p → PByzStep g H adv n ⟨n.node, n.wire ++ [p]⟩

/-- The states the network can be in. -/
inductive PByzReach (g : Group P) (H : sp.Id → Prop) (adv : Packet sp → Prop) : PNet P → Prop where
  | init : PByzReach g H adv PNet.init
  | step {n n' : PNet P} : PByzReach g H adv n → PByzStep g H adv n n' → PByzReach g H adv n'

/-- The parties in `H` do not fail to make direct messages. -/
def DirectsMade (pl : Plan P) (H : sp.Id → Prop) : Prop :=
  ∀ G i r, HonestAmong pl.g H G → H i → EnteringAmong pl.g H G i r →
    ∀ d rng, (pl.dests (G i).length i).contains d = true → ∃ x, P.makeDirect r rng d = .ok x

/-- Nothing is recorded against `j`. -/
def PNotBlamed (j : sp.Id) : ParState P → Prop
  | .running s st => ¬ HasError s st.accum j ∧ ∀ r x, s.transcript.missing.get? r = some x → x.contains j = false
  | .done r => ∀ rep, r = .ok rep → rep.provable.get? j = none ∧ rep.unprovable.get? j = none ∧
      ∀ r x, rep.missing.get? r = some x → x.contains j = false

/-- The parties in `H` are stuck: all of them have started, none of them has a task left or can finish its round or give up, and
everything they have sent to each other has arrived (unless the recipient has ended). -/
structure PStalled (H : sp.Id → Prop) (n : PNet P) : Prop where
  started : ∀ i, H i → n.node i ≠ none
  delivered : ∀ p ∈ n.wire, H p.src → ∀ s st, n.node p.dest ≠ some (.running s st)
  tasks : ∀ i s st, n.node i = some (.running s st) → st.tasks = [] ∧ st.outgoing = []
  stuck : ∀ i s st, n.node i = some (.running s st) → st.accum.canFinalize = .notYet

/-- Party `i` is in a round in which it expects a message from `x`, and has accepted none. -/
def PWaitsFor (n : PNet P) (i x : sp.Id) : Prop :=
  ∃ s st, n.node i = some (.running s st) ∧ s.comm.expecting.contains x = true ∧ st.accum.payloads.get? x = none ∧
    st.accum.notSent.contains x = true

/-- Party `i` has ended, and its report has an entry against `x`. -/
def PAccuses (n : PNet P) (i x : sp.Id) : Prop :=
  ∃ rep, n.node i = some (.done (.ok rep)) ∧ (rep.provable.contains x = true ∨ rep.unprovable.contains x = true)

/-- Party `i` has ended with a local error (or a panic). -/
def PFailed (n : PNet P) (i : sp.Id) : Prop := ∃ er, n.node i = some (.done (.error er))

/-- Party `i` has ended with a result. -/
def PSucceeded (n : PNet P) (i : sp.Id) : Prop := ∃ rep v, n.node i = some (.done (.ok rep)) ∧ rep.outcome = .result v

end Manul
