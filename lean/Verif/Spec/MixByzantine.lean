import Verif.Model.MixNet
import Verif.Spec.ParByzantine

/-!
# Specification: parties using either driver among parties that do not follow the protocol

The networks of `Spec/Byzantine` and `Spec/ParByzantine`, with parties using `run_session` or `par_run_session` as they like.
-/

namespace Manul

variable {sp : SP} {P : Proto sp}

/-- One step of the network.  The parties in `H` follow the protocol, those with `par i` using `par_run_session`; the others can put
the packets allowed by `adv` on the wire. -/
inductive MixByzStep (g : Group P) (H : sp.Id → Prop) (par : sp.Id → Bool) (adv : Packet sp → Prop) : MixNet P → MixNet P → Prop where
  | startSeq {n : MixNet P} {i : sp.Id} (rng rng' : sp.Rng) : H i → par i = false → n.node i = none →
      MixByzStep g H par adv n (n.put i (.seq (g.startNode i rng rng').1) (g.startNode i rng rng').2)
  | tickSeq {n : MixNet P} {i : sp.Id} {st st' : RunState P} {rng : sp.Rng} {out : List (Message sp)} :
      n.node i = some (.seq st) → step st (.tick rng) = some (st', out) → MixByzStep g H par adv n (n.put i (.seq st') out)
  | deliverSeq {n : MixNet P} {st st' : RunState P} {p : Packet sp} {w w' : List (Packet sp)} {out : List (Message sp)} :
      n.wire = w ++ p :: w' → n.node p.dest = some (.seq st) → step st (.deliver p.src p.message) = some (st', out) →
      MixByzStep g H par adv n (MixNet.put ⟨n.node, w ++ w'⟩ p.dest (.seq st') out)
  | startPar {n : MixNet P} {i : sp.Id} (rng rng' : sp.Rng) : H i → par i = true → n.node i = none →
      MixByzStep g H par adv n (n.put i (.par (g.startPar i rng rng')) [])
  | tickPar {n : MixNet P} {i : sp.Id} {s : Session P} {st : ParSt P} {st' : ParState P} {rng : sp.Rng} :
      n.node i = some (.par (.running s st)) → parStep (.running s st) (.tick rng) = some st' →
      MixByzStep g H par adv n (n.put i (.par st') (parOut st (.tick rng)))
  | task {n : MixNet P} {i : sp.Id} {s : Session P} {st : ParSt P} {st' : ParState P} {o : ParOp sp} :
      n.node i = some (.par (.running s st)) → o.Enabled st → parStep (.running s st) (.op o) = some st' →
      MixByzStep g H par adv n (n.put i (.par st') (parOut st (.op o)))
  | deliverPar {n : MixNet P} {s : Session P} {st : ParSt P} {st' : ParState P} {p : Packet sp} {w w' : List (Packet sp)} :
      n.wire = w ++ p :: w' → n.node p.dest = some (.par (.running s st)) →
      parStep (.running s st) (.op (.deliver p.src p.message)) = some st' →
      MixByzStep g H par adv n (MixNet.put ⟨n.node, w ++ w'⟩ p.dest (.par st') [])
  | inject {n : MixNet P} {p : Packet sp} : ¬ H p.src → adv p → MixByzStep g H par adv n ⟨n.node, n.wire ++ [p]⟩

/-- The states the network can be in. -/
inductive MixByzReach (g : Group P) (H : sp.Id → Prop) (par : sp.Id → Bool) (adv : Packet sp → Prop) : MixNet P → Prop where
  | init : MixByzReach g H par adv MixNet.init
  | step {n n' : MixNet P} : MixByzReach g H par adv n → MixByzStep g H par adv n n' → MixByzReach g H par adv n'

/-- Nothing is recorded against `j`. -/
def MixNotBlamed (j : sp.Id) : MixState P → Prop
  | .seq st => NotBlamed j st
  | .par st => PNotBlamed j st

/-- The session and the accumulator of a party that is in a round. -/
def MixState.inRound : MixState P → Option (Session P × Accum P)
  | .seq (.running s a) => some (s, a)
  | .par (.running s st) => some (s, st.accum)
  | _ => none

/-- The party has no tasks. -/
def MixState.NoTasks : MixState P → Prop
  | .par (.running _ st) => st.tasks = [] ∧ st.outgoing = []
  | _ => True

/-- The parties in `H` are stuck: all of them have started, none of them has a task left or can finish its round or give up, and
everything they have sent to each other has arrived (unless the recipient has ended). -/
structure MixStalled (H : sp.Id → Prop) (n : MixNet P) : Prop where
  started : ∀ i, H i → n.node i ≠ none
  delivered : ∀ p ∈ n.wire, H p.src → ∀ st, n.node p.dest = some st → st.inRound = none
  tasks : ∀ i st, n.node i = some st → st.NoTasks
  stuck : ∀ i st s a, n.node i = some st → st.inRound = some (s, a) → a.canFinalize = .notYet

/-- Party `i` is in a round in which it expects a message from `x`, and has accepted none. -/
def MixWaitsFor (n : MixNet P) (i x : sp.Id) : Prop :=
  ∃ st s a, n.node i = some st ∧ st.inRound = some (s, a) ∧ s.comm.expecting.contains x = true ∧ a.payloads.get? x = none ∧
    a.notSent.contains x = true

/-- Party `i` has ended, and its report has an entry against `x`. -/
def MixAccuses (n : MixNet P) (i x : sp.Id) : Prop :=
  ∃ st rep, n.node i = some st ∧ st.report = some (.ok rep) ∧ (rep.provable.contains x = true ∨ rep.unprovable.contains x = true)

/-- Party `i` has ended with a local error (or a panic). -/
def MixFailed (n : MixNet P) (i : sp.Id) : Prop := ∃ st er, n.node i = some st ∧ st.report = some (.error er)

/-- Party `i` has ended with a result. -/
def MixSucceeded (n : MixNet P) (i : sp.Id) : Prop :=
  ∃ st rep v, n.node i = some st ∧ st.report = some (.ok rep) ∧ rep.outcome = .result v

end Manul
