import Verif.Model.RunAsyncPar
import Verif.Spec.RunAsyncAny

/-! # Messages on the way in `run_async` with `offload_processing` -/

namespace Manul

variable {sp : SP} {P : Proto sp}

/-- The host of a party has a message from its tasks, and the message has not reached the channel of its destination. -/
def PAsync.Underway (x : PAsync P) (p : Packet sp) : Prop :=
  (∃ m, m ∈ x.outbox p.src ∧ p = ⟨p.src, m.destination, m⟩) ∨ p ∈ x.chan ∨ x.disp.Holds p

/-- A message cannot be passed on: its destination takes no part in the session, or has returned. -/
def ParUndeliverable (g : Group P) (node : sp.Id → Option (ParState P)) (p : Packet sp) : Prop :=
  g.parties.contains p.dest = false ∨ ∃ r, node p.dest = some (.done r)

/-- What can be reached from a state. -/
inductive PAsyncLeads (g : Group P) (x : PAsync P) : PAsync P → Prop where
  | refl : PAsyncLeads g x x
  | step {y z : PAsync P} : PAsyncLeads g x y → PAsyncStep g y z → PAsyncLeads g x z

end Manul
