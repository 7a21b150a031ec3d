import Verif.Model.RunAsync

/-! # Messages on the way in `run_async` -/

namespace Manul

variable {sp : SP} {P : Proto sp}

/-- A message has been taken by the dispatcher and not been passed on. -/
def Dispatcher.Holds (p : Packet sp) : Dispatcher sp → Prop
  | .draining bag => p ∈ bag
  | .picking bag => p ∈ bag
  | .polling bag => p ∈ bag
  | .sending q bag => p = q ∨ p ∈ bag
  | _ => False

/-- A message has been made, and has not reached the channel of its destination. -/
def Async.Underway (x : Async P) (p : Packet sp) : Prop :=
  (∃ m, m ∈ x.outbox p.src ∧ p = ⟨p.src, m.destination, m⟩) ∨ p ∈ x.chan ∨ x.disp.Holds p

/-- A message cannot be passed on: its destination takes no part in the session, or has returned. -/
def Undeliverable (g : Group P) (node : sp.Id → Option (RunState P)) (p : Packet sp) : Prop :=
  g.parties.contains p.dest = false ∨ ∃ r, node p.dest = some (.done r)

/-- What can be reached from a state. -/
inductive AsyncLeads (g : Group P) (x : Async P) : Async P → Prop where
  | refl : AsyncLeads g x x
  | step {y z : Async P} : AsyncLeads g x y → AsyncStep g y z → AsyncLeads g x z

end Manul
