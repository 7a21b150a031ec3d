import Verif.Model.RunSync
import Verif.Spec.Network

/-! # Specification: `run_sync` of a group of parties -/

namespace Manul

variable {sp : SP} {P : Proto sp}

/-- The parties as nodes of `run_sync`. -/
def Group.nodes (g : Group P) (l : List sp.Id) : List (sp.Signer × EntryPoint P) := l.map (fun i => (g.signer i, g.ep i))

/-- The list enumerates the parties. -/
def Group.Enum (g : Group P) (l : List sp.Id) : Prop := l.Nodup ∧ ∀ i, i ∈ l ↔ g.parties.contains i = true

/-- A number of iterations of the delivery loop, without an end. -/
inductive Delivers : Nat → SyncState P → SyncState P → Prop where
  | zero {x : SyncState P} : Delivers 0 x x
  | succ {j : Nat} {x y z : SyncState P} : x.queue.isEmpty = false → DeliverOne x (.ok y) → Delivers j y z → Delivers (j + 1) x z

end Manul
