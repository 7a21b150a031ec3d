import Verif.Spec.Run

/-!
# Specification: what a session keeps of what it receives
-/

namespace Manul

variable {sp : SP} {P : Proto sp}

/-- The states of `run_session`, from the session object `s₀`, when all messages are given to it in the name of parties of
`Q`. -/
inductive ReachBy (Q : sp.Id → Prop) (s₀ : Session P) : RunState P → Prop where
  | start (rng : sp.Rng) : ReachBy Q s₀ (start s₀ rng).1
  | step {st st' : RunState P} {ev : Event sp} {out : List (Message sp)} :
      ReachBy Q s₀ st → (∀ x m, ev = .deliver x m → Q x) → step st ev = some (st', out) → ReachBy Q s₀ st'

/-- The accumulator keeps something it got from the party, or an error filed under it. -/
def Accum.Keeps (a : Accum P) (x : sp.Id) : Prop :=
  a.processing.contains x = true ∨ a.payloads.contains x = true ∨ a.cached.contains x = true ∨ a.echos.contains x = true ∨
    a.normals.contains x = true ∨ a.directs.contains x = true ∨ a.provable.contains x = true ∨ a.unprovable.contains x = true

/-- The transcript keeps something it got from the party, or an error filed under it. -/
def Transcript.Keeps (t : Transcript sp) (x : sp.Id) : Prop :=
  t.provable.contains x = true ∨ t.unprovable.contains x = true ∨
    (∃ r m, t.echos.get? r = some m ∧ m.contains x = true) ∨ (∃ r m, t.normals.get? r = some m ∧ m.contains x = true) ∨
    ∃ r m, t.directs.get? r = some m ∧ m.contains x = true

/-- The number of entries of a map of maps. -/
def BMap.total {K L V : Type} [LinearOrder K] [LinearOrder L] (m : BMap K (BMap L V)) : Nat := (m.values.map BMap.size).sum

/-- The number of messages, parts of messages and errors in the accumulator. -/
def Accum.entries (a : Accum P) : Nat :=
  a.processing.size + a.payloads.size + a.echos.size + a.normals.size + a.directs.size + a.provable.size + a.unprovable.size +
    a.cached.total

/-- The number of parts of messages and errors in the transcript. -/
def Transcript.entries (t : Transcript sp) : Nat :=
  t.provable.size + t.unprovable.size + t.echos.total + t.normals.total + t.directs.total

end Manul
