import Verif.Model.Driver

/-!
# Specification: histories of calls on a round accumulator
-/

namespace Manul

variable {sp : SP} {P : Proto sp}

/-- A call on the accumulator of a round.  `add` takes an arbitrary processed message, whether or not it is the result of
processing a message this accumulator has seen. -/
inductive AccOp {sp : SP} (P : Proto sp) where
  /-- `Session::preprocess_message` -/
  | pre (sender : sp.Id) (m : Message sp)
  /-- `Session::add_processed_message` -/
  | add (p : Processed P)
  /-- `Session::add_artifact` -/
  | art (p : ProcessedArtifact P)

namespace AccOp

/-- Whose entries the operation concerns. -/
def party : AccOp P → sp.Id
  | .pre x _ => x
  | .add p => p.message.sender
  | .art p => p.destination

/-- The effect on the accumulator. -/
def apply (s : Session P) (a : Accum P) : AccOp P → Except LErr (Accum P)
  | .pre x m =>
    match s.preprocess a x m with
    | .error e => .error e
    | .ok (a', _) => .ok a'
  | .add p => s.addProcessed a p
  | .art p => a.addArtifact p

/-- It adds a processed message of `x`. -/
def addsFor (x : sp.Id) : AccOp P → Bool
  | .add p => p.message.sender = x
  | _ => false

end AccOp

/-- The calls `ops`, made in this order, all succeed and lead from `a` to `b`. -/
def Hist (s : Session P) (a : Accum P) (ops : List (AccOp P)) (b : Accum P) : Prop :=
  foldE (fun a op => AccOp.apply s a op) a ops = .ok b

/-- `a` results from the round's fresh accumulator by some sequence of calls. -/
def AccReach (s : Session P) (a : Accum P) : Prop := ∃ ops, Hist s s.makeAccum ops a

/-- The messages, delivered one after the other and processed at once, lead from `a` to `b`. -/
def Deliveries (s : Session P) (a : Accum P) (l : List (sp.Id × Message sp)) (b : Accum P) : Prop :=
  foldE (fun a x => deliver s a x.1 x.2) a l = .ok b

end Manul
