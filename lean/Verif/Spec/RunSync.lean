import Verif.Model.RunSync

/-!
# Specification: histories of the queue of `run_sync`
-/

namespace Manul

variable {sp : SP} {P : Proto sp}

/-- An operation on the queue. -/
inductive QOp (sp : SP) where
  | push (x : RoundMsg sp)
  | pop (choice : Nat)

/-- The messages pushed by a history. -/
def pushed : List (QOp sp) → List (RoundMsg sp)
  | [] => []
  | .push x :: l => x :: pushed l
  | .pop _ :: l => pushed l

/-- Execute a history: the messages returned by `pop`, in order, and the final queue; `none` if a `pop` panics. -/
def Queue.run (q : Queue sp) : List (QOp sp) → Option (List (RoundMsg sp) × Queue sp)
  | [] => some ([], q)
  | .push x :: l => (q.push x).run l
  | .pop c :: l =>
    match q.pop c with
    | none => none
    | some (x, q') =>
      match q'.run l with
      | none => none
      | some (out, q'') => some (x :: out, q'')

/-- The messages of one sender. -/
def bySender (x : sp.Id) (l : List (RoundMsg sp)) : List (RoundMsg sp) := l.filter (fun m => decide (m.src = x))

/-- The state of `run_session` corresponding to the state of a node. -/
def NodeState.toRun : NodeState P → RunState P
  | .inProgress s a => .running s a
  | .finished r => .done (.ok r)

/-- The nodes include the one with the given id, and `run_session` of its session can be in state `st`. -/
def RunsTo (sid : Bytes) (nodes : List (sp.Signer × EntryPoint P)) (id : sp.Id) (st : RunState P) : Prop :=
  ∃ signer ep rng s, (signer, ep) ∈ nodes ∧ sp.verifyingKey signer = id ∧ Session.new rng sid signer ep = .ok s ∧ Reach s st

end Manul
