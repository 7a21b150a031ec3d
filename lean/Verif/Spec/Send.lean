import Verif.Model.Send
import Verif.Spec.Run

/-!
# Specification: sending messages one at a time
-/

namespace Manul

variable {sp : SP} {P : Proto sp}

/-- The states of the driver that sends all messages of a round at once, with the messages sent. -/
inductive Run (s₀ : Session P) : RunState P → List (Message sp) → Prop where
  | start (rng : sp.Rng) : Run s₀ (start s₀ rng).1 (start s₀ rng).2
  | step {st st' : RunState P} {outs out : List (Message sp)} {e : Event sp} :
      Run s₀ st outs → step st e = some (st', out) → Run s₀ st' (outs ++ out)

/-- The state with the same data. -/
def RunState.send : RunState P → SendState P
  | .running s a => .looping s a
  | .done r => .ofReport r

/-- The recipients and rounds of the messages the session sends in its round, in order. -/
def Session.toSend (s : Session P) : List (sp.Id × RoundId) := s.destinations.elems.map (fun d => (d, s.roundId))

/-- The recipient and the round of a message. -/
def Message.key (m : Message sp) : sp.Id × RoundId := (m.destination, m.direct.metadata.roundId)

/-- The number of steps left at the beginning of a round. -/
def SendState.left : SendState P → Nat
  | .sending _ _ cached _ _ ds => 2 * ds.length + cached.length + 2
  | .offering _ _ cached _ _ ds _ _ => 2 * ds.length + cached.length + 3
  | .applying _ _ cached => cached.length + 1
  | .looping _ _ => 0
  | .done _ => 0

/-- The session object. -/
def SendState.session? : SendState P → Option (Session P)
  | .sending s _ _ _ _ _ => some s
  | .offering s _ _ _ _ _ _ _ => some s
  | .applying s _ _ => some s
  | .looping s _ => some s
  | .done _ => none

end Manul
