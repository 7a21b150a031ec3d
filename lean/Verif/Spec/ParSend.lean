import Verif.Model.ParSend

/-!
# Specification: the parallel driver with a slow or closed outgoing channel and failing tasks
-/

namespace Manul

variable {sp : SP} {P : Proto sp}

/-- The states of the driver of `Model/Par`, whatever the environment does. -/
inductive ParRun (s₀ : Session P) : ParState P → Prop where
  | start (rng : sp.Rng) : ParRun s₀ (.running s₀ (ParSt.begin s₀ rng []))
  | step {st st' : ParState P} {ev : ParEvent sp} : ParRun s₀ st → parStep st ev = some st' → ParRun s₀ st'

/-- Any number of steps. -/
inductive PSSteps : PSState P → PSState P → Prop where
  | refl {st : PSState P} : PSSteps st st
  | step {st st' st'' : PSState P} {ev : PSEvent sp} {out : List (MessageOut sp)} {fin : List (Session P)} :
      PSSteps st st' → PSStep st' ev out fin st'' → PSSteps st st''

/-- The message has been made by the session object. -/
structure MadeBy (s : Session P) (o : MessageOut sp) : Prop where
  sender : o.sender = s.me
  session : o.sessionId = s.sessionId
  made : ∃ rng art, s.makeMessage rng o.dest = .ok (o.message, art)

/-- The messages of a round: one for every destination, in some order. -/
structure RoundSent (l : List (MessageOut sp)) (s : Session P) : Prop where
  dests : (l.map (·.dest)).Perm s.destinations.elems
  made : ∀ o ∈ l, MadeBy s o

/-- Some of the messages of a round: at most one for every destination. -/
structure RoundPart (l : List (MessageOut sp)) (s : Session P) : Prop where
  dests : (l.map (·.dest)).Subperm s.destinations.elems
  made : ∀ o ∈ l, MadeBy s o

/-- The session object of the current round. -/
def PSState.session? : PSState P → Option (Session P)
  | .loop s _ => some s
  | .offering s _ _ => some s
  | .rest s _ _ _ => some s
  | .done _ => none

/-- A task has failed: creating a message, or processing one with a panic. -/
def TaskFailed (s : Session P) (st : ParSt P) : Prop :=
  (∃ o ∈ st.outgoing, ∃ e, o.2 = .error e) ∨ ∃ vm ∈ st.tasks, s.processPanics vm = true

/-- All results of tasks have been received, except those of failed tasks, which send none. -/
def Drained (s : Session P) (st : ParSt P) : Prop :=
  (∀ o ∈ st.outgoing, ∃ e, o.2 = .error e) ∧ ∀ vm ∈ st.tasks, s.processPanics vm = true

/-- The event is up to others. -/
def PSEvent.external : PSEvent sp → Prop
  | .deliver _ _ => True
  | .close => True
  | .cancel => True
  | _ => False

/-- The number of steps left without further incoming messages. -/
def PSState.left : PSState P → Nat
  | .loop _ st => st.tasks.length + 2 * st.outgoing.length + 3
  | .offering _ st _ => st.tasks.length + 2 * st.outgoing.length + 4
  | .rest _ _ l _ => l.length + 2
  | .done _ => 0

end Manul
