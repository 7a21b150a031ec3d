import Verif.Model.Session

/-!
# The sequential driver

Model of `run_session` (`/repo/manul/src/session/tokio.rs:51-181`) as a step machine.  The environment chooses the
events: delivery of any message attributed to any sender, cancellation, closing of the incoming channel, and the values
of the RNG.

Simplification: sending into the outgoing channel always succeeds (`Model/Send` does without it).
-/

namespace Manul

variable {sp : SP} {P : Proto sp}

/-- The loop sending out the messages of a round (`tokio.rs:91-116`); `i` numbers the uses of the RNG. -/
def sendAll (s : Session P) (rng : sp.Rng) :
    Nat → Accum P → List sp.Id → Except LErr (Accum P × List (Message sp))
  | _, a, [] => .ok (a, [])
  | i, a, d :: ds =>
    match s.makeMessage (sp.fork rng i) d with
    | .error e => .error e
    | .ok (m, art) =>
      match a.addArtifact art with
      | .error e => .error e
      | .ok a' =>
        match sendAll s rng (i + 1) a' ds with
        | .error e => .error e
        | .ok (a'', ms) => .ok (a'', m :: ms)

/-- Processing one verified message and adding the result (`tokio.rs:121-124, 158-160`). -/
def applyVerified (s : Session P) (a : Accum P) (m : VerifiedMessage sp) : Except LErr (Accum P) :=
  s.addProcessed a (s.process m)

/-- The beginning of a round: send messages, then apply the cached ones (`tokio.rs:85-125`). -/
def startRound (s : Session P) (rng : sp.Rng) (cached : List (VerifiedMessage sp)) :
    Except LErr (Accum P × List (Message sp)) :=
  match sendAll s rng 0 s.makeAccum s.destinations.elems with
  | .error e => .error e
  | .ok (a, out) =>
    match foldE (applyVerified s) a cached with
    | .error e => .error e
    | .ok a' => .ok (a', out)

/-- Handling one incoming message (`tokio.rs:151-165`). -/
def deliver (s : Session P) (a : Accum P) (sender : sp.Id) (m : Message sp) : Except LErr (Accum P) :=
  match s.preprocess a sender m with
  | .error e => .error e
  | .ok (a', o) =>
    match o.ok? with
    | some vm => applyVerified s a' vm
    | none => .ok a'

/-- The state of `run_session`: inside the inner loop (`tokio.rs:127`), or returned. -/
inductive RunState {sp : SP} (P : Proto sp) where
  | running (s : Session P) (a : Accum P)
  | done (r : Except LErr (Report P))

/-- What the environment does. -/
inductive Event (sp : SP) where
  /-- the inner loop proceeds without waiting for the environment (`Yes`/`Never`); carries the RNG -/
  | tick (rng : sp.Rng)
  | deliver (sender : sp.Id) (m : Message sp)
  | cancel
  | close

/-- Entering a round (first iteration of the outer loop, `tokio.rs:80-125`). -/
def enterRound (s : Session P) (rng : sp.Rng) (cached : List (VerifiedMessage sp)) :
    RunState P × List (Message sp) :=
  match startRound s rng cached with
  | .error e => (.done (.error e), [])
  | .ok (a, out) => (.running s a, out)

/-- Finalizing a round (`tokio.rs:170-179`) and entering the next. -/
def finishRound (s : Session P) (a : Accum P) (rng : sp.Rng) : RunState P × List (Message sp) :=
  match s.finalizeRound (sp.fork rng 0) a with
  | .error e => (.done (.error e), [])
  | .ok (.finished r) => (.done (.ok r), [])
  | .ok (.anotherRound s' cached) => enterRound s' (sp.fork rng 1) cached

/-- One step of `run_session`, returning the messages sent out; `none` if the event cannot happen in this state. -/
def step : RunState P → Event sp → Option (RunState P × List (Message sp))
  | .done _, _ => none
  | .running s a, ev =>
    match a.canFinalize, ev with
    | .yes, .tick rng => some (finishRound s a rng)
    | .never, .tick _ => some (.done (s.terminateDueToErrors a), [])
    | .notYet, .deliver sender m =>
      match deliver s a sender m with
      | .error e => some (.done (.error e), [])
      | .ok a' => some (.running s a', [])
    | .notYet, .cancel => some (.done (s.terminateDueToErrors a), [])
    | .notYet, .close => some (.done (.error .channelClosed), [])
    | _, _ => none

/-- The state at the start of `run_session`. -/
def start (s : Session P) (rng : sp.Rng) : RunState P × List (Message sp) := enterRound s rng []

/-- Reachability in `run_session`, from the session object `s₀` created by the entry point. -/
inductive Reach (s₀ : Session P) : RunState P → Prop where
  | start (rng : sp.Rng) : Reach s₀ (start s₀ rng).1
  | step {st st' : RunState P} {ev : Event sp} {out : List (Message sp)} :
      Reach s₀ st → step st ev = some (st', out) → Reach s₀ st'

end Manul
