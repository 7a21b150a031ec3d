import Verif.Model.Driver

/-!
# The sequential driver, one message at a time

Model of `run_session` (`/repo/manul/src/session/tokio.rs:51-181`) in which every message is put into the outgoing channel on its
own: the channel takes it at some time, or never does, or has been closed by the receiving side.  The model in `Model/Driver`
makes all messages of a round in one step and has them sent at its end.
-/

namespace Manul

variable {sp : SP} {P : Proto sp}

/-- `MessageOut` (`tokio.rs:20-36`). -/
structure MessageOut (sp : SP) where
  sessionId : Bytes
  sender : sp.Id
  dest : sp.Id
  message : Message sp

/-- The errors `run_session` returns. -/
inductive DriverErr where
  /-- an error of the session object, or that of the closed incoming channel -/
  | inner (e : LErr)
  /-- `tokio.rs:106-112`: the outgoing channel was closed -/
  | sendFailed
deriving DecidableEq

/-- Where `run_session` is. -/
inductive SendState {sp : SP} (P : Proto sp) where
  /-- in the loop over the destinations, with the number of the next one (`tokio.rs:92-97`) -/
  | sending (s : Session P) (a : Accum P) (cached : List (VerifiedMessage sp)) (rng : sp.Rng) (i : Nat) (ds : List sp.Id)
  /-- waiting for the outgoing channel to take the message (`tokio.rs:99-105`) -/
  | offering (s : Session P) (a : Accum P) (cached : List (VerifiedMessage sp)) (rng : sp.Rng) (i : Nat) (ds : List sp.Id)
      (m : MessageOut sp) (art : ProcessedArtifact P)
  /-- in the loop over the cached messages (`tokio.rs:118-125`) -/
  | applying (s : Session P) (a : Accum P) (cached : List (VerifiedMessage sp))
  /-- in the inner loop (`tokio.rs:127-166`) -/
  | looping (s : Session P) (a : Accum P)
  | done (r : Except DriverErr (Report P))

/-- What happens. -/
inductive SendEvent (sp : SP) where
  /-- `run_session` goes on by itself -/
  | go
  /-- the outgoing channel takes the message -/
  | accept
  /-- the outgoing channel has been closed -/
  | refuse
  /-- `run_session` waits for events or leaves the inner loop (`Model/Driver`) -/
  | ev (e : Event sp)

/-- An error of the session object. -/
def SendState.fail (e : LErr) : SendState P := .done (.error (.inner e))

/-- The first state of a round (`tokio.rs:80-91`). -/
def SendState.enter (s : Session P) (rng : sp.Rng) (cached : List (VerifiedMessage sp)) : SendState P :=
  .sending s s.makeAccum cached rng 0 s.destinations.elems

/-- Terminating (`tokio.rs:135,146`). -/
def SendState.ofReport : Except LErr (Report P) → SendState P
  | .ok r => .done (.ok r)
  | .error e => .fail e

/-- One step of `run_session`, with the message the outgoing channel takes; `none` if the event cannot happen in this state. -/
def sendStep : SendState P → SendEvent sp → Option (SendState P × List (MessageOut sp))
  | .sending s a cached _ _ [], .go => some (.applying s a cached, [])
  | .sending s a cached rng i (d :: ds), .go =>
    match s.makeMessage (sp.fork rng i) d with
    | .error e => some (.fail e, [])
    | .ok (m, art) => some (.offering s a cached rng i ds ⟨s.sessionId, s.me, d, m⟩ art, [])
  | .offering s a cached rng i ds m art, .accept =>
    match a.addArtifact art with
    | .error e => some (.fail e, [m])
    | .ok a' => some (.sending s a' cached rng (i + 1) ds, [m])
  | .offering _ _ _ _ _ _ _ _, .refuse => some (.done (.error .sendFailed), [])
  | .applying s a [], .go => some (.looping s a, [])
  | .applying s a (vm :: cached), .go =>
    match applyVerified s a vm with
    | .error e => some (.fail e, [])
    | .ok a' => some (.applying s a' cached, [])
  | .looping s a, .ev e =>
    match a.canFinalize, e with
    | .yes, .tick rng =>
      match s.finalizeRound (sp.fork rng 0) a with
      | .error e => some (.fail e, [])
      | .ok (.finished r) => some (.done (.ok r), [])
      | .ok (.anotherRound s' cached) => some (.enter s' (sp.fork rng 1) cached, [])
    | .never, .tick _ => some (.ofReport (s.terminateDueToErrors a), [])
    | .notYet, .deliver sender m =>
      match deliver s a sender m with
      | .error e => some (.fail e, [])
      | .ok a' => some (.looping s a', [])
    | .notYet, .cancel => some (.ofReport (s.terminateDueToErrors a), [])
    | .notYet, .close => some (.fail .channelClosed, [])
    | _, _ => none
  | _, _ => none

/-- The states `run_session` can get into, with the messages the outgoing channel has taken, in this order. -/
inductive SendRun (s₀ : Session P) : SendState P → List (MessageOut sp) → Prop where
  | start (rng : sp.Rng) : SendRun s₀ (.enter s₀ rng []) []
  | step {st st' : SendState P} {outs out : List (MessageOut sp)} {e : SendEvent sp} :
      SendRun s₀ st outs → sendStep st e = some (st', out) → SendRun s₀ st' (outs ++ out)

end Manul
