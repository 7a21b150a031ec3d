import Verif.Model.Send
import Verif.Model.Par

/-!
# The parallel driver with a slow or closed outgoing channel and failing tasks

Model of `par_run_session` (`/repo/manul/src/session/tokio.rs:190-391`) in which every message is put into the outgoing channel on
its own, and tasks can panic: a task that panics sends nothing to the host, and joining it fails.  `Model/Par` leaves these out.

Simplifications: `ChaCha20Rng::from_rng` succeeds and gives the `i`-th task `fork rng i`; the channels between the tasks and the host
are large enough (`JStep` in `Model/Par` is about them); a panic is an error value of the user's code (`LErr.isPanic`).
-/

namespace Manul

variable {sp : SP} {P : Proto sp}

/-- The errors `par_run_session` returns. -/
inductive ParErr where
  /-- an error of the session object, or that of the closed incoming channel -/
  | inner (e : LErr)
  /-- `tokio.rs:299-306, 364-366`: the outgoing channel was closed -/
  | sendFailed
  /-- `tokio.rs:344-354`: a task panicked -/
  | joinFailed
deriving DecidableEq

/-- A created message with its artifact. -/
abbrev Created (P : Proto sp) := MessageOut sp × ProcessedArtifact P

/-- Where `par_run_session` is. -/
inductive PSState {sp : SP} (P : Proto sp) where
  /-- in the loop of a round (`tokio.rs:280-338`) -/
  | loop (s : Session P) (st : ParSt P)
  /-- in the loop, waiting for the outgoing channel to take the message (`tokio.rs:295-306`) -/
  | offering (s : Session P) (st : ParSt P) (c : Created P)
  /-- after the join, sending the remaining messages, of which the first one is being offered (`tokio.rs:360-369`); `next` is
  the RNG for finalizing, if the round can be finalized -/
  | rest (s : Session P) (a : Accum P) (l : List (Created P)) (next : Option sp.Rng)
  | done (r : Except ParErr (Report P))

/-- An error of the session object. -/
def PSState.fail (e : LErr) : PSState P := .done (.error (.inner e))

/-- What a creation task sends to the host (`tokio.rs:245-261`). -/
def created (s : Session P) (o : sp.Id × Except LErr (Message sp × ProcessedArtifact P)) : Except LErr (Created P) :=
  match o.2 with
  | .ok (m, art) => .ok (⟨s.sessionId, s.me, o.1, m⟩, art)
  | .error e => .error e

/-- Processing the message panics. -/
def Session.processPanics (s : Session P) (vm : VerifiedMessage sp) : Bool :=
  match (s.process vm).result with
  | .error (.local e) => e.isPanic
  | _ => false

/-- How a failed creation task shows when it is joined (`tokio.rs:344-348`). -/
def ParErr.ofTask (e : LErr) : ParErr := if e.isPanic then .joinFailed else .inner e

/-- What happens. -/
inductive PSEvent (sp : SP) where
  /-- `par_run_session` goes on, by itself or because a task has sent its result -/
  | go
  /-- an incoming message -/
  | deliver (x : sp.Id) (m : Message sp)
  /-- the incoming channel has been closed -/
  | close
  /-- the cancellation is noticed -/
  | cancel
  /-- the outgoing channel takes the message -/
  | accept
  /-- the outgoing channel has been closed -/
  | refuse

/-- The loop of a round can be left, by itself or because of the cancellation (`tokio.rs:281-288, 334-336`). -/
inductive Leaves (a : Accum P) : PSEvent sp → Option sp.Rng → Prop where
  | yes (rng : sp.Rng) : a.canFinalize = .yes → Leaves a .go (some rng)
  | never : a.canFinalize = .never → Leaves a .go none
  | cancel : a.canFinalize = .notYet → Leaves a .cancel none

/-- The steps of `par_run_session`, with the messages the outgoing channel takes and the session object of the round that is
over. -/
inductive PSStep : PSState P → PSEvent sp → List (MessageOut sp) → List (Session P) → PSState P → Prop where
  /-- an incoming message -/
  | deliver {s : Session P} {st st' : ParSt P} {x : sp.Id} {m : Message sp} : st.accum.canFinalize = .notYet →
      parOp s st (.deliver x m) = .ok st' → PSStep (.loop s st) (.deliver x m) [] [] (.loop s st')
  | deliverFails {s : Session P} {st : ParSt P} {x : sp.Id} {m : Message sp} {e : LErr} : st.accum.canFinalize = .notYet →
      parOp s st (.deliver x m) = .error e → PSStep (.loop s st) (.deliver x m) [] [] (.fail e)
  /-- the result of a processing task -/
  | complete {s : Session P} {st : ParSt P} {i : Nat} {vm : VerifiedMessage sp} {a : Accum P} : st.accum.canFinalize = .notYet →
      st.tasks[i]? = some vm → s.processPanics vm = false → s.addProcessed st.accum (s.process vm) = .ok a →
      PSStep (.loop s st) .go [] [] (.loop s { st with accum := a, tasks := st.tasks.eraseIdx i })
  | completeFails {s : Session P} {st : ParSt P} {i : Nat} {vm : VerifiedMessage sp} {e : LErr} :
      st.accum.canFinalize = .notYet → st.tasks[i]? = some vm → s.processPanics vm = false →
      s.addProcessed st.accum (s.process vm) = .error e → PSStep (.loop s st) .go [] [] (.fail e)
  /-- the result of a creation task -/
  | receive {s : Session P} {st : ParSt P} {i : Nat} {o : sp.Id × Except LErr (Message sp × ProcessedArtifact P)} {c : Created P} :
      st.accum.canFinalize = .notYet → st.outgoing[i]? = some o → created s o = .ok c →
      PSStep (.loop s st) .go [] [] (.offering s { st with outgoing := st.outgoing.eraseIdx i } c)
  /-- the outgoing channel takes the message -/
  | accept {s : Session P} {st : ParSt P} {c : Created P} {a : Accum P} : st.accum.addArtifact c.2 = .ok a →
      PSStep (.offering s st c) .accept [c.1] [] (.loop s { st with accum := a })
  | acceptFails {s : Session P} {st : ParSt P} {c : Created P} {e : LErr} : st.accum.addArtifact c.2 = .error e →
      PSStep (.offering s st c) .accept [c.1] [] (.fail e)
  /-- the outgoing channel has been closed -/
  | refuse {s : Session P} {st : ParSt P} {c : Created P} : PSStep (.offering s st c) .refuse [] [] (.done (.error .sendFailed))
  /-- the incoming channel has been closed -/
  | close {s : Session P} {st : ParSt P} : st.accum.canFinalize = .notYet → PSStep (.loop s st) .close [] [] (.fail .channelClosed)
  /-- the join, when all tasks succeed; the messages are in the order in which the tasks have finished -/
  | join {s : Session P} {st : ParSt P} {ev : PSEvent sp} {next : Option sp.Rng} {l l' : List (Created P)} :
      Leaves st.accum ev next → mapE (created s) st.outgoing = .ok l → (∀ vm ∈ st.tasks, s.processPanics vm = false) → l'.Perm l →
      PSStep (.loop s st) ev [] [] (.rest s st.accum l' next)
  /-- the join, when a creation task has failed -/
  | creationFailed {s : Session P} {st : ParSt P} {ev : PSEvent sp} {next : Option sp.Rng} {e : LErr} : Leaves st.accum ev next →
      mapE (created s) st.outgoing = .error e → PSStep (.loop s st) ev [] [] (.done (.error (.ofTask e)))
  /-- the join, when a processing task has failed -/
  | processingFailed {s : Session P} {st : ParSt P} {ev : PSEvent sp} {next : Option sp.Rng} {l : List (Created P)}
      {vm : VerifiedMessage sp} :
      Leaves st.accum ev next → mapE (created s) st.outgoing = .ok l → vm ∈ st.tasks → s.processPanics vm = true →
      PSStep (.loop s st) ev [] [] (.done (.error .joinFailed))
  | acceptRest {s : Session P} {a a' : Accum P} {c : Created P} {l : List (Created P)} {next : Option sp.Rng} :
      a.addArtifact c.2 = .ok a' → PSStep (.rest s a (c :: l) next) .accept [c.1] [] (.rest s a' l next)
  | acceptRestFails {s : Session P} {a : Accum P} {c : Created P} {l : List (Created P)} {next : Option sp.Rng} {e : LErr} :
      a.addArtifact c.2 = .error e → PSStep (.rest s a (c :: l) next) .accept [c.1] [] (.fail e)
  | refuseRest {s : Session P} {a : Accum P} {c : Created P} {l : List (Created P)} {next : Option sp.Rng} :
      PSStep (.rest s a (c :: l) next) .refuse [] [] (.done (.error .sendFailed))
  /-- `tokio.rs:376-378` -/
  | terminate {s : Session P} {a : Accum P} {r : Report P} : s.terminateDueToErrors a = .ok r →
      PSStep (.rest s a [] none) .go [] [] (.done (.ok r))
  | terminateFails {s : Session P} {a : Accum P} {e : LErr} : s.terminateDueToErrors a = .error e →
      PSStep (.rest s a [] none) .go [] [] (.fail e)
  /-- `tokio.rs:380-388` -/
  | finish {s : Session P} {a : Accum P} {rng : sp.Rng} {r : Report P} : s.finalizeRound (sp.fork rng 0) a = .ok (.finished r) →
      PSStep (.rest s a [] (some rng)) .go [] [] (.done (.ok r))
  | next {s s' : Session P} {a : Accum P} {rng : sp.Rng} {cached : List (VerifiedMessage sp)} :
      s.finalizeRound (sp.fork rng 0) a = .ok (.anotherRound s' cached) →
      PSStep (.rest s a [] (some rng)) .go [] [s] (.loop s' (ParSt.begin s' (sp.fork rng 1) cached))
  | finalizeFails {s : Session P} {a : Accum P} {rng : sp.Rng} {e : LErr} : s.finalizeRound (sp.fork rng 0) a = .error e →
      PSStep (.rest s a [] (some rng)) .go [] [] (.fail e)

/-- The states `par_run_session` can get into from the session object `s₀`, with the session objects of the rounds that are over
and the messages the outgoing channel has taken. -/
inductive PSRun (s₀ : Session P) : List (Session P) → PSState P → List (MessageOut sp) → Prop where
  | start (rng : sp.Rng) : PSRun s₀ [] (.loop s₀ (ParSt.begin s₀ rng [])) []
  | step {trail fin : List (Session P)} {st st' : PSState P} {outs out : List (MessageOut sp)} {ev : PSEvent sp} :
      PSRun s₀ trail st outs → PSStep st ev out fin st' → PSRun s₀ (trail ++ fin) st' (outs ++ out)

end Manul
