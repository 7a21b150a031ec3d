import Verif.Model.Driver

/-!
# The parallel driver

Model of `par_run_session` (`/repo/manul/src/session/tokio.rs:190-391`) as a step machine.  Creating a message and processing
a message happen in spawned tasks; the environment chooses when their results reach the host task.

Simplifications: sending into the outgoing channel always succeeds; `ChaCha20Rng::from_rng` succeeds and gives the `i`-th task
`fork rng i`; tasks do not panic (`Model/ParSend` does without the first and the last).  The bounded channels between the tasks
and the host are left out here and modelled on their own in the second half of the file.
-/

namespace Manul

variable {sp : SP} {P : Proto sp}

/-- The host task's data within a round. -/
structure ParSt {sp : SP} (P : Proto sp) where
  /-- the accumulator (`tokio.rs:228`) -/
  accum : Accum P
  /-- messages handed to processing tasks whose results have not been added yet (`tokio.rs:265-278, 320-327`) -/
  tasks : List (VerifiedMessage sp)
  /-- creation tasks whose results have not been received yet, with their destinations (`tokio.rs:235-263`) -/
  outgoing : List (sp.Id × Except LErr (Message sp × ProcessedArtifact P))

/-- The creation tasks, numbered from `i` (`tokio.rs:235-263`). -/
def creationTasks (s : Session P) (rng : sp.Rng) : Nat → List sp.Id →
    List (sp.Id × Except LErr (Message sp × ProcessedArtifact P))
  | _, [] => []
  | i, d :: ds => (d, s.makeMessage (sp.fork rng i) d) :: creationTasks s rng (i + 1) ds

/-- The beginning of a round (`tokio.rs:223-278`). -/
def ParSt.begin (s : Session P) (rng : sp.Rng) (cached : List (VerifiedMessage sp)) : ParSt P :=
  ⟨s.makeAccum, cached, creationTasks s rng 0 s.destinations.elems⟩

/-- What happens in the `select!` (`tokio.rs:290-337`). -/
inductive ParOp (sp : SP) where
  /-- an incoming message -/
  | deliver (sender : sp.Id) (m : Message sp)
  /-- the result of the `i`-th outstanding processing task -/
  | complete (i : Nat)
  /-- the result of the `i`-th outstanding creation task -/
  | send (i : Nat)

/-- The body of the `select!`.  An index that is out of range, or that of a failed creation task (which sends nothing), does
nothing. -/
def parOp (s : Session P) (st : ParSt P) : ParOp sp → Except LErr (ParSt P)
  | .deliver x m =>
    match s.preprocess st.accum x m with
    | .error e => .error e
    | .ok (a, o) =>
      match o.ok? with
      | some vm => .ok { st with accum := a, tasks := st.tasks ++ [vm] }
      | none => .ok { st with accum := a }
  | .complete i =>
    match st.tasks[i]? with
    | none => .ok st
    | some vm =>
      match s.addProcessed st.accum (s.process vm) with
      | .error e => .error e
      | .ok a => .ok { st with accum := a, tasks := st.tasks.eraseIdx i }
  | .send i =>
    match st.outgoing[i]? with
    | some (_, .ok (_, art)) =>
      match st.accum.addArtifact art with
      | .error e => .error e
      | .ok a => .ok { st with accum := a, outgoing := st.outgoing.eraseIdx i }
    | _ => .ok st

/-- Joining the tasks and sending the remaining messages (`tokio.rs:344-369`): a failed creation task makes the driver fail;
otherwise the remaining artifacts are added.  The remaining processing results stay in their channel and are dropped. -/
def parJoin (st : ParSt P) : Except LErr (Accum P) :=
  match mapE (fun x : sp.Id × Except LErr (Message sp × ProcessedArtifact P) => x.2) st.outgoing with
  | .error e => .error e
  | .ok l => foldE (fun a x => Accum.addArtifact a x.2) st.accum l

/-- The state of `par_run_session`. -/
inductive ParState {sp : SP} (P : Proto sp) where
  | running (s : Session P) (st : ParSt P)
  | done (r : Except LErr (Report P))

/-- What the environment does. -/
inductive ParEvent (sp : SP) where
  /-- the inner loop ends by itself (`Yes`/`Never`); carries the RNG -/
  | tick (rng : sp.Rng)
  | op (o : ParOp sp)
  | cancel
  | close

/-- Joining and terminating (`tokio.rs:344-378`). -/
def parTerminate (s : Session P) (st : ParSt P) : ParState P :=
  match parJoin st with
  | .error e => .done (.error e)
  | .ok a => .done (s.terminateDueToErrors a)

/-- Joining and finalizing (`tokio.rs:344-390`). -/
def parFinish (s : Session P) (st : ParSt P) (rng : sp.Rng) : ParState P :=
  match parJoin st with
  | .error e => .done (.error e)
  | .ok a =>
    match s.finalizeRound (sp.fork rng 0) a with
    | .error e => .done (.error e)
    | .ok (.finished r) => .done (.ok r)
    | .ok (.anotherRound s' cached) => .running s' (ParSt.begin s' (sp.fork rng 1) cached)

/-- One step of `par_run_session`; `none` if the event cannot happen in this state. -/
def parStep : ParState P → ParEvent sp → Option (ParState P)
  | .done _, _ => none
  | .running s st, ev =>
    match st.accum.canFinalize, ev with
    | .yes, .tick rng => some (parFinish s st rng)
    | .never, .tick _ => some (parTerminate s st)
    | .notYet, .op o =>
      match parOp s st o with
      | .error e => some (.done (.error e))
      | .ok st' => some (.running s st')
    | .notYet, .cancel => some (parTerminate s st)
    | .notYet, .close => some (.done (.error .channelClosed))
    | _, _ => none

/-! ## The channels of a round and the join

`processed_tx`/`processed_rx` and `outgoing_tx`/`outgoing_rx` are channels of capacity 100 (`tokio.rs:223-224`); the tasks use
`blocking_send`.  While the host joins the tasks (`tokio.rs:344-354`) it does not receive. -/

/-- Where the host task is. -/
inductive JoinPhase where
  /-- in the loop with the `select!` -/
  | loop
  /-- awaiting the creation tasks (`tokio.rs:344-348`) -/
  | joinCreation
  /-- awaiting the processing tasks (`tokio.rs:350-354`) -/
  | joinProcessing
  /-- past the join -/
  | joined
deriving DecidableEq

/-- Task and channel counters.  A task that has put its result into the channel is finished. -/
structure JoinSt where
  creating : Nat
  outQ : Nat
  processing : Nat
  procQ : Nat
  phase : JoinPhase
deriving DecidableEq

/-- The capacity (`tokio.rs:223-224`). -/
def channelCapacity : Nat := 100

/-- The moves of tasks and host.  Awaiting the tasks one after the other is summarised as waiting until all have finished. -/
inductive JStep : JoinSt → JoinSt → Prop where
  | putOut {c o p q ph} : o < channelCapacity → JStep ⟨c + 1, o, p, q, ph⟩ ⟨c, o + 1, p, q, ph⟩
  | putProc {c o p q ph} : q < channelCapacity → JStep ⟨c, o, p + 1, q, ph⟩ ⟨c, o, p, q + 1, ph⟩
  | takeOut {c o p q} : JStep ⟨c, o + 1, p, q, .loop⟩ ⟨c, o, p, q, .loop⟩
  | takeProc {c o p q} : JStep ⟨c, o, p, q + 1, .loop⟩ ⟨c, o, p, q, .loop⟩
  | spawn {c o p q} : JStep ⟨c, o, p, q, .loop⟩ ⟨c, o, p + 1, q, .loop⟩
  | exit {c o p q} : JStep ⟨c, o, p, q, .loop⟩ ⟨c, o, p, q, .joinCreation⟩
  | joinCreation {o p q} : JStep ⟨0, o, p, q, .joinCreation⟩ ⟨0, o, p, q, .joinProcessing⟩
  | joinProcessing {c o q} : JStep ⟨c, o, 0, q, .joinProcessing⟩ ⟨c, o, 0, q, .joined⟩

/-- Any number of moves. -/
inductive JSteps : JoinSt → JoinSt → Prop where
  | refl {a} : JSteps a a
  | step {a b c} : JSteps a b → JStep b c → JSteps a c

/-- The counters when the loop of a round starts: one creation task per destination, one processing task per cached
message. -/
def JoinSt.init (destinations cached : Nat) : JoinSt := ⟨destinations, 0, cached, 0, .loop⟩

end Manul
