import Verif.Model.ParNet
import Verif.Model.RunAsync

/-!
# `run_async` with `offload_processing`

Model of `/repo/manul/src/dev/tokio.rs` with `offload_processing` on: the parties execute `par_run_session`
(`session/tokio.rs:190-391`).  The channels between the parties and the dispatcher, and the dispatcher, are those of
`Model/RunAsync`.  The scheduler is arbitrary.

The channels between the host task of a party and its tasks (`session/tokio.rs:223-224`) show only when the host joins the tasks:
until then it receives whatever task is the next to send.  While it joins them (`session/tokio.rs:344-354`) it receives nothing,
so the join comes to its end exactly if the results not yet received fit into the channels (`C42_exact`).

After the join the host sends the remaining messages one by one (`session/tokio.rs:361-369`), and then goes on.

Simplifications: those of `Model/RunAsync`; the artifact of a message is added before the message is sent, not after that (the
host does nothing else in between); the artifacts of the remaining messages are added when all of them have been sent.
-/

namespace Manul

variable {sp : SP} {P : Proto sp}

/-- The tasks and the channels.  `outbox` are the messages that the host task of a party has received from its tasks and still has
to put into the channel of the dispatcher; `joined` tells whether the host is past the join of a round. -/
structure PAsync {sp : SP} (P : Proto sp) where
  node : sp.Id → Option (ParState P)
  joined : sp.Id → Bool
  outbox : sp.Id → List (Message sp)
  inbox : sp.Id → List (Packet sp)
  chan : List (Packet sp)
  disp : Dispatcher sp

namespace PAsync

/-- The beginning. -/
def init : PAsync P := ⟨fun _ => none, fun _ => false, fun _ => [], fun _ => [], [], .waiting⟩

/-- A party changes its state, and has messages to send. -/
def put (x : PAsync P) (i : sp.Id) (st : ParState P) (j : Bool) (out : List (Message sp)) : PAsync P :=
  { x with
    node := Function.update x.node i (some st)
    joined := Function.update x.joined i j
    outbox := Function.update x.outbox i out }

/-- What the dispatcher can see of a party: whether it has returned. -/
def returned : Option (ParState P) → Option (RunState P)
  | some (.done r) => some (.done r)
  | _ => none

/-- What the dispatcher can see. -/
def post (x : PAsync P) : Async P := ⟨fun i => returned (x.node i), x.outbox, x.inbox, x.chan, x.disp⟩

/-- The dispatcher has dropped its channels. -/
def Ended (x : PAsync P) : Prop := x.disp = .returned ∨ x.disp = .failed

/-- All tasks of parties have returned. -/
def AllDone (g : Group P) (x : PAsync P) : Prop := ∀ i, g.parties.contains i = true → ∃ r, x.node i = some (.done r)

end PAsync

/-- The results of the tasks that have not been received fit into the channels. -/
def ParSt.Fits (st : ParSt P) : Prop :=
  st.tasks.length ≤ channelCapacity ∧ (st.outgoing.filterMap taskMessage).length ≤ channelCapacity

/-- The messages the host sends after the join (`session/tokio.rs:361-369`); none if a task has failed (`session/tokio.rs:344-354`). -/
def parRest (st : ParSt P) : List (Message sp) :=
  match parJoin st with
  | .ok _ => st.outgoing.filterMap taskMessage
  | .error _ => []

/-- One step of `run_async` with `offload_processing` (`dev/tokio.rs:77-145`, `session/tokio.rs:190-391`). -/
inductive PAsyncStep (g : Group P) (x : PAsync P) : PAsync P → Prop where
  /-- a task is started (`dev/tokio.rs:107-123`) -/
  | start {i : sp.Id} (rng rng' : sp.Rng) : g.parties.contains i = true → x.node i = none →
      PAsyncStep g x (x.put i (g.startPar i rng rng') false [])
  /-- a party sends a message to the dispatcher (`session/tokio.rs:300-301, 364-365`) -/
  | push {i : sp.Id} {m : Message sp} {ms : List (Message sp)} : x.outbox i = m :: ms → x.chan.length < asyncCapacity → ¬ x.Ended →
      PAsyncStep g x { x with outbox := Function.update x.outbox i ms, chan := x.chan ++ [⟨i, m.destination, m⟩] }
  /-- sending fails as the receiver is gone (`session/tokio.rs:302-306, 366`) -/
  | pushErr {i : sp.Id} {m : Message sp} {ms : List (Message sp)} : x.outbox i = m :: ms → x.Ended →
      PAsyncStep g x (x.put i (.done (.error .channelClosed)) false [])
  /-- the host receives the result of a task (`session/tokio.rs:290-309`) -/
  | task {i : sp.Id} {s : Session P} {st : ParSt P} {st' : ParState P} {o : ParOp sp} : x.node i = some (.running s st) →
      x.joined i = false → x.outbox i = [] → o.Enabled st → parStep (.running s st) (.op o) = some st' →
      PAsyncStep g x (x.put i st' false (parOut st (.op o)))
  /-- the host receives a message (`session/tokio.rs:310-333`) -/
  | recv {i : sp.Id} {s : Session P} {st : ParSt P} {st' : ParState P} {p : Packet sp} {ps : List (Packet sp)} :
      x.node i = some (.running s st) → x.joined i = false → x.outbox i = [] → x.inbox i = p :: ps →
      parStep (.running s st) (.op (.deliver p.src p.message)) = some st' →
      PAsyncStep g x (PAsync.put { x with inbox := Function.update x.inbox i ps } i st' false [])
  /-- the host finds that its channel is closed -/
  | closed {i : sp.Id} {s : Session P} {st : ParSt P} {st' : ParState P} : x.node i = some (.running s st) → x.joined i = false →
      x.outbox i = [] → x.inbox i = [] → x.Ended → parStep (.running s st) .close = some st' →
      PAsyncStep g x (x.put i st' false [])
  /-- the loop of a round has ended and all tasks have been joined (`session/tokio.rs:340-358`) -/
  | join {i : sp.Id} {s : Session P} {st : ParSt P} : x.node i = some (.running s st) → x.joined i = false →
      x.outbox i = [] → st.accum.canFinalize ≠ .notYet → st.Fits →
      PAsyncStep g x (x.put i (.running s st) true (parRest st))
  /-- the remaining messages have been sent, and the round is finalized (`session/tokio.rs:371-390`) -/
  | tick {i : sp.Id} {st st' : ParState P} {rng : sp.Rng} : x.node i = some st → x.joined i = true → x.outbox i = [] →
      parStep st (.tick rng) = some st' → PAsyncStep g x (x.put i st' false [])
  | dispatch {y : Async P} : DispatchStep g x.post y →
      PAsyncStep g x { x with inbox := y.inbox, chan := y.chan, disp := y.disp }

/-- What `run_async` can reach in `k` steps. -/
inductive PAsyncTakes (g : Group P) : Nat → PAsync P → Prop where
  | init : PAsyncTakes g 0 PAsync.init
  | step {k : Nat} {x x' : PAsync P} : PAsyncTakes g k x → PAsyncStep g x x' → PAsyncTakes g (k + 1) x'

/-- What `run_async` returns (`dev/tokio.rs:128-144`): the reports once all tasks have returned without an error. -/
def PAsync.Returns (g : Group P) (x : PAsync P) (reports : BMap sp.Id (Report P)) : Prop :=
  x.disp = .returned ∧ (∀ i, reports.contains i = g.parties.contains i) ∧
    ∀ i r, reports.get? i = some r → x.node i = some (.done (.ok r))

end Manul
