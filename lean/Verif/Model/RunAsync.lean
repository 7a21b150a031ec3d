import Verif.Model.Network
import Verif.Model.RunSync

/-!
# `run_async`

Model of `/repo/manul/src/dev/tokio.rs`: the sessions of all parties run as `tokio` tasks (`run_session`, without
`offload_processing`), connected by bounded channels and a task that passes messages on in a random order.  The scheduler is
arbitrary: any task that is not blocked may make a step.

A party making the messages of a round sends them one by one and is blocked when the channel is full
(`session/tokio.rs:100-113`); until then it does not read its own channel.

Simplifications: all messages of a round are made before the first one is sent; a receiver is dropped at the moment its task
returns; sessions are created when their task starts (in the code they are created earlier, in the order of the list).
-/

namespace Manul

variable {sp : SP} {P : Proto sp}

/-- The capacity of the channels (`dev/tokio.rs:91, 93`). -/
def asyncCapacity : Nat := 100

/-- Where `message_dispatcher` is (`dev/tokio.rs:20-71`); `bag` is the variable `messages`. -/
inductive Dispatcher (sp : SP) where
  /-- waiting for a message (`tokio.rs:33-37`); the list is empty -/
  | waiting
  /-- the loop with `try_recv` (`tokio.rs:39-41`) -/
  | draining (bag : List (Packet sp))
  /-- the condition of the inner loop (`tokio.rs:43`) -/
  | picking (bag : List (Packet sp))
  /-- waiting for room in the channel of the destination (`tokio.rs:49-61`) -/
  | sending (p : Packet sp) (bag : List (Packet sp))
  /-- after the pause (`tokio.rs:64-68`) -/
  | polling (bag : List (Packet sp))
  /-- returned (`tokio.rs:35`), or failed (`tokio.rs:50-61`) -/
  | returned
  | failed

/-- The tasks and the channels.  `outbox` are the messages of its round that a party has still to put into the channel of the
dispatcher, `inbox` its own channel. -/
structure Async {sp : SP} (P : Proto sp) where
  node : sp.Id → Option (RunState P)
  outbox : sp.Id → List (Message sp)
  inbox : sp.Id → List (Packet sp)
  chan : List (Packet sp)
  disp : Dispatcher sp

namespace Async

/-- The beginning. -/
def init : Async P := ⟨fun _ => none, fun _ => [], fun _ => [], [], .waiting⟩

/-- A party changes its state, and has messages to send. -/
def put (x : Async P) (i : sp.Id) (st : RunState P) (out : List (Message sp)) : Async P :=
  { x with node := Function.update x.node i (some st), outbox := Function.update x.outbox i out }

/-- Whether all tasks of parties have returned, so that no sender is left for the channel of the dispatcher. -/
def AllDone (g : Group P) (x : Async P) : Prop := ∀ i, g.parties.contains i = true → ∃ r, x.node i = some (.done r)

/-- The dispatcher has dropped its channels. -/
def Ended (x : Async P) : Prop := x.disp = .returned ∨ x.disp = .failed

end Async

/-- One step of the dispatcher (`dev/tokio.rs:33-69`). -/
inductive DispatchStep (g : Group P) (x : Async P) : Async P → Prop where
  | recv {p : Packet sp} {c : List (Packet sp)} : x.disp = .waiting → x.chan = p :: c →
      DispatchStep g x { x with disp := .draining [p], chan := c }
  | close : x.disp = .waiting → x.chan = [] → x.AllDone g → DispatchStep g x { x with disp := .returned }
  | drain {p : Packet sp} {bag c : List (Packet sp)} : x.disp = .draining bag → x.chan = p :: c →
      DispatchStep g x { x with disp := .draining (bag ++ [p]), chan := c }
  | drained {bag : List (Packet sp)} : x.disp = .draining bag → x.chan = [] → DispatchStep g x { x with disp := .picking bag }
  | emptied : x.disp = .picking [] → DispatchStep g x { x with disp := .waiting }
  | pick {bag bag' : List (Packet sp)} {k : Nat} {p : Packet sp} : x.disp = .picking bag →
      Queue.swapRemove bag k = some (p, bag') → DispatchStep g x { x with disp := .sending p bag' }
  | noChannel {p : Packet sp} {bag : List (Packet sp)} : x.disp = .sending p bag → g.parties.contains p.dest = false →
      DispatchStep g x { x with disp := .failed }
  | dropped {p : Packet sp} {bag : List (Packet sp)} {r : Except LErr (Report P)} : x.disp = .sending p bag →
      g.parties.contains p.dest = true → x.node p.dest = some (.done r) → DispatchStep g x { x with disp := .failed }
  | send {p : Packet sp} {bag : List (Packet sp)} : x.disp = .sending p bag → g.parties.contains p.dest = true →
      (∀ r, x.node p.dest ≠ some (.done r)) → (x.inbox p.dest).length < asyncCapacity →
      DispatchStep g x { x with disp := .polling bag, inbox := Function.update x.inbox p.dest (x.inbox p.dest ++ [p]) }
  | poll {p : Packet sp} {bag c : List (Packet sp)} : x.disp = .polling bag → x.chan = p :: c →
      DispatchStep g x { x with disp := .picking (bag ++ [p]), chan := c }
  | polled {bag : List (Packet sp)} : x.disp = .polling bag → x.chan = [] → DispatchStep g x { x with disp := .picking bag }

/-- One step of `run_async` (`dev/tokio.rs:77-145`). -/
inductive AsyncStep (g : Group P) (x : Async P) : Async P → Prop where
  /-- a task is started (`tokio.rs:107-123`) -/
  | start {i : sp.Id} (rng rng' : sp.Rng) : g.parties.contains i = true → x.node i = none →
      AsyncStep g x (x.put i (g.startNode i rng rng').1 (g.startNode i rng rng').2)
  /-- a party sends a message to the dispatcher (`session/tokio.rs:100-106`) -/
  | push {i : sp.Id} {m : Message sp} {ms : List (Message sp)} : x.outbox i = m :: ms → x.chan.length < asyncCapacity → ¬ x.Ended →
      AsyncStep g x { x with outbox := Function.update x.outbox i ms, chan := x.chan ++ [⟨i, m.destination, m⟩] }
  /-- sending fails as the receiver is gone (`session/tokio.rs:107-113`) -/
  | pushErr {i : sp.Id} {m : Message sp} {ms : List (Message sp)} : x.outbox i = m :: ms → x.Ended →
      AsyncStep g x (x.put i (.done (.error .channelClosed)) [])
  /-- a party finalizes a round, and goes on to the next -/
  | tick {i : sp.Id} {st st' : RunState P} {rng : sp.Rng} {out : List (Message sp)} : x.node i = some st → x.outbox i = [] →
      step st (.tick rng) = some (st', out) → AsyncStep g x (x.put i st' out)
  /-- a party receives a message -/
  | recv {i : sp.Id} {st st' : RunState P} {p : Packet sp} {ps : List (Packet sp)} {out : List (Message sp)} :
      x.node i = some st → x.outbox i = [] → x.inbox i = p :: ps → step st (.deliver p.src p.message) = some (st', out) →
      AsyncStep g x (Async.put { x with inbox := Function.update x.inbox i ps } i st' out)
  /-- a party finds that its channel is closed -/
  | closed {i : sp.Id} {st st' : RunState P} {out : List (Message sp)} : x.node i = some st → x.outbox i = [] → x.inbox i = [] →
      x.Ended → step st .close = some (st', out) → AsyncStep g x (x.put i st' out)
  | dispatch {x' : Async P} : DispatchStep g x x' → AsyncStep g x x'

/-- What `run_async` can reach in `k` steps. -/
inductive AsyncTakes (g : Group P) : Nat → Async P → Prop where
  | init : AsyncTakes g 0 Async.init
  | step {k : Nat} {x x' : Async P} : AsyncTakes g k x → AsyncStep g x x' → AsyncTakes g (k + 1) x'

/-- What `run_async` returns (`dev/tokio.rs:128-144`): the reports once all tasks have returned without an error. -/
def Async.Returns (g : Group P) (x : Async P) (reports : BMap sp.Id (Report P)) : Prop :=
  x.disp = .returned ∧ (∀ i, reports.contains i = g.parties.contains i) ∧
    ∀ i r, reports.get? i = some r → x.node i = some (.done (.ok r))

end Manul
