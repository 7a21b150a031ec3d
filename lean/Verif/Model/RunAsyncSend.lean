import Verif.Model.RunAsync
import Verif.Model.Send

/-!
# `run_async`, one message at a time

Model of `/repo/manul/src/dev/tokio.rs` without `offload_processing`, in which the parties make, send and process their
messages one at a time (`Model/Send`): between any two of these the scheduler may switch to another task.  In
`Model/RunAsync` all messages of a round are made, and the messages kept from the round before processed, before the first
message is sent.
-/

namespace Manul

variable {sp : SP} {P : Proto sp}

/-- The tasks and the channels. -/
structure SAsync {sp : SP} (P : Proto sp) where
  node : sp.Id → Option (SendState P)
  inbox : sp.Id → List (Packet sp)
  chan : List (Packet sp)
  disp : Dispatcher sp

/-- The error of a task, as one of the library. -/
def DriverErr.asLocal : DriverErr → LErr
  | .inner e => e
  | .sendFailed => .channelClosed

namespace SAsync

/-- The beginning. -/
def init : SAsync P := ⟨fun _ => none, fun _ => [], [], .waiting⟩

/-- A party changes its state. -/
def put (y : SAsync P) (i : sp.Id) (st : SendState P) : SAsync P := { y with node := Function.update y.node i (some st) }

/-- What the dispatcher sees: the channels, and which tasks have returned. -/
def view (y : SAsync P) : Async P where
  node := fun i =>
    match y.node i with
    | some (.done (.ok r)) => some (.done (.ok r))
    | some (.done (.error e)) => some (.done (.error e.asLocal))
    | _ => none
  outbox := fun _ => []
  inbox := y.inbox
  chan := y.chan
  disp := y.disp

/-- The dispatcher has dropped its channels. -/
def Ended (y : SAsync P) : Prop := y.disp = .returned ∨ y.disp = .failed

end SAsync

/-- A task is started: the session is created, and `run_session` called (`dev/tokio.rs:107-121`). -/
def Group.startSend (g : Group P) (i : sp.Id) (rng rng' : sp.Rng) : SendState P :=
  match Session.new rng g.sid (g.signer i) (g.ep i) with
  | .error e => .fail e
  | .ok s => .enter s rng' []

/-- One step of `run_async` (`dev/tokio.rs:77-145`). -/
inductive SAsyncStep (g : Group P) (y : SAsync P) : SAsync P → Prop where
  /-- a task is started -/
  | start {i : sp.Id} (rng rng' : sp.Rng) : g.parties.contains i = true → y.node i = none →
      SAsyncStep g y (y.put i (g.startSend i rng rng'))
  /-- a party makes a message, or processes one it has kept, or has made all, or has processed all (`session/tokio.rs:93-98,
  114-125`) -/
  | go {i : sp.Id} {st st' : SendState P} {out : List (MessageOut sp)} : y.node i = some st → sendStep st .go = some (st', out) →
      SAsyncStep g y (y.put i st')
  /-- a party sends a message to the dispatcher (`session/tokio.rs:99-105`) -/
  | push {i : sp.Id} {st st' : SendState P} {m : MessageOut sp} : y.node i = some st → sendStep st .accept = some (st', [m]) →
      y.chan.length < asyncCapacity → ¬ y.Ended →
      SAsyncStep g y (SAsync.put { y with chan := y.chan ++ [⟨m.sender, m.dest, m.message⟩] } i st')
  /-- sending fails as the receiver is gone (`session/tokio.rs:106-112`) -/
  | pushErr {i : sp.Id} {st st' : SendState P} {out : List (MessageOut sp)} : y.node i = some st →
      sendStep st .refuse = some (st', out) → y.Ended → SAsyncStep g y (y.put i st')
  /-- a party finalizes a round -/
  | tick {i : sp.Id} {st st' : SendState P} {rng : sp.Rng} {out : List (MessageOut sp)} : y.node i = some st →
      sendStep st (.ev (.tick rng)) = some (st', out) → SAsyncStep g y (y.put i st')
  /-- a party receives a message -/
  | recv {i : sp.Id} {st st' : SendState P} {p : Packet sp} {ps : List (Packet sp)} {out : List (MessageOut sp)} :
      y.node i = some st → y.inbox i = p :: ps → sendStep st (.ev (.deliver p.src p.message)) = some (st', out) →
      SAsyncStep g y (SAsync.put { y with inbox := Function.update y.inbox i ps } i st')
  /-- a party finds that its channel is closed -/
  | closed {i : sp.Id} {st st' : SendState P} {out : List (MessageOut sp)} : y.node i = some st → y.inbox i = [] → y.Ended →
      sendStep st (.ev .close) = some (st', out) → SAsyncStep g y (y.put i st')
  /-- the dispatcher makes a step, with no influence on the parties -/
  | dispatch {v : Async P} : DispatchStep g y.view v →
      SAsyncStep g y { y with inbox := v.inbox, chan := v.chan, disp := v.disp }

/-- What `run_async` can reach in `k` steps. -/
inductive SAsyncTakes (g : Group P) : Nat → SAsync P → Prop where
  | init : SAsyncTakes g 0 SAsync.init
  | step {k : Nat} {y y' : SAsync P} : SAsyncTakes g k y → SAsyncStep g y y' → SAsyncTakes g (k + 1) y'

/-- What `run_async` returns (`dev/tokio.rs:128-144`): the reports once all tasks have returned without an error. -/
def SAsync.Returns (g : Group P) (y : SAsync P) (reports : BMap sp.Id (Report P)) : Prop :=
  y.disp = .returned ∧ (∀ i, reports.contains i = g.parties.contains i) ∧
    ∀ i r, reports.get? i = some r → y.node i = some (.done (.ok r))

end Manul
