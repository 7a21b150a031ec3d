import Verif.Model.Driver

/-!
# Running all parties in one thread

Model of `/repo/manul/src/dev/run_sync.rs`.  The random choices of `Messages::pop` and the values of the RNG are chosen by
the environment, so `run_sync` is a relation between its inputs and its possible outcomes.
-/

namespace Manul

variable {sp : SP} {P : Proto sp}

/-- `RoundMessage` (`run_sync.rs:24-28`). -/
structure RoundMsg (sp : SP) where
  src : sp.Id
  dest : sp.Id
  message : Message sp

/-- `Messages` (`run_sync.rs:30-35`). -/
inductive Queue (sp : SP) where
  | ordered (m : BMap sp.Id (List (RoundMsg sp)))
  | unordered (l : List (RoundMsg sp))

namespace Queue

/-- `Messages::new` (`run_sync.rs:41-47`). -/
def new (sp : SP) (isOrdered : Bool) : Queue sp := if isOrdered then .ordered BMap.empty else .unordered []

/-- `Messages::push` (`run_sync.rs:50-55`). -/
def push (q : Queue sp) (x : RoundMsg sp) : Queue sp :=
  match q with
  | .ordered m => .ordered (m.insert x.src ((m.get? x.src).getD [] ++ [x]))
  | .unordered l => .unordered (l ++ [x])

/-- `Messages::extend` (`run_sync.rs:58-62`). -/
def extend (q : Queue sp) (l : List (RoundMsg sp)) : Queue sp := l.foldl push q

/-- `Vec::swap_remove`: the last element takes the place of the removed one. -/
def swapRemove {α : Type} (l : List α) (i : Nat) : Option (α × List α) :=
  match l[i]?, l.getLast? with
  | some x, some y => some (x, (l.set i y).dropLast)
  | _, _ => none

/-- `Messages::pop` (`run_sync.rs:65-87`), the random index being `choice` modulo the length.  `gen_range(0..0)` panics:
`none`.  (The other panics, `expect` and `remove(0)` on an empty vector, are also `none`.) -/
def pop (q : Queue sp) (choice : Nat) : Option (RoundMsg sp × Queue sp) :=
  match q with
  | .ordered m =>
    match (BSet.elems m.keys)[choice % m.size]? with
    | none => none
    | some sender =>
      match m.get? sender with
      | some (x :: rest) => some (x, .ordered (if rest.isEmpty then m.erase sender else m.insert sender rest))
      | _ => none
  | .unordered l =>
    match swapRemove l (choice % l.length) with
    | none => none
    | some (x, l') => some (x, .unordered l')

/-- `Messages::is_empty` (`run_sync.rs:89-94`). -/
def isEmpty : Queue sp → Bool
  | .ordered m => m.isEmpty
  | .unordered l => l.isEmpty

/-- `Messages::len` (`run_sync.rs:96-101`): in ordered mode the number of senders. -/
def len : Queue sp → Nat
  | .ordered m => m.size
  | .unordered l => l.length

end Queue

/-- `State` (`run_sync.rs:16-22`). -/
inductive NodeState {sp : SP} (P : Proto sp) where
  | inProgress (s : Session P) (a : Accum P)
  | finished (r : Report P)

/-- How `run_sync` fails: a returned `LocalError`, the panic of `gen_range` on an empty queue, or the panic when a message
is for a party without a session (`run_sync.rs:222-229`). -/
inductive SyncErr where
  | local (e : LErr)
  | emptyRange
  | noSession
deriving DecidableEq

/-- Messages as they are put into the queue (`run_sync.rs:164-171, 202-209`). -/
def addressed (s : Session P) (ms : List (Message sp)) : List (RoundMsg sp) := ms.map (fun m => ⟨s.me, m.destination, m⟩)

/-- `propagate` (`run_sync.rs:105-177`).  In contrast to `run_session`, cached messages are applied before the messages of
the round are made.  As in `finishRound`, each iteration splits its RNG in two. -/
inductive Propagate : Session P → Accum P → Except LErr (NodeState P × List (RoundMsg sp)) → Prop where
  | notYet {s : Session P} {a : Accum P} : a.canFinalize = .notYet → Propagate s a (.ok (.inProgress s a, []))
  | never {s : Session P} {a : Accum P} {r : Report P} : a.canFinalize = .never → s.terminateDueToErrors a = .ok r →
      Propagate s a (.ok (.finished r, []))
  | neverErr {s : Session P} {a : Accum P} {e : LErr} : a.canFinalize = .never → s.terminateDueToErrors a = .error e →
      Propagate s a (.error e)
  | finished {s : Session P} {a : Accum P} {rng : sp.Rng} {r : Report P} : a.canFinalize = .yes →
      s.finalizeRound (sp.fork rng 0) a = .ok (.finished r) → Propagate s a (.ok (.finished r, []))
  | finalizeErr {s : Session P} {a : Accum P} {rng : sp.Rng} {e : LErr} : a.canFinalize = .yes →
      s.finalizeRound (sp.fork rng 0) a = .error e → Propagate s a (.error e)
  | cachedErr {s s' : Session P} {a : Accum P} {rng : sp.Rng} {cached : List (VerifiedMessage sp)} {e : LErr} :
      a.canFinalize = .yes → s.finalizeRound (sp.fork rng 0) a = .ok (.anotherRound s' cached) →
      foldE (applyVerified s') s'.makeAccum cached = .error e → Propagate s a (.error e)
  | sendErr {s s' : Session P} {a a1 : Accum P} {rng : sp.Rng} {cached : List (VerifiedMessage sp)} {e : LErr} :
      a.canFinalize = .yes → s.finalizeRound (sp.fork rng 0) a = .ok (.anotherRound s' cached) →
      foldE (applyVerified s') s'.makeAccum cached = .ok a1 → sendAll s' (sp.fork rng 1) 0 a1 s'.destinations.elems = .error e →
      Propagate s a (.error e)
  | next {s s' : Session P} {a a1 a2 : Accum P} {rng : sp.Rng} {cached : List (VerifiedMessage sp)}
      {ms : List (Message sp)} {st : NodeState P} {rest : List (RoundMsg sp)} :
      a.canFinalize = .yes → s.finalizeRound (sp.fork rng 0) a = .ok (.anotherRound s' cached) →
      foldE (applyVerified s') s'.makeAccum cached = .ok a1 → sendAll s' (sp.fork rng 1) 0 a1 s'.destinations.elems = .ok (a2, ms) →
      Propagate s' a2 (.ok (st, rest)) → Propagate s a (.ok (st, addressed s' ms ++ rest))
  | nextErr {s s' : Session P} {a a1 a2 : Accum P} {rng : sp.Rng} {cached : List (VerifiedMessage sp)}
      {ms : List (Message sp)} {e : LErr} :
      a.canFinalize = .yes → s.finalizeRound (sp.fork rng 0) a = .ok (.anotherRound s' cached) →
      foldE (applyVerified s') s'.makeAccum cached = .ok a1 → sendAll s' (sp.fork rng 1) 0 a1 s'.destinations.elems = .ok (a2, ms) →
      Propagate s' a2 (.error e) → Propagate s a (.error e)

/-- The variables `messages` and `states` of `run_sync` (`run_sync.rs:191-192`). -/
structure SyncState {sp : SP} (P : Proto sp) where
  queue : Queue sp
  states : BMap sp.Id (NodeState P)

/-- The body of the loop over the entry points (`run_sync.rs:194-215`). -/
inductive AddNode (sid : Bytes) (signer : sp.Signer) (ep : EntryPoint P) (x : SyncState P) :
    Except LErr (SyncState P) → Prop where
  | newErr {rng : sp.Rng} {e : LErr} : Session.new rng sid signer ep = .error e → AddNode sid signer ep x (.error e)
  | sendErr {rng rng' : sp.Rng} {s : Session P} {e : LErr} : Session.new rng sid signer ep = .ok s →
      sendAll s rng' 0 s.makeAccum s.destinations.elems = .error e → AddNode sid signer ep x (.error e)
  | propagateErr {rng rng' : sp.Rng} {s : Session P} {a : Accum P} {ms : List (Message sp)} {e : LErr} :
      Session.new rng sid signer ep = .ok s → sendAll s rng' 0 s.makeAccum s.destinations.elems = .ok (a, ms) →
      Propagate s a (.error e) → AddNode sid signer ep x (.error e)
  | ok {rng rng' : sp.Rng} {s : Session P} {a : Accum P} {ms : List (Message sp)} {st : NodeState P}
      {rest : List (RoundMsg sp)} : Session.new rng sid signer ep = .ok s →
      sendAll s rng' 0 s.makeAccum s.destinations.elems = .ok (a, ms) → Propagate s a (.ok (st, rest)) →
      AddNode sid signer ep x (.ok ⟨(x.queue.extend (addressed s ms)).extend rest,
        x.states.insert (sp.verifyingKey signer) st⟩)

/-- The loop over the entry points (`run_sync.rs:194-215`). -/
inductive Setup (sid : Bytes) : SyncState P → List (sp.Signer × EntryPoint P) → Except LErr (SyncState P) → Prop where
  | nil {x : SyncState P} : Setup sid x [] (.ok x)
  | cons {x x' : SyncState P} {signer : sp.Signer} {ep : EntryPoint P} {l : List (sp.Signer × EntryPoint P)}
      {o : Except LErr (SyncState P)} : AddNode sid signer ep x (.ok x') → Setup sid x' l o →
      Setup sid x ((signer, ep) :: l) o
  | err {x : SyncState P} {signer : sp.Signer} {ep : EntryPoint P} {l : List (sp.Signer × EntryPoint P)} {e : LErr} :
      AddNode sid signer ep x (.error e) → Setup sid x ((signer, ep) :: l) (.error e)

/-- The body of the delivery loop (`run_sync.rs:217-247`). -/
inductive DeliverOne (x : SyncState P) : Except SyncErr (SyncState P) → Prop where
  | empty {choice : Nat} : x.queue.pop choice = none → DeliverOne x (.error .emptyRange)
  | noSession {choice : Nat} {m : RoundMsg sp} {q : Queue sp} : x.queue.pop choice = some (m, q) →
      x.states.get? m.dest = none → DeliverOne x (.error .noSession)
  | ignored {choice : Nat} {m : RoundMsg sp} {q : Queue sp} {r : Report P} : x.queue.pop choice = some (m, q) →
      x.states.get? m.dest = some (.finished r) → DeliverOne x (.ok ⟨q, x.states⟩)
  | deliverErr {choice : Nat} {m : RoundMsg sp} {q : Queue sp} {s : Session P} {a : Accum P} {e : LErr} :
      x.queue.pop choice = some (m, q) → x.states.get? m.dest = some (.inProgress s a) →
      deliver s a m.src m.message = .error e → DeliverOne x (.error (.local e))
  | propagateErr {choice : Nat} {m : RoundMsg sp} {q : Queue sp} {s : Session P} {a a' : Accum P} {e : LErr} :
      x.queue.pop choice = some (m, q) → x.states.get? m.dest = some (.inProgress s a) →
      deliver s a m.src m.message = .ok a' → Propagate s a' (.error e) → DeliverOne x (.error (.local e))
  | ok {choice : Nat} {m : RoundMsg sp} {q : Queue sp} {s : Session P} {a a' : Accum P} {st : NodeState P}
      {rest : List (RoundMsg sp)} :
      x.queue.pop choice = some (m, q) → x.states.get? m.dest = some (.inProgress s a) →
      deliver s a m.src m.message = .ok a' → Propagate s a' (.ok (st, rest)) →
      DeliverOne x (.ok ⟨q.extend rest, x.states.insert m.dest st⟩)

/-- The delivery loop (`run_sync.rs:217-253`): the queue is tested after the first delivery. -/
inductive DeliveryLoop : SyncState P → Except SyncErr (SyncState P) → Prop where
  | err {x : SyncState P} {e : SyncErr} : DeliverOne x (.error e) → DeliveryLoop x (.error e)
  | last {x x' : SyncState P} : DeliverOne x (.ok x') → x'.queue.isEmpty = true → DeliveryLoop x (.ok x')
  | more {x x' : SyncState P} {o : Except SyncErr (SyncState P)} : DeliverOne x (.ok x') → x'.queue.isEmpty = false →
      DeliveryLoop x' o → DeliveryLoop x o

/-- The report made of the final state of a node (`run_sync.rs:256-263`). -/
def NodeState.report : NodeState P → Except LErr (Report P)
  | .inProgress s a => s.terminate a
  | .finished r => .ok r

/-- The reports of all nodes (`run_sync.rs:255-266`). -/
def reportsOf (states : BMap sp.Id (NodeState P)) : Except LErr (BMap sp.Id (Report P)) :=
  match mapE (fun e : sp.Id × NodeState P =>
      match e.2.report with
      | .error err => Except.error err
      | .ok r => Except.ok (e.1, r)) states.toList with
  | .error e => .error e
  | .ok l => .ok (BMap.ofList l)

/-- `run_sync` (`run_sync.rs:181-267`); the session id, drawn from the RNG, is a parameter. -/
inductive RunSync (sid : Bytes) (nodes : List (sp.Signer × EntryPoint P)) :
    Except SyncErr (BMap sp.Id (Report P)) → Prop where
  | setupErr {e : LErr} : Setup sid ⟨Queue.new sp true, BMap.empty⟩ nodes (.error e) → RunSync sid nodes (.error (.local e))
  | loopErr {x : SyncState P} {e : SyncErr} : Setup sid ⟨Queue.new sp true, BMap.empty⟩ nodes (.ok x) →
      DeliveryLoop x (.error e) → RunSync sid nodes (.error e)
  | reportErr {x y : SyncState P} {e : LErr} : Setup sid ⟨Queue.new sp true, BMap.empty⟩ nodes (.ok x) →
      DeliveryLoop x (.ok y) → reportsOf y.states = .error e → RunSync sid nodes (.error (.local e))
  | ok {x y : SyncState P} {r : BMap sp.Id (Report P)} : Setup sid ⟨Queue.new sp true, BMap.empty⟩ nodes (.ok x) →
      DeliveryLoop x (.ok y) → reportsOf y.states = .ok r → RunSync sid nodes (.ok r)

/-- `ExecutionResult::results` (`run_sync.rs:285-305`): the results, or the ids of the nodes without one. -/
def executionResults (reports : BMap sp.Id (Report P)) : Except (List sp.Id) (BMap sp.Id P.Result) :=
  let failed := reports.toList.filterMap (fun e => match e.2.outcome with | .result _ => none | _ => some e.1)
  if failed.isEmpty then
    .ok (BMap.ofList (reports.toList.filterMap (fun e => match e.2.outcome with | .result r => some (e.1, r) | _ => none)))
  else .error failed

end Manul
