import Verif.Model.Network
import Verif.Model.Par

/-!
# A network of parties using `par_run_session`

The same asynchronous network as in `Model/Network`, with parties executing `par_run_session`
(`/repo/manul/src/session/tokio.rs:190-391`).  This is what `run_async` sets up if `offload_processing` is on
(`/repo/manul/src/dev/tokio.rs:107-123`), without its channels.  Nobody is cancelled.
-/

namespace Manul

variable {sp : SP} {P : Proto sp}

/-- The message of a creation task that has succeeded. -/
def taskMessage (o : sp.Id × Except LErr (Message sp × ProcessedArtifact P)) : Option (Message sp) :=
  match o.2 with
  | .ok (m, _) => some m
  | .error _ => none

/-- The messages `par_run_session` sends in a step: one in the `select!` (`tokio.rs:295-309`), the remaining ones after joining
the tasks (`tokio.rs:361-369`).  Simplification: if the driver fails while it sends the remaining messages, none is sent. -/
def parOut (st : ParSt P) : ParEvent sp → List (Message sp)
  | .op (.send i) =>
    match st.outgoing[i]? with
    | some o => (taskMessage o).toList
    | none => []
  | .tick _ =>
    match parJoin st with
    | .ok _ => st.outgoing.filterMap taskMessage
    | .error _ => []
  | _ => []

/-- The state of the network. -/
structure PNet {sp : SP} (P : Proto sp) where
  node : sp.Id → Option (ParState P)
  wire : List (Packet sp)

namespace PNet

/-- Nobody has started. -/
def init : PNet P := ⟨fun _ => none, []⟩

/-- A party changes its state and sends messages. -/
def put (n : PNet P) (i : sp.Id) (st : ParState P) (out : List (Message sp)) : PNet P :=
  ⟨Function.update n.node i (some st), n.wire ++ out.map (fun m => ⟨i, m.destination, m⟩)⟩

end PNet

/-- A party creates its session and calls `par_run_session` (`tokio.rs:190-263`). -/
def Group.startPar (g : Group P) (i : sp.Id) (rng rng' : sp.Rng) : ParState P :=
  match Session.new rng g.sid (g.signer i) (g.ep i) with
  | .error e => .done (.error e)
  | .ok s => .running s (ParSt.begin s rng' [])

/-- An operation with an effect: the task exists, and it sends something. -/
def ParOp.Enabled (st : ParSt P) : ParOp sp → Prop
  | .deliver _ _ => False
  | .complete i => i < st.tasks.length
  | .send i => ∃ o m, st.outgoing[i]? = some o ∧ taskMessage o = some m

/-- One step of the network. -/
inductive PNetStep (g : Group P) : PNet P → PNet P → Prop where
  | start {n : PNet P} {i : sp.Id} (rng rng' : sp.Rng) : g.parties.contains i = true → n.node i = none →
      PNetStep g n (n.put i (g.startPar i rng rng') [])
  /-- the loop of a round ends -/
  | tick {n : PNet P} {i : sp.Id} {s : Session P} {st : ParSt P} {st' : ParState P} {rng : sp.Rng} :
      n.node i = some (.running s st) → parStep (.running s st) (.tick rng) = some st' →
      PNetStep g n (n.put i st' (parOut st (.tick rng)))
  /-- the result of a task is received -/
  | task {n : PNet P} {i : sp.Id} {s : Session P} {st : ParSt P} {st' : ParState P} {o : ParOp sp} :
      n.node i = some (.running s st) → o.Enabled st → parStep (.running s st) (.op o) = some st' →
      PNetStep g n (n.put i st' (parOut st (.op o)))
  /-- a message is received -/
  | deliver {n : PNet P} {s : Session P} {st : ParSt P} {st' : ParState P} {p : Packet sp} {w w' : List (Packet sp)} :
      n.wire = w ++ p :: w' → n.node p.dest = some (.running s st) →
      parStep (.running s st) (.op (.deliver p.src p.message)) = some st' →
      PNetStep g n (PNet.put ⟨n.node, w ++ w'⟩ p.dest st' [])

/-- What the network can reach in `k` steps. -/
inductive PNetTakes (g : Group P) : Nat → PNet P → Prop where
  | init : PNetTakes g 0 PNet.init
  | step {k : Nat} {n n' : PNet P} : PNetTakes g k n → PNetStep g n n' → PNetTakes g (k + 1) n'

end Manul
