import Verif.Model.Driver

/-!
# A network of parties

All parties of a session, each executing `run_session` (`/repo/manul/src/session/tokio.rs:51-181`), connected by an
asynchronous network: what a party sends is in transit until the environment delivers it, in any order; nothing is lost,
duplicated or made up.  This is what the test harness `run_async` (`/repo/manul/src/dev/tokio.rs:20-145`, which shuffles
messages) and the synchronous runner set up.  Nobody is cancelled.
-/

namespace Manul

variable {sp : SP} {P : Proto sp}

/-- A message in transit (`MessageOut` in `session/tokio.rs:21-35`, `MessageIn` in `session/tokio.rs:39-47`). -/
structure Packet (sp : SP) where
  src : sp.Id
  dest : sp.Id
  message : Message sp

/-- The parties of a session: ids, keys and entry points. -/
structure Group {sp : SP} (P : Proto sp) where
  parties : BSet sp.Id
  signer : sp.Id → sp.Signer
  ep : sp.Id → EntryPoint P
  sid : Bytes

/-- The state of the network: the parties that have started, and the messages in transit. -/
structure Net {sp : SP} (P : Proto sp) where
  node : sp.Id → Option (RunState P)
  wire : List (Packet sp)

namespace Net

/-- Nobody has started. -/
def init : Net P := ⟨fun _ => none, []⟩

/-- A party changes its state and sends messages. -/
def put (n : Net P) (i : sp.Id) (st : RunState P) (out : List (Message sp)) : Net P :=
  ⟨Function.update n.node i (some st), n.wire ++ out.map (fun m => ⟨i, m.destination, m⟩)⟩

end Net

/-- A party creates its session and calls `run_session`. -/
def Group.startNode (g : Group P) (i : sp.Id) (rng rng' : sp.Rng) : RunState P × List (Message sp) :=
  match Session.new rng g.sid (g.signer i) (g.ep i) with
  | .error e => (.done (.error e), [])
  | .ok s => start s rng'

/-- One step of the network. -/
inductive NetStep (g : Group P) : Net P → Net P → Prop where
  | start {n : Net P} {i : sp.Id} (rng rng' : sp.Rng) : g.parties.contains i = true → n.node i = none →
      NetStep g n (n.put i (g.startNode i rng rng').1 (g.startNode i rng rng').2)
  | tick {n : Net P} {i : sp.Id} {st st' : RunState P} {rng : sp.Rng} {out : List (Message sp)} : n.node i = some st →
      step st (.tick rng) = some (st', out) → NetStep g n (n.put i st' out)
  | deliver {n : Net P} {st st' : RunState P} {p : Packet sp} {w w' : List (Packet sp)} {out : List (Message sp)} :
      n.wire = w ++ p :: w' → n.node p.dest = some st → step st (.deliver p.src p.message) = some (st', out) →
      NetStep g n (Net.put ⟨n.node, w ++ w'⟩ p.dest st' out)

/-- The states the network can be in. -/
inductive NetReach (g : Group P) : Net P → Prop where
  | init : NetReach g Net.init
  | step {n n' : Net P} : NetReach g n → NetStep g n n' → NetReach g n'

end Manul
