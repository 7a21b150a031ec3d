import Verif.Model.ParNet
import Verif.Model.Network

/-!
# Networks in which some parties use `run_session` and others `par_run_session`

The two drivers (`/repo/manul/src/session/tokio.rs:62-188` and `190-391`) exchange the same messages, and it is up to every party
which one it uses.  The network delays and reorders messages arbitrarily.
-/

namespace Manul

variable {sp : SP} {P : Proto sp}

/-- The state of a party using either driver. -/
inductive MixState {sp : SP} (P : Proto sp) where
  | seq (st : RunState P)
  | par (st : ParState P)

/-- The state of the network. -/
structure MixNet {sp : SP} (P : Proto sp) where
  node : sp.Id → Option (MixState P)
  wire : List (Packet sp)

namespace MixNet

/-- Nobody has started. -/
def init : MixNet P := ⟨fun _ => none, []⟩

/-- A party changes its state and sends messages. -/
def put (n : MixNet P) (i : sp.Id) (st : MixState P) (out : List (Message sp)) : MixNet P :=
  ⟨Function.update n.node i (some st), n.wire ++ out.map (fun m => ⟨i, m.destination, m⟩)⟩

end MixNet

/-- One step of the network; the parties `i` with `par i` use `par_run_session`. -/
inductive MixStep (g : Group P) (par : sp.Id → Bool) : MixNet P → MixNet P → Prop where
  | startSeq {n : MixNet P} {i : sp.Id} (rng rng' : sp.Rng) : g.parties.contains i = true → par i = false → n.node i = none →
      MixStep g par n (n.put i (.seq (g.startNode i rng rng').1) (g.startNode i rng rng').2)
  | tickSeq {n : MixNet P} {i : sp.Id} {st st' : RunState P} {rng : sp.Rng} {out : List (Message sp)} :
      n.node i = some (.seq st) → step st (.tick rng) = some (st', out) → MixStep g par n (n.put i (.seq st') out)
  | deliverSeq {n : MixNet P} {st st' : RunState P} {p : Packet sp} {w w' : List (Packet sp)} {out : List (Message sp)} :
      n.wire = w ++ p :: w' → n.node p.dest = some (.seq st) → step st (.deliver p.src p.message) = some (st', out) →
      MixStep g par n (MixNet.put ⟨n.node, w ++ w'⟩ p.dest (.seq st') out)
  | startPar {n : MixNet P} {i : sp.Id} (rng rng' : sp.Rng) : g.parties.contains i = true → par i = true → n.node i = none →
      MixStep g par n (n.put i (.par (g.startPar i rng rng')) [])
  | tickPar {n : MixNet P} {i : sp.Id} {s : Session P} {st : ParSt P} {st' : ParState P} {rng : sp.Rng} :
      n.node i = some (.par (.running s st)) → parStep (.running s st) (.tick rng) = some st' →
      MixStep g par n (n.put i (.par st') (parOut st (.tick rng)))
  | task {n : MixNet P} {i : sp.Id} {s : Session P} {st : ParSt P} {st' : ParState P} {o : ParOp sp} :
      n.node i = some (.par (.running s st)) → o.Enabled st → parStep (.running s st) (.op o) = some st' →
      MixStep g par n (n.put i (.par st') (parOut st (.op o)))
  | deliverPar {n : MixNet P} {s : Session P} {st : ParSt P} {st' : ParState P} {p : Packet sp} {w w' : List (Packet sp)} :
      n.wire = w ++ p :: w' → n.node p.dest = some (.par (.running s st)) →
      parStep (.running s st) (.op (.deliver p.src p.message)) = some st' →
      MixStep g par n (MixNet.put ⟨n.node, w ++ w'⟩ p.dest (.par st') [])

/-- What the network can reach in `k` steps. -/
inductive MixTakes (g : Group P) (par : sp.Id → Bool) : Nat → MixNet P → Prop where
  | init : MixTakes g par 0 MixNet.init
  | step {k : Nat} {n n' : MixNet P} : MixTakes g par k n → MixStep g par n n' → MixTakes g par (k + 1) n'

/-- The report of a party that has returned. -/
def MixState.report : MixState P → Option (Except LErr (Report P))
  | .seq (.done r) => some r
  | .par (.done r) => some r
  | _ => none

end Manul
