import Verif.Model.Typed

/-!
# The default message methods of `Round`

Model of the default implementations of `make_direct_message`, `make_echo_broadcast` and `make_normal_broadcast`
(`/repo/manul/src/protocol/round.rs:147-217`).

`NoMessage::new_if_equals::<M>()` compares the type `M` with `NoMessage`; in the typed layer the message type of a round is
`NoMessage` if it has no deserializer.  The three errors differ in their text only, which is not modelled.
-/

namespace Manul

namespace TypedProto

variable {sp : SP} (T : TypedProto sp)

/-- `NoMessage::new_if_equals` (`protocol/round.rs:18-35`). -/
def noMessage (t : T.Tag) (k : PartKind) : Bool := (T.de t k).isNone

/-- The default `make_direct_message` (`round.rs:147-170`).  `noArtifact` is the value of `NoArtifact::new_if_equals`, `unit` that
of `NoMessage`. -/
def defaultDirect (unit : T.Val) (noArtifact : T.Tag → Option T.Artifact) (s : T.St) : Except LErr (T.Val × T.Artifact) :=
  if T.noMessage (T.tag s) .direct then
    match noArtifact (T.tag s) with
    | some a => .ok (unit, a)
    | none => .error .notImplemented
  else .error .notImplemented

/-- The default `make_echo_broadcast` and `make_normal_broadcast` (`round.rs:178-217`). -/
def defaultBroadcast (unit : T.Val) (k : PartKind) (s : T.St) : Except LErr T.Val :=
  if T.noMessage (T.tag s) k then .ok unit else .error .notImplemented

/-- A protocol whose rounds implement only some of the message methods. -/
def withDefaults (unit : T.Val) (noArtifact : T.Tag → Option T.Artifact) (implemented : T.Tag → PartKind → Bool) :
    TypedProto sp :=
  { T with
    makeDirect := fun s rng d =>
      if implemented (T.tag s) .direct then T.makeDirect s rng d else T.defaultDirect unit noArtifact s
    makeEcho := fun s rng => if implemented (T.tag s) .echo then T.makeEcho s rng else T.defaultBroadcast unit .echo s
    makeNormal := fun s rng =>
      if implemented (T.tag s) .normal then T.makeNormal s rng else T.defaultBroadcast unit .normal s }

end TypedProto

end Manul
