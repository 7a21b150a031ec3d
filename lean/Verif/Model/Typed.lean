import Verif.Model.Round

/-!
# Typed rounds

Model of the typed layer: the `Round` trait (`/repo/manul/src/protocol/round.rs:81-245`), `RoundWrapper`
(`dyn_round.rs:111-229`), `RoundInfoObject` (`round_info.rs:46-118`), `BoxedProtocolError` (`dyn_evidence.rs`) and the
accessors of `EvidenceMessages` (`evidence.rs:58-228`).

The Rust types implementing `Round` are the values of `Tag`.  The associated message types of a round type are described
by their deserializers; values of all message types are drawn from one type `Val`, and a part whose type is `NoMessage`
has no deserializer and the value `none`.

Simplification: the payload, artifact and error types of different rounds are merged into one each, so the downcasts of
`dyn_round.rs:218-225` are left out.  `Model/Erased.lean` has a type per round and the downcasts; `C65_typed` relates the
two.
-/

namespace Manul

/-- `ProtocolMessage` (`protocol/round.rs:62-71`); `none` is `NoMessage`. -/
structure TypedMsg (Val : Type) where
  direct : Option Val
  echo : Option Val
  normal : Option Val

/-- `ReceiveError` (`protocol/errors.rs`). -/
inductive TypedErr (PErr : Type) where
  | local (e : LErr)
  | unprovable (e : RErr)
  | protocol (e : PErr)

/-- A protocol given by typed rounds. -/
structure TypedProto (sp : SP) where
  /-- values of the round types -/
  St : Type
  /-- the round types -/
  Tag : Type
  tag : St → Tag
  /-- values of the message types -/
  Val : Type
  Payload : Type
  Artifact : Type
  Result : Type
  Shared : Type
  /-- values of the `ProtocolError` types -/
  PErr : Type
  /-- the deserializer of the message type; `none` if the type is `NoMessage` -/
  de : Tag → PartKind → Option (Bytes → Option Val)
  /-- serialization of a message -/
  ser : Val → Except LErr Bytes
  serErr : PErr → Except LErr Bytes
  deErr : Tag → Bytes → Option PErr
  required : PErr → RoundId → RequiredMessages
  verifyErr : Tag → PErr → RoundId → sp.Id → Bytes → Shared → EvMsg → BMap RoundId EvMsg →
    BMap RoundId (BMap sp.Id (Part .echo)) → Except EvErr Unit
  transition : St → TransitionInfo
  comm : St → CommInfo sp.Id
  makeDirect : St → sp.Rng → sp.Id → Except LErr (Val × Artifact)
  makeEcho : St → sp.Rng → Except LErr Val
  makeNormal : St → sp.Rng → Except LErr Val
  receive : St → sp.Id → TypedMsg Val → Except (TypedErr PErr) Payload
  finalize : St → sp.Rng → BMap sp.Id Payload → BMap sp.Id Artifact → Except LErr (Outcome St Result)
  /-- `Protocol::round_info`, each entry being `RoundInfo::new::<R>()` -/
  roundTag : RoundId → Option Tag

namespace TypedProto

variable {sp : SP} (T : TypedProto sp)

/-- `ProtocolMessagePart::new` (`protocol/message.rs:50-59`). -/
def newPart (k : PartKind) (t : T.Tag) (v : T.Val) : Except LErr (Part k) :=
  match T.de t k with
  | none => .ok Part.none
  | some _ =>
    match T.ser v with
    | .error e => .error e
    | .ok b => .ok ⟨some b⟩

/-- Extracting one part in `RoundWrapper::receive_message` (`dyn_round.rs:176-195`): `none` is an error. -/
def readPart {k : PartKind} (t : T.Tag) (p : Part k) : Option (Option T.Val) :=
  match T.de t k, p.payload with
  | none, none => some none
  | none, some _ => none
  | some _, none => none
  | some de, some b =>
    match de b with
    | none => none
    | some v => some (some v)

/-- `BoxedReceiveError::new` (`dyn_round.rs:357-363`, `dyn_evidence.rs:37-43`). -/
def boxErr (rid : RoundId) : TypedErr T.PErr → RecvErr sp
  | .local e => .local e
  | .unprovable e => .unprovable e
  | .protocol e => .protocol (T.required e rid) (T.serErr e)

/-- `RoundWrapper::receive_message` (`dyn_round.rs:170-210`). -/
def wrapReceive (s : T.St) (sender : sp.Id) (m : DynMsg) : Except (RecvErr sp) T.Payload :=
  match T.readPart (T.tag s) m.direct with
  | none => .error .invalidDirect
  | some direct =>
    match T.readPart (T.tag s) m.echo with
    | none => .error .invalidEcho
    | some echo =>
      match T.readPart (T.tag s) m.normal with
      | none => .error .invalidNormal
      | some normal => mapErr (T.boxErr (T.transition s).id) (T.receive s sender ⟨direct, echo, normal⟩)

/-- `RoundInfoObject::verify_*_is_invalid` (`round_info.rs:55-89`). -/
def partInvalid {k : PartKind} (t : T.Tag) (p : Part k) : Except EvErr Unit :=
  match T.de t k with
  | none => p.verifyIsSome
  | some de =>
    match p.payload with
    | none => .ok ()
    | some b =>
      match de b with
      | none => .ok ()
      | some _ => .error .invalid

/-- `RoundInfoObject` (`round_info.rs:46-118`). -/
def infoOf (t : T.Tag) : RoundInfo sp T.Shared where
  directInvalid := T.partInvalid t
  echoInvalid := T.partInvalid t
  normalInvalid := T.partInvalid t
  verifyEvidence := fun rid err guilty sid shared msg prev comb =>
    match T.deErr t err with
    | none => .error .invalid
    | some e => T.verifyErr t e rid guilty sid shared msg prev comb

/-- The protocol with its typed rounds wrapped into `RoundWrapper` (`dyn_round.rs:127-229`). -/
def wrap : Proto sp where
  Rd := T.St
  Payload := T.Payload
  Artifact := T.Artifact
  Result := T.Result
  Shared := T.Shared
  transition := T.transition
  comm := T.comm
  makeDirect := fun s rng d =>
    match T.makeDirect s rng d with
    | .error e => .error e
    | .ok (v, a) =>
      match T.newPart .direct (T.tag s) v with
      | .error e => .error e
      | .ok p => .ok (p, a)
  makeEcho := fun s rng =>
    match T.makeEcho s rng with
    | .error e => .error e
    | .ok v => T.newPart .echo (T.tag s) v
  makeNormal := fun s rng =>
    match T.makeNormal s rng with
    | .error e => .error e
    | .ok v => T.newPart .normal (T.tag s) v
  receive := T.wrapReceive
  finalize := T.finalize
  roundInfo := fun rid => (T.roundTag rid).map T.infoOf

/-- `ProtocolMessagePart::deserialize` at a message type (`protocol/message.rs:108-122`), mapped to `EvidenceError` as in
`evidence.rs:114-228`. -/
def readEv {k : PartKind} (t : T.Tag) (p : Part k) : Except EvErr (Option T.Val) := okOr .invalid (T.readPart t p)

/-- `EvidenceMessages::{direct_message, echo_broadcast, normal_broadcast}` (`evidence.rs:201-228`). -/
def evPart {k : PartKind} (t : T.Tag) (p : Option (Part k)) : Except EvErr (Option T.Val) :=
  match p with
  | none => .error .invalid
  | some p => T.readEv t p

/-- `EvidenceMessages::previous_echo_broadcast` (`evidence.rs:96-120`); the other two accessors differ in the field. -/
def evPreviousEcho (t : T.Tag) (prev : BMap RoundId EvMsg) (n : U8) : Except EvErr (Option T.Val) :=
  match prev.get? (RoundId.new n) with
  | none => .error .invalid
  | some m => T.evPart t m.echo

/-- `EvidenceMessages::previous_normal_broadcast` (`evidence.rs:123-147`). -/
def evPreviousNormal (t : T.Tag) (prev : BMap RoundId EvMsg) (n : U8) : Except EvErr (Option T.Val) :=
  match prev.get? (RoundId.new n) with
  | none => .error .invalid
  | some m => T.evPart t m.normal

/-- `EvidenceMessages::previous_direct_message` (`evidence.rs:150-174`). -/
def evPreviousDirect (t : T.Tag) (prev : BMap RoundId EvMsg) (n : U8) : Except EvErr (Option T.Val) :=
  match prev.get? (RoundId.new n) with
  | none => .error .invalid
  | some m => T.evPart t m.direct

/-- `EvidenceMessages::combined_echos` (`evidence.rs:177-198`). -/
def evCombined (t : T.Tag) (comb : BMap RoundId (BMap sp.Id (Part .echo))) (n : U8) :
    Except EvErr (BMap sp.Id (Option T.Val)) :=
  match comb.get? (RoundId.new n) with
  | none => .error .invalid
  | some m =>
    match mapE (fun e : sp.Id × Part .echo =>
        match T.readEv t e.2 with
        | .error err => Except.error err
        | .ok v => Except.ok (e.1, v)) m.toList with
    | .error e => .error e
    | .ok l => .ok (BMap.ofList l)

end TypedProto

/-- The public constructors and combinators of `RequiredMessageParts` (`evidence.rs:298-326`), by the part they name.
`RequiredMessageParts::new` is private, so every value is built from these. -/
inductive RequiredParts.Op where
  | echo | normal | direct
deriving DecidableEq, Repr

namespace RequiredParts

/-- `RequiredMessageParts::new` (`evidence.rs:288-296`); the `debug_assert!` becomes an error value. -/
def make (echo normal direct : Bool) : Except LErr RequiredParts :=
  if echo || normal || direct then .ok ⟨echo, normal, direct⟩ else .error .panicAssert

/-- `echo_broadcast()`, `normal_broadcast()`, `direct_message()` (`evidence.rs:298-311`). -/
def base : Op → Except LErr RequiredParts
  | .echo => make true false false
  | .normal => make false true false
  | .direct => make false false true

/-- `and_echo_broadcast()`, `and_normal_broadcast()`, `and_direct_message()` (`evidence.rs:313-326`). -/
def and (r : RequiredParts) : Op → Except LErr RequiredParts
  | .echo => make true r.normal r.direct
  | .normal => make r.echo true r.direct
  | .direct => make r.echo r.normal true

/-- A chain of calls: a constructor followed by combinators. -/
def build (o : Op) (ops : List Op) : Except LErr RequiredParts :=
  match base o with
  | .error e => .error e
  | .ok r => foldE and r ops

end RequiredParts

end Manul
