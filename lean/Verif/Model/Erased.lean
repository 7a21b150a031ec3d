import Verif.Model.Typed
import Verif.Model.Extend

/-!
# Rounds of different types behind one interface

Model of the type erasure of `/repo/manul/src/protocol/dyn_round.rs`: the boxes `Payload` and `Artifact` (lines 20-67),
`RoundWrapper` (lines 111-229), `BoxedTypedRound` (lines 290-337), of `NoType` (`round.rs:18-57`), and of
`RoundExtension`s of particular rounds (`dev/extend.rs:29-86, 200-240, 310-323, 357-364`).

Here every round type has its own message, payload, artifact and error types.  `TypedProto` (`Model/Typed.lean`) merges
them; `C65_typed` says that it loses nothing.
-/

namespace Manul

/-- The types of values that occur in the rounds of a protocol; a name of a type is its `TypeId`. -/
structure Types where
  Ty : Type
  decTy : DecidableEq Ty
  El : Ty → Type
  /-- `NoMessage` (`round.rs:40-48`) -/
  noMessage : Ty
  /-- `NoMessage::new` -/
  nothing : El noMessage
  /-- `BoxedFormat::serialize` (`protocol/wire_format.rs:73-79`) -/
  ser : (t : Ty) → El t → Except LErr Bytes
  /-- `BoxedFormat::deserialize` (`protocol/wire_format.rs:82-89`) -/
  de : (t : Ty) → Bytes → Option (El t)

namespace Types

variable (U : Types)

/-- `Box<dyn Any>`. -/
abbrev Any : Type := Σ t : U.Ty, U.El t

/-- `NoType::equals` (`round.rs:21-23`) of `NoMessage`. -/
def isNoMessage (t : U.Ty) : Bool :=
  letI := U.decTy
  decide (t = U.noMessage)

/-- `NoType::new_if_equals` (`round.rs:25-34`) of `NoMessage`. -/
def noMessageIfEquals (t : U.Ty) : Option (U.El t) :=
  letI := U.decTy
  if h : U.noMessage = t then some (h ▸ U.nothing) else none

/-- `Payload::downcast`, `Artifact::downcast` (`dyn_round.rs:40-47, 60-67`). -/
def downcast (t : U.Ty) (b : U.Any) : Except LErr (U.El t) :=
  letI := U.decTy
  if h : b.1 = t then .ok (h ▸ b.2) else .error .downcast

/-- The downcasts of a map (`dyn_round.rs:218-225`). -/
def downcastMap {K : Type} [LinearOrder K] (t : U.Ty) (m : BMap K U.Any) : Except LErr (BMap K (U.El t)) :=
  match mapE (fun e : K × U.Any => (U.downcast t e.2).map (fun v => (e.1, v))) m.toList with
  | .error e => .error e
  | .ok l => .ok (BMap.ofList l)

/-- `ProtocolMessagePart::new` (`protocol/message.rs:50-59`). -/
def newPart (k : PartKind) (t : U.Ty) (v : U.El t) : Except LErr (Part k) :=
  if U.isNoMessage t then .ok Part.none
  else
    match U.ser t v with
    | .error e => .error e
    | .ok b => .ok ⟨some b⟩

/-- Extracting one part in `RoundWrapper::receive_message` (`dyn_round.rs:176-195`): `none` is an error. -/
def readPart {k : PartKind} (t : U.Ty) (p : Part k) : Option (U.El t) :=
  match U.noMessageIfEquals t with
  | some v => if p.payload.isNone then some v else none
  | none =>
    match p.payload with
    | none => none
    | some b => U.de t b

/-- `RoundInfoObject::verify_*_is_invalid` (`round_info.rs:55-89`). -/
def partInvalid {k : PartKind} (t : U.Ty) (p : Part k) : Except EvErr Unit :=
  if U.isNoMessage t then p.verifyIsSome
  else
    match p.payload with
    | none => .ok ()
    | some b =>
      match U.de t b with
      | none => .ok ()
      | some _ => .error .invalid

/-- `RoundWrapper::make_direct_message` (`dyn_round.rs:141-149`), given what the method of the round returns. -/
def wrapDirect (t a : U.Ty) (made : Except LErr (U.El t × U.El a)) : Except LErr (Part .direct × U.Any) :=
  match made with
  | .error e => .error e
  | .ok (v, w) =>
    match U.newPart .direct t v with
    | .error e => .error e
    | .ok p => .ok (p, ⟨a, w⟩)

/-- `RoundWrapper::make_echo_broadcast` and `make_normal_broadcast` (`dyn_round.rs:151-168`). -/
def wrapBroadcast (k : PartKind) (t : U.Ty) (made : Except LErr (U.El t)) : Except LErr (Part k) :=
  match made with
  | .error e => .error e
  | .ok v => U.newPart k t v

/-- `RoundWrapper::finalize` (`dyn_round.rs:212-228`), given the method of the round. -/
def wrapFinalize {K O : Type} [LinearOrder K] (p a : U.Ty)
    (fin : BMap K (U.El p) → BMap K (U.El a) → Except LErr O) (ps as : BMap K U.Any) : Except LErr O :=
  match U.downcastMap p ps with
  | .error e => .error e
  | .ok ps' =>
    match U.downcastMap a as with
    | .error e => .error e
    | .ok as' => fin ps' as'

/-- `BoxedReceiveError::new` (`dyn_round.rs:357-363`, `dyn_evidence.rs:37-43`). -/
def boxErr {sp : SP} (t : U.Ty) (required : U.El t → RequiredMessages) : TypedErr (U.El t) → RecvErr sp
  | .local e => .local e
  | .unprovable e => .unprovable e
  | .protocol e => .protocol (required e) (U.ser t e)

/-- `RoundWrapper::receive_message` (`dyn_round.rs:170-210`), given the method of the round. -/
def wrapReceive {sp : SP} {E : Type} (direct echo normal payload : U.Ty) (box : E → RecvErr sp)
    (receive : U.El direct → U.El echo → U.El normal → Except E (U.El payload)) (m : DynMsg) :
    Except (RecvErr sp) U.Any :=
  match U.readPart direct m.direct with
  | none => .error .invalidDirect
  | some d =>
    match U.readPart echo m.echo with
    | none => .error .invalidEcho
    | some e =>
      match U.readPart normal m.normal with
      | none => .error .invalidNormal
      | some n =>
        match receive d e n with
        | .error err => .error (box err)
        | .ok v => .ok ⟨payload, v⟩

/-- `RoundInfoObject::verify_evidence` (`round_info.rs:91-117`), given `ProtocolError::verify_messages_constitute_evidence`. -/
def wrapVerify (t : U.Ty) (err : Bytes) (verify : U.El t → Except EvErr Unit) : Except EvErr Unit :=
  match U.de t err with
  | none => .error .invalid
  | some e => verify e

end Types

/-- A protocol as the programmer gives it: round types implementing `Round` (`round.rs:81-245`) with their associated
types, and `Protocol::round_info`. -/
structure Rounds (sp : SP) (U : Types) where
  /-- names of the round types -/
  Tag : Type
  decTag : DecidableEq Tag
  /-- the round types -/
  St : Tag → Type
  /-- `DirectMessage`, `EchoBroadcast` and `NormalBroadcast` -/
  msg : Tag → PartKind → U.Ty
  payload : Tag → U.Ty
  artifact : Tag → U.Ty
  /-- `ProtocolError` -/
  error : Tag → U.Ty
  Result : Type
  Shared : Type
  required : (t : Tag) → U.El (error t) → RoundId → RequiredMessages
  verifyErr : (t : Tag) → U.El (error t) → RoundId → sp.Id → Bytes → Shared → EvMsg → BMap RoundId EvMsg →
    BMap RoundId (BMap sp.Id (Part .echo)) → Except EvErr Unit
  transition : (t : Tag) → St t → TransitionInfo
  comm : (t : Tag) → St t → CommInfo sp.Id
  makeDirect : (t : Tag) → St t → sp.Rng → sp.Id → Except LErr (U.El (msg t .direct) × U.El (artifact t))
  makeEcho : (t : Tag) → St t → sp.Rng → Except LErr (U.El (msg t .echo))
  makeNormal : (t : Tag) → St t → sp.Rng → Except LErr (U.El (msg t .normal))
  receive : (t : Tag) → St t → sp.Id → U.El (msg t .direct) → U.El (msg t .echo) → U.El (msg t .normal) →
    Except (TypedErr (U.El (error t))) (U.El (payload t))
  finalize : (t : Tag) → St t → sp.Rng → BMap sp.Id (U.El (payload t)) → BMap sp.Id (U.El (artifact t)) →
    Except LErr (Outcome (Σ t, St t) Result)
  roundTag : RoundId → Option Tag

namespace Rounds

variable {sp : SP} {U : Types} (R : Rounds sp U)

/-- `BoxedTypedRound` (`dyn_round.rs:290-291`): a round of one of the round types. -/
abbrev Boxed : Type := Σ t, R.St t

/-- `BoxedTypedRound::try_downcast` (`dyn_round.rs:318-327`); `none` preserves the original. -/
def downcastRound (t : R.Tag) (r : R.Boxed) : Option (R.St t) :=
  letI := R.decTag
  if h : r.1 = t then some (h ▸ r.2) else none

/-- `RoundInfoObject` (`round_info.rs:46-118`). -/
def infoOf (t : R.Tag) : RoundInfo sp R.Shared where
  directInvalid := U.partInvalid (R.msg t .direct)
  echoInvalid := U.partInvalid (R.msg t .echo)
  normalInvalid := U.partInvalid (R.msg t .normal)
  verifyEvidence := fun rid err guilty sid shared msg prev comb =>
    U.wrapVerify (R.error t) err (fun e => R.verifyErr t e rid guilty sid shared msg prev comb)

/-- The protocol as the session sees it. -/
def wrap : Proto sp where
  Rd := R.Boxed
  Payload := U.Any
  Artifact := U.Any
  Result := R.Result
  Shared := R.Shared
  transition := fun r => R.transition r.1 r.2
  comm := fun r => R.comm r.1 r.2
  makeDirect := fun r rng d => U.wrapDirect (R.msg r.1 .direct) (R.artifact r.1) (R.makeDirect r.1 r.2 rng d)
  makeEcho := fun r rng => U.wrapBroadcast .echo (R.msg r.1 .echo) (R.makeEcho r.1 r.2 rng)
  makeNormal := fun r rng => U.wrapBroadcast .normal (R.msg r.1 .normal) (R.makeNormal r.1 r.2 rng)
  receive := fun r x m =>
    U.wrapReceive (R.msg r.1 .direct) (R.msg r.1 .echo) (R.msg r.1 .normal) (R.payload r.1)
      (U.boxErr (R.error r.1) (fun e => R.required r.1 e (R.transition r.1 r.2).id)) (R.receive r.1 r.2 x) m
  finalize := fun r rng ps as => U.wrapFinalize (R.payload r.1) (R.artifact r.1) (R.finalize r.1 r.2 rng) ps as
  roundInfo := fun rid => (R.roundTag rid).map R.infoOf

/-! ## The rounds with merged types -/

/-- A typed message part made of the merged one. -/
def unpack (t : R.Tag) (k : PartKind) : Option U.Any → Except LErr (U.El (R.msg t k))
  | none => okOr .downcast (U.noMessageIfEquals (R.msg t k))
  | some b => U.downcast (R.msg t k) b

/-- The same protocol with merged message, payload, artifact and error types. -/
def typed : TypedProto sp where
  St := R.Boxed
  Tag := R.Tag
  tag := fun r => r.1
  Val := U.Any
  Payload := U.Any
  Artifact := U.Any
  Result := R.Result
  Shared := R.Shared
  PErr := Σ t, U.El (R.error t)
  de := fun t k =>
    if U.isNoMessage (R.msg t k) then none else some (fun b => (U.de (R.msg t k) b).map (fun v => ⟨R.msg t k, v⟩))
  ser := fun v => U.ser v.1 v.2
  serErr := fun e => U.ser (R.error e.1) e.2
  deErr := fun t b => (U.de (R.error t) b).map (fun e => ⟨t, e⟩)
  required := fun e => R.required e.1 e.2
  verifyErr := fun _ e => R.verifyErr e.1 e.2
  transition := fun r => R.transition r.1 r.2
  comm := fun r => R.comm r.1 r.2
  makeDirect := fun r rng d =>
    match R.makeDirect r.1 r.2 rng d with
    | .error e => .error e
    | .ok (v, a) => .ok (⟨R.msg r.1 .direct, v⟩, ⟨R.artifact r.1, a⟩)
  makeEcho := fun r rng =>
    match R.makeEcho r.1 r.2 rng with
    | .error e => .error e
    | .ok v => .ok ⟨R.msg r.1 .echo, v⟩
  makeNormal := fun r rng =>
    match R.makeNormal r.1 r.2 rng with
    | .error e => .error e
    | .ok v => .ok ⟨R.msg r.1 .normal, v⟩
  receive := fun r sender m =>
    match R.unpack r.1 .direct m.direct with
    | .error e => .error (.local e)
    | .ok direct =>
      match R.unpack r.1 .echo m.echo with
      | .error e => .error (.local e)
      | .ok echo =>
        match R.unpack r.1 .normal m.normal with
        | .error e => .error (.local e)
        | .ok normal =>
          match R.receive r.1 r.2 sender direct echo normal with
          | .error (.local e) => .error (.local e)
          | .error (.unprovable e) => .error (.unprovable e)
          | .error (.protocol e) => .error (.protocol ⟨r.1, e⟩)
          | .ok v => .ok ⟨R.payload r.1, v⟩
  finalize := fun r rng ps as => U.wrapFinalize (R.payload r.1) (R.artifact r.1) (R.finalize r.1 r.2 rng) ps as
  roundTag := R.roundTag

/-! ## Extensions of rounds of one type -/

/-- `RoundExtension` (`extend.rs:29-86`) with `Round` the type named `t`. -/
structure TypedExt (t : R.Tag) where
  makeDirect : R.St t → sp.Rng → sp.Id → Except LErr (U.El (R.msg t .direct) × U.El (R.artifact t))
  makeEcho : R.St t → sp.Rng → Except LErr (U.El (R.msg t .echo))
  makeNormal : R.St t → sp.Rng → Except LErr (U.El (R.msg t .normal))
  finalize : R.St t → sp.Rng → BMap sp.Id (U.El (R.payload t)) → BMap sp.Id (U.El (R.artifact t)) →
    Except LErr (Outcome R.Boxed R.Result)

/-- The map of extensions: `BTreeMap<TypeId, Box<dyn DynRoundExtension>>` (`extend.rs:124, 332`). -/
abbrev ExtMap : Type := R.Tag → Option (Σ t, R.TypedExt t)

/-- `ExtendableEntryPoint::extend` (`extend.rs:357-364`). -/
def register (exts : R.ExtMap) (t : R.Tag) (e : R.TypedExt t) : R.ExtMap :=
  letI := R.decTag
  fun t' => if t' = t then some ⟨t, e⟩ else exts t'

/-- `ExtendedRound` (`extend.rs:115-126`) and `PassthroughRound` (`extend.rs:242-245`). -/
inductive ExtRound where
  | extended (t : R.Tag) (round : R.St t) (extension : R.TypedExt t) (exts : R.ExtMap)
  | passthrough (round : R.Boxed) (exts : R.ExtMap)

/-- `RoundExtensionWrapper::extend_round` (`extend.rs:226-239`). -/
def extendRound (e : Σ t, R.TypedExt t) (r : R.Boxed) (exts : R.ExtMap) : Option R.ExtRound :=
  match R.downcastRound e.1 r with
  | none => none
  | some st => some (.extended e.1 st e.2 exts)

/-- `wrap_round` (`extend.rs:310-323`). -/
def wrapRound (r : R.Boxed) (exts : R.ExtMap) : Except LErr R.ExtRound :=
  match exts r.1 with
  | none => .ok (.passthrough r exts)
  | some e => okOr .panicExtension (R.extendRound e r exts)

/-- Wrapping the next round after `finalize` (`extend.rs:190-195, 260-264`). -/
def wrapOutcome (exts : R.ExtMap) : Outcome R.Boxed R.Result → Except LErr (Outcome R.ExtRound R.Result)
  | .result r => .ok (.result r)
  | .anotherRound r =>
    match R.wrapRound r exts with
    | .error e => .error e
    | .ok r' => .ok (.anotherRound r')

/-- The round inside. -/
def ExtRound.inner {R : Rounds sp U} : R.ExtRound → R.Boxed
  | .extended t st _ _ => ⟨t, st⟩
  | .passthrough r _ => r

/-- The protocol run through `ExtendableEntryPoint` (`extend.rs:128-196, 247-308`). -/
def extended : Proto sp where
  Rd := R.ExtRound
  Payload := U.Any
  Artifact := U.Any
  Result := R.Result
  Shared := R.Shared
  transition := fun r => R.wrap.transition r.inner
  comm := fun r => R.wrap.comm r.inner
  makeDirect := fun r rng d =>
    match r with
    | .extended t st e _ => U.wrapDirect (R.msg t .direct) (R.artifact t) (e.makeDirect st rng d)
    | .passthrough r _ => R.wrap.makeDirect r rng d
  makeEcho := fun r rng =>
    match r with
    | .extended t st e _ => U.wrapBroadcast .echo (R.msg t .echo) (e.makeEcho st rng)
    | .passthrough r _ => R.wrap.makeEcho r rng
  makeNormal := fun r rng =>
    match r with
    | .extended t st e _ => U.wrapBroadcast .normal (R.msg t .normal) (e.makeNormal st rng)
    | .passthrough r _ => R.wrap.makeNormal r rng
  receive := fun r => R.wrap.receive r.inner
  finalize := fun r rng ps as =>
    match r with
    | .extended t st e exts =>
      match U.wrapFinalize (R.payload t) (R.artifact t) (e.finalize st rng) ps as with
      | .error err => .error err
      | .ok o => R.wrapOutcome exts o
    | .passthrough r exts =>
      match R.wrap.finalize r rng ps as with
      | .error err => .error err
      | .ok o => R.wrapOutcome exts o
  roundInfo := R.wrap.roundInfo

/-- `ExtendableEntryPoint` (`extend.rs:328-385`). -/
def extendedEntry (ep : EntryPoint R.wrap) (exts : R.ExtMap) : EntryPoint R.extended where
  entryRoundId := ep.entryRoundId
  makeRound := fun rng sr id =>
    match ep.makeRound rng sr id with
    | .error e => .error e
    | .ok r => R.wrapRound r exts

end Rounds

end Manul
