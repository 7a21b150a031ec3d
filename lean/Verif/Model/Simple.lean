import Verif.Model.Typed
import Verif.Model.Driver

/-!
# The example protocol `simple`

Model of `/repo/examples/src/simple.rs`.  The protocol is generic in the session parameters.

Simplifications: the message types are the constructors of one type `SimpleVal`; the logging is left out.  Whether arithmetic
overflow panics (debug builds) or wraps around (release builds) is a parameter, `checks`.
-/

namespace Manul

/-- `Context` (`simple.rs:103-107`). -/
structure SimpleCtx (sp : SP) where
  id : sp.Id
  otherIds : BSet sp.Id
  positions : BMap sp.Id U8

/-- `Round1` (`simple.rs:110-112`) and `Round2` (`simple.rs:263-266`). -/
inductive SimpleSt (sp : SP) where
  | r1 (c : SimpleCtx sp)
  | r2 (sum : U8) (c : SimpleCtx sp)

/-- The two types of rounds. -/
inductive SimpleTag where
  | r1
  | r2
deriving DecidableEq

/-- `Round1Message`, `Round1Echo`, `Round1Broadcast`, `Round2Message` (`simple.rs:115-129,269-272`). -/
inductive SimpleVal where
  | message1 (my your : U8)
  | echo1 (my : U8)
  | broadcast1 (x my : U8)
  | message2 (my your : U8)
deriving DecidableEq

/-- The four types of messages. -/
inductive SimpleTy where
  | message1
  | echo1
  | broadcast1
  | message2
deriving DecidableEq

/-- The type of a message. -/
def SimpleVal.ty : SimpleVal → SimpleTy
  | .message1 _ _ => .message1
  | .echo1 _ => .echo1
  | .broadcast1 _ _ => .broadcast1
  | .message2 _ _ => .message2

/-- Serialization of the messages and of the (unit) error types: the `WireFormat` with the derived implementations of
`Serialize` and `Deserialize`. -/
structure SimpleFormat where
  ser : SimpleVal → Except LErr Bytes
  de : SimpleTy → Bytes → Option SimpleVal
  serUnit : Except LErr Bytes
  deUnit : Bytes → Option Unit

/-- `u8` addition (`simple.rs:252,338,340`): overflow panics if the checks are on, and wraps around otherwise. -/
def addU8 (checks : Bool) (a b : U8) : Except LErr U8 :=
  if checks = true ∧ 256 ≤ a.val + b.val then .error .panicOverflow else .ok (a + b)

/-- `iter().sum::<u8>()`. -/
def sumU8 (checks : Bool) (l : List U8) : Except LErr U8 := foldE (addU8 checks) 0 l

/-- `ids_to_positions[id]` (`simple.rs:201,208,219-220,233,252,301-302,318,338`). -/
def SimpleCtx.position {sp : SP} (c : SimpleCtx sp) (i : sp.Id) : Except LErr U8 := okOr .panicIndex (c.positions.get? i)

/-- The sum of the own position and the payloads (`simple.rs:251-252,337-338`). -/
def simpleSum {sp : SP} (checks : Bool) (c : SimpleCtx sp) (ps : BMap sp.Id U8) : Except LErr U8 :=
  match c.position c.id with
  | .error e => .error e
  | .ok own =>
    match sumU8 checks ps.values with
    | .error e => .error e
    | .ok s => addU8 checks own s

/-- The positions of both parties, as in `make_direct_message` (`simple.rs:218-221,300-303`). -/
def SimpleCtx.two {sp : SP} (c : SimpleCtx sp) (f : U8 → U8 → SimpleVal) (d : sp.Id) : Except LErr (SimpleVal × Unit) :=
  match c.position c.id with
  | .error e => .error e
  | .ok my =>
    match c.position d with
    | .error e => .error e
    | .ok your => .ok (f my your, ())

/-- The check of the position (`simple.rs:233-236,318-322`). -/
def SimpleCtx.check {sp : SP} (c : SimpleCtx sp) (err : SimpleTag) (my your : U8) : Except (TypedErr SimpleTag) U8 :=
  match c.position c.id with
  | .error e => .error (.local e)
  | .ok own => if own ≠ your then .error (.protocol err) else .ok my

/-- `TransitionInfo::new_linear` at a round number that does not overflow. -/
def linearInfo (n : U8) : TransitionInfo :=
  match TransitionInfo.newLinear n with
  | .ok t => t
  | .error _ => TransitionInfo.newLinearTerminating n

/-- The protocol without `verify_evidence`. -/
def simpleBase (sp : SP) (fmt : SimpleFormat) (checks : Bool) : TypedProto sp where
  St := SimpleSt sp
  Tag := SimpleTag
  tag
    | .r1 _ => .r1
    | .r2 _ _ => .r2
  Val := SimpleVal
  Payload := U8
  Artifact := Unit
  Result := U8
  Shared := Unit
  -- `Round1ProtocolError` and `Round2ProtocolError` (`simple.rs:30,61`)
  PErr := SimpleTag
  -- `simple.rs:190-192,286-288`
  de
    | .r1, .direct => some (fmt.de .message1)
    | .r1, .echo => some (fmt.de .echo1)
    | .r1, .normal => some (fmt.de .broadcast1)
    | .r2, .direct => some (fmt.de .message2)
    | .r2, .echo => none
    | .r2, .normal => none
  ser := fmt.ser
  serErr _ := fmt.serUnit
  deErr t b := (fmt.deUnit b).map (fun _ => t)
  -- `simple.rs:34-36,65-71`
  required
    | .r1, _ => ⟨⟨false, false, true⟩, none, none⟩
    | .r2, _ => ⟨⟨false, false, true⟩, some (BMap.ofList [(RoundId.new 1, ⟨false, false, true⟩)]),
        some (BSet.ofList [RoundId.new 1])⟩
  verifyErr _ _ _ _ _ _ _ _ _ := .ok ()
  -- `simple.rs:182-184,278-280`
  transition
    | .r1 _ => linearInfo 1
    | .r2 _ _ => TransitionInfo.newLinearTerminating 2
  -- `simple.rs:186-188,282-284`
  comm
    | .r1 c => CommInfo.regular c.otherIds
    | .r2 _ c => CommInfo.regular c.otherIds
  -- `simple.rs:212-223,293-305`
  makeDirect
    | .r1 c, _, d => c.two .message1 d
    | .r2 _ c, _, d => c.two .message2 d
  -- `simple.rs:205-210`; the default implementation returns `NoMessage`, for which there is no value here
  makeEcho
    | .r1 c, _ =>
      match c.position c.id with
      | .error e => .error e
      | .ok my => .ok (.echo1 my)
    | .r2 _ _, _ => .ok (.echo1 0)
  -- `simple.rs:197-203`; the default implementation likewise
  makeNormal
    | .r1 c, _ =>
      match c.position c.id with
      | .error e => .error e
      | .ok my => .ok (.broadcast1 0 my)
    | .r2 _ _, _ => .ok (.broadcast1 0 0)
  -- `simple.rs:225-237,307-323`
  receive
    | .r1 c, _, m =>
      match m.direct with
      | some (.message1 my your) => c.check .r1 my your
      | _ => .error (.local .downcast)
    | .r2 _ c, _, m =>
      match m.direct with
      | some (.message2 my your) => c.check .r2 my your
      | _ => .error (.local .downcast)
  -- `simple.rs:239-259,325-341`
  finalize
    | .r1 c, _, ps, _ =>
      match simpleSum checks c ps with
      | .error e => .error e
      | .ok s => .ok (.anotherRound (.r2 s c))
    | .r2 sum c, _, ps, _ =>
      match simpleSum checks c ps with
      | .error e => .error e
      | .ok s =>
        match addU8 checks s sum with
        | .error e => .error e
        | .ok r => .ok (.result r)
  -- `simple.rs:93-99`
  roundTag r := if r = RoundId.new 1 then some .r1 else if r = RoundId.new 2 then some .r2 else none

/-- The protocol; `verify_evidence` (`simple.rs:37-54,72-84`) only reads the messages. -/
def simple (sp : SP) (fmt : SimpleFormat) (checks : Bool) : TypedProto sp :=
  { simpleBase sp fmt checks with
    verifyErr := fun _ e _ _ _ _ m _ comb =>
      match e with
      | SimpleTag.r1 =>
        match (simpleBase sp fmt checks).evPart (SimpleTag.r1) m.direct with
        | .error err => .error err
        | .ok _ => .ok ()
      | SimpleTag.r2 =>
        match (simpleBase sp fmt checks).evPart (SimpleTag.r2) m.direct with
        | .error err => .error err
        | .ok _ =>
          match (simpleBase sp fmt checks).evCombined (SimpleTag.r1) comb 1 with
          | .error err => .error err
          | .ok _ => .ok () }

/-- The numbers associated with the ids (`simple.rs:159-165`). -/
def simplePositions {sp : SP} (ids : BSet sp.Id) : BMap sp.Id U8 :=
  BMap.ofList (ids.elems.zipIdx.map (fun e => (e.1, Fin.ofNat 256 e.2)))

/-- The context of a party (`simple.rs:168-172`). -/
def simpleCtx {sp : SP} (ids : BSet sp.Id) (i : sp.Id) : SimpleCtx sp := ⟨i, ids.erase i, simplePositions ids⟩

/-- `SimpleProtocolEntryPoint` (`simple.rs:136-175`). -/
def simpleEntry (sp : SP) (fmt : SimpleFormat) (checks : Bool) (ids : BSet sp.Id) : EntryPoint (simple sp fmt checks).wrap where
  entryRoundId := RoundId.new 1
  makeRound _ _ i := .ok (SimpleSt.r1 (simpleCtx ids i))

end Manul
