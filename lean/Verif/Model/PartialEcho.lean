import Verif.Model.Typed
import Verif.Model.Driver

/-!
# The protocol of the test `partial_echo`

Model of `/repo/manul/src/tests/partial_echo.rs`.  The protocol is generic in the session parameters.

Simplifications: the failing assertions and the `unreachable!` in the callbacks are error values.
-/

namespace Manul

/-- `Inputs` (`partial_echo.rs:36-42`); it is the whole of the state of `Round1` (`:44-47`). -/
structure PartialInputs (Id : Type) [LinearOrder Id] where
  id : Id
  destinations : BSet Id
  expecting : BSet Id
  participation : EchoParticipation Id

/-- The wire format at the type `Round1Echo` (`partial_echo.rs:49-52`). -/
structure SenderFormat (sp : SP) where
  ser : sp.Id → Except LErr Bytes
  de : Bytes → Option sp.Id

/-- `PartialEchoProtocol` with `Round1` (`partial_echo.rs:22-34,71-131`). -/
def partialEcho (sp : SP) (fmt : SenderFormat sp) : TypedProto sp where
  St := PartialInputs sp.Id
  Tag := Unit
  tag _ := ()
  Val := sp.Id
  Payload := Unit
  Artifact := Unit
  Result := Unit
  Shared := Unit
  -- `NoProtocolErrors` (`protocol/evidence.rs:251-276`)
  PErr := Unit
  -- `:75-77`
  de
    | _, .echo => some fmt.de
    | _, _ => none
  ser := fmt.ser
  serErr _ := .ok []
  deErr _ _ := some ()
  required _ _ := ⟨⟨false, false, false⟩, none, none⟩
  verifyErr _ _ _ _ _ _ _ _ _ := .error (.local .panicNoErrors)
  -- `:82-84`
  transition _ := TransitionInfo.newLinearTerminating 1
  -- `:86-92`
  comm s := ⟨s.destinations, s.expecting, s.participation⟩
  -- the default implementations return `NoMessage`
  makeDirect s _ _ := .ok (s.id, ())
  makeNormal s _ := .ok s.id
  -- `:94-105`
  makeEcho s _ := if s.destinations.isEmpty = true then .error .panicAssert else .ok s.id
  -- `:107-121`
  receive s sender m :=
    if s.expecting.isEmpty = true then .error (.local .panicAssert)
    else
      match m.echo with
      | none => .error (.local .downcast)
      | some who =>
        if who ≠ sender then .error (.local .panicAssert)
        else if s.expecting.contains sender = false then .error (.local .panicAssert)
        else .ok ()
  -- `:123-130`
  finalize _ _ _ _ := .ok (.result ())
  -- `:28-33`
  roundTag r := if r = RoundId.new 1 then some () else none

/-- `EntryPoint for Inputs` (`partial_echo.rs:54-69`). -/
def partialEntry (sp : SP) (fmt : SenderFormat sp) (inputs : PartialInputs sp.Id) : EntryPoint (partialEcho sp fmt).wrap where
  entryRoundId := RoundId.new 1
  makeRound _ _ _ := .ok inputs

/-- The inputs of the test (`partial_echo.rs:135-193`). -/
def partialInputs {Id : Type} [LinearOrder Id] (id : Nat → Id) : List (PartialInputs Id) :=
  [⟨id 0, BSet.ofList [id 1, id 2, id 3], BMap.empty, .send⟩,
    ⟨id 1, BSet.ofList [id 2, id 3], BSet.ofList [id 0], .default⟩,
    ⟨id 2, BMap.empty, BSet.ofList [id 0, id 1], .receive (BSet.ofList [id 1, id 3])⟩,
    ⟨id 3, BMap.empty, BSet.ofList [id 0, id 1], .receive (BSet.ofList [id 1, id 2])⟩,
    ⟨id 4, BMap.empty, BMap.empty, .default⟩]

end Manul
