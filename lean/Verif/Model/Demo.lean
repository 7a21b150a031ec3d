import Verif.Model.Toy
import Verif.Model.Typed
import Verif.Model.Driver

/-!
# A small protocol for examples

Linear all-to-all rounds numbered `1 … last`.  Every message has a direct part, an echo broadcast (if `echo`) and a normal
broadcast of one byte each; everybody adds up what they receive.  A direct message `[66]` is a provable protocol error, a
direct message `[67]` an unprovable one.  The protocol exists only to show that hypotheses of theorems are satisfiable and
to exhibit witnesses.
-/

namespace Manul

/-- State of a round of the example protocol. -/
structure DemoSt where
  me : U8
  others : BSet U8
  n : U8
  acc : Nat

/-- One-byte messages. -/
def demoDe (b : Bytes) : Option Bytes :=
  match b with
  | [x] => some [x]
  | _ => none

/-- The byte of a value. -/
def demoVal : Option Bytes → Nat
  | some [x] => x.val
  | _ => 0

/-- The example protocol. -/
def demo (echo : Bool) (last : U8) : TypedProto toy where
  St := DemoSt
  Tag := U8
  tag s := s.n
  Val := Bytes
  Payload := Nat
  Artifact := Unit
  Result := Nat
  Shared := Unit
  PErr := Unit
  de _ k :=
    match k with
    | .echo => if echo then some demoDe else none
    | _ => some demoDe
  ser b := .ok b
  serErr _ := .ok []
  deErr _ _ := some ()
  required _ _ := ⟨⟨false, false, true⟩, none, none⟩
  verifyErr _ _ _ _ _ _ m _ _ :=
    match m.direct with
    | some ⟨some b⟩ => if b = [66] then .ok () else .error .invalid
    | _ => .error .invalid
  transition s :=
    if s.n = last then TransitionInfo.newLinearTerminating s.n
    else
      match TransitionInfo.newLinear s.n with
      | .ok t => t
      | .error _ => TransitionInfo.newLinearTerminating s.n
  comm s := CommInfo.regular s.others
  makeDirect _ _ d := .ok ([d], ())
  makeEcho s _ := .ok [s.me]
  makeNormal s _ := .ok [s.n]
  receive _ _ m :=
    if m.direct = some [66] then .error (.protocol ())
    else if m.direct = some [67] then .error (.unprovable (.user 0))
    else .ok (demoVal m.direct + demoVal m.echo + demoVal m.normal)
  finalize s _ ps _ :=
    let total := s.acc + (ps.toList.map (fun e => e.2)).sum
    if s.n = last then .ok (.result total) else .ok (.anotherRound { s with n := s.n + 1, acc := total })
  roundTag r := if r.groups = [] ∧ r.isEcho = false ∧ r.round.val ≤ last.val then some r.round else none

instance (echo : Bool) (last : U8) : DecidableEq (demo echo last).wrap.Payload := inferInstanceAs (DecidableEq Nat)

instance (echo : Bool) (last : U8) : DecidableEq (demo echo last).wrap.Result := inferInstanceAs (DecidableEq Nat)

/-- Its entry point for the parties `parties`. -/
def demoEntry (echo : Bool) (last : U8) (parties : BSet U8) : EntryPoint (demo echo last).wrap where
  entryRoundId := RoundId.new 1
  makeRound _ _ me := .ok (⟨me, parties.erase me, 1, 0⟩ : DemoSt)

/-- The session of a party. -/
def demoSession (echo : Bool) (last : U8) (parties : List U8) (me : U8) :
    Except LErr (Session (demo echo last).wrap) :=
  Session.new (sp := toy) (0 : Nat) [9] (me : U8) (demoEntry echo last (BSet.ofList parties))

/-- An arbitrary message signed by a party. -/
def demoMsg (signer : U8) (sid : Bytes) (rid : RoundId) (dest : U8) (direct : Option Bytes) (echo : Option Bytes)
    (normal : Option Bytes) : Except LErr (Message toy) :=
  match SignedPart.new toy (0 : Nat) signer sid rid (⟨direct⟩ : Part .direct),
      SignedPart.new toy (0 : Nat) signer sid rid (⟨echo⟩ : Part .echo),
      SignedPart.new toy (0 : Nat) signer sid rid (⟨normal⟩ : Part .normal) with
  | .ok d, .ok e, .ok n => .ok ⟨dest, d, e, n⟩
  | .error err, _, _ => .error err
  | _, .error err, _ => .error err
  | _, _, .error err => .error err

/-- The error of a failed computation. -/
def errOf {α : Type} : Except LErr α → Option LErr
  | .ok _ => none
  | .error e => some e

/-- The kind of a preprocessing outcome. -/
inductive OutKind where
  | process
  | cache
  | refuse (e : RErr)
  | failed (e : LErr)
deriving DecidableEq

/-- The kind of a preprocessing outcome. -/
def outKind {α : Type} : Except LErr (α × PreOutcome toy) → OutKind
  | .ok (_, .toProcess _) => .process
  | .ok (_, .cached) => .cache
  | .ok (_, .error e) => .refuse e
  | .error e => .failed e

end Manul
