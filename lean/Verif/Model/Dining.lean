import Verif.Model.Simple
import Verif.Model.TestParams

/-!
# The example protocol of the dining cryptographers

Model of `/repo/examples/dining_cryptographers.rs`, over the session parameters for tests (`:345-360`).

Simplifications: the message types are the constructors of one type `DinerVal`; the logging is left out.  The additions
`diner_id + 1`, `diner_id + 2` (`:135,139`) do not overflow for the three diners.
-/

namespace Manul

/-- `Round1` and `Round2` (`dining_cryptographers.rs:95-107`). -/
inductive DinerSt where
  | r1 (id : U8) (toss paid : Bool)
  | r2 (id : U8) (toss neighbour paid : Bool)

/-- The two types of rounds. -/
inductive DinerTag where
  | r1
  | r2
deriving DecidableEq

/-- `Round1Message` and `Round2Message` (`dining_cryptographers.rs:294-303`). -/
inductive DinerVal where
  | toss (b : Bool)
  | reveal (b : Bool)
deriving DecidableEq

/-- The diner `k` places further (`dining_cryptographers.rs:135,139`). -/
def dinerAt (id : U8) (k : Nat) : U8 := Fin.ofNat 256 ((id.val + k) % 3)

/-- `everyone_else` (`dining_cryptographers.rs:223-232`). -/
def otherDiners (id : U8) : BSet U8 := BSet.ofList ([0, 1, 2].filter (fun x => decide (x ≠ id)))

/-- The bit announced by a diner (`dining_cryptographers.rs:248-253`). -/
def announce (toss neighbour paid : Bool) : Bool := if paid then (!toss) ^^ neighbour else toss ^^ neighbour

/-- Reading a message of one byte in the binary format. -/
def diningDe (f : Bool → DinerVal) (b : Bytes) : Option DinerVal :=
  match Codec.bool.dec b with
  | none => none
  | some (x, _) => some (f x)

/-- The protocol. -/
def dining (R : RandomSource) : TypedProto (testParams R) where
  St := DinerSt
  Tag := DinerTag
  tag
    | .r1 _ _ _ => .r1
    | .r2 _ _ _ _ => .r2
  Val := DinerVal
  Payload := Bool
  Artifact := Unit
  Result := Bool × Bool × Bool
  Shared := Unit
  -- `NoProtocolErrors` (`protocol/evidence.rs:251-276`): a unit type, its methods panic
  PErr := Unit
  -- `dining_cryptographers.rs:113-115,206-208`
  de
    | .r1, .direct => some (diningDe .toss)
    | .r1, _ => none
    | .r2, .normal => some (diningDe .reveal)
    | .r2, _ => none
  ser
    | .toss b => .ok (Codec.bool.enc b)
    | .reveal b => .ok (Codec.bool.enc b)
  serErr _ := .ok []
  deErr _ _ := some ()
  required _ _ := ⟨⟨false, false, false⟩, none, none⟩
  verifyErr _ _ _ _ _ _ _ _ _ := .error (.local .panicNoErrors)
  -- `:122-124,214-216`
  transition
    | .r1 _ _ _ => linearInfo 1
    | .r2 _ _ _ _ => TransitionInfo.newLinearTerminating 2
  -- `:129-146,222-239`
  comm
    | .r1 id _ _ => ⟨(BSet.ofList [dinerAt id 1] : BSet U8), (BSet.ofList [dinerAt id 2] : BSet U8), .default⟩
    | .r2 id _ _ _ => ⟨otherDiners id, otherDiners id, .default⟩
  -- `:149-159`; the default implementation (`protocol/round.rs:147-168`) in the second round
  makeDirect
    | .r1 _ toss _, _, _ => .ok (.toss toss, ())
    | .r2 _ _ _ _, _, _ => .ok (.toss false, ())
  makeEcho _ _ := .ok (.reveal false)
  -- `:242-255`; the default implementation (`protocol/round.rs:201-217`) in the first round
  makeNormal
    | .r1 _ _ _, _ => .ok (.reveal false)
    | .r2 _ toss neighbour paid, _ => .ok (.reveal (announce toss neighbour paid))
  -- `:162-173,259-270`
  receive
    | .r1 _ _ _, _, m =>
      match m.direct with
      | some (.toss b) => .ok b
      | _ => .error (.local .downcast)
    | .r2 _ _ _ _, _, m =>
      match m.normal with
      | some (.reveal b) => .ok b
      | _ => .error (.local .downcast)
  -- `:176-199,275-290`
  finalize
    | .r1 id toss paid, _, ps, _ =>
      match ps.values with
      | [] => .error (.user 0)
      | neighbour :: _ => .ok (.anotherRound (.r2 id toss neighbour paid))
    | .r2 _ toss neighbour paid, _, ps, _ =>
      let own := if paid then !(toss ^^ neighbour) else toss ^^ neighbour
      match ps.values with
      | b0 :: b1 :: _ => .ok (.result (b0, b1, own))
      | _ => .error .panicIndex
  -- `:82-88`
  roundTag r := if r = RoundId.new 1 then some .r1 else if r = RoundId.new 2 then some .r2 else none

/-- Whether the `k`-th number drawn is even. -/
def coin {R : RandomSource} (rng : R.Rng) (k : Nat) : Bool := decide (R.u32 rng k % 2 = 0)

/-- The first round of a diner (`dining_cryptographers.rs:327-332`): only diner 0 draws a number for `paid` (the operator `&&` is
lazy). -/
def dinerStart {R : RandomSource} (rng : R.Rng) (id : U8) : DinerSt :=
  if id = 0 then .r1 id (coin rng 1) (coin rng 0) else .r1 id (coin rng 0) false

/-- `DiningEntryPoint` (`dining_cryptographers.rs:309-340`). -/
def diningEntry (R : RandomSource) : EntryPoint (dining R).wrap where
  entryRoundId := RoundId.new 1
  makeRound rng _ id := .ok (dinerStart rng id)

end Manul
