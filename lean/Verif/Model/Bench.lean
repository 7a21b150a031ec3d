import Verif.Model.Defaults
import Verif.Model.Driver
import Verif.Model.Simple
import Verif.Model.Codec

/-!
# The protocols of the benchmarks

Model of `/repo/manul/benches/empty_rounds.rs` and `/repo/manul/benches/async_session.rs`.  The two protocols differ in the
direct message only, which in the second one is the result of some work; the model is generic in it.

The arithmetic on `u8` panics on overflow if `checks` is true, and wraps around otherwise (benchmarks are built without checks).
`plainEcho` tells whether the message type `EchoBroadcast` of `EmptyRound` is `Round1EchoBroadcast`, as in the code
(`empty_rounds.rs:86`, `async_session.rs:101`), or `NoMessage`.

Simplifications: `round_info`, which is `unimplemented!()`, returns `None` (it is only called to verify evidence); the
failing `new_linear(255)` is that of the last round (this needs `rounds_num` to be zero).
-/

namespace Manul

/-- `Inputs` (`empty_rounds.rs:41-46`, `async_session.rs:56-61`). -/
structure BenchInputs (Id : Type) [LinearOrder Id] where
  roundsNum : U8
  echo : Bool
  otherIds : BSet Id

/-- `EmptyRoundWithEcho` or `EmptyRound` (`empty_rounds.rs:29-39`, `async_session.rs:44-54`). -/
structure BenchSt (Id : Type) [LinearOrder Id] where
  withEcho : Bool
  counter : U8
  inputs : BenchInputs Id

/-- The messages `Round1DirectMessage` and `Round1EchoBroadcast` (`empty_rounds.rs:48-52`, `async_session.rs:63-67`). -/
inductive BenchVal (W : Type) where
  | direct (w : W)
  | echo

/-- What is sent directly, and the wire format at the two message types. -/
structure BenchWork (W : Type) where
  work : U8 → Except LErr W
  serDirect : W → Except LErr Bytes
  deDirect : Bytes → Option W
  serEcho : Except LErr Bytes
  deEcho : Bytes → Option Unit

/-- The two round types with all methods implemented in the way `EmptyRoundWithEcho` does. -/
def benchRounds (sp : SP) {W : Type} [DecidableEq W] (b : BenchWork W) (checks plainEcho : Bool) : TypedProto sp where
  St := BenchSt sp.Id
  Tag := Bool
  tag s := s.withEcho
  Val := BenchVal W
  Payload := Unit
  Artifact := Unit
  Result := Unit
  Shared := Unit
  PErr := Unit
  -- `empty_rounds.rs:86-88,138-140`
  de t k :=
    match k with
    | .direct => some (fun x => (b.deDirect x).map .direct)
    | .echo => if t || plainEcho then some (fun x => (b.deEcho x).map (fun _ => .echo)) else none
    | .normal => none
  ser v :=
    match v with
    | .direct w => b.serDirect w
    | .echo => b.serEcho
  serErr _ := .ok []
  deErr _ _ := some ()
  required _ _ := ⟨⟨false, false, false⟩, none, none⟩
  verifyErr _ _ _ _ _ _ _ _ _ := .error (.local .panicNoErrors)
  -- `:92-98,144-150`
  transition s :=
    if s.inputs.roundsNum = s.counter then TransitionInfo.newLinearTerminating s.counter
    else
      match TransitionInfo.newLinear s.counter with
      | .ok t => t
      | .error _ => TransitionInfo.newLinearTerminating s.counter
  -- `:100-102,152-154`
  comm s := CommInfo.regular s.inputs.otherIds
  -- `:104-110,160-166`
  makeDirect s _ _ :=
    match b.work s.counter with
    | .error e => .error e
    | .ok w => .ok (.direct w, ())
  -- `:156-158`
  makeEcho _ _ := .ok .echo
  makeNormal _ _ := .error .notImplemented
  -- `:112-118,168-174`, `async_session.rs:130-140,185-195`
  receive s _ m :=
    match m.direct with
    | some (.direct w) =>
      match b.work s.counter with
      | .error e => .error (.local e)
      | .ok w' => if w = w' then .ok () else .error (.local (.user 0))
    | _ => .error (.local .downcast)
  -- `:120-135,176-191`; the next round is `EmptyRound` in both cases
  finalize s _ _ _ :=
    if s.counter = s.inputs.roundsNum then .ok (.result ())
    else
      match addU8 checks s.counter 1 with
      | .error e => .error e
      | .ok c => .ok (.anotherRound ⟨false, c, s.inputs⟩)
  roundTag _ := none

/-- `EmptyProtocol`: `EmptyRound` does not implement `make_echo_broadcast`, and neither round `make_normal_broadcast`. -/
def bench (sp : SP) {W : Type} [DecidableEq W] (b : BenchWork W) (checks plainEcho : Bool) : TypedProto sp :=
  (benchRounds sp b checks plainEcho).withDefaults .echo (fun _ => none) (fun t k =>
    match k with
    | .direct => true
    | .echo => t
    | .normal => false)

/-- `EntryPoint for Inputs` (`empty_rounds.rs:58-82`, `async_session.rs:73-97`). -/
def benchEntry (sp : SP) {W : Type} [DecidableEq W] (b : BenchWork W) (checks plainEcho : Bool) (inputs : BenchInputs sp.Id) :
    EntryPoint (bench sp b checks plainEcho).wrap where
  entryRoundId := RoundId.new 1
  makeRound _ _ _ := .ok (⟨inputs.echo, 1, inputs⟩ : BenchSt sp.Id)

/-- A unit struct is serialized to nothing by the binary format. -/
def unitWork : BenchWork Unit where
  work _ := .ok ()
  serDirect _ := .ok []
  deDirect _ := some ()
  serEcho := .ok []
  deEcho _ := some ()

/-- `x *= x` on `u128`: overflow panics if the checks are on, and wraps around otherwise. -/
def squareU128 (checks : Bool) (x : Nat) : Except LErr Nat :=
  if checks = true ∧ 2 ^ 128 ≤ x * x then .error .panicOverflow else .ok (x * x % 2 ^ 128)

/-- The loop of `do_work` (`async_session.rs:24-28`). -/
def workLoop (checks : Bool) : Nat → Nat → Except LErr Nat
  | 0, x => .ok x
  | n + 1, x =>
    match squareU128 checks x with
    | .error e => .error e
    | .ok y => workLoop checks n (y % (2 ^ 64 - 59))

/-- `do_work(self.round_counter + 2)` (`async_session.rs:21-30,126,135`), with the number of iterations as a parameter. -/
def doWork (checks : Bool) (iterations : Nat) (counter : U8) : Except LErr Nat :=
  match addU8 checks counter 2 with
  | .error e => .error e
  | .ok seed => workLoop checks iterations seed.val

/-- The messages of `async_session.rs`; an `u128` is serialized as a varint. -/
def squareWork (checks : Bool) (iterations : Nat) : BenchWork Nat where
  work := doWork checks iterations
  serDirect x := .ok (Codec.varint.enc x)
  deDirect b := (Codec.varint.dec b).map Prod.fst
  serEcho := .ok []
  deEcho _ := some ()

end Manul
