import Verif.Model.Evidence

/-!
# The echo round

Model of `/repo/manul/src/session/echo.rs` and of the round object held by a session: either a round of the protocol
or an echo round wrapped around one.
-/

namespace Manul

/-- `EchoRoundInfo` (`session/session.rs:101-105`). -/
structure EchoInfo (Id : Type) [LinearOrder Id] where
  destinations : BSet Id
  expecting : BSet Id
  expectedEchos : BSet Id

/-- `EchoRound` (`session/echo.rs:136-144`).  `comm` is a function of `info` (`echo.rs:161-165`) and is computed.
A payload `none` is `Payload::empty()`, an artifact `none` is `NoArtifact`. -/
structure EchoRd {sp : SP} (P : Proto sp) where
  verifier : sp.Id
  echoBroadcasts : BMap sp.Id (SignedPart .echo)
  info : EchoInfo sp.Id
  main : P.Rd
  payloads : BMap sp.Id (Option P.Payload)
  artifacts : BMap sp.Id (Option P.Artifact)

namespace EchoRd

variable {sp : SP} {P : Proto sp}

/-- The communication info built in `EchoRound::new` (`echo.rs:161-165`). -/
def comm (e : EchoRd P) : CommInfo sp.Id := ⟨e.info.destinations, e.info.expecting, .default⟩

/-- `EchoRound::transition_info` (`echo.rs:211-221`); the `expect` becomes an error value. -/
def transition (e : EchoRd P) : Except LErr TransitionInfo :=
  mapErr (fun _ => LErr.panicMainIsEcho) (P.transition e.main).echo

/-- The pack of hashes sent by the echo round (`echo.rs:255-267`). -/
def pack (e : EchoRd P) : EchoPack sp :=
  (e.echoBroadcasts.erase e.verifier).mapVal (fun _ b => b.toSignedHash sp)

/-- `EchoRound::make_normal_broadcast` (`echo.rs:247-269`). -/
def makeNormal (e : EchoRd P) : Except LErr (Part .normal) :=
  if e.echoBroadcasts.contains e.verifier then
    match sp.serEcho e.pack with
    | .error err => .error err
    | .ok b => .ok ⟨some b⟩
  else .error .ownEchoMissing

/-- The body of the loop at `echo.rs:314-366`. -/
def checkEcho (sp : SP) (received : BMap sp.Id (SignedPart .echo)) (x : sp.Id × SignedHash) :
    Except (RecvErr sp) Unit :=
  match received.get? x.1 with
  | none => .error (.local .panicEchoKey)
  | some prev =>
    match x.2.verify sp x.1 with
    | .error (.local e) => .error (.local e)
    | .error .invalidSignature => .error (.echo (.invalidEcho x.1))
    | .error .signatureMismatch => .error (.echo (.invalidEcho x.1))
    | .ok _ =>
      if x.2.metadata ≠ prev.metadata then .error (.echo (.invalidEcho x.1))
      else if x.2.isHashOf sp prev = false then .error (.echo (.mismatched x.1 prev x.2))
      else .ok ()

/-- The loop at `echo.rs:314-366`. -/
def checkEchos (sp : SP) (received : BMap sp.Id (SignedPart .echo)) (l : List (sp.Id × SignedHash)) :
    Except (RecvErr sp) Unit :=
  foldE (fun _ x => checkEcho sp received x) () l

/-- The checks on a deserialized pack (`echo.rs:286-368`). -/
def receivePack (e : EchoRd P) (sender : sp.Id) (pack : EchoPack sp) : Except (RecvErr sp) Unit :=
  let expected := e.info.expectedEchos.erase sender
  let keys : BSet sp.Id := pack.keys
  if (BSet.diff expected keys).isEmpty = false then .error (.unprovable .missingEchos)
  else if (BSet.diff keys expected).isEmpty = false then .error (.unprovable .extraEchos)
  else checkEchos sp e.echoBroadcasts pack.toList

/-- `EchoRound::receive_message` (`echo.rs:271-369`). -/
def receive (e : EchoRd P) (sender : sp.Id) (m : DynMsg) : Except (RecvErr sp) Unit :=
  if m.echo.isNone = false then .error .invalidEcho
  else if m.direct.isNone = false then .error .invalidDirect
  else
    match Evidence.deserializePack sp m.normal with
    | none => .error .invalidNormal
    | some pack => e.receivePack sender pack

end EchoRd

/-- The round object in a session (`BoxedRound`, `protocol/dyn_round.rs:233-240`): a round of the protocol, or an echo
round. -/
inductive SRound {sp : SP} (P : Proto sp) where
  | main (r : P.Rd)
  | echo (e : EchoRd P)

/-- Downcasting every value of a map (`protocol/dyn_round.rs:218-225`): a value that is not of the main round's type
fails. -/
def downcastAll {K V : Type} [LinearOrder K] (m : BMap K (Option V)) : Except LErr (BMap K V) :=
  match mapE (fun e : K × Option V =>
      match e.2 with
      | some v => Except.ok (e.1, v)
      | none => Except.error LErr.downcast) m.toList with
  | .error e => .error e
  | .ok l => .ok (BMap.ofList l)

namespace SRound

variable {sp : SP} {P : Proto sp}

/-- `DynRound::transition_info`. -/
def transition : SRound P → Except LErr TransitionInfo
  | .main r => .ok (P.transition r)
  | .echo e => e.transition

/-- `DynRound::communication_info`. -/
def comm : SRound P → CommInfo sp.Id
  | .main r => P.comm r
  | .echo e => e.comm

/-- `DynRound::make_direct_message`; for the echo round see `echo.rs:227-237`. -/
def makeDirect (s : SRound P) (rng : sp.Rng) (dest : sp.Id) : Except LErr (Part .direct × Option P.Artifact) :=
  match s with
  | .main r =>
    match P.makeDirect r rng dest with
    | .error e => .error e
    | .ok (p, a) => .ok (p, some a)
  | .echo _ => .ok (Part.none, none)

/-- `DynRound::make_echo_broadcast`; for the echo round see `echo.rs:239-245`. -/
def makeEcho (s : SRound P) (rng : sp.Rng) : Except LErr (Part .echo) :=
  match s with
  | .main r => P.makeEcho r rng
  | .echo _ => .ok Part.none

/-- `DynRound::make_normal_broadcast`. -/
def makeNormal (s : SRound P) (rng : sp.Rng) : Except LErr (Part .normal) :=
  match s with
  | .main r => P.makeNormal r rng
  | .echo e => e.makeNormal

/-- `DynRound::receive_message`. -/
def receive (s : SRound P) (sender : sp.Id) (m : DynMsg) : Except (RecvErr sp) (Option P.Payload) :=
  match s with
  | .main r =>
    match P.receive r sender m with
    | .error e => .error e
    | .ok p => .ok (some p)
  | .echo e =>
    match e.receive sender m with
    | .error e => .error e
    | .ok _ => .ok none

/-- Downcast of the boxes and `finalize` of a main round (`protocol/dyn_round.rs:212-228`). -/
def finalizeMain (r : P.Rd) (rng : sp.Rng) (payloads : BMap sp.Id (Option P.Payload))
    (artifacts : BMap sp.Id (Option P.Artifact)) : Except LErr (Outcome P.Rd P.Result) :=
  match downcastAll payloads with
  | .error e => .error e
  | .ok ps =>
    match downcastAll artifacts with
    | .error e => .error e
    | .ok as => P.finalize r rng ps as

/-- `DynRound::finalize`; for the echo round see `echo.rs:371-380`. -/
def finalize (s : SRound P) (rng : sp.Rng) (payloads : BMap sp.Id (Option P.Payload))
    (artifacts : BMap sp.Id (Option P.Artifact)) : Except LErr (Outcome P.Rd P.Result) :=
  match s with
  | .main r => finalizeMain r rng payloads artifacts
  | .echo e => finalizeMain e.main rng e.payloads e.artifacts

end SRound

end Manul
