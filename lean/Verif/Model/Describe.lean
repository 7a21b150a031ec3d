import Verif.Model.Session

/-!
# Descriptions of evidence and printing of reports

Model of the strings left out of `Model/Evidence` and `Model/Session`: the `description` of an `Evidence`
(`/repo/manul/src/session/evidence.rs`), and `SessionReport::brief`
(`/repo/manul/src/session/transcript.rs:212-219, 258-296`).

A text is a list of characters.  Texts made outside of the library are parameters: the `Debug` rendering of party
identifiers and of protocol results, the text in a `RemoteError`, the description of a protocol error
(`ProtocolError::description`), and the text of a deserialization error.
-/

namespace Manul

/-- A string. -/
abbrev Text := List Char

/-- The characters of a literal. -/
@[irreducible] def txt (s : String) : Text := s.toList

/-- `Evidence` with its description (`session/evidence.rs:30-34`). -/
structure DEvidence (sp : SP) where
  guilty : sp.Id
  description : Text
  body : EvBody sp

namespace DEvidence

variable {sp : SP}

/-- The evidence without its description. -/
def erase (d : DEvidence sp) : Evidence sp := ⟨d.guilty, d.body⟩

/-- `Evidence::verify` (`session/evidence.rs:200-210`). -/
def verify (P : Proto sp) (shared : P.Shared) (d : DEvidence sp) : Except EvErr Unit := d.erase.verify P shared

/-- `EchoRoundError` descriptions (`session/echo.rs:51-53, 95-97`). -/
def echoText : EchoErr sp → Text
  | .invalidEcho _ => txt "Invalid message received among the ones echoed"
  | .mismatched _ _ _ => txt "The echoed message is different from the originally received one"

/-- The description of a protocol error (`session/evidence.rs:52, 103`). -/
def protocolText (round : U8) (text : Text) : Text :=
  txt "Protocol error (Round " ++ RoundId.decimal round.val ++ txt "): " ++ text

/-- The evidence made from an error in `RoundAccumulator::add_processed_message` (`session.rs:705-746`); `text` is the
text of the error itself (`protocol/message.rs:233-263`, `dyn_evidence.rs:20-23`).  There is none for unprovable errors
and for local errors. -/
def ofError (t : Transcript sp) (m : VerifiedMessage sp) (text : Text) : RecvErr sp → Except LErr (Option (DEvidence sp))
  | .invalidDirect =>
    .ok (some ⟨m.sender, txt "Direct message error: " ++ text, .invalidDirect m.direct⟩)
  | .invalidEcho =>
    .ok (some ⟨m.sender, txt "Echo broadcast error: " ++ text, .invalidEchoBroadcast m.echo⟩)
  | .invalidNormal =>
    .ok (some ⟨m.sender, txt "Normal broadcast error: " ++ text, .invalidNormal m.normal⟩)
  | .protocol required serialized =>
    match Evidence.newProvableError m.sender m.echo m.normal m.direct required serialized t with
    | .error e => .error e
    | .ok ev => .ok (some ⟨ev.guilty, protocolText m.echo.metadata.roundId.round text, ev.body⟩)
  | .echo e =>
    .ok (some ⟨(Evidence.newEchoRoundError m.sender m.normal e).guilty, echoText e,
      (Evidence.newEchoRoundError m.sender m.normal e).body⟩)
  | .unprovable _ => .ok none
  | .local e => .error e

end DEvidence

/-- `SessionReport` (`session/transcript.rs:224-233`) with the texts. -/
structure TextReport (sp : SP) (Res : Type) where
  outcome : SessionOutcome Res
  provable : BMap sp.Id (DEvidence sp)
  /-- the text inside of the `RemoteError` -/
  unprovable : BMap sp.Id Text
  missing : BMap RoundId (BSet sp.Id)

/-- `SessionOutcome::brief` (`transcript.rs:213-219`). -/
def SessionOutcome.brief {Res : Type} (resText : Res → Text) : SessionOutcome Res → Text
  | .result r => txt "Success (" ++ resText r ++ txt ")"
  | .notEnoughMessages => txt "Not enough messages to finalize, terminated"
  | .terminated => txt "Terminated by the user"

/-- `[String]::join`. -/
def joinText (sep : Text) : List Text → Text
  | [] => []
  | [a] => a
  | a :: b :: l => a ++ sep ++ joinText sep (b :: l)

/-- The `Debug` rendering of a `BTreeSet`. -/
def debugSet {Id : Type} [LinearOrder Id] (idText : Id → Text) (s : BSet Id) : Text :=
  txt "{" ++ joinText (txt ", ") (s.elems.map idText) ++ txt "}"

/-- The common body of the three parts of `brief` (`transcript.rs:259-290`). -/
def briefPart (title : Text) (rows : List Text) : Text :=
  if rows.isEmpty then [] else txt "\n" ++ title ++ txt "\n" ++ joinText (txt "\n") rows

namespace TextReport

variable {sp : SP} {Res : Type}

/-- The rows of provable errors (`transcript.rs:260-264`). -/
def provableRows (idText : sp.Id → Text) (r : TextReport sp Res) : List Text :=
  r.provable.toList.map (fun e => txt "  " ++ idText e.1 ++ txt ": " ++ e.2.description)

/-- The rows of unprovable errors (`transcript.rs:271-275`, `errors.rs:19-21`). -/
def unprovableRows (idText : sp.Id → Text) (r : TextReport sp Res) : List Text :=
  r.unprovable.toList.map (fun e => txt "  " ++ idText e.1 ++ txt ": " ++ (txt "Remote error: " ++ e.2))

/-- The rows of missing messages (`transcript.rs:282-286`). -/
def missingRows (idText : sp.Id → Text) (r : TextReport sp Res) : List Text :=
  r.missing.toList.map (fun e => txt "  " ++ e.1.display ++ txt ": " ++ debugSet idText e.2)

/-- `SessionReport::brief` (`transcript.rs:258-296`). -/
def brief (idText : sp.Id → Text) (resText : Res → Text) (r : TextReport sp Res) : Text :=
  txt "Result: " ++ r.outcome.brief resText
    ++ briefPart (txt "Provable errors:") (r.provableRows idText)
    ++ briefPart (txt "Unprovable errors:") (r.unprovableRows idText)
    ++ briefPart (txt "Missing messages:") (r.missingRows idText)

end TextReport

end Manul
