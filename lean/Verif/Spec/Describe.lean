import Verif.Model.Describe

/-!
# Specification of descriptions and printed reports
-/

namespace Manul

/-- The kinds of provable offences. -/
inductive Offence where
  | protocol | direct | echoBroadcast | normal | invalidEcho | mismatched
deriving DecidableEq

/-- The kind of offence that a piece of evidence proves. -/
def EvBody.offence {sp : SP} : EvBody sp → Offence
  | .protocol _ => .protocol
  | .invalidDirect _ => .direct
  | .invalidEchoBroadcast _ => .echoBroadcast
  | .invalidNormal _ => .normal
  | .invalidEcho _ _ => .invalidEcho
  | .mismatched _ _ _ => .mismatched

/-- The kind of offence, read from the first letter of a description. -/
def readOffence : Text → Option Offence
  | 'P' :: _ => some .protocol
  | 'D' :: _ => some .direct
  | 'E' :: _ => some .echoBroadcast
  | 'N' :: _ => some .normal
  | 'I' :: _ => some .invalidEcho
  | 'T' :: _ => some .mismatched
  | _ => none

/-- Identifiers that can be told apart in a printed report: different identifiers are printed differently, and their
texts are not empty and have no colon, comma or line break. -/
structure PlainIds {Id : Type} (idText : Id → Text) : Prop where
  inj : ∀ i j, idText i = idText j → i = j
  nonempty : ∀ i, idText i ≠ []
  plain : ∀ i, ∀ c ∈ idText i, c ≠ ':' ∧ c ≠ ',' ∧ c ≠ '\n'

/-- A text in one line. -/
def OneLine (t : Text) : Prop := '\n' ∉ t

/-- All texts of a report are in one line. -/
structure TextReport.OneLined {sp : SP} {Res : Type} (resText : Res → Text) (r : TextReport sp Res) : Prop where
  result : ∀ x, r.outcome = .result x → OneLine (resText x)
  provable : ∀ i d, r.provable.get? i = some d → OneLine d.description
  unprovable : ∀ i d, r.unprovable.get? i = some d → OneLine d

/-- What a reader wants to learn from a printed report: the outcome, who is accused of what, and who sent nothing. -/
structure SameNews {sp : SP} {Res : Type} (resText : Res → Text) (r r' : TextReport sp Res) : Prop where
  outcome : (∃ x y, r.outcome = .result x ∧ r'.outcome = .result y ∧ resText x = resText y) ∨
    (r.outcome = .notEnoughMessages ∧ r'.outcome = .notEnoughMessages) ∨
    (r.outcome = .terminated ∧ r'.outcome = .terminated)
  provable : ∀ i, (r.provable.get? i).map (·.description) = (r'.provable.get? i).map (·.description)
  unprovable : ∀ i, r.unprovable.get? i = r'.unprovable.get? i
  missing : ∀ rd i, i ∈ ((r.missing.get? rd).map BSet.elems).getD [] ↔ i ∈ ((r'.missing.get? rd).map BSet.elems).getD []

/-- The lines of a printed report. -/
def reportLines {sp : SP} {Res : Type} (idText : sp.Id → Text) (resText : Res → Text) (r : TextReport sp Res) :
    List Text :=
  [txt "Result: " ++ r.outcome.brief resText] ++
  (if r.provable.toList.isEmpty then [] else [txt "Provable errors:"] ++
    r.provable.toList.map (fun e => txt "  " ++ idText e.1 ++ txt ": " ++ e.2.description)) ++
  (if r.unprovable.toList.isEmpty then [] else [txt "Unprovable errors:"] ++
    r.unprovable.toList.map (fun e => txt "  " ++ idText e.1 ++ txt ": Remote error: " ++ e.2)) ++
  (if r.missing.toList.isEmpty then [] else [txt "Missing messages:"] ++
    r.missing.toList.map (fun e => txt "  " ++ e.1.display ++ txt ": " ++ debugSet idText e.2))

end Manul
