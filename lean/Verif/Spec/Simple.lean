import Verif.Model.Simple
import Verif.Spec.Network

/-! # Specification of the example protocol `simple` -/

namespace Manul

/-- Messages are serialized and deserialized to themselves. -/
def SimpleFormat.Lawful (fmt : SimpleFormat) : Prop := ∀ v, ∃ b, fmt.ser v = .ok b ∧ fmt.de v.ty b = some v

/-- Deserialized messages have the type asked for. -/
def SimpleFormat.Typed (fmt : SimpleFormat) : Prop := ∀ ty b v, fmt.de ty b = some v → v.ty = ty

/-- The unit error types are serialized, and deserialized again. -/
def SimpleFormat.UnitReads (fmt : SimpleFormat) : Prop := ∃ b, fmt.serUnit = .ok b ∧ fmt.deUnit b = some ()

/-- The message has the parts of the messages of the round; the direct message names the two positions. -/
def SimpleMessage {sp : SP} (fmt : SimpleFormat) (m : Message sp) (my your : U8) : SimpleTag → Prop
  | .r1 => (∃ b, m.direct.part.payload = some b ∧ fmt.de .message1 b = some (.message1 my your)) ∧
      (∃ b v, m.echo.part.payload = some b ∧ fmt.de .echo1 b = some v) ∧
      ∃ b v, m.normal.part.payload = some b ∧ fmt.de .broadcast1 b = some v
  | .r2 => (∃ b, m.direct.part.payload = some b ∧ fmt.de .message2 b = some (.message2 my your)) ∧
      m.echo.part.payload = none ∧ m.normal.part.payload = none

/-- The position of a party in the list of ids. -/
def HasPosition {sp : SP} (ids : BSet sp.Id) (i : sp.Id) (n : U8) : Prop :=
  ∃ k, ids.elems[k]? = some i ∧ n = Fin.ofNat 256 k

/-- All parties execute the protocol with the given ids. -/
def simpleGroup (sp : SP) (fmt : SimpleFormat) (checks : Bool) (ids : BSet sp.Id) (signer : sp.Id → sp.Signer) (sid : Bytes) :
    Group (simple sp fmt checks).wrap where
  parties := ids
  signer := signer
  ep _ := simpleEntry sp fmt checks ids
  sid := sid

/-- The number of parties. -/
def partyCount {sp : SP} (ids : BSet sp.Id) : Nat := ids.elems.length

/-- The plan of the execution: two rounds, everybody to everybody; the first one has an echo broadcast if there is anybody to
send it to. -/
def simplePlan (sp : SP) (fmt : SimpleFormat) (checks : Bool) (ids : BSet sp.Id) (signer : sp.Id → sp.Signer) (sid : Bytes) :
    Plan (simple sp fmt checks).wrap :=
  Plan.allToAll (simpleGroup sp fmt checks ids signer sid) (fun k => RoundId.new (Fin.ofNat 256 (k + 1)))
    (fun k => decide (k = 0 ∧ 2 ≤ partyCount ids)) 2

end Manul
