import Verif.Model.Simple
import Verif.Model.Misbehave

/-!
# Misbehaviour in the example protocol `simple`

Model of the tests in `/repo/examples/src/simple_test.rs`.  The number of parties, the session parameters and the wire format are
arbitrary.
-/

namespace Manul

/-- `Round1InvalidDirectMessage` and `Round2InvalidDirectMessage` (`simple_test.rs:34-55,67-88`): instead of the position of the
destination, that of the sender is sent. -/
def wrongPosition (sp : SP) (fmt : SimpleFormat) (checks : Bool) : Ext (simple sp fmt checks).wrap :=
  { Ext.default (simple sp fmt checks).wrap with
    makeDirect := fun r _ _ =>
      match r with
      | SimpleSt.r1 c =>
        match c.position c.id with
        | .error e => .error e
        | .ok my =>
          match (simple sp fmt checks).newPart .direct SimpleTag.r1 (SimpleVal.message1 my my) with
          | .error e => .error e
          | .ok p => .ok (p, ())
      | SimpleSt.r2 _ c =>
        match c.position c.id with
        | .error e => .error e
        | .ok my =>
          match (simple sp fmt checks).newPart .direct SimpleTag.r2 (SimpleVal.message2 my my) with
          | .error e => .error e
          | .ok p => .ok (p, ()) }

/-- `make_entry_points` (`simple_test.rs:17-30`). -/
def simpleEntries (sp : SP) (fmt : SimpleFormat) (checks : Bool) (ids : BSet sp.Id) (signers : List sp.Signer) :
    List (sp.Signer × EntryPoint (simple sp fmt checks).wrap) :=
  signers.map (fun s => (s, simpleEntry sp fmt checks ids))

end Manul
