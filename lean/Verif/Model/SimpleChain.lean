import Verif.Model.Simple
import Verif.Model.Chain

/-!
# The example protocol `simple_chain`

Model of `/repo/examples/src/simple_chain.rs`: the protocol `simple` twice, in sequence.
-/

namespace Manul

/-- `DoubleSimpleProtocolTransition` (`simple_chain.rs:48-62`): keeps the ids and ignores the result. -/
def doubleSimpleJoin (sp : SP) (fmt : SimpleFormat) (checks : Bool) :
    ChainJoin (simple sp fmt checks).wrap (simple sp fmt checks).wrap where
  Data := BSet sp.Id
  entryRoundId := RoundId.new 1
  makeRound2 ids _ := (simpleEntry sp fmt checks ids).makeRound

/-- `DoubleSimpleProtocol` (`simple_chain.rs:13-21`). -/
def doubleSimple (sp : SP) (fmt : SimpleFormat) (checks : Bool) : Proto sp :=
  chain (simple sp fmt checks).wrap (simple sp fmt checks).wrap (doubleSimpleJoin sp fmt checks)

/-- `DoubleSimpleEntryPoint` (`simple_chain.rs:23-46`). -/
def doubleSimpleEntry (sp : SP) (fmt : SimpleFormat) (checks : Bool) (ids : BSet sp.Id) :
    EntryPoint (doubleSimple sp fmt checks) :=
  chainEntry (J := doubleSimpleJoin sp fmt checks) (simpleEntry sp fmt checks ids) ids

end Manul
