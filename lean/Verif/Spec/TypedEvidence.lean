import Verif.Spec.Evidence
import Verif.Spec.Order

/-!
# Specification: what the accessors of `EvidenceMessages` return
-/

namespace Manul

variable {sp : SP}

/-- The round value accepted the message. -/
def TypedProto.Accepts (T : TypedProto sp) (r : T.St) (x : sp.Id) (m : TypedMsg T.Val) : Prop := ∃ v, T.receive r x m = .ok v

/-- The errors a round raises survive serialization. -/
def ErrorsReadable (T : TypedProto sp) : Prop :=
  ∀ r x m e b, T.receive r x m = .error (.protocol e) → T.serErr e = .ok b → T.deErr (T.tag r) b = some e

/-- No round of the run expects a message from the party itself. -/
def NotToSelf {T : TypedProto sp} (s₀ : Session T.wrap) : Prop :=
  ∀ {trail s cached r}, Visits s₀ trail s cached → s.round = .main r → (T.comm r).expecting.contains s₀.me = false

/-- What an accessor for a part returns: the value if the part was asked for, an error otherwise. -/
def answer {V : Type} (b : Bool) (v : V) : Except EvErr V := if b then .ok v else .error .invalid

/-- `direct_message`, `echo_broadcast` and `normal_broadcast` return the parts of the message that were asked for. -/
structure ShowsThis (T : TypedProto sp) (r : T.St) (tm : TypedMsg T.Val) (rp : RequiredParts) (m : EvMsg) : Prop where
  direct : T.evPart (T.tag r) m.direct = answer rp.direct tm.direct
  echo : T.evPart (T.tag r) m.echo = answer rp.echo tm.echo
  normal : T.evPart (T.tag r) m.normal = answer rp.normal tm.normal

/-- `previous_direct_message`, `previous_echo_broadcast` and `previous_normal_broadcast` return the parts asked for of the
message that the earlier round accepted from the party. -/
def ShowsPrevious (T : TypedProto sp) (trail : List (Session T.wrap × Accum T.wrap)) (x : sp.Id) (req : RequiredMessages)
    (prev : BMap RoundId EvMsg) : Prop :=
  ∀ n all rp, req.previous = some all → all.get? (RoundId.new n) = some rp → rp.some? = true →
    ∃ q ∈ trail, ∃ r tm, q.1.round = .main r ∧ (T.transition r).id = RoundId.new n ∧ T.Accepts r x tm ∧
      T.evPreviousDirect (T.tag r) prev n = answer rp.direct tm.direct ∧
      T.evPreviousEcho (T.tag r) prev n = answer rp.echo tm.echo ∧
      T.evPreviousNormal (T.tag r) prev n = answer rp.normal tm.normal

/-- `combined_echos` returns the echo broadcasts of the earlier round, of all its senders except the party: those the round
accepted and the own one. -/
def ShowsCombined (T : TypedProto sp) (trail : List (Session T.wrap × Accum T.wrap)) (me x : sp.Id) (req : RequiredMessages)
    (comb : BMap RoundId (BMap sp.Id (Part .echo))) : Prop :=
  ∀ n all, req.combined = some all → all.contains (RoundId.new n) = true →
    ∃ q ∈ trail, ∃ r info m, q.1.round = .main r ∧ (T.transition r).id = RoundId.new n ∧ q.1.echoInfo = some info ∧
      T.evCombined (T.tag r) comb n = .ok m ∧
      (∀ k, m.contains k = true ↔ info.expectedEchos.contains k = true ∧ k ≠ x) ∧
      ∀ k v, m.get? k = some v → (k = me ∧ T.readPart (T.tag r) q.1.echo.part = some v) ∨
        ∃ tm, T.Accepts r k tm ∧ tm.echo = v

/-- The run got everything that is asked for: the parts of earlier messages asked for are of types that are sent, in rounds that
expected a message from the party, and the echo rounds of the rounds asked for expected a message from it. -/
structure Obtained (T : TypedProto sp) (trail : List (Session T.wrap × Accum T.wrap)) (x : sp.Id) (req : RequiredMessages) :
    Prop where
  previous : ∀ all rid rp, req.previous = some all → all.get? rid = some rp → rp.some? = true →
    ∃ q ∈ trail, ∃ r, q.1.round = .main r ∧ (T.transition r).id = rid ∧ (T.comm r).expecting.contains x = true ∧
      (rp.direct = true → (T.de (T.tag r) .direct).isSome = true) ∧ (rp.echo = true → (T.de (T.tag r) .echo).isSome = true) ∧
      (rp.normal = true → (T.de (T.tag r) .normal).isSome = true)
  combined : ∀ all rid, req.combined = some all → all.contains rid = true →
    ∃ q ∈ trail, ∃ e, q.1.round = .echo e ∧ (T.transition e.main).id = rid ∧ e.info.expecting.contains x = true

end Manul
