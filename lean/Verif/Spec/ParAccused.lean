import Verif.Spec.ParOpen
import Verif.Spec.Accused
import Verif.Spec.Equivocation

/-!
# Specification: how parties using `par_run_session` can be accused

The definitions of `Spec/Open`, `Spec/Equivocation` and `Spec/Accused`, with the sessions `par_run_session` goes through.
-/

namespace Manul

variable {sp : SP} {P : Proto sp}

/-- The broadcasts are those of the messages party `x` has sent to somebody in the round with the given id, and the direct
message was sent to somebody in the same round. -/
def ParSentTogether (g : Group P) (x : sp.Id) (rid : RoundId) (m : DynMsg) : Prop :=
  ∃ s, ParVisitedBy g x s ∧ s.transition.id = rid ∧ m.echo = s.echo.part ∧ m.normal = s.normal.part ∧
    ∃ dest rng art, s.comm.destinations.contains dest = true ∧ s.round.makeDirect rng dest = .ok (m.direct, art)

/-- Party `x` has sent the message in the round with the given id, except that the direct message may have been for somebody
else, and party `i` has refused it in a round that is not an echo round. -/
def ParRefused (g : Group P) (i x : sp.Id) : Prop :=
  ∃ s r m err, ParVisitedBy g i s ∧ s.round = .main r ∧ ParSentTogether g x s.transition.id m ∧ P.receive r x m = .error err

/-- The evidence has the echo broadcast `k` has really made in some round beside a hash signed by `k` for the same round that is
another one. -/
def ParMisquoted (g : Group P) (k : sp.Id) (s : Session P) (h : SignedHash) (ev : Evidence sp) : Prop :=
  ∃ w : SignedPart .echo, ParVisitedBy g k s ∧ ev = ⟨k, .mismatched k w h⟩ ∧ w.part = s.echo.part ∧
    w.metadata = ⟨g.sid, s.transition.id⟩ ∧ HashSigned k h ∧ h.metadata = ⟨g.sid, s.transition.id⟩ ∧
    h.hash ≠ sp.partHash s.echo.part

end Manul
