import Verif.Spec.Byzantine
import Verif.Spec.Open

/-!
# Specification: how far apart the parties are
-/

namespace Manul

variable {sp : SP} {P : Proto sp}

/-! ## Any protocol -/

/-- The session has left this round: it is in the transcript. -/
def Passed (s : Session P) (id : RoundId) : Prop := s.transcript.echos.contains id = true

/-- The party has been in this round, or is in it, or has ended. -/
def HasEntered (n : Net P) (x : sp.Id) (id : RoundId) : Prop :=
  (∃ s a, n.node x = some (.running s a) ∧ (s.transition.id = id ∨ Passed s id)) ∨ ∃ r, n.node x = some (.done r)

/-- Whatever round party `i` may be in, it expects a message from party `x`. -/
def AlwaysExpects (g : Group P) (i x : sp.Id) : Prop := ∀ s, VisitedBy g i s → s.comm.expecting.contains x = true

/-! ## Protocols following a plan -/

/-- The round with the second id comes right after the one with the first: the echo round of a stage after its main round, and the
main round of the next stage after the echo round or, if there is none, after the main round. -/
inductive Plan.Follows (pl : Plan P) : RoundId → RoundId → Prop where
  | echo {k : Nat} {id : RoundId} : k < pl.n → pl.echoAt k = true → (pl.rid k).echo = .ok id → pl.Follows (pl.rid k) id
  | main {k : Nat} : k + 1 < pl.n → pl.echoAt k = false → pl.Follows (pl.rid k) (pl.rid (k + 1))
  | afterEcho {k : Nat} {id : RoundId} : k + 1 < pl.n → pl.echoAt k = true → (pl.rid k).echo = .ok id →
      pl.Follows id (pl.rid (k + 1))

/-- All parts of the message are signed for the given round. -/
structure ForRound (id : RoundId) (m : Message sp) : Prop where
  direct : m.direct.metadata.roundId = id
  echo : m.echo.metadata.roundId = id
  normal : m.normal.metadata.roundId = id

end Manul
