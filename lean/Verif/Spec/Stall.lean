import Verif.Spec.Byzantine

/-!
# Specification: networks in which the parties following the protocol can do nothing more by themselves
-/

namespace Manul

variable {sp : SP} {P : Proto sp}

/-- The parties following the protocol are stuck: all of them have started, none of them can finish its round or give up, and everything
they have sent to each other has arrived (unless the recipient has ended). -/
structure Stalled (H : sp.Id → Prop) (n : Net P) : Prop where
  started : ∀ i, H i → n.node i ≠ none
  delivered : ∀ p ∈ n.wire, H p.src → ∀ s a, n.node p.dest ≠ some (.running s a)
  stuck : ∀ i s a, n.node i = some (.running s a) → a.canFinalize = .notYet

/-- Party `i` is in a round in which it expects a message from `x`, and has accepted none. -/
def WaitsFor (n : Net P) (i x : sp.Id) : Prop :=
  ∃ s a, n.node i = some (.running s a) ∧ s.comm.expecting.contains x = true ∧ a.payloads.get? x = none ∧
    a.notSent.contains x = true

/-- Party `i` has ended, and its report has an entry against `x`. -/
def Accuses (n : Net P) (i x : sp.Id) : Prop :=
  ∃ rep, n.node i = some (.done (.ok rep)) ∧ (rep.provable.contains x = true ∨ rep.unprovable.contains x = true)

/-- Party `i` has ended with a local error (or a panic). -/
def Failed (n : Net P) (i : sp.Id) : Prop := ∃ er, n.node i = some (.done (.error er))

/-- Party `i` has ended with a result. -/
def Succeeded (n : Net P) (i : sp.Id) : Prop := ∃ rep v, n.node i = some (.done (.ok rep)) ∧ rep.outcome = .result v

/-- A result is returned in the last stage of the plan only. -/
def ResultsLast (pl : Plan P) (H : sp.Id → Prop) : Prop :=
  ∀ G i rng v, HonestAmong pl.g H G → H i → FinalizesAmong H G i rng (.result v) → (G i).length = pl.n

end Manul
