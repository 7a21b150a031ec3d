import Verif.Spec.ParOpen
import Verif.Spec.Traced

/-!
# Specification: what is given to a party using `par_run_session`
-/

namespace Manul

variable {sp : SP} {P : Proto sp}

/-- A run of `par_run_session` in any environment, with all messages given to it in order. -/
inductive ParVia (s₀ : Session P) : List (Delivery P) → ParState P → Prop where
  | start (rng : sp.Rng) : ParVia s₀ [] (.running s₀ (ParSt.begin s₀ rng []))
  | step {l : List (Delivery P)} {s : Session P} {st : ParSt P} {st' : ParState P} {ev : ParEvent sp} :
      ParVia s₀ l (.running s st) → (∀ x m, ev ≠ .op (.deliver x m)) → parStep (.running s st) ev = some st' → ParVia s₀ l st'
  | deliver {l : List (Delivery P)} {s : Session P} {st : ParSt P} {st' : ParState P} {x : sp.Id} {m : Message sp} :
      ParVia s₀ l (.running s st) → parStep (.running s st) (.op (.deliver x m)) = some st' →
      ParVia s₀ (l ++ [⟨s, st.accum, x, m⟩]) st'

/-- The session objects of the rounds of a run of `par_run_session`. -/
def ParInRun (s₀ s : Session P) : Prop := ∃ st, ParAny s₀ (.running s st)

/-- Any number of steps of `par_run_session`. -/
inductive ParLeads : ParState P → ParState P → Prop where
  | refl {st : ParState P} : ParLeads st st
  | step {st st' st'' : ParState P} {ev : ParEvent sp} : ParLeads st st' → parStep st' ev = some st'' → ParLeads st st''

end Manul
