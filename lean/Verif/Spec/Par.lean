import Verif.Model.Par
import Verif.Spec.Ops

/-!
# Specification: rounds executed by the two drivers
-/

namespace Manul

variable {sp : SP} {P : Proto sp}

/-- The messages delivered in a schedule of the parallel driver, in order of arrival. -/
def parDeliveries : List (ParOp sp) → List (sp.Id × Message sp)
  | [] => []
  | .deliver x m :: l => (x, m) :: parDeliveries l
  | _ :: l => parDeliveries l

/-- A round of the parallel driver up to the end of its loop: it starts with the cached messages and goes through `ops`. -/
def ParRound (s : Session P) (rng : sp.Rng) (cached : List (VerifiedMessage sp)) (ops : List (ParOp sp))
    (st : ParSt P) : Prop :=
  foldE (parOp s) (ParSt.begin s rng cached) ops = .ok st

/-- A round of the sequential driver up to the end of its loop: send everything, apply the cached messages, then the incoming
ones. -/
def SeqRound (s : Session P) (rng : sp.Rng) (cached : List (VerifiedMessage sp)) (l : List (sp.Id × Message sp))
    (b : Accum P) : Prop :=
  ∃ a out, startRound s rng cached = .ok (a, out) ∧ Deliveries s a l b

/-- The environment does not overtake the processing of an incorrect message, and does not send two messages for the same round:
if a message arrives while one of the same party is being processed, then the processing will succeed, and the new message is
not one for this round; a message accepted for this round is the first one of an expected party. -/
def OrderlyOp (s : Session P) (st : ParSt P) : ParOp sp → Prop
  | .deliver x m =>
    (∀ vm ∈ st.tasks, vm.sender = x → ∃ v, (s.process vm).result = .ok v) ∧
      ∀ a vm, s.preprocess st.accum x m = .ok (a, .toProcess vm) →
        st.accum.notSent.contains x = true ∧ ∀ vm ∈ st.tasks, vm.sender ≠ x
  | _ => True

/-- The same for all events.  When the loop of a round ends by itself, no message of a party that is not expected is being
processed; when it is cancelled, no message at all is. -/
def OrderlyEvent (s : Session P) (st : ParSt P) : ParEvent sp → Prop
  | .op o => OrderlyOp s st o
  | .tick _ => ∀ vm ∈ st.tasks, s.comm.expecting.contains vm.sender = true
  | .cancel => st.tasks = []
  | .close => True

/-- The states of `par_run_session`, from the session object `s₀`, when the environment is orderly. -/
inductive ParReach (s₀ : Session P) : ParState P → Prop where
  | start (rng : sp.Rng) : ParReach s₀ (.running s₀ (ParSt.begin s₀ rng []))
  | step {s : Session P} {st : ParSt P} {st' : ParState P} {ev : ParEvent sp} :
      ParReach s₀ (.running s st) → OrderlyEvent s st ev → parStep (.running s st) ev = some st' → ParReach s₀ st'

end Manul
