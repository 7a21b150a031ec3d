import Verif.Model.ParNet
import Verif.Spec.Open

/-!
# Specification: `par_run_session` in an arbitrary environment

Unlike in `Spec/Par`, nothing is required of the messages that arrive and of the order in which the tasks finish.  The network is
that of `Spec/Open`, with parties using `par_run_session`.
-/

namespace Manul

variable {sp : SP} {P : Proto sp}

/-- The states of `par_run_session`, from the session object `s₀`, in any environment. -/
inductive ParAny (s₀ : Session P) : ParState P → Prop where
  | start (rng : sp.Rng) : ParAny s₀ (.running s₀ (ParSt.begin s₀ rng []))
  | step {s : Session P} {st : ParSt P} {st' : ParState P} {ev : ParEvent sp} :
      ParAny s₀ (.running s st) → parStep (.running s st) ev = some st' → ParAny s₀ st'

/-- One step of the network.  The wire keeps all messages ever sent by the parties in `H`.  In each step a party may have sent any
of the messages its creation tasks have made. -/
inductive POpenStep (g : Group P) (H : sp.Id → Prop) : PNet P → PNet P → Prop where
  | start {n : PNet P} {i : sp.Id} (rng rng' : sp.Rng) : H i → n.node i = none →
      POpenStep g H n (n.put i (g.startPar i rng rng') [])
  | act {n : PNet P} {i : sp.Id} {s : Session P} {st : ParSt P} {st' : ParState P} {ev : ParEvent sp} {out : List (Message sp)} :
      n.node i = some (.running s st) →
      (∀ y m, ev = .op (.deliver y m) → Unforged H g.sid n.wire m.direct m.echo m.normal) →
      parStep (.running s st) ev = some st' → (∀ m ∈ out, ∃ o ∈ st.outgoing, taskMessage o = some m) →
      POpenStep g H n (n.put i st' out)

/-- Any number of steps. -/
inductive POpenSteps (g : Group P) (H : sp.Id → Prop) (n : PNet P) : PNet P → Prop where
  | refl : POpenSteps g H n n
  | step {n' n'' : PNet P} : POpenSteps g H n n' → POpenStep g H n' n'' → POpenSteps g H n n''

/-- The session is one party `x` can be in when it follows the protocol using `par_run_session`. -/
def ParVisitedBy (g : Group P) (x : sp.Id) (s : Session P) : Prop :=
  ∃ rng s₀ st, Session.new rng g.sid (g.signer x) (g.ep x) = .ok s₀ ∧ ParAny s₀ (.running s st)

/-- The packet is one party `x` sends in the round with the given id. -/
def ParOwnPacket (g : Group P) (x : sp.Id) (rid : RoundId) (q : Packet sp) : Prop :=
  q.src = x ∧ q.dest = q.message.destination ∧ ∃ s, ParVisitedBy g x s ∧ s.transition.id = rid ∧ MadeIn s q.message

/-- The three parts are ones party `x` has sent in the round with the given id, not necessarily in one message. -/
def ParSentIn (g : Group P) (sent : List (Packet sp)) (x : sp.Id) (rid : RoundId) (m : DynMsg) : Prop :=
  ∃ qe ∈ sent, ∃ qn ∈ sent, ∃ qd ∈ sent, ParOwnPacket g x rid qe ∧ ParOwnPacket g x rid qn ∧ ParOwnPacket g x rid qd ∧
    m = ⟨qe.message.echo.part, qn.message.normal.part, qd.message.direct.part⟩

end Manul
