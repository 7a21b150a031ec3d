import Verif.Spec.MixByzantine
import Verif.Spec.ParAccused
import Verif.Spec.ParLockStep

/-!
# Specification: parties using either driver in a network controlled by an adversary

The networks of `Spec/Open` and `Spec/ParOpen`, with parties using `run_session` or `par_run_session` as they like.
-/

namespace Manul

variable {sp : SP} {P : Proto sp}

/-- One step of the network.  The parties in `H` follow the protocol, those with `par i` using `par_run_session`.  The wire keeps all
messages ever sent by them. -/
inductive MixOpenStep (g : Group P) (H : sp.Id → Prop) (par : sp.Id → Bool) : MixNet P → MixNet P → Prop where
  | startSeq {n : MixNet P} {i : sp.Id} (rng rng' : sp.Rng) : H i → par i = false → n.node i = none →
      MixOpenStep g H par n (n.put i (.seq (g.startNode i rng rng').1) (g.startNode i rng rng').2)
  | actSeq {n : MixNet P} {i : sp.Id} {st st' : RunState P} {ev : Event sp} {out : List (Message sp)} :
      n.node i = some (.seq st) → (∀ y m, ev = .deliver y m → Unforged H g.sid n.wire m.direct m.echo m.normal) →
      step st ev = some (st', out) → MixOpenStep g H par n (n.put i (.seq st') out)
  | startFails {n : MixNet P} {i : sp.Id} {s₀ : Session P} {e : LErr} {out : List (Message sp)} (rng rng' : sp.Rng) : H i →
      par i = false → n.node i = none → Session.new rng g.sid (g.signer i) (g.ep i) = .ok s₀ → startRound s₀ rng' [] = .error e →
      (∀ m ∈ out, MadeIn s₀ m) → MixOpenStep g H par n (n.put i (.seq (.done (.error e))) out)
  | enterFails {n : MixNet P} {i : sp.Id} {s s' : Session P} {a : Accum P} {cached : List (VerifiedMessage sp)} {e : LErr}
      {out : List (Message sp)} (rng rng' : sp.Rng) : n.node i = some (.seq (.running s a)) → a.canFinalize = .yes →
      s.finalizeRound rng a = .ok (.anotherRound s' cached) → startRound s' rng' cached = .error e →
      (∀ m ∈ out, MadeIn s' m) → MixOpenStep g H par n (n.put i (.seq (.done (.error e))) out)
  | startPar {n : MixNet P} {i : sp.Id} (rng rng' : sp.Rng) : H i → par i = true → n.node i = none →
      MixOpenStep g H par n (n.put i (.par (g.startPar i rng rng')) [])
  | actPar {n : MixNet P} {i : sp.Id} {s : Session P} {st : ParSt P} {st' : ParState P} {ev : ParEvent sp}
      {out : List (Message sp)} : n.node i = some (.par (.running s st)) →
      (∀ y m, ev = .op (.deliver y m) → Unforged H g.sid n.wire m.direct m.echo m.normal) →
      parStep (.running s st) ev = some st' → (∀ m ∈ out, ∃ o ∈ st.outgoing, taskMessage o = some m) →
      MixOpenStep g H par n (n.put i (.par st') out)

/-- Any number of steps. -/
inductive MixOpenSteps (g : Group P) (H : sp.Id → Prop) (par : sp.Id → Bool) (n : MixNet P) : MixNet P → Prop where
  | refl : MixOpenSteps g H par n n
  | step {n' n'' : MixNet P} : MixOpenSteps g H par n n' → MixOpenStep g H par n' n'' → MixOpenSteps g H par n n''

/-- The session is one party `x` can be in when it follows the protocol using its driver. -/
def MixVisitedBy (g : Group P) (par : sp.Id → Bool) (x : sp.Id) (s : Session P) : Prop :=
  (par x = false ∧ VisitedBy g x s) ∨ (par x = true ∧ ParVisitedBy g x s)

/-- The packet is one party `x` sends in the round with the given id. -/
def MixOwnPacket (g : Group P) (par : sp.Id → Bool) (x : sp.Id) (rid : RoundId) (q : Packet sp) : Prop :=
  q.src = x ∧ q.dest = q.message.destination ∧ ∃ s, MixVisitedBy g par x s ∧ s.transition.id = rid ∧ MadeIn s q.message

/-- The three parts are ones party `x` has sent in the round with the given id, not necessarily in one message. -/
def MixSentIn (g : Group P) (par : sp.Id → Bool) (sent : List (Packet sp)) (x : sp.Id) (rid : RoundId) (m : DynMsg) : Prop :=
  ∃ qe ∈ sent, ∃ qn ∈ sent, ∃ qd ∈ sent, MixOwnPacket g par x rid qe ∧ MixOwnPacket g par x rid qn ∧ MixOwnPacket g par x rid qd ∧
    m = ⟨qe.message.echo.part, qn.message.normal.part, qd.message.direct.part⟩

/-- The broadcasts are those of the messages party `x` has sent to somebody in the round with the given id, and the direct
message was sent to somebody in the same round. -/
def MixSentTogether (g : Group P) (par : sp.Id → Bool) (x : sp.Id) (rid : RoundId) (m : DynMsg) : Prop :=
  ∃ s, MixVisitedBy g par x s ∧ s.transition.id = rid ∧ m.echo = s.echo.part ∧ m.normal = s.normal.part ∧
    ∃ dest rng art, s.comm.destinations.contains dest = true ∧ s.round.makeDirect rng dest = .ok (m.direct, art)

/-- Party `x` has sent the message in the round with the given id, except that the direct message may have been for somebody
else, and party `i` has refused it in a round that is not an echo round. -/
def MixRefused (g : Group P) (par : sp.Id → Bool) (i x : sp.Id) : Prop :=
  ∃ s r m err, MixVisitedBy g par i s ∧ s.round = .main r ∧ MixSentTogether g par x s.transition.id m ∧
    P.receive r x m = .error err

/-- The evidence has the echo broadcast `k` has really made in some round beside a hash signed by `k` for the same round that is
another one. -/
def MixMisquoted (g : Group P) (par : sp.Id → Bool) (k : sp.Id) (s : Session P) (h : SignedHash) (ev : Evidence sp) : Prop :=
  ∃ w : SignedPart .echo, MixVisitedBy g par k s ∧ ev = ⟨k, .mismatched k w h⟩ ∧ w.part = s.echo.part ∧
    w.metadata = ⟨g.sid, s.transition.id⟩ ∧ HashSigned k h ∧ h.metadata = ⟨g.sid, s.transition.id⟩ ∧
    h.hash ≠ sp.partHash s.echo.part

/-- The party has been in this round, or is in it, or has ended. -/
def MixHasEntered (n : MixNet P) (x : sp.Id) (id : RoundId) : Prop :=
  ∃ st, n.node x = some st ∧ ((∃ s a, st.inRound = some (s, a) ∧ (s.transition.id = id ∨ Passed s id)) ∨ ∃ r, st.report = some r)

/-- Whatever round party `i` may be in, it expects a message from party `x`. -/
def MixAlwaysExpects (g : Group P) (par : sp.Id → Bool) (i x : sp.Id) : Prop :=
  ∀ s, MixVisitedBy g par i s → s.comm.expecting.contains x = true

end Manul
