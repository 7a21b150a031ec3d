import Verif.Spec.Network
import Verif.Spec.Echo

/-!
# Specification: a network controlled by somebody else

The parties in `H` follow the protocol; everything else, including all delivery, is up to an adversary: messages can be lost,
duplicated, delayed, redirected, taken apart and put together again, attributed to anybody, and made up.  The only thing the
adversary cannot do is to forge signatures of the parties in `H`.
-/

namespace Manul

variable {sp : SP} {P : Proto sp}

/-- Signatures of the parties in `H` are not forged: whatever verifies under one of their keys for this session, they have
sent.  Nothing is required of parts signed by the others or for other sessions, of the signed hashes inside of echo messages,
and of whom the messages are attributed to. -/
structure Unforged (H : sp.Id → Prop) (sid : Bytes) (sent : List (Packet sp)) (d : SignedPart .direct) (e : SignedPart .echo)
    (n : SignedPart .normal) : Prop where
  direct : ∀ x, H x → SigValid x d → d.metadata.sessionId = sid →
    ∃ q ∈ sent, q.src = x ∧ q.message.direct.metadata = d.metadata ∧ q.message.direct.part = d.part
  echo : ∀ x, H x → SigValid x e → e.metadata.sessionId = sid →
    ∃ q ∈ sent, q.src = x ∧ q.message.echo.metadata = e.metadata ∧ q.message.echo.part = e.part
  normal : ∀ x, H x → SigValid x n → n.metadata.sessionId = sid →
    ∃ q ∈ sent, q.src = x ∧ q.message.normal.metadata = n.metadata ∧ q.message.normal.part = n.part

/-- The message is one the session makes. -/
structure MadeIn (s : Session P) (m : Message sp) : Prop where
  dest : s.comm.destinations.contains m.destination = true
  echo : m.echo = s.echo
  normal : m.normal = s.normal
  directMeta : m.direct.metadata = ⟨s.sessionId, s.transition.id⟩
  direct : ∃ rng art, s.round.makeDirect rng m.destination = .ok (m.direct.part, art)

/-- One step of the network.  Here the wire keeps all messages ever sent by the parties in `H`.  A party that fails while it
enters a round may have sent any of the messages of the round. -/
inductive OpenStep (g : Group P) (H : sp.Id → Prop) : Net P → Net P → Prop where
  | start {n : Net P} {i : sp.Id} (rng rng' : sp.Rng) : H i → n.node i = none →
      OpenStep g H n (n.put i (g.startNode i rng rng').1 (g.startNode i rng rng').2)
  | act {n : Net P} {i : sp.Id} {st st' : RunState P} {ev : Event sp} {out : List (Message sp)} : n.node i = some st →
      (∀ y m, ev = .deliver y m → Unforged H g.sid n.wire m.direct m.echo m.normal) → step st ev = some (st', out) →
      OpenStep g H n (n.put i st' out)
  | startFails {n : Net P} {i : sp.Id} {s₀ : Session P} {e : LErr} {out : List (Message sp)} (rng rng' : sp.Rng) : H i →
      n.node i = none → Session.new rng g.sid (g.signer i) (g.ep i) = .ok s₀ → startRound s₀ rng' [] = .error e →
      (∀ m ∈ out, MadeIn s₀ m) → OpenStep g H n (n.put i (.done (.error e)) out)
  | enterFails {n : Net P} {i : sp.Id} {s s' : Session P} {a : Accum P} {cached : List (VerifiedMessage sp)} {e : LErr}
      {out : List (Message sp)} (rng rng' : sp.Rng) : n.node i = some (.running s a) → a.canFinalize = .yes →
      s.finalizeRound rng a = .ok (.anotherRound s' cached) → startRound s' rng' cached = .error e →
      (∀ m ∈ out, MadeIn s' m) → OpenStep g H n (n.put i (.done (.error e)) out)

/-- Any number of steps. -/
inductive OpenSteps (g : Group P) (H : sp.Id → Prop) (n : Net P) : Net P → Prop where
  | refl : OpenSteps g H n n
  | step {n' n'' : Net P} : OpenSteps g H n n' → OpenStep g H n' n'' → OpenSteps g H n n''

/-- The session is one party `x` can be in when it follows the protocol. -/
def VisitedBy (g : Group P) (x : sp.Id) (s : Session P) : Prop :=
  ∃ rng s₀ trail cached, Session.new rng g.sid (g.signer x) (g.ep x) = .ok s₀ ∧ Visits s₀ trail s cached

/-- The packet is one party `x` sends in the round with the given id. -/
def OwnPacket (g : Group P) (x : sp.Id) (rid : RoundId) (q : Packet sp) : Prop :=
  q.src = x ∧ q.dest = q.message.destination ∧ ∃ s, VisitedBy g x s ∧ s.transition.id = rid ∧ MadeIn s q.message

/-- The three parts are ones party `x` has sent in the round with the given id, not necessarily in one message. -/
def SentIn (g : Group P) (sent : List (Packet sp)) (x : sp.Id) (rid : RoundId) (m : DynMsg) : Prop :=
  ∃ qe ∈ sent, ∃ qn ∈ sent, ∃ qd ∈ sent, OwnPacket g x rid qe ∧ OwnPacket g x rid qn ∧ OwnPacket g x rid qd ∧
    m = ⟨qe.message.echo.part, qn.message.normal.part, qd.message.direct.part⟩

/-- The broadcasts are those of the messages party `x` has sent to somebody in the round with the given id, and the direct
message was sent to somebody in the same round. -/
def SentTogether (g : Group P) (x : sp.Id) (rid : RoundId) (m : DynMsg) : Prop :=
  ∃ s, VisitedBy g x s ∧ s.transition.id = rid ∧ m.echo = s.echo.part ∧ m.normal = s.normal.part ∧
    ∃ dest rng art, s.comm.destinations.contains dest = true ∧ s.round.makeDirect rng dest = .ok (m.direct, art)

end Manul
