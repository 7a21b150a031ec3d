import Verif.Spec.Bans
import Verif.Spec.Charges
import Verif.Spec.Echo

/-!
# Specification: what evidence is made of
-/

namespace Manul

variable {sp : SP} {P : Proto sp}

/-- The part was in a message given to the session in the name of `x`, which `x` has signed for the session and the round. -/
def Given (l : List (Delivery P)) (x : sp.Id) (sid : Bytes) (rid : RoundId) {k : PartKind} (p : SignedPart k) : Prop :=
  ∃ d ∈ l, d.sender = x ∧ Authentic x sid rid d.message.direct d.message.echo d.message.normal ∧ d.message.signed k = p

/-- The part is the echo broadcast the session itself has made in the round; `x` is the party executing the session. -/
def OwnEcho (V : Session P → Prop) (s₀ : Session P) (x : sp.Id) (rid : RoundId) (p : SignedPart .echo) : Prop :=
  x = s₀.me ∧ ∃ s, V s ∧ s.transition.id = rid ∧ s.echo = p

/-- An echo broadcast of `x` for the round: the own one, or the one given to the session. -/
def EchoGiven (V : Session P → Prop) (s₀ : Session P) (l : List (Delivery P)) (x : sp.Id) (rid : RoundId) (p : SignedPart .echo) : Prop :=
  (x ≠ s₀.me ∧ Given l x s₀.sessionId rid p) ∨ OwnEcho V s₀ x rid p

/-- A part that was given to the session in the name of `x`, signed by `x` for a round of the session, or, for echo broadcasts, one
that the session has made itself as `x`. -/
def PartOf (V : Session P → Prop) (s₀ : Session P) (l : List (Delivery P)) (x : sp.Id) (rid : RoundId) : (k : PartKind) → SignedPart k → Prop
  | .echo, p => Given l x s₀.sessionId rid p ∨ OwnEcho V s₀ x rid p
  | .normal, p => Given l x s₀.sessionId rid p
  | .direct, p => Given l x s₀.sessionId rid p

/-- A message was given to the session in the name of `x`, which `x` has signed for a round of the session, and this round has
refused it. -/
def RefusedIn (V : Session P → Prop) (s₀ s : Session P) (l : List (Delivery P)) (x : sp.Id) (m : Message sp) (err : RecvErr sp) : Prop :=
  (∃ d ∈ l, d.sender = x ∧ d.message = m) ∧ V s ∧
    Authentic x s₀.sessionId s.transition.id m.direct m.echo m.normal ∧
    s.round.receive x ⟨m.echo.part, m.normal.part, m.direct.part⟩ = .error err

/-- What evidence of a protocol error in the message `m` of `x` contains. -/
structure ProtocolEvidence.Gathered (V : Session P → Prop) (s₀ : Session P) (l : List (Delivery P)) (x : sp.Id) (m : Message sp)
    (req : RequiredMessages) (e : ProtocolEvidence sp) : Prop where
  direct : e.direct = if req.thisRound.direct then some m.direct else none
  echo : e.echo = if req.thisRound.echo then some m.echo else none
  normal : e.normal = if req.thisRound.normal then some m.normal else none
  directs : ∀ r p, e.directs.get? r = some p → Given l x s₀.sessionId r p
  normals : ∀ r p, e.normals.get? r = some p → Given l x s₀.sessionId r p
  echos : ∀ r p, e.echos.get? r = some p → EchoGiven V s₀ l x r p
  otherEchos : ∀ r b y p, e.otherEchos.get? r = some b → b.get? y = some p → y ≠ x ∧ EchoGiven V s₀ l y r p
  echoHashes : ∀ r p, e.echoHashes.get? r = some p → ∃ re, r.echo = .ok re ∧ Given l x s₀.sessionId re p

/-- Where evidence comes from that is listed under party `x`, if `l` are the messages that have been given to the session. -/
inductive Traced (V : Session P → Prop) (s₀ : Session P) (l : List (Delivery P)) (x : sp.Id) : Evidence sp → Prop where
  | direct {s : Session P} {m : Message sp} : RefusedIn V s₀ s l x m .invalidDirect → Traced V s₀ l x ⟨x, .invalidDirect m.direct⟩
  | echo {s : Session P} {m : Message sp} : RefusedIn V s₀ s l x m .invalidEcho → Traced V s₀ l x ⟨x, .invalidEchoBroadcast m.echo⟩
  | normal {s : Session P} {m : Message sp} : RefusedIn V s₀ s l x m .invalidNormal → Traced V s₀ l x ⟨x, .invalidNormal m.normal⟩
  | protocol {s : Session P} {m : Message sp} {req : RequiredMessages} {e : ProtocolEvidence sp} :
      RefusedIn V s₀ s l x m (.protocol req (.ok e.error)) → e.Gathered V s₀ l x m req → Traced V s₀ l x ⟨x, .protocol e⟩
  /-- an entry of the message of the echo round is not a hash signed by `y` for the main round -/
  | invalidEcho {s : Session P} {m : Message sp} {y : sp.Id} {main : RoundId} {w : SignedPart .echo} {pack : EchoPack sp}
      {h : SignedHash} : RefusedIn V s₀ s l x m (.echo (.invalidEcho y)) → main.echo = .ok s.transition.id →
      Decodes m.normal.part pack → pack.get? y = some h → EchoGiven V s₀ l y main w →
      ¬ HashSigned y h ∨ h.metadata ≠ w.metadata → Traced V s₀ l x ⟨x, .invalidEcho m.normal y⟩
  /-- an entry of the message of the echo round is the hash of another broadcast of `y` than the one given to the session -/
  | mismatched {s : Session P} {m : Message sp} {y : sp.Id} {main : RoundId} {w : SignedPart .echo} {pack : EchoPack sp}
      {h : SignedHash} : RefusedIn V s₀ s l x m (.echo (.mismatched y w h)) → main.echo = .ok s.transition.id →
      Decodes m.normal.part pack → pack.get? y = some h → EchoGiven V s₀ l y main w → HashSigned y h → h.metadata = w.metadata →
      h.hash ≠ sp.partHash w.part → Traced V s₀ l x ⟨y, .mismatched y w h⟩

end Manul
