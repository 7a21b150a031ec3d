import Verif.Spec.Echo
import Verif.Spec.Order
import Verif.Spec.Assumptions
import Verif.Model.Typed

/-!
# Specification: evidence
-/

namespace Manul

variable {sp : SP} {P : Proto sp}

/-- A part the transcript holds for a party and a round. -/
def storedPart {k : PartKind} (m : BMap RoundId (BMap sp.Id (SignedPart k))) (r : RoundId) (who : sp.Id) :
    Option (Part k) :=
  match m.get? r with
  | none => none
  | some e => (e.get? who).map (fun p => p.part)

/-- A part if it is asked for. -/
def asked {k : PartKind} (b : Bool) (p : Option (Part k)) : Option (Part k) := if b then p else none

/-- Somebody asks for some part. -/
def RequiredParts.some? (r : RequiredParts) : Bool := r.echo || r.normal || r.direct

/-- The previous messages shown to `verify_evidence`: for every round asked for, exactly the parts asked for, as the
transcript holds them. -/
def PreviousShown (t : Transcript sp) (who : sp.Id) (req : RequiredMessages) (prev : BMap RoundId EvMsg) : Prop :=
  ∀ r m, prev.get? r = some m ↔ ∃ all rp, req.previous = some all ∧ all.get? r = some rp ∧ rp.some? = true ∧
    m = ⟨asked rp.direct (storedPart t.directs r who), asked rp.normal (storedPart t.normals r who),
      asked rp.echo (storedPart t.echos r who)⟩

/-- The combined echo broadcasts shown to `verify_evidence`: for every round asked for, the broadcasts the transcript holds of the
parties listed in the pack the guilty party sent in the echo round. -/
def CombinedShown (t : Transcript sp) (who : sp.Id) (req : RequiredMessages)
    (comb : BMap RoundId (BMap sp.Id (Part .echo))) : Prop :=
  (∀ r, (∃ m, comb.get? r = some m) ↔ ∃ all, req.combined = some all ∧ all.contains r = true) ∧
    ∀ r m, comb.get? r = some m → ∃ re n pack, r.echo = .ok re ∧ storedPart t.normals re who = some n ∧ Decodes n pack ∧
      ∀ k q, m.get? k = some q ↔ (∃ h, pack.get? k = some h) ∧ storedPart t.echos r k = some q

/-- The transcript holds the parts of earlier rounds asked for. -/
def RequestedHeld (t : Transcript sp) (who : sp.Id) (req : RequiredMessages) : Prop :=
  ∀ r all rp, req.previous = some all → all.get? r = some rp →
    (rp.direct = true → ∃ p, storedPart t.directs r who = some p) ∧
    (rp.normal = true → ∃ p, storedPart t.normals r who = some p) ∧
    (rp.echo = true → ∃ p, storedPart t.echos r who = some p)

/-- What the transcript of a run holds. -/
structure TranscriptOk (sid : Bytes) (t : Transcript sp) : Prop where
  echos : ∀ r m x p, t.echos.get? r = some m → m.get? x = some p → AuthenticPart x sid r p
  normals : ∀ r m x p, t.normals.get? r = some m → m.get? x = some p → AuthenticPart x sid r p
  directs : ∀ r m x p, t.directs.get? r = some m → m.get? x = some p → AuthenticPart x sid r p
  /-- the packs of an echo round list parties other than their sender, and agree with the broadcasts held -/
  packs : ∀ r re m x n, r.echo = .ok re → t.normals.get? re = some m → m.get? x = some n →
    ∃ pack ebs, Decodes n.part pack ∧ t.echos.get? r = some ebs ∧
      ∀ k h, pack.get? k = some h → k ≠ x ∧ EntryGood ebs k h

/-- The evidence says that a part was malformed. -/
def EvBody.Malformed : EvBody sp → Prop
  | .invalidDirect _ | .invalidEchoBroadcast _ | .invalidNormal _ => True
  | _ => False

/-- The rounds of the protocol do not report the errors of the echo round (users cannot: `ReceiveError` has no such variant,
`protocol/errors.rs`). -/
def NoEchoErr (P : Proto sp) : Prop := ∀ r x m err, P.receive r x m ≠ .error (.echo err)

/-- `Protocol::round_info` returns for the id of every round its round type. -/
def TagConsistent (T : TypedProto sp) : Prop := ∀ st, T.roundTag (T.transition st).id = some (T.tag st)

/-! ## What an honest party signs -/

/-- The parts a session signs.  (The direct messages are those its round makes.) -/
inductive Issued (s : Session P) : (k : PartKind) → Part k → Prop where
  | echo : Issued s .echo s.echo.part
  | normal : Issued s .normal s.normal.part
  | direct {rng : sp.Rng} {dest : sp.Id} {p : Part .direct} {a : Option P.Artifact} :
      s.round.makeDirect rng dest = .ok (p, a) → Issued s .direct p

/-- Different inputs with the same hash. -/
def Collision (sp : SP) (a b : Bytes) : Prop := a ≠ b ∧ sp.hash a = sp.hash b

/-- The evidence exhibits the signed part as malformed. -/
inductive EvBody.Exhibits : EvBody sp → (k : PartKind) → SignedPart k → Prop where
  | direct (m : SignedPart .direct) : EvBody.Exhibits (.invalidDirect m) .direct m
  | echo (m : SignedPart .echo) : EvBody.Exhibits (.invalidEchoBroadcast m) .echo m
  | normal (m : SignedPart .normal) : EvBody.Exhibits (.invalidNormal m) .normal m

/-- The session signed the given digest for the part. -/
def SignedIn (s : Session P) {k : PartKind} (q : Part k) (d : Bytes) : Prop :=
  Issued s k q ∧ sp.messageDigest ⟨s.sessionId, s.roundId⟩ (sp.partHash q) = .ok d

/-- The part is a value of the message type of the round type: absent if the type is `NoMessage`, otherwise deserializable. -/
def Readable (T : TypedProto sp) (t : T.Tag) {k : PartKind} (p : Part k) : Prop :=
  (T.de t k = none ∧ p.payload = none) ∨ ∃ de b v, T.de t k = some de ∧ p.payload = some b ∧ de b = some v

/-- The serialized messages of a round deserialize as messages of its type. -/
structure MessagesReadable (T : TypedProto sp) : Prop where
  direct : ∀ st rng dest v a de b, T.makeDirect st rng dest = .ok (v, a) → T.de (T.tag st) .direct = some de → T.ser v = .ok b →
    ∃ w, de b = some w
  echo : ∀ st rng v de b, T.makeEcho st rng = .ok v → T.de (T.tag st) .echo = some de → T.ser v = .ok b → ∃ w, de b = some w
  normal : ∀ st rng v de b, T.makeNormal st rng = .ok v → T.de (T.tag st) .normal = some de → T.ser v = .ok b → ∃ w, de b = some w

/-- The part is malformed for the round its metadata names: for an echo round, a direct message or an echo broadcast that is
present, or a normal broadcast that is not a pack; for a main round of the protocol, a part that is not of its type. -/
def MalformedFor (T : TypedProto sp) {k : PartKind} (p : Part k) (r : RoundId) : Prop :=
  (r.isEcho = true ∧ (k = .normal → ¬ ∃ (q : Part .normal) (pack : EchoPack sp), q.payload = p.payload ∧ Decodes q pack) ∧
    (k ≠ .normal → p.payload ≠ none)) ∨
  (r.isEcho = false ∧ ∃ t, T.roundTag r = some t ∧ ¬ Readable T t p)

/-- The message is one of the parts shown, signed by `who` for the session and the round. -/
def ShownBy (who : sp.Id) (sid : Bytes) (r : RoundId) (m : EvMsg) : Prop :=
  (∀ p, m.direct = some p → ∃ q : SignedPart .direct, AuthenticPart who sid r q ∧ q.part = p) ∧
    (∀ p, m.normal = some p → ∃ q : SignedPart .normal, AuthenticPart who sid r q ∧ q.part = p) ∧
    (∀ p, m.echo = some p → ∃ q : SignedPart .echo, AuthenticPart who sid r q ∧ q.part = p)

/-- The evidence contains something signed by the party. -/
def EvBody.SignedBy (who : sp.Id) : EvBody sp → Prop
  | .protocol e => (∃ p, e.direct = some p ∧ SigValid who p) ∨ (∃ p, e.echo = some p ∧ SigValid who p) ∨
      (∃ p, e.normal = some p ∧ SigValid who p)
  | .invalidDirect m => SigValid who m
  | .invalidEchoBroadcast m => SigValid who m
  | .invalidNormal m => SigValid who m
  | .invalidEcho m _ => SigValid who m
  | .mismatched _ w e => SigValid who w ∧ HashSigned who e

end Manul
