import Verif.Spec.Multi

/-!
# Specification: what can be charged against a party following the protocol

Evidence is something anybody can make up, out of anything that was ever sent.  It is presented to somebody who knows only the
evidence, the protocol it is said to be about, and the data associated with it.
-/

namespace Manul

variable {sp : SP} {K : Type}

/-- The signed part of a kind. -/
def Message.signed (m : Message sp) : (k : PartKind) → SignedPart k
  | .direct => m.direct
  | .echo => m.echo
  | .normal => m.normal

/-- The signed part occurs in the evidence. -/
inductive EvBody.Holds : EvBody sp → (k : PartKind) → SignedPart k → Prop where
  | invalidDirect {p : SignedPart .direct} : EvBody.Holds (.invalidDirect p) .direct p
  | invalidEchoBroadcast {p : SignedPart .echo} : EvBody.Holds (.invalidEchoBroadcast p) .echo p
  | invalidNormal {p : SignedPart .normal} : EvBody.Holds (.invalidNormal p) .normal p
  | invalidEcho {p : SignedPart .normal} {y : sp.Id} : EvBody.Holds (.invalidEcho p y) .normal p
  | mismatched {y : sp.Id} {w : SignedPart .echo} {h : SignedHash} : EvBody.Holds (.mismatched y w h) .echo w
  | direct {e : ProtocolEvidence sp} {p : SignedPart .direct} : e.direct = some p → EvBody.Holds (.protocol e) .direct p
  | echo {e : ProtocolEvidence sp} {p : SignedPart .echo} : e.echo = some p → EvBody.Holds (.protocol e) .echo p
  | normal {e : ProtocolEvidence sp} {p : SignedPart .normal} : e.normal = some p → EvBody.Holds (.protocol e) .normal p
  | directs {e : ProtocolEvidence sp} {r : RoundId} {p : SignedPart .direct} : e.directs.get? r = some p →
      EvBody.Holds (.protocol e) .direct p
  | echos {e : ProtocolEvidence sp} {r : RoundId} {p : SignedPart .echo} : e.echos.get? r = some p →
      EvBody.Holds (.protocol e) .echo p
  | normals {e : ProtocolEvidence sp} {r : RoundId} {p : SignedPart .normal} : e.normals.get? r = some p →
      EvBody.Holds (.protocol e) .normal p
  | otherEchos {e : ProtocolEvidence sp} {r : RoundId} {m : BMap sp.Id (SignedPart .echo)} {y : sp.Id} {p : SignedPart .echo} :
      e.otherEchos.get? r = some m → m.get? y = some p → EvBody.Holds (.protocol e) .echo p
  | echoHashes {e : ProtocolEvidence sp} {r : RoundId} {p : SignedPart .normal} : e.echoHashes.get? r = some p →
      EvBody.Holds (.protocol e) .normal p

/-- Signatures of the parties in `H` in the evidence are not forged: they have sent what is signed, in some session; a signed hash
is that of something they have sent, of any kind. -/
structure EvBody.Unforged (S : Sessions sp K) (H : sp.Id → Prop) (n : Nets S) (b : EvBody sp) : Prop where
  parts : ∀ x k p, H x → b.Holds k p → SigValid x p → ∃ c, ∃ q ∈ (n c).wire, q.src = x ∧
    (q.message.signed k).metadata = p.metadata ∧ (q.message.signed k).part = p.part
  hash : ∀ x y w h, H x → b = .mismatched y w h → HashSigned x h → ∃ c, ∃ q ∈ (n c).wire, q.src = x ∧
    ∃ k, (q.message.signed k).metadata = h.metadata ∧ sp.partHash (q.message.signed k).part = h.hash

/-- Party `x` has sent the part in the round of the session. -/
def SentPart (S : Sessions sp K) (n : Nets S) (x : sp.Id) (c : K) (rid : RoundId) {k : PartKind} (p : Part k) : Prop :=
  ∃ q ∈ (n c).wire, OwnPacket (S.group c) x rid q ∧ (q.message.signed k).part = p

/-- What is shown of a message is what party `x` has sent in the round of the session. -/
def ShowsSent (S : Sessions sp K) (n : Nets S) (x : sp.Id) (c : K) (rid : RoundId) (m : EvMsg) : Prop :=
  (∀ p, m.direct = some p → SentPart S n x c rid p) ∧ (∀ p, m.normal = some p → SentPart S n x c rid p) ∧
    (∀ p, m.echo = some p → SentPart S n x c rid p)

/-- The ways in which evidence can be accepted, as evidence about the protocol `P`, against a party `x` following the protocols of
its sessions. -/
inductive Chargeable (S : Sessions sp K) (H : sp.Id → Prop) (n : Nets S) (P : Proto sp) (shared : P.Shared) (x : sp.Id) :
    EvBody sp → Prop where
  /-- `P` finds what `x` has sent in a main round malformed. -/
  | malformedDirect {c : K} {rid : RoundId} {p : SignedPart .direct} {i : RoundInfo sp P.Shared} :
      p.metadata = ⟨(S.group c).sid, rid⟩ → SentPart S n x c rid p.part → rid.isEcho = false → P.roundInfo rid = some i →
      i.directInvalid p.part = .ok () → Chargeable S H n P shared x (.invalidDirect p)
  | malformedEcho {c : K} {rid : RoundId} {p : SignedPart .echo} {i : RoundInfo sp P.Shared} :
      p.metadata = ⟨(S.group c).sid, rid⟩ → SentPart S n x c rid p.part → rid.isEcho = false → P.roundInfo rid = some i →
      i.echoInvalid p.part = .ok () → Chargeable S H n P shared x (.invalidEchoBroadcast p)
  | malformedNormal {c : K} {rid : RoundId} {p : SignedPart .normal} {i : RoundInfo sp P.Shared} :
      p.metadata = ⟨(S.group c).sid, rid⟩ → SentPart S n x c rid p.part → rid.isEcho = false → P.roundInfo rid = some i →
      i.normalInvalid p.part = .ok () → Chargeable S H n P shared x (.invalidNormal p)
  /-- `x` has sent a correct echo message (the entry is signed by the party it is about, for the main round). -/
  | pack {c : K} {main rid : RoundId} {p : SignedPart .normal} {y : sp.Id} {pack : EchoPack sp} {h : SignedHash} :
      p.metadata = ⟨(S.group c).sid, rid⟩ → SentPart S n x c rid p.part → main.echo = .ok rid → Decodes p.part pack →
      pack.get? y = some h → HashSigned y h → h.metadata = ⟨(S.group c).sid, main⟩ → Chargeable S H n P shared x (.invalidEcho p y)
  /-- `x` has made a normal broadcast in a main round that can be read as a wrong echo message. -/
  | lookalike {c : K} {rid : RoundId} {p : SignedPart .normal} {y : sp.Id} {pack : EchoPack sp} {h : SignedHash} :
      p.metadata = ⟨(S.group c).sid, rid⟩ → SentPart S n x c rid p.part → rid.isEcho = false → Decodes p.part pack →
      pack.get? y = some h → (¬ HashSigned y h ∨ h.metadata ≠ ⟨(S.group c).sid, rid⟩) →
      Chargeable S H n P shared x (.invalidEcho p y)
  /-- What is in the evidence is signed by somebody else. -/
  | other {y : sp.Id} {w : SignedPart .echo} {h : SignedHash} : y ≠ x → SigValid y w → HashSigned y h →
      w.metadata = h.metadata → h.hash ≠ sp.partHash w.part → Chargeable S H n P shared x (.mismatched y w h)
  /-- The echo broadcast of `x` is put beside the hash of a normal broadcast or a direct message of `x` in the same round. -/
  | kinds {c : K} {rid : RoundId} {k : PartKind} {q : Part k} {w : SignedPart .echo} {h : SignedHash} :
      w.metadata = ⟨(S.group c).sid, rid⟩ → SentPart S n x c rid w.part → k ≠ .echo → SentPart S n x c rid q →
      h.metadata = ⟨(S.group c).sid, rid⟩ → h.hash = sp.partHash q → h.hash ≠ sp.partHash w.part →
      Chargeable S H n P shared x (.mismatched x w h)
  /-- `P` finds fault with messages `x` has really sent in one of the sessions, and the echo broadcasts of others of which `x` has
  sent, in this session, the hashes signed by them. -/
  | protocol {c : K} {rid : RoundId} {info : RoundInfo sp P.Shared} {msg : EvMsg} {prev : BMap RoundId EvMsg}
      {comb : BMap RoundId (BMap sp.Id (Part .echo))} {e : ProtocolEvidence sp} : P.roundInfo rid = some info →
      info.verifyEvidence rid e.error x (S.group c).sid shared msg prev comb = .ok () →
      (msg.direct ≠ none ∨ msg.normal ≠ none ∨ msg.echo ≠ none) → ShowsSent S n x c rid msg →
      (∀ r m, prev.get? r = some m → ShowsSent S n x c r m) →
      (∀ r m y q, comb.get? r = some m → m.get? y = some q → (H y → SentPart S n y c r q) ∧
        ∃ (re : RoundId) (b : Part .normal) (pack : EchoPack sp) (h : SignedHash), re.nonEcho = .ok r ∧
          SentPart S n x c re b ∧ Decodes b pack ∧ pack.get? y = some h ∧ HashSigned y h ∧
          h.metadata = ⟨(S.group c).sid, r⟩ ∧ h.hash = sp.partHash q) →
      Chargeable S H n P shared x (.protocol e)

end Manul
