import Verif.Spec.Charges
import Verif.Spec.MixMulti

/-!
# Specification: what can be charged against a party following the protocol with either driver

The same as in `Spec/Charges.lean`, for parties that use `run_session` in some sessions and `par_run_session` in others.
-/

namespace Manul

variable {sp : SP} {K : Type}

/-- Signatures of the parties in `H` in the evidence are not forged: they have sent what is signed, in some session; a signed hash
is that of something they have sent, of any kind. -/
structure EvBody.MixUnforged (S : Sessions sp K) (H : sp.Id → Prop) (n : MixNets S) (b : EvBody sp) : Prop where
  parts : ∀ x k p, H x → b.Holds k p → SigValid x p → ∃ c, ∃ q ∈ (n c).wire, q.src = x ∧
    (q.message.signed k).metadata = p.metadata ∧ (q.message.signed k).part = p.part
  hash : ∀ x y w h, H x → b = .mismatched y w h → HashSigned x h → ∃ c, ∃ q ∈ (n c).wire, q.src = x ∧
    ∃ k, (q.message.signed k).metadata = h.metadata ∧ sp.partHash (q.message.signed k).part = h.hash

/-- Party `x` has sent the part in the round of the session. -/
def MixSentPart (S : Sessions sp K) (drive : K → sp.Id → Bool) (n : MixNets S) (x : sp.Id) (c : K)
    (rid : RoundId) {k : PartKind} (p : Part k) : Prop :=
  ∃ q ∈ (n c).wire, MixOwnPacket (S.group c) (drive c) x rid q ∧ (q.message.signed k).part = p

/-- What is shown of a message is what party `x` has sent in the round of the session. -/
def MixShowsSent (S : Sessions sp K) (drive : K → sp.Id → Bool) (n : MixNets S) (x : sp.Id) (c : K)
    (rid : RoundId) (m : EvMsg) : Prop :=
  (∀ p, m.direct = some p → MixSentPart S drive n x c rid p) ∧ (∀ p, m.normal = some p → MixSentPart S drive n x c rid p) ∧
    (∀ p, m.echo = some p → MixSentPart S drive n x c rid p)

/-- The ways in which evidence can be accepted, as evidence about the protocol `P`, against a party `x` following the protocols of
its sessions. -/
inductive MixChargeable (S : Sessions sp K) (H : sp.Id → Prop) (drive : K → sp.Id → Bool) (n : MixNets S) (P : Proto sp)
    (shared : P.Shared) (x : sp.Id) :
    EvBody sp → Prop where
  /-- `P` finds what `x` has sent in a main round malformed. -/
  | malformedDirect {c : K} {rid : RoundId} {p : SignedPart .direct} {i : RoundInfo sp P.Shared} :
      p.metadata = ⟨(S.group c).sid, rid⟩ → MixSentPart S drive n x c rid p.part → rid.isEcho = false →
      P.roundInfo rid = some i → i.directInvalid p.part = .ok () → MixChargeable S H drive n P shared x (.invalidDirect p)
  | malformedEcho {c : K} {rid : RoundId} {p : SignedPart .echo} {i : RoundInfo sp P.Shared} :
      p.metadata = ⟨(S.group c).sid, rid⟩ → MixSentPart S drive n x c rid p.part → rid.isEcho = false →
      P.roundInfo rid = some i → i.echoInvalid p.part = .ok () → MixChargeable S H drive n P shared x (.invalidEchoBroadcast p)
  | malformedNormal {c : K} {rid : RoundId} {p : SignedPart .normal} {i : RoundInfo sp P.Shared} :
      p.metadata = ⟨(S.group c).sid, rid⟩ → MixSentPart S drive n x c rid p.part → rid.isEcho = false →
      P.roundInfo rid = some i → i.normalInvalid p.part = .ok () → MixChargeable S H drive n P shared x (.invalidNormal p)
  /-- `x` has sent a correct echo message (the entry is signed by the party it is about, for the main round). -/
  | pack {c : K} {main rid : RoundId} {p : SignedPart .normal} {y : sp.Id} {pack : EchoPack sp} {h : SignedHash} :
      p.metadata = ⟨(S.group c).sid, rid⟩ → MixSentPart S drive n x c rid p.part → main.echo = .ok rid → Decodes p.part pack →
      pack.get? y = some h → HashSigned y h → h.metadata = ⟨(S.group c).sid, main⟩ → MixChargeable S H drive n P shared x (.invalidEcho p y)
  /-- `x` has made a normal broadcast in a main round that can be read as a wrong echo message. -/
  | lookalike {c : K} {rid : RoundId} {p : SignedPart .normal} {y : sp.Id} {pack : EchoPack sp} {h : SignedHash} :
      p.metadata = ⟨(S.group c).sid, rid⟩ → MixSentPart S drive n x c rid p.part → rid.isEcho = false → Decodes p.part pack →
      pack.get? y = some h → (¬ HashSigned y h ∨ h.metadata ≠ ⟨(S.group c).sid, rid⟩) →
      MixChargeable S H drive n P shared x (.invalidEcho p y)
  /-- What is in the evidence is signed by somebody else. -/
  | other {y : sp.Id} {w : SignedPart .echo} {h : SignedHash} : y ≠ x → SigValid y w → HashSigned y h →
      w.metadata = h.metadata → h.hash ≠ sp.partHash w.part → MixChargeable S H drive n P shared x (.mismatched y w h)
  /-- The echo broadcast of `x` is put beside the hash of a normal broadcast or a direct message of `x` in the same round. -/
  | kinds {c : K} {rid : RoundId} {k : PartKind} {q : Part k} {w : SignedPart .echo} {h : SignedHash} :
      w.metadata = ⟨(S.group c).sid, rid⟩ → MixSentPart S drive n x c rid w.part → k ≠ .echo → MixSentPart S drive n x c rid q →
      h.metadata = ⟨(S.group c).sid, rid⟩ → h.hash = sp.partHash q → h.hash ≠ sp.partHash w.part →
      MixChargeable S H drive n P shared x (.mismatched x w h)
  /-- `P` finds fault with messages `x` has really sent in one of the sessions, and the echo broadcasts of others of which `x` has
  sent, in this session, the hashes signed by them. -/
  | protocol {c : K} {rid : RoundId} {info : RoundInfo sp P.Shared} {msg : EvMsg} {prev : BMap RoundId EvMsg}
      {comb : BMap RoundId (BMap sp.Id (Part .echo))} {e : ProtocolEvidence sp} : P.roundInfo rid = some info →
      info.verifyEvidence rid e.error x (S.group c).sid shared msg prev comb = .ok () →
      (msg.direct ≠ none ∨ msg.normal ≠ none ∨ msg.echo ≠ none) → MixShowsSent S drive n x c rid msg →
      (∀ r m, prev.get? r = some m → MixShowsSent S drive n x c r m) →
      (∀ r m y q, comb.get? r = some m → m.get? y = some q → (H y → MixSentPart S drive n y c r q) ∧
        ∃ (re : RoundId) (b : Part .normal) (pack : EchoPack sp) (h : SignedHash), re.nonEcho = .ok r ∧
          MixSentPart S drive n x c re b ∧ Decodes b pack ∧ pack.get? y = some h ∧ HashSigned y h ∧
          h.metadata = ⟨(S.group c).sid, r⟩ ∧ h.hash = sp.partHash q) →
      MixChargeable S H drive n P shared x (.protocol e)

end Manul
