import Verif.Spec.Run

/-!
# Specification: echo rounds
-/

namespace Manul

variable {sp : SP} {P : Proto sp}

/-- The signature in the signed hash verifies under the key of `who`, for exactly the metadata and the hash. -/
def HashSigned (who : sp.Id) (h : SignedHash) : Prop :=
  ∃ d sig, sp.messageDigest h.metadata h.hash = .ok d ∧ sp.deSig h.sig = some sig ∧ sp.verify who d sig = true

/-- The part is the encoding of a sequence of pairs with distinct keys, and `pack` is the map with these pairs. -/
def Decodes (p : Part .normal) (pack : EchoPack sp) : Prop :=
  ∃ b l, p.payload = some b ∧ sp.deEchoSeq b = some l ∧ (l.map Prod.fst).Nodup ∧
    ∀ k v, pack.get? k = some v ↔ (k, v) ∈ l

/-- The entry of `k` is what `k` signed for the broadcast received from `k`. -/
def EntryGood (received : BMap sp.Id (SignedPart .echo)) (k : sp.Id) (h : SignedHash) : Prop :=
  ∃ p, received.get? k = some p ∧ HashSigned k h ∧ h.metadata = p.metadata ∧ h.hash = sp.partHash p.part

/-- The entry of `k` is not signed by `k`, or is for another session or round. -/
def EntryInvalid (received : BMap sp.Id (SignedPart .echo)) (k : sp.Id) (h : SignedHash) : Prop :=
  ∃ p, received.get? k = some p ∧ (¬ HashSigned k h ∨ h.metadata ≠ p.metadata)

/-- The entry of `k` is signed by `k` for the session and round, but for a broadcast other than the received one. -/
def EntryMismatch (received : BMap sp.Id (SignedPart .echo)) (k : sp.Id) (h : SignedHash) (p : SignedPart .echo) : Prop :=
  received.get? k = some p ∧ HashSigned k h ∧ h.metadata = p.metadata ∧ h.hash ≠ sp.partHash p.part

/-- The pack has an entry exactly for the parties it should have one for. -/
def KeysExact (e : EchoRd P) (sender : sp.Id) (pack : EchoPack sp) : Prop :=
  ∀ k, (∃ h, pack.get? k = some h) ↔ (e.info.expectedEchos.contains k = true ∧ k ≠ sender)

/-- The table of the echo round. -/
inductive EchoRow (e : EchoRd P) (sender : sp.Id) (m : DynMsg) : Except (RecvErr sp) Unit → Prop where
  | echoPart {b : Bytes} : m.echo.payload = some b → EchoRow e sender m (.error .invalidEcho)
  | directPart {b : Bytes} : m.echo.payload = none → m.direct.payload = some b → EchoRow e sender m (.error .invalidDirect)
  | undecodable : m.echo.payload = none → m.direct.payload = none → (¬ ∃ pack : EchoPack sp, Decodes m.normal pack) →
      EchoRow e sender m (.error .invalidNormal)
  | missing {pack : EchoPack sp} {k : sp.Id} : m.echo.payload = none → m.direct.payload = none → Decodes m.normal pack →
      e.info.expectedEchos.contains k = true → k ≠ sender → pack.get? k = none →
      EchoRow e sender m (.error (.unprovable .missingEchos))
  | extra {pack : EchoPack sp} {k : sp.Id} {h : SignedHash} : m.echo.payload = none → m.direct.payload = none →
      Decodes m.normal pack →
      (∀ k, e.info.expectedEchos.contains k = true → k ≠ sender → ∃ h, pack.get? k = some h) →
      pack.get? k = some h → e.info.expectedEchos.contains k = false ∨ k = sender →
      EchoRow e sender m (.error (.unprovable .extraEchos))
  | invalid {pack : EchoPack sp} {k : sp.Id} {h : SignedHash} : m.echo.payload = none → m.direct.payload = none →
      Decodes m.normal pack → KeysExact e sender pack → pack.get? k = some h → EntryInvalid e.echoBroadcasts k h →
      (∀ k' h', k' < k → pack.get? k' = some h' → EntryGood e.echoBroadcasts k' h') →
      EchoRow e sender m (.error (.echo (.invalidEcho k)))
  | mismatched {pack : EchoPack sp} {k : sp.Id} {h : SignedHash} {p : SignedPart .echo} : m.echo.payload = none →
      m.direct.payload = none → Decodes m.normal pack → KeysExact e sender pack → pack.get? k = some h →
      EntryMismatch e.echoBroadcasts k h p →
      (∀ k' h', k' < k → pack.get? k' = some h' → EntryGood e.echoBroadcasts k' h') →
      EchoRow e sender m (.error (.echo (.mismatched k p h)))
  | accepted {pack : EchoPack sp} : m.echo.payload = none → m.direct.payload = none → Decodes m.normal pack →
      KeysExact e sender pack → (∀ k h, pack.get? k = some h → EntryGood e.echoBroadcasts k h) →
      EchoRow e sender m (.ok ())

/-- Every broadcast the echo round compares against was received. -/
def EchoRd.Complete (e : EchoRd P) : Prop :=
  ∀ k, e.info.expectedEchos.contains k = true → ∃ p, e.echoBroadcasts.get? k = some p

/-- The echo round of the round will compare echo broadcasts: somebody's broadcast is to be echoed to this node. -/
def EchoFollows (P : Proto sp) (r : P.Rd) : Prop :=
  (∃ targets, (P.comm r).participation = .receive targets) ∨
    ((P.comm r).participation = .default ∧ ∃ rng p, P.makeEcho r rng = .ok p ∧ p.isNone = false)

/-- Rounds followed by an echo round do not accept messages without an echo broadcast. -/
def EchoStrict (P : Proto sp) : Prop :=
  ∀ r x m v, EchoFollows P r → P.receive r x m = .ok v → m.echo.isNone = false

/-- The two echo rounds hold the same broadcast of `k`, for the same session and round. -/
def SameBroadcast (e e' : EchoRd P) (k : sp.Id) : Prop :=
  ∃ p p' : SignedPart .echo, e.echoBroadcasts.get? k = some p ∧ e'.echoBroadcasts.get? k = some p' ∧
    p.metadata = p'.metadata ∧ p.part = p'.part

/-- The hash has no collision among the broadcasts the two echo rounds hold. -/
def NoCollision (e e' : EchoRd P) : Prop :=
  ∀ k (p p' : SignedPart .echo), e.echoBroadcasts.get? k = some p → e'.echoBroadcasts.get? k = some p' →
    sp.hash p.part.preimage = sp.hash p'.part.preimage → p.part.preimage = p'.part.preimage

end Manul
