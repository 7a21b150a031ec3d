import Verif.Model.RoundId

/-!
# Message parts, hashing and signing

Model of `/repo/manul/src/protocol/message.rs` (parts and their hashes) and `/repo/manul/src/session/message.rs`
(signed parts, metadata, verification), together with the session parameters they are generic over.
-/

namespace Manul

/-- `PartKind` (`protocol/message.rs:126-130`). -/
inductive PartKind where
  | echo | normal | direct
deriving DecidableEq, Repr

/-- `EchoBroadcast` / `NormalBroadcast` / `DirectMessage` (`protocol/message.rs:163,183,203`): an optional serialized
payload, with the kind in the type. -/
structure Part (k : PartKind) where
  payload : Option Bytes
deriving DecidableEq, Repr

/-- `ProtocolMessagePart::none` (`protocol/message.rs:45-47`). -/
def Part.none {k : PartKind} : Part k := ⟨Option.none⟩

/-- `ProtocolMessagePart::is_none` (`protocol/message.rs:62-64`). -/
def Part.isNone {k : PartKind} (p : Part k) : Bool := p.payload.isNone

/-- `ProtocolMessagePart::verify_is_some` (`protocol/message.rs:97-105`). -/
def Part.verifyIsSome {k : PartKind} (p : Part k) : Except EvErr Unit :=
  if p.payload.isSome then .ok () else .error .invalid

/-- `DynProtocolMessage` (`protocol/message.rs:223-227`). -/
structure DynMsg where
  echo : Part .echo
  normal : Part .normal
  direct : Part .direct
deriving DecidableEq

/-- `MessageMetadata` (`session/message.rs:82-85`). -/
structure Metadata where
  sessionId : Bytes
  roundId : RoundId

instance : DecidableEq Metadata := fun a b =>
  if h : a.sessionId = b.sessionId ∧ a.roundId = b.roundId then
    isTrue (by cases a; cases b; simp at h; obtain ⟨rfl, rfl⟩ := h; rfl)
  else isFalse (fun e => h (by subst e; exact ⟨rfl, rfl⟩))

/-- `SignedMessagePart<M>` (`session/message.rs:76-79`); `sig` is the `SerializedSignature`. -/
structure SignedPart (k : PartKind) where
  sig : Bytes
  metadata : Metadata
  part : Part k
deriving DecidableEq

/-- `SignedMessageHash` (`session/message.rs:373-378`). -/
structure SignedHash where
  sig : Bytes
  metadata : Metadata
  hash : Bytes
deriving DecidableEq

/-- `SessionParameters` (`session/session.rs:35-50`) and the wire format it fixes.

* a digest object is represented by the bytes it has absorbed; `hash` is `Digest::finalize`;
* `sign`/`verify` are `try_sign_digest_with_rng` and `verify_digest`;
* `serSig`/`deSig`, `serMeta`, `serEchoSeq`/`deEchoSeq` are the instances of `WireFormat::serialize`/`deserializer`
  the session itself uses (signatures, metadata, the contents of `EchoRoundMessage` as the sequence of its pairs);
* the mutable RNG is represented by values: `fork r i` is what the `i`-th consumer of `r` sees.

Nothing is assumed about the functions here; hypotheses are stated where they are needed. -/
structure SP where
  Id : Type
  [ordId : LinearOrder Id]
  Signer : Type
  Sig : Type
  Rng : Type
  fork : Rng → Nat → Rng
  verifyingKey : Signer → Id
  hash : Bytes → Bytes
  sign : Signer → Rng → Bytes → Except LErr Sig
  verify : Id → Bytes → Sig → Bool
  serSig : Sig → Except LErr Bytes
  deSig : Bytes → Option Sig
  serMeta : Metadata → Except LErr Bytes
  serEchoSeq : List (Id × SignedHash) → Except LErr Bytes
  deEchoSeq : Bytes → Option (List (Id × SignedHash))

attribute [instance] SP.ordId

/-- `u64::to_be_bytes` of a length; `expect("… does not exceed 18 exabytes")` cannot fail on 64-bit targets, on which
`usize` is `u64`. Here the value is taken modulo `2^64`. -/
def be64 (n : Nat) : Bytes :=
  [7, 6, 5, 4, 3, 2, 1, 0].map (fun i => (⟨n / 256 ^ i % 256, Nat.mod_lt _ (by decide)⟩ : U8))

/-- `b"ProtocolMessagePart"` (`protocol/message.rs:139`). -/
def prefixPart : Bytes :=
  [80, 114, 111, 116, 111, 99, 111, 108, 77, 101, 115, 115, 97, 103, 101, 80, 97, 114, 116]

/-- `b"SignedMessagePartDigest"` (`session/message.rs:116`). -/
def prefixDigest : Bytes :=
  [83, 105, 103, 110, 101, 100, 77, 101, 115, 115, 97, 103, 101, 80, 97, 114, 116, 68, 105, 103, 101, 115, 116]

/-- `b"SessionId"` (`session/session.rs:85`). -/
def prefixSessionId : Bytes := [83, 101, 115, 115, 105, 111, 110, 73, 100]

/-- The kind byte (`protocol/message.rs:140-144`). -/
def kindByte : PartKind → U8
  | .echo => 0
  | .normal => 1
  | .direct => 2

/-- The bytes absorbed by the digest of a part (`protocol/message.rs:138-156`). -/
def Part.preimage {k : PartKind} (p : Part k) : Bytes :=
  prefixPart ++ [kindByte k] ++
    (match p.payload with
      | Option.none => [0]
      | some b => [1] ++ be64 b.length ++ b)

namespace SP

variable (sp : SP)

/-- `ProtocolMessagePartHashable::hash` (`protocol/message.rs:138-156`). -/
def partHash {k : PartKind} (p : Part k) : Bytes := sp.hash p.preimage

/-- `message_digest` (`session/message.rs:110-120`): the absorbed bytes. -/
def messageDigest (m : Metadata) (h : Bytes) : Except LErr Bytes :=
  match sp.serMeta m with
  | .error e => .error e
  | .ok b => .ok (prefixDigest ++ b ++ be64 h.length ++ h)

/-- `SessionId::from_seed` (`session/session.rs:83-91`). -/
def sessionIdFromSeed (seed : Bytes) : Bytes := sp.hash (prefixSessionId ++ seed)

end SP

/-- `MessageVerificationError` (`session/message.rs:39-45`). -/
inductive VErr where
  | local (e : LErr)
  | invalidSignature
  | signatureMismatch
deriving DecidableEq, Repr

/-- `MessageVerificationError::into_evidence_error` (`session/message.rs:50-60`). -/
def VErr.toEvErr : VErr → EvErr
  | .local e => .local e
  | .invalidSignature => .invalid
  | .signatureMismatch => .invalid

/-- The common body of the three `into_verified` functions (`session/message.rs:186-188, 392-394`):
digest, deserialization of the signature, verification. -/
def verifySigned (sp : SP) (who : sp.Id) (m : Metadata) (h : Bytes) (sig : Bytes) : Except VErr Unit :=
  match sp.messageDigest m h with
  | .error e => .error (.local e)
  | .ok d =>
    match sp.deSig sig with
    | none => .error .invalidSignature
    | some s => if sp.verify who d s then .ok () else .error .signatureMismatch

namespace SignedPart

variable {sp : SP} {k : PartKind}

/-- `SignedMessagePart::new` (`session/message.rs:137-157`). -/
def new (sp : SP) (rng : sp.Rng) (signer : sp.Signer) (sessionId : Bytes) (roundId : RoundId) (part : Part k) :
    Except LErr (SignedPart k) :=
  match sp.messageDigest ⟨sessionId, roundId⟩ (sp.partHash part) with
  | .error e => .error e
  | .ok d =>
    match sp.sign signer rng d with
    | .error e => .error e
    | .ok s =>
      match sp.serSig s with
      | .error e => .error e
      | .ok sig => .ok ⟨sig, ⟨sessionId, roundId⟩, part⟩

/-- `SignedMessagePart::to_signed_hash` (`session/message.rs:159-169`). -/
def toSignedHash (sp : SP) (p : SignedPart k) : SignedHash := ⟨p.sig, p.metadata, sp.partHash p.part⟩

/-- `SignedMessagePart::into_verified` (`session/message.rs:179-193`).  The verified part carries the same fields, so
only success or failure is returned. -/
def verify (sp : SP) (p : SignedPart k) (who : sp.Id) : Except VErr Unit :=
  verifySigned sp who p.metadata (sp.partHash p.part) p.sig

end SignedPart

namespace SignedHash

/-- `SignedMessageHash::into_verified` (`session/message.rs:385-400`). -/
def verify (sp : SP) (h : SignedHash) (who : sp.Id) : Except VErr Unit :=
  verifySigned sp who h.metadata h.hash h.sig

/-- `VerifiedMessageHash::is_hash_of` (`session/message.rs:415-422`). -/
def isHashOf {k : PartKind} (sp : SP) (h : SignedHash) (p : SignedPart k) : Bool :=
  decide (sp.partHash p.part = h.hash)

end SignedHash

/-- `Message` (`session/message.rs:225-230`). -/
structure Message (sp : SP) where
  destination : sp.Id
  direct : SignedPart .direct
  echo : SignedPart .echo
  normal : SignedPart .normal

/-- `CheckedMessage` (`session/message.rs:288-293`). -/
structure CheckedMessage where
  metadata : Metadata
  direct : SignedPart .direct
  echo : SignedPart .echo
  normal : SignedPart .normal

/-- `VerifiedMessage` (`session/message.rs:327-333`). -/
structure VerifiedMessage (sp : SP) where
  sender : sp.Id
  metadata : Metadata
  direct : SignedPart .direct
  echo : SignedPart .echo
  normal : SignedPart .normal

namespace Message

variable {sp : SP}

/-- `Message::new` (`session/message.rs:237-257`). -/
def new (rng : sp.Rng) (signer : sp.Signer) (sessionId : Bytes) (roundId : RoundId) (destination : sp.Id)
    (direct : Part .direct) (echo : SignedPart .echo) (normal : SignedPart .normal) :
    Except LErr (Message sp) :=
  match SignedPart.new sp rng signer sessionId roundId direct with
  | .error e => .error e
  | .ok d => .ok ⟨destination, d, echo, normal⟩

/-- `Message::unify_metadata` (`session/message.rs:264-280`). -/
def unifyMetadata (m : Message sp) : Option CheckedMessage :=
  if m.echo.metadata ≠ m.direct.metadata then none
  else if m.normal.metadata ≠ m.direct.metadata then none
  else some ⟨m.direct.metadata, m.direct, m.echo, m.normal⟩

end Message

/-- `CheckedMessage::into_verified` (`session/message.rs:300-318`). -/
def CheckedMessage.verify (sp : SP) (m : CheckedMessage) (who : sp.Id) : Except VErr (VerifiedMessage sp) :=
  match m.direct.verify sp who with
  | .error e => .error e
  | .ok _ =>
    match m.echo.verify sp who with
    | .error e => .error e
    | .ok _ =>
      match m.normal.verify sp who with
      | .error e => .error e
      | .ok _ => .ok ⟨who, m.metadata, m.direct, m.echo, m.normal⟩

/-- The payload parts handed to a round (`session/session.rs:400-404`). -/
def VerifiedMessage.dyn {sp : SP} (m : VerifiedMessage sp) : DynMsg :=
  ⟨m.echo.part, m.normal.part, m.direct.part⟩

/-- `EchoRoundMessage` (`session/echo.rs:127-130`): the `SerializableMap` is a map on the Rust side and a sequence of
pairs on the wire (`utils/serializable_map.rs:58-107`). -/
abbrev EchoPack (sp : SP) := BMap sp.Id SignedHash

/-- `SerializableMap`'s visitor (`utils/serializable_map.rs:77-105`): builds the map, failing on a repeated key. -/
def collectUnique {K V : Type} [LinearOrder K] : BMap K V → List (K × V) → Option (BMap K V)
  | m, [] => some m
  | m, (k, v) :: l => if m.contains k then none else collectUnique (m.insert k v) l

namespace SP

variable (sp : SP)

/-- Serialization of `EchoRoundMessage`. -/
def serEcho (p : EchoPack sp) : Except LErr Bytes := sp.serEchoSeq p.toList

/-- Deserialization of `EchoRoundMessage`. -/
def deEcho (b : Bytes) : Option (EchoPack sp) :=
  match sp.deEchoSeq b with
  | none => none
  | some l => collectUnique BMap.empty l

end SP

end Manul
