import Verif.Model.Codec
import Verif.Model.Describe

/-!
# Messages and evidence as bytes

The public types of the library that can be serialized, in the binary format (`/repo/manul/src/dev/wire_format.rs:9-38`):
`Message` (`session/message.rs:18-19, 75-85, 104-108, 224-230`, `protocol/message.rs:13-14, 162-163, 182-183, 202-203`) and
`Evidence` (`session/evidence.rs:29-34, 214-228, 251-254, 262-263, 289-290, 316-317, 344-356`,
`session/echo.rs:45-48, 87-92`, `protocol/dyn_evidence.rs:65-66`, `utils/serializable_map.rs`).

Postcard writes `Option` as a byte `0` or `1` and the contents, strings as their length and their UTF-8 encoding, and the variants
of an `enum` as their number and the contents; `Box` and `PhantomData` leave no trace.  Byte strings declared with
`SliceLike` are written as bytes, since the format is not a human-readable one.

The encoding of party identifiers is a parameter.
-/

namespace Manul

namespace Codec

/-- Decoding of a part of something. -/
def decMap {α β : Type} (c : Codec α) (f : α → β) (b : Bytes) : Option (β × Bytes) :=
  match c.dec b with
  | none => none
  | some (a, rest) => some (f a, rest)

/-- `Option`. -/
def option {α : Type} (c : Codec α) : Codec (Option α) where
  enc
    | none => [0]
    | some a => 1 :: c.enc a
  dec
    | [] => none
    | b :: rest => if b = 0 then some (none, rest) else if b = 1 then decMap c some rest else none

/-- `SerializableMap` (`utils/serializable_map.rs:58-122`). -/
def map {K V : Type} [LinearOrder K] (c : Codec K) (d : Codec V) : Codec (BMap K V) where
  enc m := (list (prod c d)).enc m.toList
  dec b :=
    match (list (prod c d)).dec b with
    | none => none
    | some (l, rest) =>
      match collectUnique BMap.empty l with
      | none => none
      | some m => some (m, rest)

/-- The UTF-8 encoding of a text. -/
def utf8 (t : Text) : Bytes := (t.flatMap String.utf8EncodeChar).map UInt8.toFin

/-- Reading UTF-8. -/
def unUtf8 (b : Bytes) : Option Text := ((b.map UInt8.ofFin).toByteArray.utf8Decode?).map Array.toList

/-- `String`. -/
def text : Codec Text where
  enc t := bytes.enc (utf8 t)
  dec b :=
    match bytes.dec b with
    | none => none
    | some (x, rest) =>
      match unUtf8 x with
      | none => none
      | some t => some (t, rest)

/-- `EchoBroadcast`, `NormalBroadcast`, `DirectMessage`. -/
def part (k : PartKind) : Codec (Part k) := iso (option bytes) (fun p => ⟨p⟩) (fun p => p.payload)

/-- `SignedMessagePart`. -/
def signedPart (k : PartKind) : Codec (SignedPart k) :=
  iso (prod bytes (prod metadata (part k))) (fun x => ⟨x.1, x.2.1, x.2.2⟩) (fun p => (p.sig, p.metadata, p.part))

variable {sp : SP} (id : Codec sp.Id)

/-- `Message`. -/
def message : Codec (Message sp) :=
  iso (prod id (prod (signedPart .direct) (prod (signedPart .echo) (signedPart .normal))))
    (fun x => ⟨x.1, x.2.1, x.2.2.1, x.2.2.2⟩) (fun m => (m.destination, m.direct, m.echo, m.normal))

/-- `ProtocolEvidence`. -/
def protocolEvidence : Codec (ProtocolEvidence sp) :=
  iso (prod bytes (prod (option (signedPart .direct)) (prod (option (signedPart .echo)) (prod (option (signedPart .normal))
      (prod (map roundId (signedPart .direct)) (prod (map roundId (signedPart .echo)) (prod (map roundId (signedPart .normal))
        (prod (map roundId (map id (signedPart .echo))) (map roundId (signedPart .normal))))))))))
    (fun x => ⟨x.1, x.2.1, x.2.2.1, x.2.2.2.1, x.2.2.2.2.1, x.2.2.2.2.2.1, x.2.2.2.2.2.2.1, x.2.2.2.2.2.2.2.1,
      x.2.2.2.2.2.2.2.2⟩)
    (fun e => (e.error, e.direct, e.echo, e.normal, e.directs, e.echos, e.normals, e.otherEchos, e.echoHashes))

/-- `EvidenceEnum`. -/
def evBody : Codec (EvBody sp) where
  enc
    | .protocol e => varint.enc 0 ++ (protocolEvidence id).enc e
    | .invalidDirect m => varint.enc 1 ++ (signedPart .direct).enc m
    | .invalidEchoBroadcast m => varint.enc 2 ++ (signedPart .echo).enc m
    | .invalidNormal m => varint.enc 3 ++ (signedPart .normal).enc m
    | .invalidEcho m sender => varint.enc 4 ++ (prod (signedPart .normal) id).enc (m, sender)
    | .mismatched guilty w e => varint.enc 5 ++ (prod id (prod (signedPart .echo) signedHash)).enc (guilty, w, e)
  dec b :=
    match varint.dec b with
    | none => none
    | some (n, rest) =>
      match n with
      | 0 => decMap (protocolEvidence id) .protocol rest
      | 1 => decMap (signedPart .direct) .invalidDirect rest
      | 2 => decMap (signedPart .echo) .invalidEchoBroadcast rest
      | 3 => decMap (signedPart .normal) .invalidNormal rest
      | 4 => decMap (prod (signedPart .normal) id) (fun x => .invalidEcho x.1 x.2) rest
      | 5 => decMap (prod id (prod (signedPart .echo) signedHash)) (fun x => .mismatched x.1 x.2.1 x.2.2) rest
      | _ => none

/-- `Evidence`. -/
def evidence : Codec (DEvidence sp) :=
  iso (prod id (prod text (evBody id))) (fun x => ⟨x.1, x.2.1, x.2.2⟩) (fun e => (e.guilty, e.description, e.body))

/-- Reading a value; what follows is ignored (`dev/wire_format.rs:33-37`, `protocol/wire_format.rs:83-90`). -/
def read {α : Type} (c : Codec α) (b : Bytes) : Option α := (c.dec b).map Prod.fst

end Codec

end Manul
