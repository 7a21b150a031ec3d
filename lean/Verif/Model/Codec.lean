import Verif.Model.Message

/-!
# A concrete binary wire format

Model of the part of the `BinaryFormat` (`/repo/manul/src/dev/wire_format.rs:9-38`, i.e. `postcard`) that the session
layer itself uses: metadata (`session/message.rs:81-85`, `session/session.rs:53-54`, `protocol/round_id.rs:15-20`) and
the echo-round message (`session/echo.rs:127-130`, `session/message.rs:373-378`).

Postcard writes `u8` and `bool` as one byte, lengths as LEB128 varints, structs as the concatenation of their fields and
sequences as the length followed by the elements; deserialization reads a prefix and ignores the rest.

Simplification: lengths are unbounded (postcard fails above `2^64`, which no value reaches).
-/

namespace Manul

/-- An encoder and a decoder that reads a prefix and returns the rest. -/
structure Codec (α : Type) where
  enc : α → Bytes
  dec : Bytes → Option (α × Bytes)

namespace Codec

/-- Decoding what was encoded gives it back and leaves what follows. -/
def Lawful {α : Type} (c : Codec α) : Prop := ∀ a rest, c.dec (c.enc a ++ rest) = some (a, rest)

/-- One byte. -/
def u8 : Codec U8 where
  enc b := [b]
  dec
    | [] => none
    | b :: rest => some (b, rest)

/-- `bool` as `0`/`1`. -/
def bool : Codec Bool where
  enc b := [if b then 1 else 0]
  dec
    | [] => none
    | b :: rest => if b = 0 then some (false, rest) else if b = 1 then some (true, rest) else none

/-- LEB128 encoding with enough fuel. -/
def leb : Nat → Nat → Bytes
  | 0, n => [⟨n % 128, by omega⟩]
  | fuel + 1, n =>
    if h : n < 128 then [⟨n, by omega⟩] else ⟨n % 128 + 128, by omega⟩ :: leb fuel (n / 128)

/-- LEB128 decoding. -/
def unleb : Bytes → Option (Nat × Bytes)
  | [] => none
  | b :: rest =>
    if b.val < 128 then some (b.val, rest)
    else
      match unleb rest with
      | none => none
      | some (n, rest') => some (b.val - 128 + 128 * n, rest')

/-- Lengths. -/
def varint : Codec Nat where
  enc n := leb n n
  dec := unleb

/-- Pairs and structs. -/
def prod {α β : Type} (c : Codec α) (d : Codec β) : Codec (α × β) where
  enc p := c.enc p.1 ++ d.enc p.2
  dec b :=
    match c.dec b with
    | none => none
    | some (x, b') =>
      match d.dec b' with
      | none => none
      | some (y, b'') => some ((x, y), b'')

/-- A given number of elements. -/
def decN {α : Type} (c : Codec α) : Nat → Bytes → Option (List α × Bytes)
  | 0, b => some ([], b)
  | n + 1, b =>
    match c.dec b with
    | none => none
    | some (x, b') =>
      match decN c n b' with
      | none => none
      | some (l, b'') => some (x :: l, b'')

/-- Sequences: length, then the elements. -/
def list {α : Type} (c : Codec α) : Codec (List α) where
  enc l := varint.enc l.length ++ (l.map c.enc).flatten
  dec b :=
    match varint.dec b with
    | none => none
    | some (n, b') => decN c n b'

/-- Transport along a bijection. -/
def iso {α β : Type} (c : Codec α) (f : α → β) (g : β → α) : Codec β where
  enc b := c.enc (g b)
  dec x :=
    match c.dec x with
    | none => none
    | some (a, rest) => some (f a, rest)

/-- Byte strings: length, then the bytes. -/
def bytes : Codec Bytes := list u8

/-- `RoundId`. -/
def roundId : Codec RoundId :=
  iso (prod u8 (prod (list u8) bool)) (fun x => ⟨x.1, x.2.1, x.2.2⟩) (fun r => (r.round, r.groups, r.isEcho))

/-- `MessageMetadata`. -/
def metadata : Codec Metadata :=
  iso (prod bytes roundId) (fun x => ⟨x.1, x.2⟩) (fun m => (m.sessionId, m.roundId))

/-- `SignedMessageHash`. -/
def signedHash : Codec SignedHash :=
  iso (prod bytes (prod metadata bytes)) (fun x => ⟨x.1, x.2.1, x.2.2⟩) (fun h => (h.sig, h.metadata, h.hash))

end Codec

end Manul
