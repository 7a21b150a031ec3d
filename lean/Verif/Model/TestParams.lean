import Verif.Model.Codec

/-!
# The session parameters for tests

Model of `/repo/manul/src/dev/session_parameters.rs` with the binary wire format (`dev/wire_format.rs:9-38`).
-/

namespace Manul

/-- A random number generator: values standing for its states, what the consumers see, and the numbers drawn. -/
structure RandomSource where
  Rng : Type
  fork : Rng → Nat → Rng
  /-- the `k`-th result of `next_u32` -/
  u32 : Rng → Nat → Nat
  /-- the first result of `next_u64` -/
  u64 : Rng → Nat

/-- `TestSignature` (`session_parameters.rs:28-31`). -/
structure TestSignature where
  signedBy : U8
  randomness : Nat
deriving DecidableEq

/-- `TestHasher` (`session_parameters.rs:74-77`). -/
structure TestHasher where
  cursor : Nat
  buffer : List U8
deriving DecidableEq

namespace TestHasher

/-- The derived `Default`: the buffer has `OutputSize = U32` bytes (`session_parameters.rs:73,97-99`). -/
def new : TestHasher := ⟨0, List.replicate 32 0⟩

/-- One step of the loop of `Update::update` (`session_parameters.rs:84-87`). -/
def absorb (h : TestHasher) (b : U8) : TestHasher where
  cursor := (h.cursor + 1) % h.buffer.length
  buffer := h.buffer.modify h.cursor (fun x => Fin.ofNat 256 (x.val ^^^ b.val))

/-- `Update::update` (`session_parameters.rs:82-88`). -/
def update (h : TestHasher) (data : Bytes) : TestHasher := data.foldl absorb h

/-- `FixedOutput::finalize_into` (`session_parameters.rs:92-94`). -/
def finalize (h : TestHasher) : Bytes := h.buffer

/-- The digest of some bytes. -/
def digest (data : Bytes) : Bytes := (new.update data).finalize

end TestHasher

/-- The codec of signatures; `u64` is written as a varint. -/
def Codec.testSignature : Codec TestSignature :=
  Codec.iso (Codec.prod Codec.u8 Codec.varint) (fun x => ⟨x.1, x.2⟩) (fun s => (s.signedBy, s.randomness))

/-- `TestSessionParams<BinaryFormat>` (`session_parameters.rs:7-71,101-111`). -/
def testParams (R : RandomSource) : SP where
  Id := U8
  Signer := U8
  Sig := TestSignature
  Rng := R.Rng
  fork := R.fork
  verifyingKey s := s
  hash := TestHasher.digest
  sign s r _ := .ok ⟨s, R.u64 r⟩
  verify who _ s := decide (who = s.signedBy)
  serSig s := .ok (Codec.testSignature.enc s)
  deSig b :=
    match Codec.testSignature.dec b with
    | none => none
    | some (s, _) => some s
  serMeta m := .ok (Codec.metadata.enc m)
  serEchoSeq l := .ok ((Codec.list (Codec.prod Codec.u8 Codec.signedHash)).enc l)
  deEchoSeq b :=
    match (Codec.list (Codec.prod Codec.u8 Codec.signedHash)).dec b with
    | none => none
    | some (l, _) => some l

end Manul
