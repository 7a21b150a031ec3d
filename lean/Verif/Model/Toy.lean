import Verif.Model.Codec

/-!
# A concrete instance of the session parameters

Used for examples and witnesses.  Identifiers are one-byte numbers like `TestVerifier`
(`/repo/manul/src/dev/session_parameters.rs:7-24`).  Unlike the test parameters of the repository, the signature is an
ideal one: it contains the signer and the signed bytes, so it verifies exactly for what was signed, and the hash is the
identity, so it has no collisions.  All idealised assumptions of the theorems hold for it.
-/

namespace Manul

/-- Ideal session parameters. -/
def toy : SP where
  Id := U8
  Signer := U8
  Sig := U8 × Bytes
  Rng := Nat
  fork r i := r + i
  verifyingKey s := s
  hash b := b
  sign s _ d := .ok (s, d)
  verify who d s := decide (s = (who, d))
  serSig s := .ok (s.1 :: s.2)
  deSig
    | [] => none
    | i :: d => some (i, d)
  serMeta m := .ok (Codec.metadata.enc m)
  serEchoSeq l := .ok ((Codec.list (Codec.prod Codec.u8 Codec.signedHash)).enc l)
  deEchoSeq b :=
    match (Codec.list (Codec.prod Codec.u8 Codec.signedHash)).dec b with
    | none => none
    | some (l, _) => some l

end Manul
