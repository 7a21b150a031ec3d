import Verif.Model.Message

/-!
# Assumptions about the session parameters

Each theorem lists the ones it uses.  All of them hold for the concrete instance `toy`
(`Verif.Lemmas.Toy`).
-/

namespace Manul.SP

/-- A signature made with a key verifies under the corresponding verifying key. -/
def SignCorrect (sp : SP) : Prop :=
  ∀ s r d sig, sp.sign s r d = .ok sig → sp.verify (sp.verifyingKey s) d sig = true

/-- A serialized signature deserializes to itself. -/
def SigRoundTrip (sp : SP) : Prop := ∀ s b, sp.serSig s = .ok b → sp.deSig b = some s

/-- Serialization of metadata is injective. -/
def MetaInjective (sp : SP) : Prop := ∀ m m' b, sp.serMeta m = .ok b → sp.serMeta m' = .ok b → m = m'

/-- No serialized metadata is a proper prefix of another. -/
def MetaPrefixFree (sp : SP) : Prop :=
  ∀ m m' b b' r r', sp.serMeta m = .ok b → sp.serMeta m' = .ok b' → b ++ r = b' ++ r' → m = m' ∧ r = r'

/-- Serialization of metadata does not fail. -/
def MetaTotal (sp : SP) : Prop := ∀ m, ∃ b, sp.serMeta m = .ok b

/-- The hash has no collisions. -/
def HashInjective (sp : SP) : Prop := ∀ a b, sp.hash a = sp.hash b → a = b

/-- A serialized echo pack deserializes to itself. -/
def EchoRoundTrip (sp : SP) : Prop := ∀ l b, sp.serEchoSeq l = .ok b → sp.deEchoSeq b = some l

/-- Signing, and serialization of signatures, metadata and echo packs, never fails (the local environment works). -/
structure EnvOk (sp : SP) : Prop where
  sign : ∀ s r d, ∃ sig, sp.sign s r d = .ok sig
  serSig : ∀ s, ∃ b, sp.serSig s = .ok b
  serMeta : ∀ m, ∃ b, sp.serMeta m = .ok b
  serEcho : ∀ l, ∃ b, sp.serEchoSeq l = .ok b

end Manul.SP
