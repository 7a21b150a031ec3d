import Verif.Model.TestParams
import Verif.Spec.Assumptions
import Verif.Lemmas.Codec

/-! # The session parameters for tests: the operations work -/

namespace Manul

variable (R : RandomSource)

theorem testSignature_lawful : Codec.testSignature.Lawful :=
  Codec.iso_lawful (Codec.prod_lawful Codec.u8_lawful Codec.varint_lawful) _ _ (fun _ => rfl)

theorem test_signCorrect : (testParams R).SignCorrect := by
  intro s r d sig h
  cases h
  exact (fun s : U8 => decide_eq_true (rfl : s = s)) s

theorem test_sigRoundTrip : (testParams R).SigRoundTrip := by
  intro s b h
  cases h
  have := testSignature_lawful s []
  simp only [List.append_nil] at this
  show (match Codec.testSignature.dec (Codec.testSignature.enc s) with
    | none => none
    | some (l, _) => some l) = some s
  rw [this]

theorem test_metaPrefixFree : (testParams R).MetaPrefixFree := by
  intro m m' b b' r r' h h' e
  cases h
  cases h'
  exact Codec.metadata_lawful.cancel e

theorem test_echoRoundTrip : (testParams R).EchoRoundTrip := by
  intro l b h
  cases h
  have := Codec.list_lawful (Codec.prod_lawful Codec.u8_lawful Codec.signedHash_lawful) l []
  simp only [List.append_nil] at this
  show (match (Codec.list (Codec.prod Codec.u8 Codec.signedHash)).dec
      ((Codec.list (Codec.prod Codec.u8 Codec.signedHash)).enc l) with
    | none => none
    | some (l, _) => some l) = some l
  rw [this]

theorem test_envOk : (testParams R).EnvOk where
  sign := fun _ _ _ => ⟨_, rfl⟩
  serSig := fun _ => ⟨_, rfl⟩
  serMeta := fun _ => ⟨_, rfl⟩
  serEcho := fun _ => ⟨_, rfl⟩

end Manul
