import Verif.Spec.Assumptions
import Verif.Lemmas.Codec

/-! # The concrete instance satisfies the assumptions -/

namespace Manul

theorem toy_signCorrect : toy.SignCorrect := by
  intro s r d sig h
  cases h
  simp [toy]

theorem toy_sigRoundTrip : toy.SigRoundTrip := by
  intro s b h
  cases h
  rfl

theorem toy_metaPrefixFree : toy.MetaPrefixFree := by
  intro m m' b b' r r' h h' e
  cases h
  cases h'
  exact Codec.metadata_lawful.cancel e

theorem toy_metaInjective : toy.MetaInjective := by
  intro m m' b h h'
  exact (toy_metaPrefixFree m m' b b [] [] h h' rfl).1

theorem toy_metaTotal : toy.MetaTotal := fun _ => ⟨_, rfl⟩

theorem toy_hashInjective : toy.HashInjective := fun _ _ h => h

theorem toy_echoRoundTrip : toy.EchoRoundTrip := by
  intro l b h
  cases h
  have := Codec.list_lawful (Codec.prod_lawful Codec.u8_lawful Codec.signedHash_lawful) l []
  simp only [List.append_nil] at this
  show (match (Codec.list (Codec.prod Codec.u8 Codec.signedHash)).dec
      ((Codec.list (Codec.prod Codec.u8 Codec.signedHash)).enc l) with
    | none => none
    | some (l, _) => some l) = some l
  rw [this]

theorem toy_envOk : toy.EnvOk where
  sign := fun _ _ _ => ⟨_, rfl⟩
  serSig := fun _ => ⟨_, rfl⟩
  serMeta := fun _ => ⟨_, rfl⟩
  serEcho := fun _ => ⟨_, rfl⟩

end Manul
