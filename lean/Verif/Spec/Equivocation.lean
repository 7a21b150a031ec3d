import Verif.Spec.Open

/-!
# Specification: what becomes of broadcasts that differ
-/

namespace Manul

variable {sp : SP} {P : Proto sp}

/-- What the echo round `e` of a party can make of a message that was made in the echo round `e'` of party `j`; both belong to the
round `rid` of the session `sid`. -/
inductive EchoVerdict (H : sp.Id → Prop) (sid : Bytes) (rid : RoundId) (e e' : EchoRd P) (j : sp.Id) :
    Except (RecvErr sp) (Option P.Payload) → Prop where
  /-- it is accepted, and both hold the same broadcasts -/
  | agree : (NoCollision e' e → ∀ k, e.info.expectedEchos.contains k = true → k ≠ j → SameBroadcast e' e k) →
      EchoVerdict H sid rid e e' j (.ok none)
  /-- it shows that somebody who does not follow the protocol has signed two broadcasts for the round -/
  | caught {k : sp.Id} {w w' : SignedPart .echo} : ¬ H k → k ≠ j → e.echoBroadcasts.get? k = some w →
      e'.echoBroadcasts.get? k = some w' → AuthenticPart k sid rid w → AuthenticPart k sid rid w' →
      sp.partHash w'.part ≠ sp.partHash w.part → EchoVerdict H sid rid e e' j (.error (.echo (.mismatched k w (w'.toSignedHash sp))))
  /-- the two do not expect broadcasts of the same parties -/
  | missing {k : sp.Id} : k ≠ j → e.info.expectedEchos.contains k = true → e'.info.expectedEchos.contains k = false →
      EchoVerdict H sid rid e e' j (.error (.unprovable .missingEchos))
  | extra {k : sp.Id} : k ≠ j → e.info.expectedEchos.contains k = false → e'.info.expectedEchos.contains k = true →
      EchoVerdict H sid rid e e' j (.error (.unprovable .extraEchos))

/-- The evidence shows that `k` has signed two different broadcasts for the round `rid` of the session `sid`. -/
def TwoBroadcasts (k : sp.Id) (sid : Bytes) (rid : RoundId) (ev : Evidence sp) : Prop :=
  ∃ w w' : SignedPart .echo, ev = ⟨k, .mismatched k w (w'.toSignedHash sp)⟩ ∧ AuthenticPart k sid rid w ∧
    AuthenticPart k sid rid w' ∧ sp.partHash w'.part ≠ sp.partHash w.part

/-- Party `x` has sent the message in the round with the given id, except that the direct message may have been for somebody
else, and party `i` has refused it in a round that is not an echo round. -/
def Refused (g : Group P) (i x : sp.Id) : Prop :=
  ∃ s r m err, VisitedBy g i s ∧ s.round = .main r ∧ SentTogether g x s.transition.id m ∧ P.receive r x m = .error err

end Manul
