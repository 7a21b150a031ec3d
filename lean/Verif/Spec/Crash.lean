import Verif.Spec.Echo
import Verif.Spec.Order
import Verif.Spec.Assumptions

/-!
# Specification: local errors in a run
-/

namespace Manul

variable {sp : SP} {P : Proto sp}

/-- The local user code works: the methods of rounds satisfying the invariant do not fail when they are called for the parties
the round names, and such a round is only followed by one it declared, which satisfies the invariant again. -/
structure LocalOk (P : Proto sp) (I : P.Rd → Prop) : Prop where
  makeDirect : ∀ r rng d, I r → (P.comm r).destinations.contains d = true → ∃ x, P.makeDirect r rng d = .ok x
  makeEcho : ∀ r rng, I r → ∃ p, P.makeEcho r rng = .ok p
  makeNormal : ∀ r rng, I r → ∃ p, P.makeNormal r rng = .ok p
  receive : ∀ r x m e, I r → (P.comm r).expecting.contains x = true → P.receive r x m ≠ .error (.local e)
  finalize : ∀ r rng ps as, I r → FinalizeArgs P r ps as → ∃ o, P.finalize r rng ps as = .ok o ∧
    ∀ r', o = .anotherRound r' → I r' ∧ (P.transition r).children.contains (P.transition r').id = true

/-- The first round of the party satisfies the invariant. -/
def EntryPoint.Starts (ep : EntryPoint P) (sid : Bytes) (me : sp.Id) (I : P.Rd → Prop) : Prop :=
  ∀ rng r, ep.makeRound rng sid me = .ok r → I r

/-- Everything a protocol error of this round about a party it expects messages from asks for is in the transcript. -/
def Assembles (s : Session P) : Prop :=
  ∀ (vm : VerifiedMessage sp) req ser, s.comm.expecting.contains vm.sender = true →
    Authentic vm.sender s.sessionId s.transition.id vm.direct vm.echo vm.normal →
    s.round.receive vm.sender vm.dyn = .error (.protocol req ser) →
    ∃ ev, Evidence.newProvableError vm.sender vm.echo vm.normal vm.direct req ser s.transcript = .ok ev

/-- How an event makes a run in the round of `s`, entered with the messages `cached`, fail. -/
inductive CrashCause (s : Session P) (a : Accum P) (cached : List (VerifiedMessage sp)) : Event sp → LErr → Prop where
  /-- the incoming channel is closed -/
  | closed : CrashCause s a cached .close .channelClosed
  /-- a message from a party this round does not expect messages from -/
  | unexpected {x : sp.Id} {m : Message sp} : s.comm.expecting.contains x = false →
      Authentic x s.sessionId s.transition.id m.direct m.echo m.normal →
      CrashCause s a cached (.deliver x m) .unexpectedSender
  /-- a message of a party that has already sent one for this round in an earlier round -/
  | again {x : sp.Id} {m : Message sp} {vm : VerifiedMessage sp} : vm ∈ cached → vm.sender = x →
      a.payloads.contains x = true → Authentic x s.sessionId s.transition.id m.direct m.echo m.normal →
      CrashCause s a cached (.deliver x m) .dupPayload
  /-- the end of an echo round in which a party banned earlier, having sent a message for this round in advance, was banned
  again -/
  | bannedTwice {ev : Event sp} {e : EchoRd P} {x : sp.Id} {vm : VerifiedMessage sp} {err : LErr} :
      (ev = .cancel ∨ ∃ rng, ev = .tick rng) → s.round = .echo e → vm ∈ cached → vm.sender = x →
      s.transcript.isBanned x = true → a.isBanned x = true → (err = .transcriptProvable ∨ err = .transcriptUnprovable) →
      CrashCause s a cached ev err
  /-- a message sent in advance by a party the next round does not expect messages from -/
  | cachedUnexpected {rng : sp.Rng} {s' : Session P} {cached' : List (VerifiedMessage sp)} {vm : VerifiedMessage sp} :
      s.finalizeRound (sp.fork rng 0) a = .ok (.anotherRound s' cached') → vm ∈ cached' →
      s'.comm.expecting.contains vm.sender = false → CrashCause s a cached (.tick rng) .unexpectedSender

/-- A properly signed message for this round of a party that has no error and has not delivered a message in this round. -/
def Taken (s : Session P) (a : Accum P) (x : sp.Id) (m : Message sp) : Prop :=
  ¬ HasError s a x ∧ a.processing.contains x = false ∧ Authentic x s.sessionId s.transition.id m.direct m.echo m.normal

/-- The events that close a round: cancelling while waiting, and the tick after enough (or too few) messages have arrived. -/
def Closes (a : Accum P) (ev : Event sp) : Prop :=
  (ev = .cancel ∧ a.canFinalize = .notYet) ∨ ∃ rng, ev = .tick rng ∧ a.canFinalize ≠ .notYet

/-- The events that make a running session fail, with the error reported. -/
inductive CrashesWith (s : Session P) (a : Accum P) : Event sp → LErr → Prop where
  | closed : a.canFinalize = .notYet → CrashesWith s a .close .channelClosed
  | unexpected {x : sp.Id} {m : Message sp} : a.canFinalize = .notYet → Taken s a x m → s.comm.expecting.contains x = false →
      CrashesWith s a (.deliver x m) .unexpectedSender
  | again {x : sp.Id} {m : Message sp} : a.canFinalize = .notYet → Taken s a x m → a.payloads.contains x = true →
      CrashesWith s a (.deliver x m) .dupPayload
  | provableTwice {ev : Event sp} {x : sp.Id} : Closes a ev → s.transcript.provable.contains x = true →
      a.provable.contains x = true → CrashesWith s a ev .transcriptProvable
  | unprovableTwice {ev : Event sp} {x : sp.Id} : Closes a ev →
      (∀ y, s.transcript.provable.contains y = true → a.provable.contains y = false) →
      s.transcript.unprovable.contains x = true → a.unprovable.contains x = true → CrashesWith s a ev .transcriptUnprovable
  | cachedUnexpected {rng : sp.Rng} {s' : Session P} {cached : List (VerifiedMessage sp)} {vm : VerifiedMessage sp} :
      a.canFinalize = .yes → s.finalizeRound (sp.fork rng 0) a = .ok (.anotherRound s' cached) → vm ∈ cached →
      s'.comm.expecting.contains vm.sender = false → CrashesWith s a (.tick rng) .unexpectedSender

end Manul
