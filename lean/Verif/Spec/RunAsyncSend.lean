import Verif.Model.RunAsyncSend

/-!
# What a party in the middle of the beginning of a round is going to do
-/

namespace Manul

variable {sp : SP} {P : Proto sp}

/-- The driver that has made and processed everything at the beginning of the round is in this state, with these messages still
to be sent. -/
inductive Completes : SendState P → RunState P → List (Message sp) → Prop where
  | sending {s : Session P} {a a' a'' : Accum P} {cached : List (VerifiedMessage sp)} {rng : sp.Rng} {i : Nat} {ds : List sp.Id}
      {ms : List (Message sp)} : sendAll s rng i a ds = .ok (a', ms) → foldE (applyVerified s) a' cached = .ok a'' →
      Completes (.sending s a cached rng i ds) (.running s a'') ms
  | offering {s : Session P} {a a1 a' a'' : Accum P} {cached : List (VerifiedMessage sp)} {rng : sp.Rng} {i : Nat} {ds : List sp.Id}
      {ms : List (Message sp)} {m : MessageOut sp} {art : ProcessedArtifact P} : a.addArtifact art = .ok a1 →
      sendAll s rng (i + 1) a1 ds = .ok (a', ms) → foldE (applyVerified s) a' cached = .ok a'' → m.sender = s.me →
      m.dest = m.message.destination → Completes (.offering s a cached rng i ds m art) (.running s a'') (m.message :: ms)
  | applying {s : Session P} {a a' : Accum P} {cached : List (VerifiedMessage sp)} : foldE (applyVerified s) a cached = .ok a' →
      Completes (.applying s a cached) (.running s a') []
  | looping {s : Session P} {a : Accum P} : Completes (.looping s a) (.running s a) []
  | done {r : Report P} : Completes (.done (.ok r)) (.done (.ok r)) []

/-- The two models agree: the channels and the dispatcher are the same, the same parties have been started, and each of them is
going to be in its state of the coarser model, having sent the messages that are to be sent there. -/
structure SAsync.Sim (y : SAsync P) (x : Async P) : Prop where
  inbox : x.inbox = y.inbox
  chan : x.chan = y.chan
  disp : x.disp = y.disp
  none : ∀ i, y.node i = none ↔ x.node i = none
  node : ∀ i f st, y.node i = some f → x.node i = some st → Completes f st (x.outbox i)

/-- A party that has not returned. -/
def SendState.Busy (f : SendState P) : Prop := ∀ r, f ≠ .done r

end Manul
