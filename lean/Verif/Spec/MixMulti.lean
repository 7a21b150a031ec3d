import Verif.Spec.MixOpen
import Verif.Spec.Multi

/-!
# Specification: several sessions at once, with either driver

The same parties, with the same keys, execute any number of sessions of any protocols, using `run_session` in some and
`par_run_session` in others (`drive k i`: party `i` uses `par_run_session` in session `k`).
-/

namespace Manul

variable {sp : SP} {K : Type}

/-- The states of all sessions. -/
abbrev MixNets (S : Sessions sp K) := (k : K) → MixNet (S.proto k)

/-- Signatures of the parties in `H` are not forged: whatever verifies under one of their keys for one of the sessions, they have
sent, in whichever session. -/
structure MixUnforgedAll (S : Sessions sp K) (H : sp.Id → Prop) (n : MixNets S) (m : Message sp) : Prop where
  direct : ∀ x k, H x → SigValid x m.direct → m.direct.metadata.sessionId = (S.group k).sid →
    ∃ k', ∃ q ∈ (n k').wire, q.src = x ∧ q.message.direct.metadata = m.direct.metadata ∧ q.message.direct.part = m.direct.part
  echo : ∀ x k, H x → SigValid x m.echo → m.echo.metadata.sessionId = (S.group k).sid →
    ∃ k', ∃ q ∈ (n k').wire, q.src = x ∧ q.message.echo.metadata = m.echo.metadata ∧ q.message.echo.part = m.echo.part
  normal : ∀ x k, H x → SigValid x m.normal → m.normal.metadata.sessionId = (S.group k).sid →
    ∃ k', ∃ q ∈ (n k').wire, q.src = x ∧ q.message.normal.metadata = m.normal.metadata ∧ q.message.normal.part = m.normal.part

/-- One step of a session in which only messages allowed by `may` are delivered (`MixOpenStep` for any condition on messages). -/
inductive MixStepIf {P : Proto sp} (may : Message sp → Prop) (g : Group P) (H : sp.Id → Prop) (par : sp.Id → Bool) :
    MixNet P → MixNet P → Prop where
  | startSeq {n : MixNet P} {i : sp.Id} (rng rng' : sp.Rng) : H i → par i = false → n.node i = none →
      MixStepIf may g H par n (n.put i (.seq (g.startNode i rng rng').1) (g.startNode i rng rng').2)
  | actSeq {n : MixNet P} {i : sp.Id} {st st' : RunState P} {ev : Event sp} {out : List (Message sp)} :
      n.node i = some (.seq st) → (∀ y m, ev = .deliver y m → may m) → step st ev = some (st', out) →
      MixStepIf may g H par n (n.put i (.seq st') out)
  | startFails {n : MixNet P} {i : sp.Id} {s₀ : Session P} {e : LErr} {out : List (Message sp)} (rng rng' : sp.Rng) : H i →
      par i = false → n.node i = none → Session.new rng g.sid (g.signer i) (g.ep i) = .ok s₀ → startRound s₀ rng' [] = .error e →
      (∀ m ∈ out, MadeIn s₀ m) → MixStepIf may g H par n (n.put i (.seq (.done (.error e))) out)
  | enterFails {n : MixNet P} {i : sp.Id} {s s' : Session P} {a : Accum P} {cached : List (VerifiedMessage sp)} {e : LErr}
      {out : List (Message sp)} (rng rng' : sp.Rng) : n.node i = some (.seq (.running s a)) → a.canFinalize = .yes →
      s.finalizeRound rng a = .ok (.anotherRound s' cached) → startRound s' rng' cached = .error e →
      (∀ m ∈ out, MadeIn s' m) → MixStepIf may g H par n (n.put i (.seq (.done (.error e))) out)
  | startPar {n : MixNet P} {i : sp.Id} (rng rng' : sp.Rng) : H i → par i = true → n.node i = none →
      MixStepIf may g H par n (n.put i (.par (g.startPar i rng rng')) [])
  | actPar {n : MixNet P} {i : sp.Id} {s : Session P} {st : ParSt P} {st' : ParState P} {ev : ParEvent sp}
      {out : List (Message sp)} : n.node i = some (.par (.running s st)) → (∀ y m, ev = .op (.deliver y m) → may m) →
      parStep (.running s st) ev = some st' → (∀ m ∈ out, ∃ o ∈ st.outgoing, taskMessage o = some m) →
      MixStepIf may g H par n (n.put i (.par st') out)

/-- One of the sessions makes a step. -/
inductive MixMultiStep [DecidableEq K] (S : Sessions sp K) (H : sp.Id → Prop) (drive : K → sp.Id → Bool) (n : MixNets S) :
    MixNets S → Prop where
  | step (k : K) {n' : MixNet (S.proto k)} : MixStepIf (MixUnforgedAll S H n) (S.group k) H (drive k) (n k) n' →
      MixMultiStep S H drive n (Function.update n k n')

/-- What the sessions can reach. -/
inductive MixMultiReach [DecidableEq K] (S : Sessions sp K) (H : sp.Id → Prop) (drive : K → sp.Id → Bool) : MixNets S → Prop where
  | init : MixMultiReach S H drive (fun _ => MixNet.init)
  | step {n n' : MixNets S} : MixMultiReach S H drive n → MixMultiStep S H drive n n' → MixMultiReach S H drive n'

end Manul
