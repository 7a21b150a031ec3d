import Verif.Spec.Scheme
import Verif.Model.Extend

/-!
# Specification: executions in which one party deviates from the protocol

A party sends direct messages that the others reject, with a provable error, in one stage; up to then it sends what the protocol
says, and it goes on with the execution as if nothing had happened.
-/

namespace Manul

variable {sp : SP} {P : Proto sp}

/-- The error is recorded as a provable one. -/
def RecvErr.Provable : RecvErr sp → Prop
  | .invalidDirect => True
  | .protocol _ (.ok _) => True
  | _ => False

/-- What a party is charged with: the errors its messages cause, and the evidence made of them. -/
structure Charge (sp : SP) where
  error : RecvErr sp → Prop
  evidence : Evidence sp → Prop

/-- The session can make the evidence it needs of the errors, in messages of a party it expects a message from. -/
structure MakesEvidence (ch : Charge sp) (s : Session P) : Prop where
  protocol : ∀ (vm : VerifiedMessage sp) req ser, ch.error (.protocol req (.ok ser)) → s.comm.expecting.contains vm.sender = true →
    Authentic vm.sender s.sessionId s.transition.id vm.direct vm.echo vm.normal →
    s.round.receive vm.sender vm.dyn = .error (.protocol req (.ok ser)) →
    ∃ ev, Evidence.newProvableError vm.sender vm.echo vm.normal vm.direct req (.ok ser) s.transcript = .ok ev ∧ ch.evidence ev
  malformed : ∀ (vm : VerifiedMessage sp), ch.error .invalidDirect → s.comm.expecting.contains vm.sender = true →
    Authentic vm.sender s.sessionId s.transition.id vm.direct vm.echo vm.normal →
    s.round.receive vm.sender vm.dyn = .error .invalidDirect → ch.evidence ⟨vm.sender, .invalidDirect vm.direct⟩

/-- Both outcomes of stage `k` are results, or both are rounds that are like each other. -/
def LikeOutcome {Rd Res : Type} (like : Nat → Rd → Rd → Prop) (k : Nat) : Outcome Rd Res → Outcome Rd Res → Prop
  | .result _, .result _ => True
  | .anotherRound q, .anotherRound q' => like (k + 1) q q'
  | _, _ => False

/-- The group `g` is that of the scheme except that party `t` deviates in stage `K`: its rounds are like (in the given sense, at
each stage) those of the protocol, except that they make other direct messages from stage `K` on; those of stage `K` are rejected
by everybody, who can make evidence of this as described by `ch`. -/
structure Deviation (sc : Scheme P) (g : Group P) (t : sp.Id) (K : Nat) (ch : Charge sp) (like : Nat → P.Rd → P.Rd → Prop) : Prop where
  parties : g.parties = sc.g.parties
  signer : g.signer = sc.g.signer
  sid : g.sid = sc.g.sid
  ep : ∀ i, i ≠ t → g.ep i = sc.g.ep i
  party : sc.g.parties.contains t = true
  stage : K < sc.n
  expected : ∀ i, sc.g.parties.contains i = true → i ≠ t → (sc.expects K i).contains t = true
  start : ∀ rng r, (sc.g.ep t).makeRound rng sc.g.sid t = .ok r →
    ∃ r', (g.ep t).makeRound rng sc.g.sid t = .ok r' ∧ like 0 r r'
  transition : ∀ {k r r'}, like k r r' → P.transition r' = P.transition r
  comm : ∀ {k r r'}, like k r r' → P.comm r' = P.comm r
  makeEcho : ∀ {k r r'}, like k r r' → ∀ rng, P.makeEcho r' rng = P.makeEcho r rng
  makeNormal : ∀ {k r r'}, like k r r' → ∀ rng, P.makeNormal r' rng = P.makeNormal r rng
  receive : ∀ {k r r'}, like k r r' → ∀ x m, P.receive r' x m = P.receive r x m
  makeDirect : ∀ {k r r'}, like k r r' → ∀ rng j p art, P.makeDirect r rng j = .ok (p, art) →
    ∃ p', P.makeDirect r' rng j = .ok (p', art) ∧ (k < K → p' = p)
  finalize : ∀ {k r r'}, like k r r' → ∀ rng ps as o, P.finalize r rng ps as = .ok o →
    ∃ o', P.finalize r' rng ps as = .ok o' ∧ LikeOutcome like k o o'
  rejected : ∀ (G : History P) i (ci ct : Cell P) r' rng p art, Honest sc.g G → sc.g.parties.contains i = true → i ≠ t →
    (G i)[K]? = some ci → (G t)[K]? = some ct → like K ct.rd r' → P.makeDirect r' rng i = .ok (p, art) →
    ∃ err, P.receive ci.rd t ⟨ct.echo, ct.normal, p⟩ = .error err ∧ err.Provable ∧ ch.error err
  evidence : ∀ i, sc.g.parties.contains i = true → i ≠ t → ∀ rng s₀,
    Session.new rng sc.g.sid (sc.g.signer i) (sc.g.ep i) = .ok s₀ → ∀ s a, Reach s₀ (.running s a) →
    s.transition.id = sc.rid K → MakesEvidence ch s

/-- The evidence is of a protocol error, or of a malformed direct message, of party `t`. -/
def Evidence.Accuses (t : sp.Id) (ev : Evidence sp) : Prop :=
  ev.guilty = t ∧ ((∃ p, ev.body = .invalidDirect p) ∨ ∃ pe, ev.body = .protocol pe)

/-- The report has exactly one error, a provable one of party `t`; the evidence is as described by `ch`. -/
def Report.Blames (ch : Charge sp) (t : sp.Id) (r : Report P) : Prop :=
  (∀ x, r.unprovable.get? x = none) ∧
    ∃ ev, ch.evidence ev ∧ ev.Accuses t ∧ ∀ x, r.provable.get? x = if x = t then some ev else none

/-- What is found when party `t` deviates: everybody has a report; `t` reports no errors, and the reports of all others have exactly
one error, a provable one of `t`. -/
def ReportsBlame (ch : Charge sp) (parties : BSet sp.Id) (t : sp.Id) (reports : BMap sp.Id (Report P)) : Prop :=
  (∀ i, reports.contains i = parties.contains i) ∧
  ∀ i rep, reports.get? i = some rep → (i ≠ t → rep.Blames ch t) ∧
    (i = t → (∀ x, rep.provable.get? x = none) ∧ ∀ x, rep.unprovable.get? x = none)

/-- The parties execute the protocol with `ExtendableEntryPoint`s, each with its own extensions. -/
def Group.extended (g : Group P) {Tag : Type} (tag : P.Rd → Tag) (exts : sp.Id → Tag → Option (Ext P)) :
    Group (extend P (fun r => some (tag r))) where
  parties := g.parties
  signer := g.signer
  ep i := extendEntry (fun r => some (tag r)) (g.ep i) (exts i)
  sid := g.sid

/-- The same scheme, without extensions. -/
def Scheme.extended (sc : Scheme P) {Tag : Type} (tag : P.Rd → Tag) : Scheme (extend P (fun r => some (tag r))) where
  g := sc.g.extended tag (fun _ _ => none)
  rid := sc.rid
  echoAt := sc.echoAt
  n := sc.n
  dests := sc.dests
  expects := sc.expects
  part := sc.part

end Manul
