import Verif.Spec.Extend
import Verif.Lemmas.Run

/-!
# A protocol with its round objects put into other ones

If every method of the new round objects is that of the round object inside, then every function of the session commutes
with the map between the round objects.
-/

namespace Manul

/-- Other round objects for a protocol. -/
structure Reshape {sp : SP} (Q : Proto sp) where
  Rd : Type
  transition : Rd → TransitionInfo
  comm : Rd → CommInfo sp.Id
  makeDirect : Rd → sp.Rng → sp.Id → Except LErr (Part .direct × Q.Artifact)
  makeEcho : Rd → sp.Rng → Except LErr (Part .echo)
  makeNormal : Rd → sp.Rng → Except LErr (Part .normal)
  receive : Rd → sp.Id → DynMsg → Except (RecvErr sp) Q.Payload
  finalize : Rd → sp.Rng → BMap sp.Id Q.Payload → BMap sp.Id Q.Artifact → Except LErr (Outcome Rd Q.Result)
  /-- the new round object of a round -/
  rd : Q.Rd → Rd

namespace Reshape

variable {sp : SP} {Q : Proto sp} (E : Reshape Q)

/-- the protocol with the new round objects -/
abbrev X : Proto sp where
  Rd := E.Rd
  Payload := Q.Payload
  Artifact := Q.Artifact
  Result := Q.Result
  Shared := Q.Shared
  transition := E.transition
  comm := E.comm
  makeDirect := E.makeDirect
  makeEcho := E.makeEcho
  makeNormal := E.makeNormal
  receive := E.receive
  finalize := E.finalize
  roundInfo := Q.roundInfo

def ac (a : Accum Q) : Accum E.X :=
  ⟨a.notSent, a.expecting, a.processing, a.payloads, a.artifacts, a.cached, a.echos, a.normals, a.directs, a.provable,
    a.unprovable⟩

def er (e : EchoRd Q) : EchoRd E.X := ⟨e.verifier, e.echoBroadcasts, e.info, E.rd e.main, e.payloads, e.artifacts⟩

def sr : SRound Q → SRound E.X
  | .main r => .main (E.rd r)
  | .echo e => .echo (er E e)

def se (s : Session Q) : Session E.X :=
  ⟨s.sessionId, s.signer, s.me, sr E s.round, s.comm, s.echoInfo, s.echo, s.normal, s.transition, s.transcript⟩

def re (r : Report Q) : Report E.X := ⟨r.outcome, r.provable, r.unprovable, r.missing⟩

def pr (p : Processed Q) : Processed E.X := ⟨p.message, p.result⟩

def pa (p : ProcessedArtifact Q) : ProcessedArtifact E.X := ⟨p.destination, p.artifact⟩

def oc : Outcome Q.Rd Q.Result → Outcome E.Rd Q.Result
  | .result r => .result r
  | .anotherRound r => .anotherRound (E.rd r)

def ro : RoundOutcome Q → RoundOutcome E.X
  | .finished r => .finished (re E r)
  | .anotherRound s c => .anotherRound (se E s) c

def st : RunState Q → RunState E.X
  | .running s a => .running (se E s) (ac E a)
  | .done (.error e) => .done (.error e)
  | .done (.ok r) => .done (.ok (re E r))

/-- The methods of a new round object are those of the round. -/
structure Ok : Prop where
  transition : ∀ r, E.transition (E.rd r) = Q.transition r
  comm : ∀ r, E.comm (E.rd r) = Q.comm r
  makeDirect : ∀ r rng d, E.makeDirect (E.rd r) rng d = Q.makeDirect r rng d
  makeEcho : ∀ r rng, E.makeEcho (E.rd r) rng = Q.makeEcho r rng
  makeNormal : ∀ r rng, E.makeNormal (E.rd r) rng = Q.makeNormal r rng
  receive : ∀ r x m, E.receive (E.rd r) x m = Q.receive r x m
  finalize : ∀ r rng ps as, E.finalize (E.rd r) rng ps as = (Q.finalize r rng ps as).map E.oc

set_option linter.unusedSectionVars false

variable {E} (ok : E.Ok)
include ok

theorem sr_transition (r : SRound Q) : (sr E r).transition = r.transition := by
  cases r with
  | main r => simp only [sr, SRound.transition, ok.transition]
  | echo e => simp only [sr, er, SRound.transition, EchoRd.transition, ok.transition]

theorem sr_comm (r : SRound Q) : (sr E r).comm = r.comm := by
  cases r with
  | main r => exact ok.comm r
  | echo e => rfl

theorem sr_makeDirect (r : SRound Q) (rng : sp.Rng) (d : sp.Id) : (sr E r).makeDirect rng d = r.makeDirect rng d := by
  cases r with
  | echo e => rfl
  | main r =>
    simp only [sr, SRound.makeDirect, ok.makeDirect]
    generalize Q.makeDirect r rng d = x
    cases x <;> rfl

theorem sr_makeEcho (r : SRound Q) (rng : sp.Rng) : (sr E r).makeEcho rng = r.makeEcho rng := by
  cases r with
  | echo e => rfl
  | main r => exact ok.makeEcho r rng

theorem sr_makeNormal (r : SRound Q) (rng : sp.Rng) : (sr E r).makeNormal rng = r.makeNormal rng := by
  cases r with
  | echo e => rfl
  | main r => exact ok.makeNormal r rng

theorem sr_receive (r : SRound Q) (who : sp.Id) (m : DynMsg) : (sr E r).receive who m = r.receive who m := by
  cases r with
  | main r =>
    simp only [sr, SRound.receive, ok.receive]
    generalize Q.receive r who m = x
    cases x <;> rfl
  | echo e =>
    simp only [sr, SRound.receive]
    rw [show (er E e).receive who m = e.receive who m from rfl]

theorem sr_finalizeMain (r : Q.Rd) (rng : sp.Rng) (ps : BMap sp.Id (Option Q.Payload))
    (as : BMap sp.Id (Option Q.Artifact)) :
    SRound.finalizeMain (P := E.X) (E.rd r) rng ps as = (SRound.finalizeMain (P := Q) r rng ps as).map E.oc := by
  unfold SRound.finalizeMain
  cases downcastAll ps with
  | error e => rfl
  | ok p =>
    cases downcastAll as with
    | error e => rfl
    | ok a => exact ok.finalize r rng p a

theorem sr_finalize (r : SRound Q) (rng : sp.Rng) (ps : BMap sp.Id (Option Q.Payload))
    (as : BMap sp.Id (Option Q.Artifact)) :
    (sr E r).finalize rng ps as = (r.finalize rng ps as).map (oc E) := by
  cases r with
  | main r => exact sr_finalizeMain ok r rng ps as
  | echo e => exact sr_finalizeMain ok e.main rng e.payloads e.artifacts

/-! ## Accumulators -/

theorem canFinalize (a : Accum Q) : (ac E a).canFinalize = a.canFinalize := rfl

theorem registerUnprovable (a : Accum Q) (who : sp.Id) (e : RErr) :
    (ac E a).registerUnprovable who e = (a.registerUnprovable who e).map (ac E) := by
  show (if a.unprovable.contains who then _ else _) = Except.map _ (if a.unprovable.contains who then _ else _)
  cases a.unprovable.contains who <;> rfl

theorem registerProvable (a : Accum Q) (who : sp.Id) (e : Evidence sp) :
    (ac E a).registerProvable who e = (a.registerProvable who e).map (ac E) := by
  show (if a.provable.contains who then _ else _) = Except.map _ (if a.provable.contains who then _ else _)
  cases a.provable.contains who <;> rfl

theorem markProcessing (a : Accum Q) (m : VerifiedMessage sp) :
    (ac E a).markProcessing m = (a.markProcessing m).map (ac E) := by
  show (if a.processing.contains m.sender then _ else _) =
    Except.map _ (if a.processing.contains m.sender then _ else _)
  cases a.processing.contains m.sender <;> rfl

theorem addArtifact (a : Accum Q) (p : ProcessedArtifact Q) :
    (ac E a).addArtifact (pa E p) = (a.addArtifact p).map (ac E) := by
  show (if a.artifacts.contains p.destination then _ else _) =
    Except.map _ (if a.artifacts.contains p.destination then _ else _)
  cases a.artifacts.contains p.destination <;> rfl

theorem cacheMessage (a : Accum Q) (m : VerifiedMessage sp) :
    (ac E a).cacheMessage m = (a.cacheMessage m).map (ac E) := by
  show (if ((a.cached.get? m.sender).getD BMap.empty).contains m.metadata.roundId then _ else _) =
    Except.map _ (if ((a.cached.get? m.sender).getD BMap.empty).contains m.metadata.roundId then _ else _)
  cases ((a.cached.get? m.sender).getD BMap.empty).contains m.metadata.roundId <;> rfl

theorem addProcessed (t : Transcript sp) (a : Accum Q) (p : Processed Q) :
    Accum.addProcessed t (ac E a) (pr E p) = (Accum.addProcessed t a p).map (ac E) := by
  obtain ⟨m, res⟩ := p
  unfold Accum.addProcessed
  show (if a.payloads.contains m.sender then _ else if a.notSent.contains m.sender = false then _ else _) =
    Except.map _ (if a.payloads.contains m.sender then _ else if a.notSent.contains m.sender = false then _ else _)
  by_cases h1 : a.payloads.contains m.sender = true
  · rw [if_pos h1, if_pos h1]; rfl
  rw [if_neg h1, if_neg h1]
  by_cases h2 : a.notSent.contains m.sender = false
  · rw [if_pos h2, if_pos h2]; rfl
  rw [if_neg h2, if_neg h2]
  cases res with
  | ok v => rfl
  | error e =>
    cases e with
    | «local» e => rfl
    | invalidDirect => exact registerProvable ok { a with notSent := a.notSent.erase m.sender } _ _
    | invalidEcho => exact registerProvable ok { a with notSent := a.notSent.erase m.sender } _ _
    | invalidNormal => exact registerProvable ok { a with notSent := a.notSent.erase m.sender } _ _
    | unprovable e => rfl
    | echo e => exact registerProvable ok { a with notSent := a.notSent.erase m.sender } _ _
    | protocol rq ser =>
      show (match Evidence.newProvableError m.sender m.echo m.normal m.direct rq ser t with
        | .error e => .error e
        | .ok ev => _) = Except.map _ (match Evidence.newProvableError m.sender m.echo m.normal m.direct rq ser t with
        | .error e => .error e
        | .ok ev => _)
      cases Evidence.newProvableError m.sender m.echo m.normal m.direct rq ser t with
      | error e => rfl
      | ok ev => exact registerProvable ok { a with notSent := a.notSent.erase m.sender } _ _

/-! ## Sessions -/

theorem newForNextRound (rng : sp.Rng) (sid : Bytes) (signer : sp.Signer) (r : SRound Q)
   
    (t : Transcript sp) :
    Session.newForNextRound rng sid signer (sr E r) t =
      (Session.newForNextRound rng sid signer r t).map (se E) := by
  unfold Session.newForNextRound
  rw [sr_transition ok, sr_comm ok]
  cases r.transition with
  | error e => rfl
  | ok tr =>
    simp only [sr_makeEcho ok r, sr_makeNormal ok r]
    cases (if r.comm.destinations.isEmpty then Except.ok Part.none else r.makeEcho (sp.fork rng 0)) with
    | error e => rfl
    | ok echo =>
      simp only
      cases SignedPart.new sp (sp.fork rng 1) signer sid tr.id echo with
      | error e => rfl
      | ok signedEcho =>
        simp only
        cases (if r.comm.destinations.isEmpty then Except.ok Part.none else r.makeNormal (sp.fork rng 2)) with
        | error e => rfl
        | ok normal =>
          simp only
          cases SignedPart.new sp (sp.fork rng 3) signer sid tr.id normal with
          | error e => rfl
          | ok sn => rfl

theorem new (rng : sp.Rng) (sid : Bytes) (signer : sp.Signer) (ep : EntryPoint Q) (ep' : EntryPoint E.X)
    (he : ∀ rng sid x, ep'.makeRound rng sid x = (ep.makeRound rng sid x).map E.rd) :
    Session.new rng sid signer ep' = (Session.new rng sid signer ep).map (se E) := by
  unfold Session.new
  rw [he]
  cases h : ep.makeRound (sp.fork rng 0) sid (sp.verifyingKey signer) with
  | error e => rfl
  | ok r => exact newForNextRound ok _ _ _ (.main r) _

theorem makeMessage (s : Session Q) (rng : sp.Rng) (d : sp.Id) :
    (se E s).makeMessage rng d = (s.makeMessage rng d).map (fun x => (x.1, pa E x.2)) := by
  unfold Session.makeMessage
  have h := sr_makeDirect ok s.round (sp.fork rng 0) d
  rw [show (se E s).round.makeDirect (sp.fork rng 0) d = s.round.makeDirect (sp.fork rng 0) d from h]
  cases s.round.makeDirect (sp.fork rng 0) d with
  | error e => rfl
  | ok x =>
    obtain ⟨direct, art⟩ := x
    show (match Message.new (sp.fork rng 1) s.signer s.sessionId s.transition.id d direct s.echo s.normal with
      | .error e => _
      | .ok m => _) = Except.map _
      (match Message.new (sp.fork rng 1) s.signer s.sessionId s.transition.id d direct s.echo s.normal with
      | .error e => _
      | .ok m => _)
    cases Message.new (sp.fork rng 1) s.signer s.sessionId s.transition.id d direct s.echo s.normal <;> rfl

theorem reject (a : Accum Q) (who : sp.Id) (e : RErr) :
    Session.reject (ac E a) who e = (Session.reject a who e).map (fun x => (ac E x.1, x.2)) := by
  unfold Session.reject
  rw [registerUnprovable ok]
  cases a.registerUnprovable who e <;> rfl

theorem verifyAndRoute (a : Accum Q) (who : sp.Id) (m : CheckedMessage) (b : Bool) :
    Session.verifyAndRoute (ac E a) who m b =
      (Session.verifyAndRoute a who m b).map (fun x => (ac E x.1, x.2)) := by
  unfold Session.verifyAndRoute
  cases m.verify sp who with
  | error e =>
    cases e with
    | «local» e => rfl
    | invalidSignature => exact reject ok _ _ _
    | signatureMismatch => exact reject ok _ _ _
  | ok vm =>
    cases b with
    | true =>
      simp only [if_true]
      rw [markProcessing ok]
      cases a.markProcessing vm <;> rfl
    | false =>
      simp only [Bool.false_eq_true, if_false]
      rw [cacheMessage ok]
      cases a.cacheMessage vm <;> rfl

theorem preprocess (s : Session Q) (a : Accum Q) (who : sp.Id) (m : Message sp) :
    (se E s).preprocess (ac E a) who m =
      (s.preprocess a who m).map (fun x => (ac E x.1, x.2)) := by
  unfold Session.preprocess
  show (if s.transcript.isBanned who || a.isBanned who then _ else _) =
    Except.map _ (if s.transcript.isBanned who || a.isBanned who then _ else _)
  cases s.transcript.isBanned who || a.isBanned who with
  | true => rfl
  | false =>
    simp only [Bool.false_eq_true, if_false]
    cases m.unifyMetadata with
    | none => exact reject ok _ _ _
    | some c =>
      simp only
      show (if c.metadata.sessionId ≠ s.sessionId then _ else _) =
        Except.map _ (if c.metadata.sessionId ≠ s.sessionId then _ else _)
      by_cases hs : c.metadata.sessionId ≠ s.sessionId
      · rw [if_pos hs, if_pos hs]; exact reject ok _ _ _
      rw [if_neg hs, if_neg hs]
      show (match s.transition.simultaneousRounds s.echoInfo.isSome with | .error e => _ | .ok acceptable => _) =
        Except.map _ (match s.transition.simultaneousRounds s.echoInfo.isSome with | .error e => _ | .ok acceptable => _)
      cases s.transition.simultaneousRounds s.echoInfo.isSome with
      | error e => rfl
      | ok acc =>
        simp only
        show (if c.metadata.roundId = s.roundId then (if a.isProcessing who then _ else _) else _) =
          Except.map _ (if c.metadata.roundId = s.roundId then (if a.isProcessing who then _ else _) else _)
        by_cases hr : c.metadata.roundId = s.roundId
        · rw [if_pos hr, if_pos hr]
          cases a.isProcessing who with
          | true => exact reject ok _ _ _
          | false => exact verifyAndRoute ok _ _ _ _
        rw [if_neg hr, if_neg hr]
        show (if acc.contains c.metadata.roundId then (if a.isCached who c.metadata.roundId then _ else _) else _) =
          Except.map _
            (if acc.contains c.metadata.roundId then (if a.isCached who c.metadata.roundId then _ else _) else _)
        cases acc.contains c.metadata.roundId with
        | false => exact reject ok _ _ _
        | true =>
          simp only [if_true]
          cases a.isCached who c.metadata.roundId with
          | true => exact reject ok _ _ _
          | false => exact verifyAndRoute ok _ _ _ _

theorem process (s : Session Q) (m : VerifiedMessage sp) :
    (se E s).process m = pr E (s.process m) := by
  show (⟨m, (sr E s.round).receive m.sender m.dyn⟩ : Processed E.X) = ⟨m, s.round.receive m.sender m.dyn⟩
  rw [sr_receive ok]

theorem terminateInner (s : Session Q) (a : Accum Q) (b : Bool) :
    (se E s).terminateInner (ac E a) b = (s.terminateInner a b).map (re E) := by
  unfold Session.terminateInner
  rw [show (se E s).updatedTranscript (ac E a) = s.updatedTranscript a from rfl]
  cases s.updatedTranscript a <;> rfl

theorem startEcho (s : Session Q) (rng : sp.Rng) (a : Accum Q) (t : Transcript sp)
    (info : EchoInfo sp.Id) (r : Q.Rd) :
    (se E s).startEcho rng (ac E a) t info (E.rd r) =
      (s.startEcho rng a t info r).map (ro E) := by
  unfold Session.startEcho
  show (match t.echoBroadcasts s.roundId with | .error e => _ | .ok ebs => _) =
    Except.map _ (match t.echoBroadcasts s.roundId with | .error e => _ | .ok ebs => _)
  cases t.echoBroadcasts s.roundId with
  | error e => rfl
  | ok ebs =>
    simp only
    have h1 := sr_transition ok (.echo ⟨s.me, ebs, info, r, a.payloads, a.artifacts⟩)
    have h2 := newForNextRound ok rng s.sessionId s.signer (.echo ⟨s.me, ebs, info, r, a.payloads, a.artifacts⟩) t
    rw [show (SRound.echo (P := E.X) ⟨(se E s).me, ebs, info, E.rd r, (ac E a).payloads,
        (ac E a).artifacts⟩) = sr E (.echo ⟨s.me, ebs, info, r, a.payloads, a.artifacts⟩) from rfl,
      h1, show (se E s).sessionId = s.sessionId from rfl, show (se E s).signer = s.signer from rfl, h2]
    cases (SRound.echo (P := Q) ⟨s.me, ebs, info, r, a.payloads, a.artifacts⟩).transition with
    | error e => rfl
    | ok tr =>
      simp only
      cases Session.newForNextRound (P := Q) rng s.sessionId s.signer
        (.echo ⟨s.me, ebs, info, r, a.payloads, a.artifacts⟩) t <;> rfl

theorem finalizeProper (s : Session Q) (rng : sp.Rng)
    (a : Accum Q) (t : Transcript sp) :
    (se E s).finalizeProper rng (ac E a) t =
      (s.finalizeProper rng a t).map (ro E) := by
  unfold Session.finalizeProper
  have h := sr_finalize ok s.round (sp.fork rng 0) a.payloads a.artifacts
  rw [show (se E s).round.finalize (sp.fork rng 0) (ac E a).payloads (ac E a).artifacts =
    (s.round.finalize (sp.fork rng 0) a.payloads a.artifacts).map (oc E) from h]
  cases hf : s.round.finalize (sp.fork rng 0) a.payloads a.artifacts with
  | error e => rfl
  | ok o =>
    cases o with
    | result r => rfl
    | anotherRound r =>
      have ht : (E.X.transition (E.rd r)).id = (Q.transition r).id := by rw [show E.X.transition (E.rd r) = _ from ok.transition r]
      show (if s.transition.children.contains (E.X.transition (E.rd r)).id = false then _ else _) =
        Except.map _ (if s.transition.children.contains (Q.transition r).id = false then _ else _)
      rw [ht]
      by_cases hc : s.transition.children.contains (Q.transition r).id = false
      · rw [if_pos hc, if_pos hc]; rfl
      rw [if_neg hc, if_neg hc]
      have h2 := newForNextRound ok (sp.fork rng 1) s.sessionId s.signer (.main r) t
      rw [show Session.newForNextRound (P := E.X) (sp.fork rng 1) (se E s).sessionId
        (se E s).signer (.main (E.rd r)) t = _ from h2]
      cases Session.newForNextRound (P := Q) (sp.fork rng 1) s.sessionId s.signer (.main r) t <;> rfl

theorem finalizeRound (s : Session Q) (rng : sp.Rng)
    (a : Accum Q) :
    (se E s).finalizeRound rng (ac E a) = (s.finalizeRound rng a).map (ro E) := by
  unfold Session.finalizeRound
  rw [show (se E s).updatedTranscript (ac E a) = s.updatedTranscript a from rfl]
  cases s.updatedTranscript a with
  | error e => rfl
  | ok t =>
    show (match s.echoInfo with | some info => _ | none => _) =
      Except.map _ (match s.echoInfo with | some info => _ | none => _)
    cases s.echoInfo with
    | none => exact finalizeProper ok s rng a t
    | some info =>
      simp only
      rw [show (se E s).round = sr E s.round from rfl]
      cases hm : s.round with
      | echo e => rfl
      | main r => exact startEcho ok s _ a t info r

/-! ## The driver -/

theorem applyVerified (s : Session Q) (a : Accum Q) (m : VerifiedMessage sp) :
    Manul.applyVerified (se E s) (ac E a) m = (Manul.applyVerified s a m).map (ac E) := by
  unfold Manul.applyVerified
  rw [process ok]
  exact addProcessed ok s.transcript a _

theorem foldVerified (s : Session Q) (l : List (VerifiedMessage sp)) : ∀ a : Accum Q,
    foldE (Manul.applyVerified (se E s)) (ac E a) l =
      (foldE (Manul.applyVerified s) a l).map (ac E) := by
  induction l with
  | nil => intro a; rfl
  | cons m l ih =>
    intro a
    unfold foldE
    rw [applyVerified ok]
    cases Manul.applyVerified s a m with
    | error e => rfl
    | ok a' => exact ih a'

theorem sendAll (s : Session Q) (rng : sp.Rng) (l : List sp.Id) :
    ∀ (i : Nat) (a : Accum Q),
      Manul.sendAll (se E s) rng i (ac E a) l =
        (Manul.sendAll s rng i a l).map (fun x => (ac E x.1, x.2)) := by
  induction l with
  | nil => intro i a; rfl
  | cons d l ih =>
    intro i a
    unfold Manul.sendAll
    rw [makeMessage ok s]
    cases s.makeMessage (sp.fork rng i) d with
    | error e => rfl
    | ok x =>
      obtain ⟨m, art⟩ := x
      simp only [Except.map]
      rw [addArtifact ok]
      cases a.addArtifact art with
      | error e => rfl
      | ok a' =>
        simp only [Except.map]
        rw [ih]
        cases Manul.sendAll s rng (i + 1) a' l <;> rfl

theorem startRound (s : Session Q) (rng : sp.Rng) (c : List (VerifiedMessage sp)) :
    Manul.startRound (se E s) rng c =
      (Manul.startRound s rng c).map (fun x => (ac E x.1, x.2)) := by
  unfold Manul.startRound
  have h := sendAll ok s rng s.destinations.elems 0 s.makeAccum
  rw [show Manul.sendAll (se E s) rng 0 (se E s).makeAccum (se E s).destinations.elems =
    (Manul.sendAll s rng 0 s.makeAccum s.destinations.elems).map (fun x => (ac E x.1, x.2)) from h]
  cases Manul.sendAll s rng 0 s.makeAccum s.destinations.elems with
  | error e => rfl
  | ok x =>
    obtain ⟨a, out⟩ := x
    simp only [Except.map]
    rw [foldVerified ok]
    cases foldE (Manul.applyVerified s) a c <;> rfl

theorem enterRound (s : Session Q) (rng : sp.Rng) (c : List (VerifiedMessage sp)) :
    Manul.enterRound (se E s) rng c =
      (st E (Manul.enterRound s rng c).1, (Manul.enterRound s rng c).2) := by
  unfold Manul.enterRound
  rw [startRound ok s]
  cases Manul.startRound s rng c <;> rfl

theorem finishRound (s : Session Q) (a : Accum Q)
    (rng : sp.Rng) :
    Manul.finishRound (se E s) (ac E a) rng =
      (st E (Manul.finishRound s a rng).1, (Manul.finishRound s a rng).2) := by
  unfold Manul.finishRound
  rw [finalizeRound ok s _ a]
  cases hf : s.finalizeRound (sp.fork rng 0) a with
  | error e => rfl
  | ok o =>
    cases o with
    | finished r => rfl
    | anotherRound s' c =>
      refine enterRound ok s' _ c

theorem deliver (s : Session Q) (a : Accum Q) (who : sp.Id) (m : Message sp) :
    Manul.deliver (se E s) (ac E a) who m = (Manul.deliver s a who m).map (ac E) := by
  unfold Manul.deliver
  rw [preprocess ok]
  cases s.preprocess a who m with
  | error e => rfl
  | ok x =>
    obtain ⟨a', o⟩ := x
    show (match o.ok? with | some vm => _ | none => _) = Except.map _ (match o.ok? with | some vm => _ | none => _)
    cases o.ok? with
    | none => rfl
    | some vm => exact applyVerified ok s a' vm

theorem step (x : RunState Q) (ev : Event sp) :
    Manul.step (st E x) ev = (Manul.step x ev).map (fun y => (st E y.1, y.2)) := by
  cases x with
  | done r => cases r <;> rfl
  | running s a =>
    simp only [st, Manul.step]
    rw [show (ac E a).canFinalize = a.canFinalize from rfl]
    have ht : Except.map (re E) (s.terminateDueToErrors a) =
        (se E s).terminateDueToErrors (ac E a) := (terminateInner ok s a false).symm
    cases hc : a.canFinalize <;> cases ev <;> try rfl
    · simp only [Option.map_some]
      rw [finishRound ok s a _]
      rfl
    · simp only
      rw [deliver ok]
      cases Manul.deliver s a _ _ <;> rfl
    · simp only [Option.map_some]
      rw [← ht]
      cases s.terminateDueToErrors a <;> rfl
    · simp only [Option.map_some]
      rw [← ht]
      cases s.terminateDueToErrors a <;> rfl

/-! ## Observations -/

theorem seen (x : RunState Q) : (st E x).seen = x.seen := by
  cases x with
  | running s a => rfl
  | done r => cases r <;> rfl

theorem play (evs : List (Event sp)) : ∀ x : RunState Q, Manul.play (st E x) evs = Manul.play x evs := by
  induction evs with
  | nil => intro x; rfl
  | cons ev evs ih =>
    intro x
    unfold Manul.play
    rw [step ok x]
    cases hs : Manul.step x ev with
    | none => exact congrArg (List.cons _) (ih x)
    | some y =>
      obtain ⟨y, out⟩ := y
      simp only [Option.map_some]
      rw [ih y]
      exact congrArg (fun z => some (out, z) :: Manul.play y evs) (seen ok y)

/-- A session of the protocol with the new round objects behaves as one of the protocol. -/
theorem behaviour (ep : EntryPoint Q) (ep' : EntryPoint E.X)
    (he : ∀ rng sid x, ep'.makeRound rng sid x = (ep.makeRound rng sid x).map E.rd)
    (sid : Bytes) (signer : sp.Signer) (rng rng' : sp.Rng) (evs : List (Event sp)) :
    Manul.behaviour ep' sid signer rng rng' evs = Manul.behaviour ep sid signer rng rng' evs := by
  unfold Manul.behaviour
  rw [new ok rng sid signer ep ep' he]
  cases hs : Session.new rng sid signer ep with
  | error e => rfl
  | ok s =>
    have h := enterRound ok s rng' []
    simp only [Except.map]
    rw [show start (se E s) rng' = _ from h]
    simp only
    rw [play ok evs]
    exact congrArg (fun x => Except.ok (((start s rng').2, x), Manul.play (start s rng').1 evs)) (seen ok (start s rng').1)

end Reshape

end Manul
