import Verif.Spec.Extend
import Verif.Lemmas.Run

/-!
# The extended protocol simulates the overridden one

Every function of the session commutes with the map that wraps the round object.
-/

namespace Manul

namespace Lift

variable {sp : SP} {P : Proto sp} {Tag : Type} (tag : P.Rd → Tag) (exts exts₂ : Tag → Option (Ext P))

/-- the overridden protocol -/
abbrev Q := overridden P tag exts

/-- the protocol of wrapped rounds -/
abbrev X := extend P (fun r => some (tag r))

/-- wrapping a round -/
def rd (r : (Q tag exts).Rd) : (X tag).Rd := ⟨r, exts₂ (tag r), exts₂⟩

def ac (a : Accum (Q tag exts)) : Accum (X tag) :=
  ⟨a.notSent, a.expecting, a.processing, a.payloads, a.artifacts, a.cached, a.echos, a.normals, a.directs, a.provable,
    a.unprovable⟩

def er (e : EchoRd (Q tag exts)) : EchoRd (X tag) :=
  ⟨e.verifier, e.echoBroadcasts, e.info, rd tag exts exts₂ e.main, e.payloads, e.artifacts⟩

def sr : SRound (Q tag exts) → SRound (X tag)
  | .main r => .main (rd tag exts exts₂ r)
  | .echo e => .echo (er tag exts exts₂ e)

def se (s : Session (Q tag exts)) : Session (X tag) :=
  ⟨s.sessionId, s.signer, s.me, sr tag exts exts₂ s.round, s.comm, s.echoInfo, s.echo, s.normal, s.transition, s.transcript⟩

def re (r : Report (Q tag exts)) : Report (X tag) := ⟨r.outcome, r.provable, r.unprovable, r.missing⟩

def pr (p : Processed (Q tag exts)) : Processed (X tag) := ⟨p.message, p.result⟩

def pa (p : ProcessedArtifact (Q tag exts)) : ProcessedArtifact (X tag) := ⟨p.destination, p.artifact⟩

def oc : Outcome P.Rd P.Result → Outcome (ExtRd P Tag) P.Result
  | .result r => .result r
  | .anotherRound r => .anotherRound (rd tag exts exts₂ r)

def ro : RoundOutcome (Q tag exts) → RoundOutcome (X tag)
  | .finished r => .finished (re tag exts r)
  | .anotherRound s c => .anotherRound (se tag exts exts₂ s) c

def st : RunState (Q tag exts) → RunState (X tag)
  | .running s a => .running (se tag exts exts₂ s) (ac tag exts a)
  | .done (.error e) => .done (.error e)
  | .done (.ok r) => .done (.ok (re tag exts r))

/-- The two sets of extensions give the round the same methods. -/
def Ag (r : (Q tag exts).Rd) : Prop := (exts₂ (tag r)).getD (Ext.default P) = (exts (tag r)).getD (Ext.default P)

/-! ## Rounds -/

theorem makeDirect (r : P.Rd) (hr : Ag tag exts exts₂ r) : (X tag).makeDirect (rd tag exts exts₂ r) = (Q tag exts).makeDirect r := by
  show (match exts₂ (tag r) with | some e => e.makeDirect r | none => P.makeDirect r) = _
  show _ = ((exts (tag r)).getD (Ext.default P)).makeDirect r
  rw [← hr]
  cases exts₂ (tag r) <;> rfl

theorem makeEcho (r : P.Rd) (hr : Ag tag exts exts₂ r) : (X tag).makeEcho (rd tag exts exts₂ r) = (Q tag exts).makeEcho r := by
  show (match exts₂ (tag r) with | some e => e.makeEcho r | none => P.makeEcho r) = _
  show _ = ((exts (tag r)).getD (Ext.default P)).makeEcho r
  rw [← hr]
  cases exts₂ (tag r) <;> rfl

theorem makeNormal (r : P.Rd) (hr : Ag tag exts exts₂ r) : (X tag).makeNormal (rd tag exts exts₂ r) = (Q tag exts).makeNormal r := by
  show (match exts₂ (tag r) with | some e => e.makeNormal r | none => P.makeNormal r) = _
  show _ = ((exts (tag r)).getD (Ext.default P)).makeNormal r
  rw [← hr]
  cases exts₂ (tag r) <;> rfl

theorem finalize (r : P.Rd) (hr : Ag tag exts exts₂ r) (rng : sp.Rng) (ps : BMap sp.Id P.Payload)
    (as : BMap sp.Id P.Artifact) :
    (X tag).finalize (rd tag exts exts₂ r) rng ps as =
      ((Q tag exts).finalize r rng ps as).map (oc tag exts exts₂) := by
  show (match (match exts₂ (tag r) with
      | some e => e.finalize r rng ps as
      | none => P.finalize r rng ps as) with
    | .error e => .error e
    | .ok o => wrapOutcome (fun r => some (tag r)) exts₂ o) =
      (((exts (tag r)).getD (Ext.default P)).finalize r rng ps as).map (oc tag exts exts₂)
  have h : (match exts₂ (tag r) with
      | some e => e.finalize r rng ps as
      | none => P.finalize r rng ps as) = ((exts (tag r)).getD (Ext.default P)).finalize r rng ps as := by
    rw [← hr]
    cases exts₂ (tag r) <;> rfl
  rw [h]
  cases ((exts (tag r)).getD (Ext.default P)).finalize r rng ps as with
  | error e => rfl
  | ok o => cases o <;> rfl

theorem sr_transition (r : SRound (Q tag exts)) : (sr tag exts exts₂ r).transition = r.transition := by cases r <;> rfl

theorem sr_comm (r : SRound (Q tag exts)) : (sr tag exts exts₂ r).comm = r.comm := by cases r <;> rfl

theorem sr_makeDirect (r : SRound (Q tag exts)) (hr : Ag tag exts exts₂ r.inner) (rng : sp.Rng) (d : sp.Id) :
    (sr tag exts exts₂ r).makeDirect rng d = r.makeDirect rng d := by
  cases r with
  | echo e => rfl
  | main r =>
    have h := congrFun (congrFun (makeDirect tag exts exts₂ r hr) rng) d
    simp only [sr, SRound.makeDirect]
    rw [h]
    generalize (Q tag exts).makeDirect r rng d = x
    cases x <;> rfl

theorem sr_makeEcho (r : SRound (Q tag exts)) (hr : Ag tag exts exts₂ r.inner) (rng : sp.Rng) : (sr tag exts exts₂ r).makeEcho rng = r.makeEcho rng := by
  cases r with
  | echo e => rfl
  | main r => exact congrFun (makeEcho tag exts exts₂ r hr) rng

theorem sr_makeNormal (r : SRound (Q tag exts)) (hr : Ag tag exts exts₂ r.inner) (rng : sp.Rng) :
    (sr tag exts exts₂ r).makeNormal rng = r.makeNormal rng := by
  cases r with
  | echo e => rfl
  | main r => exact congrFun (makeNormal tag exts exts₂ r hr) rng

theorem sr_receive (r : SRound (Q tag exts)) (who : sp.Id) (m : DynMsg) :
    (sr tag exts exts₂ r).receive who m = r.receive who m := by
  cases r with
  | main r =>
    simp only [sr, SRound.receive]
    rw [show (X tag).receive (rd tag exts exts₂ r) who m = (Q tag exts).receive r who m from rfl]
    generalize (Q tag exts).receive r who m = x
    cases x <;> rfl
  | echo e =>
    simp only [sr, SRound.receive]
    rw [show (er tag exts exts₂ e).receive who m = e.receive who m from rfl]
    generalize e.receive who m = x
    cases x <;> rfl

theorem sr_finalizeMain (r : P.Rd) (hr : Ag tag exts exts₂ r) (rng : sp.Rng) (ps : BMap sp.Id (Option P.Payload))
    (as : BMap sp.Id (Option P.Artifact)) :
    SRound.finalizeMain (P := X tag) (rd tag exts exts₂ r) rng ps as =
      (SRound.finalizeMain (P := Q tag exts) r rng ps as).map (oc tag exts exts₂) := by
  unfold SRound.finalizeMain
  cases h1 : downcastAll ps with
  | error e =>
    rw [show downcastAll (V := (X tag).Payload) ps = .error e from h1,
      show downcastAll (V := (Q tag exts).Payload) ps = .error e from h1]
    rfl
  | ok p =>
    rw [show downcastAll (V := (X tag).Payload) ps = .ok p from h1,
      show downcastAll (V := (Q tag exts).Payload) ps = .ok p from h1]
    cases h2 : downcastAll as with
    | error e =>
      rw [show downcastAll (V := (X tag).Artifact) as = .error e from h2,
        show downcastAll (V := (Q tag exts).Artifact) as = .error e from h2]
      rfl
    | ok a =>
      rw [show downcastAll (V := (X tag).Artifact) as = .ok a from h2,
        show downcastAll (V := (Q tag exts).Artifact) as = .ok a from h2]
      exact finalize tag exts exts₂ r hr rng p a

theorem sr_finalize (r : SRound (Q tag exts)) (hr : Ag tag exts exts₂ r.inner) (rng : sp.Rng) (ps : BMap sp.Id (Option P.Payload))
    (as : BMap sp.Id (Option P.Artifact)) :
    (sr tag exts exts₂ r).finalize rng ps as = (r.finalize rng ps as).map (oc tag exts exts₂) := by
  cases r with
  | main r => exact sr_finalizeMain tag exts exts₂ r hr rng ps as
  | echo e => exact sr_finalizeMain tag exts exts₂ e.main hr rng e.payloads e.artifacts

/-! ## Accumulators -/

theorem canFinalize (a : Accum (Q tag exts)) : (ac tag exts a).canFinalize = a.canFinalize := rfl

theorem registerUnprovable (a : Accum (Q tag exts)) (who : sp.Id) (e : RErr) :
    (ac tag exts a).registerUnprovable who e = (a.registerUnprovable who e).map (ac tag exts) := by
  show (if a.unprovable.contains who then _ else _) = Except.map _ (if a.unprovable.contains who then _ else _)
  cases a.unprovable.contains who <;> rfl

theorem registerProvable (a : Accum (Q tag exts)) (who : sp.Id) (e : Evidence sp) :
    (ac tag exts a).registerProvable who e = (a.registerProvable who e).map (ac tag exts) := by
  show (if a.provable.contains who then _ else _) = Except.map _ (if a.provable.contains who then _ else _)
  cases a.provable.contains who <;> rfl

theorem markProcessing (a : Accum (Q tag exts)) (m : VerifiedMessage sp) :
    (ac tag exts a).markProcessing m = (a.markProcessing m).map (ac tag exts) := by
  show (if a.processing.contains m.sender then _ else _) =
    Except.map _ (if a.processing.contains m.sender then _ else _)
  cases a.processing.contains m.sender <;> rfl

theorem addArtifact (a : Accum (Q tag exts)) (p : ProcessedArtifact (Q tag exts)) :
    (ac tag exts a).addArtifact (pa tag exts p) = (a.addArtifact p).map (ac tag exts) := by
  show (if a.artifacts.contains p.destination then _ else _) =
    Except.map _ (if a.artifacts.contains p.destination then _ else _)
  cases a.artifacts.contains p.destination <;> rfl

theorem cacheMessage (a : Accum (Q tag exts)) (m : VerifiedMessage sp) :
    (ac tag exts a).cacheMessage m = (a.cacheMessage m).map (ac tag exts) := by
  show (if ((a.cached.get? m.sender).getD BMap.empty).contains m.metadata.roundId then _ else _) =
    Except.map _ (if ((a.cached.get? m.sender).getD BMap.empty).contains m.metadata.roundId then _ else _)
  cases ((a.cached.get? m.sender).getD BMap.empty).contains m.metadata.roundId <;> rfl

theorem addProcessed (t : Transcript sp) (a : Accum (Q tag exts)) (p : Processed (Q tag exts)) :
    Accum.addProcessed t (ac tag exts a) (pr tag exts p) = (Accum.addProcessed t a p).map (ac tag exts) := by
  obtain ⟨m, res⟩ := p
  unfold Accum.addProcessed
  show (if a.payloads.contains m.sender then _ else if a.notSent.contains m.sender = false then _ else _) =
    Except.map _ (if a.payloads.contains m.sender then _ else if a.notSent.contains m.sender = false then _ else _)
  by_cases h1 : a.payloads.contains m.sender = true
  · rw [if_pos h1, if_pos h1]; rfl
  rw [if_neg h1, if_neg h1]
  by_cases h2 : a.notSent.contains m.sender = false
  · rw [if_pos h2, if_pos h2]; rfl
  rw [if_neg h2, if_neg h2]
  cases res with
  | ok v => rfl
  | error e =>
    cases e with
    | «local» e => rfl
    | invalidDirect => exact registerProvable tag exts { a with notSent := a.notSent.erase m.sender } _ _
    | invalidEcho => exact registerProvable tag exts { a with notSent := a.notSent.erase m.sender } _ _
    | invalidNormal => exact registerProvable tag exts { a with notSent := a.notSent.erase m.sender } _ _
    | unprovable e => rfl
    | echo e => exact registerProvable tag exts { a with notSent := a.notSent.erase m.sender } _ _
    | protocol rq ser =>
      show (match Evidence.newProvableError m.sender m.echo m.normal m.direct rq ser t with
        | .error e => .error e
        | .ok ev => _) = Except.map _ (match Evidence.newProvableError m.sender m.echo m.normal m.direct rq ser t with
        | .error e => .error e
        | .ok ev => _)
      cases Evidence.newProvableError m.sender m.echo m.normal m.direct rq ser t with
      | error e => rfl
      | ok ev => exact registerProvable tag exts { a with notSent := a.notSent.erase m.sender } _ _

/-! ## Sessions -/

theorem newForNextRound (rng : sp.Rng) (sid : Bytes) (signer : sp.Signer) (r : SRound (Q tag exts))
    (hr : Ag tag exts exts₂ r.inner)
    (t : Transcript sp) :
    Session.newForNextRound rng sid signer (sr tag exts exts₂ r) t =
      (Session.newForNextRound rng sid signer r t).map (se tag exts exts₂) := by
  unfold Session.newForNextRound
  rw [sr_transition, sr_comm]
  cases r.transition with
  | error e => rfl
  | ok tr =>
    simp only [sr_makeEcho tag exts exts₂ r hr, sr_makeNormal tag exts exts₂ r hr]
    cases (if r.comm.destinations.isEmpty then Except.ok Part.none else r.makeEcho (sp.fork rng 0)) with
    | error e => rfl
    | ok echo =>
      simp only
      cases SignedPart.new sp (sp.fork rng 1) signer sid tr.id echo with
      | error e => rfl
      | ok signedEcho =>
        simp only
        cases (if r.comm.destinations.isEmpty then Except.ok Part.none else r.makeNormal (sp.fork rng 2)) with
        | error e => rfl
        | ok normal =>
          simp only
          cases SignedPart.new sp (sp.fork rng 3) signer sid tr.id normal with
          | error e => rfl
          | ok sn => rfl

theorem new (rng : sp.Rng) (sid : Bytes) (signer : sp.Signer) (ep : EntryPoint P)
    (hr : ∀ r, ep.makeRound (sp.fork rng 0) sid (sp.verifyingKey signer) = .ok r → Ag tag exts exts₂ r) :
    Session.new rng sid signer (extendEntry (fun r => some (tag r)) ep exts₂) =
      (Session.new rng sid signer (overriddenEntry tag exts ep)).map (se tag exts exts₂) := by
  have hq : ∀ x, (overriddenEntry tag exts ep).makeRound (sp.fork rng 0) sid (sp.verifyingKey signer) = x ↔
      ep.makeRound (sp.fork rng 0) sid (sp.verifyingKey signer) = x := fun x => Iff.rfl
  unfold Session.new
  cases h : ep.makeRound (sp.fork rng 0) sid (sp.verifyingKey signer) with
  | error e =>
    rw [(hq _).2 h]
    simp only [extendEntry, h]
    rfl
  | ok r =>
    rw [(hq _).2 h]
    simp only [extendEntry, h, wrapRound]
    exact newForNextRound tag exts exts₂ _ _ _ (.main r) (hr r h) _

theorem makeMessage (s : Session (Q tag exts)) (hr : Ag tag exts exts₂ s.round.inner) (rng : sp.Rng) (d : sp.Id) :
    (se tag exts exts₂ s).makeMessage rng d = (s.makeMessage rng d).map (fun x => (x.1, pa tag exts x.2)) := by
  unfold Session.makeMessage
  have h := sr_makeDirect tag exts exts₂ s.round hr (sp.fork rng 0) d
  rw [show (se tag exts exts₂ s).round.makeDirect (sp.fork rng 0) d = s.round.makeDirect (sp.fork rng 0) d from h]
  cases s.round.makeDirect (sp.fork rng 0) d with
  | error e => rfl
  | ok x =>
    obtain ⟨direct, art⟩ := x
    show (match Message.new (sp.fork rng 1) s.signer s.sessionId s.transition.id d direct s.echo s.normal with
      | .error e => _
      | .ok m => _) = Except.map _
      (match Message.new (sp.fork rng 1) s.signer s.sessionId s.transition.id d direct s.echo s.normal with
      | .error e => _
      | .ok m => _)
    cases Message.new (sp.fork rng 1) s.signer s.sessionId s.transition.id d direct s.echo s.normal <;> rfl

theorem reject (a : Accum (Q tag exts)) (who : sp.Id) (e : RErr) :
    Session.reject (ac tag exts a) who e = (Session.reject a who e).map (fun x => (ac tag exts x.1, x.2)) := by
  unfold Session.reject
  rw [registerUnprovable]
  cases a.registerUnprovable who e <;> rfl

theorem verifyAndRoute (a : Accum (Q tag exts)) (who : sp.Id) (m : CheckedMessage) (b : Bool) :
    Session.verifyAndRoute (ac tag exts a) who m b =
      (Session.verifyAndRoute a who m b).map (fun x => (ac tag exts x.1, x.2)) := by
  unfold Session.verifyAndRoute
  cases m.verify sp who with
  | error e =>
    cases e with
    | «local» e => rfl
    | invalidSignature => exact reject tag exts _ _ _
    | signatureMismatch => exact reject tag exts _ _ _
  | ok vm =>
    cases b with
    | true =>
      simp only [if_true]
      rw [markProcessing]
      cases a.markProcessing vm <;> rfl
    | false =>
      simp only [Bool.false_eq_true, if_false]
      rw [cacheMessage]
      cases a.cacheMessage vm <;> rfl

theorem preprocess (s : Session (Q tag exts)) (a : Accum (Q tag exts)) (who : sp.Id) (m : Message sp) :
    (se tag exts exts₂ s).preprocess (ac tag exts a) who m =
      (s.preprocess a who m).map (fun x => (ac tag exts x.1, x.2)) := by
  unfold Session.preprocess
  show (if s.transcript.isBanned who || a.isBanned who then _ else _) =
    Except.map _ (if s.transcript.isBanned who || a.isBanned who then _ else _)
  cases s.transcript.isBanned who || a.isBanned who with
  | true => rfl
  | false =>
    simp only [Bool.false_eq_true, if_false]
    cases m.unifyMetadata with
    | none => exact reject tag exts _ _ _
    | some c =>
      simp only
      show (if c.metadata.sessionId ≠ s.sessionId then _ else _) =
        Except.map _ (if c.metadata.sessionId ≠ s.sessionId then _ else _)
      by_cases hs : c.metadata.sessionId ≠ s.sessionId
      · rw [if_pos hs, if_pos hs]; exact reject tag exts _ _ _
      rw [if_neg hs, if_neg hs]
      show (match s.transition.simultaneousRounds s.echoInfo.isSome with | .error e => _ | .ok acceptable => _) =
        Except.map _ (match s.transition.simultaneousRounds s.echoInfo.isSome with | .error e => _ | .ok acceptable => _)
      cases s.transition.simultaneousRounds s.echoInfo.isSome with
      | error e => rfl
      | ok acc =>
        simp only
        show (if c.metadata.roundId = s.roundId then (if a.isProcessing who then _ else _) else _) =
          Except.map _ (if c.metadata.roundId = s.roundId then (if a.isProcessing who then _ else _) else _)
        by_cases hr : c.metadata.roundId = s.roundId
        · rw [if_pos hr, if_pos hr]
          cases a.isProcessing who with
          | true => exact reject tag exts _ _ _
          | false => exact verifyAndRoute tag exts _ _ _ _
        rw [if_neg hr, if_neg hr]
        show (if acc.contains c.metadata.roundId then (if a.isCached who c.metadata.roundId then _ else _) else _) =
          Except.map _
            (if acc.contains c.metadata.roundId then (if a.isCached who c.metadata.roundId then _ else _) else _)
        cases acc.contains c.metadata.roundId with
        | false => exact reject tag exts _ _ _
        | true =>
          simp only [if_true]
          cases a.isCached who c.metadata.roundId with
          | true => exact reject tag exts _ _ _
          | false => exact verifyAndRoute tag exts _ _ _ _

theorem process (s : Session (Q tag exts)) (m : VerifiedMessage sp) :
    (se tag exts exts₂ s).process m = pr tag exts (s.process m) := by
  show (⟨m, (sr tag exts exts₂ s.round).receive m.sender m.dyn⟩ : Processed (X tag)) = ⟨m, s.round.receive m.sender m.dyn⟩
  rw [sr_receive]

theorem terminateInner (s : Session (Q tag exts)) (a : Accum (Q tag exts)) (b : Bool) :
    (se tag exts exts₂ s).terminateInner (ac tag exts a) b = (s.terminateInner a b).map (re tag exts) := by
  unfold Session.terminateInner
  rw [show (se tag exts exts₂ s).updatedTranscript (ac tag exts a) = s.updatedTranscript a from rfl]
  cases s.updatedTranscript a <;> rfl

theorem startEcho (s : Session (Q tag exts)) (hr : Ag tag exts exts₂ s.round.inner) (rng : sp.Rng) (a : Accum (Q tag exts)) (t : Transcript sp)
    (info : EchoInfo sp.Id) (r : P.Rd) (hm : s.round = .main r) :
    (se tag exts exts₂ s).startEcho rng (ac tag exts a) t info (rd tag exts exts₂ r) =
      (s.startEcho rng a t info r).map (ro tag exts exts₂) := by
  unfold Session.startEcho
  show (match t.echoBroadcasts s.roundId with | .error e => _ | .ok ebs => _) =
    Except.map _ (match t.echoBroadcasts s.roundId with | .error e => _ | .ok ebs => _)
  cases t.echoBroadcasts s.roundId with
  | error e => rfl
  | ok ebs =>
    simp only
    have h1 := sr_transition tag exts exts₂ (.echo ⟨s.me, ebs, info, r, a.payloads, a.artifacts⟩)
    have h2 := newForNextRound tag exts exts₂ rng s.sessionId s.signer (.echo ⟨s.me, ebs, info, r, a.payloads, a.artifacts⟩)
      (by rw [hm] at hr; exact hr) t
    rw [show (SRound.echo (P := X tag) ⟨(se tag exts exts₂ s).me, ebs, info, rd tag exts exts₂ r, (ac tag exts a).payloads,
        (ac tag exts a).artifacts⟩) = sr tag exts exts₂ (.echo ⟨s.me, ebs, info, r, a.payloads, a.artifacts⟩) from rfl,
      h1, show (se tag exts exts₂ s).sessionId = s.sessionId from rfl, show (se tag exts exts₂ s).signer = s.signer from rfl, h2]
    cases (SRound.echo (P := Q tag exts) ⟨s.me, ebs, info, r, a.payloads, a.artifacts⟩).transition with
    | error e => rfl
    | ok tr =>
      simp only
      cases Session.newForNextRound (P := Q tag exts) rng s.sessionId s.signer
        (.echo ⟨s.me, ebs, info, r, a.payloads, a.artifacts⟩) t <;> rfl

theorem finalizeProper (s : Session (Q tag exts)) (hr : Ag tag exts exts₂ s.round.inner) (rng : sp.Rng)
    (a : Accum (Q tag exts)) (t : Transcript sp)
    (hn : ∀ r, s.round.finalize (sp.fork rng 0) a.payloads a.artifacts = .ok (.anotherRound r) → Ag tag exts exts₂ r) :
    (se tag exts exts₂ s).finalizeProper rng (ac tag exts a) t =
      (s.finalizeProper rng a t).map (ro tag exts exts₂) := by
  unfold Session.finalizeProper
  have h := sr_finalize tag exts exts₂ s.round hr (sp.fork rng 0) a.payloads a.artifacts
  rw [show (se tag exts exts₂ s).round.finalize (sp.fork rng 0) (ac tag exts a).payloads (ac tag exts a).artifacts =
    (s.round.finalize (sp.fork rng 0) a.payloads a.artifacts).map (oc tag exts exts₂) from h]
  cases hf : s.round.finalize (sp.fork rng 0) a.payloads a.artifacts with
  | error e => rfl
  | ok o =>
    cases o with
    | result r => rfl
    | anotherRound r =>
      show (if s.transition.children.contains (P.transition r).id = false then _ else _) =
        Except.map _ (if s.transition.children.contains (P.transition r).id = false then _ else _)
      by_cases hc : s.transition.children.contains (P.transition r).id = false
      · rw [if_pos hc, if_pos hc]; rfl
      rw [if_neg hc, if_neg hc]
      have h2 := newForNextRound tag exts exts₂ (sp.fork rng 1) s.sessionId s.signer (.main r) (hn r hf) t
      rw [show Session.newForNextRound (P := X tag) (sp.fork rng 1) (se tag exts exts₂ s).sessionId
        (se tag exts exts₂ s).signer (.main (rd tag exts exts₂ r)) t = _ from h2]
      cases Session.newForNextRound (P := Q tag exts) (sp.fork rng 1) s.sessionId s.signer (.main r) t <;> rfl

theorem finalizeRound (s : Session (Q tag exts)) (hr : Ag tag exts exts₂ s.round.inner) (rng : sp.Rng)
    (a : Accum (Q tag exts))
    (hn : ∀ r, s.round.finalize (sp.fork rng 0) a.payloads a.artifacts = .ok (.anotherRound r) → Ag tag exts exts₂ r) :
    (se tag exts exts₂ s).finalizeRound rng (ac tag exts a) = (s.finalizeRound rng a).map (ro tag exts exts₂) := by
  unfold Session.finalizeRound
  rw [show (se tag exts exts₂ s).updatedTranscript (ac tag exts a) = s.updatedTranscript a from rfl]
  cases s.updatedTranscript a with
  | error e => rfl
  | ok t =>
    show (match s.echoInfo with | some info => _ | none => _) =
      Except.map _ (match s.echoInfo with | some info => _ | none => _)
    cases s.echoInfo with
    | none => exact finalizeProper tag exts exts₂ s hr rng a t hn
    | some info =>
      simp only
      rw [show (se tag exts exts₂ s).round = sr tag exts exts₂ s.round from rfl]
      cases hm : s.round with
      | echo e => rfl
      | main r => exact startEcho tag exts exts₂ s hr _ a t info r hm

/-! ## The driver -/

theorem applyVerified (s : Session (Q tag exts)) (a : Accum (Q tag exts)) (m : VerifiedMessage sp) :
    Manul.applyVerified (se tag exts exts₂ s) (ac tag exts a) m = (Manul.applyVerified s a m).map (ac tag exts) := by
  unfold Manul.applyVerified
  rw [process]
  exact addProcessed tag exts s.transcript a _

theorem foldVerified (s : Session (Q tag exts)) (l : List (VerifiedMessage sp)) : ∀ a : Accum (Q tag exts),
    foldE (Manul.applyVerified (se tag exts exts₂ s)) (ac tag exts a) l =
      (foldE (Manul.applyVerified s) a l).map (ac tag exts) := by
  induction l with
  | nil => intro a; rfl
  | cons m l ih =>
    intro a
    unfold foldE
    rw [applyVerified]
    cases Manul.applyVerified s a m with
    | error e => rfl
    | ok a' => exact ih a'

theorem sendAll (s : Session (Q tag exts)) (hr : Ag tag exts exts₂ s.round.inner) (rng : sp.Rng) (l : List sp.Id) :
    ∀ (i : Nat) (a : Accum (Q tag exts)),
      Manul.sendAll (se tag exts exts₂ s) rng i (ac tag exts a) l =
        (Manul.sendAll s rng i a l).map (fun x => (ac tag exts x.1, x.2)) := by
  induction l with
  | nil => intro i a; rfl
  | cons d l ih =>
    intro i a
    unfold Manul.sendAll
    rw [makeMessage tag exts exts₂ s hr]
    cases s.makeMessage (sp.fork rng i) d with
    | error e => rfl
    | ok x =>
      obtain ⟨m, art⟩ := x
      simp only [Except.map]
      rw [addArtifact]
      cases a.addArtifact art with
      | error e => rfl
      | ok a' =>
        simp only [Except.map]
        rw [ih]
        cases Manul.sendAll s rng (i + 1) a' l <;> rfl

theorem startRound (s : Session (Q tag exts)) (hr : Ag tag exts exts₂ s.round.inner) (rng : sp.Rng) (c : List (VerifiedMessage sp)) :
    Manul.startRound (se tag exts exts₂ s) rng c =
      (Manul.startRound s rng c).map (fun x => (ac tag exts x.1, x.2)) := by
  unfold Manul.startRound
  have h := sendAll tag exts exts₂ s hr rng s.destinations.elems 0 s.makeAccum
  rw [show Manul.sendAll (se tag exts exts₂ s) rng 0 (se tag exts exts₂ s).makeAccum (se tag exts exts₂ s).destinations.elems =
    (Manul.sendAll s rng 0 s.makeAccum s.destinations.elems).map (fun x => (ac tag exts x.1, x.2)) from h]
  cases Manul.sendAll s rng 0 s.makeAccum s.destinations.elems with
  | error e => rfl
  | ok x =>
    obtain ⟨a, out⟩ := x
    simp only [Except.map]
    rw [foldVerified]
    cases foldE (Manul.applyVerified s) a c <;> rfl

theorem enterRound (s : Session (Q tag exts)) (hr : Ag tag exts exts₂ s.round.inner) (rng : sp.Rng) (c : List (VerifiedMessage sp)) :
    Manul.enterRound (se tag exts exts₂ s) rng c =
      (st tag exts exts₂ (Manul.enterRound s rng c).1, (Manul.enterRound s rng c).2) := by
  unfold Manul.enterRound
  rw [startRound tag exts exts₂ s hr]
  cases Manul.startRound s rng c <;> rfl

theorem finishRound (s : Session (Q tag exts)) (hr : Ag tag exts exts₂ s.round.inner) (a : Accum (Q tag exts))
    (rng : sp.Rng)
    (hn : ∀ rng r, s.round.finalize rng a.payloads a.artifacts = .ok (.anotherRound r) → Ag tag exts exts₂ r) :
    Manul.finishRound (se tag exts exts₂ s) (ac tag exts a) rng =
      (st tag exts exts₂ (Manul.finishRound s a rng).1, (Manul.finishRound s a rng).2) := by
  unfold Manul.finishRound
  rw [finalizeRound tag exts exts₂ s hr _ a (hn _)]
  cases hf : s.finalizeRound (sp.fork rng 0) a with
  | error e => rfl
  | ok o =>
    cases o with
    | finished r => rfl
    | anotherRound s' c =>
      refine enterRound tag exts exts₂ s' ?_ _ c
      obtain ⟨t, -, hF⟩ := finalizeRound_ok hf
      cases hF with
      | toEcho _ hm _ hs => rw [hs.round]; rw [hm] at hr; exact hr
      | toNext _ hfin _ hs _ => rw [hs.round]; exact hn _ _ hfin

theorem deliver (s : Session (Q tag exts)) (a : Accum (Q tag exts)) (who : sp.Id) (m : Message sp) :
    Manul.deliver (se tag exts exts₂ s) (ac tag exts a) who m = (Manul.deliver s a who m).map (ac tag exts) := by
  unfold Manul.deliver
  rw [preprocess]
  cases s.preprocess a who m with
  | error e => rfl
  | ok x =>
    obtain ⟨a', o⟩ := x
    show (match o.ok? with | some vm => _ | none => _) = Except.map _ (match o.ok? with | some vm => _ | none => _)
    cases o.ok? with
    | none => rfl
    | some vm => exact applyVerified tag exts exts₂ s a' vm

theorem step (x : RunState (Q tag exts)) (hx : x.Within (Ag tag exts exts₂)) (ev : Event sp) :
    Manul.step (st tag exts exts₂ x) ev = (Manul.step x ev).map (fun y => (st tag exts exts₂ y.1, y.2)) := by
  cases x with
  | done r => cases r <;> rfl
  | running s a =>
    simp only [st, Manul.step]
    rw [show (ac tag exts a).canFinalize = a.canFinalize from rfl]
    have ht : Except.map (re tag exts) (s.terminateDueToErrors a) =
        (se tag exts exts₂ s).terminateDueToErrors (ac tag exts a) := (terminateInner tag exts exts₂ s a false).symm
    obtain ⟨hr, hn⟩ := hx
    cases hc : a.canFinalize <;> cases ev <;> try rfl
    · simp only [Option.map_some]
      rw [finishRound tag exts exts₂ s hr a _ (hn hc)]
      rfl
    · simp only
      rw [deliver]
      cases Manul.deliver s a _ _ <;> rfl
    · simp only [Option.map_some]
      rw [← ht]
      cases s.terminateDueToErrors a <;> rfl
    · simp only [Option.map_some]
      rw [← ht]
      cases s.terminateDueToErrors a <;> rfl

/-! ## Observations -/

theorem seen (x : RunState (Q tag exts)) : (st tag exts exts₂ x).seen = x.seen := by
  cases x with
  | running s a => rfl
  | done r => cases r <;> rfl

theorem play (evs : List (Event sp)) : ∀ x : RunState (Q tag exts), PlaysWithin (Ag tag exts exts₂) x evs →
    Manul.play (st tag exts exts₂ x) evs = Manul.play x evs := by
  induction evs with
  | nil => intro x _; rfl
  | cons ev evs ih =>
    intro x hx
    obtain ⟨hw, hx⟩ := hx
    unfold Manul.play
    rw [step tag exts exts₂ x hw]
    cases hs : Manul.step x ev with
    | none => rw [hs] at hx; exact congrArg (List.cons _) (ih x hx)
    | some y =>
      obtain ⟨y, out⟩ := y
      rw [hs] at hx
      simp only [Option.map_some]
      rw [ih y hx]
      exact congrArg (fun z => some (out, z) :: Manul.play y evs) (seen tag exts exts₂ y)

theorem behaviour (ep : EntryPoint P) (sid : Bytes) (signer : sp.Signer) (rng rng' : sp.Rng) (evs : List (Event sp))
    (hb : BehavesWithin (Ag tag exts exts₂) (overriddenEntry tag exts ep) sid signer rng rng' evs) :
    Manul.behaviour (extendEntry (fun r => some (tag r)) ep exts₂) sid signer rng rng' evs =
      Manul.behaviour (overriddenEntry tag exts ep) sid signer rng rng' evs := by
  obtain ⟨h0, h1⟩ := hb
  unfold Manul.behaviour
  rw [new tag exts exts₂ rng sid signer ep h0]
  cases hs : Session.new rng sid signer (overriddenEntry tag exts ep) with
  | error e => rfl
  | ok s =>
    have hp := h1 s hs
    obtain ⟨r, hm, hnew⟩ : ∃ r, ep.makeRound (sp.fork rng 0) sid (sp.verifyingKey signer) = .ok r ∧
        s.round.inner = r := by
      unfold Session.new at hs
      split at hs
      · simp at hs
      · next r hr => exact ⟨r, hr, by rw [(newForNextRound_ok hs).round]; rfl⟩
    have hr : Ag tag exts exts₂ s.round.inner := by rw [hnew]; exact h0 r hm
    have he := enterRound tag exts exts₂ s hr rng' []
    simp only [Except.map]
    rw [show start (se tag exts exts₂ s) rng' = _ from he]
    simp only
    rw [show Manul.play (st tag exts exts₂ (Manul.enterRound s rng' []).1) evs = _ from play tag exts exts₂ evs _ hp]
    exact congrArg (fun x => Except.ok (((start s rng').2, x), Manul.play (start s rng').1 evs))
      (seen tag exts exts₂ (start s rng').1)

end Lift

end Manul
