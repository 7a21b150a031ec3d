import Verif.Lemmas.Run
import Verif.Spec.Order
import Verif.Props.Preprocess

/-! # Messages of honest parties -/

namespace Manul

variable {sp : SP} {P : Proto sp}

theorem signed_valid (sc : sp.SignCorrect) (srt : sp.SigRoundTrip) {k : PartKind} {rng : sp.Rng} {signer : sp.Signer}
    {sid : Bytes} {rid : RoundId} {p : Part k} {q : SignedPart k} (h : SignedPart.new sp rng signer sid rid p = .ok q) :
    AuthenticPart (sp.verifyingKey signer) sid rid q := by
  unfold SignedPart.new at h
  split at h
  · simp at h
  · rename_i d hd
    split at h
    · simp at h
    · rename_i sg hsg
      split at h
      · simp at h
      · rename_i b hb
        simp only [Except.ok.injEq] at h
        subst h
        exact ⟨rfl, d, sg, hd, srt _ _ hb, sc _ _ _ _ hsg⟩

/-- What `make_message` returns. -/
structure Made (s : Session P) (dest : sp.Id) (m : Message sp) (art : ProcessedArtifact P) : Prop where
  destination : m.destination = dest
  echo : m.echo = s.echo
  normal : m.normal = s.normal
  direct : ∃ rng, s.round.makeDirect rng dest = .ok (m.direct.part, art.artifact)
  signed : ∃ rng, SignedPart.new sp rng s.signer s.sessionId s.transition.id m.direct.part = .ok m.direct
  artifact : art.destination = dest

theorem makeMessage_ok {s : Session P} {rng : sp.Rng} {dest : sp.Id} {m : Message sp} {art : ProcessedArtifact P}
    (h : s.makeMessage rng dest = .ok (m, art)) : Made s dest m art := by
  unfold Session.makeMessage at h
  split at h
  · simp at h
  · rename_i direct artifact hd
    unfold Message.new at h
    split at h
    · simp at h
    · rename_i m' hm'
      split at hm'
      · simp at hm'
      · rename_i d hsd
        simp only [Except.ok.injEq] at hm'
        simp only [Except.ok.injEq, Prod.mk.injEq] at h
        obtain ⟨rfl, rfl⟩ := h
        subst hm'
        have e := (signed_part hsd).1
        exact ⟨rfl, rfl, rfl, ⟨_, by rw [e]; exact hd⟩, ⟨_, by rw [e]; exact hsd⟩, rfl⟩

/-- The messages of an honest party are authentic. -/
theorem makeMessage_authentic (sc : sp.SignCorrect) (srt : sp.SigRoundTrip) {s : Session P} (hp : Proper s) {rng : sp.Rng}
    {dest : sp.Id} {m : Message sp} {art : ProcessedArtifact P} (h : s.makeMessage rng dest = .ok (m, art)) :
    Authentic s.me s.sessionId s.transition.id m.direct m.echo m.normal := by
  have hm := makeMessage_ok h
  obtain ⟨r1, h1⟩ := hm.signed
  obtain ⟨r2, h2⟩ := hp.echo
  obtain ⟨r3, h3⟩ := hp.normal
  rw [hm.echo, hm.normal, hp.me]
  exact ⟨signed_valid sc srt h1, signed_valid sc srt h2, signed_valid sc srt h3⟩

theorem echo_echoInfo {s : Session P} (hp : Proper s) {e : EchoRd P} (he : s.round = .echo e) : s.echoInfo = none := by
  have hi := hp.echoInfo
  have hpart : s.echo.part.isNone = true := by
    obtain ⟨r, h⟩ := hp.echoPart
    split at h
    · simp only [Except.ok.injEq] at h
      rw [← h]
      rfl
    · rw [he] at h
      simp only [SRound.makeEcho, Except.ok.injEq] at h
      rw [← h]
      rfl
  have hc := hp.comm
  rw [he] at hc
  rw [hi, hc, hpart]
  rfl

theorem proper_wellFormed (mi : MainIds P) {s : Session P} (hp : Proper s) : EchoWellFormed s := by
  intro h
  cases hr : s.round with
  | echo e => simp [echo_echoInfo hp hr] at h
  | main r =>
    rw [(roundId_main hp hr).1]
    exact mi r

theorem authentic_coherent {who : sp.Id} {sid : Bytes} {rid : RoundId} {m : Message sp}
    (h : Authentic who sid rid m.direct m.echo m.normal) : ¬ Incoherent m := by
  unfold Incoherent
  rw [h.1.1, h.2.1.1, h.2.2.1]
  simp

/-- A genuine message the round accepts, delivered while it is waited for. -/
theorem deliver_accepts (mt : sp.MetaTotal) {s : Session P} (wf : EchoWellFormed s) {a : Accum P} {x : sp.Id} {m : Message sp}
    {v : Option P.Payload} (hau : Authentic x s.sessionId s.transition.id m.direct m.echo m.normal)
    (hne : ¬ HasError s a x) (hpr : a.processing.contains x = false) (hpay : a.payloads.contains x = false)
    (hns : a.notSent.contains x = true) (hr : s.round.receive x (verifiedOf x m).dyn = .ok v) :
    deliver s a x m = .ok
      { a with
        processing := BSet.insert a.processing x
        notSent := a.notSent.erase x
        echos := Accum.insertPart a.echos x m.echo
        normals := Accum.insertPart a.normals x m.normal
        directs := Accum.insertPart a.directs x m.direct
        payloads := a.payloads.insert x v } := by
  have hmeta : m.direct.metadata = ⟨s.sessionId, s.transition.id⟩ := hau.1.1
  have hrow : Row s a x m .process :=
    .process ⟨hne, authentic_coherent hau, by rw [hmeta], by rw [hmeta]⟩ hpr hau
  unfold deliver
  rw [C02_decision_table mt s wf a x m _ hrow]
  simp only [Verdict.effect, PreOutcome.ok?, applyVerified, Session.addProcessed, Session.process, Accum.addProcessed]
  have e1 : (verifiedOf x m).sender = x := rfl
  simp only [e1, hpay, hns, hr]
  simp [verifiedOf]

/-- A genuine message for a simultaneous round, delivered for the first time. -/
theorem deliver_keeps (mt : sp.MetaTotal) {s : Session P} (wf : EchoWellFormed s) {a : Accum P} {x : sp.Id} {m : Message sp}
    {rid : RoundId} (hau : Authentic x s.sessionId rid m.direct m.echo m.normal) (hrid : rid ≠ s.transition.id)
    (hsim : Simultaneous s rid) (hne : ¬ HasError s a x) (hc : ¬ IsCached a x rid) :
    deliver s a x m = .ok
      { a with
        cached := a.cached.insert x (((a.cached.get? x).getD BMap.empty).insert rid (verifiedOf x m)) } := by
  have hmeta : m.direct.metadata = ⟨s.sessionId, rid⟩ := hau.1.1
  have hrow : Row s a x m .keep :=
    .keep ⟨hne, authentic_coherent hau, by rw [hmeta], by rw [hmeta]; exact hrid, by rw [hmeta]; exact hsim⟩
      (by rw [hmeta]; exact hc) (by rw [hmeta]; exact hau)
  unfold deliver
  rw [C02_decision_table mt s wf a x m _ hrow]
  simp [Verdict.effect, PreOutcome.ok?, hmeta]

end Manul
