import Verif.Spec.ParBans
import Verif.Lemmas.Traced
import Verif.Lemmas.ParEvidence
import Verif.Lemmas.ParRun

/-! # The causes of errors in runs of `par_run_session` -/

namespace Manul

variable {sp : SP} {P : Proto sp} {V : Session P → Prop} {s₀ : Session P} {l : List (Delivery P)}

theorem ParVia.any {st : ParState P} (h : ParVia s₀ l st) : ParAny s₀ st := by
  induction h with
  | start rng => exact .start rng
  | step _ _ hs ih => exact ih.step hs
  | deliver _ hs ih => exact ih.step hs

theorem parInRun_runOf (hp0 : Proper s₀) (hm0 : ∃ r, s₀.round = .main r) : RunOf (ParInRun s₀) s₀ where
  first := hp0
  proper := fun _ ⟨_, h⟩ => by
    obtain ⟨_, _, _, _, hv, -⟩ := parAny_running h
    exact (pvisits_inv hp0 hm0 hv).proper
  sessionId := fun _ ⟨_, h⟩ => by
    obtain ⟨_, _, _, _, hv, -⟩ := parAny_running h
    exact (pvisits_inv hp0 hm0 hv).sessionId
  signer := fun _ ⟨_, h⟩ => by
    obtain ⟨_, _, _, _, hv, -⟩ := parAny_running h
    exact (pvisits_inv hp0 hm0 hv).signer
  echos := fun _ _ ⟨_, h⟩ he => by
    obtain ⟨_, _, _, _, hv, -⟩ := parAny_running h
    exact pvisits_echo_transcript hp0 hm0 hv he

/-- The artifacts do not matter here. -/
theorem addArtifact_parts {a a' : Accum P} {p : ProcessedArtifact P} (h : a.addArtifact p = .ok a') :
    a'.echos = a.echos ∧ a'.normals = a.normals ∧ a'.directs = a.directs ∧ a'.provable = a.provable := by
  unfold Accum.addArtifact at h
  split at h
  · cases h
  · simp only [Except.ok.injEq] at h
    subst h
    exact ⟨rfl, rfl, rfl, rfl⟩

/-- The invariant for both kinds of errors. -/
structure BlameInv (V : Session P → Prop) (s₀ : Session P) (l : List (Delivery P)) (s : Session P) (a : Accum P) : Prop where
  cause : CauseInv V l s a
  trace : NoEchoErr P → TraceInv V s₀ l s a

theorem BlameInv.art {s : Session P} {a a' : Accum P} {p : ProcessedArtifact P} (h : BlameInv V s₀ l s a)
    (ha : a.addArtifact p = .ok a') : BlameInv V s₀ l s a' := by
  obtain ⟨e1, e2, e3⟩ := addArtifact_unprovable ha
  obtain ⟨f1, f2, f3, f4⟩ := addArtifact_parts ha
  refine ⟨⟨?_, h.cause.transcript, ?_, ?_⟩, fun ne => ⟨(h.trace ne).transcript, ?_, ?_, ?_, ?_⟩⟩
  · rw [e3]; exact h.cause.accum
  · rw [e1]; exact h.cause.processing
  · rw [e2]; exact h.cause.cached
  · rw [f1]; exact (h.trace ne).echos
  · rw [f2]; exact (h.trace ne).normals
  · rw [f3]; exact (h.trace ne).directs
  · rw [f4]; exact (h.trace ne).provable

theorem BlameInv.join {s : Session P} {st : ParSt P} {a : Accum P} (h : BlameInv V s₀ l s st.accum) (hj : parJoin st = .ok a) :
    BlameInv V s₀ l s a := by
  unfold parJoin at hj
  split at hj
  · cases hj
  · rename_i ms hms
    clear hms
    generalize st.accum = b at h hj
    induction ms generalizing b with
    | nil =>
      simp only [foldE, Except.ok.injEq] at hj
      exact hj ▸ h
    | cons m ms ih =>
      simp only [foldE] at hj
      split at hj
      · rename_i b' hb'
        exact ih b' (h.art hb') hj
      · cases hj

/-- The invariant at the beginning of a round. -/
theorem BlameInv.fresh {s : Session P} (h1 : ∀ x r, s.transcript.unprovable.get? x = some r → Cause V l x r)
    (h2 : NoEchoErr P → TranscriptGiven V s₀ l s.transcript) : BlameInv V s₀ l s s.makeAccum := by
  refine ⟨⟨?_, h1, ?_, ?_⟩, fun ne => ⟨h2 ne, ?_, ?_, ?_, ?_⟩⟩
  · intro x r hx
    simp [Session.makeAccum, Accum.new] at hx
  · intro x hx
    simp [Session.makeAccum, Accum.new] at hx
  · intro x e r vm hx
    simp [Session.makeAccum, Accum.new] at hx
  all_goals
    intro x p hx
    simp [Session.makeAccum, Accum.new] at hx

/-- The invariant of a round of `par_run_session`. -/
structure ParBlame (V : Session P → Prop) (s₀ : Session P) (l : List (Delivery P)) (s : Session P) (st : ParSt P) : Prop where
  accum : BlameInv V s₀ l s st.accum
  tasks : ∀ vm ∈ st.tasks, ∃ x m, vm = verifiedOf x m ∧ HasDelivery l x s.sessionId s.transition.id m

theorem ParBlame.op (mi : MainIds P) (ro : RunOf V s₀) {s : Session P} (hv : V s) {st st' : ParSt P}
    (h : ParBlame V s₀ l s st) {o : ParOp sp} (ho : ∀ x m, o ≠ .deliver x m) (hs : parOp s st o = .ok st') :
    ParBlame V s₀ l s st' := by
  cases o with
  | deliver x m => exact absurd rfl (ho x m)
  | complete i =>
    simp only [parOp] at hs
    split at hs
    · simp only [Except.ok.injEq] at hs
      exact hs ▸ h
    · rename_i vm hvm
      split at hs
      · cases hs
      · rename_i a ha
        simp only [Except.ok.injEq] at hs
        subst hs
        obtain ⟨x, m, rfl, hd⟩ := h.tasks vm (List.mem_of_getElem? hvm)
        exact ⟨⟨h.accum.cause.apply hv hd ha, fun ne => (h.accum.trace ne).apply mi ne ro hv hd ha⟩,
          fun v hv => h.tasks v (List.mem_of_mem_eraseIdx hv)⟩
  | send i =>
    simp only [parOp] at hs
    split at hs
    · split at hs
      · cases hs
      · rename_i a ha
        simp only [Except.ok.injEq] at hs
        subst hs
        exact ⟨h.accum.art ha, h.tasks⟩
    · simp only [Except.ok.injEq] at hs
      exact hs ▸ h

theorem HasDelivery.tasks_mono {s : Session P} {ts : List (VerifiedMessage sp)}
    (h : ∀ vm ∈ ts, ∃ x m, vm = verifiedOf x m ∧ HasDelivery l x s.sessionId s.transition.id m) (d : Delivery P) :
    ∀ vm ∈ ts, ∃ x m, vm = verifiedOf x m ∧ HasDelivery (l ++ [d]) x s.sessionId s.transition.id m := by
  intro vm hvm
  obtain ⟨x, m, h1, h2⟩ := h vm hvm
  exact ⟨x, m, h1, h2.mono d⟩

theorem ParBlame.deliver (mt : sp.MetaTotal) {s : Session P} (wf : EchoWellFormed s) {st st' : ParSt P}
    (h : ParBlame V s₀ l s st) {y : sp.Id} {m : Message sp} (hs : parOp s st (.deliver y m) = .ok st') :
    ParBlame V s₀ (l ++ [⟨s, st.accum, y, m⟩]) s st' := by
  simp only [parOp] at hs
  split at hs
  · cases hs
  · rename_i a o hp
    obtain ⟨h1, h2⟩ := h.accum.cause.preprocess mt wf hp
    have h3 := fun ne => ((h.accum.trace ne).preprocess mt wf hp).1
    have ht := HasDelivery.tasks_mono h.tasks ⟨s, st.accum, y, m⟩
    split at hs
    · rename_i vm ho
      simp only [Except.ok.injEq] at hs
      subst hs
      refine ⟨⟨h1, h3⟩, fun v hv => ?_⟩
      rcases List.mem_append.1 hv with hv | hv
      · exact ht v hv
      · simp only [List.mem_singleton] at hv
        subst hv
        exact ⟨y, m, h2 _ ho⟩
    · simp only [Except.ok.injEq] at hs
      subst hs
      exact ⟨⟨h1, h3⟩, ht⟩

/-- The errors in the report with which a run ends. -/
theorem EndsWith.errors {s : Session P} {a : Accum P} {rep : Report P} (h : EndsWith s a rep) :
    ∃ t, Updated s.transcript s.roundId s.me s.echo a t ∧ rep.provable = t.provable ∧ rep.unprovable = t.unprovable := by
  rcases h with ⟨-, rng, hf⟩ | ⟨-, ht⟩
  · obtain ⟨t, hu, hfin⟩ := finalizeRound_ok hf
    cases hfin with
    | result _ _ => exact ⟨t, hu, rfl, rfl⟩
  · unfold Session.terminateDueToErrors Session.terminateInner at ht
    cases hu : s.updatedTranscript a with
    | error e => simp [hu] at ht
    | ok t =>
      simp only [hu, Except.ok.injEq] at ht
      exact ⟨t, update_iff.1 hu, by rw [← ht]; rfl, by rw [← ht]; rfl⟩

/-- The invariant of a run. -/
def ParBlameInv (s₀ : Session P) (l : List (Delivery P)) : ParState P → Prop
  | .running s st => ParBlame (ParInRun s₀) s₀ l s st
  | .done (.ok rep) => (∀ x r, rep.unprovable.get? x = some r → Cause (ParInRun s₀) l x r) ∧
      (NoEchoErr P → ∀ x ev, rep.provable.get? x = some ev → Traced (ParInRun s₀) s₀ l x ev)
  | .done (.error _) => True

theorem ParBlameInv.mono {st : ParState P} (h : ParBlameInv s₀ l st) (d : Delivery P) (hd : ∃ r, st = .done r) :
    ParBlameInv s₀ (l ++ [d]) st := by
  obtain ⟨r, rfl⟩ := hd
  cases r with
  | error e => trivial
  | ok rep => exact ⟨fun x r hx => (h.1 x r hx).mono d, fun ne x ev hx => (h.2 ne x ev hx).mono d⟩

/-- Steps other than receiving a message. -/
theorem ParBlame.step (mi : MainIds P) (ro : RunOf (ParInRun s₀) s₀) {s : Session P} {st : ParSt P}
    {st' : ParState P} {ev : ParEvent sp} (hr : ParAny s₀ (.running s st)) (h : ParBlame (ParInRun s₀) s₀ l s st)
    (hev : (∀ x m, ev ≠ .op (.deliver x m)) ∨ ∃ r, st' = .done r) (hs : parStep (.running s st) ev = some st') :
    ParBlameInv s₀ l st' := by
  have hv : ParInRun s₀ s := ⟨st, hr⟩
  rcases parStep_full hs with ⟨r, rfl, hrep⟩ | ⟨o, st1, rfl, -, ho, rfl⟩ | ⟨a, rng, rng', s', cached', hy, hj, hf, rfl⟩
  · cases r with
    | error e => trivial
    | ok rep =>
      obtain ⟨a, hj, hend⟩ := hrep rep rfl
      obtain ⟨t, hu, e1, e2⟩ := hend.errors
      have hb := h.accum.join hj
      refine ⟨?_, ?_⟩
      · intro x r hx
        rw [e2, hu.unprovable] at hx
        rcases Option.or_eq_some_iff.1 hx with hx | ⟨-, hx⟩
        · exact hb.cause.accum x r hx
        · exact hb.cause.transcript x r hx
      · intro ne x ev hx
        rw [e1] at hx
        exact ((hb.trace ne).updated ro hv hu).provable x ev hx
  · rcases hev with hev | ⟨r, hr⟩
    · exact h.op mi ro hv (fun x m he => hev x m (by rw [he])) ho
    · cases hr
  · have hb := h.accum.join hj
    obtain ⟨i1, i2⟩ := hb.cause.next hf
    obtain ⟨t, hu, hfin⟩ := finalizeRound_ok hf
    have ht := fun ne => (hb.trace ne).updated ro hv hu
    have hst : s'.transcript = t := by
      cases hfin with
      | toNext hei hr hch hns hrid => exact hns.transcript
      | toEcho hei hr hget hns => exact hns.transcript
    exact ⟨.fresh i1 (by rw [hst]; exact ht), i2⟩

/-- The invariant holds in all runs. -/
theorem parVia_blame (mt : sp.MetaTotal) (mi : MainIds P) {rng : sp.Rng} {sid : Bytes} {signer : sp.Signer}
    {ep : EntryPoint P} (h0 : Session.new rng sid signer ep = .ok s₀) {st : ParState P} (h : ParVia s₀ l st) :
    ParBlameInv s₀ l st := by
  obtain ⟨hp0, -, -, ht0, hm0⟩ := new_proper h0
  have ro := parInRun_runOf hp0 hm0
  induction h with
  | start rng' =>
    refine ⟨.fresh ?_ ?_, by simp [ParSt.begin]⟩
    · intro x r hx
      rw [ht0] at hx
      simp [Transcript.new] at hx
    · intro _
      rw [ht0]
      refine ⟨?_, ?_, ?_, ?_⟩
      · intro r m x p h1 _
        simp [Transcript.new] at h1
      · intro r m x p h1 _
        simp [Transcript.new] at h1
      · intro r m x p h1 _
        simp [Transcript.new] at h1
      · intro x ev h1
        simp [Transcript.new] at h1
  | @step l s st st' ev hr hev hs ih => exact ParBlame.step mi ro hr.any ih (.inl hev) hs
  | @deliver l s st st' x m hr hs ih =>
    have wf := proper_wellFormed mi (ro.proper s ⟨st, hr.any⟩)
    rcases parStep_full hs with ⟨r, rfl, -⟩ | ⟨o, st1, he, -, ho, rfl⟩ | ⟨a, rng1, rng2, s', cached', hy, hj, hf, rfl⟩
    · exact (ParBlame.step mi ro hr.any ih (.inr ⟨r, rfl⟩) hs).mono _ ⟨r, rfl⟩
    · simp only [ParEvent.op.injEq] at he
      subst he
      exact ParBlame.deliver mt wf ih ho
    · exfalso
      unfold parStep at hs
      have hc := join_keeps hj
      rw [hy] at hc
      simp [← hc] at hs

end Manul
