import Verif.Props.Crash

/-!
# Properties: the exact condition for a local error

C08.  `CrashesWith` (in `Spec/Crash.lean`) says which event fails with which error; it is proved to be exact.
-/

namespace Manul

variable {sp : SP} {P : Proto sp}

/-- Closing a round of a run fails exactly if somebody has errors of the same sort in this round and in earlier ones. -/
theorem update_fails (mi : MainIds P) (hac : Acyclic P) {rng0 : sp.Rng} {sid : Bytes} {signer : sp.Signer}
    {ep : EntryPoint P} {s₀ s : Session P} {a : Accum P} (h0 : Session.new rng0 sid signer ep = .ok s₀)
    (h : Reach s₀ (.running s a)) (e : LErr) :
    s.updatedTranscript a = .error e ↔
      (e = .transcriptProvable ∧ ∃ x, s.transcript.provable.contains x = true ∧ a.provable.contains x = true) ∨
      (e = .transcriptUnprovable ∧ (∀ y, s.transcript.provable.contains y = true → a.provable.contains y = false) ∧
        ∃ x, s.transcript.unprovable.contains x = true ∧ a.unprovable.contains x = true) := by
  have fwd : ∀ e, s.updatedTranscript a = .error e →
      (e = .transcriptProvable ∧ ∃ x, s.transcript.provable.contains x = true ∧ a.provable.contains x = true) ∨
      (e = .transcriptUnprovable ∧ (∀ y, s.transcript.provable.contains y = true → a.provable.contains y = false) ∧
        ∃ x, s.transcript.unprovable.contains x = true ∧ a.unprovable.contains x = true) := by
    intro e he
    have hk := C13_never_refused mi hac h0 h he
    unfold Session.updatedTranscript Transcript.update at he
    split at he
    · simp only [Except.error.injEq] at he
      subst he
      simp at hk
    · split at he
      · simp only [Except.error.injEq] at he
        subst he
        simp at hk
      · split at he
        · simp only [Except.error.injEq] at he
          subst he
          simp at hk
        · cases hp : Transcript.mergeErrors .transcriptProvable s.transcript.provable a.provable with
          | error e' =>
            simp only [hp, Except.error.injEq] at he
            subst he
            obtain ⟨rfl, x, h1, h2⟩ := mergeErrors_error hp
            exact Or.inl ⟨rfl, x, h2, h1⟩
          | ok ap =>
            have hn : ∀ y, s.transcript.provable.contains y = true → a.provable.contains y = false := by
              intro y hy
              by_contra hc
              have := (mergeErrors_iff.1 hp).1 y (by simpa using hc)
              simp [hy] at this
            cases hu : Transcript.mergeErrors .transcriptUnprovable s.transcript.unprovable a.unprovable with
            | error e' =>
              simp only [hp, hu, Except.error.injEq] at he
              subst he
              obtain ⟨rfl, x, h1, h2⟩ := mergeErrors_error hu
              exact Or.inr ⟨rfl, hn, x, h2, h1⟩
            | ok au =>
              simp only [hp, hu] at he
              split at he
              · simp only [Except.error.injEq] at he
                subst he
                simp at hk
              · simp at he
  refine ⟨fwd e, ?_⟩
  intro hc
  cases hu : s.updatedTranscript a with
  | ok t =>
    exfalso
    have hup := update_iff.1 hu
    rcases hc with ⟨-, x, h1, h2⟩ | ⟨-, -, x, h1, h2⟩
    · simp [hup.newP x h2] at h1
    · simp [hup.newU x h2] at h1
  | error e' =>
    rcases fwd e' hu with ⟨rfl, x, h1, h2⟩ | ⟨rfl, hn, x, h1, h2⟩ <;>
      rcases hc with ⟨rfl, y, g1, g2⟩ | ⟨rfl, hn', y, g1, g2⟩
    · rfl
    · simp [hn' x h1] at h2
    · simp [hn y g1] at g2
    · rfl

/-- Applying kept messages works only if they are all from parties a message is expected from. -/
theorem cached_expected {s : Session P} {cached : List (VerifiedMessage sp)} {a a' : Accum P}
    (h : foldE (applyVerified s) a cached = .ok a')
    (ha : ∀ x, a.notSent.contains x = true → s.comm.expecting.contains x = true) :
    ∀ vm ∈ cached, s.comm.expecting.contains vm.sender = true := by
  induction cached generalizing a with
  | nil => simp
  | cons vm l ih =>
    simp only [foldE] at h
    cases hv : applyVerified s a vm with
    | error e => simp [hv] at h
    | ok a1 =>
      simp only [hv] at h
      have hloc : applyVerified s a vm = liftLoc a vm.sender (Loc.add s.transcript (s.process vm) (a.loc vm.sender)) := by
        unfold applyVerified Session.addProcessed
        rw [addProcessed_loc]
        rfl
      rw [hloc] at hv
      cases hadd : Loc.add s.transcript (s.process vm) (a.loc vm.sender) with
      | error e => simp [hadd, liftLoc] at hv
      | ok l' =>
        simp only [hadd, liftLoc, Except.ok.injEq] at hv
        obtain ⟨-, hn, hl'⟩ := add_ok hadd
        have hx1 := ha vm.sender hn
        intro v hvm
        rcases List.mem_cons.1 hvm with rfl | hvm
        · exact hx1
        · refine ih h ?_ v hvm
          intro x hx
          by_cases hxs : x = vm.sender
          · rw [hxs]
            exact hx1
          · apply ha
            have hx' : (a1.loc x).notSent = true := hx
            rw [← hv, Accum.loc_setLoc_other _ hxs] at hx'
            exact hx'

theorem startRound_expected {s : Session P} {rng : sp.Rng} {cached : List (VerifiedMessage sp)} {r : Accum P × List (Message sp)}
    (h : startRound s rng cached = .ok r) : ∀ vm ∈ cached, s.comm.expecting.contains vm.sender = true := by
  unfold startRound at h
  cases hs : sendAll s rng 0 s.makeAccum s.destinations.elems with
  | error e => simp [hs] at h
  | ok v =>
    obtain ⟨a, ms⟩ := v
    simp only [hs] at h
    obtain ⟨-, e2, -, -⟩ := sendAll_loc hs
    cases hf : foldE (applyVerified s) a cached with
    | error e => simp [hf] at h
    | ok a' =>
      refine cached_expected hf ?_
      intro x hx
      rw [e2] at hx
      exact hx

/-- A delivery fails only if the message is taken. -/
theorem deliver_taken (env : sp.EnvOk) (mi : MainIds P) {s : Session P} (hp : Proper s) {a : Accum P}
    {x : sp.Id} {m : Message sp} {e : LErr} (he : deliver s a x m = .error e) : Taken s a x m := by
  obtain ⟨v, hrow, hpre⟩ := C02_outcome_determined env.serMeta s (proper_wellFormed mi hp) a x m
  unfold deliver at he
  rw [hpre] at he
  cases hrow with
  | process hthis hpr hau => exact ⟨hthis.1, hpr, hau⟩
  | _ => simp [Verdict.effect, PreOutcome.ok?] at he

/-- The message of a party whose message for this round has already been processed makes the delivery fail. -/
theorem deliver_again (env : sp.EnvOk) (mi : MainIds P) {s : Session P} (hp : Proper s) {a : Accum P}
    {x : sp.Id} {m : Message sp} (ht : Taken s a x m) (hx : a.payloads.contains x = true) :
    deliver s a x m = .error .dupPayload := by
  obtain ⟨hne, hpr, hau⟩ := ht
  have hmeta : m.direct.metadata = ⟨s.sessionId, s.transition.id⟩ := hau.1.1
  have hrow : Row s a x m .process :=
    .process ⟨hne, authentic_coherent hau, by rw [hmeta], by rw [hmeta]⟩ hpr hau
  unfold deliver
  rw [C02_decision_table env.serMeta s (proper_wellFormed mi hp) a x m _ hrow]
  simp only [Verdict.effect, PreOutcome.ok?, applyVerified, Session.addProcessed, Session.process, Accum.addProcessed]
  have e1 : (verifiedOf x m).sender = x := rfl
  simp [e1, hx]

/-- C08, the exact condition: in a run of working local code an event makes the session fail with a local error if and only if
`CrashesWith` lists it, and the error is the one listed. -/
theorem C08_exact (env : sp.EnvOk) {I : P.Rd → Prop} (lo : LocalOk P I) (mi : MainIds P) (hac : Acyclic P) (hstrict : EchoStrict P)
    {rng0 : sp.Rng} {sid : Bytes} {signer : sp.Signer} {ep : EntryPoint P} {s₀ s : Session P} {a : Accum P}
    (h0 : Session.new rng0 sid signer ep = .ok s₀) (hI : ep.Starts sid (sp.verifyingKey signer) I)
    (has : ∀ trail s cached, Visits s₀ trail s cached → Assembles s) (h : Reach s₀ (.running s a)) (ev : Event sp) (e : LErr) :
    step (.running s a) ev = some (.done (.error e), []) ↔ CrashesWith s a ev e := by
  obtain ⟨trail, cached, rng', l, hv, hseq⟩ := reach_running h
  obtain ⟨hp0, -, -, -, hmain⟩ := new_proper h0
  have hi := visits_inv hp0 hmain hv
  have hacc := seqRound_reach hseq
  have hcl : ∀ ev, Closes a ev → ∀ e, s.updatedTranscript a = .error e → CrashesWith s a ev e := by
    intro ev hev e he
    rcases (update_fails mi hac h0 h e).1 he with ⟨rfl, x, h1, h2⟩ | ⟨rfl, hn, x, h1, h2⟩
    · exact .provableTwice hev h1 h2
    · exact .unprovableTwice hev hn h1 h2
  have hlc : ∀ ev, Closes a ev → ∀ e, s.updatedTranscript a = .error e →
      step (.running s a) ev = some (.done (.error e), []) := by
    intro ev hev e he
    rcases hev with ⟨rfl, hc⟩ | ⟨rng, rfl, hc⟩
    · simp [step, hc, Session.terminateDueToErrors, Session.terminate, Session.terminateInner, he]
    · cases hk : a.canFinalize with
      | notYet => exact (hc hk).elim
      | never => simp [step, hk, Session.terminateDueToErrors, Session.terminateInner, he]
      | yes => simp [step, hk, finishRound, Session.finalizeRound, he]
  constructor
  · intro hs
    have hcause := C08_step_partial env lo mi hac hstrict h0 hI has h hv hseq hs
    cases hcause with
    | closed =>
      refine .closed ?_
      cases hk : a.canFinalize <;> simp [step, hk] at hs ⊢
    | @unexpected x m hx hau =>
      cases hk : a.canFinalize with
      | notYet =>
        refine .unexpected hk ?_ hx
        cases hd : deliver s a x m with
        | ok a' => simp [step, hk, hd] at hs
        | error e' => exact deliver_taken env mi hi.proper hd
      | never => simp [step, hk] at hs
      | yes => simp [step, hk] at hs
    | @again x m vm _ _ hpl hau =>
      cases hk : a.canFinalize with
      | notYet =>
        refine .again hk ?_ hpl
        cases hd : deliver s a x m with
        | ok a' => simp [step, hk, hd] at hs
        | error e' => exact deliver_taken env mi hi.proper hd
      | never => simp [step, hk] at hs
      | yes => simp [step, hk] at hs
    | bannedTwice hev hr _ _ _ _ hk' =>
      have hcl' : Closes a ev := by
        rcases hev with rfl | ⟨rng, rfl⟩
        · left
          cases hk : a.canFinalize <;> simp [step, hk] at hs ⊢
        · right
          refine ⟨rng, rfl, ?_⟩
          intro hk
          simp [step, hk] at hs
      refine hcl ev hcl' e ?_
      cases hu : s.updatedTranscript a with
      | error e' =>
        have := hlc ev hcl' e' hu
        rw [hs] at this
        simp only [Option.some.injEq, Prod.mk.injEq, RunState.done.injEq, Except.error.injEq, and_true] at this
        rw [this]
      | ok t =>
        exfalso
        rcases hcl' with ⟨rfl, hk⟩ | ⟨rng, rfl, hk⟩
        · simp [step, hk, Session.terminateDueToErrors, Session.terminate, Session.terminateInner, hu] at hs
        · cases hk2 : a.canFinalize with
          | notYet => exact hk hk2
          | never => simp [step, hk2, Session.terminateDueToErrors, Session.terminateInner, hu] at hs
          | yes =>
            obtain ⟨o, ho⟩ := finalizeRound_total env lo mi h0 hI h hk2 hu (sp.fork rng 0)
            cases o with
            | finished r => simp [step, hk2, finishRound, ho] at hs
            | anotherRound s' cached' =>
              simp only [step, hk2, finishRound, ho, enterRound] at hs
              have hv' : Visits s₀ (trail ++ [(s, a)]) s' cached' := .next hv hseq hk2 ho
              have hi' := visits_inv hp0 hmain hv'
              have hb' := visits_benign env lo hstrict hp0 hmain hv' (visits_local_main lo h0 hI hv') (has _ _ _ hv')
              split at hs
              · rename_i e' hst
                simp only [Option.some.injEq, Prod.mk.injEq, RunState.done.injEq, Except.error.injEq, and_true] at hs
                obtain ⟨rfl, -⟩ := startRound_error env lo hi'.proper (visits_local_main lo h0 hI hv') hb' hi'.nodup
                  (by rw [hi'.sessionId]; exact hi'.authentic) hst
                subst hs
                simp at hk'
              · simp at hs
    | @cachedUnexpected rng s' cached' vm hf hvm hx =>
      refine .cachedUnexpected ?_ hf hvm hx
      cases hk : a.canFinalize with
      | yes => rfl
      | notYet => simp [step, hk] at hs
      | never =>
        exfalso
        simp only [step, hk, Session.terminateDueToErrors, Session.terminateInner] at hs
        cases hu : s.updatedTranscript a with
        | ok t => simp [hu] at hs
        | error e' =>
          simp [Session.finalizeRound, hu] at hf
  · intro hc
    cases hc with
    | closed hk => simp [step, hk]
    | unexpected hk ht hx =>
      exact C08_outsider_violation env.serMeta mi hi.proper hacc hk hx ht.1 ht.2.1 ht.2.2
    | again hk ht hpl =>
      simp [step, hk, deliver_again env mi hi.proper ht hpl]
    | provableTwice hev h1 h2 =>
      exact hlc _ hev _ ((update_fails mi hac h0 h _).2 (Or.inl ⟨rfl, _, h1, h2⟩))
    | unprovableTwice hev hn h1 h2 =>
      exact hlc _ hev _ ((update_fails mi hac h0 h _).2 (Or.inr ⟨rfl, hn, _, h1, h2⟩))
    | @cachedUnexpected rng s' cached' vm hk hf hvm hx =>
      simp only [step, hk, finishRound, hf, enterRound]
      have hv' : Visits s₀ (trail ++ [(s, a)]) s' cached' := .next hv hseq hk hf
      have hi' := visits_inv hp0 hmain hv'
      have hb' := visits_benign env lo hstrict hp0 hmain hv' (visits_local_main lo h0 hI hv') (has _ _ _ hv')
      cases hst : startRound s' (sp.fork rng 1) cached' with
      | ok r => simp [startRound_expected hst vm hvm] at hx
      | error e' =>
        obtain ⟨rfl, -⟩ := startRound_error env lo hi'.proper (visits_local_main lo h0 hI hv') hb' hi'.nodup
          (by rw [hi'.sessionId]; exact hi'.authentic) hst
        rfl

/-- A state meeting the hypotheses of `C08_exact`: party 2 is banned twice, and cancelling the run fails. -/
example : ∃ (s₀ s : Session (demo true 255).wrap) (a : Accum (demo true 255).wrap),
    demoSession true 255 [1, 2, 3] 1 = .ok s₀ ∧ Reach s₀ (.running s a) ∧ CrashesWith s a .cancel .transcriptUnprovable ∧
      step (.running s a) .cancel = some (.done (.error .transcriptUnprovable), []) := by
  have h : onOk (demoRun true 255 banThenEcho) (fun r => r.2.isRunning (fun s a => (a.canFinalize == .notYet) &&
      s.transcript.provable.isEmpty && s.transcript.unprovable.contains (2 : U8) && a.unprovable.contains (2 : U8))) = true := by
    decide +kernel
  obtain ⟨s₀, st, h0, hr, hk⟩ := onOk_run h
  obtain ⟨s, a, rfl, q⟩ := isRunning_iff.1 hk
  simp only [Bool.and_eq_true, beq_iff_eq] at q
  obtain ⟨⟨⟨q1, q2⟩, q3⟩, q4⟩ := q
  have hc : CrashesWith s a .cancel .transcriptUnprovable :=
    .unprovableTwice (Or.inl ⟨rfl, q1⟩) (fun y hy => by
      rw [BMap.isEmpty_iff_eq.1 q2] at hy
      simp at hy) q3 q4
  exact ⟨s₀, s, a, h0, hr, hc, (C08_exact toy_envOk (demo_localOk _) (demo_mainIds _ _) (demo_acyclic _ _) (demo_strict _ _) h0
    (fun _ _ _ => trivial) (fun _ s _ _ => demo_assembles _ _ s) hr _ _).2 hc⟩

end Manul
