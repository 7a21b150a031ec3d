import Verif.Lemmas.Crash

/-!
# Properties: local errors

C08.  A peer should not be able to make a node fail with a local error.  As stated this does not hold; the ways in which it
fails are exhibited, and it is proved that there are no others.
-/

namespace Manul

variable {sp : SP} {P : Proto sp}

/-- The rounds of a run satisfy the invariant. -/
theorem visits_local {I : P.Rd → Prop} (lo : LocalOk P I) {rng0 : sp.Rng} {sid : Bytes} {signer : sp.Signer} {ep : EntryPoint P}
    {s₀ s : Session P} (h0 : Session.new rng0 sid signer ep = .ok s₀) (hI : ep.Starts sid (sp.verifyingKey signer) I)
    {trail : List (Session P × Accum P)} {cached : List (VerifiedMessage sp)} (hv : Visits s₀ trail s cached) (a : Accum P) :
    I (finalizing s a).1 := by
  induction hv generalizing a with
  | first =>
    unfold Session.new at h0
    split at h0
    · simp at h0
    · rename_i r hr
      have := hI _ _ hr
      simpa [finalizing, (newForNextRound_ok h0).round] using this
  | @next trail s s' cached cached' rng rng' l b hv hseq hy hf ih =>
    obtain ⟨t, hu, hfin⟩ := finalizeRound_ok hf
    cases hfin with
    | toEcho hi hr hget hns =>
      have := ih b
      simpa [finalizing, hns.round, hr] using this
    | @toNext r _ hi hr hc hns hrid =>
      obtain ⟨ps, as, h1, -, h2⟩ := inRound_finalize_call h0 ⟨cached, rng, l, hv, hseq⟩ hy
      rw [h1] at hr
      obtain ⟨o, h3, h4⟩ := lo.finalize _ (sp.fork rng' 0) ps as (ih b) h2
      rw [h3] at hr
      simpa [finalizing, hns.round] using (h4 r (Except.ok.inj hr)).1

theorem visits_local_main {I : P.Rd → Prop} (lo : LocalOk P I) {rng0 : sp.Rng} {sid : Bytes} {signer : sp.Signer}
    {ep : EntryPoint P} {s₀ s : Session P} (h0 : Session.new rng0 sid signer ep = .ok s₀) (hI : ep.Starts sid (sp.verifyingKey signer) I)
    {trail : List (Session P × Accum P)} {cached : List (VerifiedMessage sp)} (hv : Visits s₀ trail s cached) (r : P.Rd)
    (hr : s.round = .main r) : I r := by
  have := visits_local lo h0 hI hv s.makeAccum
  simpa [finalizing, hr] using this

/-- Finalizing a round of a run works once the transcript could be updated. -/
theorem finalizeRound_total (env : sp.EnvOk) {I : P.Rd → Prop} (lo : LocalOk P I) (mi : MainIds P) {rng0 : sp.Rng} {sid : Bytes}
    {signer : sp.Signer} {ep : EntryPoint P} {s₀ s : Session P} {a : Accum P}
    (h0 : Session.new rng0 sid signer ep = .ok s₀) (hI : ep.Starts sid (sp.verifyingKey signer) I) (h : Reach s₀ (.running s a)) (hy : a.canFinalize = .yes)
    {t : Transcript sp} (hu : s.updatedTranscript a = .ok t) (rng : sp.Rng) : ∃ o, s.finalizeRound rng a = .ok o := by
  obtain ⟨hp0, -, -, -, hmain⟩ := new_proper h0
  obtain ⟨trail, cached, rng', l, hv, hseq⟩ := reach_running h
  have hi := visits_inv hp0 hmain hv
  have hup := update_iff.1 hu
  unfold Session.finalizeRound
  simp only [hu]
  cases hinfo : s.echoInfo with
  | some info =>
    cases hr : s.round with
    | echo e => simp [echo_echoInfo hi.proper hr] at hinfo
    | main r =>
      simp only [Session.startEcho]
      have hget : t.echos.get? s.roundId = some (a.echos.insert s.me s.echo) := by
        rw [hup.echos, BMap.get?_insert, if_pos rfl]
      simp only [Transcript.echoBroadcasts, hget, okOr]
      have htr : ∃ tr, SRound.transition (.echo (⟨s.me, a.echos.insert s.me s.echo, info, r, a.payloads, a.artifacts⟩ :
          EchoRd P)) = .ok tr := by
        have := mi r
        simp only [SRound.transition, EchoRd.transition, TransitionInfo.echo, RoundId.echo, this]
        exact ⟨_, rfl⟩
      obtain ⟨tr, htr⟩ := htr
      obtain ⟨s', hs'⟩ := next_echo_total env mi (rng := sp.fork rng 1) (sid := s.sessionId) (signer := s.signer)
        (e := (⟨s.me, a.echos.insert s.me s.echo, info, r, a.payloads, a.artifacts⟩ : EchoRd P)) (t := t) (by simp)
      simp only [htr, hs']
      exact ⟨_, rfl⟩
  | none =>
    simp only [Session.finalizeProper]
    obtain ⟨ps, as, hf, -, hk⟩ := finalize_call h0 h hy
    obtain ⟨o, ho, hch⟩ := lo.finalize (finalizing s a).1 (sp.fork rng 0) ps as (visits_local lo h0 hI hv a) hk
    rw [hf, ho]
    cases o with
    | result r => exact ⟨_, rfl⟩
    | anotherRound r' =>
      have hc : s.transition.children.contains (P.transition r').id = true := by
        have := (hch r' rfl).2
        cases hr : s.round with
        | main r =>
          rw [(roundId_main hi.proper hr).1]
          simpa [finalizing, hr] using this
        | echo e =>
          have htr := hi.proper.transition
          rw [hr] at htr
          simp only [SRound.transition, EchoRd.transition, TransitionInfo.echo, RoundId.echo, mi e.main] at htr
          simp only [Bool.false_eq_true, if_false, mapErr, Except.ok.injEq] at htr
          rw [← htr]
          simpa [finalizing, hr] using this
      obtain ⟨s', hs'⟩ := next_main_total env lo (rng := sp.fork rng 1) (sid := s.sessionId) (signer := s.signer)
        (hch r' rfl).1 (t := t)
      simp only [hc, Bool.true_eq_false, if_false, hs']
      exact ⟨_, rfl⟩

/-- Closing a round of a run fails only in an echo round in which an already banned party was banned again. -/
theorem update_cause (mi : MainIds P) (hac : Acyclic P) {rng0 : sp.Rng} {sid : Bytes} {signer : sp.Signer}
    {ep : EntryPoint P} {s₀ s : Session P} {a : Accum P} {trail : List (Session P × Accum P)}
    {cached : List (VerifiedMessage sp)} {rng : sp.Rng} {l : List (sp.Id × Message sp)}
    (h0 : Session.new rng0 sid signer ep = .ok s₀) (h : Reach s₀ (.running s a)) (hv : Visits s₀ trail s cached)
    (hseq : SeqRound s rng cached l a) {e : LErr} (he : s.updatedTranscript a = .error e) {ev : Event sp}
    (hev : ev = .cancel ∨ ∃ rng, ev = .tick rng) : CrashCause s a cached ev e := by
  have hk := C13_never_refused mi hac h0 h he
  obtain ⟨x, h1, h2⟩ := update_error he hk
  obtain ⟨vm, hvm, hx⟩ := (seqRound_cinv hseq x).banned (by rw [← banned_loc]; exact h2) h1
  cases hr : s.round with
  | main r =>
    have := visits_unbanned hv hr vm hvm
    rw [hx, h1] at this
    simp at this
  | echo er => exact .bannedTwice hev hr hvm hx h1 h2 hk

/-- C08, partial: in a run of working local code a step fails only for the reasons listed in `CrashCause`: the incoming channel
was closed, a message from a party the round does not expect messages from arrived or was kept for the round entered, a party
that had its message kept for this round sends another one, or, in an echo round, a banned party was banned again.  Missing:
these reasons themselves should not lead to a local error either, except for the first. -/
theorem C08_step_partial (env : sp.EnvOk) {I : P.Rd → Prop} (lo : LocalOk P I) (mi : MainIds P) (hac : Acyclic P) (hstrict : EchoStrict P)
    {rng0 : sp.Rng} {sid : Bytes} {signer : sp.Signer} {ep : EntryPoint P} {s₀ s : Session P} {a : Accum P}
    (h0 : Session.new rng0 sid signer ep = .ok s₀) (hI : ep.Starts sid (sp.verifyingKey signer) I)
    (has : ∀ trail s cached, Visits s₀ trail s cached → Assembles s)
    (h : Reach s₀ (.running s a)) {trail : List (Session P × Accum P)} {cached : List (VerifiedMessage sp)} {rng' : sp.Rng}
    {l : List (sp.Id × Message sp)} (hv : Visits s₀ trail s cached) (hseq : SeqRound s rng' cached l a)
    {ev : Event sp} {e : LErr} {out : List (Message sp)}
    (hs : step (.running s a) ev = some (.done (.error e), out)) : CrashCause s a cached ev e := by
  obtain ⟨hp0, -, -, -, hmain⟩ := new_proper h0
  have hi := visits_inv hp0 hmain hv
  have hb := visits_benign env lo hstrict hp0 hmain hv (visits_local_main lo h0 hI hv) (has _ _ _ hv)
  have hterm : ∀ ev, (ev = .cancel ∨ ∃ rng, ev = Event.tick rng) → s.terminateDueToErrors a = .error e →
      CrashCause s a cached ev e := by
    intro ev hev ht
    unfold Session.terminateDueToErrors Session.terminateInner at ht
    cases hu : s.updatedTranscript a with
    | ok t => simp [hu] at ht
    | error e' =>
      simp only [hu, Except.error.injEq] at ht
      subst ht
      exact update_cause mi hac h0 h hv hseq hu hev
  simp only [step] at hs
  cases hc : a.canFinalize with
  | never =>
    cases ev <;> simp only [hc, reduceCtorEq] at hs
    rename_i rng
    simp only [Option.some.injEq, Prod.mk.injEq, RunState.done.injEq] at hs
    exact hterm _ (Or.inr ⟨rng, rfl⟩) hs.1
  | notYet =>
    cases ev with
    | tick rng => simp [hc] at hs
    | cancel =>
      simp only [hc, Option.some.injEq, Prod.mk.injEq, RunState.done.injEq] at hs
      exact hterm _ (Or.inl rfl) hs.1
    | close =>
      simp only [hc, Option.some.injEq, Prod.mk.injEq, RunState.done.injEq, Except.error.injEq] at hs
      rw [← hs.1]
      exact .closed
    | deliver x m =>
      simp only [hc] at hs
      cases hd : deliver s a x m with
      | ok a' => simp [hd] at hs
      | error e' =>
        simp only [hd, Option.some.injEq, Prod.mk.injEq, RunState.done.injEq, Except.error.injEq] at hs
        rw [← hs.1]
        exact deliver_error env mi hi.proper hb hseq hd
  | yes =>
    cases ev <;> simp only [hc, reduceCtorEq] at hs
    rename_i rng
    simp only [Option.some.injEq] at hs
    unfold finishRound at hs
    cases hu : s.updatedTranscript a with
    | error e' =>
      have : s.finalizeRound (sp.fork rng 0) a = .error e' := by unfold Session.finalizeRound; simp [hu]
      simp only [this, Prod.mk.injEq, RunState.done.injEq, Except.error.injEq] at hs
      rw [← hs.1]
      exact update_cause mi hac h0 h hv hseq hu (Or.inr ⟨rng, rfl⟩)
    | ok t =>
      obtain ⟨o, ho⟩ := finalizeRound_total env lo mi h0 hI h hc hu (sp.fork rng 0)
      simp only [ho] at hs
      cases o with
      | finished r => simp at hs
      | anotherRound s' cached' =>
        simp only at hs
        have hv' : Visits s₀ (trail ++ [(s, a)]) s' cached' := .next hv hseq hc ho
        have hi' := visits_inv hp0 hmain hv'
        have hb' := visits_benign env lo hstrict hp0 hmain hv' (visits_local_main lo h0 hI hv') (has _ _ _ hv')
        unfold enterRound at hs
        split at hs
        · rename_i e' hst
          simp only [Prod.mk.injEq, RunState.done.injEq, Except.error.injEq] at hs
          obtain ⟨rfl, -⟩ := hs
          obtain ⟨rfl, vm, hvm, hx⟩ := startRound_error env lo hi'.proper (visits_local_main lo h0 hI hv') hb' hi'.nodup
            (by rw [hi'.sessionId]; exact hi'.authentic) hst
          exact .cachedUnexpected ho hvm hx
        · simp at hs

/-- C08, partial: a run that ends with a local error ended in a step with a cause listed in `CrashCause`; in particular it does
not fail at the start.  Missing: see `C08_step_partial`. -/
theorem C08_run_partial (env : sp.EnvOk) {I : P.Rd → Prop} (lo : LocalOk P I) (mi : MainIds P) (hac : Acyclic P) (hstrict : EchoStrict P)
    {rng0 : sp.Rng} {sid : Bytes} {signer : sp.Signer} {ep : EntryPoint P} {s₀ : Session P}
    (h0 : Session.new rng0 sid signer ep = .ok s₀) (hI : ep.Starts sid (sp.verifyingKey signer) I)
    (has : ∀ trail s cached, Visits s₀ trail s cached → Assembles s) {e : LErr} (h : Reach s₀ (.done (.error e))) :
    ∃ trail s a cached ev, Reach s₀ (.running s a) ∧ Visits s₀ trail s cached ∧ CrashCause s a cached ev e := by
  obtain ⟨hp0, -, -, -, hmain⟩ := new_proper h0
  generalize hst : (RunState.done (.error e) : RunState P) = st at h
  cases h with
  | start rng =>
    exfalso
    unfold start enterRound at hst
    have hb := visits_benign env lo hstrict hp0 hmain (Visits.first (s₀ := s₀)) (visits_local_main lo h0 hI .first)
      (has _ _ _ .first)
    split at hst
    · rename_i e' hs
      obtain ⟨-, vm, hvm, -⟩ := startRound_error env lo hp0 (visits_local_main lo h0 hI .first) hb (by simp) (by simp) hs
      simp at hvm
    · simp at hst
  | @step st1 _ ev out hr hs =>
    subst hst
    cases st1 with
    | done r => simp [step] at hs
    | running s a =>
      obtain ⟨trail, cached, rng', l, hv, hseq⟩ := reach_running hr
      exact ⟨trail, s, a, cached, ev, hr, hv, C08_step_partial env lo mi hac hstrict h0 hI has hr hv hseq hs⟩

/-- C08: making a session works. -/
theorem C08_new (env : sp.EnvOk) {I : P.Rd → Prop} (lo : LocalOk P I) {rng : sp.Rng} {sid : Bytes} {signer : sp.Signer} {ep : EntryPoint P}
    (hI : ep.Starts sid (sp.verifyingKey signer) I) (he : ∀ rng me, ∃ r, ep.makeRound rng sid me = .ok r) : ∃ s₀, Session.new rng sid signer ep = .ok s₀ := by
  obtain ⟨r, hr⟩ := he (sp.fork rng 0) (sp.verifyingKey signer)
  obtain ⟨s, hs⟩ := next_main_total env lo (rng := sp.fork rng 1) (sid := sid) (signer := signer)
    (hI _ _ hr) (t := Transcript.new)
  exact ⟨s, by simp [Session.new, hr, hs]⟩

/-- C08, partial: in a round in which only expected parties send messages, and for which and in which nobody has sent messages in
advance, no step fails unless the incoming channel is closed.  Missing: the other cases, see `C08_step_partial`. -/
theorem C08_no_crash_partial (env : sp.EnvOk) {I : P.Rd → Prop} (lo : LocalOk P I) (mi : MainIds P) (hac : Acyclic P) (hstrict : EchoStrict P)
    {rng0 : sp.Rng} {sid : Bytes} {signer : sp.Signer} {ep : EntryPoint P} {s₀ s : Session P} {a : Accum P}
    (h0 : Session.new rng0 sid signer ep = .ok s₀) (hI : ep.Starts sid (sp.verifyingKey signer) I)
    (has : ∀ trail s cached, Visits s₀ trail s cached → Assembles s)
    (h : Reach s₀ (.running s a)) {trail : List (Session P × Accum P)} {rng' : sp.Rng}
    {l : List (sp.Id × Message sp)} (hv : Visits s₀ trail s []) (hseq : SeqRound s rng' [] l a)
    (hadv : a.cached = BMap.empty) {ev : Event sp} (hcl : ev ≠ .close)
    (hsnd : ∀ x m, ev = .deliver x m → s.comm.expecting.contains x = true) {e : LErr} {out : List (Message sp)} :
    step (.running s a) ev ≠ some (.done (.error e), out) := by
  intro hs
  cases C08_step_partial env lo mi hac hstrict h0 hI has h hv hseq hs with
  | closed => exact hcl rfl
  | unexpected hx _ => simp [hsnd _ _ rfl] at hx
  | again hm _ _ _ => simp at hm
  | bannedTwice _ _ hm _ _ _ _ => simp at hm
  | @cachedUnexpected rng s' cached' vm hf hm _ =>
    have hnone : ∀ rid, Accum.filterMessages a.cached rid = [] := by
      intro rid
      rw [hadv]
      rfl
    obtain ⟨t, -, hfin⟩ := finalizeRound_ok hf
    cases hfin with
    | toEcho _ _ _ _ => simp [hnone] at hm
    | toNext _ _ _ _ _ => simp [hnone] at hm

/-! ## C08 as stated fails -/

/-- C08 as stated fails, for every session waiting for messages: one properly signed message for the round from a party it does
not expect messages from makes it fail with a local error. -/
theorem C08_outsider_violation (mt : sp.MetaTotal) (mi : MainIds P) {s : Session P} (hp : Proper s) {a : Accum P}
    (hr : AccReach s a) (hny : a.canFinalize = .notYet) {x : sp.Id} {m : Message sp}
    (hx : s.comm.expecting.contains x = false) (hne : ¬ HasError s a x)
    (hpr : a.processing.contains x = false)
    (hau : Authentic x s.sessionId s.transition.id m.direct m.echo m.normal) :
    step (.running s a) (.deliver x m) = some (.done (.error .unexpectedSender), []) := by
  have hmeta : m.direct.metadata = ⟨s.sessionId, s.transition.id⟩ := hau.1.1
  have hrow : Row s a x m .process :=
    .process ⟨hne, authentic_coherent hau, by rw [hmeta], by rw [hmeta]⟩ hpr hau
  obtain ⟨hexp, hl⟩ := reach_linv hr x
  rw [hexp, hx] at hl
  have h1 : a.notSent.contains x = false := by
    by_contra hc
    have := hl.notSent (by simpa [Accum.loc] using hc)
    simp at this
  have h2 : a.payloads.contains x = false := by
    by_contra hc
    have := (hl.payload (by rw [contains_isSome] at hc; exact (Bool.not_eq_false _).mp hc)).1
    simp at this
  have hd : deliver s a x m = .error .unexpectedSender := by
    unfold deliver
    rw [C02_decision_table mt s (proper_wellFormed mi hp) a x m _ hrow]
    simp only [Verdict.effect, PreOutcome.ok?, applyVerified, Session.addProcessed, Session.process, Accum.addProcessed]
    have e1 : (verifiedOf x m).sender = x := rfl
    simp [e1, h1, h2]
  simp [step, hny, hd]

/-- C08 as stated fails: a key holder outside the protocol (party 4) stops the run of party 1 with one message. -/
theorem C08_unexpected_violation :
    ∃ s₀ : Session (demo true 255).wrap, demoSession true 255 [1, 2, 3] 1 = .ok s₀ ∧
      Reach s₀ (.done (.error .unexpectedSender)) := by
  have h : onOk (demoRun true 255 [.msg ⟨4, 4, [9], RoundId.new 1, 1, some [5], some [2], some [7]⟩])
      (fun r => r.2.isFailed (· == .unexpectedSender)) = true := by decide +kernel
  obtain ⟨s₀, st, h0, hr, hk⟩ := onOk_run h
  obtain ⟨e, rfl, he⟩ := isFailed_iff.1 hk
  rw [beq_iff_eq.1 he] at hr
  exact ⟨s₀, h0, hr⟩

/-- C08 as stated fails: the same with a message sent in advance, for the second round. -/
theorem C08_cached_unexpected_violation :
    ∃ s₀ : Session (demo false 255).wrap, demoSession false 255 [1, 2, 3] 1 = .ok s₀ ∧
      Reach s₀ (.done (.error .unexpectedSender)) := by
  have h : onOk (demoRun false 255 [.msg ⟨4, 4, [9], RoundId.new 2, 1, some [5], none, some [7]⟩,
      .msg ⟨2, 2, [9], RoundId.new 1, 1, some [5], none, some [7]⟩,
      .msg ⟨3, 3, [9], RoundId.new 1, 1, some [5], none, some [7]⟩, .tick])
      (fun r => r.2.isFailed (· == .unexpectedSender)) = true := by decide +kernel
  obtain ⟨s₀, st, h0, hr, hk⟩ := onOk_run h
  obtain ⟨e, rfl, he⟩ := isFailed_iff.1 hk
  rw [beq_iff_eq.1 he] at hr
  exact ⟨s₀, h0, hr⟩

/-- C08 as stated fails: an expected party (party 2) stops the run by sending its message for the second round twice, once
before and once after the round starts. -/
theorem C08_cached_duplicate_violation :
    ∃ s₀ : Session (demo false 255).wrap, demoSession false 255 [1, 2, 3] 1 = .ok s₀ ∧
      Reach s₀ (.done (.error .dupPayload)) := by
  have h : onOk (demoRun false 255 [.msg ⟨2, 2, [9], RoundId.new 1, 1, some [5], none, some [7]⟩,
      .msg ⟨2, 2, [9], RoundId.new 2, 1, some [5], none, some [7]⟩,
      .msg ⟨3, 3, [9], RoundId.new 1, 1, some [5], none, some [7]⟩, .tick,
      .msg ⟨2, 2, [9], RoundId.new 2, 1, some [5], none, some [7]⟩])
      (fun r => r.2.isFailed (· == .dupPayload)) = true := by decide +kernel
  obtain ⟨s₀, st, h0, hr, hk⟩ := onOk_run h
  obtain ⟨e, rfl, he⟩ := isFailed_iff.1 hk
  rw [beq_iff_eq.1 he] at hr
  exact ⟨s₀, h0, hr⟩

/-- C08 as stated fails: an expected party (party 2) that sends a bad echo pack in advance and then repeats its message of the
first round gets banned twice, which stops the run at the end of the echo round. -/
theorem C08_banned_twice_violation :
    ∃ s₀ : Session (demo true 255).wrap, demoSession true 255 [1, 2, 3] 1 = .ok s₀ ∧
      Reach s₀ (.done (.error .transcriptUnprovable)) := by
  have h : onOk (demoRun true 255 (banThenEcho ++ [.cancel]))
      (fun r => r.2.isFailed (· == .transcriptUnprovable)) = true := by decide +kernel
  obtain ⟨s₀, st, h0, hr, hk⟩ := onOk_run h
  obtain ⟨e, rfl, he⟩ := isFailed_iff.1 hk
  rw [beq_iff_eq.1 he] at hr
  exact ⟨s₀, h0, hr⟩

/-! ## The hypotheses are satisfiable -/

/-- Protocol errors about messages of the current round only, which serialize, can always be assembled. -/
theorem assembles_of_simple {s : Session P}
    (h : ∀ x m req ser, s.round.receive x m = .error (.protocol req ser) →
      req.previous = none ∧ req.combined = none ∧ ∃ b, ser = .ok b) : Assembles s := by
  intro vm req ser _ _ hr
  obtain ⟨h1, h2, b, rfl⟩ := h _ _ _ _ hr
  unfold Evidence.newProvableError
  rw [h1, h2]
  simp [foldE]

theorem foldE_error {ε σ α : Type} {f : σ → α → Except ε σ} {s : σ} {l : List α} {e : ε} (h : foldE f s l = .error e) :
    ∃ t x, x ∈ l ∧ f t x = .error e := by
  induction l generalizing s with
  | nil => simp [foldE] at h
  | cons x l ih =>
    simp only [foldE] at h
    cases hx : f s x with
    | error e' =>
      simp only [hx, Except.error.injEq] at h
      subst h
      exact ⟨s, x, List.mem_cons_self .., hx⟩
    | ok s' =>
      simp only [hx] at h
      obtain ⟨t, y, hy, hf⟩ := ih h
      exact ⟨t, y, List.mem_cons_of_mem _ hy, hf⟩

theorem echo_receive_protocol {e : EchoRd P} {x : sp.Id} {m : DynMsg} {req : RequiredMessages} {ser : Except LErr Bytes}
    (h : e.receive x m = .error (.protocol req ser)) : False := by
  unfold EchoRd.receive EchoRd.receivePack at h
  split at h
  · simp at h
  · split at h
    · simp at h
    · split at h
      · simp at h
      · simp only at h
        split at h
        · simp at h
        · split at h
          · simp at h
          · obtain ⟨_, y, -, hc⟩ := foldE_error h
            unfold EchoRd.checkEcho at hc
            repeat' split at hc
            all_goals simp at hc

theorem demo_id (echo : Bool) (last : U8) (r : DemoSt) : ((demo echo last).transition r).id = RoundId.new r.n := by
  simp only [demo]
  split
  · rfl
  · unfold TransitionInfo.newLinear
    split
    · rename_i h
      split at h
      · simp at h
      · simp only [Except.ok.injEq] at h
        rw [← h]
    · rfl

theorem demo_mainIds (echo : Bool) (last : U8) : MainIds (demo echo last).wrap := by
  intro r
  have := demo_id echo last r
  exact (congrArg RoundId.isEcho this).trans rfl

/-- The errors of a wrapped round. -/
theorem wrapReceive_error {T : TypedProto sp} {st : T.St} {x : sp.Id} {m : DynMsg} {err : RecvErr sp}
    (h : T.wrap.receive st x m = .error err) :
    err = .invalidDirect ∨ err = .invalidEcho ∨ err = .invalidNormal ∨
      ∃ v e, T.receive st x v = .error e ∧ err = T.boxErr (T.transition st).id e := by
  have h' : T.wrapReceive st x m = .error err := h
  unfold TypedProto.wrapReceive at h'
  split at h'
  · simp only [Except.error.injEq] at h'
    exact Or.inl h'.symm
  · split at h'
    · simp only [Except.error.injEq] at h'
      exact Or.inr (Or.inl h'.symm)
    · split at h'
      · simp only [Except.error.injEq] at h'
        exact Or.inr (Or.inr (Or.inl h'.symm))
      · rename_i d _ _ e _ _ n _
        cases hr : T.receive st x ⟨d, e, n⟩ with
        | ok v => simp [hr, mapErr] at h'
        | error e' =>
          simp only [hr, mapErr, Except.error.injEq] at h'
          exact Or.inr (Or.inr (Or.inr ⟨_, e', hr, h'.symm⟩))

theorem demo_receive_error {echo : Bool} {last : U8} {st : (demo echo last).St} {x : U8} {v : TypedMsg Bytes}
    {e : TypedErr Unit} (h : (demo echo last).receive st x v = .error e) :
    e = .protocol () ∨ e = .unprovable (.user 0) := by
  change (if v.direct = some [66] then .error (.protocol ())
    else if v.direct = some [67] then .error (.unprovable (.user 0))
    else .ok (demoVal v.direct + demoVal v.echo + demoVal v.normal) : Except (TypedErr Unit) Nat) = .error e at h
  repeat' split at h
  · simp only [Except.error.injEq] at h
    exact Or.inl h.symm
  · simp only [Except.error.injEq] at h
    exact Or.inr h.symm
  · simp at h

theorem demo_acyclic (echo : Bool) (last : U8) : Acyclic (demo echo last).wrap := by
  intro a h
  have key : ∀ b, Relation.TransGen (ChildOf (demo echo last).wrap) a b → a.round.val < b.round.val := by
    intro b hb
    induction hb with
    | single h => exact demo_child h
    | tail _ h ih => exact lt_trans ih (demo_child h)
  have := key a h
  omega

theorem demo_children (echo : Bool) (r : DemoSt) (h : r.n ≠ 255) :
    ((demo echo 255).transition r).children.contains (RoundId.new (r.n + 1)) = true := by
  have h255 : ¬ r.n.val = 255 := fun hc => h (Fin.ext hc)
  simp [demo, h, TransitionInfo.newLinear, h255, BSet.contains_ofList]

theorem demo_finalize (echo : Bool) (r : DemoSt) (rng : Nat) (ps : BMap U8 Nat) (as : BMap U8 Unit) :
    ∃ o : Outcome DemoSt Nat, (demo echo 255).finalize r rng ps as = .ok o ∧
      ∀ r', o = .anotherRound r' →
        ((demo echo 255).transition r).children.contains ((demo echo 255).transition r').id = true := by
  by_cases hn : r.n = 255
  · refine ⟨.result (r.acc + (ps.toList.map (fun e => e.2)).sum), if_pos hn, ?_⟩
    intro r' h
    cases h
  · refine ⟨.anotherRound { r with n := r.n + 1, acc := r.acc + (ps.toList.map (fun e => e.2)).sum }, if_neg hn, ?_⟩
    intro r' h
    cases h
    rw [demo_id]
    exact demo_children echo r hn

theorem demo_localOk (echo : Bool) : LocalOk (demo echo 255).wrap (fun _ => True) where
  makeDirect := by
    intro r rng d _ _
    exact ⟨_, rfl⟩
  makeEcho := by
    intro r rng _
    cases echo <;> exact ⟨_, rfl⟩
  makeNormal := by
    intro r rng _
    exact ⟨_, rfl⟩
  receive := by
    intro r x m e _ _ h
    rcases wrapReceive_error h with h | h | h | ⟨v, e', hr, h⟩
    · simp at h
    · simp at h
    · simp at h
    · rcases demo_receive_error hr with rfl | rfl <;> simp [TypedProto.boxErr] at h
  finalize := by
    intro r rng ps as _ _
    obtain ⟨o, h1, h2⟩ := demo_finalize echo r rng ps as
    exact ⟨o, h1, fun r' h => ⟨trivial, h2 r' h⟩⟩

theorem demo_assembles (echo : Bool) (last : U8) (s : Session (demo echo last).wrap) : Assembles s := by
  refine assembles_of_simple ?_
  intro x m req ser h
  cases hr : s.round with
  | echo e =>
    rw [hr] at h
    exfalso
    simp only [SRound.receive] at h
    cases hrc : e.receive x m with
    | ok v => simp [hrc] at h
    | error e' =>
      simp only [hrc, Except.error.injEq] at h
      subst h
      exact echo_receive_protocol hrc
  | main r =>
    rw [hr] at h
    simp only [SRound.receive] at h
    cases hrc : (demo echo last).wrap.receive r x m with
    | ok v => simp [hrc] at h
    | error e' =>
      simp only [hrc, Except.error.injEq] at h
      subst h
      rcases wrapReceive_error hrc with h | h | h | ⟨v, e', hr, h⟩
      · simp at h
      · simp at h
      · simp at h
      · rcases demo_receive_error hr with rfl | rfl
        · simp only [TypedProto.boxErr, RecvErr.protocol.injEq] at h
          obtain ⟨rfl, rfl⟩ := h
          exact ⟨rfl, rfl, _, rfl⟩
        · simp [TypedProto.boxErr] at h

/-- A run meeting the hypotheses of `C08_run_partial`: it ends with a local error, caused by a message repeated after it had been
kept. -/
example : toy.EnvOk ∧ LocalOk (demo false 255).wrap (fun _ => True) ∧ MainIds (demo false 255).wrap ∧ Acyclic (demo false 255).wrap ∧
    EchoStrict (demo false 255).wrap ∧ ∃ s₀ : Session (demo false 255).wrap, demoSession false 255 [1, 2, 3] 1 = .ok s₀ ∧
      (∀ trail s cached, Visits s₀ trail s cached → Assembles s) ∧ Reach s₀ (.done (.error .dupPayload)) := by
  obtain ⟨s₀, h0, hr⟩ := C08_cached_duplicate_violation
  exact ⟨toy_envOk, demo_localOk _, demo_mainIds _ _, demo_acyclic _ _, demo_strict _ _, s₀, h0,
    fun _ s _ _ => demo_assembles _ _ s, hr⟩

/-- A state meeting the hypotheses of `C08_no_crash_partial`: party 1 in the first round, having got the message of party 2. -/
example : ∃ (s₀ s : Session (demo true 255).wrap) (a : Accum (demo true 255).wrap) (rng : toy.Rng) (l : List (toy.Id × Message toy)),
    demoSession true 255 [1, 2, 3] 1 = .ok s₀ ∧ Reach s₀ (.running s a) ∧ Visits s₀ [] s [] ∧ SeqRound s rng [] l a ∧
      a.cached = BMap.empty ∧ s.comm.expecting.contains (3 : U8) = true ∧ a.notSent.contains (3 : U8) = true := by
  have h : onOk (demoRun true 255 [.msg ⟨2, 2, [9], RoundId.new 1, 1, some [5], some [2], some [7]⟩])
      (fun r => r.2.isRunning (fun s a => a.cached.isEmpty && s.comm.expecting.contains (3 : U8) &&
        a.notSent.contains (3 : U8) && (s.transition.id == RoundId.new 1))) = true := by decide +kernel
  obtain ⟨s₀, st, h0, hr, hk⟩ := onOk_run h
  obtain ⟨s, a, rfl, q⟩ := isRunning_iff.1 hk
  simp only [Bool.and_eq_true, beq_iff_eq] at q
  obtain ⟨trail, cached, rng, l, hv, hseq⟩ := reach_running hr
  have hfirst : trail = [] ∧ s = s₀ ∧ cached = [] := by
    cases hv with
    | first => exact ⟨rfl, rfl, rfl⟩
    | @next trail' s1 _ c1 _ r1 r2 l1 a1 hv1 hs1 hy hf =>
      exfalso
      have hnd := C13_no_repetition (demo_mainIds _ _) (demo_acyclic _ _) h0 (Visits.next hv1 hs1 hy hf)
      obtain ⟨t, ht⟩ : ∃ t, trailIds (trail' ++ [(s1, a1)]) = RoundId.new 1 :: t := by
        have key : ∀ {tr : List (Session (demo true 255).wrap × Accum (demo true 255).wrap)} {s2 c2}, Visits s₀ tr s2 c2 →
            ∃ t, trailIds (tr ++ [(s2, a1)]) = RoundId.new 1 :: t := by
          intro tr s2 c2 hv2
          induction hv2 with
          | first =>
            have h1 : onOk (demoSession true 255 [1, 2, 3] 1) (fun s => s.transition.id == RoundId.new 1) = true := by
              decide +kernel
            obtain ⟨s', hs', hid⟩ := onOk_iff.1 h1
            rw [h0, Except.ok.injEq] at hs'
            subst hs'
            exact ⟨[], by simpa [trailIds] using hid⟩
          | next _ _ _ _ ih =>
            obtain ⟨t, ht⟩ := ih
            simp only [trailIds, List.map_append, List.map_cons, List.map_nil] at ht ⊢
            exact ⟨_, by rw [ht]; rfl⟩
        exact key hv1
      rw [ht, q.2] at hnd
      simp at hnd
  obtain ⟨rfl, rfl, rfl⟩ := hfirst
  exact ⟨s, s, a, rng, l, h0, hr, hv, hseq, BMap.isEmpty_iff_eq.1 q.1.1.1, q.1.1.2, q.1.2⟩

end Manul
