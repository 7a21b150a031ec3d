import Verif.Lemmas.ParSend
import Verif.Lemmas.Scenario

/-!
# C69: the parallel driver with a slow or closed outgoing channel and failing tasks

`PSRun` (`Verif/Model/ParSend.lean`) is `par_run_session` with every message put into the outgoing channel on its own and tasks that
can panic; `ParRun` (`Verif/Spec/ParSend.lean`) is the driver of `Verif/Model/Par.lean`.
-/

namespace Manul

variable {sp : SP} {P : Proto sp}

/-! ## The driver of the other theorems -/

/-- **C69.**  A slow channel and failing tasks make no other results possible: in its loop, and when it has returned a report or an
error of the session, `par_run_session` is in a state of the driver that sends messages in one step and whose tasks do not panic. -/
theorem C69_refines {s₀ : Session P} {trail : List (Session P)} {st : PSState P} {outs : List (MessageOut sp)}
    (h : PSRun s₀ trail st outs) :
    (∀ s pst, st = .loop s pst → ParRun s₀ (.running s pst)) ∧ (∀ r, st = .done (.ok r) → ParRun s₀ (.done (.ok r))) ∧
    ∀ e, st = .done (.error (.inner e)) → ParRun s₀ (.done (.error e)) := by
  have hi := psRun_inv h
  refine ⟨?_, ?_, ?_⟩
  · rintro s pst rfl
    exact hi
  · rintro r rfl
    exact hi
  · rintro e rfl
    exact hi

/-- Sending the remaining messages. -/
theorem rest_run {s₀ s : Session P} {trail : List (Session P)} {next : Option sp.Rng} : ∀ {l : List (Created P)} {a : Accum P}
    {outs : List (MessageOut sp)}, PSRun s₀ trail (.rest s a l next) outs →
    (∀ b, foldE addCreated a l = .ok b → ∃ outs', PSRun s₀ trail (.rest s b [] next) outs') ∧
    ∀ e, foldE addCreated a l = .error e → ∃ outs', PSRun s₀ trail (.fail e) outs'
  | [], a, outs, h => by
    refine ⟨?_, by simp [foldE]⟩
    intro b hb
    simp only [foldE, Except.ok.injEq] at hb
    subst hb
    exact ⟨outs, h⟩
  | c :: l, a, outs, h => by
    cases ha : a.addArtifact c.2 with
    | error e0 =>
      have h1 := h.step (.acceptRestFails ha)
      rw [List.append_nil] at h1
      refine ⟨?_, ?_⟩
      · intro b hb
        simp [foldE, addCreated, ha] at hb
      · intro e he
        simp only [foldE, addCreated, ha, Except.error.injEq] at he
        subst he
        exact ⟨_, h1⟩
    | ok a' =>
      have h1 := h.step (.acceptRest ha)
      rw [List.append_nil] at h1
      have := rest_run h1
      simpa only [foldE, addCreated, ha] using this

theorem addProcessed_panics {s : Session P} {a a' : Accum P} {vm : VerifiedMessage sp}
    (h : s.addProcessed a (s.process vm) = .ok a') : s.processPanics vm = false := by
  unfold Session.processPanics
  split
  · rename_i e he
    unfold Session.addProcessed Accum.addProcessed at h
    simp only [he] at h
    split at h
    · simp at h
    · split at h <;> simp at h
  · rfl

/-- The loop is left and the tasks are joined. -/
theorem leave_run {s₀ s : Session P} {trail : List (Session P)} {st : ParSt P} {ev : PSEvent sp} {next : Option sp.Rng}
    {outs : List (MessageOut sp)} (hp : ∀ vm ∈ st.tasks, s.processPanics vm = false) (hl : Leaves st.accum ev next)
    (h : PSRun s₀ trail (.loop s st) outs) :
    (∀ b, parJoin st = .ok b → ∃ outs', PSRun s₀ trail (.rest s b [] next) outs') ∧
    ∀ e, parJoin st = .error e → ∃ outs' e', PSRun s₀ trail (.done (.error e')) outs' := by
  cases hm : mapE (created s) st.outgoing with
  | error e0 =>
    have h1 := h.step (.creationFailed hl hm)
    rw [List.append_nil] at h1
    rw [parJoin_failed hm]
    exact ⟨by simp, fun e _ => ⟨_, _, h1⟩⟩
  | ok l =>
    have h1 := h.step (.join hl hm hp (.refl _))
    rw [List.append_nil] at h1
    rw [parJoin_created hm (.refl _)]
    obtain ⟨k1, k2⟩ := rest_run h1
    exact ⟨k1, fun e he => (k2 e he).imp fun _ h => ⟨_, h⟩⟩

/-- `par_run_session` gets into the state. -/
def PSFollows (s₀ : Session P) : ParState P → Prop
  | .running s pst => ∃ trail outs, PSRun s₀ trail (.loop s pst) outs
  | .done (.ok r) => ∃ trail outs, PSRun s₀ trail (.done (.ok r)) outs
  | .done (.error _) => ∃ e' trail outs, PSRun s₀ trail (.done (.error e')) outs

/-- **C69.**  Conversely, if processing messages does not panic, `par_run_session` can get into every state of that driver, and returns
an error if it does. -/
theorem C69_complete (hp : ∀ (s : Session P) (vm : VerifiedMessage sp), s.processPanics vm = false) {s₀ : Session P} {st : ParState P}
    (h : ParRun s₀ st) :
    (∀ s pst, st = .running s pst → ∃ trail outs, PSRun s₀ trail (.loop s pst) outs) ∧
    (∀ r, st = .done (.ok r) → ∃ trail outs, PSRun s₀ trail (.done (.ok r)) outs) ∧
    ∀ e, st = .done (.error e) → ∃ e' trail outs, PSRun s₀ trail (.done (.error e')) outs := by
  suffices hmain : PSFollows s₀ st by
    refine ⟨?_, ?_, ?_⟩
    · rintro s pst rfl; exact hmain
    · rintro r rfl; exact hmain
    · rintro e rfl; exact hmain
  induction h with
  | start rng => exact ⟨_, _, .start rng⟩
  | @step st st' ev hr hs ih =>
    cases st with
    | done r => simp [parStep] at hs
    | running s pst =>
      obtain ⟨trail, outs, ih⟩ := ih
      have term : ∀ {ev}, Leaves pst.accum ev none → PSFollows s₀ (parTerminate s pst) := by
        intro ev hl
        obtain ⟨k1, k2⟩ := leave_run (fun vm _ => hp s vm) hl ih
        unfold parTerminate
        cases hj : parJoin pst with
        | error e =>
          obtain ⟨outs', e', k⟩ := k2 e hj
          exact ⟨e', _, _, k⟩
        | ok b =>
          obtain ⟨outs', k⟩ := k1 b hj
          simp only
          cases ht : s.terminateDueToErrors b with
          | ok r => exact ⟨_, _, k.step (.terminate ht)⟩
          | error e => exact ⟨_, _, _, k.step (.terminateFails ht)⟩
      unfold parStep at hs
      cases hc : pst.accum.canFinalize with
      | yes =>
        cases ev with
        | tick rng =>
          simp only [hc, Option.some.injEq] at hs
          subst hs
          obtain ⟨k1, k2⟩ := leave_run (fun vm _ => hp s vm) (.yes rng hc) ih
          unfold parFinish
          cases hj : parJoin pst with
          | error e =>
            obtain ⟨outs', e', k⟩ := k2 e hj
            exact ⟨e', _, _, k⟩
          | ok b =>
            obtain ⟨outs', k⟩ := k1 b hj
            simp only
            cases hf : s.finalizeRound (sp.fork rng 0) b with
            | error e => exact ⟨_, _, _, k.step (.finalizeFails hf)⟩
            | ok o =>
              cases o with
              | finished r => exact ⟨_, _, k.step (.finish hf)⟩
              | anotherRound s' cached => exact ⟨_, _, k.step (.next hf)⟩
        | op o => simp [hc] at hs
        | cancel => simp [hc] at hs
        | close => simp [hc] at hs
      | never =>
        cases ev with
        | tick rng =>
          simp only [hc, Option.some.injEq] at hs
          subst hs
          exact term (.never hc)
        | op o => simp [hc] at hs
        | cancel => simp [hc] at hs
        | close => simp [hc] at hs
      | notYet =>
        cases ev with
        | tick rng => simp [hc] at hs
        | cancel =>
          simp only [hc, Option.some.injEq] at hs
          subst hs
          exact term (.cancel hc)
        | close =>
          simp only [hc, Option.some.injEq] at hs
          subst hs
          exact ⟨_, _, _, ih.step (.close hc)⟩
        | op o =>
          simp only [hc] at hs
          cases o with
          | deliver x m =>
            cases ho : parOp s pst (.deliver x m) with
            | error e =>
              simp only [ho, Option.some.injEq] at hs
              subst hs
              exact ⟨_, _, _, ih.step (.deliverFails hc ho)⟩
            | ok pst' =>
              simp only [ho, Option.some.injEq] at hs
              subst hs
              exact ⟨_, _, ih.step (.deliver hc ho)⟩
          | complete i =>
            simp only [parOp] at hs
            cases ht : pst.tasks[i]? with
            | none =>
              simp only [ht, Option.some.injEq] at hs
              subst hs
              exact ⟨_, _, ih⟩
            | some vm =>
              simp only [ht] at hs
              cases ha : s.addProcessed pst.accum (s.process vm) with
              | error e =>
                simp only [ha, Option.some.injEq] at hs
                subst hs
                exact ⟨_, _, _, ih.step (.completeFails hc ht (hp s vm) ha)⟩
              | ok a =>
                simp only [ha, Option.some.injEq] at hs
                subst hs
                exact ⟨_, _, ih.step (.complete hc ht (hp s vm) ha)⟩
          | send i =>
            simp only [parOp] at hs
            cases ht : pst.outgoing[i]? with
            | none =>
              simp only [ht, Option.some.injEq] at hs
              subst hs
              exact ⟨_, _, ih⟩
            | some o =>
              obtain ⟨d, r⟩ := o
              cases r with
              | error e =>
                simp only [ht, Option.some.injEq] at hs
                subst hs
                exact ⟨_, _, ih⟩
              | ok x =>
                obtain ⟨m, art⟩ := x
                simp only [ht] at hs
                have h1 := ih.step (.receive (c := (⟨s.sessionId, s.me, d, m⟩, art)) hc ht rfl)
                cases ha : pst.accum.addArtifact art with
                | error e =>
                  simp only [ha, Option.some.injEq] at hs
                  subst hs
                  exact ⟨_, _, _, h1.step (.acceptFails ha)⟩
                | ok a =>
                  simp only [ha, Option.some.injEq] at hs
                  subst hs
                  exact ⟨_, _, h1.step (.accept ha)⟩

/-! ## What is sent -/

/-- **C69.**  At any time `par_run_session` has sent one message for every destination of every round that is over, round by round, and
at most one for every destination of the current round; a report is returned only when the messages of the last round have been sent
as well.  All of them have been made by the session objects of these rounds. -/
theorem C69_sent {s₀ : Session P} {trail : List (Session P)} {st : PSState P} {outs : List (MessageOut sp)}
    (h : PSRun s₀ trail st outs) : ∃ ls cur, List.Forall₂ RoundSent ls trail ∧ outs = ls.flatten ++ cur ∧
      (∀ s, st.session? = some s → RoundPart cur s) ∧ (∀ r, st = .done (.ok r) → ∃ s : Session P, RoundSent cur s) ∧
      ∀ e, st = .done (.error e) → ∃ s : Session P, RoundPart cur s := by
  obtain ⟨ls, cur, h1, h2, h3⟩ := psRun_sent h
  refine ⟨ls, cur, h1, h2, fun s hs => h3.part hs, ?_, ?_⟩
  · rintro r rfl
    exact h3
  · rintro e rfl
    exact h3

/-! ## Failing tasks -/

theorem mem_eraseIdx_of_ne {α : Type} {l : List α} {i : Nat} {x y : α} (hi : l[i]? = some y) (hx : x ∈ l) (hne : x ≠ y) :
    x ∈ l.eraseIdx i := by
  have := (perm_eraseIdx hi).symm.subset hx
  rcases List.mem_cons.1 this with h | h
  · exact absurd h hne
  · exact h

theorem mapE_error_iff {ε α β : Type} {f : α → Except ε β} {l : List α} :
    (∃ e, mapE f l = .error e) ↔ ∃ x ∈ l, ∃ e, f x = .error e := by
  induction l with
  | nil => simp [mapE]
  | cons x l ih =>
    simp only [mapE]
    cases hx : f x with
    | error e => simp [hx]
    | ok y =>
      simp only [List.mem_cons, exists_eq_or_imp, hx, reduceCtorEq, exists_false, false_or]
      rw [← ih]
      cases mapE f l <;> simp

theorem failed_created {s : Session P} {st : ParSt P} : (∃ e, mapE (created s) st.outgoing = .error e) ↔
    ∃ o ∈ st.outgoing, ∃ e, o.2 = .error e := by
  rw [mapE_error_iff]
  simp only [created_error]

/-- **C69.**  No failure is lost: once creating a message has failed or processing one has panicked, the round does not end with a report
or another round, whatever happens; the run ends with an error or not at all. -/
theorem C69_failure_fatal {s : Session P} {st : ParSt P} {st' : PSState P} (hf : TaskFailed s st) (h : PSSteps (.loop s st) st') :
    (∃ st₁, st' = .loop s st₁ ∧ TaskFailed s st₁) ∨ (∃ st₁ c, st' = .offering s st₁ c ∧ TaskFailed s st₁) ∨
      ∃ e, st' = .done (.error e) := by
  induction h with
  | refl => exact Or.inl ⟨st, rfl, hf⟩
  | @step st1 st2 ev out fin _ hs ih =>
    rcases ih with ⟨st₁, rfl, hf1⟩ | ⟨st₁, c, rfl, hf1⟩ | ⟨e, rfl⟩
    · generalize hy : (PSState.loop s st₁ : PSState P) = y at hs
      cases hs with
      | @deliver s' st'' st3 x m hc ho =>
        simp only [PSState.loop.injEq] at hy
        obtain ⟨rfl, rfl⟩ := hy
        obtain ⟨k1, k2⟩ := parOp_deliver_outgoing ho
        refine Or.inl ⟨_, rfl, ?_⟩
        rcases hf1 with h | ⟨vm, h1, h2⟩
        · exact Or.inl (by rw [k1]; exact h)
        · exact Or.inr ⟨vm, k2 vm h1, h2⟩
      | @complete s' st'' i vm a hc ht hnp ha =>
        simp only [PSState.loop.injEq] at hy
        obtain ⟨rfl, rfl⟩ := hy
        refine Or.inl ⟨_, rfl, ?_⟩
        rcases hf1 with h | ⟨vm', h1, h2⟩
        · exact Or.inl h
        · refine Or.inr ⟨vm', mem_eraseIdx_of_ne ht h1 ?_, h2⟩
          rintro rfl
          rw [h2] at hnp
          simp at hnp
      | @receive s' st'' i o c hc ho hcr =>
        simp only [PSState.loop.injEq] at hy
        obtain ⟨rfl, rfl⟩ := hy
        refine Or.inr (Or.inl ⟨_, _, rfl, ?_⟩)
        rcases hf1 with ⟨o', h1, e, h2⟩ | h
        · refine Or.inl ⟨o', mem_eraseIdx_of_ne ho h1 ?_, e, h2⟩
          rintro rfl
          rw [(created_ok hcr).1] at h2
          simp at h2
        · exact Or.inr h
      | @join s' st'' ev next l l' hl hm hnp hp =>
        simp only [PSState.loop.injEq] at hy
        obtain ⟨rfl, rfl⟩ := hy
        exfalso
        rcases hf1 with h | ⟨vm, h1, h2⟩
        · obtain ⟨e, he⟩ := failed_created.2 h
          rw [hm] at he
          simp at he
        · rw [hnp vm h1] at h2
          simp at h2
      | deliverFails => exact Or.inr (Or.inr ⟨_, rfl⟩)
      | completeFails => exact Or.inr (Or.inr ⟨_, rfl⟩)
      | close => exact Or.inr (Or.inr ⟨_, rfl⟩)
      | creationFailed => exact Or.inr (Or.inr ⟨_, rfl⟩)
      | processingFailed => exact Or.inr (Or.inr ⟨_, rfl⟩)
      | _ => simp at hy
    · generalize hy : (PSState.offering s st₁ c : PSState P) = y at hs
      cases hs with
      | @accept s' st'' c' a ha =>
        simp only [PSState.offering.injEq] at hy
        obtain ⟨rfl, rfl, rfl⟩ := hy
        exact Or.inl ⟨_, rfl, hf1⟩
      | acceptFails => exact Or.inr (Or.inr ⟨_, rfl⟩)
      | refuse => exact Or.inr (Or.inr ⟨_, rfl⟩)
      | _ => simp at hy
    · generalize hy : (PSState.done (.error e) : PSState P) = y at hs
      cases hs <;> simp at hy

/-! ## Progress -/

/-- **C69.**  `par_run_session` waits for others only in the loop of a round, when all results of tasks have been received; otherwise it
can go on if the outgoing channel takes its message. -/
theorem C69_progress (st : PSState P) (hrng : Nonempty sp.Rng) : (∃ r, st = .done r) ∨
    (∃ s pst, st = .loop s pst ∧ pst.accum.canFinalize = .notYet ∧ Drained s pst) ∨
    ∃ ev out fin st', PSStep st ev out fin st' ∧ (ev = .go ∨ ev = .accept) := by
  cases st with
  | done r => exact Or.inl ⟨r, rfl⟩
  | offering s pst c =>
    refine Or.inr (Or.inr ?_)
    cases ha : pst.accum.addArtifact c.2 with
    | error e => exact ⟨_, _, _, _, .acceptFails ha, Or.inr rfl⟩
    | ok a => exact ⟨_, _, _, _, .accept ha, Or.inr rfl⟩
  | rest s a l next =>
    refine Or.inr (Or.inr ?_)
    cases l with
    | cons c l =>
      cases ha : a.addArtifact c.2 with
      | error e => exact ⟨_, _, _, _, .acceptRestFails ha, Or.inr rfl⟩
      | ok a => exact ⟨_, _, _, _, .acceptRest ha, Or.inr rfl⟩
    | nil =>
      cases next with
      | none =>
        cases ht : s.terminateDueToErrors a with
        | ok r => exact ⟨_, _, _, _, .terminate ht, Or.inl rfl⟩
        | error e => exact ⟨_, _, _, _, .terminateFails ht, Or.inl rfl⟩
      | some rng =>
        cases hf : s.finalizeRound (sp.fork rng 0) a with
        | error e => exact ⟨_, _, _, _, .finalizeFails hf, Or.inl rfl⟩
        | ok o =>
          cases o with
          | finished r => exact ⟨_, _, _, _, .finish hf, Or.inl rfl⟩
          | anotherRound s' cached => exact ⟨_, _, _, _, .next hf, Or.inl rfl⟩
  | loop s pst =>
    have leave : ∀ {next : Option sp.Rng}, Leaves pst.accum .go next →
        ∃ ev out fin st', PSStep (.loop s pst) ev out fin st' ∧ (ev = .go ∨ ev = .accept) := by
      intro next hl
      cases hm : mapE (created s) pst.outgoing with
      | error e => exact ⟨_, _, _, _, .creationFailed hl hm, Or.inl rfl⟩
      | ok l =>
        by_cases hp : ∀ vm ∈ pst.tasks, s.processPanics vm = false
        · exact ⟨_, _, _, _, .join hl hm hp (.refl _), Or.inl rfl⟩
        · simp only [not_forall, Bool.not_eq_false] at hp
          obtain ⟨vm, h1, h2⟩ := hp
          exact ⟨_, _, _, _, .processingFailed hl hm h1 h2, Or.inl rfl⟩
    cases hc : pst.accum.canFinalize with
    | yes => exact Or.inr (Or.inr (leave (.yes hrng.some hc)))
    | never => exact Or.inr (Or.inr (leave (.never hc)))
    | notYet =>
      by_cases hd : Drained s pst
      · exact Or.inr (Or.inl ⟨s, pst, rfl, hc, hd⟩)
      · refine Or.inr (Or.inr ?_)
        by_cases ho : ∀ o ∈ pst.outgoing, ∃ e, o.2 = .error e
        · have ht : ¬ ∀ vm ∈ pst.tasks, s.processPanics vm = true := fun h => hd ⟨ho, h⟩
          simp only [not_forall, Bool.not_eq_true] at ht
          obtain ⟨vm, h1, h2⟩ := ht
          obtain ⟨i, hi⟩ := List.mem_iff_getElem?.1 h1
          cases ha : s.addProcessed pst.accum (s.process vm) with
          | error e => exact ⟨_, _, _, _, .completeFails hc hi h2 ha, Or.inl rfl⟩
          | ok a => exact ⟨_, _, _, _, .complete hc hi h2 ha, Or.inl rfl⟩
        · simp only [not_forall] at ho
          obtain ⟨o, h1, h2⟩ := ho
          obtain ⟨i, hi⟩ := List.mem_iff_getElem?.1 h1
          cases hcr : created s o with
          | error e => exact absurd ⟨e, created_error.1 hcr⟩ h2
          | ok c => exact ⟨_, _, _, _, .receive hc hi hcr, Or.inl rfl⟩

/-- **C69.**  Within a round only incoming messages can keep it busy: every other step brings it closer to the end of the round. -/
theorem C69_bounded {st st' : PSState P} {ev : PSEvent sp} {out : List (MessageOut sp)} {fin : List (Session P)}
    (h : PSStep st ev out fin st') : st'.left < st.left ∨ fin ≠ [] ∨ ∃ x m, ev = .deliver x m := by
  have hlt : ∀ {α : Type} {l : List α} {i : Nat} {x : α}, l[i]? = some x → (l.eraseIdx i).length + 1 = l.length := by
    intro α l i x h
    have hi := (List.getElem?_eq_some_iff.1 h).1
    rw [List.length_eraseIdx_of_lt hi]
    omega
  cases h with
  | deliver => exact Or.inr (Or.inr ⟨_, _, rfl⟩)
  | deliverFails => exact Or.inr (Or.inr ⟨_, _, rfl⟩)
  | next => exact Or.inr (Or.inl (by simp))
  | complete _ ht =>
    have := hlt ht
    exact Or.inl (by simp only [PSState.left]; omega)
  | receive _ ho =>
    have := hlt ho
    exact Or.inl (by simp only [PSState.left]; omega)
  | join _ hm _ hp =>
    have h1 := hp.length_eq
    have h2 := mapE_length hm
    exact Or.inl (by simp only [PSState.left]; omega)
  | _ =>
    refine Or.inl ?_
    simp only [PSState.left, PSState.fail, List.length_cons]
    omega

/-! ## Cancellation -/

/-- **C69.**  In the loop of a round, while more messages are needed, the cancellation can be noticed, and then the round is left: with an
error if a task has failed, and otherwise towards the report of the round as it is, as soon as the channel has taken the remaining
messages. -/
theorem C69_cancel_partial {s : Session P} {pst : ParSt P} (hc : pst.accum.canFinalize = .notYet) :
    (∃ st', PSStep (.loop s pst) .cancel [] [] st') ∧ ∀ out fin st', PSStep (.loop s pst) .cancel out fin st' →
      out = [] ∧ fin = [] ∧ ((TaskFailed s pst ∧ ∃ e, st' = .done (.error e)) ∨
        (¬ TaskFailed s pst ∧ ∃ l, st' = .rest s pst.accum l none ∧ ∀ b, foldE addCreated pst.accum l = .ok b ↔ parJoin pst = .ok b)) := by
  refine ⟨?_, ?_⟩
  · cases hm : mapE (created s) pst.outgoing with
    | error e => exact ⟨_, .creationFailed (.cancel hc) hm⟩
    | ok l =>
      by_cases hp : ∀ vm ∈ pst.tasks, s.processPanics vm = false
      · exact ⟨_, .join (.cancel hc) hm hp (.refl _)⟩
      · simp only [not_forall, Bool.not_eq_false] at hp
        obtain ⟨vm, h1, h2⟩ := hp
        exact ⟨_, .processingFailed (.cancel hc) hm h1 h2⟩
  · intro out fin st' h
    generalize hy : (PSState.loop s pst : PSState P) = y at h
    generalize hev : (PSEvent.cancel : PSEvent sp) = ev at h
    cases h with
    | @join s' st'' ev next l l' hl hm hnp hp =>
      simp only [PSState.loop.injEq] at hy
      obtain ⟨rfl, rfl⟩ := hy
      subst hev
      refine ⟨rfl, rfl, Or.inr ⟨?_, l', ?_, ?_⟩⟩
      · rintro (h | ⟨vm, h1, h2⟩)
        · obtain ⟨e, he⟩ := failed_created.2 h
          rw [hm] at he
          simp at he
        · rw [hnp vm h1] at h2
          simp at h2
      · cases hl
        rfl
      · intro b
        rw [parJoin_created hm hp]
    | @creationFailed s' st'' ev next e hl hm =>
      simp only [PSState.loop.injEq] at hy
      obtain ⟨rfl, rfl⟩ := hy
      exact ⟨rfl, rfl, Or.inl ⟨Or.inl (failed_created.1 ⟨e, hm⟩), _, rfl⟩⟩
    | @processingFailed s' st'' ev next l vm hl hm h1 h2 =>
      simp only [PSState.loop.injEq] at hy
      obtain ⟨rfl, rfl⟩ := hy
      exact ⟨rfl, rfl, Or.inl ⟨Or.inr ⟨vm, h1, h2⟩, _, rfl⟩⟩
    | _ => simp at hev hy

/-- **C69.**  The cancellation is not noticed while a message is offered to the outgoing channel, by neither driver: all that can happen is
that the channel takes the message or has been closed.  A run whose channel is full stays in this state after its cancellation. -/
theorem C69_cancel_ignored :
    (∀ (s : Session P) (pst : ParSt P) (c : Created P) (ev : PSEvent sp) (out : List (MessageOut sp)) (fin : List (Session P))
      (st' : PSState P), PSStep (.offering s pst c) ev out fin st' → ev = .accept ∨ ev = .refuse) ∧
    (∀ (s : Session P) (a : Accum P) (c : Created P) (l : List (Created P)) (next : Option sp.Rng) (ev : PSEvent sp)
      (out : List (MessageOut sp)) (fin : List (Session P)) (st' : PSState P),
      PSStep (.rest s a (c :: l) next) ev out fin st' → ev = .accept ∨ ev = .refuse) ∧
    ∀ (s : Session P) (a : Accum P) (cached : List (VerifiedMessage sp)) (rng : sp.Rng) (i : Nat) (ds : List sp.Id) (m : MessageOut sp)
      (art : ProcessedArtifact P) (e : SendEvent sp), e ≠ .accept → e ≠ .refuse → sendStep (.offering s a cached rng i ds m art) e = none := by
  refine ⟨?_, ?_, ?_⟩
  · intro s pst c ev out fin st' h
    cases h <;> simp
  · intro s a c l next ev out fin st' h
    cases h <;> simp
  · intro s a cached rng i ds m art e h1 h2
    cases e <;> simp_all [sendStep]

/-- **C69.**  A local error in processing a message ends the session with that error when the result is received, and so does not
count as a failed task; a panic does, and its result is never received. -/
theorem C69_local_error {s : Session P} {pst : ParSt P} {i : Nat} {vm : VerifiedMessage sp} {e : LErr}
    (hc : pst.accum.canFinalize = .notYet) (hi : pst.tasks[i]? = some vm) (he : (s.process vm).result = .error (.local e))
    (hw : pst.accum.payloads.contains (s.process vm).message.sender = false)
    (hn : pst.accum.notSent.contains (s.process vm).message.sender = true) :
    (e.isPanic = false → PSStep (.loop s pst) .go [] [] (.fail e)) ∧ (e.isPanic = true → TaskFailed s pst) := by
  have hp : s.processPanics vm = e.isPanic := by
    unfold Session.processPanics
    rw [he]
  refine ⟨?_, ?_⟩
  · intro h
    refine .completeFails hc hi (by rw [hp, h]) ?_
    unfold Session.addProcessed Accum.addProcessed
    simp only [hw, hn, he, Bool.false_eq_true, if_false, reduceCtorEq]
  · intro h
    exact Or.inr ⟨vm, List.mem_of_getElem? hi, by rw [hp, h]⟩

/-- **C69.**  When a task has failed, `par_run_session` does not notice in the loop: when all other results have been received it waits for
incoming messages, the end of their channel or the cancellation. -/
theorem C69_failure_unnoticed {s : Session P} {pst : ParSt P} (hc : pst.accum.canFinalize = .notYet) (hd : Drained s pst)
    {ev : PSEvent sp} {out : List (MessageOut sp)} {fin : List (Session P)} {st' : PSState P} (h : PSStep (.loop s pst) ev out fin st') :
    ev.external := by
  cases h with
  | complete _ ht hnp _ =>
    have := hd.2 _ (List.mem_of_getElem? ht)
    rw [hnp] at this
    simp at this
  | completeFails _ ht hnp _ =>
    have := hd.2 _ (List.mem_of_getElem? ht)
    rw [hnp] at this
    simp at this
  | receive _ ho hcr =>
    obtain ⟨e, he⟩ := hd.1 _ (List.mem_of_getElem? ho)
    rw [(created_ok hcr).1] at he
    simp at he
  | join hl _ _ _ =>
    cases hl with
    | yes _ h => rw [hc] at h; simp at h
    | never h => rw [hc] at h; simp at h
    | cancel => trivial
  | creationFailed hl _ =>
    cases hl with
    | yes _ h => rw [hc] at h; simp at h
    | never h => rw [hc] at h; simp at h
    | cancel => trivial
  | processingFailed hl _ _ _ =>
    cases hl with
    | yes _ h => rw [hc] at h; simp at h
    | never h => rw [hc] at h; simp at h
    | cancel => trivial
  | _ => trivial

/-! ## Witnesses -/

/-- The destinations, as bytes. -/
def destsOf {P : Proto toy} (s : Session P) : List U8 := s.destinations.elems

/-- A direct message that cannot be made. -/
def noDirect : Except LErr (Bytes × Unit) := .error (.user 7)

/-- A message that makes processing panic, and one that makes it fail. -/
def panicReceive (m : TypedMsg Bytes) : Except (TypedErr Unit) Nat :=
  if m.direct = some [68] then .error (.local .panicIndex) else if m.direct = some [69] then .error (.local (.user 8)) else .ok 0

/-- The example protocol with these methods. -/
def failing : TypedProto toy :=
  { demo true 3 with makeDirect := fun _ _ _ => noDirect, receive := fun _ _ m => panicReceive m }

/-- Its session. -/
def failingSession : Except LErr (Session failing.wrap) :=
  Session.new (sp := toy) (0 : Nat) [9] (1 : U8)
    ({ entryRoundId := RoundId.new 1, makeRound := fun _ _ me => .ok (⟨me, (BSet.ofList [(1 : U8), 2, 3]).erase me, 1, 0⟩ : DemoSt) } :
      EntryPoint failing.wrap)

/-- `par_run_session` does not stop at a failure: with a protocol whose messages cannot be created it waits for incoming
messages for good, where `run_session` returns the error in its first step. -/
theorem C69_failure_violation : ∃ (s₀ : Session failing.wrap) (pst : ParSt failing.wrap), PSRun s₀ [] (.loop s₀ pst) [] ∧
    TaskFailed s₀ pst ∧ (∀ ev out fin st', PSStep (.loop s₀ pst) ev out fin st' → ev.external) ∧
    sendStep (SendState.enter s₀ (0 : Nat) []) .go = some (.fail (.user 7), []) := by
  have h : onOk failingSession (fun s => (s.makeAccum.canFinalize == .notYet) &&
      ((creationTasks s (0 : Nat) 0 s.destinations.elems).all (fun o => match o.2 with
        | .ok _ => false
        | .error e => e == .user 7)) && (decide (destsOf s = [2, 3]))) = true := by decide +kernel
  obtain ⟨s, -, h1⟩ := onOk_iff.1 h
  simp only [Bool.and_eq_true, decide_eq_true_eq, List.all_eq_true] at h1
  obtain ⟨⟨h1, h2⟩, h3⟩ := h1
  have h1 : s.makeAccum.canFinalize = .notYet := by simpa using h1
  have h4 : ∀ o ∈ creationTasks s (0 : Nat) 0 s.destinations.elems, o.2 = .error (.user 7) := by
    intro o ho
    have := h2 o ho
    obtain ⟨d, r⟩ := o
    cases r with
    | ok x => simp at this
    | error e => simp only [beq_iff_eq] at this; rw [this]
  have h5 : ((2 : U8), s.makeMessage (toy.fork (0 : Nat) 0) (2 : U8)) ∈ creationTasks s (0 : Nat) 0 s.destinations.elems := by
    rw [show s.destinations.elems = ([2, 3] : List U8) from h3]
    exact List.mem_cons_self ..
  refine ⟨s, ParSt.begin s (0 : Nat) [], .start _, Or.inl ⟨_, h5, _, h4 _ h5⟩, ?_, ?_⟩
  · intro ev out fin st' hs
    exact C69_failure_unnoticed (pst := ParSt.begin s (0 : Nat) []) h1 ⟨fun o ho => ⟨_, h4 o ho⟩, by simp [ParSt.begin]⟩ hs
  · have h6 : s.makeMessage (toy.fork (0 : Nat) 0) (2 : U8) = .error (.user 7) := h4 _ h5
    unfold SendState.enter
    rw [show s.destinations.elems = ([2, 3] : List U8) from h3]
    simp only [sendStep, h6]

/-- Both drivers can be cancelled without noticing: they wait for the outgoing channel. -/
theorem C69_cancel_violation : ∃ (s₀ : Session (demo true 3).wrap) (pst : ParSt (demo true 3).wrap) (c : Created (demo true 3).wrap),
    PSRun s₀ [] (.offering s₀ pst c) [] ∧ (∀ out fin st', ¬ PSStep (.offering s₀ pst c) .cancel out fin st') ∧
    ∃ a ds art, SendRun s₀ (.offering s₀ a [] (0 : Nat) 0 ds c.1 art) [] ∧
      sendStep (.offering s₀ a [] (0 : Nat) 0 ds c.1 art) (.ev .cancel) = none := by
  have h : onOk (demoSession true 3 [1, 2, 3] 1) (fun s => (s.makeAccum.canFinalize == .notYet) &&
      (onOk (s.makeMessage (toy.fork (0 : Nat) 0) (2 : U8)) (fun _ => true)) &&
      (decide (destsOf s = [2, 3]))) = true := by decide +kernel
  obtain ⟨s, -, h1⟩ := onOk_iff.1 h
  simp only [Bool.and_eq_true, decide_eq_true_eq] at h1
  obtain ⟨⟨h1, h2⟩, h3⟩ := h1
  have h1 : s.makeAccum.canFinalize = .notYet := by simpa using h1
  obtain ⟨⟨m, art⟩, h4, -⟩ := onOk_iff.1 h2
  have h3 : s.destinations.elems = ([2, 3] : List U8) := h3
  have h5 : (ParSt.begin s (0 : Nat) []).outgoing[0]? = some ((2 : U8), .ok (m, art)) := by
    rw [← h4]
    simp only [ParSt.begin]
    rw [h3]
    rfl
  have r1 := (PSRun.start (s₀ := s) (0 : Nat)).step (.receive (c := (⟨s.sessionId, s.me, (2 : U8), m⟩, art)) h1 h5 rfl)
  refine ⟨s, _, _, r1, ?_, s.makeAccum, ([3] : List U8), art, ?_, rfl⟩
  · intro out fin st' hs
    cases hs
  · have r2 := SendRun.step (e := .go) (SendRun.start (s₀ := s) (0 : Nat)) (st' := .offering s s.makeAccum [] (0 : Nat) 0 ([3] : List U8)
      ⟨s.sessionId, s.me, (2 : U8), m⟩ art) (out := []) (by
        unfold SendState.enter
        rw [h3]
        simp only [sendStep, h4])
    exact r2

/-- Processing can panic, and then the run does not return a report: a state as in `C69_failure_fatal`. -/
example : ∃ (s₀ : Session failing.wrap) (vm : VerifiedMessage toy), s₀.processPanics vm = true := by
  have h : onOk failingSession (fun s => match demoMsg (2 : U8) [9] (RoundId.new 1) (1 : U8) (some [68]) (some [2]) (some [1]) with
      | .error _ => false
      | .ok m => onOk (s.preprocess s.makeAccum (2 : U8) m) (fun r => match r.2 with
        | .toProcess vm => s.processPanics vm
        | _ => false)) = true := by decide +kernel
  obtain ⟨s, -, h1⟩ := onOk_iff.1 h
  split at h1
  · simp at h1
  · obtain ⟨r, -, h2⟩ := onOk_iff.1 h1
    split at h2
    · exact ⟨s, _, h2⟩
    · simp at h2

/-- Whether a result is this local error. -/
def isLocal {P : Proto toy} (p : Processed P) (e : LErr) : Bool :=
  match p.result with
  | .error (.local e') => decide (e' = e)
  | _ => false

theorem isLocal_iff {P : Proto toy} {p : Processed P} {e : LErr} (h : isLocal p e = true) : p.result = .error (.local e) := by
  unfold isLocal at h
  split at h
  · rename_i he
    rw [he, of_decide_eq_true h]
  · cases h

/-- A state as in `C69_local_error`: the session ends with the error of the round. -/
example : ∃ (s₀ : Session failing.wrap) (pst : ParSt failing.wrap), PSStep (.loop s₀ pst) .go [] [] (.fail (.user 8)) := by
  have h : onOk failingSession (fun s => match demoMsg (2 : U8) [9] (RoundId.new 1) (1 : U8) (some [69]) (some [2]) (some [1]) with
      | .error _ => false
      | .ok m => onOk (s.preprocess s.makeAccum (2 : U8) m) (fun r => match r.2 with
        | .toProcess vm => isLocal (s.process vm) (.user 8) && (r.1.canFinalize == .notYet) &&
            (r.1.payloads.contains (s.process vm).message.sender == false) && r.1.notSent.contains (s.process vm).message.sender
        | _ => false)) = true := by decide +kernel
  obtain ⟨s, -, h1⟩ := onOk_iff.1 h
  split at h1
  · simp at h1
  · obtain ⟨r, -, h2⟩ := onOk_iff.1 h1
    split at h2
    · rename_i vm hv
      simp only [Bool.and_eq_true, beq_iff_eq] at h2
      obtain ⟨⟨⟨h3, h4⟩, h5⟩, h6⟩ := h2
      exact ⟨s, ⟨r.1, [vm], []⟩, (C69_local_error (i := 0) h4 rfl (isLocal_iff h3) h5 h6).1 rfl⟩
    · simp at h2

end Manul
