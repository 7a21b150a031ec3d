import Verif.Lemmas.ParBans
import Verif.Props.ParAny
import Verif.Props.Traced

/-!
# C88: why a party using `par_run_session` holds something against another one

C78 and C79 for the driver with processing in tasks, in an arbitrary environment.
-/

namespace Manul

variable {sp : SP} {P : Proto sp} {s₀ : Session P} {l : List (Delivery P)}

/-- Every run is one in which some messages have been given to the session. -/
theorem parAny_via {st : ParState P} (h : ParAny s₀ st) : ∃ l, ParVia s₀ l st := by
  induction h with
  | start rng => exact ⟨[], .start rng⟩
  | @step s st st' ev _ hs ih =>
    obtain ⟨l, hl⟩ := ih
    by_cases hev : ∃ x m, ev = .op (.deliver x m)
    · obtain ⟨x, m, rfl⟩ := hev
      exact ⟨_, .deliver hl hs⟩
    · exact ⟨l, .step hl (fun x m he => hev ⟨x, m, he⟩) hs⟩

/-- The states in which messages were given to the session were states of the run. -/
theorem ParVia.delivery {st : ParState P} (h : ParVia s₀ l st) {d : Delivery P} (hd : d ∈ l) :
    ∃ pst st', ParAny s₀ (.running d.session pst) ∧ pst.accum = d.accum ∧
      parStep (.running d.session pst) (.op (.deliver d.sender d.message)) = some st' ∧ ParLeads st' st := by
  induction h with
  | start rng => simp at hd
  | step _ _ hs ih =>
    obtain ⟨pst, st', h1, h2, h3, h4⟩ := ih hd
    exact ⟨pst, st', h1, h2, h3, h4.step hs⟩
  | @deliver l s st st' x m hr hs ih =>
    rcases List.mem_append.1 hd with hd | hd
    · obtain ⟨pst, st', h1, h2, h3, h4⟩ := ih hd
      exact ⟨pst, st', h1, h2, h3, h4.step hs⟩
    · simp only [List.mem_singleton] at hd
      subst hd
      exact ⟨st, st', hr.any, rfl, hs, .refl⟩

/-- C88: every error without proof in a report has its cause in messages given to the session in the name of the party, as in C78. -/
theorem C88_cause (mt : sp.MetaTotal) (mi : MainIds P) {rng : sp.Rng} {sid : Bytes} {signer : sp.Signer} {ep : EntryPoint P}
    (h0 : Session.new rng sid signer ep = .ok s₀) {rep : Report P} (h : ParVia s₀ l (.done (.ok rep))) {x : sp.Id} {r : RErr}
    (hx : rep.unprovable.get? x = some r) : Cause (ParInRun s₀) l x r :=
  (parVia_blame mt mi h0 h).1 x r hx

/-- C88: all evidence in a report comes from messages given to the session, as in C79. -/
theorem C88_traced (mt : sp.MetaTotal) (mi : MainIds P) (ne : NoEchoErr P) {rng : sp.Rng} {sid : Bytes} {signer : sp.Signer}
    {ep : EntryPoint P} (h0 : Session.new rng sid signer ep = .ok s₀) {rep : Report P} (h : ParVia s₀ l (.done (.ok rep)))
    {x : sp.Id} {ev : Evidence sp} (hx : rep.provable.get? x = some ev) : Traced (ParInRun s₀) s₀ l x ev :=
  (parVia_blame mt mi h0 h).2 ne x ev hx

/-- C88: the same while the session is running. -/
theorem C88_running (mt : sp.MetaTotal) (mi : MainIds P) {rng : sp.Rng} {sid : Bytes} {signer : sp.Signer} {ep : EntryPoint P}
    (h0 : Session.new rng sid signer ep = .ok s₀) {s : Session P} {st : ParSt P} (h : ParVia s₀ l (.running s st)) (x : sp.Id) :
    (∀ r, st.accum.unprovable.get? x = some r ∨ s.transcript.unprovable.get? x = some r → Cause (ParInRun s₀) l x r) ∧
      (NoEchoErr P → ∀ ev, st.accum.provable.get? x = some ev ∨ s.transcript.provable.get? x = some ev →
        Traced (ParInRun s₀) s₀ l x ev) := by
  have hi : ParBlame (ParInRun s₀) s₀ l s st := parVia_blame mt mi h0 h
  refine ⟨fun r hx => ?_, fun ne ev hx => ?_⟩
  · rcases hx with hx | hx
    · exact hi.accum.cause.accum x r hx
    · exact hi.accum.cause.transcript x r hx
  · rcases hx with hx | hx
    · exact (hi.accum.trace ne).provable x ev hx
    · exact (hi.accum.trace ne).transcript.provable x ev hx

/-- C88: all messages handed to processing tasks have been given to the session, signed for its round by the party in whose name
they were given. -/
theorem C88_tasks (mt : sp.MetaTotal) (mi : MainIds P) {rng : sp.Rng} {sid : Bytes} {signer : sp.Signer} {ep : EntryPoint P}
    (h0 : Session.new rng sid signer ep = .ok s₀) {s : Session P} {st : ParSt P} (h : ParVia s₀ l (.running s st))
    {vm : VerifiedMessage sp} (hv : vm ∈ st.tasks) :
    ∃ d ∈ l, vm.sender = d.sender ∧ vm.direct = d.message.direct ∧ vm.echo = d.message.echo ∧ vm.normal = d.message.normal ∧
      Authentic d.sender sid s.transition.id d.message.direct d.message.echo d.message.normal := by
  have hi : ParBlame (ParInRun s₀) s₀ l s st := parVia_blame mt mi h0 h
  obtain ⟨hp0, hsid, -, -, hm0⟩ := new_proper h0
  obtain ⟨x, m, rfl, ⟨d, hd, rfl, rfl⟩, hau⟩ := hi.tasks vm hv
  rw [(parInRun_runOf hp0 hm0).sessionId s ⟨st, h.any⟩, hsid] at hau
  exact ⟨d, hd, rfl, rfl, rfl, rfl, hau⟩

/-- C88: a party in whose name nothing was given to the session is not blamed without proof, and one that has signed nothing given to
it is not blamed with proof. -/
theorem C88_silent (mt : sp.MetaTotal) (mi : MainIds P) {rng : sp.Rng} {sid : Bytes} {signer : sp.Signer} {ep : EntryPoint P}
    (h0 : Session.new rng sid signer ep = .ok s₀) {rep : Report P} (h : ParVia s₀ l (.done (.ok rep))) {x : sp.Id} :
    ((∀ d ∈ l, d.sender ≠ x) → rep.unprovable.get? x = none) ∧
      (NoEchoErr P → (∀ d ∈ l, d.sender = x → ¬ d.Signed sid) → rep.provable.get? x = none) := by
  refine ⟨fun hx => ?_, fun ne hx => ?_⟩
  · cases hg : rep.unprovable.get? x with
    | none => rfl
    | some r =>
      obtain ⟨d, h1, h2⟩ := (C88_cause mt mi h0 h hg).delivered
      exact absurd h2 (hx d h1)
  · cases hg : rep.provable.get? x with
    | none => rfl
    | some ev =>
      exfalso
      obtain ⟨s, m, err, ⟨d, hd, h1, rfl⟩, -, h2, -⟩ := (C88_traced mt mi ne h0 h hg).refused
      obtain ⟨-, hsid, -⟩ := new_proper h0
      exact hx d hd h1 ⟨_, by rw [h1, ← hsid]; exact h2⟩

/-- C88: if only messages signed by `x` for the session are given to it in the name of `x`, at most one for each round, then the
party is not blamed without proof unless it has signed a message for a round that the session does not expect at that time, or a
message that a round refuses. -/
theorem C88_authenticated (mt : sp.MetaTotal) (mi : MainIds P) {rng : sp.Rng} {sid : Bytes} {signer : sp.Signer} {ep : EntryPoint P}
    (h0 : Session.new rng sid signer ep = .ok s₀) {rep : Report P} (h : ParVia s₀ l (.done (.ok rep))) {x : sp.Id} {r : RErr}
    (hs : ∀ d ∈ l, d.sender = x → d.Signed sid) (ho : OncePerRound x l) (hx : rep.unprovable.get? x = some r) :
    (r = .unexpectedRound ∧ ∃ d ∈ l, d.sender = x ∧ d.message.direct.metadata.roundId ≠ d.session.transition.id ∧
        ¬ Simultaneous d.session d.message.direct.metadata.roundId) ∨
      ∃ d ∈ l, d.sender = x ∧ ∃ s, ParInRun s₀ s ∧ d.message.direct.metadata.roundId = s.transition.id ∧
        s.round.receive x ⟨d.message.echo.part, d.message.normal.part, d.message.direct.part⟩ = .error (.unprovable r) := by
  obtain ⟨hp0, hsid, -, -, hm0⟩ := new_proper h0
  refine Cause.authenticated (fun d hd => ?_) hs ho (C88_cause mt mi h0 h hx)
  obtain ⟨pst, st', h1, -⟩ := h.delivery hd
  exact ((parInRun_runOf hp0 hm0).sessionId _ ⟨pst, h1⟩).trans hsid

/-- C88: every signed part that occurs in the evidence was given to the session, signed by the party in whose name it was given, or
has been broadcast by the session itself. -/
theorem C88_held (mt : sp.MetaTotal) (mi : MainIds P) (ne : NoEchoErr P) {rng : sp.Rng} {sid : Bytes} {signer : sp.Signer}
    {ep : EntryPoint P} (h0 : Session.new rng sid signer ep = .ok s₀) {rep : Report P} (h : ParVia s₀ l (.done (.ok rep)))
    {x : sp.Id} {ev : Evidence sp} (hx : rep.provable.get? x = some ev) {k : PartKind} {p : SignedPart k} (hp : ev.body.Holds k p) :
    ∃ y rid, PartOf (ParInRun s₀) s₀ l y rid k p :=
  (C88_traced mt mi ne h0 h hx).held hp

/-- C88: whom evidence accuses, as in C79. -/
theorem C88_accused (mt : sp.MetaTotal) (mi : MainIds P) (ne : NoEchoErr P) {rng : sp.Rng} {sid : Bytes} {signer : sp.Signer}
    {ep : EntryPoint P} (h0 : Session.new rng sid signer ep = .ok s₀) {rep : Report P} (h : ParVia s₀ l (.done (.ok rep)))
    {x : sp.Id} {ev : Evidence sp} (hx : rep.provable.get? x = some ev) :
    ev.guilty = x ∨ ∃ w hh main, ev.body = .mismatched ev.guilty w hh ∧ EchoGiven (ParInRun s₀) s₀ l ev.guilty main w ∧
      HashSigned ev.guilty hh ∧ hh.metadata = w.metadata ∧ hh.hash ≠ sp.partHash w.part :=
  (C88_traced mt mi ne h0 h hx).accused

theorem parOp_hist {s : Session P} {st st' : ParSt P} {o : ParOp sp} (ho : parOp s st o = .ok st') :
    ∃ ops, Hist s st.accum ops st'.accum := by
  cases o with
  | deliver y m =>
    simp only [parOp] at ho
    cases hp : s.preprocess st.accum y m with
    | error e => simp [hp] at ho
    | ok q =>
      obtain ⟨a, r⟩ := q
      simp only [hp] at ho
      have h1 : Hist s st.accum [.pre y m] a := by simp [Hist, foldE, AccOp.apply, hp]
      split at ho <;> simp only [Except.ok.injEq] at ho <;> subst ho <;> exact ⟨_, h1⟩
  | complete i =>
    simp only [parOp] at ho
    split at ho
    · simp only [Except.ok.injEq] at ho
      exact ⟨[], by simp [Hist, foldE, ho]⟩
    · rename_i vm _
      cases ha : s.addProcessed st.accum (s.process vm) with
      | error e => simp [ha] at ho
      | ok a =>
        simp only [ha, Except.ok.injEq] at ho
        subst ho
        exact ⟨[.add (s.process vm)], by simp [Hist, foldE, AccOp.apply, ha]⟩
  | send i =>
    simp only [parOp] at ho
    split at ho
    · rename_i d m art _
      cases ha : st.accum.addArtifact art with
      | error e => simp [ha] at ho
      | ok a =>
        simp only [ha, Except.ok.injEq] at ho
        subst ho
        exact ⟨[.art art], by simp [Hist, foldE, AccOp.apply, ha]⟩
    · simp only [Except.ok.injEq] at ho
      exact ⟨[], by simp [Hist, foldE, ho]⟩

theorem parJoin_hasError {s : Session P} {st : ParSt P} {a : Accum P} (h : parJoin st = .ok a) {x : sp.Id}
    (hx : HasError s st.accum x) : HasError s a x := by
  have key : (a.provable, a.unprovable) = (st.accum.provable, st.accum.unprovable) := by
    refine foldE_keeps (fun a : Accum P => (a.provable, a.unprovable)) ?_ (parJoin_iff.1 h)
    intro a o a' h
    obtain ⟨d, q⟩ := o
    cases q with
    | error e => simp [outApply] at h
    | ok q =>
      simp only [outApply] at h
      simp only [Prod.mk.injEq]
      exact ⟨(addArtifact_parts h).2.2.2, (addArtifact_unprovable h).2.2⟩
  simp only [Prod.mk.injEq] at key
  unfold HasError at *
  rw [key.1, key.2]
  exact hx

/-- What is kept of an error. -/
def ParBlamed (x : sp.Id) : ParState P → Prop
  | .running s st => HasError s st.accum x
  | .done (.ok rep) => rep.Faults x
  | .done (.error _) => True

theorem ParBlamed.step {x : sp.Id} {st st' : ParState P} {ev : ParEvent sp} (h : ParBlamed x st) (hs : parStep st ev = some st') :
    ParBlamed x st' := by
  cases st with
  | done r => simp [parStep] at hs
  | running s st =>
    rcases parStep_full hs with ⟨r, rfl, hrep⟩ | ⟨o, st1, rfl, -, ho, rfl⟩ | ⟨a, rng, rng', s', cached', hy, hj, hf, rfl⟩
    · cases r with
      | error e => trivial
      | ok rep =>
        obtain ⟨a, hj, hend⟩ := hrep rep rfl
        obtain ⟨t, hu, e1, e2⟩ := hend.errors
        have hb : HasError s a x := parJoin_hasError hj h
        show rep.Faults x
        unfold Report.Faults
        rw [e1, e2]
        simp only [hu.provable, hu.unprovable]
        rcases hb with ⟨e, g⟩ | ⟨e, g⟩ | ⟨e, g⟩ | ⟨e, g⟩
        · left
          cases h1 : a.provable.get? x with
          | none => exact ⟨e, by simp [g]⟩
          | some v => exact ⟨v, by simp⟩
        · right
          cases h1 : a.unprovable.get? x with
          | none => exact ⟨e, by simp [g]⟩
          | some v => exact ⟨v, by simp⟩
        · exact .inl ⟨e, by simp [g]⟩
        · exact .inr ⟨e, by simp [g]⟩
    · obtain ⟨ops, hh⟩ := parOp_hist ho
      exact C07_permanent_in_round hh h
    · have hb : HasError s a x := parJoin_hasError hj h
      have hu := finalized_transcript hf
      show HasError s' s'.makeAccum x
      rw [← hasError_iff, Bool.or_eq_true] at *
      left
      rw [hu.banned]
      simpa using hb

/-- C88: whoever has an error while the session is running keeps it, and is blamed in its report. -/
theorem C88_blamed {s : Session P} {st : ParSt P} {x : sp.Id} (hx : HasError s st.accum x) {st' : ParState P}
    (h : ParLeads (.running s st) st') :
    (∀ s' pst, st' = .running s' pst → HasError s' pst.accum x) ∧ ∀ rep, st' = .done (.ok rep) → rep.Faults x := by
  have key : ParBlamed x st' := by
    induction h with
    | refl => exact hx
    | step _ hs ih => exact ih.step hs
  refine ⟨?_, ?_⟩
  · rintro s' pst rfl
    exact key
  · rintro rep rfl
    exact key

/-- C88: the party in whose name a message is refused is blamed in the report. -/
theorem C88_refused_blamed (mt : sp.MetaTotal) (mi : MainIds P) {rng : sp.Rng} {sid : Bytes} {signer : sp.Signer}
    {ep : EntryPoint P} (h0 : Session.new rng sid signer ep = .ok s₀) {rep : Report P} (h : ParVia s₀ l (.done (.ok rep)))
    {d : Delivery P} (hd : d ∈ l) {r : RErr} (hr : Row d.session d.accum d.sender d.message (.refuse r)) :
    rep.Faults d.sender := by
  obtain ⟨hp0, -, -, -, hm0⟩ := new_proper h0
  obtain ⟨pst, st', h1, h2, h3, h4⟩ := h.delivery hd
  have wf := proper_wellFormed mi ((parInRun_runOf hp0 hm0).proper _ ⟨pst, h1⟩)
  have hpre := C02_decision_table mt _ wf _ _ _ _ hr
  unfold parStep at h3
  cases hc : pst.accum.canFinalize with
  | yes => simp [hc] at h3
  | never => simp [hc] at h3
  | notYet =>
    simp only [hc, parOp] at h3
    rw [h2, hpre] at h3
    simp only [Verdict.effect, PreOutcome.ok?, Option.some.injEq] at h3
    subst h3
    exact (C88_blamed (x := d.sender) (.inr (.inr (.inr ⟨r, by simp⟩))) h4).2 rep rfl

/-- Adding the result of a message that was refused records an error. -/
theorem addProcessed_blames {t : Transcript sp} {a a' : Accum P} {p : Processed P} (h : a.addProcessed t p = .ok a')
    {e : RecvErr sp} (he : p.result = .error e) :
    (∃ ev, a'.provable.get? p.message.sender = some ev) ∨ ∃ r, a'.unprovable.get? p.message.sender = some r := by
  have reg : ∀ {b b' : Accum P} {who : sp.Id} {ev : Evidence sp}, b.registerProvable who ev = .ok b' →
      ∃ ev, b'.provable.get? who = some ev := by
    intro b b' who ev hr
    unfold Accum.registerProvable at hr
    split at hr
    · cases hr
    · simp only [Except.ok.injEq] at hr
      subst hr
      exact ⟨ev, by simp⟩
  unfold Accum.addProcessed at h
  rw [he] at h
  simp only at h
  split at h
  · cases h
  · split at h
    · cases h
    · split at h
      · rename_i hh
        cases hh
      · exact .inl (reg h)
      · exact .inl (reg h)
      · exact .inl (reg h)
      · split at h
        · cases h
        · exact .inl (reg h)
      · simp only [Except.ok.injEq] at h
        subst h
        exact .inr ⟨_, by simp; rfl⟩
      · exact .inl (reg h)
      · cases h

/-- C88: the sender of a message that the round has refused is blamed once the result of the task is received. -/
theorem C88_completed {s : Session P} {st : ParSt P} {i : Nat} {vm : VerifiedMessage sp} (hi : st.tasks[i]? = some vm)
    {e : RecvErr sp} (he : s.round.receive vm.sender ⟨vm.echo.part, vm.normal.part, vm.direct.part⟩ = .error e)
    {st' : ParState P} (hs : parStep (.running s st) (.op (.complete i)) = some st') {rep : Report P}
    (h : ParLeads st' (.done (.ok rep))) : rep.Faults vm.sender := by
  have nope : ∀ {e : LErr} {q : ParState P}, ParLeads (.done (.error e)) q → q ≠ .done (.ok rep) := by
    intro e q hq
    induction hq with
    | refl => simp
    | step hq hs _ =>
      exfalso
      have : ∀ {q : ParState P}, ParLeads (.done (.error e)) q → q = .done (.error e) := by
        intro q hq
        induction hq with
        | refl => rfl
        | step _ hs ih =>
          rw [ih] at hs
          simp [parStep] at hs
      rw [this hq] at hs
      simp [parStep] at hs
  rcases parStep_full hs with ⟨r, rfl, -⟩ | ⟨o, st1, ho, hc, hop, rfl⟩ | ⟨a, rng, rng', s', cached', hy, hj, hf, rfl⟩
  · exfalso
    unfold parStep at hs
    cases hc : st.accum.canFinalize with
    | yes => simp [hc] at hs
    | never => simp [hc] at hs
    | notYet =>
      simp only [hc] at hs
      cases hp : parOp s st (.complete i) with
      | ok q => simp [hp] at hs
      | error er =>
        simp only [hp, Option.some.injEq] at hs
        rw [← hs] at h
        exact nope h rfl
  · simp only [ParEvent.op.injEq] at ho
    subst ho
    simp only [parOp, hi] at hop
    cases ha : s.addProcessed st.accum (s.process vm) with
    | error er => simp [ha] at hop
    | ok a =>
      simp only [ha, Except.ok.injEq] at hop
      subst hop
      refine (C88_blamed (x := vm.sender) ?_ h).2 rep rfl
      rcases addProcessed_blames ha (p := s.process vm) he with g | g
      · exact .inr (.inr (.inl g))
      · exact .inr (.inr (.inr g))
  · exfalso
    have hc := join_keeps hj
    rw [hy] at hc
    unfold parStep at hs
    simp [← hc] at hs

/-- C88: with `run_session` this is so for all messages given to the session that its round has refused. -/
theorem C88_immediate (mt : sp.MetaTotal) (mi : MainIds P) {rng : sp.Rng} {sid : Bytes} {signer : sp.Signer}
    {ep : EntryPoint P} (h0 : Session.new rng sid signer ep = .ok s₀) {rep : Report P} (h : ReachVia s₀ l (.done (.ok rep)))
    {d : Delivery P} (hd : d ∈ l) (hr : Row d.session d.accum d.sender d.message .process) {e : RecvErr sp}
    (he : d.session.round.receive d.sender ⟨d.message.echo.part, d.message.normal.part, d.message.direct.part⟩ = .error e) :
    rep.Faults d.sender := by
  obtain ⟨hp0, -, -, -, hm0⟩ := new_proper h0
  obtain ⟨hreach, st', out, h1, h2⟩ := h.delivery hd
  obtain ⟨trail, cached, rng', ml, hv, -⟩ := reach_running hreach
  have wf := proper_wellFormed mi (visits_inv hp0 hm0 hv).proper
  have stuck : ∀ {r : Except LErr (Report P)} {q : RunState P}, Steps (.done r) q → q = .done r := by
    intro r q hq
    induction hq with
    | refl => rfl
    | step _ hs ih =>
      rw [ih] at hs
      simp [step] at hs
  unfold step at h1
  cases hc : d.accum.canFinalize with
  | yes => simp [hc] at h1
  | never => simp [hc] at h1
  | notYet =>
    simp only [hc] at h1
    cases hdl : deliver d.session d.accum d.sender d.message with
    | error er =>
      simp only [hdl, Option.some.injEq, Prod.mk.injEq] at h1
      rw [← h1.1] at h2
      have := stuck h2
      simp at this
    | ok a =>
      simp only [hdl, Option.some.injEq, Prod.mk.injEq] at h1
      rw [← h1.1] at h2
      unfold deliver at hdl
      rw [C02_decision_table mt _ wf _ _ _ _ hr] at hdl
      simp only [Verdict.effect, PreOutcome.ok?] at hdl
      refine C78_blamed ?_ h2
      rcases addProcessed_blames hdl (p := d.session.process (verifiedOf d.sender d.message)) he with g | g
      · exact .inr (.inr (.inl g))
      · exact .inr (.inr (.inr g))

/-! ## Examples -/

theorem ParVia.none {st : ParState P} (h : ParVia s₀ l st) {st' : ParState P} {ev : ParEvent sp} (he : ∀ x m, ev ≠ .op (.deliver x m))
    (hs : parStep st ev = some st') : ParVia s₀ l st' := by
  cases st with
  | done r => simp [parStep] at hs
  | running s st => exact h.step he hs

/-- Party 2 of three sends a direct message of two bytes; the session is cancelled before it is processed. -/
def parUnprocessed : Option (Session (demo true 255).wrap × Message toy × ParSt (demo true 255).wrap × ParState (demo true 255).wrap) :=
  match demoSession true 255 [1, 2, 3] 1, demoMsg 2 [9] (RoundId.new 1) 1 (some [5, 6]) (some [2]) (some [7]) with
  | .ok s, .ok m =>
    match parStep (.running s (ParSt.begin s (0 : Nat) [])) (.op (.deliver (2 : U8) m)) with
    | some (.running s' st) => (parStep (.running s' st) .cancel).map fun st' => (s, m, st, st')
    | _ => none
  | _, _ => none

/-- What is checked of it. -/
def unprocessedOk : Bool :=
  match parUnprocessed with
  | some (s, m, _, .done (.ok rep)) =>
    (match s.preprocess s.makeAccum (2 : U8) m with | .ok (_, o) => o.ok?.isSome | .error _ => false) &&
    (match s.round.receive (2 : U8) ⟨m.echo.part, m.normal.part, m.direct.part⟩ with | .error .invalidDirect => true | _ => false) &&
    (rep.provable.get? (2 : U8)).isNone && (rep.unprovable.get? (2 : U8)).isNone
  | _ => false

/-- C88: with `par_run_session` it is not: the result of a task may be lost at the end of the session (or of the round), so that a
party that has signed a message the round refuses, which the session has received in time, is not blamed. -/
theorem C88_dropped_violation : ∃ (s₀ : Session (demo true 255).wrap) (d : Delivery (demo true 255).wrap)
    (rep : Report (demo true 255).wrap), toy.MetaTotal ∧ MainIds (demo true 255).wrap ∧ demoSession true 255 [1, 2, 3] 1 = .ok s₀ ∧
      ParVia s₀ [d] (.done (.ok rep)) ∧ Row d.session d.accum d.sender d.message .process ∧
      d.session.round.receive d.sender ⟨d.message.echo.part, d.message.normal.part, d.message.direct.part⟩ = .error .invalidDirect ∧
      ¬ rep.Faults d.sender := by
  have h : unprocessedOk = true := by decide +kernel
  unfold unprocessedOk at h
  split at h
  · rename_i s m st rep hp
    unfold parUnprocessed at hp
    split at hp
    · rename_i s1 m1 hs hm
      split at hp
      · rename_i s2 st2 h2
        obtain ⟨q, hq, he⟩ := Option.map_eq_some_iff.1 hp
        simp only [Prod.mk.injEq] at he
        obtain ⟨rfl, rfl, rfl, rfl⟩ := he
        have hv : ParVia s1 ([] ++ [⟨s1, s1.makeAccum, (2 : U8), m1⟩]) (.running s2 st2) := .deliver (.start (0 : Nat)) h2
        have hv' := hv.none (by simp) hq
        simp only [Bool.and_eq_true, Option.isNone_iff_eq_none] at h
        obtain ⟨⟨⟨g1, g2⟩, g3⟩, g4⟩ := h
        have hnew : Session.new (sp := toy) (0 : Nat) [9] (1 : U8) (demoEntry true 255 (BSet.ofList [1, 2, 3])) = .ok s1 := hs
        have wf := proper_wellFormed (demo_mainIds true 255) (new_proper hnew).1
        obtain ⟨v, hrow, hpre⟩ := C02_outcome_determined toy_metaTotal s1 wf s1.makeAccum (2 : U8) m1
        have hproc : v = .process := by
          rw [hpre] at g1
          cases v <;> simp [Verdict.effect, PreOutcome.ok?] at g1 ⊢
        subst hproc
        refine ⟨s1, ⟨s1, s1.makeAccum, (2 : U8), m1⟩, rep, toy_metaTotal, demo_mainIds _ _, hs, hv', hrow, ?_, ?_⟩
        · split at g2
          · assumption
          · cases g2
        · rintro (⟨e, he⟩ | ⟨e, he⟩)
          · simp only at he
            rw [g3] at he
            cases he
          · simp only at he
            rw [g4] at he
            cases he
      · cases hp
    · cases hp
  · cases h

/-- The hypotheses of `C88_cause`, `C88_traced`, `C88_held` and `C88_accused` can be met. -/
example : ∃ (s₀ : Session (demo true 255).wrap) (l : List (Delivery (demo true 255).wrap)) (rep : Report (demo true 255).wrap)
    (ev : Evidence toy) (g : U8) (w : SignedPart .echo) (e : SignedHash), toy.MetaTotal ∧ MainIds (demo true 255).wrap ∧
      NoEchoErr (demo true 255).wrap ∧ demoSession true 255 [1, 2, 3] 1 = .ok s₀ ∧ ParVia s₀ l (.done (.ok rep)) ∧
      rep.provable.get? (2 : U8) = some ev ∧ ev.body = .mismatched g w e := by
  have h : (match parEchoed (demoPack (RoundId.new 1) [(1, [1]), (3, [4])]) with
      | some (_, .done (.ok rep)) => hasEvidence rep 2 (fun ev => match ev.body with | .mismatched _ _ _ => true | _ => false)
      | _ => false) = true := by decide +kernel
  split at h
  · rename_i s rep hp
    obtain ⟨ev, h1, h2⟩ := hasEvidence_iff.1 h
    obtain ⟨hs, ha⟩ := parEchoed_any hp
    obtain ⟨l, hl⟩ := parAny_via ha
    split at h2
    · rename_i g w e hb
      exact ⟨s, l, rep, ev, g, w, e, toy_metaTotal, demo_mainIds _ _, typed_noEchoErr _, hs, hl, h1, hb⟩
    · simp at h2
  · exact (Bool.false_ne_true h).elim

/-- One event; the deliveries are recorded. -/
def pviaStep (q : List (Delivery P) × ParState P) (ev : ParEvent sp) : Except LErr (List (Delivery P) × ParState P) :=
  match parStep q.2 ev with
  | none => .error (.user 1)
  | some st' =>
    match q.2, ev with
    | .running s st, .op (.deliver x m) => .ok (q.1 ++ [⟨s, st.accum, x, m⟩], st')
    | _, _ => .ok (q.1, st')

theorem pviaStep_via {q q' : List (Delivery P) × ParState P} {ev : ParEvent sp} (h0 : ParVia s₀ q.1 q.2)
    (h : pviaStep q ev = .ok q') : ParVia s₀ q'.1 q'.2 := by
  obtain ⟨l, st⟩ := q
  unfold pviaStep at h
  cases hs : parStep st ev with
  | none => simp [hs] at h
  | some st' =>
    simp only [hs] at h
    split at h
    · simp only [Except.ok.injEq] at h
      subst h
      exact .deliver h0 hs
    · rename_i hn
      simp only [Except.ok.injEq] at h
      subst h
      cases st with
      | done r => simp [parStep] at hs
      | running s st => exact .step h0 (fun x m he => hn s st x m rfl he) hs

/-- The event of a script step; `none` is the completion of the first outstanding processing task. -/
def parActEvent : Option Act → Except LErr (ParEvent toy)
  | none => .ok (.op (.complete 0))
  | some a =>
    match a.event with
    | .error e => .error e
    | .ok (.tick rng) => .ok (.tick rng)
    | .ok (.deliver x m) => .ok (.op (.deliver x m))
    | .ok .cancel => .ok .cancel
    | .ok .close => .ok .close

/-- Run a script from the start of party 1's session among three parties. -/
def pviaRun (echo : Bool) (last : U8) (l : List (Option Act)) : Except LErr (Session (demo echo last).wrap ×
    List (Delivery (demo echo last).wrap) × ParState (demo echo last).wrap) :=
  match demoSession echo last [1, 2, 3] 1 with
  | .error e => .error e
  | .ok s =>
    match mapE parActEvent l with
    | .error e => .error e
    | .ok evs =>
      match foldE pviaStep ([], .running s (ParSt.begin s (0 : Nat) [])) evs with
      | .error e => .error e
      | .ok q => .ok (s, q)

theorem pviaRun_ok {echo : Bool} {last : U8} {l : List (Option Act)} {s : Session (demo echo last).wrap}
    {q : List (Delivery (demo echo last).wrap) × ParState (demo echo last).wrap} (h : pviaRun echo last l = .ok (s, q)) :
    demoSession echo last [1, 2, 3] 1 = .ok s ∧ ParVia s q.1 q.2 := by
  unfold pviaRun at h
  cases h1 : demoSession echo last [1, 2, 3] 1 with
  | error e => simp [h1] at h
  | ok s' =>
    cases h2 : mapE parActEvent l with
    | error e => simp [h1, h2] at h
    | ok evs =>
      cases h3 : foldE pviaStep ([], .running s' (ParSt.begin s' (0 : Nat) [])) evs with
      | error e => simp [h1, h2, h3] at h
      | ok q' =>
        simp only [h1, h2, h3, Except.ok.injEq, Prod.mk.injEq] at h
        obtain ⟨rfl, rfl⟩ := h
        refine ⟨rfl, ?_⟩
        have key : ∀ (evs : List (ParEvent toy)) (p : List (Delivery (demo echo last).wrap) × ParState (demo echo last).wrap),
            ParVia s' p.1 p.2 → foldE pviaStep p evs = .ok q' → ParVia s' q'.1 q'.2 := by
          intro evs
          induction evs with
          | nil =>
            intro p hp hf
            simp only [foldE, Except.ok.injEq] at hf
            exact hf ▸ hp
          | cons ev evs ih =>
            intro p hp hf
            simp only [foldE] at hf
            split at hf
            · rename_i p' hp'
              exact ih p' (pviaStep_via hp hp') hf
            · cases hf
        exact key evs _ (ParVia.start (s₀ := s') (0 : Nat)) h3

theorem parIsReport_iff {sp : SP} {P : Proto sp} {f : Report P → Bool} {st : ParState P} :
    st.isReport f = true ↔ ∃ rep, st = .done (.ok rep) ∧ f rep = true := by
  constructor
  · intro h
    unfold ParState.isReport at h
    split at h
    · exact ⟨_, rfl, h⟩
    · cases h
  · rintro ⟨rep, rfl, h⟩
    exact h

/-- The hypotheses of `C88_cause` and `C88_authenticated` can be met, with both kinds of conclusions, and those of
`C88_refused_blamed`: party 3 is refused. -/
example : ∃ (s₀ : Session (demo false 3).wrap) (l : List (Delivery (demo false 3).wrap)) (rep : Report (demo false 3).wrap),
    Session.new (sp := toy) (0 : Nat) [9] (1 : U8) (demoEntry false 3 (BSet.ofList [1, 2, 3])) = .ok s₀ ∧ MainIds (demo false 3).wrap ∧
      ParVia s₀ l (.done (.ok rep)) ∧ (∀ d ∈ l, d.Signed [9]) ∧ OncePerRound (2 : U8) l ∧ OncePerRound (3 : U8) l ∧
      rep.unprovable.get? (2 : U8) = some (.user 0) ∧ rep.unprovable.get? (3 : U8) = some .unexpectedRound := by
  have h : onOk (pviaRun false 3 [some (.msg ⟨2, 2, [9], RoundId.new 1, 1, some [67], none, some [7]⟩),
      some (.msg ⟨3, 3, [9], RoundId.new 5, 1, some [5], none, some [7]⟩), none, some .cancel]) (fun r => r.2.2.isReport (fun rep =>
      (rep.unprovable.get? (2 : U8) == some (.user 0)) && (rep.unprovable.get? (3 : U8) == some .unexpectedRound)) &&
      r.2.1.all deliverySigned && decide (r.2.1.map (fun d => d.message.direct.metadata.roundId) = [RoundId.new 1, RoundId.new 5])) =
        true := by
    decide +kernel
  obtain ⟨⟨s₀, l, st⟩, h1, h2⟩ := onOk_iff.1 h
  obtain ⟨h3, h4⟩ := pviaRun_ok h1
  simp only [Bool.and_eq_true, decide_eq_true_eq, List.all_eq_true] at h2
  obtain ⟨⟨h5, h6⟩, h7⟩ := h2
  obtain ⟨rep, rfl, h8⟩ := parIsReport_iff.1 h5
  simp only [Bool.and_eq_true, beq_iff_eq] at h8
  have hpw : (l.map (fun d => d.message.direct.metadata.roundId)).Pairwise (· ≠ ·) := by
    rw [h7]
    decide
  rw [List.pairwise_map] at hpw
  refine ⟨s₀, l, rep, h3, demo_mainIds _ _, h4, ?_, hpw.imp (fun g _ _ => g), hpw.imp (fun g _ _ => g), h8.1, h8.2⟩
  intro d hd
  have := h6 d hd
  unfold deliverySigned at this
  simp only [Bool.and_eq_true] at this
  exact ⟨_, partAuthentic_spec this.1.1, partAuthentic_spec this.1.2, partAuthentic_spec this.2⟩

/-- The hypotheses of `C88_tasks`, `C88_running` and `C88_completed` can be met: while the message of party 2 is being processed,
another one in its name is refused; then the result arrives. -/
example : ∃ (s₀ s : Session (demo false 3).wrap) (l : List (Delivery (demo false 3).wrap)) (st : ParSt (demo false 3).wrap)
    (vm : VerifiedMessage toy) (st' : ParState (demo false 3).wrap) (rep : Report (demo false 3).wrap),
    demoSession false 3 [1, 2, 3] 1 = .ok s₀ ∧ ParVia s₀ l (.running s st) ∧ l.length = 2 ∧ st.tasks[0]? = some vm ∧
      st.accum.unprovable.get? (2 : U8) = some .alreadyProcessing ∧
      s.round.receive vm.sender ⟨vm.echo.part, vm.normal.part, vm.direct.part⟩ = .error (.unprovable (.user 0)) ∧
      parStep (.running s st) (.op (.complete 0)) = some st' ∧ ParLeads st' (.done (.ok rep)) ∧
      rep.unprovable.get? (2 : U8) = some (.user 0) := by
  have h : onOk (pviaRun false 3 [some (.msg ⟨2, 2, [9], RoundId.new 1, 1, some [67], none, some [7]⟩),
      some (.msg ⟨2, 2, [9], RoundId.new 1, 1, some [5], none, some [7]⟩)]) (fun r => decide (r.2.1.length = 2) &&
        match r.2.2 with
        | .done _ => false
        | .running s st => (st.accum.unprovable.get? (2 : U8) == some .alreadyProcessing) &&
          match st.tasks[0]? with
          | none => false
          | some vm =>
            (match s.round.receive vm.sender ⟨vm.echo.part, vm.normal.part, vm.direct.part⟩ with
              | .error (.unprovable e) => e == .user 0
              | _ => false) &&
            match parStep (.running s st) (.op (.complete 0)) with
            | none => false
            | some st' =>
              match parStep st' .cancel with
              | none => false
              | some st'' => st''.isReport (fun rep => rep.unprovable.get? (2 : U8) == some (.user 0))) = true := by
    decide +kernel
  obtain ⟨⟨s₀, l, q⟩, h1, h2⟩ := onOk_iff.1 h
  obtain ⟨h3, h4⟩ := pviaRun_ok h1
  simp only [Bool.and_eq_true, decide_eq_true_eq] at h2
  obtain ⟨h5, h2⟩ := h2
  split at h2
  · cases h2
  · rename_i s st
    simp only [Bool.and_eq_true, beq_iff_eq] at h2
    obtain ⟨h6, h2⟩ := h2
    split at h2
    · cases h2
    · rename_i vm hvm
      simp only [Bool.and_eq_true] at h2
      obtain ⟨h7, h2⟩ := h2
      split at h2
      · cases h2
      · rename_i st' hst'
        split at h2
        · cases h2
        · rename_i st'' hst''
          obtain ⟨rep, rfl, h8⟩ := parIsReport_iff.1 h2
          refine ⟨s₀, s, l, st, vm, st', rep, h3, h4, h5, hvm, h6, ?_, hst', .step .refl hst'', by simpa using h8⟩
          split at h7
          · rename_i e he
            rw [he, beq_iff_eq.1 h7]
          · cases h7

end Manul
