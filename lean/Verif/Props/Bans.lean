import Verif.Lemmas.Bans
import Verif.Props.Equivocation

/-!
# C78: why a session holds something against a party without proof
-/

namespace Manul

variable {sp : SP} {P : Proto sp} {s₀ : Session P} {l : List (Delivery P)}

/-- Every run is one in which some messages have been given to the session. -/
theorem reach_via {st : RunState P} (h : Reach s₀ st) : ∃ l, ReachVia s₀ l st := by
  induction h with
  | start rng => exact ⟨[], .start rng⟩
  | @step st st' ev out _ hs ih =>
    obtain ⟨l, hl⟩ := ih
    by_cases hev : ∃ x m, ev = .deliver x m
    · obtain ⟨x, m, rfl⟩ := hev
      cases st with
      | running s a => exact ⟨_, .deliver hl hs⟩
      | done r => simp [Manul.step] at hs
    · exact ⟨l, .step hl (fun x m he => hev ⟨x, m, he⟩) hs⟩

/-- The states in which messages were given to the session were states of the run. -/
theorem ReachVia.delivery {st : RunState P} (h : ReachVia s₀ l st) {d : Delivery P} (hd : d ∈ l) :
    Reach s₀ (.running d.session d.accum) ∧ ∃ st' out, Manul.step (.running d.session d.accum) (.deliver d.sender d.message) = some (st', out) ∧
      Steps st' st := by
  induction h with
  | start rng => simp at hd
  | step _ _ hs ih =>
    obtain ⟨h1, st', out, h2, h3⟩ := ih hd
    exact ⟨h1, st', out, h2, h3.step hs⟩
  | @deliver l s a st' x m out hr hs ih =>
    rcases List.mem_append.1 hd with hd | hd
    · obtain ⟨h1, st', out, h2, h3⟩ := ih hd
      exact ⟨h1, st', out, h2, h3.step hs⟩
    · simp only [List.mem_singleton] at hd
      subst hd
      exact ⟨hr.reach, st', out, hs, .refl⟩

/-- C78: every error without proof in a report has its cause in messages given to the session in the name of the party: a message
refused because of what it contains, a message for a round for which the party had signed an earlier one, or a message signed by
the party for a round of the session and refused by it. -/
theorem C78_cause (mt : sp.MetaTotal) (mi : MainIds P) {rng : sp.Rng} {sid : Bytes} {signer : sp.Signer} {ep : EntryPoint P}
    (h0 : Session.new rng sid signer ep = .ok s₀) {rep : Report P} (h : ReachVia s₀ l (.done (.ok rep))) {x : sp.Id} {r : RErr}
    (hx : rep.unprovable.get? x = some r) : Cause (InRun s₀) l x r :=
  (reachVia_cause mt mi h0 h).2 rep rfl x r hx

/-- C78: the same while the session is running. -/
theorem C78_cause_running (mt : sp.MetaTotal) (mi : MainIds P) {rng : sp.Rng} {sid : Bytes} {signer : sp.Signer} {ep : EntryPoint P}
    (h0 : Session.new rng sid signer ep = .ok s₀) {s : Session P} {a : Accum P} (h : ReachVia s₀ l (.running s a)) {x : sp.Id}
    {r : RErr} (hx : a.unprovable.get? x = some r ∨ s.transcript.unprovable.get? x = some r) : Cause (InRun s₀) l x r := by
  have hi := (reachVia_cause mt mi h0 h).1 s a rfl
  rcases hx with hx | hx
  · exact hi.accum x r hx
  · exact hi.transcript x r hx

/-- C78: a party in whose name nothing was given to the session has no error of this kind. -/
theorem C78_silent (mt : sp.MetaTotal) (mi : MainIds P) {rng : sp.Rng} {sid : Bytes} {signer : sp.Signer} {ep : EntryPoint P}
    (h0 : Session.new rng sid signer ep = .ok s₀) {rep : Report P} (h : ReachVia s₀ l (.done (.ok rep))) {x : sp.Id}
    (hx : ∀ d ∈ l, d.sender ≠ x) : rep.unprovable.get? x = none := by
  cases hg : rep.unprovable.get? x with
  | none => rfl
  | some r =>
    obtain ⟨d, h1, h2⟩ := (C78_cause mt mi h0 h hg).delivered
    exact absurd h2 (hx d h1)

/-- C78: if only messages signed by `x` for the session are given to it in the name of `x`, at most one for each round, then the
party is not blamed without proof unless it has signed a message for a round that the session does not expect at that time, or a
message that a round refuses. -/
theorem C78_authenticated (mt : sp.MetaTotal) (mi : MainIds P) {rng : sp.Rng} {sid : Bytes} {signer : sp.Signer} {ep : EntryPoint P}
    (h0 : Session.new rng sid signer ep = .ok s₀) {rep : Report P} (h : ReachVia s₀ l (.done (.ok rep))) {x : sp.Id} {r : RErr}
    (hs : ∀ d ∈ l, d.sender = x → d.Signed sid) (ho : OncePerRound x l) (hx : rep.unprovable.get? x = some r) :
    (r = .unexpectedRound ∧ ∃ d ∈ l, d.sender = x ∧ d.message.direct.metadata.roundId ≠ d.session.transition.id ∧
        ¬ Simultaneous d.session d.message.direct.metadata.roundId) ∨
      ∃ d ∈ l, d.sender = x ∧ ∃ s trail cached, Visits s₀ trail s cached ∧ d.message.direct.metadata.roundId = s.transition.id ∧
        s.round.receive x ⟨d.message.echo.part, d.message.normal.part, d.message.direct.part⟩ = .error (.unprovable r) := by
  obtain ⟨hp0, hsid, -, -, hm0⟩ := new_proper h0
  refine (Cause.authenticated ?_ hs ho (C78_cause mt mi h0 h hx)).imp id ?_
  · intro d hd
    obtain ⟨hreach, -⟩ := h.delivery hd
    obtain ⟨trail, cached, rng', ml, hv, -⟩ := reach_running hreach
    exact (visits_inv hp0 hm0 hv).sessionId.trans hsid
  · rintro ⟨d, h1, h2, s, ⟨trail, cached, h3⟩, h4⟩
    exact ⟨d, h1, h2, s, trail, cached, h3, h4⟩

/-- C78: whoever has an error while the session is running is blamed in its report. -/
theorem C78_blamed {s : Session P} {a : Accum P} {x : sp.Id} (hx : HasError s a x) {rep : Report P}
    (h : Steps (.running s a) (.done (.ok rep))) : rep.Faults x := by
  cases h with
  | @step st' _ ev out hs he =>
    cases st' with
    | done r => simp [step] at he
    | running s' a' =>
      have hb := C07_permanent_in_run hx hs s' a' rfl
      obtain ⟨t, hu, hp⟩ := step_report he
      obtain ⟨t', hu', hp'⟩ := step_report_unprovable he
      unfold Report.Faults
      rw [hp, hp']
      simp only [hu.provable, hu'.unprovable]
      rcases hb with ⟨e, g⟩ | ⟨e, g⟩ | ⟨e, g⟩ | ⟨e, g⟩
      · left
        cases h1 : a'.provable.get? x with
        | none => exact ⟨e, by simp [g]⟩
        | some v => exact ⟨v, by simp⟩
      · right
        cases h1 : a'.unprovable.get? x with
        | none => exact ⟨e, by simp [g]⟩
        | some v => exact ⟨v, by simp⟩
      · exact .inl ⟨e, by simp [g]⟩
      · exact .inr ⟨e, by simp [g]⟩

/-- C78: conversely, the party in whose name a message is refused is blamed in the report. -/
theorem C78_refused_blamed (mt : sp.MetaTotal) (mi : MainIds P) {rng : sp.Rng} {sid : Bytes} {signer : sp.Signer}
    {ep : EntryPoint P} (h0 : Session.new rng sid signer ep = .ok s₀) {rep : Report P} (h : ReachVia s₀ l (.done (.ok rep)))
    {d : Delivery P} (hd : d ∈ l) {r : RErr} (hr : Row d.session d.accum d.sender d.message (.refuse r)) :
    rep.Faults d.sender := by
  obtain ⟨hp0, -, -, -, hm0⟩ := new_proper h0
  obtain ⟨hreach, st', out, h1, h2⟩ := h.delivery hd
  obtain ⟨trail, cached, rng', ml, hv, -⟩ := reach_running hreach
  have wf := proper_wellFormed mi (visits_inv hp0 hm0 hv).proper
  have hdl : deliver d.session d.accum d.sender d.message = .ok (Verdict.effect d.accum d.sender d.message (.refuse r)).1 := by
    unfold deliver
    rw [C02_decision_table mt _ wf _ _ _ _ hr]
    rfl
  rcases step_full h1 with ⟨-, q, hq⟩ | ⟨hc, x', m', a', he, g1, g2⟩ | ⟨rng1, rng2, s', cached', hy, hf, he⟩
  · exfalso
    unfold step at h1
    cases hc : d.accum.canFinalize <;> simp [hc, hdl] at h1
    rw [← h1.1] at hq
    cases hq
  · cases he
    rw [hdl, Except.ok.injEq] at g1
    subst g1 g2
    exact C78_blamed (.inr (.inr (.inr ⟨r, by simp [Verdict.effect]⟩))) h2
  · unfold step at h1
    simp [hy] at h1

/-- C78 does not say who has sent the messages: anybody can have any party blamed that is not yet, by giving the session a message
in the name of that party, for which no signature is needed. -/
theorem C78_anybody (mt : sp.MetaTotal) {s : Session P} (wf : EchoWellFormed s) {a : Accum P}
    (hny : a.canFinalize = .notYet) {x : sp.Id} (hx : ¬ HasError s a x) {m : Message sp} (hm : Incoherent m) :
    ∃ a', step (.running s a) (.deliver x m) = some (.running s a', []) ∧ a'.unprovable.get? x = some .metadata ∧
      (∀ m', s.preprocess a' x m' = .ok (a', .error .banned)) ∧
      ∀ rep, Steps (.running s a') (.done (.ok rep)) → rep.Faults x := by
  have hd : deliver s a x m = .ok (Verdict.effect a x m (.refuse .metadata)).1 := by
    unfold deliver
    rw [C02_decision_table mt s wf a x m _ (.metadata hx hm)]
    rfl
  have he : HasError s (Verdict.effect a x m (.refuse .metadata)).1 x := .inr (.inr (.inr ⟨.metadata, by simp [Verdict.effect]⟩))
  refine ⟨_, by simp [step, hny, hd], by simp [Verdict.effect], fun m' => C07_ignored he m', fun rep h => C78_blamed he h⟩

/-! ## Examples -/

/-- One event; the deliveries are recorded. -/
def viaStep (q : List (Delivery P) × RunState P) (ev : Event sp) : Except LErr (List (Delivery P) × RunState P) :=
  match step q.2 ev with
  | none => .error (.user 1)
  | some (st', _) =>
    match q.2, ev with
    | .running s a, .deliver x m => .ok (q.1 ++ [⟨s, a, x, m⟩], st')
    | _, _ => .ok (q.1, st')

theorem viaStep_reach {q q' : List (Delivery P) × RunState P} {ev : Event sp} (h0 : ReachVia s₀ q.1 q.2)
    (h : viaStep q ev = .ok q') : ReachVia s₀ q'.1 q'.2 := by
  obtain ⟨l, st⟩ := q
  unfold viaStep at h
  cases hs : step st ev with
  | none => simp [hs] at h
  | some p =>
    obtain ⟨st', out⟩ := p
    simp only [hs] at h
    split at h
    · simp only [Except.ok.injEq] at h
      subst h
      exact .deliver h0 hs
    · rename_i hn
      simp only [Except.ok.injEq] at h
      subst h
      cases st with
      | done r => simp [step] at hs
      | running s a => exact .step h0 (fun x m he => hn s a x m rfl he) hs

theorem viaStep_deliver {q q' : List (Delivery P) × RunState P} {x : sp.Id} {m : Message sp}
    (h : viaStep q (.deliver x m) = .ok q') : ∃ s a, q'.1 = q.1 ++ [⟨s, a, x, m⟩] := by
  obtain ⟨l, st⟩ := q
  unfold viaStep at h
  split at h
  · cases h
  · rename_i st' out hs
    cases st with
    | done r => simp [step] at hs
    | running s a =>
      simp only [Except.ok.injEq] at h
      subst h
      exact ⟨s, a, rfl⟩

theorem viaStep_cancel {q q' : List (Delivery P) × RunState P} (h : viaStep q .cancel = .ok q') : q'.1 = q.1 := by
  obtain ⟨l, st⟩ := q
  unfold viaStep at h
  split at h
  · cases h
  · simp only [Except.ok.injEq] at h
    subst h
    rfl

/-- Run a script from the start of party 1's session among three parties. -/
def viaRun (echo : Bool) (last : U8) (l : List Act) : Except LErr (Session (demo echo last).wrap ×
    List (Delivery (demo echo last).wrap) × RunState (demo echo last).wrap) :=
  match demoSession echo last [1, 2, 3] 1 with
  | .error e => .error e
  | .ok s =>
    match mapE Act.event l with
    | .error e => .error e
    | .ok evs =>
      match foldE viaStep ([], (start s (0 : Nat)).1) evs with
      | .error e => .error e
      | .ok q => .ok (s, q)

theorem viaRun_ok {echo : Bool} {last : U8} {l : List Act} {s : Session (demo echo last).wrap}
    {q : List (Delivery (demo echo last).wrap) × RunState (demo echo last).wrap} (h : viaRun echo last l = .ok (s, q)) :
    demoSession echo last [1, 2, 3] 1 = .ok s ∧ ReachVia s q.1 q.2 := by
  unfold viaRun at h
  cases h1 : demoSession echo last [1, 2, 3] 1 with
  | error e => simp [h1] at h
  | ok s' =>
    cases h2 : mapE Act.event l with
    | error e => simp [h1, h2] at h
    | ok evs =>
      cases h3 : foldE viaStep ([], (start s' (0 : Nat)).1) evs with
      | error e => simp [h1, h2, h3] at h
      | ok q' =>
        simp only [h1, h2, h3, Except.ok.injEq, Prod.mk.injEq] at h
        obtain ⟨rfl, rfl⟩ := h
        refine ⟨rfl, ?_⟩
        have key : ∀ (evs : List (Event toy)) (p : List (Delivery (demo echo last).wrap) × RunState (demo echo last).wrap),
            ReachVia s' p.1 p.2 → foldE viaStep p evs = .ok q' → ReachVia s' q'.1 q'.2 := by
          intro evs
          induction evs with
          | nil =>
            intro p hp hf
            simp only [foldE, Except.ok.injEq] at hf
            exact hf ▸ hp
          | cons ev evs ih =>
            intro p hp hf
            simp only [foldE] at hf
            split at hf
            · rename_i p' hp'
              exact ih p' (viaStep_reach hp hp') hf
            · cases hf
        exact key evs _ (ReachVia.start (s₀ := s') (0 : Nat)) h3

/-- Whether all parts of the message are signed for the round it is for. -/
def deliverySigned {P : Proto toy} (d : Delivery P) : Bool :=
  partAuthentic d.sender [9] d.message.direct.metadata.roundId d.message.direct &&
    partAuthentic d.sender [9] d.message.direct.metadata.roundId d.message.echo &&
    partAuthentic d.sender [9] d.message.direct.metadata.roundId d.message.normal

/-- Party 2 sends a message the round refuses, party 3 a message for round 5, both signed; then the session is cancelled. -/
def twoBans : List Act :=
  [.msg ⟨2, 2, [9], RoundId.new 1, 1, some [67], none, some [7]⟩,
   .msg ⟨3, 3, [9], RoundId.new 5, 1, some [5], none, some [7]⟩, .cancel]

/-- The hypotheses of `C78_cause` and `C78_authenticated` can be met, with both kinds of conclusions. -/
example : ∃ (s₀ : Session (demo false 3).wrap) (l : List (Delivery (demo false 3).wrap)) (rep : Report (demo false 3).wrap),
    Session.new (sp := toy) (0 : Nat) [9] (1 : U8) (demoEntry false 3 (BSet.ofList [1, 2, 3])) = .ok s₀ ∧ MainIds (demo false 3).wrap ∧
      ReachVia s₀ l (.done (.ok rep)) ∧ (∀ d ∈ l, d.Signed [9]) ∧ OncePerRound (2 : U8) l ∧ OncePerRound (3 : U8) l ∧
      rep.unprovable.get? (2 : U8) = some (.user 0) ∧ rep.unprovable.get? (3 : U8) = some .unexpectedRound := by
  have h : onOk (viaRun false 3 twoBans) (fun r => r.2.2.isReport (fun rep =>
      (rep.unprovable.get? (2 : U8) == some (.user 0)) && (rep.unprovable.get? (3 : U8) == some .unexpectedRound)) &&
      r.2.1.all deliverySigned && decide (r.2.1.map (fun d => d.message.direct.metadata.roundId) = [RoundId.new 1, RoundId.new 5])) =
        true := by
    decide +kernel
  obtain ⟨⟨s₀, l, st⟩, h1, h2⟩ := onOk_iff.1 h
  obtain ⟨h3, h4⟩ := viaRun_ok h1
  simp only [Bool.and_eq_true, decide_eq_true_eq, List.all_eq_true] at h2
  obtain ⟨⟨h5, h6⟩, h7⟩ := h2
  obtain ⟨rep, rfl, h8⟩ := isReport_iff.1 h5
  simp only [Bool.and_eq_true, beq_iff_eq] at h8
  have hpw : (l.map (fun d => d.message.direct.metadata.roundId)).Pairwise (· ≠ ·) := by
    rw [h7]
    decide
  rw [List.pairwise_map] at hpw
  refine ⟨s₀, l, rep, h3, demo_mainIds _ _, h4, ?_, hpw.imp (fun g _ _ => g), hpw.imp (fun g _ _ => g), h8.1, h8.2⟩
  intro d hd
  have := h6 d hd
  unfold deliverySigned at this
  simp only [Bool.and_eq_true] at this
  exact ⟨_, partAuthentic_spec this.1.1, partAuthentic_spec this.1.2, partAuthentic_spec this.2⟩

/-- A message for which nobody has signed anything. -/
def unsigned : Message toy :=
  ⟨(1 : U8), ⟨[], ⟨[9], RoundId.new 1⟩, ⟨none⟩⟩, ⟨[], ⟨[9], RoundId.new 2⟩, ⟨none⟩⟩, ⟨[], ⟨[9], RoundId.new 1⟩, ⟨none⟩⟩⟩

/-- The hypotheses of `C78_anybody` and `C78_blamed` can be met: party 2, which has sent nothing, is blamed. -/
example : ∃ (s₀ : Session (demo false 3).wrap) (rep : Report (demo false 3).wrap) (d : Delivery (demo false 3).wrap),
    Session.new (sp := toy) (0 : Nat) [9] (1 : U8) (demoEntry false 3 (BSet.ofList [1, 2, 3])) = .ok s₀ ∧
      ReachVia s₀ [d] (.done (.ok rep)) ∧ d.message = unsigned ∧ Incoherent unsigned ∧ d.accum.canFinalize = .notYet ∧
      EchoWellFormed d.session ∧ ¬ HasError d.session d.accum (2 : U8) ∧ ¬ SigValid (sp := toy) (2 : U8) unsigned.direct ∧
      rep.unprovable.get? (2 : U8) = some .metadata := by
  have h : onOk (demoSession false 3 [1, 2, 3] 1) (fun s =>
      onOk (foldE viaStep ([], (start s (0 : Nat)).1) [Event.deliver (sp := toy) (2 : U8) unsigned, .cancel]) (fun r =>
        r.2.isReport (fun rep => rep.unprovable.get? (2 : U8) == some .metadata) &&
          match r.1 with
          | [d] => decide (d.accum.canFinalize = .notYet) &&
            !d.session.transcript.isBanned (2 : U8) && !d.accum.isBanned (2 : U8)
          | _ => false)) = true := by
    decide +kernel
  obtain ⟨s₀, h1, h2⟩ := onOk_iff.1 h
  obtain ⟨⟨l, st⟩, h3, h4⟩ := onOk_iff.1 h2
  have hr : ReachVia s₀ l st ∧ ∀ d, l = [d] → d.message = unsigned := by
    simp only [foldE] at h3
    split at h3
    · rename_i q1 hq1
      split at h3
      · rename_i q2 hq2
        simp only [Except.ok.injEq] at h3
        subst h3
        refine ⟨viaStep_reach (viaStep_reach (ReachVia.start (s₀ := s₀) (0 : Nat)) hq1) hq2, fun d hd => ?_⟩
        obtain ⟨s, a, he⟩ := viaStep_deliver hq1
        have hc := viaStep_cancel hq2
        simp only at hc hd
        rw [hd, he] at hc
        simp only [List.nil_append, List.cons.injEq, and_true] at hc
        rw [hc]
      · cases h3
    · cases h3
  obtain ⟨hr, hmsg⟩ := hr
  simp only [Bool.and_eq_true] at h4
  obtain ⟨h5, h6⟩ := h4
  obtain ⟨rep, rfl, h7⟩ := isReport_iff.1 h5
  split at h6
  · rename_i d
    simp only [Bool.and_eq_true, decide_eq_true_eq, Bool.not_eq_true'] at h6
    obtain ⟨⟨k2, k3⟩, k4⟩ := h6
    obtain ⟨hreach, -⟩ := hr.delivery (d := d) (by simp)
    obtain ⟨hp0, -, -, -, hm0⟩ := new_proper h1
    obtain ⟨trail, cached, rng', ml, hv, -⟩ := reach_running hreach
    refine ⟨s₀, rep, d, h1, hr, hmsg d rfl, .inl (by decide), k2, proper_wellFormed (demo_mainIds _ _) (visits_inv hp0 hm0 hv).proper,
      fun g => ?_, ?_, by simpa using h7⟩
    · have := hasError_iff.2 g
      rw [k3, k4] at this
      cases this
    · rintro ⟨dg, sig, g1, g2, g3⟩
      rw [show toy.deSig unsigned.direct.sig = none by decide +kernel] at g2
      cases g2
  · cases h6

end Manul
