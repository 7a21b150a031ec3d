import Verif.Lemmas.Run
import Verif.Lemmas.Scenario
import Verif.Spec.Order

/-!
# Reports, transcripts and transitions: C11, C12, C13, C16
-/

namespace Manul

variable {sp : SP} {P : Proto sp}

/-! ## C12 -/

/-- Everything recorded in the first transcript is in the second. -/
structure Transcript.Extends (t t' : Transcript sp) : Prop where
  echos : ∀ r v, t.echos.get? r = some v → t'.echos.get? r = some v
  normals : ∀ r v, t.normals.get? r = some v → t'.normals.get? r = some v
  directs : ∀ r v, t.directs.get? r = some v → t'.directs.get? r = some v
  provable : ∀ x v, t.provable.get? x = some v → t'.provable.get? x = some v
  unprovable : ∀ x v, t.unprovable.get? x = some v → t'.unprovable.get? x = some v
  missing : ∀ r v, t.missing.get? r = some v → t'.missing.get? r = some v

theorem get_insert_fresh {K V : Type} [LinearOrder K] {m : BMap K V} {k k' : K} {v w : V} (hf : m.contains k = false)
    (h : m.get? k' = some w) : (m.insert k v).get? k' = some w := by
  rw [BMap.get?_insert]
  split
  · rename_i he
    subst he
    rw [BMap.contains_eq_false.1 hf] at h
    simp at h
  · exact h

theorem get_or_fresh {V : Type} {x : sp.Id} {m new m' : BMap sp.Id V} (hf : new.contains x = true → m.contains x = false)
    (hm : m'.get? x = (new.get? x).or (m.get? x)) {v : V} (h : m.get? x = some v) : m'.get? x = some v := by
  rw [hm]
  cases hn : new.get? x with
  | none => simpa using h
  | some w =>
    have := hf (BMap.contains_iff.2 ⟨w, hn⟩)
    rw [BMap.contains_eq_false.1 this] at h
    simp at h

theorem Updated.extends {t t' : Transcript sp} {rid : RoundId} {me : sp.Id} {myEcho : SignedPart .echo} {a : Accum P}
    (h : Updated t rid me myEcho a t') : t.Extends t' := by
  refine ⟨?_, ?_, ?_, ?_, ?_, ?_⟩
  · intro r v hv; rw [h.echos]; exact get_insert_fresh h.freshE hv
  · intro r v hv; rw [h.normals]; exact get_insert_fresh h.freshN hv
  · intro r v hv; rw [h.directs]; exact get_insert_fresh h.freshD hv
  · intro x v hv; exact get_or_fresh (h.newP x) (h.provable x) hv
  · intro x v hv; exact get_or_fresh (h.newU x) (h.unprovable x) hv
  · intro r v hv
    rw [h.missing]
    split
    · exact hv
    · exact get_insert_fresh h.freshM hv

/-- C12: an update keeps everything recorded before and records the messages of the round as they are. -/
theorem C12_update_keeps {t t' : Transcript sp} {rid : RoundId} {me : sp.Id} {myEcho : SignedPart .echo}
    {echos : BMap sp.Id (SignedPart .echo)} {normals : BMap sp.Id (SignedPart .normal)}
    {directs : BMap sp.Id (SignedPart .direct)} {provable : BMap sp.Id (Evidence sp)} {unprovable : BMap sp.Id RErr}
    {missing : BSet sp.Id}
    (h : t.update rid me myEcho echos normals directs provable unprovable missing = .ok t') :
    t.Extends t' ∧ t'.echos.get? rid = some (echos.insert me myEcho) ∧ t'.normals.get? rid = some normals ∧
      t'.directs.get? rid = some directs ∧ (∀ x e, provable.get? x = some e → t'.provable.get? x = some e) ∧
      (∀ x e, unprovable.get? x = some e → t'.unprovable.get? x = some e) := by
  unfold Transcript.update at h
  split at h
  · simp at h
  · rename_i h1
    split at h
    · simp at h
    · rename_i h2
      split at h
      · simp at h
      · rename_i h3
        cases hp : Transcript.mergeErrors .transcriptProvable t.provable provable with
        | error e => simp [hp] at h
        | ok ap =>
          cases hu : Transcript.mergeErrors .transcriptUnprovable t.unprovable unprovable with
          | error e => simp [hp, hu] at h
          | ok au =>
            simp only [hp, hu] at h
            split at h
            · simp at h
            · rename_i h4
              simp only [Except.ok.injEq] at h
              subst h
              obtain ⟨p1, p2⟩ := mergeErrors_iff.1 hp
              obtain ⟨u1, u2⟩ := mergeErrors_iff.1 hu
              refine ⟨⟨fun r v hv => get_insert_fresh (by simpa using h1) hv, fun r v hv => get_insert_fresh (by simpa using h2) hv,
                fun r v hv => get_insert_fresh (by simpa using h3) hv, fun x v hv => get_or_fresh (p1 x) (p2 x) hv,
                fun x v hv => get_or_fresh (u1 x) (u2 x) hv, fun r v hv => ?_⟩, by simp, by simp, by simp, ?_, ?_⟩
              · simp only
                split
                · exact hv
                · exact get_insert_fresh (by simpa using h4) hv
              · intro x e he; rw [p2 x, he]; rfl
              · intro x e he; rw [u2 x, he]; rfl

/-- C12: an update for a round already recorded is refused. -/
theorem C12_refuses {t : Transcript sp} {rid : RoundId} {me : sp.Id} {myEcho : SignedPart .echo}
    {echos : BMap sp.Id (SignedPart .echo)} {normals : BMap sp.Id (SignedPart .normal)}
    {directs : BMap sp.Id (SignedPart .direct)} {provable : BMap sp.Id (Evidence sp)} {unprovable : BMap sp.Id RErr}
    {missing : BSet sp.Id}
    (hr : t.echos.contains rid = true ∨ t.normals.contains rid = true ∨ t.directs.contains rid = true ∨
      t.missing.contains rid = true) :
    ∃ e, t.update rid me myEcho echos normals directs provable unprovable missing = .error e := by
  cases h : t.update rid me myEcho echos normals directs provable unprovable missing with
  | error e => exact ⟨e, rfl⟩
  | ok t' =>
    exfalso
    unfold Transcript.update at h
    split at h
    · simp at h
    · split at h
      · simp at h
      · split at h
        · simp at h
        · split at h
          · simp at h
          · split at h
            · simp at h
            · split at h
              · simp at h
              · simp_all

/-- C12: in a run, the transcript of every later state extends the transcript of every earlier one. -/
theorem C12_run {s : Session P} {a : Accum P} {st : RunState P} (h : Steps (.running s a) st) :
    ∀ s' a', st = .running s' a' → s.transcript.Extends s'.transcript := by
  have refl : ∀ t : Transcript sp, t.Extends t := fun t =>
    ⟨fun _ _ h => h, fun _ _ h => h, fun _ _ h => h, fun _ _ h => h, fun _ _ h => h, fun _ _ h => h⟩
  induction h with
  | refl =>
    intro s' a' he
    simp only [RunState.running.injEq] at he
    obtain ⟨rfl, rfl⟩ := he
    exact refl _
  | @step st' st'' ev out _ hs ih =>
    intro s2 a2 he
    subst he
    cases st' with
    | done r => simp [step] at hs
    | running s1 a1 =>
      have h1 := ih s1 a1 rfl
      rcases step_running hs with ⟨rfl, -, y, m, -, hd⟩ | ⟨rng, cached, rng', -, hf, -⟩
      · exact h1
      · have h2 := (finalized_transcript hf).extends
        exact ⟨fun r v h => h2.echos r v (h1.echos r v h), fun r v h => h2.normals r v (h1.normals r v h),
          fun r v h => h2.directs r v (h1.directs r v h), fun r v h => h2.provable r v (h1.provable r v h),
          fun r v h => h2.unprovable r v (h1.unprovable r v h), fun r v h => h2.missing r v (h1.missing r v h)⟩

/-! ## C11 -/

/-- The transcript contains exactly what the rounds recorded. -/
structure Exact (rounds : List (Session P × Accum P)) (provable : BMap sp.Id (Evidence sp)) (unprovable : BMap sp.Id RErr)
    (missing : BMap RoundId (BSet sp.Id)) : Prop where
  provable : ∀ x e, provable.get? x = some e ↔ ∃ q ∈ rounds, q.2.provable.get? x = some e
  unprovable : ∀ x e, unprovable.get? x = some e ↔ ∃ q ∈ rounds, q.2.unprovable.get? x = some e
  missing : ∀ r m, missing.get? r = some m ↔ ∃ q ∈ rounds, q.1.transition.id = r ∧ q.2.notSent = m ∧ ∃ x, m.contains x = true

theorem exact_snoc {rounds : List (Session P × Accum P)} {s : Session P} {a : Accum P} {t' : Transcript sp}
    (h : Exact rounds s.transcript.provable s.transcript.unprovable s.transcript.missing)
    (hu : Updated s.transcript s.roundId s.me s.echo a t') :
    Exact (rounds ++ [(s, a)]) t'.provable t'.unprovable t'.missing := by
  have ext := hu.extends
  refine ⟨?_, ?_, ?_⟩
  · intro x e
    constructor
    · intro hx
      rw [hu.provable x] at hx
      cases ha : a.provable.get? x with
      | some e' =>
        rw [ha, Option.some_or] at hx
        exact ⟨(s, a), by simp, by rw [ha, hx]⟩
      | none =>
        rw [ha, Option.none_or] at hx
        obtain ⟨q, hq, hq'⟩ := (h.provable x e).1 hx
        exact ⟨q, by simp [hq], hq'⟩
    · rintro ⟨q, hq, hq'⟩
      rcases List.mem_append.1 hq with hq | hq
      · exact ext.provable x e ((h.provable x e).2 ⟨q, hq, hq'⟩)
      · simp only [List.mem_singleton] at hq
        subst hq
        rw [hu.provable x, hq']
        rfl
  · intro x e
    constructor
    · intro hx
      rw [hu.unprovable x] at hx
      cases ha : a.unprovable.get? x with
      | some e' =>
        rw [ha, Option.some_or] at hx
        exact ⟨(s, a), by simp, by rw [ha, hx]⟩
      | none =>
        rw [ha, Option.none_or] at hx
        obtain ⟨q, hq, hq'⟩ := (h.unprovable x e).1 hx
        exact ⟨q, by simp [hq], hq'⟩
    · rintro ⟨q, hq, hq'⟩
      rcases List.mem_append.1 hq with hq | hq
      · exact ext.unprovable x e ((h.unprovable x e).2 ⟨q, hq, hq'⟩)
      · simp only [List.mem_singleton] at hq
        subst hq
        rw [hu.unprovable x, hq']
        rfl
  · intro r m
    constructor
    · intro hx
      rw [hu.missing] at hx
      split at hx
      · obtain ⟨q, hq, hq'⟩ := (h.missing r m).1 hx
        exact ⟨q, by simp [hq], hq'⟩
      · rename_i hne
        rw [BMap.get?_insert] at hx
        split at hx
        · rename_i hr
          simp only [Option.some.injEq] at hx
          refine ⟨(s, a), by simp, hr.symm, hx, ?_⟩
          rw [← hx]
          exact BMap.isEmpty_eq_false.1 (by simpa using hne)
        · obtain ⟨q, hq, hq'⟩ := (h.missing r m).1 hx
          exact ⟨q, by simp [hq], hq'⟩
    · rintro ⟨q, hq, hr, hm, x, hx⟩
      rcases List.mem_append.1 hq with hq | hq
      · exact ext.missing r m ((h.missing r m).2 ⟨q, hq, hr, hm, x, hx⟩)
      · simp only [List.mem_singleton] at hq
        subst hq
        rw [hu.missing]
        have hne : a.notSent.isEmpty = false := BMap.isEmpty_eq_false.2 ⟨x, by simp only at hm; rw [hm]; exact hx⟩
        simp only at hm hr
        rw [hne, if_neg (by simp), BMap.get?_insert]
        simp [Session.roundId, hr, hm]

theorem visits_exact {s₀ s : Session P} {trail : List (Session P × Accum P)} {cached : List (VerifiedMessage sp)}
    (h0 : s₀.transcript = Transcript.new) (h : Visits s₀ trail s cached) :
    Exact trail s.transcript.provable s.transcript.unprovable s.transcript.missing := by
  induction h with
  | first =>
    rw [h0]
    constructor <;> simp [Transcript.new]
  | next hv hseq hy hf ih => exact exact_snoc ih (finalized_transcript hf)

theorem terminate_report {s : Session P} {a : Accum P} {r : Report P} (h : s.terminateDueToErrors a = .ok r) :
    ∃ t, Updated s.transcript s.roundId s.me s.echo a t ∧ r.provable = t.provable ∧ r.unprovable = t.unprovable ∧
      r.missing = t.missing := by
  unfold Session.terminateDueToErrors Session.terminateInner at h
  cases hu : s.updatedTranscript a with
  | error e => simp [hu] at h
  | ok t =>
    simp only [hu, Except.ok.injEq] at h
    subst h
    exact ⟨t, update_iff.1 hu, rfl, rfl, rfl⟩

/-- C11: the report of a run contains exactly the errors recorded in its rounds, each for the same party, and lists as missing, for
each round, exactly the parties that had not been heard. -/
theorem C11_report_exact {rng : sp.Rng} {sid : Bytes} {signer : sp.Signer} {ep : EntryPoint P} {s₀ s : Session P}
    {trail : List (Session P × Accum P)} {a : Accum P} {r : Report P} {k : EndKind P.Result}
    (h0 : Session.new rng sid signer ep = .ok s₀) (h : Ends s₀ trail s a r k) :
    Exact (trail ++ [(s, a)]) r.provable r.unprovable r.missing := by
  obtain ⟨-, -, -, ht, -⟩ := new_proper h0
  cases h with
  | result hin hy hf hi hres =>
    obtain ⟨cached, rng, l, hv, hseq⟩ := hin
    obtain ⟨t, hu, hfin⟩ := finalizeRound_ok hf
    cases hfin with
    | result _ _ => exact exact_snoc (visits_exact ht hv) hu
  | errors hin _ hterm =>
    obtain ⟨cached, rng, l, hv, hseq⟩ := hin
    obtain ⟨t, hu, e1, e2, e3⟩ := terminate_report hterm
    rw [e1, e2, e3]
    exact exact_snoc (visits_exact ht hv) hu
  | cancelled hin _ hterm =>
    obtain ⟨cached, rng, l, hv, hseq⟩ := hin
    obtain ⟨t, hu, e1, e2, e3⟩ := terminate_report hterm
    rw [e1, e2, e3]
    exact exact_snoc (visits_exact ht hv) hu

/-- C11: every report of the driver is the report of such a run. -/
theorem C11_every_report {rng : sp.Rng} {sid : Bytes} {signer : sp.Signer} {ep : EntryPoint P} {s₀ : Session P}
    {r : Report P} (h0 : Session.new rng sid signer ep = .ok s₀) (h : Reach s₀ (.done (.ok r))) :
    ∃ trail s a k, Ends s₀ trail s a r k ∧ Exact (trail ++ [(s, a)]) r.provable r.unprovable r.missing := by
  obtain ⟨trail, s, a, k, he⟩ := reach_done h
  exact ⟨trail, s, a, k, he, C11_report_exact h0 he⟩

/-- C11: the parties not heard are exactly the expected ones for which no processed message has been added. -/
theorem C11_not_heard {s : Session P} {a : Accum P} {ops : List (AccOp P)} (h : Hist s s.makeAccum ops a) (x : sp.Id) :
    a.notSent.contains x = true ↔
      s.comm.expecting.contains x = true ∧ ∀ op ∈ ops, AccOp.addsFor x op = false := by
  have key : ∀ (os : List (AccOp P)) (l l' : Loc P), (∀ op ∈ os, op.party = x) →
      foldE (fun l op => AccOp.applyLoc s l op) l os = .ok l' →
      (l'.notSent = true ↔ l.notSent = true ∧ ∀ op ∈ os, AccOp.addsFor x op = false) := by
    intro os
    induction os with
    | nil =>
      intro l l' _ h
      simp only [foldE, Except.ok.injEq] at h
      simp [h]
    | cons op os ih =>
      intro l l' ho h
      simp only [foldE] at h
      cases ha : AccOp.applyLoc s l op with
      | error e => simp [ha] at h
      | ok l1 =>
        simp only [ha] at h
        rw [ih l1 l' (fun o hm => ho o (List.mem_cons_of_mem _ hm)) h]
        have hop := ho op (List.mem_cons_self ..)
        rcases applyLoc_cases ha with ⟨m, o, he, hp⟩ | ⟨p, rfl, -, hs, hadd⟩ | ⟨p, rfl, -, rfl⟩
        · have hf : AccOp.addsFor x op = false := by rw [he]; rfl
          have hns : l1.notSent = l.notSent := by cases hp <;> rfl
          simp [hns, hf]
        · have hf : AccOp.addsFor x (.add p : AccOp P) = true := by simpa [AccOp.addsFor, AccOp.party] using hop
          have hns : l1.notSent = false := by cases hadd <;> rfl
          simp [hns, hf]
        · have hf : AccOp.addsFor x (.art p : AccOp P) = false := rfl
          simp [hf]
  have h1 := (hist_loc.1 h).2 x
  have h2 := key _ _ _ (by intro op ho; simpa using (List.mem_filter.1 ho).2) h1
  have h3 : (s.makeAccum.loc x).notSent = s.comm.expecting.contains x := rfl
  have h4 : (a.loc x).notSent = a.notSent.contains x := rfl
  rw [h3, h4] at h2
  rw [h2]
  constructor
  · rintro ⟨e, hh⟩
    refine ⟨e, fun op hop => ?_⟩
    by_cases hp : op.party = x
    · exact hh op (List.mem_filter.2 ⟨hop, by simpa using hp⟩)
    · cases op with
      | add p => simpa [AccOp.addsFor, AccOp.party] using hp
      | _ => rfl
  · rintro ⟨e, hh⟩
    exact ⟨e, fun op hop => hh op (List.mem_filter.1 hop).1⟩

/-- A run with an error in each of two rounds and a missing party at the end: the report has it all. -/
example : ∃ (s₀ : Session (demo false 3).wrap) (r : Report (demo false 3).wrap) (m : BSet U8),
    demoSession false 3 [1, 2, 3] 1 = .ok s₀ ∧ Reach s₀ (.done (.ok r)) ∧
      r.unprovable.get? (2 : U8) = some .alreadyProcessing ∧ r.unprovable.get? (3 : U8) = some (.user 0) ∧
      r.missing.get? (RoundId.new 2) = some m ∧ m.contains (2 : U8) = true ∧ m.contains (3 : U8) = false := by
  have h : onOk (demoRun false 3 [.msg ⟨2, 2, [9], RoundId.new 1, 1, some [5], none, some [7]⟩,
      .msg ⟨2, 2, [9], RoundId.new 1, 1, some [5], none, some [7]⟩,
      .msg ⟨3, 3, [9], RoundId.new 1, 1, some [5], none, some [7]⟩, .tick,
      .msg ⟨3, 3, [9], RoundId.new 2, 1, some [67], none, some [7]⟩, .cancel])
      (fun r => r.2.isReport (fun r => (r.unprovable.get? (2 : U8) == some .alreadyProcessing) &&
        (r.unprovable.get? (3 : U8) == some (.user 0)) &&
        (r.missing.get? (RoundId.new 2)).any (fun m => BMap.contains m (2 : U8) && !BMap.contains m (3 : U8)))) = true := by
    decide +kernel
  obtain ⟨s₀, st, h0, hr, hk⟩ := onOk_run h
  obtain ⟨r, rfl, q⟩ := isReport_iff.1 hk
  simp only [Bool.and_eq_true, beq_iff_eq] at q
  obtain ⟨⟨q1, q2⟩, q3⟩ := q
  cases hm : r.missing.get? (RoundId.new 2) with
  | none =>
    rw [hm] at q3
    exact (Bool.false_ne_true q3).elim
  | some m =>
    rw [hm] at q3
    have q4 : (BMap.contains m (2 : U8) && !BMap.contains m (3 : U8)) = true := q3
    rw [Bool.and_eq_true, Bool.not_eq_true'] at q4
    exact ⟨s₀, r, m, h0, hr, q1, q2, hm, q4.1, q4.2⟩

/-! ## C13 -/

/-- C13: the next round is the echo round of the current one, or a declared child of it (of its main round if it is an echo
round). -/
theorem C13_declared {s s' : Session P} (hp : Proper s) {rng : sp.Rng} {a : Accum P} {cached : List (VerifiedMessage sp)}
    (h : s.finalizeRound rng a = .ok (.anotherRound s' cached)) :
    (∃ r e, s.round = .main r ∧ s'.round = .echo e ∧ e.main = r ∧ s.transition.id.echo = .ok s'.transition.id) ∨
      (∃ r, s'.round = .main r ∧ s'.transition.id = (P.transition r).id ∧
        (P.transition (finalizing s a).1).children.contains s'.transition.id = true) := by
  obtain ⟨t, hu, hfin⟩ := finalizeRound_ok h
  cases hfin with
  | @toEcho info r _ ebs hi hr he hns =>
    left
    refine ⟨r, _, hr, hns.round, rfl, ?_⟩
    obtain ⟨htr, -⟩ := roundId_main hp hr
    have := hns.transition
    simp only [SRound.transition, EchoRd.transition] at this
    rw [htr]
    unfold TransitionInfo.echo at this
    cases hec : (P.transition r).id.echo with
    | error e => simp [hec, mapErr] at this
    | ok e =>
      simp only [hec, mapErr, Except.ok.injEq] at this
      rw [← this]
  | @toNext r _ hi hr hc hns hrid =>
    right
    refine ⟨r, hns.round, hrid, ?_⟩
    have hrid' : s'.transition.id = (P.transition r).id := hrid
    rw [hrid']
    have htr := hp.transition
    unfold finalizing
    cases hround : s.round with
    | main q =>
      rw [hround] at htr
      simp only [SRound.transition, Except.ok.injEq] at htr
      rw [← htr] at hc
      exact hc
    | echo e =>
      rw [hround] at htr
      simp only [SRound.transition, EchoRd.transition] at htr
      unfold TransitionInfo.echo at htr
      cases hec : (P.transition e.main).id.echo with
      | error err => simp [hec, mapErr] at htr
      | ok eid =>
        simp only [hec, mapErr, Except.ok.injEq] at htr
        rw [← htr] at hc
        exact hc

/-- C13: if the round's `finalize` returns a round that is not a declared child, a local error is returned. -/
theorem C13_undeclared_refused {s : Session P} {rng : sp.Rng} {a : Accum P} (hi : s.echoInfo = none) {r : P.Rd}
    (hf : s.round.finalize (sp.fork rng 0) a.payloads a.artifacts = .ok (.anotherRound r))
    (hc : s.transition.children.contains (P.transition r).id = false) : ∃ e, s.finalizeRound rng a = .error e := by
  unfold Session.finalizeRound Session.finalizeProper
  cases hu : s.updatedTranscript a with
  | error e => exact ⟨e, rfl⟩
  | ok t => exact ⟨.unexpectedNextRound, by simp [hi, hf, hc]⟩

/-- The id of the main round. -/
def baseId (r : RoundId) : RoundId := ⟨r.round, r.groups, false⟩

theorem base_main (hm : MainIds P) (r : P.Rd) : baseId (P.transition r).id = (P.transition r).id := by
  have := hm r
  unfold baseId
  rw [← this]

theorem echo_base {r e : RoundId} (h : r.echo = .ok e) : baseId e = baseId r ∧ e.isEcho = true ∧ r.isEcho = false := by
  unfold RoundId.echo at h
  split at h
  · simp at h
  · rename_i hr
    simp only [Except.ok.injEq] at h
    subst h
    exact ⟨rfl, rfl, by simpa using hr⟩

theorem finalizing_base (hm : MainIds P) {s : Session P} (hp : Proper s) (a : Accum P) :
    (P.transition (finalizing s a).1).id = baseId s.transition.id := by
  have htr := hp.transition
  unfold finalizing
  cases hround : s.round with
  | main q =>
    rw [hround] at htr
    simp only [SRound.transition, Except.ok.injEq] at htr
    simp only
    rw [← htr, base_main hm]
  | echo e =>
    rw [hround] at htr
    simp only [SRound.transition, EchoRd.transition] at htr
    unfold TransitionInfo.echo at htr
    cases hec : (P.transition e.main).id.echo with
    | error err => simp [hec, mapErr] at htr
    | ok eid =>
      simp only [hec, mapErr, Except.ok.injEq] at htr
      rw [← htr]
      simp only
      rw [(echo_base hec).1, base_main hm]

/-- Where the earlier rounds of a run are relative to the current one. -/
theorem visits_order (hm : MainIds P) {s₀ s : Session P} {trail : List (Session P × Accum P)}
    {cached : List (VerifiedMessage sp)} (hp : Proper s₀) (hmain : ∃ r, s₀.round = .main r) (h : Visits s₀ trail s cached) :
    (∀ q ∈ trail, Relation.TransGen (ChildOf P) (baseId q.1.transition.id) (baseId s.transition.id) ∨
      (baseId q.1.transition.id = baseId s.transition.id ∧ q.1.transition.id.isEcho = false ∧
        s.transition.id.isEcho = true)) := by
  induction h with
  | first => simp
  | @next trail s s' cached cached' rng rng' l a hv hseq hy hf ih =>
    have hps := (visits_inv hp hmain hv).proper
    have hstep : Relation.TransGen (ChildOf P) (baseId s.transition.id) (baseId s'.transition.id) ∨
        (baseId s.transition.id = baseId s'.transition.id ∧ s.transition.id.isEcho = false ∧
          s'.transition.id.isEcho = true) := by
      rcases C13_declared hps hf with ⟨r, e, hr, -, -, he⟩ | ⟨r, hr, hid, hc⟩
      · right
        obtain ⟨h1, h2, h3⟩ := echo_base he
        exact ⟨h1.symm, h3, h2⟩
      · left
        refine Relation.TransGen.single ?_
        rw [hid, base_main hm, ← finalizing_base hm hps a]
        rw [hid] at hc
        exact ⟨_, rfl, hc⟩
    intro q hq
    rcases List.mem_append.1 hq with hq | hq
    · rcases ih q hq with h1 | ⟨h1, h2, h3⟩
      · rcases hstep with h4 | ⟨h4, -, -⟩
        · exact Or.inl (h1.trans h4)
        · rw [h4] at h1
          exact Or.inl h1
      · rcases hstep with h4 | ⟨h4, h5, -⟩
        · rw [← h1] at h4
          exact Or.inl h4
        · rw [h3] at h5
          simp at h5
    · simp only [List.mem_singleton] at hq
      subst hq
      exact hstep

theorem order_ne {P : Proto sp} (hac : Acyclic P) {a b : RoundId}
    (h : Relation.TransGen (ChildOf P) (baseId a) (baseId b) ∨
      (baseId a = baseId b ∧ a.isEcho = false ∧ b.isEcho = true)) : a ≠ b := by
  rintro rfl
  rcases h with h | ⟨-, h1, h2⟩
  · exact hac _ h
  · simp [h1] at h2

/-- C13: with an acyclic child relation no round id occurs twice in a run. -/
theorem C13_no_repetition (hm : MainIds P) (hac : Acyclic P) {rng : sp.Rng} {sid : Bytes} {signer : sp.Signer}
    {ep : EntryPoint P} {s₀ s : Session P} {trail : List (Session P × Accum P)} {cached : List (VerifiedMessage sp)}
    (h0 : Session.new rng sid signer ep = .ok s₀) (h : Visits s₀ trail s cached) :
    (trailIds trail ++ [s.transition.id]).Nodup := by
  obtain ⟨hp, -, -, -, hmain⟩ := new_proper h0
  induction h with
  | first => simp [trailIds]
  | @next trail s s' cached cached' rng rng' l a hv hseq hy hf ih =>
    have hord := visits_order hm hp hmain (Visits.next hv hseq hy hf)
    have e : trailIds (trail ++ [(s, a)]) = trailIds trail ++ [s.transition.id] := by simp [trailIds]
    rw [e, List.nodup_append]
    refine ⟨ih, by simp, ?_⟩
    intro x hx y hy' hxy
    simp only [List.mem_singleton] at hy'
    subst hy'
    rw [← e] at hx
    unfold trailIds at hx
    obtain ⟨q, hq, rfl⟩ := List.mem_map.1 hx
    exact order_ne hac (hord q hq) hxy

/-- The rounds recorded in the transcript are those of the run. -/
theorem visits_recorded {s₀ s : Session P} {trail : List (Session P × Accum P)} {cached : List (VerifiedMessage sp)}
    (h0 : s₀.transcript = Transcript.new) (h : Visits s₀ trail s cached) (r : RoundId) :
    (s.transcript.echos.contains r = true → r ∈ trailIds trail) ∧
      (s.transcript.normals.contains r = true → r ∈ trailIds trail) ∧
      (s.transcript.directs.contains r = true → r ∈ trailIds trail) ∧
      (s.transcript.missing.contains r = true → r ∈ trailIds trail) := by
  induction h with
  | first => simp [h0, Transcript.new]
  | @next trail s s' cached cached' rng rng' l a hv hseq hy hf ih =>
    have hu := finalized_transcript hf
    obtain ⟨i1, i2, i3, i4⟩ := ih
    have e : trailIds (trail ++ [(s, a)]) = trailIds trail ++ [s.transition.id] := by simp [trailIds]
    rw [e]
    simp only [List.mem_append, List.mem_singleton]
    refine ⟨?_, ?_, ?_, ?_⟩
    · rw [hu.echos, BMap.contains_insert]
      intro h
      rcases Bool.or_eq_true _ _ ▸ h with h | h
      · exact Or.inr (of_decide_eq_true h)
      · exact Or.inl (i1 h)
    · rw [hu.normals, BMap.contains_insert]
      intro h
      rcases Bool.or_eq_true _ _ ▸ h with h | h
      · exact Or.inr (of_decide_eq_true h)
      · exact Or.inl (i2 h)
    · rw [hu.directs, BMap.contains_insert]
      intro h
      rcases Bool.or_eq_true _ _ ▸ h with h | h
      · exact Or.inr (of_decide_eq_true h)
      · exact Or.inl (i3 h)
    · rw [hu.missing]
      split
      · intro h; exact Or.inl (i4 h)
      · rw [BMap.contains_insert]
        intro h
        rcases Bool.or_eq_true _ _ ▸ h with h | h
        · exact Or.inr (of_decide_eq_true h)
        · exact Or.inl (i4 h)

/-- C13: with an acyclic child relation the transcript never refuses an update because of a repeated round: an update in a run can
only fail because a party gets a second error. -/
theorem C13_never_refused (hm : MainIds P) (hac : Acyclic P) {rng : sp.Rng} {sid : Bytes} {signer : sp.Signer}
    {ep : EntryPoint P} {s₀ s : Session P} {a : Accum P} (h0 : Session.new rng sid signer ep = .ok s₀)
    (h : Reach s₀ (.running s a)) {e : LErr} (he : s.updatedTranscript a = .error e) :
    e = .transcriptProvable ∨ e = .transcriptUnprovable := by
  obtain ⟨trail, cached, rng', l, hv, hseq⟩ := reach_running h
  obtain ⟨-, -, -, ht, -⟩ := new_proper h0
  have hnd := C13_no_repetition hm hac h0 hv
  have hfresh : s.transition.id ∉ trailIds trail := by
    rw [List.nodup_append] at hnd
    intro hc
    exact hnd.2.2 _ hc _ (by simp) rfl
  obtain ⟨r1, r2, r3, r4⟩ := visits_recorded ht hv s.transition.id
  have f1 : s.transcript.echos.contains s.roundId = false := by
    by_contra hc; exact hfresh (r1 (by simpa [Session.roundId] using hc))
  have f2 : s.transcript.normals.contains s.roundId = false := by
    by_contra hc; exact hfresh (r2 (by simpa [Session.roundId] using hc))
  have f3 : s.transcript.directs.contains s.roundId = false := by
    by_contra hc; exact hfresh (r3 (by simpa [Session.roundId] using hc))
  have f4 : s.transcript.missing.contains s.roundId = false := by
    by_contra hc; exact hfresh (r4 (by simpa [Session.roundId] using hc))
  have merr : ∀ {E : Type} {err : LErr} {new : List (sp.Id × E)} {m : BMap sp.Id E} {e : LErr},
      foldE (fun m e => if m.contains e.1 then Except.error err else .ok (m.insert e.1 e.2)) m new = .error e → e = err := by
    intro E err new
    induction new with
    | nil => intro m e h; simp [foldE] at h
    | cons x l ih =>
      intro m e h
      simp only [foldE] at h
      by_cases hc : m.contains x.1 = true
      · simp only [hc, if_true, Except.error.injEq] at h
        exact h.symm
      · have hc' : m.contains x.1 = false := by simpa using hc
        simp only [hc', Bool.false_eq_true, if_false] at h
        exact ih h
  unfold Session.updatedTranscript Transcript.update at he
  simp only [f1, f2, f3, f4, Bool.false_eq_true, if_false] at he
  split at he
  · rename_i e' h1
    simp only [Except.error.injEq] at he
    subst he
    exact Or.inl (merr h1)
  · split at he
    · rename_i e' h1
      simp only [Except.error.injEq] at he
      subst he
      exact Or.inr (merr h1)
    · simp at he

theorem demo_child {echo : Bool} {last : U8} {a b : RoundId} (h : ChildOf (demo echo last).wrap a b) :
    a.round.val < b.round.val := by
  obtain ⟨r, h1, h2⟩ := h
  change ((demo echo last).transition r).id = a at h1
  change ((demo echo last).transition r).children.contains b = true at h2
  subst h1
  simp only [demo] at h2 ⊢
  by_cases hl : r.n = last
  · simp [hl, TransitionInfo.newLinearTerminating] at h2
  · simp only [hl, if_false] at h2 ⊢
    unfold TransitionInfo.newLinear at h2 ⊢
    by_cases hn : r.n.val = 255
    · simp [hn, TransitionInfo.newLinearTerminating] at h2
    · simp only [hn, if_false] at h2 ⊢
      have hb : b = RoundId.new (r.n + 1) := by simpa [BSet.contains_ofList] using h2
      subst hb
      simp only [RoundId.new]
      have : (r.n + 1).val = r.n.val + 1 := by
        rw [Fin.val_add]
        have := r.n.isLt
        simp only [Fin.val_one]
        omega
      omega

/-- The example protocol has the hypotheses of the two theorems, and a run of it goes through an echo round into the second
round. -/
example : MainIds (demo true 3).wrap ∧ Acyclic (demo true 3).wrap ∧
    ∃ (s₀ s : Session (demo true 3).wrap) (a : Accum (demo true 3).wrap),
      demoSession true 3 [1, 2, 3] 1 = .ok s₀ ∧ Reach s₀ (.running s a) ∧ s.transition.id = RoundId.new 2 := by
  refine ⟨?_, ?_, ?_⟩
  · intro r
    change ((demo true 3).transition r).id.isEcho = false
    simp only [demo]
    split
    · rfl
    · unfold TransitionInfo.newLinear
      split
      · rename_i h
        split at h
        · simp at h
        · simp only [Except.ok.injEq] at h
          rw [← h]
          rfl
      · rfl
  · intro a h
    have : a.round.val < a.round.val := by
      have key : ∀ b, Relation.TransGen (ChildOf (demo true 3).wrap) a b → a.round.val < b.round.val := by
        intro b hb
        induction hb with
        | single h => exact demo_child h
        | tail _ h ih => exact lt_trans ih (demo_child h)
      exact key a h
    omega
  · have h : onOk (demoRun true 3 [.msg ⟨2, 2, [9], RoundId.new 1, 1, some [5], some [2], some [7]⟩,
        .msg ⟨3, 3, [9], RoundId.new 1, 1, some [5], some [3], some [7]⟩, .tick,
        .msg ⟨2, 2, [9], ⟨1, [], true⟩, 1, none, none, some (demoPack (RoundId.new 1) [(1, [1]), (3, [3])])⟩,
        .msg ⟨3, 3, [9], ⟨1, [], true⟩, 1, none, none, some (demoPack (RoundId.new 1) [(1, [1]), (2, [2])])⟩, .tick])
        (fun r => r.2.isRunning (fun s _ => s.transition.id == RoundId.new 2)) = true := by decide +kernel
    obtain ⟨s₀, st, h0, hr, hk⟩ := onOk_run h
    obtain ⟨s, a, rfl, q⟩ := isRunning_iff.1 hk
    exact ⟨s₀, s, a, h0, hr, by simpa using q⟩

/-! ## C16 -/

/-- A cached message stays cached. -/
theorem cached_hist {s : Session P} {a b : Accum P} {ops : List (AccOp P)} (h : Hist s a ops b) {x : sp.Id} {r : RoundId}
    {vm : VerifiedMessage sp} (hx : ∃ m, a.cached.get? x = some m ∧ m.get? r = some vm) :
    ∃ m, b.cached.get? x = some m ∧ m.get? r = some vm := by
  refine hist_inv (I := fun l => ∃ m, l.cached = some m ∧ m.get? r = some vm) ?_ h x hx
  rintro l op l' ⟨m, hm, hr⟩ ha
  rcases applyLoc_cases ha with ⟨m', o, -, hp⟩ | ⟨p, -, -, -, hadd⟩ | ⟨p, -, -, rfl⟩
  · cases hp with
    | ignored _ => exact ⟨m, hm, hr⟩
    | refused _ _ => exact ⟨m, hm, hr⟩
    | process _ _ _ _ _ => exact ⟨m, hm, hr⟩
    | keep _ _ hfree _ _ _ _ =>
      rw [hm, Option.getD_some] at hfree
      exact ⟨_, rfl, by rw [hm, Option.getD_some]; exact get_insert_fresh hfree hr⟩
  · cases hadd <;> exact ⟨m, hm, hr⟩
  · exact ⟨m, hm, hr⟩

/-- Cached messages are filed under their sender and round. -/
theorem cached_key {s : Session P} {a : Accum P} (h : AccReach s a) {x : sp.Id} {m : BMap RoundId (VerifiedMessage sp)}
    (hx : a.cached.get? x = some m) {r : RoundId} {vm : VerifiedMessage sp} (hr : m.get? r = some vm) :
    vm.sender = x ∧ vm.metadata.roundId = r := by
  obtain ⟨ops, h⟩ := h
  have := hist_inv' (x := x) (I := fun l : Loc P => ∀ m, l.cached = some m → ∀ r vm, m.get? r = some vm →
    vm.sender = x ∧ vm.metadata.roundId = r) ?_ h ?_
  · exact this m hx r vm hr
  · intro l op l' hop hl ha
    rcases applyLoc_cases ha with ⟨m', o, -, hp⟩ | ⟨p, -, -, -, hadd⟩ | ⟨p, -, -, rfl⟩
    · cases hp with
      | ignored _ => exact hl
      | refused _ _ => exact hl
      | process _ _ _ _ _ => exact hl
      | keep _ _ hfree hvm _ _ _ =>
        intro m hm r vm hr
        simp only [Option.some.injEq] at hm
        subst hm
        rw [BMap.get?_insert] at hr
        split at hr
        · rename_i he
          simp only [Option.some.injEq] at hr
          subst hr
          refine ⟨?_, he.symm⟩
          rw [hvm]
          exact hop
        · cases hc : l.cached with
          | none => simp [hc] at hr
          | some m0 =>
            rw [hc, Option.getD_some] at hr
            exact hl m0 hc r vm hr
    · cases hadd <;> exact hl
    · exact hl
  · intro m hm
    simp [Accum.loc, Session.makeAccum, Accum.new] at hm

/-- C16: the messages with which the next round is entered.  For a main round these are exactly the messages kept for it whose
senders have no recorded error, at most one per sender. -/
theorem C16_exact_partial {s s' : Session P} {a : Accum P} (ha : AccReach s a) {rng : sp.Rng}
    {kept : List (VerifiedMessage sp)} (h : s.finalizeRound rng a = .ok (.anotherRound s' kept)) :
    (kept.map (fun vm => vm.sender)).Nodup ∧ (∀ vm ∈ kept, vm.metadata.roundId = s'.transition.id) ∧
      ∀ vm, vm ∈ kept ↔ (∃ m, a.cached.get? vm.sender = some m ∧ m.get? s'.transition.id = some vm) ∧
        ((∃ r, s'.round = .main r) → s'.transcript.isBanned vm.sender = false) := by
  have hkey : ∀ x m, a.cached.get? x = some m → ∀ r vm, m.get? r = some vm → vm.sender = x :=
    fun x m hx r vm hr => (cached_key ha hx hr).1
  have hmem : ∀ rid vm, vm ∈ Accum.filterMessages a.cached rid ↔
      ∃ m, a.cached.get? vm.sender = some m ∧ m.get? rid = some vm := by
    intro rid vm
    rw [mem_filterMessages]
    constructor
    · rintro ⟨x, m, hx, hm⟩
      have := hkey x m hx rid vm hm
      subst this
      exact ⟨m, hx, hm⟩
    · rintro ⟨m, hx, hm⟩
      exact ⟨_, m, hx, hm⟩
  have hrid : ∀ rid, ∀ vm ∈ Accum.filterMessages a.cached rid, vm.metadata.roundId = rid := by
    intro rid vm hvm
    obtain ⟨m, hx, hm⟩ := (hmem rid vm).1 hvm
    exact (cached_key ha hx hm).2
  obtain ⟨t, hu, hf⟩ := finalizeRound_ok h
  cases hf with
  | toEcho _ _ _ hns =>
    refine ⟨filterMessages_nodup hkey, hrid _, ?_⟩
    intro vm
    rw [hmem]
    constructor
    · intro hm
      refine ⟨hm, ?_⟩
      rintro ⟨r, hr⟩
      rw [hns.round] at hr
      simp at hr
    · exact fun hm => hm.1
  | @toNext r _ _ _ _ hns hid =>
    have hid' : s'.transition.id = (P.transition r).id := hid
    rw [hid']
    refine ⟨?_, fun vm hvm => hrid _ vm (List.mem_filter.1 hvm).1, ?_⟩
    · exact (filterMessages_nodup hkey).sublist (List.Sublist.map _ List.filter_sublist)
    · intro vm
      rw [List.mem_filter, hmem, hns.transcript]
      constructor
      · rintro ⟨hm, hb⟩
        exact ⟨hm, fun _ => by simpa using hb⟩
      · rintro ⟨hm, hb⟩
        exact ⟨hm, by simpa using hb ⟨r, hns.round⟩⟩

theorem filter_single {α κ : Type} [DecidableEq κ] {key : α → κ} {l : List α} (hl : (l.map key).Nodup) {v : α} (hv : v ∈ l) :
    l.filter (fun w => decide (key w = key v)) = [v] := by
  induction l with
  | nil => simp at hv
  | cons w l ih =>
    simp only [List.map_cons, List.nodup_cons] at hl
    have hnone : ∀ u, u ∉ l.map key → l.filter (fun w => decide (key w = u)) = [] := by
      intro u hu
      rw [List.filter_eq_nil_iff]
      intro y hy he
      exact hu (List.mem_map.2 ⟨y, hy, by simpa using he⟩)
    rcases List.mem_cons.1 hv with rfl | hv
    · simp [hnone _ hl.1]
    · have hne : key w ≠ key v := by
        intro he
        exact hl.1 (List.mem_map.2 ⟨v, hv, he.symm⟩)
      simp [hne, ih hl.2 hv]

/-- C16: a message answered `Cached` is, whatever happens in the rest of the round, handed out exactly once when the session goes
over to the round it was sent for, unless its sender has a recorded error. -/
theorem C16_returned_partial {s s' : Session P} {a₀ a₁ a : Accum P} {x : sp.Id} {m : Message sp} {ops : List (AccOp P)}
    {rng : sp.Rng} {kept : List (VerifiedMessage sp)} (h0 : AccReach s a₀) (hp : s.preprocess a₀ x m = .ok (a₁, .cached))
    (hh : Hist s a₁ ops a) (h : s.finalizeRound rng a = .ok (.anotherRound s' kept))
    (hid : s'.transition.id = m.direct.metadata.roundId) (hb : s'.transcript.isBanned x = false) :
    kept.filter (fun vm => decide (vm.sender = x)) = [verifiedOf x m] := by
  have h1 : ∃ e, a₁.cached.get? x = some e ∧ e.get? m.direct.metadata.roundId = some (verifiedOf x m) := by
    rw [preprocess_loc] at hp
    cases hl : Loc.pre s x m (a₀.loc x) with
    | error e => simp [hl, liftLoc₂] at hp
    | ok r =>
      obtain ⟨l', o⟩ := r
      simp only [hl, liftLoc₂, Except.ok.injEq, Prod.mk.injEq] at hp
      obtain ⟨rfl, rfl⟩ := hp
      have hc : ((a₀.setLoc x l').loc x).cached = (a₀.setLoc x l').cached.get? x := rfl
      rw [← hc, Accum.loc_setLoc_same]
      cases pre_ok hl with
      | keep _ _ _ hvm _ _ _ =>
        subst hvm
        exact ⟨_, rfl, by simp [verifiedOf]⟩
  have hr1 : AccReach s a := by
    obtain ⟨os, ho⟩ := h0
    have : Hist s a₀ [.pre x m] a₁ := by simp [Hist, foldE, AccOp.apply, hp]
    exact ⟨_, hist_append (hist_append ho this) hh⟩
  obtain ⟨hnd, -, hmem⟩ := C16_exact_partial hr1 h
  have hin : verifiedOf x m ∈ kept := by
    rw [hmem]
    refine ⟨?_, fun _ => hb⟩
    rw [hid]
    exact cached_hist hh h1
  exact filter_single (key := fun vm : VerifiedMessage sp => vm.sender) hnd hin

/-- Party 2's first message, then its message for the second round, while the first round is still open. -/
def earlyTwo (e : Option Bytes) : List Act :=
  [.msg ⟨2, 2, [9], RoundId.new 1, 1, some [5], e, some [7]⟩,
    .msg ⟨2, 2, [9], RoundId.new 2, 1, some [6], e, some [7]⟩]

/-- Without echo rounds the second message is applied in the second round. -/
example : ∃ (s₀ s : Session (demo false 3).wrap) (a : Accum (demo false 3).wrap),
    demoSession false 3 [1, 2, 3] 1 = .ok s₀ ∧ Reach s₀ (.running s a) ∧ s.transition.id = RoundId.new 2 ∧
      a.payloads.get? (2 : U8) = some (some (13 : Nat)) := by
  have h : onOk (demoRun false 3 (earlyTwo none ++
      [.msg ⟨3, 3, [9], RoundId.new 1, 1, some [5], none, some [7]⟩, .tick]))
      (fun r => r.2.isRunning (fun s a => (s.transition.id == RoundId.new 2) &&
        (payloadOf a 2 == some (some 13)))) = true := by decide +kernel
  obtain ⟨s₀, st, h0, hr, hk⟩ := onOk_run h
  obtain ⟨s, a, rfl, q⟩ := isRunning_iff.1 hk
  simp only [Bool.and_eq_true, beq_iff_eq] at q
  exact ⟨s₀, s, a, h0, hr, q.1, q.2⟩

/-- C16 fails across an echo round: a message for the second round, kept while the first round was open, is dropped when the echo
round of the first round is entered; in the second round its sender, who has no recorded error, is waited for. -/
theorem C16_dropped_violation :
    ∃ (s₀ s s' : Session (demo true 3).wrap) (a a' : Accum (demo true 3).wrap),
      demoSession true 3 [1, 2, 3] 1 = .ok s₀ ∧ Reach s₀ (.running s a) ∧ IsCached a (2 : U8) (RoundId.new 2) ∧
        Steps (.running s a) (.running s' a') ∧ s'.transition.id = RoundId.new 2 ∧
        s'.transcript.isBanned (2 : U8) = false ∧ a'.notSent.contains (2 : U8) = true := by
  have h : onOk (demoRun true 3 (earlyTwo (some [2])))
      (fun r => r.2.isRunning (fun s a => (a.isCached (2 : U8) (RoundId.new 2)) &&
        onOk (mapE Act.event [.msg ⟨3, 3, [9], RoundId.new 1, 1, some [5], some [3], some [7]⟩, .tick,
          .msg ⟨2, 2, [9], ⟨1, [], true⟩, 1, none, none, some (demoPack (RoundId.new 1) [(1, [1]), (3, [3])])⟩,
          .msg ⟨3, 3, [9], ⟨1, [], true⟩, 1, none, none, some (demoPack (RoundId.new 1) [(1, [1]), (2, [2])])⟩, .tick])
          (fun evs => onOk (runEvents (.running s a) evs) (fun st => st.isRunning (fun s' a' =>
            (s'.transition.id == RoundId.new 2) && !s'.transcript.isBanned (2 : U8) && a'.notSent.contains (2 : U8)))))) =
      true := by decide +kernel
  obtain ⟨s₀, st, h0, hr, hk⟩ := onOk_run h
  obtain ⟨s, a, rfl, q⟩ := isRunning_iff.1 hk
  simp only [Bool.and_eq_true] at q
  obtain ⟨q1, q2⟩ := q
  obtain ⟨evs, -, q3⟩ := onOk_iff.1 q2
  obtain ⟨st', q4, q5⟩ := onOk_iff.1 q3
  obtain ⟨s', a', rfl, q6⟩ := isRunning_iff.1 q5
  simp only [Bool.and_eq_true, beq_iff_eq, Bool.not_eq_true'] at q6
  obtain ⟨⟨q7, q8⟩, q9⟩ := q6
  refine ⟨s₀, s, s', a, a', h0, hr, ?_, runEvents_steps q4, q7, q8, q9⟩
  unfold Accum.isCached at q1
  cases hc : a.cached.get? (2 : U8) with
  | none =>
    rw [hc] at q1
    exact (Bool.false_ne_true q1).elim
  | some e =>
    rw [hc] at q1
    obtain ⟨v, hv⟩ := BMap.contains_iff.1 q1
    exact ⟨e, v, hc, hv⟩

/-- C16 fails for echo rounds: a message of a banned sender is handed out on entering the echo round. -/
theorem C16_banned_violation :
    ∃ (s₀ s s' : Session (demo true 3).wrap) (a : Accum (demo true 3).wrap) (rng : Nat) (kept : List (VerifiedMessage toy)),
      demoSession true 3 [1, 2, 3] 1 = .ok s₀ ∧ Reach s₀ (.running s a) ∧ a.canFinalize = .yes ∧
        s.finalizeRound rng a = .ok (.anotherRound s' kept) ∧ s'.transcript.isBanned (2 : U8) = true ∧
        ∃ vm ∈ kept, vm.sender = (2 : U8) := by
  have h : onOk (demoRun true 3 [.msg ⟨2, 2, [9], RoundId.new 1, 1, some [5], some [2], some [7]⟩,
      .msg ⟨2, 2, [9], ⟨1, [], true⟩, 1, none, none, some (demoPack (RoundId.new 1) [(1, [1]), (3, [3])])⟩,
      .msg ⟨2, 2, [9], RoundId.new 1, 1, some [5], some [2], some [7]⟩,
      .msg ⟨3, 3, [9], RoundId.new 1, 1, some [5], some [3], some [7]⟩])
      (fun r => r.2.isRunning (fun s a => decide (a.canFinalize = .yes) && onOk (s.finalizeRound (0 : Nat) a) (fun o =>
        match o with
        | .anotherRound s' kept => s'.transcript.isBanned (2 : U8) && kept.any (fun vm => senderOf vm == 2)
        | .finished _ => false))) = true := by decide +kernel
  obtain ⟨s₀, st, h0, hr, hk⟩ := onOk_run h
  obtain ⟨s, a, rfl, q⟩ := isRunning_iff.1 hk
  simp only [Bool.and_eq_true] at q
  obtain ⟨q1, q2⟩ := q
  obtain ⟨o, q3, q4⟩ := onOk_iff.1 q2
  cases o with
  | finished r => simp at q4
  | anotherRound s' kept =>
    simp only [Bool.and_eq_true] at q4
    obtain ⟨vm, hvm, hs⟩ := List.any_eq_true.1 q4.2
    exact ⟨s₀, s, s', a, 0, kept, h0, hr, of_decide_eq_true q1, q3, q4.1, vm, hvm, (beq_iff_eq (α := U8)).1 hs⟩

end Manul
