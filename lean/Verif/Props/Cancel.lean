import Verif.Spec.Cancel
import Verif.Props.Run

/-!
# Properties: what a cancelled round of the parallel driver loses

C43.  The statement fails for `par_run_session` (`C43_violation`); here the parties wrongly reported as missing are determined
exactly.
-/

namespace Manul

variable {sp : SP} {P : Proto sp}

/-- The results of a party that have been added: none or one. -/
structure Balance (s : Session P) (cached : List (VerifiedMessage sp)) (st : ParSt P) (x : sp.Id) : Prop where
  expected : (st.accum.loc x).notSent = true → s.comm.expecting.contains x = true
  balance : countFrom x st.tasks +
      (if (st.accum.loc x).notSent = false ∧ s.comm.expecting.contains x = true then 1 else 0) =
    countFrom x cached + if (st.accum.loc x).processing = true then 1 else 0

theorem countFrom_append (x : sp.Id) (l l' : List (VerifiedMessage sp)) :
    countFrom x (l ++ l') = countFrom x l + countFrom x l' := by
  simp [countFrom]

theorem countFrom_erase (x : sp.Id) {l : List (VerifiedMessage sp)} {i : Nat} {vm : VerifiedMessage sp} (h : l[i]? = some vm) :
    countFrom x (l.eraseIdx i) + (if vm.sender = x then 1 else 0) = countFrom x l := by
  induction l generalizing i with
  | nil => simp at h
  | cons y l ih =>
    cases i with
    | zero =>
      simp only [List.getElem?_cons_zero, Option.some.injEq] at h
      subst h
      simp only [List.eraseIdx_cons_zero, countFrom, List.filter_cons]
      by_cases hx : y.sender = x <;> simp [hx]
    | succ i =>
      simp only [List.getElem?_cons_succ] at h
      have := ih h
      simp only [List.eraseIdx_cons_succ, countFrom, List.filter_cons] at this ⊢
      by_cases hx : y.sender = x <;> simp [hx] <;> omega

theorem balance_begin (s : Session P) (rng : sp.Rng) (cached : List (VerifiedMessage sp)) (x : sp.Id) :
    Balance s cached (ParSt.begin s rng cached) x := by
  constructor
  · intro h
    exact h
  · have h1 : ((ParSt.begin s rng cached).accum.loc x).notSent = s.comm.expecting.contains x := rfl
    have h2 : ((ParSt.begin s rng cached).accum.loc x).processing = false := by
      simp [ParSt.begin, Session.makeAccum, Accum.new, Accum.loc]
    rw [h1, h2]
    cases s.comm.expecting.contains x <;> simp [ParSt.begin]

theorem balance_step {s : Session P} {cached : List (VerifiedMessage sp)} {st st' : ParSt P} {op : ParOp sp}
    (hb : ∀ x, Balance s cached st x) (h : parOp s st op = .ok st') (y : sp.Id) : Balance s cached st' y := by
  obtain ⟨he, hc⟩ := hb y
  cases op with
  | deliver x m =>
    simp only [parOp] at h
    rw [preprocess_loc] at h
    cases hp : Loc.pre s x m (st.accum.loc x) with
    | error e => simp [hp, liftLoc₂] at h
    | ok r =>
      obtain ⟨l', o⟩ := r
      simp only [hp, liftLoc₂] at h
      have same : ∀ l' : Loc P, l'.notSent = (st.accum.loc x).notSent → l'.processing = (st.accum.loc x).processing →
          Balance s cached { st with accum := st.accum.setLoc x l' } y := by
        intro l' h1 h2
        by_cases hy : y = x
        · subst hy
          constructor
          · simpa [h1] using he
          · simpa [h1, h2] using hc
        · constructor
          · rw [Accum.loc_setLoc_other _ hy]
            exact he
          · rw [Accum.loc_setLoc_other _ hy]
            exact hc
      cases pre_ok hp with
      | ignored _ =>
        simp only [PreOutcome.ok?, Except.ok.injEq] at h
        subst h
        exact same _ rfl rfl
      | refused _ _ =>
        simp only [PreOutcome.ok?, Except.ok.injEq] at h
        subst h
        exact same _ rfl rfl
      | keep _ _ _ _ _ _ _ =>
        simp only [PreOutcome.ok?, Except.ok.injEq] at h
        subst h
        exact same _ rfl rfl
      | @process vm _ _ hpr hvm _ =>
        simp only [PreOutcome.ok?, Except.ok.injEq] at h
        subst h
        have hs : vm.sender = x := by rw [hvm]; rfl
        by_cases hy : y = x
        · subst hy
          constructor
          · simpa using he
          · simp only [Accum.loc_setLoc_same, countFrom_append, if_true]
            rw [hpr] at hc
            simp only [Bool.false_eq_true, if_false, Nat.add_zero] at hc
            have h1 : countFrom y [vm] = 1 := by simp [countFrom, hs]
            rw [h1]
            omega
        · constructor
          · simp only [Accum.loc_setLoc_other _ hy]
            exact he
          · simp only [Accum.loc_setLoc_other _ hy, countFrom_append]
            have h1 : countFrom y [vm] = 0 := by simp [countFrom, hs, Ne.symm hy]
            rw [h1]
            exact hc
  | complete i =>
    simp only [parOp] at h
    cases ht : st.tasks[i]? with
    | none =>
      simp only [ht, Except.ok.injEq] at h
      subst h
      exact ⟨he, hc⟩
    | some vm =>
      simp only [ht] at h
      unfold Session.addProcessed at h
      rw [addProcessed_loc] at h
      have hsd : (s.process vm).message.sender = vm.sender := rfl
      rw [hsd] at h
      cases hadd : Loc.add s.transcript (s.process vm) (st.accum.loc vm.sender) with
      | error e => simp [hadd, liftLoc] at h
      | ok l' =>
        simp only [hadd, liftLoc, Except.ok.injEq] at h
        subst h
        obtain ⟨-, hn, hl'⟩ := add_ok hadd
        have h1 : l'.notSent = false := by cases hl' <;> rfl
        have h2 : l'.processing = (st.accum.loc vm.sender).processing := by cases hl' <;> rfl
        have h3 := countFrom_erase y ht
        by_cases hy : y = vm.sender
        · subst hy
          constructor
          · simp [h1]
          · have hex := he hn
            simp only [Accum.loc_setLoc_same, h1, h2, hex, and_self, if_true] at h3 ⊢
            simp only [hn, Bool.true_eq_false, false_and, if_false] at hc
            omega
        · rw [if_neg (Ne.symm hy)] at h3
          constructor
          · simp only [Accum.loc_setLoc_other _ hy]
            exact he
          · simp only [Accum.loc_setLoc_other _ hy]
            omega
  | send i =>
    simp only [parOp] at h
    split at h
    · rename_i d m art ho
      cases ha : st.accum.addArtifact art with
      | error e => simp [ha] at h
      | ok a =>
        simp only [ha, Except.ok.injEq] at h
        subst h
        unfold Accum.addArtifact at ha
        split at ha
        · simp at ha
        · simp only [Except.ok.injEq] at ha
          subst ha
          exact ⟨he, hc⟩
    · simp only [Except.ok.injEq] at h
      subst h
      exact ⟨he, hc⟩

theorem balance_run {s : Session P} {rng : sp.Rng} {cached : List (VerifiedMessage sp)} {ops : List (ParOp sp)} {st : ParSt P}
    (h : ParRound s rng cached ops st) (x : sp.Id) : Balance s cached st x := by
  have key : ∀ (ops : List (ParOp sp)) (st st' : ParSt P), (∀ x, Balance s cached st x) →
      foldE (parOp s) st ops = .ok st' → ∀ x, Balance s cached st' x := by
    intro ops
    induction ops with
    | nil =>
      intro st st' hb h
      simp only [foldE, Except.ok.injEq] at h
      subst h
      exact hb
    | cons o ops ih =>
      intro st st' hb h
      simp only [foldE] at h
      cases ho : parOp s st o with
      | error e => simp [ho] at h
      | ok st1 =>
        simp only [ho] at h
        exact ih st1 st' (balance_step hb ho) h
  exact key ops _ _ (balance_begin s rng cached) h x

/-- Exactly those whose message has not been added are reported. -/
theorem terminate_missing_iff {s : Session P} {a : Accum P} {r : Report P} (h : s.terminateDueToErrors a = .ok r) (x : sp.Id) :
    ReportedMissing r s.roundId x ↔ a.notSent.contains x = true := by
  constructor
  · rintro ⟨m, hm, hx⟩
    by_contra hc
    have := terminate_missing h (x := x) (by simpa using hc) m hm
    rw [this] at hx
    simp at hx
  · intro hx
    unfold Session.terminateDueToErrors Session.terminateInner at h
    cases hu : s.updatedTranscript a with
    | error e => simp [hu] at h
    | ok t =>
      simp only [hu, Except.ok.injEq] at h
      subst h
      have hup := update_iff.1 hu
      refine ⟨a.notSent, ?_, hx⟩
      have hne : ¬ a.notSent.isEmpty = true := by
        intro he
        rw [BMap.isEmpty_iff_eq.1 he] at hx
        simp at hx
      simp only [Report.new, hup.missing, if_neg hne]
      rw [BMap.get?_insert, if_pos rfl]

theorem parJoin_notSent {st : ParSt P} {b : Accum P} (hj : parJoin st = .ok b) : b.notSent = st.accum.notSent := by
  refine foldE_keeps (fun a : Accum P => a.notSent) ?_ (parJoin_iff.1 hj)
  intro a o a' h
  obtain ⟨d, q⟩ := o
  cases q with
  | error e => simp [outApply] at h
  | ok q =>
    simp only [outApply, Accum.addArtifact] at h
    split at h
    · simp at h
    · simp only [Except.ok.injEq] at h
      rw [← h]

/-- C43, the exact condition for `par_run_session`: when a round is cancelled (or ended for lack of valid messages), a party is
reported as missing if and only if it was expected to send and every message accepted from it, if any, is still being processed.
There is no condition on the senders or on the schedule. -/
theorem C43_exact {s : Session P} {rng : sp.Rng} {cached : List (VerifiedMessage sp)} {ops : List (ParOp sp)} {st : ParSt P}
    {r : Report P} (hrun : ParRound s rng cached ops st) (ht : parTerminate s st = .done (.ok r)) (x : sp.Id) :
    ReportedMissing r s.roundId x ↔
      s.comm.expecting.contains x = true ∧ countFrom x st.tasks = acceptedFrom x cached st := by
  unfold parTerminate at ht
  cases hj : parJoin st with
  | error e => simp [hj] at ht
  | ok b =>
    simp only [hj, ParState.done.injEq] at ht
    rw [terminate_missing_iff ht, parJoin_notSent hj]
    obtain ⟨he, hc⟩ := balance_run hrun x
    have h1 : (st.accum.loc x).notSent = st.accum.notSent.contains x := rfl
    have h2 : (st.accum.loc x).processing = st.accum.processing.contains x := rfl
    rw [h1] at he hc
    rw [h2] at hc
    unfold acceptedFrom
    constructor
    · intro hx
      refine ⟨he hx, ?_⟩
      simp only [hx, Bool.true_eq_false, false_and, if_false, Nat.add_zero] at hc
      exact hc
    · rintro ⟨hx, hq⟩
      by_contra hn
      have hn' : st.accum.notSent.contains x = false := by simpa using hn
      rw [if_pos ⟨hn', hx⟩] at hc
      omega

/-- C43: so a party is wrongly reported exactly if a message of it was accepted and none has been processed yet; nobody is if the
results of all tasks have been received. -/
theorem C43_lost {s : Session P} {rng : sp.Rng} {cached : List (VerifiedMessage sp)} {ops : List (ParOp sp)} {st : ParSt P}
    {r : Report P} (hrun : ParRound s rng cached ops st) (ht : parTerminate s st = .done (.ok r)) (x : sp.Id)
    (hx : 0 < acceptedFrom x cached st) (hm : ReportedMissing r s.roundId x) : ∃ vm ∈ st.tasks, vm.sender = x := by
  obtain ⟨-, h⟩ := (C43_exact hrun ht x).1 hm
  rw [← h] at hx
  obtain ⟨vm, hvm⟩ := List.exists_mem_of_length_pos hx
  rw [List.mem_filter] at hvm
  exact ⟨vm, hvm.1, by simpa using hvm.2⟩

/-- A cancelled round meeting the hypotheses of `C43_exact` and `C43_lost`: the accepted message of party 2 is being processed. -/
example : ∃ (s : Session (demo false 3).wrap) (ops : List (ParOp toy)) (st : ParSt (demo false 3).wrap)
    (r : Report (demo false 3).wrap), ParRound s (0 : Nat) [] ops st ∧ parTerminate s st = .done (.ok r) ∧
      0 < acceptedFrom (sp := toy) (2 : U8) [] st ∧ ReportedMissing r s.roundId (2 : U8) := by
  obtain ⟨s, ops, st, r, m, h1, -, h2, h3, h4, h5⟩ := C43_violation
  exact ⟨s, ops, st, r, h1, h2, by simp [acceptedFrom, h3], m, h4, h5⟩

end Manul
