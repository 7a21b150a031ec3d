import Verif.Lemmas.Par
import Verif.Lemmas.Run

/-!
# Runs of the parallel driver
-/

namespace Manul

variable {sp : SP} {P : Proto sp}

/-- What a step does to the parties that have not been heard. -/
theorem parOp_heard {s : Session P} {st st' : ParSt P} {op : ParOp sp} (h : parOp s st op = .ok st') (y : sp.Id) :
    ((st'.accum.loc y).notSent = (st.accum.loc y).notSent ∧ (st'.accum.loc y).payload = (st.accum.loc y).payload) ∨
      ((st'.accum.loc y).notSent = false ∧ ∃ (i : Nat) (vm : VerifiedMessage sp), st.tasks[i]? = some vm ∧ vm.sender = y ∧
        st'.tasks = st.tasks.eraseIdx i) := by
  cases op with
  | deliver x m =>
    left
    simp only [parOp] at h
    rw [preprocess_loc] at h
    cases hp : Loc.pre s x m (st.accum.loc x) with
    | error e => simp [hp, liftLoc₂] at h
    | ok r =>
      obtain ⟨l1, o⟩ := r
      simp only [hp, liftLoc₂] at h
      have h1 : l1 = l1.graft (st.accum.loc x) := pre_untouched hp
      have h2 : st'.accum = st.accum.setLoc x l1 := by
        split at h <;> (simp only [Except.ok.injEq] at h; subst h; rfl)
      rw [h2]
      by_cases hy : y = x
      · subst hy
        rw [Accum.loc_setLoc_same, h1]
        exact ⟨rfl, rfl⟩
      · rw [Accum.loc_setLoc_other _ hy]
        exact ⟨rfl, rfl⟩
  | complete i =>
    simp only [parOp] at h
    cases ht : st.tasks[i]? with
    | none =>
      simp only [ht, Except.ok.injEq] at h
      subst h
      exact Or.inl ⟨rfl, rfl⟩
    | some vm =>
      simp only [ht, Session.addProcessed] at h
      rw [addProcessed_loc] at h
      have hsx : (s.process vm).message.sender = vm.sender := rfl
      rw [hsx] at h
      cases ha : Loc.add s.transcript (s.process vm) (st.accum.loc vm.sender) with
      | error e => simp [ha, liftLoc] at h
      | ok l1 =>
        simp only [ha, liftLoc, Except.ok.injEq] at h
        subst h
        by_cases hy : y = vm.sender
        · subst hy
          right
          refine ⟨?_, i, vm, ht, rfl, rfl⟩
          rw [Accum.loc_setLoc_same]
          cases (add_ok ha).2.2 <;> rfl
        · left
          rw [Accum.loc_setLoc_other _ hy]
          exact ⟨rfl, rfl⟩
  | send i =>
    left
    simp only [parOp] at h
    split at h
    · rw [addArtifact_loc] at h
      rename_i d m art _
      cases ha : Loc.art art (st.accum.loc art.destination) with
      | error e => simp [ha, liftLoc] at h
      | ok l1 =>
        simp only [ha, liftLoc, Except.ok.injEq] at h
        subst h
        by_cases hy : y = art.destination
        · subst hy
          rw [Accum.loc_setLoc_same]
          obtain ⟨-, rfl⟩ := art_ok ha
          exact ⟨rfl, rfl⟩
        · rw [Accum.loc_setLoc_other _ hy]
          exact ⟨rfl, rfl⟩
    · simp only [Except.ok.injEq] at h
      subst h
      exact ⟨rfl, rfl⟩

/-- The expected parties whose messages are being processed have not been heard. -/
structure ParFresh (s : Session P) (st : ParSt P) : Prop where
  unheard : ∀ vm ∈ st.tasks, s.comm.expecting.contains vm.sender = true → (st.accum.loc vm.sender).notSent = true
  payload : ∀ x, (st.accum.loc x).notSent = true → (st.accum.loc x).payload = none

theorem fresh_begin {s : Session P} {rng : sp.Rng} {cached : List (VerifiedMessage sp)} :
    ParFresh s (ParSt.begin s rng cached) := by
  refine ⟨fun vm _ h => h, fun x _ => ?_⟩
  simp [ParSt.begin, Session.makeAccum, Accum.loc, Accum.new]

theorem fresh_step {s : Session P} {st st' : ParSt P} {op : ParOp sp} (hf : ParFresh s st)
    (hn : (st.tasks.map (fun m => m.sender)).Nodup) (ho : OrderlyOp s st op) (h : parOp s st op = .ok st') : ParFresh s st' := by
  constructor
  · intro vm hvm hx
    have hold : (st.accum.loc vm.sender).notSent = true := by
      rcases tasks_step h hvm with h1 | ⟨x, m, a, rfl, h1, h2⟩
      · exact hf.unheard vm h1 hx
      · rw [h1]
        exact (ho.2 a vm h2).1
    rcases parOp_heard h vm.sender with ⟨h1, -⟩ | ⟨-, i, vm', h2, h3, h4⟩
    · rw [h1]
      exact hold
    · exfalso
      obtain ⟨-, h5, -⟩ := filter_nodup_idx (fun m : VerifiedMessage sp => m.sender) hn h2
      rw [List.filter_eq_nil_iff] at h5
      rw [h4] at hvm
      exact h5 vm hvm (by simp [h3])
  · intro x hx
    rcases parOp_heard h x with ⟨h1, h2⟩ | ⟨h1, -⟩
    · rw [h2]
      exact hf.payload x (by rw [← h1]; exact hx)
    · rw [h1] at hx
      simp at hx

/-- When a round ends by itself, every message has been processed. -/
theorem fresh_done {s : Session P} {st : ParSt P} (hf : ParFresh s st) (he : st.accum.expecting = s.comm.expecting)
    (hx : ∀ vm ∈ st.tasks, s.comm.expecting.contains vm.sender = true) (hc : st.accum.canFinalize ≠ .notYet) : st.tasks = [] := by
  by_contra hne
  obtain ⟨vm, hvm⟩ := List.exists_mem_of_ne_nil _ hne
  have h1 := hf.unheard vm hvm (hx vm hvm)
  have h2 := hf.payload _ h1
  refine hc ?_
  unfold Accum.canFinalize
  rw [if_neg, if_pos]
  · cases hemp : st.accum.notSent.isEmpty with
    | false => rfl
    | true =>
      have := BMap.isEmpty_iff.1 hemp vm.sender
      simp only [Accum.loc] at h1
      rw [BMap.contains_eq_false.2 this] at h1
      simp at h1
  · intro hall
    have := List.all_eq_true.1 hall vm.sender (BSet.mem_elems.2 (by rw [he]; exact hx vm hvm))
    simp only [Accum.loc] at h2
    rw [contains_isSome, h2] at this
    simp at this

theorem sim_join {s : Session P} {rng : sp.Rng} {cached : List (VerifiedMessage sp)} {l : List (sp.Id × Message sp)} {st : ParSt P}
    {b : Accum P} (hi : ParSim s rng cached l st) (hdone : st.tasks = []) (hjoin : parJoin st = .ok b) :
    SeqRound s rng cached l b := by
  rw [seqRound_loc]
  obtain ⟨h1, h2⟩ := parJoin_loc.1 hjoin
  refine ⟨h1.trans hi.expecting, fun x => ?_⟩
  rw [← hi.same]
  refine ⟨st.accum.loc x, ?_, h2 x⟩
  rw [hdone]
  rfl

theorem join_keeps {st : ParSt P} {b : Accum P} (h : parJoin st = .ok b) : b.canFinalize = st.accum.canFinalize := by
  have key : (b.expecting, b.payloads, b.notSent) = (st.accum.expecting, st.accum.payloads, st.accum.notSent) := by
    refine foldE_keeps (fun a : Accum P => (a.expecting, a.payloads, a.notSent)) ?_ (parJoin_iff.1 h)
    intro a o a' h
    obtain ⟨d, q⟩ := o
    cases q with
    | error e => simp [outApply] at h
    | ok q =>
      simp only [outApply, Accum.addArtifact] at h
      split at h
      · simp at h
      · simp only [Except.ok.injEq] at h
        rw [← h]
  simp only [Prod.mk.injEq] at key
  unfold Accum.canFinalize
  rw [key.1, key.2.1, key.2.2]

/-- The structure of a state of the parallel driver in an orderly environment. -/
theorem parReach_cases {s₀ : Session P} (hp : Proper s₀) (hm : ∃ r, s₀.round = .main r) {st : ParState P} (h : ParReach s₀ st) :
    (∃ trail s st' cached rng l, st = .running s st' ∧ Visits s₀ trail s cached ∧ ParSim s rng cached l st' ∧ ParFresh s st') ∨
      (∃ trail s a r k, st = .done (.ok r) ∧ Ends s₀ trail s a r k) ∨ (∃ e, st = .done (.error e)) := by
  induction h with
  | start rng => exact Or.inl ⟨[], s₀, _, [], rng, [], rfl, .first, sim_begin (by simp), fresh_begin⟩
  | @step s st st' ev hr ho hs ih =>
    rcases ih with ⟨trail, s', st1, cached, rng0, l, he, hv, hsim, hf⟩ | ⟨_, _, _, _, _, he, -⟩ | ⟨_, he⟩
    · simp only [ParState.running.injEq] at he
      obtain ⟨rfl, rfl⟩ := he
      unfold parStep at hs
      cases hc : st.accum.canFinalize with
      | yes =>
        cases ev with
        | tick rng =>
          simp only [hc, Option.some.injEq] at hs
          subst hs
          have hdone := fresh_done hf hsim.expecting ho (by rw [hc]; simp)
          unfold parFinish
          cases hj : parJoin st with
          | error e => exact Or.inr (Or.inr ⟨e, rfl⟩)
          | ok a =>
            have hseq := sim_join hsim hdone hj
            have hy : a.canFinalize = .yes := (join_keeps hj).trans hc
            simp only
            cases hfz : s.finalizeRound (sp.fork rng 0) a with
            | error e => exact Or.inr (Or.inr ⟨e, rfl⟩)
            | ok o =>
              cases o with
              | finished r =>
                obtain ⟨t, -, hfin⟩ := finalizeRound_ok hfz
                cases hfin with
                | result hi hres =>
                  exact Or.inr (Or.inl ⟨trail, s, a, _, _, rfl, .result ⟨_, _, _, hv, hseq⟩ hy hfz hi hres⟩)
              | anotherRound s' cached' =>
                have hv' := Visits.next hv hseq hy hfz
                exact Or.inl ⟨_, s', _, cached', _, [], rfl, hv', sim_begin (visits_inv hp hm hv').nodup, fresh_begin⟩
        | op _ => simp [hc] at hs
        | cancel => simp [hc] at hs
        | close => simp [hc] at hs
      | never =>
        cases ev with
        | tick rng =>
          simp only [hc, Option.some.injEq] at hs
          subst hs
          have hdone := fresh_done hf hsim.expecting ho (by rw [hc]; simp)
          unfold parTerminate
          cases hj : parJoin st with
          | error e => exact Or.inr (Or.inr ⟨e, rfl⟩)
          | ok a =>
            have hseq := sim_join hsim hdone hj
            have hy : a.canFinalize = .never := (join_keeps hj).trans hc
            simp only
            cases ht : s.terminateDueToErrors a with
            | error e => exact Or.inr (Or.inr ⟨e, rfl⟩)
            | ok r => exact Or.inr (Or.inl ⟨trail, s, a, r, _, rfl, .errors ⟨_, _, _, hv, hseq⟩ hy ht⟩)
        | op _ => simp [hc] at hs
        | cancel => simp [hc] at hs
        | close => simp [hc] at hs
      | notYet =>
        cases ev with
        | tick rng => simp [hc] at hs
        | op o =>
          simp only [hc] at hs
          cases hd : parOp s st o with
          | error e =>
            simp only [hd, Option.some.injEq] at hs
            exact Or.inr (Or.inr ⟨e, hs.symm⟩)
          | ok st2 =>
            simp only [hd, Option.some.injEq] at hs
            exact Or.inl ⟨trail, s, st2, cached, rng0, _, hs.symm, hv, sim_step hsim (OrderlyOp.apart ho) hd,
              fresh_step hf hsim.tasks ho hd⟩
        | cancel =>
          simp only [hc, Option.some.injEq] at hs
          subst hs
          have hdone : st.tasks = [] := ho
          unfold parTerminate
          cases hj : parJoin st with
          | error e => exact Or.inr (Or.inr ⟨e, rfl⟩)
          | ok a =>
            have hseq := sim_join hsim hdone hj
            have hy : a.canFinalize = .notYet := (join_keeps hj).trans hc
            simp only
            cases ht : s.terminateDueToErrors a with
            | error e => exact Or.inr (Or.inr ⟨e, rfl⟩)
            | ok r => exact Or.inr (Or.inl ⟨trail, s, a, r, _, rfl, .cancelled ⟨_, _, _, hv, hseq⟩ hy ht⟩)
        | close =>
          simp only [hc, Option.some.injEq] at hs
          exact Or.inr (Or.inr ⟨_, hs.symm⟩)
    · simp at he
    · simp at he

theorem parReach_done {s₀ : Session P} (hp : Proper s₀) (hm : ∃ r, s₀.round = .main r) {r : Report P}
    (h : ParReach s₀ (.done (.ok r))) : ∃ trail s a k, Ends s₀ trail s a r k := by
  rcases parReach_cases hp hm h with ⟨_, _, _, _, _, _, he, -⟩ | ⟨trail, s, a, r', k, he, hk⟩ | ⟨_, he⟩
  · simp at he
  · simp only [ParState.done.injEq, Except.ok.injEq] at he
    subst he
    exact ⟨trail, s, a, k, hk⟩
  · simp at he

end Manul
