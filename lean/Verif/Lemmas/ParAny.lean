import Verif.Spec.ParOpen
import Verif.Lemmas.Open
import Verif.Lemmas.ParRun

/-! # `par_run_session` in an arbitrary environment -/

namespace Manul

variable {sp : SP} {P : Proto sp}

/-! ## Rounds -/

/-- What the accumulator holds of each party, and what the tasks hold, is kept by an operation. -/
theorem parOp_inv {s : Session P} {I : sp.Id → Loc P → Prop} {T : VerifiedMessage sp → Prop}
    (hart : ∀ x p u u', I x u → Loc.art p u = .ok u' → I x u')
    (happ : ∀ vm u u', T vm → I vm.sender u → Loc.add s.transcript (s.process vm) u = .ok u' → I vm.sender u')
    {st st' : ParSt P} {o : ParOp sp}
    (hpre : ∀ x m, o = .deliver x m → ∀ u u' r, I x u → Loc.pre s x m u = .ok (u', r) → I x u' ∧ ∀ vm, r.ok? = some vm → T vm)
    (hI : ∀ x, I x (st.accum.loc x)) (hT : ∀ vm ∈ st.tasks, T vm) (h : parOp s st o = .ok st') :
    (∀ x, I x (st'.accum.loc x)) ∧ ∀ vm ∈ st'.tasks, T vm := by
  cases o with
  | deliver y m =>
    simp only [parOp] at h
    rw [preprocess_loc] at h
    cases hl : Loc.pre s y m (st.accum.loc y) with
    | error e => simp [hl, liftLoc₂] at h
    | ok q =>
      obtain ⟨l', r⟩ := q
      obtain ⟨h1, h2⟩ := hpre y m rfl _ _ _ (hI y) hl
      have hI' : ∀ x, I x ((st.accum.setLoc y l').loc x) := by
        intro x
        by_cases hx : x = y
        · subst hx
          rw [Accum.loc_setLoc_same]
          exact h1
        · rw [Accum.loc_setLoc_other _ hx]
          exact hI x
      simp only [hl, liftLoc₂] at h
      cases ho : r.ok? with
      | none =>
        simp only [ho, Except.ok.injEq] at h
        subst h
        exact ⟨hI', hT⟩
      | some vm =>
        simp only [ho, Except.ok.injEq] at h
        subst h
        refine ⟨hI', ?_⟩
        intro vm' hvm
        rcases List.mem_append.1 hvm with hvm | hvm
        · exact hT vm' hvm
        · simp only [List.mem_singleton] at hvm
          subst hvm
          exact h2 _ ho
  | complete i =>
    simp only [parOp] at h
    cases hi : st.tasks[i]? with
    | none =>
      simp only [hi, Except.ok.injEq] at h
      subst h
      exact ⟨hI, hT⟩
    | some vm =>
      simp only [hi] at h
      have hvm : vm ∈ st.tasks := List.mem_of_getElem? hi
      cases ha : s.addProcessed st.accum (s.process vm) with
      | error e => simp [ha] at h
      | ok a =>
        simp only [ha, Except.ok.injEq] at h
        subst h
        refine ⟨?_, fun vm' h' => hT vm' (List.mem_of_mem_eraseIdx h')⟩
        unfold Session.addProcessed at ha
        rw [addProcessed_loc] at ha
        cases hl : Loc.add s.transcript (s.process vm) (st.accum.loc (s.process vm).message.sender) with
        | error e => simp [hl, liftLoc] at ha
        | ok l' =>
          simp only [hl, liftLoc, Except.ok.injEq] at ha
          subst ha
          intro x
          by_cases hx : x = vm.sender
          · subst hx
            show I vm.sender ((st.accum.setLoc vm.sender l').loc vm.sender)
            rw [Accum.loc_setLoc_same]
            exact happ vm _ _ (hT vm hvm) (hI vm.sender) hl
          · show I x ((st.accum.setLoc vm.sender l').loc x)
            rw [Accum.loc_setLoc_other _ hx]
            exact hI x
  | send i =>
    simp only [parOp] at h
    split at h
    · rename_i d m art ho
      cases ha : st.accum.addArtifact art with
      | error e => simp [ha] at h
      | ok a =>
        simp only [ha, Except.ok.injEq] at h
        subst h
        refine ⟨?_, hT⟩
        have ho' := outApply_loc st.accum (d, .ok (m, art))
        simp only [outApply, ha, outParty, outLoc] at ho'
        cases hl : Loc.art art (st.accum.loc art.destination) with
        | error e => simp [hl, liftLoc] at ho'
        | ok l' =>
          simp only [hl, liftLoc, Except.ok.injEq] at ho'
          subst ho'
          intro x
          by_cases hx : x = art.destination
          · subst hx
            rw [Accum.loc_setLoc_same]
            exact hart _ _ _ _ (hI _) hl
          · rw [Accum.loc_setLoc_other _ hx]
            exact hI x
    · simp only [Except.ok.injEq] at h
      subst h
      exact ⟨hI, hT⟩

/-- The same for a round. -/
theorem parRound_inv {s : Session P} {rng : sp.Rng} {cached : List (VerifiedMessage sp)} {ops : List (ParOp sp)} {st : ParSt P}
    {I : sp.Id → Loc P → Prop} {T : VerifiedMessage sp → Prop} (h : ParRound s rng cached ops st)
    (h0 : ∀ x, I x (s.makeAccum.loc x)) (hc : ∀ vm ∈ cached, T vm)
    (hart : ∀ x p u u', I x u → Loc.art p u = .ok u' → I x u')
    (happ : ∀ vm u u', T vm → I vm.sender u → Loc.add s.transcript (s.process vm) u = .ok u' → I vm.sender u')
    (hpre : ∀ x m, (x, m) ∈ parDeliveries ops → ∀ u u' r, I x u → Loc.pre s x m u = .ok (u', r) →
      I x u' ∧ ∀ vm, r.ok? = some vm → T vm) :
    (∀ x, I x (st.accum.loc x)) ∧ ∀ vm ∈ st.tasks, T vm := by
  unfold ParRound at h
  have key : ∀ (ops : List (ParOp sp)) (st0 : ParSt P), foldE (parOp s) st0 ops = .ok st →
      (∀ x m, (x, m) ∈ parDeliveries ops → ∀ u u' r, I x u → Loc.pre s x m u = .ok (u', r) →
        I x u' ∧ ∀ vm, r.ok? = some vm → T vm) →
      (∀ x, I x (st0.accum.loc x)) → (∀ vm ∈ st0.tasks, T vm) → (∀ x, I x (st.accum.loc x)) ∧ ∀ vm ∈ st.tasks, T vm := by
    intro ops
    induction ops with
    | nil =>
      intro st0 h _ h1 h2
      simp only [foldE, Except.ok.injEq] at h
      subst h
      exact ⟨h1, h2⟩
    | cons o ops ih =>
      intro st0 h hp h1 h2
      simp only [foldE] at h
      cases ho : parOp s st0 o with
      | error e => simp [ho] at h
      | ok st1 =>
        simp only [ho] at h
        obtain ⟨h3, h4⟩ := parOp_inv hart happ (fun x m he => hp x m (by subst he; simp [parDeliveries])) h1 h2 ho
        refine ih st1 h (fun x m hm => hp x m ?_) h3 h4
        cases o <;> simp [parDeliveries, hm]
  exact key ops _ h hpre h0 hc

/-- And when the tasks are joined. -/
theorem parJoin_inv {st : ParSt P} {a : Accum P} {I : sp.Id → Loc P → Prop} (h : parJoin st = .ok a)
    (hart : ∀ x p u u', I x u → Loc.art p u = .ok u' → I x u') (hI : ∀ x, I x (st.accum.loc x)) (x : sp.Id) : I x (a.loc x) := by
  have hx := (parJoin_loc.1 h).2 x
  generalize st.outgoing.filter (fun o => outParty o = x) = os at hx
  have hu := hI x
  generalize st.accum.loc x = u at hx hu
  induction os generalizing u with
  | nil =>
    simp only [foldE, Except.ok.injEq] at hx
    exact hx ▸ hu
  | cons o os ih =>
    simp only [foldE] at hx
    cases ho : outLoc u o with
    | error e => simp [ho] at hx
    | ok u1 =>
      simp only [ho] at hx
      refine ih u1 hx ?_
      unfold outLoc at ho
      split at ho
      · exact hart _ _ _ _ hu ho
      · simp at ho

/-- A round of the parallel driver, with the tasks joined. -/
def AnyRound (s : Session P) (cached : List (VerifiedMessage sp)) (l : List (sp.Id × Message sp)) (a : Accum P) : Prop :=
  ∃ rng ops st, ParRound s rng cached ops st ∧ parJoin st = .ok a ∧ parDeliveries ops = l

theorem anyRound_inv {s : Session P} {cached : List (VerifiedMessage sp)} {l : List (sp.Id × Message sp)} {a : Accum P}
    {I : sp.Id → Loc P → Prop} {T : VerifiedMessage sp → Prop} (h : AnyRound s cached l a)
    (h0 : ∀ x, I x (s.makeAccum.loc x)) (hc : ∀ vm ∈ cached, T vm)
    (hart : ∀ x p u u', I x u → Loc.art p u = .ok u' → I x u')
    (happ : ∀ vm u u', T vm → I vm.sender u → Loc.add s.transcript (s.process vm) u = .ok u' → I vm.sender u')
    (hpre : ∀ x m, (x, m) ∈ l → ∀ u u' r, I x u → Loc.pre s x m u = .ok (u', r) → I x u' ∧ ∀ vm, r.ok? = some vm → T vm)
    (x : sp.Id) : I x (a.loc x) := by
  obtain ⟨rng, ops, st, h1, h2, rfl⟩ := h
  exact parJoin_inv h2 hart (parRound_inv h1 h0 hc hart happ hpre).1 x

variable {Q : SignedPart .direct → SignedPart .echo → SignedPart .normal → Prop}

/-- What is known of a message being processed. -/
def TaskOk (Q : SignedPart .direct → SignedPart .echo → SignedPart .normal → Prop) (s : Session P) (vm : VerifiedMessage sp) :
    Prop :=
  Authentic vm.sender s.sessionId s.roundId vm.direct vm.echo vm.normal ∧ Q vm.direct vm.echo vm.normal

theorem AInv.fresh (s : Session P) (x : sp.Id) : RInv s x (s.makeAccum.loc x) ∧ QInv Q s x (s.makeAccum.loc x) := by
  constructor <;> constructor <;> simp [Session.makeAccum, Accum.loc, Accum.new]

theorem AInv.art {s : Session P} {x : sp.Id} {p : ProcessedArtifact P} {u u' : Loc P} (h : RInv s x u ∧ QInv Q s x u)
    (hu : Loc.art p u = .ok u') : RInv s x u' ∧ QInv Q s x u' := by
  obtain ⟨-, rfl⟩ := art_ok hu
  obtain ⟨⟨h1, h2, h3, h4, h5⟩, ⟨g1, g2, g3, g4⟩⟩ := h
  exact ⟨⟨h1, h2, h3, h4, h5⟩, ⟨g1, g2, g3, g4⟩⟩

theorem AInv.add {s : Session P} {vm : VerifiedMessage sp} {u u' : Loc P} (ht : TaskOk Q s vm)
    (h : RInv s vm.sender u ∧ QInv Q s vm.sender u) (hu : Loc.add s.transcript (s.process vm) u = .ok u') :
    RInv s vm.sender u' ∧ QInv Q s vm.sender u' := by
  obtain ⟨hn, -, ha⟩ := add_ok hu
  exact ⟨h.1.added rfl ht.1 ha, h.2.added hn rfl ht.2 ht.1 ha⟩

theorem AInv.pre {s : Session P} {x : sp.Id} {m : Message sp} {u u' : Loc P} {r : PreOutcome sp}
    (hq : Q m.direct m.echo m.normal) (h : RInv s x u ∧ QInv Q s x u) (hu : Loc.pre s x m u = .ok (u', r)) :
    (RInv s x u' ∧ QInv Q s x u') ∧ ∀ vm, r.ok? = some vm → TaskOk Q s vm := by
  obtain ⟨⟨h1, h2, h3, h4, h5⟩, ⟨g1, g2, g3, g4⟩⟩ := h
  cases pre_ok hu with
  | ignored _ => exact ⟨⟨⟨h1, h2, h3, h4, h5⟩, ⟨g1, g2, g3, g4⟩⟩, by simp [PreOutcome.ok?]⟩
  | refused _ _ => exact ⟨⟨⟨h1, h2, h3, h4, h5⟩, ⟨g1, g2, g3, g4⟩⟩, by simp [PreOutcome.ok?]⟩
  | process _ _ _ hvm hau =>
    refine ⟨⟨⟨h1, h2, h3, h4, h5⟩, ⟨g1, g2, g3, g4⟩⟩, ?_⟩
    intro vm he
    simp only [PreOutcome.ok?, Option.some.injEq] at he
    subst he
    subst hvm
    exact ⟨hau, hq⟩
  | @keep vm _ _ _ hvm hau hne hsim =>
    have old : ∀ r w, (u.cached.getD BMap.empty).get? r = some w → ∃ m, u.cached = some m ∧ m.get? r = some w := by
      intro r w hw
      cases hc : u.cached with
      | none => simp [hc] at hw
      | some m0 =>
        simp only [hc, Option.getD_some] at hw
        exact ⟨m0, rfl, hw⟩
    refine ⟨⟨⟨h1, ?_, h3, h4, h5⟩, ⟨g1, g2, ?_, g4⟩⟩, by simp [PreOutcome.ok?]⟩
    · intro c hc r w hw
      simp only [Option.some.injEq] at hc
      subst hc
      rw [BMap.get?_insert] at hw
      split at hw
      · rename_i hr
        simp only [Option.some.injEq] at hw
        subst hw
        subst hr
        rw [hvm] at hau hne hsim ⊢
        exact ⟨rfl, rfl, hne, hsim, hau⟩
      · obtain ⟨m0, hm0, hw⟩ := old r w hw
        exact h2 m0 hm0 r w hw
    · intro c hc r w hw
      simp only [Option.some.injEq] at hc
      subst hc
      rw [BMap.get?_insert] at hw
      split at hw
      · simp only [Option.some.injEq] at hw
        subst hw
        subst hvm
        exact hq
      · obtain ⟨m0, hm0, hw⟩ := old r w hw
        exact g3 m0 hm0 r w hw

theorem parRound_ainv {s : Session P} {rng : sp.Rng} {cached : List (VerifiedMessage sp)} {ops : List (ParOp sp)} {st : ParSt P}
    (h : ParRound s rng cached ops st) (hc : ∀ vm ∈ cached, TaskOk Q s vm)
    (hq : ∀ x m, (x, m) ∈ parDeliveries ops → Q m.direct m.echo m.normal) :
    (∀ x, RInv s x (st.accum.loc x) ∧ QInv Q s x (st.accum.loc x)) ∧ ∀ vm ∈ st.tasks, TaskOk Q s vm :=
  parRound_inv (I := fun x u => RInv s x u ∧ QInv Q s x u) h (AInv.fresh s) hc (fun _ _ _ _ => AInv.art)
    (fun _ _ _ ht => AInv.add ht) (fun x m hm _ _ _ => AInv.pre (hq x m hm))

theorem anyRound_ainv {s : Session P} {cached : List (VerifiedMessage sp)} {l : List (sp.Id × Message sp)} {a : Accum P}
    (h : AnyRound s cached l a) (hc : ∀ vm ∈ cached, TaskOk Q s vm)
    (hq : ∀ x m, (x, m) ∈ l → Q m.direct m.echo m.normal) (x : sp.Id) : RInv s x (a.loc x) ∧ QInv Q s x (a.loc x) :=
  anyRound_inv (I := fun x u => RInv s x u ∧ QInv Q s x u) h (AInv.fresh s) hc (fun _ _ _ _ => AInv.art)
    (fun _ _ _ ht => AInv.add ht) (fun x m hm _ _ _ => AInv.pre (hq x m hm)) x

/-! ## Calls on the accumulator -/

theorem accReach_step {s : Session P} {a b : Accum P} {op : AccOp P} (h : AccReach s a) (ho : op.apply s a = .ok b) :
    AccReach s b := by
  obtain ⟨ops, h⟩ := h
  refine ⟨ops ++ [op], ?_⟩
  unfold Hist at *
  rw [foldE_append]
  exact ⟨a, h, by simp [foldE, ho]⟩

theorem parOp_reach {s : Session P} {st st' : ParSt P} {o : ParOp sp} (h : AccReach s st.accum) (ho : parOp s st o = .ok st') :
    AccReach s st'.accum := by
  cases o with
  | deliver y m =>
    simp only [parOp] at ho
    cases hp : s.preprocess st.accum y m with
    | error e => simp [hp] at ho
    | ok q =>
      obtain ⟨a, r⟩ := q
      have h1 : AccReach s a := accReach_step (op := .pre y m) h (by simp [AccOp.apply, hp])
      simp only [hp] at ho
      split at ho <;> simp only [Except.ok.injEq] at ho <;> subst ho <;> exact h1
  | complete i =>
    simp only [parOp] at ho
    split at ho
    · simp only [Except.ok.injEq] at ho
      exact ho ▸ h
    · rename_i vm _
      cases ha : s.addProcessed st.accum (s.process vm) with
      | error e => simp [ha] at ho
      | ok a =>
        simp only [ha, Except.ok.injEq] at ho
        subst ho
        exact accReach_step (op := .add (s.process vm)) h ha
  | send i =>
    simp only [parOp] at ho
    split at ho
    · rename_i d m art _
      cases ha : st.accum.addArtifact art with
      | error e => simp [ha] at ho
      | ok a =>
        simp only [ha, Except.ok.injEq] at ho
        subst ho
        exact accReach_step (op := .art art) h ha
    · simp only [Except.ok.injEq] at ho
      exact ho ▸ h

theorem parRound_reach {s : Session P} {rng : sp.Rng} {cached : List (VerifiedMessage sp)} {ops : List (ParOp sp)} {st : ParSt P}
    (h : ParRound s rng cached ops st) : AccReach s st.accum := by
  have key : ∀ (ops : List (ParOp sp)) (st0 : ParSt P), foldE (parOp s) st0 ops = .ok st → AccReach s st0.accum →
      AccReach s st.accum := by
    intro ops
    induction ops with
    | nil =>
      intro st0 h h0
      simp only [foldE, Except.ok.injEq] at h
      exact h ▸ h0
    | cons o ops ih =>
      intro st0 h h0
      simp only [foldE] at h
      cases ho : parOp s st0 o with
      | error e => simp [ho] at h
      | ok st1 =>
        simp only [ho] at h
        exact ih st1 h (parOp_reach h0 ho)
  exact key ops _ h ⟨[], rfl⟩

theorem anyRound_reach {s : Session P} {cached : List (VerifiedMessage sp)} {l : List (sp.Id × Message sp)} {a : Accum P}
    (h : AnyRound s cached l a) : AccReach s a := by
  obtain ⟨rng, ops, st, h1, h2, -⟩ := h
  have h0 := parRound_reach h1
  rw [parJoin_iff] at h2
  generalize st.outgoing = os at h2
  generalize st.accum = b at h0 h2
  induction os generalizing b with
  | nil =>
    simp only [foldE, Except.ok.injEq] at h2
    exact h2 ▸ h0
  | cons o os ih =>
    simp only [foldE] at h2
    cases ho : outApply b o with
    | error e => simp [ho] at h2
    | ok b1 =>
      simp only [ho] at h2
      refine ih b1 ?_ h2
      unfold outApply at ho
      split at ho
      · rename_i art _
        exact accReach_step (op := .art art) h0 ho
      · simp at ho

/-! ## Messages and artifacts made -/

/-- What is known of the creation tasks and their artifacts. -/
structure ArtInv (s : Session P) (a : Accum P) (outs : List (OutTask P)) : Prop where
  task : ∀ o ∈ outs, (∃ rng, o.2 = s.makeMessage rng o.1) ∧ s.comm.destinations.contains o.1 = true
  keys : ∀ x, s.comm.destinations.contains x = true → a.artifacts.contains x = true ∨ ∃ o ∈ outs, o.1 = x
  made : ∀ x v, a.artifacts.get? x = some v → s.comm.destinations.contains x = true ∧
    ∃ rng p, s.round.makeDirect rng x = .ok (p, v)

theorem mem_creation {s : Session P} {rng : sp.Rng} {i : Nat} {ds : List sp.Id} {o : OutTask P}
    (h : o ∈ creationTasks s rng i ds) : (∃ rng, o.2 = s.makeMessage rng o.1) ∧ o.1 ∈ ds := by
  induction ds generalizing i with
  | nil => simp [creationTasks] at h
  | cons d ds ih =>
    simp only [creationTasks, List.mem_cons] at h
    rcases h with rfl | h
    · exact ⟨⟨_, rfl⟩, by simp⟩
    · obtain ⟨h1, h2⟩ := ih h
      exact ⟨h1, List.mem_cons_of_mem _ h2⟩

theorem creation_mem {s : Session P} {rng : sp.Rng} {i : Nat} {ds : List sp.Id} {x : sp.Id} (h : x ∈ ds) :
    ∃ o ∈ creationTasks s rng i ds, o.1 = x := by
  induction ds generalizing i with
  | nil => simp at h
  | cons d ds ih =>
    simp only [creationTasks]
    rcases List.mem_cons.1 h with rfl | h
    · exact ⟨_, List.mem_cons_self .., rfl⟩
    · obtain ⟨o, ho, hx⟩ := ih (i := i + 1) h
      exact ⟨o, List.mem_cons_of_mem _ ho, hx⟩

theorem ArtInv.begin (s : Session P) (rng : sp.Rng) : ArtInv s s.makeAccum (creationTasks s rng 0 s.destinations.elems) := by
  refine ⟨?_, ?_, ?_⟩
  · intro o ho
    obtain ⟨h1, h2⟩ := mem_creation ho
    exact ⟨h1, BSet.mem_elems.1 h2⟩
  · intro x hx
    exact Or.inr (creation_mem (BSet.mem_elems.2 hx))
  · intro x v hv
    simp [Session.makeAccum, Accum.new] at hv

/-- The artifact of a creation task is added. -/
theorem ArtInv.sent {s : Session P} {a a' : Accum P} {outs outs' : List (OutTask P)} {o : OutTask P} (h : ArtInv s a outs)
    (ho : o ∈ outs) (hs : ∀ o' ∈ outs', o' ∈ outs) (hs' : ∀ o' ∈ outs, o' = o ∨ o' ∈ outs') (ha : outApply a o = .ok a') :
    ArtInv s a' outs' := by
  obtain ⟨d, r⟩ := o
  obtain ⟨⟨rng, hr⟩, hd⟩ := h.task _ ho
  simp only at hr hd
  cases r with
  | error e => simp [outApply] at ha
  | ok q =>
    obtain ⟨m, art⟩ := q
    have hm := makeMessage_ok hr.symm
    obtain ⟨r1, hmk⟩ := hm.direct
    simp only [outApply] at ha
    unfold Accum.addArtifact at ha
    split at ha
    · simp at ha
    · simp only [Except.ok.injEq] at ha
      subst ha
      refine ⟨fun o' ho' => h.task o' (hs o' ho'), ?_, ?_⟩
      · intro x hx
        simp only [BMap.contains_insert, hm.artifact]
        rcases h.keys x hx with h1 | ⟨o', ho', rfl⟩
        · simp [h1]
        · rcases hs' o' ho' with rfl | h2
          · simp
          · exact Or.inr ⟨o', h2, rfl⟩
      · intro x v hv
        simp only [BMap.get?_insert, hm.artifact] at hv
        split at hv
        · rename_i hx
          simp only [Option.some.injEq] at hv
          subst hv
          subst hx
          exact ⟨hd, r1, _, hmk⟩
        · exact h.made x v hv

theorem ArtInv.same {s : Session P} {a a' : Accum P} {outs : List (OutTask P)} (h : ArtInv s a outs)
    (ha : ∀ x, (a'.loc x).artifact = (a.loc x).artifact) : ArtInv s a' outs := by
  have ha' : ∀ x, a'.artifacts.get? x = a.artifacts.get? x := ha
  refine ⟨h.task, ?_, ?_⟩
  · intro x hx
    rcases h.keys x hx with h1 | h1
    · left
      rw [BMap.contains_iff] at *
      rw [ha']
      exact h1
    · exact Or.inr h1
  · intro x v hv
    rw [ha'] at hv
    exact h.made x v hv

theorem mem_or_eraseIdx {α : Type} {l : List α} {i : Nat} {a b : α} (hi : l[i]? = some a) (hb : b ∈ l) :
    b = a ∨ b ∈ l.eraseIdx i := by
  induction l generalizing i with
  | nil => simp at hb
  | cons c l ih =>
    cases i with
    | zero =>
      simp only [List.getElem?_cons_zero, Option.some.injEq] at hi
      subst hi
      simpa using hb
    | succ i =>
      simp only [List.getElem?_cons_succ] at hi
      simp only [List.eraseIdx_cons_succ, List.mem_cons]
      rcases List.mem_cons.1 hb with rfl | hb
      · exact Or.inr (Or.inl rfl)
      · rcases ih hi hb with h | h
        · exact Or.inl h
        · exact Or.inr (Or.inr h)

theorem parOp_art {s : Session P} {st st' : ParSt P} {o : ParOp sp} (h : ArtInv s st.accum st.outgoing)
    (ho : parOp s st o = .ok st') : ArtInv s st'.accum st'.outgoing := by
  cases o with
  | deliver y m =>
    simp only [parOp] at ho
    rw [preprocess_loc] at ho
    cases hl : Loc.pre s y m (st.accum.loc y) with
    | error e => simp [hl, liftLoc₂] at ho
    | ok q =>
      obtain ⟨l', r⟩ := q
      have hsame : ArtInv s (st.accum.setLoc y l') st.outgoing := by
        refine h.same fun x => ?_
        by_cases hx : x = y
        · subst hx
          rw [Accum.loc_setLoc_same]
          exact pre_artifact hl
        · rw [Accum.loc_setLoc_other _ hx]
      simp only [hl, liftLoc₂] at ho
      cases hr : r.ok? with
      | none =>
        simp only [hr, Except.ok.injEq] at ho
        subst ho
        exact hsame
      | some vm =>
        simp only [hr, Except.ok.injEq] at ho
        subst ho
        exact hsame
  | complete i =>
    simp only [parOp] at ho
    split at ho
    · simp only [Except.ok.injEq] at ho
      exact ho ▸ h
    · rename_i vm _
      cases ha : s.addProcessed st.accum (s.process vm) with
      | error e => simp [ha] at ho
      | ok a =>
        simp only [ha, Except.ok.injEq] at ho
        subst ho
        refine h.same fun x => ?_
        have : a.artifacts = st.accum.artifacts := applyVerified_artifacts ha
        show a.artifacts.get? x = st.accum.artifacts.get? x
        rw [this]
  | send i =>
    simp only [parOp] at ho
    split at ho
    · rename_i d m art hi
      cases ha : st.accum.addArtifact art with
      | error e => simp [ha] at ho
      | ok a =>
        simp only [ha, Except.ok.injEq] at ho
        subst ho
        exact h.sent (List.mem_of_getElem? hi) (fun o' h' => List.mem_of_mem_eraseIdx h') (fun o' h' => mem_or_eraseIdx hi h')
          (by simp [outApply, ha])
    · simp only [Except.ok.injEq] at ho
      exact ho ▸ h

theorem parRound_art {s : Session P} {rng : sp.Rng} {cached : List (VerifiedMessage sp)} {ops : List (ParOp sp)} {st : ParSt P}
    (h : ParRound s rng cached ops st) : ArtInv s st.accum st.outgoing := by
  have key : ∀ (ops : List (ParOp sp)) (st0 : ParSt P), foldE (parOp s) st0 ops = .ok st → ArtInv s st0.accum st0.outgoing →
      ArtInv s st.accum st.outgoing := by
    intro ops
    induction ops with
    | nil =>
      intro st0 h h0
      simp only [foldE, Except.ok.injEq] at h
      exact h ▸ h0
    | cons o ops ih =>
      intro st0 h h0
      simp only [foldE] at h
      cases ho : parOp s st0 o with
      | error e => simp [ho] at h
      | ok st1 =>
        simp only [ho] at h
        exact ih st1 h (parOp_art h0 ho)
  exact key ops _ h (ArtInv.begin s rng)

theorem anyRound_artifacts {s : Session P} {cached : List (VerifiedMessage sp)} {l : List (sp.Id × Message sp)} {a : Accum P}
    (h : AnyRound s cached l a) (x : sp.Id) : a.artifacts.contains x = s.comm.destinations.contains x ∧
      ∀ v, a.artifacts.get? x = some v → ∃ rng p, s.round.makeDirect rng x = .ok (p, v) := by
  obtain ⟨rng, ops, st, h1, h2, -⟩ := h
  have h0 := parRound_art h1
  rw [parJoin_iff] at h2
  have fin : ArtInv s a [] := by
    generalize st.outgoing = os at h0 h2
    generalize st.accum = b at h0 h2
    induction os generalizing b with
    | nil =>
      simp only [foldE, Except.ok.injEq] at h2
      exact h2 ▸ h0
    | cons o os ih =>
      simp only [foldE] at h2
      cases ho : outApply b o with
      | error e => simp [ho] at h2
      | ok b1 =>
        simp only [ho] at h2
        exact ih b1 (h0.sent (List.mem_cons_self ..) (fun _ h' => List.mem_cons_of_mem _ h') (fun _ h' => List.mem_cons.1 h') ho) h2
  refine ⟨?_, fun v hv => (fin.made x v hv).2⟩
  rw [Bool.eq_iff_iff]
  constructor
  · intro hx
    obtain ⟨v, hv⟩ := BMap.contains_iff.1 hx
    exact (fin.made x v hv).1
  · intro hx
    rcases fin.keys x hx with h | ⟨o, ho, -⟩
    · exact h
    · simp at ho

end Manul
