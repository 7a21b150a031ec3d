import Verif.Lemmas.RunAsyncPar
import Verif.Lemmas.RunAsyncAny
import Verif.Lemmas.ParAny

/-! # `run_async` with `offload_processing` of an arbitrary group of parties, as long as the dispatcher has not failed -/

namespace Manul

variable {sp : SP} {P : Proto sp} {g : Group P}

/-! ### Artifacts are added once -/

/-- No creation task that is left has the destination of another one or of an artifact that has been added. -/
structure OutOk (st : ParSt P) : Prop where
  nodup : (st.outgoing.map (fun o => o.1)).Nodup
  fresh : ∀ o ∈ st.outgoing, st.accum.artifacts.contains o.1 = false
  dest : ∀ o ∈ st.outgoing, ∀ m art, o.2 = .ok (m, art) → art.destination = o.1

theorem creation_dests (s : Session P) (rng : sp.Rng) (i : Nat) (ds : List sp.Id) :
    (creationTasks s rng i ds).map (fun o => o.1) = ds := by
  induction ds generalizing i with
  | nil => rfl
  | cons d ds ih => simp [creationTasks, ih]

theorem OutOk.begin (s : Session P) (rng : sp.Rng) (cached : List (VerifiedMessage sp)) : OutOk (ParSt.begin s rng cached) := by
  refine ⟨?_, ?_, ?_⟩
  · simp only [ParSt.begin, creation_dests]
    exact BSet.elems_nodup _
  · intro o _
    simp [ParSt.begin, Session.makeAccum, Accum.new, BMap.contains]
  · intro o ho m art h
    obtain ⟨⟨r, h1⟩, -⟩ := mem_creation ho
    rw [h] at h1
    exact (makeMessage_ok h1.symm).artifact

theorem OutOk.same {st st' : ParSt P} (h : OutOk st) (ho : st'.outgoing = st.outgoing)
    (ha : ∀ x, st'.accum.artifacts.get? x = st.accum.artifacts.get? x) : OutOk st' := by
  refine ⟨by rw [ho]; exact h.nodup, ?_, by rw [ho]; exact h.dest⟩
  intro o h1
  have := h.fresh o (ho ▸ h1)
  simp only [BMap.contains, ha] at this ⊢
  exact this

/-- The artifact of a creation task can be added. -/
theorem OutOk.sends {s : Session P} {st : ParSt P} (h : OutOk st) (i : Nat) : ∃ st', parOp s st (.send i) = .ok st' := by
  simp only [parOp]
  split
  · rename_i d m art hi
    have hm := List.mem_of_getElem? hi
    have h1 := h.fresh _ hm
    rw [← h.dest _ hm m art rfl] at h1
    have : st.accum.addArtifact art = .ok { st.accum with artifacts := st.accum.artifacts.insert art.destination art.artifact } := by
      simp [Accum.addArtifact, h1]
    rw [this]
    exact ⟨_, rfl⟩
  · exact ⟨_, rfl⟩

theorem OutOk.op {s : Session P} {st st' : ParSt P} {o : ParOp sp} (h : OutOk st) (ho : parOp s st o = .ok st') : OutOk st' := by
  cases o with
  | deliver y m =>
    simp only [parOp] at ho
    rw [preprocess_loc] at ho
    cases hl : Loc.pre s y m (st.accum.loc y) with
    | error e => simp [hl, liftLoc₂] at ho
    | ok q =>
      obtain ⟨l', r⟩ := q
      have ha : ∀ x, (st.accum.setLoc y l').artifacts.get? x = st.accum.artifacts.get? x := by
        intro x
        show ((st.accum.setLoc y l').loc x).artifact = (st.accum.loc x).artifact
        by_cases hx : x = y
        · subst hx
          rw [Accum.loc_setLoc_same]
          exact pre_artifact hl
        · rw [Accum.loc_setLoc_other _ hx]
      simp only [hl, liftLoc₂] at ho
      cases hr : r.ok? with
      | none =>
        simp only [hr, Except.ok.injEq] at ho
        subst ho
        exact h.same rfl ha
      | some vm =>
        simp only [hr, Except.ok.injEq] at ho
        subst ho
        exact h.same rfl ha
  | complete i =>
    simp only [parOp] at ho
    split at ho
    · simp only [Except.ok.injEq] at ho
      exact ho ▸ h
    · rename_i vm _
      cases ha : s.addProcessed st.accum (s.process vm) with
      | error e => simp [ha] at ho
      | ok a =>
        simp only [ha, Except.ok.injEq] at ho
        subst ho
        refine h.same rfl fun x => ?_
        have : a.artifacts = st.accum.artifacts := applyVerified_artifacts ha
        rw [this]
  | send i =>
    simp only [parOp] at ho
    split at ho
    · rename_i d m art hi
      unfold Accum.addArtifact at ho
      by_cases hc : st.accum.artifacts.contains art.destination = true
      · simp [hc] at ho
      · simp only [hc, Bool.false_eq_true, if_false, Except.ok.injEq] at ho
        subst ho
        have hm := List.mem_of_getElem? hi
        have hd := h.dest _ hm m art rfl
        have hnd : ∀ o ∈ st.outgoing.eraseIdx i, o.1 ≠ d := by
          intro o ho hc
          obtain ⟨j, hji, hj⟩ := List.mem_eraseIdx_iff_getElem?.1 ho
          have hn := h.nodup
          rw [List.nodup_iff_getElem?_ne_getElem?] at hn
          have e1 : (st.outgoing.map (fun o => o.1))[j]? = some d := by simp [hj, hc]
          have e2 : (st.outgoing.map (fun o => o.1))[i]? = some d := by simp [hi]
          have l1 : i < (st.outgoing.map (fun o => o.1)).length := (List.getElem?_eq_some_iff.1 e2).1
          have l2 : j < (st.outgoing.map (fun o => o.1)).length := (List.getElem?_eq_some_iff.1 e1).1
          rcases lt_or_gt_of_ne hji with hlt | hlt
          · exact hn j i hlt l1 (e1.trans e2.symm)
          · exact hn i j hlt l2 (e2.trans e1.symm)
        refine ⟨?_, ?_, ?_⟩
        · exact h.nodup.sublist ((List.eraseIdx_sublist _ _).map _)
        · intro o ho
          rw [BMap.contains_insert, h.fresh o (List.mem_of_mem_eraseIdx ho)]
          simp only at hd
          simp [hd, hnd o ho]
        · intro o ho
          exact h.dest o (List.mem_of_mem_eraseIdx ho)
    · simp only [Except.ok.injEq] at ho
      exact ho ▸ h

theorem OutOk.step {s s' : Session P} {st st' : ParSt P} {ev : ParEvent sp} (h : OutOk st)
    (hs : parStep (.running s st) ev = some (.running s' st')) : OutOk st' := by
  simp only [parStep] at hs
  split at hs
  · simp only [Option.some.injEq] at hs
    unfold parFinish at hs
    split at hs
    · cases hs
    · split at hs
      · cases hs
      · cases hs
      · cases hs
        exact OutOk.begin _ _ _
  · simp only [Option.some.injEq] at hs
    unfold parTerminate at hs
    split at hs <;> cases hs
  · split at hs
    · cases hs
    · rename_i h1
      cases hs
      exact h.op h1
  · simp only [Option.some.injEq] at hs
    unfold parTerminate at hs
    split at hs <;> cases hs
  · cases hs
  · cases hs

/-- What a party holds in a network of arbitrary parties. -/
theorem PNetTakes.outOk {k : Nat} {c : PNet P} (h : PNetTakes g k c) {i : sp.Id} {s : Session P} {st : ParSt P}
    (hn : c.node i = some (.running s st)) : OutOk st := by
  induction h generalizing i s st with
  | init => simp [PNet.init] at hn
  | step _ hs ih =>
    have hput : ∀ {c : PNet P} {j : sp.Id} {st0 : ParState P} {out : List (Message sp)},
        (∀ {i : sp.Id} {s : Session P} {st : ParSt P}, c.node i = some (.running s st) → OutOk st) →
        (∀ s st, st0 = .running s st → OutOk st) → (c.put j st0 out).node i = some (.running s st) → OutOk st := by
      intro c j st0 out h1 h2 h3
      by_cases hji : i = j
      · subst hji
        simp only [PNet.put, Function.update_self, Option.some.injEq] at h3
        exact h2 _ _ h3
      · simp only [PNet.put, Function.update_of_ne hji] at h3
        exact h1 h3
    cases hs with
    | start rng rng' _ _ =>
      refine hput ih ?_ hn
      intro s st h1
      unfold Group.startPar at h1
      split at h1
      · cases h1
      · cases h1
        exact OutOk.begin _ _ _
    | tick h1 h2 => exact hput ih (fun s st h3 => (ih h1).step (h3 ▸ h2)) hn
    | task h1 _ h2 => exact hput ih (fun s st h3 => (ih h1).step (h3 ▸ h2)) hn
    | deliver _ h1 h2 => exact hput (c := ⟨_, _⟩) (out := []) ih (fun s st h3 => (ih h1).step (h3 ▸ h2)) hn

/-- A party that still has to send something is running. -/
theorem OutOk.out {s : Session P} {st : ParSt P} {o : ParOp sp} {st' : ParState P} (h : OutOk st)
    (hs : parStep (.running s st) (.op o) = some st') (hout : parOut st (.op o) ≠ []) : ∃ st1, st' = .running s st1 := by
  cases o with
  | deliver x m => simp [parOut] at hout
  | complete i => simp [parOut] at hout
  | send i =>
    obtain ⟨st1, h1⟩ := h.sends (s := s) i
    simp only [parStep, parStep_op_ready hs, h1, Option.some.injEq] at hs
    exact ⟨st1, hs.symm⟩

/-! ### The invariant -/

/-- The state of `run_async` and the state of the network, in which the parties about to finalize have done so with the random
numbers `ρ`. -/
structure PAsyncAny (g : Group P) (ρ : sp.Id → sp.Rng) (x : PAsync P) (c : PNet P) : Prop where
  takes : ∃ kn, PNetTakes g kn c
  node : ∀ i, c.node i = x.view ρ i
  wire : c.wire.Perm (x.post.flight g)
  party : ∀ i st, x.node i = some st → g.parties.contains i = true
  sends : ∀ i, x.outbox i ≠ [] → ∃ s st, x.node i = some (.running s st)
  joined : ∀ i, x.joined i = true → ∃ s st, x.node i = some (.running s st) ∧ st.accum.canFinalize ≠ .notYet
  inbox : ∀ i p, p ∈ x.inbox i → p.dest = i
  ended : x.disp = .returned → x.AllDone g ∧ x.chan = []

theorem PAsyncAny.init (ρ : sp.Id → sp.Rng) : PAsyncAny g ρ PAsync.init PNet.init where
  takes := ⟨_, .init⟩
  node := fun _ => rfl
  wire := by simp [PNet.init, PAsync.init, PAsync.post, Async.flight, Async.outgoing, Async.incoming, Dispatcher.held]
  party := by simp [PAsync.init]
  sends := by simp [PAsync.init]
  joined := by simp [PAsync.init]
  inbox := by simp [PAsync.init]
  ended := by simp [PAsync.init]

theorem of_post_done {x : PAsync P} {i : sp.Id} {r : Except LErr (Report P)} (hr : x.post.node i = some (.done r)) :
    x.node i = some (.done r) := by
  simp only [PAsync.post, PAsync.returned] at hr
  split at hr
  · rename_i h1
    simp only [Option.some.injEq, RunState.done.injEq] at hr
    rw [h1, hr]
  · cases hr

theorem to_post_done {x : PAsync P} {i : sp.Id} {r : Except LErr (Report P)} (hr : x.node i = some (.done r)) :
    x.post.node i = some (.done r) := by
  simp [PAsync.post, PAsync.returned, hr]

theorem DispatchStep.post {x : PAsync P} {y : Async P} (hs : DispatchStep g x.post y) :
    PAsync.post { x with inbox := y.inbox, chan := y.chan, disp := y.disp } = y := by
  cases hs <;> rfl

namespace PAsyncAny

variable {ρ : sp.Id → sp.Rng} {x : PAsync P} {c : PNet P}

theorem not_joined (h : PAsyncAny g ρ x c) {i : sp.Id} (hn : ∀ s st, x.node i ≠ some (.running s st)) : x.joined i = false := by
  by_contra hj
  obtain ⟨s, st, h1, -⟩ := h.joined i (by simpa using hj)
  exact hn s st h1

theorem node_eq (h : PAsyncAny g ρ x c) {i : sp.Id} (hj : x.joined i = false) : c.node i = x.node i := by
  rw [h.node i]
  simp [PAsync.view, hj]

theorem done (h : PAsyncAny g ρ x c) {i : sp.Id} {r : Except LErr (Report P)} (hr : x.node i = some (.done r)) :
    c.node i = some (.done r) := by
  rw [h.node_eq (h.not_joined (by rw [hr]; simp)), hr]

theorem held (h : PAsyncAny g ρ x c) {p : Packet sp} (hp : p ∈ x.disp.held) : p ∈ c.wire := by
  rw [h.wire.mem_iff]
  simp [Async.flight, PAsync.post, hp]

theorem dispatch (h : PAsyncAny g ρ x c) {y : Async P} (hs : DispatchStep g x.post y) (hf : y.disp ≠ .failed) :
    PAsyncAny g ρ { x with inbox := y.inbox, chan := y.chan, disp := y.disp } c := by
  have hret := hs.returns
  obtain ⟨e1, e2, -, e4, e5, e6, -⟩ := hs.effect_of hf
  refine ⟨h.takes, h.node, ?_, h.party, h.sends, h.joined, ?_, ?_⟩
  · rw [hs.post]
    exact h.wire.trans e4.symm
  · intro i p hp
    rcases e5 i p hp with h1 | h1
    · exact h.inbox i p h1
    · exact h1
  · intro hr
    refine ⟨?_, hret hr⟩
    intro i hi
    obtain ⟨r, h1⟩ := e6 hr i hi
    exact ⟨r, of_post_done h1⟩

/-- A party makes a step of the network. -/
theorem act (h : PAsyncAny g ρ x c) {i : sp.Id} (hi : g.parties.contains i = true) (hout : x.outbox i = [])
    {st st' : ParState P} {b : Bool} {out : List (Message sp)} (hnd : ∀ r, x.node i ≠ some (.done r))
    (hst : out ≠ [] → ∃ s a, st = .running s a) (hview : (if b then parStep st (.tick (ρ i)) else some st) = some st')
    (hb : b = true → ∃ s a, st = .running s a ∧ a.accum.canFinalize ≠ .notYet)
    (hs : PNetStep g c (c.put i st' out)) : PAsyncAny g ρ (x.put i st b out) (c.put i st' out) := by
  classical
  obtain ⟨⟨kn, h1⟩, h2, h3, hp, h4, h0, h5, h7⟩ := h
  obtain ⟨rest, e1, e2⟩ := x.post.outgoing_split g hi
  have e3 := e2 (x.put i st b out).post out rfl
  rw [show x.post.outbox i = [] from hout] at e1
  refine ⟨⟨_, .step h1 hs⟩, ?_, ?_, ?_, ?_, ?_, h5, ?_⟩
  · intro j
    by_cases hji : j = i
    · subst hji
      simp only [PNet.put, PAsync.view, PAsync.put, Function.update_self, Option.bind_some]
      exact hview.symm
    · simp only [PNet.put, PAsync.view, PAsync.put, Function.update_of_ne hji]
      exact h2 j
  · rw [List.perm_iff_count]
    intro a
    have h9 := h3.count_eq a
    have h10 := e1.count_eq a
    have h11 := e3.count_eq a
    rw [show packetOf i = (fun m : Message sp => (⟨i, m.destination, m⟩ : Packet sp)) from rfl] at h11
    simp only [Async.flight, PNet.put, PAsync.put, PAsync.post, List.map_nil, List.nil_append, List.count_append, Async.incoming]
      at h9 h10 h11 ⊢
    omega
  · intro j st' hj
    by_cases hji : j = i
    · subst hji
      exact hi
    · simp only [PAsync.put, Function.update_of_ne hji] at hj
      exact hp j st' hj
  · intro j hjo
    by_cases hji : j = i
    · subst hji
      simp only [PAsync.put, Function.update_self] at hjo ⊢
      obtain ⟨s, a, rfl⟩ := hst hjo
      exact ⟨s, a, rfl⟩
    · simp only [PAsync.put, Function.update_of_ne hji] at hjo ⊢
      exact h4 j hjo
  · intro j hjo
    by_cases hji : j = i
    · subst hji
      simp only [PAsync.put, Function.update_self] at hjo ⊢
      obtain ⟨s, a, rfl, h⟩ := hb hjo
      exact ⟨s, a, rfl, h⟩
    · simp only [PAsync.put, Function.update_of_ne hji] at hjo ⊢
      exact h0 j hjo
  · intro hr
    obtain ⟨r, hr⟩ := (h7 hr).1 i hi
    exact absurd hr (hnd r)

/-- A party receives a message from its channel. -/
theorem take (h : PAsyncAny g ρ x c) {i : sp.Id} {p : Packet sp} {ps : List (Packet sp)}
    (hin : x.inbox i = p :: ps) (hout : x.outbox i = []) (hj : x.joined i = false) {s : Session P} {st : ParSt P} {st' : ParState P}
    (hn : x.node i = some (.running s st)) (hs : parStep (.running s st) (.op (.deliver p.src p.message)) = some st') :
    ∃ c', PAsyncAny g ρ (PAsync.put { x with inbox := Function.update x.inbox i ps } i st' false []) c' := by
  classical
  have hi := h.party _ _ hn
  have hcn := h.node_eq hj
  obtain ⟨⟨kn, h1⟩, h2, h3, hpt, h4, h0, h5, h7⟩ := h
  have hd : p.dest = i := h5 i p (by rw [hin]; simp)
  obtain ⟨rest, e1, e2⟩ := x.post.incoming_split g hi
  have e3 := e2 (PAsync.put { x with inbox := Function.update x.inbox i ps } i st' false []).post ps rfl
  obtain ⟨rest', g1, g2⟩ := x.post.outgoing_split g hi
  have g3 := g2 (PAsync.put { x with inbox := Function.update x.inbox i ps } i st' false []).post [] rfl
  rw [show x.post.inbox i = p :: ps from hin] at e1
  rw [show x.post.outbox i = [] from hout] at g1
  have hp : p ∈ c.wire := by
    rw [h3.mem_iff]
    simp only [Async.flight, List.mem_append]
    right
    rw [e1.mem_iff]
    simp
  obtain ⟨w, w', hw⟩ := List.append_of_mem hp
  subst hd
  refine ⟨PNet.put ⟨c.node, w ++ w'⟩ p.dest st' [], ⟨_, .step h1 (.deliver hw (by rw [hcn]; exact hn) hs)⟩, ?_, ?_, ?_, ?_, ?_, ?_, ?_⟩
  · intro j
    by_cases hji : j = p.dest
    · subst hji
      simp [PNet.put, PAsync.view, PAsync.put]
    · simp only [PNet.put, PAsync.view, PAsync.put, Function.update_of_ne hji]
      exact h2 j
  · rw [List.perm_iff_count]
    intro a
    have h9 := h3.count_eq a
    have h10 := e1.count_eq a
    have h11 := e3.count_eq a
    have h12 := g1.count_eq a
    have h13 := g3.count_eq a
    rw [hw] at h9
    simp only [Async.flight, PNet.put, PAsync.put, PAsync.post, List.map_nil, List.nil_append, List.append_nil, List.cons_append,
      List.count_append, List.count_cons] at h9 h10 h11 h12 h13 ⊢
    omega
  · intro j st'' hj
    by_cases hji : j = p.dest
    · subst hji
      exact hi
    · simp only [PAsync.put, Function.update_of_ne hji] at hj
      exact hpt j st'' hj
  · intro j hjo
    by_cases hji : j = p.dest
    · subst hji
      simp [PAsync.put] at hjo
    · simp only [PAsync.put, Function.update_of_ne hji] at hjo ⊢
      exact h4 j hjo
  · intro j hjo
    by_cases hji : j = p.dest
    · subst hji
      simp [PAsync.put] at hjo
    · simp only [PAsync.put, Function.update_of_ne hji] at hjo ⊢
      exact h0 j hjo
  · intro j q hq
    by_cases hji : j = p.dest
    · subst hji
      simp only [PAsync.put, Function.update_self] at hq
      exact h5 _ _ (by rw [hin]; exact List.mem_cons_of_mem _ hq)
    · simp only [PAsync.put, Function.update_of_ne hji] at hq
      exact h5 _ _ hq
  · intro hr
    obtain ⟨r, hr⟩ := (h7 hr).1 _ hi
    rw [hn] at hr
    cases hr

theorem not_ended (h : PAsyncAny g ρ x c) (hf : x.disp ≠ .failed) {i : sp.Id} {s : Session P} {st : ParSt P}
    (hn : x.node i = some (.running s st)) : ¬ x.Ended := by
  rintro (he | he)
  · obtain ⟨r, hr⟩ := (h.ended he).1 i (h.party _ _ hn)
    rw [hn] at hr
    cases hr
  · exact hf he

/-- A round is finalized. -/
theorem finalize {i : sp.Id} {rng : sp.Rng} (h : PAsyncAny g (Function.update ρ i rng) x c) {st st' : ParState P}
    (hn : x.node i = some st) (hj : x.joined i = true) (hout : x.outbox i = []) (hs : parStep st (.tick rng) = some st') :
    PAsyncAny g ρ (x.put i st' false []) c := by
  classical
  have hi := h.party _ _ hn
  obtain ⟨h1, h2, h3, hpt, h4, h0, h5, h7⟩ := h
  obtain ⟨rest, e1, e2⟩ := x.post.outgoing_split g hi
  have e3 := e2 (x.put i st' false []).post [] rfl
  rw [show x.post.outbox i = [] from hout] at e1
  refine ⟨h1, ?_, ?_, ?_, ?_, ?_, h5, ?_⟩
  · intro j
    rw [h2 j]
    by_cases hji : j = i
    · subst hji
      simp [PAsync.view, PAsync.put, hj, hn, hs]
    · simp only [PAsync.view, PAsync.put, Function.update_of_ne hji]
  · rw [List.perm_iff_count]
    intro a
    have h9 := h3.count_eq a
    have h10 := e1.count_eq a
    have h11 := e3.count_eq a
    simp only [Async.flight, PAsync.put, PAsync.post, List.map_nil, List.nil_append, List.count_append, Async.incoming] at h9 h10 h11 ⊢
    omega
  · intro j st'' hj'
    by_cases hji : j = i
    · subst hji
      exact hi
    · simp only [PAsync.put, Function.update_of_ne hji] at hj'
      exact hpt j st'' hj'
  · intro j hjo
    by_cases hji : j = i
    · subst hji
      simp [PAsync.put] at hjo
    · simp only [PAsync.put, Function.update_of_ne hji] at hjo ⊢
      exact h4 j hjo
  · intro j hjo
    by_cases hji : j = i
    · subst hji
      simp [PAsync.put] at hjo
    · simp only [PAsync.put, Function.update_of_ne hji] at hjo ⊢
      exact h0 j hjo
  · intro hr
    obtain ⟨r, hr⟩ := (h7 hr).1 i hi
    rw [hn] at hr
    cases hr
    simp [parStep] at hs

/-- As long as the dispatcher does not fail, a step of `run_async` is a step of the network, or does not show there. -/
theorem step {x' : PAsync P} (h : ∀ ρ, ∃ c, PAsyncAny g ρ x c) (hf : x.disp ≠ .failed) (hs : PAsyncStep g x x')
    (hf' : x'.disp ≠ .failed) (ρ : sp.Id → sp.Rng) : ∃ c, PAsyncAny g ρ x' c := by
  classical
  obtain ⟨c, h0⟩ := h ρ
  cases hs with
  | @start i rng rng' hi hn =>
    have hout : x.outbox i = [] := by
      by_contra hc
      obtain ⟨s, a, h1⟩ := h0.sends i hc
      rw [hn] at h1
      cases h1
    have hj := h0.not_joined (i := i) (by rw [hn]; simp)
    exact ⟨_, h0.act hi hout (by rw [hn]; simp) (by simp) (by simp) (by simp)
      (.start rng rng' hi (by rw [h0.node_eq hj]; exact hn))⟩
  | @push i m ms hout hlen hne =>
    obtain ⟨s, a, hn⟩ := h0.sends i (by rw [hout]; simp)
    have hi := h0.party _ _ hn
    obtain ⟨rest, e1, e2⟩ := x.post.outgoing_split g hi
    have e3 := e2 (PAsync.post { x with outbox := Function.update x.outbox i ms, chan := x.chan ++ [⟨i, m.destination, m⟩] }) ms rfl
    rw [show x.post.outbox i = m :: ms from hout] at e1
    obtain ⟨h1, h2, h3, hpt, h4, h0, h5, h7⟩ := h0
    refine ⟨c, h1, h2, ?_, hpt, ?_, h0, h5, ?_⟩
    · rw [List.perm_iff_count]
      intro a
      have h9 := h3.count_eq a
      have h10 := e1.count_eq a
      have h11 := e3.count_eq a
      rw [show (⟨i, m.destination, m⟩ : Packet sp) = packetOf i m from rfl] at h11 ⊢
      simp only [Async.flight, PAsync.post, Async.incoming, List.map_cons, List.cons_append, List.count_append, List.count_cons,
        List.count_nil] at h9 h10 h11 ⊢
      omega
    · intro j hjo
      by_cases hji : j = i
      · subst hji
        exact ⟨s, a, hn⟩
      · simp only [Function.update_of_ne hji] at hjo
        exact h4 j hjo
    · intro hr
      exact absurd (Or.inl hr) hne
  | @pushErr i m ms hout he =>
    obtain ⟨s, a, hn⟩ := h0.sends i (by rw [hout]; simp)
    exact (h0.not_ended hf hn he).elim
  | @task i s st st' o hn hj hout ho hst =>
    have hcn : c.node i = some (.running s st) := by rw [h0.node_eq hj]; exact hn
    obtain ⟨kn, hk⟩ := h0.takes
    have hok := hk.outOk hcn
    exact ⟨_, h0.act (h0.party _ _ hn) hout (by rw [hn]; simp) (fun h1 => by obtain ⟨st1, h2⟩ := hok.out hst h1; exact ⟨_, _, h2⟩)
      (by simp) (by simp) (.task hcn ho hst)⟩
  | @recv i s st st' p ps hn hj hout hin hst => exact h0.take hin hout hj hn hst
  | @closed i s st st' hn hj hout hin he hst => exact (h0.not_ended hf hn he).elim
  | @join i s st hn hj hout hc hf =>
    have hcn : c.node i = some (.running s st) := by rw [h0.node_eq hj]; exact hn
    obtain ⟨st', hst⟩ := parStep_tick (s := s) hc (ρ i)
    have hp := PNetStep.tick (g := g) hcn hst
    rw [parOut_tick] at hp
    exact ⟨_, h0.act (h0.party _ _ hn) hout (by rw [hn]; simp) (fun _ => ⟨s, st, rfl⟩) (by simpa using hst)
      (fun _ => ⟨s, st, rfl, hc⟩) hp⟩
  | @tick i st st' rng hn hj hout hst =>
    obtain ⟨c', h1⟩ := h (Function.update ρ i rng)
    exact ⟨c', h1.finalize hn hj hout hst⟩
  | dispatch hd => exact ⟨_, h0.dispatch hd hf'⟩

end PAsyncAny

/-- The dispatcher fails for good. -/
theorem PAsyncStep.stays_failed {x x' : PAsync P} (hs : PAsyncStep g x x') (hf : x.disp = .failed) : x'.disp = .failed := by
  cases hs with
  | dispatch hd => exact absurd (Or.inr hf) hd.going
  | start => exact hf
  | push => exact hf
  | pushErr => exact hf
  | tick => exact hf
  | task => exact hf
  | join => exact hf
  | recv => exact hf
  | closed => exact hf

theorem PAsyncAny.of {k : Nat} {x : PAsync P} (h : PAsyncTakes g k x) (hf : x.disp ≠ .failed) (ρ : sp.Id → sp.Rng) :
    ∃ c, PAsyncAny g ρ x c := by
  induction h generalizing ρ with
  | init => exact ⟨_, PAsyncAny.init ρ⟩
  | step _ hs ih =>
    have hf0 := fun h0 => hf (hs.stays_failed h0)
    exact PAsyncAny.step (ih hf0) hf0 hs hf ρ

/-- Whether a party has returned stays so. -/
theorem PAsyncStep.stays_done {x x' : PAsync P} (hs : PAsyncStep g x x') {i : sp.Id} (hi : ∃ r, x.node i = some (.done r)) :
    ∃ r, x'.node i = some (.done r) := by
  obtain ⟨r, hi⟩ := hi
  have hput : ∀ {y : PAsync P} {j : sp.Id} {st : ParState P} {b : Bool} {out : List (Message sp)}, y.node i = some (.done r) →
      (j = i → ∃ r, st = .done r) → ∃ r, (y.put j st b out).node i = some (.done r) := by
    intro y j st b out hy hj
    by_cases hji : i = j
    · subst hji
      obtain ⟨r', rfl⟩ := hj rfl
      exact ⟨r', by simp [PAsync.put]⟩
    · exact ⟨r, by simp [PAsync.put, Function.update_of_ne hji, hy]⟩
  cases hs with
  | start _ _ _ hn => exact hput hi (by rintro rfl; rw [hi] at hn; cases hn)
  | push => exact ⟨r, hi⟩
  | pushErr => exact hput hi (fun _ => ⟨_, rfl⟩)
  | task hn => exact hput hi (by rintro rfl; rw [hi] at hn; cases hn)
  | @recv j s st st' p ps hn =>
    exact hput (y := { x with inbox := Function.update x.inbox j ps }) hi (by rintro rfl; rw [hi] at hn; cases hn)
  | closed hn => exact hput hi (by rintro rfl; rw [hi] at hn; cases hn)
  | join hn => exact hput hi (by rintro rfl; rw [hi] at hn; cases hn)
  | tick hn _ _ hst =>
    exact hput hi (by rintro rfl; rw [hi] at hn; cases hn; exact absurd rfl (parStep_running hst r))
  | dispatch hd => exact ⟨r, hi⟩

end Manul
