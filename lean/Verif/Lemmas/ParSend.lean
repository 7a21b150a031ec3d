import Verif.Spec.ParSend
import Verif.Lemmas.Par
import Verif.Lemmas.Honest
import Mathlib.Data.List.Perm.Subperm

/-!
# Lemmas on the parallel driver with a slow or closed outgoing channel and failing tasks
-/

namespace Manul

variable {sp : SP} {P : Proto sp}

/-! ## The order in which the remaining messages are sent -/

/-- Adding the artifact of a created message. -/
def addCreated (a : Accum P) (c : Created P) : Except LErr (Accum P) := a.addArtifact c.2

theorem BMap.insert_comm {K V : Type} [LinearOrder K] {m : BMap K V} {k k' : K} {v v' : V} (h : k ≠ k') :
    (m.insert k v).insert k' v' = (m.insert k' v').insert k v := by
  ext1 x
  simp only [BMap.get?_insert]
  by_cases h1 : x = k <;> by_cases h2 : x = k' <;> simp_all

/-- Two computations one after the other. -/
def andThen {ε σ : Type} (r : Except ε σ) (f : σ → Except ε σ) : Except ε σ :=
  match r with
  | .error e => .error e
  | .ok s => f s

theorem addCreated_comm (a : Accum P) (c c' : Created P) :
    andThen (addCreated a c) (fun b => addCreated b c') = andThen (addCreated a c') (fun b => addCreated b c) := by
  unfold addCreated Accum.addArtifact
  by_cases h : a.artifacts.contains c.2.destination = true
  · by_cases h' : a.artifacts.contains c'.2.destination = true
    · simp [h, h', andThen]
    · simp [h, h', andThen, BMap.contains_insert]
  · by_cases h' : a.artifacts.contains c'.2.destination = true
    · simp [h, h', andThen, BMap.contains_insert]
    · by_cases he : c.2.destination = c'.2.destination
      · rw [he] at h ⊢
        simp [h', andThen, BMap.contains_insert]
      · simp [h, h', andThen, BMap.contains_insert, he, Ne.symm he, BMap.insert_comm he]

theorem foldE_cons_andThen {ε σ α : Type} (f : σ → α → Except ε σ) (s : σ) (x : α) (l : List α) :
    foldE f s (x :: l) = andThen (f s x) (fun s' => foldE f s' l) := by
  simp only [foldE, andThen]
  cases f s x <;> rfl

theorem andThen_assoc {ε σ : Type} (r : Except ε σ) (f g : σ → Except ε σ) :
    andThen (andThen r f) g = andThen r (fun s => andThen (f s) g) := by
  cases r <;> rfl

theorem foldE_perm {ε σ α : Type} {f : σ → α → Except ε σ}
    (hf : ∀ s x y, andThen (f s x) (fun t => f t y) = andThen (f s y) (fun t => f t x)) {l l' : List α} (h : l.Perm l') (s : σ) :
    foldE f s l = foldE f s l' := by
  induction h generalizing s with
  | nil => rfl
  | cons x _ ih =>
    rw [foldE_cons_andThen, foldE_cons_andThen]
    congr 1
    funext s'
    exact ih s'
  | swap x y l =>
    simp only [foldE_cons_andThen]
    rw [← andThen_assoc, ← andThen_assoc, hf]
  | trans _ _ ih1 ih2 => rw [ih1, ih2]

theorem mapE_created {s : Session P} : ∀ {l : List (OutTask P)},
    mapE (created s) l = match mapE (fun x : OutTask P => x.2) l with
      | .error e => .error e
      | .ok r => .ok ((l.map (·.1)).zipWith (fun d (x : Message sp × ProcessedArtifact P) => (⟨s.sessionId, s.me, d, x.1⟩, x.2)) r)
  | [] => rfl
  | (d, r) :: l => by
    cases r with
    | error e => rfl
    | ok x =>
      obtain ⟨m, art⟩ := x
      have ih := mapE_created (s := s) (l := l)
      simp only [mapE, created]
      rw [ih]
      cases mapE (fun x : OutTask P => x.2) l with
      | error e => rfl
      | ok r => rfl

theorem mapE_length {ε α β : Type} {f : α → Except ε β} : ∀ {l : List α} {r : List β}, mapE f l = .ok r → r.length = l.length
  | [], r, h => by
    simp only [mapE, Except.ok.injEq] at h
    subst h
    rfl
  | x :: l, r, h => by
    simp only [mapE] at h
    cases hx : f x with
    | error e => simp [hx] at h
    | ok y =>
      simp only [hx] at h
      cases hl : mapE f l with
      | error e => simp [hl] at h
      | ok r' =>
        simp only [hl, Except.ok.injEq] at h
        subst h
        simp [mapE_length hl]

theorem foldE_zip {s : Session P} : ∀ {ds : List sp.Id} {r : List (Message sp × ProcessedArtifact P)} (a : Accum P), r.length = ds.length →
    foldE (fun a x => Accum.addArtifact a x.2) a r =
      foldE addCreated a (ds.zipWith (fun d (x : Message sp × ProcessedArtifact P) => (⟨s.sessionId, s.me, d, x.1⟩, x.2)) r)
  | [], [], _, _ => rfl
  | [], _ :: _, _, h => by simp at h
  | _ :: _, [], _, h => by simp at h
  | d :: ds, x :: r, a, h => by
    simp only [List.zipWith_cons_cons, foldE, addCreated]
    cases a.addArtifact x.2 with
    | error e => rfl
    | ok a' => exact foldE_zip a' (by simpa using h)

/-- The join of `Model/Par` in terms of the messages sent one at a time, in any order. -/
theorem parJoin_created {s : Session P} {st : ParSt P} {l l' : List (Created P)} (h : mapE (created s) st.outgoing = .ok l)
    (hp : l'.Perm l) : parJoin st = foldE addCreated st.accum l' := by
  rw [foldE_perm addCreated_comm hp]
  rw [mapE_created] at h
  unfold parJoin
  cases hm : mapE (fun x : OutTask P => x.2) st.outgoing with
  | error e => simp [hm] at h
  | ok r =>
    simp only [hm, Except.ok.injEq] at h
    subst h
    simp only
    exact foldE_zip _ (by simpa using mapE_length hm)

theorem parJoin_failed {s : Session P} {st : ParSt P} {e : LErr} (h : mapE (created s) st.outgoing = .error e) :
    parJoin st = .error e := by
  rw [mapE_created] at h
  unfold parJoin
  cases hm : mapE (fun x : OutTask P => x.2) st.outgoing with
  | error e' => simpa [hm] using h
  | ok r => simp [hm] at h

/-! ## Refinement -/

theorem created_ok {s : Session P} {o : OutTask P} {c : Created P} (h : created s o = .ok c) :
    o.2 = .ok (c.1.message, c.2) ∧ c.1.dest = o.1 ∧ c.1.sender = s.me ∧ c.1.sessionId = s.sessionId := by
  obtain ⟨d, r⟩ := o
  unfold created at h
  cases r with
  | error e => simp at h
  | ok x =>
    obtain ⟨m, art⟩ := x
    simp only [Except.ok.injEq] at h
    subst h
    exact ⟨rfl, rfl, rfl, rfl⟩

theorem created_error {s : Session P} {o : OutTask P} {e : LErr} : created s o = .error e ↔ o.2 = .error e := by
  obtain ⟨d, r⟩ := o
  unfold created
  cases r <;> simp

/-- What the state says about the coarse driver. -/
def PSInv (s₀ : Session P) : PSState P → Prop
  | .loop s st => ParRun s₀ (.running s st)
  | .offering s st c => ∃ st₀ i o, ParRun s₀ (.running s st₀) ∧ st₀.accum.canFinalize = .notYet ∧ st₀.outgoing[i]? = some o ∧
      created s o = .ok c ∧ st = { st₀ with outgoing := st₀.outgoing.eraseIdx i }
  | .rest s a l next => ∃ st₀ ev, ParRun s₀ (.running s st₀) ∧ Leaves st₀.accum ev next ∧ parJoin st₀ = foldE addCreated a l
  | .done (.ok r) => ParRun s₀ (.done (.ok r))
  | .done (.error (.inner e)) => ParRun s₀ (.done (.error e))
  | .done (.error _) => True

theorem leave_terminate {s₀ s : Session P} {st : ParSt P} {ev : PSEvent sp} (hr : ParRun s₀ (.running s st))
    (hl : Leaves st.accum ev none) : ParRun s₀ (parTerminate s st) := by
  generalize hn : (none : Option sp.Rng) = nx at hl
  cases hl with
  | yes => simp at hn
  | never h =>
    by_cases hi : Nonempty sp.Rng
    · obtain ⟨rng⟩ := hi
      exact .step (ev := .tick rng) hr (by simp only [parStep, h])
    · exfalso
      clear h hn
      generalize (ParState.running s st : ParState P) = x at hr
      induction hr with
      | start rng => exact hi ⟨rng⟩
      | step _ _ ih => exact ih
  | cancel h => exact .step (ev := .cancel) hr (by simp only [parStep, h])

theorem leave_finish {s₀ s : Session P} {st : ParSt P} {ev : PSEvent sp} {rng : sp.Rng} (hr : ParRun s₀ (.running s st))
    (hl : Leaves st.accum ev (some rng)) : ParRun s₀ (parFinish s st rng) := by
  generalize hn : (some rng : Option sp.Rng) = nx at hl
  cases hl with
  | yes rng' h =>
    simp only [Option.some.injEq] at hn
    subst hn
    exact .step (ev := .tick rng) hr (by simp only [parStep, h])
  | never h => simp at hn
  | cancel h => simp at hn

/-- The coarse driver fails in the join. -/
theorem leave_fails {s₀ s : Session P} {st : ParSt P} {ev : PSEvent sp} {next : Option sp.Rng} {e : LErr}
    (hr : ParRun s₀ (.running s st)) (hl : Leaves st.accum ev next) (hj : parJoin st = .error e) : ParRun s₀ (.done (.error e)) := by
  cases next with
  | none =>
    have := leave_terminate hr hl
    unfold parTerminate at this
    simpa only [hj] using this
  | some rng =>
    have := leave_finish hr hl
    unfold parFinish at this
    simpa only [hj] using this

theorem psInv_step {s₀ : Session P} {st st' : PSState P} {ev : PSEvent sp} {out : List (MessageOut sp)} {fin : List (Session P)}
    (hi : PSInv s₀ st) (h : PSStep st ev out fin st') : PSInv s₀ st' := by
  cases h with
  | @deliver s st st' x m hc ho => exact .step (ev := .op (.deliver x m)) hi (by simp only [parStep, hc, ho])
  | @deliverFails s st x m e hc ho => exact .step (ev := .op (.deliver x m)) hi (by simp only [parStep, hc, ho])
  | @complete s st i vm a hc ht _ ha =>
    exact .step (ev := .op (.complete i)) hi (by simp only [parStep, hc, parOp, ht, ha])
  | @completeFails s st i vm e hc ht _ ha =>
    exact .step (ev := .op (.complete i)) hi (by simp only [parStep, hc, parOp, ht, ha])
  | @receive s st i o c hc ho hcr => exact ⟨st, i, o, hi, hc, ho, hcr, rfl⟩
  | @accept s st c a ha =>
    obtain ⟨st₀, i, o, h1, h2, h3, h4, rfl⟩ := hi
    have h5 := (created_ok h4).1
    refine .step (ev := .op (.send i)) h1 ?_
    obtain ⟨d, r⟩ := o
    simp only at h5 ha
    subst h5
    simp only [parStep, h2, parOp, h3, ha]
  | @acceptFails s st c e ha =>
    obtain ⟨st₀, i, o, h1, h2, h3, h4, rfl⟩ := hi
    have h5 := (created_ok h4).1
    refine .step (ev := .op (.send i)) h1 ?_
    obtain ⟨d, r⟩ := o
    simp only at h5 ha
    subst h5
    simp only [parStep, h2, parOp, h3, ha]
  | refuse => trivial
  | close hc => exact .step (ev := .close) hi (by simp only [parStep, hc])
  | join hl hm _ hp => exact ⟨_, _, hi, hl, parJoin_created hm hp⟩
  | @creationFailed s st ev next e hl hm =>
    unfold ParErr.ofTask
    split
    · trivial
    · exact leave_fails hi hl (parJoin_failed hm)
  | processingFailed => trivial
  | acceptRest ha =>
    obtain ⟨st₀, ev, h1, h2, h3⟩ := hi
    refine ⟨st₀, ev, h1, h2, ?_⟩
    rw [h3]
    simp only [foldE, addCreated, ha]
  | acceptRestFails ha =>
    obtain ⟨st₀, ev, h1, h2, h3⟩ := hi
    refine leave_fails h1 h2 ?_
    rw [h3]
    simp only [foldE, addCreated, ha]
  | refuseRest => trivial
  | terminate ht =>
    obtain ⟨st₀, ev, h1, h2, h3⟩ := hi
    have := leave_terminate h1 h2
    simp only [foldE] at h3
    unfold parTerminate at this
    simp only [h3, ht] at this
    exact this
  | terminateFails ht =>
    obtain ⟨st₀, ev, h1, h2, h3⟩ := hi
    have := leave_terminate h1 h2
    simp only [foldE] at h3
    unfold parTerminate at this
    simp only [h3, ht] at this
    exact this
  | finish hf =>
    obtain ⟨st₀, ev, h1, h2, h3⟩ := hi
    have := leave_finish h1 h2
    simp only [foldE] at h3
    unfold parFinish at this
    simp only [h3, hf] at this
    exact this
  | next hf =>
    obtain ⟨st₀, ev, h1, h2, h3⟩ := hi
    have := leave_finish h1 h2
    simp only [foldE] at h3
    unfold parFinish at this
    simp only [h3, hf] at this
    exact this
  | finalizeFails hf =>
    obtain ⟨st₀, ev, h1, h2, h3⟩ := hi
    have := leave_finish h1 h2
    simp only [foldE] at h3
    unfold parFinish at this
    simp only [h3, hf] at this
    exact this

theorem psRun_inv {s₀ : Session P} {trail : List (Session P)} {st : PSState P} {outs : List (MessageOut sp)}
    (h : PSRun s₀ trail st outs) : PSInv s₀ st := by
  induction h with
  | start rng => exact .start rng
  | step _ hs ih => exact psInv_step ih hs

/-! ## The messages sent -/

/-- The tasks are those of the session object. -/
def TasksOf (s : Session P) (l : List (OutTask P)) : Prop := ∀ o ∈ l, ∃ rng, o.2 = s.makeMessage rng o.1

theorem creation_tasksOf {s : Session P} {rng : sp.Rng} : ∀ {i : Nat} {ds : List sp.Id}, TasksOf s (creationTasks s rng i ds)
  | _, [] => by simp [TasksOf, creationTasks]
  | i, d :: ds => by
    intro o ho
    simp only [creationTasks, List.mem_cons] at ho
    rcases ho with rfl | ho
    · exact ⟨_, rfl⟩
    · exact creation_tasksOf o ho

theorem creation_fst {s : Session P} {rng : sp.Rng} : ∀ {i : Nat} {ds : List sp.Id},
    (creationTasks s rng i ds).map (·.1) = ds
  | _, [] => rfl
  | i, d :: ds => by simp [creationTasks, creation_fst]

theorem created_madeBy {s : Session P} {o : OutTask P} {c : Created P} (hm : ∃ rng, o.2 = s.makeMessage rng o.1)
    (h : created s o = .ok c) : MadeBy s c.1 := by
  obtain ⟨h1, h2, h3, h4⟩ := created_ok h
  obtain ⟨rng, hr⟩ := hm
  exact ⟨h3, h4, rng, c.2, by rw [h2, ← hr, h1]⟩

theorem mapE_created_ok {s : Session P} : ∀ {l : List (OutTask P)} {r : List (Created P)}, TasksOf s l → mapE (created s) l = .ok r →
    (∀ c ∈ r, MadeBy s c.1) ∧ r.map (·.1.dest) = l.map (·.1)
  | [], r, _, h => by
    simp only [mapE, Except.ok.injEq] at h
    subst h
    simp
  | o :: l, r, ht, h => by
    simp only [mapE] at h
    cases hx : created s o with
    | error e => simp [hx] at h
    | ok y =>
      simp only [hx] at h
      cases hl : mapE (created s) l with
      | error e => simp [hl] at h
      | ok r' =>
        simp only [hl, Except.ok.injEq] at h
        subst h
        obtain ⟨h1, h2⟩ := mapE_created_ok (fun o ho => ht o (List.mem_cons_of_mem _ ho)) hl
        have h3 := created_madeBy (ht o (List.mem_cons_self ..)) hx
        refine ⟨?_, ?_⟩
        · intro c hc
          rcases List.mem_cons.1 hc with rfl | hc
          · exact h3
          · exact h1 c hc
        · simp [h2, (created_ok hx).2.1]

/-- What has been sent in the current round and what is left. -/
def SentNow (cur : List (MessageOut sp)) : PSState P → Prop
  | .loop s st => (∀ o ∈ cur, MadeBy s o) ∧ TasksOf s st.outgoing ∧
      (cur.map (·.dest) ++ st.outgoing.map (·.1)).Perm s.destinations.elems
  | .offering s st c => (∀ o ∈ cur, MadeBy s o) ∧ TasksOf s st.outgoing ∧ MadeBy s c.1 ∧
      (cur.map (·.dest) ++ c.1.dest :: st.outgoing.map (·.1)).Perm s.destinations.elems
  | .rest s _ l _ => (∀ o ∈ cur, MadeBy s o) ∧ (∀ c ∈ l, MadeBy s c.1) ∧
      (cur.map (·.dest) ++ l.map (·.1.dest)).Perm s.destinations.elems
  | .done (.ok _) => ∃ s : Session P, RoundSent cur s
  | .done (.error _) => ∃ s : Session P, RoundPart cur s

theorem SentNow.part {cur : List (MessageOut sp)} {st : PSState P} (h : SentNow cur st) {s : Session P} (hs : st.session? = some s) :
    RoundPart cur s := by
  cases st with
  | loop s' st =>
    simp only [PSState.session?, Option.some.injEq] at hs
    subst hs
    exact ⟨(List.sublist_append_left ..).subperm.trans h.2.2.subperm, h.1⟩
  | offering s' st c =>
    simp only [PSState.session?, Option.some.injEq] at hs
    subst hs
    exact ⟨(List.sublist_append_left ..).subperm.trans h.2.2.2.subperm, h.1⟩
  | rest s' a l next =>
    simp only [PSState.session?, Option.some.injEq] at hs
    subst hs
    exact ⟨(List.sublist_append_left ..).subperm.trans h.2.2.subperm, h.1⟩
  | done r => simp [PSState.session?] at hs

theorem perm_eraseIdx {α : Type} {l : List α} {i : Nat} {x : α} (h : l[i]? = some x) : (x :: l.eraseIdx i).Perm l := by
  induction l generalizing i with
  | nil => simp at h
  | cons y l ih =>
    cases i with
    | zero =>
      simp only [List.getElem?_cons_zero, Option.some.injEq] at h
      subst h
      exact .refl _
    | succ i =>
      simp only [List.getElem?_cons_succ] at h
      simp only [List.eraseIdx_cons_succ]
      exact (List.Perm.swap ..).trans ((ih h).cons _)

theorem parOp_deliver_outgoing {s : Session P} {st st' : ParSt P} {x : sp.Id} {m : Message sp}
    (h : parOp s st (.deliver x m) = .ok st') : st'.outgoing = st.outgoing ∧ ∀ vm ∈ st.tasks, vm ∈ st'.tasks := by
  simp only [parOp] at h
  split at h
  · simp at h
  · split at h
    · simp only [Except.ok.injEq] at h
      subst h
      exact ⟨rfl, fun vm hv => List.mem_append_left _ hv⟩
    · simp only [Except.ok.injEq] at h
      subst h
      exact ⟨rfl, fun vm hv => hv⟩

/-- Within a round. -/
theorem sentNow_step {cur : List (MessageOut sp)} {st st' : PSState P} {ev : PSEvent sp} {out : List (MessageOut sp)}
    (hi : SentNow cur st) (h : PSStep st ev out [] st') : SentNow (cur ++ out) st' := by
  have part : ∀ {s : Session P} {e : ParErr}, st.session? = some s → out = [] → st' = .done (.error e) → SentNow (cur ++ out) st' := by
    rintro s e h1 rfl rfl
    rw [List.append_nil]
    exact ⟨s, hi.part h1⟩
  generalize hf : ([] : List (Session P)) = fin at h
  cases h with
  | @deliver s st st' x m hc ho =>
    rw [List.append_nil]
    obtain ⟨h1, h2, h3⟩ := hi
    have := (parOp_deliver_outgoing ho).1
    exact ⟨h1, by rw [this]; exact h2, by rw [this]; exact h3⟩
  | deliverFails => exact part rfl rfl rfl
  | complete => rw [List.append_nil]; exact hi
  | completeFails => exact part rfl rfl rfl
  | @receive s st i o c hc ho hcr =>
    rw [List.append_nil]
    obtain ⟨h1, h2, h3⟩ := hi
    refine ⟨h1, fun o' ho' => h2 o' (List.eraseIdx_subset ho'), created_madeBy (h2 o (List.mem_of_getElem? ho)) hcr, ?_⟩
    rw [(created_ok hcr).2.1]
    refine List.Perm.trans ?_ h3
    refine List.Perm.append_left _ ?_
    exact (perm_eraseIdx ho).map (·.1)
  | @accept s st c a ha =>
    obtain ⟨h1, h2, h3, h4⟩ := hi
    refine ⟨?_, h2, by simpa using h4⟩
    intro o ho
    rcases List.mem_append.1 ho with ho | ho
    · exact h1 o ho
    · simp only [List.mem_singleton] at ho
      subst ho
      exact h3
  | @acceptFails s st c e ha =>
    obtain ⟨h1, h2, h3, h4⟩ := hi
    refine ⟨s, ?_, ?_⟩
    · refine List.Subperm.trans ?_ h4.subperm
      rw [List.map_append, List.map_singleton, ← List.singleton_append (l := List.map _ st.outgoing), ← List.append_assoc]
      exact (List.sublist_append_left ..).subperm
    · intro o ho
      rcases List.mem_append.1 ho with ho | ho
      · exact h1 o ho
      · simp only [List.mem_singleton] at ho
        subst ho
        exact h3
  | refuse => exact part rfl rfl rfl
  | close => exact part rfl rfl rfl
  | @join s st ev next l l' hl hm _ hp =>
    rw [List.append_nil]
    obtain ⟨h1, h2, h3⟩ := hi
    obtain ⟨k1, k2⟩ := mapE_created_ok h2 hm
    refine ⟨h1, fun c hc => k1 c (hp.subset hc), ?_⟩
    refine List.Perm.trans (List.Perm.append_left _ ?_) h3
    rw [← k2]
    exact hp.map _
  | creationFailed => exact part rfl rfl rfl
  | processingFailed => exact part rfl rfl rfl
  | @acceptRest s a a' c l next ha =>
    obtain ⟨h1, h2, h3⟩ := hi
    refine ⟨?_, fun c hc => h2 c (List.mem_cons_of_mem _ hc), by simpa using h3⟩
    intro o ho
    rcases List.mem_append.1 ho with ho | ho
    · exact h1 o ho
    · simp only [List.mem_singleton] at ho
      subst ho
      exact h2 c (List.mem_cons_self ..)
  | @acceptRestFails s a c l next e ha =>
    obtain ⟨h1, h2, h3⟩ := hi
    refine ⟨s, ?_, ?_⟩
    · refine List.Subperm.trans ?_ h3.subperm
      rw [List.map_append, List.map_singleton, List.map_cons, ← List.singleton_append (l := List.map _ l), ← List.append_assoc]
      exact (List.sublist_append_left ..).subperm
    · intro o ho
      rcases List.mem_append.1 ho with ho | ho
      · exact h1 o ho
      · simp only [List.mem_singleton] at ho
        subst ho
        exact h2 c (List.mem_cons_self ..)
  | refuseRest => exact part rfl rfl rfl
  | @terminate s a r =>
    rw [List.append_nil]
    obtain ⟨h1, h2, h3⟩ := hi
    exact ⟨s, by simpa using h3, h1⟩
  | terminateFails => exact part rfl rfl rfl
  | @finish s a rng r =>
    rw [List.append_nil]
    obtain ⟨h1, h2, h3⟩ := hi
    exact ⟨s, by simpa using h3, h1⟩
  | next => simp at hf
  | finalizeFails => exact part rfl rfl rfl

theorem step_fin {st st' : PSState P} {ev : PSEvent sp} {out : List (MessageOut sp)} {fin : List (Session P)}
    (h : PSStep st ev out fin st') : fin = [] ∨ ∃ s a rng s' rng' cached, st = .rest s a [] (some rng) ∧ out = [] ∧ fin = [s] ∧
      st' = .loop s' (ParSt.begin s' rng' cached) := by
  cases h with
  | next => exact Or.inr ⟨_, _, _, _, _, _, rfl, rfl, rfl, rfl⟩
  | _ => exact Or.inl rfl

theorem psRun_sent {s₀ : Session P} {trail : List (Session P)} {st : PSState P} {outs : List (MessageOut sp)}
    (h : PSRun s₀ trail st outs) : ∃ ls cur, List.Forall₂ RoundSent ls trail ∧ outs = ls.flatten ++ cur ∧ SentNow cur st := by
  have hbegin : ∀ (s : Session P) (rng : sp.Rng) (cached : List (VerifiedMessage sp)),
      SentNow [] (.loop s (ParSt.begin s rng cached)) := by
    intro s rng cached
    exact ⟨by simp, creation_tasksOf, by simp [ParSt.begin, creation_fst]⟩
  induction h with
  | start rng => exact ⟨[], [], .nil, rfl, hbegin _ _ _⟩
  | @step trail fin st st' outs out ev _ hs ih =>
    obtain ⟨ls, cur, h1, rfl, h3⟩ := ih
    rcases step_fin hs with rfl | ⟨s, a, rng, s', rng', cached, rfl, rfl, rfl, rfl⟩
    · refine ⟨ls, cur ++ out, by simpa using h1, by simp, sentNow_step h3 hs⟩
    · obtain ⟨k1, k2, k3⟩ := h3
      refine ⟨ls ++ [cur], [], ?_, by simp, hbegin _ _ _⟩
      exact List.rel_append h1 (.cons ⟨by simpa using k3, k1⟩ .nil)

end Manul
