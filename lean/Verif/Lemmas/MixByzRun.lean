import Verif.Lemmas.ParByzRun
import Verif.Lemmas.MixNet
import Verif.Spec.MixByzantine
import Verif.Lemmas.Stall
import Verif.Lemmas.ParByzantineStall

/-! # Networks of parties using either driver: what is said about them, and executing schedules -/

namespace Manul

variable {sp : SP} {P : Proto sp} {par : sp.Id → Bool}

/-! ### The states -/

theorem MixState.embed_done {st : MixState P} {r : Except LErr (Report P)} : st.embed = .done r ↔ st.report = some r := by
  rcases st with (⟨s, b⟩ | r') | (⟨s, st'⟩ | r') <;> simp [MixState.embed, MixState.report]

theorem MixState.embed_running {st : MixState P} {s : Session P} {a : Accum P} :
    st.inRound = some (s, a) ↔ ∃ st', st.embed = .running s st' ∧ st'.accum = a := by
  rcases st with (⟨s', b⟩ | r') | (⟨s', st'⟩ | r')
  · simp only [MixState.inRound, MixState.embed, Option.some.injEq, Prod.mk.injEq, ParState.running.injEq]
    constructor
    · rintro ⟨rfl, rfl⟩
      exact ⟨_, ⟨rfl, rfl⟩, rfl⟩
    · rintro ⟨st', ⟨rfl, rfl⟩, rfl⟩
      exact ⟨rfl, rfl⟩
  · simp [MixState.inRound, MixState.embed]
  · simp only [MixState.inRound, MixState.embed, Option.some.injEq, Prod.mk.injEq, ParState.running.injEq]
    constructor
    · rintro ⟨rfl, rfl⟩
      exact ⟨_, ⟨rfl, rfl⟩, rfl⟩
    · rintro ⟨st', ⟨rfl, rfl⟩, rfl⟩
      exact ⟨rfl, rfl⟩
  · simp [MixState.inRound, MixState.embed]

theorem MixState.noTasks {st : MixState P} : st.NoTasks ↔ ∀ s st', st.embed = .running s st' → st'.tasks = [] ∧ st'.outgoing = [] := by
  rcases st with (⟨s, b⟩ | r') | (⟨s, st'⟩ | r')
  · simp [MixState.NoTasks, MixState.embed]
  · simp [MixState.NoTasks, MixState.embed]
  · simp [MixState.NoTasks, MixState.embed]
  · simp [MixState.NoTasks, MixState.embed]

theorem MixNet.embed_some {m : MixNet P} {i : sp.Id} {x : ParState P} : m.embed.node i = some x ↔ ∃ st, m.node i = some st ∧ st.embed = x := by
  simp [MixNet.embed]

theorem MixNet.embed_done {m : MixNet P} {i : sp.Id} {r : Except LErr (Report P)} :
    m.embed.node i = some (.done r) ↔ ∃ st, m.node i = some st ∧ st.report = some r := by
  rw [MixNet.embed_some]
  simp only [MixState.embed_done]

theorem mix_succeeded {m : MixNet P} {i : sp.Id} : PSucceeded m.embed i ↔ MixSucceeded m i := by
  unfold PSucceeded MixSucceeded
  constructor
  · rintro ⟨rep, v, h1, h2⟩
    obtain ⟨st, h3, h4⟩ := MixNet.embed_done.1 h1
    exact ⟨st, rep, v, h3, h4, h2⟩
  · rintro ⟨st, rep, v, h3, h4, h2⟩
    exact ⟨rep, v, MixNet.embed_done.2 ⟨st, h3, h4⟩, h2⟩

theorem mix_failed {m : MixNet P} {i : sp.Id} : PFailed m.embed i ↔ MixFailed m i := by
  unfold PFailed MixFailed
  constructor
  · rintro ⟨er, h1⟩
    obtain ⟨st, h3, h4⟩ := MixNet.embed_done.1 h1
    exact ⟨st, er, h3, h4⟩
  · rintro ⟨st, er, h3, h4⟩
    exact ⟨er, MixNet.embed_done.2 ⟨st, h3, h4⟩⟩

theorem mix_accuses {m : MixNet P} {i x : sp.Id} : PAccuses m.embed i x ↔ MixAccuses m i x := by
  unfold PAccuses MixAccuses
  constructor
  · rintro ⟨rep, h1, h2⟩
    obtain ⟨st, h3, h4⟩ := MixNet.embed_done.1 h1
    exact ⟨st, rep, h3, h4, h2⟩
  · rintro ⟨st, rep, h3, h4, h2⟩
    exact ⟨rep, MixNet.embed_done.2 ⟨st, h3, h4⟩, h2⟩

theorem mix_waitsFor {m : MixNet P} {i x : sp.Id} : PWaitsFor m.embed i x ↔ MixWaitsFor m i x := by
  unfold PWaitsFor MixWaitsFor
  constructor
  · rintro ⟨s, st', h1, h2⟩
    obtain ⟨st, h3, h4⟩ := MixNet.embed_some.1 h1
    exact ⟨st, s, st'.accum, h3, MixState.embed_running.2 ⟨st', h4, rfl⟩, h2⟩
  · rintro ⟨st, s, a, h3, h4, h2⟩
    obtain ⟨st', h5, rfl⟩ := MixState.embed_running.1 h4
    exact ⟨s, st', MixNet.embed_some.2 ⟨st, h3, h5⟩, h2⟩

theorem mix_stalled {H : sp.Id → Prop} {m : MixNet P} : PStalled H m.embed ↔ MixStalled H m := by
  constructor
  · intro h
    refine ⟨?_, ?_, ?_, ?_⟩
    · intro i hi hn
      exact h.started i hi (by simp [MixNet.embed, hn])
    · intro p hp hs st hn
      cases hr : st.inRound with
      | none => rfl
      | some sa =>
        obtain ⟨s, a⟩ := sa
        obtain ⟨st', h5, -⟩ := MixState.embed_running.1 hr
        exact absurd (MixNet.embed_some.2 ⟨st, hn, h5⟩) (h.delivered p hp hs s st')
    · intro i st hn
      exact MixState.noTasks.2 (fun s st' he => h.tasks i s st' (MixNet.embed_some.2 ⟨st, hn, he⟩))
    · intro i st s a hn hr
      obtain ⟨st', h5, rfl⟩ := MixState.embed_running.1 hr
      exact h.stuck i s st' (MixNet.embed_some.2 ⟨st, hn, h5⟩)
  · intro h
    refine ⟨?_, ?_, ?_, ?_⟩
    · intro i hi hn
      exact h.started i hi (by simpa [MixNet.embed] using hn)
    · intro p hp hs s st' hn
      obtain ⟨st, h3, h4⟩ := MixNet.embed_some.1 hn
      have h5 := MixState.embed_running.2 ⟨st', h4, rfl⟩
      rw [h.delivered p hp hs st h3] at h5
      cases h5
    · intro i s st' hn
      obtain ⟨st, h3, h4⟩ := MixNet.embed_some.1 hn
      exact MixState.noTasks.1 (h.tasks i st h3) s st' h4
    · intro i s st' hn
      obtain ⟨st, h3, h4⟩ := MixNet.embed_some.1 hn
      exact h.stuck i st s st'.accum h3 (MixState.embed_running.2 ⟨st', h4, rfl⟩)

/-- Where no step is possible, none is possible in the network with the parties seen as using `par_run_session`. -/
theorem mixByz_stuck {g : Group P} {H : sp.Id → Prop} {m : MixNet P} (hstuck : ∀ m', ¬ MixByzStep g H par (fun _ => False) m m') (c' : PNet P) :
    ¬ PByzStep g H (fun _ => False) m.embed c' := by
  intro hs
  have hnode : ∀ {i s st}, m.embed.node i = some (.running s st) →
      m.node i = some (.par (.running s st)) ∨ ∃ b, m.node i = some (.seq (.running s b)) ∧ st = ⟨b, [], []⟩ := by
    intro i s st hi
    obtain ⟨st0, h1, h2⟩ := MixNet.embed_some.1 hi
    rcases st0 with (⟨s0, b⟩ | r) | st0
    · simp only [MixState.embed, ParState.running.injEq] at h2
      obtain ⟨rfl, rfl⟩ := h2
      exact Or.inr ⟨b, h1, rfl⟩
    · simp [MixState.embed] at h2
    · simp only [MixState.embed] at h2
      subst h2
      exact Or.inl h1
  cases hs with
  | @start i rng₁ rng₂ hi hn =>
    have hn' : m.node i = none := by simpa [MixNet.embed] using hn
    cases hp : par i with
    | false => exact hstuck _ (.startSeq rng₁ rng₂ hi hp hn')
    | true => exact hstuck _ (.startPar rng₁ rng₂ hi hp hn')
  | @tick i s st st' rng₁ hn hst =>
    rcases hnode hn with h1 | ⟨b, h1, rfl⟩
    · exact hstuck _ (.tickPar h1 hst)
    · cases hc : b.canFinalize with
      | notYet => simp [parStep, hc] at hst
      | yes => exact hstuck _ (.tickSeq (rng := rng₁) (st' := (finishRound s b rng₁).1) (out := (finishRound s b rng₁).2) h1 (by simp only [step, hc]))
      | never => exact hstuck _ (.tickSeq (rng := rng₁) h1 (by simp only [step, hc]; rfl))
  | @task i s st st' o hn ho hst =>
    rcases hnode hn with h1 | ⟨b, h1, rfl⟩
    · exact hstuck _ (.task h1 ho hst)
    · cases o with
      | deliver => exact ho
      | complete j => simp [ParOp.Enabled] at ho
      | send j => simp [ParOp.Enabled] at ho
  | @deliver s st st' p w w' hw hn hst =>
    rcases hnode hn with h1 | ⟨b, h1, rfl⟩
    · exact hstuck _ (.deliverPar hw h1 hst)
    · cases hc : b.canFinalize with
      | notYet =>
        cases hd : deliver s b p.src p.message with
        | error er => exact hstuck _ (.deliverSeq hw h1 (by simp only [step, hc, hd]; rfl))
        | ok b' => exact hstuck _ (.deliverSeq hw h1 (by simp only [step, hc, hd]; rfl))
      | yes => simp [parStep, hc] at hst
      | never => simp [parStep, hc] at hst
  | inject _ hf => exact hf

/-- Every party is in a state of a run of its driver. -/
def MixOrigin (g : Group P) (i : sp.Id) (st : MixState P) : Prop :=
  (∃ e, st.report = some (.error e)) ∨ ∃ rng s₀, Session.new rng g.sid (g.signer i) (g.ep i) = .ok s₀ ∧
    ((∃ x, st = .seq x ∧ Reach s₀ x) ∨ ∃ x, st = .par x ∧ ParAny s₀ x)

theorem MixByzReach.origin {g : Group P} {H : sp.Id → Prop} {adv : Packet sp → Prop} {m : MixNet P} (h : MixByzReach g H par adv m) :
    ∀ i st, m.node i = some st → MixOrigin g i st := by
  have hput : ∀ {m : MixNet P} {j : sp.Id} {st' : MixState P} {out : List (Message sp)},
      (∀ i st, m.node i = some st → MixOrigin g i st) → MixOrigin g j st' → ∀ i st, (m.put j st' out).node i = some st → MixOrigin g i st := by
    intro m j st' out hm hj i st hi
    by_cases hij : i = j
    · subst hij
      simp only [MixNet.put, Function.update_self, Option.some.injEq] at hi
      subst hi
      exact hj
    · simp only [MixNet.put, Function.update_of_ne hij] at hi
      exact hm i st hi
  have hseq : ∀ {m : MixNet P} {j : sp.Id} {st st' : RunState P} {ev : Event sp} {out : List (Message sp)},
      (∀ i st, m.node i = some st → MixOrigin g i st) → m.node j = some (.seq st) → Manul.step st ev = some (st', out) → MixOrigin g j (.seq st') := by
    intro m j st st' ev out hm hn hs
    rcases hm j _ hn with ⟨e, he⟩ | ⟨rng, s₀, h1, ⟨x, hx, h2⟩ | ⟨x, hx, -⟩⟩
    · cases st with
      | running s a => simp [MixState.report] at he
      | done r => simp [Manul.step] at hs
    · cases hx
      exact Or.inr ⟨rng, s₀, h1, Or.inl ⟨_, rfl, .step h2 hs⟩⟩
    · cases hx
  have hpar : ∀ {m : MixNet P} {j : sp.Id} {s : Session P} {st : ParSt P} {st' : ParState P} {ev : ParEvent sp},
      (∀ i st, m.node i = some st → MixOrigin g i st) → m.node j = some (.par (.running s st)) →
      parStep (.running s st) ev = some st' → MixOrigin g j (.par st') := by
    intro m j s st st' ev hm hn hs
    rcases hm j _ hn with ⟨e, he⟩ | ⟨rng, s₀, h1, ⟨x, hx, -⟩ | ⟨x, hx, h2⟩⟩
    · simp [MixState.report] at he
    · cases hx
    · cases hx
      exact Or.inr ⟨rng, s₀, h1, Or.inr ⟨_, rfl, .step h2 hs⟩⟩
  induction h with
  | init => intro i st hi; simp [MixNet.init] at hi
  | step _ hs ih =>
    cases hs with
    | @startSeq i rng rng' hi hp hn =>
      apply hput ih
      unfold Group.startNode
      cases hn : Session.new rng g.sid (g.signer i) (g.ep i) with
      | error e => exact Or.inl ⟨e, rfl⟩
      | ok s => exact Or.inr ⟨rng, s, hn, Or.inl ⟨_, rfl, .start rng'⟩⟩
    | tickSeq hn hs => exact hput ih (hseq ih hn hs)
    | deliverSeq hw hn hs => exact hput (m := ⟨_, _⟩) ih (hseq ih hn hs)
    | @startPar i rng rng' hi hp hn =>
      apply hput ih
      unfold Group.startPar
      cases hn : Session.new rng g.sid (g.signer i) (g.ep i) with
      | error e => exact Or.inl ⟨e, rfl⟩
      | ok s => exact Or.inr ⟨rng, s, hn, Or.inr ⟨_, rfl, .start rng'⟩⟩
    | tickPar hn hs => exact hput ih (hpar ih hn hs)
    | task hn _ hs => exact hput ih (hpar ih hn hs)
    | deliverPar hw hn hs => exact hput (m := ⟨_, _⟩) ih (hpar ih hn hs)
    | inject _ _ => exact ih

/-! ### Schedules -/

/-- Executing a schedule; steps that are not possible are left out. -/
def mixAct (rng : sp.Rng) (g : Group P) (H : sp.Id → Bool) (par : sp.Id → Bool) (n : MixNet P) : PByzAct sp → MixNet P
  | .start i =>
    if H i = true ∧ (n.node i).isNone = true then
      if par i then n.put i (.par (g.startPar i rng rng)) []
      else n.put i (.seq (g.startNode i rng rng).1) (g.startNode i rng rng).2
    else n
  | .tick i =>
    match n.node i with
    | some (.par (.running s st)) =>
      match parStep (.running s st) (.tick rng) with
      | none => n
      | some st' => n.put i (.par st') (parOut st (.tick rng))
    | some (.seq st) =>
      match step st (.tick rng) with
      | none => n
      | some (st', out) => n.put i (.seq st') out
    | _ => n
  | .complete i k =>
    match n.node i with
    | some (.par (.running s st)) =>
      if k < st.tasks.length then
        match parStep (.running s st) (.op (.complete k)) with
        | none => n
        | some st' => n.put i (.par st') (parOut st (.op (.complete k)))
      else n
    | _ => n
  | .send i k =>
    match n.node i with
    | some (.par (.running s st)) =>
      match st.outgoing[k]? with
      | some (_, .ok _) =>
        match parStep (.running s st) (.op (.send k)) with
        | none => n
        | some st' => n.put i (.par st') (parOut st (.op (.send k)))
      | _ => n
    | _ => n
  | .deliver k =>
    match n.wire.drop k with
    | [] => n
    | p :: w' =>
      match n.node p.dest with
      | some (.par (.running s st)) =>
        match parStep (.running s st) (.op (.deliver p.src p.message)) with
        | none => n
        | some st' => MixNet.put ⟨n.node, n.wire.take k ++ w'⟩ p.dest (.par st') []
      | some (.seq st) =>
        match step st (.deliver p.src p.message) with
        | none => n
        | some (st', out) => MixNet.put ⟨n.node, n.wire.take k ++ w'⟩ p.dest (.seq st') out
      | _ => n
  | .inject p => if H p.src then n else ⟨n.node, n.wire ++ [p]⟩

theorem mixAct_reach (rng : sp.Rng) {g : Group P} {H : sp.Id → Bool} {adv : Packet sp → Prop} {a : PByzAct sp}
    (ha : ∀ p, a = .inject p → adv p) {n : MixNet P} (h : MixByzReach g (fun i => H i = true) par adv n) :
    MixByzReach g (fun i => H i = true) par adv (mixAct rng g H par n a) := by
  cases a with
  | start i =>
    simp only [mixAct]
    split
    · rename_i hc
      have hn : n.node i = none := by simpa using hc.2
      split
      · rename_i hp
        exact h.step (.startPar _ _ hc.1 hp hn)
      · rename_i hp
        exact h.step (.startSeq _ _ hc.1 (by simpa using hp) hn)
    · exact h
  | tick i =>
    simp only [mixAct]
    split
    · rename_i s st hn
      split
      · exact h
      · rename_i st' hs
        exact h.step (.tickPar hn hs)
    · rename_i st hn
      split
      · exact h
      · rename_i st' out hs
        exact h.step (.tickSeq hn hs)
    · exact h
  | complete i k =>
    simp only [mixAct]
    split
    · rename_i s st hn
      split
      · rename_i hk
        split
        · exact h
        · rename_i st' hs
          exact h.step (.task hn (o := .complete k) hk hs)
      · exact h
    · exact h
  | send i k =>
    simp only [mixAct]
    split
    · rename_i s st hn
      split
      · rename_i d r ho
        split
        · exact h
        · rename_i st' hs
          exact h.step (.task hn (o := .send k) ⟨_, r.1, ho, rfl⟩ hs)
      · exact h
    · exact h
  | deliver k =>
    simp only [mixAct]
    split
    · exact h
    · rename_i p w' hw
      have hw' : n.wire = n.wire.take k ++ p :: w' := by rw [← hw, List.take_append_drop]
      split
      · rename_i s st hn
        split
        · exact h
        · rename_i st' hs
          exact h.step (.deliverPar hw' hn hs)
      · rename_i st hn
        split
        · exact h
        · rename_i st' out hs
          exact h.step (.deliverSeq hw' hn hs)
      · exact h
  | inject p =>
    simp only [mixAct]
    split
    · exact h
    · rename_i hp
      exact h.step (.inject hp (ha p rfl))

theorem mixRun_reach (rng : sp.Rng) {g : Group P} {H : sp.Id → Bool} {adv : Packet sp → Prop} (l : List (PByzAct sp))
    (hl : ∀ p, .inject p ∈ l → adv p) {n : MixNet P} (h : MixByzReach g (fun i => H i = true) par adv n) :
    MixByzReach g (fun i => H i = true) par adv (l.foldl (mixAct rng g H par) n) := by
  induction l generalizing n with
  | nil => exact h
  | cons a l ih =>
    exact ih (fun p hp => hl p (List.mem_cons_of_mem _ hp)) (mixAct_reach rng (fun p hp => hl p (hp ▸ List.mem_cons_self)) h)

/-- Whether a party has recorded an error of another one, at the moment. -/
def mixBlames {P : Proto toy} (n : MixNet P) (i j : U8) : Bool :=
  match n.node (i : toy.Id) with
  | some st =>
    match st.inRound with
    | some (_, a) => a.unprovable.contains (j : toy.Id) || a.provable.contains (j : toy.Id)
    | none => false
  | none => false

theorem mixBlames_ok {P : Proto toy} {n : MixNet P} {i j : U8} (h : mixBlames n i j = true) :
    ∃ st s a, n.node (i : toy.Id) = some st ∧ st.inRound = some (s, a) ∧ HasError s a (j : toy.Id) := by
  unfold mixBlames at h
  split at h
  · rename_i st hn
    split at h
    · rename_i s a hr
      refine ⟨st, s, a, hn, hr, ?_⟩
      rw [Bool.or_eq_true] at h
      rcases h with h | h
      · obtain ⟨x, hx⟩ := BMap.contains_iff.1 h
        exact Or.inr (Or.inr (Or.inr ⟨x, hx⟩))
      · obtain ⟨x, hx⟩ := BMap.contains_iff.1 h
        exact Or.inr (Or.inr (Or.inl ⟨x, hx⟩))
    · simp at h
  · simp at h

end Manul
