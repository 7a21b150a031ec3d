import Verif.Lemmas.OpenOrder
import Verif.Lemmas.ParEquivocation
import Verif.Spec.ParLockStep

/-!
# Lemmas for C84: the rounds parties using `par_run_session` have left
-/

namespace Manul

variable {sp : SP} {P : Proto sp} {g : Group P} {H : sp.Id → Prop} {Vis : sp.Id → Session P → Prop}

/-- Whatever round party `i` may be in, it expects a message from party `x`. -/
def AlwaysExpectsOf (Vis : sp.Id → Session P → Prop) (i x : sp.Id) : Prop := ∀ s, Vis i s → s.comm.expecting.contains x = true

/-- The rounds a run has left are those of its trail. -/
theorem pvisits_passed {s₀ s : Session P} {trail : List (Session P × Accum P)} {cached : List (VerifiedMessage sp)}
    (h0 : ∀ r, ¬ Passed s₀ r) (h : PVisits s₀ trail s cached) (r : RoundId) :
    Passed s r ↔ r ∈ trailIds trail := by
  induction h with
  | first => simp [h0 r, trailIds]
  | @next trail s s' cached cached' rng' l a hv hseq hy hf ih =>
    have hu := finalized_transcript hf
    have h1 : Passed s' r ↔ r = s.transition.id ∨ Passed s r := by
      unfold Passed
      rw [hu.echos, BMap.contains_insert]
      rw [Bool.or_eq_true, decide_eq_true_eq]
      rfl
    rw [h1, ih]
    simp only [trailIds, List.map_append, List.mem_append, List.map_cons, List.map_nil, List.mem_singleton]
    tauto

/-- What a step can do to the party making it. -/
inductive PAdvance (n : PNet P) (i : sp.Id) : ParState P → Prop where
  | ended {r : Except LErr (Report P)} : PAdvance n i (.done r)
  | first {s : Session P} {a : ParSt P} : n.node i = none → (∀ r, ¬ Passed s r) → PAdvance n i (.running s a)
  | stays {s : Session P} {a a' : ParSt P} : n.node i = some (.running s a) → PAdvance n i (.running s a')
  | next {s s' : Session P} {a a' : ParSt P} {b : Accum P} {rng : sp.Rng} {cached : List (VerifiedMessage sp)} :
      n.node i = some (.running s a) → a.accum.canFinalize = .yes → s.finalizeRound rng b = .ok (.anotherRound s' cached) →
      PAdvance n i (.running s' a')

theorem LooseStep.advance {n n' : PNet P} (h : LooseStep Vis g H n n') :
    ∃ i st out, n' = n.put i st out ∧ PAdvance n i st := by
  cases h with
  | noSession _ => exact ⟨_, _, _, rfl, .ended⟩
  | beginFails _ _ _ _ => exact ⟨_, _, _, rfl, .ended⟩
  | enterFails _ _ _ _ _ _ => exact ⟨_, _, _, rfl, .ended⟩
  | ends _ _ _ => exact ⟨_, _, _, rfl, .ended⟩
  | begin _ hn hnew _ _ _ _ => exact ⟨_, _, _, rfl, .first hn (new_passed hnew)⟩
  | ops hn _ _ _ => exact ⟨_, _, _, rfl, .stays hn⟩
  | enter hn hj hy hf _ _ _ _ =>
    rw [join_keeps hj] at hy
    exact ⟨_, _, _, rfl, .next hn hy hf⟩

theorem ParHasEntered.mono {n : PNet P} {i : sp.Id} {st : ParState P} {out : List (Message sp)} (ha : PAdvance n i st) {x : sp.Id}
    {r : RoundId} (h : ParHasEntered n x r) : ParHasEntered (n.put i st out) x r := by
  by_cases hx : x = i
  · subst hx
    have hnode : (n.put x st out).node x = some st := by simp [PNet.put]
    cases ha with
    | ended => exact Or.inr ⟨_, hnode⟩
    | first hn _ =>
      rcases h with ⟨s, a, h1, -⟩ | ⟨r', h1⟩ <;> rw [hn] at h1 <;> simp at h1
    | stays hn =>
      rcases h with ⟨s, a, h1, h2⟩ | ⟨r', h1⟩
      · rw [hn] at h1
        simp only [Option.some.injEq, ParState.running.injEq] at h1
        obtain ⟨rfl, rfl⟩ := h1
        exact Or.inl ⟨_, _, hnode, h2⟩
      · rw [hn] at h1
        simp at h1
    | next hn hy hf =>
      rcases h with ⟨s, a, h1, h2⟩ | ⟨r', h1⟩
      · rw [hn] at h1
        simp only [Option.some.injEq, ParState.running.injEq] at h1
        obtain ⟨rfl, rfl⟩ := h1
        refine Or.inl ⟨_, _, hnode, Or.inr ((next_passed hf r).2 ?_)⟩
        rcases h2 with h2 | h2
        · exact Or.inl h2.symm
        · exact Or.inr h2
      · rw [hn] at h1
        simp at h1
  · have hnode : (n.put i st out).node x = n.node x := by simp [PNet.put, hx]
    unfold ParHasEntered
    rw [hnode]
    exact h

/-- A party that can finalize its round has messages from the parties following the protocol it expects messages from, so they
have entered it. -/
theorem POpenInv.entered {V : sp.Id → List (Session P)} {n : PNet P} (h : POpenInv Vis g H V n) {i x : sp.Id} {s : Session P} {a : ParSt P}
    (hn : n.node i = some (.running s a)) (hy : a.accum.canFinalize = .yes) (hx : H x)
    (he : s.comm.expecting.contains x = true) : ParHasEntered n x s.transition.id := by
  have hno := h.node i s a hn
  obtain ⟨-, -, hsid, -⟩ := hno.session
  have hq := hno.q
  obtain ⟨-, rng, s₀, tr, c, r0, ops, -, -, hround, -⟩ := hno
  have hk := yes_keys (parRound_reach hround) hy x
  rw [he] at hk
  obtain ⟨v, hv⟩ := BMap.contains_iff.1 hk
  obtain ⟨vm, -, hu, hau, -⟩ := (hq x).present v hv
  rw [hsid] at hau
  obtain ⟨⟨ma, va⟩, -⟩ := hau
  obtain ⟨q, hqw, hqs, hqm, -⟩ := hu.direct x hx va (by rw [ma])
  obtain ⟨s1, hs1, hm, -, -, -, hvis, -, -, h1⟩ := h.own hqw
  rw [hqs] at hs1
  have hid : s1.transition.id = s.transition.id := by
    rw [hqm, ma] at h1
    simpa [Session.roundId] using h1.symm
  cases hnx : n.node x with
  | none =>
    rw [h.idle x hnx] at hs1
    simp at hs1
  | some st =>
    cases st with
    | done r => exact Or.inr ⟨r, hnx⟩
    | running sx ax =>
      obtain ⟨-, rngx, sx₀, trx, cx, rx, ox, hnewx, hvx, -, hV, -⟩ := h.node x sx ax hnx
      rw [hV] at hs1
      rcases List.mem_append.1 hs1 with h2 | h2
      · refine Or.inl ⟨sx, ax, hnx, Or.inr ?_⟩
        rw [pvisits_passed (new_passed hnewx) hvx, ← hid]
        obtain ⟨q, hq, rfl⟩ := List.mem_map.1 h2
        exact List.mem_map.2 ⟨q, hq, rfl⟩
      · simp only [List.mem_singleton] at h2
        subst h2
        exact Or.inl ⟨s1, ax, hnx, Or.inl hid⟩

theorem ppassed_entered {n : PNet P} (h : LooseSteps Vis g H PNet.init n) {i x : sp.Id} (hx : H x) (he : AlwaysExpectsOf Vis i x)
    {s : Session P} {a : ParSt P} (hn : n.node i = some (.running s a)) {r : RoundId} (hr : Passed s r) : ParHasEntered n x r := by
  induction h generalizing s a r with
  | refl => simp [PNet.init] at hn
  | @step n n' hs ho ih =>
    obtain ⟨V, -, hi⟩ := (POpenInv.init Vis g H).steps hs
    obtain ⟨k, st, out, rfl, ha⟩ := ho.advance
    refine ParHasEntered.mono ha ?_
    by_cases hk : i = k
    · subst hk
      have hst : st = .running s a := by simpa [PNet.put] using hn
      subst hst
      cases ha with
      | first _ h1 => exact absurd hr (h1 r)
      | stays h1 => exact ih h1 hr
      | next h1 hy hf =>
        rcases (next_passed hf r).1 hr with rfl | h2
        · exact hi.entered h1 hy hx (he _ (hi.visited i _ (hi.node i _ _ h1).session.1))
        · exact ih h1 h2
    · exact ih (by simpa [PNet.put, hk] using hn) hr

/-- A session does not come back to a round. -/
theorem pnot_passed (hmi : MainIds P) (hac : Acyclic P) {n : PNet P} (h : LooseSteps Vis g H PNet.init n) {i : sp.Id} {s : Session P}
    {a : ParSt P} (hn : n.node i = some (.running s a)) : ¬ Passed s s.transition.id := by
  obtain ⟨V, -, hi⟩ := (POpenInv.init Vis g H).steps h
  obtain ⟨-, rng, s₀, tr, c, r2, l, hnew, hv, -⟩ := hi.node i _ _ hn
  rw [pvisits_passed (new_passed hnew) hv]
  have := pvisits_no_repetition hmi hac hnew hv
  rw [List.nodup_append] at this
  intro hc
  exact this.2.2 _ hc _ (List.mem_singleton.2 rfl) rfl

/-- Two parties do not both lead. -/
theorem pnot_both (hmi : MainIds P) (hac : Acyclic P) {n : PNet P} (h : LooseSteps Vis g H PNet.init n) {i j : sp.Id} (hi : H i) (hj : H j)
    (hij : AlwaysExpectsOf Vis i j) (hji : AlwaysExpectsOf Vis j i) {s s' : Session P} {a a' : ParSt P}
    (hn : n.node i = some (.running s a)) (hn' : n.node j = some (.running s' a')) :
    ¬ (Passed s s'.transition.id ∧ Passed s' s.transition.id) := by
  induction h generalizing s a s' a' with
  | refl => simp [PNet.init] at hn
  | @step n n' hs ho ih =>
    have hfresh := pnot_passed hmi hac (LooseSteps.step hs ho) hn
    have hfresh' := pnot_passed hmi hac (LooseSteps.step hs ho) hn'
    obtain ⟨k, st, out, rfl, ha⟩ := ho.advance
    rintro ⟨h1, h2⟩
    by_cases hii : i = j
    · subst hii
      rw [hn] at hn'
      simp only [Option.some.injEq, ParState.running.injEq] at hn'
      obtain ⟨rfl, rfl⟩ := hn'
      exact hfresh h1
    -- the party that has moved was not in its new round before
    have key : ∀ {x y : sp.Id} {u v : Session P} {b c : ParSt P}, x ≠ y → H x → AlwaysExpectsOf Vis y x →
        (n.put x (.running u b) out).node y = some (.running v c) → ∀ w d, n.node x = some (.running w d) → 
        (∀ r, Passed u r ↔ r = w.transition.id ∨ Passed w r) → ¬ Passed u u.transition.id → ¬ Passed v u.transition.id := by
      intro x y u v b c hxy hx hyx hy w d hw hp hf hv
      have hy' : n.node y = some (.running v c) := by simpa [PNet.put, Ne.symm hxy] using hy
      rcases ppassed_entered hs hx hyx hy' hv with ⟨w', d', g1, g2⟩ | ⟨r', g1⟩
      · rw [hw] at g1
        simp only [Option.some.injEq, ParState.running.injEq] at g1
        obtain ⟨rfl, rfl⟩ := g1
        refine hf ((hp _).2 ?_)
        rcases g2 with g2 | g2
        · exact Or.inl g2.symm
        · exact Or.inr g2
      · rw [hw] at g1
        simp at g1
    by_cases hk : i = k
    · subst hk
      have hst : st = .running s a := by simpa [PNet.put] using hn
      subst hst
      have hn'' : n.node j = some (.running s' a') := by simpa [PNet.put, Ne.symm hii] using hn'
      cases ha with
      | first _ h3 => exact h3 _ h1
      | stays h3 => exact ih h3 hn'' ⟨h1, h2⟩
      | next h3 hy hf => exact key hii hi hji hn' _ _ h3 (next_passed hf) hfresh h2
    · have hn0 : n.node i = some (.running s a) := by simpa [PNet.put, hk] using hn
      by_cases hk' : j = k
      · subst hk'
        have hst : st = .running s' a' := by simpa [PNet.put] using hn'
        subst hst
        cases ha with
        | first _ h3 => exact h3 _ h2
        | stays h3 => exact ih hn0 h3 ⟨h1, h2⟩
        | next h3 hy hf => exact key (Ne.symm hii) hj hij hn _ _ h3 (next_passed hf) hfresh' h1
      · exact ih hn0 (by simpa [PNet.put, hk'] using hn') ⟨h1, h2⟩

end Manul
