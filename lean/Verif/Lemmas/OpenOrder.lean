import Verif.Lemmas.Open
import Verif.Spec.LockStep

/-!
# Lemmas for C81: the rounds parties have left in a network controlled by an adversary
-/

namespace Manul

variable {sp : SP} {P : Proto sp} {g : Group P} {H : sp.Id → Prop}

/-- The rounds a run has left are those of its trail. -/
theorem visits_passed {s₀ s : Session P} {trail : List (Session P × Accum P)} {cached : List (VerifiedMessage sp)}
    (h0 : ∀ r, ¬ Passed s₀ r) (h : Visits s₀ trail s cached) (r : RoundId) :
    Passed s r ↔ r ∈ trailIds trail := by
  induction h with
  | first => simp [h0 r, trailIds]
  | @next trail s s' cached cached' rng rng' l a hv hseq hy hf ih =>
    have hu := finalized_transcript hf
    have h1 : Passed s' r ↔ r = s.transition.id ∨ Passed s r := by
      unfold Passed
      rw [hu.echos, BMap.contains_insert]
      rw [Bool.or_eq_true, decide_eq_true_eq]
      rfl
    rw [h1, ih]
    simp only [trailIds, List.map_append, List.mem_append, List.map_cons, List.map_nil, List.mem_singleton]
    tauto

theorem new_passed {rng : sp.Rng} {sid : Bytes} {signer : sp.Signer} {ep : EntryPoint P} {s₀ : Session P}
    (h : Session.new rng sid signer ep = .ok s₀) (r : RoundId) : ¬ Passed s₀ r := by
  obtain ⟨-, -, -, htr, -⟩ := new_proper h
  unfold Passed
  rw [htr]
  simp [Transcript.new]

theorem next_passed {s s' : Session P} {a : Accum P} {rng : sp.Rng} {cached : List (VerifiedMessage sp)}
    (hf : s.finalizeRound rng a = .ok (.anotherRound s' cached)) (r : RoundId) :
    Passed s' r ↔ r = s.transition.id ∨ Passed s r := by
  have hu := finalized_transcript hf
  unfold Passed
  rw [hu.echos, BMap.contains_insert, Bool.or_eq_true, decide_eq_true_eq]
  rfl

/-- What a step can do to the party making it. -/
inductive Advance (n : Net P) (i : sp.Id) : RunState P → Prop where
  | ended {r : Except LErr (Report P)} : Advance n i (.done r)
  | first {s : Session P} {a : Accum P} : n.node i = none → (∀ r, ¬ Passed s r) → Advance n i (.running s a)
  | stays {s : Session P} {a a' : Accum P} : n.node i = some (.running s a) → Advance n i (.running s a')
  | next {s s' : Session P} {a a' : Accum P} {rng : sp.Rng} {cached : List (VerifiedMessage sp)} :
      n.node i = some (.running s a) → a.canFinalize = .yes → s.finalizeRound rng a = .ok (.anotherRound s' cached) →
      Advance n i (.running s' a')

theorem OpenStep.advance {n n' : Net P} (h : OpenStep g H n n') :
    ∃ i st out, n' = n.put i st out ∧ Advance n i st := by
  cases h with
  | @start i rng rng' hi hn =>
    refine ⟨i, _, _, rfl, ?_⟩
    unfold Group.startNode
    split
    · exact .ended
    · rename_i s hs
      obtain ⟨st, out, he⟩ : ∃ st out, Manul.start s rng' = (st, out) := ⟨_, _, rfl⟩
      rw [he]
      rcases enter_cases he with ⟨e, rfl, -⟩ | ⟨a, rfl, -⟩
      · exact .ended
      · exact .first hn (new_passed hs)
  | @act i st st' ev out hn hu hs =>
    refine ⟨i, st', out, rfl, ?_⟩
    cases st with
    | done r => cases ev <;> simp [Manul.step] at hs
    | running s a =>
      rcases step_full hs with ⟨-, r, rfl⟩ | ⟨-, x, m, a', -, -, rfl⟩ | ⟨rng, rng', s', c, h1, h2, h3⟩
      · exact .ended
      · exact .stays hn
      · rcases enter_cases h3 with ⟨e, rfl, -⟩ | ⟨a', rfl, -⟩
        · exact .ended
        · exact .next hn h1 h2
  | startFails rng rng' hi hn hnew hst hout => exact ⟨_, _, _, rfl, .ended⟩
  | enterFails rng rng' hn hy hf hst hout => exact ⟨_, _, _, rfl, .ended⟩

theorem HasEntered.mono {n : Net P} {i : sp.Id} {st : RunState P} {out : List (Message sp)} (ha : Advance n i st) {x : sp.Id}
    {r : RoundId} (h : HasEntered n x r) : HasEntered (n.put i st out) x r := by
  by_cases hx : x = i
  · subst hx
    have hnode : (n.put x st out).node x = some st := by simp [Net.put]
    cases ha with
    | ended => exact Or.inr ⟨_, hnode⟩
    | first hn _ =>
      rcases h with ⟨s, a, h1, -⟩ | ⟨r', h1⟩ <;> rw [hn] at h1 <;> simp at h1
    | stays hn =>
      rcases h with ⟨s, a, h1, h2⟩ | ⟨r', h1⟩
      · rw [hn] at h1
        simp only [Option.some.injEq, RunState.running.injEq] at h1
        obtain ⟨rfl, rfl⟩ := h1
        exact Or.inl ⟨_, _, hnode, h2⟩
      · rw [hn] at h1
        simp at h1
    | next hn hy hf =>
      rcases h with ⟨s, a, h1, h2⟩ | ⟨r', h1⟩
      · rw [hn] at h1
        simp only [Option.some.injEq, RunState.running.injEq] at h1
        obtain ⟨rfl, rfl⟩ := h1
        refine Or.inl ⟨_, _, hnode, Or.inr ((next_passed hf r).2 ?_)⟩
        rcases h2 with h2 | h2
        · exact Or.inl h2.symm
        · exact Or.inr h2
      · rw [hn] at h1
        simp at h1
  · have hnode : (n.put i st out).node x = n.node x := by simp [Net.put, hx]
    unfold HasEntered
    rw [hnode]
    exact h

/-- A party that can finalize its round has messages from the parties following the protocol it expects messages from, so they
have entered it. -/
theorem OpenInv.entered {V : sp.Id → List (Session P)} {n : Net P} (h : OpenInv g H V n) {i x : sp.Id} {s : Session P} {a : Accum P}
    (hn : n.node i = some (.running s a)) (hy : a.canFinalize = .yes) (hx : H x)
    (he : s.comm.expecting.contains x = true) : HasEntered n x s.transition.id := by
  have hno := h.node i s a hn
  obtain ⟨-, -, hsid, -⟩ := hno.session
  obtain ⟨-, rng, s₀, tr, hnew, hin, hre, -, hq, -⟩ := hno
  obtain ⟨trail, cached, rng', l, -, hin'⟩ := reach_running hre
  have hk := yes_keys (seqRound_reach hin') hy x
  rw [he] at hk
  obtain ⟨v, hv⟩ := BMap.contains_iff.1 hk
  obtain ⟨vm, -, hu, hau, -⟩ := (hq x).present v hv
  rw [hsid] at hau
  obtain ⟨⟨ma, va⟩, -⟩ := hau
  obtain ⟨q, hqw, hqs, hqm, -⟩ := hu.direct x hx va (by rw [ma])
  obtain ⟨s1, hs1, hm, -, -, -, hvis, -, -, h1⟩ := h.own hqw
  rw [hqs] at hs1
  have hid : s1.transition.id = s.transition.id := by
    rw [hqm, ma] at h1
    simpa [Session.roundId] using h1.symm
  cases hnx : n.node x with
  | none =>
    rw [h.idle x hnx] at hs1
    simp at hs1
  | some st =>
    cases st with
    | done r => exact Or.inr ⟨r, hnx⟩
    | running sx ax =>
      obtain ⟨-, rngx, sx₀, trx, hnewx, hinx, -, hV, -⟩ := h.node x sx ax hnx
      obtain ⟨cx, rx, lx, hvx, -⟩ := hinx
      rw [hV] at hs1
      rcases List.mem_append.1 hs1 with h2 | h2
      · refine Or.inl ⟨sx, ax, hnx, Or.inr ?_⟩
        rw [visits_passed (new_passed hnewx) hvx, ← hid]
        obtain ⟨q, hq, rfl⟩ := List.mem_map.1 h2
        exact List.mem_map.2 ⟨q, hq, rfl⟩
      · simp only [List.mem_singleton] at h2
        subst h2
        exact Or.inl ⟨s1, ax, hnx, Or.inl hid⟩

theorem passed_entered {n : Net P} (h : OpenSteps g H Net.init n) {i x : sp.Id} (hx : H x) (he : AlwaysExpects g i x)
    {s : Session P} {a : Accum P} (hn : n.node i = some (.running s a)) {r : RoundId} (hr : Passed s r) : HasEntered n x r := by
  induction h generalizing s a r with
  | refl => simp [Net.init] at hn
  | @step n n' hs ho ih =>
    obtain ⟨V, -, hi⟩ := (OpenInv.init g H).steps hs
    obtain ⟨k, st, out, rfl, ha⟩ := ho.advance
    refine HasEntered.mono ha ?_
    by_cases hk : i = k
    · subst hk
      have hst : st = .running s a := by simpa [Net.put] using hn
      subst hst
      cases ha with
      | first _ h1 => exact absurd hr (h1 r)
      | stays h1 => exact ih h1 hr
      | next h1 hy hf =>
        rcases (next_passed hf r).1 hr with rfl | h2
        · refine hi.entered h1 hy hx (he _ ?_)
          obtain ⟨-, rng, s₀, tr, hnew, ⟨c, r2, l, hv, -⟩, -⟩ := hi.node i _ _ h1
          exact ⟨rng, s₀, tr, c, hnew, hv⟩
        · exact ih h1 h2
    · exact ih (by simpa [Net.put, hk] using hn) hr

/-- A session does not come back to a round. -/
theorem not_passed (hmi : MainIds P) (hac : Acyclic P) {n : Net P} (h : OpenSteps g H Net.init n) {i : sp.Id} {s : Session P}
    {a : Accum P} (hn : n.node i = some (.running s a)) : ¬ Passed s s.transition.id := by
  obtain ⟨V, -, hi⟩ := (OpenInv.init g H).steps h
  obtain ⟨-, rng, s₀, tr, hnew, ⟨c, r2, l, hv, -⟩, -⟩ := hi.node i _ _ hn
  rw [visits_passed (new_passed hnew) hv]
  have := C13_no_repetition hmi hac hnew hv
  rw [List.nodup_append] at this
  intro hc
  exact this.2.2 _ hc _ (List.mem_singleton.2 rfl) rfl

/-- Two parties do not both lead. -/
theorem not_both (hmi : MainIds P) (hac : Acyclic P) {n : Net P} (h : OpenSteps g H Net.init n) {i j : sp.Id} (hi : H i) (hj : H j)
    (hij : AlwaysExpects g i j) (hji : AlwaysExpects g j i) {s s' : Session P} {a a' : Accum P}
    (hn : n.node i = some (.running s a)) (hn' : n.node j = some (.running s' a')) :
    ¬ (Passed s s'.transition.id ∧ Passed s' s.transition.id) := by
  induction h generalizing s a s' a' with
  | refl => simp [Net.init] at hn
  | @step n n' hs ho ih =>
    have hfresh := not_passed hmi hac (OpenSteps.step hs ho) hn
    have hfresh' := not_passed hmi hac (OpenSteps.step hs ho) hn'
    obtain ⟨k, st, out, rfl, ha⟩ := ho.advance
    rintro ⟨h1, h2⟩
    by_cases hii : i = j
    · subst hii
      rw [hn] at hn'
      simp only [Option.some.injEq, RunState.running.injEq] at hn'
      obtain ⟨rfl, rfl⟩ := hn'
      exact hfresh h1
    -- the party that has moved was not in its new round before
    have key : ∀ {x y : sp.Id} {u v : Session P} {b c : Accum P}, x ≠ y → H x → AlwaysExpects g y x →
        (n.put x (.running u b) out).node y = some (.running v c) → ∀ w d, n.node x = some (.running w d) → 
        (∀ r, Passed u r ↔ r = w.transition.id ∨ Passed w r) → ¬ Passed u u.transition.id → ¬ Passed v u.transition.id := by
      intro x y u v b c hxy hx hyx hy w d hw hp hf hv
      have hy' : n.node y = some (.running v c) := by simpa [Net.put, Ne.symm hxy] using hy
      rcases passed_entered hs hx hyx hy' hv with ⟨w', d', g1, g2⟩ | ⟨r', g1⟩
      · rw [hw] at g1
        simp only [Option.some.injEq, RunState.running.injEq] at g1
        obtain ⟨rfl, rfl⟩ := g1
        refine hf ((hp _).2 ?_)
        rcases g2 with g2 | g2
        · exact Or.inl g2.symm
        · exact Or.inr g2
      · rw [hw] at g1
        simp at g1
    by_cases hk : i = k
    · subst hk
      have hst : st = .running s a := by simpa [Net.put] using hn
      subst hst
      have hn'' : n.node j = some (.running s' a') := by simpa [Net.put, Ne.symm hii] using hn'
      cases ha with
      | first _ h3 => exact h3 _ h1
      | stays h3 => exact ih h3 hn'' ⟨h1, h2⟩
      | next h3 hy hf => exact key hii hi hji hn' _ _ h3 (next_passed hf) hfresh h2
    · have hn0 : n.node i = some (.running s a) := by simpa [Net.put, hk] using hn
      by_cases hk' : j = k
      · subst hk'
        have hst : st = .running s' a' := by simpa [Net.put] using hn'
        subst hst
        cases ha with
        | first _ h3 => exact h3 _ h2
        | stays h3 => exact ih hn0 h3 ⟨h1, h2⟩
        | next h3 hy hf => exact key (Ne.symm hii) hj hij hn _ _ h3 (next_passed hf) hfresh' h1
      · exact ih hn0 (by simpa [Net.put, hk'] using hn') ⟨h1, h2⟩

end Manul
