import Verif.Lemmas.DeviateNet
import Verif.Lemmas.RunSyncNet

/-!
# Executions in which one party deviates: all executions of the network
-/

namespace Manul

variable {sp : SP} {P : Proto sp}

namespace Scheme

variable {sc : Scheme P} {L L' : Ledger P} {e e' f f' : sp.Id → Nat} {t : sp.Id} {K k k' : Nat}
  {ch : Charge sp} {like : Nat → P.Rd → P.Rd → Prop} {n n' : Net P} {W T T' : List (Packet sp)} {E : List sp.Id} {g : Group P}

theorem Sim.init : sc.Sim t K ch like 0 Net.init (fun _ => []) (fun _ => 0) (fun _ => 0) 0 Net.init [] [] [] [] := by
  refine ⟨.init, NetInv.init, by simp [Net.init], by simp [Net.init], by simp, by simp, ?_, by simp, by simp, by simp, .idle,
    fun i _ => .idle, ?_, by simp, by simp⟩
  · intro i u _ _ _ hr
    rcases hr with hr | ⟨s, a, h1, -⟩
    · exact absurd hr (Nat.not_lt_zero _)
    · cases h1
  · intro i _ _ h
    simp at h

/-- A step of the network. -/
theorem Sim.step (ok : sc.Ok) (dv : Deviation sc g t K ch like) (h : sc.Sim t K ch like k n L e f k' n' W T T' E) {n1 : Net P}
    (hs : NetStep g n n1) : ∃ L' e' f' k1 n1' W1 T1 T1' E1, sc.Sim t K ch like (k + 1) n1 L' e' f' k1 n1' W1 T1 T1' E1 := by
  cases hs with
  | @start i rng rng' hi hn =>
    rw [dv.parties] at hi
    by_cases hit : i = t
    · subst hit
      obtain ⟨L', e', f', n1, W', T1, T1', st, out, h1, h2⟩ := h.starts_self ok dv hn rng rng'
      rw [h1]
      exact ⟨_, _, _, _, _, _, _, _, _, h2⟩
    · obtain ⟨L', e', f', n1, W', st, out, h1, h2⟩ := h.starts ok dv hit hi hn rng rng'
      rw [h1]
      exact ⟨_, _, _, _, _, _, _, _, _, h2⟩
  | @tick i st st' rng out hn hs =>
    by_cases hit : i = t
    · subst hit
      obtain ⟨_, _, _, _, _, _, _, h2⟩ := h.ticks_self ok dv hn hs
      exact ⟨_, _, _, _, _, _, _, _, _, h2⟩
    · obtain ⟨_, _, _, _, _, _, _, h2⟩ := h.ticks ok dv hit hn hs
      exact ⟨_, _, _, _, _, _, _, _, _, h2⟩
  | @deliver st st' p w w' out hw hn hs =>
    have hp : p ∈ W ++ T := h.wire.mem_iff.1 (by rw [hw]; simp)
    rcases List.mem_append.1 hp with hp | hp
    · by_cases hd : p.dest = t
      · obtain ⟨rfl, _, _, h2⟩ := h.deliver_self ok dv hw hp hd hn hs
        exact ⟨_, _, _, _, _, _, _, _, _, h2⟩
      · obtain ⟨rfl, _, _, h2⟩ := h.deliver_other ok dv hw hp hd hn hs
        exact ⟨_, _, _, _, _, _, _, _, _, h2⟩
    · obtain ⟨rfl, _, h2⟩ := h.deliver_late ok dv hw hp hn hs
      exact ⟨_, _, _, _, _, _, _, _, _, h2⟩

/-- Every execution of the network has a counterpart. -/
theorem Sim.exists (ok : sc.Ok) (dv : Deviation sc g t K ch like) (h : NetTakes g k n) :
    ∃ L e f k' n' W T T' E, sc.Sim t K ch like k n L e f k' n' W T T' E := by
  induction h with
  | init => exact ⟨_, _, _, _, _, _, _, _, _, Sim.init⟩
  | step _ hs ih =>
    obtain ⟨_, _, _, _, _, _, _, _, _, h⟩ := ih
    exact h.step ok dv hs

theorem Sim.bound (ok : sc.Ok) (h : sc.Sim t K ch like k n L e f k' n' W T T' E) :
    k + n.wire.length ≤ sc.steps + sc.g.parties.elems.length := by
  have h1 := h.takes.bound ok
  have h2 := h.count
  have h3 := h.wire.length_eq
  have h4 := h.wire'.length_eq
  rw [List.length_append] at h3 h4
  have h5 : E.length ≤ sc.g.parties.elems.length := by
    refine (List.subperm_of_subset h.ended.1 ?_).length_le
    intro i hi
    exact BSet.mem_elems.2 (h.ended.2 i hi).1
  omega

theorem Sim.no_failure (h : sc.Sim t K ch like k n L e f k' n' W T T' E) {i : sp.Id} {r : Except LErr (Report P)}
    (hn : n.node i = some (.done r)) : ∃ rep, r = .ok rep ∧ (i ≠ t → rep.Blames ch t) ∧
      (i = t → (∀ x, rep.provable.get? x = none) ∧ ∀ x, rep.unprovable.get? x = none) := by
  by_cases hit : i = t
  · subst hit
    have := h.self
    rw [hn] at this
    generalize ho : n'.node i = o at this
    cases this with
    | @done r0 r0' h1 h2 =>
      obtain ⟨-, -, ⟨rep, v, g1, -, g3, g4, -⟩, -⟩ := h.inv.done i _ ho
      cases g1
      refine ⟨r0', rfl, fun hc => absurd rfl hc, fun _ => ⟨?_, ?_⟩⟩
      · rw [h1]; exact BMap.isEmpty_iff.1 g3
      · rw [h2]; exact BMap.isEmpty_iff.1 g4
  · have := h.other i hit
    rw [hn] at this
    generalize ho : n'.node i = o at this
    cases this with
    | @ended s a rep h1 h2 => exact ⟨rep, rfl, fun _ => h2, fun hc => absurd hc hit⟩

/-- A party of the network that runs also runs in the other one. -/
theorem Sim.running (h : sc.Sim t K ch like k n L e f k' n' W T T' E) {i : sp.Id} {s : Session P} {a : Accum P}
    (hn : n.node i = some (.running s a)) : ∃ s' a', n'.node i = some (.running s' a') ∧ s'.me = s.me := by
  by_cases hit : i = t
  · subst hit
    have := h.self
    rw [hn] at this
    generalize ho : n'.node i = o at this
    cases this with
    | running _ => exact ⟨_, _, rfl, rfl⟩
  · have := h.other i hit
    rw [hn] at this
    generalize ho : n'.node i = o at this
    cases this with
    | wait _ => exact ⟨_, _, rfl, rfl⟩
    | ban _ _ => exact ⟨_, _, rfl, rfl⟩

theorem Sim.me (ok : sc.Ok) (h : sc.Sim t K ch like k n L e f k' n' W T T' E) {i : sp.Id} {s : Session P} {a : Accum P}
    (hn : n.node i = some (.running s a)) : s.me = i := by
  obtain ⟨s', a', h1, h2⟩ := h.running hn
  rw [← h2]
  exact h.takes.me ok h1

theorem Sim.idle (h : sc.Sim t K ch like k n L e f k' n' W T T' E) {i : sp.Id} : n'.node i = none ↔ n.node i = none := by
  by_cases hit : i = t
  · subst hit
    have := h.self
    generalize n'.node i = o' at *
    generalize n.node i = o at *
    cases this <;> simp
  · have := h.other i hit
    generalize n'.node i = o' at *
    generalize n.node i = o at *
    cases this <;> simp

theorem Sim.packet (h : sc.Sim t K ch like k n L e f k' n' W T T' E) {p : Packet sp} (hp : p ∈ n.wire) :
    sc.g.parties.contains p.dest = true ∧ ∃ st, n.node p.src = some st := by
  have key : ∀ u, u < e p.src → ∃ st, n.node p.src = some st := by
    intro u hu
    cases hn : n.node p.src with
    | some st => exact ⟨st, rfl⟩
    | none => have := (h.inv.idle _ (h.idle.2 hn)).1; omega
  rcases List.mem_append.1 (h.wire.mem_iff.1 hp) with hw | hw
  · obtain ⟨h1, u, h2, -⟩ := h.inv.wire p (h.wire'.mem_iff.2 (List.mem_append_left _ hw))
    exact ⟨h1, key u h2⟩
  · obtain ⟨u, hu⟩ := h.late p hw
    exact ⟨hu.party, key u (by rw [hu.src]; exact hu.sent)⟩

/-- When nothing more can happen, everybody else has ended. -/
theorem Sim.stuck (ok : sc.Ok) (dv : Deviation sc g t K ch like) (rng : sp.Rng) (h : sc.Sim t K ch like k n L e f k' n' W T T' E)
    (hstuck : ∀ n1, ¬ NetStep g n n1) {i : sp.Id} (hi : sc.g.parties.contains i = true) (hit : i ≠ t) :
    ∃ r, n.node i = some (.done r) := by
  have hK := dv.stage
  have hnone : ∀ j, sc.g.parties.contains j = true → n.node j ≠ none := by
    intro j hj hn
    exact hstuck _ (.start rng rng (by rw [dv.parties]; exact hj) hn)
  have hwait : ∀ j s a, n.node j = some (.running s a) → a.canFinalize = .notYet := by
    intro j s a hn
    cases hc : a.canFinalize with
    | notYet => rfl
    | yes => exact absurd (NetStep.tick (rng := rng) hn (by simp only [Manul.step, hc]; rfl)) (hstuck _)
    | never => exact absurd (NetStep.tick (rng := rng) hn (by simp only [Manul.step, hc]; rfl)) (hstuck _)
  have hwire : ∀ p ∈ n.wire, ∀ s a, n.node p.dest ≠ some (.running s a) := by
    intro p hp s a hn
    obtain ⟨w, w', hw⟩ := List.append_of_mem hp
    have hc := hwait _ _ _ hn
    cases hd : deliver s a p.src p.message with
    | ok a1 => exact hstuck _ (.deliver hw hn (by simp only [Manul.step, hc, hd]; rfl))
    | error err => exact hstuck _ (.deliver hw hn (by simp only [Manul.step, hc, hd]; rfl))
  have hrun : ∀ k j, sc.g.parties.contains j = true → f j = k → f j ≤ 2 * K → ∀ s a, n.node j ≠ some (.running s a) := by
    intro k
    induction k using Nat.strongRecOn with
    | ind k ih =>
      intro j hj hk hjK s a hn
      obtain ⟨s', a', hn', -⟩ := h.running hn
      obtain ⟨hef, hs, ha⟩ := h.inv.running j s' a' hn'
      -- somebody is behind
      have behind : ∀ x, (sc.xAt (f j) j).contains x = true → e x ≤ f j → False := by
        intro x hx hle
        have hxp := (others_contains.1 (ok.coop.pattern.others_at hs.stage hj (Or.inr hx))).2
        cases hnx : n'.node x with
        | none => exact hnone x hxp (h.idle.1 hnx)
        | some st =>
          cases st with
          | done r =>
            obtain ⟨h1, h2, -⟩ := h.inv.done x r hnx
            omega
          | running s2 a2 =>
            have h1 := (h.inv.running x s2 a2 hnx).1
            by_cases hxt : x = t
            · subst hxt
              have h3 := h.self
              rw [hnx] at h3
              generalize ho : n.node x = o at h3
              cases h3 with
              | running _ => exact ih (f x) (by omega) x hxp rfl (by omega) _ _ ho
            · have h3 := h.other x hxt
              rw [hnx] at h3
              generalize ho : n.node x = o at h3
              cases h3 with
              | wait _ => exact ih (f x) (by omega) x hxp rfl (by omega) _ _ ho
              | ban _ _ => exact ih (f x) (by omega) x hxp rfl (by omega) _ _ ho
              | ended h4 _ => omega
      -- nothing that is missing is in transit
      have transit : ∀ x, (sc.xAt (f j) j).contains x = true → a'.payloads.contains x = false → (x = t → f j < 2 * K) → False := by
        intro x hx hp hxt
        refine behind x hx ?_
        by_contra hlt
        have hnr : ¬ sc.Recv n' f j x (f j) := by
          rintro (h1 | ⟨s2, a2, h1, h2⟩)
          · omega
          · rw [hn'] at h1
            simp only [Option.some.injEq, RunState.running.injEq] at h1
            obtain ⟨rfl, rfl⟩ := h1
            rcases h2 with ⟨-, h2⟩ | ⟨h2, -⟩
            · rw [hp] at h2; simp at h2
            · have := lt_nxt (sc := sc) (f j) j
              omega
        obtain ⟨p, hpw, h1, h2, h3⟩ := h.inv.sent j x (f j) hj hx (by omega) hnr
        rcases List.mem_append.1 (h.wire'.mem_iff.1 hpw) with hp1 | hp1
        · refine hwire p (h.wire.mem_iff.2 (List.mem_append_left _ hp1)) s a ?_
          rw [h2]
          exact hn
        · obtain ⟨g1, u, g2, g3, g4⟩ := h.held p hp1
          have hxe : x = t := by rw [← h1, g1]
          have := hxt hxe
          subst hxe
          have := h.inv.ids ok (j := x) g2 (t' := f j) (by omega) (by rw [← g4, ← h3.roundId])
          omega
      by_cases hjt : j = t
      · subst hjt
        have h3 := h.self
        rw [hn', hn] at h3
        generalize ho : some (RunState.running s a) = o at h3
        cases h3 with
        | @running s2 x2 a2 _ =>
          simp only [Option.some.injEq, RunState.running.injEq] at ho
          have hc := hwait _ _ _ hn
          rw [ho.2] at hc
          rcases ha.canFinalize with ⟨h4, -⟩ | ⟨-, x, hx, hp⟩
          · rw [hc] at h4; cases h4
          · refine transit x hx hp ?_
            intro hxt
            exact absurd hxt (others_contains.1 (ok.coop.pattern.others_at hs.stage hj (Or.inr hx))).1
      · have h3 := h.other j hjt
        rw [hn', hn] at h3
        generalize ho : some (RunState.running s a) = o at h3
        cases h3 with
        | @wait s2 a2 c hw =>
          simp only [Option.some.injEq, RunState.running.injEq] at ho
          obtain ⟨rfl, rfl⟩ := ho
          have hc : a'.canFinalize = .notYet := hwait j _ ({ a' with cached := c } : Accum P) hn
          rcases ha.canFinalize with ⟨h4, -⟩ | ⟨-, x, hx, hp⟩
          · rw [hc] at h4; cases h4
          · by_cases hxt : x = t ∧ f j = 2 * K
            · obtain ⟨rfl, hfj⟩ := hxt
              rcases Nat.lt_or_ge (2 * K) (e x) with hlt | hle
              · have hdue := h.due j hj hjt hlt
                rw [hn] at hdue
                rcases hdue with ⟨p, hp1, h5, -⟩ | ⟨_, _, -, h5, -⟩ | ⟨s5, a5, h5, h6⟩ | ⟨_, h5⟩
                · refine hwire p (h.wire.mem_iff.2 (List.mem_append_right _ hp1)) s ({ a' with cached := c } : Accum P) ?_
                  rw [h5]
                  exact hn
                · omega
                · simp only [Option.some.injEq, RunState.running.injEq] at h5
                  obtain ⟨rfl, rfl⟩ := h5
                  obtain ⟨y, hy⟩ := BMap.contains_iff.1 h6
                  simp only [ha.provable] at hy
                  cases hy
                · cases h5
              · exact behind x hx (by omega)
            · refine transit x hx hp ?_
              intro hx2
              by_contra hc2
              exact hxt ⟨hx2, by omega⟩
        | @ban s2 a2 a3 hq hb =>
          simp only [Option.some.injEq, RunState.running.injEq] at ho
          obtain ⟨rfl, rfl⟩ := ho
          obtain ⟨h5, h6⟩ := h.not_finished dv hjt hn' hq
          rcases Ban.canFinalize hb ha h5 h6 with ⟨hc, -⟩ | ⟨-, x, hxt, hx, hp⟩
          · rw [hwait _ _ _ hn] at hc; cases hc
          · exact transit x hx hp (fun hc => absurd hc hxt)
        | ended _ _ => cases ho
  cases hn : n.node i with
  | none => exact absurd hn (hnone i hi)
  | some st =>
    cases st with
    | running s a => exact absurd hn (hrun _ i hi rfl (h.below i hit) s a)
    | done r => exact ⟨r, rfl⟩

/-- The deviating party records no errors. -/
theorem Sim.terminates (ok : sc.Ok) (h : sc.Sim t K ch like k n L e f k' n' W T T' E) {s : Session P} {a : Accum P}
    (hn : n.node t = some (.running s a)) : ∃ rep, s.terminate a = .ok rep ∧ (∀ x, rep.provable.get? x = none) ∧
      ∀ x, rep.unprovable.get? x = none := by
  have h3 := h.self
  rw [hn] at h3
  generalize ho : n'.node t = o at h3
  cases h3 with
  | @running s2 x2 a2 htw =>
    obtain ⟨-, hs, ha⟩ := h.inv.running t _ _ ho
    obtain ⟨tr, h1, h2, h3⟩ := updates_any ok hs (a := a) ha.unprovable
    have h4 : Session.updatedTranscript { s2 with round := x2 } a = s2.updatedTranscript a := rfl
    refine ⟨Report.new .terminated tr, by simp [Session.terminate, Session.terminateInner, h4, h1], ?_, ?_⟩
    · intro x
      exact (h2 x).trans (ha.provable x)
    · exact h3

theorem Sim.errors (h : sc.Sim t K ch like k n L e f k' n' W T T' E) {i : sp.Id} {s : Session P} {a : Accum P}
    (hn : n.node i = some (.running s a)) {x : sp.Id} (hx : HasError s a x) : x = t ∧ i ≠ t := by
  have clean : ∀ {s' : Session P} {a' : Accum P}, n'.node i = some (.running s' a') → ¬ HasError s' a' x := by
    intro s' a' h1 h2
    obtain ⟨-, hs, ha⟩ := h.inv.running i _ _ h1
    rcases h2 with ⟨e, h2⟩ | ⟨e, h2⟩ | ⟨e, h2⟩ | ⟨e, h2⟩
    · rw [hs.transcript.provable] at h2; cases h2
    · rw [hs.transcript.unprovable] at h2; cases h2
    · rw [ha.provable] at h2; cases h2
    · rw [ha.unprovable] at h2; cases h2
  by_cases hit : i = t
  · subst hit
    have h3 := h.self
    rw [hn] at h3
    generalize ho : n'.node i = o at h3
    cases h3 with
    | running _ => exact (clean ho hx).elim
  · have h3 := h.other i hit
    rw [hn] at h3
    generalize ho : n'.node i = o at h3
    cases h3 with
    | wait _ => exact (clean ho hx).elim
    | ban _ hb =>
      refine ⟨?_, hit⟩
      obtain ⟨-, hs, ha⟩ := h.inv.running i _ _ ho
      rcases hx with ⟨e, h2⟩ | ⟨e, h2⟩ | ⟨e, h2⟩ | ⟨e, h2⟩
      · rw [hs.transcript.provable] at h2; cases h2
      · rw [hs.transcript.unprovable] at h2; cases h2
      · obtain ⟨ev, -, -, h3⟩ := hb.provable
        rw [h3] at h2
        by_contra hc
        rw [if_neg hc] at h2
        cases h2
      · rw [hb.unprovable, ha.unprovable] at h2; cases h2

end Scheme

end Manul
