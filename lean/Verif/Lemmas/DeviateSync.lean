import Verif.Lemmas.DeviateRun
import Verif.Props.RunSyncNet

/-!
# Executions in which one party deviates: `run_sync`
-/

namespace Manul

variable {sp : SP} {P : Proto sp} {sc : Scheme P} {g : Group P} {t : sp.Id} {K : Nat} {ch : Charge sp} {like : Nat → P.Rd → P.Rd → Prop}

/-- A group with a party that deviates can be run by `run_sync`. -/
theorem Deviation.regular (ok : sc.Ok) (dv : Deviation sc g t K ch like) :
    g.Regular (sc.steps + sc.g.parties.elems.length) (fun i => (sc.dests 0 i).elems.length) where
  keys := by
    intro i hi
    rw [dv.parties] at hi
    rw [dv.signer]
    exact ok.keys i hi
  bound := by
    intro k n h
    obtain ⟨_, _, _, _, _, _, _, _, _, hs⟩ := Scheme.Sim.exists ok dv h
    exact hs.bound ok
  no_failure := by
    intro k n h i e hn
    obtain ⟨_, _, _, _, _, _, _, _, _, hs⟩ := Scheme.Sim.exists ok dv h
    obtain ⟨rep, h1, -⟩ := hs.no_failure hn
    cases h1
  me := by
    intro k n h i s a hn
    obtain ⟨_, _, _, _, _, _, _, _, _, hs⟩ := Scheme.Sim.exists ok dv h
    exact hs.me ok hn
  starts := by
    intro k n h i hi hn rng rng'
    rw [dv.parties] at hi
    obtain ⟨L', s, a, out, h1, h2, -⟩ := (Scheme.NetInv.init (sc := sc)).starts ok hi rfl rng rng'
    rw [Scheme.dAt_main (k := 0) rfl] at h2
    by_cases hit : i = t
    · subst hit
      obtain ⟨x, out', h5, -, hf⟩ := Scheme.start_self ok dv h1
      exact ⟨_, a, out', h5, by rw [← hf.length_eq]; exact h2⟩
    · refine ⟨s, a, out, ?_, h2⟩
      rw [← h1]
      unfold Group.startNode
      rw [dv.sid, dv.signer, dv.ep i hit]
  packet := by
    intro k n h p hp
    obtain ⟨_, _, _, _, _, _, _, _, _, hs⟩ := Scheme.Sim.exists ok dv h
    rw [dv.parties]
    exact hs.packet hp

/-- What `run_sync` reports. -/
theorem Deviation.reports (ok : sc.Ok) (dv : Deviation sc g t K ch like) {l : List sp.Id} (hl : g.Enum l)
    {o : Except SyncErr (BMap sp.Id (Report P))} (h : RunSync g.sid (g.nodes l) o) :
    (∃ reports n, o = .ok reports ∧ NetReach g n ∧ (∀ n', ¬ NetStep g n n') ∧ ReportsBlame ch sc.g.parties t reports ∧
      ∀ i rep, i ≠ t → reports.get? i = some rep → n.node i = some (.done (.ok rep))) ∨
      (o = .error .emptyRange ∧ ∀ i, sc.g.parties.contains i = true → (sc.dests 0 i).isEmpty = true) := by
  rcases RunSync.net (dv.regular ok) hl h with ⟨y, k, n, dead, hx, hf, hq, ⟨rng⟩, hres⟩ | ⟨h1, h2⟩
  · have hstuck := hx.stuck hf hq
    obtain ⟨L, e, f, k', n', W, T, T', E, hs⟩ := Scheme.Sim.exists ok dv hx.takes
    have hpart : ∀ i st, y.states.get? i = some st → sc.g.parties.contains i = true := by
      intro i st hst
      have hn : ¬ n.node i = none := by rw [hx.node, hst]; simp
      cases hn' : n'.node i with
      | none => exact absurd (hs.idle.1 hn') hn
      | some st' => exact hs.inv.party i st' hn'
    have hst : ∀ i st, y.states.get? i = some st → ∃ r, st.report = .ok r ∧ (i ≠ t → r.Blames ch t) ∧
        (i = t → (∀ x, r.provable.get? x = none) ∧ ∀ x, r.unprovable.get? x = none) := by
      intro i st hst
      have hn : n.node i = some st.toRun := by rw [hx.node, hst]; rfl
      cases st with
      | finished r =>
        obtain ⟨rep, h1, h2, h3⟩ := hs.no_failure hn
        cases h1
        exact ⟨r, rfl, h2, h3⟩
      | inProgress s a =>
        by_cases hit : i = t
        · subst hit
          obtain ⟨rep, h1, h2⟩ := hs.terminates ok hn
          exact ⟨rep, h1, fun hc => absurd rfl hc, fun _ => h2⟩
        · obtain ⟨r, hr⟩ := hs.stuck ok dv rng hstuck (hpart i _ hst) hit
          rw [hn] at hr
          cases hr
    obtain ⟨reports, h1, h2, h3⟩ := reportsOf_total (states := y.states) (by
      intro i st h
      obtain ⟨r, hr, -⟩ := hst i st h
      exact ⟨r, hr⟩)
    rw [h1] at hres
    rcases hres with ⟨e, he, -⟩ | ⟨r, he, rfl⟩
    · cases he
    cases he
    refine Or.inl ⟨reports, n, rfl, hx.takes.reach, hstuck, ⟨?_, ?_⟩, ?_⟩
    · intro i
      rw [h2]
      cases hc : sc.g.parties.contains i with
      | true => exact hf i (by rw [dv.parties]; exact hc)
      | false =>
        rw [BMap.contains_eq_false]
        by_contra hcc
        cases hi : y.states.get? i with
        | none => exact hcc hi
        | some st => rw [hpart i st hi] at hc; cases hc
    · intro i rep hi
      obtain ⟨st, h4, h5⟩ := h3 i rep hi
      obtain ⟨r, h6, h7⟩ := hst i st h4
      rw [h5] at h6
      cases h6
      exact h7
    · intro i rep hit hi
      obtain ⟨st, h4, h5⟩ := h3 i rep hi
      have hn : n.node i = some st.toRun := by rw [hx.node, h4]; rfl
      obtain ⟨r, hr⟩ := hs.stuck ok dv rng hstuck (hpart i _ h4) hit
      rw [hn] at hr
      cases st with
      | inProgress s a => cases hr
      | finished r' =>
        simp only [NodeState.report, Except.ok.injEq] at h5
        subst h5
        exact hn
  · exact Or.inr ⟨h1, fun i hi => no_dests (h2 i (by rw [dv.parties]; exact hi))⟩

end Manul
