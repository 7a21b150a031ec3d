import Verif.Lemmas.Schedule
import Verif.Props.RunSyncExamples

/-!
# Results do not depend on the schedule (C54)

For protocols that use no random numbers.  Signatures may still be randomized.
-/

namespace Manul

variable {sp : SP} {P : Proto sp} {sc : Scheme P}

/-- **C54.** Whatever the order in which messages are delivered and parties are scheduled, a party that finishes has the same
outcome. -/
theorem C54_network (ok : sc.Ok) (det : sc.g.Deterministic) {n n' : Net P} (h : NetReach sc.g n) (h' : NetReach sc.g n')
    {i : sp.Id} {rep rep' : Report P} (hn : n.node i = some (.done (.ok rep))) (hn' : n'.node i = some (.done (.ok rep'))) :
    rep.outcome = rep'.outcome := by
  obtain ⟨G, hG, hres⟩ := C59_results ok h
  obtain ⟨G', hG', hres'⟩ := C59_results ok h'
  obtain ⟨hl, v, rng, hv, hf⟩ := hres i rep hn
  obtain ⟨hl', v', rng', hv', hf'⟩ := hres' i rep' hn'
  have := hf.same det hG hG' (hl.trans hl'.symm) hf'
  rw [hv, hv', Outcome.result.inj this]

/-- **C54.** `run_sync` returns the same results for any order of the nodes and of the delivery, and these are the results the
parties have over any network. -/
theorem C54_run_sync (ok : sc.Ok) (det : sc.g.Deterministic) (rng : sp.Rng) {l l' : List sp.Id} (hl : sc.g.Enum l)
    (hl' : sc.g.Enum l') {i : sp.Id} (hi : sc.g.parties.contains i = true) (hd : (sc.dests 0 i).isEmpty = false)
    {o o' : Except SyncErr (BMap sp.Id (Report P))} (h : RunSync sc.g.sid (sc.g.nodes l) o)
    (h' : RunSync sc.g.sid (sc.g.nodes l') o') :
    ∃ reports reports' results, o = .ok reports ∧ o' = .ok reports' ∧ executionResults reports = .ok results ∧
      executionResults reports' = .ok results ∧
      ∀ n, NetReach sc.g n → ∀ j rep, n.node j = some (.done (.ok rep)) → ∃ v, results.get? j = some v ∧ rep.outcome = .result v := by
  obtain ⟨reports, results, n, h1, h2, h3, h4, h5⟩ := results_net ok rng hl hi hd h
  obtain ⟨reports', results', n', h1', h2', h3', h4', h5'⟩ := results_net ok rng hl' hi hd h'
  have hsame : results = results' := by
    apply BMap.ext
    intro j
    have hk := (h4 j).trans (h4' j).symm
    cases hj : results.get? j with
    | none =>
      rw [BMap.contains_eq_false.2 hj] at hk
      exact (BMap.contains_eq_false.1 hk.symm).symm
    | some v =>
      rw [BMap.contains_iff.2 ⟨v, hj⟩] at hk
      obtain ⟨v', hv'⟩ := BMap.contains_iff.1 hk.symm
      obtain ⟨rep, a1, a2⟩ := h5 j v hj
      obtain ⟨rep', b1, b2⟩ := h5' j v' hv'
      have := C54_network ok det h3 h3' a1 b1
      rw [a2, b2] at this
      rw [hv', SessionOutcome.result.inj this]
  subst hsame
  refine ⟨reports, reports', results, h1, h1', h2, h2', ?_⟩
  intro m hm j rep hj
  obtain ⟨L, e, f, hinv⟩ := Scheme.NetInv.reach ok hm
  have hc : results.contains j = true := (h4 j).trans (hinv.party j _ hj)
  obtain ⟨v, hv⟩ := BMap.contains_iff.1 hc
  obtain ⟨rep', a1, a2⟩ := h5 j v hv
  exact ⟨v, hv, (C54_network ok det hm h3 hj a1).trans a2⟩

/-! ### Examples -/

/-- The example protocol `simple` uses no random numbers. -/
theorem simple_deterministic {sp : SP} {fmt : SimpleFormat} {checks : Bool} {ids : BSet sp.Id} {signer : sp.Id → sp.Signer}
    {sid : Bytes} : (simpleGroup sp fmt checks ids signer sid).Deterministic where
  start _ _ _ := rfl
  echo r _ _ := by cases r <;> rfl
  normal r _ _ := by cases r <;> rfl
  direct r _ _ _ := by cases r <;> rfl
  finalize r _ _ _ _ := by cases r <;> rfl

/-- The protocol of the examples does not either. -/
theorem demo_deterministic {echo : Bool} {last : U8} {parties : BSet U8} : (demoPlan echo last parties).g.Deterministic where
  start _ _ _ := rfl
  echo _ _ _ := rfl
  normal _ _ _ := rfl
  direct _ _ _ _ := rfl
  finalize _ _ _ _ _ := rfl

example {n n' : Net (demo true 7).wrap} (h : NetReach (demoGroup true 7 (BSet.ofList [1, 2, 3])) n)
    (h' : NetReach (demoGroup true 7 (BSet.ofList [1, 2, 3])) n') {rep rep' : Report (demo true 7).wrap}
    (hn : n.node (1 : U8) = some (.done (.ok rep))) (hn' : n'.node (1 : U8) = some (.done (.ok rep'))) :
    rep.outcome = rep'.outcome := C54_network (demo_ok true 7 (by decide)).scheme demo_deterministic h h' hn hn'

end Manul
