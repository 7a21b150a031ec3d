import Verif.Props.RunSyncNet
import Verif.Props.ChainNet
import Verif.Props.Dining

/-!
# The example protocols executed with `run_sync` (C53)

The tests of `examples/src/simple.rs:357-377` and `examples/src/simple_chain.rs:77-99`, and the main function of
`examples/dining_cryptographers.rs`, for all orders of delivery (and all numbers of parties, session parameters and random
numbers).
-/

namespace Manul

theorem results_net {sp : SP} {P : Proto sp} {sc : Scheme P} (ok : sc.Ok) (rng : sp.Rng) {l : List sp.Id} (hl : sc.g.Enum l)
    {i : sp.Id} (hi : sc.g.parties.contains i = true) (hd : (sc.dests 0 i).isEmpty = false)
    {o : Except SyncErr (BMap sp.Id (Report P))} (h : RunSync sc.g.sid (sc.g.nodes l) o) :
    ∃ reports results n, o = .ok reports ∧ executionResults reports = .ok results ∧ NetReach sc.g n ∧
      (∀ j, results.contains j = sc.g.parties.contains j) ∧
      ∀ j v, results.get? j = some v → ∃ rep, n.node j = some (.done (.ok rep)) ∧ rep.outcome = .result v := by
  obtain ⟨reports, results, G, rfl, hx, -⟩ := C53_results ok rng hl hi hd h
  obtain ⟨_, he, hkeys, -⟩ := C53_reports ok rng hl hi hd h
  cases he
  have hres := C53_execution_results reports
  rw [hx] at hres
  rcases C53_refines ok hl h with ⟨_, n, he, hn, -, hrep⟩ | ⟨he, -⟩
  · cases he
    refine ⟨reports, results, n, rfl, hx, hn, fun j => (hres.1 j).trans (hkeys j), ?_⟩
    intro j v hv
    obtain ⟨rep, h1, h2⟩ := (hres.2 j v).1 hv
    exact ⟨rep, by rw [hrep, h1]; rfl, h2⟩
  · cases he

section simple

variable {sp : SP} {fmt : SimpleFormat} {checks : Bool} {ids : BSet sp.Id} {signer : sp.Id → sp.Signer} {sid : Bytes}

theorem others_nonempty (h2 : 2 ≤ partyCount ids) {i : sp.Id} (hi : ids.contains i = true) :
    BMap.isEmpty (ids.erase i) = false := by
  rw [Bool.eq_false_iff]
  intro he
  rw [BMap.isEmpty_iff_contains] at he
  have hsub : ids.elems ⊆ [i] := by
    intro x hx
    by_contra hne
    have := he x
    rw [BMap.contains_erase] at this
    rw [BSet.mem_elems] at hx
    simp only [List.mem_singleton] at hne
    simp [hx, hne] at this
  have := (List.subperm_of_subset (BSet.elems_nodup ids) hsub).length_le
  unfold partyCount at h2
  simp only [List.length_singleton] at this
  omega

/-- **C53.** With a single party `run_sync` of `simple` always panics, although the protocol gives a result: the party sends
nothing, and `run_sync` takes a message from the queue before it looks whether there is any. -/
theorem C53_simple_alone (rng : sp.Rng) (hf : fmt.Lawful) (hw : ParamsWork sp ids signer) (hb : SumsFit checks ids)
    (h1 : partyCount ids = 1) {l : List sp.Id} (hl : (simpleGroup sp fmt checks ids signer sid).Enum l)
    {o : Except SyncErr (BMap sp.Id (Report (simple sp fmt checks).wrap))}
    (h : RunSync sid ((simpleGroup sp fmt checks ids signer sid).nodes l) o) : o = .error .emptyRange := by
  refine (C53_panic_exact (sc := (simplePlan sp fmt checks ids signer sid).scheme) (simple_ok hf hw hb).scheme rng hl h).2 ?_
  have none : ∀ i j, ids.contains i = true → BMap.contains (ids.erase i) j = false := by
    intro i j hi
    rw [Bool.eq_false_iff]
    intro hj
    simp only [BMap.contains_erase, Bool.and_eq_true] at hj
    have hne := of_decide_eq_true hj.1
    have hsub : [i, j] ⊆ ids.elems := by
      intro q hq
      simp only [List.mem_cons, List.not_mem_nil, or_false] at hq
      rcases hq with rfl | rfl
      · exact BSet.mem_elems.2 hi
      · exact BSet.mem_elems.2 hj.2
    have := (List.subperm_of_subset (by simp [Ne.symm hne]) hsub).length_le
    unfold partyCount at h1
    rw [h1] at this
    simp at this
  intro k i j hk hi
  exact ⟨none i j hi, fun _ => none i j hi⟩

/-- **C53.** `run_sync` of two or more parties executing `simple` returns, whatever the order of delivery, `n(n - 1)` for all of
them; for three parties this is the `6` of the test. -/
theorem C53_simple (rng : sp.Rng) (hf : fmt.Lawful) (hw : ParamsWork sp ids signer) (hb : SumsFit checks ids)
    (h2 : 2 ≤ partyCount ids) {l : List sp.Id} (hl : (simpleGroup sp fmt checks ids signer sid).Enum l)
    {o : Except SyncErr (BMap sp.Id (Report (simple sp fmt checks).wrap))}
    (h : RunSync sid ((simpleGroup sp fmt checks ids signer sid).nodes l) o) :
    ∃ reports results, o = .ok reports ∧ executionResults reports = .ok results ∧
      ∀ i, results.get? i = if ids.contains i then some (Fin.ofNat 256 (partyCount ids * (partyCount ids - 1)) : U8) else none := by
  obtain ⟨i, hi⟩ : ∃ i, ids.contains i = true := by
    cases he : ids.elems with
    | nil => unfold partyCount at h2; rw [he] at h2; simp at h2
    | cons i l => exact ⟨i, BSet.mem_elems.1 (by rw [he]; simp)⟩
  obtain ⟨reports, results, n, h1, h3, h4, h5, h6⟩ := results_net (sc := (simplePlan sp fmt checks ids signer sid).scheme)
    (simple_ok hf hw hb).scheme rng hl hi (others_nonempty h2 hi) h
  refine ⟨reports, results, h1, h3, ?_⟩
  intro j
  have hj : results.contains j = ids.contains j := h5 j
  cases hids : ids.contains j with
  | false =>
    rw [hids] at hj
    exact BMap.contains_eq_false.1 hj
  | true =>
    rw [hids] at hj
    obtain ⟨v, hv⟩ := BMap.contains_iff.1 hj
    obtain ⟨rep, hn, hr⟩ := h6 j v hv
    have := C48_result hf hw hb h4 hn hids
    rw [hr] at this
    rw [hv, SessionOutcome.result.inj this]
    rfl

/-- **C53.** Likewise for two executions of `simple` chained. -/
theorem C53_double_simple (rng : sp.Rng) (hf : fmt.Lawful) (hw : ParamsWork sp ids signer) (hb : SumsFit checks ids)
    (h2 : 2 ≤ partyCount ids) {l : List sp.Id} (hl : (doubleSimpleGroup sp fmt checks ids signer sid).Enum l)
    {o : Except SyncErr (BMap sp.Id (Report (doubleSimple sp fmt checks)))}
    (h : RunSync sid ((doubleSimpleGroup sp fmt checks ids signer sid).nodes l) o) :
    ∃ reports results, o = .ok reports ∧ executionResults reports = .ok results ∧
      ∀ i, results.get? i = if ids.contains i then some (Fin.ofNat 256 (partyCount ids * (partyCount ids - 1)) : U8) else none := by
  obtain ⟨i, hi⟩ : ∃ i, ids.contains i = true := by
    cases he : ids.elems with
    | nil => unfold partyCount at h2; rw [he] at h2; simp at h2
    | cons i l => exact ⟨i, BSet.mem_elems.1 (by rw [he]; simp)⟩
  have ok : (doubleSimplePlan sp fmt checks ids signer sid).Ok :=
    ⟨hw.env, hw.sc, hw.srt, hw.ert, hw.keys, doubleSimple_cooperates hf hb⟩
  obtain ⟨reports, results, n, h1, h3, h4, h5, h6⟩ := results_net (sc := (doubleSimplePlan sp fmt checks ids signer sid).plan.scheme)
    ok.plan.scheme rng hl hi (others_nonempty h2 hi) h
  refine ⟨reports, results, h1, h3, ?_⟩
  intro j
  have hj : results.contains j = ids.contains j := h5 j
  cases hids : ids.contains j with
  | false =>
    rw [hids] at hj
    exact BMap.contains_eq_false.1 hj
  | true =>
    rw [hids] at hj
    obtain ⟨v, hv⟩ := BMap.contains_iff.1 hj
    obtain ⟨rep, hn, hr⟩ := h6 j v hv
    have := C51_double_simple hf hw hb h4 hn hids
    rw [hr] at this
    exact hv.trans (congrArg some (SessionOutcome.result.inj this))

end simple

/-- One party with id 7: `run_sync` ends, and always with the panic. -/
example : (∃ o, RunSync [9] ((simpleGroup toy simpleFmt true (BSet.ofList [7] : BSet U8) (fun i => i) [9]).nodes [(7 : U8)]) o) ∧
    ∀ o, RunSync [9] ((simpleGroup toy simpleFmt true (BSet.ofList [7] : BSet U8) (fun i => i) [9]).nodes [(7 : U8)]) o →
      o = .error .emptyRange := by
  have hc : partyCount (sp := toy) (BSet.ofList [7] : BSet U8) = 1 := by decide +kernel
  have hb : SumsFit (sp := toy) true (BSet.ofList [7] : BSet U8) := Or.inr (by rw [hc]; decide)
  have hl : (simpleGroup toy simpleFmt true (BSet.ofList [7] : BSet U8) (fun i => i) [9]).Enum [(7 : U8)] := by
    refine ⟨List.nodup_singleton _, fun (i : U8) => ?_⟩
    have h : (BSet.ofList [7] : BSet U8).contains i = true ↔ i ∈ [(7 : U8)] := by
      rw [BSet.contains_ofList, decide_eq_true_eq]
    exact h.symm
  exact ⟨C53_returns (sc := (simplePlan toy simpleFmt true (BSet.ofList [7] : BSet U8) (fun i => i) [9]).scheme)
      (simple_ok simpleFmt_lawful (toy_works _) hb).scheme (0 : Nat) hl,
    fun o h => C53_simple_alone (0 : Nat) simpleFmt_lawful (toy_works _) hb hc hl h⟩

/-- **C53.** `run_sync` of the diners returns a result for each of them, and all results say the same: whether diner 0 drew an
even number. -/
theorem C53_dining {R : RandomSource} (rng : R.Rng) {sid : Bytes} {l : List U8} (hl : (diningGroup R sid).Enum l)
    {o : Except SyncErr (BMap U8 (Report (dining R).wrap))} (h : RunSync sid ((diningGroup R sid).nodes l) o) :
    ∃ (reports : BMap U8 (Report (dining R).wrap)) (results : BMap U8 (Bool × Bool × Bool)) (paid₀ : Bool), o = .ok reports ∧ executionResults (P := (dining R).wrap) reports = .ok results ∧
      (∃ rng : R.Rng, paid₀ = decide (R.u32 rng 0 % 2 = 0)) ∧
      (∀ i : U8, results.contains i = diners.contains i) ∧
      ∀ (i : U8) (v : Bool × Bool × Bool), results.get? i = some v → (v.1 ^^ v.2.1 ^^ v.2.2) = paid₀ := by
  obtain ⟨reports, results, n, h1, h3, h4, h5, h6⟩ := results_net (sc := (diningPlan (diningGroup R sid)).scheme)
    (dining_ok (diningGroup_party R sid) (diningGroup_keys R sid)).scheme rng hl (i := (0 : U8)) rfl rfl h
  obtain ⟨paid₀, hp⟩ := C47_answer h4
  refine ⟨reports, results, paid₀, h1, h3, ?_, h5, ?_⟩
  · have : results.contains (0 : U8) = true := (h5 (0 : U8)).trans rfl
    obtain ⟨v, hv⟩ := BMap.contains_iff.1 this
    obtain ⟨rep, hn, -⟩ := h6 _ _ hv
    exact (hp 0 rep rfl hn).1
  · intro i v hv
    obtain ⟨rep, hn, hr⟩ := h6 i v hv
    have hi : diners.contains i = true := (h5 i).symm.trans (BMap.contains_iff.2 ⟨v, hv⟩)
    obtain ⟨-, a, b, c, h7, h8⟩ := hp i rep hi hn
    rw [hr] at h7
    cases h7
    exact h8

end Manul
