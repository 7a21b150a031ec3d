import Verif.Lemmas.ParNet
import Verif.Lemmas.SchemePlan
import Verif.Props.Network
import Verif.Props.Par

/-!
# Honest executions of `par_run_session` (C61)

All parties execute `par_run_session` and follow a cooperative protocol (`Scheme.Cooperative`).  The network delays and reorders
messages arbitrarily, and the results of the tasks creating and processing messages reach the host tasks in any order.
-/

namespace Manul

variable {sp : SP} {P : Proto sp} {sc : Scheme P}

/-- Nothing is recorded against anybody, and the run has not failed. -/
def ParClean : ParState P → Prop
  | .running s st => (∀ x, ¬ HasError s st.accum x) ∧ s.transcript.missing.isEmpty = true
  | .done r => ∃ rep v, r = .ok rep ∧ rep.outcome = .result v ∧ rep.provable.isEmpty = true ∧ rep.unprovable.isEmpty = true ∧
      rep.missing.isEmpty = true

theorem ParNet.clean {k : Nat} {c : PNet P} {L : Ledger P} {e f : sp.Id → Nat} {n : Net P} (hpn : ParNet sc k c L e f n) {i : sp.Id}
    {st : ParState P} (hn : c.node i = some st) : ParClean st := by
  have hsim := hpn.node i
  rw [hn] at hsim
  generalize hn' : n.node i = z at hsim
  cases hsim with
  | done => exact hpn.inv.clean hn'
  | @running s st b rng₀ cached l hb hi hm hlen =>
    obtain ⟨-, hs, ha⟩ := hpn.inv.running i s b hn'
    refine ⟨?_, by rw [hs.transcript.missing]; rfl⟩
    intro x
    obtain ⟨h1, h2⟩ := sim_clean hi hb x (ha.provable x) (ha.unprovable x)
    rintro (⟨y, h3⟩ | ⟨y, h3⟩ | ⟨y, h3⟩ | ⟨y, h3⟩)
    · rw [hs.transcript.provable] at h3; simp at h3
    · rw [hs.transcript.unprovable] at h3; simp at h3
    · rw [h1] at h3; simp at h3
    · rw [h2] at h3; simp at h3

/-- **C61.**  Nobody ever records an error, misses a message or fails. -/
theorem C61_no_errors (ok : sc.Ok) {k : Nat} {c : PNet P} (h : PNetTakes sc.g k c) {i : sp.Id} {st : ParState P}
    (hn : c.node i = some st) : ParClean st := by
  obtain ⟨L, e, f, n, hpn⟩ := ParNet.takes ok h
  exact hpn.clean hn

/-- **C61.**  If nothing more can happen, everybody has finished with a result. -/
theorem C61_finishes (rng : sp.Rng) (ok : sc.Ok) {k : Nat} {c : PNet P} (h : PNetTakes sc.g k c)
    (hstuck : ∀ c', ¬ PNetStep sc.g c c') {i : sp.Id} (hi : sc.g.parties.contains i = true) :
    ∃ rep v, c.node i = some (.done (.ok rep)) ∧ rep.outcome = .result v ∧ rep.provable.isEmpty = true ∧
      rep.unprovable.isEmpty = true ∧ rep.missing.isEmpty = true := by
  obtain ⟨L, e, f, n, hpn⟩ := ParNet.takes ok h
  obtain ⟨r, hr⟩ := hpn.stuck rng ok hstuck hi
  obtain ⟨rep, v, rfl, h1⟩ := hpn.inv.clean hr
  have hsim := hpn.node i
  rw [hr] at hsim
  generalize c.node i = z at hsim
  cases hsim
  exact ⟨rep, v, rfl, h1⟩

/-- **C61.**  The network comes to an end: there is a bound for the number of steps, those of the tasks included. -/
theorem C61_terminates (ok : sc.Ok) {k : Nat} {c : PNet P} (h : PNetTakes sc.g k c) :
    k ≤ sc.g.parties.elems.length * ((4 * sc.g.parties.elems.length + 1) * (4 * sc.n)) := by
  obtain ⟨L, e, f, n, hpn⟩ := ParNet.takes ok h
  have := hpn.steps
  have h1 : sc.size = sc.g.parties.elems.length := rfl
  rw [h1] at this
  omega

/-- **C61.**  The results are those of an execution of the protocol in which everybody follows it. -/
theorem C61_results (ok : sc.Ok) {k : Nat} {c : PNet P} (h : PNetTakes sc.g k c) :
    ∃ G : History P, Honest sc.g G ∧ ∀ i rep, c.node i = some (.done (.ok rep)) →
      (G i).length = sc.n ∧ ∃ v rng, rep.outcome = .result v ∧ Finalizes G i rng (.result v) := by
  obtain ⟨L, e, f, n, hpn⟩ := ParNet.takes ok h
  refine ⟨L.history, hpn.inv.ledger.honest, ?_⟩
  intro i rep hn
  have hsim := hpn.node i
  rw [hn] at hsim
  generalize hn' : n.node i = z at hsim
  cases hsim
  obtain ⟨-, -, ⟨rep', v, h1, h2, -, -, -, rng, h3⟩, h4⟩ := hpn.inv.done i _ hn'
  simp only [Except.ok.injEq] at h1
  subst h1
  exact ⟨by simp [Ledger.history, h4], v, rng, h2, h3⟩

/-- **C61.**  When a party leaves the loop of a round, all messages have been processed, and the messages not yet received from
the creation tasks are at most as many as there are other parties.  So in a group of at most 101 parties the join of the tasks
(`tokio.rs:344-354`) comes to its end, however the tasks have filled the channels before. -/
theorem C61_join (ok : sc.Ok) {k : Nat} {c : PNet P} (h : PNetTakes sc.g k c) {i : sp.Id} {s : Session P} {st : ParSt P}
    (hn : c.node i = some (.running s st)) (hc : st.accum.canFinalize ≠ .notYet) :
    st.tasks = [] ∧ st.outgoing.length ≤ (sc.g.others i).elems.length ∧
      ((sc.g.others i).elems.length ≤ 100 → ∀ a, Joining a → (a.phase = .joinProcessing → a.creating = 0) →
        a.creating + a.outQ = st.outgoing.length → a.processing + a.procQ = st.tasks.length →
        ∃ b, JSteps a b ∧ b.phase = .joined) := by
  obtain ⟨L, e, f, n, hpn⟩ := ParNet.takes ok h
  have hsim := hpn.node i
  rw [hn] at hsim
  generalize hn' : n.node i = z at hsim
  cases hsim with
  | @running _ _ b rng₀ cached l hb hi hm hlen =>
    obtain ⟨ht, -⟩ := sim_ready hpn.inv hn' hi hb hc
    obtain ⟨-, hs, -⟩ := hpn.inv.running i s b hn'
    have hpty := hpn.inv.party i _ hn'
    have hle : st.outgoing.length ≤ (sc.g.others i).elems.length := by
      refine hlen.trans ?_
      refine (List.subperm_of_subset (BSet.elems_nodup _) ?_).length_le
      intro x hx
      rw [BSet.mem_elems] at hx ⊢
      refine ok.coop.pattern.others_at hs.stage hpty (Or.inl ?_)
      have : s.destinations = sc.dAt (f i) i := by
        simp only [Session.destinations, hs.comm]
      rw [← this]
      exact hx
    refine ⟨ht, hle, ?_⟩
    intro h100 a hj hp h1 h2
    rw [ht, List.length_nil] at h2
    exact (C42_exact hj hp (by omega) (by omega)).2 ⟨by omega, by omega⟩

/-- **C61.**  Every partial execution can be continued until everybody has finished. -/
theorem C61_completes (rng : sp.Rng) (ok : sc.Ok) {k : Nat} {c : PNet P} (h : PNetTakes sc.g k c) :
    ∃ c', Relation.ReflTransGen (PNetStep sc.g) c c' ∧ ∀ i, sc.g.parties.contains i = true →
      ∃ rep v, c'.node i = some (.done (.ok rep)) ∧ rep.outcome = .result v := by
  have hb := C61_terminates ok h
  generalize hm : sc.g.parties.elems.length * ((4 * sc.g.parties.elems.length + 1) * (4 * sc.n)) - k = m
  induction m generalizing k c with
  | zero =>
    refine ⟨c, .refl, fun i hi => ?_⟩
    have hstuck : ∀ c', ¬ PNetStep sc.g c c' := fun c' hc => by
      have := C61_terminates ok (.step h hc)
      omega
    obtain ⟨rep, v, h1, h2, -⟩ := C61_finishes rng ok h hstuck hi
    exact ⟨rep, v, h1, h2⟩
  | succ m ih =>
    by_cases hs : ∃ c', PNetStep sc.g c c'
    · obtain ⟨c', hc⟩ := hs
      obtain ⟨c'', h1, h2⟩ := ih (.step h hc) (C61_terminates ok (.step h hc)) (by omega)
      exact ⟨c'', .head hc h1, h2⟩
    · refine ⟨c, .refl, fun i hi => ?_⟩
      obtain ⟨rep, v, h1, h2, -⟩ := C61_finishes rng ok h (fun c' hc => hs ⟨c', hc⟩) hi
      exact ⟨rep, v, h1, h2⟩

/-! ### Examples -/

/-- Three parties executing seven rounds with echo broadcasts can come to an end, and do. -/
example : ∃ (k : Nat) (c : PNet (demo true 7).wrap), PNetTakes (demoPlan true 7 (BSet.ofList [1, 2, 3])).g k c ∧
    ∀ i, (BSet.ofList [1, 2, 3] : BSet U8).contains i = true → ∃ rep v, c.node i = some (.done (.ok rep)) ∧ rep.outcome = .result v := by
  obtain ⟨c, h1, h2⟩ := C61_completes (0 : Nat) (demo_ok true 7 (by decide)).scheme .init
  obtain ⟨k, hk⟩ : ∃ k, PNetTakes (demoPlan true 7 (BSet.ofList [1, 2, 3])).g k c := by
    clear h2
    induction h1 with
    | refl => exact ⟨0, .init⟩
    | tail _ hs ih =>
      obtain ⟨k, hk⟩ := ih
      exact ⟨k + 1, .step hk hs⟩
  exact ⟨k, c, hk, h2⟩

end Manul
