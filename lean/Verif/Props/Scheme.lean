import Verif.Lemmas.SchemePlan

/-!
# Honest executions with partial participation in echo rounds (C59)

All parties execute `run_session` and follow a cooperative protocol (`Scheme.Cooperative`) in which the parties may take part in
the echo rounds in different ways: send without an echo round, take part without sending, or neither.  The network delays and
reorders messages arbitrarily.
-/

namespace Manul

variable {sp : SP} {P : Proto sp} {sc : Scheme P}

/-- **C59.**  Nobody ever records an error, misses a message or fails. -/
theorem C59_no_errors (ok : sc.Ok) {n : Net P} (h : NetReach sc.g n) {i : sp.Id} {st : RunState P} (hn : n.node i = some st) :
    Clean st := by
  obtain ⟨L, e, f, hinv⟩ := Scheme.NetInv.reach ok h
  exact hinv.clean hn

/-- **C59.**  No message that is needed is lost: if nothing more can happen in the network, everybody has finished with a
result. -/
theorem C59_finishes (rng : sp.Rng) (ok : sc.Ok) {n : Net P} (h : NetReach sc.g n) (hstuck : ∀ n', ¬ NetStep sc.g n n') :
    AllFinished sc.g n := by
  obtain ⟨L, e, f, hinv⟩ := Scheme.NetInv.reach ok h
  intro i hi
  obtain ⟨r, hr⟩ := hinv.stuck rng ok hstuck hi
  obtain ⟨rep, v, rfl, h1⟩ := hinv.clean hr
  exact ⟨rep, v, hr, h1⟩

/-- **C59.**  The network comes to an end: there is a bound for the number of steps, whatever the schedule. -/
theorem C59_terminates (ok : sc.Ok) {k : Nat} {n : Net P} (h : NetTakes sc.g k n) :
    k ≤ sc.g.parties.elems.length * ((sc.g.parties.elems.length + 1) * (4 * sc.n)) := by
  obtain ⟨L, e, f, -, hk⟩ := Scheme.NetInv.takes ok h
  omega

/-- **C59.**  The results are those of an execution of the protocol in which everybody follows it. -/
theorem C59_results (ok : sc.Ok) {n : Net P} (h : NetReach sc.g n) :
    ∃ G : History P, Honest sc.g G ∧ ∀ i rep, n.node i = some (.done (.ok rep)) →
      (G i).length = sc.n ∧ ∃ v rng, rep.outcome = .result v ∧ Finalizes G i rng (.result v) := by
  obtain ⟨L, e, f, hinv⟩ := Scheme.NetInv.reach ok h
  refine ⟨L.history, hinv.ledger.honest, ?_⟩
  intro i rep hn
  obtain ⟨-, -, ⟨rep', v, h1, h2, -, -, -, rng, h3⟩, h4⟩ := hinv.done i _ hn
  simp only [Except.ok.injEq] at h1
  subst h1
  exact ⟨by simp [Ledger.history, h4], v, rng, h2, h3⟩

end Manul
