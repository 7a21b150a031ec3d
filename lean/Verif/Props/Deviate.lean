import Verif.Lemmas.DeviateSync

/-!
# Executions in which one party deviates (C63)

All parties execute `run_session` over an asynchronous network.  One of them sends, from some stage on, direct messages that are
not those of the protocol, and that the others reject with a provable error.
-/

namespace Manul

variable {sp : SP} {P : Proto sp} {sc : Scheme P} {g : Group P} {t : sp.Id} {K : Nat} {ch : Charge sp} {like : Nat → P.Rd → P.Rd → Prop}

/-- **C63.**  The network comes to rest whatever the schedule. -/
theorem C63_terminates (ok : sc.Ok) (dv : Deviation sc g t K ch like) {k : Nat} {n : Net P} (h : NetTakes g k n) :
    k + n.wire.length ≤ sc.g.parties.elems.length * ((sc.g.parties.elems.length + 1) * (4 * sc.n)) + sc.g.parties.elems.length := by
  obtain ⟨_, _, _, _, _, _, _, _, _, hs⟩ := Scheme.Sim.exists ok dv h
  exact hs.bound ok

/-- **C63.**  When nothing more can happen in the network, every party except the deviating one has a report, which has exactly one
error: a provable one of the deviating party. -/
theorem C63_blamed (rng : sp.Rng) (ok : sc.Ok) (dv : Deviation sc g t K ch like) {n : Net P} (h : NetReach g n)
    (hstuck : ∀ n', ¬ NetStep g n n') {i : sp.Id} (hi : sc.g.parties.contains i = true) (hit : i ≠ t) :
    ∃ rep, n.node i = some (.done (.ok rep)) ∧ rep.Blames ch t := by
  obtain ⟨k, hk⟩ := h.takes
  obtain ⟨_, _, _, _, _, _, _, _, _, hs⟩ := Scheme.Sim.exists ok dv hk
  obtain ⟨r, hr⟩ := hs.stuck ok dv rng hstuck hi hit
  obtain ⟨rep, rfl, h2, -⟩ := hs.no_failure hr
  exact ⟨rep, hr, h2 hit⟩

/-- **C63.**  At any time, no party has ended with a local error, and the reports there are have no errors except the one of the
deviating party; the deviating party itself reports none. -/
theorem C63_reports (ok : sc.Ok) (dv : Deviation sc g t K ch like) {n : Net P} (h : NetReach g n) {i : sp.Id}
    {r : Except LErr (Report P)} (hn : n.node i = some (.done r)) :
    ∃ rep, r = .ok rep ∧ (i ≠ t → rep.Blames ch t) ∧
      (i = t → (∀ x, rep.provable.get? x = none) ∧ ∀ x, rep.unprovable.get? x = none) := by
  obtain ⟨k, hk⟩ := h.takes
  obtain ⟨_, _, _, _, _, _, _, _, _, hs⟩ := Scheme.Sim.exists ok dv hk
  exact hs.no_failure hn

/-- **C63.**  While the execution goes on, nothing is recorded against anybody but the deviating party, who records nothing. -/
theorem C63_no_other (ok : sc.Ok) (dv : Deviation sc g t K ch like) {n : Net P} (h : NetReach g n) {i : sp.Id}
    {s : Session P} {a : Accum P} (hn : n.node i = some (.running s a)) {x : sp.Id} (hx : HasError s a x) : x = t ∧ i ≠ t := by
  obtain ⟨k, hk⟩ := h.takes
  obtain ⟨_, _, _, _, _, _, _, _, _, hs⟩ := Scheme.Sim.exists ok dv hk
  exact hs.errors hn hx

/-- **C63.**  `run_sync` reports what is described above, whatever the order of delivery; or it panics, if nobody sends a message in
the first round. -/
theorem C63_sync (ok : sc.Ok) (dv : Deviation sc g t K ch like) {l : List sp.Id} (hl : g.Enum l)
    {o : Except SyncErr (BMap sp.Id (Report P))} (h : RunSync g.sid (g.nodes l) o) :
    (∃ reports, o = .ok reports ∧ ReportsBlame ch sc.g.parties t reports) ∨
      (o = .error .emptyRange ∧ ∀ i, sc.g.parties.contains i = true → (sc.dests 0 i).isEmpty = true) := by
  rcases dv.reports ok hl h with ⟨reports, n, h1, -, -, h2, -⟩ | h
  · exact Or.inl ⟨reports, h1, h2⟩
  · exact Or.inr h

/-- **C63.**  `run_sync` returns. -/
theorem C63_sync_returns (ok : sc.Ok) (dv : Deviation sc g t K ch like) (rng : sp.Rng) {l : List sp.Id} (hl : g.Enum l) :
    ∃ o, RunSync g.sid (g.nodes l) o :=
  RunSync.exists (dv.regular ok) rng hl

end Manul
