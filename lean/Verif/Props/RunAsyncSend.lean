import Verif.Lemmas.RunAsyncSendNet

/-!
# `run_async`, one message at a time (C71)

The model of `run_async` in C58 makes all messages of a round before the first one is sent.  Here they are made, sent and
processed one at a time, and other tasks may run in between: everything C58 says holds here as well.
-/

namespace Manul

variable {sp : SP} {P : Proto sp} {sc : Scheme P}

/-- **C71.**  The parties go through states of the coarser model, up to what is left to do at the beginnings of rounds. -/
theorem C71_refines (ok : sc.Ok) {k : Nat} {y : SAsync P} (h : SAsyncTakes sc.g k y) :
    ∃ kc x, AsyncTakes sc.g kc x ∧ y.Sim x := by
  obtain ⟨kc, x, h1, h2, -⟩ := SAsync.Sim.reach ok h
  exact ⟨kc, x, h1, h2⟩

/-- **C71.**  And every execution of the coarser model is one of the finer. -/
theorem C71_covers (ok : sc.Ok) {k : Nat} {x : Async P} (h : AsyncTakes sc.g k x) : ∃ k' y, SAsyncTakes sc.g k' y ∧ y.Sim x := by
  obtain ⟨k', y, h1, h2, -⟩ := SAsync.Sim.all ok h
  exact ⟨k', y, h1, h2⟩

/-- **C71.**  No task ever fails: the dispatcher finds a channel for every message and does not send to parties that have
returned; a party that returns has a result, has recorded nothing against anybody and misses nothing. -/
theorem C71_no_failure (ok : sc.Ok) {k : Nat} {y : SAsync P} (h : SAsyncTakes sc.g k y) :
    y.disp ≠ .failed ∧ ∀ i r, y.node i = some (.done r) → ∃ rep v, r = .ok rep ∧ rep.outcome = .result v ∧
      rep.provable.isEmpty = true ∧ rep.unprovable.isEmpty = true ∧ rep.missing.isEmpty = true := by
  obtain ⟨kc, x, h1, h2⟩ := C71_refines ok h
  obtain ⟨h3, h4⟩ := C58_no_failure ok h1
  refine ⟨by rw [← h2.disp]; exact h3, ?_⟩
  intro i r hr
  obtain ⟨st, hst, hc⟩ := h2.get hr
  generalize x.outbox i = out at hc
  cases hc
  obtain ⟨rep, v, h5, h6⟩ := h4 i _ hst
  cases h5
  exact ⟨_, v, rfl, h6⟩

/-- **C71.**  There is a bound for the number of steps of all tasks, whatever the schedule. -/
theorem C71_terminates (ok : sc.Ok) {k : Nat} {y : SAsync P} (h : SAsyncTakes sc.g k y) :
    k ≤ 24 * (sc.g.parties.elems.length * ((sc.g.parties.elems.length + 1) * (4 * sc.n))) + 2 * sc.g.parties.elems.length + 3 := by
  obtain ⟨kc, x, h1, -, h3⟩ := SAsync.Sim.reach ok h
  have h4 := C58_terminates ok h1
  have h5 := SAsync.total_stage sc.g y
  omega

/-- **C71** for at most 51 parties: if nothing more can happen, `run_async` returns the reports of all parties, with the results
of an execution of the protocol and nothing recorded against anybody.  (With 52 or more parties this is not so:
`C71_deadlock_violation`.) -/
theorem C71_returns_partial (rng : sp.Rng) (ok : sc.Ok) (hsize : sc.g.parties.elems.length ≤ 51) {k : Nat} {y : SAsync P}
    (h : SAsyncTakes sc.g k y) (hstuck : ∀ y', ¬ SAsyncStep sc.g y y') :
    ∃ reports, y.Returns sc.g reports ∧ ReportsAll sc reports := by
  obtain ⟨kc, x, h1, h2⟩ := C71_refines ok h
  obtain ⟨reports, ⟨h3, h4, h5⟩, h6⟩ := C58_returns_partial rng ok hsize h1 (h2.unstuck ok h1 hstuck)
  refine ⟨reports, ⟨by rw [← h2.disp]; exact h3, h4, ?_⟩, h6⟩
  intro i r hr
  obtain ⟨f, hf, hc⟩ := h2.get' (h5 i r hr)
  generalize x.outbox i = out at hc
  cases hc
  exact hf

/-- What stands still in the coarser model does so in the finer. -/
theorem standstill_send (ok : sc.Ok) (h : ∃ k x, AsyncTakes sc.g k x ∧ (∀ x', ¬ AsyncStep sc.g x x') ∧
      ∀ i, sc.g.parties.contains i = true → ∃ s a, x.node i = some (.running s a)) :
    ∃ k y, SAsyncTakes sc.g k y ∧ (∀ y', ¬ SAsyncStep sc.g y y') ∧
      ∀ i, sc.g.parties.contains i = true → ∃ f, y.node i = some f ∧ f.Busy := by
  obtain ⟨k, x, h1, h2, h3⟩ := h
  obtain ⟨k', y, h4, h5, h6⟩ := SAsync.Sim.all ok h1
  refine ⟨k', y, h4, h5.stuck ok h1 h6 h2, ?_⟩
  intro i hi
  obtain ⟨s, a, hr⟩ := h3 i hi
  obtain ⟨f, hf, hc⟩ := h5.get' hr
  refine ⟨f, hf, ?_⟩
  rintro r rfl
  generalize x.outbox i = out at hc
  cases hc

/-- **C71.**  With 102 or more parties all sending messages to all others, there are schedules after which nothing moves although
nobody has returned, even in the only round of a protocol. -/
theorem C71_deadlock_one_round_violation (rng : sp.Rng) (ok : sc.Ok)
    (hd : ∀ i, sc.g.parties.contains i = true → sc.dests 0 i = sc.g.others i) (hsize : 102 ≤ sc.g.parties.elems.length) :
    ∃ k y, SAsyncTakes sc.g k y ∧ (∀ y', ¬ SAsyncStep sc.g y y') ∧
      ∀ i, sc.g.parties.contains i = true → ∃ f, y.node i = some f ∧ f.Busy :=
  standstill_send ok (C58_deadlock_one_round_violation rng ok hd hsize)

/-- **C71.**  The bound of `C71_returns_partial` is the best one. -/
theorem C71_deadlock_violation (rng : sp.Rng) (ok : sc.Ok)
    (hd : ∀ i, sc.g.parties.contains i = true → sc.dests 0 i = sc.g.others i)
    (hnext : ∀ i, sc.g.parties.contains i = true →
      if sc.runsEcho 0 i then sc.peers 0 i = sc.g.others i else 1 < sc.n ∧ sc.dests 1 i = sc.g.others i)
    (hsize : 52 ≤ sc.g.parties.elems.length) :
    ∃ k y, SAsyncTakes sc.g k y ∧ (∀ y', ¬ SAsyncStep sc.g y y') ∧
      ∀ i, sc.g.parties.contains i = true → ∃ f, y.node i = some f ∧ f.Busy :=
  standstill_send ok (C58_deadlock_violation rng ok hd hnext hsize)

/-! ### Examples -/

/-- The assumptions hold for three parties executing seven rounds with echo broadcasts. -/
example {k : Nat} {y : SAsync (demo true 7).wrap} (h : SAsyncTakes (demoPlan true 7 (BSet.ofList [1, 2, 3])).g k y)
    (hstuck : ∀ y', ¬ SAsyncStep (demoPlan true 7 (BSet.ofList [1, 2, 3])).g y y') :
    ∃ reports, y.Returns (demoPlan true 7 (BSet.ofList [1, 2, 3])).g reports ∧
      ReportsAll (demoPlan true 7 (BSet.ofList [1, 2, 3])).scheme reports :=
  C71_returns_partial (0 : Nat) (demo_ok true 7 (by decide)).scheme (by decide +kernel) h hstuck

/-- The first party after it has been started. -/
def firstSend : SendState (demo true 7).wrap :=
  (demoPlan true 7 (BSet.ofList [1, 2, 3])).g.startSend (1 : U8) (0 : Nat) (1 : Nat)

/-- It makes a message, sends it, and has another one to make. -/
def firstSent : Bool :=
  match sendStep firstSend .go with
  | some (st, _) =>
    match sendStep st .accept with
    | some (.sending _ _ _ _ _ ds, [_]) => decide (ds.length = 1)
    | _ => false
  | none => false

/-- A state that does not exist in the coarser model: a party has sent a message before making the next. -/
example : ∃ k, ∃ y : SAsync (demo true 7).wrap, SAsyncTakes (demoPlan true 7 (BSet.ofList [1, 2, 3])).g k y ∧
    y.chan.length = 1 ∧ ∃ s a cached rng i d, y.node (1 : U8) = some (.sending s a cached rng i [d]) := by
  have h : firstSent = true := by decide +kernel
  unfold firstSent at h
  split at h
  · rename_i st o h1
    split at h
    · rename_i s a cached rng i ds m h2
      simp only [decide_eq_true_eq] at h
      obtain ⟨d, rfl⟩ := List.length_eq_one_iff.1 h
      have t1 := SAsyncTakes.step (SAsyncTakes.init (g := (demoPlan true 7 (BSet.ofList [1, 2, 3])).g))
        (.start (i := (1 : U8)) (0 : Nat) (1 : Nat) (by decide +kernel) rfl)
      have t2 := t1.step (.go (i := (1 : U8)) (st := firstSend) (SAsync.put_self _ _ _) h1)
      have t3 := t2.step (.push (i := (1 : U8)) (st := st) (SAsync.put_self _ _ _) h2 (by simp [SAsync.put, SAsync.init, asyncCapacity])
        (by simp [SAsync.put, SAsync.init, SAsync.Ended]))
      exact ⟨_, _, t3, by simp [SAsync.put, SAsync.init], _, _, _, _, _, d, SAsync.put_self _ _ _⟩
    · cases h
  · cases h

/-- A single round of 102 parties can come to a standstill. -/
example : ∃ k, ∃ y : SAsync (demo false 1).wrap, SAsyncTakes (demoPlan false 1 crowd).g k y ∧
    (∀ y', ¬ SAsyncStep (demoPlan false 1 crowd).g y y') ∧
    ∀ i, crowd.contains i = true → ∃ f, y.node i = some f ∧ f.Busy :=
  C71_deadlock_one_round_violation (0 : Nat) crowd_ok.scheme (fun _ _ => rfl) (by decide +kernel)

/-- And two rounds of 52 parties. -/
example : ∃ k, ∃ y : SAsync (demo false 2).wrap, SAsyncTakes (demoPlan false 2 smallCrowd).g k y ∧
    (∀ y', ¬ SAsyncStep (demoPlan false 2 smallCrowd).g y y') ∧
    ∀ i, smallCrowd.contains i = true → ∃ f, y.node i = some f ∧ f.Busy :=
  C71_deadlock_violation (0 : Nat) (smallCrowd_ok false 2 (by decide)).scheme (fun _ _ => rfl)
    (by intro i hi; rw [if_neg (by simp [Scheme.runsEcho, Plan.scheme, demoPlan, Plan.allToAll])]; exact ⟨by decide, rfl⟩) (by decide +kernel)

end Manul
