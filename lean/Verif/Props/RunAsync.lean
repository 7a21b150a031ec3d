import Verif.Lemmas.RunAsyncCrowd
import Verif.Props.RunSyncNet

/-!
# `run_async` of parties following the protocol (C58)

`run_async` (`manul/src/dev/tokio.rs`) runs the sessions of all parties as tasks connected by channels with room for 100
messages.  The scheduler and the random choices of the dispatcher are arbitrary.
-/

namespace Manul

variable {sp : SP} {P : Proto sp} {sc : Scheme P}

/-- **C58.**  No task ever fails: the dispatcher finds a channel for every message, does not send to parties that have
returned, and no party records an error, misses a message or fails. -/
theorem C58_no_failure (ok : sc.Ok) {k : Nat} {x : Async P} (h : AsyncTakes sc.g k x) :
    x.disp ≠ .failed ∧ ∀ i st, x.node i = some st → Clean st := by
  obtain ⟨kn, n, hn⟩ := AsyncNet.reach ok h
  refine ⟨hn.fine, ?_⟩
  intro i st hi
  exact C59_no_errors ok hn.takes.reach (by rw [← hn.node]; exact hi)

/-- **C58.**  The parties are in states they can be in over an asynchronous network that loses, duplicates and makes up
nothing. -/
theorem C58_refines (ok : sc.Ok) {k : Nat} {x : Async P} (h : AsyncTakes sc.g k x) :
    ∃ n, NetReach sc.g n ∧ x.node = n.node ∧ n.wire.Perm (x.flight sc.g) := by
  obtain ⟨kn, n, hn⟩ := AsyncNet.reach ok h
  exact ⟨n, hn.takes.reach, hn.node, hn.wire⟩

theorem startNode_done {g : Group P} {i : sp.Id} {rng rng' : sp.Rng} {r : Except LErr (Report P)}
    (h : (g.startNode i rng rng').1 = .done r) : (g.startNode i rng rng').2 = [] := by
  unfold Group.startNode start enterRound at *
  split
  · rfl
  · rename_i s hs
    rw [hs] at h
    dsimp only at h
    split
    · rfl
    · rename_i hs'
      rw [hs'] at h
      cases h

theorem step_done {st : RunState P} {ev : Event sp} {r : Except LErr (Report P)} {out : List (Message sp)}
    (h : Manul.step st ev = some (.done r, out)) : out = [] := by
  cases st with
  | done _ => simp [step] at h
  | running s a =>
    simp only [step] at h
    split at h
    · simp only [Option.some.injEq, finishRound, enterRound] at h
      split at h
      · cases h; rfl
      · cases h; rfl
      · split at h
        · cases h; rfl
        · cases h
    · cases h; rfl
    · split at h
      · cases h; rfl
      · cases h
    · cases h; rfl
    · cases h; rfl
    · cases h

/-- **C58.**  A party whose task has ended, for whatever reason, has nothing left to send; this is so for all groups of parties. -/
theorem C58_silent {g : Group P} {k : Nat} {x : Async P} (h : AsyncTakes g k x) {i : sp.Id} {r : Except LErr (Report P)}
    (hi : x.node i = some (.done r)) : x.outbox i = [] := by
  have hput : ∀ {y : Async P} {j : sp.Id} {st : RunState P} {out : List (Message sp)},
      (∀ i r, y.node i = some (.done r) → y.outbox i = []) → (∀ r, st = .done r → out = []) →
      ∀ i r, (y.put j st out).node i = some (.done r) → (y.put j st out).outbox i = [] := by
    intro y j st out hy hst i r hi
    by_cases hij : i = j
    · subst hij
      simp only [Async.put, Function.update_self, Option.some.injEq] at hi ⊢
      exact hst r hi
    · simp only [Async.put, Function.update_of_ne hij] at hi ⊢
      exact hy i r hi
  have key : ∀ i r, x.node i = some (.done r) → x.outbox i = [] := by
    clear hi i r
    induction h with
    | init => intro i r hi; simp [Async.init] at hi
    | step _ hs ih =>
      cases hs with
      | start rng rng' _ _ => exact hput ih (fun r hr => startNode_done hr)
      | @push i m ms ho _ _ =>
        intro j r hj
        have := ih j r hj
        by_cases hij : j = i
        · subst hij; rw [ho] at this; cases this
        · simpa [Function.update_of_ne hij] using this
      | pushErr _ _ => exact hput ih (fun _ _ => rfl)
      | tick _ _ hs => exact hput ih (fun r hr => step_done (hr ▸ hs))
      | @recv i st st' p ps out _ _ _ hs =>
        exact hput (y := ⟨_, _, Function.update _ i ps, _, _⟩) ih (fun r hr => step_done (hr ▸ hs))
      | closed _ _ _ _ hs => exact hput ih (fun r hr => step_done (hr ▸ hs))
      | dispatch hd => cases hd <;> exact ih
  exact key i r hi

/-- **C58.**  There is a bound for the number of steps of all tasks, whatever the schedule. -/
theorem C58_terminates (ok : sc.Ok) {k : Nat} {x : Async P} (h : AsyncTakes sc.g k x) :
    k ≤ 8 * (sc.g.parties.elems.length * ((sc.g.parties.elems.length + 1) * (4 * sc.n))) + 1 := by
  obtain ⟨kn, n, hn⟩ := AsyncNet.reach ok h
  have h1 := hn.steps
  have h2 := hn.takes.bound ok
  unfold Scheme.steps at h2
  omega

/-- **C58** for at most 51 parties: if nothing more can happen, `run_async` returns the reports of all parties, with the results
of an execution of the protocol and nothing recorded against anybody.  (With 52 or more parties this is not so: `C58_deadlock_violation`.) -/
theorem C58_returns_partial (rng : sp.Rng) (ok : sc.Ok) (hsize : sc.g.parties.elems.length ≤ 51) {k : Nat} {x : Async P}
    (h : AsyncTakes sc.g k x) (hstuck : ∀ x', ¬ AsyncStep sc.g x x') :
    ∃ reports, x.Returns sc.g reports ∧ ReportsAll sc reports := by
  obtain ⟨kn, n, hn⟩ := AsyncNet.reach ok h
  have hcap : ∀ i, sc.g.parties.contains i = true → 2 * (sc.g.others i).elems.length ≤ asyncCapacity := by
    intro i hi
    have := elems_erase_length hi
    have h100 : asyncCapacity = 100 := rfl
    simp only [Group.others]
    omega
  have hall := C59_finishes rng ok hn.takes.reach (hn.stuck ok hcap hstuck)
  obtain ⟨G, hG, hres⟩ := C59_results ok hn.takes.reach
  have hdone : x.AllDone sc.g := by
    intro i hi
    obtain ⟨rep, v, h1, -⟩ := hall i hi
    exact ⟨_, by rw [hn.node]; exact h1⟩
  have hret : x.disp = .returned := by
    rcases hn.idle ok hcap hstuck with ⟨hd, hc⟩ | hd
    · exact (hstuck _ (.dispatch (.close hd hc hdone))).elim
    · exact hd
  by_cases hne : ∃ i, sc.g.parties.contains i = true
  swap
  · have hemp : ∀ i, sc.g.parties.contains i = false := by
      intro i
      by_contra hc
      exact hne ⟨i, by simpa using hc⟩
    exact ⟨BMap.empty, ⟨hret, by simp [hemp], by simp⟩, by simp [hemp], G, hG, by simp⟩
  obtain ⟨i₀, hi₀⟩ := hne
  obtain ⟨rep₀, v₀, -⟩ := hall i₀ hi₀
  have : Nonempty (Report P) := ⟨rep₀⟩
  have : Nonempty P.Result := ⟨v₀⟩
  choose! rep v hrep using hall
  refine ⟨(BMap.mapVal sc.g.parties (fun i _ => rep i)), ⟨?_, ?_, ?_⟩, ?_, G, hG, ?_⟩
  · exact hret
  · intro i
    simp
  · intro i r hr
    rw [BMap.get?_mapVal] at hr
    obtain ⟨u, hu, rfl⟩ := Option.map_eq_some_iff.1 hr
    rw [hn.node]
    exact (hrep i (BMap.contains_iff.2 ⟨u, hu⟩)).1
  · intro i
    simp
  · intro i r hr
    rw [BMap.get?_mapVal] at hr
    obtain ⟨u, hu, rfl⟩ := Option.map_eq_some_iff.1 hr
    obtain ⟨h1, -, h3, h4, h5⟩ := hrep i (BMap.contains_iff.2 ⟨u, hu⟩)
    obtain ⟨h6, h7⟩ := hres i _ h1
    exact ⟨h3, h4, h5, h6, h7⟩

/-- **C58.**  With 102 or more parties all sending messages to all others, there are schedules after which nothing moves although
nobody has finished, even in the only round of a protocol: the dispatcher waits for room in the channel of a party, and this
party, which does not read its channel until it has sent its messages, waits for room in the channel of the dispatcher. -/
theorem C58_deadlock_one_round_violation (rng : sp.Rng) (ok : sc.Ok)
    (hd : ∀ i, sc.g.parties.contains i = true → sc.dests 0 i = sc.g.others i) (hsize : 102 ≤ sc.g.parties.elems.length) :
    ∃ k x, AsyncTakes sc.g k x ∧ (∀ x', ¬ AsyncStep sc.g x x') ∧
      ∀ i, sc.g.parties.contains i = true → ∃ s a, x.node i = some (.running s a) :=
  AsyncTakes.deadlock ok rng hd hsize

/-- **C58.**  The bound of `C58_returns_partial` is the best one: with 52 or more parties, all sending messages to all others in
the first round and then again in its echo round or in the second round, there are schedules after which nothing moves although
nobody has finished. -/
theorem C58_deadlock_violation (rng : sp.Rng) (ok : sc.Ok)
    (hd : ∀ i, sc.g.parties.contains i = true → sc.dests 0 i = sc.g.others i)
    (hnext : ∀ i, sc.g.parties.contains i = true →
      if sc.runsEcho 0 i then sc.peers 0 i = sc.g.others i else 1 < sc.n ∧ sc.dests 1 i = sc.g.others i)
    (hsize : 52 ≤ sc.g.parties.elems.length) :
    ∃ k x, AsyncTakes sc.g k x ∧ (∀ x', ¬ AsyncStep sc.g x x') ∧
      ∀ i, sc.g.parties.contains i = true → ∃ s a, x.node i = some (.running s a) := by
  by_cases hbig : 102 ≤ sc.g.parties.elems.length
  · exact C58_deadlock_one_round_violation rng ok hd hbig
  · refine AsyncTakes.standstill ok rng hd ?_ hsize (by unfold asyncCapacity; omega)
    intro i hi
    have h := hnext i hi
    have hn := ok.coop.stages
    by_cases hr : sc.runsEcho 0 i = true
    · rw [if_pos hr] at h
      have h1 : sc.nxt 0 i = 1 := by simp [Scheme.nxt, spot, hr]
      rw [h1]
      refine ⟨by omega, ?_⟩
      rw [Scheme.dAt_echo (k := 0) rfl hr]
      exact h
    · rw [if_neg hr] at h
      have h1 : sc.nxt 0 i = 2 := by simp [Scheme.nxt, spot, hr]
      rw [h1]
      refine ⟨by omega, ?_⟩
      rw [Scheme.dAt_main (k := 1) rfl]
      exact h.2

/-! ### Examples -/

/-- The assumptions hold for three parties executing seven rounds with echo broadcasts. -/
example {k : Nat} {x : Async (demo true 7).wrap} (h : AsyncTakes (demoPlan true 7 (BSet.ofList [1, 2, 3])).g k x)
    (hstuck : ∀ x', ¬ AsyncStep (demoPlan true 7 (BSet.ofList [1, 2, 3])).g x x') :
    ∃ reports, x.Returns (demoPlan true 7 (BSet.ofList [1, 2, 3])).g reports ∧
      ReportsAll (demoPlan true 7 (BSet.ofList [1, 2, 3])).scheme reports :=
  C58_returns_partial (0 : Nat) (demo_ok true 7 (by decide)).scheme (by decide +kernel) h hstuck

/-- 102 parties. -/
def crowd : BSet U8 := BSet.ofList ((List.range 102).map (fun k => Fin.ofNat 256 (k + 100)))

theorem crowd_ok : (demoPlan false 1 crowd).Ok where
  env := toy_envOk
  sc := toy_signCorrect
  srt := toy_sigRoundTrip
  ert := toy_echoRoundTrip
  keys := fun _ _ => rfl
  coop := demo_cooperative false 1 _ (by decide) (by decide +kernel) (by decide +kernel) (by intro h; cases h)

/-- A single round of 102 parties can come to a standstill. -/
example : ∃ k, ∃ x : Async (demo false 1).wrap, AsyncTakes (demoPlan false 1 crowd).g k x ∧
    (∀ x', ¬ AsyncStep (demoPlan false 1 crowd).g x x') ∧
    ∀ i, crowd.contains i = true → ∃ s a, x.node i = some (.running s a) :=
  C58_deadlock_one_round_violation (0 : Nat) crowd_ok.scheme (fun _ _ => rfl) (by decide +kernel)

/-- 52 parties. -/
def smallCrowd : BSet U8 := BSet.ofList ((List.range 52).map (fun k => Fin.ofNat 256 (k + 100)))

theorem smallCrowd_ok (echo : Bool) (last : U8) (hl : 0 < last.val) : (demoPlan echo last smallCrowd).Ok where
  env := toy_envOk
  sc := toy_signCorrect
  srt := toy_sigRoundTrip
  ert := toy_echoRoundTrip
  keys := fun _ _ => rfl
  coop := demo_cooperative echo last _ hl (by decide +kernel) (by decide +kernel) (by intro _; decide +kernel)

/-- Two rounds of 52 parties can come to a standstill. -/
example : ∃ k, ∃ x : Async (demo false 2).wrap, AsyncTakes (demoPlan false 2 smallCrowd).g k x ∧
    (∀ x', ¬ AsyncStep (demoPlan false 2 smallCrowd).g x x') ∧
    ∀ i, smallCrowd.contains i = true → ∃ s a, x.node i = some (.running s a) :=
  C58_deadlock_violation (0 : Nat) (smallCrowd_ok false 2 (by decide)).scheme (fun _ _ => rfl)
    (by intro i hi; rw [if_neg (by simp [Scheme.runsEcho, Plan.scheme, demoPlan, Plan.allToAll])]; exact ⟨by decide, rfl⟩) (by decide +kernel)

/-- And so can a round of 52 parties with its echo round. -/
example : ∃ k, ∃ x : Async (demo true 1).wrap, AsyncTakes (demoPlan true 1 smallCrowd).g k x ∧
    (∀ x', ¬ AsyncStep (demoPlan true 1 smallCrowd).g x x') ∧
    ∀ i, smallCrowd.contains i = true → ∃ s a, x.node i = some (.running s a) := by
  refine C58_deadlock_violation (0 : Nat) (smallCrowd_ok true 1 (by decide)).scheme (fun _ _ => rfl) ?_ (by decide +kernel)
  intro i hi
  rw [if_pos]
  · rfl
  · have : smallCrowd.elems.all (fun i => (demoPlan true 1 smallCrowd).scheme.runsEcho 0 i) = true := by decide +kernel
    exact List.all_eq_true.1 this i (BSet.mem_elems.2 hi)

theorem Async.put_node (x : Async P) (i : sp.Id) (st : RunState P) (out : List (Message sp)) : (x.put i st out).node i = some st := by
  simp [Async.put]

theorem Async.put_outbox (x : Async P) (i : sp.Id) (st : RunState P) (out : List (Message sp)) : (x.put i st out).outbox i = out := by
  simp [Async.put]

/-- A single party of a protocol of one round returns after two steps. -/
example : ∃ (x : Async (demo false 1).wrap) (r : Except LErr (Report (demo false 1).wrap)),
    AsyncTakes (demoGroup false 1 (BSet.ofList [1])) 2 x ∧ x.node (1 : U8) = some (.done r) ∧ x.outbox (1 : U8) = [] := by
  have h : (match (demoGroup false 1 (BSet.ofList [1])).startNode (1 : U8) (0 : Nat) (0 : Nat) with
      | (st, []) => match step st (.tick (0 : Nat)) with
        | some (.done _, _) => true
        | _ => false
      | _ => false) = true := by
    decide +kernel
  split at h
  · rename_i st hs
    split at h
    · rename_i r out ht
      have h1 : AsyncTakes (demoGroup false 1 (BSet.ofList [1])) 1 (Async.init.put (1 : U8) st []) := by
        have := AsyncTakes.step .init (.start (g := demoGroup false 1 (BSet.ofList [1])) (i := (1 : U8)) (0 : Nat) (0 : Nat)
          (by with_unfolding_all rfl) rfl)
        rwa [hs] at this
      have h2 := AsyncTakes.step h1 (.tick (i := (1 : U8)) (Async.put_node ..) (Async.put_outbox ..) ht)
      exact ⟨_, r, h2, Async.put_node .., C58_silent h2 (r := r) (Async.put_node ..)⟩
    · cases h
  · cases h

end Manul
