import Verif.Lemmas.RunAsyncSim
import Verif.Lemmas.SchemeDemo
import Verif.Props.RunAsync
import Verif.Props.RunSyncExamples
import Verif.Props.PartialEcho

/-!
# `run_async` with `offload_processing` of parties following the protocol (C66)

`run_async` (`manul/src/dev/tokio.rs`) with `offload_processing` on: the parties execute `par_run_session`, and the tasks of each
party run in any order.  The scheduler and the random choices of the dispatcher are arbitrary.
-/

namespace Manul

variable {sp : SP} {P : Proto sp} {sc : Scheme P}

/-- **C66.**  No task ever fails: the dispatcher finds a channel for every message, does not send to parties that have returned,
and no party records an error, misses a message or fails. -/
theorem C66_no_failure (rng : sp.Rng) (ok : sc.Ok) {k : Nat} {x : PAsync P} (h : PAsyncTakes sc.g k x) :
    x.disp ≠ .failed ∧ ∀ i st, x.node i = some st → ParClean st := by
  obtain ⟨kn, c, hc⟩ := PAsyncNet.reach ok h (fun _ => rng)
  refine ⟨hc.fine, ?_⟩
  intro i st hi
  cases hj : x.joined i with
  | false => exact C61_no_errors ok hc.takes (by rw [hc.node_eq hj]; exact hi)
  | true =>
    obtain ⟨s, st', h1, -, h2⟩ := hc.joined i hj
    rw [h1] at hi
    cases hi
    exact h2

/-- **C66.**  The parties are in states they can be in over an asynchronous network (C61) that loses, duplicates and makes up
nothing, whatever random numbers the parties that have joined their tasks will take. -/
theorem C66_refines (ok : sc.Ok) {k : Nat} {x : PAsync P} (h : PAsyncTakes sc.g k x) (ρ : sp.Id → sp.Rng) :
    ∃ kn c, PNetTakes sc.g kn c ∧ c.wire.Perm (x.post.flight sc.g) ∧
      ∀ i, (x.joined i = false → c.node i = x.node i) ∧
        (x.joined i = true → ∃ s st, x.node i = some (.running s st) ∧ c.node i = parStep (.running s st) (.tick (ρ i))) := by
  obtain ⟨kn, c, hc⟩ := PAsyncNet.reach ok h ρ
  refine ⟨kn, c, hc.takes, hc.wire, fun i => ⟨hc.node_eq, ?_⟩⟩
  intro hj
  obtain ⟨s, st, h1, h2, -⟩ := hc.joined i hj
  refine ⟨s, st, h1, ?_⟩
  rw [hc.node i]
  simp [PAsync.view, hj, h1]

/-- **C66.**  There is a bound for the number of steps of all tasks, whatever the schedule. -/
theorem C66_terminates (rng : sp.Rng) (ok : sc.Ok) {k : Nat} {x : PAsync P} (h : PAsyncTakes sc.g k x) :
    k ≤ 9 * (sc.g.parties.elems.length * ((4 * sc.g.parties.elems.length + 1) * (4 * sc.n))) + 1 := by
  obtain ⟨kn, c, hc⟩ := PAsyncNet.reach ok h (fun _ => rng)
  have h1 := hc.steps
  have h2 := hc.takes.bound ok
  omega

/-- **C66** for at most 51 parties: if nothing more can happen, `run_async` returns the reports of all parties, with the results
of an execution of the protocol and nothing recorded against anybody.  (With 52 or more parties this is not so:
`C66_deadlock_violation`.) -/
theorem C66_returns_partial (rng : sp.Rng) (ok : sc.Ok) (hsize : sc.g.parties.elems.length ≤ 51) {k : Nat} {x : PAsync P}
    (h : PAsyncTakes sc.g k x) (hstuck : ∀ x', ¬ PAsyncStep sc.g x x') :
    ∃ reports, x.Returns sc.g reports ∧ ReportsAll sc reports := by
  obtain ⟨kn, c, hc⟩ := PAsyncNet.reach ok h (fun _ => rng)
  have hcap : ∀ i, sc.g.parties.contains i = true → 2 * (sc.g.others i).elems.length ≤ asyncCapacity := by
    intro i hi
    have := elems_erase_length hi
    have h100 : asyncCapacity = 100 := rfl
    simp only [Group.others]
    omega
  obtain ⟨hj, hst⟩ := hc.stuck ok hcap hstuck
  have hall : ∀ i, sc.g.parties.contains i = true → ∃ rep v, c.node i = some (.done (.ok rep)) ∧ rep.outcome = .result v ∧
      rep.provable.isEmpty = true ∧ rep.unprovable.isEmpty = true ∧ rep.missing.isEmpty = true :=
    fun i hi => C61_finishes rng ok hc.takes hst hi
  obtain ⟨G, hG, hres⟩ := C61_results ok hc.takes
  have hdone : x.AllDone sc.g := by
    intro i hi
    obtain ⟨rep, v, h1, -⟩ := hall i hi
    exact ⟨_, by rw [← hc.node_eq (hj i)]; exact h1⟩
  have hret : x.disp = .returned := by
    rcases hc.idle ok hcap hstuck with ⟨hd, hch⟩ | hd
    · refine (hstuck _ (.dispatch (.close hd hch ?_))).elim
      intro i hi
      obtain ⟨r, hr⟩ := hdone i hi
      exact ⟨r, (post_done x i r).2 hr⟩
    · exact hd
  by_cases hne : ∃ i, sc.g.parties.contains i = true
  swap
  · have hemp : ∀ i, sc.g.parties.contains i = false := by
      intro i
      by_contra hc
      exact hne ⟨i, by simpa using hc⟩
    exact ⟨BMap.empty, ⟨hret, by simp [hemp], by simp⟩, by simp [hemp], G, hG, by simp⟩
  obtain ⟨i₀, hi₀⟩ := hne
  obtain ⟨rep₀, v₀, -⟩ := hall i₀ hi₀
  have : Nonempty (Report P) := ⟨rep₀⟩
  have : Nonempty P.Result := ⟨v₀⟩
  choose! rep v hrep using hall
  refine ⟨(BMap.mapVal sc.g.parties (fun i _ => rep i)), ⟨?_, ?_, ?_⟩, ?_, G, hG, ?_⟩
  · exact hret
  · intro i
    simp
  · intro i r hr
    rw [BMap.get?_mapVal] at hr
    obtain ⟨u, hu, rfl⟩ := Option.map_eq_some_iff.1 hr
    rw [← hc.node_eq (hj i)]
    exact (hrep i (BMap.contains_iff.2 ⟨u, hu⟩)).1
  · intro i
    simp
  · intro i r hr
    rw [BMap.get?_mapVal] at hr
    obtain ⟨u, hu, rfl⟩ := Option.map_eq_some_iff.1 hr
    obtain ⟨h1, -, h3, h4, h5⟩ := hrep i (BMap.contains_iff.2 ⟨u, hu⟩)
    obtain ⟨h6, h7⟩ := hres i _ h1
    exact ⟨h3, h4, h5, h6, h7⟩

/-- **C66.**  Every schedule without `offload_processing` has a counterpart with it: the channels and the dispatcher are in the
same state, the same parties have returned, with the same reports, the same are in the same rounds, and if nothing more can happen
in the one then nothing more can happen in the other.  This needs that nobody sends messages to more than 100 others in a round in
which nothing is expected (see `C66_silent_violation`). -/
theorem C66_sequential_partial (ok : sc.Ok) (hlisten : ∀ k i, k < sc.n → sc.g.parties.contains i = true →
      100 < (sc.dests k i).elems.length → (sc.expects k i).isEmpty = false) {k : Nat} {x : Async P} (h : AsyncTakes sc.g k x) :
    ∃ ky y, PAsyncTakes sc.g ky y ∧ y.inbox = x.inbox ∧ y.chan = x.chan ∧ y.disp = x.disp ∧
      (∀ i r, x.node i = some (.done r) ↔ y.node i = some (.done r)) ∧
      (∀ i s, (∃ a, x.node i = some (.running s a)) ↔ ∃ st, y.node i = some (.running s st)) ∧
      ((∀ x', ¬ AsyncStep sc.g x x') → ∀ y', ¬ PAsyncStep sc.g y y') := by
  obtain ⟨y, ⟨ky, hy⟩, ho⟩ := Offl.reach ok hlisten h
  exact ⟨ky, y, hy, ho.inbox, ho.chan, ho.disp, fun i => (ho.node i).done_iff, fun i => (ho.node i).running_iff, ho.stuck⟩

/-- **C66.**  A party that sends messages to more than 100 others in the first round and expects none there never returns: the
loop of the round ends at once, and the tasks that make the messages cannot all be joined. -/
theorem C66_silent_violation (ok : sc.Ok) {i : sp.Id} (hi : sc.g.parties.contains i = true) (hd : 100 < (sc.dests 0 i).elems.length)
    (hx : (sc.expects 0 i).isEmpty = true) {k : Nat} {x : PAsync P} (h : PAsyncTakes sc.g k x) :
    (∀ r, x.node i ≠ some (.done r)) ∧ ∀ reports, ¬ x.Returns sc.g reports := by
  have key : x.outbox i = [] ∧ x.joined i = false ∧ (x.node i = none ∨ ∃ s st, x.node i = some (.running s st) ∧
      st.accum.canFinalize ≠ .notYet ∧ ¬ st.Fits) := by
    induction h with
    | init => exact ⟨rfl, rfl, Or.inl rfl⟩
    | @step k x x' h hs ih =>
      obtain ⟨ho, hj, hn⟩ := ih
      have hother : ∀ (z : PAsync P) j st b out, z.node = x.node → z.joined = x.joined → z.outbox = x.outbox → j ≠ i →
          (z.put j st b out).outbox i = [] ∧ (z.put j st b out).joined i = false ∧ ((z.put j st b out).node i = none ∨
            ∃ s st', (z.put j st b out).node i = some (.running s st') ∧ st'.accum.canFinalize ≠ .notYet ∧ ¬ st'.Fits) := by
        intro z j st b out h1 h2 h3 hne
        simp only [PAsync.put, Function.update_of_ne (Ne.symm hne), h1, h2, h3]
        exact ⟨ho, hj, hn⟩
      have hrun : ∀ {s st}, x.node i = some (.running s st) → st.accum.canFinalize ≠ .notYet ∧ ¬ st.Fits := by
        intro s st h1
        rcases hn with h2 | ⟨s', st', h2, h3⟩
        · rw [h1] at h2; cases h2
        · rw [h1] at h2; cases h2; exact h3
      cases hs with
      | @start j rng rng' hj' hnone =>
        by_cases hji : j = i
        · subst hji
          simp only [PAsync.put, Function.update_self]
          refine ⟨trivial, trivial, Or.inr ?_⟩
          obtain ⟨L, e, f, hinv⟩ := Scheme.NetInv.reach ok (.init : NetReach sc.g Net.init)
          obtain ⟨L', s, a, out, h1, h2, -, h4⟩ := hinv.starts ok hi rfl rng rng'
          unfold Group.startNode at h1
          cases hnew : Session.new rng sc.g.sid (sc.g.signer j) (sc.g.ep j) with
          | error err => simp [hnew] at h1
          | ok s₀ =>
            simp only [hnew, start] at h1
            obtain ⟨rfl, hb, hout, hm⟩ := sim_enter h1
            refine ⟨s, ParSt.begin s rng' [], by simp only [Group.startPar, hnew], ?_, ?_⟩
            · have hs2 := (h4.running j s a (by simp [Net.put])).2.1
              have hex : s.comm.expecting = sc.expects 0 j := by
                rw [hs2.comm]
                simp only [Function.update_self]
                exact Scheme.xAt_main (k := 0) rfl
              have hacc : (ParSt.begin s rng' []).accum = Accum.new s.comm.expecting := rfl
              rw [hacc, hex]
              unfold Accum.canFinalize
              rw [if_pos]
              · simp
              · have hnil : (sc.expects 0 j).elems = [] := by
                  rw [List.eq_nil_iff_forall_not_mem]
                  intro z hz
                  rw [BSet.mem_elems] at hz
                  rw [BMap.contains_eq_false.2 (BMap.isEmpty_iff.1 hx z)] at hz
                  cases hz
                show ((sc.expects 0 j).elems.all _) = true
                rw [hnil]
                rfl
            · rintro ⟨-, h5⟩
              rw [hout, h2, Scheme.dAt_main (k := 0) rfl] at h5
              have : channelCapacity = 100 := rfl
              omega
        · exact hother x j _ _ _ rfl rfl rfl hji
      | @push j m ms hout hlen hne =>
        by_cases hji : j = i
        · subst hji
          rw [ho] at hout
          cases hout
        · simp only [Function.update_of_ne (Ne.symm hji)]
          exact ⟨ho, hj, hn⟩
      | @pushErr j m ms hout he =>
        by_cases hji : j = i
        · subst hji
          rw [ho] at hout
          cases hout
        · exact hother x j _ _ _ rfl rfl rfl hji
      | @task j s st st' o hnj _ _ _ hst =>
        by_cases hji : j = i
        · subst hji
          exact absurd (parStep_op_ready hst) (hrun hnj).1
        · exact hother x j _ _ _ rfl rfl rfl hji
      | @recv j s st st' p ps hnj _ _ _ hst =>
        by_cases hji : j = i
        · subst hji
          exact absurd (parStep_op_ready hst) (hrun hnj).1
        · exact hother _ j _ _ _ rfl rfl rfl hji
      | @closed j s st st' hnj _ _ _ _ hst =>
        by_cases hji : j = i
        · subst hji
          have h1 := (hrun hnj).1
          cases hc : st.accum.canFinalize with
          | notYet => exact absurd hc h1
          | yes => simp [parStep, hc] at hst
          | never => simp [parStep, hc] at hst
        · exact hother x j _ _ _ rfl rfl rfl hji
      | @join j s st hnj _ _ _ hf =>
        by_cases hji : j = i
        · subst hji
          exact absurd hf (hrun hnj).2
        · exact hother x j _ _ _ rfl rfl rfl hji
      | @tick j st st' rng _ hjj _ _ =>
        by_cases hji : j = i
        · subst hji
          rw [hj] at hjj
          cases hjj
        · exact hother x j _ _ _ rfl rfl rfl hji
      | dispatch => exact ⟨ho, hj, hn⟩
  obtain ⟨-, -, hn⟩ := key
  have hnd : ∀ r, x.node i ≠ some (.done r) := by
    intro r hr
    rcases hn with h1 | ⟨s, st, h1, -⟩ <;> rw [hr] at h1 <;> cases h1
  refine ⟨hnd, ?_⟩
  rintro reports ⟨-, h2, h3⟩
  have hc := h2 i
  rw [hi] at hc
  obtain ⟨r, hr⟩ := BMap.contains_iff.1 hc
  exact hnd _ (h3 i r hr)

/-- **C66.**  Offloading the processing does not help: with 102 or more parties all sending messages to all others and expecting
some, there are schedules after which nothing moves although nobody has finished, even in the only round of a protocol. -/
theorem C66_deadlock_one_round_violation (rng : sp.Rng) (ok : sc.Ok) (hlisten : ∀ k i, k < sc.n → sc.g.parties.contains i = true →
      100 < (sc.dests k i).elems.length → (sc.expects k i).isEmpty = false)
    (hd : ∀ i, sc.g.parties.contains i = true → sc.dests 0 i = sc.g.others i) (hsize : 102 ≤ sc.g.parties.elems.length) :
    ∃ k x, PAsyncTakes sc.g k x ∧ (∀ x', ¬ PAsyncStep sc.g x x') ∧
      ∀ i, sc.g.parties.contains i = true → ∃ s st, x.node i = some (.running s st) := by
  obtain ⟨k, x, h1, h2, h3⟩ := C58_deadlock_one_round_violation rng ok hd hsize
  obtain ⟨ky, y, h4, -, -, -, -, h5, h6⟩ := C66_sequential_partial ok hlisten h1
  refine ⟨ky, y, h4, h6 h2, ?_⟩
  intro i hi
  obtain ⟨s, a, h7⟩ := h3 i hi
  exact ⟨s, (h5 i s).1 ⟨a, h7⟩⟩

/-- **C66.**  The bound of `C66_returns_partial` is the best one: with 52 or more parties, all sending messages to all others in
the first round and then again in its echo round or in the second round, there are schedules after which nothing moves although
nobody has finished. -/
theorem C66_deadlock_violation (rng : sp.Rng) (ok : sc.Ok) (hlisten : ∀ k i, k < sc.n → sc.g.parties.contains i = true →
      100 < (sc.dests k i).elems.length → (sc.expects k i).isEmpty = false)
    (hd : ∀ i, sc.g.parties.contains i = true → sc.dests 0 i = sc.g.others i)
    (hnext : ∀ i, sc.g.parties.contains i = true →
      if sc.runsEcho 0 i then sc.peers 0 i = sc.g.others i else 1 < sc.n ∧ sc.dests 1 i = sc.g.others i)
    (hsize : 52 ≤ sc.g.parties.elems.length) :
    ∃ k x, PAsyncTakes sc.g k x ∧ (∀ x', ¬ PAsyncStep sc.g x x') ∧
      ∀ i, sc.g.parties.contains i = true → ∃ s st, x.node i = some (.running s st) := by
  obtain ⟨k, x, h1, h2, h3⟩ := C58_deadlock_violation rng ok hd hnext hsize
  obtain ⟨ky, y, h4, -, -, -, -, h5, h6⟩ := C66_sequential_partial ok hlisten h1
  refine ⟨ky, y, h4, h6 h2, ?_⟩
  intro i hi
  obtain ⟨s, a, h7⟩ := h3 i hi
  exact ⟨s, (h5 i s).1 ⟨a, h7⟩⟩

section simple

variable {fmt : SimpleFormat} {checks : Bool} {ids : BSet sp.Id} {signer : sp.Id → sp.Signer} {sid : Bytes}

theorem simple_reports (hf : fmt.Lawful) (hb : SumsFit checks ids) {reports : BMap sp.Id (Report (simple sp fmt checks).wrap)}
    (h : ReportsAll (simplePlan sp fmt checks ids signer sid).scheme reports) (i : sp.Id) :
    (reports.get? i).map (fun r => r.outcome) =
      if ids.contains i then some (.result (Fin.ofNat 256 (partyCount ids * (partyCount ids - 1)) : U8)) else none := by
  obtain ⟨hkeys, G, hG, hrep⟩ := h
  have hk : reports.contains i = ids.contains i := hkeys i
  cases hids : ids.contains i with
  | false =>
    rw [hids] at hk
    rw [BMap.contains_eq_false.1 hk]
    rfl
  | true =>
    rw [hids] at hk
    obtain ⟨r, hr⟩ := BMap.contains_iff.1 hk
    obtain ⟨-, -, -, -, v, rng, h1, h2⟩ := hrep i r hr
    rw [hr, Option.map_some, h1, simple_result hf hb hG hids h2]
    rfl

/-- **C66.**  `run_async` of at most 51 parties executing `simple`, with `offload_processing` or without it: when nothing more can
happen, it has returned the reports of all parties, and the result is `n(n - 1)` for all of them. -/
theorem C66_simple_partial (rng : sp.Rng) (hf : fmt.Lawful) (hw : ParamsWork sp ids signer) (hb : SumsFit checks ids)
    (hsize : partyCount ids ≤ 51) :
    (∀ {k : Nat} {x : PAsync (simple sp fmt checks).wrap}, PAsyncTakes (simpleGroup sp fmt checks ids signer sid) k x →
      (∀ x', ¬ PAsyncStep (simpleGroup sp fmt checks ids signer sid) x x') →
      ∃ reports, x.Returns (simpleGroup sp fmt checks ids signer sid) reports ∧
        ∀ i, (reports.get? i).map (fun r => r.outcome) =
          if ids.contains i then some (.result (Fin.ofNat 256 (partyCount ids * (partyCount ids - 1)) : U8)) else none) ∧
    (∀ {k : Nat} {x : Async (simple sp fmt checks).wrap}, AsyncTakes (simpleGroup sp fmt checks ids signer sid) k x →
      (∀ x', ¬ AsyncStep (simpleGroup sp fmt checks ids signer sid) x x') →
      ∃ reports, x.Returns (simpleGroup sp fmt checks ids signer sid) reports ∧
        ∀ i, (reports.get? i).map (fun r => r.outcome) =
          if ids.contains i then some (.result (Fin.ofNat 256 (partyCount ids * (partyCount ids - 1)) : U8)) else none) := by
  have ok := (simple_ok (sid := sid) hf hw hb).scheme
  constructor
  · intro k x h hstuck
    obtain ⟨reports, h1, h2⟩ := C66_returns_partial rng ok hsize h hstuck
    exact ⟨reports, h1, simple_reports hf hb h2⟩
  · intro k x h hstuck
    obtain ⟨reports, h1, h2⟩ := C58_returns_partial rng ok hsize h hstuck
    exact ⟨reports, h1, simple_reports hf hb h2⟩

end simple

/-! ### Examples -/

/-- The parties of the test. -/
def asyncIds : BSet U8 := BSet.ofList [0, 1, 2]

/-- The test `async_run_with_offload` (`examples/tests/async_runner.rs:41-44`): three parties, with the session parameters of the
crate and the wire format of the example. -/
example {R : RandomSource} (rng : R.Rng) {sid : Bytes} {k : Nat} {x : PAsync (simple (testParams R) simpleFmt true).wrap}
    (h : PAsyncTakes (simpleGroup (testParams R) simpleFmt true asyncIds (fun i => i) sid) k x)
    (hstuck : ∀ x', ¬ PAsyncStep (simpleGroup (testParams R) simpleFmt true asyncIds (fun i => i) sid) x x') :
    ∃ reports, x.Returns (simpleGroup (testParams R) simpleFmt true asyncIds (fun i => i) sid) reports ∧
      ∀ i : U8, i.val < 3 → ((reports.get? i).map (fun r => r.outcome)) = some (.result (6 : U8)) := by
  have hc : partyCount (sp := testParams R) asyncIds = 3 := rfl
  obtain ⟨reports, h1, h2⟩ := (C66_simple_partial (sp := testParams R) rng simpleFmt_lawful (test_works R _)
    (Or.inr (by rw [hc]; decide)) (by rw [hc]; decide)).1 h hstuck
  refine ⟨reports, h1, ?_⟩
  intro i hi
  have h3 : ∀ i : U8, i.val < 3 → asyncIds.contains i = true := by decide +kernel
  exact (h2 i).trans (if_pos (h3 i hi))

/-- The assumptions hold for three parties executing seven rounds with echo broadcasts. -/
example {k : Nat} {x : PAsync (demo true 7).wrap} (h : PAsyncTakes (demoPlan true 7 (BSet.ofList [1, 2, 3])).g k x)
    (hstuck : ∀ x', ¬ PAsyncStep (demoPlan true 7 (BSet.ofList [1, 2, 3])).g x x') :
    ∃ reports, x.Returns (demoPlan true 7 (BSet.ofList [1, 2, 3])).g reports ∧
      ReportsAll (demoPlan true 7 (BSet.ofList [1, 2, 3])).scheme reports :=
  C66_returns_partial (0 : Nat) (demo_ok true 7 (by decide)).scheme (by decide +kernel) h hstuck

theorem demoPlan_listens (echo : Bool) (last : U8) (ids : BSet U8) (k : Nat) (i : U8) (_ : k < (demoPlan echo last ids).scheme.n)
    (_ : (demoPlan echo last ids).scheme.g.parties.contains i = true)
    (h : 100 < ((demoPlan echo last ids).scheme.dests k i).elems.length) :
    ((demoPlan echo last ids).scheme.expects k i).isEmpty = false := by
  have he : (demoPlan echo last ids).scheme.expects k i = (demoPlan echo last ids).scheme.dests k i := rfl
  rw [he]
  cases hl : ((demoPlan echo last ids).scheme.dests k i).elems with
  | nil => rw [hl] at h; simp at h
  | cons z zs => exact BMap.isEmpty_eq_false.2 ⟨z, BSet.mem_elems.1 (by rw [hl]; simp)⟩

/-- One party sends messages to everybody else. -/
def hubTable : CommTable := fun _ i =>
  if i = 100 then ⟨crowd.erase 100, BSet.ofList [], .send⟩ else ⟨BSet.ofList [], BSet.ofList [100], .receive (BSet.ofList [])⟩

theorem hub_ok : (demoScheme hubTable 1 crowd).Ok :=
  demoWith_ok (by decide) (by decide +kernel) (by decide +kernel) (pattern_of_check (by decide +kernel) (by decide +kernel))

/-- With `offload_processing`, it never finishes. -/
example {k : Nat} {x : PAsync (demoWith hubTable 1).wrap} (h : PAsyncTakes (demoWithGroup hubTable 1 crowd) k x) :
    ∀ r, x.node (100 : U8) ≠ some (.done r) :=
  (C66_silent_violation hub_ok (i := (100 : U8)) (by decide +kernel) (by decide +kernel) (by decide +kernel) h).1

/-- A single round of 102 parties can come to a standstill. -/
example : ∃ k, ∃ x : PAsync (demo false 1).wrap, PAsyncTakes (demoPlan false 1 crowd).g k x ∧
    (∀ x', ¬ PAsyncStep (demoPlan false 1 crowd).g x x') ∧
    ∀ i, crowd.contains i = true → ∃ s st, x.node i = some (.running s st) :=
  C66_deadlock_one_round_violation (0 : Nat) crowd_ok.scheme (demoPlan_listens false 1 crowd) (fun _ _ => rfl) (by decide +kernel)

/-- Two rounds of 52 parties can come to a standstill. -/
example : ∃ k, ∃ x : PAsync (demo false 2).wrap, PAsyncTakes (demoPlan false 2 smallCrowd).g k x ∧
    (∀ x', ¬ PAsyncStep (demoPlan false 2 smallCrowd).g x x') ∧
    ∀ i, smallCrowd.contains i = true → ∃ s st, x.node i = some (.running s st) :=
  C66_deadlock_violation (0 : Nat) (smallCrowd_ok false 2 (by decide)).scheme (demoPlan_listens false 2 smallCrowd) (fun _ _ => rfl)
    (by intro i hi; rw [if_neg (by simp [Scheme.runsEcho, Plan.scheme, demoPlan, Plan.allToAll])]; exact ⟨by decide, rfl⟩) (by decide +kernel)

end Manul
