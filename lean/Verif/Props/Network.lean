import Verif.Props.Scheme
import Verif.Lemmas.Cooperative
import Verif.Lemmas.Toy
import Verif.Lemmas.NetRun

/-!
# Honest executions over an asynchronous network (C41)

All parties execute `run_session` and follow a cooperative protocol (`Cooperative`: linear, the callbacks succeed when everybody
follows the protocol, the pattern of communication is matched).  The network delays and reorders messages arbitrarily.
-/

namespace Manul

variable {sp : SP} {P : Proto sp} {pl : Plan P}

/-- **C41.**  Nobody ever records an error, misses a message or fails. -/
theorem C41_no_errors (ok : pl.Ok) {n : Net P} (h : NetReach pl.g n) {i : sp.Id} {st : RunState P} (hn : n.node i = some st) :
    Clean st :=
  C59_no_errors ok.scheme h hn

/-- **C41.**  No message that is needed is lost: if nothing more can happen in the network, everybody has finished with a
result. -/
theorem C41_finishes (rng : sp.Rng) (ok : pl.Ok) {n : Net P} (h : NetReach pl.g n) (hstuck : ∀ n', ¬ NetStep pl.g n n') :
    AllFinished pl.g n :=
  C59_finishes rng ok.scheme h hstuck

/-- **C41.**  The network comes to an end: there is a bound for the number of steps, whatever the schedule. -/
theorem C41_terminates (ok : pl.Ok) {k : Nat} {n : Net P} (h : NetTakes pl.g k n) :
    k ≤ pl.g.parties.elems.length * ((pl.g.parties.elems.length + 1) * (4 * pl.n)) :=
  C59_terminates ok.scheme h

/-- **C41.**  The results are those of an execution of the protocol in which everybody follows it. -/
theorem C41_results (ok : pl.Ok) {n : Net P} (h : NetReach pl.g n) :
    ∃ G : History P, Honest pl.g G ∧ ∀ i rep, n.node i = some (.done (.ok rep)) →
      (G i).length = pl.n ∧ ∃ v rng, rep.outcome = .result v ∧ Finalizes G i rng (.result v) :=
  C59_results ok.scheme h

/-- The assumptions hold for the example protocol with ideal session parameters: three parties, seven rounds, with echo
broadcasts. -/
theorem demo_ok (echo : Bool) (last : U8) (hl : 0 < last.val) : (demoPlan echo last (BSet.ofList [1, 2, 3])).Ok where
  env := toy_envOk
  sc := toy_signCorrect
  srt := toy_sigRoundTrip
  ert := toy_echoRoundTrip
  keys := fun _ _ => rfl
  coop := demo_cooperative echo last _ hl (by decide) (by decide) (by
    intro _ i hi
    have : i = 1 ∨ i = 2 ∨ i = 3 := by
      rw [← BSet.mem_elems] at hi
      rw [show BSet.elems (BSet.ofList [1, 2, 3] : BSet U8) = [1, 2, 3] by decide] at hi
      simpa using hi
    rcases this with rfl | rfl | rfl <;> decide)

/-- A schedule: the third party starts late, and messages are delivered out of order. -/
def netSchedule : List NetAct :=
  [.start 1, .start 2, .deliver 3, .deliver 0, .start 3] ++
    (List.replicate 12 [NetAct.deliver 3, .deliver 2, .deliver 1, .deliver 0, .tick 1, .tick 2, .tick 3]).flatten

/-- Two rounds with echo broadcasts: everybody finishes (the sums differ as the direct messages do). -/
example : ∃ n : Net (demo true 2).wrap, NetReach (demoPlan true 2 (BSet.ofList [1, 2, 3])).g n ∧
    netResult n 1 = some (20 : Nat) ∧ netResult n 2 = some (22 : Nat) ∧ netResult n 3 = some (24 : Nat) := by
  refine ⟨netRun _ netSchedule Net.init, netRun_reach _ .init, ?_⟩
  have h : ([1, 2, 3].map (fun i => netResult (netRun (demoGroup true 2 (BSet.ofList [1, 2, 3])) netSchedule Net.init) i) :
      List (Option Nat)) = [some 20, some 22, some 24] := by decide +kernel
  exact ⟨(List.cons.inj h).1, (List.cons.inj (List.cons.inj h).2).1, (List.cons.inj (List.cons.inj (List.cons.inj h).2).2).1⟩

example {n : Net (demo true 7).wrap} (h : NetReach (demoGroup true 7 (BSet.ofList [1, 2, 3])) n) :
    ∀ i st, n.node i = some st → Clean st :=
  fun _ _ => C41_no_errors (demo_ok true 7 (by decide)) h

/-- A linear protocol in which party 1 only sends and party 2 only listens. -/
def demoOneWay : TypedProto toy :=
  { demo false 3 with
    comm := fun s => if s.me = 1 then ⟨(BSet.ofList [2] : BSet U8), BMap.empty, .default⟩ else ⟨BMap.empty, (BSet.ofList [1] : BSet U8), .default⟩ }

/-- Its parties. -/
def oneWayGroup : Group demoOneWay.wrap where
  parties := (BSet.ofList [1, 2] : BSet U8)
  signer i := i
  ep _ := { entryRoundId := RoundId.new 1, makeRound := fun _ _ me => .ok (⟨me, BMap.empty, 1, 0⟩ : DemoSt) }
  sid := [9]

/-- Whether a party has recorded an error of another one. -/
def netBlames {P : Proto toy} (n : Net P) (i j : U8) : Bool :=
  match n.node (i : toy.Id) with
  | some (.running _ a) => a.unprovable.contains (j : toy.Id)
  | _ => false

/-- The restriction of the pattern is needed: party 1, who waits for nobody, is two rounds ahead of party 2, who records an
error of it, although both follow the protocol and no message is lost. -/
theorem C41_one_way_violation : ∃ (n : Net demoOneWay.wrap) (s : Session demoOneWay.wrap) (a : Accum demoOneWay.wrap),
    NetReach oneWayGroup n ∧ n.node (2 : U8) = some (.running s a) ∧ HasError s a (1 : U8) := by
  have h : netBlames (netRun oneWayGroup [.start 1, .start 2, .tick 1, .tick 1, .deliver 2] Net.init) 2 1 = true := by
    decide +kernel
  refine ⟨netRun oneWayGroup [.start 1, .start 2, .tick 1, .tick 1, .deliver 2] Net.init, ?_⟩
  unfold netBlames at h
  split at h
  · rename_i s a hn
    obtain ⟨x, hx⟩ := BMap.contains_iff.1 h
    exact ⟨s, a, netRun_reach _ .init, hn, Or.inr (Or.inr (Or.inr ⟨x, hx⟩))⟩
  · simp at h

end Manul
