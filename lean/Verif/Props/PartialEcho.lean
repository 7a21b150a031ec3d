import Verif.Props.RunSyncExamples
import Verif.Lemmas.PartialEcho
import Verif.Lemmas.SchemeDemo
import Verif.Lemmas.TestParams

/-!
# The test `partial_echo`, and patterns of communication under which honest parties are blamed (C59)
-/

namespace Manul

section general

variable {sp : SP} {fmt : SenderFormat sp} {ids : BSet sp.Id} {inp : sp.Id → PartialInputs sp.Id}
  {signer : sp.Id → sp.Signer} {sid : Bytes}

theorem partial_ok (hf : fmt.Lawful) (hw : ParamsWork sp ids signer) (hm : InputsMatch ids inp) :
    (partialScheme sp fmt ids inp signer sid).Ok :=
  ⟨hw.env, hw.sc, hw.srt, hw.ert, hw.keys, partial_cooperative hf hm⟩

/-- **C59.**  `run_sync` of the protocol of the test `partial_echo`, with any inputs that fit together, returns a result for
everybody, whatever the order of delivery; no assertion in the callbacks fails. -/
theorem C59_partial_echo (rng : sp.Rng) (hf : fmt.Lawful) (hw : ParamsWork sp ids signer) (hm : InputsMatch ids inp)
    {i : sp.Id} (hi : ids.contains i = true) (hd : (inp i).destinations.isEmpty = false) {l : List sp.Id}
    (hl : (partialGroup sp fmt ids inp signer sid).Enum l) {o : Except SyncErr (BMap sp.Id (Report (partialEcho sp fmt).wrap))}
    (h : RunSync sid ((partialGroup sp fmt ids inp signer sid).nodes l) o) :
    ∃ reports results, o = .ok reports ∧ executionResults reports = .ok results ∧
      ∀ j, results.contains j = ids.contains j := by
  obtain ⟨reports, results, n, h1, h2, -, h3, -⟩ :=
    results_net (sc := partialScheme sp fmt ids inp signer sid) (partial_ok hf hw hm) rng hl hi hd h
  exact ⟨reports, results, h1, h2, h3⟩

/-- **C59.**  And it can always run to its end. -/
theorem C59_partial_echo_returns (rng : sp.Rng) (hf : fmt.Lawful) (hw : ParamsWork sp ids signer) (hm : InputsMatch ids inp)
    {l : List sp.Id} (hl : (partialGroup sp fmt ids inp signer sid).Enum l) :
    ∃ o, RunSync sid ((partialGroup sp fmt ids inp signer sid).nodes l) o :=
  C53_returns (sc := partialScheme sp fmt ids inp signer sid) (partial_ok hf hw hm) rng hl

end general

/-! ### The test -/

/-- The five nodes of the test. -/
def testIds : BSet U8 := BSet.ofList [0, 1, 2, 3, 4]

/-- Their inputs. -/
def testInputs (i : U8) : PartialInputs U8 :=
  match (partialInputs (fun k => Fin.ofNat 256 k))[i.val]? with
  | some x => x
  | none => ⟨i, BMap.empty, BMap.empty, .default⟩

/-- One byte. -/
def senderFormat (R : RandomSource) : SenderFormat (testParams R) where
  ser i := .ok (Codec.u8.enc i)
  de b :=
    match Codec.u8.dec b with
    | none => none
    | some (x, _) => some x

theorem senderFormat_lawful (R : RandomSource) : (senderFormat R).Lawful := fun _ => ⟨_, rfl, rfl⟩

theorem test_works (R : RandomSource) (ids : BSet U8) : ParamsWork (testParams R) ids (fun i => i) where
  env := test_envOk R
  sc := test_signCorrect R
  srt := test_sigRoundTrip R
  ert := test_echoRoundTrip R
  keys := fun _ _ => rfl

theorem testIds_cases {i : U8} (h : testIds.contains i = true) : i = 0 ∨ i = 1 ∨ i = 2 ∨ i = 3 ∨ i = 4 := by
  rw [← BSet.mem_elems, show BSet.elems testIds = [0, 1, 2, 3, 4] from rfl] at h
  simpa using h

theorem testInputs_match : InputsMatch testIds testInputs := by
  have own : ∀ i ∈ ([0, 1, 2, 3, 4] : List U8), (testInputs i).id = i := by decide +kernel
  have matched : ∀ i ∈ ([0, 1, 2, 3, 4] : List U8), ∀ j ∈ ([0, 1, 2, 3, 4] : List U8),
      (testInputs i).destinations.contains j = (testInputs j).expecting.contains i := by decide +kernel
  have dests : ∀ i ∈ ([0, 1, 2, 3, 4] : List U8), ∀ j ∈ (testInputs i).destinations.elems,
      testIds.contains j = true ∧ j ≠ i := by decide +kernel
  have expects : ∀ i ∈ ([0, 1, 2, 3, 4] : List U8), ∀ j ∈ (testInputs i).expecting.elems,
      testIds.contains j = true ∧ j ≠ i := by decide +kernel
  have peers : ∀ i ∈ ([0, 1, 2, 3, 4] : List U8), (testInputs i).runsEcho = true → ∀ j ∈ (testInputs i).peers.elems,
      (testIds.contains j = true ∧ j ≠ i) ∧ (testInputs j).runsEcho = true ∧ (testInputs j).peers.contains i = true := by
    decide +kernel
  have compared : ∀ i ∈ ([0, 1, 2, 3, 4] : List U8), (testInputs i).runsEcho = true → ∀ j ∈ (testInputs i).peers.elems,
      ∀ x, (testInputs j).expecting.contains x = ((testInputs i).reported x && !decide (x = j)) := by
    decide +kernel
  have hmem : ∀ i, testIds.contains i = true → i ∈ ([0, 1, 2, 3, 4] : List U8) := by
    intro i h
    simpa using testIds_cases h
  refine ⟨fun i hi => own i (hmem i hi), fun i j hi hj => matched i (hmem i hi) j (hmem j hj),
    fun i j hi hj => dests i (hmem i hi) j (BSet.mem_elems.2 hj), fun i j hi hj => expects i (hmem i hi) j (BSet.mem_elems.2 hj),
    fun i j hi hr hj => peers i (hmem i hi) hr j (BSet.mem_elems.2 hj),
    fun i j hi hr hj => compared i (hmem i hi) hr j (BSet.mem_elems.2 hj)⟩

/-- The nodes of the test. -/
def testGroup (R : RandomSource) (sid : Bytes) : Group (partialEcho (testParams R) (senderFormat R)).wrap :=
  partialGroup (testParams R) (senderFormat R) testIds testInputs (fun i => i) sid

/-- **C59.**  The test `partial_echo` passes, whatever the random numbers and the order of delivery: both `unwrap`s succeed, and
there are five results. -/
theorem C59_partial_echo_test {R : RandomSource} (rng : R.Rng) {sid : Bytes} {l : List U8} (hl : (testGroup R sid).Enum l)
    {o : Except SyncErr (BMap U8 (Report (partialEcho (testParams R) (senderFormat R)).wrap))}
    (h : RunSync sid ((testGroup R sid).nodes l) o) :
    ∃ (reports : BMap U8 (Report (partialEcho (testParams R) (senderFormat R)).wrap)) (results : BMap U8 Unit), o = .ok reports ∧
      executionResults (P := (partialEcho (testParams R) (senderFormat R)).wrap) reports = .ok results ∧
      ∀ j : U8, results.contains j = testIds.contains j :=
  C59_partial_echo (sp := testParams R) rng (senderFormat_lawful R) (test_works R testIds) testInputs_match (i := (0 : U8))
    rfl rfl hl h

/-! ### Several rounds -/

/-- Four parties and three rounds.  In the first round party 1 sends without taking part in the echo round, party 3 takes part
without sending, and party 4 does neither. -/
def laneTable : CommTable := fun n i =>
  let s (l : List U8) : BSet U8 := BSet.ofList l
  if n = 1 then
    if i = 1 then ⟨s [2, 3], s [], .send⟩
    else if i = 2 then ⟨s [3], s [1], .default⟩
    else if i = 3 then ⟨s [], s [1, 2], .receive (s [2])⟩
    else ⟨s [], s [], .default⟩
  else if i = 2 then ⟨s [3], s [3], .default⟩
  else if i = 3 then ⟨s [2], s [2], .default⟩
  else if (n = 2 ∧ i = 1) ∨ (n = 3 ∧ i = 4) then ⟨s [], s [if i = 1 then 4 else 1], .receive (s [])⟩
  else ⟨s [if i = 1 then 4 else 1], s [], .send⟩

/-- Its parties. -/
def laneIds : BSet U8 := BSet.ofList [1, 2, 3, 4]

theorem lane_ok : (demoScheme laneTable 3 laneIds).Ok :=
  demoWith_ok (by decide) (by decide) (by decide) (pattern_of_check (by decide +kernel) (by decide +kernel))

example {n : Net (demoWith laneTable 3).wrap} (h : NetReach (demoWithGroup laneTable 3 laneIds) n) :
    ∀ i st, n.node i = some st → Clean st :=
  fun _ _ => C59_no_errors lane_ok h

/-- A schedule after which everybody has finished. -/
example : ∃ n : Net (demoWith laneTable 3).wrap, NetReach (demoWithGroup laneTable 3 laneIds) n ∧
    ∀ i ∈ ([1, 2, 3, 4] : List U8), (netResult n i).isSome = true := by
  refine ⟨netRun _ ([.start 1, .start 2, .start 3, .start 4] ++ (List.replicate 12 [NetAct.deliver 2, .deliver 1, .deliver 0,
    .tick 1, .tick 2, .tick 3, .tick 4]).flatten) Net.init, netRun_reach _ .init, ?_⟩
  decide +kernel

/-! ### Patterns under which parties following the protocol are blamed -/

/-- All-to-all in the first round; in the second one party 1 sends broadcasts to parties 2 and 3, who compare them. -/
def judgesTable : CommTable := fun n i =>
  let s (l : List U8) : BSet U8 := BSet.ofList l
  if n = 1 then CommInfo.regular ((s [1, 2, 3]).erase i)
  else if i = 1 then ⟨s [2, 3], s [], .send⟩
  else ⟨s [], s [1], .receive (s [if i = 2 then 3 else 2])⟩

/-- The other way around. -/
def leaverTable : CommTable := fun n i =>
  let s (l : List U8) : BSet U8 := BSet.ofList l
  if n = 2 then CommInfo.regular ((s [1, 2, 3]).erase i)
  else if i = 1 then ⟨s [2, 3], s [], .send⟩
  else ⟨s [], s [1], .receive (s [if i = 2 then 3 else 2])⟩

theorem blames_reach {P : Proto toy} {g : Group P} {l : List NetAct} {i j : U8} (h : netBlames (netRun g l Net.init) i j = true) :
    ∃ (n : Net P) (s : Session P) (a : Accum P), NetReach g n ∧ n.node (i : U8) = some (.running s a) ∧ HasError s a (j : U8) := by
  refine ⟨netRun g l Net.init, ?_⟩
  unfold netBlames at h
  split at h
  · rename_i s a hn
    obtain ⟨x, hx⟩ := BMap.contains_iff.1 h
    exact ⟨s, a, netRun_reach _ .init, hn, Or.inr (Or.inr (Or.inr ⟨x, hx⟩))⟩
  · simp at h

/-- Nothing can happen: no messages are in transit, and the parties have finished or wait for messages. -/
def netQuiet {P : Proto toy} (n : Net P) (parties : BSet U8) : Bool :=
  n.wire.isEmpty && (List.range 256).all (fun k =>
    match n.node (Fin.ofNat 256 k : U8) with
    | none => !parties.contains (Fin.ofNat 256 k)
    | some (.done _) => true
    | some (.running _ a) => decide (a.canFinalize = .notYet))

theorem quiet_stuck {P : Proto toy} {g : Group P} {n : Net P} (h : netQuiet n g.parties = true) : ∀ n', ¬ NetStep g n n' := by
  unfold netQuiet at h
  simp only [Bool.and_eq_true, List.isEmpty_iff, List.all_eq_true, List.mem_range] at h
  obtain ⟨hw, h⟩ := h
  have hall : ∀ i : U8, (match n.node (i : U8) with
      | none => !BMap.contains (g.parties : BSet U8) i
      | some (.done _) => true
      | some (.running _ a) => decide (a.canFinalize = .notYet)) = true := by
    intro i
    have := h i.val i.isLt
    rwa [show Fin.ofNat 256 i.val = i from Fin.ext (Nat.mod_eq_of_lt i.isLt)] at this
  intro n' hs
  cases hs with
  | @start i rng rng' hi hn =>
    have := hall i
    rw [hn] at this
    simp only [Bool.not_eq_true'] at this
    rw [show BMap.contains (g.parties : BSet U8) i = true from hi] at this
    simp at this
  | @tick i st st' rng out hn hs =>
    have := hall i
    rw [hn] at this
    cases st with
    | done r => simp [step] at hs
    | running s a =>
      simp only [decide_eq_true_eq] at this
      simp [step, this] at hs
  | @deliver st st' p w w' out hwire hn hs =>
    rw [hw] at hwire
    simp at hwire

/-- **C59.**  The condition on the exchange of echo messages is needed: two parties who compare the broadcasts of a third one,
without sending messages to each other in this round.  Party 2 gets to the echo round while party 3 is still in the previous
stage; party 3 records an error of party 2, although all follow the protocol and agree on the pattern of communication. -/
theorem C59_judges_violation : (demoScheme judgesTable 2 (BSet.ofList [1, 2, 3])).Matching ∧
    ∃ (n : Net (demoWith judgesTable 2).wrap) (s : Session (demoWith judgesTable 2).wrap)
      (a : Accum (demoWith judgesTable 2).wrap), NetReach (demoWithGroup judgesTable 2 (BSet.ofList [1, 2, 3])) n ∧
      n.node (3 : U8) = some (.running s a) ∧ HasError s a (2 : U8) := by
  refine ⟨matching_of_check (by decide +kernel), ?_⟩
  exact blames_reach (l := [.start 1, .start 2, .start 3, .deliver 5, .deliver 4, .deliver 2, .deliver 0, .tick 1, .tick 2,
    .deliver 0, .deliver 0, .tick 3, .deliver 0, .deliver 1, .deliver 2, .deliver 2, .tick 1, .tick 2, .deliver 2, .tick 2,
    .deliver 3]) (by decide +kernel)

/-- A schedule: party 1 goes on before party 2 has entered the echo round. -/
def leaverSchedule : List NetAct :=
  [.start 1, .start 2, .start 3, .tick 1, .deliver 2, .deliver 0, .tick 2, .deliver 0, .tick 3] ++
    (List.replicate 12 [NetAct.deliver 0, .tick 3, .tick 1, .tick 2]).flatten

/-- **C59.**  The condition on the messages of the next round is needed: party 1 sends broadcasts that parties 2 and 3 compare in
an echo round, and goes on to the next round without them.  Party 2, still in the first round, puts the message of party 1 for
the second round aside, but drops it when it enters the echo round.  In the end nothing is in transit and nobody has
finished, although all follow the protocol and agree on the pattern of communication, and no message is lost in the network. -/
theorem C59_leaver_violation : (demoScheme leaverTable 2 (BSet.ofList [1, 2, 3])).Matching ∧
    ∃ n : Net (demoWith leaverTable 2).wrap, NetReach (demoWithGroup leaverTable 2 (BSet.ofList [1, 2, 3])) n ∧
      (∀ n', ¬ NetStep (demoWithGroup leaverTable 2 (BSet.ofList [1, 2, 3])) n n') ∧
      ¬ AllFinished (demoWithGroup leaverTable 2 (BSet.ofList [1, 2, 3])) n := by
  have h1 : netQuiet (netRun (demoWithGroup leaverTable 2 (BSet.ofList [1, 2, 3])) leaverSchedule Net.init)
      (BSet.ofList [1, 2, 3]) = true := by decide +kernel
  have h2 : (netResult (netRun (demoWithGroup leaverTable 2 (BSet.ofList [1, 2, 3])) leaverSchedule Net.init) 2).isNone = true := by
    decide +kernel
  refine ⟨matching_of_check (by decide +kernel), netRun _ leaverSchedule Net.init, netRun_reach _ .init, quiet_stuck h1, ?_⟩
  generalize netRun _ _ _ = n at h2
  intro h
  obtain ⟨rep, v, h3, h4, -⟩ := h (2 : U8) rfl
  unfold netResult netResultOf at h2
  rw [h3] at h2
  simp [h4] at h2

end Manul
