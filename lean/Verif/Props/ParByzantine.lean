import Verif.Lemmas.ParByzantineRun
import Verif.Lemmas.ParByzRun
import Verif.Props.Byzantine

/-!
# C85: parties using `par_run_session` among parties that do not follow the protocol

What C55 says about parties using the sequential driver, in the network of `Spec/ParByzantine.lean`.
-/

namespace Manul

variable {sp : SP} {P : Proto sp} {pl : Plan P} {H : sp.Id → Prop} {adv : Packet sp → Prop}

theorem ByzOk.par (ok : ByzOk pl H) (env : sp.EnvOk) (dm : DirectsMade pl H) (hne : NoEquivocation pl H adv) {c : PNet P}
    (h : PByzReach pl.g H adv c) :
    ∃ (z : Byz P) (G : History P) (e : sp.Id → Nat) (n : Net P), z.H = H ∧ z.pl = pl ∧ z.NetInv G e n ∧ z.PSim c n := by
  obtain ⟨z, hp, hH, hf⟩ := Byz.exists_bc pl H adv hne
  subst hp hH
  obtain ⟨G, e, n, h1, h2⟩ := Byz.PSim.reach (z := z) ⟨ok.mt, ok.sc, ok.srt, ok.ert, ok.keys, ok.robust⟩ env dm hf h
  exact ⟨z, G, e, n, rfl, rfl, h1, h2⟩

/-- **C85.**  As long as nobody sends two different, correctly signed echo broadcasts in the same round, no party that follows the
protocol has anything recorded against it by any other party that does, whatever the remaining parties send and in whatever order
the tasks of the parties end.  Partial: with echo broadcasts that differ the claim is wrong (`C85_violation`). -/
theorem C85_no_blame_partial (ok : ByzOk pl H) (env : sp.EnvOk) (dm : DirectsMade pl H) (hne : NoEquivocation pl H adv) {c : PNet P}
    (h : PByzReach pl.g H adv c) {i j : sp.Id} {st : ParState P} (hj : H j) (hn : c.node i = some st) : PNotBlamed j st := by
  obtain ⟨z, G, e, n, rfl, rfl, hi, hs⟩ := ok.par env dm hne h
  have hr := hs.node i
  rw [hn] at hr
  generalize hna : n.node i = o at hr
  cases hr with
  | done => exact hi.notBlamed hj hna
  | running hok =>
    obtain ⟨h1, h2⟩ := hi.notBlamed hj hna
    exact ⟨fun hc => h1 ((hok.hasError j).2 hc), h2⟩

/-- **C85.**  In protocols without echo broadcasts, with arbitrary parties. -/
theorem C85_no_echo (ok : ByzOk pl H) (env : sp.EnvOk) (dm : DirectsMade pl H) (hno : ∀ k, k < pl.n → pl.echoAt k = false) {c : PNet P}
    (h : PByzReach pl.g H adv c) {i j : sp.Id} {st : ParState P} (hj : H j) (hn : c.node i = some st) : PNotBlamed j st := by
  refine C85_no_blame_partial ok env dm ?_ h hj hn
  intro p p' k _ _ _ _ hk he
  rw [hno k hk] at he
  cases he

/-- **C85.**  The results: there is an execution of the parties that follow the protocol (in the sense of C55), and whoever has
finished has a result their last round returned in it. -/
theorem C85_results_partial (ok : ByzOk pl H) (env : sp.EnvOk) (dm : DirectsMade pl H) (hne : NoEquivocation pl H adv) {c : PNet P}
    (h : PByzReach pl.g H adv c) :
    ∃ G : History P, HonestAmong pl.g H G ∧ ∀ i rep v, H i → c.node i = some (.done (.ok rep)) → rep.outcome = .result v →
      ∃ rng, FinalizesAmong H G i rng (.result v) := by
  obtain ⟨z, G, e, n, rfl, rfl, hi, hs⟩ := ok.par env dm hne h
  refine ⟨G, hi.history.1, fun i rep v _ hn hv => ?_⟩
  have hr := hs.node i
  rw [hn] at hr
  generalize hna : n.node i = o at hr
  cases hr with
  | done => exact (hi.done i rep hna).result v hv

/-- **C85.**  A party that follows the protocol never fails to process a message of another one: the only messages it is processing or
has still to process are messages the other has made for it, once each. -/
theorem C85_tasks_partial (ok : ByzOk pl H) (env : sp.EnvOk) (dm : DirectsMade pl H) (hne : NoEquivocation pl H adv) {c : PNet P}
    (h : PByzReach pl.g H adv c) {i : sp.Id} {s : Session P} {st : ParSt P} (hn : c.node i = some (.running s st))
    {vm : VerifiedMessage sp} (hvm : vm ∈ st.tasks) (hx : H vm.sender) :
    (∃ v, s.round.receive vm.sender vm.dyn = .ok v) ∧ ∃ a, s.addProcessed st.accum (s.process vm) = .ok a := by
  obtain ⟨z, G, e, n, rfl, rfl, hi, hs⟩ := ok.par env dm hne h
  exact hs.processes ⟨ok.mt, ok.sc, ok.srt, ok.ert, ok.keys, ok.robust⟩ hi hn hvm hx

/-! ### The example protocols -/

theorem directsMade_of {I : Nat → sp.Id → P.Rd → Prop} (hI : RoundInvAmong pl.g H I)
    (h : ∀ k i rd d rng, H i → I k i rd → (pl.dests k i).contains d = true → ∃ x, P.makeDirect rd rng d = .ok x) :
    DirectsMade pl H :=
  fun _ i r hG hi he d rng hd => h _ i r d rng hi (hI.entering hG hi he) hd

theorem dining_directsMade {R : RandomSource} {g : Group (dining R).wrap} (hg : DiningParty g) {H : U8 → Prop}
    (hH : ∀ i, H i → diners.contains i = true) : DirectsMade (diningPlan g) H := by
  refine directsMade_of (pl := diningPlan g) (dining_roundInvAmong hg hH) ?_
  intro k i rd d rng _ hrd _
  rcases hrd with ⟨rfl, t, p, rfl⟩ | ⟨rfl, t, n, p, rfl⟩
  · exact ⟨_, rfl⟩
  · exact ⟨_, rfl⟩

theorem simple_directsMade {fmt : SimpleFormat} {checks : Bool} {ids : BSet sp.Id} {signer : sp.Id → sp.Signer} {sid : Bytes}
    (hf : fmt.Lawful) (hH : ∀ i, H i → ids.contains i = true) : DirectsMade (simplePlan sp fmt checks ids signer sid) H := by
  refine directsMade_of simple_roundInvAmong ?_
  intro k i rd d rng hi hrd hd
  have hd' : (ids.erase i).contains d = true := hd
  have hdi : ids.contains d = true := by
    rw [BMap.contains_erase] at hd'
    exact (Bool.and_eq_true _ _ ▸ hd').2
  rcases hrd with ⟨rfl, rfl⟩ | ⟨rfl, s, rfl⟩
  · obtain ⟨b, s1, -⟩ := hf (.message1 (posOf ids i) (posOf ids d))
    simp only [TypedProto.wrap, simple, simpleBase, simple_two (hH i hi) hdi, TypedProto.newPart, s1]
    exact ⟨_, rfl⟩
  · obtain ⟨b, s1, -⟩ := hf (.message2 (posOf ids i) (posOf ids d))
    simp only [TypedProto.wrap, simple, simpleBase, simple_two (hH i hi) hdi, TypedProto.newPart, s1]
    exact ⟨_, rfl⟩

theorem demo_directsMade (echo : Bool) (last : U8) (parties : BSet U8) (H : U8 → Prop) (hl : 0 < last.val) :
    DirectsMade (demoPlan echo last parties) H :=
  directsMade_of (pl := demoPlan echo last parties) (demo_roundInvAmong echo last parties H hl) (fun _ _ _ _ _ _ _ _ => ⟨_, rfl⟩)

/-- **C85.**  Dining cryptographers: diners who follow the protocol never blame each other, whatever the others do. -/
theorem C85_dining {R : RandomSource} {g : Group (dining R).wrap} (hg : DiningParty g) (hk : g.KeysMatch) {H : U8 → Prop}
    (hH : ∀ i, H i → diners.contains i = true) {adv : Packet (testParams R) → Prop} {c : PNet (dining R).wrap}
    (h : PByzReach g H adv c) {i j : U8} {st : ParState (dining R).wrap} (hj : H j) (hn : c.node i = some st) : PNotBlamed j st :=
  C85_no_echo (pl := diningPlan g) (H := H)
    ⟨(test_envOk R).serMeta, test_signCorrect R, test_sigRoundTrip R, test_echoRoundTrip R, hk, dining_robust hg hH⟩
    (test_envOk R) (dining_directsMade hg hH) (fun _ _ => rfl) h hj hn

/-- **C85.**  The protocol `simple`: its parties do not blame each other as long as nobody equivocates. -/
theorem C85_simple_partial {fmt : SimpleFormat} {checks : Bool} {ids : BSet sp.Id} {signer : sp.Id → sp.Signer} {sid : Bytes}
    (hf : fmt.Lawful) (hw : ParamsWork sp ids signer) (hH : ∀ i, H i → ids.contains i = true)
    (hne : NoEquivocation (simplePlan sp fmt checks ids signer sid) H adv) {c : PNet (simple sp fmt checks).wrap}
    (h : PByzReach (simpleGroup sp fmt checks ids signer sid) H adv c) {i j : sp.Id}
    {st : ParState (simple sp fmt checks).wrap} (hj : H j) (hn : c.node i = some st) : PNotBlamed j st :=
  C85_no_blame_partial (pl := simplePlan sp fmt checks ids signer sid)
    ⟨hw.env.serMeta, hw.sc, hw.srt, hw.ert, hw.keys, simple_robust hf hH⟩ hw.env (simple_directsMade hf hH) hne h hj hn

/-- Party 3 sends different echo broadcasts to the parties 1 and 2. -/
def pequivocate : List (PByzAct toy) :=
  [.start (1 : U8), .start (2 : U8)] ++ pinjectDemo 3 1 (RoundId.new 1) (some [5]) (some [3]) (some [7]) ++
    pinjectDemo 3 2 (RoundId.new 1) (some [5]) (some [4]) (some [7]) ++
    [.send (1 : U8) 1, .send (2 : U8) 0, .send (1 : U8) 0, .deliver 3, .deliver 1, .deliver 0, .deliver 1,
      .complete (1 : U8) 1, .complete (1 : U8) 0, .complete (2 : U8) 0, .complete (2 : U8) 0, .tick (1 : U8), .tick (2 : U8),
      .send (2 : U8) 0, .deliver 2, .complete (1 : U8) 0]

/-- Party 1 follows the protocol and blames party 2, who follows it as well, because of what party 3 has sent. -/
theorem C85_violation : ∃ (c : PNet (demo true 255).wrap) (s : Session (demo true 255).wrap) (st : ParSt (demo true 255).wrap),
    PByzReach (demoGroup true 255 (BSet.ofList [1, 2, 3])) (fun i : U8 => (i == 1 || i == 2) = true) (fun _ => True) c ∧
      c.node (1 : U8) = some (.running s st) ∧ HasError s st.accum (2 : U8) := by
  have h : pbyzBlames (pbyzRun (0 : Nat) (demoGroup true 255 (BSet.ofList [1, 2, 3])) (fun i : U8 => i == 1 || i == 2)
      pequivocate PNet.init) 1 2 = true := by
    decide +kernel
  obtain ⟨s, st, h1, h2⟩ := pbyzBlames_ok h
  exact ⟨_, s, st, pbyzRun_reach _ _ (fun _ _ => trivial) .init, h1, h2⟩

/-- Party 3 sends the same echo broadcast to both, and to party 1 a message that is a provable error. -/
def pmisbehave : List (PByzAct toy) :=
  [.start (1 : U8), .start (2 : U8)] ++ pinjectDemo 3 1 (RoundId.new 1) (some [66]) (some [3]) (some [7]) ++
    pinjectDemo 3 2 (RoundId.new 1) (some [5]) (some [3]) (some [7]) ++
    [.send (2 : U8) 0, .deliver 2, .deliver 1, .deliver 0, .complete (1 : U8) 1]

/-- The assumptions hold in the run in which party 3 misbehaves: party 1 records that while it is processing the message of party 2,
and nothing against party 2. -/
example : ∃ (c : PNet (demo true 255).wrap) (s : Session (demo true 255).wrap) (st : ParSt (demo true 255).wrap),
    PByzReach (demoGroup true 255 (BSet.ofList [1, 2, 3])) (fun i : U8 => (i == 1 || i == 2) = true) EchoesThree c ∧
      c.node (1 : U8) = some (.running s st) ∧ HasError s st.accum (3 : U8) ∧ (∃ vm ∈ st.tasks, vm.sender = (2 : U8)) ∧
      PNotBlamed (2 : U8) (.running s st) := by
  have h : (pbyzBlames (pbyzRun (0 : Nat) (demoGroup true 255 (BSet.ofList [1, 2, 3])) (fun i : U8 => i == 1 || i == 2)
      pmisbehave PNet.init) 1 3 && pallEchoes (fun p => decide (EchoesThree p)) pmisbehave &&
      (match (pbyzRun (0 : Nat) (demoGroup true 255 (BSet.ofList [1, 2, 3])) (fun i : U8 => i == 1 || i == 2)
        pmisbehave PNet.init).node (1 : U8) with
      | some (.running _ st) => st.tasks.any (fun vm => vm.sender == (2 : U8))
      | _ => false)) = true := by
    decide +kernel
  simp only [Bool.and_eq_true] at h
  obtain ⟨⟨h1, h2⟩, h3⟩ := h
  have hr : PByzReach (demoGroup true 255 (BSet.ofList [1, 2, 3])) (fun i : U8 => (i == 1 || i == 2) = true) EchoesThree
      (pbyzRun (0 : Nat) (demoGroup true 255 (BSet.ofList [1, 2, 3])) (fun i : U8 => i == 1 || i == 2) pmisbehave PNet.init) :=
    pbyzRun_reach _ _ (fun p hp => of_decide_eq_true (pallEchoes_mem h2 p hp)) .init
  obtain ⟨s, st, g1, g2⟩ := pbyzBlames_ok h1
  refine ⟨_, s, st, hr, g1, g2, ?_, ?_⟩
  · rw [g1] at h3
    obtain ⟨vm, k1, k2⟩ := List.any_eq_true.1 h3
    exact ⟨vm, k1, beq_iff_eq (α := U8).1 k2⟩
  · exact C85_no_blame_partial (demo_byzOk true (by decide)) toy_envOk (demo_directsMade true 255 _ _ (by decide))
      (fun p p' _ _ _ h1 h2 _ _ _ _ => Eq.trans (b := (⟨some [3]⟩ : Part .echo)) h1 h2.symm) hr (by decide) g1

end Manul
