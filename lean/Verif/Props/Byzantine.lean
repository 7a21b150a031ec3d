import Verif.Lemmas.ByzantineInv
import Verif.Lemmas.ByzantineProto
import Verif.Lemmas.ByzRun
import Verif.Props.Simple
import Verif.Props.Dining

/-!
# C55: what parties that do not follow the protocol can do to those that do

The network in which some parties send whatever they like, at any time, over authenticated channels (`Spec/Byzantine.lean`).
-/

namespace Manul

variable {sp : SP} {P : Proto sp} {pl : Plan P} {H : sp.Id → Prop} {adv : Packet sp → Prop}

/-- The primitives work, the keys belong to the ids, the protocol is robust. -/
structure ByzOk (pl : Plan P) (H : sp.Id → Prop) : Prop where
  mt : sp.MetaTotal
  sc : sp.SignCorrect
  srt : sp.SigRoundTrip
  ert : sp.EchoRoundTrip
  keys : pl.g.KeysMatch
  robust : Robust pl H

theorem ByzOk.inv (ok : ByzOk pl H) (hne : NoEquivocation pl H adv) {n : Net P} (h : ByzReach pl.g H adv n) :
    ∃ (z : Byz P) (G : History P) (e : sp.Id → Nat), z.H = H ∧ z.pl = pl ∧ z.NetInv G e n := by
  obtain ⟨z, hp, hH, hf⟩ := Byz.exists_bc pl H adv hne
  subst hp hH
  obtain ⟨G, e, hi⟩ := Byz.NetInv.reach (z := z) ⟨ok.mt, ok.sc, ok.srt, ok.ert, ok.keys, ok.robust⟩ hf h
  exact ⟨z, G, e, rfl, rfl, hi⟩

/-- **C55.**  As long as nobody sends two different, correctly signed echo broadcasts in the same round, no party that follows
the protocol has anything recorded against it by any other party that does, whatever the remaining parties send.  Partial: with
echo broadcasts that differ the claim is wrong (`C55_violation`). -/
theorem C55_no_blame_partial (ok : ByzOk pl H) (hne : NoEquivocation pl H adv) {n : Net P} (h : ByzReach pl.g H adv n)
    {i j : sp.Id} {st : RunState P} (hj : H j) (hn : n.node i = some st) : NotBlamed j st := by
  obtain ⟨z, G, e, rfl, rfl, hi⟩ := ok.inv hne h
  exact hi.notBlamed hj hn

/-- **C55.**  In protocols without echo broadcasts, with arbitrary parties. -/
theorem C55_no_echo (ok : ByzOk pl H) (hno : ∀ k, k < pl.n → pl.echoAt k = false) {n : Net P} (h : ByzReach pl.g H adv n)
    {i j : sp.Id} {st : RunState P} (hj : H j) (hn : n.node i = some st) : NotBlamed j st := by
  refine C55_no_blame_partial ok ?_ h hj hn
  intro p p' k _ _ _ _ hk he
  rw [hno k hk] at he
  cases he

/-- **C55.**  If there are no parties that do not follow the protocol, nobody is blamed. -/
theorem C55_all_honest (ok : ByzOk pl H) (hall : ∀ p : Packet sp, adv p → H p.src) {n : Net P} (h : ByzReach pl.g H adv n)
    {i j : sp.Id} {st : RunState P} (hj : H j) (hn : n.node i = some st) : NotBlamed j st :=
  C55_no_blame_partial ok (fun p _ _ hp _ ha => absurd (hall p ha) hp) h hj hn

/-- **C55.**  The results: there is an execution of the parties that follow the protocol (each stage entered with the round object
made by finalizing the previous one, with the payloads made of the messages the others of them made in the same stage, and with
whatever payloads can be made of messages of the remaining parties), and whoever has finished has a result their last round
returned for such payloads. -/
theorem C55_results_partial (ok : ByzOk pl H) (hne : NoEquivocation pl H adv) {n : Net P} (h : ByzReach pl.g H adv n) :
    ∃ G : History P, HonestAmong pl.g H G ∧ ∀ i rep v, H i → n.node i = some (.done (.ok rep)) → rep.outcome = .result v →
      ∃ rng, FinalizesAmong H G i rng (.result v) := by
  obtain ⟨z, G, e, rfl, rfl, hi⟩ := ok.inv hne h
  exact ⟨G, hi.history.1, fun i rep v _ hn hv => (hi.done i rep hn).result v hv⟩

/-! ### The example protocols -/

/-- **C55.**  Dining cryptographers: diners who follow the protocol never blame each other, whatever the others do. -/
theorem C55_dining {R : RandomSource} {g : Group (dining R).wrap} (hg : DiningParty g) (hk : g.KeysMatch) {H : U8 → Prop}
    (hH : ∀ i, H i → diners.contains i = true) {adv : Packet (testParams R) → Prop} {n : Net (dining R).wrap}
    (h : ByzReach g H adv n) {i j : U8} {st : RunState (dining R).wrap} (hj : H j) (hn : n.node i = some st) : NotBlamed j st :=
  C55_no_echo (pl := diningPlan g) (H := H)
    ⟨(test_envOk R).serMeta, test_signCorrect R, test_sigRoundTrip R, test_echoRoundTrip R, hk, dining_robust hg hH⟩
    (fun _ _ => rfl) h hj hn

/-- **C55.**  The protocol `simple`: its parties do not blame each other as long as nobody equivocates. -/
theorem C55_simple_partial {fmt : SimpleFormat} {checks : Bool} {ids : BSet sp.Id} {signer : sp.Id → sp.Signer} {sid : Bytes}
    (hf : fmt.Lawful) (hw : ParamsWork sp ids signer) (hH : ∀ i, H i → ids.contains i = true)
    (hne : NoEquivocation (simplePlan sp fmt checks ids signer sid) H adv) {n : Net (simple sp fmt checks).wrap}
    (h : ByzReach (simpleGroup sp fmt checks ids signer sid) H adv n) {i j : sp.Id}
    {st : RunState (simple sp fmt checks).wrap} (hj : H j) (hn : n.node i = some st) : NotBlamed j st :=
  C55_no_blame_partial (pl := simplePlan sp fmt checks ids signer sid)
    ⟨hw.env.serMeta, hw.sc, hw.srt, hw.ert, hw.keys, simple_robust hf hH⟩ hne h hj hn

theorem demo_byzOk (echo : Bool) {last : U8} (hl : 0 < last.val) :
    ByzOk (demoPlan echo last (BSet.ofList [1, 2, 3])) (fun i : U8 => (i == 1 || i == 2) = true) where
  mt := toy_envOk.serMeta
  sc := toy_signCorrect
  srt := toy_sigRoundTrip
  ert := toy_echoRoundTrip
  keys := fun _ _ => rfl
  robust := by
    have two : ∀ i : U8, (i == 1 || i == 2) = true → i = 1 ∨ i = 2 := by
      intro i h
      simpa using h
    refine demo_robust echo last _ _ hl ?_ (by decide) (by decide) ?_
    · intro i hi
      rcases two i hi with rfl | rfl <;> decide
    · intro _ i hi
      rcases two i hi with rfl | rfl <;> decide

/-- Party 3 sends different echo broadcasts to the parties 1 and 2. -/
def equivocate : List (ByzAct toy) :=
  [.start (1 : U8), .start (2 : U8)] ++ injectDemo 3 1 (RoundId.new 1) (some [5]) (some [3]) (some [7]) ++
    injectDemo 3 2 (RoundId.new 1) (some [5]) (some [4]) (some [7]) ++
    [.deliver 5, .deliver 4, .deliver 2, .deliver 0, .tick (1 : U8), .tick (2 : U8)] ++
    (List.replicate 3 [ByzAct.deliver 3, .deliver 2, .deliver 1, .deliver 0]).flatten

/-- Party 1 follows the protocol and blames party 2, who follows it as well, because of what party 3 has sent. -/
theorem C55_violation : ∃ (n : Net (demo true 255).wrap) (s : Session (demo true 255).wrap) (a : Accum (demo true 255).wrap),
    ByzReach (demoGroup true 255 (BSet.ofList [1, 2, 3])) (fun i : U8 => (i == 1 || i == 2) = true) (fun _ => True) n ∧
      n.node (1 : U8) = some (.running s a) ∧ HasError s a (2 : U8) := by
  have h : byzBlames (byzRun (0 : Nat) (demoGroup true 255 (BSet.ofList [1, 2, 3])) (fun i : U8 => i == 1 || i == 2)
      equivocate Net.init) 1 2 = true := by
    decide +kernel
  refine ⟨byzRun (0 : Nat) (demoGroup true 255 (BSet.ofList [1, 2, 3])) (fun i : U8 => i == 1 || i == 2) equivocate Net.init, ?_⟩
  unfold byzBlames at h
  split at h
  · rename_i s a hn
    refine ⟨s, a, byzRun_reach _ _ (fun _ _ => trivial) .init, hn, ?_⟩
    rw [Bool.or_eq_true] at h
    rcases h with h | h
    · obtain ⟨x, hx⟩ := BMap.contains_iff.1 h
      exact Or.inr (Or.inr (Or.inr ⟨x, hx⟩))
    · obtain ⟨x, hx⟩ := BMap.contains_iff.1 h
      exact Or.inr (Or.inr (Or.inl ⟨x, hx⟩))
  · simp at h

/-- Party 3 sends the same echo broadcast to both, and to party 1 a message that is a provable error. -/
def misbehave : List (ByzAct toy) :=
  [.start (1 : U8), .start (2 : U8)] ++ injectDemo 3 1 (RoundId.new 1) (some [66]) (some [3]) (some [7]) ++
    injectDemo 3 2 (RoundId.new 1) (some [5]) (some [3]) (some [7]) ++
    [.deliver 5, .deliver 4, .deliver 2, .deliver 0]

/-- The packets with this echo broadcast. -/
def EchoesThree (p : Packet toy) : Prop := p.message.echo.part = ⟨some [3]⟩

instance (p : Packet toy) : Decidable (EchoesThree p) := by unfold EchoesThree; infer_instance

/-- Whether all packets put on the wire have this echo broadcast. -/
def allEchoThree : List (ByzAct toy) → Bool
  | [] => true
  | .inject p :: l => decide (EchoesThree p) && allEchoThree l
  | _ :: l => allEchoThree l

theorem allEchoThree_mem {l : List (ByzAct toy)} (h : allEchoThree l = true) : ∀ p, ByzAct.inject p ∈ l → EchoesThree p := by
  induction l with
  | nil => intro p hp; simp at hp
  | cons a l ih =>
    intro p hp
    cases a with
    | inject q =>
      simp only [allEchoThree, Bool.and_eq_true, decide_eq_true_eq] at h
      rcases List.mem_cons.1 hp with hp | hp
      · cases hp
        exact h.1
      · exact ih h.2 p hp
    | start i => exact ih h p (by simpa using hp)
    | tick i => exact ih h p (by simpa using hp)
    | deliver k => exact ih h p (by simpa using hp)

/-- The assumptions hold in the run in which party 3 misbehaves: party 1 records that, and nothing against party 2. -/
example : ∃ (n : Net (demo true 255).wrap) (s : Session (demo true 255).wrap) (a : Accum (demo true 255).wrap),
    ByzReach (demoGroup true 255 (BSet.ofList [1, 2, 3])) (fun i : U8 => (i == 1 || i == 2) = true) EchoesThree n ∧
      n.node (1 : U8) = some (.running s a) ∧ HasError s a (3 : U8) ∧ NotBlamed (2 : U8) (.running s a) := by
  have h : byzBlames (byzRun (0 : Nat) (demoGroup true 255 (BSet.ofList [1, 2, 3])) (fun i : U8 => i == 1 || i == 2)
      misbehave Net.init) 1 3 = true := by
    decide +kernel
  have hr : ByzReach (demoGroup true 255 (BSet.ofList [1, 2, 3])) (fun i : U8 => (i == 1 || i == 2) = true) EchoesThree
      (byzRun (0 : Nat) (demoGroup true 255 (BSet.ofList [1, 2, 3])) (fun i : U8 => i == 1 || i == 2) misbehave Net.init) :=
    byzRun_reach _ _ (allEchoThree_mem (by decide +kernel)) .init
  refine ⟨byzRun (0 : Nat) (demoGroup true 255 (BSet.ofList [1, 2, 3])) (fun i : U8 => i == 1 || i == 2) misbehave Net.init, ?_⟩
  unfold byzBlames at h
  split at h
  · rename_i s a hn
    refine ⟨s, a, hr, hn, ?_, ?_⟩
    · rw [Bool.or_eq_true] at h
      rcases h with h | h
      · obtain ⟨x, hx⟩ := BMap.contains_iff.1 h
        exact Or.inr (Or.inr (Or.inr ⟨x, hx⟩))
      · obtain ⟨x, hx⟩ := BMap.contains_iff.1 h
        exact Or.inr (Or.inr (Or.inl ⟨x, hx⟩))
    · exact C55_no_blame_partial (demo_byzOk true (by decide))
        (fun p p' _ _ _ h1 h2 _ _ _ _ => Eq.trans (b := (⟨some [3]⟩ : Part .echo)) h1 h2.symm) hr (by decide) hn
  · simp at h

/-- Party 3 sends a position that is too large to be added. -/
def overflow : List (ByzAct toy) :=
  [.start (1 : U8), .start (2 : U8)] ++ injectDemo 3 1 (RoundId.new 1) (some [255, 0]) (some [2]) (some [0, 2]) ++
    injectDemo 3 2 (RoundId.new 1) (some [2, 1]) (some [2]) (some [0, 2]) ++
    [.deliver 5, .deliver 4, .deliver 2, .deliver 0, .tick (1 : U8), .tick (2 : U8)] ++
    (List.replicate 3 [ByzAct.deliver 3, .deliver 2, .deliver 1, .deliver 0]).flatten ++
    injectDemo 3 1 ⟨1, [], true⟩ none none (some (demoPack (RoundId.new 1) [(1, [0]), (2, [1])])) ++ [.deliver 4, .tick (1 : U8)]

/-- Whether a party has stopped with a panic. -/
def panicked {P : Proto toy} (n : Net P) (i : U8) : Bool :=
  match n.node (i : toy.Id) with
  | some (.done (.error .panicOverflow)) => true
  | _ => false

/-- **C55.**  Not being blamed is all there is: a party can make the parties of the protocol `simple` panic, if overflow checks are
on, with a message that is accepted (the position of the sender is not checked, `simple.rs:225-237`). -/
theorem C55_panic_violation : ∃ n : Net (simple toy simpleFmt true).wrap,
    ByzReach (simpleGroup toy simpleFmt true (BSet.ofList [1, 2, 3] : BSet U8) (fun i => i) [9])
      (fun i : U8 => (i == 1 || i == 2) = true) (fun _ => True) n ∧
      n.node (1 : U8) = some (.done (.error .panicOverflow)) := by
  have h : panicked (byzRun (0 : Nat) (simpleGroup toy simpleFmt true (BSet.ofList [1, 2, 3] : BSet U8) (fun i => i) [9])
      (fun i : U8 => i == 1 || i == 2) overflow Net.init) 1 = true := by
    decide +kernel
  refine ⟨byzRun (0 : Nat) (simpleGroup toy simpleFmt true (BSet.ofList [1, 2, 3] : BSet U8) (fun i => i) [9])
      (fun i : U8 => i == 1 || i == 2) overflow Net.init,
    byzRun_reach (sp := toy) (0 : Nat) overflow (fun _ _ => trivial) .init, ?_⟩
  unfold panicked at h
  split at h
  · rename_i hn
    exact hn
  · simp at h

end Manul
