import Verif.Lemmas.ParOrder
import Verif.Props.ParAccused

/-!
# C84: parties using `par_run_session` stay within one round of each other

And what C82 says of a single session applies to each party of the network.
-/

namespace Manul

variable {sp : SP} {P : Proto sp}

/-- **C84.**  Nobody leaves a round before the parties following the protocol it waits for are in it: when a party can finalize its
round, each of them has sent messages of this very round. -/
theorem C84_entered {g : Group P} {H : sp.Id → Prop} {n : PNet P} (h : POpenSteps g H PNet.init n) {i x : sp.Id} {s : Session P}
    {st : ParSt P} (hn : n.node i = some (.running s st)) (hy : st.accum.canFinalize = .yes) (hx : H x)
    (he : s.comm.expecting.contains x = true) :
    (∃ s', ParVisitedBy g x s' ∧ s'.transition.id = s.transition.id) ∧ ∃ q ∈ n.wire, ParOwnPacket g x s.transition.id q :=
  Loose.entered h.looseInit hn hy hx he

/-- **C84.**  Whatever rounds a party has left, the parties following the protocol from which it always expects messages have been
in them. -/
theorem C84_behind {g : Group P} {H : sp.Id → Prop} {n : PNet P} (h : POpenSteps g H PNet.init n) {i x : sp.Id} (hx : H x)
    (he : ParAlwaysExpects g i x) {s : Session P} {a : ParSt P} (hn : n.node i = some (.running s a)) {id : RoundId}
    (hp : Passed s id) : ParHasEntered n x id :=
  ppassed_entered h.looseInit hx he hn hp

/-- **C84.**  Two running parties that follow the protocol and always expect messages from each other are at most one round apart,
if no round can be repeated: they have left the same rounds, or one of them has left the round the other one is in and otherwise
the same rounds.  This holds for all protocols and in a network controlled by the adversary. -/
theorem C84_rounds {g : Group P} {H : sp.Id → Prop} (hmi : MainIds P) (hac : Acyclic P) {n : PNet P}
    (h : POpenSteps g H PNet.init n) {i j : sp.Id} (hi : H i) (hj : H j) (hij : ParAlwaysExpects g i j) (hji : ParAlwaysExpects g j i)
    {s s' : Session P} {a a' : ParSt P} (hn : n.node i = some (.running s a)) (hn' : n.node j = some (.running s' a')) :
    (∀ id, Passed s id ↔ Passed s' id) ∨ (∀ id, Passed s id ↔ id = s'.transition.id ∨ Passed s' id) ∨
      ∀ id, Passed s' id ↔ id = s.transition.id ∨ Passed s id :=
  Loose.rounds hmi hac h.looseInit hi hj hij hji hn hn'

/-- **C84.**  Every party is in a state `par_run_session` can get into from a session object made for it, or making that object
failed. -/
theorem C84_runs {g : Group P} {H : sp.Id → Prop} {n : PNet P} (h : POpenSteps g H PNet.init n) {i : sp.Id} {st : ParState P}
    (hn : n.node i = some st) :
    H i ∧ ((∃ rng s₀, Session.new rng g.sid (g.signer i) (g.ep i) = .ok s₀ ∧ ParAny s₀ st) ∨
      ∃ rng e, Session.new rng g.sid (g.signer i) (g.ep i) = .error e ∧ st = .done (.error e)) := by
  induction h generalizing i st with
  | refl => simp [PNet.init] at hn
  | step _ hs ih =>
    cases hs with
    | @start y rng rng' hy hnone =>
      by_cases hyi : i = y
      · subst hyi
        simp only [PNet.put, Function.update_self, Option.some.injEq] at hn
        subst hn
        refine ⟨hy, ?_⟩
        unfold Group.startPar
        split
        · rename_i e he
          exact .inr ⟨rng, e, he, rfl⟩
        · rename_i s hs
          exact .inl ⟨rng, s, hs, .start rng'⟩
      · simp only [PNet.put, Function.update_of_ne hyi] at hn
        exact ih hn
    | @act y s1 st1 st' e out hnode hun hstep hout =>
      by_cases hyi : i = y
      · subst hyi
        simp only [PNet.put, Function.update_self, Option.some.injEq] at hn
        subst hn
        obtain ⟨hi, ⟨rng, s₀, h1, h2⟩ | ⟨rng, e, -, h2⟩⟩ := ih hnode
        · exact ⟨hi, .inl ⟨rng, s₀, h1, h2.step hstep⟩⟩
        · simp at h2
      · simp only [PNet.put, Function.update_of_ne hyi] at hn
        exact ih hn

/-! ## Examples -/

/-- A way to see that messages of a party are expected in all rounds: an invariant of the round objects. -/
theorem parAlwaysExpects_of {g : Group P} {i x : sp.Id} {I : P.Rd → Prop}
    (hI : (g.ep i).Starts g.sid (sp.verifyingKey (g.signer i)) I)
    (hstep : ∀ r rng ps as r', I r → P.finalize r rng ps as = .ok (.anotherRound r') → I r')
    (hexp : ∀ r, I r → (P.comm r).expecting.contains x = true)
    (hdef : ∀ r, I r → (P.comm r).participation = .default → (P.comm r).destinations.contains x = true)
    (hrec : ∀ r t, I r → (P.comm r).participation = .receive t → t.contains x = true) : ParAlwaysExpects g i x := by
  rintro s ⟨rng0, s₀, st, h0, hany⟩
  obtain ⟨trail, cached, -, -, hv, -⟩ := parAny_running hany
  obtain ⟨r, hr, hround⟩ := pvisits_rd hstep hv (by
    unfold Session.new at h0
    split at h0
    · simp at h0
    · rename_i r hr
      exact ⟨r, (newForNextRound_ok h0).round, hI _ _ hr⟩)
  obtain ⟨hp, -, -, -, hm⟩ := new_proper h0
  have hpr := (pvisits_inv hp hm hv).proper
  have hc : s.comm = s.round.comm := NewSession.comm hpr
  rcases hround with hround | ⟨e, hround, rfl⟩
  · rw [hc, hround]
    exact hexp r hr
  · rw [hc, hround]
    show e.info.expecting.contains x = true
    rcases (pvisits_einv hp hm hv hround).info with ⟨t, h1, h2⟩ | ⟨h1, h2⟩
    · rw [h2]
      exact hrec _ t hr h1
    · rw [h2]
      exact hdef _ hr h1

theorem demo_parAlwaysExpects {i x : U8} (hx : BMap.contains ((BSet.ofList [1, 2, 3] : BSet U8).erase i) x = true) :
    ParAlwaysExpects (demoGroup true 2 (BSet.ofList [1, 2, 3])) i x := by
  refine parAlwaysExpects_of (I := fun r : DemoSt => r.others = (BSet.ofList [1, 2, 3] : BSet U8).erase i) ?_ ?_ ?_ ?_ ?_
  · intro rng r hr
    cases hr
    rfl
  · intro r rng ps as r' hI hf
    simp only [TypedProto.wrap, demo] at hf
    split at hf
    · cases hf
    · cases hf
      exact hI
  · intro r hI
    show BMap.contains (DemoSt.others r) x = true
    rw [hI]
    exact hx
  · intro r hI _
    show BMap.contains (DemoSt.others r) x = true
    rw [hI]
    exact hx
  · intro r t hI h
    cases h

/-- Whether party 1 has left the round party 2 is in. -/
def pahead {P : Proto toy} (n : PNet P) : Bool :=
  match n.node (1 : U8), n.node (2 : U8) with
  | some (.running s _), some (.running s' _) => s.transcript.echos.contains s'.transition.id
  | _, _ => false

/-- The hypotheses of the theorems above can be met; it is the second case of `C84_rounds` that occurs (`pbothReady` in the example
of C82 has a party that can finalize its round). -/
example : MainIds (demo true 2).wrap ∧ Acyclic (demo true 2).wrap ∧
    ParAlwaysExpects (demoGroup true 2 (BSet.ofList [1, 2, 3])) (1 : U8) (2 : U8) ∧
    ParAlwaysExpects (demoGroup true 2 (BSet.ofList [1, 2, 3])) (2 : U8) (1 : U8) ∧
    ∃ (n : PNet (demo true 2).wrap) (s s' : Session (demo true 2).wrap) (st st' : ParSt (demo true 2).wrap),
      POpenSteps (demoGroup true 2 (BSet.ofList [1, 2, 3])) (fun i : U8 => i ∈ ([1, 2] : List U8)) PNet.init n ∧
        n.node (1 : U8) = some (.running s st) ∧ n.node (2 : U8) = some (.running s' st') ∧ Passed s s'.transition.id := by
  have h : pahead (popenRun (0 : Nat) (demoGroup true 2 (BSet.ofList [1, 2, 3])) ([1, 2] : List U8)
      (popenDemoFirst ++ popenDemoSecond) PNet.init) = true := by
    decide +kernel
  have r1 := popenRun_steps (sp := toy) (0 : Nat) (g := demoGroup true 2 (BSet.ofList [1, 2, 3])) (H := ([1, 2] : List U8))
    (popenDemoFirst ++ popenDemoSecond) (n₀ := PNet.init) .refl
  generalize popenRun (sp := toy) (0 : Nat) (demoGroup true 2 (BSet.ofList [1, 2, 3])) ([1, 2] : List U8)
    (popenDemoFirst ++ popenDemoSecond) PNet.init = n at h r1
  unfold pahead at h
  split at h
  · rename_i s st s' st' h1 h2
    exact ⟨demo_mainIds _ _, demo_acyclic _ _, demo_parAlwaysExpects (by decide +kernel), demo_parAlwaysExpects (by decide +kernel),
      n, s, s', st, st', r1, h1, h2, h⟩
  · exact (Bool.false_ne_true h).elim

end Manul
