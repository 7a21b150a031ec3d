import Verif.Lemmas.MixByzantine
import Verif.Lemmas.MixByzRun
import Verif.Props.MixNet
import Verif.Props.ParStall

/-!
# C91: parties using either driver among parties that do not follow the protocol

What C55, C80, C85 and C86 say about parties that all use the same driver, in the network of `Spec/MixByzantine.lean`.
-/

namespace Manul

variable {sp : SP} {P : Proto sp} {pl : Plan P} {H : sp.Id → Prop} {par : sp.Id → Bool} {adv : Packet sp → Prop}

theorem ByzOk.mix (ok : ByzOk pl H) (env : sp.EnvOk) (dm : DirectsMade pl H) (hne : NoEquivocation pl H adv) {m : MixNet P}
    (h : MixByzReach pl.g H par adv m) :
    ∃ (z : Byz P) (G : History P) (e : sp.Id → Nat) (n : Net P), z.H = H ∧ z.pl = pl ∧ z.NetInv G e n ∧ z.PSim m.embed n := by
  obtain ⟨z, hp, hH, hf⟩ := Byz.exists_bc pl H adv hne
  subst hp hH
  obtain ⟨G, e, n, h1, h2⟩ := Byz.PSim.mix (z := z) ⟨ok.mt, ok.sc, ok.srt, ok.ert, ok.keys, ok.robust⟩ env dm hf h
  exact ⟨z, G, e, n, rfl, rfl, h1, h2⟩

/-- **C91.**  As long as nobody sends two different, correctly signed echo broadcasts in the same round, no party that follows the
protocol has anything recorded against it by any other party that does, whichever drivers the two use.  Partial: with echo broadcasts
that differ the claim is wrong (`C91_violation`). -/
theorem C91_no_blame_partial (ok : ByzOk pl H) (env : sp.EnvOk) (dm : DirectsMade pl H) (hne : NoEquivocation pl H adv) {m : MixNet P}
    (h : MixByzReach pl.g H par adv m) {i j : sp.Id} {st : MixState P} (hj : H j) (hn : m.node i = some st) : MixNotBlamed j st := by
  obtain ⟨z, G, e, n, rfl, rfl, hi, hs⟩ := ok.mix env dm hne h
  have key : PNotBlamed j st.embed := by
    have hr := hs.node i
    rw [MixNet.embed_some.2 ⟨st, hn, rfl⟩] at hr
    generalize hna : n.node i = o at hr
    generalize st.embed = x at hr
    cases hr with
    | done => exact hi.notBlamed hj hna
    | running hok =>
      obtain ⟨h1, h2⟩ := hi.notBlamed hj hna
      exact ⟨fun hc => h1 ((hok.hasError j).2 hc), h2⟩
  rcases st with (_ | _) | _ <;> exact key

/-- **C91.**  In protocols without echo broadcasts, with arbitrary parties. -/
theorem C91_no_echo (ok : ByzOk pl H) (env : sp.EnvOk) (dm : DirectsMade pl H) (hno : ∀ k, k < pl.n → pl.echoAt k = false)
    {m : MixNet P} (h : MixByzReach pl.g H par adv m) {i j : sp.Id} {st : MixState P} (hj : H j) (hn : m.node i = some st) :
    MixNotBlamed j st := by
  refine C91_no_blame_partial ok env dm ?_ h hj hn
  intro p p' k _ _ _ _ hk he
  rw [hno k hk] at he
  cases he

/-- **C91.**  The results: there is an execution of the parties that follow the protocol (in the sense of C55), and whoever has
finished has a result their last round returned in it. -/
theorem C91_results_partial (ok : ByzOk pl H) (env : sp.EnvOk) (dm : DirectsMade pl H) (hne : NoEquivocation pl H adv) {m : MixNet P}
    (h : MixByzReach pl.g H par adv m) :
    ∃ G : History P, HonestAmong pl.g H G ∧ ∀ i st rep v, H i → m.node i = some st → st.report = some (.ok rep) →
      rep.outcome = .result v → ∃ rng, FinalizesAmong H G i rng (.result v) := by
  obtain ⟨z, G, e, n, rfl, rfl, hi, hs⟩ := ok.mix env dm hne h
  exact ⟨G, hi.history.1, fun i st rep v _ hn hr hv => (hi.done i rep (hs.done.1 (MixNet.embed_done.2 ⟨st, hn, hr⟩))).result v hv⟩

/-- **C91.**  Parties following the protocol do not wait for each other, unless the one waited for has ended: in a network in
which they are stuck, and none has failed locally, one of them waits for a party that does not follow the protocol, or for one that
has ended. -/
theorem C91_waits (ok : ByzOk pl H) (env : sp.EnvOk) (dm : DirectsMade pl H) (hne : NoEquivocation pl H adv) {m : MixNet P}
    (h : MixByzReach pl.g H par adv m) (hst : MixStalled H m) (hf : ∀ i, ¬ MixFailed m i) {i : sp.Id} {st : MixState P}
    (hn : m.node i = some st) (hr : st.report = none) :
    ∃ j x, H j ∧ MixWaitsFor m j x ∧ (¬ H x ∨ ∃ st' r, m.node x = some st' ∧ st'.report = some r) := by
  obtain ⟨z, G, e, n, rfl, rfl, hi, hs⟩ := ok.mix env dm hne h
  have hrun : ∃ s a, st.embed = .running s a := by
    cases he : st.embed with
    | running s a => exact ⟨s, a, rfl⟩
    | done r =>
      rw [MixState.embed_done.1 he] at hr
      cases hr
  obtain ⟨s, a, he⟩ := hrun
  obtain ⟨j, x, h1, h2, h3⟩ := hs.waits ⟨ok.mt, ok.sc, ok.srt, ok.ert, ok.keys, ok.robust⟩ hi (mix_stalled.2 hst)
    (fun i hc => hf i (mix_failed.1 hc)) (MixNet.embed_some.2 ⟨st, hn, he⟩)
  refine ⟨j, x, h1, mix_waitsFor.1 h2, h3.imp id ?_⟩
  rintro ⟨r, h4⟩
  obtain ⟨st', h5, h6⟩ := MixNet.embed_done.1 h4
  exact ⟨st', r, h5, h6⟩

/-- **C91.**  When the parties following the protocol are stuck, all of them have got their results, or one of them has failed
locally, or one of them waits for a party that does not follow the protocol or accuses one in its report. -/
theorem C91_accountable (ok : ByzOk pl H) (env : sp.EnvOk) (dm : DirectsMade pl H) (hne : NoEquivocation pl H adv)
    (hl : ResultsLast pl H) {m : MixNet P} (h : MixByzReach pl.g H par adv m) (hst : MixStalled H m) :
    (∀ i, H i → MixSucceeded m i) ∨ ∃ i, H i ∧ (MixFailed m i ∨ ∃ x, ¬ H x ∧ (MixWaitsFor m i x ∨ MixAccuses m i x)) := by
  obtain ⟨z, G, e, n, rfl, rfl, hi, hs⟩ := ok.mix env dm hne h
  simp only [← mix_succeeded, ← mix_failed, ← mix_waitsFor, ← mix_accuses]
  refine Byz.PSim.accountable ⟨ok.mt, ok.sc, ok.srt, ok.ert, ok.keys, ok.robust⟩ hl hi hs (mix_stalled.2 hst) (fun x rep hn hm => ?_)
  obtain ⟨st, h1, h2⟩ := MixNet.embed_done.1 hn
  rcases h.origin x st h1 with ⟨er, he⟩ | ⟨rng, s₀, -, ⟨y, rfl, hr⟩ | ⟨y, rfl, hr⟩⟩
  · rw [h2] at he
    cases he
  · cases y with
    | running s a => simp [MixState.report] at h2
    | done r =>
      simp only [MixState.report, Option.some.injEq] at h2
      subst h2
      exact report_reason hr hm
  · cases y with
    | running s a => simp [MixState.report] at h2
    | done r =>
      simp only [MixState.report, Option.some.injEq] at h2
      subst h2
      exact par_report_reason hr hm

/-- **C91.**  So if none of them fails locally, none accuses and none waits for a party that does not follow the protocol, all of
them have got their results once everything they have sent has arrived and their tasks have ended. -/
theorem C91_success (ok : ByzOk pl H) (env : sp.EnvOk) (dm : DirectsMade pl H) (hne : NoEquivocation pl H adv) (hl : ResultsLast pl H)
    {m : MixNet P} (h : MixByzReach pl.g H par adv m) (hst : MixStalled H m) (hf : ∀ i, H i → ¬ MixFailed m i)
    (hw : ∀ i x, H i → ¬ H x → ¬ MixWaitsFor m i x ∧ ¬ MixAccuses m i x) {i : sp.Id} (hi : H i) : MixSucceeded m i := by
  rcases C91_accountable ok env dm hne hl h hst with h1 | ⟨j, h1, h2 | ⟨x, h2, h3 | h3⟩⟩
  · exact h1 i hi
  · exact absurd h2 (hf j h1)
  · exact absurd h3 (hw j x h1 h2).1
  · exact absurd h3 (hw j x h1 h2).2

/-- **C91.**  The parties following the protocol cannot go on forever by themselves: however the messages and the results of the tasks
are ordered, there are finitely many steps until the others send something again. -/
theorem C91_stops (ok : ByzOk pl H) (env : sp.EnvOk) (dm : DirectsMade pl H) (hne : NoEquivocation pl H adv) {m : MixNet P}
    (h : MixByzReach pl.g H par adv m) : Acc (fun m' m => MixByzStep pl.g H par (fun _ => False) m m') m := by
  obtain ⟨z, G, e, n, rfl, rfl, hi, hs⟩ := ok.mix env dm hne h
  exact hs.mix_acc ⟨ok.mt, ok.sc, ok.srt, ok.ert, ok.keys, ok.robust⟩ env dm hi

/-- **C91.**  And where they stop they are stuck in the sense of the specification: once no step is possible all of them have got
their results, or one has failed locally, or one waits for or accuses a party that does not follow the protocol. -/
theorem C91_rest (ok : ByzOk pl H) (env : sp.EnvOk) (dm : DirectsMade pl H) (hne : NoEquivocation pl H adv) (hl : ResultsLast pl H)
    (rng : sp.Rng) {m m' : MixNet P} (h : MixByzReach pl.g H par adv m)
    (hs : Relation.ReflTransGen (MixByzStep pl.g H par (fun _ => False)) m m')
    (hr : ∀ x, ¬ MixByzStep pl.g H par (fun _ => False) m' x) :
    MixStalled H m' ∧ ((∀ i, H i → MixSucceeded m' i) ∨
      ∃ i, H i ∧ (MixFailed m' i ∨ ∃ x, ¬ H x ∧ (MixWaitsFor m' i x ∨ MixAccuses m' i x))) := by
  have h' := h.steps hs
  have hst : MixStalled H m' := by
    obtain ⟨z, G, e, n, rfl, rfl, -, hs'⟩ := ok.mix env dm hne h'
    exact mix_stalled.1 (hs'.rest rng (mixByz_stuck hr))
  exact ⟨hst, C91_accountable ok env dm hne hl h' hst⟩

/-- **C91.**  Such a state can always be reached. -/
theorem C91_settles (ok : ByzOk pl H) (env : sp.EnvOk) (dm : DirectsMade pl H) (hne : NoEquivocation pl H adv) {m : MixNet P}
    (h : MixByzReach pl.g H par adv m) :
    ∃ m', Relation.ReflTransGen (MixByzStep pl.g H par (fun _ => False)) m m' ∧ ∀ x, ¬ MixByzStep pl.g H par (fun _ => False) m' x :=
  rest_of_acc (r := MixByzStep pl.g H par (fun _ => False)) (C91_stops ok env dm hne h)

/-- **C91.**  The order of the steps is not to blame: for every choice of the steps made, the parties following the protocol get to a
state of which `C91_rest` speaks, unless the others keep sending. -/
theorem C91_always (ok : ByzOk pl H) (env : sp.EnvOk) (dm : DirectsMade pl H) (hne : NoEquivocation pl H adv) {m : MixNet P}
    (h : MixByzReach pl.g H par adv m) (f : Nat → MixNet P) (h0 : f 0 = m) :
    ∃ k, ¬ MixByzStep pl.g H par (fun _ => False) (f k) (f (k + 1)) := by
  have hacc := C91_stops ok env dm hne h
  clear h
  induction hacc generalizing f with
  | intro n _ ih =>
    by_cases hs : MixByzStep pl.g H par (fun _ => False) (f 0) (f 1)
    · obtain ⟨k, hk⟩ := ih (f 1) (h0 ▸ hs) (fun k => f (k + 1)) rfl
      exact ⟨k + 1, hk⟩
    · exact ⟨0, hs⟩

/-- **C91.**  If nobody uses `par_run_session`, this is the network of C55. -/
theorem C91_sequential (g : Group P) (H : sp.Id → Prop) (adv : Packet sp → Prop) (m : MixNet P) :
    MixByzReach g H (fun _ => false) adv m ↔ ∃ n, ByzReach g H adv n ∧ m = ⟨fun i => (n.node i).map .seq, n.wire⟩ := by
  constructor
  · intro h
    induction h with
    | init => exact ⟨_, .init, rfl⟩
    | step _ hs ih =>
      obtain ⟨n, hn, rfl⟩ := ih
      cases hs with
      | startSeq rng rng' hi hp h1 => exact ⟨_, .step hn (.start rng rng' hi (by simpa using h1)), (seq_put ..).symm⟩
      | tickSeq h1 hst => exact ⟨_, .step hn (.tick (by simpa using h1) hst), (seq_put ..).symm⟩
      | @deliverSeq st st' p w w' out hw h1 hst =>
        exact ⟨_, .step hn (.deliver hw (by simpa using h1) hst), (seq_put ⟨n.node, w ++ w'⟩ ..).symm⟩
      | startPar rng rng' hi hp h1 => cases hp
      | tickPar h1 hst => simp at h1
      | task h1 ho hst => simp at h1
      | deliverPar hw h1 hst => simp at h1
      | inject h1 h2 => exact ⟨_, .step hn (.inject h1 h2), rfl⟩
  · rintro ⟨n, h, rfl⟩
    induction h with
    | init => exact .init
    | step _ hs ih =>
      cases hs with
      | start rng rng' hi h1 =>
        rw [seq_put]
        exact ih.step (.startSeq rng rng' hi rfl (by simp [h1]))
      | tick h1 hst =>
        rw [seq_put]
        exact ih.step (.tickSeq (by simp [h1]) hst)
      | deliver hw h1 hst =>
        rw [seq_put]
        exact ih.step (.deliverSeq hw (by simp [h1]) hst)
      | inject h1 h2 => exact ih.step (.inject h1 h2)

/-- **C91.**  If everybody uses `par_run_session`, this is the network of C85. -/
theorem C91_parallel (g : Group P) (H : sp.Id → Prop) (adv : Packet sp → Prop) (m : MixNet P) :
    MixByzReach g H (fun _ => true) adv m ↔ ∃ n, PByzReach g H adv n ∧ m = ⟨fun i => (n.node i).map .par, n.wire⟩ := by
  constructor
  · intro h
    induction h with
    | init => exact ⟨_, .init, rfl⟩
    | step _ hs ih =>
      obtain ⟨n, hn, rfl⟩ := ih
      cases hs with
      | startPar rng rng' hi hp h1 => exact ⟨_, .step hn (.start rng rng' hi (by simpa using h1)), (par_put ..).symm⟩
      | tickPar h1 hst => exact ⟨_, .step hn (.tick (by simpa using h1) hst), (par_put ..).symm⟩
      | task h1 ho hst => exact ⟨_, .step hn (.task (by simpa using h1) ho hst), (par_put ..).symm⟩
      | @deliverPar s st st' p w w' hw h1 hst =>
        exact ⟨_, .step hn (.deliver hw (by simpa using h1) hst), (par_put ⟨n.node, w ++ w'⟩ ..).symm⟩
      | startSeq rng rng' hi hp h1 => cases hp
      | tickSeq h1 hst => simp at h1
      | deliverSeq hw h1 hst => simp at h1
      | inject h1 h2 => exact ⟨_, .step hn (.inject h1 h2), rfl⟩
  · rintro ⟨n, h, rfl⟩
    induction h with
    | init => exact .init
    | step _ hs ih =>
      cases hs with
      | start rng rng' hi h1 =>
        rw [par_put]
        exact ih.step (.startPar rng rng' hi rfl (by simp [h1]))
      | tick h1 hst =>
        rw [par_put]
        exact ih.step (.tickPar (by simp [h1]) hst)
      | task h1 ho hst =>
        rw [par_put]
        exact ih.step (.task (by simp [h1]) ho hst)
      | deliver hw h1 hst =>
        rw [par_put]
        exact ih.step (.deliverPar hw (by simp [h1]) hst)
      | inject h1 h2 => exact ih.step (.inject h1 h2)

/-! ### The example protocols -/

/-- **C91.**  Dining cryptographers: diners who follow the protocol never blame each other, and when they are stuck somebody else is
to blame. -/
theorem C91_dining {R : RandomSource} {g : Group (dining R).wrap} (hg : DiningParty g) (hk : g.KeysMatch) {H : U8 → Prop}
    (hH : ∀ i, H i → diners.contains i = true) {par : U8 → Bool} {adv : Packet (testParams R) → Prop} {m : MixNet (dining R).wrap}
    (h : MixByzReach g H par adv m) :
    (∀ (i j : U8) st, H j → m.node i = some st → MixNotBlamed j st) ∧ (MixStalled H m →
      (∀ i, H i → MixSucceeded m i) ∨ ∃ i, H i ∧ (MixFailed m i ∨ ∃ x, ¬ H x ∧ (MixWaitsFor m i x ∨ MixAccuses m i x))) := by
  have ok : ByzOk (diningPlan g) H :=
    ⟨(test_envOk R).serMeta, test_signCorrect R, test_sigRoundTrip R, test_echoRoundTrip R, hk, dining_robust hg hH⟩
  exact ⟨fun _ _ _ hj hn => C91_no_echo ok (test_envOk R) (dining_directsMade hg hH) (fun _ _ => rfl) h hj hn,
    C91_accountable ok (test_envOk R) (dining_directsMade hg hH) (fun _ _ _ _ _ _ _ _ he => by cases he) (dining_resultsLast hg hH) h⟩

/-- **C91.**  The protocol `simple`, as long as nobody equivocates. -/
theorem C91_simple_partial {fmt : SimpleFormat} {checks : Bool} {ids : BSet sp.Id} {signer : sp.Id → sp.Signer} {sid : Bytes}
    (hf : fmt.Lawful) (hw : ParamsWork sp ids signer) (hH : ∀ i, H i → ids.contains i = true)
    (hne : NoEquivocation (simplePlan sp fmt checks ids signer sid) H adv) {m : MixNet (simple sp fmt checks).wrap}
    (h : MixByzReach (simpleGroup sp fmt checks ids signer sid) H par adv m) :
    (∀ i j st, H j → m.node i = some st → MixNotBlamed j st) ∧ (MixStalled H m →
      (∀ i, H i → MixSucceeded m i) ∨ ∃ i, H i ∧ (MixFailed m i ∨ ∃ x, ¬ H x ∧ (MixWaitsFor m i x ∨ MixAccuses m i x))) := by
  have ok : ByzOk (simplePlan sp fmt checks ids signer sid) H := ⟨hw.env.serMeta, hw.sc, hw.srt, hw.ert, hw.keys, simple_robust hf hH⟩
  exact ⟨fun _ _ _ hj hn => C91_no_blame_partial ok hw.env (simple_directsMade hf hH) hne h hj hn,
    C91_accountable ok hw.env (simple_directsMade hf hH) hne simple_resultsLast h⟩

/-- In the examples party 2 uses `par_run_session`. -/
def secondPar (i : U8) : Bool := i == 2

/-- Party 3 sends different echo broadcasts to the parties 1 and 2. -/
def mixEquivocate : List (PByzAct toy) :=
  [.start (1 : U8), .start (2 : U8)] ++ pinjectDemo 3 1 (RoundId.new 1) (some [5]) (some [3]) (some [7]) ++
    pinjectDemo 3 2 (RoundId.new 1) (some [5]) (some [4]) (some [7]) ++
    [.send (2 : U8) 0, .send (2 : U8) 0, .deliver 4, .deliver 3, .deliver 2, .deliver 0,
      .complete (2 : U8) 0, .complete (2 : U8) 0, .tick (1 : U8), .tick (2 : U8), .send (2 : U8) 0, .deliver 4]

/-- Party 1, using `run_session`, blames party 2, using `par_run_session`, because of what party 3 has sent. -/
theorem C91_violation : ∃ (m : MixNet (demo true 255).wrap) (st : MixState (demo true 255).wrap) (s : Session (demo true 255).wrap)
      (a : Accum (demo true 255).wrap),
    MixByzReach (demoGroup true 255 (BSet.ofList [1, 2, 3])) (fun i : U8 => (i == 1 || i == 2) = true) secondPar (fun _ => True) m ∧
      m.node (1 : U8) = some st ∧ st.inRound = some (s, a) ∧ HasError s a (2 : U8) := by
  have h : mixBlames (mixEquivocate.foldl (mixAct (sp := toy) (0 : Nat) (demoGroup true 255 (BSet.ofList [1, 2, 3]))
      (fun i : U8 => i == 1 || i == 2) secondPar) MixNet.init) 1 2 = true := by
    decide +kernel
  obtain ⟨st, s, a, h1, h2, h3⟩ := mixBlames_ok h
  exact ⟨_, st, s, a, mixRun_reach (sp := toy) (0 : Nat) _ (fun _ _ => trivial) .init, h1, h2, h3⟩

/-- Party 3 sends different echo broadcasts, and in the echo round to both what the recipient has. -/
def mixConceal : List (PByzAct toy) :=
  mixEquivocate ++ pinjectDemo 3 1 ⟨1, [], true⟩ none none (some (demoPack (RoundId.new 1) [(1, [1]), (2, [2])])) ++
    pinjectDemo 3 2 ⟨1, [], true⟩ none none (some (demoPack (RoundId.new 1) [(1, [1]), (2, [2])])) ++
    [.send (2 : U8) 0, .deliver 5, .deliver 4, .deliver 2, .complete (2 : U8) 1, .complete (2 : U8) 0, .tick (1 : U8), .tick (2 : U8)]

/-- A report that accuses only the parties 1 and 2. -/
theorem mixReported_onlyHonest {P : Proto toy} {m : MixNet P} {i : U8} (h : isPReported m.embed i onlyHonest = true) :
    ¬ MixSucceeded m i ∧ ¬ MixFailed m i ∧ ∀ x : U8, ¬ (x == 1 || x == 2) = true → ¬ MixWaitsFor m i x ∧ ¬ MixAccuses m i x := by
  obtain ⟨rep, h4, h5⟩ := isPReported_ok h
  obtain ⟨st, h4, hr⟩ := MixNet.embed_done.1 h4
  simp only [onlyHonest, Bool.and_eq_true] at h5
  obtain ⟨⟨h5, h6⟩, h7⟩ := h5
  have same : ∀ {st'}, m.node i = some st' → st' = st := by
    intro st' g
    rw [h4] at g
    exact (Option.some.inj g).symm
  refine ⟨?_, ?_, ?_⟩
  · rintro ⟨st', rep', v, g1, g2, g3⟩
    rw [same g1, hr] at g2
    cases g2
    rw [g3] at h5
    simp at h5
  · rintro ⟨st', er, g1, g2⟩
    rw [same g1, hr] at g2
    cases g2
  · intro x hx
    constructor
    · rintro ⟨st', s, a, g1, g2, -⟩
      rw [same g1] at g2
      unfold MixState.report at hr
      unfold MixState.inRound at g2
      split at hr <;> simp at g2 hr
    · rintro ⟨st', rep', g1, g2, g3⟩
      rw [same g1, hr] at g2
      cases g2
      rcases g3 with g3 | g3
      · exact hx (List.all_eq_true.1 h6 x (BSet.mem_elems.2 ((BMap.contains_keys _ _).trans g3)))
      · exact hx (List.all_eq_true.1 h7 x (BSet.mem_elems.2 ((BMap.contains_keys _ _).trans g3)))

/-- **C91.**  Without the assumption that nobody equivocates it is different: party 3 makes the parties 1 and 2, using different drivers,
accuse each other in their reports and nobody else, and they neither fail nor wait. -/
theorem C91_equivocation : ∃ m : MixNet (demo true 255).wrap,
    MixByzReach (demoGroup true 255 (BSet.ofList [1, 2, 3])) (fun i : U8 => (i == 1 || i == 2) = true) secondPar (fun _ => True) m ∧
      MixStalled (fun i : U8 => (i == 1 || i == 2) = true) m ∧ ∀ i : U8, (i == 1 || i == 2) = true →
        ¬ MixSucceeded m i ∧ ¬ MixFailed m i ∧ ∀ x : U8, ¬ (x == 1 || x == 2) = true → ¬ MixWaitsFor m i x ∧ ¬ MixAccuses m i x := by
  have h : (isPStalled (fun i : U8 => i == 1 || i == 2) (mixConceal.foldl (mixAct (sp := toy) (0 : Nat)
        (demoGroup true 255 (BSet.ofList [1, 2, 3])) (fun i : U8 => i == 1 || i == 2) secondPar) MixNet.init).embed &&
      isPReported (mixConceal.foldl (mixAct (sp := toy) (0 : Nat)
        (demoGroup true 255 (BSet.ofList [1, 2, 3])) (fun i : U8 => i == 1 || i == 2) secondPar) MixNet.init).embed 1 onlyHonest &&
      isPReported (mixConceal.foldl (mixAct (sp := toy) (0 : Nat)
        (demoGroup true 255 (BSet.ofList [1, 2, 3])) (fun i : U8 => i == 1 || i == 2) secondPar) MixNet.init).embed 2 onlyHonest) =
      true := by
    decide +kernel
  simp only [Bool.and_eq_true] at h
  obtain ⟨⟨h1, h2⟩, h3⟩ := h
  refine ⟨_, mixRun_reach (sp := toy) (0 : Nat) mixConceal (fun _ _ => trivial) .init, mix_stalled.1 (isPStalled_ok h1), ?_⟩
  intro i hi
  simp only [Bool.or_eq_true, beq_iff_eq] at hi
  rcases hi with rfl | rfl
  · exact mixReported_onlyHonest h2
  · exact mixReported_onlyHonest h3

/-- Party 3 sends to party 1 a message that is a provable error, nothing to party 2. -/
def mixProvoke : List (PByzAct toy) :=
  [.start (1 : U8), .start (2 : U8)] ++ pinjectDemo 3 1 (RoundId.new 1) (some [66]) (some [3]) (some [7]) ++
    [.send (2 : U8) 0, .send (2 : U8) 0, .deliver 2, .deliver 2, .deliver 0, .complete (2 : U8) 0, .tick (1 : U8)]

/-- Party 1 gives up and accuses party 3, party 2 waits for it; neither has anything against the other. -/
example : ∃ m : MixNet (demo true 255).wrap,
    MixByzReach (demoGroup true 255 (BSet.ofList [1, 2, 3])) (fun i : U8 => (i == 1 || i == 2) = true) secondPar EchoesThree m ∧
      MixStalled (fun i : U8 => (i == 1 || i == 2) = true) m ∧ MixAccuses m (1 : U8) (3 : U8) ∧ MixWaitsFor m (2 : U8) (3 : U8) ∧
      ((∀ i : U8, (i == 1 || i == 2) = true → MixSucceeded m i) ∨ ∃ i : U8, (i == 1 || i == 2) = true ∧
        (MixFailed m i ∨ ∃ x : U8, ¬ (x == 1 || x == 2) = true ∧ (MixWaitsFor m i x ∨ MixAccuses m i x))) ∧
      ∀ st, m.node (1 : U8) = some st → MixNotBlamed (2 : U8) st := by
  have h : (isPStalled (fun i : U8 => i == 1 || i == 2) (mixProvoke.foldl (mixAct (sp := toy) (0 : Nat)
        (demoGroup true 255 (BSet.ofList [1, 2, 3])) (fun i : U8 => i == 1 || i == 2) secondPar) MixNet.init).embed &&
      isPWaiting (mixProvoke.foldl (mixAct (sp := toy) (0 : Nat)
        (demoGroup true 255 (BSet.ofList [1, 2, 3])) (fun i : U8 => i == 1 || i == 2) secondPar) MixNet.init).embed 2 3 &&
      isPReported (mixProvoke.foldl (mixAct (sp := toy) (0 : Nat)
        (demoGroup true 255 (BSet.ofList [1, 2, 3])) (fun i : U8 => i == 1 || i == 2) secondPar) MixNet.init).embed 1
        (fun rep => rep.provable.contains (3 : U8)) && pallEchoes (fun p => decide (EchoesThree p)) mixProvoke) = true := by
    decide +kernel
  simp only [Bool.and_eq_true] at h
  obtain ⟨⟨⟨h1, h2⟩, h3⟩, h4⟩ := h
  obtain ⟨rep, h5, h6⟩ := isPReported_ok h3
  have hr := mixRun_reach (sp := toy) (par := secondPar) (0 : Nat) (g := demoGroup true 255 (BSet.ofList [1, 2, 3]))
    (H := fun i : U8 => i == 1 || i == 2) (adv := EchoesThree) mixProvoke
    (fun p hp => of_decide_eq_true (pallEchoes_mem h4 p hp)) .init
  have hne : NoEquivocation (demoPlan true 255 (BSet.ofList [1, 2, 3])) (fun i : U8 => (i == 1 || i == 2) = true) EchoesThree :=
    fun p p' _ _ _ h1 h2 _ _ _ _ => Eq.trans (b := (⟨some [3]⟩ : Part .echo)) h1 h2.symm
  have hst := mix_stalled.1 (isPStalled_ok h1)
  exact ⟨_, hr, hst, mix_accuses.1 ⟨rep, h5, Or.inl h6⟩, mix_waitsFor.1 (isPWaiting_ok h2),
    C91_accountable (demo_byzOk true (by decide)) toy_envOk (demo_directsMade true 255 _ _ (by decide)) hne
      (demo_resultsLast true 255 _ _ (by decide)) hr hst,
    fun st hn => C91_no_blame_partial (demo_byzOk true (by decide)) toy_envOk (demo_directsMade true 255 _ _ (by decide)) hne hr
      (by decide) hn⟩

/-- Party 3 takes part in a protocol of one round. -/
def mixJoin : List (PByzAct toy) :=
  [.start (1 : U8), .start (2 : U8)] ++ pinjectDemo 3 1 (RoundId.new 1) (some [5]) none (some [7]) ++
    pinjectDemo 3 2 (RoundId.new 1) (some [5]) none (some [7]) ++
    [.send (2 : U8) 0, .send (2 : U8) 0, .deliver 4, .deliver 3, .deliver 2, .deliver 0, .complete (2 : U8) 1,
      .complete (2 : U8) 0, .tick (1 : U8), .tick (2 : U8)]

/-- Everybody gets a result; nobody fails, waits or accuses. -/
example : ∃ m : MixNet (demo false 1).wrap,
    MixByzReach (demoGroup false 1 (BSet.ofList [1, 2, 3])) (fun i : U8 => (i == 1 || i == 2) = true) secondPar (fun _ => True) m ∧
      MixStalled (fun i : U8 => (i == 1 || i == 2) = true) m ∧ MixSucceeded m (1 : U8) ∧ MixSucceeded m (2 : U8) := by
  have h : (isPStalled (fun i : U8 => i == 1 || i == 2) (mixJoin.foldl (mixAct (sp := toy) (0 : Nat)
        (demoGroup false 1 (BSet.ofList [1, 2, 3])) (fun i : U8 => i == 1 || i == 2) secondPar) MixNet.init).embed &&
      isPReported (mixJoin.foldl (mixAct (sp := toy) (0 : Nat)
        (demoGroup false 1 (BSet.ofList [1, 2, 3])) (fun i : U8 => i == 1 || i == 2) secondPar) MixNet.init).embed 1
        (fun rep => match rep.outcome with | .result _ => true | _ => false) &&
      isPReported (mixJoin.foldl (mixAct (sp := toy) (0 : Nat)
        (demoGroup false 1 (BSet.ofList [1, 2, 3])) (fun i : U8 => i == 1 || i == 2) secondPar) MixNet.init).embed 2
        (fun rep => match rep.outcome with | .result _ => true | _ => false)) = true := by
    decide +kernel
  simp only [Bool.and_eq_true] at h
  obtain ⟨⟨h1, h2⟩, h3⟩ := h
  have key : ∀ {n : PNet (demo false 1).wrap} {i : U8},
      isPReported n i (fun rep => match rep.outcome with | .result _ => true | _ => false) = true → PSucceeded n i := by
    intro n i h
    obtain ⟨rep, h4, h5⟩ := isPReported_ok h
    split at h5
    · rename_i v hv
      exact ⟨rep, v, h4, hv⟩
    · simp at h5
  exact ⟨_, mixRun_reach (sp := toy) (0 : Nat) mixJoin (fun _ _ => trivial) .init, mix_stalled.1 (isPStalled_ok h1),
    mix_succeeded.1 (key h2), mix_succeeded.1 (key h3)⟩

/-- From the beginning the parties 1 and 2 get to a state in which they are stuck, whatever the order. -/
example : (∃ m : MixNet (demo true 255).wrap, MixByzReach (demoGroup true 255 (BSet.ofList [1, 2, 3]))
      (fun i : U8 => (i == 1 || i == 2) = true) secondPar (fun _ => False) m ∧ MixStalled (fun i : U8 => (i == 1 || i == 2) = true) m) ∧
    ∀ f : Nat → MixNet (demo true 255).wrap, f 0 = MixNet.init → ∃ k, ¬ MixByzStep (demoGroup true 255 (BSet.ofList [1, 2, 3]))
      (fun i : U8 => (i == 1 || i == 2) = true) secondPar (fun _ => False) (f k) (f (k + 1)) := by
  have ok : ByzOk (demoPlan true 255 (BSet.ofList [1, 2, 3])) (fun i : U8 => (i == 1 || i == 2) = true) :=
    demo_byzOk true (by decide)
  have dm := demo_directsMade true 255 (BSet.ofList [1, 2, 3]) (fun i : U8 => (i == 1 || i == 2) = true) (by decide)
  obtain ⟨m, h1, h3⟩ := C91_settles ok toy_envOk dm (par := secondPar) (adv := fun _ => False) (fun p p' _ _ _ h1 => absurd h1 id) .init
  have h2 := (C91_rest ok toy_envOk dm (adv := fun _ => False) (fun p p' _ _ _ h1 => absurd h1 id)
    (demo_resultsLast true 255 _ _ (by decide)) (0 : Nat) .init h1 h3).1
  exact ⟨⟨m, MixByzReach.init.steps h1, h2⟩, C91_always ok toy_envOk dm (adv := fun _ => False)
    (fun p p' _ _ _ h1 => absurd h1 id) .init⟩

end Manul
