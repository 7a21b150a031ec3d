import Verif.Lemmas.ParByzantineStall
import Verif.Props.ParByzantine
import Verif.Props.Stall

/-!
# C86: parties using `par_run_session` that do not get their results

What C80 says about parties using the sequential driver, in the network of `Spec/ParByzantine.lean`.
-/

namespace Manul

variable {sp : SP} {P : Proto sp} {pl : Plan P} {H : sp.Id → Prop} {adv : Packet sp → Prop}

theorem Byz.PSim.waits {z : Byz P} (ok' : z.Ok) {G : History P} {e : sp.Id → Nat} {n : Net P} {c : PNet P}
    (hi : z.NetInv G e n) (hs : z.PSim c n) (hst : PStalled z.H c) (hf : ∀ i, ¬ PFailed c i) {i : sp.Id} {s : Session P} {st : ParSt P}
    (hn : c.node i = some (.running s st)) : ∃ j x, z.H j ∧ PWaitsFor c j x ∧ (¬ z.H x ∨ ∃ r, c.node x = some (.done r)) := by
  obtain ⟨a, hna, -⟩ := hs.running hn
  rcases hi.reason ok' (hs.stalled hst (fun i er hc => hf i ⟨er, hc⟩)) hna with
    ⟨j, x, h1, h2, h3⟩ | ⟨j, x, h1, -, h3, -, r, h4⟩
  · exact ⟨j, x, h1, hs.waitsFor h3, Or.inl h2⟩
  · exact ⟨j, x, h1, hs.waitsFor h3, Or.inr ⟨r, hs.done.2 h4⟩⟩

/-- **C86.**  Parties following the protocol do not wait for each other, unless the one waited for has ended: in a network in
which they are stuck, and none has failed locally, one of them waits for a party that does not follow the protocol, or for one that
has ended. -/
theorem C86_waits (ok : ByzOk pl H) (env : sp.EnvOk) (dm : DirectsMade pl H) (hne : NoEquivocation pl H adv) {c : PNet P}
    (h : PByzReach pl.g H adv c) (hst : PStalled H c) (hf : ∀ i, ¬ PFailed c i) {i : sp.Id} {s : Session P} {st : ParSt P}
    (hn : c.node i = some (.running s st)) : ∃ j x, H j ∧ PWaitsFor c j x ∧ (¬ H x ∨ ∃ r, c.node x = some (.done r)) := by
  obtain ⟨z, G, e, n, rfl, rfl, hi, hs⟩ := ok.par env dm hne h
  exact hs.waits ⟨ok.mt, ok.sc, ok.srt, ok.ert, ok.keys, ok.robust⟩ hi hst hf hn

theorem Byz.PSim.accountable {z : Byz P} (ok' : z.Ok) (hl : ResultsLast z.pl z.H) {G : History P} {e : sp.Id → Nat} {n : Net P} {c : PNet P}
    (hi : z.NetInv G e n) (hs : z.PSim c n) (hst : PStalled z.H c)
    (hrep : ∀ x rep, c.node x = some (.done (.ok rep)) → rep.missing = BMap.empty →
      (∃ v, rep.outcome = .result v) ∨ ∃ y, rep.provable.contains y = true ∨ rep.unprovable.contains y = true) :
    (∀ i, z.H i → PSucceeded c i) ∨ ∃ i, z.H i ∧ (PFailed c i ∨ ∃ x, ¬ z.H x ∧ (PWaitsFor c i x ∨ PAccuses c i x)) := by
  -- a party that has ended
  have hend : ∀ x r, z.H x → c.node x = some (.done r) → PSucceeded c x ∨ PFailed c x ∨ ∃ y, ¬ z.H y ∧ PAccuses c x y := by
    intro x r hx hn
    cases r with
    | error er => exact Or.inr (Or.inl ⟨er, hn⟩)
    | ok rep =>
      have hd := hi.done x rep (hs.done.1 hn)
      rcases hrep x rep hn hd.missing with ⟨v, hv⟩ | ⟨y, hy⟩
      · exact Or.inl ⟨rep, v, hn, hv⟩
      · refine Or.inr (Or.inr ⟨y, ?_, rep, hn, hy⟩)
        intro hyh
        rw [contains_isSome, contains_isSome, hd.provable y hyh, hd.unprovable y hyh] at hy
        simp at hy
  by_cases hfail : ∃ i, PFailed c i
  · obtain ⟨i, er, hf⟩ := hfail
    exact Or.inr ⟨i, hi.who i _ (hs.done.1 hf), Or.inl ⟨er, hf⟩⟩
  by_cases hall : ∀ i, z.H i → PSucceeded c i
  · exact Or.inl hall
  right
  simp only [not_forall] at hall
  obtain ⟨i, hiH, his⟩ := hall
  cases hn : c.node i with
  | none => exact absurd hn (hst.started i hiH)
  | some st =>
    cases st with
    | done r =>
      rcases hend i r hiH hn with h1 | h1 | ⟨y, h1, h2⟩
      · exact absurd h1 his
      · exact ⟨i, hiH, Or.inl h1⟩
      · exact ⟨i, hiH, Or.inr ⟨y, h1, Or.inr h2⟩⟩
    | running s st =>
      obtain ⟨a, hna, -⟩ := hs.running hn
      have hst' := hs.stalled hst (fun i er hc => hfail ⟨i, er, hc⟩)
      rcases hi.reason ok' hst' hna with ⟨j, x, h1, h2, h3⟩ | ⟨j, x, h1, h2, -, hlt, r, h4⟩
      · exact ⟨j, h1, Or.inr ⟨x, h2, Or.inl (hs.waitsFor h3)⟩⟩
      · rcases hend x r h2 (hs.done.2 h4) with ⟨rep, v, g1, g2⟩ | g | ⟨y, g1, g2⟩
        · exfalso
          have hd := hi.done x rep (hs.done.1 g1)
          obtain ⟨rng, hf⟩ := hd.result v g2
          have h5 := hl G x rng v hi.history.honest h2 hf
          rw [← hd.last v g2] at h5
          have h6 := hi.entered j _ hlt
          omega
        · exact ⟨x, h2, Or.inl g⟩
        · exact ⟨x, h2, Or.inr ⟨y, g1, Or.inr g2⟩⟩

/-- **C86.**  When the parties following the protocol are stuck, all of them have got their results, or one of them has failed
locally, or one of them waits for a party that does not follow the protocol or accuses one in its report. -/
theorem C86_accountable (ok : ByzOk pl H) (env : sp.EnvOk) (dm : DirectsMade pl H) (hne : NoEquivocation pl H adv)
    (hl : ResultsLast pl H) {c : PNet P} (h : PByzReach pl.g H adv c) (hst : PStalled H c) :
    (∀ i, H i → PSucceeded c i) ∨ ∃ i, H i ∧ (PFailed c i ∨ ∃ x, ¬ H x ∧ (PWaitsFor c i x ∨ PAccuses c i x)) := by
  obtain ⟨z, G, e, n, rfl, rfl, hi, hs⟩ := ok.par env dm hne h
  refine Byz.PSim.accountable ⟨ok.mt, ok.sc, ok.srt, ok.ert, ok.keys, ok.robust⟩ hl hi hs hst (fun x rep hn hm => ?_)
  rcases h.origin x _ hn with ⟨er, he⟩ | ⟨rng, s₀, -, hr⟩
  · cases he
  · exact par_report_reason hr hm

/-- **C86.**  So if none of them fails locally, none accuses and none waits for a party that does not follow the protocol, all of
them have got their results once everything they have sent has arrived and their tasks have ended. -/
theorem C86_success (ok : ByzOk pl H) (env : sp.EnvOk) (dm : DirectsMade pl H) (hne : NoEquivocation pl H adv) (hl : ResultsLast pl H)
    {c : PNet P} (h : PByzReach pl.g H adv c) (hst : PStalled H c) (hf : ∀ i, H i → ¬ PFailed c i)
    (hw : ∀ i x, H i → ¬ H x → ¬ PWaitsFor c i x ∧ ¬ PAccuses c i x) {i : sp.Id} (hi : H i) : PSucceeded c i := by
  rcases C86_accountable ok env dm hne hl h hst with h1 | ⟨j, h1, h2 | ⟨x, h2, h3 | h3⟩⟩
  · exact h1 i hi
  · exact absurd h2 (hf j h1)
  · exact absurd h3 (hw j x h1 h2).1
  · exact absurd h3 (hw j x h1 h2).2

/-- **C86.**  The parties following the protocol cannot go on forever by themselves: however the messages and the results of the tasks
are ordered, there are finitely many steps until the others send something again. -/
theorem C86_stops (ok : ByzOk pl H) (env : sp.EnvOk) (dm : DirectsMade pl H) (hne : NoEquivocation pl H adv) {c : PNet P}
    (h : PByzReach pl.g H adv c) : Acc (fun m' m => PByzStep pl.g H (fun _ => False) m m') c := by
  obtain ⟨z, G, e, n, rfl, rfl, hi, hs⟩ := ok.par env dm hne h
  exact hs.acc ⟨ok.mt, ok.sc, ok.srt, ok.ert, ok.keys, ok.robust⟩ env dm hi

/-- **C86.**  And where they stop they are stuck in the sense of the specification: once no step is possible all of them have got
their results, or one has failed locally, or one waits for or accuses a party that does not follow the protocol. -/
theorem C86_rest (ok : ByzOk pl H) (env : sp.EnvOk) (dm : DirectsMade pl H) (hne : NoEquivocation pl H adv) (hl : ResultsLast pl H)
    (rng : sp.Rng) {c c' : PNet P} (h : PByzReach pl.g H adv c)
    (hs : Relation.ReflTransGen (PByzStep pl.g H (fun _ => False)) c c') (hr : ∀ m, ¬ PByzStep pl.g H (fun _ => False) c' m) :
    PStalled H c' ∧ ((∀ i, H i → PSucceeded c' i) ∨
      ∃ i, H i ∧ (PFailed c' i ∨ ∃ x, ¬ H x ∧ (PWaitsFor c' i x ∨ PAccuses c' i x))) := by
  have h' := h.steps hs
  have hst : PStalled H c' := by
    obtain ⟨z, G, e, n, rfl, rfl, -, hs'⟩ := ok.par env dm hne h'
    exact hs'.rest rng hr
  exact ⟨hst, C86_accountable ok env dm hne hl h' hst⟩

/-- **C86.**  Such a state can always be reached. -/
theorem C86_settles (ok : ByzOk pl H) (env : sp.EnvOk) (dm : DirectsMade pl H) (hne : NoEquivocation pl H adv) {c : PNet P}
    (h : PByzReach pl.g H adv c) :
    ∃ c', Relation.ReflTransGen (PByzStep pl.g H (fun _ => False)) c c' ∧ ∀ m, ¬ PByzStep pl.g H (fun _ => False) c' m :=
  rest_of_acc (r := PByzStep pl.g H (fun _ => False)) (C86_stops ok env dm hne h)

/-- **C86.**  The order of the steps is not to blame: for every choice of the steps made, the parties following the protocol get to a
state of which `C86_rest` speaks, unless the others keep sending. -/
theorem C86_always (ok : ByzOk pl H) (env : sp.EnvOk) (dm : DirectsMade pl H) (hne : NoEquivocation pl H adv) {c : PNet P}
    (h : PByzReach pl.g H adv c) (f : Nat → PNet P) (h0 : f 0 = c) :
    ∃ k, ¬ PByzStep pl.g H (fun _ => False) (f k) (f (k + 1)) := by
  have hacc := C86_stops ok env dm hne h
  clear h
  induction hacc generalizing f with
  | intro n _ ih =>
    by_cases hs : PByzStep pl.g H (fun _ => False) (f 0) (f 1)
    · obtain ⟨k, hk⟩ := ih (f 1) (h0 ▸ hs) (fun k => f (k + 1)) rfl
      exact ⟨k + 1, hk⟩
    · exact ⟨0, hs⟩

/-! ### The example protocols -/

/-- **C86.**  Dining cryptographers. -/
theorem C86_dining {R : RandomSource} {g : Group (dining R).wrap} (hg : DiningParty g) (hk : g.KeysMatch) {H : U8 → Prop}
    (hH : ∀ i, H i → diners.contains i = true) {adv : Packet (testParams R) → Prop} {c : PNet (dining R).wrap}
    (h : PByzReach g H adv c) (hst : PStalled H c) :
    (∀ i, H i → PSucceeded c i) ∨ ∃ i, H i ∧ (PFailed c i ∨ ∃ x, ¬ H x ∧ (PWaitsFor c i x ∨ PAccuses c i x)) :=
  C86_accountable (pl := diningPlan g) (H := H)
    ⟨(test_envOk R).serMeta, test_signCorrect R, test_sigRoundTrip R, test_echoRoundTrip R, hk, dining_robust hg hH⟩
    (test_envOk R) (dining_directsMade hg hH) (fun _ _ _ _ _ _ _ _ he => by cases he) (dining_resultsLast hg hH) h hst

/-- **C86.**  The protocol `simple`. -/
theorem C86_simple {fmt : SimpleFormat} {checks : Bool} {ids : BSet sp.Id} {signer : sp.Id → sp.Signer} {sid : Bytes}
    (hf : fmt.Lawful) (hw : ParamsWork sp ids signer) (hH : ∀ i, H i → ids.contains i = true)
    (hne : NoEquivocation (simplePlan sp fmt checks ids signer sid) H adv) {c : PNet (simple sp fmt checks).wrap}
    (h : PByzReach (simpleGroup sp fmt checks ids signer sid) H adv c) (hst : PStalled H c) :
    (∀ i, H i → PSucceeded c i) ∨ ∃ i, H i ∧ (PFailed c i ∨ ∃ x, ¬ H x ∧ (PWaitsFor c i x ∨ PAccuses c i x)) :=
  C86_accountable (pl := simplePlan sp fmt checks ids signer sid)
    ⟨hw.env.serMeta, hw.sc, hw.srt, hw.ert, hw.keys, simple_robust hf hH⟩ hw.env (simple_directsMade hf hH) hne simple_resultsLast h hst

/-- Whether the parties following the protocol are stuck. -/
def isPStalled {P : Proto toy} (H : U8 → Bool) (n : PNet P) : Bool :=
  (List.finRange 256).all (fun i : U8 => (!H i || (n.node (i : toy.Id)).isSome) && match n.node (i : toy.Id) with
    | some (.running _ st) => st.accum.canFinalize == .notYet && st.tasks.isEmpty && st.outgoing.isEmpty
    | _ => true) &&
  n.wire.all (fun p => !H p.src || match n.node p.dest with
    | some (.running _ _) => false
    | _ => true)

theorem isPStalled_ok {P : Proto toy} {H : U8 → Bool} {n : PNet P} (h : isPStalled H n = true) :
    PStalled (fun i => H i = true) n := by
  simp only [isPStalled, Bool.and_eq_true, List.all_eq_true] at h
  obtain ⟨h1, h2⟩ := h
  refine ⟨?_, ?_, ?_, ?_⟩
  · intro i hi hn
    have := (h1 i (List.mem_finRange _)).1
    rw [hi, hn] at this
    simp at this
  · intro p hp hs s a hn
    have := h2 p hp
    simp [hs, hn] at this
  · intro i s a hn
    have := (h1 i (List.mem_finRange _)).2
    rw [hn] at this
    simp only [Bool.and_eq_true, List.isEmpty_iff] at this
    exact ⟨this.1.2, this.2⟩
  · intro i s a hn
    have := (h1 i (List.mem_finRange _)).2
    rw [hn] at this
    simp only [Bool.and_eq_true] at this
    simpa using this.1.1

/-- Whether party `i` waits for party `x`. -/
def isPWaiting {P : Proto toy} (n : PNet P) (i x : U8) : Bool :=
  match n.node (i : toy.Id) with
  | some (.running s st) => s.comm.expecting.contains (x : toy.Id) && (st.accum.payloads.get? (x : toy.Id)).isNone &&
      st.accum.notSent.contains (x : toy.Id)
  | _ => false

theorem isPWaiting_ok {P : Proto toy} {n : PNet P} {i x : U8} (h : isPWaiting n i x = true) : PWaitsFor n i x := by
  unfold isPWaiting at h
  split at h
  · rename_i s a hn
    simp only [Bool.and_eq_true, Option.isNone_iff_eq_none] at h
    exact ⟨s, a, hn, h.1.1, h.1.2, h.2⟩
  · simp at h

/-- Whether party `i` has ended with a report for which the check holds. -/
def isPReported {P : Proto toy} (n : PNet P) (i : U8) (k : Report P → Bool) : Bool :=
  match n.node (i : toy.Id) with
  | some (.done (.ok rep)) => k rep
  | _ => false

theorem isPReported_ok {P : Proto toy} {n : PNet P} {i : U8} {k : Report P → Bool} (h : isPReported n i k = true) :
    ∃ rep, n.node (i : toy.Id) = some (.done (.ok rep)) ∧ k rep = true := by
  unfold isPReported at h
  split at h
  · rename_i rep hn
    exact ⟨rep, hn, h⟩
  · simp at h

/-- Party 3 sends to party 1 a message that is a provable error, nothing to party 2. -/
def pprovoke : List (PByzAct toy) :=
  [.start (1 : U8), .start (2 : U8)] ++ pinjectDemo 3 1 (RoundId.new 1) (some [66]) (some [3]) (some [7]) ++
    [.send (1 : U8) 0, .send (2 : U8) 0, .send (2 : U8) 0, .deliver 2, .deliver 1, .deliver 0, .complete (1 : U8) 1,
      .complete (1 : U8) 0, .complete (2 : U8) 0, .tick (1 : U8)]

/-- Party 1 gives up and accuses party 3, party 2 waits for it. -/
example : ∃ c : PNet (demo true 255).wrap, PByzReach (demoGroup true 255 (BSet.ofList [1, 2, 3])) (fun i : U8 => (i == 1 || i == 2) = true)
    EchoesThree c ∧ PStalled (fun i : U8 => (i == 1 || i == 2) = true) c ∧ PAccuses c (1 : U8) (3 : U8) ∧
      PWaitsFor c (2 : U8) (3 : U8) ∧ ((∀ i : U8, (i == 1 || i == 2) = true → PSucceeded c i) ∨ ∃ i : U8, (i == 1 || i == 2) = true ∧
        (PFailed c i ∨ ∃ x : U8, ¬ (x == 1 || x == 2) = true ∧ (PWaitsFor c i x ∨ PAccuses c i x))) := by
  have h : (isPStalled (fun i : U8 => i == 1 || i == 2) (pbyzRun (0 : Nat) (demoGroup true 255 (BSet.ofList [1, 2, 3]))
        (fun i : U8 => i == 1 || i == 2) pprovoke PNet.init) &&
      isPWaiting (pbyzRun (0 : Nat) (demoGroup true 255 (BSet.ofList [1, 2, 3])) (fun i : U8 => i == 1 || i == 2) pprovoke PNet.init) 2 3 &&
      isPReported (pbyzRun (0 : Nat) (demoGroup true 255 (BSet.ofList [1, 2, 3])) (fun i : U8 => i == 1 || i == 2) pprovoke PNet.init) 1
        (fun rep => rep.provable.contains (3 : U8)) && pallEchoes (fun p => decide (EchoesThree p)) pprovoke) = true := by
    decide +kernel
  simp only [Bool.and_eq_true] at h
  obtain ⟨⟨⟨h1, h2⟩, h3⟩, h4⟩ := h
  obtain ⟨rep, h5, h6⟩ := isPReported_ok h3
  have hr := pbyzRun_reach (sp := toy) (0 : Nat) (g := demoGroup true 255 (BSet.ofList [1, 2, 3])) (H := fun i : U8 => i == 1 || i == 2)
    (adv := EchoesThree) pprovoke (fun p hp => of_decide_eq_true (pallEchoes_mem h4 p hp)) .init
  exact ⟨_, hr, isPStalled_ok h1, ⟨rep, h5, Or.inl h6⟩, isPWaiting_ok h2,
    C86_accountable (demo_byzOk true (by decide)) toy_envOk (demo_directsMade true 255 _ _ (by decide))
      (fun p p' _ _ _ h1 h2 _ _ _ _ => Eq.trans (b := (⟨some [3]⟩ : Part .echo)) h1 h2.symm)
      (demo_resultsLast true 255 _ _ (by decide)) hr (isPStalled_ok h1)⟩

/-- Party 3 takes part in a protocol of one round. -/
def pjoin : List (PByzAct toy) :=
  [.start (1 : U8), .start (2 : U8)] ++ pinjectDemo 3 1 (RoundId.new 1) (some [5]) none (some [7]) ++
    pinjectDemo 3 2 (RoundId.new 1) (some [5]) none (some [7]) ++
    [.send (1 : U8) 0, .send (2 : U8) 0, .deliver 3, .deliver 2, .deliver 1, .deliver 0, .complete (1 : U8) 1,
      .complete (1 : U8) 0, .complete (2 : U8) 0, .complete (2 : U8) 0, .tick (1 : U8), .tick (2 : U8)]

/-- Everybody gets a result; nobody fails, waits or accuses. -/
example : ∃ c : PNet (demo false 1).wrap, PByzReach (demoGroup false 1 (BSet.ofList [1, 2, 3])) (fun i : U8 => (i == 1 || i == 2) = true)
    (fun _ => True) c ∧ PStalled (fun i : U8 => (i == 1 || i == 2) = true) c ∧ PSucceeded c (1 : U8) ∧ PSucceeded c (2 : U8) := by
  have h : (isPStalled (fun i : U8 => i == 1 || i == 2) (pbyzRun (0 : Nat) (demoGroup false 1 (BSet.ofList [1, 2, 3]))
        (fun i : U8 => i == 1 || i == 2) pjoin PNet.init) &&
      isPReported (pbyzRun (0 : Nat) (demoGroup false 1 (BSet.ofList [1, 2, 3])) (fun i : U8 => i == 1 || i == 2) pjoin PNet.init) 1
        (fun rep => match rep.outcome with | .result _ => true | _ => false) &&
      isPReported (pbyzRun (0 : Nat) (demoGroup false 1 (BSet.ofList [1, 2, 3])) (fun i : U8 => i == 1 || i == 2) pjoin PNet.init) 2
        (fun rep => match rep.outcome with | .result _ => true | _ => false)) = true := by
    decide +kernel
  simp only [Bool.and_eq_true] at h
  obtain ⟨⟨h1, h2⟩, h3⟩ := h
  have key : ∀ {n : PNet (demo false 1).wrap} {i : U8},
      isPReported n i (fun rep => match rep.outcome with | .result _ => true | _ => false) = true → PSucceeded n i := by
    intro n i h
    obtain ⟨rep, h4, h5⟩ := isPReported_ok h
    split at h5
    · rename_i v hv
      exact ⟨rep, v, h4, hv⟩
    · simp at h5
  exact ⟨_, pbyzRun_reach (sp := toy) (0 : Nat) pjoin (fun _ _ => trivial) .init, isPStalled_ok h1, key h2, key h3⟩

/-- From the beginning the parties 1 and 2 get to a state in which they are stuck, whatever the order. -/
example : (∃ c : PNet (demo true 255).wrap, PByzReach (demoGroup true 255 (BSet.ofList [1, 2, 3]))
      (fun i : U8 => (i == 1 || i == 2) = true) (fun _ => False) c ∧ PStalled (fun i : U8 => (i == 1 || i == 2) = true) c) ∧
    ∀ f : Nat → PNet (demo true 255).wrap, f 0 = PNet.init → ∃ k, ¬ PByzStep (demoGroup true 255 (BSet.ofList [1, 2, 3]))
      (fun i : U8 => (i == 1 || i == 2) = true) (fun _ => False) (f k) (f (k + 1)) := by
  have ok : ByzOk (demoPlan true 255 (BSet.ofList [1, 2, 3])) (fun i : U8 => (i == 1 || i == 2) = true) :=
    demo_byzOk true (by decide)
  have dm := demo_directsMade true 255 (BSet.ofList [1, 2, 3]) (fun i : U8 => (i == 1 || i == 2) = true) (by decide)
  obtain ⟨c, h1, h3⟩ := C86_settles ok toy_envOk dm (adv := fun _ => False) (fun p p' _ _ _ h1 => absurd h1 id) PByzReach.init
  have h2 := (C86_rest ok toy_envOk dm (adv := fun _ => False) (fun p p' _ _ _ h1 => absurd h1 id)
    (demo_resultsLast true 255 _ _ (by decide)) (0 : Nat) PByzReach.init h1 h3).1
  exact ⟨⟨c, PByzReach.init.steps h1, h2⟩, C86_always ok toy_envOk dm (adv := fun _ => False)
    (fun p p' _ _ _ h1 => absurd h1 id) PByzReach.init⟩

/-- Party 3 sends different echo broadcasts, and in the echo round to both what the recipient has. -/
def pconceal : List (PByzAct toy) :=
  pequivocate ++ pinjectDemo 3 1 ⟨1, [], true⟩ none none (some (demoPack (RoundId.new 1) [(1, [1]), (2, [2])])) ++
    pinjectDemo 3 2 ⟨1, [], true⟩ none none (some (demoPack (RoundId.new 1) [(1, [1]), (2, [2])])) ++
    [.send (1 : U8) 0, .deliver 4, .deliver 3, .deliver 2, .complete (2 : U8) 1, .complete (2 : U8) 0, .complete (1 : U8) 0,
      .tick (1 : U8), .tick (2 : U8)]

/-- Without the assumption that nobody equivocates it is different: party 3 makes the parties 1 and 2 accuse each other in their
reports and nobody else, and they neither fail nor wait. -/
theorem C86_equivocation : ∃ c : PNet (demo true 255).wrap,
    PByzReach (demoGroup true 255 (BSet.ofList [1, 2, 3])) (fun i : U8 => (i == 1 || i == 2) = true) (fun _ => True) c ∧
      PStalled (fun i : U8 => (i == 1 || i == 2) = true) c ∧ ∀ i : U8, (i == 1 || i == 2) = true →
        ¬ PSucceeded c i ∧ ¬ PFailed c i ∧ ∀ x : U8, ¬ (x == 1 || x == 2) = true → ¬ PWaitsFor c i x ∧ ¬ PAccuses c i x := by
  have h : (isPStalled (fun i : U8 => i == 1 || i == 2) (pbyzRun (0 : Nat) (demoGroup true 255 (BSet.ofList [1, 2, 3]))
        (fun i : U8 => i == 1 || i == 2) pconceal PNet.init) &&
      isPReported (pbyzRun (0 : Nat) (demoGroup true 255 (BSet.ofList [1, 2, 3])) (fun i : U8 => i == 1 || i == 2) pconceal PNet.init) 1
        onlyHonest &&
      isPReported (pbyzRun (0 : Nat) (demoGroup true 255 (BSet.ofList [1, 2, 3])) (fun i : U8 => i == 1 || i == 2) pconceal PNet.init) 2
        onlyHonest) = true := by
    decide +kernel
  simp only [Bool.and_eq_true] at h
  obtain ⟨⟨h1, h2⟩, h3⟩ := h
  refine ⟨_, pbyzRun_reach (sp := toy) (0 : Nat) pconceal (fun _ _ => trivial) .init, isPStalled_ok h1, ?_⟩
  have key : ∀ {n : PNet (demo true 255).wrap} {i : U8}, isPReported n i onlyHonest = true →
      ¬ PSucceeded n i ∧ ¬ PFailed n i ∧ ∀ x : U8, ¬ (x == 1 || x == 2) = true → ¬ PWaitsFor n i x ∧ ¬ PAccuses n i x := by
    intro n i h
    obtain ⟨rep, h4, h5⟩ := isPReported_ok h
    simp only [onlyHonest, Bool.and_eq_true] at h5
    obtain ⟨⟨h5, h6⟩, h7⟩ := h5
    refine ⟨?_, ?_, ?_⟩
    · rintro ⟨rep', v, g1, g2⟩
      rw [h4] at g1
      cases g1
      rw [g2] at h5
      simp at h5
    · rintro ⟨er, g1⟩
      rw [h4] at g1
      cases g1
    · intro x hx
      constructor
      · rintro ⟨s, a, g1, -⟩
        rw [h4] at g1
        cases g1
      · rintro ⟨rep', g1, g2⟩
        rw [h4] at g1
        cases g1
        rcases g2 with g2 | g2
        · exact hx (List.all_eq_true.1 h6 x (BSet.mem_elems.2 ((BMap.contains_keys _ _).trans g2)))
        · exact hx (List.all_eq_true.1 h7 x (BSet.mem_elems.2 ((BMap.contains_keys _ _).trans g2)))
  intro i hi
  rcases (by simpa using hi : i = 1 ∨ i = 2) with rfl | rfl
  · exact key h2
  · exact key h3

end Manul
