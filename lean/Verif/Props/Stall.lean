import Verif.Lemmas.Settle
import Verif.Props.Byzantine

/-!
# C80: if the parties following the protocol do not all get their results, there is somebody to hold responsible

The network of C55, in a state in which the parties following the protocol can do nothing more by themselves.
-/

namespace Manul

variable {sp : SP} {P : Proto sp} {pl : Plan P} {H : sp.Id → Prop} {adv : Packet sp → Prop}

/-- **C80.**  Parties following the protocol do not wait for each other, unless the one waited for has ended: in a network in
which they are stuck, one of them waits for a party that does not follow the protocol, or for one that has ended. -/
theorem C80_waits (ok : ByzOk pl H) (hne : NoEquivocation pl H adv) {n : Net P} (h : ByzReach pl.g H adv n)
    (hst : Stalled H n) {i : sp.Id} {s : Session P} {a : Accum P} (hn : n.node i = some (.running s a)) :
    ∃ j x, H j ∧ WaitsFor n j x ∧ (¬ H x ∨ ∃ r, n.node x = some (.done r)) := by
  obtain ⟨z, G, e, rfl, rfl, hi⟩ := ok.inv hne h
  rcases hi.reason ⟨ok.mt, ok.sc, ok.srt, ok.ert, ok.keys, ok.robust⟩ hst hn with ⟨j, x, h1, h2, h3⟩ | ⟨j, x, h1, -, h3, -, h4⟩
  · exact ⟨j, x, h1, h3, Or.inl h2⟩
  · exact ⟨j, x, h1, h3, Or.inr h4⟩

/-- **C80.**  When the parties following the protocol are stuck, all of them have got their results, or one of them has failed
locally, or one of them waits for a party that does not follow the protocol or accuses one in its report. -/
theorem C80_accountable (ok : ByzOk pl H) (hne : NoEquivocation pl H adv) (hl : ResultsLast pl H) {n : Net P}
    (h : ByzReach pl.g H adv n) (hst : Stalled H n) :
    (∀ i, H i → Succeeded n i) ∨ ∃ i, H i ∧ (Failed n i ∨ ∃ x, ¬ H x ∧ (WaitsFor n i x ∨ Accuses n i x)) := by
  obtain ⟨z, G, e, rfl, rfl, hi⟩ := ok.inv hne h
  have ok' : z.Ok := ⟨ok.mt, ok.sc, ok.srt, ok.ert, ok.keys, ok.robust⟩
  -- a party that has ended
  have hend : ∀ x r, z.H x → n.node x = some (.done r) → Succeeded n x ∨ Failed n x ∨ ∃ y, ¬ z.H y ∧ Accuses n x y := by
    intro x r hx hn
    cases r with
    | error er => exact Or.inr (Or.inl ⟨er, hn⟩)
    | ok rep =>
      have hd := hi.done x rep hn
      rcases h.origin x _ hn with ⟨er, he⟩ | ⟨rng, s₀, -, hr⟩
      · cases he
      · rcases report_reason hr hd.missing with ⟨v, hv⟩ | ⟨y, hy⟩
        · exact Or.inl ⟨rep, v, hn, hv⟩
        · refine Or.inr (Or.inr ⟨y, ?_, rep, hn, hy⟩)
          intro hyh
          rw [contains_isSome, contains_isSome, hd.provable y hyh, hd.unprovable y hyh] at hy
          simp at hy
  by_cases hall : ∀ i, z.H i → Succeeded n i
  · exact Or.inl hall
  right
  simp only [not_forall] at hall
  obtain ⟨i, hiH, his⟩ := hall
  cases hn : n.node i with
  | none => exact absurd hn (hst.started i hiH)
  | some st =>
    cases st with
    | done r =>
      rcases hend i r hiH hn with h1 | h1 | ⟨y, h1, h2⟩
      · exact absurd h1 his
      · exact ⟨i, hiH, Or.inl h1⟩
      · exact ⟨i, hiH, Or.inr ⟨y, h1, Or.inr h2⟩⟩
    | running s a =>
      rcases hi.reason ok' hst hn with ⟨j, x, h1, h2, h3⟩ | ⟨j, x, h1, h2, ⟨s', a', h3, -⟩, hlt, r, h4⟩
      · exact ⟨j, h1, Or.inr ⟨x, h2, Or.inl h3⟩⟩
      · rcases hend x r h2 h4 with ⟨rep, v, g1, g2⟩ | g | ⟨y, g1, g2⟩
        · exfalso
          have hd := hi.done x rep g1
          obtain ⟨rng, hf⟩ := hd.result v g2
          have h5 := hl G x rng v hi.history.honest h2 hf
          rw [← hd.last v g2] at h5
          have h6 := hi.entered j _ hlt
          omega
        · exact ⟨x, h2, Or.inl g⟩
        · exact ⟨x, h2, Or.inr ⟨y, g1, Or.inr g2⟩⟩

/-- **C80.**  So if none of them fails locally, none accuses and none waits for a party that does not follow the protocol, all of
them have got their results once everything they have sent has arrived. -/
theorem C80_success (ok : ByzOk pl H) (hne : NoEquivocation pl H adv) (hl : ResultsLast pl H) {n : Net P}
    (h : ByzReach pl.g H adv n) (hst : Stalled H n) (hf : ∀ i, H i → ¬ Failed n i)
    (hw : ∀ i x, H i → ¬ H x → ¬ WaitsFor n i x ∧ ¬ Accuses n i x) {i : sp.Id} (hi : H i) : Succeeded n i := by
  rcases C80_accountable ok hne hl h hst with h1 | ⟨j, h1, h2 | ⟨x, h2, h3 | h3⟩⟩
  · exact h1 i hi
  · exact absurd h2 (hf j h1)
  · exact absurd h3 (hw j x h1 h2).1
  · exact absurd h3 (hw j x h1 h2).2

/-- **C80.**  The parties following the protocol cannot go on forever by themselves: however the messages are ordered, there are
finitely many steps until the others send something again. -/
theorem C80_stops (ok : ByzOk pl H) (hne : NoEquivocation pl H adv) {hs : List sp.Id} (hH : ∀ i, H i → i ∈ hs) {n : Net P}
    (h : ByzReach pl.g H adv n) : Acc (fun m' m => ByzStep pl.g H (fun _ => False) m m') n := by
  obtain ⟨z, G, e, rfl, rfl, hi⟩ := ok.inv hne h
  exact hi.acc ⟨ok.mt, ok.sc, ok.srt, ok.ert, ok.keys, ok.robust⟩ hH

/-- **C80.**  And where they stop they are stuck in the sense of the specification: whatever has happened so far and however they go
on from there, once no step is possible all of them have got their results, or one has failed locally, or one waits for or accuses
a party that does not follow the protocol. -/
theorem C80_rest (ok : ByzOk pl H) (hne : NoEquivocation pl H adv) (hl : ResultsLast pl H) (rng : sp.Rng) {n n' : Net P}
    (h : ByzReach pl.g H adv n) (hs : Relation.ReflTransGen (ByzStep pl.g H (fun _ => False)) n n')
    (hr : ∀ m, ¬ ByzStep pl.g H (fun _ => False) n' m) :
    Stalled H n' ∧ ((∀ i, H i → Succeeded n' i) ∨
      ∃ i, H i ∧ (Failed n' i ∨ ∃ x, ¬ H x ∧ (WaitsFor n' i x ∨ Accuses n' i x))) :=
  ⟨stalled_of_rest rng hr, C80_accountable ok hne hl (h.steps hs) (stalled_of_rest rng hr)⟩

/-- **C80.**  Such a state can always be reached. -/
theorem C80_settles (ok : ByzOk pl H) (hne : NoEquivocation pl H adv) {hs : List sp.Id} (hH : ∀ i, H i → i ∈ hs) (rng : sp.Rng)
    {n : Net P} (h : ByzReach pl.g H adv n) :
    ∃ n', Relation.ReflTransGen (ByzStep pl.g H (fun _ => False)) n n' ∧ (∀ m, ¬ ByzStep pl.g H (fun _ => False) n' m) ∧
      Stalled H n' := by
  obtain ⟨n', h1, h2⟩ := rest_of_acc (r := ByzStep pl.g H (fun _ => False)) (C80_stops ok hne hH h)
  exact ⟨n', h1, h2, stalled_of_rest rng h2⟩

/-- **C80.**  The order of the steps is not to blame: from every state of the network, and for every choice of the steps made, the
parties following the protocol get to a state of which `C80_rest` speaks, unless the others keep sending. -/
theorem C80_always (ok : ByzOk pl H) (hne : NoEquivocation pl H adv) {hs : List sp.Id} (hH : ∀ i, H i → i ∈ hs) {n : Net P}
    (h : ByzReach pl.g H adv n) (f : Nat → Net P) (h0 : f 0 = n) :
    ∃ k, ¬ ByzStep pl.g H (fun _ => False) (f k) (f (k + 1)) := by
  have hacc := C80_stops ok hne hH h
  clear h
  induction hacc generalizing f with
  | intro n _ ih =>
    by_cases hs : ByzStep pl.g H (fun _ => False) (f 0) (f 1)
    · obtain ⟨k, hk⟩ := ih (f 1) (h0 ▸ hs) (fun k => f (k + 1)) rfl
      exact ⟨k + 1, hk⟩
    · exact ⟨0, hs⟩

/-! ### The example protocols -/

theorem resultsLast_of {I : Nat → sp.Id → P.Rd → Prop} (hI : RoundInvAmong pl.g H I)
    (h : ∀ k i rd rng ps as v, H i → I k i rd → P.finalize rd rng ps as = .ok (.result v) → k + 1 = pl.n) : ResultsLast pl H := by
  rintro G i rng v hG hi ⟨k, c, ps, h1, h2, -, h4⟩
  rw [h1]
  exact h k i c.rd rng ps _ v hi (hI.cells hG i k c h2).2.1 h4

theorem simple_resultsLast {fmt : SimpleFormat} {checks : Bool} {ids : BSet sp.Id} {signer : sp.Id → sp.Signer} {sid : Bytes} :
    ResultsLast (simplePlan sp fmt checks ids signer sid) H := by
  refine resultsLast_of simple_roundInvAmong ?_
  intro k i rd rng ps as v _ hrd h
  rcases hrd with ⟨rfl, rfl⟩ | ⟨rfl, s, rfl⟩
  · simp only [TypedProto.wrap, simple, simpleBase] at h
    split at h
    · cases h
    · cases h
  · rfl

theorem dining_noResult1 {R : RandomSource} {i : U8} {t p : Bool} {rng : R.Rng} {ps : BMap U8 Bool} {as : BMap U8 Unit}
    {v : (dining R).wrap.Result} : (dining R).wrap.finalize (DinerSt.r1 i t p) rng ps as ≠ .ok (.result v) := by
  intro h
  rw [dining_finalize1] at h
  split at h
  · cases h
  · cases h

theorem dining_resultsLast {R : RandomSource} {g : Group (dining R).wrap} (hg : DiningParty g) {H : U8 → Prop}
    (hH : ∀ i, H i → diners.contains i = true) : ResultsLast (diningPlan g) H := by
  refine resultsLast_of (pl := diningPlan g) (dining_roundInvAmong hg hH) ?_
  intro k i rd rng ps as v _ hrd h
  rcases hrd with ⟨rfl, t, p, rfl⟩ | ⟨rfl, t, n, p, rfl⟩
  · exact absurd h dining_noResult1
  · rfl

theorem demo_resultsLast (echo : Bool) (last : U8) (parties : BSet U8) (H : U8 → Prop) (hl : 0 < last.val) :
    ResultsLast (demoPlan echo last parties) H := by
  refine resultsLast_of (pl := demoPlan echo last parties) (demo_roundInvAmong echo last parties H hl) ?_
  intro k i rd rng ps as v _ hrd h
  obtain ⟨h1, h2, h3, h4⟩ := hrd
  simp only [TypedProto.wrap, demo] at h
  split at h
  · rename_i hn
    show k + 1 = last.val
    rw [← hn, h3]
  · cases h

/-- **C80.**  Dining cryptographers: when the diners following the protocol are stuck, they all know whether one of them has paid,
or one has failed locally, or one waits for or accuses somebody that does not follow it. -/
theorem C80_dining {R : RandomSource} {g : Group (dining R).wrap} (hg : DiningParty g) (hk : g.KeysMatch) {H : U8 → Prop}
    (hH : ∀ i, H i → diners.contains i = true) {adv : Packet (testParams R) → Prop} {n : Net (dining R).wrap}
    (h : ByzReach g H adv n) (hst : Stalled H n) :
    (∀ i, H i → Succeeded n i) ∨ ∃ i, H i ∧ (Failed n i ∨ ∃ x, ¬ H x ∧ (WaitsFor n i x ∨ Accuses n i x)) :=
  C80_accountable (pl := diningPlan g) (H := H)
    ⟨(test_envOk R).serMeta, test_signCorrect R, test_sigRoundTrip R, test_echoRoundTrip R, hk, dining_robust hg hH⟩
    (fun _ _ _ _ _ _ _ _ he => by cases he) (dining_resultsLast hg hH) h hst

/-- **C80.**  The protocol `simple`. -/
theorem C80_simple {fmt : SimpleFormat} {checks : Bool} {ids : BSet sp.Id} {signer : sp.Id → sp.Signer} {sid : Bytes}
    (hf : fmt.Lawful) (hw : ParamsWork sp ids signer) (hH : ∀ i, H i → ids.contains i = true)
    (hne : NoEquivocation (simplePlan sp fmt checks ids signer sid) H adv) {n : Net (simple sp fmt checks).wrap}
    (h : ByzReach (simpleGroup sp fmt checks ids signer sid) H adv n) (hst : Stalled H n) :
    (∀ i, H i → Succeeded n i) ∨ ∃ i, H i ∧ (Failed n i ∨ ∃ x, ¬ H x ∧ (WaitsFor n i x ∨ Accuses n i x)) :=
  C80_accountable (pl := simplePlan sp fmt checks ids signer sid)
    ⟨hw.env.serMeta, hw.sc, hw.srt, hw.ert, hw.keys, simple_robust hf hH⟩ hne simple_resultsLast h hst

/-- Whether the parties following the protocol are stuck. -/
def isStalled {P : Proto toy} (H : U8 → Bool) (n : Net P) : Bool :=
  (List.finRange 256).all (fun i : U8 => (!H i || (n.node (i : toy.Id)).isSome) && match n.node (i : toy.Id) with
    | some (.running _ a) => a.canFinalize == .notYet
    | _ => true) &&
  n.wire.all (fun p => !H p.src || match n.node p.dest with
    | some (.running _ _) => false
    | _ => true)

theorem isStalled_ok {P : Proto toy} {H : U8 → Bool} {n : Net P} (h : isStalled H n = true) : Stalled (fun i => H i = true) n := by
  simp only [isStalled, Bool.and_eq_true, List.all_eq_true] at h
  obtain ⟨h1, h2⟩ := h
  refine ⟨?_, ?_, ?_⟩
  · intro i hi hn
    have := (h1 i (List.mem_finRange _)).1
    rw [hi, hn] at this
    simp at this
  · intro p hp hs s a hn
    have := h2 p hp
    simp [hs, hn] at this
  · intro i s a hn
    have := (h1 i (List.mem_finRange _)).2
    rw [hn] at this
    simpa using this

/-- Whether party `i` waits for party `x`. -/
def isWaiting {P : Proto toy} (n : Net P) (i x : U8) : Bool :=
  match n.node (i : toy.Id) with
  | some (.running s a) => s.comm.expecting.contains (x : toy.Id) && (a.payloads.get? (x : toy.Id)).isNone &&
      a.notSent.contains (x : toy.Id)
  | _ => false

theorem isWaiting_ok {P : Proto toy} {n : Net P} {i x : U8} (h : isWaiting n i x = true) : WaitsFor n i x := by
  unfold isWaiting at h
  split at h
  · rename_i s a hn
    simp only [Bool.and_eq_true, Option.isNone_iff_eq_none] at h
    exact ⟨s, a, hn, h.1.1, h.1.2, h.2⟩
  · simp at h

/-- Whether party `i` has ended with a report for which the check holds. -/
def isReported {P : Proto toy} (n : Net P) (i : U8) (k : Report P → Bool) : Bool :=
  match n.node (i : toy.Id) with
  | some (.done (.ok rep)) => k rep
  | _ => false

theorem isReported_ok {P : Proto toy} {n : Net P} {i : U8} {k : Report P → Bool} (h : isReported n i k = true) :
    ∃ rep, n.node (i : toy.Id) = some (.done (.ok rep)) ∧ k rep = true := by
  unfold isReported at h
  split at h
  · rename_i rep hn
    exact ⟨rep, hn, h⟩
  · simp at h

/-- The messages of the parties 1 and 2 to each other arrive; party 3 is silent. -/
def silent : List (ByzAct toy) := [.start (1 : U8), .start (2 : U8), .deliver 2, .deliver 0]

/-- They are stuck, waiting for party 3. -/
example : ∃ n : Net (demo true 255).wrap, ByzReach (demoGroup true 255 (BSet.ofList [1, 2, 3])) (fun i : U8 => (i == 1 || i == 2) = true)
    (fun _ => False) n ∧ Stalled (fun i : U8 => (i == 1 || i == 2) = true) n ∧ WaitsFor n (1 : U8) (3 : U8) ∧
      ∃ i : U8, (i == 1 || i == 2) = true ∧ (Failed n i ∨ ∃ x : U8, ¬ (x == 1 || x == 2) = true ∧ (WaitsFor n i x ∨ Accuses n i x)) := by
  have h : (isStalled (fun i : U8 => i == 1 || i == 2) (byzRun (0 : Nat) (demoGroup true 255 (BSet.ofList [1, 2, 3]))
        (fun i : U8 => i == 1 || i == 2) silent Net.init) &&
      isWaiting (byzRun (0 : Nat) (demoGroup true 255 (BSet.ofList [1, 2, 3])) (fun i : U8 => i == 1 || i == 2) silent Net.init) 1 3) =
        true := by
    decide +kernel
  rw [Bool.and_eq_true] at h
  have hr : ByzReach (demoGroup true 255 (BSet.ofList [1, 2, 3])) (fun i : U8 => (i == 1 || i == 2) = true) (fun _ => False)
      (byzRun (0 : Nat) (demoGroup true 255 (BSet.ofList [1, 2, 3])) (fun i : U8 => i == 1 || i == 2) silent Net.init) :=
    byzRun_reach (sp := toy) (0 : Nat) silent (by simp [silent]) .init
  have hst := isStalled_ok h.1
  have hw := isWaiting_ok h.2
  refine ⟨_, hr, hst, hw, ?_⟩
  rcases C80_accountable (demo_byzOk true (by decide)) (fun p p' _ _ _ h1 => absurd h1 id)
    (demo_resultsLast true 255 _ _ (by decide)) hr hst with h1 | h1
  · obtain ⟨rep, v, h2, -⟩ := h1 (1 : U8) (by decide)
    obtain ⟨s, a, h3, -⟩ := hw
    rw [h2] at h3
    simp at h3
  · exact h1

/-- From the beginning the parties 1 and 2 get to such a state, whatever the order. -/
example : (∃ n : Net (demo true 255).wrap, ByzReach (demoGroup true 255 (BSet.ofList [1, 2, 3]))
      (fun i : U8 => (i == 1 || i == 2) = true) (fun _ => False) n ∧ Stalled (fun i : U8 => (i == 1 || i == 2) = true) n) ∧
    ∀ f : Nat → Net (demo true 255).wrap, f 0 = Net.init → ∃ k, ¬ ByzStep (demoGroup true 255 (BSet.ofList [1, 2, 3]))
      (fun i : U8 => (i == 1 || i == 2) = true) (fun _ => False) (f k) (f (k + 1)) := by
  have hH : ∀ i : U8, (i == 1 || i == 2) = true → i ∈ ([1, 2] : List U8) := by
    intro i h
    simpa using h
  obtain ⟨n, h1, h3, -⟩ := C80_settles (demo_byzOk true (by decide) :
    ByzOk (demoPlan true 255 (BSet.ofList [1, 2, 3])) (fun i : U8 => (i == 1 || i == 2) = true))
    (adv := fun _ => False) (fun p p' _ _ _ h1 => absurd h1 id) hH (0 : Nat) ByzReach.init
  have h2 := (C80_rest (demo_byzOk true (by decide)) (adv := fun _ => False) (fun p p' _ _ _ h1 => absurd h1 id)
    (demo_resultsLast true 255 _ _ (by decide)) (0 : Nat) ByzReach.init h1 h3).1
  exact ⟨⟨n, ByzReach.init.steps h1, h2⟩, C80_always (demo_byzOk true (by decide)) (adv := fun _ => False)
    (fun p p' _ _ _ h1 => absurd h1 id) hH ByzReach.init⟩

/-- Party 3 sends to party 1 a message that is a provable error, nothing to party 2. -/
def provoke : List (ByzAct toy) :=
  [.start (1 : U8), .start (2 : U8), .deliver 2, .deliver 0] ++ injectDemo 3 1 (RoundId.new 1) (some [66]) (some [3]) (some [7]) ++
    [.deliver 2, .tick (1 : U8)]

/-- Party 1 gives up and accuses party 3, party 2 waits for it. -/
example : ∃ n : Net (demo true 255).wrap, ByzReach (demoGroup true 255 (BSet.ofList [1, 2, 3])) (fun i : U8 => (i == 1 || i == 2) = true)
    EchoesThree n ∧ Stalled (fun i : U8 => (i == 1 || i == 2) = true) n ∧ Accuses n (1 : U8) (3 : U8) ∧ WaitsFor n (2 : U8) (3 : U8) := by
  have h : (isStalled (fun i : U8 => i == 1 || i == 2) (byzRun (0 : Nat) (demoGroup true 255 (BSet.ofList [1, 2, 3]))
        (fun i : U8 => i == 1 || i == 2) provoke Net.init) &&
      isWaiting (byzRun (0 : Nat) (demoGroup true 255 (BSet.ofList [1, 2, 3])) (fun i : U8 => i == 1 || i == 2) provoke Net.init) 2 3 &&
      isReported (byzRun (0 : Nat) (demoGroup true 255 (BSet.ofList [1, 2, 3])) (fun i : U8 => i == 1 || i == 2) provoke Net.init) 1
        (fun rep => rep.provable.contains (3 : U8)) && allEchoThree provoke) = true := by
    decide +kernel
  simp only [Bool.and_eq_true] at h
  obtain ⟨⟨⟨h1, h2⟩, h3⟩, h4⟩ := h
  obtain ⟨rep, h5, h6⟩ := isReported_ok h3
  exact ⟨_, byzRun_reach (sp := toy) (0 : Nat) provoke (allEchoThree_mem h4) .init, isStalled_ok h1, ⟨rep, h5, Or.inl h6⟩,
    isWaiting_ok h2⟩

/-- Party 3 takes part in a protocol of one round. -/
def join : List (ByzAct toy) :=
  [.start (1 : U8), .start (2 : U8)] ++ injectDemo 3 1 (RoundId.new 1) (some [5]) none (some [7]) ++
    injectDemo 3 2 (RoundId.new 1) (some [5]) none (some [7]) ++
    [.deliver 5, .deliver 4, .deliver 2, .deliver 0, .tick (1 : U8), .tick (2 : U8)]

/-- Everybody gets a result; nobody fails, waits or accuses. -/
example : ∃ n : Net (demo false 1).wrap, ByzReach (demoGroup false 1 (BSet.ofList [1, 2, 3])) (fun i : U8 => (i == 1 || i == 2) = true)
    (fun _ => True) n ∧ Stalled (fun i : U8 => (i == 1 || i == 2) = true) n ∧ Succeeded n (1 : U8) ∧ Succeeded n (2 : U8) := by
  have h : (isStalled (fun i : U8 => i == 1 || i == 2) (byzRun (0 : Nat) (demoGroup false 1 (BSet.ofList [1, 2, 3]))
        (fun i : U8 => i == 1 || i == 2) join Net.init) &&
      isReported (byzRun (0 : Nat) (demoGroup false 1 (BSet.ofList [1, 2, 3])) (fun i : U8 => i == 1 || i == 2) join Net.init) 1
        (fun rep => match rep.outcome with | .result _ => true | _ => false) &&
      isReported (byzRun (0 : Nat) (demoGroup false 1 (BSet.ofList [1, 2, 3])) (fun i : U8 => i == 1 || i == 2) join Net.init) 2
        (fun rep => match rep.outcome with | .result _ => true | _ => false)) = true := by
    decide +kernel
  simp only [Bool.and_eq_true] at h
  obtain ⟨⟨h1, h2⟩, h3⟩ := h
  have key : ∀ {n : Net (demo false 1).wrap} {i : U8},
      isReported n i (fun rep => match rep.outcome with | .result _ => true | _ => false) = true → Succeeded n i := by
    intro n i h
    obtain ⟨rep, h4, h5⟩ := isReported_ok h
    split at h5
    · rename_i v hv
      exact ⟨rep, v, h4, hv⟩
    · simp at h5
  exact ⟨_, byzRun_reach (sp := toy) (0 : Nat) join (fun _ _ => trivial) .init, isStalled_ok h1, key h2, key h3⟩

/-- Party 3 sends different echo broadcasts, and in the echo round to both what the recipient has. -/
def conceal : List (ByzAct toy) :=
  equivocate ++ injectDemo 3 1 ⟨1, [], true⟩ none none (some (demoPack (RoundId.new 1) [(1, [1]), (2, [2])])) ++
    injectDemo 3 2 ⟨1, [], true⟩ none none (some (demoPack (RoundId.new 1) [(1, [1]), (2, [2])])) ++
    (List.replicate 3 [ByzAct.deliver 5, .deliver 4, .deliver 3, .deliver 2, .deliver 1, .deliver 0]).flatten ++
    [.tick (1 : U8), .tick (2 : U8)]

/-- Whether a report has no result, and entries against the parties 1 and 2 only. -/
def onlyHonest {P : Proto toy} (rep : Report P) : Bool :=
  (match rep.outcome with
    | .result _ => false
    | _ => true) &&
  (BSet.elems rep.provable.keys).all (fun x : U8 => x == 1 || x == 2) && (BSet.elems rep.unprovable.keys).all (fun x : U8 => x == 1 || x == 2)

/-- Without the assumption that nobody equivocates it is different: party 3 makes the parties 1 and 2 accuse each other in their
reports and nobody else, and they neither fail nor wait. -/
theorem C80_equivocation : ∃ n : Net (demo true 255).wrap,
    ByzReach (demoGroup true 255 (BSet.ofList [1, 2, 3])) (fun i : U8 => (i == 1 || i == 2) = true) (fun _ => True) n ∧
      Stalled (fun i : U8 => (i == 1 || i == 2) = true) n ∧ ∀ i : U8, (i == 1 || i == 2) = true →
        ¬ Succeeded n i ∧ ¬ Failed n i ∧ ∀ x : U8, ¬ (x == 1 || x == 2) = true → ¬ WaitsFor n i x ∧ ¬ Accuses n i x := by
  have h : (isStalled (fun i : U8 => i == 1 || i == 2) (byzRun (0 : Nat) (demoGroup true 255 (BSet.ofList [1, 2, 3]))
        (fun i : U8 => i == 1 || i == 2) conceal Net.init) &&
      isReported (byzRun (0 : Nat) (demoGroup true 255 (BSet.ofList [1, 2, 3])) (fun i : U8 => i == 1 || i == 2) conceal Net.init) 1
        onlyHonest &&
      isReported (byzRun (0 : Nat) (demoGroup true 255 (BSet.ofList [1, 2, 3])) (fun i : U8 => i == 1 || i == 2) conceal Net.init) 2
        onlyHonest) = true := by
    decide +kernel
  simp only [Bool.and_eq_true] at h
  obtain ⟨⟨h1, h2⟩, h3⟩ := h
  refine ⟨_, byzRun_reach (sp := toy) (0 : Nat) conceal (fun _ _ => trivial) .init, isStalled_ok h1, ?_⟩
  have key : ∀ {n : Net (demo true 255).wrap} {i : U8}, isReported n i onlyHonest = true →
      ¬ Succeeded n i ∧ ¬ Failed n i ∧ ∀ x : U8, ¬ (x == 1 || x == 2) = true → ¬ WaitsFor n i x ∧ ¬ Accuses n i x := by
    intro n i h
    obtain ⟨rep, h4, h5⟩ := isReported_ok h
    simp only [onlyHonest, Bool.and_eq_true] at h5
    obtain ⟨⟨h5, h6⟩, h7⟩ := h5
    refine ⟨?_, ?_, ?_⟩
    · rintro ⟨rep', v, g1, g2⟩
      rw [h4] at g1
      cases g1
      rw [g2] at h5
      simp at h5
    · rintro ⟨er, g1⟩
      rw [h4] at g1
      cases g1
    · intro x hx
      constructor
      · rintro ⟨s, a, g1, -⟩
        rw [h4] at g1
        cases g1
      · rintro ⟨rep', g1, g2⟩
        rw [h4] at g1
        cases g1
        rcases g2 with g2 | g2
        · exact hx (List.all_eq_true.1 h6 x (BSet.mem_elems.2 ((BMap.contains_keys _ _).trans g2)))
        · exact hx (List.all_eq_true.1 h7 x (BSet.mem_elems.2 ((BMap.contains_keys _ _).trans g2)))
  intro i hi
  rcases (by simpa using hi : i = 1 ∨ i = 2) with rfl | rfl
  · exact key h2
  · exact key h3

end Manul
