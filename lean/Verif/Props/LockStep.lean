import Verif.Lemmas.LockStep
import Verif.Lemmas.OpenOrder
import Verif.Props.Open
import Verif.Props.Crash
import Verif.Props.Stall

/-!
# C81: parties following the protocol stay within one round of each other

So messages of its own round and of the next one are all a session has to accept from them.
-/

namespace Manul

variable {sp : SP} {P : Proto sp}

/-- **C81.**  Nobody leaves a round before the parties following the protocol it waits for are in it: when a party can finalize its
round, each of them has sent messages of this very round.  This holds in a network controlled by the adversary. -/
theorem C81_entered {g : Group P} {H : sp.Id → Prop} {n : Net P} (h : OpenSteps g H Net.init n) {i x : sp.Id} {s : Session P}
    {a : Accum P} (hn : n.node i = some (.running s a)) (hy : a.canFinalize = .yes) (hx : H x)
    (he : s.comm.expecting.contains x = true) :
    (∃ s', VisitedBy g x s' ∧ s'.transition.id = s.transition.id) ∧ ∃ q ∈ n.wire, OwnPacket g x s.transition.id q := by
  obtain ⟨V, -, hi⟩ := (OpenInv.init g H).steps h
  obtain ⟨-, rng, s₀, tr, hnew, hin, hre, -⟩ := hi.node i s a hn
  obtain ⟨trail, cached, rng', l, -, hin'⟩ := reach_running hre
  have hk := C05_payload_keys (seqRound_reach hin') hy x
  rw [he] at hk
  obtain ⟨v, hv⟩ := BMap.contains_iff.1 hk
  obtain ⟨m, ⟨q, hq, -, -, -, -, ho, -⟩, -⟩ := C56_integrity h hn hx hv
  obtain ⟨h1, h2, s', h3, h4, h5⟩ := ho
  exact ⟨⟨s', h3, h4⟩, q, hq, h1, h2, s', h3, h4, h5⟩

/-- **C81.**  Whatever rounds a party has left, the parties following the protocol from which it always expects messages have been
in them. -/
theorem C81_behind {g : Group P} {H : sp.Id → Prop} {n : Net P} (h : OpenSteps g H Net.init n) {i x : sp.Id} (hx : H x)
    (he : AlwaysExpects g i x) {s : Session P} {a : Accum P} (hn : n.node i = some (.running s a)) {id : RoundId}
    (hp : Passed s id) : HasEntered n x id :=
  passed_entered h hx he hn hp

/-- **C81.**  Two running parties that follow the protocol and always expect messages from each other are at most one round apart,
if no round can be repeated: they have left the same rounds, or one of them has left the round the other one is in and otherwise
the same rounds.  This holds for all protocols and in a network controlled by the adversary. -/
theorem C81_rounds {g : Group P} {H : sp.Id → Prop} (hmi : MainIds P) (hac : Acyclic P) {n : Net P}
    (h : OpenSteps g H Net.init n) {i j : sp.Id} (hi : H i) (hj : H j) (hij : AlwaysExpects g i j) (hji : AlwaysExpects g j i)
    {s s' : Session P} {a a' : Accum P} (hn : n.node i = some (.running s a)) (hn' : n.node j = some (.running s' a')) :
    (∀ id, Passed s id ↔ Passed s' id) ∨ (∀ id, Passed s id ↔ id = s'.transition.id ∨ Passed s' id) ∨
      ∀ id, Passed s' id ↔ id = s.transition.id ∨ Passed s id := by
  have h1 : ∀ id, Passed s id → id = s'.transition.id ∨ Passed s' id := by
    intro id hp
    rcases C81_behind h hj hij hn hp with ⟨t, b, g1, g2⟩ | ⟨r, g1⟩ <;> rw [hn'] at g1
    · simp only [Option.some.injEq, RunState.running.injEq] at g1
      obtain ⟨rfl, rfl⟩ := g1
      exact g2.imp_left Eq.symm
    · simp at g1
  have h2 : ∀ id, Passed s' id → id = s.transition.id ∨ Passed s id := by
    intro id hp
    rcases C81_behind h hi hji hn' hp with ⟨t, b, g1, g2⟩ | ⟨r, g1⟩ <;> rw [hn] at g1
    · simp only [Option.some.injEq, RunState.running.injEq] at g1
      obtain ⟨rfl, rfl⟩ := g1
      exact g2.imp_left Eq.symm
    · simp at g1
  have h3 := not_both hmi hac h hi hj hij hji hn hn'
  by_cases hb : Passed s s'.transition.id
  · have ha : ¬ Passed s' s.transition.id := fun ha => h3 ⟨hb, ha⟩
    refine Or.inr (Or.inl fun id => ⟨h1 id, ?_⟩)
    rintro (rfl | hp)
    · exact hb
    · rcases h2 id hp with rfl | hq
      · exact absurd hp ha
      · exact hq
  · have h1' : ∀ id, Passed s id → Passed s' id := by
      intro id hp
      rcases h1 id hp with rfl | hq
      · exact absurd hp hb
      · exact hq
    by_cases ha : Passed s' s.transition.id
    · refine Or.inr (Or.inr fun id => ⟨h2 id, ?_⟩)
      rintro (rfl | hp)
      · exact ha
      · exact h1' id hp
    · refine Or.inl fun id => ⟨h1' id, ?_⟩
      intro hp
      rcases h2 id hp with rfl | hq
      · exact absurd hp ha
      · exact hq

variable {pl : Plan P} {H : sp.Id → Prop} {adv : Packet sp → Prop}

/-- **C81.**  Two running parties that follow the protocol and expect messages from each other are in the same round, or one of
them is in the round right after that of the other. -/
theorem C81_apart (ok : ByzOk pl H) (hne : NoEquivocation pl H adv) {n : Net P} (h : ByzReach pl.g H adv n) {i j : sp.Id}
    (hij : ∀ k, k < pl.n → (pl.expects k i).contains j = true ∧ (pl.expects k j).contains i = true) {s s' : Session P}
    {a a' : Accum P} (hn : n.node i = some (.running s a)) (hn' : n.node j = some (.running s' a')) :
    s.transition.id = s'.transition.id ∨ pl.Follows s.transition.id s'.transition.id ∨
      pl.Follows s'.transition.id s.transition.id := by
  obtain ⟨z, G, e, rfl, rfl, hi⟩ := ok.inv hne h
  have ok' : z.Ok := ⟨ok.mt, ok.sc, ok.srt, ok.ert, ok.keys, ok.robust⟩
  obtain ⟨t, he, hs, -⟩ := hi.running i s a hn
  obtain ⟨t', he', hs', -⟩ := hi.running j s' a' hn'
  have hH := hi.who i _ hn
  have hH' := hi.who j _ hn'
  have key : ∀ {x y : sp.Id} {u v : Nat}, z.H x → z.H y → e x = u + 1 → e y = v + 1 →
      (∀ k, k < z.pl.n → (z.pl.expects k x).contains y = true) → u ≤ v + 1 := by
    intro x y u v hx hy hu hv hxy
    cases u with
    | zero => omega
    | succ u =>
      have := hi.sync x y u hx hy (hxy _ (hi.entered x u (by omega))) (by omega)
      omega
  have h1 := key hH hH' he he' (fun k hk => (hij k hk).1)
  have h2 := key hH' hH he' he (fun k hk => (hij k hk).2)
  rw [hs.rid, hs'.rid]
  rcases Nat.lt_trichotomy t t' with hlt | rfl | hlt
  · obtain rfl : t' = t + 1 := by omega
    exact Or.inr (Or.inl (Byz.follows ok' hs.stage hs'.stage))
  · exact Or.inl rfl
  · obtain rfl : t = t' + 1 := by omega
    exact Or.inr (Or.inr (Byz.follows ok' hs'.stage hs.stage))

/-- **C81.**  A message one party following the protocol has sent to another one that is still running arrives in time, whenever it
arrives: it is for the round the other one is in, and then it is accepted, or for the one right after it, and then it is kept. -/
theorem C81_window (ok : ByzOk pl H) (hne : NoEquivocation pl H adv) {n : Net P} (h : ByzReach pl.g H adv n) {p : Packet sp}
    (hp : p ∈ n.wire) (hsrc : H p.src) {s : Session P} {a : Accum P} (hn : n.node p.dest = some (.running s a)) :
    ∃ a', deliver s a p.src p.message = .ok a' ∧
      ((ForRound s.transition.id p.message ∧ a.payloads.contains p.src = false ∧ a'.payloads.contains p.src = true) ∨
        ∃ id, pl.Follows s.transition.id id ∧ ForRound id p.message ∧ ¬ IsCached a p.src id ∧ IsCached a' p.src id) := by
  obtain ⟨z, G, e, rfl, rfl, hi⟩ := ok.inv hne h
  have ok' : z.Ok := ⟨ok.mt, ok.sc, ok.srt, ok.ert, ok.keys, ok.robust⟩
  obtain ⟨t, he, hs, ha⟩ := hi.running p.dest s a hn
  obtain ⟨u, h1, h2, h3, h4⟩ := hi.wire p hp hsrc
  obtain ⟨a', g1, -, g3, -, -, -, g6, g7, -⟩ := Byz.accepts ok' hi hn he hs ha hsrc h1 h2 h3 h4
  have hfor : ForRound (z.pl.idAt u) p.message := by
    obtain ⟨k1, k2, k3⟩ := h3.authentic
    exact ⟨by rw [k1.1], by rw [k2.1], by rw [k3.1]⟩
  refine ⟨a', g1, ?_⟩
  rcases g3 with rfl | rfl
  · refine Or.inl ⟨by rw [hs.rid]; exact hfor, ?_, g6 rfl⟩
    cases hc : a.payloads.contains p.src with
    | false => rfl
    | true => exact absurd ⟨s, a, hn, Or.inr (Or.inl ⟨by omega, hc⟩)⟩ h4
  · refine Or.inr ⟨z.pl.idAt (t + 1), ?_, hfor, ?_, g7 rfl⟩
    · rw [hs.rid]
      exact Byz.follows ok' hs.stage (hi.entered _ _ h1)
    · intro hc
      exact h4 ⟨s, a, hn, Or.inr (Or.inr ⟨by omega, hc⟩)⟩

/-! ### An example -/

/-- Party 3 has sent its message to party 1 only, which has gone on to the second round. -/
def ahead : List (ByzAct toy) :=
  [.start (1 : U8), .start (2 : U8)] ++ injectDemo 3 1 (RoundId.new 1) (some [5]) none (some [7]) ++
    [.deliver 4, .deliver 2, .tick (1 : U8)]

/-- Whether the party is in a round with this id. -/
def isIn {P : Proto toy} (n : Net P) (i : U8) (id : RoundId) : Bool :=
  match n.node (i : toy.Id) with
  | some (.running s _) => decide (s.transition.id = id)
  | _ => false

theorem isIn_ok {P : Proto toy} {n : Net P} {i : U8} {id : RoundId} (h : isIn n i id = true) :
    ∃ s a, n.node (i : toy.Id) = some (.running s a) ∧ s.transition.id = id := by
  unfold isIn at h
  split at h
  · rename_i s a hn
    exact ⟨s, a, hn, by simpa using h⟩
  · simp at h

/-- Whether there is a message from `i` to `j` for the round. -/
def isOnWire {P : Proto toy} (n : Net P) (i j : U8) (id : RoundId) : Bool :=
  n.wire.any (fun p => @decide (p.src = i) (instDecidableEqFin 256 p.src i) && @decide (p.dest = j) (instDecidableEqFin 256 p.dest j) &&
    decide (p.message.direct.metadata.roundId = id))

/-- Party 1 is one round ahead of party 2, and messages of both rounds are on their way to party 2. -/
example : ∃ n : Net (demo false 2).wrap, ByzReach (demoGroup false 2 (BSet.ofList [1, 2, 3]))
      (fun i : U8 => (i == 1 || i == 2) = true) (fun _ => True) n ∧
    (∃ s a s' a', n.node (1 : U8) = some (.running s a) ∧ n.node (2 : U8) = some (.running s' a') ∧
      s'.transition.id = RoundId.new 1 ∧ s.transition.id = RoundId.new 2) ∧
    (∃ p ∈ n.wire, p.src = (1 : U8) ∧ p.dest = (2 : U8) ∧ p.message.direct.metadata.roundId = RoundId.new 1) ∧
    ∃ p ∈ n.wire, p.src = (1 : U8) ∧ p.dest = (2 : U8) ∧ p.message.direct.metadata.roundId = RoundId.new 2 := by
  have h : (isIn (byzRun (0 : Nat) (demoGroup false 2 (BSet.ofList [1, 2, 3])) (fun i : U8 => i == 1 || i == 2) ahead Net.init) 1
        (RoundId.new 2) &&
      isIn (byzRun (0 : Nat) (demoGroup false 2 (BSet.ofList [1, 2, 3])) (fun i : U8 => i == 1 || i == 2) ahead Net.init) 2
        (RoundId.new 1) &&
      isOnWire (byzRun (0 : Nat) (demoGroup false 2 (BSet.ofList [1, 2, 3])) (fun i : U8 => i == 1 || i == 2) ahead Net.init) 1 2
        (RoundId.new 1) &&
      isOnWire (byzRun (0 : Nat) (demoGroup false 2 (BSet.ofList [1, 2, 3])) (fun i : U8 => i == 1 || i == 2) ahead Net.init) 1 2
        (RoundId.new 2)) = true := by
    decide +kernel
  simp only [Bool.and_eq_true] at h
  obtain ⟨⟨⟨h1, h2⟩, h3⟩, h4⟩ := h
  obtain ⟨s, a, h5, h6⟩ := isIn_ok h1
  obtain ⟨s', a', h7, h8⟩ := isIn_ok h2
  have hw : ∀ {n : Net (demo false 2).wrap} {id : RoundId}, isOnWire n 1 2 id = true →
      ∃ p ∈ n.wire, p.src = (1 : U8) ∧ p.dest = (2 : U8) ∧ p.message.direct.metadata.roundId = id := by
    intro n id h
    simp only [isOnWire, List.any_eq_true, Bool.and_eq_true, beq_iff_eq, decide_eq_true_eq] at h
    obtain ⟨p, hp, ⟨g1, g2⟩, g3⟩ := h
    exact ⟨p, hp, @of_decide_eq_true _ (_) g1, @of_decide_eq_true _ (_) g2, g3⟩
  exact ⟨_, byzRun_reach (sp := toy) (0 : Nat) ahead (fun _ _ => trivial) .init, ⟨s, a, s', a', h5, h7, h8, h6⟩, hw h3, hw h4⟩

/-- A way to see that messages of a party are expected in all rounds: an invariant of the round objects. -/
theorem alwaysExpects_of {g : Group P} {i x : sp.Id} {I : P.Rd → Prop}
    (hI : (g.ep i).Starts g.sid (sp.verifyingKey (g.signer i)) I)
    (hstep : ∀ r rng ps as r', I r → P.finalize r rng ps as = .ok (.anotherRound r') → I r')
    (hexp : ∀ r, I r → (P.comm r).expecting.contains x = true)
    (hdef : ∀ r, I r → (P.comm r).participation = .default → (P.comm r).destinations.contains x = true)
    (hrec : ∀ r t, I r → (P.comm r).participation = .receive t → t.contains x = true) : AlwaysExpects g i x := by
  rintro s ⟨rng0, s₀, trail, cached, h0, hv⟩
  have hinv : ∀ a, I (finalizing s a).1 := by
    induction hv with
    | first =>
      intro a
      unfold Session.new at h0
      split at h0
      · simp at h0
      · rename_i r hr
        have := hI _ _ hr
        simpa [finalizing, (newForNextRound_ok h0).round] using this
    | @next trail s s' cached cached' rng rng' l b hv hseq hy hf ih =>
      intro a
      obtain ⟨t, hu, hfin⟩ := finalizeRound_ok hf
      cases hfin with
      | toEcho hi hr hget hns =>
        have := ih b
        simpa [finalizing, hns.round, hr] using this
      | @toNext r _ hi hr hc hns hrid =>
        obtain ⟨ps, as, h1, -, h2⟩ := inRound_finalize_call h0 ⟨cached, rng, l, hv, hseq⟩ hy
        rw [h1] at hr
        simpa [finalizing, hns.round] using hstep _ _ _ _ _ (ih b) hr
  obtain ⟨hp, -, -, -, hm⟩ := new_proper h0
  have hpr := (visits_inv hp hm hv).proper
  have hc : s.comm = s.round.comm := NewSession.comm hpr
  have := hinv s.makeAccum
  cases hr : s.round with
  | main r =>
    rw [hc, hr]
    simp only [finalizing, hr] at this
    exact hexp r this
  | echo e =>
    rw [hc, hr]
    simp only [finalizing, hr] at this
    show e.info.expecting.contains x = true
    rcases (visits_einv hp hm hv hr).info with ⟨t, h1, h2⟩ | ⟨h1, h2⟩
    · rw [h2]
      exact hrec _ t this h1
    · rw [h2]
      exact hdef _ this h1

/-- In the network controlled by the adversary of the example of C56 and C57, both parties expect each other's messages in all
rounds, and no round can be repeated. -/
example : MainIds (demo true 2).wrap ∧ Acyclic (demo true 2).wrap ∧
    AlwaysExpects (demoGroup true 2 (BSet.ofList [1, 2, 3])) (1 : U8) (2 : U8) ∧
    AlwaysExpects (demoGroup true 2 (BSet.ofList [1, 2, 3])) (2 : U8) (1 : U8) := by
  have key : ∀ i x : U8, BMap.contains ((BSet.ofList [1, 2, 3] : BSet U8).erase i) x = true →
      AlwaysExpects (demoGroup true 2 (BSet.ofList [1, 2, 3])) i x := by
    intro i x hx
    refine alwaysExpects_of (I := fun r : DemoSt => r.others = (BSet.ofList [1, 2, 3] : BSet U8).erase i) ?_ ?_ ?_ ?_ ?_
    · intro rng r hr
      cases hr
      rfl
    · intro r rng ps as r' hI hf
      simp only [TypedProto.wrap, demo] at hf
      split at hf
      · cases hf
      · cases hf
        exact hI
    · intro r hI
      show BMap.contains (DemoSt.others r) x = true
      rw [hI]
      exact hx
    · intro r hI _
      show BMap.contains (DemoSt.others r) x = true
      rw [hI]
      exact hx
    · intro r t hI h
      cases h
  exact ⟨demo_mainIds _ _, demo_acyclic _ _, key 1 2 (by decide +kernel), key 2 1 (by decide +kernel)⟩

end Manul
