import Verif.Lemmas.Open
import Verif.Lemmas.OpenRun
import Verif.Lemmas.Cooperative
import Verif.Props.Echo

/-!
# C56, C57: Integrity and agreement over a network controlled by an adversary

`OpenStep` lets an adversary control everything but the parties in `H`: it can lose, duplicate, delay, redirect and mix up
their messages and make up others, as long as it does not forge their signatures.
-/

namespace Manul

variable {sp : SP} {P : Proto sp}

/-! ## C56 -/

/-- C56: whatever a party following the protocol has accepted from another one, the other one has sent in the same round of the
same session. -/
theorem C56_integrity {g : Group P} {H : sp.Id → Prop} {n : Net P} (h : OpenSteps g H Net.init n) {i x : sp.Id} {s : Session P}
    {a : Accum P} (hn : n.node i = some (.running s a)) (hx : H x) {v : Option P.Payload}
    (hv : a.payloads.get? x = some v) :
    ∃ m, SentIn g n.wire x s.transition.id m ∧ s.round.receive x m = .ok v := by
  obtain ⟨V, -, hi⟩ := (OpenInv.init g H).steps h
  have hno := hi.node i s a hn
  obtain ⟨-, -, hsid, -⟩ := hno.session
  obtain ⟨-, rng, s₀, tr, -, -, -, -, hq, -⟩ := hno
  obtain ⟨vm, -, hu, hau, hr, -⟩ := (hq x).present v hv
  rw [hsid] at hau
  exact ⟨vm.dyn, sentIn_of hi hx hu hau, hr⟩

/-- C56: when a round is finalized, possibly after its echo round, the payloads of parties following the protocol are made of
what they have sent in this round. -/
theorem C56_finalizing {g : Group P} {H : sp.Id → Prop} {n : Net P} (h : OpenSteps g H Net.init n) {i x : sp.Id} {s : Session P}
    {a : Accum P} (hn : n.node i = some (.running s a)) (hx : H x) {v : Option P.Payload}
    (hv : (finalizing s a).2.1.get? x = some v) :
    ∃ w m, v = some w ∧ SentIn g n.wire x (P.transition (finalizing s a).1).id m ∧
      P.receive (finalizing s a).1 x m = .ok w := by
  obtain ⟨V, -, hi⟩ := (OpenInv.init g H).steps h
  have hno := hi.node i s a hn
  obtain ⟨-, hpr, hsid, -⟩ := hno.session
  obtain ⟨-, rng, s₀, tr, -, -, -, -, hq, hca, -⟩ := hno
  unfold finalizing at hv ⊢
  cases hround : s.round with
  | main r =>
    simp only [hround] at hv ⊢
    obtain ⟨m, h1, h2⟩ := C56_integrity h hn hx hv
    rw [hround] at h2
    obtain ⟨w, hw, h2⟩ := main_receive h2
    rw [(roundId_main hpr hround).1] at h1
    exact ⟨w, m, hw, h1, h2⟩
  | echo e =>
    simp only [hround] at hv ⊢
    obtain ⟨w, d, b, m, hw, hu, hau, hr, -⟩ := hca e hround x v hv
    rw [hsid] at hau
    exact ⟨w, _, hw, sentIn_of hi hx hu hau, hr⟩

/-- C56: if no round can be repeated, the parts put together belong together, except that the direct message may have been sent
to somebody else. -/
theorem C56_together {g : Group P} {H : sp.Id → Prop} (hmi : MainIds P) (hac : Acyclic P) {n : Net P}
    (h : OpenSteps g H Net.init n) {i x : sp.Id} {s : Session P} {a : Accum P} (hn : n.node i = some (.running s a)) (hx : H x)
    {v : Option P.Payload} (hv : a.payloads.get? x = some v) :
    ∃ m, SentTogether g x s.transition.id m ∧ s.round.receive x m = .ok v := by
  obtain ⟨V, -, hi⟩ := (OpenInv.init g H).steps h
  have hno := hi.node i s a hn
  obtain ⟨-, -, hsid, -⟩ := hno.session
  obtain ⟨-, rng, s₀, tr, -, -, -, -, hq, -⟩ := hno
  obtain ⟨vm, -, hu, hau, hr, -⟩ := (hq x).present v hv
  rw [hsid] at hau
  exact ⟨vm.dyn, sentTogether_of hi hmi hac hx hu hau, hr⟩

/-- C45 (what is left of it): a direct message stored for a party following the protocol was sent by it to somebody in the same
round of the same session.  Missing: that it was sent to the party that has stored it. -/
theorem C45_origin_partial {g : Group P} {H : sp.Id → Prop} {n : Net P} (h : OpenSteps g H Net.init n) {i x : sp.Id}
    {s : Session P} {a : Accum P} (hn : n.node i = some (.running s a)) (hx : H x) {p : SignedPart .direct}
    (hp : a.directs.get? x = some p) :
    ∃ q ∈ n.wire, OwnPacket g x s.transition.id q ∧ q.message.direct.part = p.part := by
  obtain ⟨V, -, hi⟩ := (OpenInv.init g H).steps h
  have hno := hi.node i s a hn
  obtain ⟨-, -, hsid, -⟩ := hno.session
  obtain ⟨-, rng, s₀, tr, -, -, -, -, hq, -⟩ := hno
  cases hv : a.payloads.get? x with
  | none =>
    have := ((hq x).absent hv).2.2
    change a.directs.get? x = none at this
    rw [this] at hp
    simp at hp
  | some v =>
    obtain ⟨vm, -, hu, hau, -, -, -, hst⟩ := (hq x).present v hv
    rw [hsid] at hau
    obtain ⟨qe, -, qn, -, qd, hqd, -, -, ho, hm⟩ := sentIn_of hi hx hu hau
    simp only [DynMsg.mk.injEq] at hm
    have hst' : Loc.storePart none vm.direct = some p := hst.symm.trans hp
    rcases storePart_some hst' with h0 | ⟨rfl, -⟩
    · simp at h0
    · exact ⟨qd, hqd, ho, hm.2.2.symm⟩

/-! ## C57 -/

/-- C57: two parties following the protocol that are in the echo round of the same round, expect each other's echo message and
can finalize, hold the same broadcast of everybody whose broadcast both of them check.  They need not be there at the same time.
-/
theorem C57_agreement (rt : sp.EchoRoundTrip) {g : Group P} {H : sp.Id → Prop} (hmi : MainIds P)
    (hkey : ∀ i, H i → sp.verifyingKey (g.signer i) = i) {n n' : Net P} (h : OpenSteps g H Net.init n)
    (h' : OpenSteps g H n n') {i j : sp.Id} (hij : i ≠ j) {s s' : Session P} {a a' : Accum P} {e e' : EchoRd P}
    (hn : n.node i = some (.running s a)) (hn' : n'.node j = some (.running s' a')) (he : s.round = .echo e)
    (he' : s'.round = .echo e') (hid : s.transition.id = s'.transition.id) (hy : a.canFinalize = .yes)
    (hy' : a'.canFinalize = .yes) (hx : s.comm.expecting.contains j = true) (hx' : s'.comm.expecting.contains i = true)
    (nocoll : NoCollision e e') (k : sp.Id) (hk : e.info.expectedEchos.contains k = true)
    (hk' : e'.info.expectedEchos.contains k = true) : SameBroadcast e e' k := by
  obtain ⟨V, -, hi⟩ := (OpenInv.init g H).steps h
  obtain ⟨V', hVV, hi'⟩ := hi.steps h'
  have hno := hi.node i s a hn
  have hno' := hi'.node j s' a' hn'
  obtain ⟨hsV, hpr, hsid, hme⟩ := hno.session
  obtain ⟨hsV', hpr', hsid', hme'⟩ := hno'.session
  obtain ⟨hH, rng, s₀, tr, hnew, hin, hre, -, hq, -⟩ := hno
  obtain ⟨hH', rng', s₀', tr', hnew', hin', hre', -, hq', -⟩ := hno'
  rw [hkey i hH] at hme
  rw [hkey j hH'] at hme'
  obtain ⟨hp0, -, -, -, hm0⟩ := new_proper hnew
  obtain ⟨hp0', -, -, -, hm0'⟩ := new_proper hnew'
  have acc : ∀ {s₀ s : Session P} {tr a}, InRound s₀ tr s a → a.canFinalize = .yes → ∀ x,
      a.payloads.contains x = s.comm.expecting.contains x := by
    rintro s₀ s tr a ⟨c, r, l, -, hseq⟩ hy x
    exact yes_keys (seqRound_reach hseq) hy x
  refine C17_mutual rt hp0 hm0 hre he hp0' hm0' hre' he' ?_ ?_ nocoll ?_ ?_ ?_ k hk hk'
  · intro m hm
    rw [hme] at hm
    exact hi'.genuine hmi hH (hVV i s hsV) he (hq' i) hsid' hid hm
  · intro m hm
    rw [hme'] at hm
    exact hi'.genuine hmi hH' hsV' he' ((hq j).mono fun _ _ _ hu => hu.mono h'.wire) hsid hid.symm hm
  · rw [hme, acc hin' hy']
    exact hx'
  · rw [hme', acc hin hy]
    exact hx
  · rw [hme, hme']
    exact hij

/-- C57: and the payloads the two have made of messages of a third party were made with the same echo broadcast. -/
theorem C57_payloads (rt : sp.EchoRoundTrip) {g : Group P} {H : sp.Id → Prop} (hmi : MainIds P)
    (hkey : ∀ i, H i → sp.verifyingKey (g.signer i) = i) {n n' : Net P} (h : OpenSteps g H Net.init n)
    (h' : OpenSteps g H n n') {i j : sp.Id} (hij : i ≠ j) {s s' : Session P} {a a' : Accum P} {e e' : EchoRd P}
    (hn : n.node i = some (.running s a)) (hn' : n'.node j = some (.running s' a')) (he : s.round = .echo e)
    (he' : s'.round = .echo e') (hid : s.transition.id = s'.transition.id) (hy : a.canFinalize = .yes)
    (hy' : a'.canFinalize = .yes) (hx : s.comm.expecting.contains j = true) (hx' : s'.comm.expecting.contains i = true)
    (nocoll : NoCollision e e') (k : sp.Id) (hk : e.info.expectedEchos.contains k = true)
    (hk' : e'.info.expectedEchos.contains k = true) (hki : k ≠ i) (hkj : k ≠ j) {v v' : Option P.Payload}
    (hv : e.payloads.get? k = some v) (hv' : e'.payloads.get? k = some v') :
    ∃ p m m' w w', e.echoBroadcasts.get? k = some p ∧ m.echo = p.part ∧ m'.echo = p.part ∧ v = some w ∧ v' = some w' ∧
      P.receive e.main k m = .ok w ∧ P.receive e'.main k m' = .ok w' := by
  obtain ⟨p, p', hp, hp', -, hpart⟩ := C57_agreement rt hmi hkey h h' hij hn hn' he he' hid hy hy' hx hx' nocoll k hk hk'
  obtain ⟨V, -, hi⟩ := (OpenInv.init g H).steps h
  obtain ⟨V', hVV, hi'⟩ := hi.steps h'
  have hno := hi.node i s a hn
  have hno' := hi'.node j s' a' hn'
  obtain ⟨hsV, hpr, hsid, hme⟩ := hno.session
  obtain ⟨hsV', hpr', hsid', hme'⟩ := hno'.session
  obtain ⟨hH, rng, s₀, tr, -, -, -, -, -, hca, -⟩ := hno
  obtain ⟨hH', rng', s₀', tr', -, -, -, -, -, hca', -⟩ := hno'
  rw [hkey i hH] at hme
  rw [hkey j hH'] at hme'
  obtain ⟨w, d, b, m, hw, -, -, hr, hb⟩ := hca e he k v hv
  obtain ⟨w', d', b', m', hw', -, -, hr', hb'⟩ := hca' e' he' k v' hv'
  have h1 := (hb (by rw [hme]; exact hki)).symm.trans hp
  have h2 := (hb' (by rw [hme']; exact hkj)).symm.trans hp'
  rcases storePart_some h1 with h1 | ⟨rfl, -⟩
  · simp at h1
  · rcases storePart_some h2 with h2 | ⟨rfl, -⟩
    · simp at h2
    · exact ⟨p, _, _, w, w', hp, rfl, hpart.symm, hw, hw', hr, hr'⟩

/-- C57: with all-to-all communication, the two hold the same broadcast of everybody. -/
theorem C57_everybody (rt : sp.EchoRoundTrip) {g : Group P} {H : sp.Id → Prop} (hmi : MainIds P)
    (hkey : ∀ i, H i → sp.verifyingKey (g.signer i) = i) {n n' : Net P} (h : OpenSteps g H Net.init n)
    (h' : OpenSteps g H n n') {i j : sp.Id} (hij : i ≠ j) (hi : g.parties.contains i = true) (hj : g.parties.contains j = true)
    {s s' : Session P} {a a' : Accum P} {e e' : EchoRd P}
    (hn : n.node i = some (.running s a)) (hn' : n'.node j = some (.running s' a')) (he : s.round = .echo e)
    (he' : s'.round = .echo e') (hc : P.comm e.main = ⟨g.others i, g.others i, .default⟩)
    (hc' : P.comm e'.main = ⟨g.others j, g.others j, .default⟩) (hid : s.transition.id = s'.transition.id)
    (hy : a.canFinalize = .yes) (hy' : a'.canFinalize = .yes) (nocoll : NoCollision e e') (k : sp.Id)
    (hk : g.parties.contains k = true) : SameBroadcast e e' k := by
  have key : ∀ {n : Net P} {i j : sp.Id} {s : Session P} {a : Accum P} {e : EchoRd P}, OpenSteps g H Net.init n →
      n.node i = some (.running s a) → s.round = .echo e → P.comm e.main = ⟨g.others i, g.others i, .default⟩ →
      j ≠ i → g.parties.contains j = true →
      s.comm.expecting.contains j = true ∧ e.info.expectedEchos.contains k = true := by
    intro n i j s a e h hn he hc hji hj
    obtain ⟨V, -, hi⟩ := (OpenInv.init g H).steps h
    have hno := hi.node i s a hn
    obtain ⟨-, hpr, -, hme⟩ := hno.session
    obtain ⟨hH, rng, s₀, tr, hnew, ⟨c, r, l, hv, -⟩, -⟩ := hno
    obtain ⟨hp0, -, -, -, hm0⟩ := new_proper hnew
    rw [hkey i hH] at hme
    have hcm := hpr.comm
    rcases (visits_einv hp0 hm0 hv he).info with ⟨t, ht, -⟩ | ⟨-, hinfo⟩
    · rw [hc] at ht
      simp at ht
    · rw [hcm, he]
      simp only [SRound.comm, EchoRd.comm]
      rw [hinfo, hc, hme]
      refine ⟨?_, ?_⟩
      · simp [Group.others, hji, hj]
      · by_cases hki : k = i
        · simp [BSet.insert, hki]
        · simp [BSet.insert, Group.others, hki, hk]
  have steps : OpenSteps g H Net.init n' := by
    clear hn' key
    induction h' with
    | refl => exact h
    | step _ hs ih => exact ih.step hs
  obtain ⟨h1, h2⟩ := key h hn he hc hij.symm hj
  obtain ⟨h3, h4⟩ := key steps hn' he' hc' hij hi
  exact C57_agreement rt hmi hkey h h' hij hn hn' he he' hid hy hy' h1 h3 nocoll k h2 h4

/-! ## Examples -/

/-- Parties 1 and 2 follow the protocol.  The adversary gives party 2 what party 1 has sent to party 3 and the other way round,
makes up the messages of party 3, and brings party 1 to the end of the echo round. -/
def openDemoFirst : List (OpenAct toy) :=
  [.start (1 : U8), .start (2 : U8), .forward 1 (2 : U8) (1 : U8), .forward 3 (1 : U8) (2 : U8)] ++
    openDemo 3 1 (RoundId.new 1) (some [5]) (some [3]) (some [7]) ++ openDemo 3 2 (RoundId.new 1) (some [6]) (some [3]) (some [8]) ++
    [.tick (1 : U8), .tick (2 : U8), .forward 7 (1 : U8) (2 : U8)] ++
    openDemo 3 1 ⟨1, [], true⟩ none none (some (demoPack (RoundId.new 1) [(1, [1]), (2, [2])]))

/-- Later party 2 gets to the end of the echo round as well; party 1 has gone on. -/
def openDemoSecond : List (OpenAct toy) :=
  [.tick (1 : U8), .forward 4 (2 : U8) (1 : U8)] ++
    openDemo 3 2 ⟨1, [], true⟩ none none (some (demoPack (RoundId.new 1) [(1, [1]), (2, [2])]))

/-- Whether the parties are in echo rounds they can finalize. -/
def bothReady {P : Proto toy} (n n' : Net P) : Bool :=
  match n.node (1 : U8), n'.node (2 : U8) with
  | some (.running s a), some (.running s' a') =>
    match s.round, s'.round with
    | .echo e, .echo e' =>
      decide (s.transition.id = s'.transition.id) && decide (a.canFinalize = .yes) && decide (a'.canFinalize = .yes) &&
        s.comm.expecting.contains (2 : U8) && s'.comm.expecting.contains (1 : U8) &&
        e.info.expectedEchos.contains (3 : U8) && e'.info.expectedEchos.contains (3 : U8) &&
        (a.payloads.get? (2 : U8)).isSome && (e.payloads.get? (3 : U8)).isSome && (e'.payloads.get? (3 : U8)).isSome
    | _, _ => false
  | _, _ => false

/-- The hypotheses of the theorems above can be met: an execution in which the adversary redirects messages and plays one of the
parties. -/
example : ∃ (n n' : Net (demo true 2).wrap) (s s' : Session (demo true 2).wrap) (a a' : Accum (demo true 2).wrap)
    (e e' : EchoRd (demo true 2).wrap),
    OpenSteps (demoGroup true 2 (BSet.ofList [1, 2, 3])) (fun i : U8 => i ∈ ([1, 2] : List U8)) Net.init n ∧
      OpenSteps (demoGroup true 2 (BSet.ofList [1, 2, 3])) (fun i : U8 => i ∈ ([1, 2] : List U8)) n n' ∧
      n.node (1 : U8) = some (.running s a) ∧ n'.node (2 : U8) = some (.running s' a') ∧ s.round = .echo e ∧ s'.round = .echo e' ∧
      s.transition.id = s'.transition.id ∧ a.canFinalize = .yes ∧ a'.canFinalize = .yes ∧
      s.comm.expecting.contains (2 : U8) = true ∧ s'.comm.expecting.contains (1 : U8) = true ∧ NoCollision e e' ∧
      e.info.expectedEchos.contains (3 : U8) = true ∧ e'.info.expectedEchos.contains (3 : U8) = true ∧
      (a.payloads.get? (2 : U8)).isSome = true ∧ (e.payloads.get? (3 : U8)).isSome = true ∧
      (e'.payloads.get? (3 : U8)).isSome = true := by
  have h : bothReady (openRun (0 : Nat) (demoGroup true 2 (BSet.ofList [1, 2, 3])) ([1, 2] : List U8) openDemoFirst Net.init)
      (openRun (0 : Nat) (demoGroup true 2 (BSet.ofList [1, 2, 3])) ([1, 2] : List U8) openDemoSecond
        (openRun (0 : Nat) (demoGroup true 2 (BSet.ofList [1, 2, 3])) ([1, 2] : List U8) openDemoFirst Net.init)) = true := by
    decide +kernel
  have r1 := openRun_steps (sp := toy) (0 : Nat) (g := demoGroup true 2 (BSet.ofList [1, 2, 3])) (H := ([1, 2] : List U8))
    openDemoFirst (n₀ := Net.init) .refl
  have r2 := openRun_steps (sp := toy) (0 : Nat) (g := demoGroup true 2 (BSet.ofList [1, 2, 3])) (H := ([1, 2] : List U8))
    openDemoSecond
    (n₀ := openRun (0 : Nat) (demoGroup true 2 (BSet.ofList [1, 2, 3])) ([1, 2] : List U8) openDemoFirst Net.init) .refl
  generalize openRun (sp := toy) (0 : Nat) (demoGroup true 2 (BSet.ofList [1, 2, 3])) ([1, 2] : List U8) openDemoFirst Net.init = n
    at h r1 r2
  generalize openRun (sp := toy) (0 : Nat) (demoGroup true 2 (BSet.ofList [1, 2, 3])) ([1, 2] : List U8) openDemoSecond n = n'
    at h r2
  unfold bothReady at h
  split at h
  · rename_i s a s' a' h1 h2
    split at h
    · rename_i e e' h3 h4
      simp only [Bool.and_eq_true, decide_eq_true_eq] at h
      obtain ⟨⟨⟨⟨⟨⟨⟨⟨⟨k1, k2⟩, k3⟩, k4⟩, k5⟩, k6⟩, k7⟩, k8⟩, k9⟩, k10⟩ := h
      exact ⟨n, n', s, s', a, a', e, e', r1, r2, h1, h2, h3, h4, k1, k2, k3, k4, k5,
        fun k p p' _ _ hc => toy_hashInjective _ _ hc, k6, k7, k8, k9, k10⟩
    · exact (Bool.false_ne_true h).elim
  · exact (Bool.false_ne_true h).elim

end Manul
