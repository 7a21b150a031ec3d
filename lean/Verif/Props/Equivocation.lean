import Verif.Lemmas.Equivocation
import Verif.Lemmas.OpenRun
import Verif.Lemmas.Cooperative
import Verif.Lemmas.TypedEvidence
import Verif.Props.EvidenceSound
import Verif.Props.Crash

/-!
# C72: Those who send different broadcasts to different parties are found out

As in `Verif.Props.Open`, an adversary controls everything but the parties in `H`.
-/

namespace Manul

variable {sp : SP} {P : Proto sp}

/-- C72: whatever an adversary makes of the parts a party following the protocol has signed for its echo round: another party
following the protocol accepts it, and then both hold the same broadcasts, or it shows that somebody who does not follow the
protocol has signed two broadcasts, or the two do not expect broadcasts of the same parties. -/
theorem C72_verdict (rt : sp.EchoRoundTrip) (mt : sp.MetaTotal) (hstrict : EchoStrict P) (hmi : MainIds P) (hac : Acyclic P)
    {g : Group P} {H : sp.Id → Prop} (hkey : ∀ i, H i → sp.verifyingKey (g.signer i) = i) {n : Net P}
    (h : OpenSteps g H Net.init n) {i j : sp.Id} (hj : H j) {s : Session P} {a : Accum P} {e : EchoRd P}
    (hn : n.node i = some (.running s a)) (he : s.round = .echo e) {d : SignedPart .direct} {b : SignedPart .echo}
    {m : SignedPart .normal} (hu : Unforged H g.sid n.wire d b m) (ha : Authentic j g.sid s.transition.id d b m) :
    ∃ s' e', VisitedBy g j s' ∧ s'.round = .echo e' ∧ s'.transition.id = s.transition.id ∧
      EchoVerdict H g.sid (P.transition e.main).id e e' j (s.round.receive j ⟨b.part, m.part, d.part⟩) := by
  obtain ⟨V, -, hi⟩ := (OpenInv.init g H).steps h
  have hno := hi.node i s a hn
  obtain ⟨s', hs', e', he', hid, hv⟩ := hi.verdict rt mt hstrict hmi hac hkey hno.1 hj hno.session.1 he hu ha
  obtain ⟨rng, s₀, tr, c, hnew, hvis, -⟩ := hi.visit hs'
  exact ⟨s', e', ⟨rng, s₀, tr, c, hnew, hvis⟩, he', hid, hv⟩

/-- C72: evidence of two broadcasts convinces everybody. -/
theorem C72_convinces {k : sp.Id} {sid : Bytes} {rid : RoundId} {ev : Evidence sp} (h : TwoBroadcasts k sid rid ev)
    (shared : P.Shared) : ev.guilty = k ∧ ev.verify P shared = .ok () := by
  obtain ⟨w, w', rfl, ⟨h1, h2⟩, ⟨h3, h4⟩, h5⟩ := h
  refine ⟨rfl, (C26_mismatched_iff k k w _ shared).2 ⟨h2, toSignedHash_signed h4, ?_, h5⟩⟩
  rw [h1, ← h3]
  rfl

theorem EchoVerdict.unique {H : sp.Id → Prop} {sid : Bytes} {rid : RoundId} {e e' : EchoRd P} {j : sp.Id}
    {t : Transcript sp} {s : Session P} {vm : VerifiedMessage sp} {ev : Evidence sp}
    (h : EchoVerdict H sid rid e e' j (s.process vm).result) (hr : Recorded t (s.process vm) ev) :
    ∃ k, ¬ H k ∧ TwoBroadcasts k sid rid ev := by
  generalize hres : (s.process vm).result = r at h
  cases hr with
  | direct h1 => rw [hres] at h1; subst h1; cases h
  | echoBroadcast h1 => rw [hres] at h1; subst h1; cases h
  | normal h1 => rw [hres] at h1; subst h1; cases h
  | protocol h1 _ => rw [hres] at h1; subst h1; cases h
  | echo h1 =>
    rw [hres] at h1
    subst h1
    cases h with
    | caught h1 h2 h3 h4 h5 h6 h7 => exact ⟨_, h1, _, _, rfl, h5, h6, h7⟩

theorem OpenInv.blame {g : Group P} {H : sp.Id → Prop} {V : sp.Id → List (Session P)} {n : Net P} (h : OpenInv g H V n)
    (rt : sp.EchoRoundTrip) (mt : sp.MetaTotal) (hstrict : EchoStrict P) (hmi : MainIds P) (hac : Acyclic P)
    (hkey : ∀ i, H i → sp.verifyingKey (g.signer i) = i) {i x : sp.Id} (hi : H i) (hx : H x)
    {ev : Evidence sp} (hr : RecordedIn (Unforged H g.sid n.wire) (V i) x ev) :
    (∃ k rid, ¬ H k ∧ TwoBroadcasts k g.sid rid ev) ∨ Refused g i x := by
  obtain ⟨s, hs, vm, hvm, hu, hau, hrec⟩ := hr
  obtain ⟨rng, s₀, tr, c, hnew, hv, -⟩ := h.visit hs
  obtain ⟨hp0, hsid0, -, -, hm0⟩ := new_proper hnew
  have hsid : s.sessionId = g.sid := (visits_inv hp0 hm0 hv).sessionId.trans hsid0
  rw [hsid] at hau
  have hres : (s.process vm).result = s.round.receive x vm.dyn := by
    rw [← hvm]
    rfl
  cases hround : s.round with
  | echo e =>
    obtain ⟨s', -, e', -, -, hver⟩ := h.verdict rt mt hstrict hmi hac hkey hi hx hs hround hu hau
    rw [show (⟨vm.echo.part, vm.normal.part, vm.direct.part⟩ : DynMsg) = vm.dyn from rfl, ← hres] at hver
    obtain ⟨k, h1, h2⟩ := hver.unique hrec
    exact .inl ⟨k, _, h1, h2⟩
  | main r =>
    refine .inr ⟨s, r, vm.dyn, ?_⟩
    have hst := sentTogether_of h hmi hac hx hu hau
    have : ∃ err, P.receive r x vm.dyn = .error err := by
      cases hrc : P.receive r x vm.dyn with
      | error err => exact ⟨err, rfl⟩
      | ok v =>
        have hok : (s.process vm).result = .ok (some v) := by
          rw [hres, hround]
          simp [SRound.receive, hrc]
        cases hrec with
        | direct h1 => rw [hok] at h1; simp at h1
        | echoBroadcast h1 => rw [hok] at h1; simp at h1
        | normal h1 => rw [hok] at h1; simp at h1
        | protocol h1 _ => rw [hok] at h1; simp at h1
        | echo h1 => rw [hok] at h1; simp at h1
    obtain ⟨err, herr⟩ := this
    exact ⟨err, ⟨rng, s₀, tr, c, hnew, hv⟩, hround, hst, herr⟩

/-- C72: evidence a party following the protocol has recorded under the name of another one in an echo round accuses somebody
who does not follow the protocol, and shows two broadcasts. -/
theorem C72_recorded (rt : sp.EchoRoundTrip) (mt : sp.MetaTotal) (hstrict : EchoStrict P) (hmi : MainIds P) (hac : Acyclic P)
    {g : Group P} {H : sp.Id → Prop} (hkey : ∀ i, H i → sp.verifyingKey (g.signer i) = i) {n : Net P}
    (h : OpenSteps g H Net.init n) {i x : sp.Id} (hx : H x) {s : Session P} {a : Accum P} {e : EchoRd P}
    (hn : n.node i = some (.running s a)) (he : s.round = .echo e) {ev : Evidence sp} (hev : a.provable.get? x = some ev) :
    ∃ k, ¬ H k ∧ TwoBroadcasts k g.sid (P.transition e.main).id ev := by
  obtain ⟨V, -, hi⟩ := (OpenInv.init g H).steps h
  have hno := hi.node i s a hn
  obtain ⟨hsV, -, hsid, -⟩ := hno.session
  obtain ⟨hH, rng, s₀, tr, -, -, -, -, hq, -, -⟩ := hno
  obtain ⟨vm, hvm, hu, hau, hrec⟩ := (hq x).proved ev hev
  rw [hsid] at hau
  obtain ⟨s', -, e', -, -, hver⟩ := hi.verdict rt mt hstrict hmi hac hkey hH hx hsV he hu hau
  have hres : (s.process vm).result = s.round.receive x vm.dyn := by
    rw [← hvm]
    rfl
  rw [show (⟨vm.echo.part, vm.normal.part, vm.direct.part⟩ : DynMsg) = vm.dyn from rfl, ← hres] at hver
  exact hver.unique hrec

/-- C72: evidence filed under the name of a party following the protocol in the report of another one shows that somebody else,
who does not follow the protocol, has signed two broadcasts, unless it was recorded as a message was refused that this party
has sent in a round that is not an echo round. -/
theorem C72_report (rt : sp.EchoRoundTrip) (mt : sp.MetaTotal) (hstrict : EchoStrict P) (hmi : MainIds P) (hac : Acyclic P)
    {g : Group P} {H : sp.Id → Prop} (hkey : ∀ i, H i → sp.verifyingKey (g.signer i) = i) {n : Net P}
    (h : OpenSteps g H Net.init n) {i x : sp.Id} (hi : H i) (hx : H x) {rep : Report P}
    (hn : n.node i = some (.done (.ok rep))) {ev : Evidence sp} (hev : rep.provable.get? x = some ev) :
    (∃ k rid, ¬ H k ∧ TwoBroadcasts k g.sid rid ev) ∨ Refused g i x := by
  obtain ⟨V, -, hinv⟩ := (OpenInv.init g H).steps h
  exact hinv.blame rt mt hstrict hmi hac hkey hi hx (hinv.report i rep hn x ev hev)

/-- C72: so if messages of parties following the protocol are not refused, the evidence in a report never accuses one of them
on the word of another one, and convinces everybody. -/
theorem C72_no_blame (rt : sp.EchoRoundTrip) (mt : sp.MetaTotal) (hstrict : EchoStrict P) (hmi : MainIds P) (hac : Acyclic P)
    {g : Group P} {H : sp.Id → Prop} (hkey : ∀ i, H i → sp.verifyingKey (g.signer i) = i) {n : Net P}
    (h : OpenSteps g H Net.init n) {i x : sp.Id} (hi : H i) (hx : H x) (hacc : ¬ Refused g i x) {rep : Report P}
    (hn : n.node i = some (.done (.ok rep))) {ev : Evidence sp} (hev : rep.provable.get? x = some ev) (shared : P.Shared) :
    ¬ H ev.guilty ∧ ev.verify P shared = .ok () := by
  rcases C72_report rt mt hstrict hmi hac hkey h hi hx hn hev with ⟨k, rid, h1, h2⟩ | h1
  · obtain ⟨h3, h4⟩ := C72_convinces h2 shared
    rw [h3]
    exact ⟨h1, h4⟩
  · exact absurd h1 hacc

theorem OpenSteps.trans {g : Group P} {H : sp.Id → Prop} {n n' n'' : Net P} (h : OpenSteps g H n n')
    (h' : OpenSteps g H n' n'') : OpenSteps g H n n'' := by
  induction h' with
  | refl => exact h
  | step _ hs ih => exact ih.step hs

/-- C72: if the echo rounds of two parties following the protocol hold different broadcasts of `k`, neither accepts the echo
message of the other one; they need not be there at the same time. -/
theorem C72_not_accepted (rt : sp.EchoRoundTrip) (mt : sp.MetaTotal) (hstrict : EchoStrict P) (hmi : MainIds P) (hac : Acyclic P)
    {g : Group P} {H : sp.Id → Prop} (hkey : ∀ i, H i → sp.verifyingKey (g.signer i) = i) {n n' : Net P}
    (h : OpenSteps g H Net.init n) (h' : OpenSteps g H Net.init n') (hor : OpenSteps g H n n' ∨ OpenSteps g H n' n)
    {i j : sp.Id} {s s' : Session P} {a a' : Accum P} {e e' : EchoRd P}
    (hn : n.node i = some (.running s a)) (hn' : n'.node j = some (.running s' a')) (he : s.round = .echo e)
    (he' : s'.round = .echo e') (hid : s.transition.id = s'.transition.id) (nocoll : NoCollision e' e) {k : sp.Id} (hkj : k ≠ j)
    (hk : e.info.expectedEchos.contains k = true) (hdiff : ¬ SameBroadcast e' e k) :
    a.payloads.contains j = false ∧ (s.comm.expecting.contains j = true → a.canFinalize ≠ .yes) := by
  have key : a.payloads.contains j = false := by
    cases hc : a.payloads.contains j with
    | false => rfl
    | true =>
      obtain ⟨v, hv⟩ := BMap.contains_iff.1 hc
      obtain ⟨N, hN, V, W, hVW, hinv, hs, hs', hq⟩ : ∃ N, OpenSteps g H Net.init N ∧ ∃ (V W : sp.Id → List (Session P)),
          (∀ j, ∀ s ∈ W j, s ∈ V j) ∧ OpenInv g H V N ∧ s ∈ V i ∧ s' ∈ V j ∧
          (∀ x, QInv (Unforged H g.sid N.wire) s x (a.loc x)) := by
        rcases hor with hor | hor
        · obtain ⟨V, -, hi⟩ := (OpenInv.init g H).steps h
          obtain ⟨V', hVV, hi'⟩ := hi.steps hor
          have hno := hi.node i s a hn
          refine ⟨n', h', V', V, hVV, hi', hVV i s hno.session.1, (hi'.node j s' a' hn').session.1, ?_⟩
          obtain ⟨hH, rng, s₀, tr, -, -, -, -, hq, -, -⟩ := hno
          exact fun x => (hq x).mono fun _ _ _ h => h.mono hor.wire
        · obtain ⟨V, -, hi⟩ := (OpenInv.init g H).steps h'
          obtain ⟨V', hVV, hi'⟩ := hi.steps hor
          have hno := hi'.node i s a hn
          refine ⟨n, h, V', V, hVV, hi', hno.session.1, hVV j s' (hi.node j s' a' hn').session.1, ?_⟩
          obtain ⟨hH, rng, s₀, tr, -, -, -, -, hq, -, -⟩ := hno
          exact hq
      obtain ⟨V1, -, hi1⟩ := (OpenInv.init g H).steps h
      obtain ⟨V2, -, hi2⟩ := (OpenInv.init g H).steps h'
      have hno := hi1.node i s a hn
      have hsid := hno.session.2.2.1
      obtain ⟨vm, hvm, hu, hau, hrc, -⟩ := (hq j).present v hv
      rw [hsid] at hau
      obtain ⟨s1, hs1, e1, he1, hid1, hver⟩ :=
        hinv.verdict rt mt hstrict hmi hac hkey hno.1 (hi2.node j s' a' hn').1 hs he hu hau
      have := hinv.unique hmi hac s1 hs1 s' hs' (hid1.trans hid)
      subst this
      rw [he1] at he'
      simp only [SRound.echo.injEq] at he'
      subst he'
      rw [show (⟨vm.echo.part, vm.normal.part, vm.direct.part⟩ : DynMsg) = vm.dyn from rfl, hrc] at hver
      generalize hr : (Except.ok v : Except (RecvErr sp) (Option P.Payload)) = r at hver
      cases hver with
      | agree hag => exact absurd (hag nocoll k hk hkj) hdiff
      | caught _ _ _ _ _ _ _ => simp at hr
      | missing _ _ _ => simp at hr
      | extra _ _ _ => simp at hr
  refine ⟨key, ?_⟩
  intro hexp hy
  obtain ⟨V, -, hi⟩ := (OpenInv.init g H).steps h
  obtain ⟨-, rng, s₀, tr, -, ⟨c, r, l, -, hseq⟩, -⟩ := hi.node i s a hn
  rw [yes_keys (seqRound_reach hseq) hy j, hexp] at key
  simp at key

/-- A message that is refused with evidence. -/
theorem deliver_proves (mt : sp.MetaTotal) {s : Session P} (wf : EchoWellFormed s) {a : Accum P} {x : sp.Id} {m : Message sp}
    {err : EchoErr sp} (hau : Authentic x s.sessionId s.transition.id m.direct m.echo m.normal)
    (hne : ¬ HasError s a x) (hpr : a.processing.contains x = false) (hpay : a.payloads.contains x = false)
    (hns : a.notSent.contains x = true) (hr : s.round.receive x (verifiedOf x m).dyn = .error (.echo err)) :
    ∃ a', deliver s a x m = .ok a' ∧ a'.provable.get? x = some (Evidence.newEchoRoundError x m.normal err) := by
  have hmeta : m.direct.metadata = ⟨s.sessionId, s.transition.id⟩ := hau.1.1
  have hrow : Row s a x m .process :=
    .process ⟨hne, authentic_coherent hau, by rw [hmeta], by rw [hmeta]⟩ hpr hau
  have hprov : a.provable.contains x = false := by
    cases hc : a.provable.contains x with
    | false => rfl
    | true => exact absurd (.inr (.inr (.inl (BMap.contains_iff.1 hc)))) hne
  unfold deliver
  rw [C02_decision_table mt s wf a x m _ hrow]
  simp only [Verdict.effect, PreOutcome.ok?, applyVerified, Session.addProcessed, Session.process, Accum.addProcessed]
  have e1 : (verifiedOf x m).sender = x := rfl
  simp only [e1, hpay, hns, hr, Accum.registerProvable, hprov]
  simp [verifiedOf]

/-- C72: if the echo rounds of two parties following the protocol hold different broadcasts of `k`, and both expect broadcasts of
the same parties, the echo message of one makes the other record that somebody who does not follow the protocol has signed two
broadcasts. -/
theorem C72_caught (rt : sp.EchoRoundTrip) (mt : sp.MetaTotal) (hstrict : EchoStrict P) (hmi : MainIds P) (hac : Acyclic P)
    {g : Group P} {H : sp.Id → Prop} (hkey : ∀ i, H i → sp.verifyingKey (g.signer i) = i) {n n' : Net P}
    (h' : OpenSteps g H Net.init n') (h : OpenSteps g H n' n) {i j : sp.Id} {s s' : Session P} {a a' : Accum P}
    {e e' : EchoRd P} (hn' : n'.node j = some (.running s' a')) (hn : n.node i = some (.running s a)) (he : s.round = .echo e)
    (he' : s'.round = .echo e') (hid : s.transition.id = s'.transition.id) (nocoll : NoCollision e' e)
    (hgraph : ∀ k, k ≠ j → e.info.expectedEchos.contains k = e'.info.expectedEchos.contains k) {k : sp.Id} (hkj : k ≠ j)
    (hk : e.info.expectedEchos.contains k = true) (hdiff : ¬ SameBroadcast e' e k) {m : Message sp}
    (hu : Unforged H g.sid n.wire m.direct m.echo m.normal)
    (ha : Authentic j g.sid s.transition.id m.direct m.echo m.normal)
    (hwait : ¬ HasError s a j ∧ a.processing.contains j = false ∧ a.payloads.contains j = false ∧ a.notSent.contains j = true) :
    ∃ b ev k', deliver s a j m = .ok b ∧ b.provable.get? j = some ev ∧ ¬ H k' ∧
      TwoBroadcasts k' g.sid (P.transition e.main).id ev := by
  obtain ⟨V, -, hi⟩ := (OpenInv.init g H).steps h'
  obtain ⟨V', hVV, hi'⟩ := hi.steps h
  have hno := hi'.node i s a hn
  obtain ⟨hsV, hpr, hsid, -⟩ := hno.session
  have hs' := hVV j s' (hi.node j s' a' hn').session.1
  obtain ⟨s1, hs1, e1, he1, hid1, hver⟩ :=
    hi'.verdict rt mt hstrict hmi hac hkey hno.1 (hi.node j s' a' hn').1 hsV he hu ha
  have := hi'.unique hmi hac s1 hs1 s' hs' (hid1.trans hid)
  subst this
  rw [he1] at he'
  simp only [SRound.echo.injEq] at he'
  subst he'
  generalize hr : s.round.receive j ⟨m.echo.part, m.normal.part, m.direct.part⟩ = r at hver
  cases hver with
  | agree hag => exact absurd (hag nocoll k hk hkj) hdiff
  | missing h1 h2 h3 =>
    rw [hgraph _ h1, h3] at h2
    simp at h2
  | extra h1 h2 h3 =>
    rw [hgraph _ h1, h3] at h2
    simp at h2
  | @caught k' w w' h1 h2 h3 h4 h5 h6 h7 =>
    obtain ⟨b, hb, hp⟩ := deliver_proves mt (proper_wellFormed hmi hpr) (by rw [hsid]; exact ha) hwait.1 hwait.2.1 hwait.2.2.1
      hwait.2.2.2 hr
    exact ⟨b, _, k', hb, hp, h1, w, w', rfl, h5, h6, h7⟩

/-! ## What is recorded stays -/

/-- The evidence is filed under `x`. -/
def Filed (x : sp.Id) (ev : Evidence sp) : RunState P → Prop
  | .running s a => a.provable.get? x = some ev ∨ s.transcript.provable.get? x = some ev
  | .done (.ok rep) => rep.provable.get? x = some ev
  | .done (.error _) => True

theorem Updated.filed {s : Session P} {a : Accum P} {t : Transcript sp}
    (hu : Updated s.transcript s.roundId s.me s.echo a t) {x : sp.Id} {ev : Evidence sp} (h : Filed x ev (.running s a)) :
    t.provable.get? x = some ev := by
  rw [hu.provable x]
  rcases h with h | h
  · rw [h]
    rfl
  · cases ha : a.provable.get? x with
    | none => rw [h]; rfl
    | some ev' =>
      have := hu.newP x (BMap.contains_iff.2 ⟨_, ha⟩)
      rw [BMap.contains_iff.2 ⟨_, h⟩] at this
      simp at this

theorem Filed.deliver {s : Session P} {a a' : Accum P} {y : sp.Id} {m : Message sp} {x : sp.Id} {ev : Evidence sp}
    (h : a.provable.get? x = some ev) (hd : Manul.deliver s a y m = .ok a') : a'.provable.get? x = some ev := by
  rw [deliver_loc] at hd
  cases hl : Loc.deliver s y m (a.loc y) with
  | error e => simp [hl, liftLoc] at hd
  | ok l' =>
    simp only [hl, liftLoc, Except.ok.injEq] at hd
    subst hd
    change ((a.setLoc y l').loc x).provable = some ev
    by_cases hx : x = y
    · subst hx
      rw [Accum.loc_setLoc_same]
      cases deliver_cases hl with
      | ignored _ => exact h
      | refused _ _ => exact h
      | processed _ _ _ _ _ _ hadd =>
        cases hadd with
        | payload _ => exact h
        | provable hn _ =>
          have h' : (a.loc x).provable = some ev := h
          simp only [h'] at hn
          simp at hn
        | unprovable _ => exact h
      | kept _ _ _ _ _ _ _ => exact h
    · rw [Accum.loc_setLoc_other _ hx]
      exact h

theorem Filed.step {st st' : RunState P} {e : Event sp} {out : List (Message sp)} {x : sp.Id} {ev : Evidence sp}
    (h : Filed x ev st) (hs : Manul.step st e = some (st', out)) : Filed x ev st' := by
  cases st with
  | done r => simp [Manul.step] at hs
  | running s a =>
    rcases step_full hs with ⟨rfl, r, rfl⟩ | ⟨rfl, y, m, a', rfl, hd, rfl⟩ | ⟨rng1, rng2, s', cached', hy, hf, he⟩
    · cases r with
      | error _ => trivial
      | ok rep =>
        obtain ⟨t, hu, ht⟩ := step_report hs
        show rep.provable.get? x = some ev
        rw [ht]
        exact hu.filed h
    · rcases h with h | h
      · exact .inl (Filed.deliver h hd)
      · exact .inr h
    · have := (finalized_transcript hf).filed h
      rcases enter_cases he with ⟨e, rfl, -⟩ | ⟨a', rfl, -⟩
      · trivial
      · exact .inr this

/-- C72: evidence a party has recorded is in its report, whatever happens later. -/
theorem C72_kept {g : Group P} {H : sp.Id → Prop} {n n' : Net P} (h : OpenSteps g H n n') {i x : sp.Id} {s : Session P}
    {a : Accum P} (hn : n.node i = some (.running s a)) {ev : Evidence sp} (hev : a.provable.get? x = some ev) {rep : Report P}
    (hn' : n'.node i = some (.done (.ok rep))) : rep.provable.get? x = some ev := by
  have key : ∃ st, n'.node i = some st ∧ Filed x ev st := by
    clear hn'
    induction h with
    | refl => exact ⟨_, hn, .inl hev⟩
    | step _ hs ih =>
      obtain ⟨st, h1, h2⟩ := ih
      cases hs with
      | @start y rng rng' hy hnone =>
        by_cases hyi : i = y
        · subst hyi
          rw [h1] at hnone
          simp at hnone
        · exact ⟨st, by simp only [Net.put, Function.update_of_ne hyi]; exact h1, h2⟩
      | @act y st1 st' e out hnode hun hstep =>
        by_cases hyi : i = y
        · subst hyi
          rw [h1] at hnode
          simp only [Option.some.injEq] at hnode
          subst hnode
          exact ⟨st', by simp [Net.put], h2.step hstep⟩
        · exact ⟨st, by simp only [Net.put, Function.update_of_ne hyi]; exact h1, h2⟩
      | @startFails y s₀ e out rng rng' hy hnone hnew hst hout =>
        by_cases hyi : i = y
        · subst hyi
          rw [h1] at hnone
          simp at hnone
        · exact ⟨st, by simp only [Net.put, Function.update_of_ne hyi]; exact h1, h2⟩
      | @enterFails y s s' a cached' e out rng1 rng2 hnode hy hf hst hout =>
        by_cases hyi : i = y
        · subst hyi
          exact ⟨.done (.error e), by simp [Net.put], trivial⟩
        · exact ⟨st, by simp only [Net.put, Function.update_of_ne hyi]; exact h1, h2⟩
  obtain ⟨st, h1, h2⟩ := key
  rw [hn'] at h1
  simp only [Option.some.injEq] at h1
  subst h1
  exact h2

end Manul

/-! ## Examples -/

namespace Manul

/-- Parties 1 and 2 follow the protocol; party 3 sends them different echo broadcasts. -/
def openTwoFaced : List (OpenAct toy) :=
  [.start (1 : U8), .start (2 : U8), .forward 1 (2 : U8) (1 : U8), .forward 3 (1 : U8) (2 : U8)] ++
    openDemo 3 1 (RoundId.new 1) (some [5]) (some [3]) (some [7]) ++ openDemo 3 2 (RoundId.new 1) (some [6]) (some [4]) (some [8]) ++
    [.tick (1 : U8), .tick (2 : U8)]

/-- A property of the rounds that `finalize` keeps. -/
theorem visits_rd {sp : SP} {P : Proto sp} {I : P.Rd → Prop}
    (hfin : ∀ r rng ps as r', I r → P.finalize r rng ps as = .ok (.anotherRound r') → I r') {s₀ s : Session P}
    {trail : List (Session P × Accum P)} {cached : List (VerifiedMessage sp)} (h : Visits s₀ trail s cached)
    (h0 : ∃ r, s₀.round = .main r ∧ I r) : ∃ r, I r ∧ (s.round = .main r ∨ ∃ e, s.round = .echo e ∧ e.main = r) := by
  have hmain : ∀ (r r' : P.Rd) (rng : sp.Rng) ps as, I r → SRound.finalizeMain r rng ps as = .ok (.anotherRound r') → I r' := by
    intro r r' rng ps as hI hf
    unfold SRound.finalizeMain at hf
    split at hf
    · simp at hf
    · split at hf
      · simp at hf
      · exact hfin _ _ _ _ _ hI hf
  induction h with
  | first => obtain ⟨r, h1, h2⟩ := h0; exact ⟨r, h2, .inl h1⟩
  | @next trail s s' cached cached' rng rng' l a hv hseq hy hf ih =>
    obtain ⟨r, hI, hr⟩ := ih
    obtain ⟨t, -, hfin'⟩ := finalizeRound_ok hf
    cases hfin' with
    | toEcho h1 h2 h3 h4 =>
      rcases hr with hr | ⟨e, hr, -⟩
      · rw [h2] at hr
        cases hr
        exact ⟨_, hI, .inr ⟨_, h4.round, rfl⟩⟩
      · rw [h2] at hr
        cases hr
    | toNext h1 h2 h3 h4 h5 =>
      refine ⟨_, ?_, .inl h4.round⟩
      rcases hr with hr | ⟨e, hr, rfl⟩
      · rw [hr] at h2
        exact hmain _ _ _ _ _ hI h2
      · rw [hr] at h2
        exact hmain _ _ _ _ _ hI h2

theorem erased_small (x d : U8) (h : ((BSet.ofList [1, 2, 3] : BSet U8).erase x).contains d = true) : d ≠ 66 ∧ d ≠ 67 := by
  rw [BMap.contains_erase] at h
  have h3 : (BSet.ofList [1, 2, 3] : BSet U8).contains d = true := by
    simp only [Bool.and_eq_true] at h
    tauto
  constructor <;> (rintro rfl; revert h3; decide)

/-- The messages of the example protocol are not refused. -/
theorem demo_not_refused (last : U8) (i x : U8) : ¬ Refused (demoGroup true last (BSet.ofList [1, 2, 3])) i x := by
  rintro ⟨s, r, m, err, ⟨rng, s₀, tr, c, hnew, hv⟩, hr, ⟨s', ⟨rng', s₀', tr', c', hnew', hv'⟩, hid, he, hn, d, rng1, art, hd, hmd⟩, herr⟩
  obtain ⟨hp0, -, -, -, hm0⟩ := new_proper hnew
  obtain ⟨hp0', -, -, -, hm0'⟩ := new_proper hnew'
  have hp := (visits_inv hp0 hm0 hv).proper
  have hp' := (visits_inv hp0' hm0' hv').proper
  have hne : s'.roundId.isEcho = false := by
    have h1 : s.roundId = ((demo true last).wrap.transition r).id := by
      have := hp.transition
      rw [hr] at this
      simp only [SRound.transition, Except.ok.injEq] at this
      unfold Session.roundId
      rw [this]
    unfold Session.roundId at h1 ⊢
    rw [hid, h1]
    exact demo_mainIds true last r
  obtain ⟨r', hr', -⟩ := main_of_id (demo_mainIds true last) hp' hne
  obtain ⟨q, ⟨hme, hoth⟩, hq⟩ := visits_rd (P := (demo true last).wrap)
    (I := fun q : DemoSt => q.me = x ∧ q.others = (BSet.ofList [1, 2, 3]).erase x)
    (by
      intro r rng ps as r' hI hf
      simp only [TypedProto.wrap, demo] at hf
      split at hf
      · simp at hf
      · cases hf
        exact hI) hv'
    (by
      unfold Session.new at hnew'
      simp only [demoGroup, demoEntry] at hnew'
      have := newForNextRound_ok hnew'
      exact ⟨_, this.round, rfl, rfl⟩)
  have hqr : q = r' := by
    rcases hq with hq | ⟨e, hq, -⟩
    · rw [hr'] at hq
      cases hq
      rfl
    · rw [hr'] at hq
      cases hq
  subst hqr
  have hcomm : s'.comm.destinations = (BSet.ofList [1, 2, 3]).erase x := by
    rw [hp'.comm, hr', ← hoth]
    rfl
  have hd' := hd
  rw [hcomm] at hd'
  obtain ⟨h66, h67⟩ := erased_small x d hd'
  have hnonempty : s'.comm.destinations.isEmpty = false := BMap.isEmpty_eq_false.2 ⟨d, hd⟩
  obtain ⟨rng2, hE⟩ := hp'.echoPart
  obtain ⟨rng3, hN⟩ := hp'.normalPart
  rw [hnonempty, hr'] at hE hN
  rw [hr'] at hmd
  have hE2 : (Except.ok (⟨some [q.me]⟩ : Part .echo) : Except LErr _) = .ok s'.echo.part := hE
  have hN2 : (Except.ok (⟨some [q.n]⟩ : Part .normal) : Except LErr _) = .ok s'.normal.part := hN
  have hD2 : (Except.ok ((⟨some [d]⟩ : Part .direct), some ()) : Except LErr _) = .ok (m.direct, art) := hmd
  simp only [Except.ok.injEq] at hE2 hN2 hD2
  have hD3 : (⟨some [d]⟩ : Part .direct) = m.direct := congrArg Prod.fst hD2
  obtain ⟨v, hv⟩ := demo_receives true last r x d q.n ⟨some [x]⟩ h66 h67 rfl
  rw [show m = ⟨⟨some [x]⟩, ⟨some [q.n]⟩, ⟨some [d]⟩⟩ by
    cases m
    simp only at he hn hD3
    rw [he, hn, ← hE2, ← hN2, ← hD3, hme]] at herr
  rw [hv] at herr
  cases herr

/-- Whether the part is authentic. -/
def partAuthentic {k : PartKind} (x : U8) (sid : Bytes) (rid : RoundId) (p : SignedPart k) : Bool :=
  decide (p.metadata = ⟨sid, rid⟩) && match p.verify toy x with | .ok _ => true | .error _ => false

theorem partAuthentic_spec {k : PartKind} {x : U8} {sid : Bytes} {rid : RoundId} {p : SignedPart k}
    (h : partAuthentic x sid rid p = true) : AuthenticPart (sp := toy) x sid rid p := by
  unfold partAuthentic at h
  simp only [Bool.and_eq_true, decide_eq_true_eq] at h
  obtain ⟨h1, h2⟩ := h
  refine ⟨h1, ?_⟩
  cases hv : p.verify toy x with
  | ok u => exact (verifySigned_ok (u := u)).1 hv
  | error e => rw [hv] at h2; cases h2

theorem erase_contains {K : Type} [LinearOrder K] {a b : BSet K} {j : K} (h : a.erase j = b.erase j) {k : K} (hk : k ≠ j) :
    a.contains k = b.contains k := by
  have h1 := BMap.contains_erase a j k
  have h2 := BMap.contains_erase b j k
  rw [h, h2] at h1
  simpa [hk] using h1.symm

/-- Whether the parties 1 and 2 are in the same echo round, hold different broadcasts of party 3, and party 1 is waiting for the
message `m` of party 2. -/
def differing {P : Proto toy} (n : Net P) (m : Message toy) : Bool :=
  match n.node (1 : U8), n.node (2 : U8) with
  | some (.running s a), some (.running s' _) =>
    match s.round, s'.round with
    | .echo e, .echo e' =>
      decide (s.transition.id = s'.transition.id) &&
        decide (e.info.expectedEchos.erase (2 : U8) = e'.info.expectedEchos.erase (2 : U8)) &&
        e.info.expectedEchos.contains (3 : U8) &&
        decide ((e.echoBroadcasts.get? (3 : U8)).map (fun p => p.part) ≠ (e'.echoBroadcasts.get? (3 : U8)).map (fun p => p.part)) &&
        !s.transcript.provable.contains (2 : U8) && !s.transcript.unprovable.contains (2 : U8) &&
        !a.provable.contains (2 : U8) && !a.unprovable.contains (2 : U8) && !a.processing.contains (2 : U8) &&
        !a.payloads.contains (2 : U8) && a.notSent.contains (2 : U8) && s.comm.expecting.contains (2 : U8) &&
        partAuthentic 2 [9] s.transition.id m.direct && partAuthentic 2 [9] s.transition.id m.echo &&
        partAuthentic 2 [9] s.transition.id m.normal && unforged ([1, 2] : List U8) [9] n.wire m
    | _, _ => false
  | _, _ => false

/-- The hypotheses of `C72_verdict`, `C72_not_accepted` and `C72_caught` can be met. -/
example : ∃ (n : Net (demo true 2).wrap) (s s' : Session (demo true 2).wrap) (a a' : Accum (demo true 2).wrap)
    (e e' : EchoRd (demo true 2).wrap) (m : Message toy),
    OpenSteps (demoGroup true 2 (BSet.ofList [1, 2, 3])) (fun i : U8 => i ∈ ([1, 2] : List U8)) Net.init n ∧
      n.node (1 : U8) = some (.running s a) ∧ n.node (2 : U8) = some (.running s' a') ∧ s.round = .echo e ∧ s'.round = .echo e' ∧
      s.transition.id = s'.transition.id ∧ NoCollision e' e ∧
      (∀ k : U8, k ≠ 2 → e.info.expectedEchos.contains k = e'.info.expectedEchos.contains k) ∧
      e.info.expectedEchos.contains (3 : U8) = true ∧ ¬ SameBroadcast e' e (3 : U8) ∧ s.comm.expecting.contains (2 : U8) = true ∧
      Unforged (fun i : U8 => i ∈ ([1, 2] : List U8)) [9] n.wire m.direct m.echo m.normal ∧
      Authentic (sp := toy) (2 : U8) [9] s.transition.id m.direct m.echo m.normal ∧ ¬ HasError s a (2 : U8) ∧
      a.processing.contains (2 : U8) = false ∧ a.payloads.contains (2 : U8) = false ∧ a.notSent.contains (2 : U8) = true := by
  have h : ∃ q, (openRun (0 : Nat) (demoGroup true 2 (BSet.ofList [1, 2, 3])) ([1, 2] : List U8) openTwoFaced Net.init).wire[6]? =
      some q ∧ differing (openRun (0 : Nat) (demoGroup true 2 (BSet.ofList [1, 2, 3])) ([1, 2] : List U8) openTwoFaced Net.init)
        q.message = true := by
    have : (match (openRun (0 : Nat) (demoGroup true 2 (BSet.ofList [1, 2, 3])) ([1, 2] : List U8) openTwoFaced Net.init).wire[6]? with
        | some q => differing (openRun (0 : Nat) (demoGroup true 2 (BSet.ofList [1, 2, 3])) ([1, 2] : List U8) openTwoFaced Net.init)
          q.message
        | none => false) = true := by decide +kernel
    split at this
    · rename_i q hq
      exact ⟨q, hq, this⟩
    · cases this
  have r1 := openRun_steps (sp := toy) (0 : Nat) (g := demoGroup true 2 (BSet.ofList [1, 2, 3])) (H := ([1, 2] : List U8))
    openTwoFaced (n₀ := Net.init) .refl
  generalize openRun (sp := toy) (0 : Nat) (demoGroup true 2 (BSet.ofList [1, 2, 3])) ([1, 2] : List U8) openTwoFaced Net.init = n
    at h r1
  obtain ⟨q, -, h⟩ := h
  unfold differing at h
  split at h
  · rename_i s a s' a' h1 h2
    split at h
    · rename_i e e' h3 h4
      simp only [Bool.and_eq_true, decide_eq_true_eq, Bool.not_eq_true', ne_eq] at h
      obtain ⟨⟨⟨⟨⟨⟨⟨⟨⟨⟨⟨⟨⟨⟨⟨k1, k2⟩, k3⟩, k4⟩, k5⟩, k6⟩, k7⟩, k8⟩, k9⟩, k10⟩, k11⟩, k12⟩, k13⟩, k14⟩, k15⟩, k16⟩ := h
      refine ⟨n, s, s', a, a', e, e', q.message, r1, h1, h2, h3, h4, k1, fun k p p' _ _ hc => toy_hashInjective _ _ hc,
        fun k hk => erase_contains k2 hk, k3, ?_, k12, unforged_spec k16,
        ⟨partAuthentic_spec k13, partAuthentic_spec k14, partAuthentic_spec k15⟩, ?_, k9, k10, k11⟩
      · rintro ⟨p, p', h5, h6, -, h7⟩
        refine k4 ?_
        rw [h5, h6]
        exact congrArg some h7.symm
      · rintro (⟨x, hx⟩ | ⟨x, hx⟩ | ⟨x, hx⟩ | ⟨x, hx⟩)
        · rw [BMap.contains_iff.2 ⟨x, hx⟩] at k5; cases k5
        · rw [BMap.contains_iff.2 ⟨x, hx⟩] at k6; cases k6
        · rw [BMap.contains_iff.2 ⟨x, hx⟩] at k7; cases k7
        · rw [BMap.contains_iff.2 ⟨x, hx⟩] at k8; cases k8
    · exact (Bool.false_ne_true h).elim
  · exact (Bool.false_ne_true h).elim

/-- Party 1 is given the message of party 2. -/
def openCaught : List (OpenAct toy) := [.forward 6 (1 : U8) (2 : U8)]

/-- Party 3 sends its message for the echo round to party 1, which gives up. -/
def openGivesUp : List (OpenAct toy) :=
  openDemo 3 1 ⟨1, [], true⟩ none none (some (demoPack (RoundId.new 1) [(1, [1]), (2, [2])])) ++ [.tick (1 : U8)]

/-- Whether party 1 is in an echo round and has evidence filed under the name of party 2, and has it in its report later. -/
def caughtThen {P : Proto toy} (n n' : Net P) : Bool :=
  match n.node (1 : U8), n'.node (1 : U8) with
  | some (.running s a), some (.done (.ok rep)) =>
    (match s.round with | .echo _ => true | .main _ => false) && a.provable.contains (2 : U8) && rep.provable.contains (2 : U8)
  | _, _ => false

/-- The hypotheses of `C72_recorded`, `C72_kept`, `C72_report` and `C72_no_blame` can be met. -/
example : ∃ (n n' : Net (demo true 2).wrap) (s : Session (demo true 2).wrap) (a : Accum (demo true 2).wrap)
    (e : EchoRd (demo true 2).wrap) (ev ev' : Evidence toy) (rep : Report (demo true 2).wrap),
    OpenSteps (demoGroup true 2 (BSet.ofList [1, 2, 3])) (fun i : U8 => i ∈ ([1, 2] : List U8)) Net.init n ∧
      OpenSteps (demoGroup true 2 (BSet.ofList [1, 2, 3])) (fun i : U8 => i ∈ ([1, 2] : List U8)) n n' ∧
      n.node (1 : U8) = some (.running s a) ∧ s.round = .echo e ∧ a.provable.get? (2 : U8) = some ev ∧
      n'.node (1 : U8) = some (.done (.ok rep)) ∧ rep.provable.get? (2 : U8) = some ev' ∧
      ¬ Refused (demoGroup true 2 (BSet.ofList [1, 2, 3])) (1 : U8) (2 : U8) := by
  have h : caughtThen (openRun (0 : Nat) (demoGroup true 2 (BSet.ofList [1, 2, 3])) ([1, 2] : List U8) (openTwoFaced ++ openCaught)
      Net.init) (openRun (0 : Nat) (demoGroup true 2 (BSet.ofList [1, 2, 3])) ([1, 2] : List U8) openGivesUp
        (openRun (0 : Nat) (demoGroup true 2 (BSet.ofList [1, 2, 3])) ([1, 2] : List U8) (openTwoFaced ++ openCaught) Net.init)) =
        true := by
    decide +kernel
  have r1 := openRun_steps (sp := toy) (0 : Nat) (g := demoGroup true 2 (BSet.ofList [1, 2, 3])) (H := ([1, 2] : List U8))
    (openTwoFaced ++ openCaught) (n₀ := Net.init) .refl
  have r2 := openRun_steps (sp := toy) (0 : Nat) (g := demoGroup true 2 (BSet.ofList [1, 2, 3])) (H := ([1, 2] : List U8))
    openGivesUp
    (n₀ := openRun (0 : Nat) (demoGroup true 2 (BSet.ofList [1, 2, 3])) ([1, 2] : List U8) (openTwoFaced ++ openCaught) Net.init)
    .refl
  generalize openRun (sp := toy) (0 : Nat) (demoGroup true 2 (BSet.ofList [1, 2, 3])) ([1, 2] : List U8) (openTwoFaced ++ openCaught)
    Net.init = n at h r1 r2
  generalize openRun (sp := toy) (0 : Nat) (demoGroup true 2 (BSet.ofList [1, 2, 3])) ([1, 2] : List U8) openGivesUp n = n'
    at h r2
  unfold caughtThen at h
  split at h
  · rename_i s a rep h1 h2
    simp only [Bool.and_eq_true] at h
    obtain ⟨⟨h3, h4⟩, h5⟩ := h
    obtain ⟨ev, h4⟩ := BMap.contains_iff.1 h4
    obtain ⟨ev', h5⟩ := BMap.contains_iff.1 h5
    split at h3
    · rename_i e he
      exact ⟨n, n', s, a, e, ev, ev', rep, r1, r2, h1, he, h4, h2, h5, demo_not_refused 2 1 2⟩
    · cases h3
  · exact (Bool.false_ne_true h).elim

/-! ## What an adversary can make a report say -/

/-- Party 3 echoes the normal broadcast of party 2 as if it were its echo broadcast. -/
def framingPack : Bytes :=
  match SignedPart.new toy (0 : Nat) (1 : U8) [9] (RoundId.new 1) (⟨some [1]⟩ : Part .echo),
      SignedPart.new toy (0 : Nat) (2 : U8) [9] (RoundId.new 1) (⟨some [1]⟩ : Part .normal) with
  | .ok p, .ok q => (Codec.list (Codec.prod Codec.u8 Codec.signedHash)).enc
      [((1 : U8), p.toSignedHash toy), ((2 : U8), q.toSignedHash toy)]
  | _, _ => []

/-- Everybody sends one broadcast; in the echo round party 3 misquotes party 2. -/
def openFraming : List (OpenAct toy) :=
  [.start (1 : U8), .start (2 : U8), .forward 1 (2 : U8) (1 : U8), .forward 3 (1 : U8) (2 : U8)] ++
    openDemo 3 1 (RoundId.new 1) (some [5]) (some [3]) (some [7]) ++ openDemo 3 2 (RoundId.new 1) (some [6]) (some [3]) (some [8]) ++
    [.tick (1 : U8), .tick (2 : U8), .forward 6 (1 : U8) (2 : U8)] ++
    openDemo 3 1 ⟨1, [], true⟩ none none (some framingPack) ++ [.tick (1 : U8)]

/-- Whether it is party 2. -/
def isTwo (g : U8) : Bool := decide (g = 2)

/-- Whether party 1 reports evidence against party 2 that is made of the parts of a message of party 2. -/
def framed {P : Proto toy} (shared : P.Shared) (n : Net P) : Bool :=
  match n.node (1 : U8), n.wire[3]? with
  | some (.done (.ok rep)), some q =>
    match rep.provable.get? (3 : U8) with
    | some ⟨g, .mismatched g' w h⟩ =>
      decide (q.src = (2 : U8)) && isTwo g && isTwo g' && decide (w = q.message.echo) &&
        decide (h = q.message.normal.toSignedHash toy) &&
        decide ((⟨g, .mismatched g' w h⟩ : Evidence toy).verify P shared = .ok ())
    | _ => false
  | _, _ => false

/-- C72 says nothing about evidence filed under the name of somebody who does not follow the protocol, and there the report of a
party following the protocol can accuse another one: party 3 quotes the normal broadcast of party 2 as its echo broadcast.  The
evidence is made of the parts of one message of party 2, and convinces everybody. -/
theorem C72_framing_violation : ∃ (n : Net (demo true 2).wrap) (rep : Report (demo true 2).wrap) (ev : Evidence toy)
    (q : Packet toy),
    OpenSteps (demoGroup true 2 (BSet.ofList [1, 2, 3])) (fun i : U8 => i ∈ ([1, 2] : List U8)) Net.init n ∧
      n.node (1 : U8) = some (.done (.ok rep)) ∧ rep.provable.get? (3 : U8) = some ev ∧ q ∈ n.wire ∧ q.src = (2 : U8) ∧
      ev = ⟨(2 : U8), .mismatched (2 : U8) q.message.echo (q.message.normal.toSignedHash toy)⟩ ∧
      ev.verify (demo true 2).wrap () = .ok () := by
  have h : framed () (openRun (0 : Nat) (demoGroup true 2 (BSet.ofList [1, 2, 3])) ([1, 2] : List U8) openFraming Net.init) = true := by
    decide +kernel
  have r1 := openRun_steps (sp := toy) (0 : Nat) (g := demoGroup true 2 (BSet.ofList [1, 2, 3])) (H := ([1, 2] : List U8))
    openFraming (n₀ := Net.init) .refl
  generalize openRun (sp := toy) (0 : Nat) (demoGroup true 2 (BSet.ofList [1, 2, 3])) ([1, 2] : List U8) openFraming Net.init = n
    at h r1
  unfold framed at h
  split at h
  · rename_i rep q h1 h2
    split at h
    · rename_i g g' w x h3
      simp only [isTwo, Bool.and_eq_true, decide_eq_true_eq] at h
      obtain ⟨⟨⟨⟨⟨k1, k2⟩, k3⟩, k4⟩, k5⟩, k6⟩ := h
      subst k2 k3 k4 k5
      exact ⟨n, rep, _, q, r1, h1, h3, List.mem_of_getElem? h2, k1, rfl, k6⟩
    · exact (Bool.false_ne_true h).elim
  · exact (Bool.false_ne_true h).elim

end Manul
