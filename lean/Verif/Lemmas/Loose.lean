import Verif.Lemmas.ParOrder
import Verif.Props.Run
import Verif.Props.Echo
import Verif.Props.Accused

/-!
# What holds in the network of `LooseStep`

The theorems of C82, C83 and C84 about the network, for more networks than that of parties using `par_run_session`.
-/

namespace Manul

variable {sp : SP} {P : Proto sp} {Vis : sp.Id → Session P → Prop}

/-- Whatever a party following the protocol has accepted from another one, the other one has sent in the same round of the
same session. -/
theorem Loose.integrity {g : Group P} {H : sp.Id → Prop} {n : PNet P} (h : LooseSteps Vis g H PNet.init n) {i x : sp.Id}
    {s : Session P} {st : ParSt P} (hn : n.node i = some (.running s st)) (hx : H x) {v : Option P.Payload}
    (hv : st.accum.payloads.get? x = some v) :
    ∃ m, SentInOf Vis n.wire x s.transition.id m ∧ s.round.receive x m = .ok v := by
  obtain ⟨V, -, hi⟩ := (POpenInv.init Vis g H).steps h
  have hno := hi.node i s st hn
  obtain ⟨-, -, hsid, -⟩ := hno.session
  obtain ⟨vm, -, hu, hau, hr, -⟩ := (hno.q x).present v hv
  rw [hsid] at hau
  exact ⟨vm.dyn, psentIn_of hi hx hu hau, hr⟩

/-- When a round is finalized, possibly after its echo round, the payloads of parties following the protocol are made of
what they have sent in this round. -/
theorem Loose.finalized {g : Group P} {H : sp.Id → Prop} {n : PNet P} (h : LooseSteps Vis g H PNet.init n) {i x : sp.Id}
    {s : Session P} {st : ParSt P} (hn : n.node i = some (.running s st)) (hx : H x) {v : Option P.Payload}
    (hv : (finalizing s st.accum).2.1.get? x = some v) :
    ∃ w m, v = some w ∧ SentInOf Vis n.wire x (P.transition (finalizing s st.accum).1).id m ∧
      P.receive (finalizing s st.accum).1 x m = .ok w := by
  obtain ⟨V, -, hi⟩ := (POpenInv.init Vis g H).steps h
  have hno := hi.node i s st hn
  obtain ⟨-, hpr, hsid, -⟩ := hno.session
  obtain ⟨-, _, _, _, _, _, _, -, -, -, -, -, -, hca, -⟩ := hno
  unfold finalizing at hv ⊢
  cases hround : s.round with
  | main r =>
    simp only [hround] at hv ⊢
    obtain ⟨m, h1, h2⟩ := Loose.integrity h hn hx hv
    rw [hround] at h2
    obtain ⟨w, hw, h2⟩ := main_receive h2
    rw [(roundId_main hpr hround).1] at h1
    exact ⟨w, m, hw, h1, h2⟩
  | echo e =>
    simp only [hround] at hv ⊢
    obtain ⟨w, d, b, m, hw, hu, hau, hr, -⟩ := hca e hround x v hv
    rw [hsid] at hau
    exact ⟨w, _, hw, psentIn_of hi hx hu hau, hr⟩

/-- Evidence against a party following the protocol in the report of another one is based on what the party has sent. -/
theorem Loose.report {g : Group P} {H : sp.Id → Prop} {n : PNet P} (h : LooseSteps Vis g H PNet.init n) {i x : sp.Id} {rep : Report P}
    (hn : n.node i = some (.done (.ok rep))) (hx : H x) {ev : Evidence sp} (hev : rep.provable.get? x = some ev) :
    ∃ s vm, Vis i s ∧ vm.sender = x ∧ SentInOf Vis n.wire x s.transition.id vm.dyn ∧
      Recorded s.transcript (s.process vm) ev := by
  obtain ⟨V, -, hi⟩ := (POpenInv.init Vis g H).steps h
  obtain ⟨s, hs, vm, hvm, hu, hau, hrec⟩ := hi.report i rep hn x ev hev
  refine ⟨s, vm, hi.visited i s hs, hvm, ?_, hrec⟩
  obtain ⟨rng, s₀, tr, sl, c, hnew, hv, hV⟩ := hi.hist i (List.ne_nil_of_mem hs)
  obtain ⟨hp, hsid, -, -, hm⟩ := new_proper hnew
  rw [hV] at hs
  obtain ⟨-, h2, -⟩ := pvisits_proper hp hm hv s hs
  rw [h2, hsid] at hau
  exact psentIn_of hi hx hu hau

/-- Two parties following the protocol that are in the echo round of the same round, expect each other's echo message and
can finalize, hold the same broadcast of everybody whose broadcast both of them check.  They need not be there at the same time.
-/
theorem Loose.agreement (rt : sp.EchoRoundTrip) {g : Group P} {H : sp.Id → Prop} (hmi : MainIds P)
    (hkey : ∀ i, H i → sp.verifyingKey (g.signer i) = i) {n n' : PNet P} (h : LooseSteps Vis g H PNet.init n)
    (h' : LooseSteps Vis g H n n') {i j : sp.Id} (hij : i ≠ j) {s s' : Session P} {a a' : ParSt P} {e e' : EchoRd P}
    (hn : n.node i = some (.running s a)) (hn' : n'.node j = some (.running s' a')) (he : s.round = .echo e)
    (he' : s'.round = .echo e') (hid : s.transition.id = s'.transition.id) (hy : a.accum.canFinalize = .yes)
    (hy' : a'.accum.canFinalize = .yes) (hx : s.comm.expecting.contains j = true) (hx' : s'.comm.expecting.contains i = true)
    (nocoll : NoCollision e e') (k : sp.Id) (hk : e.info.expectedEchos.contains k = true)
    (hk' : e'.info.expectedEchos.contains k = true) : SameBroadcast e e' k := by
  obtain ⟨V, -, hi⟩ := (POpenInv.init Vis g H).steps h
  obtain ⟨V', hVV, hi'⟩ := hi.steps h'
  have hno := hi.node i s a hn
  have hno' := hi'.node j s' a' hn'
  obtain ⟨hsV, hpr, hsid, hme⟩ := hno.session
  obtain ⟨hsV', hpr', hsid', hme'⟩ := hno'.session
  have hq := hno.q
  have hq' := hno'.q
  obtain ⟨hH, rng, s₀, tr, c, r0, ops, hnew, hv, hround, -⟩ := hno
  obtain ⟨hH', rng', s₀', tr', c', r0', ops', hnew', hv', hround', -⟩ := hno'
  rw [hkey i hH] at hme
  rw [hkey j hH'] at hme'
  obtain ⟨hp0, -, -, -, hm0⟩ := new_proper hnew
  obtain ⟨hp0', -, -, -, hm0'⟩ := new_proper hnew'
  have iA := pvisits_einv hp0 hm0 hv he
  have iB := pvisits_einv hp0' hm0' hv' he'
  have accA : a'.accum.payloads.contains s.me = true := by
    rw [hme, yes_keys (parRound_reach hround') hy']
    exact hx'
  have accB : a.accum.payloads.contains s'.me = true := by
    rw [hme', yes_keys (parRound_reach hround) hy]
    exact hx
  by_cases hki : k = s.me
  · obtain ⟨p, p', h1, h2, h3, h4⟩ := agreement_core rt iB he' (fun x => (hq x).sinv) he (fun m hm => by
      rw [hme'] at hm
      exact hi'.genuine hmi hH' hsV' he' ((hq j).mono fun _ _ _ hu => hu.mono h'.wire) hsid hid.symm hm)
      (fun k p p' hp hp' h => (nocoll k p' p hp' hp h.symm).symm) accB k hk (by rw [hki, hme, hme']; exact hij)
    exact ⟨p', p, h2, h1, h3.symm, h4.symm⟩
  · exact agreement_core rt iA he (fun x => (hq' x).sinv) he' (fun m hm => by
      rw [hme] at hm
      exact hi'.genuine hmi hH (hVV i s hsV) he (hq' i) hsid' hid hm) nocoll accA k hk' hki

/-- Whatever an adversary makes of the parts a party following the protocol has signed for its echo round: another party
following the protocol accepts it, and then both hold the same broadcasts, or it shows that somebody who does not follow the
protocol has signed two broadcasts, or the two do not expect broadcasts of the same parties. -/
theorem Loose.verdict (rt : sp.EchoRoundTrip) (mt : sp.MetaTotal) (hstrict : EchoStrict P) (hmi : MainIds P) (hac : Acyclic P)
    {g : Group P} {H : sp.Id → Prop} (hkey : ∀ i, H i → sp.verifyingKey (g.signer i) = i) {n : PNet P}
    (h : LooseSteps Vis g H PNet.init n) {i j : sp.Id} (hj : H j) {s : Session P} {st : ParSt P} {e : EchoRd P}
    (hn : n.node i = some (.running s st)) (he : s.round = .echo e) {d : SignedPart .direct} {b : SignedPart .echo}
    {m : SignedPart .normal} (hu : Unforged H g.sid n.wire d b m) (ha : Authentic j g.sid s.transition.id d b m) :
    ∃ s' e', Vis j s' ∧ s'.round = .echo e' ∧ s'.transition.id = s.transition.id ∧
      EchoVerdict H g.sid (P.transition e.main).id e e' j (s.round.receive j ⟨b.part, m.part, d.part⟩) := by
  obtain ⟨V, -, hi⟩ := (POpenInv.init Vis g H).steps h
  have hno := hi.node i s st hn
  obtain ⟨s', hs', e', he', hid, hv⟩ := hi.verdict rt mt hstrict hmi hac hkey hno.1 hj hno.session.1 he hu ha
  exact ⟨s', e', hi.visited j s' hs', he', hid, hv⟩

theorem POpenInv.blame {g : Group P} {H : sp.Id → Prop} {V : sp.Id → List (Session P)} {n : PNet P} (h : POpenInv Vis g H V n)
    (rt : sp.EchoRoundTrip) (mt : sp.MetaTotal) (hstrict : EchoStrict P) (hmi : MainIds P) (hac : Acyclic P)
    (hkey : ∀ i, H i → sp.verifyingKey (g.signer i) = i) {i x : sp.Id} (hi : H i) (hx : H x)
    {ev : Evidence sp} (hr : RecordedIn (Unforged H g.sid n.wire) (V i) x ev) :
    (∃ k rid, ¬ H k ∧ TwoBroadcasts k g.sid rid ev) ∨ RefusedOf Vis i x := by
  obtain ⟨s, hs, vm, hvm, hu, hau, hrec⟩ := hr
  obtain ⟨rng, s₀, tr, c, hnew, hv, -⟩ := h.visit hs
  obtain ⟨hp0, hsid0, -, -, hm0⟩ := new_proper hnew
  have hsid : s.sessionId = g.sid := (pvisits_inv hp0 hm0 hv).sessionId.trans hsid0
  rw [hsid] at hau
  have hres : (s.process vm).result = s.round.receive x vm.dyn := by
    rw [← hvm]
    rfl
  cases hround : s.round with
  | echo e =>
    obtain ⟨s', -, e', -, -, hver⟩ := h.verdict rt mt hstrict hmi hac hkey hi hx hs hround hu hau
    rw [show (⟨vm.echo.part, vm.normal.part, vm.direct.part⟩ : DynMsg) = vm.dyn from rfl, ← hres] at hver
    obtain ⟨k, h1, h2⟩ := hver.unique hrec
    exact .inl ⟨k, _, h1, h2⟩
  | main r =>
    refine .inr ⟨s, r, vm.dyn, ?_⟩
    have hst := psentTogether_of h hmi hac hx hu hau
    have : ∃ err, P.receive r x vm.dyn = .error err := by
      cases hrc : P.receive r x vm.dyn with
      | error err => exact ⟨err, rfl⟩
      | ok v =>
        have hok : (s.process vm).result = .ok (some v) := by
          rw [hres, hround]
          simp [SRound.receive, hrc]
        cases hrec with
        | direct h1 => rw [hok] at h1; simp at h1
        | echoBroadcast h1 => rw [hok] at h1; simp at h1
        | normal h1 => rw [hok] at h1; simp at h1
        | protocol h1 _ => rw [hok] at h1; simp at h1
        | echo h1 => rw [hok] at h1; simp at h1
    obtain ⟨err, herr⟩ := this
    exact ⟨err, h.visited i s hs, hround, hst, herr⟩

/-- Evidence a party following the protocol has recorded under the name of another one in an echo round accuses somebody
who does not follow the protocol, and shows two broadcasts. -/
theorem Loose.recorded (rt : sp.EchoRoundTrip) (mt : sp.MetaTotal) (hstrict : EchoStrict P) (hmi : MainIds P) (hac : Acyclic P)
    {g : Group P} {H : sp.Id → Prop} (hkey : ∀ i, H i → sp.verifyingKey (g.signer i) = i) {n : PNet P}
    (h : LooseSteps Vis g H PNet.init n) {i x : sp.Id} (hx : H x) {s : Session P} {st : ParSt P} {e : EchoRd P}
    (hn : n.node i = some (.running s st)) (he : s.round = .echo e) {ev : Evidence sp} (hev : st.accum.provable.get? x = some ev) :
    ∃ k, ¬ H k ∧ TwoBroadcasts k g.sid (P.transition e.main).id ev := by
  obtain ⟨V, -, hi⟩ := (POpenInv.init Vis g H).steps h
  have hno := hi.node i s st hn
  obtain ⟨hsV, -, hsid, -⟩ := hno.session
  obtain ⟨vm, hvm, hu, hau, hrec⟩ := (hno.q x).proved ev hev
  rw [hsid] at hau
  obtain ⟨s', -, e', -, -, hver⟩ := hi.verdict rt mt hstrict hmi hac hkey hno.1 hx hsV he hu hau
  have hres : (s.process vm).result = s.round.receive x vm.dyn := by
    rw [← hvm]
    rfl
  rw [show (⟨vm.echo.part, vm.normal.part, vm.direct.part⟩ : DynMsg) = vm.dyn from rfl, ← hres] at hver
  exact hver.unique hrec

/-- Evidence filed under the name of a party following the protocol in the report of another one shows that somebody else,
who does not follow the protocol, has signed two broadcasts, unless it was recorded as a message was refused that this party
has sent in a round that is not an echo round. -/
theorem Loose.blamed (rt : sp.EchoRoundTrip) (mt : sp.MetaTotal) (hstrict : EchoStrict P) (hmi : MainIds P) (hac : Acyclic P)
    {g : Group P} {H : sp.Id → Prop} (hkey : ∀ i, H i → sp.verifyingKey (g.signer i) = i) {n : PNet P}
    (h : LooseSteps Vis g H PNet.init n) {i x : sp.Id} (hi : H i) (hx : H x) {rep : Report P}
    (hn : n.node i = some (.done (.ok rep))) {ev : Evidence sp} (hev : rep.provable.get? x = some ev) :
    (∃ k rid, ¬ H k ∧ TwoBroadcasts k g.sid rid ev) ∨ RefusedOf Vis i x := by
  obtain ⟨V, -, hinv⟩ := (POpenInv.init Vis g H).steps h
  exact hinv.blame rt mt hstrict hmi hac hkey hi hx (hinv.report i rep hn x ev hev)

/-- So if messages of parties following the protocol are not refused, the evidence in a report never accuses one of them
on the word of another one, and convinces everybody. -/
theorem Loose.no_blame (rt : sp.EchoRoundTrip) (mt : sp.MetaTotal) (hstrict : EchoStrict P) (hmi : MainIds P) (hac : Acyclic P)
    {g : Group P} {H : sp.Id → Prop} (hkey : ∀ i, H i → sp.verifyingKey (g.signer i) = i) {n : PNet P}
    (h : LooseSteps Vis g H PNet.init n) {i x : sp.Id} (hi : H i) (hx : H x) (hacc : ¬ RefusedOf Vis i x) {rep : Report P}
    (hn : n.node i = some (.done (.ok rep))) {ev : Evidence sp} (hev : rep.provable.get? x = some ev) (shared : P.Shared) :
    ¬ H ev.guilty ∧ ev.verify P shared = .ok () := by
  rcases Loose.blamed rt mt hstrict hmi hac hkey h hi hx hn hev with ⟨k, rid, h1, h2⟩ | h1
  · obtain ⟨h3, h4⟩ := C72_convinces h2 shared
    rw [h3]
    exact ⟨h1, h4⟩
  · exact absurd h1 hacc

/-- If the echo rounds of two parties following the protocol hold different broadcasts of `k`, neither accepts the echo
message of the other one; they need not be there at the same time. -/
theorem Loose.not_accepted (rt : sp.EchoRoundTrip) (mt : sp.MetaTotal) (hstrict : EchoStrict P) (hmi : MainIds P) (hac : Acyclic P)
    {g : Group P} {H : sp.Id → Prop} (hkey : ∀ i, H i → sp.verifyingKey (g.signer i) = i) {n n' : PNet P}
    (h : LooseSteps Vis g H PNet.init n) (h' : LooseSteps Vis g H PNet.init n') (hor : LooseSteps Vis g H n n' ∨ LooseSteps Vis g H n' n)
    {i j : sp.Id} {s s' : Session P} {st st' : ParSt P} {e e' : EchoRd P}
    (hn : n.node i = some (.running s st)) (hn' : n'.node j = some (.running s' st')) (he : s.round = .echo e)
    (he' : s'.round = .echo e') (hid : s.transition.id = s'.transition.id) (nocoll : NoCollision e' e) {k : sp.Id} (hkj : k ≠ j)
    (hk : e.info.expectedEchos.contains k = true) (hdiff : ¬ SameBroadcast e' e k) :
    st.accum.payloads.contains j = false ∧ (s.comm.expecting.contains j = true → st.accum.canFinalize ≠ .yes) := by
  have key : st.accum.payloads.contains j = false := by
    cases hc : st.accum.payloads.contains j with
    | false => rfl
    | true =>
      obtain ⟨v, hv⟩ := BMap.contains_iff.1 hc
      obtain ⟨N, V, hinv, hs, hs', hq⟩ : ∃ N, ∃ (V : sp.Id → List (Session P)), POpenInv Vis g H V N ∧ s ∈ V i ∧ s' ∈ V j ∧
          (∀ x, QInv (Unforged H g.sid N.wire) s x (st.accum.loc x)) := by
        rcases hor with hor | hor
        · obtain ⟨V, -, hi⟩ := (POpenInv.init Vis g H).steps h
          obtain ⟨V', hVV, hi'⟩ := hi.steps hor
          have hno := hi.node i s st hn
          exact ⟨n', V', hi', hVV i s hno.session.1, (hi'.node j s' st' hn').session.1,
            fun x => (hno.q x).mono fun _ _ _ h => h.mono hor.wire⟩
        · obtain ⟨V, -, hi⟩ := (POpenInv.init Vis g H).steps h'
          obtain ⟨V', hVV, hi'⟩ := hi.steps hor
          have hno := hi'.node i s st hn
          exact ⟨n, V', hi', hno.session.1, hVV j s' (hi.node j s' st' hn').session.1, hno.q⟩
      obtain ⟨V1, -, hi1⟩ := (POpenInv.init Vis g H).steps h
      obtain ⟨V2, -, hi2⟩ := (POpenInv.init Vis g H).steps h'
      have hno := hi1.node i s st hn
      have hsid := hno.session.2.2.1
      obtain ⟨vm, hvm, hu, hau, hrc, -⟩ := (hq j).present v hv
      rw [hsid] at hau
      obtain ⟨s1, hs1, e1, he1, hid1, hver⟩ :=
        hinv.verdict rt mt hstrict hmi hac hkey hno.1 (hi2.node j s' st' hn').1 hs he hu hau
      have := hinv.unique hmi hac s1 hs1 s' hs' (hid1.trans hid)
      subst this
      rw [he1] at he'
      simp only [SRound.echo.injEq] at he'
      subst he'
      rw [show (⟨vm.echo.part, vm.normal.part, vm.direct.part⟩ : DynMsg) = vm.dyn from rfl, hrc] at hver
      generalize hr : (Except.ok v : Except (RecvErr sp) (Option P.Payload)) = r at hver
      cases hver with
      | agree hag => exact absurd (hag nocoll k hk hkj) hdiff
      | caught _ _ _ _ _ _ _ => simp at hr
      | missing _ _ _ => simp at hr
      | extra _ _ _ => simp at hr
  refine ⟨key, ?_⟩
  intro hexp hy
  obtain ⟨V, -, hi⟩ := (POpenInv.init Vis g H).steps h
  obtain ⟨-, rng, s₀, tr, c, r0, ops, -, -, hround, -⟩ := hi.node i s st hn
  rw [yes_keys (parRound_reach hround) hy j, hexp] at key
  simp at key

theorem complete_proves {s : Session P} {st : ParSt P} {i : Nat} {vm : VerifiedMessage sp} {err : EchoErr sp}
    (ht : st.tasks[i]? = some vm) (hprov : st.accum.provable.contains vm.sender = false)
    (hpay : st.accum.payloads.contains vm.sender = false) (hns : st.accum.notSent.contains vm.sender = true)
    (hr : s.round.receive vm.sender vm.dyn = .error (.echo err)) :
    ∃ st', parOp s st (.complete i) = .ok st' ∧
      st'.accum.provable.get? vm.sender = some (Evidence.newEchoRoundError vm.sender vm.normal err) := by
  simp only [parOp, ht, Session.addProcessed, Session.process, Accum.addProcessed]
  simp only [hpay, hns, hr, Accum.registerProvable, hprov]
  simp

/-- If the echo rounds of two parties following the protocol hold different broadcasts of `k`, and both expect broadcasts of
the same parties, then whenever the first one gets the result of processing a message of the other one, it records that somebody
who does not follow the protocol has signed two broadcasts. -/
theorem Loose.caught (rt : sp.EchoRoundTrip) (mt : sp.MetaTotal) (hstrict : EchoStrict P) (hmi : MainIds P) (hac : Acyclic P)
    {g : Group P} {H : sp.Id → Prop} (hkey : ∀ i, H i → sp.verifyingKey (g.signer i) = i) {n n' : PNet P}
    (h' : LooseSteps Vis g H PNet.init n') (h : LooseSteps Vis g H n' n) {i j : sp.Id} {s s' : Session P} {st st' : ParSt P}
    {e e' : EchoRd P} (hn' : n'.node j = some (.running s' st')) (hn : n.node i = some (.running s st)) (he : s.round = .echo e)
    (he' : s'.round = .echo e') (hid : s.transition.id = s'.transition.id) (nocoll : NoCollision e' e)
    (hgraph : ∀ k, k ≠ j → e.info.expectedEchos.contains k = e'.info.expectedEchos.contains k) {k : sp.Id} (hkj : k ≠ j)
    (hk : e.info.expectedEchos.contains k = true) (hdiff : ¬ SameBroadcast e' e k) {t : Nat} {vm : VerifiedMessage sp}
    (ht : st.tasks[t]? = some vm) (hvm : vm.sender = j)
    (hwait : st.accum.provable.contains j = false ∧ st.accum.payloads.contains j = false ∧ st.accum.notSent.contains j = true) :
    ∃ b ev k', parOp s st (.complete t) = .ok b ∧ b.accum.provable.get? j = some ev ∧ ¬ H k' ∧
      TwoBroadcasts k' g.sid (P.transition e.main).id ev := by
  obtain ⟨V, -, hi⟩ := (POpenInv.init Vis g H).steps h'
  obtain ⟨V', hVV, hi'⟩ := hi.steps h
  have hno := hi'.node i s st hn
  obtain ⟨hsV, hpr, hsid, -⟩ := hno.session
  have hs' := hVV j s' (hi.node j s' st' hn').session.1
  obtain ⟨hau, hu⟩ := hno.task vm (List.mem_of_getElem? ht)
  rw [hvm, hsid] at hau
  obtain ⟨s1, hs1, e1, he1, hid1, hver⟩ :=
    hi'.verdict rt mt hstrict hmi hac hkey hno.1 (hi.node j s' st' hn').1 hsV he hu hau
  have := hi'.unique hmi hac s1 hs1 s' hs' (hid1.trans hid)
  subst this
  rw [he1] at he'
  simp only [SRound.echo.injEq] at he'
  subst he'
  generalize hr : s.round.receive j ⟨vm.echo.part, vm.normal.part, vm.direct.part⟩ = r at hver
  cases hver with
  | agree hag => exact absurd (hag nocoll k hk hkj) hdiff
  | missing h1 h2 h3 =>
    rw [hgraph _ h1, h3] at h2
    simp at h2
  | extra h1 h2 h3 =>
    rw [hgraph _ h1, h3] at h2
    simp at h2
  | @caught k' w w' h1 h2 h3 h4 h5 h6 h7 =>
    subst hvm
    obtain ⟨b, hb, hp⟩ := complete_proves ht hwait.1 hwait.2.1 hwait.2.2 hr
    exact ⟨b, _, k', hb, hp, h1, w, w', rfl, h5, h6, h7⟩

/-- The evidence is filed under `x`. -/
def PFiled (x : sp.Id) (ev : Evidence sp) : ParState P → Prop
  | .running s st => st.accum.provable.get? x = some ev ∨ s.transcript.provable.get? x = some ev
  | .done (.ok rep) => rep.provable.get? x = some ev
  | .done (.error _) => True

theorem parJoin_provable {st : ParSt P} {a : Accum P} (h : parJoin st = .ok a) {x : sp.Id} {ev : Evidence sp}
    (hx : st.accum.provable.get? x = some ev) : a.provable.get? x = some ev := by
  refine parJoin_inv (I := fun y (u : Loc P) => y = x → u.provable = some ev) h ?_ ?_ x rfl
  · intro y p u u' hI hu hy
    obtain ⟨-, rfl⟩ := art_ok hu
    exact hI hy
  · rintro y rfl
    exact hx

theorem PFiled.op {s : Session P} {st st' : ParSt P} {o : ParOp sp} (h : parOp s st o = .ok st') {x : sp.Id} {ev : Evidence sp}
    (hx : st.accum.provable.get? x = some ev) : st'.accum.provable.get? x = some ev := by
  refine (parOp_inv (I := fun y (u : Loc P) => y = x → u.provable = some ev) (T := fun _ => True) ?_ ?_ ?_ ?_ (fun _ _ => trivial)
    h).1 x rfl
  · intro y p u u' hI hu hy
    obtain ⟨-, rfl⟩ := art_ok hu
    exact hI hy
  · intro vm u u' _ hI hu hy
    obtain ⟨-, -, ha⟩ := add_ok hu
    cases ha with
    | payload _ => exact hI hy
    | provable hn _ =>
      have := hI hy
      simp only [this] at hn
      simp at hn
    | unprovable _ => exact hI hy
  · intro y m _ u u' r hI hu
    refine ⟨fun hy => ?_, fun _ _ => trivial⟩
    cases pre_ok hu with
    | ignored _ => exact hI hy
    | refused _ _ => exact hI hy
    | process _ _ _ _ _ => exact hI hy
    | keep _ _ _ _ _ _ _ => exact hI hy
  · rintro y rfl
    exact hx

theorem POpenInv.accused {g : Group P} {H : sp.Id → Prop} {V : sp.Id → List (Session P)} {n : PNet P} (h : POpenInv Vis g H V n)
    (rt : sp.EchoRoundTrip) (mt : sp.MetaTotal) (hstrict : EchoStrict P) (hmi : MainIds P) (hac : Acyclic P)
    (hne : NoEchoErr P) (hkey : ∀ i, H i → sp.verifyingKey (g.signer i) = i) {i x : sp.Id} (hi : H i) {ev : Evidence sp}
    (hg : H ev.guilty) (hr : RecordedIn (Unforged H g.sid n.wire) (V i) x ev) :
    (x = ev.guilty ∧ RefusedOf Vis i x) ∨ (¬ H x ∧ ∃ s ∈ V ev.guilty, ∃ w, MisquotedOf Vis g.sid ev.guilty s w ev) := by
  by_cases hx : H x
  · refine .inl ?_
    have href : RefusedOf Vis i x := by
      rcases h.blame rt mt hstrict hmi hac hkey hi hx hr with ⟨k, rid, h1, w, w', h2, -⟩ | h1
      · rw [h2] at hg
        exact absurd hg h1
      · exact h1
    refine ⟨?_, href⟩
    obtain ⟨s, hs, vm, hvm, hu, hau, hrec⟩ := hr
    rcases hrec.guilty with h1 | ⟨k, w, y, h1, h2⟩
    · rw [h1]
      exact hvm.symm
    · have hres : (s.process vm).result = s.round.receive x vm.dyn := by
        rw [← hvm]
        rfl
      rw [hres] at h1
      cases hround : s.round with
      | main r =>
        rw [hround] at h1
        simp only [SRound.receive] at h1
        split at h1
        · rename_i err herr
          cases h1
          exact absurd herr (hne _ _ _ _)
        · cases h1
      | echo e =>
        obtain ⟨rng, s₀, tr, c, hnew, hv, -⟩ := h.visit hs
        obtain ⟨hp0, hsid0, -, -, hm0⟩ := new_proper hnew
        rw [(pvisits_inv hp0 hm0 hv).sessionId.trans hsid0] at hau
        obtain ⟨s', -, e', -, -, hver⟩ := h.verdict rt mt hstrict hmi hac hkey hi hx hs hround hu hau
        rw [show (⟨vm.echo.part, vm.normal.part, vm.direct.part⟩ : DynMsg) = vm.dyn from rfl, ← hres] at hver
        obtain ⟨k', h3, w1, w2, h4, -⟩ := hver.unique hrec
        rw [h4] at hg
        exact absurd hg h3
  · refine .inr ⟨hx, ?_⟩
    obtain ⟨s, hs, vm, hvm, hu, hau, hrec⟩ := hr
    rcases hrec.guilty with h1 | ⟨k, w, y, h1, h2⟩
    · rw [h1] at hg
      exact absurd (hvm ▸ hg) hx
    · have hres : (s.process vm).result = s.round.receive x vm.dyn := by
        rw [← hvm]
        rfl
      rw [hres] at h1
      cases hround : s.round with
      | main r =>
        rw [hround] at h1
        simp only [SRound.receive] at h1
        split at h1
        · rename_i err herr
          cases h1
          exact absurd herr (hne _ _ _ _)
        · cases h1
      | echo e =>
        rw [hround] at h1
        simp only [SRound.receive] at h1
        have h1' : e.receive x vm.dyn = .error (.echo (.mismatched k w y)) := by
          cases hrc : e.receive x vm.dyn with
          | ok u => rw [hrc] at h1; cases h1
          | error err =>
            rw [hrc] at h1
            simp only [Except.error.injEq] at h1
            rw [h1]
        obtain ⟨pack, k', h', p, -, -, hget, ⟨herr, -⟩ | ⟨herr, hsig, hmeta, hhash⟩⟩ := receive_echoErr h1'
        · cases herr
        · cases herr
          subst h2
          obtain ⟨rng, s₀, tr, c, hnew, hv, -⟩ := h.visit hs
          obtain ⟨hp0, hsid0, -, -, hm0⟩ := new_proper hnew
          have ie := pvisits_einv hp0 hm0 hv hround
          have hsid : s.sessionId = g.sid := ie.sessionId.trans hsid0
          have hpm : w.metadata = ⟨g.sid, (P.transition e.main).id⟩ := by
            by_cases hk : k = s.me
            · obtain ⟨q, rng, hq, hn⟩ := ie.own
              rw [hk, hq] at hget
              simp only [Option.some.injEq] at hget
              subst hget
              rw [(signed_part hn).2, hsid]
            · rw [(ie.others k hk w hget).1.1, hsid]
          obtain ⟨s1, hs1, hid1, hpart⟩ := h.broadcast hkey hi hs hround hg hget
          exact ⟨s1, hs1, y, w, h.visited _ s1 hs1, rfl, hpart, by rw [hpm, hid1], hsig,
            by rw [hmeta, hpm, hid1], by rw [← hpart]; exact hhash⟩

/-- Evidence in the report of a party following the protocol that accuses a party following the protocol is either filed
under the name of the accused, who has then sent a message in a round that is not an echo round, which was refused; or it is
filed under the name of somebody who does not follow the protocol, and has the echo broadcast the accused has made beside
another hash signed by the accused for the same round. -/
theorem Loose.accused (rt : sp.EchoRoundTrip) (mt : sp.MetaTotal) (hstrict : EchoStrict P) (hmi : MainIds P) (hac : Acyclic P)
    (hne : NoEchoErr P) {g : Group P} {H : sp.Id → Prop} (hkey : ∀ i, H i → sp.verifyingKey (g.signer i) = i) {n : PNet P}
    (h : LooseSteps Vis g H PNet.init n) {i x : sp.Id} (hi : H i) {rep : Report P} (hn : n.node i = some (.done (.ok rep)))
    {ev : Evidence sp} (hev : rep.provable.get? x = some ev) (hg : H ev.guilty) :
    (x = ev.guilty ∧ RefusedOf Vis i x) ∨ (¬ H x ∧ ∃ s w, MisquotedOf Vis g.sid ev.guilty s w ev) := by
  obtain ⟨V, -, hinv⟩ := (POpenInv.init Vis g H).steps h
  rcases hinv.accused rt mt hstrict hmi hac hne hkey hi hg (hinv.report i rep hn x ev hev) with h1 | ⟨h1, s, -, w, h2⟩
  · exact .inl h1
  · exact .inr ⟨h1, s, w, h2⟩

/-- If the signed hash is not forged, the other hash is that of the normal broadcast or of a direct message of the accused in
the same round. -/
theorem Loose.kind_confusion (rt : sp.EchoRoundTrip) (mt : sp.MetaTotal) (hstrict : EchoStrict P) (hmi : MainIds P)
    (hac : Acyclic P) (hne : NoEchoErr P) {g : Group P} {H : sp.Id → Prop}
    (hkey : ∀ i, H i → sp.verifyingKey (g.signer i) = i) {n : PNet P} (h : LooseSteps Vis g H PNet.init n)
    {i x : sp.Id} (hi : H i) {rep : Report P} (hn : n.node i = some (.done (.ok rep))) {ev : Evidence sp}
    (hev : rep.provable.get? x = some ev) (hg : H ev.guilty)
    (hunf : ∀ p w, ev.body = .mismatched ev.guilty p w → HashUnforged H g.sid n.wire w) :
    (x = ev.guilty ∧ RefusedOf Vis i x) ∨
      (¬ H x ∧ ∃ s w, MisquotedOf Vis g.sid ev.guilty s w ev ∧ ∃ q ∈ n.wire, OwnPacketOf Vis ev.guilty s.transition.id q ∧
        q.message.echo = s.echo ∧
        (w.hash = sp.partHash q.message.normal.part ∨ w.hash = sp.partHash q.message.direct.part)) := by
  obtain ⟨V, -, hinv⟩ := (POpenInv.init Vis g H).steps h
  rcases hinv.accused rt mt hstrict hmi hac hne hkey hi hg (hinv.report i rep hn x ev hev) with h1 | ⟨h1, s, hs, w, h2⟩
  · exact .inl h1
  · refine .inr ⟨h1, s, w, h2, ?_⟩
    obtain ⟨p, hvis, hev', -, -, hsig, hmeta, hhash⟩ := h2
    obtain ⟨q, hq, hsrc, hor⟩ := hunf p w (congrArg Evidence.body hev') _ hg hsig (by rw [hmeta])
    obtain ⟨s', hs', hmade, -, -, -, -, m1, m2, m3⟩ := hinv.own hq
    rw [hsrc] at hs'
    have hid : s'.transition.id = s.transition.id := by
      rcases hor with ⟨hm, -⟩ | ⟨hm, -⟩ | ⟨hm, -⟩
      · rw [hm, hmeta] at m1
        simp only [Metadata.mk.injEq] at m1
        exact m1.2.symm
      · rw [hm, hmeta] at m2
        simp only [Metadata.mk.injEq] at m2
        exact m2.2.symm
      · rw [hm, hmeta] at m3
        simp only [Metadata.mk.injEq] at m3
        exact m3.2.symm
    have := hinv.unique hmi hac s' hs' s hs hid
    subst this
    refine ⟨q, hq, ⟨hsrc, (hinv.sent q hq).1, s', hvis, rfl, hmade⟩, hmade.echo, ?_⟩
    rcases hor with ⟨-, hh⟩ | ⟨-, hh⟩ | ⟨-, hh⟩
    · rw [hmade.echo] at hh
      exact absurd hh.symm hhash
    · exact .inl hh.symm
    · exact .inr hh.symm

/-- So if signatures told the kind of what is signed, parties following the protocol would only be accused over messages
they have sent that were refused. -/
theorem Loose.if_kinds_were_signed (rt : sp.EchoRoundTrip) (mt : sp.MetaTotal) (hstrict : EchoStrict P) (hmi : MainIds P)
    (hac : Acyclic P) (hne : NoEchoErr P) {g : Group P} {H : sp.Id → Prop}
    (hkey : ∀ i, H i → sp.verifyingKey (g.signer i) = i) {n : PNet P} (h : LooseSteps Vis g H PNet.init n)
    {i x : sp.Id} (hi : H i) {rep : Report P} (hn : n.node i = some (.done (.ok rep))) {ev : Evidence sp}
    (hev : rep.provable.get? x = some ev) (hg : H ev.guilty)
    (hunf : ∀ p w, ev.body = .mismatched ev.guilty p w → EchoHashUnforged H g.sid n.wire w) :
    x = ev.guilty ∧ RefusedOf Vis i x := by
  obtain ⟨V, -, hinv⟩ := (POpenInv.init Vis g H).steps h
  rcases hinv.accused rt mt hstrict hmi hac hne hkey hi hg (hinv.report i rep hn x ev hev) with h1 | ⟨h1, s, hs, w, h2⟩
  · exact h1
  · obtain ⟨p, hvis, hev', -, -, hsig, hmeta, hhash⟩ := h2
    obtain ⟨q, hq, hsrc, hm, hh⟩ := hunf p w (congrArg Evidence.body hev') _ hg hsig (by rw [hmeta])
    obtain ⟨s', hs', hmade, -, -, -, -, m1, -, -⟩ := hinv.own hq
    rw [hsrc] at hs'
    rw [hm, hmeta] at m1
    simp only [Metadata.mk.injEq] at m1
    have := hinv.unique hmi hac s' hs' s hs m1.2.symm
    subst this
    rw [hmade.echo] at hh
    exact absurd hh.symm hhash

/-- Nobody leaves a round before the parties following the protocol it waits for are in it: when a party can finalize its
round, each of them has sent messages of this very round. -/
theorem Loose.entered {g : Group P} {H : sp.Id → Prop} {n : PNet P} (h : LooseSteps Vis g H PNet.init n) {i x : sp.Id} {s : Session P}
    {st : ParSt P} (hn : n.node i = some (.running s st)) (hy : st.accum.canFinalize = .yes) (hx : H x)
    (he : s.comm.expecting.contains x = true) :
    (∃ s', Vis x s' ∧ s'.transition.id = s.transition.id) ∧ ∃ q ∈ n.wire, OwnPacketOf Vis x s.transition.id q := by
  obtain ⟨V, -, hi⟩ := (POpenInv.init Vis g H).steps h
  obtain ⟨-, rng, s₀, tr, c, r0, ops, -, -, hround, -⟩ := hi.node i s st hn
  have hk := yes_keys (parRound_reach hround) hy x
  rw [he] at hk
  obtain ⟨v, hv⟩ := BMap.contains_iff.1 hk
  obtain ⟨m, ⟨q, hq, -, -, -, -, ho, -⟩, -⟩ := Loose.integrity h hn hx hv
  obtain ⟨h1, h2, s', h3, h4, h5⟩ := ho
  exact ⟨⟨s', h3, h4⟩, q, hq, h1, h2, s', h3, h4, h5⟩

/-- Two running parties that follow the protocol and always expect messages from each other are at most one round apart,
if no round can be repeated: they have left the same rounds, or one of them has left the round the other one is in and otherwise
the same rounds.  This holds for all protocols and in a network controlled by the adversary. -/
theorem Loose.rounds {g : Group P} {H : sp.Id → Prop} (hmi : MainIds P) (hac : Acyclic P) {n : PNet P}
    (h : LooseSteps Vis g H PNet.init n) {i j : sp.Id} (hi : H i) (hj : H j) (hij : AlwaysExpectsOf Vis i j) (hji : AlwaysExpectsOf Vis j i)
    {s s' : Session P} {a a' : ParSt P} (hn : n.node i = some (.running s a)) (hn' : n.node j = some (.running s' a')) :
    (∀ id, Passed s id ↔ Passed s' id) ∨ (∀ id, Passed s id ↔ id = s'.transition.id ∨ Passed s' id) ∨
      ∀ id, Passed s' id ↔ id = s.transition.id ∨ Passed s id := by
  have h1 : ∀ id, Passed s id → id = s'.transition.id ∨ Passed s' id := by
    intro id hp
    rcases ppassed_entered h hj hij hn hp with ⟨t, b, g1, g2⟩ | ⟨r, g1⟩ <;> rw [hn'] at g1
    · simp only [Option.some.injEq, ParState.running.injEq] at g1
      obtain ⟨rfl, rfl⟩ := g1
      exact g2.imp_left Eq.symm
    · simp at g1
  have h2 : ∀ id, Passed s' id → id = s.transition.id ∨ Passed s id := by
    intro id hp
    rcases ppassed_entered h hi hji hn' hp with ⟨t, b, g1, g2⟩ | ⟨r, g1⟩ <;> rw [hn] at g1
    · simp only [Option.some.injEq, ParState.running.injEq] at g1
      obtain ⟨rfl, rfl⟩ := g1
      exact g2.imp_left Eq.symm
    · simp at g1
  have h3 := pnot_both hmi hac h hi hj hij hji hn hn'
  by_cases hb : Passed s s'.transition.id
  · have ha : ¬ Passed s' s.transition.id := fun ha => h3 ⟨hb, ha⟩
    refine Or.inr (Or.inl fun id => ⟨h1 id, ?_⟩)
    rintro (rfl | hp)
    · exact hb
    · rcases h2 id hp with rfl | hq
      · exact absurd hp ha
      · exact hq
  · have h1' : ∀ id, Passed s id → Passed s' id := by
      intro id hp
      rcases h1 id hp with rfl | hq
      · exact absurd hp hb
      · exact hq
    by_cases ha : Passed s' s.transition.id
    · refine Or.inr (Or.inr fun id => ⟨h2 id, ?_⟩)
      rintro (rfl | hp)
      · exact ha
      · exact h1' id hp
    · refine Or.inl fun id => ⟨h1' id, ?_⟩
      intro hp
      rcases h2 id hp with rfl | hq
      · exact absurd hp ha
      · exact hq

/-! ## What is recorded stays -/

theorem PFiled.joined {s : Session P} {st : ParSt P} {a : Accum P} {x : sp.Id} {ev : Evidence sp} (h : PFiled x ev (.running s st))
    (hj : parJoin st = .ok a) : Filed x ev (.running s a) :=
  h.elim (fun h => .inl (parJoin_provable hj h)) .inr

theorem PFiled.ops {s : Session P} {st st' : ParSt P} {ops : List (ParOp sp)} (h : foldE (parOp s) st ops = .ok st') {x : sp.Id}
    {ev : Evidence sp} (hx : st.accum.provable.get? x = some ev) : st'.accum.provable.get? x = some ev := by
  induction ops generalizing st with
  | nil =>
    simp only [foldE, Except.ok.injEq] at h
    subst h
    exact hx
  | cons o ops ih =>
    simp only [foldE] at h
    cases ho : parOp s st o with
    | error e => simp [ho] at h
    | ok st1 =>
      simp only [ho] at h
      exact ih h (PFiled.op ho hx)

theorem LooseStep.filed {g : Group P} {H : sp.Id → Prop} {n n' : PNet P} (h : LooseStep Vis g H n n') {i x : sp.Id}
    {ev : Evidence sp} {st : ParState P} (hn : n.node i = some st) (hf : PFiled x ev st) :
    ∃ st', n'.node i = some st' ∧ PFiled x ev st' := by
  have other : ∀ {y : sp.Id} {st1 : ParState P} {out : List (Message sp)}, (i = y → PFiled x ev st1) →
      ∃ st', (n.put y st1 out).node i = some st' ∧ PFiled x ev st' := by
    intro y st1 out hy
    by_cases hyi : i = y
    · subst hyi
      exact ⟨st1, by simp [PNet.put], hy rfl⟩
    · exact ⟨st, by simp only [PNet.put, Function.update_of_ne hyi]; exact hn, hf⟩
  have fresh : ∀ {y : sp.Id}, n.node y = none → i ≠ y := by
    rintro y hy rfl
    rw [hn] at hy
    simp at hy
  have same : ∀ {y : sp.Id} {st1 : ParState P}, n.node y = some st1 → i = y → PFiled x ev st1 := by
    rintro y st1 hy rfl
    rw [hn] at hy
    simp only [Option.some.injEq] at hy
    exact hy ▸ hf
  cases h with
  | noSession h1 => exact other fun hy => absurd hy (fresh h1)
  | begin _ h1 _ _ _ _ _ => exact other fun hy => absurd hy (fresh h1)
  | beginFails h1 _ _ _ => exact other fun hy => absurd hy (fresh h1)
  | ops h1 h2 _ _ => exact other fun hy => (same h1 hy).elim (fun h => .inl (PFiled.ops h2 h)) .inr
  | enterFails _ _ _ _ _ _ => exact other fun _ => trivial
  | enter h1 hj _ h2 _ _ _ _ => exact other fun hy => .inr ((finalized_transcript h2).filed ((same h1 hy).joined hj))
  | @ends y s st1 r out h1 hrep _ =>
    refine other fun hy => ?_
    cases r with
    | error _ => trivial
    | ok rep =>
      obtain ⟨a, hj, he⟩ := hrep rep rfl
      have hjoin := (same h1 hy).joined hj
      show rep.provable.get? x = some ev
      rcases he with ⟨-, rng, hf⟩ | ⟨-, ht'⟩
      · obtain ⟨t, hu, hfin⟩ := finalizeRound_ok hf
        cases hfin with
        | result _ _ => exact hu.filed hjoin
      · unfold Session.terminateDueToErrors Session.terminateInner at ht'
        cases hu : s.updatedTranscript a with
        | error e => simp [hu] at ht'
        | ok t =>
          simp only [hu, Except.ok.injEq] at ht'
          rw [← ht']
          exact (update_iff.1 hu).filed hjoin

/-- Evidence a party has recorded is in its report, whatever happens later. -/
theorem Loose.kept {g : Group P} {H : sp.Id → Prop} {n n' : PNet P} (h : LooseSteps Vis g H n n') {i x : sp.Id} {s : Session P}
    {st : ParSt P} (hn : n.node i = some (.running s st)) {ev : Evidence sp} (hev : st.accum.provable.get? x = some ev)
    {rep : Report P} (hn' : n'.node i = some (.done (.ok rep))) : rep.provable.get? x = some ev := by
  have key : ∃ st, n'.node i = some st ∧ PFiled x ev st := by
    clear hn'
    induction h with
    | refl => exact ⟨_, hn, .inl hev⟩
    | step _ hs ih =>
      obtain ⟨st, h1, h2⟩ := ih
      exact hs.filed h1 h2
  obtain ⟨st, h1, h2⟩ := key
  rw [hn'] at h1
  simp only [Option.some.injEq] at h1
  subst h1
  exact h2

end Manul
