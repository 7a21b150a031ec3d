import Verif.Lemmas.ParEquivocation
import Verif.Props.ParAny
import Verif.Props.Accused

/-!
# C83: How parties using `par_run_session` can be accused

As in `Verif.Props.ParAny`, an adversary controls everything but the parties in `H`.
-/

namespace Manul

variable {sp : SP} {P : Proto sp}

/-- C83: whatever an adversary makes of the parts a party following the protocol has signed for its echo round: another party
following the protocol accepts it, and then both hold the same broadcasts, or it shows that somebody who does not follow the
protocol has signed two broadcasts, or the two do not expect broadcasts of the same parties. -/
theorem C83_verdict (rt : sp.EchoRoundTrip) (mt : sp.MetaTotal) (hstrict : EchoStrict P) (hmi : MainIds P) (hac : Acyclic P)
    {g : Group P} {H : sp.Id → Prop} (hkey : ∀ i, H i → sp.verifyingKey (g.signer i) = i) {n : PNet P}
    (h : POpenSteps g H PNet.init n) {i j : sp.Id} (hj : H j) {s : Session P} {st : ParSt P} {e : EchoRd P}
    (hn : n.node i = some (.running s st)) (he : s.round = .echo e) {d : SignedPart .direct} {b : SignedPart .echo}
    {m : SignedPart .normal} (hu : Unforged H g.sid n.wire d b m) (ha : Authentic j g.sid s.transition.id d b m) :
    ∃ s' e', ParVisitedBy g j s' ∧ s'.round = .echo e' ∧ s'.transition.id = s.transition.id ∧
      EchoVerdict H g.sid (P.transition e.main).id e e' j (s.round.receive j ⟨b.part, m.part, d.part⟩) :=
  Loose.verdict rt mt hstrict hmi hac hkey h.looseInit hj hn he hu ha

/-- C83: evidence a party following the protocol has recorded under the name of another one in an echo round accuses somebody
who does not follow the protocol, and shows two broadcasts. -/
theorem C83_recorded (rt : sp.EchoRoundTrip) (mt : sp.MetaTotal) (hstrict : EchoStrict P) (hmi : MainIds P) (hac : Acyclic P)
    {g : Group P} {H : sp.Id → Prop} (hkey : ∀ i, H i → sp.verifyingKey (g.signer i) = i) {n : PNet P}
    (h : POpenSteps g H PNet.init n) {i x : sp.Id} (hx : H x) {s : Session P} {st : ParSt P} {e : EchoRd P}
    (hn : n.node i = some (.running s st)) (he : s.round = .echo e) {ev : Evidence sp} (hev : st.accum.provable.get? x = some ev) :
    ∃ k, ¬ H k ∧ TwoBroadcasts k g.sid (P.transition e.main).id ev :=
  Loose.recorded rt mt hstrict hmi hac hkey h.looseInit hx hn he hev

/-- C83: evidence filed under the name of a party following the protocol in the report of another one shows that somebody else,
who does not follow the protocol, has signed two broadcasts, unless it was recorded as a message was refused that this party
has sent in a round that is not an echo round. -/
theorem C83_report (rt : sp.EchoRoundTrip) (mt : sp.MetaTotal) (hstrict : EchoStrict P) (hmi : MainIds P) (hac : Acyclic P)
    {g : Group P} {H : sp.Id → Prop} (hkey : ∀ i, H i → sp.verifyingKey (g.signer i) = i) {n : PNet P}
    (h : POpenSteps g H PNet.init n) {i x : sp.Id} (hi : H i) (hx : H x) {rep : Report P}
    (hn : n.node i = some (.done (.ok rep))) {ev : Evidence sp} (hev : rep.provable.get? x = some ev) :
    (∃ k rid, ¬ H k ∧ TwoBroadcasts k g.sid rid ev) ∨ ParRefused g i x :=
  Loose.blamed rt mt hstrict hmi hac hkey h.looseInit hi hx hn hev

/-- C83: so if messages of parties following the protocol are not refused, the evidence in a report never accuses one of them
on the word of another one, and convinces everybody. -/
theorem C83_no_blame (rt : sp.EchoRoundTrip) (mt : sp.MetaTotal) (hstrict : EchoStrict P) (hmi : MainIds P) (hac : Acyclic P)
    {g : Group P} {H : sp.Id → Prop} (hkey : ∀ i, H i → sp.verifyingKey (g.signer i) = i) {n : PNet P}
    (h : POpenSteps g H PNet.init n) {i x : sp.Id} (hi : H i) (hx : H x) (hacc : ¬ ParRefused g i x) {rep : Report P}
    (hn : n.node i = some (.done (.ok rep))) {ev : Evidence sp} (hev : rep.provable.get? x = some ev) (shared : P.Shared) :
    ¬ H ev.guilty ∧ ev.verify P shared = .ok () :=
  Loose.no_blame rt mt hstrict hmi hac hkey h.looseInit hi hx hacc hn hev shared

theorem POpenSteps.trans {g : Group P} {H : sp.Id → Prop} {n n' n'' : PNet P} (h : POpenSteps g H n n')
    (h' : POpenSteps g H n' n'') : POpenSteps g H n n'' := by
  induction h' with
  | refl => exact h
  | step _ hs ih => exact ih.step hs

/-- C83: if the echo rounds of two parties following the protocol hold different broadcasts of `k`, neither accepts the echo
message of the other one; they need not be there at the same time. -/
theorem C83_not_accepted (rt : sp.EchoRoundTrip) (mt : sp.MetaTotal) (hstrict : EchoStrict P) (hmi : MainIds P) (hac : Acyclic P)
    {g : Group P} {H : sp.Id → Prop} (hkey : ∀ i, H i → sp.verifyingKey (g.signer i) = i) {n n' : PNet P}
    (h : POpenSteps g H PNet.init n) (h' : POpenSteps g H PNet.init n') (hor : POpenSteps g H n n' ∨ POpenSteps g H n' n)
    {i j : sp.Id} {s s' : Session P} {st st' : ParSt P} {e e' : EchoRd P}
    (hn : n.node i = some (.running s st)) (hn' : n'.node j = some (.running s' st')) (he : s.round = .echo e)
    (he' : s'.round = .echo e') (hid : s.transition.id = s'.transition.id) (nocoll : NoCollision e' e) {k : sp.Id} (hkj : k ≠ j)
    (hk : e.info.expectedEchos.contains k = true) (hdiff : ¬ SameBroadcast e' e k) :
    st.accum.payloads.contains j = false ∧ (s.comm.expecting.contains j = true → st.accum.canFinalize ≠ .yes) :=
  Loose.not_accepted rt mt hstrict hmi hac hkey h.looseInit h'.looseInit
    (hor.imp (fun k => h.looseNext k) fun k => h'.looseNext k) hn hn' he he' hid nocoll hkj hk hdiff

/-- C83: if the echo rounds of two parties following the protocol hold different broadcasts of `k`, and both expect broadcasts of
the same parties, then whenever the first one gets the result of processing a message of the other one, it records that somebody
who does not follow the protocol has signed two broadcasts. -/
theorem C83_caught (rt : sp.EchoRoundTrip) (mt : sp.MetaTotal) (hstrict : EchoStrict P) (hmi : MainIds P) (hac : Acyclic P)
    {g : Group P} {H : sp.Id → Prop} (hkey : ∀ i, H i → sp.verifyingKey (g.signer i) = i) {n n' : PNet P}
    (h' : POpenSteps g H PNet.init n') (h : POpenSteps g H n' n) {i j : sp.Id} {s s' : Session P} {st st' : ParSt P}
    {e e' : EchoRd P} (hn' : n'.node j = some (.running s' st')) (hn : n.node i = some (.running s st)) (he : s.round = .echo e)
    (he' : s'.round = .echo e') (hid : s.transition.id = s'.transition.id) (nocoll : NoCollision e' e)
    (hgraph : ∀ k, k ≠ j → e.info.expectedEchos.contains k = e'.info.expectedEchos.contains k) {k : sp.Id} (hkj : k ≠ j)
    (hk : e.info.expectedEchos.contains k = true) (hdiff : ¬ SameBroadcast e' e k) {t : Nat} {vm : VerifiedMessage sp}
    (ht : st.tasks[t]? = some vm) (hvm : vm.sender = j)
    (hwait : st.accum.provable.contains j = false ∧ st.accum.payloads.contains j = false ∧ st.accum.notSent.contains j = true) :
    ∃ b ev k', parOp s st (.complete t) = .ok b ∧ b.accum.provable.get? j = some ev ∧ ¬ H k' ∧
      TwoBroadcasts k' g.sid (P.transition e.main).id ev :=
  Loose.caught rt mt hstrict hmi hac hkey h'.looseInit (h'.looseNext h) hn' hn he he' hid nocoll hgraph hkj hk hdiff ht hvm hwait

/-! ## What is recorded stays -/

theorem PFiled.step {st st' : ParState P} {e : ParEvent sp} {x : sp.Id} {ev : Evidence sp}
    (h : PFiled x ev st) (hs : parStep st e = some st') : PFiled x ev st' := by
  cases st with
  | done r => simp [parStep] at hs
  | running s st =>
    have hjoin : ∀ a, parJoin st = .ok a → Filed x ev (.running s a) :=
      fun a hj => h.elim (fun h => .inl (parJoin_provable hj h)) .inr
    rcases parStep_full hs with ⟨r, rfl, hrep⟩ | ⟨o, st1, rfl, -, ho, rfl⟩ | ⟨a, r1, r2, s', cached', hy, hj, hf, rfl⟩
    · cases r with
      | error _ => trivial
      | ok rep =>
        obtain ⟨a, hj, he⟩ := hrep rep rfl
        show rep.provable.get? x = some ev
        rcases he with ⟨-, rng, hf⟩ | ⟨-, ht'⟩
        · obtain ⟨t, hu, hfin⟩ := finalizeRound_ok hf
          cases hfin with
          | result _ _ => exact hu.filed (hjoin a hj)
        · unfold Session.terminateDueToErrors Session.terminateInner at ht'
          cases hu : s.updatedTranscript a with
          | error e => simp [hu] at ht'
          | ok t =>
            simp only [hu, Except.ok.injEq] at ht'
            rw [← ht']
            exact (update_iff.1 hu).filed (hjoin a hj)
    · rcases h with h | h
      · exact .inl (PFiled.op ho h)
      · exact .inr h
    · exact .inr ((finalized_transcript hf).filed (hjoin a hj))

/-- C83: evidence a party has recorded is in its report, whatever happens later. -/
theorem C83_kept {g : Group P} {H : sp.Id → Prop} {n n' : PNet P} (h : POpenSteps g H n n') {i x : sp.Id} {s : Session P}
    {st : ParSt P} (hn : n.node i = some (.running s st)) {ev : Evidence sp} (hev : st.accum.provable.get? x = some ev)
    {rep : Report P} (hn' : n'.node i = some (.done (.ok rep))) : rep.provable.get? x = some ev := by
  have key : ∃ st, n'.node i = some st ∧ PFiled x ev st := by
    clear hn'
    induction h with
    | refl => exact ⟨_, hn, .inl hev⟩
    | step _ hs ih =>
      obtain ⟨st, h1, h2⟩ := ih
      cases hs with
      | @start y rng rng' hy hnone =>
        by_cases hyi : i = y
        · subst hyi
          rw [h1] at hnone
          simp at hnone
        · exact ⟨st, by simp only [PNet.put, Function.update_of_ne hyi]; exact h1, h2⟩
      | @act y s1 st1 st' e out hnode hun hstep hout =>
        by_cases hyi : i = y
        · subst hyi
          rw [h1] at hnode
          simp only [Option.some.injEq] at hnode
          subst hnode
          exact ⟨st', by simp [PNet.put], h2.step hstep⟩
        · exact ⟨st, by simp only [PNet.put, Function.update_of_ne hyi]; exact h1, h2⟩
  obtain ⟨st, h1, h2⟩ := key
  rw [hn'] at h1
  simp only [Option.some.injEq] at h1
  subst h1
  exact h2

/-! ## Accusations -/

/-- C83: evidence in the report of a party following the protocol that accuses a party following the protocol is either filed
under the name of the accused, who has then sent a message in a round that is not an echo round, which was refused; or it is
filed under the name of somebody who does not follow the protocol, and has the echo broadcast the accused has made beside
another hash signed by the accused for the same round. -/
theorem C83_accused (rt : sp.EchoRoundTrip) (mt : sp.MetaTotal) (hstrict : EchoStrict P) (hmi : MainIds P) (hac : Acyclic P)
    (hne : NoEchoErr P) {g : Group P} {H : sp.Id → Prop} (hkey : ∀ i, H i → sp.verifyingKey (g.signer i) = i) {n : PNet P}
    (h : POpenSteps g H PNet.init n) {i x : sp.Id} (hi : H i) {rep : Report P} (hn : n.node i = some (.done (.ok rep)))
    {ev : Evidence sp} (hev : rep.provable.get? x = some ev) (hg : H ev.guilty) :
    (x = ev.guilty ∧ ParRefused g i x) ∨ (¬ H x ∧ ∃ s w, ParMisquoted g ev.guilty s w ev) :=
  Loose.accused rt mt hstrict hmi hac hne hkey h.looseInit hi hn hev hg

/-- C83: if the signed hash is not forged, the other hash is that of the normal broadcast or of a direct message of the accused in
the same round. -/
theorem C83_kind_confusion (rt : sp.EchoRoundTrip) (mt : sp.MetaTotal) (hstrict : EchoStrict P) (hmi : MainIds P)
    (hac : Acyclic P) (hne : NoEchoErr P) {g : Group P} {H : sp.Id → Prop}
    (hkey : ∀ i, H i → sp.verifyingKey (g.signer i) = i) {n : PNet P} (h : POpenSteps g H PNet.init n)
    {i x : sp.Id} (hi : H i) {rep : Report P} (hn : n.node i = some (.done (.ok rep))) {ev : Evidence sp}
    (hev : rep.provable.get? x = some ev) (hg : H ev.guilty)
    (hunf : ∀ p w, ev.body = .mismatched ev.guilty p w → HashUnforged H g.sid n.wire w) :
    (x = ev.guilty ∧ ParRefused g i x) ∨
      (¬ H x ∧ ∃ s w, ParMisquoted g ev.guilty s w ev ∧ ∃ q ∈ n.wire, ParOwnPacket g ev.guilty s.transition.id q ∧
        q.message.echo = s.echo ∧
        (w.hash = sp.partHash q.message.normal.part ∨ w.hash = sp.partHash q.message.direct.part)) :=
  Loose.kind_confusion rt mt hstrict hmi hac hne hkey h.looseInit hi hn hev hg hunf

/-- C83: so if signatures told the kind of what is signed, parties following the protocol would only be accused over messages
they have sent that were refused. -/
theorem C83_if_kinds_were_signed (rt : sp.EchoRoundTrip) (mt : sp.MetaTotal) (hstrict : EchoStrict P) (hmi : MainIds P)
    (hac : Acyclic P) (hne : NoEchoErr P) {g : Group P} {H : sp.Id → Prop}
    (hkey : ∀ i, H i → sp.verifyingKey (g.signer i) = i) {n : PNet P} (h : POpenSteps g H PNet.init n)
    {i x : sp.Id} (hi : H i) {rep : Report P} (hn : n.node i = some (.done (.ok rep))) {ev : Evidence sp}
    (hev : rep.provable.get? x = some ev) (hg : H ev.guilty)
    (hunf : ∀ p w, ev.body = .mismatched ev.guilty p w → EchoHashUnforged H g.sid n.wire w) :
    x = ev.guilty ∧ ParRefused g i x :=
  Loose.if_kinds_were_signed rt mt hstrict hmi hac hne hkey h.looseInit hi hn hev hg hunf

/-! ## Examples -/

/-- Parties 1 and 2 follow the protocol; party 3 sends them different echo broadcasts.  At the end party 1 is processing the message
of party 2 for the echo round. -/
def popenTwoFaced : List (POpenAct toy) :=
  [.start (1 : U8), .start (2 : U8), .send (1 : U8) 1, .send (1 : U8) 0, .send (2 : U8) 0, .send (2 : U8) 0,
    .forward 3 (1 : U8) (2 : U8), .forward 0 (2 : U8) (1 : U8)] ++
    popenDemo 3 1 (RoundId.new 1) (some [5]) (some [3]) (some [7]) ++ popenDemo 3 2 (RoundId.new 1) (some [6]) (some [4]) (some [8]) ++
    [.complete (1 : U8) 1, .complete (1 : U8) 0, .complete (2 : U8) 0, .complete (2 : U8) 0, .tick (1 : U8), .tick (2 : U8),
      .send (2 : U8) 0, .forward 4 (1 : U8) (2 : U8)]

/-- Whether the parties 1 and 2 are in the same echo round, hold different broadcasts of party 3, and party 1 is processing a
message of party 2. -/
def pdiffering {P : Proto toy} (n : PNet P) : Bool :=
  match n.node (1 : U8), n.node (2 : U8) with
  | some (.running s st), some (.running s' _) =>
    match s.round, s'.round, st.tasks[0]? with
    | .echo e, .echo e', some vm =>
      decide (s.transition.id = s'.transition.id) &&
        decide (e.info.expectedEchos.erase (2 : U8) = e'.info.expectedEchos.erase (2 : U8)) &&
        e.info.expectedEchos.contains (3 : U8) &&
        decide ((e.echoBroadcasts.get? (3 : U8)).map (fun p => p.part) ≠ (e'.echoBroadcasts.get? (3 : U8)).map (fun p => p.part)) &&
        s.comm.expecting.contains (2 : U8) && isTwo vm.sender && !st.accum.provable.contains (2 : U8) &&
        !st.accum.payloads.contains (2 : U8) && st.accum.notSent.contains (2 : U8)
    | _, _, _ => false
  | _, _ => false

/-- The hypotheses of `C83_verdict`, `C83_not_accepted` and `C83_caught` can be met. -/
example : ∃ (n : PNet (demo true 2).wrap) (s s' : Session (demo true 2).wrap) (st st' : ParSt (demo true 2).wrap)
    (e e' : EchoRd (demo true 2).wrap) (vm : VerifiedMessage toy),
    POpenSteps (demoGroup true 2 (BSet.ofList [1, 2, 3])) (fun i : U8 => i ∈ ([1, 2] : List U8)) PNet.init n ∧
      n.node (1 : U8) = some (.running s st) ∧ n.node (2 : U8) = some (.running s' st') ∧ s.round = .echo e ∧ s'.round = .echo e' ∧
      s.transition.id = s'.transition.id ∧ NoCollision e' e ∧
      (∀ k : U8, k ≠ 2 → e.info.expectedEchos.contains k = e'.info.expectedEchos.contains k) ∧
      e.info.expectedEchos.contains (3 : U8) = true ∧ ¬ SameBroadcast e' e (3 : U8) ∧ s.comm.expecting.contains (2 : U8) = true ∧
      st.tasks[0]? = some vm ∧ vm.sender = (2 : U8) ∧ st.accum.provable.contains (2 : U8) = false ∧
      st.accum.payloads.contains (2 : U8) = false ∧ st.accum.notSent.contains (2 : U8) = true := by
  have h : pdiffering (popenRun (0 : Nat) (demoGroup true 2 (BSet.ofList [1, 2, 3])) ([1, 2] : List U8) popenTwoFaced PNet.init) =
      true := by
    decide +kernel
  have r1 := popenRun_steps (sp := toy) (0 : Nat) (g := demoGroup true 2 (BSet.ofList [1, 2, 3])) (H := ([1, 2] : List U8))
    popenTwoFaced (n₀ := PNet.init) .refl
  generalize popenRun (sp := toy) (0 : Nat) (demoGroup true 2 (BSet.ofList [1, 2, 3])) ([1, 2] : List U8) popenTwoFaced PNet.init = n
    at h r1
  unfold pdiffering at h
  split at h
  · rename_i s st s' st' h1 h2
    split at h
    · rename_i e e' vm h3 h4 h5
      simp only [Bool.and_eq_true, decide_eq_true_eq, Bool.not_eq_true', ne_eq, isTwo] at h
      obtain ⟨⟨⟨⟨⟨⟨⟨⟨k1, k2⟩, k3⟩, k4⟩, k5⟩, k6⟩, k7⟩, k8⟩, k9⟩ := h
      refine ⟨n, s, s', st, st', e, e', vm, r1, h1, h2, h3, h4, k1, fun k p p' _ _ hc => toy_hashInjective _ _ hc,
        fun k hk => erase_contains k2 hk, k3, ?_, k5, h5, k6, k7, k8, k9⟩
      rintro ⟨p, p', h5, h6, -, h7⟩
      refine k4 ?_
      rw [h5, h6]
      exact congrArg some h7.symm
    · exact (Bool.false_ne_true h).elim
  · exact (Bool.false_ne_true h).elim

/-- Party 3 sends its message for the echo round to party 1, which gives up. -/
def popenGivesUp : List (POpenAct toy) :=
  popenDemo 3 1 ⟨1, [], true⟩ none none (some (demoPack (RoundId.new 1) [(1, [1]), (2, [2])])) ++
    [.complete (1 : U8) 0, .tick (1 : U8)]

/-- Whether party 1 is in an echo round and has evidence filed under the name of party 2, and has it in its report later. -/
def pcaughtThen {P : Proto toy} (n n' : PNet P) : Bool :=
  match n.node (1 : U8), n'.node (1 : U8) with
  | some (.running s st), some (.done (.ok rep)) =>
    (match s.round with | .echo _ => true | .main _ => false) && st.accum.provable.contains (2 : U8) &&
      rep.provable.contains (2 : U8)
  | _, _ => false

/-- A property of the rounds that `finalize` keeps. -/
theorem pvisits_rd {sp : SP} {P : Proto sp} {I : P.Rd → Prop}
    (hfin : ∀ r rng ps as r', I r → P.finalize r rng ps as = .ok (.anotherRound r') → I r') {s₀ s : Session P}
    {trail : List (Session P × Accum P)} {cached : List (VerifiedMessage sp)} (h : PVisits s₀ trail s cached)
    (h0 : ∃ r, s₀.round = .main r ∧ I r) : ∃ r, I r ∧ (s.round = .main r ∨ ∃ e, s.round = .echo e ∧ e.main = r) := by
  have hmain : ∀ (r r' : P.Rd) (rng : sp.Rng) ps as, I r → SRound.finalizeMain r rng ps as = .ok (.anotherRound r') → I r' := by
    intro r r' rng ps as hI hf
    unfold SRound.finalizeMain at hf
    split at hf
    · simp at hf
    · split at hf
      · simp at hf
      · exact hfin _ _ _ _ _ hI hf
  induction h with
  | first => obtain ⟨r, h1, h2⟩ := h0; exact ⟨r, h2, .inl h1⟩
  | @next trail s s' cached cached' rng' l a hv hseq hy hf ih =>
    obtain ⟨r, hI, hr⟩ := ih
    obtain ⟨t, -, hfin'⟩ := finalizeRound_ok hf
    cases hfin' with
    | toEcho h1 h2 h3 h4 =>
      rcases hr with hr | ⟨e, hr, -⟩
      · rw [h2] at hr
        cases hr
        exact ⟨_, hI, .inr ⟨_, h4.round, rfl⟩⟩
      · rw [h2] at hr
        cases hr
    | toNext h1 h2 h3 h4 h5 =>
      refine ⟨_, ?_, .inl h4.round⟩
      rcases hr with hr | ⟨e, hr, rfl⟩
      · rw [hr] at h2
        exact hmain _ _ _ _ _ hI h2
      · rw [hr] at h2
        exact hmain _ _ _ _ _ hI h2

/-- The messages of the example protocol are not refused. -/
theorem demo_not_parRefused (last : U8) (i x : U8) : ¬ ParRefused (demoGroup true last (BSet.ofList [1, 2, 3])) i x := by
  rintro ⟨s, r, m, err, ⟨rng, s₀, st, hnew, hv⟩, hr, ⟨s', ⟨rng', s₀', st', hnew', hv'⟩, hid, he, hn, d, rng1, art, hd, hmd⟩, herr⟩
  obtain ⟨tr, c, -, -, hv, -⟩ := parAny_running hv
  obtain ⟨tr', c', -, -, hv', -⟩ := parAny_running hv'
  obtain ⟨hp0, -, -, -, hm0⟩ := new_proper hnew
  obtain ⟨hp0', -, -, -, hm0'⟩ := new_proper hnew'
  have hp := (pvisits_inv hp0 hm0 hv).proper
  have hp' := (pvisits_inv hp0' hm0' hv').proper
  have hne : s'.roundId.isEcho = false := by
    have h1 : s.roundId = ((demo true last).wrap.transition r).id := by
      have := hp.transition
      rw [hr] at this
      simp only [SRound.transition, Except.ok.injEq] at this
      unfold Session.roundId
      rw [this]
    unfold Session.roundId at h1 ⊢
    rw [hid, h1]
    exact demo_mainIds true last r
  obtain ⟨r', hr', -⟩ := main_of_id (demo_mainIds true last) hp' hne
  obtain ⟨q, ⟨hme, hoth⟩, hq⟩ := pvisits_rd (P := (demo true last).wrap)
    (I := fun q : DemoSt => q.me = x ∧ q.others = (BSet.ofList [1, 2, 3]).erase x)
    (by
      intro r rng ps as r' hI hf
      simp only [TypedProto.wrap, demo] at hf
      split at hf
      · simp at hf
      · cases hf
        exact hI) hv'
    (by
      unfold Session.new at hnew'
      simp only [demoGroup, demoEntry] at hnew'
      have := newForNextRound_ok hnew'
      exact ⟨_, this.round, rfl, rfl⟩)
  have hqr : q = r' := by
    rcases hq with hq | ⟨e, hq, -⟩
    · rw [hr'] at hq
      cases hq
      rfl
    · rw [hr'] at hq
      cases hq
  subst hqr
  have hcomm : s'.comm.destinations = (BSet.ofList [1, 2, 3]).erase x := by
    rw [hp'.comm, hr', ← hoth]
    rfl
  have hd' := hd
  rw [hcomm] at hd'
  obtain ⟨h66, h67⟩ := erased_small x d hd'
  have hnonempty : s'.comm.destinations.isEmpty = false := BMap.isEmpty_eq_false.2 ⟨d, hd⟩
  obtain ⟨rng2, hE⟩ := hp'.echoPart
  obtain ⟨rng3, hN⟩ := hp'.normalPart
  rw [hnonempty, hr'] at hE hN
  rw [hr'] at hmd
  have hE2 : (Except.ok (⟨some [q.me]⟩ : Part .echo) : Except LErr _) = .ok s'.echo.part := hE
  have hN2 : (Except.ok (⟨some [q.n]⟩ : Part .normal) : Except LErr _) = .ok s'.normal.part := hN
  have hD2 : (Except.ok ((⟨some [d]⟩ : Part .direct), some ()) : Except LErr _) = .ok (m.direct, art) := hmd
  simp only [Except.ok.injEq] at hE2 hN2 hD2
  have hD3 : (⟨some [d]⟩ : Part .direct) = m.direct := congrArg Prod.fst hD2
  obtain ⟨v, hv⟩ := demo_receives true last r x d q.n ⟨some [x]⟩ h66 h67 rfl
  rw [show m = ⟨⟨some [x]⟩, ⟨some [q.n]⟩, ⟨some [d]⟩⟩ by
    cases m
    simp only at he hn hD3
    rw [he, hn, ← hE2, ← hN2, ← hD3, hme]] at herr
  rw [hv] at herr
  cases herr

/-- The hypotheses of `C83_recorded`, `C83_kept`, `C83_report` and `C83_no_blame` can be met. -/
example : ∃ (n n' : PNet (demo true 2).wrap) (s : Session (demo true 2).wrap) (st : ParSt (demo true 2).wrap)
    (e : EchoRd (demo true 2).wrap) (ev ev' : Evidence toy) (rep : Report (demo true 2).wrap),
    POpenSteps (demoGroup true 2 (BSet.ofList [1, 2, 3])) (fun i : U8 => i ∈ ([1, 2] : List U8)) PNet.init n ∧
      POpenSteps (demoGroup true 2 (BSet.ofList [1, 2, 3])) (fun i : U8 => i ∈ ([1, 2] : List U8)) n n' ∧
      n.node (1 : U8) = some (.running s st) ∧ s.round = .echo e ∧ st.accum.provable.get? (2 : U8) = some ev ∧
      n'.node (1 : U8) = some (.done (.ok rep)) ∧ rep.provable.get? (2 : U8) = some ev' ∧
      ¬ ParRefused (demoGroup true 2 (BSet.ofList [1, 2, 3])) (1 : U8) (2 : U8) := by
  have h : pcaughtThen (popenRun (0 : Nat) (demoGroup true 2 (BSet.ofList [1, 2, 3])) ([1, 2] : List U8)
      (popenTwoFaced ++ [.complete (1 : U8) 0]) PNet.init)
      (popenRun (0 : Nat) (demoGroup true 2 (BSet.ofList [1, 2, 3])) ([1, 2] : List U8) popenGivesUp
        (popenRun (0 : Nat) (demoGroup true 2 (BSet.ofList [1, 2, 3])) ([1, 2] : List U8) (popenTwoFaced ++ [.complete (1 : U8) 0])
          PNet.init)) = true := by
    decide +kernel
  have r1 := popenRun_steps (sp := toy) (0 : Nat) (g := demoGroup true 2 (BSet.ofList [1, 2, 3])) (H := ([1, 2] : List U8))
    (popenTwoFaced ++ [.complete (1 : U8) 0]) (n₀ := PNet.init) .refl
  have r2 := popenRun_steps (sp := toy) (0 : Nat) (g := demoGroup true 2 (BSet.ofList [1, 2, 3])) (H := ([1, 2] : List U8))
    popenGivesUp
    (n₀ := popenRun (0 : Nat) (demoGroup true 2 (BSet.ofList [1, 2, 3])) ([1, 2] : List U8) (popenTwoFaced ++ [.complete (1 : U8) 0])
      PNet.init) .refl
  generalize popenRun (sp := toy) (0 : Nat) (demoGroup true 2 (BSet.ofList [1, 2, 3])) ([1, 2] : List U8)
    (popenTwoFaced ++ [.complete (1 : U8) 0]) PNet.init = n at h r1 r2
  generalize popenRun (sp := toy) (0 : Nat) (demoGroup true 2 (BSet.ofList [1, 2, 3])) ([1, 2] : List U8) popenGivesUp n = n'
    at h r2
  unfold pcaughtThen at h
  split at h
  · rename_i s st rep h1 h2
    simp only [Bool.and_eq_true] at h
    obtain ⟨⟨h3, h4⟩, h5⟩ := h
    obtain ⟨ev, h4⟩ := BMap.contains_iff.1 h4
    obtain ⟨ev', h5⟩ := BMap.contains_iff.1 h5
    split at h3
    · rename_i e he
      exact ⟨n, n', s, st, e, ev, ev', rep, r1, r2, h1, he, h4, h2, h5, demo_not_parRefused 2 1 2⟩
    · cases h3
  · exact (Bool.false_ne_true h).elim

/-- Everybody sends one broadcast; in the echo round party 3 misquotes party 2. -/
def popenFraming : List (POpenAct toy) :=
  [.start (1 : U8), .start (2 : U8), .send (1 : U8) 1, .send (1 : U8) 0, .send (2 : U8) 0, .send (2 : U8) 0,
    .forward 3 (1 : U8) (2 : U8), .forward 0 (2 : U8) (1 : U8)] ++
    popenDemo 3 1 (RoundId.new 1) (some [5]) (some [3]) (some [7]) ++ popenDemo 3 2 (RoundId.new 1) (some [6]) (some [3]) (some [8]) ++
    [.complete (1 : U8) 1, .complete (1 : U8) 0, .complete (2 : U8) 0, .complete (2 : U8) 0, .tick (1 : U8), .tick (2 : U8),
      .send (2 : U8) 0, .forward 4 (1 : U8) (2 : U8)] ++
    popenDemo 3 1 ⟨1, [], true⟩ none none (some framingPack) ++
    [.complete (1 : U8) 0, .complete (1 : U8) 0, .tick (1 : U8)]

/-- Whether party 1 reports evidence against party 2 under the name of party 3, with a hash only party 2 has signed. -/
def pmisquoting {P : Proto toy} (n : PNet P) : Bool :=
  match n.node (1 : U8), n.wire[3]? with
  | some (.done (.ok rep)), some q =>
    match rep.provable.get? (3 : U8) with
    | some ⟨g, .mismatched g' w h⟩ =>
      decide (q.src = (2 : U8)) && isTwo g && isTwo g' && decide (h = q.message.normal.toSignedHash toy) &&
        (match h.verify toy (1 : U8) with | .ok _ => false | .error _ => true)
    | _ => false
  | _, _ => false

/-- The hypotheses of `C83_accused` and `C83_kind_confusion` can be met, and it is the second case that occurs. -/
example : ∃ (n : PNet (demo true 2).wrap) (rep : Report (demo true 2).wrap) (ev : Evidence toy),
    toy.EchoRoundTrip ∧ toy.MetaTotal ∧ EchoStrict (demo true 2).wrap ∧ MainIds (demo true 2).wrap ∧ Acyclic (demo true 2).wrap ∧
      NoEchoErr (demo true 2).wrap ∧
      POpenSteps (demoGroup true 2 (BSet.ofList [1, 2, 3])) (fun i : U8 => i ∈ ([1, 2] : List U8)) PNet.init n ∧
      n.node (1 : U8) = some (.done (.ok rep)) ∧ rep.provable.get? (3 : U8) = some ev ∧ ev.guilty = (2 : U8) ∧
      (∀ p w, ev.body = .mismatched ev.guilty p w → HashUnforged (fun i : U8 => i ∈ ([1, 2] : List U8)) [9] n.wire w) := by
  have h : pmisquoting (popenRun (0 : Nat) (demoGroup true 2 (BSet.ofList [1, 2, 3])) ([1, 2] : List U8) popenFraming PNet.init) =
      true := by
    decide +kernel
  have r1 := popenRun_steps (sp := toy) (0 : Nat) (g := demoGroup true 2 (BSet.ofList [1, 2, 3])) (H := ([1, 2] : List U8))
    popenFraming (n₀ := PNet.init) .refl
  generalize popenRun (sp := toy) (0 : Nat) (demoGroup true 2 (BSet.ofList [1, 2, 3])) ([1, 2] : List U8) popenFraming PNet.init = n
    at h r1
  unfold pmisquoting at h
  split at h
  · rename_i rep q h1 h2
    split at h
    · rename_i g g' w x h3
      simp only [isTwo, Bool.and_eq_true, decide_eq_true_eq] at h
      obtain ⟨⟨⟨⟨k1, k2⟩, k3⟩, k4⟩, k5⟩ := h
      subst k2 k3 k4
      refine ⟨n, rep, _, toy_echoRoundTrip, toy_metaTotal, demo_strict true 2, demo_mainIds true 2, demo_acyclic true 2,
        typed_noEchoErr _, r1, h1, h3, rfl, ?_⟩
      intro p y hy
      simp only [EvBody.mismatched.injEq, true_and] at hy
      obtain ⟨-, rfl⟩ := hy
      intro k hk hs _
      rcases one_or_two k hk with rfl | rfl
      · rw [(hash_verify_ok (u := ())).2 hs] at k5
        cases k5
      · exact ⟨q, List.mem_of_getElem? h2, k1, .inr (.inl ⟨rfl, rfl⟩)⟩
    · exact (Bool.false_ne_true h).elim
  · exact (Bool.false_ne_true h).elim

/-- Whether party 66 reports evidence against party 1, not of a mismatch. -/
def prefusingOne {P : Proto toy} (n : PNet P) : Bool :=
  match n.node (66 : U8) with
  | some (.done (.ok rep)) =>
    match rep.provable.get? (1 : U8) with
    | some ⟨_, .mismatched _ _ _⟩ => false
    | some ev => isOne ev.guilty
    | none => false
  | _ => false

/-- The hypotheses of `C83_if_kinds_were_signed` can be met. -/
example : ∃ (n : PNet (demo true 2).wrap) (rep : Report (demo true 2).wrap) (ev : Evidence toy),
    POpenSteps (demoGroup true 2 (BSet.ofList [1, 66])) (fun i : U8 => i ∈ ([1, 66] : List U8)) PNet.init n ∧
      n.node (66 : U8) = some (.done (.ok rep)) ∧ rep.provable.get? (1 : U8) = some ev ∧ ev.guilty = (1 : U8) ∧
      (∀ p w, ev.body = .mismatched ev.guilty p w → EchoHashUnforged (fun i : U8 => i ∈ ([1, 66] : List U8)) [9] n.wire w) := by
  have h : prefusingOne (popenRun (0 : Nat) (demoGroup true 2 (BSet.ofList [1, 66])) ([1, 66] : List U8) popenRefused PNet.init) =
      true := by
    decide +kernel
  have r1 := popenRun_steps (sp := toy) (0 : Nat) (g := demoGroup true 2 (BSet.ofList [1, 66])) (H := ([1, 66] : List U8))
    popenRefused (n₀ := PNet.init) .refl
  generalize popenRun (sp := toy) (0 : Nat) (demoGroup true 2 (BSet.ofList [1, 66])) ([1, 66] : List U8) popenRefused PNet.init = n
    at h r1
  unfold prefusingOne at h
  split at h
  · rename_i rep h1
    split at h
    · cases h
    · rename_i ev hnot h3
      refine ⟨n, rep, ev, r1, h1, h3, isOne_spec h, ?_⟩
      intro p w hb
      obtain ⟨g, b⟩ := ev
      simp only at hb
      subst hb
      exact absurd rfl (hnot _ _ _ _)
    · cases h
  · cases h

end Manul
