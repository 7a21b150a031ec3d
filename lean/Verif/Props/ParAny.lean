import Verif.Lemmas.Loose
import Verif.Props.Run
import Verif.Props.Echo
import Verif.Props.EvidenceComplete
import Verif.Lemmas.OpenRun
import Verif.Lemmas.Cooperative

/-!
# C82: `par_run_session` in an arbitrary environment

C60 compares `par_run_session` with `run_session`, but only if no party sends a message while an earlier one of it is being
processed.  Here nothing is assumed about the messages and the order in which tasks finish.  In the theorems about the network an
adversary controls everything but the parties in `H`, as in `Verif.Props.Open`.
-/

namespace Manul

variable {sp : SP} {P : Proto sp}

/-! ## One session -/

/-- C82: whenever `par_run_session` is about to finalize a round, `Round::finalize` is called for payloads of exactly the expected
parties, each of which the round has computed from three parts signed by their owner for this session and this round, and for
artifacts of exactly the destinations. -/
theorem C82_finalize {rng : sp.Rng} {sid : Bytes} {signer : sp.Signer} {ep : EntryPoint P} {s₀ s : Session P} {st : ParSt P}
    {a : Accum P} (h0 : Session.new rng sid signer ep = .ok s₀) (h : ParAny s₀ (.running s st))
    (hy : st.accum.canFinalize = .yes) (hj : parJoin st = .ok a) :
    ∃ ps as, (∀ rng, s.round.finalize rng a.payloads a.artifacts = P.finalize (finalizing s a).1 rng ps as) ∧
      (∀ x w, ps.get? x = some w → SignedPayload P sid (finalizing s a).1 x w) ∧
      FinalizeArgs P (finalizing s a).1 ps as := by
  obtain ⟨hp, hsid, -, -, hm⟩ := new_proper h0
  obtain ⟨tr, cached, rng0, ops, hv, hr⟩ := parAny_running h
  have hi := pvisits_inv hp hm hv
  have hany : AnyRound s cached (parDeliveries ops) a := ⟨rng0, ops, st, hr, hj, rfl⟩
  exact finalize_call_core hsid hi (anyRound_rinv hany (by rw [hi.sessionId]; exact hi.authentic)) (anyRound_reach hany)
    (anyRound_artifacts hany) (by rw [join_keeps hj]; exact hy)

/-- C82: at any time, everything stored for a party was signed by it for this session and this round, and the payload was made of
it. -/
theorem C82_stored {rng : sp.Rng} {sid : Bytes} {signer : sp.Signer} {ep : EntryPoint P} {s₀ s : Session P} {st : ParSt P}
    (h0 : Session.new rng sid signer ep = .ok s₀) (h : ParAny s₀ (.running s st)) {x : sp.Id} {v : Option P.Payload}
    (hx : st.accum.payloads.get? x = some v) :
    ∃ vm : VerifiedMessage sp, Authentic x sid s.transition.id vm.direct vm.echo vm.normal ∧ s.round.receive x vm.dyn = .ok v ∧
      st.accum.echos.get? x = Loc.storePart none vm.echo ∧ st.accum.normals.get? x = Loc.storePart none vm.normal ∧
      st.accum.directs.get? x = Loc.storePart none vm.direct := by
  obtain ⟨hp, hsid, -, -, hm⟩ := new_proper h0
  obtain ⟨tr, cached, rng0, ops, hv, hr⟩ := parAny_running h
  have hi := pvisits_inv hp hm hv
  obtain ⟨vm, -, -, hau, hrc, h1, h2, h3⟩ := ((parRound_ainv (Q := fun _ _ _ => True) hr
    (fun vm hvm => ⟨by rw [hi.sessionId]; exact hi.authentic vm hvm, trivial⟩) (fun _ _ _ => trivial)).1 x).2.present v hx
  refine ⟨vm, ?_, hrc, h1, h2, h3⟩
  rw [← hsid, ← hi.sessionId]
  exact hau

/-- C82: every entry of a report that is not about mismatched broadcasts is filed under the party its evidence accuses. -/
theorem C82_filed {rng : sp.Rng} {sid : Bytes} {signer : sp.Signer} {ep : EntryPoint P} {s₀ : Session P} {rep : Report P}
    (h0 : Session.new rng sid signer ep = .ok s₀) (h : ParAny s₀ (.done (.ok rep))) {x : sp.Id} {ev : Evidence sp}
    (hx : rep.provable.get? x = some ev) (hb : ∀ g w e, ev.body ≠ .mismatched g w e) : ev.guilty = x := by
  obtain ⟨trail, s, cached, vm, hv, hs, -, hrec, -⟩ := preport_origin h0 h hx
  cases hrec with
  | direct hr => exact hs
  | echoBroadcast hr => exact hs
  | normal hr => exact hs
  | protocol hr hev =>
    obtain ⟨prev, comb, bytes, -, -, -, hevd⟩ := newProvableError_ok hev
    rw [hevd]
    exact hs
  | @echo err hr =>
    cases err with
    | invalidEcho k => exact hs
    | mismatched g w e => exact absurd rfl (hb g w e)

/-- C82: evidence of a malformed part in a report accuses the party it is filed under, and verifies. -/
theorem C82_malformed_verifies (T : TypedProto sp) (tc : TagConsistent T) (mi : MainIds T.wrap) {rng : sp.Rng} {sid : Bytes}
    {signer : sp.Signer} {ep : EntryPoint T.wrap} {s₀ : Session T.wrap} {rep : Report T.wrap}
    (h0 : Session.new rng sid signer ep = .ok s₀) (h : ParAny s₀ (.done (.ok rep))) {x : sp.Id} {ev : Evidence sp}
    (hx : rep.provable.get? x = some ev) (hb : ev.body.Malformed) (shared : T.Shared) :
    ev.guilty = x ∧ ev.verify T.wrap shared = .ok () := by
  obtain ⟨trail, s, cached, vm, hv, hs, hau, hrec, -⟩ := preport_origin h0 h hx
  obtain ⟨hp0, -, -, -, hm0⟩ := new_proper h0
  exact malformed_recorded T tc mi (pvisits_inv hp0 hm0 hv).proper hs hau hrec hb shared

/-- C82: evidence of mismatched broadcasts in a report verifies, and accuses a party that has signed two different echo broadcasts
for the same round. -/
theorem C82_mismatched_verifies (sc : sp.SignCorrect) (srt : sp.SigRoundTrip) (mi : MainIds P) (ne : NoEchoErr P) {rng : sp.Rng}
    {sid : Bytes} {signer : sp.Signer} {ep : EntryPoint P} {s₀ : Session P} {rep : Report P}
    (h0 : Session.new rng sid signer ep = .ok s₀) (h : ParAny s₀ (.done (.ok rep))) {x : sp.Id} {ev : Evidence sp} {g : sp.Id}
    {w : SignedPart .echo} {e : SignedHash} (hx : rep.provable.get? x = some ev) (hb : ev.body = .mismatched g w e)
    (shared : P.Shared) :
    ev.guilty = g ∧ ev.verify P shared = .ok () ∧ SigValid g w ∧ HashSigned g e ∧ w.metadata = e.metadata ∧
      w.metadata.sessionId = sid ∧ e.hash ≠ sp.partHash w.part := by
  obtain ⟨hp0, hsid0, -, ht0, hm0⟩ := new_proper h0
  obtain ⟨trail, s, cached, vm, hv, -, -, hrec, -⟩ := preport_origin h0 h hx
  have hok := pvisits_transcript sc srt mi hp0 hm0 ht0 hv
  rw [hsid0] at hok
  exact mismatched_recorded ne hok (fun _ he => pvisits_echo_transcript hp0 hm0 hv he) hrec hb shared

/-- C82: evidence of an invalid echo accuses the party it is filed under, and verifies unless the entry is a hash signed by the
third party for the echo round itself. -/
theorem C82_invalid_echo (mt : sp.MetaTotal) (ne : NoEchoErr P) {rng : sp.Rng} {sid : Bytes} {signer : sp.Signer}
    {ep : EntryPoint P} {s₀ : Session P} {rep : Report P} (h0 : Session.new rng sid signer ep = .ok s₀)
    (h : ParAny s₀ (.done (.ok rep))) {x : sp.Id} {ev : Evidence sp} {n : SignedPart .normal} {k : sp.Id}
    (hx : rep.provable.get? x = some ev) (hb : ev.body = .invalidEcho n k) (shared : P.Shared) :
    ev.guilty = x ∧ ∃ pack hh, Decodes n.part pack ∧ pack.get? k = some hh ∧ SigValid x n ∧ n.metadata.sessionId = sid ∧
      (ev.verify P shared = .ok () ↔ ¬ (HashSigned k hh ∧ hh.metadata = n.metadata)) := by
  obtain ⟨hp0, hsid0, -, ht0, hm0⟩ := new_proper h0
  obtain ⟨trail, s, cached, vm, hv, hs, hau, hrec, -⟩ := preport_origin h0 h hx
  have hsid : s.sessionId = sid := (pvisits_inv hp0 hm0 hv).sessionId.trans hsid0
  exact invalidEcho_recorded mt ne hsid hs hau hrec hb shared

/-- C82: evidence of a protocol error in a report was made from an authentic message a round of the session rejected with the error,
and is verified by giving the protocol's check exactly the parts it asked for. -/
theorem C82_represents (sc : sp.SignCorrect) (srt : sp.SigRoundTrip) (mi : MainIds P) {rng : sp.Rng} {sid : Bytes}
    {signer : sp.Signer} {ep : EntryPoint P} {s₀ : Session P} {rep : Report P} (h0 : Session.new rng sid signer ep = .ok s₀)
    (h : ParAny s₀ (.done (.ok rep))) {x : sp.Id} {ev : Evidence sp} {pe : ProtocolEvidence sp}
    (hx : rep.provable.get? x = some ev) (hb : ev.body = .protocol pe) :
    ev.guilty = x ∧ ∃ trail s cached, ∃ vm : VerifiedMessage sp, ∃ req bytes, PVisits s₀ trail s cached ∧ vm.sender = x ∧
      Authentic x sid s.roundId vm.direct vm.echo vm.normal ∧
      s.round.receive x vm.dyn = .error (.protocol req (.ok bytes)) ∧ TranscriptOk sid s.transcript ∧
      RequestedHeld s.transcript x req ∧
      (req.thisRound.some? = true → ∀ info shared, P.roundInfo s.roundId = some info →
        ∃ prev comb, PreviousShown s.transcript x req prev ∧ CombinedShown s.transcript x req comb ∧
          ev.verify P shared = info.verifyEvidence s.roundId bytes x sid shared
            ⟨asked req.thisRound.direct (some vm.direct.part), asked req.thisRound.normal (some vm.normal.part),
              asked req.thisRound.echo (some vm.echo.part)⟩ prev comb) := by
  obtain ⟨hp0, hsid0, -, ht0, hm0⟩ := new_proper h0
  obtain ⟨trail, s, cached, vm, hv, hs, hau, hrec, -⟩ := preport_origin h0 h hx
  have hok := pvisits_transcript sc srt mi hp0 hm0 ht0 hv
  rw [hsid0] at hok
  rw [(pvisits_inv hp0 hm0 hv).sessionId, hsid0] at hau
  obtain ⟨h1, req, bytes, h2, h3, h4⟩ := protocol_recorded hok hs hau hrec hb
  exact ⟨h1, trail, s, cached, vm, req, bytes, hv, hs, hau, h2, hok, h3, h4⟩

/-! ## The network -/

/-- C82: whatever a party following the protocol has accepted from another one, the other one has sent in the same round of the
same session. -/
theorem C82_integrity {g : Group P} {H : sp.Id → Prop} {n : PNet P} (h : POpenSteps g H PNet.init n) {i x : sp.Id}
    {s : Session P} {st : ParSt P} (hn : n.node i = some (.running s st)) (hx : H x) {v : Option P.Payload}
    (hv : st.accum.payloads.get? x = some v) :
    ∃ m, ParSentIn g n.wire x s.transition.id m ∧ s.round.receive x m = .ok v :=
  Loose.integrity h.looseInit hn hx hv

/-- C82: when a round is finalized, possibly after its echo round, the payloads of parties following the protocol are made of
what they have sent in this round. -/
theorem C82_finalizing {g : Group P} {H : sp.Id → Prop} {n : PNet P} (h : POpenSteps g H PNet.init n) {i x : sp.Id}
    {s : Session P} {st : ParSt P} (hn : n.node i = some (.running s st)) (hx : H x) {v : Option P.Payload}
    (hv : (finalizing s st.accum).2.1.get? x = some v) :
    ∃ w m, v = some w ∧ ParSentIn g n.wire x (P.transition (finalizing s st.accum).1).id m ∧
      P.receive (finalizing s st.accum).1 x m = .ok w :=
  Loose.finalized h.looseInit hn hx hv

/-- C82: evidence against a party following the protocol in the report of another one is based on what the party has sent. -/
theorem C82_report {g : Group P} {H : sp.Id → Prop} {n : PNet P} (h : POpenSteps g H PNet.init n) {i x : sp.Id} {rep : Report P}
    (hn : n.node i = some (.done (.ok rep))) (hx : H x) {ev : Evidence sp} (hev : rep.provable.get? x = some ev) :
    ∃ s vm, ParVisitedBy g i s ∧ vm.sender = x ∧ ParSentIn g n.wire x s.transition.id vm.dyn ∧
      Recorded s.transcript (s.process vm) ev :=
  Loose.report h.looseInit hn hx hev

/-- C82: two parties following the protocol that are in the echo round of the same round, expect each other's echo message and
can finalize, hold the same broadcast of everybody whose broadcast both of them check.  They need not be there at the same time.
-/
theorem C82_agreement (rt : sp.EchoRoundTrip) {g : Group P} {H : sp.Id → Prop} (hmi : MainIds P)
    (hkey : ∀ i, H i → sp.verifyingKey (g.signer i) = i) {n n' : PNet P} (h : POpenSteps g H PNet.init n)
    (h' : POpenSteps g H n n') {i j : sp.Id} (hij : i ≠ j) {s s' : Session P} {a a' : ParSt P} {e e' : EchoRd P}
    (hn : n.node i = some (.running s a)) (hn' : n'.node j = some (.running s' a')) (he : s.round = .echo e)
    (he' : s'.round = .echo e') (hid : s.transition.id = s'.transition.id) (hy : a.accum.canFinalize = .yes)
    (hy' : a'.accum.canFinalize = .yes) (hx : s.comm.expecting.contains j = true) (hx' : s'.comm.expecting.contains i = true)
    (nocoll : NoCollision e e') (k : sp.Id) (hk : e.info.expectedEchos.contains k = true)
    (hk' : e'.info.expectedEchos.contains k = true) : SameBroadcast e e' k :=
  Loose.agreement rt hmi hkey h.looseInit (h.looseNext h') hij hn hn' he he' hid hy hy' hx hx' nocoll k hk hk'

/-! ## Examples -/

/-- A schedule of the network of parties using `par_run_session`. -/
inductive POpenAct (sp : SP) where
  | start (i : sp.Id)
  | tick (i : sp.Id)
  | cancel (i : sp.Id)
  | complete (i : sp.Id) (k : Nat)
  | send (i : sp.Id) (k : Nat)
  /-- give the `k`-th packet ever sent to party `i`, in the name of `y` -/
  | forward (k : Nat) (i y : sp.Id)
  /-- give a message to party `i`, in the name of `y` -/
  | inject (i y : sp.Id) (m : Message sp)

/-- One event at a party. -/
def popenAct (n : PNet P) (i : sp.Id) (ev : ParEvent sp) : PNet P :=
  match n.node i with
  | some (.running s st) =>
    match parStep (.running s st) ev with
    | none => n
    | some st' => n.put i st' (parOut st ev)
  | _ => n

/-- Executing a schedule; steps that are not possible are left out. -/
def popenRun (rng : sp.Rng) (g : Group P) (H : List sp.Id) : List (POpenAct sp) → PNet P → PNet P
  | [], n => n
  | .start i :: l, n =>
    popenRun rng g H l <| if decide (i ∈ H) = true ∧ (n.node i).isNone = true then n.put i (g.startPar i rng rng) [] else n
  | .tick i :: l, n => popenRun rng g H l (popenAct n i (.tick rng))
  | .cancel i :: l, n => popenRun rng g H l (popenAct n i .cancel)
  | .complete i k :: l, n => popenRun rng g H l (popenAct n i (.op (.complete k)))
  | .send i k :: l, n => popenRun rng g H l (popenAct n i (.op (.send k)))
  | .forward k i y :: l, n =>
    popenRun rng g H l <| match n.wire[k]? with
      | none => n
      | some p => if unforged H g.sid n.wire p.message = true then popenAct n i (.op (.deliver y p.message)) else n
  | .inject i y m :: l, n =>
    popenRun rng g H l <| if unforged H g.sid n.wire m = true then popenAct n i (.op (.deliver y m)) else n

theorem parOut_mem {st : ParSt P} {ev : ParEvent sp} {m : Message sp} (h : m ∈ parOut st ev) :
    ∃ o ∈ st.outgoing, taskMessage o = some m := by
  cases ev with
  | tick rng =>
    simp only [parOut] at h
    split at h
    · simpa using h
    · simp at h
  | op o =>
    cases o with
    | send i =>
      simp only [parOut] at h
      split at h
      · rename_i o ho
        exact ⟨o, List.mem_of_getElem? ho, by simpa using h⟩
      · simp at h
    | deliver y m => simp [parOut] at h
    | complete i => simp [parOut] at h
  | cancel => simp [parOut] at h
  | close => simp [parOut] at h

theorem popenAct_steps {g : Group P} {H : List sp.Id} {n₀ n : PNet P} (h : POpenSteps g (fun i => i ∈ H) n₀ n) (i : sp.Id)
    (ev : ParEvent sp) (hu : ∀ y m, ev = .op (.deliver y m) → unforged H g.sid n.wire m = true) :
    POpenSteps g (fun i => i ∈ H) n₀ (popenAct n i ev) := by
  unfold popenAct
  split
  · rename_i s st hn
    split
    · exact h
    · rename_i st' hs
      exact h.step (.act hn (fun y m he => unforged_spec (hu y m he)) hs fun m hm => parOut_mem hm)
  · exact h

theorem popenRun_steps (rng : sp.Rng) {g : Group P} {H : List sp.Id} (l : List (POpenAct sp)) {n₀ n : PNet P}
    (h : POpenSteps g (fun i => i ∈ H) n₀ n) : POpenSteps g (fun i => i ∈ H) n₀ (popenRun rng g H l n) := by
  induction l generalizing n with
  | nil => exact h
  | cons a l ih =>
    cases a with
    | start i =>
      simp only [popenRun]
      apply ih
      split
      · rename_i hc
        refine h.step (.start _ _ (by simpa using hc.1) ?_)
        simpa using hc.2
      · exact h
    | tick i => exact ih (popenAct_steps h i _ (by simp))
    | cancel i => exact ih (popenAct_steps h i _ (by simp))
    | complete i k => exact ih (popenAct_steps h i _ (by simp))
    | send i k => exact ih (popenAct_steps h i _ (by simp))
    | forward k i y =>
      simp only [popenRun]
      apply ih
      split
      · exact h
      · rename_i p hp
        split
        · rename_i hc
          refine popenAct_steps h i _ ?_
          intro y' m' he
          simp only [ParEvent.op.injEq, ParOp.deliver.injEq] at he
          rw [← he.2]
          exact hc
        · exact h
    | inject i y m =>
      simp only [popenRun]
      apply ih
      split
      · rename_i hc
        refine popenAct_steps h i _ ?_
        intro y' m' he
        simp only [ParEvent.op.injEq, ParOp.deliver.injEq] at he
        rw [← he.2]
        exact hc
      · exact h

/-- Giving messages of the example protocol to a party. -/
def popenDemo (signer dest : U8) (rid : RoundId) (direct echo normal : Option Bytes) : List (POpenAct toy) :=
  match demoMsg signer [9] rid dest direct echo normal with
  | .ok m => [.inject dest signer m]
  | .error _ => []

/-- Parties 1 and 2 follow the protocol.  The adversary gives party 2 what party 1 has sent to party 3 and the other way round,
makes up the messages of party 3, sending those of the echo round twice while the first one is still being processed, and brings
party 1 to the end of the echo round. -/
def popenDemoFirst : List (POpenAct toy) :=
  [.start (1 : U8), .start (2 : U8), .send (1 : U8) 1, .send (1 : U8) 0, .send (2 : U8) 0, .send (2 : U8) 0,
    .forward 3 (1 : U8) (2 : U8), .forward 0 (2 : U8) (1 : U8)] ++
    popenDemo 3 1 (RoundId.new 1) (some [5]) (some [3]) (some [7]) ++ popenDemo 3 2 (RoundId.new 1) (some [6]) (some [3]) (some [8]) ++
    [.complete (1 : U8) 1, .complete (1 : U8) 0, .complete (2 : U8) 0, .complete (2 : U8) 0, .tick (1 : U8), .tick (2 : U8),
      .send (2 : U8) 0, .forward 4 (1 : U8) (2 : U8)] ++
    popenDemo 3 1 ⟨1, [], true⟩ none none (some (demoPack (RoundId.new 1) [(1, [1]), (2, [2])])) ++
    popenDemo 3 1 ⟨1, [], true⟩ none none (some (demoPack (RoundId.new 1) [(1, [1]), (2, [2])])) ++
    [.complete (1 : U8) 0, .complete (1 : U8) 0]

/-- Later party 2 gets to the end of the echo round as well; party 1 has gone on. -/
def popenDemoSecond : List (POpenAct toy) :=
  [.tick (1 : U8), .forward 5 (2 : U8) (1 : U8)] ++
    popenDemo 3 2 ⟨1, [], true⟩ none none (some (demoPack (RoundId.new 1) [(1, [1]), (2, [2])])) ++
    [.complete (2 : U8) 0, .complete (2 : U8) 0]

/-- Whether the parties are in echo rounds they can finalize, party 1 having recorded an error of party 3. -/
def pbothReady {P : Proto toy} (n n' : PNet P) : Bool :=
  match n.node (1 : U8), n'.node (2 : U8) with
  | some (.running s st), some (.running s' st') =>
    match s.round, s'.round with
    | .echo e, .echo e' =>
      decide (s.transition.id = s'.transition.id) && decide (st.accum.canFinalize = .yes) &&
        decide (st'.accum.canFinalize = .yes) &&
        s.comm.expecting.contains (2 : U8) && s'.comm.expecting.contains (1 : U8) &&
        e.info.expectedEchos.contains (3 : U8) && e'.info.expectedEchos.contains (3 : U8) &&
        (st.accum.payloads.get? (2 : U8)).isSome && (st.accum.unprovable.get? (3 : U8)).isSome
    | _, _ => false
  | _, _ => false

/-- The hypotheses of the theorems above can be met: an execution in which the adversary redirects messages, plays one of the
parties, and sends messages while others are being processed. -/
example : ∃ (n n' : PNet (demo true 2).wrap) (s s' : Session (demo true 2).wrap) (st st' : ParSt (demo true 2).wrap)
    (e e' : EchoRd (demo true 2).wrap),
    POpenSteps (demoGroup true 2 (BSet.ofList [1, 2, 3])) (fun i : U8 => i ∈ ([1, 2] : List U8)) PNet.init n ∧
      POpenSteps (demoGroup true 2 (BSet.ofList [1, 2, 3])) (fun i : U8 => i ∈ ([1, 2] : List U8)) n n' ∧
      n.node (1 : U8) = some (.running s st) ∧ n'.node (2 : U8) = some (.running s' st') ∧ s.round = .echo e ∧
      s'.round = .echo e' ∧ s.transition.id = s'.transition.id ∧ st.accum.canFinalize = .yes ∧ st'.accum.canFinalize = .yes ∧
      s.comm.expecting.contains (2 : U8) = true ∧ s'.comm.expecting.contains (1 : U8) = true ∧ NoCollision e e' ∧
      e.info.expectedEchos.contains (3 : U8) = true ∧ e'.info.expectedEchos.contains (3 : U8) = true ∧
      (st.accum.payloads.get? (2 : U8)).isSome = true ∧ (st.accum.unprovable.get? (3 : U8)).isSome = true := by
  have h : pbothReady (popenRun (0 : Nat) (demoGroup true 2 (BSet.ofList [1, 2, 3])) ([1, 2] : List U8) popenDemoFirst PNet.init)
      (popenRun (0 : Nat) (demoGroup true 2 (BSet.ofList [1, 2, 3])) ([1, 2] : List U8) popenDemoSecond
        (popenRun (0 : Nat) (demoGroup true 2 (BSet.ofList [1, 2, 3])) ([1, 2] : List U8) popenDemoFirst PNet.init)) = true := by
    decide +kernel
  have r1 := popenRun_steps (sp := toy) (0 : Nat) (g := demoGroup true 2 (BSet.ofList [1, 2, 3])) (H := ([1, 2] : List U8))
    popenDemoFirst (n₀ := PNet.init) .refl
  have r2 := popenRun_steps (sp := toy) (0 : Nat) (g := demoGroup true 2 (BSet.ofList [1, 2, 3])) (H := ([1, 2] : List U8))
    popenDemoSecond
    (n₀ := popenRun (0 : Nat) (demoGroup true 2 (BSet.ofList [1, 2, 3])) ([1, 2] : List U8) popenDemoFirst PNet.init) .refl
  generalize popenRun (sp := toy) (0 : Nat) (demoGroup true 2 (BSet.ofList [1, 2, 3])) ([1, 2] : List U8) popenDemoFirst PNet.init = n
    at h r1 r2
  generalize popenRun (sp := toy) (0 : Nat) (demoGroup true 2 (BSet.ofList [1, 2, 3])) ([1, 2] : List U8) popenDemoSecond n = n'
    at h r2
  unfold pbothReady at h
  split at h
  · rename_i s st s' st' h1 h2
    split at h
    · rename_i e e' h3 h4
      simp only [Bool.and_eq_true, decide_eq_true_eq] at h
      obtain ⟨⟨⟨⟨⟨⟨⟨⟨k1, k2⟩, k3⟩, k4⟩, k5⟩, k6⟩, k7⟩, k8⟩, k9⟩ := h
      exact ⟨n, n', s, s', st, st', e, e', r1, r2, h1, h2, h3, h4, k1, k2, k3, k4, k5,
        fun k p p' _ _ hc => toy_hashInjective _ _ hc, k6, k7, k8, k9⟩
    · exact (Bool.false_ne_true h).elim
  · exact (Bool.false_ne_true h).elim

/-- Party 66 gets a direct message it refuses from party 1, which follows the protocol. -/
def popenRefused : List (POpenAct toy) :=
  [.start (1 : U8), .start (66 : U8), .send (1 : U8) 0, .forward 0 (66 : U8) (1 : U8), .complete (66 : U8) 0, .tick (66 : U8)]

/-- Whether party 66 has evidence against party 1 in its report. -/
def prefusing {P : Proto toy} (n : PNet P) : Bool :=
  match n.node (66 : U8) with
  | some (.done (.ok rep)) => (rep.provable.get? (1 : U8)).isSome
  | _ => false

/-- The hypotheses of `C82_report` can be met. -/
example : ∃ (n : PNet (demo true 2).wrap) (rep : Report (demo true 2).wrap) (ev : Evidence toy),
    POpenSteps (demoGroup true 2 (BSet.ofList [1, 66])) (fun i : U8 => i ∈ ([1, 66] : List U8)) PNet.init n ∧
      n.node (66 : U8) = some (.done (.ok rep)) ∧ rep.provable.get? (1 : U8) = some ev := by
  have h : prefusing (popenRun (0 : Nat) (demoGroup true 2 (BSet.ofList [1, 66])) ([1, 66] : List U8) popenRefused PNet.init) = true := by
    decide +kernel
  have r1 := popenRun_steps (sp := toy) (0 : Nat) (g := demoGroup true 2 (BSet.ofList [1, 66])) (H := ([1, 66] : List U8))
    popenRefused (n₀ := PNet.init) .refl
  generalize popenRun (sp := toy) (0 : Nat) (demoGroup true 2 (BSet.ofList [1, 66])) ([1, 66] : List U8) popenRefused PNet.init = n
    at h r1
  unfold prefusing at h
  split at h
  · rename_i rep h1
    obtain ⟨ev, hev⟩ := Option.isSome_iff_exists.1 h
    exact ⟨n, rep, ev, r1, h1, hev⟩
  · exact (Bool.false_ne_true h).elim

/-- Events one after the other; `none` if one of them is not possible. -/
def parScript : ParState P → List (ParEvent sp) → Option (ParState P)
  | st, [] => some st
  | st, ev :: l =>
    match parStep st ev with
    | none => none
    | some st' => parScript st' l

theorem parScript_any {s₀ : Session P} (l : List (ParEvent sp)) {st st' : ParState P} (h : ParAny s₀ st)
    (he : parScript st l = some st') : ParAny s₀ st' := by
  induction l generalizing st with
  | nil =>
    simp only [parScript, Option.some.injEq] at he
    rw [← he]
    exact h
  | cons ev l ih =>
    simp only [parScript] at he
    cases hs : parStep st ev with
    | none => simp [hs] at he
    | some st1 =>
      simp only [hs] at he
      cases st with
      | done r => simp [parStep] at hs
      | running s st => exact ih (h.step hs) he

/-- Party 2 sends a direct message of two bytes, and another message while this one is being processed; then the session is
cancelled. -/
def parMalformed : Option (Session (demo true 255).wrap × ParState (demo true 255).wrap) :=
  match demoSession true 255 [1, 2, 3] 1, demoMsg 2 [9] (RoundId.new 1) 1 (some [5, 6]) (some [2]) (some [7]),
      demoMsg 2 [9] (RoundId.new 1) 1 (some [5]) (some [2]) (some [7]) with
  | .ok s, .ok m, .ok m' =>
    (parScript (.running s (ParSt.begin s (0 : Nat) [])) [.op (.deliver (2 : U8) m), .op (.deliver (2 : U8) m'),
      .op (.complete 0), .cancel]).map fun st => (s, st)
  | _, _, _ => none

/-- The hypotheses of `C82_malformed_verifies` and `C82_filed` can be met. -/
example : ∃ (s₀ : Session (demo true 255).wrap) (rep : Report (demo true 255).wrap) (ev : Evidence toy),
    demoSession true 255 [1, 2, 3] 1 = .ok s₀ ∧ ParAny s₀ (.done (.ok rep)) ∧ rep.provable.get? (2 : U8) = some ev ∧
      ev.body.Malformed := by
  have h : (match parMalformed with
      | some (_, .done (.ok rep)) => hasEvidence rep 2 (fun ev => ev.body.isMalformed)
      | _ => false) = true := by decide +kernel
  split at h
  · rename_i s rep hp
    obtain ⟨ev, h1, h2⟩ := hasEvidence_iff.1 h
    unfold parMalformed at hp
    split at hp
    · rename_i s' m m' hs hm hm'
      obtain ⟨st, he, hst⟩ := Option.map_eq_some_iff.1 hp
      simp only [Prod.mk.injEq] at hst
      obtain ⟨rfl, rfl⟩ := hst
      exact ⟨_, rep, ev, hs, parScript_any _ (.start _) he, h1, isMalformed_iff.1 h2⟩
    · simp at hp
  · exact (Bool.false_ne_true h).elim

/-- A parallel run of party 1 in which party 2 sends a direct message that is an error in the protocol. -/
def parProtocol : Option (Session (demo true 255).wrap × ParState (demo true 255).wrap) :=
  match demoSession true 255 [1, 2, 3] 1, demoMsg 2 [9] (RoundId.new 1) 1 (some [66]) (some [2]) (some [7]) with
  | .ok s, .ok m =>
    (parScript (.running s (ParSt.begin s (0 : Nat) [])) [.op (.deliver (2 : U8) m), .op (.complete 0), .cancel]).map
      fun st => (s, st)
  | _, _ => none

/-- The hypotheses of `C82_represents` can be met. -/
example : ∃ (s₀ : Session (demo true 255).wrap) (rep : Report (demo true 255).wrap) (ev : Evidence toy)
    (pe : ProtocolEvidence toy), demoSession true 255 [1, 2, 3] 1 = .ok s₀ ∧ ParAny s₀ (.done (.ok rep)) ∧
      rep.provable.get? (2 : U8) = some ev ∧ ev.body = .protocol pe := by
  have h : (match parProtocol with
      | some (_, .done (.ok rep)) => hasEvidence rep 2 (fun ev => match ev.body with | .protocol _ => true | _ => false)
      | _ => false) = true := by decide +kernel
  split at h
  · rename_i s rep hp
    obtain ⟨ev, h1, h2⟩ := hasEvidence_iff.1 h
    unfold parProtocol at hp
    split at hp
    · rename_i s' m hs hm
      obtain ⟨st, he, hst⟩ := Option.map_eq_some_iff.1 hp
      simp only [Prod.mk.injEq] at hst
      obtain ⟨rfl, rfl⟩ := hst
      cases hb : ev.body with
      | protocol pe => exact ⟨_, rep, ev, pe, hs, parScript_any _ (.start _) he, h1, hb⟩
      | _ => rw [hb] at h2; simp at h2
    · simp at hp
  · exact (Bool.false_ne_true h).elim

/-- A parallel run of party 1 into the first echo round, in which party 2 sends the given pack; then the session is cancelled. -/
def parEchoed (pack : Bytes) : Option (Session (demo true 255).wrap × ParState (demo true 255).wrap) :=
  match demoSession true 255 [1, 2, 3] 1, demoMsg 2 [9] (RoundId.new 1) 1 (some [5]) (some [2]) (some [7]),
      demoMsg 3 [9] (RoundId.new 1) 1 (some [5]) (some [3]) (some [7]), demoMsg 2 [9] ⟨1, [], true⟩ 1 none none (some pack) with
  | .ok s, .ok m, .ok m', .ok m2 =>
    (parScript (.running s (ParSt.begin s (0 : Nat) [])) [.op (.deliver (2 : U8) m), .op (.deliver (3 : U8) m'),
      .op (.deliver (2 : U8) m2), .op (.complete 1), .op (.complete 0), .tick (0 : Nat),
      .op (.complete 0), .cancel]).map fun st => (s, st)
  | _, _, _, _ => none

theorem parEchoed_any {pack : Bytes} {s : Session (demo true 255).wrap} {st : ParState (demo true 255).wrap}
    (h : parEchoed pack = some (s, st)) : demoSession true 255 [1, 2, 3] 1 = .ok s ∧ ParAny s st := by
  unfold parEchoed at h
  split at h
  · rename_i s' m m' m2 hs hm hm' hm2
    obtain ⟨st', he, hst⟩ := Option.map_eq_some_iff.1 h
    simp only [Prod.mk.injEq] at hst
    obtain ⟨rfl, rfl⟩ := hst
    exact ⟨hs, parScript_any _ (.start _) he⟩
  · simp at h

/-- The hypotheses of `C82_mismatched_verifies` can be met. -/
example : ∃ (s₀ : Session (demo true 255).wrap) (rep : Report (demo true 255).wrap) (ev : Evidence toy) (g : U8)
    (w : SignedPart .echo) (e : SignedHash), demoSession true 255 [1, 2, 3] 1 = .ok s₀ ∧ ParAny s₀ (.done (.ok rep)) ∧
      rep.provable.get? (2 : U8) = some ev ∧ ev.body = .mismatched g w e := by
  have h : (match parEchoed (demoPack (RoundId.new 1) [(1, [1]), (3, [4])]) with
      | some (_, .done (.ok rep)) => hasEvidence rep 2 (fun ev => match ev.body with | .mismatched _ _ _ => true | _ => false)
      | _ => false) = true := by decide +kernel
  split at h
  · rename_i s rep hp
    obtain ⟨ev, h1, h2⟩ := hasEvidence_iff.1 h
    obtain ⟨hs, ha⟩ := parEchoed_any hp
    split at h2
    · rename_i g w e hb
      exact ⟨s, rep, ev, g, w, e, hs, ha, h1, hb⟩
    · simp at h2
  · exact (Bool.false_ne_true h).elim

/-- The hypotheses of `C82_invalid_echo` can be met, with evidence that does not verify. -/
example : ∃ (s₀ : Session (demo true 255).wrap) (rep : Report (demo true 255).wrap) (ev : Evidence toy) (n : SignedPart .normal)
    (k : U8), demoSession true 255 [1, 2, 3] 1 = .ok s₀ ∧ ParAny s₀ (.done (.ok rep)) ∧ rep.provable.get? (2 : U8) = some ev ∧
      ev.body = .invalidEcho n k ∧ ev.verify (demo true 255).wrap () = .error .invalid := by
  have h : (match parEchoed foreignPack with
      | some (_, .done (.ok rep)) => hasEvidence rep 2 (fun ev => (match ev.body with | .invalidEcho _ _ => true | _ => false) &&
          decide (ev.verify (demo true 255).wrap () = .error .invalid))
      | _ => false) = true := by decide +kernel
  split at h
  · rename_i s rep hp
    obtain ⟨ev, h1, h2⟩ := hasEvidence_iff.1 h
    obtain ⟨hs, ha⟩ := parEchoed_any hp
    rw [Bool.and_eq_true, decide_eq_true_eq] at h2
    obtain ⟨h2, h3⟩ := h2
    split at h2
    · rename_i n k hb
      exact ⟨s, rep, ev, n, k, hs, ha, h1, hb, h3⟩
    · simp at h2
  · exact (Bool.false_ne_true h).elim

end Manul
