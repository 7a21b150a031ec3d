import Verif.Spec.Convinces
import Verif.Props.MixCharges
import Verif.Props.Wire

/-!
# C96: the evidence in a report convinces whoever reads it from bytes

Any number of sessions with different ids are executed at once over a network controlled by an adversary, in which everybody uses the
driver it likes.  A party following the protocol ends with evidence in its report, and sends it as bytes to somebody who has seen
nothing of the sessions.
-/

namespace Manul

variable {sp : SP} {P : Proto sp} {H : sp.Id → Prop} {id : Codec sp.Id}

theorem sent_reads (hid : id.Exact) {ev : Evidence sp} {b : Bytes} (h : IsSentAs id ev b) (shared : P.Shared) :
    ReadsAs id P shared b ev.guilty (ev.verify P shared) := by
  obtain ⟨d, rest, h1, h2, rfl⟩ := h
  refine ⟨d, ?_, h1, ?_⟩
  · simp only [Codec.read, (Codec.evidence_exact hid).trip, Option.map_some]
  · unfold DEvidence.verify DEvidence.erase
    rw [h1, h2]

/-- What a session holds of earlier rounds was signed by those it holds it of, whatever the driver. -/
theorem mixVisited_transcript (sc : sp.SignCorrect) (srt : sp.SigRoundTrip) (mi : MainIds P) {g : Group P} {par : sp.Id → Bool}
    {x : sp.Id} {s : Session P} (hv : MixVisitedBy g par x s) :
    TranscriptOk g.sid s.transcript ∧ s.sessionId = g.sid ∧
      ∀ e, s.round = .echo e → s.transcript.echos.get? (P.transition e.main).id = some e.echoBroadcasts := by
  rcases hv with ⟨-, rng, s₀, tr, ca, hnew, hvis⟩ | ⟨-, rng, s₀, st, hnew, hr⟩
  · obtain ⟨i5, i3, -, i2, i1⟩ := new_proper hnew
    rw [← i3]
    exact ⟨visits_transcript sc srt mi i5 i1 i2 hvis, (visits_inv i5 i1 hvis).sessionId,
      fun e he => visits_echo_transcript i5 i1 hvis he⟩
  · obtain ⟨i5, i3, -, i2, i1⟩ := new_proper hnew
    obtain ⟨tr, ca, rng0, ops, hvis, -⟩ := parAny_running hr
    rw [← i3]
    exact ⟨pvisits_transcript sc srt mi i5 i1 i2 hvis, (pvisits_inv i5 i1 hvis).sessionId,
      fun e he => pvisits_echo_transcript i5 i1 hvis he⟩

/-- Where evidence in a report comes from. -/
theorem mixReport_origin {g : Group P} {par : sp.Id → Bool} {m : MixNet P} (h : MixOpenSteps g H par MixNet.init m) {i : sp.Id}
    {st : MixState P} {rep : Report P} (hn : m.node i = some st) (hr : st.report = some (.ok rep)) {x : sp.Id} {ev : Evidence sp}
    (hx : rep.provable.get? x = some ev) :
    ∃ s, MixVisitedBy g par i s ∧ ∃ vm : VerifiedMessage sp, vm.sender = x ∧
      Authentic x s.sessionId s.roundId vm.direct vm.echo vm.normal ∧ Recorded s.transcript (s.process vm) ev := by
  obtain ⟨V, -, hi⟩ := (POpenInv.init (MixVisitedBy g par) g H).steps h.looseInit
  obtain ⟨s, hs, vm, h1, -, h2, h3⟩ := hi.report i rep (report_embed hn hr) x ev hx
  exact ⟨s, hi.visited i s hs, vm, h1, h2, h3⟩

variable {K : Type} [DecidableEq K] {S : Sessions sp K} {drive : K → sp.Id → Bool} {n : MixNets S}

/-- **C96.**  Evidence of a malformed message in a report convinces whoever reads it that the party it is filed under is guilty. -/
theorem C96_malformed {T : K → TypedProto sp} {G : (k : K) → Group (T k).wrap} {n : MixNets ⟨fun k => (T k).wrap, G⟩}
    (hd : Sessions.Distinct ⟨fun k => (T k).wrap, G⟩) (h : MixMultiReach ⟨fun k => (T k).wrap, G⟩ H drive n) {k : K}
    (tc : TagConsistent (T k)) (mi : MainIds (T k).wrap) {i x : sp.Id} {st : MixState (T k).wrap} {rep : Report (T k).wrap}
    (hn : (n k).node i = some st) (hr : st.report = some (.ok rep)) {ev : Evidence sp} (hx : rep.provable.get? x = some ev)
    (hb : ev.body.Malformed) (hid : id.Exact) {b : Bytes} (hs : IsSentAs id ev b) (shared : (T k).Shared) :
    ReadsAs id (T k).wrap shared b x (.ok ()) := by
  obtain ⟨s, hv, vm, h1, h2, h3⟩ := mixReport_origin (C93_independent hd h k) hn hr hx
  obtain ⟨h4, h5⟩ := malformed_recorded (T k) tc mi (mixVisited_proper hv) h1 h2 h3 hb shared
  have := sent_reads (P := (T k).wrap) hid hs shared
  rwa [h4, h5] at this

/-- **C96.**  Evidence of different broadcasts in a report convinces whoever reads it that the party that has made the broadcasts is
guilty. -/
theorem C96_mismatched (hd : S.Distinct) (h : MixMultiReach S H drive n) {k : K} (sc : sp.SignCorrect) (srt : sp.SigRoundTrip)
    (mi : MainIds (S.proto k)) (ne : NoEchoErr (S.proto k)) {i x y : sp.Id} {st : MixState (S.proto k)}
    {rep : Report (S.proto k)} (hn : (n k).node i = some st) (hr : st.report = some (.ok rep)) {ev : Evidence sp}
    (hx : rep.provable.get? x = some ev) {w : SignedPart .echo} {e : SignedHash} (hb : ev.body = .mismatched y w e)
    (hid : id.Exact) {b : Bytes} (hs : IsSentAs id ev b) (shared : (S.proto k).Shared) :
    ReadsAs id (S.proto k) shared b y (.ok ()) ∧ SigValid y w ∧ HashSigned y e ∧ w.metadata = e.metadata ∧
      w.metadata.sessionId = (S.group k).sid ∧ e.hash ≠ sp.partHash w.part := by
  obtain ⟨s, hv, vm, -, -, h3⟩ := mixReport_origin (C93_independent hd h k) hn hr hx
  obtain ⟨h6, -, h7⟩ := mixVisited_transcript sc srt mi hv
  obtain ⟨h4, h5, hrest⟩ := mismatched_recorded ne h6 h7 h3 hb shared
  have := sent_reads (P := S.proto k) hid hs shared
  rw [h4, h5] at this
  exact ⟨this, hrest⟩

/-- **C96.**  Evidence of a wrong echo message in a report convinces whoever reads it that the party it is filed under is guilty,
unless the entry complained about is a hash signed for the echo round itself (C24). -/
theorem C96_invalid_echo_partial (hd : S.Distinct) (h : MixMultiReach S H drive n) {k : K} (sc : sp.SignCorrect)
    (srt : sp.SigRoundTrip) (mt : sp.MetaTotal) (mi : MainIds (S.proto k)) (ne : NoEchoErr (S.proto k)) {i x y : sp.Id}
    {st : MixState (S.proto k)} {rep : Report (S.proto k)} (hn : (n k).node i = some st) (hr : st.report = some (.ok rep))
    {ev : Evidence sp} (hx : rep.provable.get? x = some ev) {p : SignedPart .normal} (hb : ev.body = .invalidEcho p y)
    (hid : id.Exact) {b : Bytes} (hs : IsSentAs id ev b) (shared : (S.proto k).Shared) :
    ∃ pack hh, Decodes p.part pack ∧ pack.get? y = some hh ∧ SigValid x p ∧ p.metadata.sessionId = (S.group k).sid ∧
      (ReadsAs id (S.proto k) shared b x (.ok ()) ↔ ¬ (HashSigned y hh ∧ hh.metadata = p.metadata)) := by
  obtain ⟨s, hv, vm, h1, h2, h3⟩ := mixReport_origin (C93_independent hd h k) hn hr hx
  obtain ⟨h4, pack, hh, h5, h6, h7, h8, h9⟩ :=
    invalidEcho_recorded mt ne (mixVisited_transcript sc srt mi hv).2.1 h1 h2 h3 hb shared
  refine ⟨pack, hh, h5, h6, h7, h8, ?_⟩
  rw [← h9]
  obtain ⟨d, hd1, hd2, hd3⟩ := sent_reads (P := S.proto k) hid hs shared
  constructor
  · rintro ⟨d', h10, -, h11⟩
    rw [hd1] at h10
    obtain rfl := Option.some.inj h10
    exact hd3.symm.trans h11
  · intro h10
    exact ⟨d, hd1, hd2.trans h4, hd3.trans h10⟩

/-- **C96.**  Evidence of a protocol error in a report was made from an authentic message of the party it is filed under, which a round
refused with the error; whoever reads it gets the verdict of the protocol's check on exactly the parts it asked for. -/
theorem C96_protocol (hd : S.Distinct) (h : MixMultiReach S H drive n) {k : K} (sc : sp.SignCorrect) (srt : sp.SigRoundTrip)
    (mi : MainIds (S.proto k)) {i x : sp.Id} {st : MixState (S.proto k)} {rep : Report (S.proto k)}
    (hn : (n k).node i = some st) (hr : st.report = some (.ok rep)) {ev : Evidence sp} (hx : rep.provable.get? x = some ev)
    {pe : ProtocolEvidence sp} (hb : ev.body = .protocol pe) (hid : id.Exact) {b : Bytes} (hs : IsSentAs id ev b) :
    ∃ s, MixVisitedBy (S.group k) (drive k) i s ∧ ∃ (vm : VerifiedMessage sp) (req : RequiredMessages) (err : Bytes),
      vm.sender = x ∧ Authentic x (S.group k).sid s.roundId vm.direct vm.echo vm.normal ∧
      s.round.receive x vm.dyn = .error (.protocol req (.ok err)) ∧ RequestedHeld s.transcript x req ∧
      (req.thisRound.some? = true → ∀ info shared, (S.proto k).roundInfo s.roundId = some info →
        ∃ prev comb, PreviousShown s.transcript x req prev ∧ CombinedShown s.transcript x req comb ∧
          ReadsAs id (S.proto k) shared b x (info.verifyEvidence s.roundId err x (S.group k).sid shared
            ⟨asked req.thisRound.direct (some vm.direct.part), asked req.thisRound.normal (some vm.normal.part),
              asked req.thisRound.echo (some vm.echo.part)⟩ prev comb)) := by
  obtain ⟨s, hv, vm, h1, h2, h3⟩ := mixReport_origin (C93_independent hd h k) hn hr hx
  obtain ⟨hok, hsid, -⟩ := mixVisited_transcript sc srt mi hv
  rw [hsid] at h2
  obtain ⟨h4, req, err, h5, h6, h7⟩ := protocol_recorded hok h1 h2 h3 hb
  refine ⟨s, hv, vm, req, err, h1, h2, h5, h6, ?_⟩
  intro hsome info shared hinfo
  obtain ⟨prev, comb, h8, h9, h10⟩ := h7 hsome info shared hinfo
  have := sent_reads (P := S.proto k) hid hs shared
  rw [h4, h10] at this
  exact ⟨prev, comb, h8, h9, this⟩

/-- **C96.**  Bytes convince nobody that a party following the protocol is guilty, for whatever protocol they are read and whoever
has made them up, except in the ways listed in C95. -/
theorem C96_only (hd : S.Distinct) (hmi : ∀ c, MainIds (S.proto c)) (hac : ∀ c, Acyclic (S.proto c)) (sc : sp.SignCorrect)
    (srt : sp.SigRoundTrip) (ert : sp.EchoRoundTrip) (mt : sp.MetaTotal) (h : MixMultiReach S H drive n) {shared : P.Shared}
    {b : Bytes} {x : sp.Id} (hx : H x) (hu : ∀ d, (Codec.evidence id).read b = some d → d.body.MixUnforged S H n)
    (hb : ReadsAs id P shared b x (.ok ())) :
    ∃ d, (Codec.evidence id).read b = some d ∧ MixChargeable S H drive n P shared x d.body := by
  obtain ⟨d, h1, rfl, h2⟩ := hb
  exact ⟨d, h1, C95_charges (ev := d.erase) hd hmi hac sc srt ert mt h hx (hu d h1) h2⟩

/-! ### Examples -/

/-- The kind of evidence. -/
def EvBody.number {sp : SP} : EvBody sp → Nat
  | .invalidDirect _ | .invalidEchoBroadcast _ | .invalidNormal _ => 0
  | .invalidEcho _ _ => 1
  | .mismatched _ _ _ => 2
  | .protocol _ => 3

/-- Whether a party reports evidence of a kind, filed under another party. -/
def mixReports {P : Proto toy} (n : MixNet P) (i x : U8) (k : Nat) : Bool :=
  match n.node i with
  | some st =>
    match st.report with
    | some (.ok rep) =>
      match rep.provable.get? x with
      | some ev => decide (ev.body.number = k)
      | none => false
    | _ => false
  | none => false

theorem mixReports_spec {P : Proto toy} {n : MixNet P} {i x : U8} {k : Nat} (h : mixReports n i x k = true) :
    ∃ (st : MixState P) (rep : Report P) (ev : Evidence toy), n.node i = some st ∧ st.report = some (.ok rep) ∧
      rep.provable.get? x = some ev ∧ ev.body.number = k := by
  unfold mixReports at h
  split at h
  · rename_i st h1
    split at h
    · rename_i rep h2
      split at h
      · rename_i ev h3
        exact ⟨st, rep, ev, h1, h2, h3, of_decide_eq_true h⟩
      · cases h
    · cases h
  · cases h

/-- Party 3 sends party 2, which uses `par_run_session`, a malformed direct message. -/
def convincesMalformed : List (MixMultiAct toy) :=
  .own true (.start (1 : U8)) :: (([.start (2 : U8)] ++ popenDemo 3 2 (RoundId.new 1) (some [5, 6]) (some [3]) (some [7]) ++
    [.complete (2 : U8) 0, .cancel (2 : U8)] : List (POpenAct toy))).map (.own false)

/-- Party 3 puts something of its own in its echo message to party 1. -/
def convincesEcho (pack : Bytes) : List (MixMultiAct toy) :=
  .own true (.start (1 : U8)) ::
    ((mixOpenBegin 3 ++ popenDemo 3 1 ⟨1, [], true⟩ none none (some pack) ++ [.tick (1 : U8)] : List (POpenAct toy))).map (.own false)

/-- Two sessions with different ids. -/
theorem twoSessions_distinct : (twoSessions [9] [8]).Distinct := by
  intro k k' h
  cases k <;> cases k' <;> first | rfl | (exact absurd h (by decide))

/-- The hypotheses of `C96_malformed` can be met, for a party using `par_run_session`. -/
example : ∃ (n : MixNets mixed) (st : MixState (demo true 255).wrap) (rep : Report (demo true 255).wrap)
    (ev : Evidence toy), MixMultiReach mixed (fun i : U8 => i ∈ ([1, 2] : List U8)) crossDrive n ∧
      (n false).node (2 : U8) = some st ∧ st.report = some (.ok rep) ∧ rep.provable.get? (3 : U8) = some ev ∧ ev.body.Malformed ∧
      ∀ (text : Text) (rest : Bytes), ReadsAs (sp := toy) Codec.u8 (demo true 255).wrap ()
        ((Codec.evidence (sp := toy) Codec.u8).enc ⟨ev.guilty, text, ev.body⟩ ++ rest) (3 : U8) (.ok ()) := by
  have h : mixReports (mixMultiRun (sp := toy) (0 : Nat) mixed ([1, 2] : List U8) crossDrive convincesMalformed
      (fun _ => MixNet.init) false) 2 3 0 = true := by
    decide +kernel
  have hr := mixMultiRun_reach (sp := toy) (0 : Nat) (S := mixed) (H := ([1, 2] : List U8)) (drive := crossDrive)
    convincesMalformed .init
  generalize mixMultiRun (sp := toy) (0 : Nat) mixed ([1, 2] : List U8) crossDrive convincesMalformed
    (fun _ => MixNet.init) = n at h hr
  obtain ⟨st, rep, ev, h1, h2, h3, h4⟩ := mixReports_spec h
  have hb : ev.body.Malformed := by
    cases hb : ev.body <;> rw [hb] at h4 <;> trivial
  exact ⟨n, st, rep, ev, hr, h1, h2, h3, hb, fun text rest =>
    C96_malformed (T := fun k => demo (!k) 255) (G := mixed.group) mixed_distinct hr (k := false)
      (demo_tagConsistent true) (demo_mainIds true 255) h1 h2 h3 hb Codec.u8_exact
      ⟨⟨ev.guilty, text, ev.body⟩, rest, rfl, rfl, rfl⟩ ()⟩

/-- The hypotheses of `C96_mismatched` can be met. -/
example : ∃ (n : MixNets (twoSessions [9] [8])) (st : MixState (demo true 2).wrap) (rep : Report (demo true 2).wrap)
    (ev : Evidence toy) (y : U8) (w : SignedPart .echo) (e : SignedHash), NoEchoErr (demo true 2).wrap ∧
      MixMultiReach (twoSessions [9] [8]) (fun i : U8 => i ∈ ([1, 2] : List U8)) crossDrive n ∧
      (n false).node (1 : U8) = some st ∧ st.report = some (.ok rep) ∧ rep.provable.get? (3 : U8) = some ev ∧
      ev.body = .mismatched y w e := by
  have h : mixReports (mixMultiRun (sp := toy) (0 : Nat) (twoSessions [9] [8]) ([1, 2] : List U8) crossDrive
      (convincesEcho framingPack) (fun _ => MixNet.init) false) 1 3 2 = true := by
    decide +kernel
  have hr := mixMultiRun_reach (sp := toy) (0 : Nat) (S := twoSessions [9] [8]) (H := ([1, 2] : List U8)) (drive := crossDrive)
    (convincesEcho framingPack) .init
  generalize mixMultiRun (sp := toy) (0 : Nat) (twoSessions [9] [8]) ([1, 2] : List U8) crossDrive (convincesEcho framingPack)
    (fun _ => MixNet.init) = n at h hr
  obtain ⟨st, rep, ev, h1, h2, h3, h4⟩ := mixReports_spec h
  cases hb : ev.body with
  | mismatched y w e => exact ⟨n, st, rep, ev, y, w, e, typed_noEchoErr _, hr, h1, h2, h3, hb⟩
  | _ => rw [hb] at h4; simp [EvBody.number] at h4

/-- The hypotheses of `C96_invalid_echo_partial` can be met. -/
example : ∃ (n : MixNets (twoSessions [9] [8])) (st : MixState (demo true 2).wrap) (rep : Report (demo true 2).wrap)
    (ev : Evidence toy) (p : SignedPart .normal) (y : U8), NoEchoErr (demo true 2).wrap ∧
      MixMultiReach (twoSessions [9] [8]) (fun i : U8 => i ∈ ([1, 2] : List U8)) crossDrive n ∧
      (n false).node (1 : U8) = some st ∧ st.report = some (.ok rep) ∧ rep.provable.get? (3 : U8) = some ev ∧
      ev.body = .invalidEcho p y := by
  have h : mixReports (mixMultiRun (sp := toy) (0 : Nat) (twoSessions [9] [8]) ([1, 2] : List U8) crossDrive
      (convincesEcho (demoPack (RoundId.new 2) [(1, [1]), (2, [2])])) (fun _ => MixNet.init) false) 1 3 1 = true := by
    decide +kernel
  have hr := mixMultiRun_reach (sp := toy) (0 : Nat) (S := twoSessions [9] [8]) (H := ([1, 2] : List U8)) (drive := crossDrive)
    (convincesEcho (demoPack (RoundId.new 2) [(1, [1]), (2, [2])])) .init
  generalize mixMultiRun (sp := toy) (0 : Nat) (twoSessions [9] [8]) ([1, 2] : List U8) crossDrive
    (convincesEcho (demoPack (RoundId.new 2) [(1, [1]), (2, [2])])) (fun _ => MixNet.init) = n at h hr
  obtain ⟨st, rep, ev, h1, h2, h3, h4⟩ := mixReports_spec h
  cases hb : ev.body with
  | invalidEcho p y => exact ⟨n, st, rep, ev, p, y, typed_noEchoErr _, hr, h1, h2, h3, hb⟩
  | _ => rw [hb] at h4; simp [EvBody.number] at h4

/-- Party 3 sends party 2, which uses `par_run_session`, a direct message that is an error in the protocol. -/
def convincesProtocol : List (MixMultiAct toy) :=
  .own true (.start (1 : U8)) :: (([.start (2 : U8)] ++ popenDemo 3 2 (RoundId.new 1) (some [66]) (some [3]) (some [7]) ++
    [.complete (2 : U8) 0, .cancel (2 : U8)] : List (POpenAct toy))).map (.own false)

/-- The hypotheses of `C96_protocol` can be met. -/
example : ∃ (n : MixNets (twoSessions [9] [8])) (st : MixState (demo true 2).wrap) (rep : Report (demo true 2).wrap)
    (ev : Evidence toy) (pe : ProtocolEvidence toy),
      MixMultiReach (twoSessions [9] [8]) (fun i : U8 => i ∈ ([1, 2] : List U8)) crossDrive n ∧
      (n false).node (2 : U8) = some st ∧ st.report = some (.ok rep) ∧ rep.provable.get? (3 : U8) = some ev ∧
      ev.body = .protocol pe := by
  have h : mixReports (mixMultiRun (sp := toy) (0 : Nat) (twoSessions [9] [8]) ([1, 2] : List U8) crossDrive convincesProtocol
      (fun _ => MixNet.init) false) 2 3 3 = true := by
    decide +kernel
  have hr := mixMultiRun_reach (sp := toy) (0 : Nat) (S := twoSessions [9] [8]) (H := ([1, 2] : List U8)) (drive := crossDrive)
    convincesProtocol .init
  generalize mixMultiRun (sp := toy) (0 : Nat) (twoSessions [9] [8]) ([1, 2] : List U8) crossDrive convincesProtocol
    (fun _ => MixNet.init) = n at h hr
  obtain ⟨st, rep, ev, h1, h2, h3, h4⟩ := mixReports_spec h
  cases hb : ev.body with
  | protocol pe => exact ⟨n, st, rep, ev, pe, hr, h1, h2, h3, hb⟩
  | _ => rw [hb] at h4; simp [EvBody.number] at h4

/-- The hypotheses of `C96_only` can be met: the bytes of `C95_other_protocol_violation`. -/
example : ∃ (n : MixNets mixed) (b : Bytes), mixed.Distinct ∧
    MixMultiReach mixed (fun i : U8 => i ∈ ([1] : List U8)) mixedDrive n ∧
    (∀ d, (Codec.evidence (sp := toy) Codec.u8).read b = some d →
      d.body.MixUnforged mixed (fun i : U8 => i ∈ ([1] : List U8)) n) ∧
    ReadsAs (sp := toy) Codec.u8 (mixed.proto true) () b (1 : U8) (.ok ()) := by
  obtain ⟨n, ev, h1, h2, h3, h4, -, -, -, h5⟩ := C95_other_protocol_violation
  have hr := sent_reads (sp := toy) (P := mixed.proto true) (id := Codec.u8) Codec.u8_exact (ev := ev)
    (b := (Codec.evidence (sp := toy) Codec.u8).enc ⟨ev.guilty, [], ev.body⟩ ++ []) ⟨_, [], rfl, rfl, rfl⟩ ()
  rw [h3, h5] at hr
  refine ⟨n, _, h1, h2, ?_, hr⟩
  intro d hd
  simp only [Codec.read, (Codec.evidence_exact (sp := toy) (id := Codec.u8) Codec.u8_exact).trip, Option.map_some,
    Option.some.injEq] at hd
  subst hd
  exact h4

end Manul
