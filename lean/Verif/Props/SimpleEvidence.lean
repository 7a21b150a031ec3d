import Verif.Lemmas.SimpleEvidence
import Verif.Props.TypedEvidence
import Verif.Props.Simple
import Verif.Props.Crash
import Verif.Props.Chain

/-!
# Evidence in runs of typed protocols and of `simple` (C62)

When a round rejects a message with a protocol error, the evidence can be made and is recorded.  For the example protocol
`simple` everything holds without assumptions about the other parties.
-/

namespace Manul

variable {sp : SP}

/-- **C62.**  A protocol error is recorded, without a local error, if the run got what the error asks for. -/
theorem C62_recorded (mt : sp.MetaTotal) {T : TypedProto sp} (mi : MainIds T.wrap) {rng0 : sp.Rng} {sid : Bytes}
    {signer : sp.Signer} {ep : EntryPoint T.wrap} {s₀ s : Session T.wrap} {a : Accum T.wrap}
    (h0 : Session.new rng0 sid signer ep = .ok s₀) {trail : List (Session T.wrap × Accum T.wrap)} (h : InRound s₀ trail s a)
    {x : sp.Id} {m : Message sp} (hrow : Row s a x m .process) (hx : a.notSent.contains x = true) {r : T.St}
    (hr : s.round = .main r) {tm : TypedMsg T.Val} (hd : T.readPart (T.tag r) m.direct.part = some tm.direct)
    (he : T.readPart (T.tag r) m.echo.part = some tm.echo) (hn : T.readPart (T.tag r) m.normal.part = some tm.normal) {e : T.PErr}
    (hrc : T.receive r x tm = .error (.protocol e)) {b : Bytes} (hser : T.serErr e = .ok b)
    (hob : Obtained T trail x (T.required e (T.transition r).id)) :
    ∃ a', deliver s a x m = .ok a' ∧ (∃ ev pe, a'.provable.get? x = some ev ∧ ev.guilty = x ∧ ev.body = .protocol pe ∧
      pe.error = b) ∧ a'.payloads = a.payloads := by
  obtain ⟨hp0, -, -, -, hm0⟩ := new_proper h0
  obtain ⟨cached, rng, l, hv, hseq⟩ := h
  have hp := (visits_inv hp0 hm0 hv).proper
  obtain ⟨hexp, hl⟩ := reach_linv (seqRound_reach hseq) x
  obtain ⟨hl1, hl2⟩ := hl.of_notSent (by simpa [Accum.loc] using hx)
  obtain ⟨ev, hev⟩ := newProvableError_total mi h0 hv hob (b := b) m.echo m.normal m.direct
  have hwr : s.round.receive x (verifiedOf x m).dyn = .error (.protocol (T.required e (T.transition r).id) (.ok b)) := by
    rw [hr]
    have : T.wrap.receive r x (verifiedOf x m).dyn = .error (.protocol (T.required e (T.transition r).id) (.ok b)) := by
      show T.wrapReceive r x _ = _
      unfold TypedProto.wrapReceive
      have h1 : T.readPart (T.tag r) (verifiedOf x m).dyn.direct = some tm.direct := hd
      have h2 : T.readPart (T.tag r) (verifiedOf x m).dyn.echo = some tm.echo := he
      have h3 : T.readPart (T.tag r) (verifiedOf x m).dyn.normal = some tm.normal := hn
      simp only [h1, h2, h3]
      have h4 : T.receive r x ⟨tm.direct, tm.echo, tm.normal⟩ = .error (.protocol e) := hrc
      rw [h4]
      simp only [mapErr, TypedProto.boxErr, hser]
      rfl
    simp only [SRound.receive, this]
  have hpay : a.payloads.contains x = false := by
    rw [contains_isSome]
    have : a.payloads.get? x = none := hl1
    simp [this]
  have hpro : a.provable.contains x = false := by
    rw [contains_isSome]
    have : a.provable.get? x = none := hl2
    simp [this]
  obtain ⟨prev, comb, bytes, -, -, hb, hevd⟩ := newProvableError_ok hev
  cases hb
  unfold deliver
  rw [C02_decision_table mt s (proper_wellFormed mi hp) a x m _ hrow]
  simp only [Verdict.effect, PreOutcome.ok?, applyVerified, Session.addProcessed, Session.process, Accum.addProcessed]
  have e1 : (verifiedOf x m).sender = x := rfl
  have e2 : (verifiedOf x m).echo = m.echo := rfl
  have e3 : (verifiedOf x m).normal = m.normal := rfl
  have e4 : (verifiedOf x m).direct = m.direct := rfl
  simp only [e1, e2, e3, e4, hpay, hx, hwr, hev, Accum.registerProvable, hpro, Bool.false_eq_true, if_false, Bool.true_eq_false]
  exact ⟨_, rfl, ⟨ev, _, by simp, by rw [hevd], by rw [hevd], rfl⟩, rfl⟩

section

variable {fmt : SimpleFormat} {checks : Bool} {ids : BSet sp.Id} {rng0 : sp.Rng} {sid : Bytes} {signer : sp.Signer}
  {s₀ : Session (simple sp fmt checks).wrap}

theorem simple_notToSelf (h0 : Session.new rng0 sid signer (simpleEntry sp fmt checks ids) = .ok s₀) : NotToSelf s₀ := by
  intro trail s cached r hv hr
  obtain ⟨hp0, -, hsig0, -, -⟩ := new_proper h0
  have hme : s₀.me = sp.verifyingKey signer := by rw [hp0.me, hsig0]
  rw [hme]
  rcases simple_visits h0 hv with h | ⟨e, h, -⟩ | ⟨sum, h, -⟩
  · rw [h] at hr
    cases hr
    show (ids.erase _).contains _ = false
    simp
  · rw [h] at hr
    cases hr
  · rw [h] at hr
    cases hr
    show (ids.erase _).contains _ = false
    simp

/-- The messages the errors of the protocol ask for have been received. -/
theorem simple_obtained (h0 : Session.new rng0 sid signer (simpleEntry sp fmt checks ids) = .ok s₀)
    {trail : List (Session (simple sp fmt checks).wrap × Accum (simple sp fmt checks).wrap)} {cached : List (VerifiedMessage sp)}
    {s : Session (simple sp fmt checks).wrap} (hv : Visits s₀ trail s cached) {r : SimpleSt sp} (hr : s.round = .main r)
    {x : sp.Id} (hx : ((simple sp fmt checks).comm r).expecting.contains x = true) :
    Obtained (simple sp fmt checks) trail x
      ((simple sp fmt checks).required ((simple sp fmt checks).tag r) ((simple sp fmt checks).transition r).id) := by
  rcases simple_visits h0 hv with h | ⟨e, h, -⟩ | ⟨sum, h, ⟨q, hq, hqr⟩, hec⟩
  · rw [h] at hr
    cases hr
    exact ⟨fun _ _ _ h => (by cases h), fun _ _ h => (by cases h)⟩
  · rw [h] at hr
    cases hr
  · rw [h] at hr
    cases hr
    have hx' : (ids.erase (sp.verifyingKey signer)).contains x = true := hx
    refine ⟨?_, ?_⟩
    · intro all rid rp hall hget hany
      cases hall
      rw [BMap.get?_ofList_nodup (by simp)] at hget
      simp only [List.mem_singleton, Prod.mk.injEq] at hget
      obtain ⟨rfl, rfl⟩ := hget
      exact ⟨q, hq, _, hqr, rfl, hx', fun _ => rfl, fun h => (by cases h), fun h => (by cases h)⟩
    · intro all rid hall hget
      cases hall
      rw [BSet.contains_ofList, decide_eq_true_eq, List.mem_singleton] at hget
      subst hget
      obtain ⟨q', hq', e, he, hem, hee⟩ := hec (BMap.isEmpty_eq_false.2 ⟨x, hx'⟩)
      exact ⟨q', hq', e, he, by rw [hem]; rfl, by rw [hee]; exact hx'⟩

/-- **C62.**  In the protocol `simple`, a message that names a wrong position of this party is recorded as a provable error of its
sender, without a local error, in both rounds. -/
theorem C62_simple_detects (mt : sp.MetaTotal) (hu : fmt.UnitReads)
    (h0 : Session.new rng0 sid signer (simpleEntry sp fmt checks ids) = .ok s₀) {s : Session (simple sp fmt checks).wrap}
    {a : Accum (simple sp fmt checks).wrap} (h : Reach s₀ (.running s a)) {r : SimpleSt sp} (hr : s.round = .main r) {x : sp.Id}
    {m : Message sp} (hrow : Row s a x m .process) (hx : a.notSent.contains x = true) {own my your : U8}
    (hown : HasPosition ids (sp.verifyingKey signer) own) (hm : SimpleMessage fmt m my your ((simple sp fmt checks).tag r))
    (hne : your ≠ own) :
    ∃ a', deliver s a x m = .ok a' ∧ (∃ ev pe, a'.provable.get? x = some ev ∧ ev.guilty = x ∧ ev.body = .protocol pe) ∧
      a'.payloads = a.payloads := by
  obtain ⟨hp0, -, -, -, hm0⟩ := new_proper h0
  obtain ⟨trail, cached, rng, l, hv, hseq⟩ := reach_running h
  have hp := (visits_inv hp0 hm0 hv).proper
  obtain ⟨hexp, hl⟩ := reach_linv (seqRound_reach hseq) x
  have hxe : ((simple sp fmt checks).comm r).expecting.contains x = true := by
    have := hl.notSent (by simpa [Accum.loc] using hx)
    rw [hexp, (roundId_main hp hr).2] at this
    exact this
  have hob := simple_obtained h0 hv hr hxe
  obtain ⟨hin, hpos⟩ := position_eq hown
  obtain ⟨b, hb, -⟩ := hu
  have hck : ∀ t, (simpleCtx ids (sp.verifyingKey signer)).check t my your = .error (.protocol t) := by
    intro t
    unfold SimpleCtx.check
    rw [show (simpleCtx ids (sp.verifyingKey signer)).id = sp.verifyingKey signer from rfl, simple_position hin]
    simp only
    rw [if_pos (by rw [← hpos]; exact hne.symm)]
  have fin : ∀ tm : TypedMsg SimpleVal,
      (simple sp fmt checks).readPart ((simple sp fmt checks).tag r) m.direct.part = some tm.direct →
      (simple sp fmt checks).readPart ((simple sp fmt checks).tag r) m.echo.part = some tm.echo →
      (simple sp fmt checks).readPart ((simple sp fmt checks).tag r) m.normal.part = some tm.normal →
      (simple sp fmt checks).receive r x tm = .error (.protocol ((simple sp fmt checks).tag r)) →
      ∃ a', deliver s a x m = .ok a' ∧ (∃ ev pe, a'.provable.get? x = some ev ∧ ev.guilty = x ∧ ev.body = .protocol pe) ∧
        a'.payloads = a.payloads := by
    intro tm k1 k2 k3 k4
    obtain ⟨a', g1, ⟨ev, pe, g2, g3, g4, -⟩, g5⟩ := C62_recorded mt simple_mainIds h0 ⟨cached, rng, l, hv, hseq⟩ hrow hx hr k1 k2 k3
      k4 (b := b) hb hob
    exact ⟨a', g1, ⟨ev, pe, g2, g3, g4⟩, g5⟩
  rcases simple_visits h0 hv with h | ⟨e, h, -⟩ | ⟨sum, h, -⟩
  · rw [h] at hr
    cases hr
    obtain ⟨⟨b1, p1, d1⟩, ⟨b2, v2, p2, d2⟩, b3, v3, p3, d3⟩ := hm
    refine fin ⟨some (.message1 my your), some v2, some v3⟩ ?_ ?_ ?_ (hck _)
    · simp [TypedProto.readPart, simple, simpleBase, p1, d1]
    · simp [TypedProto.readPart, simple, simpleBase, p2, d2]
    · simp [TypedProto.readPart, simple, simpleBase, p3, d3]
  · rw [h] at hr
    cases hr
  · rw [h] at hr
    cases hr
    obtain ⟨⟨b1, p1, d1⟩, p2, p3⟩ := hm
    refine fin ⟨some (.message2 my your), none, none⟩ ?_ ?_ ?_ (hck _)
    · simp [TypedProto.readPart, simple, simpleBase, p1, d1]
    · simp [TypedProto.readPart, simple, simpleBase, p2]
    · simp [TypedProto.readPart, simple, simpleBase, p3]

set_option smartUnfolding false in
/-- The accessors do not depend on `verify_evidence`. -/
theorem simple_evPart {k : PartKind} (t : SimpleTag) (p : Option (Part k)) :
    (simple sp fmt checks).evPart t p = (simpleBase sp fmt checks).evPart t p := rfl

set_option smartUnfolding false in
theorem simple_evCombined (t : SimpleTag) (comb : BMap RoundId (BMap sp.Id (Part .echo))) (n : U8) :
    (simple sp fmt checks).evCombined t comb n = (simpleBase sp fmt checks).evCombined t comb n := rfl

/-- **C62.**  In the protocol `simple`, all evidence in the report of a run verifies, whatever the other parties sent; except
possibly evidence of an invalid echo (see C24). -/
theorem C62_simple_verifies (sc : sp.SignCorrect) (srt : sp.SigRoundTrip) (hf : fmt.Lawful) (hu : fmt.UnitReads)
    (h0 : Session.new rng0 sid signer (simpleEntry sp fmt checks ids) = .ok s₀) {rep : Report (simple sp fmt checks).wrap}
    (h : Reach s₀ (.done (.ok rep))) {x : sp.Id} {ev : Evidence sp} (hx : rep.provable.get? x = some ev)
    (hb : ∀ n k, ev.body ≠ .invalidEcho n k) : ev.verify (simple sp fmt checks).wrap () = .ok () := by
  cases hbd : ev.body with
  | protocol pe =>
    obtain ⟨-, trail, s, cached, r, tm, e, hv, hr, hrc, hall⟩ := C62_accessors sc srt simple_tagConsistent simple_mainIds
      (simple_readable hf) (simple_errors hu) h0 (simple_notToSelf h0) h hx hbd
    have he := simple_receive_cases hrc
    subst he
    cases r with
    | r1 c =>
      obtain ⟨m, prev, comb, h1, h2, h3, h4⟩ := hall rfl ()
      rw [h1]
      have h5 := (simple_evPart SimpleTag.r1 m.direct).symm.trans h2.direct
      simp only [simple]
      rw [h5]
      rfl
    | r2 sum c =>
      obtain ⟨m, prev, comb, h1, h2, h3, h4⟩ := hall rfl ()
      rw [h1]
      have h5 := (simple_evPart SimpleTag.r2 m.direct).symm.trans h2.direct
      obtain ⟨q, -, r, info, m', hqr, hid, -, h6, -⟩ := h4 1 _ rfl (by decide)
      have hr1 : (simple sp fmt checks).tag r = SimpleTag.r1 := by
        cases r with
        | r1 c => rfl
        | r2 sum c =>
          have : RoundId.new 2 = RoundId.new 1 := hid
          exact absurd this (by decide)
      rw [hr1] at h6
      have h7 := (simple_evCombined SimpleTag.r1 comb 1).symm.trans h6
      simp only [simple]
      rw [h5, h7]
      rfl
  | invalidDirect p => exact (C21_malformed_verifies _ simple_tagConsistent simple_mainIds h0 h hx (by rw [hbd]; trivial) ()).2
  | invalidEchoBroadcast p => exact (C21_malformed_verifies _ simple_tagConsistent simple_mainIds h0 h hx (by rw [hbd]; trivial) ()).2
  | invalidNormal p => exact (C21_malformed_verifies _ simple_tagConsistent simple_mainIds h0 h hx (by rw [hbd]; trivial) ()).2
  | invalidEcho n k => exact absurd hbd (hb n k)
  | mismatched g w e =>
    exact (C23_mismatched_verifies sc srt simple_mainIds (typed_noEchoErr _) h0 h hx hbd ()).2.1

/-- **C62.**  An honest party can be framed: `verify_evidence` of the error of the first round accepts any direct message of that
round, in particular the one the party sends when it follows the protocol (the code says that the check is left out). -/
theorem C62_simple_frames_violation (sc : sp.SignCorrect) (srt : sp.SigRoundTrip) (hf : fmt.Lawful) (hu : fmt.UnitReads)
    {rng rng' : sp.Rng} {d : sp.Id} {p : Part .direct} {art : Unit} {q : SignedPart .direct}
    (hm : (simple sp fmt checks).wrap.makeDirect (SimpleSt.r1 (simpleCtx ids (sp.verifyingKey signer))) rng d = .ok (p, art))
    (hs : SignedPart.new sp rng' signer sid (RoundId.new 1) p = .ok q) :
    ∃ pe : ProtocolEvidence sp, pe.direct = some q ∧
      (⟨sp.verifyingKey signer, .protocol pe⟩ : Evidence sp).verify (simple sp fmt checks).wrap () = .ok () := by
  obtain ⟨b, -, hb⟩ := hu
  obtain ⟨hqm, hqs⟩ := signed_valid sc srt hs
  have hqp : q.part = p := by
    unfold SignedPart.new at hs
    split at hs
    · cases hs
    · split at hs
      · cases hs
      · split at hs
        · cases hs
        · cases hs
          rfl
  have hread : ∃ v, (simpleBase sp fmt checks).evPart SimpleTag.r1 (some p) = .ok v := by
    have := (simple_readable (checks := checks) (sp := sp) hf).direct
    simp only [TypedProto.wrap] at hm
    split at hm
    · cases hm
    · rename_i v a hv
      split at hm
      · cases hm
      · rename_i p' hp'
        cases hm
        unfold TypedProto.newPart at hp'
        have hde : (simple sp fmt checks).de SimpleTag.r1 .direct = some (fmt.de .message1) := rfl
        have hp2 : (match fmt.ser v with
          | .error e => Except.error e
          | .ok b => .ok (Part.mk (k := .direct) (some b))) = Except.ok p := hp'
        split at hp2
        · cases hp2
        · rename_i b' hb'
          cases hp2
          obtain ⟨w, hw⟩ := this _ _ _ _ _ _ _ hv hde hb'
          refine ⟨some w, ?_⟩
          simp [TypedProto.evPart, TypedProto.readEv, TypedProto.readPart, simpleBase, hw, okOr]
  obtain ⟨v, hv⟩ := hread
  refine ⟨⟨b, some q, none, none, BMap.empty, BMap.empty, BMap.empty, BMap.empty, BMap.empty⟩, rfl, ?_⟩
  have h1 : Evidence.verifyPart (sp.verifyingKey signer) sid (RoundId.new 1) (some q) = .ok (some p) :=
    Evidence.verifyPart_ok.2 ⟨fun p' hp' => by cases hp'; exact ⟨hqm, hqs⟩, by rw [Option.map_some, hqp]⟩
  have h2 : ∀ k, Evidence.verifyPart (k := k) (sp.verifyingKey signer) sid (RoundId.new 1) none = .ok none := fun k => rfl
  simp only [Evidence.verify, Evidence.verifyProtocol, Evidence.triggerMetadata, hqm, h1, h2]
  have h3 : ∀ k, Evidence.verifyParts (k := k) (sp.verifyingKey signer) sid BMap.empty = .ok BMap.empty := fun k => rfl
  simp only [h3]
  have h4 : foldE (Evidence.verifyCombined (sp.verifyingKey signer) sid BMap.empty) BMap.empty
      (BMap.empty : BMap RoundId (SignedPart .normal)).toList = .ok BMap.empty := rfl
  simp only [h4]
  have h5 : (simple sp fmt checks).wrap.roundInfo (RoundId.new 1) = some ((simple sp fmt checks).infoOf SimpleTag.r1) := rfl
  simp only [h5, TypedProto.infoOf]
  have h6 : (simple sp fmt checks).deErr SimpleTag.r1 b = some SimpleTag.r1 := by
    show (fmt.deUnit b).map (fun _ => SimpleTag.r1) = some SimpleTag.r1
    rw [hb]
    rfl
  simp only [h6]
  simp only [simple]
  rw [hv]

theorem simpleSum_total {i : sp.Id} (hi : ids.contains i = true) (ps : BMap sp.Id U8) :
    ∃ v, simpleSum false (simpleCtx ids i) ps = .ok v := by
  unfold simpleSum
  rw [show (simpleCtx ids i).id = i from rfl, simple_position hi]
  simp only
  rw [sumU8_ok _ (Or.inl rfl)]
  simp only
  rw [addU8_ok (Or.inl rfl)]
  exact ⟨_, rfl⟩

/-- **C62.**  The methods of the rounds of the protocol `simple` do not fail, whatever messages arrive, if sums wrap around. -/
theorem C62_simple_local (hf : fmt.Lawful) (ht : fmt.Typed) {i : sp.Id} (hi : ids.contains i = true) :
    LocalOk (simple sp fmt false).wrap (fun r => ∃ k, SimpleShape ids k i r) where
  makeDirect := by
    rintro r rng d ⟨k, hs⟩ hd
    rw [simple_comm hs] at hd
    have hd' : ids.contains d = true := by
      have : (ids.erase i).contains d = true := hd
      rw [BMap.contains_erase] at this
      exact (Bool.and_eq_true _ _ ▸ this).2
    rcases hs with ⟨-, rfl⟩ | ⟨-, sum, rfl⟩
    · obtain ⟨b, hb, -⟩ := hf (.message1 (posOf ids i) (posOf ids d))
      simp only [TypedProto.wrap, simple, simpleBase, simple_two hi hd', TypedProto.newPart, hb]
      exact ⟨_, rfl⟩
    · obtain ⟨b, hb, -⟩ := hf (.message2 (posOf ids i) (posOf ids d))
      simp only [TypedProto.wrap, simple, simpleBase, simple_two hi hd', TypedProto.newPart, hb]
      exact ⟨_, rfl⟩
  makeEcho := by
    rintro r rng ⟨k, ⟨-, rfl⟩ | ⟨-, sum, rfl⟩⟩
    · obtain ⟨b, hb, -⟩ := hf (.echo1 (posOf ids i))
      simp only [TypedProto.wrap, simple, simpleBase, show (simpleCtx ids i).id = i from rfl, simple_position hi,
        TypedProto.newPart, hb]
      exact ⟨_, rfl⟩
    · exact ⟨_, rfl⟩
  makeNormal := by
    rintro r rng ⟨k, ⟨-, rfl⟩ | ⟨-, sum, rfl⟩⟩
    · obtain ⟨b, hb, -⟩ := hf (.broadcast1 0 (posOf ids i))
      simp only [TypedProto.wrap, simple, simpleBase, show (simpleCtx ids i).id = i from rfl, simple_position hi,
        TypedProto.newPart, hb]
      exact ⟨_, rfl⟩
    · exact ⟨_, rfl⟩
  receive := by
    rintro r x m e ⟨k, hs⟩ -
    exact simple_receive_total ht hi hs x m e
  finalize := by
    rintro r rng ps as ⟨k, ⟨-, rfl⟩ | ⟨-, sum, rfl⟩⟩ -
    · obtain ⟨v, hv⟩ := simpleSum_total hi (ps : BMap sp.Id U8)
      refine ⟨.anotherRound (SimpleSt.r2 v (simpleCtx ids i)), ?_, ?_⟩
      · simp only [TypedProto.wrap, simple, simpleBase]
        rw [hv]
      · intro r' h
        cases h
        exact ⟨⟨1, Or.inr ⟨rfl, v, rfl⟩⟩, rfl⟩
    · obtain ⟨v, hv⟩ := simpleSum_total hi (ps : BMap sp.Id U8)
      refine ⟨.result (Fin.ofNat 256 (v.val + sum.val) : U8), ?_, fun r' h => (by cases h)⟩
      simp only [TypedProto.wrap, simple, simpleBase]
      rw [hv]
      simp only
      rw [addU8_ok (Or.inl rfl)]

/-- **C62.**  If sums wrap around, other parties can only make a run of the protocol `simple` fail in the ways listed in C08. -/
theorem C62_simple_run_partial (env : sp.EnvOk) (hf : fmt.Lawful) (ht : fmt.Typed) (hu : fmt.UnitReads)
    (hi : ids.contains (sp.verifyingKey signer) = true) {s₀ : Session (simple sp fmt false).wrap}
    (h0 : Session.new rng0 sid signer (simpleEntry sp fmt false ids) = .ok s₀) {e : LErr} (h : Reach s₀ (.done (.error e))) :
    ∃ trail s a cached ev, Reach s₀ (.running s a) ∧ Visits s₀ trail s cached ∧ CrashCause s a cached ev e := by
  refine C08_run_partial env (C62_simple_local hf ht hi) simple_mainIds simple_acyclic simple_strict h0 ?_ ?_ h
  · intro rng r hr
    cases hr
    exact ⟨0, Or.inl ⟨rfl, rfl⟩⟩
  · intro trail s cached hv vm req ser hx hau hrc
    obtain ⟨hp0, -, -, -, hm0⟩ := new_proper h0
    have hp := (visits_inv hp0 hm0 hv).proper
    cases hr : s.round with
    | echo e =>
      rw [hr] at hrc
      exact absurd (receive_echo_error hrc) echo_not_protocol
    | main r =>
      rw [hr] at hrc
      obtain ⟨tm, e, -, -, -, hrecv, hreq, hser⟩ := wrapReceive_protocol (receive_main_error hrc)
      have he := simple_receive_cases hrecv
      subst he
      obtain ⟨b, hb, -⟩ := hu
      rw [hreq, hser, show (simple sp fmt false).serErr ((simple sp fmt false).tag r) = .ok b from hb]
      rw [(roundId_main hp hr).2] at hx
      exact newProvableError_total simple_mainIds h0 hv (simple_obtained h0 hv hr hx) _ _ _

end

/-! ### Examples -/

theorem simpleFmt_typed : simpleFmt.Typed := by
  intro ty b v h
  cases ty
  · match b, h with
    | a :: b :: _, h => cases h; rfl
  · match b, h with
    | a :: _, h => cases h; rfl
  · match b, h with
    | a :: b :: _, h => cases h; rfl
  · match b, h with
    | a :: b :: _, h => cases h; rfl

theorem simpleFmt_unit : simpleFmt.UnitReads := ⟨[], rfl, rfl⟩

/-- The messages of the other party of two, up to the second round, in which it names a wrong position. -/
def wrongLater : List Act :=
  [.msg ⟨7, 7, [9], RoundId.new 1, 5, some [1, 0], some [1], some [0, 1]⟩, .tick,
   .msg ⟨7, 7, [9], ⟨1, [], true⟩, 5, none, none, some (demoPack (RoundId.new 1) [(5, [0])])⟩, .tick,
   .msg ⟨7, 7, [9], RoundId.new 2, 5, some [1, 9], none, none⟩]

/-- Evidence of a protocol error with an echo round's message. -/
def Evidence.withHashes (ev : Evidence toy) : Bool :=
  match ev.body with
  | .protocol pe => pe.echoHashes.contains (RoundId.new 1)
  | _ => false

/-- A wrong position in the second round is recorded; the evidence contains the message of the echo round, and verifies. -/
example : ∃ (s₀ : Session (simple toy simpleFmt true).wrap) (rep : Report (simple toy simpleFmt true).wrap) (ev : Evidence toy),
    Session.new (sp := toy) (0 : Nat) [9] (5 : U8) (simpleEntry toy simpleFmt true (BSet.ofList [5, 7] : BSet U8)) = .ok s₀ ∧
      Reach s₀ (.done (.ok rep)) ∧ rep.provable.get? (7 : U8) = some ev ∧ (∀ n k, ev.body ≠ .invalidEcho n k) ∧
      ev.verify (simple toy simpleFmt true).wrap () = .ok () := by
  have h : onOk (scriptRun (simpleEntry toy simpleFmt true (BSet.ofList [5, 7] : BSet U8)) 5 (wrongLater ++ [.tick]))
      (fun r => r.2.isReport (fun rep => rep.provable.values.any Evidence.withHashes && rep.provable.contains (7 : U8) &&
        decide (rep.provable.values.length = 1))) = true := by decide +kernel
  obtain ⟨s₀, st, h0, hr, hk⟩ := onOk_script h
  obtain ⟨rep, rfl, h1⟩ := isReport_iff.1 hk
  simp only [Bool.and_eq_true, decide_eq_true_eq, List.any_eq_true] at h1
  obtain ⟨⟨⟨ev, hm, hw⟩, hc⟩, hl⟩ := h1
  obtain ⟨ev', hev⟩ := BMap.contains_iff.1 hc
  have hm' := BMap.mem_values.2 ⟨_, hev⟩
  have : ev' = ev := by
    match hv : rep.provable.values, hl with
    | [y], _ =>
      rw [hv] at hm hm'
      simp only [List.mem_singleton] at hm hm'
      rw [hm, hm']
  subst this
  have hne : ∀ n k, ev'.body ≠ .invalidEcho n k := fun n k h => by
    unfold Evidence.withHashes at hw
    rw [h] at hw
    cases hw
  exact ⟨s₀, rep, ev', h0, hr, hev, hne, C62_simple_verifies toy_signCorrect toy_sigRoundTrip simpleFmt_lawful simpleFmt_unit h0 hr
    hev hne⟩

/-- **C62.**  With overflow checks the other party stops the run by naming a large own position, which is added up unchecked. -/
theorem C62_simple_overflow_violation :
    ∃ s₀ : Session (simple toy simpleFmt true).wrap,
      Session.new (sp := toy) (0 : Nat) [9] (7 : U8) (simpleEntry toy simpleFmt true (BSet.ofList [5, 7] : BSet U8)) = .ok s₀ ∧
      Reach s₀ (.done (.error .panicOverflow)) := by
  have h : onOk (scriptRun (simpleEntry toy simpleFmt true (BSet.ofList [5, 7] : BSet U8)) 7
      [.msg ⟨5, 5, [9], RoundId.new 1, 7, some [255, 1], some [0], some [0, 0]⟩, .tick,
       .msg ⟨5, 5, [9], ⟨1, [], true⟩, 7, none, none, some (demoPack (RoundId.new 1) [(7, [1])])⟩, .tick])
      (fun r => r.2.isFailed (· == .panicOverflow)) = true := by decide +kernel
  obtain ⟨s₀, st, h0, hr, hk⟩ := onOk_script h
  obtain ⟨e, rfl, he⟩ := isFailed_iff.1 hk
  rw [beq_iff_eq.1 he] at hr
  exact ⟨s₀, h0, hr⟩

/-- The assumptions of `C62_simple_detects` hold for the wrong message of the second round: party 5 at position 0 is told 9. -/
example : HasPosition (sp := toy) (BSet.ofList [5, 7] : BSet U8) (5 : U8) 0 ∧ ∃ m : Message toy,
    (⟨7, 7, [9], RoundId.new 2, 5, some [1, 9], none, none⟩ : Sent).message = .ok (7, m) ∧ SimpleMessage simpleFmt m 1 9 .r2 :=
  ⟨⟨0, rfl, rfl⟩, _, rfl, ⟨_, rfl, rfl⟩, rfl, rfl⟩

/-- A party following the protocol is framed: the message party 5 sends in the first round. -/
example : ∃ (q : SignedPart .direct) (pe : ProtocolEvidence toy), pe.direct = some q ∧ q.part.payload = some [0, 1] ∧
    (⟨(5 : U8), .protocol pe⟩ : Evidence toy).verify (simple toy simpleFmt true).wrap () = .ok () := by
  have hm : (simple toy simpleFmt true).wrap.makeDirect (SimpleSt.r1 (simpleCtx (BSet.ofList [5, 7] : BSet U8) (5 : U8))) (0 : Nat)
      (7 : U8) = .ok (⟨some [0, 1]⟩, ()) := rfl
  obtain ⟨q, hq⟩ : ∃ q, SignedPart.new toy (0 : Nat) (5 : U8) [9] (RoundId.new 1) (⟨some [0, 1]⟩ : Part .direct) = .ok q :=
    ⟨_, rfl⟩
  obtain ⟨pe, h1, h2⟩ := C62_simple_frames_violation (sp := toy) toy_signCorrect toy_sigRoundTrip simpleFmt_lawful simpleFmt_unit
    (signer := (5 : U8)) hm hq
  exact ⟨q, pe, h1, by cases hq; rfl, h2⟩

/-- A chain whose first protocol is `simple`: the error of the second round asks for the echo broadcasts of the first round by its
id in the chain (an instance of `C38_required`). -/
example {P2 : Proto toy} (J : ChainJoin (simple toy simpleFmt true).wrap P2) (d : J.Data) :
    ∃ outer, (chain (simple toy simpleFmt true).wrap P2 J).receive
        (.one (5 : U8) (SimpleSt.r2 0 (simpleCtx (BSet.ofList [5, 7] : BSet U8) (5 : U8))) [9] d) (7 : U8)
        ⟨⟨none⟩, ⟨none⟩, ⟨some [1, 9]⟩⟩ = .error (.protocol outer (.ok [])) ∧ outer.AsksCombined ⟨1, [1], false⟩ := by
  obtain ⟨outer, h1, h2⟩ := C38_required (P := chain (simple toy simpleFmt true).wrap P2 J) (.first (5 : U8) [9] d .self)
    (q := SimpleSt.r2 0 (simpleCtx (BSet.ofList [5, 7] : BSet U8) (5 : U8))) (x := (7 : U8)) (m := ⟨⟨none⟩, ⟨none⟩, ⟨some [1, 9]⟩⟩)
    (inner := (simple toy simpleFmt true).required SimpleTag.r2 (RoundId.new 2)) (ser := .ok []) rfl
  exact ⟨outer, h1, (h2.combined _).2 ⟨RoundId.new 1, rfl, _, rfl, by decide⟩⟩

end Manul
