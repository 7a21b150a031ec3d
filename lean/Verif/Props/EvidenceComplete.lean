import Verif.Lemmas.EvidenceCheck
import Verif.Lemmas.Scenario
import Verif.Props.Crash

/-!
# Evidence in reports verifies: C21, C22, C23, C24, C29
-/

namespace Manul

variable {sp : SP} {P : Proto sp}

/-! ## C21 -/

theorem boxErr_malformed {T : TypedProto sp} {rid : RoundId} {e : TypedErr T.PErr} :
    T.boxErr rid e ≠ .invalidDirect ∧ T.boxErr rid e ≠ .invalidEcho ∧ T.boxErr rid e ≠ .invalidNormal := by
  cases e <;> simp [TypedProto.boxErr]

theorem readPart_invalid {T : TypedProto sp} {t : T.Tag} {k : PartKind} {p : Part k} (h : T.readPart t p = none) :
    T.partInvalid t p = .ok () := by
  unfold TypedProto.readPart at h
  unfold TypedProto.partInvalid Part.verifyIsSome
  cases hd : T.de t k <;> cases hp : p.payload <;> simp only [hd, hp] at h ⊢
  · simp at h
  · rfl
  · split at h
    · rename_i h'
      simp [h']
    · simp at h

/-- Which part a wrapped round complains about. -/
theorem wrapReceive_malformed {T : TypedProto sp} {st : T.St} {x : sp.Id} {m : DynMsg} :
    (T.wrapReceive st x m = .error .invalidDirect → T.readPart (T.tag st) m.direct = none) ∧
    (T.wrapReceive st x m = .error .invalidEcho → T.readPart (T.tag st) m.echo = none) ∧
    (T.wrapReceive st x m = .error .invalidNormal → T.readPart (T.tag st) m.normal = none) := by
  unfold TypedProto.wrapReceive
  cases h1 : T.readPart (T.tag st) m.direct with
  | none => simp
  | some d =>
    cases h2 : T.readPart (T.tag st) m.echo with
    | none => simp
    | some e =>
      cases h3 : T.readPart (T.tag st) m.normal with
      | none => simp
      | some n =>
        simp only
        cases h4 : T.receive st x ⟨d, e, n⟩ with
        | ok v => simp [mapErr]
        | error err =>
          have := boxErr_malformed (T := T) (rid := (T.transition st).id) (e := err)
          simp [mapErr, this]

theorem checkEchos_not_malformed {received : BMap sp.Id (SignedPart .echo)} {l : List (sp.Id × SignedHash)} {err : RecvErr sp}
    (h : EchoRd.checkEchos sp received l = .error err) :
    err ≠ .invalidDirect ∧ err ≠ .invalidEcho ∧ err ≠ .invalidNormal := by
  unfold EchoRd.checkEchos at h
  obtain ⟨-, x, -, hx⟩ := foldE_error h
  unfold EchoRd.checkEcho at hx
  repeat' split at hx
  all_goals (simp at hx; try (subst hx; simp))

/-- Which part an echo round complains about. -/
theorem echoReceive_malformed {e : EchoRd P} {x : sp.Id} {m : DynMsg} :
    (e.receive x m = .error .invalidDirect → m.direct.payload.isSome = true) ∧
    (e.receive x m = .error .invalidEcho → m.echo.payload.isSome = true) ∧
    (e.receive x m = .error .invalidNormal → Evidence.deserializePack sp m.normal = none) := by
  unfold EchoRd.receive Part.isNone
  cases h1 : m.echo.payload with
  | some b => simp
  | none =>
    cases h2 : m.direct.payload with
    | some b => simp
    | none =>
      cases h3 : Evidence.deserializePack sp m.normal with
      | none => simp
      | some pack =>
        simp only [Option.isNone_none, Bool.true_eq_false, if_false]
        have : ∀ err, e.receivePack x pack = .error err → err ≠ .invalidDirect ∧ err ≠ .invalidEcho ∧ err ≠ .invalidNormal := by
          intro err h
          unfold EchoRd.receivePack at h
          simp only at h
          split at h
          · simp only [Except.error.injEq] at h
            subst h
            simp
          · split at h
            · simp only [Except.error.injEq] at h
              subst h
              simp
            · exact checkEchos_not_malformed h
        refine ⟨fun h => absurd rfl (this _ h).1, fun h => absurd rfl (this _ h).2.1, fun h => absurd rfl (this _ h).2.2⟩

theorem receive_echo_error {e : EchoRd P} {x : sp.Id} {m : DynMsg} {err : RecvErr sp}
    (h : (SRound.echo e).receive x m = .error err) : e.receive x m = .error err := by
  simp only [SRound.receive] at h
  cases hr : e.receive x m with
  | ok u => simp [hr] at h
  | error e' => simpa [hr] using h

theorem receive_main_error {r : P.Rd} {x : sp.Id} {m : DynMsg} {err : RecvErr sp}
    (h : (SRound.main r).receive x m = .error err) : P.receive r x m = .error err := by
  simp only [SRound.receive] at h
  cases hr : P.receive r x m with
  | ok u => simp [hr] at h
  | error e' => simpa [hr] using h

/-- The verification of a malformed part: an authentic part of a round, invalid for the round. -/
theorem verifyInvalidPart_ok {k : PartKind} {I : Type} {who : sp.Id} {m : SignedPart k} {sid : Bytes} {r : RoundId}
    {info : RoundId → Option I} {ec : Part k → Except EvErr Unit} {mc : I → Part k → Except EvErr Unit}
    (hau : AuthenticPart who sid r m)
    (h : (r.isEcho = true ∧ ec m.part = .ok ()) ∨ (r.isEcho = false ∧ ∃ i, info r = some i ∧ mc i m.part = .ok ())) :
    Evidence.verifyInvalidPart sp who m info ec mc = .ok () := by
  unfold Evidence.verifyInvalidPart
  rw [show m.verify sp who = .ok () from verifySigned_ok.2 hau.2, hau.1]
  simp only
  rcases h with ⟨h1, h2⟩ | ⟨h1, i, h2, h3⟩
  · rw [if_pos h1, h2]
  · rw [if_neg (by simp [h1]), h2]
    exact h3

theorem malformed_recorded (T : TypedProto sp) (tc : TagConsistent T) (mi : MainIds T.wrap) {s : Session T.wrap} (hp : Proper s)
    {x : sp.Id} {vm : VerifiedMessage sp} {ev : Evidence sp} (hs : vm.sender = x)
    (hau : Authentic x s.sessionId s.roundId vm.direct vm.echo vm.normal) (hrec : Recorded s.transcript (s.process vm) ev)
    (hb : ev.body.Malformed) (shared : T.Shared) : ev.guilty = x ∧ ev.verify T.wrap shared = .ok () := by
  have main : ∀ r : T.St, s.round = .main r → s.roundId.isEcho = false ∧
      T.wrap.roundInfo s.roundId = some (T.infoOf (T.tag r)) := by
    intro r hr
    have hid : s.roundId = (T.transition r).id := congrArg TransitionInfo.id (roundId_main hp hr).1
    refine ⟨by rw [hid]; exact mi r, ?_⟩
    rw [hid]
    simp only [TypedProto.wrap, tc r, Option.map_some]
  have echo : ∀ e : EchoRd T.wrap, s.round = .echo e → s.roundId.isEcho = true :=
    fun e he => (echo_transition_id mi hp he).2
  cases hrec with
  | direct hr =>
    refine ⟨hs, ?_⟩
    simp only [Session.process] at hr ⊢
    unfold Evidence.verify
    rw [hs]
    refine verifyInvalidPart_ok hau.1 ?_
    cases hrd : s.round with
    | main r =>
      rw [hrd] at hr
      obtain ⟨h1, h2⟩ := main r hrd
      exact Or.inr ⟨h1, _, h2, readPart_invalid (wrapReceive_malformed.1 (receive_main_error hr))⟩
    | echo e =>
      rw [hrd] at hr
      have := echoReceive_malformed.1 (receive_echo_error hr)
      exact Or.inl ⟨echo e hrd, by unfold Part.verifyIsSome; rw [if_pos]; exact this⟩
  | echoBroadcast hr =>
    refine ⟨hs, ?_⟩
    simp only [Session.process] at hr ⊢
    unfold Evidence.verify
    rw [hs]
    refine verifyInvalidPart_ok hau.2.1 ?_
    cases hrd : s.round with
    | main r =>
      rw [hrd] at hr
      obtain ⟨h1, h2⟩ := main r hrd
      exact Or.inr ⟨h1, _, h2, readPart_invalid (wrapReceive_malformed.2.1 (receive_main_error hr))⟩
    | echo e =>
      rw [hrd] at hr
      have := echoReceive_malformed.2.1 (receive_echo_error hr)
      exact Or.inl ⟨echo e hrd, by unfold Part.verifyIsSome; rw [if_pos]; exact this⟩
  | normal hr =>
    refine ⟨hs, ?_⟩
    simp only [Session.process] at hr ⊢
    unfold Evidence.verify
    rw [hs]
    refine verifyInvalidPart_ok hau.2.2 ?_
    cases hrd : s.round with
    | main r =>
      rw [hrd] at hr
      obtain ⟨h1, h2⟩ := main r hrd
      exact Or.inr ⟨h1, _, h2, readPart_invalid (wrapReceive_malformed.2.2 (receive_main_error hr))⟩
    | echo e =>
      rw [hrd] at hr
      have := echoReceive_malformed.2.2 (receive_echo_error hr)
      refine Or.inl ⟨echo e hrd, ?_⟩
      unfold Evidence.echoNormalInvalid
      simp only [VerifiedMessage.dyn] at this
      rw [this]
  | protocol hr hev =>
    exfalso
    unfold Evidence.newProvableError at hev
    repeat' split at hev
    all_goals first
      | (simp at hev; done)
      | (simp only [Except.ok.injEq] at hev; subst hev; exact hb)
  | @echo e hr => cases e <;> exact absurd hb (by simp [Evidence.newEchoRoundError, EvBody.Malformed])

/-- Evidence of a malformed part in the report of a run accuses the party it is filed under, and verifies. -/
theorem C21_malformed_verifies (T : TypedProto sp) (tc : TagConsistent T) (mi : MainIds T.wrap) {rng0 : sp.Rng} {sid : Bytes}
    {signer : sp.Signer} {ep : EntryPoint T.wrap} {s₀ : Session T.wrap} {rep : Report T.wrap}
    (h0 : Session.new rng0 sid signer ep = .ok s₀) (h : Reach s₀ (.done (.ok rep))) {x : sp.Id} {ev : Evidence sp}
    (hx : rep.provable.get? x = some ev) (hb : ev.body.Malformed) (shared : T.Shared) :
    ev.guilty = x ∧ ev.verify T.wrap shared = .ok () := by
  obtain ⟨trail, s, cached, vm, hv, hs, hau, hrec, -⟩ := report_origin h0 h hx
  obtain ⟨hp0, -, -, -, hm0⟩ := new_proper h0
  have hp := (visits_inv hp0 hm0 hv).proper
  exact malformed_recorded T tc mi hp hs hau hrec hb shared

/-- A round complains about a malformed part. -/
theorem receive_malformed {T : TypedProto sp} (tc : TagConsistent T) (mi : MainIds T.wrap) {s : Session T.wrap} (hp : Proper s)
    {x : sp.Id} {m : DynMsg} (h : MalformedFor T m.direct s.transition.id ∨ MalformedFor T m.echo s.transition.id ∨
      MalformedFor T m.normal s.transition.id) :
    s.round.receive x m = .error .invalidDirect ∨ s.round.receive x m = .error .invalidEcho ∨
      s.round.receive x m = .error .invalidNormal := by
  cases hr : s.round with
  | main r =>
    have hid : s.transition = T.transition r := (roundId_main hp hr).1
    have hne : s.transition.id.isEcho = false := by rw [hid]; exact mi r
    have read : ∀ {k : PartKind} {p : Part k}, MalformedFor T p s.transition.id → T.readPart (T.tag r) p = none := by
      intro k p hm
      rcases hm with ⟨h', -⟩ | ⟨-, t, ht, hn⟩
      · rw [hne] at h'
        cases h'
      · rw [hid, tc r] at ht
        cases ht
        unfold TypedProto.readPart
        cases hd : T.de (T.tag r) k with
        | none =>
          cases hpl : p.payload with
          | none => exact absurd (Or.inl ⟨hd, hpl⟩) hn
          | some b => rfl
        | some de =>
          cases hpl : p.payload with
          | none => rfl
          | some b =>
            cases hv : de b with
            | none => simp only [hv]
            | some v => exact absurd (Or.inr ⟨de, b, v, hd, hpl, hv⟩) hn
    have lift : ∀ err, T.wrapReceive r x m = .error err → (SRound.main (P := T.wrap) r).receive x m = .error err := by
      intro err he
      simp only [SRound.receive, TypedProto.wrap, he]
    cases h1 : T.readPart (T.tag r) m.direct with
    | none => exact Or.inl (lift _ (by unfold TypedProto.wrapReceive; rw [h1]))
    | some d =>
      cases h2 : T.readPart (T.tag r) m.echo with
      | none => exact Or.inr (Or.inl (lift _ (by unfold TypedProto.wrapReceive; rw [h1, h2])))
      | some e =>
        cases h3 : T.readPart (T.tag r) m.normal with
        | none => exact Or.inr (Or.inr (lift _ (by unfold TypedProto.wrapReceive; rw [h1, h2, h3])))
        | some n =>
          exfalso
          rcases h with h | h | h
          · rw [read h] at h1; cases h1
          · rw [read h] at h2; cases h2
          · rw [read h] at h3; cases h3
  | echo e =>
    have hne : s.transition.id.isEcho = true := by
      have := (echo_transition_id mi hp hr).2
      simpa [Session.roundId] using this
    have nf : ∀ {k : PartKind} {p : Part k}, MalformedFor T p s.transition.id →
        (k = .normal → ¬ ∃ (q : Part .normal) (pack : EchoPack sp), q.payload = p.payload ∧ Decodes q pack) ∧
          (k ≠ .normal → p.payload ≠ none) := by
      intro k p hm
      rcases hm with ⟨-, h⟩ | ⟨h', -⟩
      · exact h
      · rw [hne] at h'
        cases h'
    have lift : ∀ err, e.receive x m = .error err → (SRound.echo (P := T.wrap) e).receive x m = .error err := by
      intro err he
      simp only [SRound.receive, he]
    cases h1 : m.echo.payload with
    | some b => exact Or.inr (Or.inl (lift _ (by simp [EchoRd.receive, Part.isNone, h1])))
    | none =>
      cases h2 : m.direct.payload with
      | some b => exact Or.inl (lift _ (by simp [EchoRd.receive, Part.isNone, h1, h2]))
      | none =>
        cases h3 : Evidence.deserializePack sp m.normal with
        | none => exact Or.inr (Or.inr (lift _ (by simp [EchoRd.receive, Part.isNone, h1, h2, h3])))
        | some pack =>
          exfalso
          rcases h with h | h | h
          · exact (nf h).2 (by simp) h2
          · exact (nf h).2 (by simp) h1
          · exact (nf h).1 rfl ⟨m.normal, pack, rfl, decodes_iff.2 h3⟩

/-- A message with a malformed part, otherwise correct, is recorded as provable evidence of a malformed part against its sender, and
nothing is made of it: a part that is not of the type of the round is never accepted. -/
theorem C21_recorded (mt : sp.MetaTotal) (T : TypedProto sp) (tc : TagConsistent T) (mi : MainIds T.wrap) {rng0 : sp.Rng}
    {sid : Bytes} {signer : sp.Signer} {ep : EntryPoint T.wrap} {s₀ s : Session T.wrap} {a a' : Accum T.wrap}
    (h0 : Session.new rng0 sid signer ep = .ok s₀) (h : Reach s₀ (.running s a)) {x : sp.Id} {m : Message sp}
    (hrow : Row s a x m .process) (hbad : MalformedFor T m.direct.part s.transition.id ∨
      MalformedFor T m.echo.part s.transition.id ∨ MalformedFor T m.normal.part s.transition.id)
    (hd : deliver s a x m = .ok a') :
    (∃ ev, a'.provable.get? x = some ev ∧ ev.guilty = x ∧ ev.body.Malformed) ∧ a'.payloads = a.payloads := by
  obtain ⟨hp0, -, -, -, hm0⟩ := new_proper h0
  have hp : Proper s := by
    rcases reach_cases h with ⟨trail, s', a', he, hin⟩ | ⟨trail, s', a', r, k, he, -⟩ | ⟨e, he⟩
    · cases he
      obtain ⟨cached, rng, evs, hv, -⟩ := hin
      exact (visits_inv hp0 hm0 hv).proper
    · cases he
    · cases he
  unfold deliver at hd
  rw [C02_decision_table mt s (proper_wellFormed mi hp) a x m _ hrow] at hd
  simp only [Verdict.effect, PreOutcome.ok?, applyVerified, Session.addProcessed, Session.process, Accum.addProcessed] at hd
  have e1 : (verifiedOf x m).sender = x := rfl
  simp only [e1] at hd
  split at hd
  · cases hd
  · split at hd
    · cases hd
    · have fin : ∀ (b : Accum T.wrap) (ev : Evidence sp), b.registerProvable x ev = .ok a' → ev.guilty = x → ev.body.Malformed →
          b.payloads = a.payloads → (∃ ev, a'.provable.get? x = some ev ∧ ev.guilty = x ∧ ev.body.Malformed) ∧
            a'.payloads = a.payloads := by
        intro b ev hb h1 h2 h3
        unfold Accum.registerProvable at hb
        split at hb
        · cases hb
        · cases hb
          exact ⟨⟨ev, by simp [BMap.get?_insert], h1, h2⟩, h3⟩
      rcases receive_malformed tc mi hp (m := (verifiedOf x m).dyn) (x := x) hbad with hr | hr | hr
      · rw [hr] at hd
        exact fin _ _ hd rfl trivial rfl
      · rw [hr] at hd
        exact fin _ _ hd rfl trivial rfl
      · rw [hr] at hd
        exact fin _ _ hd rfl trivial rfl

/-! ## C22 -/

theorem newProvableError_ok {who : sp.Id} {echo : SignedPart .echo} {normal : SignedPart .normal} {direct : SignedPart .direct}
    {req : RequiredMessages} {ser : Except LErr Bytes} {t : Transcript sp} {ev : Evidence sp}
    (h : Evidence.newProvableError who echo normal direct req ser t = .ok ev) :
    ∃ prev comb bytes,
      foldE (Evidence.fetchPrevious t who) ⟨BMap.empty, BMap.empty, BMap.empty⟩
        (match req.previous with | none => [] | some m => m.toList) = .ok prev ∧
      foldE (Evidence.fetchCombined t who) ⟨BMap.empty, BMap.empty⟩
        (match req.combined with | none => [] | some s => s.elems) = .ok comb ∧
      ser = .ok bytes ∧
      ev = ⟨who, .protocol ⟨bytes, if req.thisRound.direct then some direct else none,
        if req.thisRound.echo then some echo else none, if req.thisRound.normal then some normal else none,
        prev.directs, prev.echos, prev.normals, comb.otherEchos, comb.echoHashes⟩⟩ := by
  unfold Evidence.newProvableError at h
  split at h
  · simp at h
  · rename_i prev h1
    split at h
    · simp at h
    · rename_i comb h2
      split at h
      · simp at h
      · rename_i bytes h3
        simp only [Except.ok.injEq] at h
        exact ⟨prev, comb, _, h1, h2, rfl, h.symm⟩

theorem fetched {k : PartKind} {src : BMap RoundId (BMap sp.Id (SignedPart k))} {who : sp.Id} {sel : RequiredParts → Bool}
    {req : RequiredMessages} {out : BMap RoundId (SignedPart k)}
    (h : foldE (fun acc e => Evidence.fetch (sel e.2) src e.1 who acc) BMap.empty
      (match req.previous with | none => [] | some m => m.toList) = .ok out) :
    (∀ r all rp, req.previous = some all → all.get? r = some rp →
        (out.get? r).map (fun p => p.part) = asked (sel rp) (storedPart src r who)) ∧
      (∀ r, out.contains r = true ↔ ∃ all rp, req.previous = some all ∧ all.get? r = some rp ∧ sel rp = true) ∧
      ∀ r p, out.get? r = some p → ∃ e, src.get? r = some e ∧ e.get? who = some p := by
  obtain ⟨h1, h2, -⟩ := Evidence.fetch_fold sel _ _ _ h
  have hmem : ∀ r rp, (r, rp) ∈ (match req.previous with | none => [] | some m => m.toList) ↔
      ∃ all, req.previous = some all ∧ all.get? r = some rp := by
    intro r rp
    cases hr : req.previous with
    | none => simp
    | some all => simp [BMap.mem_toList]
  have h2' : ∀ r p, out.get? r = some p → ∃ all rp, req.previous = some all ∧ all.get? r = some rp ∧ sel rp = true ∧
      Transcript.getPart src r who = .ok p := by
    intro r p hp
    rcases h2 r p hp with ⟨rp, h3, h4, h5⟩ | h3
    · obtain ⟨all, ha, hb⟩ := (hmem r rp).1 h3
      exact ⟨all, rp, ha, hb, h4, h5⟩
    · simp at h3
  refine ⟨?_, ?_, ?_⟩
  · intro r all rp ha hb
    unfold asked
    split
    · rename_i hsel
      obtain ⟨p, h3, h4⟩ := h1 r rp ((hmem r rp).2 ⟨all, ha, hb⟩) hsel
      rw [Evidence.getPart_ok] at h3
      obtain ⟨e, h5, h6⟩ := h3
      simp [storedPart, h4, h5, h6]
    · rename_i hsel
      cases ho : out.get? r with
      | none => rfl
      | some p =>
        obtain ⟨all', rp', ha', hb', hs', -⟩ := h2' r p ho
        rw [ha] at ha'
        simp only [Option.some.injEq] at ha'
        subst ha'
        rw [hb] at hb'
        simp only [Option.some.injEq] at hb'
        subst hb'
        exact absurd hs' hsel
  · intro r
    rw [BMap.contains_iff]
    constructor
    · rintro ⟨p, hp⟩
      obtain ⟨all, rp, ha, hb, hs, -⟩ := h2' r p hp
      exact ⟨all, rp, ha, hb, hs⟩
    · rintro ⟨all, rp, ha, hb, hs⟩
      obtain ⟨p, -, h4⟩ := h1 r rp ((hmem r rp).2 ⟨all, ha, hb⟩) hs
      exact ⟨p, h4⟩
  · intro r p hp
    obtain ⟨-, -, -, -, -, h5⟩ := h2' r p hp
    exact Evidence.getPart_ok.1 h5

theorem nonEcho_echo {r re : RoundId} (h : r.echo = .ok re) : re.nonEcho = .ok r := by
  unfold RoundId.echo at h
  split at h
  · simp at h
  · rename_i h1
    simp only [Except.ok.injEq] at h
    subst h
    obtain ⟨a, b, c⟩ := r
    simp only [Bool.not_eq_true] at h1
    subst h1
    rfl

/-- Evidence of a protocol error made from an authentic message is verified by giving the protocol's check exactly the parts it asked
for. -/
theorem protocol_recorded {sid : Bytes} {s : Session P} (hok : TranscriptOk sid s.transcript) {x : sp.Id}
    {vm : VerifiedMessage sp} {ev : Evidence sp} (hs : vm.sender = x)
    (hau : Authentic x sid s.roundId vm.direct vm.echo vm.normal) (hrec : Recorded s.transcript (s.process vm) ev)
    {pe : ProtocolEvidence sp} (hb : ev.body = .protocol pe) :
    ev.guilty = x ∧ ∃ req bytes, s.round.receive x vm.dyn = .error (.protocol req (.ok bytes)) ∧
      RequestedHeld s.transcript x req ∧
      (req.thisRound.some? = true → ∀ info shared, P.roundInfo s.roundId = some info →
        ∃ prev comb, PreviousShown s.transcript x req prev ∧ CombinedShown s.transcript x req comb ∧
          ev.verify P shared = info.verifyEvidence s.roundId bytes x sid shared
            ⟨asked req.thisRound.direct (some vm.direct.part), asked req.thisRound.normal (some vm.normal.part),
              asked req.thisRound.echo (some vm.echo.part)⟩ prev comb) := by
  cases hrec with
  | direct hr => exact absurd hb (by simp)
  | echoBroadcast hr => exact absurd hb (by simp)
  | normal hr => exact absurd hb (by simp)
  | @echo e hr => cases e <;> exact absurd hb (by simp [Evidence.newEchoRoundError])
  | @protocol req ser _ hr hev =>
    simp only [Session.process] at hr hev
    obtain ⟨prev, comb, bytes, hprev, hcomb, hser, hevd⟩ := newProvableError_ok hev
    rw [hs] at hprev hcomb hevd hr
    obtain ⟨he, hn, hd⟩ := Evidence.fetchPrevious_split _ _ _ hprev
    obtain ⟨he1, he2, he3⟩ := fetched (sel := fun rp => rp.echo) he
    obtain ⟨hn1, hn2, hn3⟩ := fetched (sel := fun rp => rp.normal) hn
    obtain ⟨hd1, hd2, hd3⟩ := fetched (sel := fun rp => rp.direct) hd
    have hheld : RequestedHeld s.transcript x req := by
      intro r all rp hall hrp
      refine ⟨fun hb => ?_, fun hb => ?_, fun hb => ?_⟩
      · obtain ⟨p, hp⟩ := BMap.contains_iff.1 ((hd2 r).2 ⟨all, rp, hall, hrp, hb⟩)
        obtain ⟨e, h1, h2⟩ := hd3 r p hp
        exact ⟨p.part, by simp [storedPart, h1, h2]⟩
      · obtain ⟨p, hp⟩ := BMap.contains_iff.1 ((hn2 r).2 ⟨all, rp, hall, hrp, hb⟩)
        obtain ⟨e, h1, h2⟩ := hn3 r p hp
        exact ⟨p.part, by simp [storedPart, h1, h2]⟩
      · obtain ⟨p, hp⟩ := BMap.contains_iff.1 ((he2 r).2 ⟨all, rp, hall, hrp, hb⟩)
        obtain ⟨e, h1, h2⟩ := he3 r p hp
        exact ⟨p.part, by simp [storedPart, h1, h2]⟩
    refine ⟨by rw [hevd], req, bytes, by rw [hr, hser], hheld, ?_⟩
    intro hsome info shared hinfo
    obtain ⟨hc1, hc2⟩ := Evidence.fetchCombined_fold _ _ _ hcomb
    have hcmem : ∀ r, r ∈ (match req.combined with | none => [] | some s => BSet.elems s) ↔
        ∃ all, req.combined = some all ∧ all.contains r = true := by
      intro r
      cases hrc : req.combined with
      | none => simp
      | some all => simp [BSet.mem_elems]
    have htrig : Evidence.triggerMetadata ⟨bytes, if req.thisRound.direct then some vm.direct else none,
        if req.thisRound.echo then some vm.echo else none, if req.thisRound.normal then some vm.normal else none,
        prev.directs, prev.echos, prev.normals, comb.otherEchos, comb.echoHashes⟩ = some ⟨sid, s.roundId⟩ := by
      unfold Evidence.triggerMetadata
      unfold RequiredParts.some? at hsome
      cases h1 : req.thisRound.direct with
      | true => simp [hau.1.1]
      | false =>
        cases h2 : req.thisRound.echo with
        | true => simp [hau.2.1.1]
        | false =>
          have h3 : req.thisRound.normal = true := by simpa [h1, h2] using hsome
          simp [h3, hau.2.2.1]
    have hcombOk : ∀ r p, comb.echoHashes.get? r = some p →
        Evidence.CombinedOk x sid comb.otherEchos (r, p) ∧ ∃ re pack, r.echo = .ok re ∧
          storedPart s.transcript.normals re x = some p.part ∧ Decodes p.part pack ∧
          ∀ k q, (Evidence.combinedOf comb.otherEchos (r, p)).get? k = some q ↔
            (∃ h, pack.get? k = some h) ∧ storedPart s.transcript.echos r k = some q := by
      intro r p hrp
      by_cases hmem : r ∈ (match req.combined with | none => [] | some s => BSet.elems s)
      · obtain ⟨re, n, o, h1, h2, h3, h4, h5⟩ := hc1 r hmem
        rw [hrp] at h4
        simp only [Option.some.injEq] at h4
        subst h4
        obtain ⟨m, hm1, hm2⟩ := Evidence.getPart_ok.1 h2
        obtain ⟨pack, ebs, hdec, hebs, hent⟩ := hok.packs r re m x p h1 hm1 hm2
        have hoe : o = ebs := by
          rw [h3] at hebs
          simpa using hebs
        subst hoe
        have hauN := hok.normals re m x p hm1 hm2
        have hatt : ∀ k h, pack.get? k = some h → ∃ q, (o.erase x).get? k = some q ∧ o.get? k = some q ∧
            AuthenticPart k sid r q ∧ HashSigned k h ∧ h.metadata = q.metadata ∧ h.hash = sp.partHash q.part := by
          intro k h hk
          obtain ⟨hne, q, hq1, hq2, hq3, hq4⟩ := hent k h hk
          refine ⟨q, ?_, hq1, hok.echos r o k q h3 hq1, hq2, hq3, hq4⟩
          rw [BMap.get?_erase, if_neg hne]
          exact hq1
        refine ⟨⟨by rw [hauN.1], by rw [hauN.1]; exact nonEcho_echo h1, hauN.2, pack, o.erase x, hdec, h5, ?_⟩, re, pack, h1,
          by simp [storedPart, hm1, hm2], hdec, ?_⟩
        · intro k h hk
          obtain ⟨q, hq1, -, hq2, hq3, hq4, hq5⟩ := hatt k h hk
          exact ⟨by rw [hq4, hq2.1], hq3, q, hq1, hq2, hq5⟩
        · intro k q
          have hdp := decodes_iff.1 hdec
          simp only [Evidence.combinedOf, h5, hdp, Option.getD_some, Evidence.echoedOf, BMap.get?_mapVal, Option.map_eq_some_iff]
          constructor
          · rintro ⟨hh, hk, hq⟩
            obtain ⟨q', hq1, hq2, -⟩ := hatt k hh hk
            rw [hq1] at hq
            simp only [Option.map_some, Option.getD_some] at hq
            exact ⟨⟨hh, hk⟩, by simp [storedPart, h3, hq2, hq]⟩
          · rintro ⟨⟨hh, hk⟩, hq⟩
            obtain ⟨q', hq1, hq2, -⟩ := hatt k hh hk
            refine ⟨hh, hk, ?_⟩
            simp only [storedPart, h3, hq2, Option.map_some, Option.some.injEq] at hq
            rw [hq1]
            exact hq
      · rw [(hc2 r hmem).1] at hrp
        simp at hrp
    refine ⟨Evidence.mergeParts (prev.echos.mapVal (fun _ p => p.part)) (prev.normals.mapVal (fun _ p => p.part))
      (prev.directs.mapVal (fun _ p => p.part)), comb.echoHashes.mapVal (fun r p => Evidence.combinedOf comb.otherEchos (r, p)),
      ?_, ?_, ?_⟩
    rotate_left 2
    · rw [hevd]
      unfold Evidence.verify
      simp only
      rw [Evidence.verifyProtocol_ok htrig (info := info)]
      · have hasked : ∀ {k : PartKind} (b : Bool) (p : SignedPart k),
            Option.map (fun p => p.part) (if b = true then some p else none) = asked b (some p.part) := by
          intro k b p
          cases b <;> rfl
        simp only [hasked]
      · intro p hp
        simp only [Option.ite_none_right_eq_some, Option.some.injEq] at hp
        exact hp.2 ▸ hau.1
      · intro p hp
        simp only [Option.ite_none_right_eq_some, Option.some.injEq] at hp
        exact hp.2 ▸ hau.2.1
      · intro p hp
        simp only [Option.ite_none_right_eq_some, Option.some.injEq] at hp
        exact hp.2 ▸ hau.2.2
      · intro r p hp
        obtain ⟨e, h1, h2⟩ := hd3 r p hp
        exact hok.directs r e x p h1 h2
      · intro r p hp
        obtain ⟨e, h1, h2⟩ := he3 r p hp
        exact hok.echos r e x p h1 h2
      · intro r p hp
        obtain ⟨e, h1, h2⟩ := hn3 r p hp
        exact hok.normals r e x p h1 h2
      · intro r p hp
        exact (hcombOk r p hp).1
      · exact hinfo
    · intro r m
      rw [Evidence.mergeParts_get]
      simp only [BMap.contains_mapVal, BMap.get?_mapVal, he2, hn2, hd2]
      constructor
      · rintro ⟨hor, hm⟩
        have : ∃ all rp, req.previous = some all ∧ all.get? r = some rp ∧ rp.some? = true := by
          rcases hor with ⟨all, rp, h1, h2, h3⟩ | ⟨all, rp, h1, h2, h3⟩ | ⟨all, rp, h1, h2, h3⟩ <;>
            exact ⟨all, rp, h1, h2, by simp [RequiredParts.some?, h3]⟩
        obtain ⟨all, rp, h1, h2, h3⟩ := this
        exact ⟨all, rp, h1, h2, h3, by rw [hm, he1 r all rp h1 h2, hn1 r all rp h1 h2, hd1 r all rp h1 h2]⟩
      · rintro ⟨all, rp, h1, h2, h3, hm⟩
        refine ⟨?_, by rw [hm, he1 r all rp h1 h2, hn1 r all rp h1 h2, hd1 r all rp h1 h2]⟩
        simp only [RequiredParts.some?, Bool.or_eq_true] at h3
        rcases h3 with (h3 | h3) | h3
        · exact Or.inl ⟨all, rp, h1, h2, h3⟩
        · exact Or.inr (Or.inl ⟨all, rp, h1, h2, h3⟩)
        · exact Or.inr (Or.inr ⟨all, rp, h1, h2, h3⟩)
    · refine ⟨?_, ?_⟩
      · intro r
        rw [← hcmem r]
        simp only [BMap.get?_mapVal, Option.map_eq_some_iff]
        constructor
        · rintro ⟨m, p, hp, -⟩
          by_contra hc
          rw [(hc2 r hc).1] at hp
          simp at hp
        · intro hr
          obtain ⟨re, n, o, -, -, -, h4, -⟩ := hc1 r hr
          exact ⟨_, n, h4, rfl⟩
      · intro r m hm
        simp only [BMap.get?_mapVal, Option.map_eq_some_iff] at hm
        obtain ⟨p, hp, hpm⟩ := hm
        obtain ⟨-, re, pack, h1, h2, h3, h4⟩ := hcombOk r p hp
        exact ⟨re, p.part, pack, h1, h2, h3, by rw [← hpm]; exact h4⟩

/-- Evidence of a protocol error in the report of a run was made from an authentic message the round rejected with the error, and
is verified by giving the protocol's check exactly the parts it asked for: of that message, of the earlier messages of the same
party, and the echo broadcasts listed in the packs that party sent. -/
theorem C22_represents (sc : sp.SignCorrect) (srt : sp.SigRoundTrip) (mi : MainIds P) {rng0 : sp.Rng} {sid : Bytes}
    {signer : sp.Signer} {ep : EntryPoint P} {s₀ : Session P} {rep : Report P} (h0 : Session.new rng0 sid signer ep = .ok s₀)
    (h : Reach s₀ (.done (.ok rep))) {x : sp.Id} {ev : Evidence sp} {pe : ProtocolEvidence sp}
    (hx : rep.provable.get? x = some ev) (hb : ev.body = .protocol pe) :
    ev.guilty = x ∧ ∃ trail s cached, ∃ vm : VerifiedMessage sp, ∃ req bytes, Visits s₀ trail s cached ∧ vm.sender = x ∧
      Authentic x sid s.roundId vm.direct vm.echo vm.normal ∧
      s.round.receive x vm.dyn = .error (.protocol req (.ok bytes)) ∧ TranscriptOk sid s.transcript ∧
      RequestedHeld s.transcript x req ∧ s.comm.expecting.contains x = true ∧
      (req.thisRound.some? = true → ∀ info shared, P.roundInfo s.roundId = some info →
        ∃ prev comb, PreviousShown s.transcript x req prev ∧ CombinedShown s.transcript x req comb ∧
          ev.verify P shared = info.verifyEvidence s.roundId bytes x sid shared
            ⟨asked req.thisRound.direct (some vm.direct.part), asked req.thisRound.normal (some vm.normal.part),
              asked req.thisRound.echo (some vm.echo.part)⟩ prev comb) := by
  obtain ⟨hp0, hsid0, -, ht0, hm0⟩ := new_proper h0
  obtain ⟨trail, s, cached, vm, hv, hs, hau, hrec, hexp⟩ := report_origin h0 h hx
  have hvi := visits_inv hp0 hm0 hv
  have hsid : s.sessionId = sid := hvi.sessionId.trans hsid0
  have hok := visits_transcript sc srt mi hp0 hm0 ht0 hv
  rw [hsid0] at hok
  rw [hsid] at hau
  obtain ⟨h1, req, bytes, h2, h3, h4⟩ := protocol_recorded hok hs hau hrec hb
  exact ⟨h1, trail, s, cached, vm, req, bytes, hv, hs, hau, h2, hok, h3, hexp, h4⟩

/-! ## C23 -/

/-- What a complaint of the echo round about an entry means. -/
theorem receive_echoErr {e : EchoRd P} {x : sp.Id} {m : DynMsg} {err : EchoErr sp} (h : e.receive x m = .error (.echo err)) :
    ∃ pack k h p, Decodes m.normal pack ∧ pack.get? k = some h ∧ e.echoBroadcasts.get? k = some p ∧
      ((err = .invalidEcho k ∧ (¬ HashSigned k h ∨ h.metadata ≠ p.metadata)) ∨
        (err = .mismatched k p h ∧ HashSigned k h ∧ h.metadata = p.metadata ∧ h.hash ≠ sp.partHash p.part)) := by
  unfold EchoRd.receive at h
  split at h
  · simp at h
  · split at h
    · simp at h
    · split at h
      · simp at h
      · rename_i pack hp
        unfold EchoRd.receivePack at h
        simp only at h
        split at h
        · simp at h
        · split at h
          · simp at h
          · unfold EchoRd.checkEchos at h
            obtain ⟨-, ⟨k, hh⟩, hmem, hx⟩ := foldE_error h
            unfold EchoRd.checkEcho at hx
            split at hx
            · simp at hx
            · rename_i p hrp
              refine ⟨pack, k, hh, p, decodes_iff.2 hp, BMap.mem_toList.1 hmem, hrp, ?_⟩
              simp only at hx
              cases hv : hh.verify sp k with
              | error ve =>
                have hns : ¬ HashSigned k hh := fun hs => by rw [(hash_verify_ok (u := ())).2 hs] at hv; simp at hv
                cases ve with
                | «local» le => simp [hv] at hx
                | invalidSignature =>
                  simp only [hv, Except.error.injEq, RecvErr.echo.injEq] at hx
                  exact Or.inl ⟨hx.symm, Or.inl hns⟩
                | signatureMismatch =>
                  simp only [hv, Except.error.injEq, RecvErr.echo.injEq] at hx
                  exact Or.inl ⟨hx.symm, Or.inl hns⟩
              | ok u =>
                have hs := hash_verify_ok.1 hv
                simp only [hv] at hx
                split at hx
                · rename_i hne
                  simp only [Except.error.injEq, RecvErr.echo.injEq] at hx
                  exact Or.inl ⟨hx.symm, Or.inr hne⟩
                · rename_i hmeta
                  split at hx
                  · rename_i hho
                    simp only [Except.error.injEq, RecvErr.echo.injEq] at hx
                    simp only [SignedHash.isHashOf, decide_eq_false_iff_not] at hho
                    exact Or.inr ⟨hx.symm, hs, not_not.1 hmeta, fun he => hho he.symm⟩
                  · simp at hx

/-- The rounds of typed protocols do not report the errors of the echo round. -/
theorem typed_noEchoErr (T : TypedProto sp) : NoEchoErr T.wrap := by
  intro r x m err h
  rcases wrapReceive_error h with h | h | h | ⟨v, e, -, h⟩
  · simp at h
  · simp at h
  · simp at h
  · cases e <;> simp [TypedProto.boxErr] at h

theorem mismatched_recorded (ne : NoEchoErr P) {sid : Bytes} {s : Session P} (hok : TranscriptOk sid s.transcript)
    (hebr : ∀ e, s.round = .echo e → s.transcript.echos.get? (P.transition e.main).id = some e.echoBroadcasts)
    {vm : VerifiedMessage sp} {ev : Evidence sp} (hrec : Recorded s.transcript (s.process vm) ev) {g : sp.Id}
    {w : SignedPart .echo} {e : SignedHash} (hb : ev.body = .mismatched g w e) (shared : P.Shared) :
    ev.guilty = g ∧ ev.verify P shared = .ok () ∧ SigValid g w ∧ HashSigned g e ∧ w.metadata = e.metadata ∧
      w.metadata.sessionId = sid ∧ e.hash ≠ sp.partHash w.part := by
  cases hrec with
  | direct hr => exact absurd hb (by simp)
  | echoBroadcast hr => exact absurd hb (by simp)
  | normal hr => exact absurd hb (by simp)
  | protocol hr hev =>
    obtain ⟨prev, comb, bytes, -, -, -, hevd⟩ := newProvableError_ok hev
    rw [hevd] at hb
    simp at hb
  | @echo err hr =>
    cases err with
    | invalidEcho k => exact absurd hb (by simp [Evidence.newEchoRoundError])
    | mismatched g' w' e' =>
      simp only [Evidence.newEchoRoundError, EvBody.mismatched.injEq] at hb
      obtain ⟨rfl, rfl, rfl⟩ := hb
      simp only [Session.process] at hr
      cases hrd : s.round with
      | main r =>
        exfalso
        rw [hrd] at hr
        exact ne r _ _ _ (receive_main_error hr)
      | echo er =>
        rw [hrd] at hr
        obtain ⟨pack, k, hh, p, -, -, hebs, hor⟩ := receive_echoErr (receive_echo_error hr)
        rcases hor with ⟨hc, -⟩ | ⟨hc, h1, h2, h3⟩
        · simp at hc
        · simp only [EchoErr.mismatched.injEq] at hc
          obtain ⟨rfl, rfl, rfl⟩ := hc
          have hw := hok.echos _ _ _ _ (hebr er hrd) hebs
          refine ⟨rfl, ?_, hw.2, h1, h2.symm, by rw [hw.1], h3⟩
          unfold Evidence.verify Evidence.newEchoRoundError Evidence.verifyMismatched
          simp only
          rw [show w'.verify sp g' = .ok () from verifySigned_ok.2 hw.2, show e'.verify sp g' = .ok () from hash_verify_ok.2 h1]
          simp only
          rw [if_pos]
          exact ⟨h2.symm, by simp only [SignedHash.isHashOf, decide_eq_false_iff_not]; exact fun he => h3 he.symm⟩

/-- Evidence of mismatched broadcasts in the report of a run verifies, and accuses the party that signed two different echo
broadcasts for the same round. -/
theorem C23_mismatched_verifies (sc : sp.SignCorrect) (srt : sp.SigRoundTrip) (mi : MainIds P) (ne : NoEchoErr P) {rng0 : sp.Rng} {sid : Bytes}
    {signer : sp.Signer} {ep : EntryPoint P} {s₀ : Session P} {rep : Report P} (h0 : Session.new rng0 sid signer ep = .ok s₀)
    (h : Reach s₀ (.done (.ok rep))) {x : sp.Id} {ev : Evidence sp} {g : sp.Id} {w : SignedPart .echo} {e : SignedHash}
    (hx : rep.provable.get? x = some ev) (hb : ev.body = .mismatched g w e) (shared : P.Shared) :
    ev.guilty = g ∧ ev.verify P shared = .ok () ∧ SigValid g w ∧ HashSigned g e ∧ w.metadata = e.metadata ∧
      w.metadata.sessionId = sid ∧ e.hash ≠ sp.partHash w.part := by
  obtain ⟨hp0, hsid0, -, ht0, hm0⟩ := new_proper h0
  obtain ⟨trail, s, cached, vm, hv, -, -, hrec, -⟩ := report_origin h0 h hx
  have hok := visits_transcript sc srt mi hp0 hm0 ht0 hv
  rw [hsid0] at hok
  exact mismatched_recorded ne hok (fun _ he => visits_echo_transcript hp0 hm0 hv he) hrec hb shared

/-! ## C24 -/

theorem invalidEcho_recorded (mt : sp.MetaTotal) (ne : NoEchoErr P) {sid : Bytes} {s : Session P} (hsid : s.sessionId = sid)
    {x : sp.Id} {vm : VerifiedMessage sp} {ev : Evidence sp} (hs : vm.sender = x)
    (hau : Authentic x s.sessionId s.roundId vm.direct vm.echo vm.normal) (hrec : Recorded s.transcript (s.process vm) ev)
    {n : SignedPart .normal} {k : sp.Id} (hb : ev.body = .invalidEcho n k) (shared : P.Shared) :
    ev.guilty = x ∧ ∃ pack hh, Decodes n.part pack ∧ pack.get? k = some hh ∧ SigValid x n ∧ n.metadata.sessionId = sid ∧
      (ev.verify P shared = .ok () ↔ ¬ (HashSigned k hh ∧ hh.metadata = n.metadata)) := by
  cases hrec with
  | direct hr => exact absurd hb (by simp)
  | echoBroadcast hr => exact absurd hb (by simp)
  | normal hr => exact absurd hb (by simp)
  | protocol hr hev =>
    obtain ⟨prev, comb, bytes, -, -, -, hevd⟩ := newProvableError_ok hev
    rw [hevd] at hb
    simp at hb
  | @echo err hr =>
    cases err with
    | mismatched g' w' e' => exact absurd hb (by simp [Evidence.newEchoRoundError])
    | invalidEcho k' =>
      simp only [Evidence.newEchoRoundError, EvBody.invalidEcho.injEq] at hb
      obtain ⟨hn, rfl⟩ := hb
      simp only [Session.process] at hr hn
      subst hn
      cases hrd : s.round with
      | main r =>
        exfalso
        rw [hrd] at hr
        exact ne r _ _ _ (receive_main_error hr)
      | echo er =>
        rw [hrd] at hr
        obtain ⟨pack, k, hh, p, hdec, hk, hebs, hor⟩ := receive_echoErr (receive_echo_error hr)
        rcases hor with ⟨hc, hbad⟩ | ⟨hc, -⟩
        · simp only [EchoErr.invalidEcho.injEq] at hc
          subst hc
          simp only [VerifiedMessage.dyn] at hdec
          refine ⟨hs, pack, hh, hdec, hk, hau.2.2.2, by rw [hau.2.2.1]; exact hsid, ?_⟩
          unfold Evidence.verify Evidence.newEchoRoundError Evidence.verifyInvalidEcho
          simp only [Session.process]
          rw [show vm.normal.verify sp vm.sender = .ok () from verifySigned_ok.2 (hs.symm ▸ hau.2.2.2), decodes_iff.1 hdec]
          simp only [Evidence.verifyInvalidEchoError, hk]
          by_cases hsg : HashSigned k' hh
          · rw [show hh.verify sp k' = .ok () from hash_verify_ok.2 hsg]
            by_cases hmm : hh.metadata = vm.normal.metadata <;> simp [hsg, hmm]
          · rcases hash_verify_bad mt hsg with hvb | hvb <;> simp [hvb, hsg]
        · simp at hc

/-- Evidence of an invalid echo in the report of a run: it accuses the party it is filed under, and verifies unless the entry
is a hash signed by the third party for the echo round itself. -/
theorem C24_invalid_echo_partial (mt : sp.MetaTotal) (ne : NoEchoErr P) {rng0 : sp.Rng} {sid : Bytes} {signer : sp.Signer}
    {ep : EntryPoint P} {s₀ : Session P} {rep : Report P} (h0 : Session.new rng0 sid signer ep = .ok s₀)
    (h : Reach s₀ (.done (.ok rep))) {x : sp.Id} {ev : Evidence sp} {n : SignedPart .normal} {k : sp.Id}
    (hx : rep.provable.get? x = some ev) (hb : ev.body = .invalidEcho n k) (shared : P.Shared) :
    ev.guilty = x ∧ ∃ pack hh, Decodes n.part pack ∧ pack.get? k = some hh ∧ SigValid x n ∧ n.metadata.sessionId = sid ∧
      (ev.verify P shared = .ok () ↔ ¬ (HashSigned k hh ∧ hh.metadata = n.metadata)) := by
  obtain ⟨hp0, hsid0, -, ht0, hm0⟩ := new_proper h0
  obtain ⟨trail, s, cached, vm, hv, hs, hau, hrec, -⟩ := report_origin h0 h hx
  have hsid : s.sessionId = sid := (visits_inv hp0 hm0 hv).sessionId.trans hsid0
  exact invalidEcho_recorded mt ne hsid hs hau hrec hb shared

/-! ## C29 -/

/-- Every entry of the report that is not about mismatched broadcasts is filed under the party its evidence accuses. -/
theorem C29_filed_partial {rng0 : sp.Rng} {sid : Bytes} {signer : sp.Signer} {ep : EntryPoint P} {s₀ : Session P}
    {rep : Report P} (h0 : Session.new rng0 sid signer ep = .ok s₀) (h : Reach s₀ (.done (.ok rep))) {x : sp.Id}
    {ev : Evidence sp} (hx : rep.provable.get? x = some ev) (hb : ∀ g w e, ev.body ≠ .mismatched g w e) : ev.guilty = x := by
  obtain ⟨trail, s, cached, vm, hv, hs, hau, hrec, hexp⟩ := report_origin h0 h hx
  cases hrec with
  | direct hr => exact hs
  | echoBroadcast hr => exact hs
  | normal hr => exact hs
  | protocol hr hev =>
    obtain ⟨prev, comb, bytes, -, -, -, hevd⟩ := newProvableError_ok hev
    rw [hevd]
    exact hs
  | @echo err hr =>
    cases err with
    | invalidEcho k => exact hs
    | mismatched g w e => exact absurd rfl (hb g w e)

/-! ## Examples and witnesses -/

theorem demo_tagConsistent (echo : Bool) : TagConsistent (demo echo 255) := by
  intro st
  have h1 := demo_id echo 255 st
  have h2 : (demo echo 255).roundTag (RoundId.new st.n) = some st.n := by
    have : st.n.val ≤ (255 : U8).val := by have := st.n.isLt; simp; omega
    exact if_pos ⟨rfl, rfl, this⟩
  exact (congrArg (demo echo 255).roundTag h1).trans h2

/-- The report holds evidence of the given kind against a party. -/
def hasEvidence {P : Proto toy} (r : Report P) (x : U8) (k : Evidence toy → Bool) : Bool :=
  match r.provable.get? (x : U8) with
  | some ev => k ev
  | none => false

theorem hasEvidence_iff {P : Proto toy} {r : Report P} {x : U8} {k : Evidence toy → Bool} :
    hasEvidence r x k = true ↔ ∃ ev, r.provable.get? (x : U8) = some ev ∧ k ev = true := by
  unfold hasEvidence
  cases h : r.provable.get? (x : U8) <;> simp [h]

def EvBody.isMalformed {sp : SP} : EvBody sp → Bool
  | .invalidDirect _ | .invalidEchoBroadcast _ | .invalidNormal _ => true
  | _ => false

theorem isMalformed_iff {b : EvBody sp} : b.isMalformed = true ↔ b.Malformed := by
  cases b <;> simp [EvBody.isMalformed, EvBody.Malformed]

/-- C21, main round: party 2 sends a direct message that cannot be deserialized. -/
example : ∃ (s₀ : Session (demo true 255).wrap) (rep : Report (demo true 255).wrap) (ev : Evidence toy),
    demoSession true 255 [1, 2, 3] 1 = .ok s₀ ∧ Reach s₀ (.done (.ok rep)) ∧ rep.provable.get? (2 : U8) = some ev ∧
      ev.body.Malformed := by
  have h : onOk (demoRun true 255 [.msg ⟨2, 2, [9], RoundId.new 1, 1, some [5, 6], some [2], some [7]⟩, .cancel])
      (fun r => r.2.isReport (fun rep => hasEvidence rep 2 (fun ev => ev.body.isMalformed))) = true := by decide +kernel
  obtain ⟨s, st, h0, hr, hk⟩ := onOk_run h
  obtain ⟨rep, rfl, hk⟩ := isReport_iff.1 hk
  obtain ⟨ev, h1, h2⟩ := hasEvidence_iff.1 hk
  exact ⟨s, rep, ev, h0, hr, h1, isMalformed_iff.1 h2⟩

/-- A message that is processed is in the row of the table that says so. -/
theorem row_of_process (mt : sp.MetaTotal) {s : Session P} (wf : EchoWellFormed s) {a : Accum P} {x : sp.Id} {m : Message sp}
    {r : Accum P × PreOutcome sp} (h : s.preprocess a x m = .ok r) (hk : r.2.ok?.isSome = true) : Row s a x m .process := by
  obtain ⟨v, hv, he⟩ := C02_outcome_determined mt s wf a x m
  rw [h] at he
  cases he
  cases v with
  | process => exact hv
  | ignore => simp [Verdict.effect, PreOutcome.ok?] at hk
  | refuse e => simp [Verdict.effect, PreOutcome.ok?] at hk
  | keep => simp [Verdict.effect, PreOutcome.ok?] at hk

/-- C21: the assumptions of `C21_recorded` are met by a direct message of two bytes. -/
example : ∃ (s₀ s : Session (demo true 255).wrap) (a a' : Accum (demo true 255).wrap) (m : Message toy),
    demoSession true 255 [1, 2, 3] 1 = .ok s₀ ∧ Reach s₀ (.running s a) ∧ Row s a (2 : U8) m .process ∧
      MalformedFor (demo true 255) m.direct.part s.transition.id ∧ deliver s a (2 : U8) m = .ok a' := by
  have h : onOk (demoRun true 255 []) (fun r => match r.2 with
      | .running s a => decide (s.transition.id = RoundId.new 1) && decide (s.echoInfo.isSome = true → s.transition.id.isEcho = false) &&
          onOk (demoMsg 2 [9] (RoundId.new 1) 1 (some [5, 6]) (some [2]) (some [7])) (fun m =>
            decide (m.direct.part.payload = some [5, 6]) && onOk (s.preprocess a (2 : U8) m) (fun r => r.2.ok?.isSome) &&
              onOk (deliver s a (2 : U8) m) (fun _ => true))
      | _ => false) = true := by decide +kernel
  obtain ⟨s₀, st, h0, hr, hk⟩ := onOk_run h
  cases st with
  | done r => simp at hk
  | running s a =>
    simp only [Bool.and_eq_true, decide_eq_true_eq] at hk
    obtain ⟨⟨hid, hwf⟩, hm⟩ := hk
    obtain ⟨m, -, hm⟩ := onOk_iff.1 hm
    simp only [Bool.and_eq_true, decide_eq_true_eq] at hm
    obtain ⟨⟨hp, hpre⟩, hd⟩ := hm
    obtain ⟨r, hr1, hr2⟩ := onOk_iff.1 hpre
    obtain ⟨a', ha', -⟩ := onOk_iff.1 hd
    refine ⟨s₀, s, a, a', m, h0, hr, row_of_process toy_envOk.serMeta hwf hr1 hr2, Or.inr ⟨by rw [hid]; rfl, (1 : U8), ?_, ?_⟩, ha'⟩
    · rw [hid]
      rfl
    · rintro (⟨h, -⟩ | ⟨de, b, v, h1, h2, h3⟩)
      · cases h
      · rw [hp] at h2
        cases h2
        cases h1
        cases h3

/-- C21, echo round: party 2 sends a normal broadcast that is not a pack. -/
example : ∃ (s₀ : Session (demo true 255).wrap) (rep : Report (demo true 255).wrap) (ev : Evidence toy),
    demoSession true 255 [1, 2, 3] 1 = .ok s₀ ∧ Reach s₀ (.done (.ok rep)) ∧ rep.provable.get? (2 : U8) = some ev ∧
      ev.body.Malformed := by
  have h : onOk (demoRun true 255 [.msg ⟨2, 2, [9], RoundId.new 1, 1, some [5], some [2], some [7]⟩,
        .msg ⟨3, 3, [9], RoundId.new 1, 1, some [5], some [3], some [7]⟩, .tick,
        .msg ⟨2, 2, [9], ⟨1, [], true⟩, 1, none, none, none⟩, .cancel])
      (fun r => r.2.isReport (fun rep => hasEvidence rep 2 (fun ev => ev.body.isMalformed))) = true := by decide +kernel
  obtain ⟨s, st, h0, hr, hk⟩ := onOk_run h
  obtain ⟨rep, rfl, hk⟩ := isReport_iff.1 hk
  obtain ⟨ev, h1, h2⟩ := hasEvidence_iff.1 hk
  exact ⟨s, rep, ev, h0, hr, h1, isMalformed_iff.1 h2⟩

theorem same_of_differs {x y : U8} (h : differs x y = false) : x = y := by
  unfold differs at h
  simpa using h

/-- The entries of combined echos. -/
def combList (comb : BMap RoundId (BMap toy.Id (Part .echo))) : List (RoundId × List (U8 × Part .echo)) :=
  comb.toList.map (fun e => (e.1, e.2.toList))

/-- The example protocol with a protocol error that needs the direct message, the normal and echo broadcast of round 1 and the
combined echos of round 1. -/
def demoReq : TypedProto toy :=
  { demo true 255 with
    required := fun _ _ => ⟨⟨false, false, true⟩, some (BMap.ofList [(RoundId.new 1, ⟨true, true, false⟩)]),
      some (BSet.ofList [RoundId.new 1])⟩
    verifyErr := fun _ _ _ _ _ _ m prev comb =>
      if m = ⟨some ⟨some [66]⟩, none, none⟩ ∧
          prev.toList = [(RoundId.new 1, ⟨none, some ⟨some [7]⟩, some ⟨some [2]⟩⟩)] ∧
          combList comb = [(RoundId.new 1, [(1, ⟨some [1]⟩), (3, ⟨some [3]⟩)])] then .ok ()
      else .error .invalid }

def demoReqEntry : EntryPoint demoReq.wrap :=
  ⟨RoundId.new 1, fun _ _ me => .ok (⟨me, (BSet.ofList [1, 2, 3] : BSet U8).erase me, 1, 0⟩ : DemoSt)⟩

/-- C22: party 2 commits a protocol error in round 2; the evidence verifies and the check of the protocol is shown the three
parts of rounds 1 and 2 and the broadcasts of the parties 1 and 3. -/
example : ∃ (s₀ : Session demoReq.wrap) (rep : Report demoReq.wrap) (ev : Evidence toy) (pe : ProtocolEvidence toy),
    Session.new (sp := toy) (0 : Nat) [9] (1 : U8) demoReqEntry = .ok s₀ ∧ Reach s₀ (.done (.ok rep)) ∧
      rep.provable.get? (2 : U8) = some ev ∧ ev.body = .protocol pe ∧ ev.verify demoReq.wrap () = .ok () := by
  have h : onOk (scriptRun demoReqEntry 1
      [.msg ⟨2, 2, [9], RoundId.new 1, 1, some [5], some [2], some [7]⟩,
        .msg ⟨3, 3, [9], RoundId.new 1, 1, some [5], some [3], some [7]⟩, .tick,
        .msg ⟨2, 2, [9], ⟨1, [], true⟩, 1, none, none, some (demoPack (RoundId.new 1) [(1, [1]), (3, [3])])⟩,
        .msg ⟨3, 3, [9], ⟨1, [], true⟩, 1, none, none, some (demoPack (RoundId.new 1) [(1, [1]), (2, [2])])⟩, .tick,
        .msg ⟨2, 2, [9], RoundId.new 2, 1, some [66], some [2], some [7]⟩, .cancel])
      (fun r => r.2.isReport (fun rep => hasEvidence rep 2 (fun ev =>
        (match ev.body with | .protocol _ => true | _ => false) && decide (ev.verify demoReq.wrap () = .ok ())))) = true := by
    decide +kernel
  obtain ⟨s, st, h0, hr, hk⟩ := onOk_script h
  obtain ⟨rep, rfl, hk⟩ := isReport_iff.1 hk
  obtain ⟨ev, h1, h2⟩ := hasEvidence_iff.1 hk
  rw [Bool.and_eq_true, decide_eq_true_eq] at h2
  cases hb : ev.body with
  | protocol pe => exact ⟨s, rep, ev, pe, h0, hr, h1, hb, h2.2⟩
  | invalidDirect m => simp [hb] at h2
  | invalidEchoBroadcast m => simp [hb] at h2
  | invalidNormal m => simp [hb] at h2
  | invalidEcho m k => simp [hb] at h2
  | mismatched g w e => simp [hb] at h2

/-- A run of party 1 in which party 3 has sent different echo broadcasts to the parties 1 and 2, and party 2 honestly echoes
what it got. -/
def equivocation : List Act :=
  [.msg ⟨2, 2, [9], RoundId.new 1, 1, some [5], some [2], some [7]⟩,
    .msg ⟨3, 3, [9], RoundId.new 1, 1, some [5], some [3], some [7]⟩, .tick,
    .msg ⟨2, 2, [9], ⟨1, [], true⟩, 1, none, none, some (demoPack (RoundId.new 1) [(1, [1]), (3, [4])])⟩, .cancel]

/-- C29 as stated fails: the evidence accuses party 3, which equivocated, but is filed under party 2, which reported it
(`session/session.rs`, `RoundAccumulator::add_processed_message` registers the error under the sender of the message). -/
theorem C29_misfiled_violation :
    ∃ (s₀ : Session (demo true 255).wrap) (rep : Report (demo true 255).wrap) (ev : Evidence toy),
      demoSession true 255 [1, 2, 3] 1 = .ok s₀ ∧ Reach s₀ (.done (.ok rep)) ∧ rep.provable.get? (2 : U8) = some ev ∧
        ev.guilty ≠ (2 : U8) ∧ (∃ w e, ev.body = .mismatched (3 : U8) w e) ∧ rep.provable.get? (3 : U8) = none := by
  have h : onOk (demoRun true 255 equivocation)
      (fun r => r.2.isReport (fun rep => hasEvidence rep 2 (fun ev =>
        (match ev.body with | .mismatched g _ _ => !differs g 3 | _ => false) && differs ev.guilty 2) &&
          !rep.provable.contains (3 : U8))) = true := by
    decide +kernel
  obtain ⟨s, st, h0, hr, hk⟩ := onOk_run h
  obtain ⟨rep, rfl, hk'⟩ := isReport_iff.1 hk
  rw [Bool.and_eq_true] at hk'
  obtain ⟨ev, h1, h2⟩ := hasEvidence_iff.1 hk'.1
  rw [Bool.and_eq_true] at h2
  have h3 : rep.provable.get? (3 : U8) = none := by
    have := hk'.2
    rw [Bool.not_eq_true'] at this
    exact BMap.contains_eq_false.1 this
  cases hb : ev.body with
  | mismatched g w e =>
    have hg : g = (3 : U8) := by
      have := h2.1
      rw [hb] at this
      exact same_of_differs (by simpa using this)
    exact ⟨s, rep, ev, h0, hr, h1, differs_ne h2.2, ⟨w, e, by rw [hb, hg]⟩, h3⟩
  | protocol pe => simp [hb] at h2
  | invalidDirect m => simp [hb] at h2
  | invalidEchoBroadcast m => simp [hb] at h2
  | invalidNormal m => simp [hb] at h2
  | invalidEcho m k => simp [hb] at h2

/-- C23: in the same run. -/
example : ∃ (s₀ : Session (demo true 255).wrap) (rep : Report (demo true 255).wrap) (ev : Evidence toy) (g : U8)
    (w : SignedPart .echo) (e : SignedHash), demoSession true 255 [1, 2, 3] 1 = .ok s₀ ∧ Reach s₀ (.done (.ok rep)) ∧
      rep.provable.get? (2 : U8) = some ev ∧ ev.body = .mismatched g w e := by
  obtain ⟨s, rep, ev, h0, hr, h1, -, ⟨w, e, h2⟩, -⟩ := C29_misfiled_violation
  exact ⟨s, rep, ev, 3, w, e, h0, hr, h1, h2⟩

/-- The pack party 2 sends in the echo round: the honest entry for party 1, and for party 3 the hash party 3 signed in its own
message of the echo round (which contains an honest pack). -/
def foreignPack : Bytes :=
  let own : Bytes := demoPack (RoundId.new 1) [(1, [1]), (2, [2])]
  let entries : List (U8 × SignedHash) :=
    (match SignedPart.new toy (0 : Nat) (1 : U8) [9] (RoundId.new 1) (⟨some [1]⟩ : Part .echo) with
      | .ok p => [((1 : U8), p.toSignedHash toy)]
      | .error _ => []) ++
    (match SignedPart.new toy (0 : Nat) (3 : U8) [9] ⟨1, [], true⟩ (⟨some own⟩ : Part .normal) with
      | .ok p => [((3 : U8), p.toSignedHash toy)]
      | .error _ => [])
  (Codec.list (Codec.prod Codec.u8 Codec.signedHash)).enc entries

/-- C24 as stated fails: `InvalidEchoError::verify_evidence` compares the entry with the metadata of the pack, which is for the
echo round, while the echo round compared it with the metadata of the echo broadcast, which is for the main round.  Party 2 sends
a pack the echo round rejects, but the recorded evidence does not verify. -/
theorem C24_invalid_echo_violation :
    ∃ (s₀ : Session (demo true 255).wrap) (rep : Report (demo true 255).wrap) (ev : Evidence toy) (n : SignedPart .normal),
      demoSession true 255 [1, 2, 3] 1 = .ok s₀ ∧ Reach s₀ (.done (.ok rep)) ∧ rep.provable.get? (2 : U8) = some ev ∧
        ev.body = .invalidEcho n (3 : U8) ∧ ev.verify (demo true 255).wrap () = .error .invalid := by
  have h : onOk (demoRun true 255 [.msg ⟨2, 2, [9], RoundId.new 1, 1, some [5], some [2], some [7]⟩,
        .msg ⟨3, 3, [9], RoundId.new 1, 1, some [5], some [3], some [7]⟩, .tick,
        .msg ⟨2, 2, [9], ⟨1, [], true⟩, 1, none, none, some foreignPack⟩, .cancel])
      (fun r => r.2.isReport (fun rep => hasEvidence rep 2 (fun ev =>
        (match ev.body with | .invalidEcho _ k => !differs k 3 | _ => false) &&
          decide (ev.verify (demo true 255).wrap () = .error .invalid)))) = true := by
    decide +kernel
  obtain ⟨s, st, h0, hr, hk⟩ := onOk_run h
  obtain ⟨rep, rfl, hk⟩ := isReport_iff.1 hk
  obtain ⟨ev, h1, h2⟩ := hasEvidence_iff.1 hk
  rw [Bool.and_eq_true, decide_eq_true_eq] at h2
  cases hb : ev.body with
  | invalidEcho n k =>
    have hg : k = (3 : U8) := by
      have := h2.1
      rw [hb] at this
      exact same_of_differs (by simpa using this)
    exact ⟨s, rep, ev, n, h0, hr, h1, by rw [hb, hg], h2.2⟩
  | protocol pe => simp [hb] at h2
  | invalidDirect m => simp [hb] at h2
  | invalidEchoBroadcast m => simp [hb] at h2
  | invalidNormal m => simp [hb] at h2
  | mismatched g w e => simp [hb] at h2

end Manul
