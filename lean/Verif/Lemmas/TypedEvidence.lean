import Verif.Lemmas.Evidence
import Verif.Spec.TypedEvidence
import Verif.Props.Transcript
import Verif.Props.Crash

/-!
# Where the messages shown as evidence come from
-/

namespace Manul

variable {sp : SP} {P : Proto sp}

/-- A finished round of a run, and the run up to it. -/
theorem visits_split {s₀ s : Session P} {trail : List (Session P × Accum P)} {cached : List (VerifiedMessage sp)}
    (h : Visits s₀ trail s cached) {q : Session P × Accum P} (hq : q ∈ trail) :
    ∃ t cached', Visits s₀ t q.1 cached' ∧ (∀ p ∈ t, p ∈ trail) ∧ InRound s₀ t q.1 q.2 := by
  induction h with
  | first => simp at hq
  | @next trail s s' cached cached' rng rng' l a hv hseq hy hf ih =>
    rcases List.mem_append.1 hq with hq | hq
    · obtain ⟨t, c, h1, h2, h3⟩ := ih hq
      exact ⟨t, c, h1, fun p hp => List.mem_append_left _ (h2 p hp), h3⟩
    · simp only [List.mem_singleton] at hq
      subst hq
      exact ⟨trail, cached, hv, fun p hp => List.mem_append_left _ hp, cached, rng, l, hv, hseq⟩

/-- The transcript holds what the finished rounds stored. -/
theorem visits_stored {s₀ s : Session P} {trail : List (Session P × Accum P)} {cached : List (VerifiedMessage sp)}
    (h : Visits s₀ trail s cached) {q : Session P × Accum P} (hq : q ∈ trail) :
    s.transcript.echos.get? q.1.roundId = some (q.2.echos.insert q.1.me q.1.echo) ∧
      s.transcript.normals.get? q.1.roundId = some q.2.normals ∧
      s.transcript.directs.get? q.1.roundId = some q.2.directs := by
  induction h with
  | first => simp at hq
  | @next trail s s' cached cached' rng rng' l a hv hseq hy hf ih =>
    have hu := finalized_transcript hf
    rcases List.mem_append.1 hq with hq | hq
    · obtain ⟨h1, h2, h3⟩ := ih hq
      exact ⟨hu.extends.echos _ _ h1, hu.extends.normals _ _ h2, hu.extends.directs _ _ h3⟩
    · simp only [List.mem_singleton] at hq
      subst hq
      refine ⟨?_, ?_, ?_⟩
      · rw [hu.echos]; simp
      · rw [hu.normals]; simp
      · rw [hu.directs]; simp

/-- The main round an echo round belongs to is the round before it. -/
theorem visits_echo_main {s₀ s : Session P} {trail : List (Session P × Accum P)} {cached : List (VerifiedMessage sp)}
    {e : EchoRd P} (hm : ∃ r, s₀.round = .main r) (h : Visits s₀ trail s cached) (he : s.round = .echo e) :
    ∃ q ∈ trail, q.1.round = .main e.main ∧ q.1.echoInfo = some e.info := by
  cases h with
  | first =>
    obtain ⟨r, hr⟩ := hm
    rw [hr] at he
    simp at he
  | @next trail s1 _ _ _ _ _ _ a hv hseq hy hf =>
    obtain ⟨t, hu, hfin⟩ := finalizeRound_ok hf
    cases hfin with
    | toNext hi hr hc hns hrid =>
      rw [hns.round] at he
      simp at he
    | @toEcho info r _ ebs hi hr hget hns =>
      have he' := hns.round.symm.trans he
      simp only [SRound.echo.injEq] at he'
      rw [← he']
      exact ⟨(s1, a), by simp, hr, hi⟩

/-- The round of a session with the id of a main round is a main round. -/
theorem main_of_id (mi : MainIds P) {s : Session P} (hp : Proper s) (h : s.roundId.isEcho = false) :
    ∃ r, s.round = .main r ∧ (P.transition r).id = s.roundId := by
  cases hr : s.round with
  | main r => exact ⟨r, rfl, by rw [← (roundId_main hp hr).1]; rfl⟩
  | echo e =>
    have := (echo_transition_id mi hp hr).2
    rw [h] at this
    simp at this

/-- What is stored in a round for a party is what it sent in one message accepted by the round. -/
theorem stored_accepted {s₀ s : Session P} {trail : List (Session P × Accum P)} {a : Accum P} (hp : Proper s₀)
    (hm : ∃ r, s₀.round = .main r) (h : InRound s₀ trail s a) {x : sp.Id}
    (hx : (∃ p, a.directs.get? x = some p) ∨ (∃ p, a.normals.get? x = some p) ∨ ∃ p, a.echos.get? x = some p) :
    ∃ (vm : VerifiedMessage sp) (v : Option P.Payload), s.round.receive x vm.dyn = .ok v ∧
      (∀ p, a.directs.get? x = some p → p = vm.direct) ∧ (∀ p, a.normals.get? x = some p → p = vm.normal) ∧
      ∀ p, a.echos.get? x = some p → p = vm.echo := by
  have hsi := inRound_sinv hp hm h x
  cases hpay : (a.loc x).payload with
  | none =>
    obtain ⟨h1, h2, h3⟩ := hsi.absent hpay
    have h1' : a.echos.get? x = none := h1
    have h2' : a.normals.get? x = none := h2
    have h3' : a.directs.get? x = none := h3
    rw [h1', h2', h3'] at hx
    simp at hx
  | some v =>
    obtain ⟨vm, -, -, hrc, h1, h2, h3⟩ := hsi.present v hpay
    have key : ∀ {k : PartKind} {o : Option (SignedPart k)} {p q : SignedPart k}, o = Loc.storePart none q → o = some p → p = q := by
      intro k o p q h4 h5
      rw [h4] at h5
      rcases storePart_some h5 with h | ⟨h, -⟩
      · simp at h
      · exact h
    exact ⟨vm, v, hrc, fun p hpx => key h3 hpx, fun p hpx => key h2 hpx, fun p hpx => key h1 hpx⟩

/-- Echo rounds do not report protocol errors. -/
theorem echo_not_protocol {e : EchoRd P} {x : sp.Id} {m : DynMsg} {req : RequiredMessages} {ser : Except LErr Bytes} :
    e.receive x m ≠ .error (.protocol req ser) := by
  intro h
  unfold EchoRd.receive at h
  split at h
  · simp at h
  · split at h
    · simp at h
    · split at h
      · simp at h
      · unfold EchoRd.receivePack at h
        simp only at h
        split at h
        · simp at h
        · split at h
          · simp at h
          · unfold EchoRd.checkEchos at h
            obtain ⟨-, y, -, hy⟩ := foldE_error h
            unfold EchoRd.checkEcho at hy
            repeat' split at hy
            all_goals simp at hy

/-- The parts a round holds of a party, as one message. -/
theorem storedPart_some {k : PartKind} {src : BMap RoundId (BMap sp.Id (SignedPart k))} {r : RoundId} {x : sp.Id} {p : Part k}
    (h : storedPart src r x = some p) : ∃ m q, src.get? r = some m ∧ m.get? x = some q ∧ q.part = p := by
  unfold storedPart at h
  split at h
  · simp at h
  · rename_i m hm
    rw [Option.map_eq_some_iff] at h
    obtain ⟨q, hq, hp⟩ := h
    exact ⟨m, q, hm, hq, hp⟩

/-! ## Typed messages -/

theorem wrapReceive_ok {T : TypedProto sp} {r : T.St} {x : sp.Id} {m : DynMsg} {v : T.Payload} (h : T.wrapReceive r x m = .ok v) :
    ∃ tm, T.readPart (T.tag r) m.direct = some tm.direct ∧ T.readPart (T.tag r) m.echo = some tm.echo ∧
      T.readPart (T.tag r) m.normal = some tm.normal ∧ T.receive r x tm = .ok v := by
  unfold TypedProto.wrapReceive at h
  split at h
  · simp at h
  · rename_i d hd
    split at h
    · simp at h
    · rename_i e he
      split at h
      · simp at h
      · rename_i n hn
        refine ⟨⟨d, e, n⟩, hd, he, hn, ?_⟩
        cases hr : T.receive r x ⟨d, e, n⟩ with
        | error err => simp [hr, mapErr] at h
        | ok w =>
          simp only [hr, mapErr, Except.ok.injEq] at h
          rw [h]

theorem wrapReceive_protocol {T : TypedProto sp} {r : T.St} {x : sp.Id} {m : DynMsg} {req : RequiredMessages}
    {ser : Except LErr Bytes} (h : T.wrapReceive r x m = .error (.protocol req ser)) :
    ∃ tm e, T.readPart (T.tag r) m.direct = some tm.direct ∧ T.readPart (T.tag r) m.echo = some tm.echo ∧
      T.readPart (T.tag r) m.normal = some tm.normal ∧ T.receive r x tm = .error (.protocol e) ∧
      req = T.required e (T.transition r).id ∧ ser = T.serErr e := by
  unfold TypedProto.wrapReceive at h
  split at h
  · simp at h
  · rename_i d hd
    split at h
    · simp at h
    · rename_i e he
      split at h
      · simp at h
      · rename_i n hn
        cases hr : T.receive r x ⟨d, e, n⟩ with
        | ok w => simp [hr, mapErr] at h
        | error err =>
          cases err with
          | «local» e => simp [hr, mapErr, TypedProto.boxErr] at h
          | unprovable e => simp [hr, mapErr, TypedProto.boxErr] at h
          | protocol pe =>
            simp only [hr, mapErr, TypedProto.boxErr, Except.error.injEq, RecvErr.protocol.injEq] at h
            exact ⟨⟨d, e, n⟩, pe, hd, he, hn, hr, h.1.symm, h.2.symm⟩

/-- The own echo broadcast, if it is there, is readable. -/
theorem own_readable {T : TypedProto sp} (mr : MessagesReadable T) {s : Session T.wrap} (hp : Proper s) {r : T.St}
    (hr : s.round = .main r) (hne : s.echo.part.isNone = false) : ∃ v, T.readPart (T.tag r) s.echo.part = some v := by
  obtain ⟨rng, h⟩ := hp.echoPart
  split at h
  · simp only [Except.ok.injEq] at h
    rw [← h] at hne
    simp [Part.none, Part.isNone] at hne
  · rw [hr] at h
    have h' : T.wrap.makeEcho r rng = .ok s.echo.part := h
    simp only [TypedProto.wrap] at h'
    cases hv : T.makeEcho r rng with
    | error e => simp [hv] at h'
    | ok v =>
      simp only [hv, TypedProto.newPart] at h'
      cases hd : T.de (T.tag r) .echo with
      | none =>
        simp only [hd, Except.ok.injEq] at h'
        rw [← h'] at hne
        simp [Part.none, Part.isNone] at hne
      | some de =>
        simp only [hd] at h'
        cases hs : T.ser v with
        | error e => simp [hs] at h'
        | ok b =>
          simp only [hs, Except.ok.injEq] at h'
          obtain ⟨w, hw⟩ := mr.echo r rng v de b hv hd hs
          refine ⟨some w, ?_⟩
          rw [← h']
          simp [TypedProto.readPart, hd, hw]

theorem evPart_asked {T : TypedProto sp} {t : T.Tag} {k : PartKind} {b : Bool} {p : Part k} {v : Option T.Val}
    (h : T.readPart t p = some v) : T.evPart t (asked b (some p)) = answer b v := by
  cases b
  · rfl
  · simp [asked, answer, TypedProto.evPart, TypedProto.readEv, h, okOr]

/-- Reading all echo broadcasts. -/
theorem evCombined_ok {T : TypedProto sp} {t : T.Tag} {comb : BMap RoundId (BMap sp.Id (Part .echo))} {n : U8}
    {m : BMap sp.Id (Part .echo)} (hm : comb.get? (RoundId.new n) = some m)
    (h : ∀ k p, m.get? k = some p → ∃ v, T.readPart t p = some v) :
    ∃ m', T.evCombined t comb n = .ok m' ∧
      ∀ k v, m'.get? k = some v ↔ ∃ p, m.get? k = some p ∧ T.readPart t p = some v := by
  have hall : ∀ (f : sp.Id × Part .echo → Except EvErr (sp.Id × Option T.Val)),
      (∀ e v, T.readPart t e.2 = some v → f e = .ok (e.1, v)) →
      ∀ l : List (sp.Id × Part .echo), (∀ e ∈ l, ∃ v, T.readPart t e.2 = some v) →
      ∃ l', mapE f l = .ok l' ∧ l'.map Prod.fst = l.map Prod.fst ∧
        ∀ k v, (k, v) ∈ l' ↔ ∃ p, (k, p) ∈ l ∧ T.readPart t p = some v := by
    intro f hf l
    induction l with
    | nil => intro _; exact ⟨[], rfl, rfl, by simp⟩
    | cons e l ih =>
      intro hl
      obtain ⟨v, hv⟩ := hl e List.mem_cons_self
      obtain ⟨l', h1, h2, h3⟩ := ih (fun e he => hl e (List.mem_cons_of_mem _ he))
      refine ⟨(e.1, v) :: l', by simp only [mapE, hf e v hv, h1], by simp [h2], ?_⟩
      intro k w
      simp only [List.mem_cons, h3, Prod.mk.injEq]
      constructor
      · rintro (⟨rfl, rfl⟩ | ⟨p, hp, hr⟩)
        · exact ⟨e.2, Or.inl rfl, hv⟩
        · exact ⟨p, Or.inr hp, hr⟩
      · rintro ⟨p, rfl | hp, hr⟩
        · left
          simp only at hv
          rw [hv] at hr
          exact ⟨rfl, by simpa using hr.symm⟩
        · exact Or.inr ⟨p, hp, hr⟩
  unfold TypedProto.evCombined
  rw [hm]
  simp only
  obtain ⟨l', h1, h2, h3⟩ := hall (fun e : sp.Id × Part .echo =>
      match T.readEv t e.2 with
      | .error err => Except.error err
      | .ok v => Except.ok (e.1, v)) (fun e v hv => by simp [TypedProto.readEv, hv, okOr]) m.toList
    (fun e he => h e.1 e.2 (BMap.mem_toList.1 he))
  refine ⟨BMap.ofList l', ?_, ?_⟩
  · have h1' : mapE (fun e : sp.Id × Part .echo =>
        match T.readEv t e.2 with
        | .error err => Except.error err
        | .ok v => Except.ok (e.1, v)) m.toList = .ok l' := h1
    split
    · rename_i e he
      exact absurd (he.symm.trans h1') (by simp)
    · rename_i l he
      rw [Except.ok.inj (he.symm.trans h1')]
  · intro k v
    rw [BMap.get?_ofList_nodup (by rw [h2]; exact m.toList_nodupKeys), h3]
    simp only [BMap.mem_toList]

/-! ### The evidence can be made -/

/-- A finished round has got a message from everybody it expected one from. -/
theorem trail_payload {s₀ s : Session P} {trail : List (Session P × Accum P)} {cached : List (VerifiedMessage sp)}
    (h : Visits s₀ trail s cached) {q : Session P × Accum P} (hq : q ∈ trail) (x : sp.Id) :
    q.2.payloads.contains x = q.1.comm.expecting.contains x := by
  induction h with
  | first => simp at hq
  | @next trail s s' cached cached' rng rng' l a hv hseq hy hf ih =>
    rcases List.mem_append.1 hq with hq | hq
    · exact ih hq
    · simp only [List.mem_singleton] at hq
      subst hq
      exact yes_keys (seqRound_reach hseq) hy x

/-- What a finished round keeps of the message of a party it expected one from. -/
theorem trail_message {s₀ s : Session P} {trail : List (Session P × Accum P)} {cached : List (VerifiedMessage sp)} (hp : Proper s₀)
    (hm : ∃ r, s₀.round = .main r) (h : Visits s₀ trail s cached) {q : Session P × Accum P} (hq : q ∈ trail) {x : sp.Id}
    (hx : q.1.comm.expecting.contains x = true) :
    ∃ (vm : VerifiedMessage sp) (v : Option P.Payload), q.1.round.receive x vm.dyn = .ok v ∧
      (vm.direct.part.isNone = false → q.2.directs.get? x = some vm.direct) ∧
      (vm.normal.part.isNone = false → q.2.normals.get? x = some vm.normal) ∧
      (vm.echo.part.isNone = false → q.2.echos.get? x = some vm.echo) := by
  obtain ⟨t, c, -, -, hin⟩ := visits_split h hq
  have hsi := inRound_sinv hp hm hin x
  obtain ⟨v, hv⟩ := BMap.contains_iff.1 ((trail_payload h hq x).trans hx)
  obtain ⟨vm, -, -, hrc, h1, h2, h3⟩ := hsi.present v hv
  have key : ∀ {k : PartKind} {o : Option (SignedPart k)} {p : SignedPart k}, o = Loc.storePart none p → p.part.isNone = false →
      o = some p := by
    intro k o p h4 h5
    rw [h4]
    simp [Loc.storePart, h5]
  exact ⟨vm, v, hrc, key h3, key h2, key h1⟩

theorem readPart_isSome {T : TypedProto sp} {t : T.Tag} {k : PartKind} {p : Part k} {v : Option T.Val}
    (h : T.readPart t p = some v) (hk : (T.de t k).isSome = true) : p.isNone = false := by
  unfold TypedProto.readPart at h
  obtain ⟨de, hde⟩ := Option.isSome_iff_exists.1 hk
  rw [hde] at h
  cases hp : p.payload with
  | none => simp [hp] at h
  | some b => simp [Part.isNone, hp]

/-- Folding with steps that do not fail. -/
theorem foldE_total {ε σ α : Type} {f : σ → α → Except ε σ} {l : List α} (h : ∀ s, ∀ x ∈ l, ∃ s', f s x = .ok s') (s : σ) :
    ∃ s', foldE f s l = .ok s' := by
  cases hf : foldE f s l with
  | ok s' => exact ⟨s', rfl⟩
  | error e =>
    obtain ⟨t, x, hx, he⟩ := foldE_error hf
    obtain ⟨s', hs'⟩ := h t x hx
    rw [he] at hs'
    simp at hs'

theorem fetch_total {k : PartKind} {required : Bool} {src : BMap RoundId (BMap sp.Id (SignedPart k))} {rid : RoundId} {who : sp.Id}
    (h : required = true → ∃ m p, src.get? rid = some m ∧ m.get? who = some p) (acc : BMap RoundId (SignedPart k)) :
    ∃ r, Evidence.fetch required src rid who acc = .ok r := by
  unfold Evidence.fetch
  cases required with
  | false => exact ⟨_, rfl⟩
  | true =>
    obtain ⟨m, p, h1, h2⟩ := h rfl
    simp only [if_true, Transcript.getPart, h1, h2, okOr]
    exact ⟨_, rfl⟩

/-- Evidence can be made if the run got everything asked for. -/
theorem newProvableError_total {T : TypedProto sp} (mi : MainIds T.wrap) {rng0 : sp.Rng} {sid : Bytes} {signer : sp.Signer}
    {ep : EntryPoint T.wrap} {s₀ s : Session T.wrap} (h0 : Session.new rng0 sid signer ep = .ok s₀)
    {trail : List (Session T.wrap × Accum T.wrap)} {cached : List (VerifiedMessage sp)} (hv : Visits s₀ trail s cached) {x : sp.Id}
    {req : RequiredMessages} (ho : Obtained T trail x req) {b : Bytes} (echo : SignedPart .echo) (normal : SignedPart .normal)
    (direct : SignedPart .direct) :
    ∃ ev, Evidence.newProvableError x echo normal direct req (.ok b) s.transcript = .ok ev := by
  obtain ⟨hp0, -, -, -, hm0⟩ := new_proper h0
  have e1 : ∀ acc, ∃ r, foldE (Evidence.fetchPrevious s.transcript x) acc
      (match req.previous with | none => [] | some m => m.toList) = .ok r := by
    refine foldE_total ?_
    intro acc e he
    split at he
    · simp at he
    · rename_i all hall
      obtain ⟨rid, rp⟩ := e
      rw [BMap.mem_toList] at he
      have src : rp.some? = true → ∃ q ∈ trail, ∃ r, q.1.round = .main r ∧ (T.transition r).id = rid ∧
          (T.comm r).expecting.contains x = true ∧
          (rp.direct = true → (T.de (T.tag r) .direct).isSome = true) ∧ (rp.echo = true → (T.de (T.tag r) .echo).isSome = true) ∧
          (rp.normal = true → (T.de (T.tag r) .normal).isSome = true) := ho.previous all rid rp hall he
      have held : rp.some? = true → (rp.echo = true → ∃ m p, s.transcript.echos.get? rid = some m ∧ m.get? x = some p) ∧
          (rp.normal = true → ∃ m p, s.transcript.normals.get? rid = some m ∧ m.get? x = some p) ∧
          (rp.direct = true → ∃ m p, s.transcript.directs.get? rid = some m ∧ m.get? x = some p) := by
        intro hany
        obtain ⟨q, hq, r, hr, hid, hx, hd, he', hn⟩ := src hany
        obtain ⟨t, c, hvq, -, -⟩ := visits_split hv hq
        have hpq := (visits_inv hp0 hm0 hvq).proper
        obtain ⟨vm, v, hrc, g1, g2, g3⟩ := trail_message hp0 hm0 hv hq (x := x) (by rw [(roundId_main hpq hr).2]; exact hx)
        obtain ⟨st1, st2, st3⟩ := visits_stored hv hq
        have hqid : q.1.roundId = rid := by
          rw [← hid]
          exact congrArg TransitionInfo.id (roundId_main hpq hr).1
        rw [hqid] at st1 st2 st3
        rw [hr] at hrc
        obtain ⟨w, -, hww⟩ := main_receive hrc
        obtain ⟨tm, k1, k2, k3, -⟩ := wrapReceive_ok hww
        refine ⟨fun h => ?_, fun h => ⟨_, _, st2, g2 (readPart_isSome k3 (hn h))⟩, fun h => ⟨_, _, st3, g1 (readPart_isSome k1 (hd h))⟩⟩
        by_cases hme : x = q.1.me
        · exact ⟨_, q.1.echo, st1, by rw [hme]; simp⟩
        · exact ⟨_, vm.echo, st1, by rw [BMap.get?_insert, if_neg hme]; exact g3 (readPart_isSome k2 (he' h))⟩
      unfold Evidence.fetchPrevious
      obtain ⟨r1, h1⟩ := fetch_total (required := rp.echo) (src := s.transcript.echos) (rid := rid) (who := x)
        (fun h => (held (by simp [RequiredParts.some?, h])).1 h) acc.echos
      obtain ⟨r2, h2⟩ := fetch_total (required := rp.normal) (src := s.transcript.normals) (rid := rid) (who := x)
        (fun h => (held (by simp [RequiredParts.some?, h])).2.1 h) acc.normals
      obtain ⟨r3, h3⟩ := fetch_total (required := rp.direct) (src := s.transcript.directs) (rid := rid) (who := x)
        (fun h => (held (by simp [RequiredParts.some?, h])).2.2 h) acc.directs
      simp only [h1, h2, h3]
      exact ⟨_, rfl⟩
  have e2 : ∀ acc, ∃ r, foldE (Evidence.fetchCombined s.transcript x) acc
      (match req.combined with | none => [] | some s => s.elems) = .ok r := by
    refine foldE_total ?_
    intro acc rid he
    split at he
    · simp at he
    · rename_i all hall
      obtain ⟨q, hq, e, hr, hid, hx⟩ := ho.combined all rid hall (BSet.mem_elems.1 he)
      obtain ⟨t, c, hvq, hsub, -⟩ := visits_split hv hq
      have hpq := (visits_inv hp0 hm0 hvq).proper
      obtain ⟨vm, v, hrc, -, g2, -⟩ := trail_message hp0 hm0 hv hq (x := x) (by
        rw [hpq.comm, hr]
        exact hx)
      obtain ⟨-, st2, -⟩ := visits_stored hv hq
      have hre : rid.echo = .ok q.1.roundId := by
        rw [← hid]
        exact (echo_transition_id mi hpq hr).1
      obtain ⟨q1, hq1, hr1, -⟩ := visits_echo_main hm0 hvq hr
      obtain ⟨st1, -, -⟩ := visits_stored hv (hsub q1 hq1)
      obtain ⟨t1, c1, hv1, -, -⟩ := visits_split hv (hsub q1 hq1)
      have hq1id : q1.1.roundId = rid := by
        rw [← hid]
        exact congrArg TransitionInfo.id (roundId_main (visits_inv hp0 hm0 hv1).proper hr1).1
      rw [hq1id] at st1
      rw [hr] at hrc
      have hrr : e.receive x vm.dyn = .ok () := by
        simp only [SRound.receive] at hrc
        cases hz : e.receive x vm.dyn with
        | error err => simp [hz] at hrc
        | ok u => rfl
      obtain ⟨pack, hdec, -⟩ := receive_ok hrr
      have hn := g2 (by
        obtain ⟨b, l, hb, -⟩ := hdec
        have hb' : vm.normal.part.payload = some b := hb
        simp [Part.isNone, hb'])
      unfold Evidence.fetchCombined
      simp only [hre, Transcript.getPart, st2, hn, okOr, Transcript.otherEchoBroadcasts, st1]
      exact ⟨_, rfl⟩
  unfold Evidence.newProvableError
  obtain ⟨r1, h1⟩ := e1 ⟨BMap.empty, BMap.empty, BMap.empty⟩
  obtain ⟨r2, h2⟩ := e2 ⟨BMap.empty, BMap.empty⟩
  split
  · rename_i e he
    exact absurd (h1.symm.trans he) (by simp)
  · split
    · rename_i e he
      exact absurd (h2.symm.trans he) (by simp)
    · exact ⟨_, rfl⟩

end Manul
