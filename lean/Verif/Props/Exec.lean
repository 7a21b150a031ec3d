import Verif.Spec.Exec
import Verif.Props.Run

/-!
# Sessions execute the protocol

* C49: a run of a session that ends with a result is an execution of the protocol.
-/

namespace Manul

variable {sp : SP} {P : Proto sp}

/-- A test of the result. -/
def SessionOutcome.resultIs {R : Type} (o : SessionOutcome R) (k : R → Bool) : Bool :=
  match o with
  | .result r => k r
  | _ => false

theorem resultIs_iff {R : Type} {o : SessionOutcome R} {k : R → Bool} :
    o.resultIs k = true ↔ ∃ r, o = .result r ∧ k r = true := by
  cases o <;> simp [SessionOutcome.resultIs]

theorem ExecTo.snoc {r r' r'' : P.Rd} {t : RoundTrace sp} {ts : List (RoundTrace sp)} {ps : BMap sp.Id P.Payload}
    {as : BMap sp.Id P.Artifact} (h : ExecTo P r ts r') (hp : Performs P r' t ps as)
    (hf : P.finalize r' t.finRng ps as = .ok (.anotherRound r'')) : ExecTo P r (ts ++ [t]) r'' := by
  induction h with
  | refl => exact .step hp hf .refl
  | step h1 h2 h3 ih => exact .step h1 h2 (ih hp hf)

theorem ExecTo.exec {r r' : P.Rd} {t : RoundTrace sp} {ts : List (RoundTrace sp)} {ps : BMap sp.Id P.Payload}
    {as : BMap sp.Id P.Artifact} {res : P.Result} (h : ExecTo P r ts r') (hp : Performs P r' t ps as)
    (hf : P.finalize r' t.finRng ps as = .ok (.result res)) : Exec P r (ts ++ [t]) res := by
  induction h with
  | refl => exact .last hp hf
  | step h1 h2 h3 ih => exact .step h1 h2 (ih hp hf)

theorem exists_map {K V W : Type} [LinearOrder K] [Nonempty W] (m : BMap K V) {Good : K → V → W → Prop}
    (h : ∀ x v, m.get? x = some v → ∃ w, Good x v w) :
    ∃ m' : BMap K W, (∀ x, m'.contains x = m.contains x) ∧ ∀ x v, m.get? x = some v → ∃ w, m'.get? x = some w ∧ Good x v w := by
  classical
  refine ⟨m.mapVal (fun x v => Classical.epsilon (Good x v)), ?_, ?_⟩
  · intro x
    rw [BMap.contains_mapVal]
  · intro x v hx
    exact ⟨_, by rw [BMap.get?_mapVal, hx]; rfl, Classical.epsilon_spec (h x v hx)⟩

/-- What a session has done in a round: a trace up to the random numbers for finalization. -/
def Done (P : Proto sp) (sid : Bytes) (r : P.Rd) (bp : BMap sp.Id (Option P.Payload)) (ba : BMap sp.Id (Option P.Artifact)) :
    Prop :=
  ∀ rng, ∃ t ps as, t.finRng = rng ∧ Performs P r t ps as ∧ InSession sid t ∧ downcastAll bp = .ok ps ∧ downcastAll ba = .ok as

theorem round_done {s : Session P} (hp : Proper s) {r : P.Rd} (hr : s.round = .main r) {rng : sp.Rng}
    {cached : List (VerifiedMessage sp)} {l : List (sp.Id × Message sp)} {a : Accum P} (hseq : SeqRound s rng cached l a)
    (hau : ∀ vm ∈ cached, Authentic vm.sender s.sessionId s.roundId vm.direct vm.echo vm.normal)
    (hy : a.canFinalize = .yes) : Done P s.sessionId r a.payloads a.artifacts := by
  intro frng
  obtain ⟨htr, hcm⟩ := roundId_main hp hr
  have hri := seqRound_rinv hseq hau
  have : Nonempty (sp.Rng × Part .direct) := ⟨(rng, ⟨none⟩)⟩
  have : Nonempty DynMsg := ⟨⟨⟨none⟩, ⟨none⟩, ⟨none⟩⟩⟩
  obtain ⟨recv, hk1, hrecv⟩ := exists_map (W := DynMsg) a.payloads (Good := fun x v m => ∃ w, v = some w ∧ P.receive r x m = .ok w ∧
      ∃ (d : SignedPart .direct) (e : SignedPart .echo) (n : SignedPart .normal),
        Authentic x s.sessionId (P.transition r).id d e n ∧ m = ⟨e.part, n.part, d.part⟩) (by
    intro x v hx
    obtain ⟨d, eb, n, hau, hrc⟩ := (hri x).payload v hx
    rw [hr] at hrc
    obtain ⟨w, rfl, hw⟩ := main_receive hrc
    exact ⟨_, w, rfl, hw, d, eb, n, by rw [← htr]; exact hau, rfl⟩)
  obtain ⟨dirs, hk2, hdirs⟩ := exists_map (W := sp.Rng × Part .direct) a.artifacts
    (Good := fun x v q => ∃ w, v = some w ∧ P.makeDirect r q.1 x = .ok (q.2, w)) (by
    intro x v hx
    obtain ⟨rng, p, hmk⟩ := (seqRound_artifacts hseq x).2 v hx
    rw [hr] at hmk
    obtain ⟨w, rfl, hw⟩ := main_makeDirect hmk
    exact ⟨(rng, p), w, rfl, hw⟩)
  obtain ⟨ps, hps, hps'⟩ := downcastAll_total (m := a.payloads) (by
    intro x v hx
    obtain ⟨m, -, w, hw, -⟩ := hrecv x v hx
    exact ⟨w, hw⟩)
  obtain ⟨as, has, has'⟩ := downcastAll_total (m := a.artifacts) (by
    intro x v hx
    obtain ⟨q, -, w, hw, -⟩ := hdirs x v hx
    exact ⟨w, hw⟩)
  obtain ⟨erng, hecho⟩ := hp.echoPart
  obtain ⟨nrng, hnormal⟩ := hp.normalPart
  rw [hr, hcm] at hecho hnormal
  refine ⟨⟨(P.transition r).id, P.comm r, if (P.comm r).destinations.isEmpty then none else some (erng, s.echo.part),
    if (P.comm r).destinations.isEmpty then none else some (nrng, s.normal.part), dirs, recv, frng⟩, ps, as, rfl, ?_, ?_, hps, has⟩
  · refine ⟨rfl, rfl, ?_, ?_, ?_, ?_, ?_, ?_⟩
    · intro rng p h
      simp only at h
      split at h
      · simp at h
      · rename_i hd
        simp only [Option.some.injEq, Prod.mk.injEq] at h
        rw [if_neg hd] at hecho
        rw [← h.1, ← h.2]
        exact hecho
    · intro rng p h
      simp only at h
      split at h
      · simp at h
      · rename_i hd
        simp only [Option.some.injEq, Prod.mk.injEq] at h
        rw [if_neg hd] at hnormal
        rw [← h.1, ← h.2]
        exact hnormal
    · intro x rng p h
      simp only at h
      have hc : a.artifacts.contains x = true := by rw [← hk2]; exact BMap.contains_iff.2 ⟨_, h⟩
      obtain ⟨v, hv⟩ := BMap.contains_iff.1 hc
      obtain ⟨q, hq, w, rfl, hw⟩ := hdirs x v hv
      rw [h] at hq
      cases hq
      exact ⟨w, hw, (has' x w).2 hv⟩
    · intro x h
      simp only at h
      cases has2 : as.get? x with
      | none => rfl
      | some w =>
        have h1 := (has' x w).1 has2
        obtain ⟨q, hq, -⟩ := hdirs x _ h1
        rw [h] at hq
        simp at hq
    · intro x m h
      simp only at h
      have hc : a.payloads.contains x = true := by rw [← hk1]; exact BMap.contains_iff.2 ⟨_, h⟩
      obtain ⟨v, hv⟩ := BMap.contains_iff.1 hc
      obtain ⟨q, hq, w, rfl, hw, -⟩ := hrecv x v hv
      rw [h] at hq
      cases hq
      exact ⟨w, hw, (hps' x w).2 hv⟩
    · intro x h
      simp only at h
      cases hps2 : ps.get? x with
      | none => rfl
      | some w =>
        have h1 := (hps' x w).1 hps2
        obtain ⟨q, hq, -⟩ := hrecv x _ h1
        rw [h] at hq
        simp at hq
  · refine ⟨?_, ?_, ?_, ?_, ?_⟩
    · intro x
      rw [hk1, yes_keys (seqRound_reach hseq) hy x, hcm]
    · intro x m h
      simp only at h
      have hc : a.payloads.contains x = true := by rw [← hk1]; exact BMap.contains_iff.2 ⟨_, h⟩
      obtain ⟨v, hv⟩ := BMap.contains_iff.1 hc
      obtain ⟨q, hq, w, rfl, hw, hs⟩ := hrecv x v hv
      rw [h] at hq
      cases hq
      exact hs
    · intro x
      rw [hk2, (seqRound_artifacts hseq x).1, hcm]
    · simp only
      cases (P.comm r).destinations.isEmpty <;> simp
    · simp only
      cases (P.comm r).destinations.isEmpty <;> simp

/-- What a run has done so far. -/
theorem visits_exec {s₀ s : Session P} {trail : List (Session P × Accum P)} {cached : List (VerifiedMessage sp)} {r₀ : P.Rd}
    (hp : Proper s₀) (hm : s₀.round = .main r₀) (h : Visits s₀ trail s cached) :
    ∃ ts, (∀ t ∈ ts, InSession s₀.sessionId t) ∧
      ((∃ r, s.round = .main r ∧ ExecTo P r₀ ts r ∧ ts.map RoundTrace.id = mainIds trail) ∨
        ∃ e, s.round = .echo e ∧ ExecTo P r₀ ts e.main ∧ Done P s₀.sessionId e.main e.payloads e.artifacts ∧
          ts.map RoundTrace.id ++ [(P.transition e.main).id] = mainIds trail) := by
  induction h with
  | first => exact ⟨[], by simp, .inl ⟨r₀, hm, .refl, rfl⟩⟩
  | @next trail s s' cached cached' rng rng' l a hv hseq hy hf ih =>
    have hi := visits_inv hp ⟨_, hm⟩ hv
    obtain ⟨ts, hts, ih⟩ := ih
    obtain ⟨tr, -, hfin⟩ := finalizeRound_ok hf
    have hmi : mainIds (trail ++ [(s, a)]) = mainIds trail ++ mainIds [(s, a)] := by
      unfold mainIds
      rw [List.filterMap_append]
    cases hfin with
    | @toEcho info r _ ebs hinfo hr he hns =>
      rcases ih with ⟨r', hr', hex, hids⟩ | ⟨e, hr', -⟩
      · rw [hr] at hr'
        cases hr'
        have hdone := round_done hi.proper hr hseq (by rw [hi.sessionId]; exact hi.authentic) hy
        rw [hi.sessionId] at hdone
        exact ⟨ts, hts, .inr ⟨_, hns.round, hex, hdone, by rw [hmi, hids]; simp [mainIds, hr]⟩⟩
      · rw [hr] at hr'
        cases hr'
    | @toNext r2 _ hinfo hfz hc hns hrid =>
      rcases ih with ⟨r', hr', hex, hids⟩ | ⟨e, hr', hex, hdone, hids⟩
      · have hdone := round_done hi.proper hr' hseq (by rw [hi.sessionId]; exact hi.authentic) hy
        rw [hi.sessionId] at hdone
        obtain ⟨t, ps, as, h1, h2, h3, h4, h5⟩ := hdone (sp.fork rng' 0)
        rw [hr'] at hfz
        simp only [SRound.finalize, SRound.finalizeMain, h4, h5] at hfz
        refine ⟨ts ++ [t], ?_, .inl ⟨r2, hns.round, hex.snoc h2 (by rw [h1]; exact hfz), ?_⟩⟩
        · intro t' ht'
          rcases List.mem_append.1 ht' with ht' | ht'
          · exact hts t' ht'
          · rw [List.mem_singleton.1 ht']
            exact h3
        · rw [hmi, List.map_append, hids]
          simp [mainIds, hr', h2.id]
      · obtain ⟨t, ps, as, h1, h2, h3, h4, h5⟩ := hdone (sp.fork rng' 0)
        rw [hr'] at hfz
        simp only [SRound.finalize, SRound.finalizeMain, h4, h5] at hfz
        refine ⟨ts ++ [t], ?_, .inl ⟨r2, hns.round, hex.snoc h2 (by rw [h1]; exact hfz), ?_⟩⟩
        · intro t' ht'
          rcases List.mem_append.1 ht' with ht' | ht'
          · exact hts t' ht'
          · rw [List.mem_singleton.1 ht']
            exact h3
        · rw [hmi, List.map_append, ← hids]
          simp [mainIds, hr', h2.id]

theorem ends_exec {s₀ s : Session P} {trail : List (Session P × Accum P)} {a : Accum P} {rep : Report P} {res : P.Result}
    {r₀ : P.Rd} (hp : Proper s₀) (hm : s₀.round = .main r₀) (h : Ends s₀ trail s a rep (.result res)) :
    ∃ ts, Exec P r₀ ts res ∧ (∀ t ∈ ts, InSession s₀.sessionId t) ∧ ts.map RoundTrace.id = mainIds (trail ++ [(s, a)]) := by
  cases h with
  | @result rng _ hin hy hf hinfo hfz =>
    obtain ⟨cached, rng', l, hv, hseq⟩ := hin
    have hi := visits_inv hp ⟨_, hm⟩ hv
    have hmi : mainIds (trail ++ [(s, a)]) = mainIds trail ++ mainIds [(s, a)] := by
      unfold mainIds
      rw [List.filterMap_append]
    obtain ⟨ts, hts, ⟨r', hr', hex, hids⟩ | ⟨e, hr', hex, hdone, hids⟩⟩ := visits_exec hp hm hv
    · have hdone := round_done hi.proper hr' hseq (by rw [hi.sessionId]; exact hi.authentic) hy
      rw [hi.sessionId] at hdone
      obtain ⟨t, ps, as, h1, h2, h3, h4, h5⟩ := hdone (sp.fork rng 0)
      rw [hr'] at hfz
      simp only [SRound.finalize, SRound.finalizeMain, h4, h5] at hfz
      refine ⟨ts ++ [t], hex.exec h2 (by rw [h1]; exact hfz), ?_, ?_⟩
      · intro t' ht'
        rcases List.mem_append.1 ht' with ht' | ht'
        · exact hts t' ht'
        · rw [List.mem_singleton.1 ht']
          exact h3
      · rw [hmi, List.map_append, hids]
        simp [mainIds, hr', h2.id]
    · obtain ⟨t, ps, as, h1, h2, h3, h4, h5⟩ := hdone (sp.fork rng 0)
      rw [hr'] at hfz
      simp only [SRound.finalize, SRound.finalizeMain, h4, h5] at hfz
      refine ⟨ts ++ [t], hex.exec h2 (by rw [h1]; exact hfz), ?_, ?_⟩
      · intro t' ht'
        rcases List.mem_append.1 ht' with ht' | ht'
        · exact hts t' ht'
        · rw [List.mem_singleton.1 ht']
          exact h3
      · rw [hmi, List.map_append, ← hids]
        simp [mainIds, hr', h2.id]

/-- C49: a run of a session that reports a result has executed the protocol from the round made by the entry point to this result:
in every round the session has received authentic messages of exactly the expected parties, made messages for exactly the
destinations, and finalized the round with what the round itself made of these. -/
theorem C49_result_is_execution {rng : sp.Rng} {sid : Bytes} {signer : sp.Signer} {ep : EntryPoint P} {s₀ : Session P}
    {rep : Report P} {res : P.Result} (h0 : Session.new rng sid signer ep = .ok s₀) (h : Reach s₀ (.done (.ok rep)))
    (hres : rep.outcome = .result res) :
    ∃ r₀ ts, ep.makeRound (sp.fork rng 0) sid (sp.verifyingKey signer) = .ok r₀ ∧ Exec P r₀ ts res ∧
      ∀ t ∈ ts, InSession sid t := by
  obtain ⟨hp, hsid, -, -, -⟩ := new_proper h0
  obtain ⟨r₀, hmk, hr₀⟩ : ∃ r₀, ep.makeRound (sp.fork rng 0) sid (sp.verifyingKey signer) = .ok r₀ ∧ s₀.round = .main r₀ := by
    unfold Session.new at h0
    split at h0
    · simp at h0
    · rename_i r hr
      exact ⟨r, hr, (newForNextRound_ok h0).round⟩
  obtain ⟨trail, s, a, k, he, hk, -⟩ := C10_result_partial h
  rw [(hk res).1 hres] at he
  obtain ⟨ts, h1, h2, -⟩ := ends_exec hp hr₀ he
  rw [hsid] at h2
  exact ⟨r₀, ts, hmk, h1, h2⟩

/-- C49: at any moment of a run the session has executed the protocol up to the round it is in, and the rounds of the execution are
those the run has gone through, echo rounds left out. -/
theorem C49_prefix_is_execution {s₀ s : Session P} {rng : sp.Rng} {sid : Bytes} {signer : sp.Signer} {ep : EntryPoint P}
    {trail : List (Session P × Accum P)} {cached : List (VerifiedMessage sp)} {r : P.Rd}
    (h0 : Session.new rng sid signer ep = .ok s₀) (h : Visits s₀ trail s cached) (hr : s.round = .main r) :
    ∃ r₀ ts, s₀.round = .main r₀ ∧ ExecTo P r₀ ts r ∧ (∀ t ∈ ts, InSession sid t) ∧
      ts.map RoundTrace.id = mainIds trail := by
  obtain ⟨hp, hsid, -, -, r₀, hr₀⟩ := new_proper h0
  obtain ⟨ts, hts, ⟨r', hr', hex, hids⟩ | ⟨e, hr', -⟩⟩ := visits_exec hp hr₀ h
  · rw [hr] at hr'
    cases hr'
    rw [hsid] at hts
    exact ⟨r₀, ts, hr₀, hex, hts, hids⟩
  · rw [hr] at hr'
    cases hr'

/-- A run meeting the hypotheses of `C49_result_is_execution`: a session of party 1 with two rounds and an echo round. -/
example : ∃ (s₀ : Session (demo false 2).wrap) (rep : Report (demo false 2).wrap) (res : Nat),
    Session.new (sp := toy) (0 : Nat) [9] (1 : U8) (demoEntry false 2 (BSet.ofList [1, 2, 3])) = .ok s₀ ∧
      Reach s₀ (.done (.ok rep)) ∧ rep.outcome = .result res ∧ res = 48 := by
  have h : onOk (demoRun false 2 [.msg ⟨2, 2, [9], RoundId.new 1, 1, some [5], none, some [7]⟩,
      .msg ⟨3, 3, [9], RoundId.new 1, 1, some [5], none, some [7]⟩, .tick,
      .msg ⟨3, 3, [9], RoundId.new 2, 1, some [5], none, some [7]⟩,
      .msg ⟨2, 2, [9], RoundId.new 2, 1, some [5], none, some [7]⟩, .tick])
      (fun r => r.2.isReport (fun rep => rep.outcome.resultIs (fun n : Nat => n == 48))) = true := by decide +kernel
  obtain ⟨s₀, st, h0, hr, hk⟩ := onOk_run h
  obtain ⟨rep, rfl, h1⟩ := isReport_iff.1 hk
  obtain ⟨res, h2, h3⟩ := resultIs_iff.1 h1
  exact ⟨s₀, rep, res, h0, hr, h2, beq_iff_eq.1 h3⟩

end Manul
