import Verif.Lemmas.ParAny
import Verif.Lemmas.Echo

/-! # Runs of `par_run_session` in an arbitrary environment -/

namespace Manul

variable {sp : SP} {P : Proto sp}

/-- A run of `par_run_session` started with `s₀` has finished the rounds of `trail` (each with its final accumulator) and is in the
round of `s`, which it entered with the messages `cached`. -/
inductive PVisits (s₀ : Session P) : List (Session P × Accum P) → Session P → List (VerifiedMessage sp) → Prop where
  | first : PVisits s₀ [] s₀ []
  | next {trail : List (Session P × Accum P)} {s s' : Session P} {cached cached' : List (VerifiedMessage sp)}
      {rng' : sp.Rng} {l : List (sp.Id × Message sp)} {a : Accum P} :
      PVisits s₀ trail s cached → AnyRound s cached l a → a.canFinalize = .yes →
      s.finalizeRound rng' a = .ok (.anotherRound s' cached') → PVisits s₀ (trail ++ [(s, a)]) s' cached'

theorem pvisits_inv {s₀ s : Session P} {trail : List (Session P × Accum P)} {cached : List (VerifiedMessage sp)}
    (hp : Proper s₀) (hm : ∃ r, s₀.round = .main r) (h : PVisits s₀ trail s cached) : VInv s₀ s cached := by
  induction h with
  | first =>
    obtain ⟨r, hr⟩ := hm
    refine ⟨hp, rfl, rfl, by simp, by simp, ?_, ?_, ?_, ?_⟩ <;> (intro e he; rw [hr] at he; simp at he)
  | @next trail s s' cached cached' rng' l a hv hseq hy hf ih =>
    have hri := fun x => (anyRound_ainv (Q := fun _ _ _ => True) hseq
      (fun vm hvm => ⟨by rw [ih.sessionId]; exact ih.authentic vm hvm, trivial⟩) (fun _ _ _ => trivial) x).1
    have hca : ∀ x m, a.cached.get? x = some m → ∀ r vm, m.get? r = some vm →
        vm.sender = x ∧ Authentic x s₀.sessionId r vm.direct vm.echo vm.normal := by
      intro x m hx r vm hvm
      obtain ⟨h1, -, -, -, h5⟩ := (hri x).cached m hx r vm hvm
      rw [ih.sessionId] at h5
      exact ⟨h1, h5⟩
    have hfm : ∀ rid, ∀ vm ∈ Accum.filterMessages a.cached rid,
        Authentic vm.sender s₀.sessionId rid vm.direct vm.echo vm.normal := by
      intro rid vm hvm
      obtain ⟨x, m, hx, hmv⟩ := mem_filterMessages.1 hvm
      obtain ⟨h1, h2⟩ := hca x m hx rid vm hmv
      rw [h1]
      exact h2
    have hnd := fun rid => filterMessages_nodup (rid := rid) (fun x m hx r vm hvm => (hca x m hx r vm hvm).1)
    obtain ⟨t, hu, hfin⟩ := finalizeRound_ok hf
    cases hfin with
    | @toEcho info r _ ebs hi hr he hns =>
      obtain ⟨htr, hcm⟩ := roundId_main ih.proper hr
      have hre : ∀ e, s'.round = .echo e → e.main = r ∧ e.payloads = a.payloads ∧ e.artifacts = a.artifacts := by
        intro e hre
        rw [hns.round] at hre
        simp only [SRound.echo.injEq] at hre
        subst hre
        exact ⟨rfl, rfl, rfl⟩
      refine ⟨hns.proper, hns.sessionId.trans ih.sessionId, hns.signer.trans ih.signer, hfm _, hnd _, ?_, ?_, ?_, ?_⟩
      · intro e he x v hx
        obtain ⟨e1, e2, e3⟩ := hre e he
        rw [e2] at hx
        obtain ⟨d, eb, n, hau, hrecv⟩ := (hri x).payload v hx
        rw [hr] at hrecv
        obtain ⟨w, rfl, hw⟩ := main_receive hrecv
        refine ⟨w, rfl, d, eb, n, ?_, by rw [e1]; exact hw⟩
        rw [e1, ← ih.sessionId, ← htr]
        exact hau
      · intro e he x
        obtain ⟨e1, e2, e3⟩ := hre e he
        rw [e1, e2, ← hcm]
        exact yes_keys (anyRound_reach hseq) hy x
      · intro e he x v hx
        obtain ⟨e1, e2, e3⟩ := hre e he
        rw [e3] at hx
        obtain ⟨rng, p, hmk⟩ := (anyRound_artifacts hseq x).2 v hx
        rw [hr] at hmk
        obtain ⟨w, rfl, hw⟩ := main_makeDirect hmk
        exact ⟨w, rng, p, rfl, by rw [e1]; exact hw⟩
      · intro e he x
        obtain ⟨e1, e2, e3⟩ := hre e he
        rw [e1, e3, ← hcm]
        exact (anyRound_artifacts hseq x).1
    | @toNext r _ hi hr hc hns hrid =>
      have hmain : ∀ e, s'.round ≠ .echo e := by
        intro e he
        rw [hns.round] at he
        simp at he
      refine ⟨hns.proper, hns.sessionId.trans ih.sessionId, hns.signer.trans ih.signer, ?_, ?_, ?_, ?_, ?_, ?_⟩
      · intro vm hvm
        rw [hrid]
        exact hfm _ vm (List.mem_filter.1 hvm).1
      · exact (hnd _).sublist ((List.filter_sublist).map _)
      all_goals intro e he; exact absurd he (hmain e)

theorem pvisits_proper {s₀ s : Session P} {trail : List (Session P × Accum P)} {cached : List (VerifiedMessage sp)}
    (hp : Proper s₀) (hm : ∃ r, s₀.round = .main r) (h : PVisits s₀ trail s cached) :
    ∀ s' ∈ trail.map Prod.fst ++ [s], Proper s' ∧ s'.sessionId = s₀.sessionId ∧ s'.signer = s₀.signer := by
  have hlast : Proper s ∧ s.sessionId = s₀.sessionId ∧ s.signer = s₀.signer :=
    ⟨(pvisits_inv hp hm h).proper, (pvisits_inv hp hm h).sessionId, (pvisits_inv hp hm h).signer⟩
  induction h with
  | first => intro s' hs'; simp at hs'; subst hs'; exact hlast
  | @next trail s s1 cached cached' rng' l a hv hseq hy hf ih =>
    intro s' hs'
    rcases List.mem_append.1 hs' with hs' | hs'
    · refine ih ⟨(pvisits_inv hp hm hv).proper, (pvisits_inv hp hm hv).sessionId, (pvisits_inv hp hm hv).signer⟩ s' ?_
      simpa using hs'
    · simp only [List.mem_singleton] at hs'
      subst hs'
      exact hlast

/-- What is recorded for a round of the run. -/
theorem pvisits_ids {s₀ s : Session P} {trail : List (Session P × Accum P)} {cached : List (VerifiedMessage sp)}
    (h : PVisits s₀ trail s cached) :
    (∀ q ∈ trail, s.transcript.echos.contains q.1.transition.id = true) ∧
      (trail.map (fun q => q.1.transition.id)).Nodup := by
  induction h with
  | first => simp
  | @next trail s s' cached cached' rng' l a hv hseq hy hf ih =>
    have hu := finalized_transcript hf
    constructor
    · intro q hq
      rw [hu.echos, BMap.contains_insert]
      rcases List.mem_append.1 hq with hq | hq
      · simp [ih.1 q hq]
      · simp only [List.mem_singleton] at hq
        subst hq
        simp [Session.roundId]
    · rw [List.map_append, List.nodup_append]
      refine ⟨ih.2, by simp, ?_⟩
      intro a ha b hb hab
      subst hab
      obtain ⟨q, hq, rfl⟩ := List.mem_map.1 ha
      simp only [List.map_cons, List.map_nil, List.mem_singleton] at hb
      have h1 := ih.1 q hq
      have h2 := hu.freshE
      rw [hb] at h1
      unfold Session.roundId at h2
      rw [h1] at h2
      simp at h2

/-- The main round of an echo round comes before it in the run. -/
theorem pvisits_main {s₀ s : Session P} {trail : List (Session P × Accum P)} {cached : List (VerifiedMessage sp)}
    (hp : Proper s₀) (hm : ∃ r, s₀.round = .main r) (h : PVisits s₀ trail s cached) {e : EchoRd P} (he : s.round = .echo e) :
    ∃ tr q, trail = tr ++ [q] ∧ q.1.transition.id.echo = .ok s.transition.id := by
  cases h with
  | first =>
    obtain ⟨r, hr⟩ := hm
    rw [hr] at he
    simp at he
  | @next trail s1 _ cached cached' rng' l a hv hseq hy hf =>
    refine ⟨trail, (s1, a), rfl, ?_⟩
    rcases C13_declared (pvisits_inv hp hm hv).proper hf with ⟨r, e', -, -, -, h4⟩ | ⟨r, h1, -⟩
    · exact h4
    · rw [he] at h1
      simp at h1

theorem pvisits_prefix {s₀ s : Session P} {trail : List (Session P × Accum P)} {cached : List (VerifiedMessage sp)}
    (hv : PVisits s₀ trail s cached) : ∀ s1 ∈ trail.map Prod.fst, ∃ tr c, PVisits s₀ tr s1 c ∧ tr.length < trail.length ∧
      ∃ t2, trail = tr ++ t2 := by
  induction hv with
  | first => simp
  | @next trail s s' cached cached' rng' l a hv hseq hy hf ih =>
    intro s1 hs1
    rw [List.map_append, List.mem_append] at hs1
    rcases hs1 with hs1 | hs1
    · obtain ⟨tr, c, h1, h2, t2, h3⟩ := ih s1 hs1
      exact ⟨tr, c, h1, by simp; omega, t2 ++ [(s, a)], by rw [h3]; simp⟩
    · simp only [List.map_cons, List.map_nil, List.mem_singleton] at hs1
      subst hs1
      exact ⟨trail, cached, hv, by simp, _, rfl⟩

/-- No echo round id occurs twice in a run. -/
theorem pvisits_echo_unique {s₀ s : Session P} {trail : List (Session P × Accum P)} {cached : List (VerifiedMessage sp)}
    (hp : Proper s₀) (hm : ∃ r, s₀.round = .main r) (h : PVisits s₀ trail s cached) :
    ∀ s1 ∈ trail.map Prod.fst ++ [s], ∀ s2 ∈ trail.map Prod.fst ++ [s], ∀ e1 e2, s1.round = .echo e1 → s2.round = .echo e2 →
      s1.transition.id = s2.transition.id → s1 = s2 := by
  have key : ∀ {trail : List (Session P × Accum P)} {s : Session P} {cached : List (VerifiedMessage sp)},
      PVisits s₀ trail s cached → ∀ e, s.round = .echo e → ∀ s1 ∈ trail.map Prod.fst, ∀ e1, s1.round = .echo e1 →
        s1.transition.id = s.transition.id → (∃ tr s2 c, PVisits s₀ tr s2 c ∧ s2 = s1 ∧ tr.length < trail.length ∧
          ∃ t2, trail = tr ++ t2) → False := by
    intro trail s cached hv e he s1 hs1 e1 he1 hid ⟨tr, s2, c, hv2, h2, hlt, t2, ht⟩
    subst h2
    obtain ⟨tra, qa, ha1, ha2⟩ := pvisits_main hp hm hv he
    obtain ⟨trb, qb, hb1, hb2⟩ := pvisits_main hp hm hv2 he1
    rw [hid] at hb2
    have hq := echo_inj ha2 hb2
    have hn := (pvisits_ids hv).2
    rw [ht, hb1] at ha1
    subst hb1
    rcases List.eq_nil_or_concat t2 with h | ⟨t3, q3, h⟩
    · subst h
      rw [ht] at hlt
      simp at hlt
    · subst h
      rw [List.concat_eq_append, ← List.append_assoc] at ha1
      obtain ⟨-, h3⟩ := List.append_inj' ha1 rfl
      simp only [List.cons.injEq, and_true] at h3
      subst h3
      rw [ht] at hn
      simp only [List.map_append, List.map_cons, List.map_nil, List.nodup_append, List.concat_eq_append] at hn
      exact hn.2.2 qb.1.transition.id (by simp) q3.1.transition.id (by simp) hq.symm
  induction h with
  | first =>
    intro s1 h1 s2 h2
    simp at h1 h2
    simp [h1, h2]
  | @next trail s s' cached cached' rng' l a hv hseq hy hf ih =>
    have hv' := PVisits.next hv hseq hy hf
    intro s1 g1 s2 g2 e1 e2 he1 he2 hid
    rw [List.mem_append, List.mem_singleton] at g1 g2
    rcases g1 with h1 | h1
    · rcases g2 with h2 | h2
      · exact ih s1 (by simpa using h1) s2 (by simpa using h2) e1 e2 he1 he2 hid
      · subst h2
        obtain ⟨tr, c, h3, h4, h5⟩ := pvisits_prefix hv' s1 h1
        exact (key hv' e2 he2 s1 h1 e1 he1 hid ⟨tr, s1, c, h3, rfl, h4, h5⟩).elim
    · subst h1
      rcases g2 with h2 | h2
      · obtain ⟨tr, c, h3, h4, h5⟩ := pvisits_prefix hv' s2 h2
        exact (key hv' e1 he1 s2 h2 e2 he2 hid.symm ⟨tr, s2, c, h3, rfl, h4, h5⟩).elim
      · rw [h2]

theorem QInv.sinv {Q : SignedPart .direct → SignedPart .echo → SignedPart .normal → Prop} {s : Session P} {x : sp.Id} {l : Loc P}
    (h : QInv Q s x l) : SInv s x l := by
  refine ⟨h.absent, ?_, ?_⟩
  · intro v hv
    obtain ⟨vm, h1, -, h2⟩ := h.present v hv
    exact ⟨vm, h1, h2⟩
  · intro ev hev
    obtain ⟨vm, h1, -, h2⟩ := h.proved ev hev
    exact ⟨vm, h1, h2⟩

theorem anyRound_sinv {s : Session P} {cached : List (VerifiedMessage sp)} {l : List (sp.Id × Message sp)} {a : Accum P}
    (h : AnyRound s cached l a)
    (hc : ∀ vm ∈ cached, Authentic vm.sender s.sessionId s.roundId vm.direct vm.echo vm.normal) (x : sp.Id) :
    SInv s x (a.loc x) :=
  (anyRound_ainv (Q := fun _ _ _ => True) h (fun vm hvm => ⟨hc vm hvm, trivial⟩) (fun _ _ _ => trivial) x).2.sinv

theorem pvisits_einv {s₀ s : Session P} {trail : List (Session P × Accum P)} {cached : List (VerifiedMessage sp)}
    {e : EchoRd P} (hp : Proper s₀) (hm : ∃ r, s₀.round = .main r) (h : PVisits s₀ trail s cached)
    (he : s.round = .echo e) : EInv s₀ s e := by
  cases h with
  | first =>
    obtain ⟨r, hr⟩ := hm
    rw [hr] at he
    simp at he
  | @next trail s1 _ cached1 _ rng' l a hv hseq hy hf =>
    have hvi := pvisits_inv hp hm hv
    have hsi := anyRound_sinv hseq (by rw [hvi.sessionId]; exact hvi.authentic)
    obtain ⟨t, hu, hfin⟩ := finalizeRound_ok hf
    cases hfin with
    | toNext hi hr hc hns hrid =>
      rw [hns.round] at he
      simp at he
    | @toEcho info r _ ebs hi hr hget hns =>
      have hee : e = ⟨s1.me, ebs, info, r, a.payloads, a.artifacts⟩ := by
        rw [hns.round] at he
        simpa using he.symm
      obtain ⟨htr, hcm⟩ := roundId_main hvi.proper hr
      obtain ⟨hfol, hinfo⟩ := echoFollows_of_info hvi.proper hr hi
      have hme : s.me = s1.me := by rw [hns.me, hvi.proper.me]
      have hebs : ebs = a.echos.insert s1.me s1.echo := by
        rw [hu.echos, BMap.get?_insert] at hget
        simpa using hget.symm
      have hother : ∀ k, k ≠ s.me → ebs.get? k = (a.loc k).echo := by
        intro k hk
        rw [hebs, BMap.get?_insert, if_neg (by rw [← hme]; exact hk)]
        rfl
      refine ⟨he, hns.proper, hns.sessionId.trans hvi.sessionId, hns.signer.trans hvi.signer, by rw [hee, hme],
        by rw [hee]; exact hfol, by rw [hee, hme]; exact hinfo, ?_, ?_, ?_⟩
      · obtain ⟨rng0, hn⟩ := hvi.proper.echo
        refine ⟨s1.echo, rng0, ?_, ?_⟩
        · rw [hee]
          simp only
          rw [hebs, BMap.get?_insert, if_pos hme]
        · rw [hee, hns.signer, hns.sessionId]
          rw [htr] at hn
          exact hn
      · intro k hk p hpk
        rw [hee] at hpk ⊢
        simp only at hpk ⊢
        rw [hother k hk] at hpk
        cases hpay : (a.loc k).payload with
        | none =>
          rw [((hsi k).absent hpay).1] at hpk
          simp at hpk
        | some v =>
          obtain ⟨vm, hs, hau, hrc, h1, -, -⟩ := (hsi k).present v hpay
          rw [h1] at hpk
          rcases storePart_some hpk with h | ⟨rfl, h⟩
          · simp at h
          · refine ⟨?_, h, ?_⟩
            · rw [hns.sessionId, ← htr]
              exact hau.2.1
            · rw [← hcm, ← yes_keys (anyRound_reach hseq) hy k, BMap.contains_iff]
              exact ⟨v, hpay⟩
      · intro hstrict k hk hexp
        rw [hee] at hexp ⊢
        simp only at hexp ⊢
        rw [← hcm, ← yes_keys (anyRound_reach hseq) hy k] at hexp
        obtain ⟨v, hv⟩ := BMap.contains_iff.1 hexp
        obtain ⟨vm, hs, hau, hrc, h1, -, -⟩ := (hsi k).present v hv
        rw [hr] at hrc
        obtain ⟨w, -, hw⟩ := main_receive hrc
        have hne := hstrict r k vm.dyn w hfol hw
        rw [hother k hk, h1]
        refine ⟨vm.echo, ?_⟩
        unfold Loc.storePart
        have : vm.echo.part.isNone = false := hne
        simp [this]

/-! ## Steps -/

/-- How the driver ends with a report. -/
def EndsWith (s : Session P) (a : Accum P) (rep : Report P) : Prop :=
  (a.canFinalize = .yes ∧ ∃ rng, s.finalizeRound rng a = .ok (.finished rep)) ∨
    (a.canFinalize ≠ .yes ∧ s.terminateDueToErrors a = .ok rep)

/-- The possible steps of a party in a round. -/
theorem parStep_full {s : Session P} {st : ParSt P} {ev : ParEvent sp} {st' : ParState P}
    (h : parStep (.running s st) ev = some st') :
    (∃ r, st' = .done r ∧ ∀ rep, r = .ok rep → ∃ a, parJoin st = .ok a ∧ EndsWith s a rep) ∨
      (∃ o st1, ev = .op o ∧ st.accum.canFinalize = .notYet ∧ parOp s st o = .ok st1 ∧ st' = .running s st1) ∨
      (∃ a rng rng' s' cached', a.canFinalize = .yes ∧ parJoin st = .ok a ∧
        s.finalizeRound rng a = .ok (.anotherRound s' cached') ∧ st' = .running s' (ParSt.begin s' rng' cached')) := by
  have term : st.accum.canFinalize ≠ .yes → parTerminate s st = st' →
      ∃ r, st' = .done r ∧ ∀ rep, r = .ok rep → ∃ a, parJoin st = .ok a ∧ EndsWith s a rep := by
    intro hc ht
    unfold parTerminate at ht
    cases hj : parJoin st with
    | error e =>
      simp only [hj] at ht
      exact ⟨_, ht.symm, by simp⟩
    | ok a =>
      simp only [hj] at ht
      exact ⟨_, ht.symm, fun rep hr => ⟨a, rfl, Or.inr ⟨by rw [join_keeps hj]; exact hc, hr⟩⟩⟩
  unfold parStep at h
  cases hc : st.accum.canFinalize with
  | yes =>
    cases ev with
    | tick rng =>
      simp only [hc, Option.some.injEq] at h
      unfold parFinish at h
      cases hj : parJoin st with
      | error e =>
        simp only [hj] at h
        exact Or.inl ⟨_, h.symm, by simp⟩
      | ok a =>
        have hy : a.canFinalize = .yes := (join_keeps hj).trans hc
        simp only [hj] at h
        cases hf : s.finalizeRound (sp.fork rng 0) a with
        | error e =>
          simp only [hf] at h
          exact Or.inl ⟨_, h.symm, by simp⟩
        | ok o =>
          cases o with
          | finished r =>
            simp only [hf] at h
            refine Or.inl ⟨_, h.symm, fun rep hr => ⟨a, rfl, Or.inl ⟨hy, sp.fork rng 0, ?_⟩⟩⟩
            simp only [Except.ok.injEq] at hr
            rw [← hr]
            exact hf
          | anotherRound s' cached' =>
            simp only [hf] at h
            exact Or.inr (Or.inr ⟨a, _, _, s', cached', hy, rfl, hf, h.symm⟩)
    | op _ => simp [hc] at h
    | cancel => simp [hc] at h
    | close => simp [hc] at h
  | never =>
    cases ev with
    | tick rng =>
      simp only [hc, Option.some.injEq] at h
      exact Or.inl (term (by rw [hc]; simp) h)
    | op _ => simp [hc] at h
    | cancel => simp [hc] at h
    | close => simp [hc] at h
  | notYet =>
    cases ev with
    | tick rng => simp [hc] at h
    | op o =>
      simp only [hc] at h
      cases hd : parOp s st o with
      | error e =>
        simp only [hd, Option.some.injEq] at h
        exact Or.inl ⟨_, h.symm, by simp⟩
      | ok st1 =>
        simp only [hd, Option.some.injEq] at h
        exact Or.inr (Or.inl ⟨o, st1, rfl, rfl, hd, h.symm⟩)
    | cancel =>
      simp only [hc, Option.some.injEq] at h
      exact Or.inl (term (by rw [hc]; simp) h)
    | close =>
      simp only [hc, Option.some.injEq] at h
      exact Or.inl ⟨_, h.symm, by simp⟩

theorem parRound_snoc {s : Session P} {rng : sp.Rng} {cached : List (VerifiedMessage sp)} {ops : List (ParOp sp)} {st st' : ParSt P}
    {o : ParOp sp} (h : ParRound s rng cached ops st) (ho : parOp s st o = .ok st') : ParRound s rng cached (ops ++ [o]) st' := by
  unfold ParRound at *
  rw [foldE_append]
  exact ⟨st, h, by simp [foldE, ho]⟩

/-- The structure of a state of the parallel driver. -/
theorem parAny_cases {s₀ : Session P} {st : ParState P} (h : ParAny s₀ st) :
    (∃ trail s st' cached rng ops, st = .running s st' ∧ PVisits s₀ trail s cached ∧ ParRound s rng cached ops st') ∨
      (∃ trail s cached l a r, st = .done (.ok r) ∧ PVisits s₀ trail s cached ∧ AnyRound s cached l a ∧ EndsWith s a r) ∨
      (∃ e, st = .done (.error e)) := by
  induction h with
  | start rng => exact Or.inl ⟨[], s₀, _, [], rng, [], rfl, .first, rfl⟩
  | @step s st st' ev hr hs ih =>
    rcases ih with ⟨trail, s', st1, cached, rng0, ops, he, hv, hround⟩ | ⟨_, _, _, _, _, _, he, -⟩ | ⟨_, he⟩
    · simp only [ParState.running.injEq] at he
      obtain ⟨rfl, rfl⟩ := he
      rcases parStep_full hs with ⟨r, rfl, hrep⟩ | ⟨o, st1, -, -, ho, rfl⟩ | ⟨a, rng, rng', s', cached', hy, hj, hf, rfl⟩
      · cases r with
        | error e => exact Or.inr (Or.inr ⟨e, rfl⟩)
        | ok rep =>
          obtain ⟨a, hj, he⟩ := hrep rep rfl
          exact Or.inr (Or.inl ⟨trail, s, cached, _, a, rep, rfl, hv, ⟨rng0, ops, st, hround, hj, rfl⟩, he⟩)
      · exact Or.inl ⟨trail, s, st1, cached, rng0, _, rfl, hv, parRound_snoc hround ho⟩
      · exact Or.inl ⟨_, s', _, cached', rng', [], rfl, .next hv ⟨rng0, ops, st, hround, hj, rfl⟩ hy hf, rfl⟩
    · simp at he
    · simp at he

theorem parAny_running {s₀ s : Session P} {st : ParSt P} (h : ParAny s₀ (.running s st)) :
    ∃ trail cached rng ops, PVisits s₀ trail s cached ∧ ParRound s rng cached ops st := by
  rcases parAny_cases h with ⟨trail, s', st', cached, rng, ops, he, h1, h2⟩ | ⟨_, _, _, _, _, _, he, -⟩ | ⟨_, he⟩
  · simp only [ParState.running.injEq] at he
    obtain ⟨rfl, rfl⟩ := he
    exact ⟨trail, cached, rng, ops, h1, h2⟩
  · simp at he
  · simp at he

theorem parAny_done {s₀ : Session P} {r : Report P} (h : ParAny s₀ (.done (.ok r))) :
    ∃ trail s cached l a, PVisits s₀ trail s cached ∧ AnyRound s cached l a ∧ EndsWith s a r := by
  rcases parAny_cases h with ⟨_, _, _, _, _, _, he, -⟩ | ⟨trail, s, cached, l, a, r', he, h1⟩ | ⟨_, he⟩
  · simp at he
  · simp only [ParState.done.injEq, Except.ok.injEq] at he
    subst he
    exact ⟨trail, s, cached, l, a, h1⟩
  · simp at he

end Manul
