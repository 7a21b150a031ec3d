import Verif.Lemmas.Evidence
import Verif.Lemmas.ParVisits

/-! # Evidence in the reports of `par_run_session` -/

namespace Manul

variable {sp : SP} {P : Proto sp}

/-- The evidence was recorded in a round of the run because of an authentic message of `x`. -/
def POrigin (s₀ : Session P) (x : sp.Id) (ev : Evidence sp) : Prop :=
  ∃ trail s cached vm, PVisits s₀ trail s cached ∧ vm.sender = x ∧
    Authentic x s.sessionId s.roundId vm.direct vm.echo vm.normal ∧ Recorded s.transcript (s.process vm) ev ∧
    s.comm.expecting.contains x = true

theorem anyRound_origin {s₀ s : Session P} {trail : List (Session P × Accum P)} {cached : List (VerifiedMessage sp)}
    {l : List (sp.Id × Message sp)} {a : Accum P} (hp : Proper s₀) (hm : ∃ r, s₀.round = .main r)
    (hv : PVisits s₀ trail s cached) (hs : AnyRound s cached l a) {x : sp.Id} {ev : Evidence sp}
    (h : a.provable.get? x = some ev) : POrigin s₀ x ev := by
  have hi := pvisits_inv hp hm hv
  obtain ⟨vm, h1, h2, h3⟩ := (anyRound_sinv hs (by rw [hi.sessionId]; exact hi.authentic) x).evidence ev h
  obtain ⟨he, hi⟩ := reach_linv (anyRound_reach hs) x
  refine ⟨trail, s, cached, vm, hv, h1, h2, h3, ?_⟩
  rw [← he]
  exact (hi.provable (by simp [Accum.loc, h])).1

theorem anyRound_rinv {s : Session P} {cached : List (VerifiedMessage sp)} {l : List (sp.Id × Message sp)} {a : Accum P}
    (h : AnyRound s cached l a)
    (hc : ∀ vm ∈ cached, Authentic vm.sender s.sessionId s.roundId vm.direct vm.echo vm.normal) (x : sp.Id) :
    RInv s x (a.loc x) :=
  (anyRound_ainv (Q := fun _ _ _ => True) h (fun vm hvm => ⟨hc vm hvm, trivial⟩) (fun _ _ _ => trivial) x).1

theorem pvisits_origin {s₀ s : Session P} {trail : List (Session P × Accum P)} {cached : List (VerifiedMessage sp)}
    (hp : Proper s₀) (hm : ∃ r, s₀.round = .main r) (h0 : s₀.transcript = Transcript.new) (hv : PVisits s₀ trail s cached)
    {x : sp.Id} {ev : Evidence sp} (h : s.transcript.provable.get? x = some ev) : POrigin s₀ x ev := by
  induction hv with
  | first => simp [h0, Transcript.new] at h
  | next hv hseq hy hf ih =>
    rw [(finalized_transcript hf).provable x] at h
    rcases Option.or_eq_some_iff.1 h with h | ⟨-, h⟩
    · exact anyRound_origin hp hm hv hseq h
    · exact ih h

theorem pvisits_echo_transcript {s₀ s : Session P} {trail : List (Session P × Accum P)} {cached : List (VerifiedMessage sp)}
    {e : EchoRd P} (hp : Proper s₀) (hm : ∃ r, s₀.round = .main r) (h : PVisits s₀ trail s cached)
    (he : s.round = .echo e) : s.transcript.echos.get? (P.transition e.main).id = some e.echoBroadcasts := by
  cases h with
  | first =>
    obtain ⟨r, hr⟩ := hm
    rw [hr] at he
    simp at he
  | next hv hseq hy hf =>
    have hvi := pvisits_inv hp hm hv
    obtain ⟨t, hu, hfin⟩ := finalizeRound_ok hf
    cases hfin with
    | toNext hi hr hc hns hrid =>
      rw [hns.round] at he
      simp at he
    | @toEcho info r _ ebs hi hr hget hns =>
      have he' := hns.round.symm.trans he
      simp only [SRound.echo.injEq] at he'
      rw [hns.transcript, ← he']
      simp only
      rw [← (roundId_main hvi.proper hr).1]
      exact hget

/-- The transcript of every round of a run. -/
theorem pvisits_transcript (sc : sp.SignCorrect) (srt : sp.SigRoundTrip) (mi : MainIds P) {s₀ s : Session P}
    {trail : List (Session P × Accum P)} {cached : List (VerifiedMessage sp)} (hp : Proper s₀)
    (hm : ∃ r, s₀.round = .main r) (h0 : s₀.transcript = Transcript.new) (hv : PVisits s₀ trail s cached) :
    TranscriptOk s₀.sessionId s.transcript := by
  induction hv with
  | first => constructor <;> simp [h0, Transcript.new]
  | @next trail s1 s2 cached1 cached2 rng' l a hv hseq hy hf ih =>
    have hu := finalized_transcript hf
    have hvi := pvisits_inv hp hm hv
    have hri := anyRound_rinv hseq (by rw [hvi.sessionId]; exact hvi.authentic)
    have hsi := anyRound_sinv hseq (by rw [hvi.sessionId]; exact hvi.authentic)
    refine ⟨?_, ?_, ?_, ?_⟩
    · intro r m x p hr hx
      rw [hu.echos, BMap.get?_insert] at hr
      split at hr
      · rename_i hrid
        simp only [Option.some.injEq] at hr
        subst hr
        rw [BMap.get?_insert] at hx
        split at hx
        · rename_i hme
          simp only [Option.some.injEq] at hx
          subst hx
          obtain ⟨r0, hn⟩ := hvi.proper.echo
          have := signed_valid sc srt hn
          rw [hrid, hme, hvi.proper.me, ← hvi.sessionId]
          exact this
        · rw [hrid, ← hvi.sessionId]
          exact ((hri x).echo p hx).1
      · exact ih.echos r m x p hr hx
    · intro r m x p hr hx
      rw [hu.normals, BMap.get?_insert] at hr
      split at hr
      · rename_i hrid
        simp only [Option.some.injEq] at hr
        subst hr
        rw [hrid, ← hvi.sessionId]
        exact ((hri x).normal p hx).1
      · exact ih.normals r m x p hr hx
    · intro r m x p hr hx
      rw [hu.directs, BMap.get?_insert] at hr
      split at hr
      · rename_i hrid
        simp only [Option.some.injEq] at hr
        subst hr
        rw [hrid, ← hvi.sessionId]
        exact ((hri x).direct p hx).1
      · exact ih.directs r m x p hr hx
    · intro r re m x n hre hr hx
      rw [hu.normals, BMap.get?_insert] at hr
      split at hr
      · rename_i hrid
        simp only [Option.some.injEq] at hr
        subst hr
        have hee := (echo_isEcho hre).1
        rw [hrid] at hee
        cases hrd : s1.round with
        | main rd =>
          have := mi rd
          rw [← (roundId_main hvi.proper hrd).1] at this
          unfold Session.roundId at hee
          rw [this] at hee
          simp at hee
        | echo e =>
          have hid : r = (P.transition e.main).id :=
            echo_id_inj hre (by rw [hrid]; exact (echo_transition_id mi hvi.proper hrd).1)
          have hpay : ∃ v, (a.loc x).payload = some v := by
            cases hpp : (a.loc x).payload with
            | some v => exact ⟨v, rfl⟩
            | none =>
              have h2 := ((hsi x).absent hpp).2.1
              have : (a.loc x).normal = some n := hx
              rw [h2] at this
              simp at this
          obtain ⟨v, hpay⟩ := hpay
          obtain ⟨vm, -, -, hrc, -, hnorm, -⟩ := (hsi x).present v hpay
          have hn : (a.loc x).normal = some n := hx
          rw [hnorm] at hn
          have hnn : n = vm.normal := by
            rcases storePart_some hn with h | ⟨h, -⟩
            · simp at h
            · exact h
          rw [hrd] at hrc
          simp only [SRound.receive] at hrc
          cases hrr : e.receive x vm.dyn with
          | error e' => simp [hrr] at hrc
          | ok u =>
            obtain ⟨pack, h1, h2, h3⟩ := receive_ok hrr
            have hget := pvisits_echo_transcript hp hm hv hrd
            refine ⟨pack, e.echoBroadcasts, by rw [hnn]; exact h1, ?_, ?_⟩
            · rw [hu.echos, BMap.get?_insert, if_neg ?_, hid]
              · exact hget
              · intro hc
                have := (echo_isEcho hre).2
                rw [hc, (echo_transition_id mi hvi.proper hrd).2] at this
                simp at this
            · intro k h hk
              exact ⟨((h2 k).1 ⟨h, hk⟩).2, h3 k h hk⟩
      · obtain ⟨pack, ebs, h1, h2, h3⟩ := ih.packs r re m x n hre hr hx
        refine ⟨pack, ebs, h1, ?_, h3⟩
        rw [hu.echos, BMap.get?_insert, if_neg ?_]
        · exact h2
        · intro hc
          have := hu.freshE
          rw [← hc] at this
          rw [BMap.contains_iff.2 ⟨ebs, h2⟩] at this
          simp at this

theorem preport_origin {rng0 : sp.Rng} {sid : Bytes} {signer : sp.Signer} {ep : EntryPoint P} {s₀ : Session P} {r : Report P}
    (h0 : Session.new rng0 sid signer ep = .ok s₀) (h : ParAny s₀ (.done (.ok r))) {x : sp.Id} {ev : Evidence sp}
    (hx : r.provable.get? x = some ev) : POrigin s₀ x ev := by
  obtain ⟨hp, -, -, ht, hm⟩ := new_proper h0
  obtain ⟨trail, s, cached, l, a, hv, hany, he⟩ := parAny_done h
  have key : ∀ t, Updated s.transcript s.roundId s.me s.echo a t → r.provable = t.provable → POrigin s₀ x ev := by
    intro t hu hr
    rw [hr, hu.provable x] at hx
    rcases Option.or_eq_some_iff.1 hx with h | ⟨-, h⟩
    · exact anyRound_origin hp hm hv hany h
    · exact pvisits_origin hp hm ht hv h
  rcases he with ⟨-, rng, hf⟩ | ⟨-, ht'⟩
  · obtain ⟨t, hu, hfin⟩ := finalizeRound_ok hf
    cases hfin with
    | result _ _ => exact key t hu rfl
  · unfold Session.terminateDueToErrors Session.terminateInner at ht'
    cases hu : s.updatedTranscript a with
    | error e => simp [hu] at ht'
    | ok t =>
      simp only [hu, Except.ok.injEq] at ht'
      exact key t (update_iff.1 hu) (by rw [← ht']; rfl)

end Manul
