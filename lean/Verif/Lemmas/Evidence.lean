import Verif.Lemmas.Crash
import Verif.Spec.Evidence

/-! # Evidence -/

namespace Manul

variable {sp : SP} {P : Proto sp}

/-! ## Where the evidence of a report comes from -/

/-- The evidence was recorded in a round of the run because of an authentic message of `x`. -/
def Origin (s₀ : Session P) (x : sp.Id) (ev : Evidence sp) : Prop :=
  ∃ trail s cached vm, Visits s₀ trail s cached ∧ vm.sender = x ∧
    Authentic x s.sessionId s.roundId vm.direct vm.echo vm.normal ∧ Recorded s.transcript (s.process vm) ev ∧
    s.comm.expecting.contains x = true

theorem seqRound_origin {s₀ s : Session P} {trail : List (Session P × Accum P)} {cached : List (VerifiedMessage sp)}
    {rng : sp.Rng} {l : List (sp.Id × Message sp)} {a : Accum P} (hp : Proper s₀) (hm : ∃ r, s₀.round = .main r)
    (hv : Visits s₀ trail s cached) (hs : SeqRound s rng cached l a) {x : sp.Id} {ev : Evidence sp}
    (h : a.provable.get? x = some ev) : Origin s₀ x ev := by
  obtain ⟨vm, h1, h2, h3⟩ := (inRound_sinv hp hm ⟨cached, rng, l, hv, hs⟩ x).evidence ev h
  obtain ⟨he, hi⟩ := reach_linv (seqRound_reach hs) x
  refine ⟨trail, s, cached, vm, hv, h1, h2, h3, ?_⟩
  rw [← he]
  exact (hi.provable (by simp [Accum.loc, h])).1

theorem visits_origin {s₀ s : Session P} {trail : List (Session P × Accum P)} {cached : List (VerifiedMessage sp)}
    (hp : Proper s₀) (hm : ∃ r, s₀.round = .main r) (h0 : s₀.transcript = Transcript.new) (hv : Visits s₀ trail s cached)
    {x : sp.Id} {ev : Evidence sp} (h : s.transcript.provable.get? x = some ev) : Origin s₀ x ev := by
  induction hv with
  | first => simp [h0, Transcript.new] at h
  | next hv hseq hy hf ih =>
    rw [(finalized_transcript hf).provable x] at h
    rcases Option.or_eq_some_iff.1 h with h | ⟨-, h⟩
    · exact seqRound_origin hp hm hv hseq h
    · exact ih h

theorem report_origin {rng0 : sp.Rng} {sid : Bytes} {signer : sp.Signer} {ep : EntryPoint P} {s₀ : Session P} {r : Report P}
    (h0 : Session.new rng0 sid signer ep = .ok s₀) (h : Reach s₀ (.done (.ok r))) {x : sp.Id} {ev : Evidence sp}
    (hx : r.provable.get? x = some ev) : Origin s₀ x ev := by
  obtain ⟨hp, -, -, ht, hm⟩ := new_proper h0
  obtain ⟨trail, s, a, k, he⟩ := reach_done h
  have key : ∀ t, Updated s.transcript s.roundId s.me s.echo a t → r.provable = t.provable → InRound s₀ trail s a →
      Origin s₀ x ev := by
    intro t hu hr hin
    obtain ⟨cached, rng, l, hv, hseq⟩ := hin
    rw [hr, hu.provable x] at hx
    rcases Option.or_eq_some_iff.1 hx with h | ⟨-, h⟩
    · exact seqRound_origin hp hm hv hseq h
    · exact visits_origin hp hm ht hv h
  have term : InRound s₀ trail s a → s.terminateDueToErrors a = .ok r → Origin s₀ x ev := by
    intro hin ht'
    unfold Session.terminateDueToErrors Session.terminateInner at ht'
    cases hu : s.updatedTranscript a with
    | error e => simp [hu] at ht'
    | ok t =>
      simp only [hu, Except.ok.injEq] at ht'
      exact key t (update_iff.1 hu) (by rw [← ht']; rfl) hin
  cases he with
  | result hin hy hf hi hres =>
    obtain ⟨t, hu, hfin⟩ := finalizeRound_ok hf
    cases hfin with
    | result _ _ => exact key t hu rfl hin
  | errors hin _ ht' => exact term hin ht'
  | cancelled hin _ ht' => exact term hin ht'

/-! ## What the transcript of a run holds -/

theorem receive_ok {e : EchoRd P} {x : sp.Id} {m : DynMsg} {u : Unit} (h : e.receive x m = .ok u) :
    ∃ pack, Decodes m.normal pack ∧ KeysExact e x pack ∧ ∀ k v, pack.get? k = some v → EntryGood e.echoBroadcasts k v := by
  unfold EchoRd.receive at h
  split at h
  · simp at h
  · split at h
    · simp at h
    · split at h
      · simp at h
      · rename_i pack hp
        refine ⟨pack, decodes_iff.2 hp, ?_⟩
        unfold EchoRd.receivePack at h
        simp only at h
        split at h
        · simp at h
        · rename_i h1
          split at h
          · simp at h
          · rename_i h2
            have h1' := missing_iff.1 (by simpa using h1)
            have h2' := extra_iff.1 (by simpa using h2)
            refine ⟨fun k => ⟨fun ⟨v, hv⟩ => h2' k v hv, fun ⟨hk, hs⟩ => h1' k hk hs⟩, ?_⟩
            intro k v hv
            exact checkEchos_ok.1 h (k, v) (BMap.mem_toList.2 hv)

theorem visits_echo_transcript {s₀ s : Session P} {trail : List (Session P × Accum P)} {cached : List (VerifiedMessage sp)}
    {e : EchoRd P} (hp : Proper s₀) (hm : ∃ r, s₀.round = .main r) (h : Visits s₀ trail s cached)
    (he : s.round = .echo e) : s.transcript.echos.get? (P.transition e.main).id = some e.echoBroadcasts := by
  cases h with
  | first =>
    obtain ⟨r, hr⟩ := hm
    rw [hr] at he
    simp at he
  | next hv hseq hy hf =>
    have hvi := visits_inv hp hm hv
    obtain ⟨t, hu, hfin⟩ := finalizeRound_ok hf
    cases hfin with
    | toNext hi hr hc hns hrid =>
      rw [hns.round] at he
      simp at he
    | @toEcho info r _ ebs hi hr hget hns =>
      have he' := hns.round.symm.trans he
      simp only [SRound.echo.injEq] at he'
      rw [hns.transcript, ← he']
      simp only
      rw [← (roundId_main hvi.proper hr).1]
      exact hget

theorem echo_transition_id (mi : MainIds P) {s : Session P} (hp : Proper s) {e : EchoRd P} (he : s.round = .echo e) :
    (P.transition e.main).id.echo = .ok s.roundId ∧ s.roundId.isEcho = true := by
  have htr := hp.transition
  rw [he] at htr
  have hne := mi e.main
  simp only [SRound.transition, EchoRd.transition, TransitionInfo.echo, RoundId.echo, hne] at htr
  simp only [Bool.false_eq_true, if_false, mapErr, Except.ok.injEq] at htr
  unfold Session.roundId RoundId.echo
  rw [← htr]
  simp [hne]

theorem echo_id_inj {r r' re : RoundId} (h : r.echo = .ok re) (h' : r'.echo = .ok re) : r = r' := by
  unfold RoundId.echo at h h'
  split at h
  · simp at h
  · rename_i h1
    split at h'
    · simp at h'
    · rename_i h2
      simp only [Except.ok.injEq] at h h'
      obtain ⟨a, b, c⟩ := r
      obtain ⟨a', b', c'⟩ := r'
      simp only at h1 h2
      rw [← h] at h'
      simp only [RoundId.mk.injEq] at h' ⊢
      exact ⟨h'.1.symm, h'.2.1.symm, by simp_all⟩

theorem echo_isEcho {r re : RoundId} (h : r.echo = .ok re) : re.isEcho = true ∧ r.isEcho = false := by
  unfold RoundId.echo at h
  split at h
  · simp at h
  · rename_i h1
    simp only [Except.ok.injEq] at h
    rw [← h]
    exact ⟨rfl, by simpa using h1⟩

/-- The transcript of every round of a run. -/
theorem visits_transcript (sc : sp.SignCorrect) (srt : sp.SigRoundTrip) (mi : MainIds P) {s₀ s : Session P}
    {trail : List (Session P × Accum P)} {cached : List (VerifiedMessage sp)} (hp : Proper s₀)
    (hm : ∃ r, s₀.round = .main r) (h0 : s₀.transcript = Transcript.new) (hv : Visits s₀ trail s cached) :
    TranscriptOk s₀.sessionId s.transcript := by
  induction hv with
  | first => constructor <;> simp [h0, Transcript.new]
  | @next trail s1 s2 cached1 cached2 rng rng' l a hv hseq hy hf ih =>
    have hu := finalized_transcript hf
    have hvi := visits_inv hp hm hv
    have hri := seqRound_rinv hseq (by rw [hvi.sessionId]; exact hvi.authentic)
    have hsi := seqRound_sinv hseq (by rw [hvi.sessionId]; exact hvi.authentic)
    refine ⟨?_, ?_, ?_, ?_⟩
    · intro r m x p hr hx
      rw [hu.echos, BMap.get?_insert] at hr
      split at hr
      · rename_i hrid
        simp only [Option.some.injEq] at hr
        subst hr
        rw [BMap.get?_insert] at hx
        split at hx
        · rename_i hme
          simp only [Option.some.injEq] at hx
          subst hx
          obtain ⟨r0, hn⟩ := hvi.proper.echo
          have := signed_valid sc srt hn
          rw [hrid, hme, hvi.proper.me, ← hvi.sessionId]
          exact this
        · rw [hrid, ← hvi.sessionId]
          exact ((hri x).echo p hx).1
      · exact ih.echos r m x p hr hx
    · intro r m x p hr hx
      rw [hu.normals, BMap.get?_insert] at hr
      split at hr
      · rename_i hrid
        simp only [Option.some.injEq] at hr
        subst hr
        rw [hrid, ← hvi.sessionId]
        exact ((hri x).normal p hx).1
      · exact ih.normals r m x p hr hx
    · intro r m x p hr hx
      rw [hu.directs, BMap.get?_insert] at hr
      split at hr
      · rename_i hrid
        simp only [Option.some.injEq] at hr
        subst hr
        rw [hrid, ← hvi.sessionId]
        exact ((hri x).direct p hx).1
      · exact ih.directs r m x p hr hx
    · intro r re m x n hre hr hx
      rw [hu.normals, BMap.get?_insert] at hr
      split at hr
      · rename_i hrid
        simp only [Option.some.injEq] at hr
        subst hr
        have hee := (echo_isEcho hre).1
        rw [hrid] at hee
        cases hrd : s1.round with
        | main rd =>
          have := mi rd
          rw [← (roundId_main hvi.proper hrd).1] at this
          unfold Session.roundId at hee
          rw [this] at hee
          simp at hee
        | echo e =>
          have hid : r = (P.transition e.main).id :=
            echo_id_inj hre (by rw [hrid]; exact (echo_transition_id mi hvi.proper hrd).1)
          have hpay : ∃ v, (a.loc x).payload = some v := by
            cases hpp : (a.loc x).payload with
            | some v => exact ⟨v, rfl⟩
            | none =>
              have h2 := ((hsi x).absent hpp).2.1
              have : (a.loc x).normal = some n := hx
              rw [h2] at this
              simp at this
          obtain ⟨v, hpay⟩ := hpay
          obtain ⟨vm, -, -, hrc, -, hnorm, -⟩ := (hsi x).present v hpay
          have hn : (a.loc x).normal = some n := hx
          rw [hnorm] at hn
          have hnn : n = vm.normal := by
            rcases storePart_some hn with h | ⟨h, -⟩
            · simp at h
            · exact h
          rw [hrd] at hrc
          simp only [SRound.receive] at hrc
          cases hrr : e.receive x vm.dyn with
          | error e' => simp [hrr] at hrc
          | ok u =>
            obtain ⟨pack, h1, h2, h3⟩ := receive_ok hrr
            have hget := visits_echo_transcript hp hm hv hrd
            refine ⟨pack, e.echoBroadcasts, by rw [hnn]; exact h1, ?_, ?_⟩
            · rw [hu.echos, BMap.get?_insert, if_neg ?_, hid]
              · exact hget
              · intro hc
                have := (echo_isEcho hre).2
                rw [hc, (echo_transition_id mi hvi.proper hrd).2] at this
                simp at this
            · intro k h hk
              exact ⟨((h2 k).1 ⟨h, hk⟩).2, h3 k h hk⟩
      · obtain ⟨pack, ebs, h1, h2, h3⟩ := ih.packs r re m x n hre hr hx
        refine ⟨pack, ebs, h1, ?_, h3⟩
        rw [hu.echos, BMap.get?_insert, if_neg ?_]
        · exact h2
        · intro hc
          have := hu.freshE
          rw [← hc] at this
          rw [BMap.contains_iff.2 ⟨ebs, h2⟩] at this
          simp at this

end Manul
