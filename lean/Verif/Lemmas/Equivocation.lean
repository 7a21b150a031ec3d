import Verif.Spec.Equivocation
import Verif.Lemmas.Open
import Verif.Props.Echo

/-! # Broadcasts that differ -/

namespace Manul

variable {sp : SP} {P : Proto sp}

/-- Where an echo round has its broadcasts from. -/
theorem visits_held {s₀ s : Session P} {trail : List (Session P × Accum P)} {cached : List (VerifiedMessage sp)} {e : EchoRd P}
    (hp : Proper s₀) (hm : ∃ r, s₀.round = .main r) (h : Visits s₀ trail s cached) (he : s.round = .echo e) :
    (∃ s1 ∈ trail.map Prod.fst, s1.transition.id = (P.transition e.main).id ∧ e.echoBroadcasts.get? s.me = some s1.echo) ∧
      ∀ k, k ≠ s.me → ∀ p, e.echoBroadcasts.get? k = some p → ∃ v, e.payloads.get? k = some v := by
  cases h with
  | first =>
    obtain ⟨r, hr⟩ := hm
    rw [hr] at he
    simp at he
  | @next trail s1 _ cached1 _ rng rng' l a hv hseq hy hf =>
    have hvi := visits_inv hp hm hv
    have hsi := seqRound_sinv hseq (by rw [hvi.sessionId]; exact hvi.authentic)
    obtain ⟨t, hu, hfin⟩ := finalizeRound_ok hf
    cases hfin with
    | toNext hi hr hc hns hrid =>
      rw [hns.round] at he
      simp at he
    | @toEcho info r _ ebs hi hr hget hns =>
      have hee : e = ⟨s1.me, ebs, info, r, a.payloads, a.artifacts⟩ := by
        rw [hns.round] at he
        simpa using he.symm
      have hme : s.me = s1.me := by rw [hns.me, hvi.proper.me]
      have hebs : ebs = a.echos.insert s1.me s1.echo := by
        rw [hu.echos, BMap.get?_insert] at hget
        simpa using hget.symm
      constructor
      · refine ⟨s1, by simp, ?_, ?_⟩
        · rw [hee]
          simp only
          rw [(roundId_main hvi.proper hr).1]
        · rw [hee]
          simp only
          rw [hebs, BMap.get?_insert, if_pos hme]
      · intro k hk p hpk
        rw [hee] at hpk ⊢
        simp only at hpk ⊢
        rw [hebs, BMap.get?_insert, if_neg (by rw [← hme]; exact hk)] at hpk
        cases hpay : (a.loc k).payload with
        | none =>
          have := ((hsi k).absent hpay).1
          change a.echos.get? k = none at this
          rw [this] at hpk
          simp at hpk
        | some v => exact ⟨v, hpay⟩

section

variable {g : Group P} {H : sp.Id → Prop} {V : sp.Id → List (Session P)} {n : Net P}

/-- A round of a party. -/
theorem OpenInv.visit (h : OpenInv g H V n) {i : sp.Id} {s : Session P} (hs : s ∈ V i) :
    ∃ rng s₀ tr c, Session.new rng g.sid (g.signer i) (g.ep i) = .ok s₀ ∧ Visits s₀ tr s c ∧
      ∀ s1 ∈ tr.map Prod.fst, s1 ∈ V i := by
  obtain ⟨rng, s₀, tr, sl, c, hnew, hv, hV⟩ := h.hist i (List.ne_nil_of_mem hs)
  rw [hV] at hs ⊢
  rcases List.mem_append.1 hs with hs | hs
  · obtain ⟨tr', c', hv', -, t2, ht⟩ := visits_prefix hv s hs
    refine ⟨rng, s₀, tr', c', hnew, hv', fun s1 h1 => List.mem_append_left _ ?_⟩
    rw [ht, List.map_append]
    exact List.mem_append_left _ h1
  · simp only [List.mem_singleton] at hs
    subst hs
    exact ⟨rng, s₀, tr, c, hnew, hv, fun s1 h1 => List.mem_append_left _ h1⟩

/-- A broadcast held of a party following the protocol is the one it has made. -/
theorem OpenInv.broadcast (h : OpenInv g H V n) (hkey : ∀ i, H i → sp.verifyingKey (g.signer i) = i) {x : sp.Id} (hx : H x)
    {s : Session P} (hs : s ∈ V x) {e : EchoRd P} (he : s.round = .echo e) {k : sp.Id} (hk : H k) {p : SignedPart .echo}
    (hp : e.echoBroadcasts.get? k = some p) :
    ∃ s1 ∈ V k, s1.transition.id = (P.transition e.main).id ∧ p.part = s1.echo.part := by
  obtain ⟨rng, s₀, tr, c, hnew, hv, hsub⟩ := h.visit hs
  obtain ⟨hp0, hsid0, hsg0, -, hm0⟩ := new_proper hnew
  have hi := visits_einv hp0 hm0 hv he
  have hme : s.me = x := by rw [hi.proper.me, hi.signer, hsg0, hkey x hx]
  obtain ⟨⟨s1, hs1, hid1, hown⟩, hpay⟩ := visits_held hp0 hm0 hv he
  by_cases hkx : k = s.me
  · rw [hkx, hown] at hp
    simp only [Option.some.injEq] at hp
    subst hp
    rw [hkx, hme]
    exact ⟨s1, hsub s1 hs1, hid1, rfl⟩
  · obtain ⟨v, hpv⟩ := hpay k hkx p hp
    obtain ⟨w, d, b, m, -, hu, ⟨-, ⟨mb, vb⟩, -⟩, -, hst⟩ := h.carried x s hs e he k v hpv
    have := (hst hkx).symm.trans hp
    rcases storePart_some this with h0 | ⟨rfl, -⟩
    · simp at h0
    · obtain ⟨q, hq, hsrc, hmeta, hpart⟩ := hu.echo k hk vb (by rw [mb]; exact hi.sessionId.trans hsid0)
      obtain ⟨s2, hs2, hmade, -, -, -, -, hm2, -, -⟩ := h.own hq
      rw [hsrc] at hs2
      rw [hmeta, mb] at hm2
      simp only [Metadata.mk.injEq] at hm2
      exact ⟨s2, hs2, hm2.2.symm, by rw [← hpart, hmade.echo]⟩

/-- The base of the id of an echo round. -/
theorem echo_main_id {s : Session P} (hp : Proper s) {e : EchoRd P} (he : s.round = .echo e) :
    (P.transition e.main).id.echo = .ok s.transition.id := by
  have := hp.transition
  rw [he] at this
  simp only [SRound.transition, EchoRd.transition] at this
  unfold TransitionInfo.echo at this
  cases hec : (P.transition e.main).id.echo with
  | error err => simp [hec, mapErr] at this
  | ok eid =>
    simp only [hec, mapErr, Except.ok.injEq] at this
    rw [← this]

/-- The message of an echo round. -/
theorem echo_message {s₀ s : Session P} {e : EchoRd P} (hi : EInv s₀ s e) {dest : sp.Id}
    (hd : s.comm.destinations.contains dest = true) {rng : sp.Rng} {d : Part .direct} {art : Option P.Artifact}
    (hdir : s.round.makeDirect rng dest = .ok (d, art)) :
    s.echo.part = Part.none ∧ d = Part.none ∧ e.makeNormal = .ok s.normal.part := by
  refine ⟨?_, ?_, ?_⟩
  · obtain ⟨r, h⟩ := hi.proper.echoPart
    split at h
    · simpa using h.symm
    · rw [hi.round] at h
      simpa [SRound.makeEcho] using h.symm
  · rw [hi.round] at hdir
    simp only [SRound.makeDirect, Except.ok.injEq, Prod.mk.injEq] at hdir
    exact hdir.1.symm
  · obtain ⟨r, h⟩ := hi.proper.normalPart
    split at h
    · rename_i hem
      have := BMap.isEmpty_iff_contains.1 hem dest
      rw [hd] at this
      simp at this
    · rw [hi.round] at h
      exact h

/-- What an echo round makes of a message of a party following the protocol. -/
theorem OpenInv.verdict (h : OpenInv g H V n) (rt : sp.EchoRoundTrip) (mt : sp.MetaTotal) (hstrict : EchoStrict P)
    (hmi : MainIds P) (hac : Acyclic P) (hkey : ∀ i, H i → sp.verifyingKey (g.signer i) = i) {i j : sp.Id}
    (hi : H i) (hj : H j) {s : Session P} (hs : s ∈ V i) {e : EchoRd P} (he : s.round = .echo e) {d : SignedPart .direct}
    {b : SignedPart .echo} {m : SignedPart .normal} (hu : Unforged H g.sid n.wire d b m)
    (ha : Authentic j g.sid s.transition.id d b m) :
    ∃ s' ∈ V j, ∃ e', s'.round = .echo e' ∧ s'.transition.id = s.transition.id ∧
      EchoVerdict H g.sid (P.transition e.main).id e e' j (s.round.receive j ⟨b.part, m.part, d.part⟩) := by
  obtain ⟨s', hs', -, hid, hb, hm, dest, rng', art, hdest, hdir⟩ := h.together hmi hac hj hu ha
  obtain ⟨rng, s₀, tr, c, hnew, hv, hsub⟩ := h.visit hs
  obtain ⟨rngj, s₀', tr', c', hnew', hv', hsub'⟩ := h.visit hs'
  obtain ⟨hp0, hsid0, hsg0, -, hm0⟩ := new_proper hnew
  obtain ⟨hp0', hsid0', hsg0', -, hm0'⟩ := new_proper hnew'
  have ie := visits_einv hp0 hm0 hv he
  have hmid := echo_main_id ie.proper he
  have hecho : s.transition.id.isEcho = true := (echo_base hmid).2.1
  have hr' : ∃ e', s'.round = .echo e' := by
    cases hround : s'.round with
    | echo e1 => exact ⟨e1, rfl⟩
    | main r =>
      obtain ⟨htr, -⟩ := roundId_main (visits_inv hp0' hm0' hv').proper hround
      rw [← hid, htr, hmi r] at hecho
      simp at hecho
  obtain ⟨e', he'⟩ := hr'
  have ie' := visits_einv hp0' hm0' hv' he'
  have hmid' := echo_main_id ie'.proper he'
  have hrid : (P.transition e'.main).id = (P.transition e.main).id := echo_inj (by rw [hmid', hid]) hmid
  have hme : s.me = i := by rw [ie.proper.me, ie.signer, hsg0, hkey i hi]
  have hme' : s'.me = j := by rw [ie'.proper.me, ie'.signer, hsg0', hkey j hj]
  have hsid : s.sessionId = g.sid := ie.sessionId.trans hsid0
  have hsid' : s'.sessionId = g.sid := ie'.sessionId.trans hsid0'
  refine ⟨s', hs', e', he', hid, ?_⟩
  obtain ⟨hbn, hdn, hnorm⟩ := echo_message ie' hdest hdir
  rw [hb, hm, hdn, hbn]
  -- the pack
  have hdec : Decodes s'.normal.part e'.pack := by
    unfold EchoRd.makeNormal at hnorm
    split at hnorm
    · split at hnorm
      · simp at hnorm
      · rename_i by' hb'
        simp only [Except.ok.injEq] at hnorm
        rw [← hnorm]
        exact decodes_iff.2 (C32_echo_message_round_trip sp rt _ _ hb')
    · simp at hnorm
  have hexpect : ∀ k, k ≠ s.me → e.info.expectedEchos.contains k = (P.comm e.main).expecting.contains k := by
    intro k hk
    rcases ie.info with ⟨t, -, h⟩ | ⟨-, h⟩ <;> rw [h]
    simp [hk]
  have hexpect' : ∀ k, k ≠ s'.me → e'.info.expectedEchos.contains k = (P.comm e'.main).expecting.contains k := by
    intro k hk
    rcases ie'.info with ⟨t, -, h⟩ | ⟨-, h⟩ <;> rw [h]
    simp [hk]
  have hcomplete : e.Complete := by
    intro k hk
    by_cases hk' : k = s.me
    · obtain ⟨p, -, h1, -⟩ := ie.own
      exact ⟨p, hk' ▸ h1⟩
    · exact ie.complete hstrict k hk' (by rw [← hexpect k hk']; exact hk)
  have entry : ∀ {k h}, e'.pack.get? k = some h → k ≠ j ∧ ∃ p, e'.echoBroadcasts.get? k = some p ∧
      h = p.toSignedHash sp ∧ AuthenticPart k g.sid (P.transition e.main).id p ∧ e'.info.expectedEchos.contains k = true := by
    intro k h hh
    obtain ⟨hk, p, hp, rfl⟩ := pack_get.1 hh
    rw [ie'.verifier] at hk
    obtain ⟨h1, -, h2⟩ := ie'.others k hk p hp
    rw [hsid', hrid] at h1
    exact ⟨hme' ▸ hk, p, hp, rfl, h1, by rw [hexpect' k hk]; exact h2⟩
  have meta_ : ∀ {k p}, e.echoBroadcasts.get? k = some p → p.metadata = ⟨g.sid, (P.transition e.main).id⟩ := by
    intro k p hp
    by_cases hk : k = s.me
    · obtain ⟨q, rng, hq, hn⟩ := ie.own
      rw [hk, hq] at hp
      simp only [Option.some.injEq] at hp
      subst hp
      rw [(signed_part hn).2, hsid]
    · rw [(ie.others k hk p hp).1.1, hsid]
  rw [he]
  simp only [SRound.receive]
  have hrow := (C18_table mt e hcomplete j ⟨Part.none, s'.normal.part, Part.none⟩ _).1 rfl
  generalize e.receive j ⟨Part.none, s'.normal.part, Part.none⟩ = r at hrow
  cases hrow with
  | echoPart h1 => simp [Part.none] at h1
  | directPart _ h1 => simp [Part.none] at h1
  | undecodable _ _ h1 => exact absurd ⟨_, hdec⟩ h1
  | @missing pack k _ _ h1 h2 h3 h4 =>
    have := decodes_unique h1 hdec
    subst this
    refine .missing h3 h2 ?_
    by_contra hc
    simp only [Bool.not_eq_false] at hc
    have hk : k ≠ s'.me := hme' ▸ h3
    obtain ⟨p, hp⟩ := ie'.complete hstrict k hk (by rw [← hexpect' k hk]; exact hc)
    have := pack_get.2 ⟨by rw [ie'.verifier]; exact hk, p, hp, rfl⟩
    rw [h4] at this
    simp at this
  | @extra pack k hh _ _ h1 _ h2 h3 =>
    have := decodes_unique h1 hdec
    subst this
    obtain ⟨h4, p, -, -, -, h5⟩ := entry h2
    rcases h3 with h3 | h3
    · exact .extra h4 h3 h5
    · exact absurd h3 h4
  | @invalid pack k hh _ _ h1 h2 h3 h4 _ =>
    have := decodes_unique h1 hdec
    subst this
    obtain ⟨h5, p, hp, rfl, ⟨h6, h7⟩, -⟩ := entry h3
    obtain ⟨p', hp', hbad⟩ := h4
    rcases hbad with hbad | hbad
    · exact absurd h7 hbad
    · exact absurd (h6.trans (meta_ hp').symm) hbad
  | @mismatched pack k hh w _ _ h1 h2 h3 h4 _ =>
    have := decodes_unique h1 hdec
    subst this
    obtain ⟨h5, p, hp, rfl, h6, -⟩ := entry h3
    obtain ⟨hw, -, -, hne⟩ := h4
    have hnH : ¬ H k := by
      intro hk
      obtain ⟨s1, hs1, hid1, hp1⟩ := h.broadcast hkey hi hs he hk hw
      obtain ⟨s2, hs2, hid2, hp2⟩ := h.broadcast hkey hj hs' he' hk hp
      have := h.unique hmi hac s1 hs1 s2 hs2 (by rw [hid1, hid2, hrid])
      subst this
      apply hne
      show sp.partHash p.part = _
      rw [hp1, hp2]
    have hki : k ≠ s.me := by
      rintro rfl
      rw [hme] at hnH
      exact hnH hi
    have h7 := (ie.others k hki w hw).1
    rw [hsid] at h7
    exact .caught hnH h5 hw hp h7 h6 hne
  | @accepted pack _ _ h1 h2 h3 =>
    have := decodes_unique h1 hdec
    subst this
    refine .agree ?_
    intro nocoll k hk hkj
    obtain ⟨hh, hhh⟩ := (h2 k).2 ⟨hk, hkj⟩
    obtain ⟨-, p, hp, rfl, h4, -⟩ := entry hhh
    obtain ⟨p', hp', -, h5, h6⟩ := h3 k _ hhh
    refine ⟨p, p', hp, hp', h5, ?_⟩
    have := C31_part_hash_injective sp p.part p'.part (nocoll k p p' hp hp') h6
    obtain ⟨⟨x⟩, hx⟩ : ∃ q, q = p.part := ⟨_, rfl⟩
    obtain ⟨⟨y⟩, hy⟩ : ∃ q, q = p'.part := ⟨_, rfl⟩
    rw [← hx, ← hy] at this ⊢
    exact congrArg _ this.2

end

end Manul
