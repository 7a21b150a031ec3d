import Verif.Lemmas.TypedEvidence
import Verif.Props.EvidenceComplete

/-!
# Typed evidence (C62)

What `verify_evidence` of a typed protocol error gets through the accessors of `EvidenceMessages`.
-/

namespace Manul

variable {sp : SP}

/-- **C62.**  Evidence of a protocol error in the report of a run was made because a round value rejected a message of the party
with the error.  Verifying it calls the error's `verify_evidence`, and the accessors return: the parts asked for of that message,
as the round was given them; the parts asked for of the messages that earlier rounds accepted from the party; and the echo
broadcasts of the other senders of the earlier rounds asked for. -/
theorem C62_accessors (sc : sp.SignCorrect) (srt : sp.SigRoundTrip) {T : TypedProto sp} (tc : TagConsistent T)
    (mi : MainIds T.wrap) (mr : MessagesReadable T) (er : ErrorsReadable T) {rng0 : sp.Rng} {sid : Bytes}
    {signer : sp.Signer} {ep : EntryPoint T.wrap} {s₀ : Session T.wrap} {rep : Report T.wrap}
    (h0 : Session.new rng0 sid signer ep = .ok s₀) (hself : NotToSelf s₀)
    (h : Reach s₀ (.done (.ok rep))) {x : sp.Id} {ev : Evidence sp} {pe : ProtocolEvidence sp}
    (hx : rep.provable.get? x = some ev) (hb : ev.body = .protocol pe) :
    ev.guilty = x ∧ ∃ trail s cached r tm e, Visits s₀ trail s cached ∧ s.round = .main r ∧
      T.receive r x tm = .error (.protocol e) ∧
      ((T.required e (T.transition r).id).thisRound.some? = true → ∀ shared, ∃ m prev comb,
        ev.verify T.wrap shared = T.verifyErr (T.tag r) e (T.transition r).id x sid shared m prev comb ∧
        ShowsThis T r tm (T.required e (T.transition r).id).thisRound m ∧
        ShowsPrevious T trail x (T.required e (T.transition r).id) prev ∧
        ShowsCombined T trail (sp.verifyingKey signer) x (T.required e (T.transition r).id) comb) := by
  obtain ⟨hp0, hsid0, hsig0, ht0, hm0⟩ := new_proper h0
  obtain ⟨hg, trail, s, cached, vm, req, bytes, hv, hs, hau, hrc, htr, hheld, hexp, hver⟩ := C22_represents sc srt mi h0 h hx hb
  refine ⟨hg, ?_⟩
  have hvi := visits_inv hp0 hm0 hv
  -- the round is a main one
  obtain ⟨r, hr⟩ : ∃ r, s.round = .main r := by
    cases hrd : s.round with
    | main r => exact ⟨r, rfl⟩
    | echo e =>
      exfalso
      rw [hrd] at hrc
      exact echo_not_protocol (receive_echo_error hrc)
  have hid : s.roundId = (T.transition r).id := congrArg TransitionInfo.id (roundId_main hvi.proper hr).1
  rw [hr] at hrc
  have hrc' := receive_main_error hrc
  obtain ⟨tm, e, hd, he, hn, hrecv, hreq, hser⟩ := wrapReceive_protocol hrc'
  subst hreq
  refine ⟨trail, s, cached, r, tm, e, hv, hr, hrecv, fun hsome shared => ?_⟩
  obtain ⟨prev, comb, hprev, hcomb, hveq⟩ := hver hsome (T.infoOf (T.tag r)) shared (by
    rw [hid]
    simp only [TypedProto.wrap, tc r, Option.map_some])
  have hxme : x ≠ sp.verifyingKey signer := by
    rintro rfl
    have h1 := hself hv hr
    rw [show s₀.me = sp.verifyingKey signer from by rw [hp0.me, hsig0]] at h1
    rw [(roundId_main hvi.proper hr).2] at hexp
    exact absurd (h1.symm.trans hexp) (by simp)
  refine ⟨⟨asked (T.required e (T.transition r).id).thisRound.direct (some vm.direct.part),
    asked (T.required e (T.transition r).id).thisRound.normal (some vm.normal.part),
    asked (T.required e (T.transition r).id).thisRound.echo (some vm.echo.part)⟩, prev, comb, hveq.trans ?_, ⟨evPart_asked hd, evPart_asked he, evPart_asked hn⟩, ?_, ?_⟩
  · dsimp only [TypedProto.infoOf]
    rw [er r x tm e bytes hrecv hser.symm, hid]
  · -- earlier messages
    intro n all rp hall hrp hany
    obtain ⟨g1, g2, g3⟩ := hheld (RoundId.new n) all rp hall hrp
    have hmem : RoundId.new n ∈ trailIds trail := by
      obtain ⟨r1, r2, r3, -⟩ := visits_recorded ht0 hv (RoundId.new n)
      have key : ∀ {k : PartKind} {src : BMap RoundId (BMap sp.Id (SignedPart k))},
          (∃ p, storedPart src (RoundId.new n) x = some p) → src.contains (RoundId.new n) = true := by
        rintro k src ⟨p, hp⟩
        obtain ⟨mm, q, hmm, -⟩ := storedPart_some hp
        exact BMap.contains_iff.2 ⟨mm, hmm⟩
      simp only [RequiredParts.some?, Bool.or_eq_true] at hany
      rcases hany with (h1 | h1) | h1
      · exact r1 (key (g3 h1))
      · exact r2 (key (g2 h1))
      · exact r3 (key (g1 h1))
    obtain ⟨q, hq, hqid⟩ := List.mem_map.1 hmem
    obtain ⟨t, cached', hvq, hsub, hin⟩ := visits_split hv hq
    have hviq := visits_inv hp0 hm0 hvq
    have hqid' : q.1.roundId = RoundId.new n := hqid
    obtain ⟨rq, hrq, hidq⟩ := main_of_id mi hviq.proper (by rw [hqid']; rfl)
    obtain ⟨st1, st2, st3⟩ := visits_stored hv hq
    rw [hqid'] at st1 st2 st3 hidq
    have hmeq : q.1.me ≠ x := by
      rw [hviq.proper.me, hviq.signer, hsig0]
      exact hxme.symm
    -- the parts the round holds
    have hgd : ∀ p, storedPart s.transcript.directs (RoundId.new n) x = some p → ∃ y, q.2.directs.get? x = some y ∧ y.part = p := by
      intro p hp
      obtain ⟨mm, y, h1, h2, h3⟩ := storedPart_some hp
      rw [st3] at h1
      cases h1
      exact ⟨y, h2, h3⟩
    have hgn : ∀ p, storedPart s.transcript.normals (RoundId.new n) x = some p → ∃ y, q.2.normals.get? x = some y ∧ y.part = p := by
      intro p hp
      obtain ⟨mm, y, h1, h2, h3⟩ := storedPart_some hp
      rw [st2] at h1
      cases h1
      exact ⟨y, h2, h3⟩
    have hge : ∀ p, storedPart s.transcript.echos (RoundId.new n) x = some p → ∃ y, q.2.echos.get? x = some y ∧ y.part = p := by
      intro p hp
      obtain ⟨mm, y, h1, h2, h3⟩ := storedPart_some hp
      rw [st1] at h1
      cases h1
      rw [BMap.get?_insert, if_neg (Ne.symm hmeq)] at h2
      exact ⟨y, h2, h3⟩
    have hsomeHeld : (∃ p, q.2.directs.get? x = some p) ∨ (∃ p, q.2.normals.get? x = some p) ∨ ∃ p, q.2.echos.get? x = some p := by
      simp only [RequiredParts.some?, Bool.or_eq_true] at hany
      rcases hany with (h1 | h1) | h1
      · obtain ⟨p, hp⟩ := g3 h1
        obtain ⟨y, hy, -⟩ := hge p hp
        exact Or.inr (Or.inr ⟨y, hy⟩)
      · obtain ⟨p, hp⟩ := g2 h1
        obtain ⟨y, hy, -⟩ := hgn p hp
        exact Or.inr (Or.inl ⟨y, hy⟩)
      · obtain ⟨p, hp⟩ := g1 h1
        obtain ⟨y, hy, -⟩ := hgd p hp
        exact Or.inl ⟨y, hy⟩
    obtain ⟨wm, v, hrw, hw1, hw2, hw3⟩ := stored_accepted hp0 hm0 hin hsomeHeld
    rw [hrq] at hrw
    obtain ⟨w, -, hww⟩ := main_receive hrw
    obtain ⟨tm', hd', he', hn', hrecv'⟩ := wrapReceive_ok hww
    refine ⟨q, hq, rq, tm', hrq, hidq, ⟨w, hrecv'⟩, ?_⟩
    have hpv := (hprev (RoundId.new n) _).2 ⟨all, rp, hall, hrp, hany, rfl⟩
    have ask : ∀ {k : PartKind} {b : Bool} {src : BMap RoundId (BMap sp.Id (SignedPart k))} {part : Part k} {val : Option T.Val},
        (b = true → ∃ p, storedPart src (RoundId.new n) x = some p) →
        (∀ p, storedPart src (RoundId.new n) x = some p → p = part) → T.readPart (T.tag rq) part = some val →
        T.evPart (T.tag rq) (asked b (storedPart src (RoundId.new n) x)) = answer b val := by
      intro k b src part val h1 h2 h3
      cases b
      · rfl
      · obtain ⟨p, hp⟩ := h1 rfl
        rw [hp, h2 p hp]
        exact evPart_asked h3
    refine ⟨?_, ?_, ?_⟩
    · unfold TypedProto.evPreviousDirect
      rw [hpv]
      refine ask g1 (fun p hp => ?_) hd'
      obtain ⟨y, hy, rfl⟩ := hgd p hp
      rw [hw1 y hy]
      rfl
    · unfold TypedProto.evPreviousEcho
      rw [hpv]
      refine ask g3 (fun p hp => ?_) he'
      obtain ⟨y, hy, rfl⟩ := hge p hp
      rw [hw3 y hy]
      rfl
    · unfold TypedProto.evPreviousNormal
      rw [hpv]
      refine ask g2 (fun p hp => ?_) hn'
      obtain ⟨y, hy, rfl⟩ := hgn p hp
      rw [hw2 y hy]
      rfl
  · -- combined echo broadcasts
    intro n all hall hn'
    obtain ⟨m, hm⟩ := (hcomb.1 (RoundId.new n)).2 ⟨all, hall, hn'⟩
    obtain ⟨re, nn, pack, hre, hst, hdec, hget⟩ := hcomb.2 _ m hm
    -- the echo round
    obtain ⟨mm, y, hmm, hmy, rfl⟩ := storedPart_some hst
    obtain ⟨-, r2, -, -⟩ := visits_recorded ht0 hv re
    obtain ⟨qe, hqe, hqeid⟩ := List.mem_map.1 (r2 (BMap.contains_iff.2 ⟨mm, hmm⟩))
    have hqeid' : qe.1.roundId = re := hqeid
    obtain ⟨te, ce, hve, hsube, hine⟩ := visits_split hv hqe
    have hvie := visits_inv hp0 hm0 hve
    obtain ⟨-, st2, -⟩ := visits_stored hv hqe
    rw [hqeid', hmm] at st2
    cases st2
    cases hrd : qe.1.round with
    | main rd =>
      exfalso
      have h1 := mi rd
      have h2 : (T.wrap.transition rd).id = qe.1.roundId := by
        rw [← (roundId_main hvie.proper hrd).1]; rfl
      rw [h2, hqeid', (echo_isEcho hre).1] at h1
      simp at h1
    | echo e' =>
      obtain ⟨wm, v, hrw, -, hw2, -⟩ := stored_accepted hp0 hm0 hine (Or.inr (Or.inl ⟨y, hmy⟩))
      have hny := hw2 y hmy
      subst hny
      rw [hrd] at hrw
      have hrr : e'.receive x wm.dyn = .ok () := by
        simp only [SRound.receive] at hrw
        cases hz : e'.receive x wm.dyn with
        | error err => simp [hz] at hrw
        | ok u => rfl
      obtain ⟨pack', hdec', hkeys, -⟩ := receive_ok hrr
      have hpp : pack' = pack := by
        have h1 := decodes_iff.1 hdec
        have h2 := decodes_iff.1 hdec'
        have h2' : Evidence.deserializePack sp wm.normal.part = some pack' := h2
        rw [h1] at h2'
        exact (Option.some.inj h2').symm
      subst hpp
      -- its main round
      obtain ⟨q, hqt, hrq, hinfo⟩ := visits_echo_main hm0 hve hrd
      have hq := hsube q hqt
      obtain ⟨t, cached', hvq, hsub, hin⟩ := visits_split hv hq
      have hviq := visits_inv hp0 hm0 hvq
      have hidr : (T.transition e'.main).id = RoundId.new n :=
        echo_id_inj (by rw [← hqeid']; exact (echo_transition_id mi hvie.proper hrd).1) hre
      have hqid : q.1.roundId = RoundId.new n := by
        rw [← hidr]
        exact congrArg TransitionInfo.id (roundId_main hviq.proper hrq).1
      obtain ⟨st1, -, -⟩ := visits_stored hv hq
      rw [hqid] at st1
      have hmeq : q.1.me = sp.verifyingKey signer := by rw [hviq.proper.me, hviq.signer, hsig0]
      have hread : ∀ k p, m.get? k = some p → ∃ val, T.readPart (T.tag e'.main) p = some val ∧
          ((k = sp.verifyingKey signer ∧ p = q.1.echo.part) ∨ ∃ tm, T.Accepts e'.main k tm ∧ tm.echo = val) := by
        intro k p hk
        obtain ⟨⟨hh, hpk⟩, hstk⟩ := (hget k p).1 hk
        obtain ⟨mm', z, hmm', hz, rfl⟩ := storedPart_some hstk
        rw [st1] at hmm'
        cases hmm'
        rw [BMap.get?_insert] at hz
        split at hz
        · rename_i hkme
          simp only [Option.some.injEq] at hz
          subst hz
          obtain ⟨val, hval⟩ : ∃ val, T.readPart (T.tag e'.main) q.1.echo.part = some val := by
            have hne : q.1.echo.part.isNone = false := by
              have hexk := ((hkeys k).1 ⟨hh, hpk⟩).1
              have hei := hviq.proper.echoInfo
              rw [hinfo] at hei
              unfold Session.makeEchoInfo at hei
              split at hei
              · split at hei
                · rename_i h1
                  simpa using h1
                · simp at hei
              · simp at hei
              · simp only [Option.some.injEq] at hei
                rw [hei] at hexk
                rw [(roundId_main hviq.proper hrq).2, hkme, hmeq] at hexk
                have h1 := hself hvq hrq
                rw [show s₀.me = sp.verifyingKey signer from by rw [hp0.me, hsig0]] at h1
                exact absurd (h1.symm.trans hexk) (by simp)
            exact own_readable mr hviq.proper hrq hne
          exact ⟨val, hval, Or.inl ⟨by rw [hkme, hmeq], rfl⟩⟩
        · obtain ⟨wm', v', hrw', -, -, hw3'⟩ := stored_accepted hp0 hm0 hin (Or.inr (Or.inr ⟨z, hz⟩))
          rw [hrq] at hrw'
          obtain ⟨w', -, hww'⟩ := main_receive hrw'
          obtain ⟨tm', -, he'', -, hrecv'⟩ := wrapReceive_ok hww'
          rw [hw3' z hz]
          exact ⟨tm'.echo, he'', Or.inr ⟨tm', ⟨w', hrecv'⟩, rfl⟩⟩
      obtain ⟨m', hm', hget'⟩ := evCombined_ok (t := T.tag e'.main) hm (fun k p hk => by
        obtain ⟨val, h1, -⟩ := hread k p hk
        exact ⟨val, h1⟩)
      refine ⟨q, hq, e'.main, e'.info, m', hrq, hidr, hinfo, hm', ?_, ?_⟩
      · intro k
        rw [BMap.contains_iff, ← hkeys k]
        constructor
        · rintro ⟨val, hval⟩
          obtain ⟨p, hp, -⟩ := (hget' k val).1 hval
          exact ((hget k p).1 hp).1
        · rintro ⟨hh, hk⟩
          obtain ⟨pk, ebs, hdk, hebs, hent⟩ := htr.packs _ _ _ x _ hre hmm hmy
          have hpk : pk = pack' := Option.some.inj ((decodes_iff.1 hdk).symm.trans (decodes_iff.1 hdec))
          subst hpk
          obtain ⟨-, z, hz, -⟩ := hent k hh hk
          have hmk : m.get? k = some z.part := (hget k _).2 ⟨⟨hh, hk⟩, by simp [storedPart, hebs, hz]⟩
          obtain ⟨val, h1, -⟩ := hread k _ hmk
          exact ⟨val, (hget' k val).2 ⟨_, hmk, h1⟩⟩
      · intro k val hval
        obtain ⟨p, hp, hpr⟩ := (hget' k val).1 hval
        obtain ⟨val', h1, h2⟩ := hread k p hp
        rw [hpr] at h1
        cases h1
        rcases h2 with ⟨h2, rfl⟩ | h2
        · exact Or.inl ⟨h2, hpr⟩
        · exact Or.inr h2

end Manul
