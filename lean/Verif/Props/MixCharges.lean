import Verif.Spec.MixCharges
import Verif.Props.Charges
import Verif.Props.MixMulti

/-!
# C95: what can be charged against a party following the protocol with either driver
-/

namespace Manul

variable {sp : SP} {P : Proto sp} {K : Type} [DecidableEq K] {S : Sessions sp K} {H : sp.Id → Prop} {drive : K → sp.Id → Bool}
  {n : MixNets S}

/-- Sessions are well-formed in every round, whatever the driver. -/
theorem mixVisited_proper {g : Group P} {par : sp.Id → Bool} {x : sp.Id} {s : Session P} (h : MixVisitedBy g par x s) :
    Proper s := by
  rcases h with ⟨-, rng, s₀, tr, ca, hnew, hvis⟩ | ⟨-, rng, s₀, st, hnew, hr⟩
  · obtain ⟨hp, -, -, -, hm⟩ := new_proper hnew
    exact (visits_inv hp hm hvis).proper
  · obtain ⟨hp, -, -, -, hm⟩ := new_proper hnew
    obtain ⟨tr, ca, rng0, ops, hvis, -⟩ := parAny_running hr
    exact (pvisits_inv hp hm hvis).proper

/-- What a party sends in an echo round are hashes signed by others for the main round, whatever the driver. -/
theorem mixVisited_pack (sc : sp.SignCorrect) (srt : sp.SigRoundTrip) (mi : MainIds P) {g : Group P} {par : sp.Id → Bool}
    {x : sp.Id} {s : Session P} (hv : MixVisitedBy g par x s) {e : EchoRd P} (he : s.round = .echo e) {k : sp.Id}
    {h : SignedHash} (hk : e.pack.get? k = some h) : HashSigned k h ∧ h.metadata = ⟨g.sid, (P.transition e.main).id⟩ := by
  rcases hv with ⟨-, rng, s₀, tr, ca, hnew, hvis⟩ | ⟨-, rng, s₀, st, hnew, hr⟩
  · exact honest_pack sc srt mi hnew hvis he hk
  · obtain ⟨i5, i3, -, i2, i1⟩ := new_proper hnew
    obtain ⟨tr, ca, rng0, ops, hvis, -⟩ := parAny_running hr
    have ht := pvisits_transcript sc srt mi i5 i1 i2 hvis
    have hg := pvisits_echo_transcript i5 i1 hvis he
    obtain ⟨-, p, h1, rfl⟩ := pack_get.1 hk
    obtain ⟨h2, h3⟩ := ht.echos _ _ _ _ hg h1
    refine ⟨toSignedHash_signed h3, ?_⟩
    rw [i3] at h2
    exact h2

theorem mix_signed_metadata {g : Group P} {V : sp.Id → List (Session P)} {par : sp.Id → Bool} {n : MixNet P}
    (h : POpenInv (MixVisitedBy g par) g H V n.embed) {q : Packet sp}
    (hq : q ∈ n.wire) (k : PartKind) : ∃ s ∈ V q.src, (q.message.signed k).metadata = ⟨g.sid, s.transition.id⟩ ∧
      MixOwnPacket g par q.src s.transition.id q ∧ Proper s ∧ MadeIn s q.message ∧ MixVisitedBy g par q.src s := by
  obtain ⟨s, hs, hm, hp, -, -, hv, h1, h2, h3⟩ := h.own (q := q) hq
  refine ⟨s, hs, ?_, ⟨rfl, (h.sent q hq).1, s, hv, rfl, hm⟩, hp, hm, hv⟩
  cases k
  · exact h1
  · exact h2
  · exact h3

/-- What is signed in evidence by a party following the protocol was sent in the round and session it is for. -/
theorem mix_held_sent (hd : S.Distinct) (h : MixMultiReach S H drive n) {b : EvBody sp} (hu : b.MixUnforged S H n)
    {x : sp.Id} (hx : H x) {k : PartKind} {p : SignedPart k} (hp : b.Holds k p) (hv : SigValid x p) :
    ∃ c rid, p.metadata = ⟨(S.group c).sid, rid⟩ ∧ MixSentPart S drive n x c rid p.part := by
  obtain ⟨c, q, hq, rfl, h1, h2⟩ := hu.parts x k p hx hp hv
  obtain ⟨V, -, hi⟩ := (POpenInv.init (MixVisitedBy (S.group c) (drive c)) (S.group c) H).steps (C93_independent hd h c).looseInit
  obtain ⟨s, -, h3, h4, -⟩ := mix_signed_metadata hi hq k
  exact ⟨c, s.transition.id, by rw [← h1, h3], q, hq, h4, h2⟩

/-- The same if the session is known. -/
theorem mix_held_sent_in (hd : S.Distinct) (h : MixMultiReach S H drive n) {b : EvBody sp} (hu : b.MixUnforged S H n)
    {x : sp.Id} (hx : H x) {k : PartKind} {p : SignedPart k} (hp : b.Holds k p) {c : K} {rid : RoundId}
    (hv : AuthenticPart x (S.group c).sid rid p) : MixSentPart S drive n x c rid p.part := by
  obtain ⟨c', rid', h1, h2⟩ := mix_held_sent hd h hu hx hp hv.2
  have h3 := hv.1.symm.trans h1
  simp only [Metadata.mk.injEq] at h3
  obtain rfl := hd c c' h3.1
  obtain rfl := h3.2
  exact h2

/-- In an echo round only echo messages are sent. -/
theorem mix_sent_in_echo_round (hd : S.Distinct) (h : MixMultiReach S H drive n) (ert : sp.EchoRoundTrip) (sc : sp.SignCorrect)
    (srt : sp.SigRoundTrip) {c : K} (mi : MainIds (S.proto c)) {x : sp.Id} {rid : RoundId} (hr : rid.isEcho = true)
    {k : PartKind} {p : Part k} (hp : MixSentPart S drive n x c rid p) :
    (k ≠ .normal → p.payload = none) ∧ (∀ q : Part .normal, q.payload = p.payload → k = .normal →
      ∃ (main : RoundId) (pack : EchoPack sp), main.echo = .ok rid ∧ Decodes q pack ∧
        ∀ y e, pack.get? y = some e → HashSigned y e ∧ e.metadata = ⟨(S.group c).sid, main⟩) := by
  obtain ⟨q, hq, ⟨rfl, hdst, s, hv, rfl, hm⟩, rfl⟩ := hp
  have hpr := mixVisited_proper hv
  cases hrd : s.round with
  | main r =>
    have hid : s.roundId = ((S.proto c).transition r).id := congrArg TransitionInfo.id (roundId_main hpr hrd).1
    have := mi r
    rw [← hid, show s.roundId = s.transition.id from rfl, hr] at this
    simp at this
  | echo e =>
    obtain ⟨h1, h2, h3⟩ := echo_round_parts ert hpr hrd hm
    refine ⟨?_, ?_⟩
    · intro hk
      cases k
      · exact h1
      · exact absurd rfl hk
      · exact h2
    · rintro b hb rfl
      exact ⟨_, e.pack, (echo_transition_id mi hpr hrd).1, decodes_payload hb.symm h3,
        fun y x hx => mixVisited_pack sc srt mi hv hrd hx⟩

/-- **C95.**  Whatever evidence is accepted against a party following the protocols of its sessions, for whatever protocol `P` it is
said to be about, is one of those listed (`Chargeable`): in particular it is about things the party has really sent, all in one
session, unless it is the kind of evidence that does not compare the accused with the signer. -/
theorem C95_charges (hd : S.Distinct) (hmi : ∀ c, MainIds (S.proto c)) (hac : ∀ c, Acyclic (S.proto c)) (sc : sp.SignCorrect)
    (srt : sp.SigRoundTrip) (ert : sp.EchoRoundTrip) (mt : sp.MetaTotal) (h : MixMultiReach S H drive n) {shared : P.Shared}
    {ev : Evidence sp} (hg : H ev.guilty) (hu : ev.body.MixUnforged S H n) (hv : ev.verify P shared = .ok ()) :
    MixChargeable S H drive n P shared ev.guilty ev.body := by
  obtain ⟨g, b⟩ := ev
  simp only at hg hu ⊢
  cases b with
  | invalidDirect p =>
    obtain ⟨h1, h2⟩ := verifyInvalidPart_iff.1 hv
    obtain ⟨c, rid, h3, h4⟩ := mix_held_sent hd h hu hg .invalidDirect h1
    rw [h3] at h2
    rcases h2 with ⟨h5, h6⟩ | ⟨h5, i, h6, h7⟩
    · have := (mix_sent_in_echo_round hd h ert sc srt (hmi c) h5 h4).1 (by simp)
      unfold Part.verifyIsSome at h6
      simp [this] at h6
    · exact .malformedDirect h3 h4 h5 h6 h7
  | invalidEchoBroadcast p =>
    obtain ⟨h1, h2⟩ := verifyInvalidPart_iff.1 hv
    obtain ⟨c, rid, h3, h4⟩ := mix_held_sent hd h hu hg .invalidEchoBroadcast h1
    rw [h3] at h2
    rcases h2 with ⟨h5, h6⟩ | ⟨h5, i, h6, h7⟩
    · have := (mix_sent_in_echo_round hd h ert sc srt (hmi c) h5 h4).1 (by simp)
      unfold Part.verifyIsSome at h6
      simp [this] at h6
    · exact .malformedEcho h3 h4 h5 h6 h7
  | invalidNormal p =>
    obtain ⟨h1, h2⟩ := verifyInvalidPart_iff.1 hv
    obtain ⟨c, rid, h3, h4⟩ := mix_held_sent hd h hu hg .invalidNormal h1
    rw [h3] at h2
    rcases h2 with ⟨h5, h6⟩ | ⟨h5, i, h6, h7⟩
    · obtain ⟨-, pack, -, h7, -⟩ := (mix_sent_in_echo_round hd h ert sc srt (hmi c) h5 h4).2 _ rfl rfl
      rw [decodes_iff] at h7
      unfold Evidence.echoNormalInvalid at h6
      simp [h7] at h6
    · exact .malformedNormal h3 h4 h5 h6 h7
  | invalidEcho p y =>
    obtain ⟨h1, pack, e, h2, h3, h4⟩ := (C27_invalid_echo_iff mt g y p shared).1 hv
    obtain ⟨c, rid, h5, h6⟩ := mix_held_sent hd h hu hg .invalidEcho h1
    cases hr : rid.isEcho with
    | true =>
      obtain ⟨main, pack', h7, h8, h9⟩ := (mix_sent_in_echo_round hd h ert sc srt (hmi c) hr h6).2 _ rfl rfl
      have : pack' = pack := by
        rw [decodes_iff] at h8 h2
        rw [h8] at h2
        simpa using h2
      subst this
      obtain ⟨h10, h11⟩ := h9 y e h3
      exact .pack h5 h6 h7 h2 h3 h10 h11
    | false =>
      rw [h5] at h4
      exact .lookalike h5 h6 hr h2 h3 h4
  | mismatched y w e =>
    obtain ⟨h1, h2, h3, h4⟩ := (C26_mismatched_iff y g w e shared).1 hv
    by_cases hy : y = g
    · subst hy
      obtain ⟨c, q, hq, hsrc, k, h5, h6⟩ := hu.hash y y w e hg rfl h2
      obtain ⟨c', q', hq', hsrc', h7, h8⟩ := hu.parts y .echo w hg .mismatched h1
      obtain ⟨V, -, hi⟩ := (POpenInv.init (MixVisitedBy (S.group c) (drive c)) (S.group c) H).steps
        (C93_independent hd h c).looseInit
      obtain ⟨s, hs, m1, o1, -, hm1, -⟩ := mix_signed_metadata hi hq k
      have hcc : c' = c := by
        obtain ⟨V', -, hi'⟩ := (POpenInv.init (MixVisitedBy (S.group c') (drive c')) (S.group c') H).steps
          (C93_independent hd h c').looseInit
        obtain ⟨s', -, m2, -⟩ := mix_signed_metadata hi' hq' .echo
        refine hd c' c ?_
        have := m2.symm.trans (h7.trans (h3.trans (h5.symm.trans m1)))
        simp only [Metadata.mk.injEq] at this
        exact this.1
      subst hcc
      obtain ⟨s', hs', m2, o2, -, hm2, -⟩ := mix_signed_metadata hi hq' .echo
      have hid : s'.transition.id = s.transition.id := by
        have := m2.symm.trans (h7.trans (h3.trans (h5.symm.trans m1)))
        simp only [Metadata.mk.injEq, true_and] at this
        exact this
      rw [hsrc] at hs o1
      rw [hsrc'] at hs' o2
      have := hi.unique (hmi _) (hac _) s' hs' s hs hid
      subst this
      refine .kinds (k := k) (q := (q.message.signed k).part) (h7.symm.trans m2) ⟨q', hq', o2, h8⟩ ?_ ⟨q, hq, o1, rfl⟩
        (h5.symm.trans m1) h6.symm h4
      rintro rfl
      apply h4
      rw [← h6, ← h8]
      show sp.partHash q.message.echo.part = sp.partHash q'.message.echo.part
      rw [hm1.echo, hm2.echo]
    · exact .other hy h1 h2 h3 h4
  | protocol e =>
    have hv' : Evidence.verifyProtocol P g shared e = .ok () := hv
    obtain ⟨m, info, hm, hi, h1, h2, h3, h4, h5, h6, h7⟩ := Evidence.verifyProtocol_checks hv'
    rw [Evidence.verifyProtocol_ok hm h1 h2 h3 h4 h5 h6 h7 hi] at hv'
    obtain ⟨c, hc⟩ : ∃ c, m.sessionId = (S.group c).sid := by
      have key : ∀ {k : PartKind} {p : SignedPart k}, (EvBody.protocol e).Holds k p → AuthenticPart g m.sessionId m.roundId p →
          ∃ c, m.sessionId = (S.group c).sid := by
        intro k p hp ha
        obtain ⟨c, rid, h8, -⟩ := mix_held_sent hd h hu hg hp ha.2
        have := ha.1.symm.trans h8
        simp only [Metadata.mk.injEq] at this
        exact ⟨c, this.1⟩
      unfold Evidence.triggerMetadata at hm
      cases hd' : e.direct with
      | some p => exact key (.direct hd') (h1 p hd')
      | none =>
        cases he : e.echo with
        | some p => exact key (.echo he) (h2 p he)
        | none =>
          cases hn : e.normal with
          | some p => exact key (.normal hn) (h3 p hn)
          | none => simp [hd', he, hn] at hm
    rw [hc] at h1 h2 h3 h4 h5 h6 h7 hv'
    refine .protocol hi hv' ?_ ⟨?_, ?_, ?_⟩ ?_ ?_
    · unfold Evidence.triggerMetadata at hm
      cases hd : e.direct with
      | some d => simp
      | none =>
        cases he : e.echo with
        | some d => simp
        | none =>
          cases hn : e.normal with
          | some d => simp
          | none => simp [hd, he, hn] at hm
    · intro p hp
      obtain ⟨q, hq, rfl⟩ := Option.map_eq_some_iff.1 hp
      exact mix_held_sent_in hd h hu hg (.direct hq) (h1 q hq)
    · intro p hp
      obtain ⟨q, hq, rfl⟩ := Option.map_eq_some_iff.1 hp
      exact mix_held_sent_in hd h hu hg (.normal hq) (h3 q hq)
    · intro p hp
      obtain ⟨q, hq, rfl⟩ := Option.map_eq_some_iff.1 hp
      exact mix_held_sent_in hd h hu hg (.echo hq) (h2 q hq)
    · intro r mm hr
      obtain ⟨-, rfl⟩ := Evidence.mergeParts_get.1 hr
      refine ⟨?_, ?_, ?_⟩
      · intro p hp
        simp only [BMap.get?_mapVal] at hp
        obtain ⟨q, hq, rfl⟩ := Option.map_eq_some_iff.1 hp
        exact mix_held_sent_in hd h hu hg (.directs hq) (h4 r q hq)
      · intro p hp
        simp only [BMap.get?_mapVal] at hp
        obtain ⟨q, hq, rfl⟩ := Option.map_eq_some_iff.1 hp
        exact mix_held_sent_in hd h hu hg (.normals hq) (h6 r q hq)
      · intro p hp
        simp only [BMap.get?_mapVal] at hp
        obtain ⟨q, hq, rfl⟩ := Option.map_eq_some_iff.1 hp
        exact mix_held_sent_in hd h hu hg (.echos hq) (h5 r q hq)
    · intro r cm y q hcm hq
      rw [BMap.get?_mapVal] at hcm
      obtain ⟨nb, hn, rfl⟩ := Option.map_eq_some_iff.1 hcm
      obtain ⟨g1, g2, g3, pack, att, g4, g5, g6⟩ := h7 r nb hn
      have hpk := decodes_iff.1 g4
      unfold Evidence.combinedOf Evidence.echoedOf at hq
      simp only at hpk g5
      simp only [hpk, g5, Option.getD_some] at hq
      rw [BMap.get?_mapVal] at hq
      obtain ⟨hs, hks, rfl⟩ := Option.map_eq_some_iff.1 hq
      obtain ⟨f1, f2, b, f3, f4, f5⟩ := g6 y hs hks
      simp only at f3 f5
      simp only [f3, Option.map_some, Option.getD_some]
      exact ⟨fun hy => mix_held_sent_in hd h hu hy (.otherEchos g5 f3) f4, nb.metadata.roundId, nb.part, pack, hs, g2,
        mix_held_sent_in hd h hu hg (.echoHashes hn) ⟨metadata_mk g1 rfl, g3⟩, g4, hks, f2, f1, f5⟩

/-- **C95.**  Evidence of malformed messages against a party following the protocol is refused if it is verified for the protocol of
the session it is about.  (Nothing in the crate makes sure that it is: `C95_other_protocol_violation`.) -/
theorem C95_own_protocol {T : K → TypedProto sp} {G : (k : K) → Group (T k).wrap} {n : MixNets ⟨fun k => (T k).wrap, G⟩}
    (hd : Sessions.Distinct ⟨fun k => (T k).wrap, G⟩) (ert : sp.EchoRoundTrip)
    (h : MixMultiReach ⟨fun k => (T k).wrap, G⟩ H drive n)
    {c : K} (tc : TagConsistent (T c)) (mi : MainIds (T c).wrap) (mr : MessagesReadable (T c)) {shared : (T c).Shared}
    {ev : Evidence sp} (hg : H ev.guilty) (hu : ev.body.MixUnforged ⟨fun k => (T k).wrap, G⟩ H n)
    (hs : ∀ k p, ev.body.Exhibits k p → p.metadata.sessionId = (G c).sid) (hm : ev.body.Malformed) :
    ev.verify (T c).wrap shared ≠ .ok () := by
  have key : ∀ {k : PartKind} {p : SignedPart k}, ev.body.Holds k p → ev.body.Exhibits k p → SigValid ev.guilty p →
      ¬ MalformedFor (T c) p.part p.metadata.roundId := by
    intro k p hh he hv
    obtain ⟨c', rid, h1, q, hq, ⟨hsrc, -, s, hvis, rfl, hmade⟩, h2⟩ := mix_held_sent hd h hu hg hh hv
    have h3 := hs k p he
    rw [h1] at h3
    obtain rfl := hd c' c h3
    have hpr := mixVisited_proper hvis
    rw [h1, ← h2]
    refine issued_wellFormed (T c') tc mi mr ert hpr (BMap.isEmpty_eq_false.2 ⟨_, hmade.dest⟩) ?_
    cases k
    · show Issued s .echo q.message.echo.part
      rw [hmade.echo]
      exact .echo
    · show Issued s .normal q.message.normal.part
      rw [hmade.normal]
      exact .normal
    · obtain ⟨rng', art, hmk⟩ := hmade.direct
      exact .direct hmk
  intro hv
  obtain ⟨g, b⟩ := ev
  cases b with
  | invalidDirect p =>
    obtain ⟨h1, h2⟩ := (C25_direct_iff (T c) g p shared).1 hv
    exact key .invalidDirect (.direct p) h1 h2
  | invalidEchoBroadcast p =>
    obtain ⟨h1, h2⟩ := (C25_echo_iff (T c) g p shared).1 hv
    exact key .invalidEchoBroadcast (.echo p) h1 h2
  | invalidNormal p =>
    obtain ⟨h1, h2⟩ := (C25_normal_iff (T c) g p shared).1 hv
    exact key .invalidNormal (.normal p) h1 h2
  | invalidEcho p y => exact hm
  | mismatched y w e => exact hm
  | protocol e => exact hm


/-! ## Sessions executed with `run_session` -/

theorem mixSentPart_seq {n : Nets S} (hdr : ∀ k i, drive k i = false) {x : sp.Id} {c : K} {rid : RoundId} {k : PartKind}
    {p : Part k} : MixSentPart S drive (fun k => Net.mix (n k)) x c rid p ↔ SentPart S n x c rid p := by
  have hvis : ∀ s, MixVisitedBy (S.group c) (drive c) x s ↔ VisitedBy (S.group c) x s := by
    intro s
    simp [MixVisitedBy, hdr]
  constructor
  · rintro ⟨q, hq, ⟨h1, h2, s, h3, h4⟩, h5⟩
    exact ⟨q, hq, ⟨h1, h2, s, (hvis s).1 h3, h4⟩, h5⟩
  · rintro ⟨q, hq, ⟨h1, h2, s, h3, h4⟩, h5⟩
    exact ⟨q, hq, ⟨h1, h2, s, (hvis s).2 h3, h4⟩, h5⟩

theorem mixShowsSent_seq {n : Nets S} (hdr : ∀ k i, drive k i = false) {x : sp.Id} {c : K} {rid : RoundId} {m : EvMsg} :
    MixShowsSent S drive (fun k => Net.mix (n k)) x c rid m ↔ ShowsSent S n x c rid m := by
  simp only [MixShowsSent, ShowsSent, mixSentPart_seq hdr]

/-- **C95.**  If nobody uses `par_run_session`, what can be charged is the same as in C77. -/
theorem C95_sequential {n : Nets S} (hdr : ∀ k i, drive k i = false) {shared : P.Shared} {x : sp.Id} {b : EvBody sp} :
    MixChargeable S H drive (fun k => Net.mix (n k)) P shared x b ↔ Chargeable S H n P shared x b := by
  constructor
  · intro h
    cases h with
    | malformedDirect h1 h2 h3 h4 h5 => exact .malformedDirect h1 ((mixSentPart_seq hdr).1 h2) h3 h4 h5
    | malformedEcho h1 h2 h3 h4 h5 => exact .malformedEcho h1 ((mixSentPart_seq hdr).1 h2) h3 h4 h5
    | malformedNormal h1 h2 h3 h4 h5 => exact .malformedNormal h1 ((mixSentPart_seq hdr).1 h2) h3 h4 h5
    | pack h1 h2 h3 h4 h5 h6 h7 => exact .pack h1 ((mixSentPart_seq hdr).1 h2) h3 h4 h5 h6 h7
    | lookalike h1 h2 h3 h4 h5 h6 => exact .lookalike h1 ((mixSentPart_seq hdr).1 h2) h3 h4 h5 h6
    | other h1 h2 h3 h4 h5 => exact .other h1 h2 h3 h4 h5
    | kinds h1 h2 h3 h4 h5 h6 h7 =>
      exact .kinds h1 ((mixSentPart_seq hdr).1 h2) h3 ((mixSentPart_seq hdr).1 h4) h5 h6 h7
    | protocol h1 h2 h3 h4 h5 h6 =>
      simp only [mixSentPart_seq hdr, mixShowsSent_seq hdr] at h4 h5 h6
      exact .protocol h1 h2 h3 h4 h5 h6
  · intro h
    cases h with
    | malformedDirect h1 h2 h3 h4 h5 => exact .malformedDirect h1 ((mixSentPart_seq hdr).2 h2) h3 h4 h5
    | malformedEcho h1 h2 h3 h4 h5 => exact .malformedEcho h1 ((mixSentPart_seq hdr).2 h2) h3 h4 h5
    | malformedNormal h1 h2 h3 h4 h5 => exact .malformedNormal h1 ((mixSentPart_seq hdr).2 h2) h3 h4 h5
    | pack h1 h2 h3 h4 h5 h6 h7 => exact .pack h1 ((mixSentPart_seq hdr).2 h2) h3 h4 h5 h6 h7
    | lookalike h1 h2 h3 h4 h5 h6 => exact .lookalike h1 ((mixSentPart_seq hdr).2 h2) h3 h4 h5 h6
    | other h1 h2 h3 h4 h5 => exact .other h1 h2 h3 h4 h5
    | kinds h1 h2 h3 h4 h5 h6 h7 =>
      exact .kinds h1 ((mixSentPart_seq hdr).2 h2) h3 ((mixSentPart_seq hdr).2 h4) h5 h6 h7
    | protocol h1 h2 h3 h4 h5 h6 =>
      refine .protocol h1 h2 h3 ((mixShowsSent_seq hdr).2 h4) (fun r m hm => (mixShowsSent_seq hdr).2 (h5 r m hm)) ?_
      simpa only [mixSentPart_seq hdr] using h6

/-! ## Evidence is not tied to a protocol -/

/-- Everybody uses `par_run_session` in the session with echo broadcasts, and `run_session` in the other one. -/
def mixedDrive (k : Bool) (_ : U8) : Bool := !k

/-- Party 1 starts in the session with echo broadcasts and sends a message. -/
def mixedActs : List (MixMultiAct toy) := [.own false (.start (1 : U8)), .own false (.send (1 : U8) 0)]

/-- Whether the first echo broadcast on the wire, by party 1, is accepted as malformed in the protocol without echo broadcasts. -/
def mixWrongProtocol {P : Proto toy} (n : MixNet P) : Bool :=
  match n.wire[0]? with
  | some q => isOne q.src &&
    (match (⟨(1 : U8), .invalidEchoBroadcast q.message.echo⟩ : Evidence toy).verify (demo false 255).wrap () with
      | .ok _ => true
      | .error _ => false)
  | none => false

/-- **C95.**  What `C77_other_protocol_violation` says also happens to those who use `par_run_session`. -/
theorem C95_other_protocol_violation :
    ∃ (n : MixNets mixed) (ev : Evidence toy), mixed.Distinct ∧
      MixMultiReach mixed (fun i : U8 => i ∈ ([1] : List U8)) mixedDrive n ∧
      ev.guilty = (1 : U8) ∧ ev.body.MixUnforged mixed (fun i : U8 => i ∈ ([1] : List U8)) n ∧ ev.body.Malformed ∧
      (∀ k p, ev.body.Exhibits k p → p.metadata.sessionId = (mixed.group false).sid) ∧
      ev.verify (mixed.proto false) () ≠ .ok () ∧ ev.verify (mixed.proto true) () = .ok () := by
  have h : mixWrongProtocol (mixMultiRun (sp := toy) (0 : Nat) mixed ([1] : List U8) mixedDrive mixedActs
      (fun _ => MixNet.init) false) = true := by
    decide +kernel
  have hr := mixMultiRun_reach (sp := toy) (0 : Nat) (S := mixed) (H := ([1] : List U8)) (drive := mixedDrive) mixedActs .init
  generalize mixMultiRun (sp := toy) (0 : Nat) mixed ([1] : List U8) mixedDrive mixedActs (fun _ => MixNet.init) = n at h hr
  unfold mixWrongProtocol at h
  split at h
  · rename_i q hq
    rw [Bool.and_eq_true] at h
    obtain ⟨h1, h2⟩ := h
    have hmem := List.mem_of_getElem? hq
    have hu : (EvBody.invalidEchoBroadcast q.message.echo).MixUnforged mixed (fun i : U8 => i ∈ ([1] : List U8)) n := by
      refine ⟨?_, ?_⟩
      · intro x k p hx hh hv
        cases hh
        have hx1 : x = (1 : U8) := List.mem_singleton.1 hx
        exact ⟨false, q, hmem, (isOne_spec h1).trans hx1.symm, rfl, rfl⟩
      · intro x y w h _ he
        cases he
    have hs : ∀ k p, (EvBody.invalidEchoBroadcast q.message.echo : EvBody toy).Exhibits k p →
        p.metadata.sessionId = (mixed.group false).sid := by
      intro k p he
      cases he
      exact (mixWire_sid (C93_independent mixed_distinct hr false) hmem).2.1
    refine ⟨n, ⟨(1 : U8), .invalidEchoBroadcast q.message.echo⟩, mixed_distinct, hr, rfl, hu, trivial, hs, ?_, ?_⟩
    · exact C95_own_protocol (T := fun k => demo (!k) 255) (G := mixed.group) mixed_distinct toy_echoRoundTrip hr (c := false)
        (demo_tagConsistent true) (demo_mainIds true 255) (demo_messagesReadable true 255) (List.mem_singleton.2 rfl) hu hs trivial
    · split at h2
      · rename_i u hu
        exact hu
      · cases h2
  · cases h

/-! ### Examples -/

/-- The hypotheses of `C95_charges` can be met by somebody using `par_run_session`. -/
example : ∃ (n : MixNets mixed) (ev : Evidence toy), MixMultiReach mixed (fun i : U8 => i ∈ ([1] : List U8)) mixedDrive n ∧
    ev.guilty = (1 : U8) ∧ ev.verify (mixed.proto true) () = .ok () ∧
    MixChargeable mixed (fun i : U8 => i ∈ ([1] : List U8)) mixedDrive n (mixed.proto true) () ev.guilty ev.body := by
  obtain ⟨n, ev, h1, h2, h3, h4, -, -, -, h5⟩ := C95_other_protocol_violation
  refine ⟨n, ev, h2, h3, h5, ?_⟩
  exact C95_charges h1 (fun k => demo_mainIds (!k) 255) (fun k => demo_acyclic (!k) 255) toy_signCorrect toy_sigRoundTrip
    toy_echoRoundTrip toy_metaTotal h2 (List.mem_singleton.2 h3) h4 h5

end Manul
