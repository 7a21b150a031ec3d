import Verif.Spec.Charges
import Verif.Props.Multi

/-!
# C77: what can be charged against a party following the protocol
-/

namespace Manul

variable {sp : SP} {P : Proto sp} {K : Type} [DecidableEq K] {S : Sessions sp K} {H : sp.Id → Prop} {n : Nets S}

/-- The parts an echo round makes. -/
theorem echo_round_parts (ert : sp.EchoRoundTrip) {s : Session P} (hp : Proper s) {e : EchoRd P} (hrd : s.round = .echo e)
    {m : Message sp} (hm : MadeIn s m) :
    m.echo.part.payload = none ∧ m.direct.part.payload = none ∧ Decodes m.normal.part e.pack := by
  have hd : s.comm.destinations.isEmpty = false := BMap.isEmpty_eq_false.2 ⟨_, hm.dest⟩
  refine ⟨?_, ?_, ?_⟩
  · obtain ⟨rng, h⟩ := hp.echoPart
    rw [hd, hrd] at h
    simp only [Bool.false_eq_true, if_false, SRound.makeEcho, Except.ok.injEq] at h
    rw [hm.echo, ← h]
    rfl
  · obtain ⟨rng, art, h⟩ := hm.direct
    rw [hrd] at h
    simp only [SRound.makeDirect, Except.ok.injEq, Prod.mk.injEq] at h
    rw [← h.1]
    rfl
  · obtain ⟨rng, h⟩ := hp.normalPart
    rw [hd, hrd] at h
    rw [hm.normal]
    simp only [Bool.false_eq_true, if_false, SRound.makeNormal, EchoRd.makeNormal] at h
    split at h
    · split at h
      · simp at h
      · rename_i b hb
        simp only [Except.ok.injEq] at h
        rw [← h]
        exact decodes_iff.2 (C32_echo_message_round_trip sp ert _ _ hb)
    · simp at h

theorem signed_metadata {g : Group P} {V : sp.Id → List (Session P)} {n : Net P} (h : OpenInv g H V n) {q : Packet sp}
    (hq : q ∈ n.wire) (k : PartKind) : ∃ s ∈ V q.src, (q.message.signed k).metadata = ⟨g.sid, s.transition.id⟩ ∧
      OwnPacket g q.src s.transition.id q ∧ Proper s ∧ MadeIn s q.message ∧ VisitedBy g q.src s := by
  obtain ⟨s, hs, hm, hp, -, -, hv, h1, h2, h3⟩ := h.own hq
  refine ⟨s, hs, ?_, ⟨rfl, (h.sent q hq).1, s, hv, rfl, hm⟩, hp, hm, hv⟩
  cases k
  · exact h1
  · exact h2
  · exact h3

/-- What is signed in evidence by a party following the protocol was sent in the round and session it is for. -/
theorem held_sent (hd : S.Distinct) (h : MultiReach S H n) {b : EvBody sp} (hu : b.Unforged S H n) {x : sp.Id} (hx : H x)
    {k : PartKind} {p : SignedPart k} (hp : b.Holds k p) (hv : SigValid x p) :
    ∃ c rid, p.metadata = ⟨(S.group c).sid, rid⟩ ∧ SentPart S n x c rid p.part := by
  obtain ⟨c, q, hq, rfl, h1, h2⟩ := hu.parts x k p hx hp hv
  obtain ⟨V, -, hi⟩ := (OpenInv.init (S.group c) H).steps (C76_independent hd h c)
  obtain ⟨s, -, h3, h4, -⟩ := signed_metadata hi hq k
  exact ⟨c, s.transition.id, by rw [← h1, h3], q, hq, h4, h2⟩

/-- The same if the session is known. -/
theorem held_sent_in (hd : S.Distinct) (h : MultiReach S H n) {b : EvBody sp} (hu : b.Unforged S H n) {x : sp.Id} (hx : H x)
    {k : PartKind} {p : SignedPart k} (hp : b.Holds k p) {c : K} {rid : RoundId}
    (hv : AuthenticPart x (S.group c).sid rid p) : SentPart S n x c rid p.part := by
  obtain ⟨c', rid', h1, h2⟩ := held_sent hd h hu hx hp hv.2
  have h3 := hv.1.symm.trans h1
  simp only [Metadata.mk.injEq] at h3
  obtain rfl := hd c c' h3.1
  obtain rfl := h3.2
  exact h2

/-- In an echo round only echo messages are sent. -/
theorem sent_in_echo_round (hd : S.Distinct) (h : MultiReach S H n) (ert : sp.EchoRoundTrip) (sc : sp.SignCorrect)
    (srt : sp.SigRoundTrip) {c : K} (mi : MainIds (S.proto c)) {x : sp.Id} {rid : RoundId} (hr : rid.isEcho = true)
    {k : PartKind} {p : Part k} (hp : SentPart S n x c rid p) :
    (k ≠ .normal → p.payload = none) ∧ (∀ q : Part .normal, q.payload = p.payload → k = .normal →
      ∃ (main : RoundId) (pack : EchoPack sp), main.echo = .ok rid ∧ Decodes q pack ∧
        ∀ y e, pack.get? y = some e → HashSigned y e ∧ e.metadata = ⟨(S.group c).sid, main⟩) := by
  obtain ⟨q, hq, ⟨rfl, hdst, s, hv, rfl, hm⟩, rfl⟩ := hp
  obtain ⟨rng, s₀, tr, ca, hnew, hvis⟩ := hv
  obtain ⟨hp0, -, -, -, hm0⟩ := new_proper hnew
  have hpr := (visits_inv hp0 hm0 hvis).proper
  cases hrd : s.round with
  | main r =>
    have hid : s.roundId = ((S.proto c).transition r).id := congrArg TransitionInfo.id (roundId_main hpr hrd).1
    have := mi r
    rw [← hid, show s.roundId = s.transition.id from rfl, hr] at this
    simp at this
  | echo e =>
    obtain ⟨h1, h2, h3⟩ := echo_round_parts ert hpr hrd hm
    refine ⟨?_, ?_⟩
    · intro hk
      cases k
      · exact h1
      · exact absurd rfl hk
      · exact h2
    · rintro b hb rfl
      exact ⟨_, e.pack, (echo_transition_id mi hpr hrd).1, decodes_payload hb.symm h3,
        fun y x hx => honest_pack sc srt mi hnew hvis hrd hx⟩

/-- C77: whatever evidence is accepted against a party following the protocols of its sessions, for whatever protocol `P` it is
said to be about, is one of those listed (`Chargeable`): in particular it is about things the party has really sent, all in one
session, unless it is the kind of evidence that does not compare the accused with the signer. -/
theorem C77_charges (hd : S.Distinct) (hmi : ∀ c, MainIds (S.proto c)) (hac : ∀ c, Acyclic (S.proto c)) (sc : sp.SignCorrect)
    (srt : sp.SigRoundTrip) (ert : sp.EchoRoundTrip) (mt : sp.MetaTotal) (h : MultiReach S H n) {shared : P.Shared}
    {ev : Evidence sp} (hg : H ev.guilty) (hu : ev.body.Unforged S H n) (hv : ev.verify P shared = .ok ()) :
    Chargeable S H n P shared ev.guilty ev.body := by
  obtain ⟨g, b⟩ := ev
  simp only at hg hu ⊢
  cases b with
  | invalidDirect p =>
    obtain ⟨h1, h2⟩ := verifyInvalidPart_iff.1 hv
    obtain ⟨c, rid, h3, h4⟩ := held_sent hd h hu hg .invalidDirect h1
    rw [h3] at h2
    rcases h2 with ⟨h5, h6⟩ | ⟨h5, i, h6, h7⟩
    · have := (sent_in_echo_round hd h ert sc srt (hmi c) h5 h4).1 (by simp)
      unfold Part.verifyIsSome at h6
      simp [this] at h6
    · exact .malformedDirect h3 h4 h5 h6 h7
  | invalidEchoBroadcast p =>
    obtain ⟨h1, h2⟩ := verifyInvalidPart_iff.1 hv
    obtain ⟨c, rid, h3, h4⟩ := held_sent hd h hu hg .invalidEchoBroadcast h1
    rw [h3] at h2
    rcases h2 with ⟨h5, h6⟩ | ⟨h5, i, h6, h7⟩
    · have := (sent_in_echo_round hd h ert sc srt (hmi c) h5 h4).1 (by simp)
      unfold Part.verifyIsSome at h6
      simp [this] at h6
    · exact .malformedEcho h3 h4 h5 h6 h7
  | invalidNormal p =>
    obtain ⟨h1, h2⟩ := verifyInvalidPart_iff.1 hv
    obtain ⟨c, rid, h3, h4⟩ := held_sent hd h hu hg .invalidNormal h1
    rw [h3] at h2
    rcases h2 with ⟨h5, h6⟩ | ⟨h5, i, h6, h7⟩
    · obtain ⟨-, pack, -, h7, -⟩ := (sent_in_echo_round hd h ert sc srt (hmi c) h5 h4).2 _ rfl rfl
      rw [decodes_iff] at h7
      unfold Evidence.echoNormalInvalid at h6
      simp [h7] at h6
    · exact .malformedNormal h3 h4 h5 h6 h7
  | invalidEcho p y =>
    obtain ⟨h1, pack, e, h2, h3, h4⟩ := (C27_invalid_echo_iff mt g y p shared).1 hv
    obtain ⟨c, rid, h5, h6⟩ := held_sent hd h hu hg .invalidEcho h1
    cases hr : rid.isEcho with
    | true =>
      obtain ⟨main, pack', h7, h8, h9⟩ := (sent_in_echo_round hd h ert sc srt (hmi c) hr h6).2 _ rfl rfl
      have : pack' = pack := by
        rw [decodes_iff] at h8 h2
        rw [h8] at h2
        simpa using h2
      subst this
      obtain ⟨h10, h11⟩ := h9 y e h3
      exact .pack h5 h6 h7 h2 h3 h10 h11
    | false =>
      rw [h5] at h4
      exact .lookalike h5 h6 hr h2 h3 h4
  | mismatched y w e =>
    obtain ⟨h1, h2, h3, h4⟩ := (C26_mismatched_iff y g w e shared).1 hv
    by_cases hy : y = g
    · subst hy
      obtain ⟨c, q, hq, hsrc, k, h5, h6⟩ := hu.hash y y w e hg rfl h2
      obtain ⟨c', q', hq', hsrc', h7, h8⟩ := hu.parts y .echo w hg .mismatched h1
      obtain ⟨V, -, hi⟩ := (OpenInv.init (S.group c) H).steps (C76_independent hd h c)
      obtain ⟨s, hs, m1, o1, -, hm1, -⟩ := signed_metadata hi hq k
      have hcc : c' = c := by
        obtain ⟨V', -, hi'⟩ := (OpenInv.init (S.group c') H).steps (C76_independent hd h c')
        obtain ⟨s', -, m2, -⟩ := signed_metadata hi' hq' .echo
        refine hd c' c ?_
        have := m2.symm.trans (h7.trans (h3.trans (h5.symm.trans m1)))
        simp only [Metadata.mk.injEq] at this
        exact this.1
      subst hcc
      obtain ⟨s', hs', m2, o2, -, hm2, -⟩ := signed_metadata hi hq' .echo
      have hid : s'.transition.id = s.transition.id := by
        have := m2.symm.trans (h7.trans (h3.trans (h5.symm.trans m1)))
        simp only [Metadata.mk.injEq, true_and] at this
        exact this
      rw [hsrc] at hs o1
      rw [hsrc'] at hs' o2
      have := hi.unique (hmi _) (hac _) s' hs' s hs hid
      subst this
      refine .kinds (k := k) (q := (q.message.signed k).part) (h7.symm.trans m2) ⟨q', hq', o2, h8⟩ ?_ ⟨q, hq, o1, rfl⟩
        (h5.symm.trans m1) h6.symm h4
      rintro rfl
      apply h4
      rw [← h6, ← h8]
      show sp.partHash q.message.echo.part = sp.partHash q'.message.echo.part
      rw [hm1.echo, hm2.echo]
    · exact .other hy h1 h2 h3 h4
  | protocol e =>
    have hv' : Evidence.verifyProtocol P g shared e = .ok () := hv
    obtain ⟨m, info, hm, hi, h1, h2, h3, h4, h5, h6, h7⟩ := Evidence.verifyProtocol_checks hv'
    rw [Evidence.verifyProtocol_ok hm h1 h2 h3 h4 h5 h6 h7 hi] at hv'
    obtain ⟨c, hc⟩ : ∃ c, m.sessionId = (S.group c).sid := by
      have key : ∀ {k : PartKind} {p : SignedPart k}, (EvBody.protocol e).Holds k p → AuthenticPart g m.sessionId m.roundId p →
          ∃ c, m.sessionId = (S.group c).sid := by
        intro k p hp ha
        obtain ⟨c, rid, h8, -⟩ := held_sent hd h hu hg hp ha.2
        have := ha.1.symm.trans h8
        simp only [Metadata.mk.injEq] at this
        exact ⟨c, this.1⟩
      unfold Evidence.triggerMetadata at hm
      cases hd' : e.direct with
      | some p => exact key (.direct hd') (h1 p hd')
      | none =>
        cases he : e.echo with
        | some p => exact key (.echo he) (h2 p he)
        | none =>
          cases hn : e.normal with
          | some p => exact key (.normal hn) (h3 p hn)
          | none => simp [hd', he, hn] at hm
    rw [hc] at h1 h2 h3 h4 h5 h6 h7 hv'
    refine .protocol hi hv' ?_ ⟨?_, ?_, ?_⟩ ?_ ?_
    · unfold Evidence.triggerMetadata at hm
      cases hd : e.direct with
      | some d => simp
      | none =>
        cases he : e.echo with
        | some d => simp
        | none =>
          cases hn : e.normal with
          | some d => simp
          | none => simp [hd, he, hn] at hm
    · intro p hp
      obtain ⟨q, hq, rfl⟩ := Option.map_eq_some_iff.1 hp
      exact held_sent_in hd h hu hg (.direct hq) (h1 q hq)
    · intro p hp
      obtain ⟨q, hq, rfl⟩ := Option.map_eq_some_iff.1 hp
      exact held_sent_in hd h hu hg (.normal hq) (h3 q hq)
    · intro p hp
      obtain ⟨q, hq, rfl⟩ := Option.map_eq_some_iff.1 hp
      exact held_sent_in hd h hu hg (.echo hq) (h2 q hq)
    · intro r mm hr
      obtain ⟨-, rfl⟩ := Evidence.mergeParts_get.1 hr
      refine ⟨?_, ?_, ?_⟩
      · intro p hp
        simp only [BMap.get?_mapVal] at hp
        obtain ⟨q, hq, rfl⟩ := Option.map_eq_some_iff.1 hp
        exact held_sent_in hd h hu hg (.directs hq) (h4 r q hq)
      · intro p hp
        simp only [BMap.get?_mapVal] at hp
        obtain ⟨q, hq, rfl⟩ := Option.map_eq_some_iff.1 hp
        exact held_sent_in hd h hu hg (.normals hq) (h6 r q hq)
      · intro p hp
        simp only [BMap.get?_mapVal] at hp
        obtain ⟨q, hq, rfl⟩ := Option.map_eq_some_iff.1 hp
        exact held_sent_in hd h hu hg (.echos hq) (h5 r q hq)
    · intro r cm y q hcm hq
      rw [BMap.get?_mapVal] at hcm
      obtain ⟨nb, hn, rfl⟩ := Option.map_eq_some_iff.1 hcm
      obtain ⟨g1, g2, g3, pack, att, g4, g5, g6⟩ := h7 r nb hn
      have hpk := decodes_iff.1 g4
      unfold Evidence.combinedOf Evidence.echoedOf at hq
      simp only at hpk g5
      simp only [hpk, g5, Option.getD_some] at hq
      rw [BMap.get?_mapVal] at hq
      obtain ⟨hs, hks, rfl⟩ := Option.map_eq_some_iff.1 hq
      obtain ⟨f1, f2, b, f3, f4, f5⟩ := g6 y hs hks
      simp only at f3 f5
      simp only [f3, Option.map_some, Option.getD_some]
      exact ⟨fun hy => held_sent_in hd h hu hy (.otherEchos g5 f3) f4, nb.metadata.roundId, nb.part, pack, hs, g2,
        held_sent_in hd h hu hg (.echoHashes hn) ⟨metadata_mk g1 rfl, g3⟩, g4, hks, f2, f1, f5⟩

/-- C77: evidence of malformed messages against a party following the protocol is refused if it is verified for the protocol of
the session it is about.  (Nothing in the crate makes sure that it is: `C77_other_protocol_violation`.) -/
theorem C77_own_protocol {T : K → TypedProto sp} {G : (k : K) → Group (T k).wrap} {n : Nets ⟨fun k => (T k).wrap, G⟩}
    (hd : Sessions.Distinct ⟨fun k => (T k).wrap, G⟩) (ert : sp.EchoRoundTrip) (h : MultiReach ⟨fun k => (T k).wrap, G⟩ H n)
    {c : K} (tc : TagConsistent (T c)) (mi : MainIds (T c).wrap) (mr : MessagesReadable (T c)) {shared : (T c).Shared}
    {ev : Evidence sp} (hg : H ev.guilty) (hu : ev.body.Unforged ⟨fun k => (T k).wrap, G⟩ H n)
    (hs : ∀ k p, ev.body.Exhibits k p → p.metadata.sessionId = (G c).sid) (hm : ev.body.Malformed) :
    ev.verify (T c).wrap shared ≠ .ok () := by
  have key : ∀ {k : PartKind} {p : SignedPart k}, ev.body.Holds k p → ev.body.Exhibits k p → SigValid ev.guilty p →
      ¬ MalformedFor (T c) p.part p.metadata.roundId := by
    intro k p hh he hv
    obtain ⟨c', rid, h1, q, hq, ⟨hsrc, -, s, ⟨rng, s₀, tr, ca, hnew, hvis⟩, rfl, hmade⟩, h2⟩ := held_sent hd h hu hg hh hv
    have h3 := hs k p he
    rw [h1] at h3
    obtain rfl := hd c' c h3
    obtain ⟨hp0, -, -, -, hm0⟩ := new_proper hnew
    have hpr := (visits_inv hp0 hm0 hvis).proper
    rw [h1, ← h2]
    refine issued_wellFormed (T c') tc mi mr ert hpr (BMap.isEmpty_eq_false.2 ⟨_, hmade.dest⟩) ?_
    cases k
    · show Issued s .echo q.message.echo.part
      rw [hmade.echo]
      exact .echo
    · show Issued s .normal q.message.normal.part
      rw [hmade.normal]
      exact .normal
    · obtain ⟨rng', art, hmk⟩ := hmade.direct
      exact .direct hmk
  intro hv
  obtain ⟨g, b⟩ := ev
  cases b with
  | invalidDirect p =>
    obtain ⟨h1, h2⟩ := (C25_direct_iff (T c) g p shared).1 hv
    exact key .invalidDirect (.direct p) h1 h2
  | invalidEchoBroadcast p =>
    obtain ⟨h1, h2⟩ := (C25_echo_iff (T c) g p shared).1 hv
    exact key .invalidEchoBroadcast (.echo p) h1 h2
  | invalidNormal p =>
    obtain ⟨h1, h2⟩ := (C25_normal_iff (T c) g p shared).1 hv
    exact key .invalidNormal (.normal p) h1 h2
  | invalidEcho p y => exact hm
  | mismatched y w e => exact hm
  | protocol e => exact hm

/-- A session of the example protocol with echo broadcasts, and one of that without. -/
def mixed : Sessions toy Bool where
  proto := fun k => (demo (!k) 255).wrap
  group := fun k => { demoGroup (!k) 255 (BSet.ofList [1, 2, 3]) with sid := cond k [8] [9] }

theorem mixed_distinct : mixed.Distinct := by
  intro k k' h
  cases k <;> cases k' <;> first | rfl | (exact absurd h (by decide))

/-- Whether the first echo broadcast on the wire, by party 1, is accepted as malformed in the protocol without echo broadcasts. -/
def wrongProtocol {P : Proto toy} (n : Net P) : Bool :=
  match n.wire[0]? with
  | some q => isOne q.src &&
    (match (⟨(1 : U8), .invalidEchoBroadcast q.message.echo⟩ : Evidence toy).verify (demo false 255).wrap () with
      | .ok _ => true
      | .error _ => false)
  | none => false

/-- C77: evidence is not tied to a protocol.  In this execution of two sessions of different protocols a party following both has
made an echo broadcast that is evidence against it if it is verified for the protocol of the other session, in which the round has
no echo broadcasts.  The evidence contains the id of the session, but `Evidence::verify` has nothing to compare it with. -/
theorem C77_other_protocol_violation :
    ∃ (n : Nets mixed) (ev : Evidence toy), mixed.Distinct ∧ MultiReach mixed (fun i : U8 => i ∈ ([1] : List U8)) n ∧
      ev.guilty = (1 : U8) ∧ ev.body.Unforged mixed (fun i : U8 => i ∈ ([1] : List U8)) n ∧ ev.body.Malformed ∧
      (∀ k p, ev.body.Exhibits k p → p.metadata.sessionId = (mixed.group false).sid) ∧
      ev.verify (mixed.proto false) () ≠ .ok () ∧ ev.verify (mixed.proto true) () = .ok () := by
  have h : wrongProtocol (multiRun (sp := toy) (0 : Nat) mixed ([1] : List U8) [.start false (1 : U8)]
      (fun _ => Net.init) false) = true := by
    decide +kernel
  have hr := multiRun_reach (sp := toy) (0 : Nat) (S := mixed) (H := ([1] : List U8)) [.start false (1 : U8)] .init
  generalize multiRun (sp := toy) (0 : Nat) mixed ([1] : List U8) [.start false (1 : U8)] (fun _ => Net.init) = n
    at h hr
  unfold wrongProtocol at h
  split at h
  · rename_i q hq
    rw [Bool.and_eq_true] at h
    obtain ⟨h1, h2⟩ := h
    have hmem := List.mem_of_getElem? hq
    have hu : (EvBody.invalidEchoBroadcast q.message.echo).Unforged mixed (fun i : U8 => i ∈ ([1] : List U8)) n := by
      refine ⟨?_, ?_⟩
      · intro x k p hx hh hv
        cases hh
        have hx1 : x = (1 : U8) := List.mem_singleton.1 hx
        exact ⟨false, q, hmem, (isOne_spec h1).trans hx1.symm, rfl, rfl⟩
      · intro x y w h _ he
        cases he
    have hs : ∀ k p, (EvBody.invalidEchoBroadcast q.message.echo : EvBody toy).Exhibits k p →
        p.metadata.sessionId = (mixed.group false).sid := by
      intro k p he
      cases he
      exact (wire_sid (C76_independent mixed_distinct hr false) hmem).2.1
    refine ⟨n, ⟨(1 : U8), .invalidEchoBroadcast q.message.echo⟩, mixed_distinct, hr, rfl, hu, trivial, hs, ?_, ?_⟩
    · exact C77_own_protocol (T := fun k => demo (!k) 255) (G := mixed.group) mixed_distinct toy_echoRoundTrip hr (c := false)
        (demo_tagConsistent true) (demo_mainIds true 255) (demo_messagesReadable true 255) (List.mem_singleton.2 rfl) hu hs trivial
    · split at h2
      · rename_i u hu
        exact hu
      · cases h2
  · cases h

/-! ### Examples -/

/-- The hypotheses of `C77_charges` can be met, and what is charged in this case is a message that is malformed in the protocol
of the other session. -/
example : ∃ (n : Nets mixed) (ev : Evidence toy), MultiReach mixed (fun i : U8 => i ∈ ([1] : List U8)) n ∧ ev.guilty = (1 : U8) ∧
    ev.verify (mixed.proto true) () = .ok () ∧
    Chargeable mixed (fun i : U8 => i ∈ ([1] : List U8)) n (mixed.proto true) () ev.guilty ev.body := by
  obtain ⟨n, ev, h1, h2, h3, h4, -, -, -, h5⟩ := C77_other_protocol_violation
  refine ⟨n, ev, h2, h3, h5, ?_⟩
  exact C77_charges h1 (fun k => demo_mainIds (!k) 255) (fun k => demo_acyclic (!k) 255) toy_signCorrect toy_sigRoundTrip
    toy_echoRoundTrip toy_metaTotal h2 (List.mem_singleton.2 h3) h4 h5

end Manul
