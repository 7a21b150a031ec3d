import Verif.Props.EvidenceComplete

/-!
# What evidence proves: C25, C26, C27, C28, C30
-/

namespace Manul

variable {sp : SP} {P : Proto sp}

/-! ## C25 -/

theorem readPart_none {T : TypedProto sp} {t : T.Tag} {k : PartKind} {p : Part k} :
    T.partInvalid t p = .ok () ↔ ¬ Readable T t p := by
  unfold TypedProto.partInvalid Readable Part.verifyIsSome
  cases hd : T.de t k <;> cases hp : p.payload
  · simp
  · simp
  · simp
  · rename_i de b
    cases hv : de b <;> simp [hv]

theorem verifyInvalidPart_iff {k : PartKind} {I : Type} {who : sp.Id} {m : SignedPart k} {info : RoundId → Option I}
    {ec : Part k → Except EvErr Unit} {mc : I → Part k → Except EvErr Unit} :
    Evidence.verifyInvalidPart sp who m info ec mc = .ok () ↔ SigValid who m ∧
      ((m.metadata.roundId.isEcho = true ∧ ec m.part = .ok ()) ∨
        (m.metadata.roundId.isEcho = false ∧ ∃ i, info m.metadata.roundId = some i ∧ mc i m.part = .ok ())) := by
  unfold Evidence.verifyInvalidPart
  cases hv : m.verify sp who with
  | error e =>
    have : ¬ SigValid who m := fun hs => by rw [(verifySigned_ok (u := ())).2 hs] at hv; simp at hv
    simp [this]
  | ok u =>
    have := verifySigned_ok.1 hv
    cases he : m.metadata.roundId.isEcho with
    | true => simp [this]
    | false => cases hi : info m.metadata.roundId <;> simp [this]

/-- Evidence that a direct message is malformed verifies exactly if the accused party's key validates the signature and the
direct message is malformed for the round. -/
theorem C25_direct_iff (T : TypedProto sp) (g : sp.Id) (m : SignedPart .direct) (shared : T.Shared) :
    (⟨g, .invalidDirect m⟩ : Evidence sp).verify T.wrap shared = .ok () ↔
      SigValid g m ∧ MalformedFor T m.part m.metadata.roundId := by
  unfold Evidence.verify MalformedFor
  simp only
  rw [verifyInvalidPart_iff]
  have hmc : ∀ r, (∃ i, T.wrap.roundInfo r = some i ∧ RoundInfo.directInvalid i m.part = .ok ()) ↔
      ∃ t, T.roundTag r = some t ∧ ¬ Readable T t m.part := by
    intro r
    simp only [TypedProto.wrap, Option.map_eq_some_iff]
    constructor
    · rintro ⟨i, ⟨t, ht, rfl⟩, h⟩
      exact ⟨t, ht, readPart_none.1 h⟩
    · rintro ⟨t, ht, h⟩
      exact ⟨_, ⟨t, ht, rfl⟩, readPart_none.2 h⟩
  rw [hmc]
  unfold Part.verifyIsSome
  cases hp : m.part.payload <;> simp

/-- The same for echo broadcasts. -/
theorem C25_echo_iff (T : TypedProto sp) (g : sp.Id) (m : SignedPart .echo) (shared : T.Shared) :
    (⟨g, .invalidEchoBroadcast m⟩ : Evidence sp).verify T.wrap shared = .ok () ↔
      SigValid g m ∧ MalformedFor T m.part m.metadata.roundId := by
  unfold Evidence.verify MalformedFor
  simp only
  rw [verifyInvalidPart_iff]
  have hmc : ∀ r, (∃ i, T.wrap.roundInfo r = some i ∧ RoundInfo.echoInvalid i m.part = .ok ()) ↔
      ∃ t, T.roundTag r = some t ∧ ¬ Readable T t m.part := by
    intro r
    simp only [TypedProto.wrap, Option.map_eq_some_iff]
    constructor
    · rintro ⟨i, ⟨t, ht, rfl⟩, h⟩
      exact ⟨t, ht, readPart_none.1 h⟩
    · rintro ⟨t, ht, h⟩
      exact ⟨_, ⟨t, ht, rfl⟩, readPart_none.2 h⟩
  rw [hmc]
  unfold Part.verifyIsSome
  cases hp : m.part.payload <;> simp

theorem decodes_payload {p q : Part .normal} {pack : EchoPack sp} (h : q.payload = p.payload) (hd : Decodes q pack) :
    Decodes p pack := by
  unfold Decodes at hd ⊢
  rw [← h]
  exact hd

/-- The same for normal broadcasts. -/
theorem C25_normal_iff (T : TypedProto sp) (g : sp.Id) (m : SignedPart .normal) (shared : T.Shared) :
    (⟨g, .invalidNormal m⟩ : Evidence sp).verify T.wrap shared = .ok () ↔
      SigValid g m ∧ MalformedFor T m.part m.metadata.roundId := by
  unfold Evidence.verify MalformedFor
  simp only
  rw [verifyInvalidPart_iff]
  have hmc : ∀ r, (∃ i, T.wrap.roundInfo r = some i ∧ RoundInfo.normalInvalid i m.part = .ok ()) ↔
      ∃ t, T.roundTag r = some t ∧ ¬ Readable T t m.part := by
    intro r
    simp only [TypedProto.wrap, Option.map_eq_some_iff]
    constructor
    · rintro ⟨i, ⟨t, ht, rfl⟩, h⟩
      exact ⟨t, ht, readPart_none.1 h⟩
    · rintro ⟨t, ht, h⟩
      exact ⟨_, ⟨t, ht, rfl⟩, readPart_none.2 h⟩
  have hec : Evidence.echoNormalInvalid sp m.part = .ok () ↔
      ¬ ∃ (q : Part .normal) (pack : EchoPack sp), q.payload = m.part.payload ∧ Decodes q pack := by
    unfold Evidence.echoNormalInvalid
    cases hd : Evidence.deserializePack sp m.part with
    | none =>
      simp only [true_iff]
      rintro ⟨q, pack, h1, h2⟩
      have := decodes_iff.1 (decodes_payload h1 h2)
      rw [hd] at this
      simp at this
    | some pack =>
      simp only [reduceCtorEq, false_iff, not_not]
      exact ⟨m.part, pack, rfl, decodes_iff.2 hd⟩
  rw [hmc, hec]
  simp

theorem newPart_readable {T : TypedProto sp} {k : PartKind} {t : T.Tag} {v : T.Val} {p : Part k} (h : T.newPart k t v = .ok p)
    (hr : ∀ de b, T.de t k = some de → T.ser v = .ok b → ∃ w, de b = some w) : Readable T t p := by
  unfold TypedProto.newPart at h
  cases hd : T.de t k with
  | none =>
    simp only [hd, Except.ok.injEq] at h
    subst h
    exact Or.inl ⟨hd, rfl⟩
  | some de =>
    simp only [hd] at h
    cases hs : T.ser v with
    | error e => simp [hs] at h
    | ok b =>
      simp only [hs, Except.ok.injEq] at h
      subst h
      obtain ⟨w, hw⟩ := hr de b hd hs
      exact Or.inr ⟨de, b, w, hd, rfl, hw⟩

theorem Readable.payload {T : TypedProto sp} {t : T.Tag} {k : PartKind} {p q : Part k} (h : Readable T t p)
    (he : p.payload = q.payload) : Readable T t q := by
  unfold Readable at h ⊢
  rw [← he]
  exact h

/-- An honest session that has somebody to send messages to signs no malformed part. -/
theorem issued_wellFormed (T : TypedProto sp) (tc : TagConsistent T) (mi : MainIds T.wrap) (mr : MessagesReadable T)
    (ert : sp.EchoRoundTrip) {s : Session T.wrap} (hp : Proper s) (hd : s.comm.destinations.isEmpty = false)
    {k : PartKind} {q : Part k} (hq : Issued s k q) : ¬ MalformedFor T q s.roundId := by
  unfold MalformedFor
  cases hrd : s.round with
  | main r =>
    have hid : s.roundId = (T.transition r).id := congrArg TransitionInfo.id (roundId_main hp hrd).1
    have hne : s.roundId.isEcho = false := by rw [hid]; exact mi r
    rintro (⟨h1, -⟩ | ⟨-, t, ht, hn⟩)
    · rw [hne] at h1
      simp at h1
    · rw [hid, tc r] at ht
      simp only [Option.some.injEq] at ht
      subst ht
      apply hn
      cases hq with
      | echo =>
        obtain ⟨rng, h⟩ := hp.echoPart
        rw [hd, hrd] at h
        simp only [Bool.false_eq_true, if_false, SRound.makeEcho, TypedProto.wrap] at h
        split at h
        · simp at h
        · rename_i v hv
          exact newPart_readable h (fun de b h1 h2 => mr.echo r rng v de b hv h1 h2)
      | normal =>
        obtain ⟨rng, h⟩ := hp.normalPart
        rw [hd, hrd] at h
        simp only [Bool.false_eq_true, if_false, SRound.makeNormal, TypedProto.wrap] at h
        split at h
        · simp at h
        · rename_i v hv
          exact newPart_readable h (fun de b h1 h2 => mr.normal r rng v de b hv h1 h2)
      | @direct rng dest q a h =>
        rw [hrd] at h
        simp only [SRound.makeDirect, TypedProto.wrap] at h
        cases hv : T.makeDirect r rng dest with
        | error e => simp [hv] at h
        | ok va =>
          obtain ⟨v, a'⟩ := va
          simp only [hv] at h
          cases hnp : T.newPart .direct (T.tag r) v with
          | error e => simp [hnp] at h
          | ok p' =>
            simp only [hnp, Except.ok.injEq] at h
            have hpq : p' = q := congrArg Prod.fst h
            subst hpq
            exact newPart_readable hnp (fun de b h1 h2 => mr.direct r rng dest v a' de b hv h1 h2)
  | echo e =>
    have hie := (echo_transition_id mi hp hrd).2
    rintro (⟨-, h1, h2⟩ | ⟨h1, -⟩)
    · cases hq with
      | echo =>
        obtain ⟨rng, h⟩ := hp.echoPart
        rw [hd, hrd] at h
        simp only [Bool.false_eq_true, if_false, SRound.makeEcho, Except.ok.injEq] at h
        rw [← h] at h2
        exact h2 (by simp) rfl
      | normal =>
        obtain ⟨rng, h⟩ := hp.normalPart
        rw [hd, hrd] at h
        simp only [Bool.false_eq_true, if_false, SRound.makeNormal, EchoRd.makeNormal] at h
        split at h
        · split at h
          · simp at h
          · rename_i b hb
            simp only [Except.ok.injEq] at h
            refine h1 rfl ⟨⟨some b⟩, e.pack, by rw [← h], decodes_iff.2 ?_⟩
            exact C32_echo_message_round_trip sp ert _ _ hb
        · simp at h
      | direct h =>
        rw [hrd] at h
        simp only [SRound.makeDirect, Except.ok.injEq, Prod.mk.injEq] at h
        rw [← h.1] at h2
        exact h2 (by simp) rfl
    · rw [hie] at h1
      simp at h1

theorem MalformedFor.payload {T : TypedProto sp} {k : PartKind} {p q : Part k} {r : RoundId} (h : MalformedFor T p r)
    (he : p.payload = q.payload) : MalformedFor T q r := by
  have : p = q := by
    obtain ⟨p⟩ := p
    obtain ⟨q⟩ := q
    simp only at he
    rw [he]
  exact this ▸ h

/-- No digest an honest session signs accuses it of a malformed part, unless the hash has a collision. -/
theorem malformed_forged (T : TypedProto sp) (tc : TagConsistent T) (mi : MainIds T.wrap) (mr : MessagesReadable T)
    (ert : sp.EchoRoundTrip) (pf : sp.MetaPrefixFree) {k : PartKind} {m : SignedPart k}
    (hm : MalformedFor T m.part m.metadata.roundId) {d : Bytes}
    (hd : sp.messageDigest m.metadata (sp.partHash m.part) = .ok d) {s : Session T.wrap} (hp : Proper s)
    (hdest : s.comm.destinations.isEmpty = false) {k' : PartKind} {q : Part k'} (hq : SignedIn s q d) :
    Collision sp q.preimage m.part.preimage := by
  obtain ⟨h1, h2⟩ := hq
  obtain ⟨h3, h4⟩ := C31_digest_injective sp pf _ _ _ _ _ hd h2
  refine ⟨fun he => ?_, h4.symm⟩
  obtain ⟨hk, hpay⟩ := C31_part_preimage_injective _ _ he
  subst hk
  have hmf := hm.payload hpay.symm
  rw [h3] at hmf
  exact issued_wellFormed T tc mi mr ert hp hdest h1 hmf

/-- Evidence of a malformed part: the accused party's key validates the signature of the part exhibited, and the digest signed is
one that no session of an honest party with somebody to send to signs (for any part of any kind), unless the hash has a collision. -/
theorem C25_no_framing_partial (T : TypedProto sp) (tc : TagConsistent T) (mi : MainIds T.wrap) (mr : MessagesReadable T)
    (ert : sp.EchoRoundTrip) (pf : sp.MetaPrefixFree) {ev : Evidence sp} (hb : ev.body.Malformed) (shared : T.Shared)
    (hv : ev.verify T.wrap shared = .ok ()) :
    ∃ k m, ev.body.Exhibits k m ∧ SigValid ev.guilty m ∧
      ∀ d, sp.messageDigest m.metadata (sp.partHash m.part) = .ok d →
        ∀ s : Session T.wrap, Proper s → s.comm.destinations.isEmpty = false → ∀ (k' : PartKind) (q : Part k'), SignedIn s q d →
          Collision sp q.preimage m.part.preimage := by
  obtain ⟨g, body⟩ := ev
  cases body with
  | protocol e => exact absurd hb (by simp [EvBody.Malformed])
  | invalidEcho m k => exact absurd hb (by simp [EvBody.Malformed])
  | mismatched g w e => exact absurd hb (by simp [EvBody.Malformed])
  | invalidDirect m =>
    obtain ⟨h1, h4⟩ := (C25_direct_iff T g m shared).1 hv
    exact ⟨_, m, .direct m, h1, fun d h1 s hp hd k q hq => malformed_forged T tc mi mr ert pf h4 h1 hp hd hq⟩
  | invalidEchoBroadcast m =>
    obtain ⟨h1, h4⟩ := (C25_echo_iff T g m shared).1 hv
    exact ⟨_, m, .echo m, h1, fun d h1 s hp hd k q hq => malformed_forged T tc mi mr ert pf h4 h1 hp hd hq⟩
  | invalidNormal m =>
    obtain ⟨h1, h4⟩ := (C25_normal_iff T g m shared).1 hv
    exact ⟨_, m, .normal m, h1, fun d h1 s hp hd k q hq => malformed_forged T tc mi mr ert pf h4 h1 hp hd hq⟩

/-! ## C26 -/

/-- Evidence of mismatched broadcasts verifies exactly if the inner party's key validates the echo broadcast and the hash, both
for the same session and round, and the hash is not that of the echo broadcast. -/
theorem C26_mismatched_iff (g g' : sp.Id) (w : SignedPart .echo) (e : SignedHash) (shared : P.Shared) :
    (⟨g', .mismatched g w e⟩ : Evidence sp).verify P shared = .ok () ↔
      SigValid g w ∧ HashSigned g e ∧ w.metadata = e.metadata ∧ e.hash ≠ sp.partHash w.part := by
  unfold Evidence.verify Evidence.verifyMismatched
  simp only
  cases hw : w.verify sp g with
  | error err =>
    have : ¬ SigValid g w := fun hs => by rw [(verifySigned_ok (u := ())).2 hs] at hw; simp at hw
    simp [this]
  | ok u =>
    have h1 := verifySigned_ok.1 hw
    cases he : e.verify sp g with
    | error err =>
      have : ¬ HashSigned g e := fun hs => by rw [(hash_verify_ok (u := ())).2 hs] at he; simp at he
      simp [this]
    | ok u' =>
      have h2 := hash_verify_ok.1 he
      by_cases h3 : w.metadata = e.metadata
      · by_cases h4 : sp.partHash w.part = e.hash
        · simp [h3, h4, SignedHash.isHashOf]
        · have h4' : ¬ e.hash = sp.partHash w.part := fun h => h4 h.symm
          simp [h1, h2, h3, h4, h4', SignedHash.isHashOf]
      · simp [h3]

theorem toSignedHash_signed {k : PartKind} {who : sp.Id} {p : SignedPart k} (h : SigValid who p) :
    HashSigned who (p.toSignedHash sp) := h

/-- C26 as stated fails, for every honest party in every round: the signature of its normal broadcast, read as a signed hash
(`SignedMessageHash` does not say which kind of part was hashed), is a "second echo broadcast" of the round. -/
theorem C26_framing_violation (sc : sp.SignCorrect) (srt : sp.SigRoundTrip) {s : Session P} (hp : Proper s)
    (nocoll : ¬ Collision sp s.normal.part.preimage s.echo.part.preimage) (shared : P.Shared) :
    (⟨s.me, .mismatched s.me s.echo (s.normal.toSignedHash sp)⟩ : Evidence sp).verify P shared = .ok () := by
  obtain ⟨r1, he⟩ := hp.echo
  obtain ⟨r2, hn⟩ := hp.normal
  have h1 := signed_valid sc srt he
  have h2 := signed_valid sc srt hn
  rw [C26_mismatched_iff, hp.me]
  refine ⟨h1.2, toSignedHash_signed h2.2, ?_, ?_⟩
  · rw [h1.1]
    exact h2.1.symm
  · intro hc
    refine nocoll ⟨fun hpre => ?_, hc⟩
    exact absurd (C31_part_preimage_injective _ _ hpre).1 (by simp)

/-- If the hash in verified evidence is that of an echo broadcast, the accused party's key validates two different echo broadcasts
for the same session and round. -/
theorem C26_two_broadcasts_partial {g g' : sp.Id} {w : SignedPart .echo} {e : SignedHash} {shared : P.Shared}
    (hv : (⟨g', .mismatched g w e⟩ : Evidence sp).verify P shared = .ok ()) {q : Part .echo} (hq : e.hash = sp.partHash q) :
    SigValid g w ∧ SigValid g (⟨e.sig, e.metadata, q⟩ : SignedPart .echo) ∧ w.metadata = e.metadata ∧ q ≠ w.part := by
  obtain ⟨h1, h2, h3, h4⟩ := (C26_mismatched_iff g g' w e shared).1 hv
  refine ⟨h1, ?_, h3, ?_⟩
  · unfold HashSigned at h2
    rw [hq] at h2
    exact h2
  · rintro rfl
    exact h4 hq

/-- ... and then they are not both what one honest session signed. -/
theorem C26_no_framing_partial (pf : sp.MetaPrefixFree) {g g' : sp.Id} {w : SignedPart .echo} {e : SignedHash}
    {shared : P.Shared} (hv : (⟨g', .mismatched g w e⟩ : Evidence sp).verify P shared = .ok ()) {q : Part .echo}
    (hq : e.hash = sp.partHash q) {d d' : Bytes} (hd : sp.messageDigest w.metadata (sp.partHash w.part) = .ok d)
    (hd' : sp.messageDigest e.metadata e.hash = .ok d') (s : Session P) {k k' : PartKind} (p : Part k) (p' : Part k')
    (hs : SignedIn s p d) (hs' : SignedIn s p' d') :
    Collision sp p.preimage w.part.preimage ∨ Collision sp p'.preimage q.preimage := by
  obtain ⟨-, -, h3, h4⟩ := C26_two_broadcasts_partial hv hq
  rw [hq] at hd'
  obtain ⟨hi, hp⟩ := hs
  obtain ⟨hi', hp'⟩ := hs'
  obtain ⟨-, he⟩ := C31_digest_injective sp pf _ _ _ _ _ hd hp
  obtain ⟨-, he'⟩ := C31_digest_injective sp pf _ _ _ _ _ hd' hp'
  by_contra hc
  simp only [not_or, Collision, not_and] at hc
  have e1 : p.preimage = w.part.preimage := by
    by_contra hne
    exact hc.1 hne he.symm
  have e2 : p'.preimage = q.preimage := by
    by_contra hne
    exact hc.2 hne he'.symm
  obtain ⟨rfl, f1⟩ := C31_part_preimage_injective _ _ e1
  obtain ⟨rfl, f2⟩ := C31_part_preimage_injective _ _ e2
  apply h4
  cases hi
  cases hi'
  have : q.payload = w.part.payload := by rw [← f1, ← f2]
  exact Part.mk.injEq _ _ ▸ this

/-! ## C27 -/

/-- Evidence of an invalid echo verifies exactly if the accused party's key validates a pack with an entry for the party named
that is not signed by it, or is not for the round of the pack itself. -/
theorem C27_invalid_echo_iff (mt : sp.MetaTotal) (g k : sp.Id) (n : SignedPart .normal) (shared : P.Shared) :
    (⟨g, .invalidEcho n k⟩ : Evidence sp).verify P shared = .ok () ↔
      SigValid g n ∧ ∃ (pack : EchoPack sp) (h : SignedHash), Decodes n.part pack ∧ pack.get? k = some h ∧
        (¬ HashSigned k h ∨ h.metadata ≠ n.metadata) := by
  unfold Evidence.verify Evidence.verifyInvalidEcho
  simp only
  cases hn : n.verify sp g with
  | error err =>
    have : ¬ SigValid g n := fun hs => by rw [(verifySigned_ok (u := ())).2 hs] at hn; simp at hn
    simp [this]
  | ok u =>
    have h1 := verifySigned_ok.1 hn
    simp only [h1, true_and, decodes_iff]
    cases hd : Evidence.deserializePack sp n.part with
    | none => simp
    | some pack =>
      unfold Evidence.verifyInvalidEchoError
      cases hk : pack.get? k with
      | none => simp [hk]
      | some h =>
        simp only [hk]
        by_cases hh : HashSigned k h
        · rw [show h.verify sp k = .ok () from hash_verify_ok.2 hh]
          by_cases hmd : h.metadata = n.metadata
          · simp [hk, hh, hmd]
          · simp [hk, hmd]
        · rcases hash_verify_bad mt hh with hb | hb <;> simp [hb, hk, hh]

/-- What an honest party in an echo round of a run echoes: signed hashes for the main round. -/
theorem honest_pack (sc : sp.SignCorrect) (srt : sp.SigRoundTrip) (mi : MainIds P) {rng0 : sp.Rng} {sid : Bytes}
    {signer : sp.Signer} {ep : EntryPoint P} {s₀ s : Session P} {trail : List (Session P × Accum P)}
    {cached : List (VerifiedMessage sp)} (h0 : Session.new rng0 sid signer ep = .ok s₀) (hv : Visits s₀ trail s cached)
    {e : EchoRd P} (he : s.round = .echo e) {k : sp.Id} {h : SignedHash} (hk : e.pack.get? k = some h) :
    HashSigned k h ∧ h.metadata = ⟨sid, (P.transition e.main).id⟩ := by
  obtain ⟨i5, i3, -, i2, r, i1⟩ := new_proper h0
  have ht := visits_transcript sc srt mi i5 ⟨r, i1⟩ i2 hv
  have hg := visits_echo_transcript i5 ⟨r, i1⟩ hv he
  obtain ⟨-, p, h1, rfl⟩ := pack_get.1 hk
  obtain ⟨h2, h3⟩ := ht.echos _ _ _ _ hg h1
  refine ⟨toSignedHash_signed h3, ?_⟩
  rw [i3] at h2
  exact h2

/-- C27 as stated fails, for every honest party in every echo round with somebody to send to: every entry of the pack it signs is
"evidence", as `InvalidEchoError::verify_evidence` compares the entry, which is for the main round, with the metadata of the pack,
which is for the echo round. -/
theorem C27_framing_violation (sc : sp.SignCorrect) (srt : sp.SigRoundTrip) (mt : sp.MetaTotal) (ert : sp.EchoRoundTrip)
    (mi : MainIds P) {rng0 : sp.Rng} {sid : Bytes} {signer : sp.Signer} {ep : EntryPoint P} {s₀ s : Session P}
    {trail : List (Session P × Accum P)} {cached : List (VerifiedMessage sp)}
    (h0 : Session.new rng0 sid signer ep = .ok s₀) (hv : Visits s₀ trail s cached) {e : EchoRd P} (he : s.round = .echo e)
    (hd : s.comm.destinations.isEmpty = false) {k : sp.Id} {h : SignedHash} (hk : e.pack.get? k = some h) (shared : P.Shared) :
    (⟨s.me, .invalidEcho s.normal k⟩ : Evidence sp).verify P shared = .ok () := by
  obtain ⟨i5, i3, -, i2, r, i1⟩ := new_proper h0
  have hp := (visits_inv i5 ⟨r, i1⟩ hv).proper
  obtain ⟨hid, hie⟩ := echo_transition_id mi hp he
  obtain ⟨-, hmd⟩ := honest_pack sc srt mi h0 hv he hk
  obtain ⟨rng, hn⟩ := hp.normal
  obtain ⟨hn1, hn2⟩ := signed_valid sc srt hn
  rw [C27_invalid_echo_iff mt, hp.me]
  refine ⟨hn2, e.pack, h, decodes_iff.2 ?_, hk, Or.inr ?_⟩
  · obtain ⟨rng', hmk⟩ := hp.normalPart
    rw [hd, he] at hmk
    simp only [Bool.false_eq_true, if_false, SRound.makeNormal, EchoRd.makeNormal] at hmk
    split at hmk
    · split at hmk
      · simp at hmk
      · rename_i b hb
        simp only [Except.ok.injEq] at hmk
        rw [← hmk]
        exact C32_echo_message_round_trip sp ert _ _ hb
    · simp at hmk
  · rw [hmd, hn1]
    intro hc
    have : (P.transition e.main).id = s.roundId := congrArg Metadata.roundId hc
    have h3 := (echo_isEcho hid).2
    rw [this, hie] at h3
    simp at h3

/-- What is left: evidence whose entry is not signed by the party named proves that the accused signed something no honest party
signs in an echo round of a run, unless the hash has a collision. -/
theorem C27_no_framing_partial (sc : sp.SignCorrect) (srt : sp.SigRoundTrip) (ert : sp.EchoRoundTrip) (pf : sp.MetaPrefixFree)
    (mi : MainIds P) {g k : sp.Id} {n : SignedPart .normal} {pack : EchoPack sp} {h : SignedHash} (hd : Decodes n.part pack)
    (hk : pack.get? k = some h) (hh : ¬ HashSigned k h) {d : Bytes}
    (hdig : sp.messageDigest n.metadata (sp.partHash n.part) = .ok d) {rng0 : sp.Rng} {sid : Bytes}
    {signer : sp.Signer} {ep : EntryPoint P} {s₀ s : Session P} {trail : List (Session P × Accum P)}
    {cached : List (VerifiedMessage sp)} (h0 : Session.new rng0 sid signer ep = .ok s₀) (hv : Visits s₀ trail s cached)
    {e : EchoRd P} (he : s.round = .echo e) {k' : PartKind} {q : Part k'} (hq : SignedIn s q d) :
    Collision sp q.preimage n.part.preimage := by
  obtain ⟨i5, i3, -, i2, r, i1⟩ := new_proper h0
  have hp := (visits_inv i5 ⟨r, i1⟩ hv).proper
  obtain ⟨h1, h2⟩ := hq
  obtain ⟨-, h4⟩ := C31_digest_injective sp pf _ _ _ _ _ hdig h2
  refine ⟨fun hc => ?_, h4.symm⟩
  obtain ⟨rfl, hpay⟩ := C31_part_preimage_injective _ _ hc
  cases h1
  have hd' := decodes_iff.1 (decodes_payload hpay.symm hd)
  obtain ⟨rng', hmk⟩ := hp.normalPart
  cases hde : s.comm.destinations.isEmpty with
  | true =>
    rw [hde] at hmk
    simp only [if_true, Except.ok.injEq] at hmk
    rw [← hmk] at hd'
    simp [Evidence.deserializePack, Part.none] at hd'
  | false =>
    rw [hde, he] at hmk
    simp only [Bool.false_eq_true, if_false, SRound.makeNormal, EchoRd.makeNormal] at hmk
    split at hmk
    · split at hmk
      · simp at hmk
      · rename_i b hb
        simp only [Except.ok.injEq] at hmk
        rw [← hmk] at hd'
        have hpk := C32_echo_message_round_trip sp ert _ _ hb
        have : some pack = some e.pack := hd'.symm.trans hpk
        simp only [Option.some.injEq] at this
        subst this
        exact hh (honest_pack sc srt mi h0 hv he hk).1
    · simp at hmk

/-! ## C28 -/

theorem metadata_mk {md : Metadata} {sid : Bytes} {r : RoundId} (h : md.sessionId = sid) (h' : md.roundId = r) : md = ⟨sid, r⟩ := by
  subst h
  subst h'
  rfl

/-- If evidence of a protocol error verifies, the protocol accepted it, and everything the protocol was shown is signed: the
message and the previous messages by the accused party, all for one session and each for the round it is shown for; the combined
echo broadcasts by the parties they are shown for, for the round they are shown for, and their hashes are in a pack the accused
party signed for the echo round following it. -/
theorem C28_bound {g : sp.Id} {e : ProtocolEvidence sp} {shared : P.Shared}
    (h : (⟨g, .protocol e⟩ : Evidence sp).verify P shared = .ok ()) :
    ∃ sid rid info msg prev comb, P.roundInfo rid = some info ∧
      info.verifyEvidence rid e.error g sid shared msg prev comb = .ok () ∧
      (msg.direct ≠ none ∨ msg.normal ≠ none ∨ msg.echo ≠ none) ∧ ShownBy g sid rid msg ∧
      (∀ r m, prev.get? r = some m → ShownBy g sid r m) ∧
      ∀ r c k q, comb.get? r = some c → c.get? k = some q →
        (∃ b : SignedPart .echo, AuthenticPart k sid r b ∧ b.part = q) ∧
        ∃ (re : RoundId) (n : SignedPart .normal) (pack : EchoPack sp) (hs : SignedHash), re.nonEcho = .ok r ∧
          AuthenticPart g sid re n ∧ Decodes n.part pack ∧ pack.get? k = some hs ∧ HashSigned k hs ∧
          hs.metadata = ⟨sid, r⟩ ∧ hs.hash = sp.partHash q := by
  have hv : Evidence.verifyProtocol P g shared e = .ok () := h
  obtain ⟨m, info, hm, hi, h1, h2, h3, h4, h5, h6, h7⟩ := Evidence.verifyProtocol_checks hv
  rw [Evidence.verifyProtocol_ok hm h1 h2 h3 h4 h5 h6 h7 hi] at hv
  refine ⟨m.sessionId, m.roundId, info, _, _, _, hi, hv, ?_, ⟨?_, ?_, ?_⟩, ?_, ?_⟩
  · unfold Evidence.triggerMetadata at hm
    cases hd : e.direct with
    | some d => simp
    | none =>
      cases he : e.echo with
      | some d => simp
      | none =>
        cases hn : e.normal with
        | some d => simp
        | none => simp [hd, he, hn] at hm
  · intro p hp
    obtain ⟨q, hq, rfl⟩ := Option.map_eq_some_iff.1 hp
    exact ⟨q, h1 q hq, rfl⟩
  · intro p hp
    obtain ⟨q, hq, rfl⟩ := Option.map_eq_some_iff.1 hp
    exact ⟨q, h3 q hq, rfl⟩
  · intro p hp
    obtain ⟨q, hq, rfl⟩ := Option.map_eq_some_iff.1 hp
    exact ⟨q, h2 q hq, rfl⟩
  · intro r mm hr
    obtain ⟨-, rfl⟩ := Evidence.mergeParts_get.1 hr
    refine ⟨?_, ?_, ?_⟩
    · intro p hp
      simp only [BMap.get?_mapVal] at hp
      obtain ⟨q, hq, rfl⟩ := Option.map_eq_some_iff.1 hp
      exact ⟨q, h4 r q hq, rfl⟩
    · intro p hp
      simp only [BMap.get?_mapVal] at hp
      obtain ⟨q, hq, rfl⟩ := Option.map_eq_some_iff.1 hp
      exact ⟨q, h6 r q hq, rfl⟩
    · intro p hp
      simp only [BMap.get?_mapVal] at hp
      obtain ⟨q, hq, rfl⟩ := Option.map_eq_some_iff.1 hp
      exact ⟨q, h5 r q hq, rfl⟩
  · intro r c k q hc hq
    rw [BMap.get?_mapVal] at hc
    obtain ⟨n, hn, rfl⟩ := Option.map_eq_some_iff.1 hc
    obtain ⟨g1, g2, g3, pack, att, g4, g5, g6⟩ := h7 r n hn
    have hpk := decodes_iff.1 g4
    unfold Evidence.combinedOf Evidence.echoedOf at hq
    simp only at hpk g5
    simp only [hpk, g5, Option.getD_some] at hq
    rw [BMap.get?_mapVal] at hq
    obtain ⟨hs, hks, rfl⟩ := Option.map_eq_some_iff.1 hq
    obtain ⟨f1, f2, b, f3, f4, f5⟩ := g6 k hs hks
    simp only at f3 f5
    simp only [f3, Option.map_some, Option.getD_some]
    exact ⟨⟨b, f4, rfl⟩, n.metadata.roundId, n, pack, hs, g2, ⟨metadata_mk g1 rfl, g3⟩, g4, hks, f2, f1, f5⟩

/-! ## C30 -/

/-- The party the evidence accuses is the one whose signatures it contains, unless the evidence is for mismatched broadcasts with
another inner accused party. -/
theorem C30_signed_partial (mt : sp.MetaTotal) (ev : Evidence sp) (shared : P.Shared)
    (hb : ∀ g w e, ev.body = .mismatched g w e → g = ev.guilty) (hv : ev.verify P shared = .ok ()) :
    ev.body.SignedBy ev.guilty := by
  obtain ⟨g, body⟩ := ev
  cases body with
  | protocol e =>
    obtain ⟨m, info, hm, -, h1, h2, h3, -⟩ := Evidence.verifyProtocol_checks (show Evidence.verifyProtocol P g shared e = .ok () from hv)
    unfold Evidence.triggerMetadata at hm
    simp only [EvBody.SignedBy]
    cases hd : e.direct with
    | some d => exact Or.inl ⟨d, rfl, (h1 d hd).2⟩
    | none =>
      cases he : e.echo with
      | some d => exact Or.inr (Or.inl ⟨d, rfl, (h2 d he).2⟩)
      | none =>
        cases hn : e.normal with
        | some d => exact Or.inr (Or.inr ⟨d, rfl, (h3 d hn).2⟩)
        | none => simp [hd, he, hn] at hm
  | invalidDirect m => exact (verifyInvalidPart_iff.1 hv).1
  | invalidEchoBroadcast m => exact (verifyInvalidPart_iff.1 hv).1
  | invalidNormal m => exact (verifyInvalidPart_iff.1 hv).1
  | invalidEcho m k => exact ((C27_invalid_echo_iff mt g k m shared).1 hv).1
  | mismatched g' w e =>
    have := hb g' w e rfl
    simp only at this
    subst this
    obtain ⟨h1, h2, -⟩ := (C26_mismatched_iff g' g' w e shared).1 hv
    exact ⟨h1, h2⟩

/-- C30 as stated fails: for evidence of mismatched broadcasts the party returned by `guilty_party` is not looked at. -/
theorem C30_unchecked_violation (g g' : sp.Id) (w : SignedPart .echo) (e : SignedHash) (shared : P.Shared) :
    (⟨g', .mismatched g w e⟩ : Evidence sp).verify P shared = (⟨g, .mismatched g w e⟩ : Evidence sp).verify P shared := rfl

/-! ## Examples and witnesses -/

theorem demo_messagesReadable (echo : Bool) (last : U8) : MessagesReadable (demo echo last) where
  direct := by
    intro st rng dest v a de b h1 h2 h3
    cases h1
    cases h2
    cases h3
    exact ⟨_, rfl⟩
  echo := by
    intro st rng v de b h1 h2 h3
    cases h1
    cases h3
    cases echo <;> cases h2
    exact ⟨_, rfl⟩
  normal := by
    intro st rng v de b h1 h2 h3
    cases h1
    cases h2
    cases h3
    exact ⟨_, rfl⟩

/-- C25: evidence that verifies, against the sender of an undeserializable direct message, for a protocol meeting the hypotheses;
and an honest session with somebody to send to, and a part it signs. -/
example : (∃ ev : Evidence toy, ev.body.Malformed ∧ ev.verify (demo true 255).wrap () = .ok ()) ∧
    (∃ (s : Session (demo true 255).wrap) (d : Bytes), Proper s ∧ s.comm.destinations.isEmpty = false ∧
      SignedIn s s.echo.part d) := by
  constructor
  · have h : onOk (demoRun true 255 [.msg ⟨2, 2, [9], RoundId.new 1, 1, some [5, 6], some [2], some [7]⟩, .cancel])
        (fun r => r.2.isReport (fun rep => hasEvidence rep 2 (fun ev => ev.body.isMalformed &&
          decide (ev.verify (demo true 255).wrap () = .ok ())))) = true := by decide +kernel
    obtain ⟨s, st, h0, hr, hk⟩ := onOk_run h
    obtain ⟨rep, rfl, hk'⟩ := isReport_iff.1 hk
    obtain ⟨ev, h1, h2⟩ := hasEvidence_iff.1 hk'
    rw [Bool.and_eq_true, decide_eq_true_eq] at h2
    exact ⟨ev, isMalformed_iff.1 h2.1, h2.2⟩
  · have h : onOk (demoSession true 255 [1, 2, 3] 1) (fun s => !s.comm.destinations.isEmpty) = true := by decide +kernel
    obtain ⟨s, h1, h2⟩ := onOk_iff.1 h
    obtain ⟨b, hb⟩ := toy_metaTotal ⟨s.sessionId, s.roundId⟩
    refine ⟨s, prefixDigest ++ b ++ be64 (toy.partHash s.echo.part).length ++ toy.partHash s.echo.part, (new_proper h1).1, by simpa using h2, .echo, ?_⟩
    unfold SP.messageDigest
    rw [hb]

/-- The example protocol in which party 1 only listens in round 1. -/
def demoListen : TypedProto toy :=
  { demoReq with
    verifyErr := fun _ _ _ _ _ _ m _ _ => if m = ⟨some ⟨some [66]⟩, none, none⟩ then .ok () else .error .invalid
    comm := fun st : DemoSt => if st.me = 1 ∧ st.n = 1 then ⟨BMap.empty, st.others, .receive st.others⟩ else CommInfo.regular st.others }

def demoListenEntry : EntryPoint demoListen.wrap :=
  ⟨RoundId.new 1, fun _ _ me => .ok (⟨me, (BSet.ofList [1, 2, 3] : BSet U8).erase me, 1, 0⟩ : DemoSt)⟩

/-- The echo broadcast attached to the evidence for the given party and round 1, if it proves the party guilty of an invalid
echo broadcast. -/
def framedBy (P : Proto toy) (shared : P.Shared) (x : U8) (ev : Evidence toy) : Bool :=
  match ev.body with
  | .protocol e =>
    match e.otherEchos.get? (RoundId.new 1) with
    | some m =>
      match m.get? (x : U8) with
      | some p => decide ((⟨(x : U8), .invalidEchoBroadcast p⟩ : Evidence toy).verify P shared = .ok ())
      | none => false
    | none => false
  | _ => false

/-- C25 as stated fails for a party that has nobody to send messages to: the session signs an empty echo broadcast (of a round
whose echo broadcasts are not empty), and publishes it as part of the evidence against another party. -/
theorem C25_no_destinations_violation :
    ∃ (s₀ : Session demoListen.wrap) (rep : Report demoListen.wrap) (ev : Evidence toy) (e : ProtocolEvidence toy)
      (m : BMap toy.Id (SignedPart .echo)) (p : SignedPart .echo),
      Session.new (sp := toy) (0 : Nat) [9] (1 : U8) demoListenEntry = .ok s₀ ∧ Reach s₀ (.done (.ok rep)) ∧
        rep.provable.get? (2 : U8) = some ev ∧ ev.body = .protocol e ∧ e.otherEchos.get? (RoundId.new 1) = some m ∧
        m.get? (1 : U8) = some p ∧ (⟨(1 : U8), .invalidEchoBroadcast p⟩ : Evidence toy).verify demoListen.wrap () = .ok () := by
  have h : onOk (scriptRun demoListenEntry 1
      [.msg ⟨2, 2, [9], RoundId.new 1, 1, some [5], some [2], some [7]⟩,
        .msg ⟨3, 3, [9], RoundId.new 1, 1, some [5], some [3], some [7]⟩, .tick,
        .msg ⟨2, 2, [9], ⟨1, [], true⟩, 1, none, none, some (demoPack (RoundId.new 1) [(3, [3])])⟩,
        .msg ⟨3, 3, [9], ⟨1, [], true⟩, 1, none, none, some (demoPack (RoundId.new 1) [(2, [2])])⟩, .tick,
        .msg ⟨2, 2, [9], RoundId.new 2, 1, some [66], some [2], some [7]⟩, .cancel])
      (fun r => r.2.isReport (fun rep => hasEvidence rep 2 (framedBy demoListen.wrap () 1))) = true := by
    decide +kernel
  obtain ⟨s, st, h0, hr, hk⟩ := onOk_script h
  obtain ⟨rep, rfl, hk'⟩ := isReport_iff.1 hk
  obtain ⟨ev, h1, h2⟩ := hasEvidence_iff.1 hk'
  unfold framedBy at h2
  split at h2
  · rename_i e he
    split at h2
    · rename_i m hm
      split at h2
      · rename_i p hp
        exact ⟨s, rep, ev, e, m, p, h0, hr, h1, he, hm, hp, of_decide_eq_true h2⟩
      · simp at h2
    · simp at h2
  · simp at h2

/-- C26: an honest session meeting the hypotheses of `C26_framing_violation`. -/
example : ∃ s : Session (demo true 255).wrap, Proper s ∧ ¬ Collision toy s.normal.part.preimage s.echo.part.preimage := by
  have h : onOk (demoSession true 255 [1, 2, 3] 1) (fun _ => true) = true := by decide +kernel
  obtain ⟨s, h1, -⟩ := onOk_iff.1 h
  exact ⟨s, (new_proper h1).1, fun hc => hc.1 (toy_hashInjective _ _ hc.2)⟩

/-- Evidence that a party sent two different one-byte echo broadcasts in round 1. -/
def twoBroadcasts (g : U8) (x y : Bytes) : Except LErr (Evidence toy × Part .echo) :=
  match SignedPart.new toy (0 : Nat) g [9] (RoundId.new 1) (⟨some x⟩ : Part .echo),
      SignedPart.new toy (0 : Nat) g [9] (RoundId.new 1) (⟨some y⟩ : Part .echo) with
  | .ok w, .ok q => .ok (⟨(g : U8), .mismatched (g : U8) w (q.toSignedHash toy)⟩, q.part)
  | .error e, _ => .error e
  | _, .error e => .error e

/-- C26: evidence meeting the hypotheses of the partial theorems. -/
example : ∃ (g : U8) (w : SignedPart .echo) (e : SignedHash) (q : Part .echo),
    (⟨(g : U8), .mismatched (g : U8) w e⟩ : Evidence toy).verify (demo true 255).wrap () = .ok () ∧ e.hash = toy.partHash q := by
  have h : onOk (twoBroadcasts 3 [4] [5]) (fun x => match x.1.body with
      | .mismatched _ w e => decide ((⟨(3 : U8), .mismatched (3 : U8) w e⟩ : Evidence toy).verify (demo true 255).wrap () = .ok ()) &&
          decide (e.hash = toy.partHash x.2)
      | _ => false) = true := by decide +kernel
  obtain ⟨⟨ev, q⟩, -, h2⟩ := onOk_iff.1 h
  simp only at h2
  split at h2
  · rename_i g w e hb
    rw [Bool.and_eq_true, decide_eq_true_eq, decide_eq_true_eq] at h2
    exact ⟨3, w, e, q, h2.1, h2.2⟩
  · simp at h2

/-- C27: an honest party in an echo round of a run, with two entries in its pack: each is "evidence" against it. -/
example : ∃ (s₀ s : Session (demo true 255).wrap) (a : Accum (demo true 255).wrap) (e : EchoRd (demo true 255).wrap),
    demoSession true 255 [1, 2, 3] 1 = .ok s₀ ∧ Reach s₀ (.running s a) ∧ s.round = .echo e ∧
      s.comm.destinations.isEmpty = false ∧ e.pack.contains (2 : U8) = true ∧ e.pack.contains (3 : U8) = true ∧
      (⟨(1 : U8), .invalidEcho s.normal (2 : U8)⟩ : Evidence toy).verify (demo true 255).wrap () = .ok () ∧
      (⟨(1 : U8), .invalidEcho s.normal (3 : U8)⟩ : Evidence toy).verify (demo true 255).wrap () = .ok () := by
  have h : onOk (demoRun true 255 (toEchoRound 1 2 [8])) (fun r => r.2.isRunning (fun s _ => match s.round with
      | .echo e => !s.comm.destinations.isEmpty && e.pack.contains (2 : U8) && e.pack.contains (3 : U8) &&
        decide ((⟨(1 : U8), .invalidEcho s.normal (2 : U8)⟩ : Evidence toy).verify (demo true 255).wrap () = .ok ()) &&
        decide ((⟨(1 : U8), .invalidEcho s.normal (3 : U8)⟩ : Evidence toy).verify (demo true 255).wrap () = .ok ())
      | .main _ => false)) = true := by decide +kernel
  obtain ⟨s, st, h0, hr, hk⟩ := onOk_run h
  obtain ⟨s', a, rfl, hk'⟩ := isRunning_iff.1 hk
  split at hk'
  · rename_i e he
    simp only [Bool.and_eq_true, decide_eq_true_eq, Bool.not_eq_true'] at hk'
    exact ⟨s, s', a, e, h0, hr, he, hk'.1.1.1.1, hk'.1.1.1.2, hk'.1.1.2, hk'.1.2, hk'.2⟩
  · simp at hk'

/-- C27: a pack with an entry that is not signed by the party it names. -/
example : ∃ (pack : EchoPack toy) (h : SignedHash) (n : Part .normal), Decodes n pack ∧ pack.get? (3 : U8) = some h ∧
    ¬ HashSigned (sp := toy) (3 : U8) h := by
  have h : (match Evidence.deserializePack toy ⟨some ((Codec.list (Codec.prod Codec.u8 Codec.signedHash)).enc
      [((3 : U8), (⟨[], ⟨[9], RoundId.new 1⟩, [7]⟩ : SignedHash))])⟩ with
    | some pack => (match pack.get? (3 : U8) with
      | some h => (match h.verify toy (3 : U8) with | .ok _ => false | .error _ => true)
      | none => false)
    | none => false) = true := by decide +kernel
  split at h
  · rename_i pack hp
    split at h
    · rename_i x hx
      refine ⟨pack, x, _, decodes_iff.2 hp, hx, fun hc => ?_⟩
      rw [(hash_verify_ok (u := ())).2 hc] at h
      simp at h
    · simp at h
  · simp at h

/-- C28: the example of C22 gives protocol evidence that verifies and shows previous messages and combined echos. -/
example : ∃ (ev : Evidence toy) (pe : ProtocolEvidence toy), ev.body = .protocol pe ∧
    (⟨ev.guilty, .protocol pe⟩ : Evidence toy).verify demoReq.wrap () = .ok () := by
  have h : onOk (scriptRun demoReqEntry 1
      [.msg ⟨2, 2, [9], RoundId.new 1, 1, some [5], some [2], some [7]⟩,
        .msg ⟨3, 3, [9], RoundId.new 1, 1, some [5], some [3], some [7]⟩, .tick,
        .msg ⟨2, 2, [9], ⟨1, [], true⟩, 1, none, none, some (demoPack (RoundId.new 1) [(1, [1]), (3, [3])])⟩,
        .msg ⟨3, 3, [9], ⟨1, [], true⟩, 1, none, none, some (demoPack (RoundId.new 1) [(1, [1]), (2, [2])])⟩, .tick,
        .msg ⟨2, 2, [9], RoundId.new 2, 1, some [66], some [2], some [7]⟩, .cancel])
      (fun r => r.2.isReport (fun rep => hasEvidence rep 2 (fun ev => match ev.body with
        | .protocol pe => decide ((⟨ev.guilty, .protocol pe⟩ : Evidence toy).verify demoReq.wrap () = .ok ())
        | _ => false))) = true := by
    decide +kernel
  obtain ⟨s, st, h0, hr, hk⟩ := onOk_script h
  obtain ⟨rep, rfl, hk'⟩ := isReport_iff.1 hk
  obtain ⟨ev, h1, h2⟩ := hasEvidence_iff.1 hk'
  split at h2
  · rename_i pe hb
    exact ⟨ev, pe, hb, of_decide_eq_true h2⟩
  · simp at h2

/-- C30 fails on concrete evidence: it verifies and accuses party 2, which signed nothing. -/
theorem C30_wrong_party_violation :
    ∃ ev : Evidence toy, ev.guilty = (2 : U8) ∧ ev.verify (demo true 255).wrap () = .ok () ∧ ¬ ev.body.SignedBy ev.guilty := by
  have h : onOk (twoBroadcasts 3 [4] [5]) (fun x => match x.1.body with
      | .mismatched _ w e =>
        decide ((⟨(2 : U8), .mismatched (3 : U8) w e⟩ : Evidence toy).verify (demo true 255).wrap () = .ok ()) &&
          (match w.verify toy (2 : U8) with | .ok _ => false | .error _ => true)
      | _ => false) = true := by decide +kernel
  obtain ⟨⟨ev, q⟩, -, h2⟩ := onOk_iff.1 h
  simp only at h2
  split at h2
  · rename_i g w e hb
    rw [Bool.and_eq_true, decide_eq_true_eq] at h2
    refine ⟨⟨(2 : U8), .mismatched (3 : U8) w e⟩, rfl, h2.1, fun hs => ?_⟩
    have h3 := h2.2
    rw [(verifySigned_ok (u := ())).2 hs.1] at h3
    simp at h3
  · simp at h2

/-- C30: evidence whose two accused parties agree. -/
example : ∃ ev : Evidence toy, (∀ g w e, ev.body = .mismatched g w e → g = ev.guilty) ∧
    ev.verify (demo true 255).wrap () = .ok () := by
  have h : onOk (twoBroadcasts 3 [4] [5]) (fun x => match x.1.body with
      | .mismatched _ w e => decide ((⟨(3 : U8), .mismatched (3 : U8) w e⟩ : Evidence toy).verify (demo true 255).wrap () = .ok ())
      | _ => false) = true := by decide +kernel
  obtain ⟨⟨ev, q⟩, -, h2⟩ := onOk_iff.1 h
  simp only at h2
  split at h2
  · rename_i g w e hb
    refine ⟨⟨(3 : U8), .mismatched (3 : U8) w e⟩, ?_, of_decide_eq_true h2⟩
    intro g' w' e' h
    cases h
    rfl
  · simp at h2

end Manul
