import Verif.Spec.Auth
import Verif.Spec.Assumptions
import Verif.Lemmas.BMap
import Verif.Props.RoundIds

/-! # Lemmas about message verification and preprocessing -/

namespace Manul

variable {sp : SP} {P : Proto sp}

theorem verifySigned_ok {who : sp.Id} {k : PartKind} {p : SignedPart k} {u : Unit} :
    p.verify sp who = .ok u ↔ SigValid who p := by
  unfold SignedPart.verify verifySigned SigValid
  cases hd : sp.messageDigest p.metadata (sp.partHash p.part) with
  | error e => simp
  | ok d =>
    cases hs : sp.deSig p.sig with
    | none => simp
    | some s => cases hv : sp.verify who d s <;> simp [hv]

theorem verify_undecodable {who : sp.Id} {k : PartKind} {p : SignedPart k} :
    p.verify sp who = .error .invalidSignature ↔
      (∃ d, sp.messageDigest p.metadata (sp.partHash p.part) = .ok d) ∧ SigUndecodable sp p := by
  unfold SignedPart.verify verifySigned SigUndecodable
  cases hd : sp.messageDigest p.metadata (sp.partHash p.part) with
  | error e => simp
  | ok d =>
    cases hs : sp.deSig p.sig with
    | none => simp
    | some s => cases hv : sp.verify who d s <;> simp [hv]

theorem verify_wrong {who : sp.Id} {k : PartKind} {p : SignedPart k} :
    p.verify sp who = .error .signatureMismatch ↔ SigWrong who p := by
  unfold SignedPart.verify verifySigned SigWrong
  cases hd : sp.messageDigest p.metadata (sp.partHash p.part) with
  | error e => simp
  | ok d =>
    cases hs : sp.deSig p.sig with
    | none => simp
    | some s => cases hv : sp.verify who d s <;> simp [hv]

theorem digest_total (mt : sp.MetaTotal) (m : Metadata) (h : Bytes) : ∃ d, sp.messageDigest m h = .ok d := by
  obtain ⟨b, hb⟩ := mt m
  exact ⟨_, by unfold SP.messageDigest; rw [hb]⟩

theorem sig_total (mt : sp.MetaTotal) (who : sp.Id) {k : PartKind} (p : SignedPart k) :
    SigValid who p ∨ SigUndecodable sp p ∨ SigWrong who p := by
  obtain ⟨d, hd⟩ := digest_total mt p.metadata (sp.partHash p.part)
  unfold SigValid SigUndecodable SigWrong
  cases hs : sp.deSig p.sig with
  | none => simp
  | some s => cases hv : sp.verify who d s <;> simp [hd, hv]

theorem SigValid.not_undecodable {who : sp.Id} {k : PartKind} {p : SignedPart k} (h : SigValid who p) :
    ¬ SigUndecodable sp p := by
  obtain ⟨d, s, -, hs, -⟩ := h
  simp [SigUndecodable, hs]

theorem SigValid.not_wrong {who : sp.Id} {k : PartKind} {p : SignedPart k} (h : SigValid who p) : ¬ SigWrong who p := by
  obtain ⟨d, s, hd, hs, hv⟩ := h
  rintro ⟨d', s', hd', hs', hv'⟩
  rw [hd] at hd'
  rw [hs] at hs'
  cases hd'
  cases hs'
  rw [hv] at hv'
  cases hv'

theorem SigWrong.not_undecodable {who : sp.Id} {k : PartKind} {p : SignedPart k} (h : SigWrong who p) :
    ¬ SigUndecodable sp p := by
  obtain ⟨d, s, -, hs, -⟩ := h
  simp [SigUndecodable, hs]

theorem hasError_iff {s : Session P} {a : Accum P} {who : sp.Id} :
    (s.transcript.isBanned who || a.isBanned who) = true ↔ HasError s a who := by
  simp [Transcript.isBanned, Accum.isBanned, HasError, BMap.contains_iff, or_assoc]

theorem unify_some {m : Message sp} {c : CheckedMessage} :
    m.unifyMetadata = some c ↔ ¬ Incoherent m ∧ c = ⟨m.direct.metadata, m.direct, m.echo, m.normal⟩ := by
  unfold Message.unifyMetadata Incoherent
  split
  · rename_i h
    simp [h]
  · split
    · rename_i h1 h2
      simp [h2]
    · rename_i h1 h2
      have h1' : m.echo.metadata = m.direct.metadata := by simpa using h1
      have h2' : m.normal.metadata = m.direct.metadata := by simpa using h2
      simp [h1', h2', eq_comm]

theorem unify_none {m : Message sp} : m.unifyMetadata = none ↔ Incoherent m := by
  unfold Message.unifyMetadata Incoherent
  split
  · rename_i h
    simp [h]
  · split
    · rename_i h1 h2
      simp [h2]
    · rename_i h1 h2
      simp only [ne_eq, not_not] at h1 h2
      simp [h1, h2]

theorem isCached_iff {a : Accum P} {who : sp.Id} {r : RoundId} : a.isCached who r = true ↔ IsCached a who r := by
  unfold Accum.isCached IsCached
  cases h : a.cached.get? who with
  | none => simp
  | some e => simp [BMap.contains_iff]

theorem isCached_false {a : Accum P} {who : sp.Id} {r : RoundId} : a.isCached who r = false ↔ ¬ IsCached a who r := by
  rw [← isCached_iff]
  simp

/-- The echo id of a session's round exists whenever an echo round is to follow; true for every session in which the
current round is not itself an echo round. -/
def EchoWellFormed (s : Session P) : Prop := s.echoInfo.isSome = true → s.transition.id.isEcho = false

theorem simultaneous_ok {s : Session P} (h : EchoWellFormed s) :
    ∃ acc, s.transition.simultaneousRounds s.echoInfo.isSome = .ok acc ∧
      ∀ r, acc.contains r = true ↔ Simultaneous s r := by
  cases hs : s.transition.simultaneousRounds s.echoInfo.isSome with
  | error e =>
    have := ((C36_simultaneous s.transition s.echoInfo.isSome).2).1 ⟨e, hs⟩
    rw [h this.1] at this
    simp at this
  | ok acc => exact ⟨acc, rfl, (C36_simultaneous _ _).1 _ hs⟩

theorem not_banned_accum {s : Session P} {a : Accum P} {who : sp.Id} (h : ¬ HasError s a who) :
    a.unprovable.contains who = false ∧ a.provable.contains who = false ∧
      s.transcript.unprovable.contains who = false ∧ s.transcript.provable.contains who = false := by
  unfold HasError at h
  simp only [BMap.contains_eq_false]
  refine ⟨?_, ?_, ?_, ?_⟩ <;>
  · apply Option.eq_none_iff_forall_ne_some.2
    intro e he
    exact h (by simp [he])

theorem reject_eq {s : Session P} {a : Accum P} {who : sp.Id} (h : ¬ HasError s a who) (e : RErr) :
    Session.reject a who e = .ok ({ a with unprovable := a.unprovable.insert who e }, .error e) := by
  unfold Session.reject Accum.registerUnprovable
  simp [(not_banned_accum h).1]

theorem cacheMessage_ok {a a' : Accum P} {m : VerifiedMessage sp} :
    a.cacheMessage m = .ok a' ↔
      ((a.cached.get? m.sender).getD BMap.empty).contains m.metadata.roundId = false ∧
      a' = { a with cached := a.cached.insert m.sender (((a.cached.get? m.sender).getD BMap.empty).insert m.metadata.roundId m) } := by
  unfold Accum.cacheMessage
  by_cases h : ((a.cached.get? m.sender).getD BMap.empty).contains m.metadata.roundId = true
  · simp [h]
  · simp only [Bool.not_eq_true] at h
    simp [h, eq_comm]

theorem checked_verify_ok {who : sp.Id} {c : CheckedMessage} {vm : VerifiedMessage sp} :
    c.verify sp who = .ok vm ↔
      SigValid who c.direct ∧ SigValid who c.echo ∧ SigValid who c.normal ∧
        vm = ⟨who, c.metadata, c.direct, c.echo, c.normal⟩ := by
  unfold CheckedMessage.verify
  cases h1 : c.direct.verify sp who with
  | error e =>
    simp only [reduceCtorEq, false_iff, not_and]
    intro h
    rw [← verifySigned_ok (u := ())] at h
    rw [h1] at h
    cases h
  | ok u =>
    have v1 := verifySigned_ok.1 h1
    cases h2 : c.echo.verify sp who with
    | error e =>
      simp only [reduceCtorEq, false_iff, not_and]
      intro _ h
      rw [← verifySigned_ok (u := ())] at h
      rw [h2] at h
      cases h
    | ok u =>
      have v2 := verifySigned_ok.1 h2
      cases h3 : c.normal.verify sp who with
      | error e =>
        simp only [reduceCtorEq, false_iff, not_and]
        intro _ _ h
        rw [← verifySigned_ok (u := ())] at h
        rw [h3] at h
        cases h
      | ok u =>
        have v3 := verifySigned_ok.1 h3
        simp [v1, v2, v3, eq_comm]

theorem checked_verify_bad (mt : sp.MetaTotal) {who : sp.Id} {m : Message sp} :
    (CheckedMessage.verify sp ⟨m.direct.metadata, m.direct, m.echo, m.normal⟩ who = .error .invalidSignature ↔
      FirstBadUndecodable who m) ∧
    (CheckedMessage.verify sp ⟨m.direct.metadata, m.direct, m.echo, m.normal⟩ who = .error .signatureMismatch ↔
      FirstBadWrong who m) := by
  unfold CheckedMessage.verify FirstBadUndecodable FirstBadWrong
  have tot : ∀ {k : PartKind} (p : SignedPart k),
      (SigValid who p ∧ p.verify sp who = .ok ()) ∨
      (SigUndecodable sp p ∧ ¬ SigWrong who p ∧ ¬ SigValid who p ∧ p.verify sp who = .error .invalidSignature) ∨
      (SigWrong who p ∧ ¬ SigUndecodable sp p ∧ ¬ SigValid who p ∧ p.verify sp who = .error .signatureMismatch) := by
    intro k p
    rcases sig_total mt who p with h | h | h
    · exact .inl ⟨h, verifySigned_ok.2 h⟩
    · exact .inr (.inl ⟨h, fun w => w.not_undecodable h, fun w => w.not_undecodable h,
        verify_undecodable.2 ⟨digest_total mt _ _, h⟩⟩)
    · exact .inr (.inr ⟨h, h.not_undecodable, fun w => w.not_wrong h, verify_wrong.2 h⟩)
  rcases tot m.direct with ⟨v1, e1⟩ | ⟨u1, w1, v1, e1⟩ | ⟨w1, u1, v1, e1⟩
  · rcases tot m.echo with ⟨v2, e2⟩ | ⟨u2, w2, v2, e2⟩ | ⟨w2, u2, v2, e2⟩
    · rcases tot m.normal with ⟨v3, e3⟩ | ⟨u3, w3, v3, e3⟩ | ⟨w3, u3, v3, e3⟩
      · have := v1.not_wrong; have := v1.not_undecodable; have := v2.not_wrong; have := v2.not_undecodable
        have := v3.not_wrong; have := v3.not_undecodable
        simp [*]
      · have := v1.not_wrong; have := v1.not_undecodable; have := v2.not_wrong; have := v2.not_undecodable
        simp [*]
      · have := v1.not_wrong; have := v1.not_undecodable; have := v2.not_wrong; have := v2.not_undecodable
        simp [*]
    · have := v1.not_wrong; have := v1.not_undecodable
      simp [*]
    · have := v1.not_wrong; have := v1.not_undecodable
      simp [*]
  · simp [*]
  · simp [*]

end Manul
