import Verif.Lemmas.Preprocess
import Verif.Model.Demo
import Verif.Lemmas.Toy

/-!
# C01, C02: accepting incoming messages
-/

namespace Manul

variable {sp : SP} {P : Proto sp}

/-! ## C01 -/

theorem verifyAndRoute_accept {a a' : Accum P} {sender : sp.Id} {c : CheckedMessage} {b : Bool} {o : PreOutcome sp}
    (h : Session.verifyAndRoute a sender c b = .ok (a', o)) :
    (∀ vm, o = .toProcess vm → b = true ∧ c.verify sp sender = .ok vm) ∧
      (o = .cached → b = false ∧ ∃ vm, c.verify sp sender = .ok vm ∧ a.cacheMessage vm = .ok a') := by
  unfold Session.verifyAndRoute at h
  split at h
  · unfold Session.reject at h
    split at h <;> cases h
    simp
  · unfold Session.reject at h
    split at h <;> cases h
    simp
  · cases h
  · rename_i vm hvm
    split at h
    · rename_i hb
      split at h <;> cases h
      simp [hb, hvm]
    · rename_i hb
      split at h <;> cases h
      rename_i hc
      simp [hb, hvm, hc]

theorem reject_not_accept {a a' : Accum P} {who : sp.Id} {e : RErr} {o : PreOutcome sp}
    (h : Session.reject a who e = .ok (a', o)) : (∀ vm, o ≠ .toProcess vm) ∧ o ≠ .cached := by
  unfold Session.reject at h
  split at h <;> cases h
  simp

/-- What acceptance means, in one lemma: the message is coherent, for this session, and went through signature
verification. -/
theorem preprocess_accept {s : Session P} {a a' : Accum P} {sender : sp.Id} {m : Message sp} {o : PreOutcome sp}
    (h : s.preprocess a sender m = .ok (a', o)) (ho : o = .cached ∨ ∃ vm, o = .toProcess vm) :
    ¬ HasError s a sender ∧ ¬ Incoherent m ∧ m.direct.metadata.sessionId = s.sessionId ∧
      ((m.direct.metadata.roundId = s.transition.id ∧ a.isProcessing sender = false ∧
          Session.verifyAndRoute a sender ⟨m.direct.metadata, m.direct, m.echo, m.normal⟩ true = .ok (a', o)) ∨
        (m.direct.metadata.roundId ≠ s.transition.id ∧ Simultaneous s m.direct.metadata.roundId ∧
          a.isCached sender m.direct.metadata.roundId = false ∧
          Session.verifyAndRoute a sender ⟨m.direct.metadata, m.direct, m.echo, m.normal⟩ false = .ok (a', o))) := by
  have hrej : ∀ e, Session.reject a sender e ≠ .ok (a', o) := by
    intro e he
    have := reject_not_accept he
    rcases ho with rfl | ⟨vm, rfl⟩
    · exact this.2 rfl
    · exact this.1 vm rfl
  unfold Session.preprocess at h
  split at h
  · cases h
    rcases ho with ho | ⟨vm, ho⟩ <;> cases ho
  · rename_i hb
    rw [hasError_iff] at hb
    split at h
    · exact absurd h (hrej _)
    · rename_i c hc
      obtain ⟨hinc, rfl⟩ := unify_some.1 hc
      split at h
      · exact absurd h (hrej _)
      · rename_i hsid
        simp only [ne_eq, not_not] at hsid
        split at h
        · cases h
        · rename_i acc hacc
          refine ⟨hb, hinc, hsid, ?_⟩
          split at h
          · rename_i hr
            split at h
            · exact absurd h (hrej _)
            · rename_i hp
              exact .inl ⟨hr, by simpa using hp, h⟩
          · rename_i hr
            split at h
            · rename_i hacc'
              split at h
              · exact absurd h (hrej _)
              · rename_i hca
                refine .inr ⟨hr, ?_, by simpa using hca, h⟩
                exact ((C36_simultaneous _ _).1 _ hacc _).1 hacc'
            · exact absurd h (hrej _)

theorem authentic_of_verify {who : sp.Id} {m : Message sp} {sid : Bytes} {vm : VerifiedMessage sp}
    (hinc : ¬ Incoherent m) (hsid : m.direct.metadata.sessionId = sid)
    (h : CheckedMessage.verify sp ⟨m.direct.metadata, m.direct, m.echo, m.normal⟩ who = .ok vm) :
    Authentic who sid m.direct.metadata.roundId m.direct m.echo m.normal ∧ vm = verifiedOf who m := by
  obtain ⟨h1, h2, h3, hv⟩ := checked_verify_ok.1 h
  have hm : m.direct.metadata = ⟨sid, m.direct.metadata.roundId⟩ := by rw [← hsid]
  unfold Incoherent at hinc
  simp only [not_or, ne_eq, not_not] at hinc
  exact ⟨⟨⟨hm, h1⟩, ⟨hinc.1.trans hm, h2⟩, ⟨hinc.2.trans hm, h3⟩⟩, hv⟩

/-- A message returned for processing is authentic: from the claimed sender, for this session and the current round;
and what is returned is that message. -/
theorem C01_to_process_authentic (s : Session P) (a a' : Accum P) (sender : sp.Id) (m : Message sp)
    (vm : VerifiedMessage sp) (h : s.preprocess a sender m = .ok (a', .toProcess vm)) :
    Authentic sender s.sessionId s.transition.id m.direct m.echo m.normal ∧
      vm.sender = sender ∧ vm.direct = m.direct ∧ vm.echo = m.echo ∧ vm.normal = m.normal ∧
      vm.metadata = ⟨s.sessionId, s.transition.id⟩ := by
  obtain ⟨-, hinc, hsid, ⟨hr, -, hv⟩ | ⟨hr, -, -, hv⟩⟩ := preprocess_accept h (.inr ⟨vm, rfl⟩)
  · obtain ⟨-, hvm⟩ := (verifyAndRoute_accept hv).1 vm rfl
    obtain ⟨hauth, rfl⟩ := authentic_of_verify hinc hsid hvm
    rw [hr] at hauth
    exact ⟨hauth, rfl, rfl, rfl, rfl, hauth.1.1⟩
  · have := ((verifyAndRoute_accept hv).1 vm rfl).1
    cases this

/-- A message that is kept for later is authentic: from the claimed sender, for this session and one of the declared
simultaneous rounds; and it is that message that is kept. -/
theorem C01_cached_authentic (s : Session P) (a a' : Accum P) (sender : sp.Id) (m : Message sp)
    (h : s.preprocess a sender m = .ok (a', .cached)) :
    ∃ rid, rid ≠ s.transition.id ∧ Simultaneous s rid ∧
      Authentic sender s.sessionId rid m.direct m.echo m.normal ∧
      ∃ e, a'.cached.get? sender = some e ∧
        e.get? rid = some ⟨sender, ⟨s.sessionId, rid⟩, m.direct, m.echo, m.normal⟩ := by
  obtain ⟨-, hinc, hsid, ⟨hr, -, hv⟩ | ⟨hr, hsim, -, hv⟩⟩ := preprocess_accept h (.inl rfl)
  · have := ((verifyAndRoute_accept hv).2 rfl).1
    cases this
  · obtain ⟨-, vm, hvm, hc⟩ := (verifyAndRoute_accept hv).2 rfl
    obtain ⟨hauth, rfl⟩ := authentic_of_verify hinc hsid hvm
    refine ⟨_, hr, hsim, hauth, ?_⟩
    obtain ⟨-, rfl⟩ := cacheMessage_ok.1 hc
    refine ⟨_, (BMap.get?_insert _ _ _ _).trans (if_pos rfl), ?_⟩
    simp only [verifiedOf]
    rw [BMap.get?_insert, if_pos rfl, ← hauth.1.1]

/-! ## C02 -/

/-- For every message exactly one row of the table applies. -/
theorem C02_exactly_one_row (mt : sp.MetaTotal) (s : Session P) (a : Accum P) (sender : sp.Id) (m : Message sp) :
    ∃ v, Row s a sender m v ∧ ∀ v', Row s a sender m v' → v' = v := by
  have tri : FirstBadUndecodable sender m ∨ FirstBadWrong sender m ∨
      (SigValid sender m.direct ∧ SigValid sender m.echo ∧ SigValid sender m.normal) := by
    unfold FirstBadUndecodable FirstBadWrong
    rcases sig_total mt sender m.direct with h | h | h
    · rcases sig_total mt sender m.echo with h' | h' | h'
      · rcases sig_total mt sender m.normal with h'' | h'' | h''
        · simp [*]
        · simp [*]
        · simp [*]
      · simp [*]
      · simp [*]
    · simp [*]
    · simp [*]
  have ex1 : ¬ (FirstBadUndecodable sender m ∧ FirstBadWrong sender m) := by
    rintro ⟨h1, h2⟩
    rw [← (checked_verify_bad mt).1] at h1
    rw [← (checked_verify_bad mt).2, h1] at h2
    cases h2
  have ex2 : ∀ sid rid, Authentic sender sid rid m.direct m.echo m.normal →
      ¬ FirstBadUndecodable sender m ∧ ¬ FirstBadWrong sender m := by
    rintro sid rid ⟨⟨-, h1⟩, ⟨-, h2⟩, ⟨-, h3⟩⟩
    have := checked_verify_ok (sp := sp) (who := sender) (c := ⟨m.direct.metadata, m.direct, m.echo, m.normal⟩)
      (vm := ⟨sender, m.direct.metadata, m.direct, m.echo, m.normal⟩) |>.2 ⟨h1, h2, h3, rfl⟩
    rw [← (checked_verify_bad mt).1, ← (checked_verify_bad mt).2, this]
    simp
  have auth : ¬ Incoherent m → m.direct.metadata.sessionId = s.sessionId →
      (SigValid sender m.direct ∧ SigValid sender m.echo ∧ SigValid sender m.normal) →
      Authentic sender s.sessionId m.direct.metadata.roundId m.direct m.echo m.normal := by
    rintro hinc hsid ⟨h1, h2, h3⟩
    exact (authentic_of_verify (vm := verifiedOf sender m) hinc hsid (checked_verify_ok.2 ⟨h1, h2, h3, rfl⟩)).1
  by_cases hb : HasError s a sender
  · refine ⟨_, .banned hb, ?_⟩
    intro v' h'
    cases h' <;> simp_all [ForThisRound, ForOtherRound]
  by_cases hi : Incoherent m
  · refine ⟨_, .metadata hb hi, ?_⟩
    intro v' h'
    cases h' <;> simp_all [ForThisRound, ForOtherRound]
  by_cases hs : m.direct.metadata.sessionId = s.sessionId
  swap
  · refine ⟨_, .session hb hi hs, ?_⟩
    intro v' h'
    cases h' <;> simp_all [ForThisRound, ForOtherRound]
  by_cases hr : m.direct.metadata.roundId = s.transition.id
  · have ht : ForThisRound s a sender m := ⟨hb, hi, hs, hr⟩
    have hno : ¬ ForOtherRound s a sender m := fun h => h.2.2.2.1 hr
    by_cases hp : a.processing.contains sender = true
    · refine ⟨_, .duplicate ht hp, ?_⟩
      intro v' h'
      cases h' <;> simp_all
    · simp only [Bool.not_eq_true] at hp
      rcases tri with h | h | h
      · refine ⟨_, .badSignature₁ ht hp h, ?_⟩
        intro v' h'
        cases h' <;> first | rfl | (exfalso; simp_all; done) | (exfalso; exact (ex2 _ _ ‹_›).1 h)
      · refine ⟨_, .mismatch₁ ht hp h, ?_⟩
        intro v' h'
        cases h' <;> first | rfl | (exfalso; simp_all; done) | (exfalso; exact (ex2 _ _ ‹_›).2 h)
      · have hA := auth hi hs h
        rw [hr] at hA
        refine ⟨_, .process ht hp hA, ?_⟩
        intro v' h'
        cases h' <;> first
          | rfl
          | (exfalso; exact (ex2 _ _ hA).1 ‹_›)
          | (exfalso; exact (ex2 _ _ hA).2 ‹_›)
          | (exfalso; simp_all; done)
  · have hnt : ¬ ForThisRound s a sender m := fun h => hr h.2.2.2
    by_cases hsim : Simultaneous s m.direct.metadata.roundId
    swap
    · have hno : ¬ ForOtherRound s a sender m := fun h => hsim h.2.2.2.2
      refine ⟨_, .round hb hi hs hr hsim, ?_⟩
      intro v' h'
      cases h' <;> simp_all
    have ho : ForOtherRound s a sender m := ⟨hb, hi, hs, hr, hsim⟩
    by_cases hc : IsCached a sender m.direct.metadata.roundId
    · refine ⟨_, .cachedTwice ho hc, ?_⟩
      intro v' h'
      cases h' <;> simp_all
    · rcases tri with h | h | h
      · refine ⟨_, .badSignature₂ ho hc h, ?_⟩
        intro v' h'
        cases h' <;> first | rfl | (exfalso; simp_all; done) | (exfalso; exact (ex2 _ _ ‹_›).1 h)
      · refine ⟨_, .mismatch₂ ho hc h, ?_⟩
        intro v' h'
        cases h' <;> first | rfl | (exfalso; simp_all; done) | (exfalso; exact (ex2 _ _ ‹_›).2 h)
      · have hA := auth hi hs h
        refine ⟨_, .keep ho hc hA, ?_⟩
        intro v' h'
        cases h' <;> first
          | rfl
          | (exfalso; exact (ex2 _ _ hA).1 ‹_›)
          | (exfalso; exact (ex2 _ _ hA).2 ‹_›)
          | (exfalso; simp_all; done)

theorem verifyAndRoute_bad {s : Session P} {a : Accum P} {sender : sp.Id} {m : Message sp} (b : Bool)
    (mt : sp.MetaTotal) (hb : ¬ HasError s a sender) :
    (FirstBadUndecodable sender m →
      Session.verifyAndRoute a sender ⟨m.direct.metadata, m.direct, m.echo, m.normal⟩ b =
        .ok ({ a with unprovable := a.unprovable.insert sender .badSignature }, .error .badSignature)) ∧
    (FirstBadWrong sender m →
      Session.verifyAndRoute a sender ⟨m.direct.metadata, m.direct, m.echo, m.normal⟩ b =
        .ok ({ a with unprovable := a.unprovable.insert sender .sigMismatch }, .error .sigMismatch)) := by
  refine ⟨?_, ?_⟩
  · intro h
    rw [← (checked_verify_bad mt).1] at h
    unfold Session.verifyAndRoute
    simp only [h, reject_eq hb]
  · intro h
    rw [← (checked_verify_bad mt).2] at h
    unfold Session.verifyAndRoute
    simp only [h, reject_eq hb]

/-- Preprocessing does what the row that applies says: the outcome and the complete new accumulator.  In particular no
`LocalError` is raised, a refusal records exactly one unprovable error for the sender, and a banned sender changes
nothing. -/
theorem C02_decision_table (mt : sp.MetaTotal) (s : Session P) (wf : EchoWellFormed s) (a : Accum P) (sender : sp.Id)
    (m : Message sp) (v : Verdict) (h : Row s a sender m v) :
    s.preprocess a sender m = .ok (v.effect a sender m) := by
  obtain ⟨acc, hacc, hmem⟩ := simultaneous_ok wf
  have nb : ∀ {who}, ¬ HasError s a who → (s.transcript.isBanned who || a.isBanned who) = false := by
    intro who hn
    rw [← hasError_iff] at hn
    simpa using hn
  have go : ∀ (hb : ¬ HasError s a sender) (hi : ¬ Incoherent m)
      (hs : m.direct.metadata.sessionId = s.sessionId), s.preprocess a sender m =
        if m.direct.metadata.roundId = s.roundId then
          if a.isProcessing sender then Session.reject a sender .alreadyProcessing
          else Session.verifyAndRoute a sender ⟨m.direct.metadata, m.direct, m.echo, m.normal⟩ true
        else if acc.contains m.direct.metadata.roundId then
          if a.isCached sender m.direct.metadata.roundId then Session.reject a sender .alreadyCached
          else Session.verifyAndRoute a sender ⟨m.direct.metadata, m.direct, m.echo, m.normal⟩ false
        else Session.reject a sender .unexpectedRound := by
    intro hb hi hs
    unfold Session.preprocess
    rw [nb hb, if_neg (by simp), (unify_some (c := ⟨m.direct.metadata, m.direct, m.echo, m.normal⟩)).2 ⟨hi, rfl⟩]
    simp only [hs, ne_eq, not_true, if_false, hacc]
  have goThis : ForThisRound s a sender m → a.processing.contains sender = false →
      s.preprocess a sender m =
        Session.verifyAndRoute a sender ⟨m.direct.metadata, m.direct, m.echo, m.normal⟩ true := by
    rintro ⟨hb, hi, hs, hr⟩ hp
    rw [go hb hi hs, if_pos (by simpa [Session.roundId] using hr), if_neg (by simp [Accum.isProcessing, hp])]
  have goOther : ForOtherRound s a sender m → ¬ IsCached a sender m.direct.metadata.roundId →
      s.preprocess a sender m =
        Session.verifyAndRoute a sender ⟨m.direct.metadata, m.direct, m.echo, m.normal⟩ false := by
    rintro ⟨hb, hi, hs, hr, hsim⟩ hc
    rw [go hb hi hs, if_neg (by simpa [Session.roundId] using hr), if_pos ((hmem _).2 hsim),
      if_neg (by rw [isCached_false.2 hc]; simp)]
  cases h with
  | banned hb =>
    unfold Session.preprocess
    rw [if_pos (hasError_iff.2 hb)]
    rfl
  | metadata hb hi =>
    unfold Session.preprocess
    rw [nb hb, if_neg (by simp), unify_none.2 hi]
    simp only [reject_eq hb]
    rfl
  | session hb hi hs =>
    unfold Session.preprocess
    rw [nb hb, if_neg (by simp), (unify_some (c := ⟨m.direct.metadata, m.direct, m.echo, m.normal⟩)).2 ⟨hi, rfl⟩]
    simp only [ne_eq, hs, not_false_eq_true, if_true, reject_eq hb]
    rfl
  | round hb hi hs hr hsim =>
    rw [go hb hi hs, if_neg (by simpa [Session.roundId] using hr), if_neg (by rw [hmem]; exact hsim), reject_eq hb]
    rfl
  | duplicate ht hp =>
    obtain ⟨hb, hi, hs, hr⟩ := ht
    rw [go hb hi hs, if_pos (by simpa [Session.roundId] using hr), if_pos (by simpa [Accum.isProcessing] using hp),
      reject_eq hb]
    rfl
  | cachedTwice ho hc =>
    obtain ⟨hb, hi, hs, hr, hsim⟩ := ho
    rw [go hb hi hs, if_neg (by simpa [Session.roundId] using hr), if_pos ((hmem _).2 hsim),
      if_pos (isCached_iff.2 hc), reject_eq hb]
    rfl
  | badSignature₁ ht hp hbad => rw [goThis ht hp, (verifyAndRoute_bad true mt ht.1).1 hbad]; rfl
  | badSignature₂ ho hc hbad => rw [goOther ho hc, (verifyAndRoute_bad false mt ho.1).1 hbad]; rfl
  | mismatch₁ ht hp hbad => rw [goThis ht hp, (verifyAndRoute_bad true mt ht.1).2 hbad]; rfl
  | mismatch₂ ho hc hbad => rw [goOther ho hc, (verifyAndRoute_bad false mt ho.1).2 hbad]; rfl
  | process ht hp hA =>
    have hv : CheckedMessage.verify sp ⟨m.direct.metadata, m.direct, m.echo, m.normal⟩ sender =
      .ok (verifiedOf sender m) := checked_verify_ok.2 ⟨hA.1.2, hA.2.1.2, hA.2.2.2, rfl⟩
    rw [goThis ht hp]
    unfold Session.verifyAndRoute
    simp only [hv, if_true, Accum.markProcessing, verifiedOf, hp, Bool.false_eq_true, if_false]
    rfl
  | keep ho hc hA =>
    have hv : CheckedMessage.verify sp ⟨m.direct.metadata, m.direct, m.echo, m.normal⟩ sender =
      .ok (verifiedOf sender m) := checked_verify_ok.2 ⟨hA.1.2, hA.2.1.2, hA.2.2.2, rfl⟩
    rw [goOther ho hc]
    unfold Session.verifyAndRoute
    have hcc : (((a.cached.get? sender).getD BMap.empty).contains m.direct.metadata.roundId) = false := by
      rw [← Bool.not_eq_true, BMap.contains_iff]
      rintro ⟨x, hx⟩
      apply hc
      cases he : a.cached.get? sender with
      | none => simp [he] at hx
      | some e => exact ⟨e, x, he, by simpa [he] using hx⟩
    simp only [hv, Bool.false_eq_true, if_false, Accum.cacheMessage, verifiedOf, hcc]
    rfl

/-- The complete answer: preprocessing is a total function of the table. -/
theorem C02_outcome_determined (mt : sp.MetaTotal) (s : Session P) (wf : EchoWellFormed s) (a : Accum P)
    (sender : sp.Id) (m : Message sp) :
    ∃ v, Row s a sender m v ∧ s.preprocess a sender m = .ok (v.effect a sender m) := by
  obtain ⟨v, hv, -⟩ := C02_exactly_one_row mt s a sender m
  exact ⟨v, hv, C02_decision_table mt s wf a sender m v hv⟩

/-! ## Examples for C01 and C02 -/

/-- What a fresh session of party 1 (of 1, 2, 3; an echo round follows) answers to a message. -/
def preKind (rid : RoundId) (sender signer : U8) (sid : Bytes) : OutKind :=
  match demoSession true 3 [1, 2, 3] 1, demoMsg signer sid rid 1 (some [5]) (some [2]) (some [7]) with
  | .ok s, .ok m => outKind (s.preprocess s.makeAccum sender m)
  | .error e, _ => .failed e
  | _, .error e => .failed e

/-- Messages for the current round are accepted for processing, messages for the next (echo) round and for the child round
are cached, a message for another session, another round or with somebody else's signature is refused. -/
example : preKind (RoundId.new 1) 2 2 [9] = .process ∧ preKind ⟨1, [], true⟩ 2 2 [9] = .cache ∧
    preKind (RoundId.new 2) 2 2 [9] = .cache ∧ preKind (RoundId.new 1) 2 2 [8] = .refuse .session ∧
    preKind (RoundId.new 3) 2 2 [9] = .refuse .unexpectedRound ∧
    preKind (RoundId.new 1) 2 3 [9] = .refuse .sigMismatch := by decide +kernel

/-! ## C45 -/

/-- C45 as stated fails: the destination written in a message plays no role. -/
theorem C45_destination_ignored (s : Session P) (a : Accum P) (sender : sp.Id) (m : Message sp) (d : sp.Id) :
    s.preprocess a sender { m with destination := d } = s.preprocess a sender m := rfl

/-- The message party 2 makes for party 3, given to party 1. -/
def misdelivered : Except LErr (U8 × OutKind) :=
  match demoSession true 3 [1, 2, 3] 1, demoSession true 3 [1, 2, 3] 2 with
  | .ok s1, .ok s2 =>
    match s2.makeMessage (0 : Nat) (3 : U8) with
    | .ok (m, _) => .ok (m.destination, outKind (s1.preprocess s1.makeAccum (2 : U8) m))
    | .error e => .error e
  | .error e, _ => .error e
  | _, .error e => .error e

/-- C45 as stated fails: an honest party's direct message for party 3 is accepted by party 1. -/
theorem C45_violation : misdelivered = .ok (3, .process) := by decide +kernel

end Manul
