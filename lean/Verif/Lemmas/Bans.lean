import Verif.Spec.Bans
import Verif.Props.Preprocess
import Verif.Lemmas.Open
import Verif.Lemmas.Honest

/-! # The causes of errors -/

namespace Manul

variable {sp : SP} {P : Proto sp} {V : Session P → Prop} {s₀ : Session P} {l : List (Delivery P)}

theorem Cause.mono {x : sp.Id} {r : RErr} (h : Cause V l x r) (d : Delivery P) : Cause V (l ++ [d]) x r := by
  cases h with
  | message h1 h2 h3 h4 h5 => exact .message (List.mem_append_left _ h1) h2 h3 h4 h5
  | @repeated l₁ l₂ d1 d' _ h1 h2 h3 h4 h5 h6 h7 =>
    exact .repeated (l₂ := l₂ ++ [d]) (by rw [h1]; simp) h2 h3 h4 h5 h6 h7
  | processed h1 h2 h3 h4 h5 => exact .processed (List.mem_append_left _ h1) h2 h3 h4 h5

/-- Some message was given to the session in the name of the party. -/
theorem Cause.delivered {x : sp.Id} {r : RErr} (h : Cause V l x r) : ∃ d ∈ l, d.sender = x := by
  cases h with
  | message h1 h2 => exact ⟨_, h1, h2⟩
  | repeated h1 h2 h3 h4 => exact ⟨_, by rw [h1]; exact List.mem_append_left _ h2, h4⟩
  | processed h1 h2 => exact ⟨_, h1, h2⟩

/-- The causes if the messages in the name of the party are signed by it. -/
theorem Cause.authenticated {sid : Bytes} {x : sp.Id} {r : RErr} (hses : ∀ d ∈ l, d.session.sessionId = sid)
    (hs : ∀ d ∈ l, d.sender = x → d.Signed sid) (ho : OncePerRound x l) (hc : Cause V l x r) :
    (r = .unexpectedRound ∧ ∃ d ∈ l, d.sender = x ∧ d.message.direct.metadata.roundId ≠ d.session.transition.id ∧
        ¬ Simultaneous d.session d.message.direct.metadata.roundId) ∨
      ∃ d ∈ l, d.sender = x ∧ ∃ s, V s ∧ d.message.direct.metadata.roundId = s.transition.id ∧
        s.round.receive x ⟨d.message.echo.part, d.message.normal.part, d.message.direct.part⟩ = .error (.unprovable r) := by
  have key : ∀ d ∈ l, d.sender = x → ∀ r, Row d.session d.accum x d.message (.refuse r) →
      r ≠ .alreadyProcessing → r ≠ .alreadyCached → r = .unexpectedRound ∧
        d.message.direct.metadata.roundId ≠ d.session.transition.id ∧ ¬ Simultaneous d.session d.message.direct.metadata.roundId := by
    intro d hd hdx r hrow h1 h2
    obtain ⟨rid, hau⟩ := hs d hd hdx
    rw [hdx] at hau
    have hds : d.session.sessionId = sid := hses d hd
    have hco := authentic_coherent hau
    have hsd : d.message.direct.metadata.sessionId = sid := by rw [hau.1.1]
    have nb : ∀ {k : PartKind} {p : SignedPart k}, SigValid x p → ¬ SigUndecodable sp p := by
      rintro k p ⟨_, sig, -, g, -⟩ g'
      rw [SigUndecodable, g] at g'
      cases g'
    have nw : ∀ {k : PartKind} {p : SignedPart k}, SigValid x p → ¬ SigWrong x p := by
      rintro k p ⟨d1, s1, g1, g2, g3⟩ ⟨d2, s2, g4, g5, g6⟩
      rw [g1, Except.ok.injEq] at g4
      rw [g2, Option.some.injEq] at g5
      subst g4 g5
      rw [g3] at g6
      cases g6
    have u : ¬ FirstBadUndecodable x d.message := by
      rintro (g | ⟨-, g⟩ | ⟨-, -, g⟩)
      · exact nb hau.1.2 g
      · exact nb hau.2.1.2 g
      · exact nb hau.2.2.2 g
    have w : ¬ FirstBadWrong x d.message := by
      rintro (g | ⟨-, g⟩ | ⟨-, -, g⟩)
      · exact nw hau.1.2 g
      · exact nw hau.2.1.2 g
      · exact nw hau.2.2.2 g
    cases hrow with
    | metadata _ g => exact absurd g hco
    | session _ _ g => exact absurd (hsd.trans hds.symm) g
    | round _ _ _ g1 g2 => exact ⟨rfl, g1, g2⟩
    | duplicate => exact absurd rfl h1
    | cachedTwice => exact absurd rfl h2
    | badSignature₁ _ _ g => exact absurd g u
    | badSignature₂ _ _ g => exact absurd g u
    | mismatch₁ _ _ g => exact absurd g w
    | mismatch₂ _ _ g => exact absurd g w
  cases hc with
  | @message d _ h1 h2 h3 h4 h5 =>
    obtain ⟨g1, g2⟩ := key d h1 h2 r h3 h4 h5
    exact .inl ⟨g1, d, h1, h2, g2⟩
  | @repeated l₁ l₂ d d' _ h1 h2 h3 h4 h5 h6 h7 =>
    exfalso
    rw [OncePerRound, h1, List.pairwise_append] at ho
    refine ho.2.2 d' h2 d (List.mem_cons_self ..) h4 h3 ?_
    rw [h7.1.1]
  | @processed d s _ h1 h2 h3 h4 h5 =>
    exact .inr ⟨d, h1, h2, s, h3, by rw [h4.1.1], h5⟩

theorem ReachVia.reach {st : RunState P} (h : ReachVia s₀ l st) : Reach s₀ st := by
  induction h with
  | start rng => exact .start rng
  | step _ _ hs ih => exact ih.step hs
  | deliver _ hs ih => exact ih.step hs

/-- What adding a processed message does to the errors without proof. -/
theorem addProcessed_unprovable {t : Transcript sp} {a a' : Accum P} {p : Processed P} (h : a.addProcessed t p = .ok a') :
    a'.processing = a.processing ∧ a'.cached = a.cached ∧
      (a'.unprovable = a.unprovable ∨ ∃ e, p.result = .error (.unprovable e) ∧
        a'.unprovable = a.unprovable.insert p.message.sender e) := by
  have reg : ∀ {b b' : Accum P} {who : sp.Id} {ev : Evidence sp}, b.registerProvable who ev = .ok b' →
      b'.processing = b.processing ∧ b'.cached = b.cached ∧ b'.unprovable = b.unprovable := by
    intro b b' who ev hr
    unfold Accum.registerProvable at hr
    split at hr
    · cases hr
    · simp only [Except.ok.injEq] at hr
      subst hr
      exact ⟨rfl, rfl, rfl⟩
  unfold Accum.addProcessed at h
  simp only at h
  split at h
  · cases h
  · split at h
    · cases h
    · split at h
      · simp only [Except.ok.injEq] at h
        subst h
        exact ⟨rfl, rfl, .inl rfl⟩
      · obtain ⟨h1, h2, h3⟩ := reg h
        exact ⟨h1, h2, .inl h3⟩
      · obtain ⟨h1, h2, h3⟩ := reg h
        exact ⟨h1, h2, .inl h3⟩
      · obtain ⟨h1, h2, h3⟩ := reg h
        exact ⟨h1, h2, .inl h3⟩
      · split at h
        · cases h
        · obtain ⟨h1, h2, h3⟩ := reg h
          exact ⟨h1, h2, .inl h3⟩
      · rename_i e he
        simp only [Except.ok.injEq] at h
        subst h
        exact ⟨rfl, rfl, .inr ⟨e, he, rfl⟩⟩
      · obtain ⟨h1, h2, h3⟩ := reg h
        exact ⟨h1, h2, .inl h3⟩
      · cases h

theorem addArtifact_unprovable {a a' : Accum P} {p : ProcessedArtifact P} (h : a.addArtifact p = .ok a') :
    a'.processing = a.processing ∧ a'.cached = a.cached ∧ a'.unprovable = a.unprovable := by
  unfold Accum.addArtifact at h
  split at h
  · cases h
  · simp only [Except.ok.injEq] at h
    subst h
    exact ⟨rfl, rfl, rfl⟩

theorem sendAll_unprovable {s : Session P} {rng : sp.Rng} {ds : List sp.Id} {i : Nat} {a a' : Accum P}
    {out : List (Message sp)} (h : sendAll s rng i a ds = .ok (a', out)) :
    a'.processing = a.processing ∧ a'.cached = a.cached ∧ a'.unprovable = a.unprovable := by
  induction ds generalizing i a a' out with
  | nil =>
    simp only [sendAll, Except.ok.injEq, Prod.mk.injEq] at h
    obtain ⟨rfl, -⟩ := h
    exact ⟨rfl, rfl, rfl⟩
  | cons d ds ih =>
    simp only [sendAll] at h
    split at h
    · cases h
    · split at h
      · cases h
      · rename_i a1 h1
        split at h
        · cases h
        · rename_i a2 ms h2
          simp only [Except.ok.injEq, Prod.mk.injEq] at h
          obtain ⟨rfl, -⟩ := h
          obtain ⟨e1, e2, e3⟩ := addArtifact_unprovable h1
          obtain ⟨f1, f2, f3⟩ := ih h2
          exact ⟨f1.trans e1, f2.trans e2, f3.trans e3⟩

/-- A message given to the session that `x` has signed for the round. -/
def HasDelivery (l : List (Delivery P)) (x : sp.Id) (sid : Bytes) (rid : RoundId) (m : Message sp) : Prop :=
  (∃ d ∈ l, d.sender = x ∧ d.message = m) ∧ Authentic x sid rid m.direct m.echo m.normal

theorem HasDelivery.mono {x : sp.Id} {sid : Bytes} {rid : RoundId} {m : Message sp} (h : HasDelivery l x sid rid m)
    (d : Delivery P) : HasDelivery (l ++ [d]) x sid rid m := by
  obtain ⟨⟨d', h1, h2⟩, h3⟩ := h
  exact ⟨⟨d', List.mem_append_left _ h1, h2⟩, h3⟩

/-- The invariant. -/
structure CauseInv (V : Session P → Prop) (l : List (Delivery P)) (s : Session P) (a : Accum P) : Prop where
  accum : ∀ x r, a.unprovable.get? x = some r → Cause V l x r
  transcript : ∀ x r, s.transcript.unprovable.get? x = some r → Cause V l x r
  processing : ∀ x, a.processing.contains x = true → ∃ m, HasDelivery l x s.sessionId s.transition.id m
  cached : ∀ x e r vm, a.cached.get? x = some e → e.get? r = some vm →
    ∃ m, vm = verifiedOf x m ∧ HasDelivery l x s.sessionId r m

theorem CauseInv.mono {s : Session P} {a : Accum P} (h : CauseInv V l s a) (d : Delivery P) : CauseInv V (l ++ [d]) s a := by
  refine ⟨fun x r hx => (h.accum x r hx).mono d, fun x r hx => (h.transcript x r hx).mono d, ?_, ?_⟩
  · intro x hx
    obtain ⟨m, hm⟩ := h.processing x hx
    exact ⟨m, hm.mono d⟩
  · intro x e r vm h1 h2
    obtain ⟨m, h3, h4⟩ := h.cached x e r vm h1 h2
    exact ⟨m, h3, h4.mono d⟩

/-- Processing a message. -/
theorem CauseInv.apply {s : Session P} {a a' : Accum P} (h : CauseInv V l s a) 
    (hv : V s) {x : sp.Id} {m : Message sp}
    (hm : HasDelivery l x s.sessionId s.transition.id m) (ha : applyVerified s a (verifiedOf x m) = .ok a') :
    CauseInv V l s a' := by
  obtain ⟨h1, h2, h3⟩ := addProcessed_unprovable ha
  refine ⟨?_, h.transcript, by rw [h1]; exact h.processing, by rw [h2]; exact h.cached⟩
  rcases h3 with h3 | ⟨e, he, h3⟩
  · rw [h3]
    exact h.accum
  · intro y r hr
    rw [h3, BMap.get?_insert] at hr
    split at hr
    · rename_i hy
      simp only [Option.some.injEq] at hr
      subst hr
      obtain ⟨⟨d, hd, rfl, rfl⟩, hau⟩ := hm
      rw [show y = d.sender from hy]
      exact .processed hd rfl hv hau he
    · exact h.accum y r hr

theorem CauseInv.start {s : Session P} {a : Accum P} {rng : sp.Rng} {cached : List (VerifiedMessage sp)} {out : List (Message sp)}
    (hv : V s)
    (ht : ∀ x r, s.transcript.unprovable.get? x = some r → Cause V l x r)
    (hc : ∀ vm ∈ cached, ∃ x m, vm = verifiedOf x m ∧ HasDelivery l x s.sessionId s.transition.id m)
    (h : startRound s rng cached = .ok (a, out)) : CauseInv V l s a := by
  unfold startRound at h
  split at h
  · cases h
  · rename_i a0 out0 h0
    split at h
    · cases h
    · rename_i a1 h1
      simp only [Except.ok.injEq, Prod.mk.injEq] at h
      obtain ⟨rfl, -⟩ := h
      obtain ⟨e1, e2, e3⟩ := sendAll_unprovable h0
      have hi : CauseInv V l s a0 := by
        refine ⟨?_, ht, ?_, ?_⟩
        · rw [e3]
          intro x r hx
          simp [Session.makeAccum, Accum.new] at hx
        · rw [e1]
          intro x hx
          simp [Session.makeAccum, Accum.new] at hx
        · rw [e2]
          intro x e r vm hx
          simp [Session.makeAccum, Accum.new] at hx
      clear h0 e1 e2 e3
      have key : ∀ (c : List (VerifiedMessage sp)) (b : Accum P), (∀ vm ∈ c, vm ∈ cached) → CauseInv V l s b →
          foldE (applyVerified s) b c = .ok a1 → CauseInv V l s a1 := by
        intro c
        induction c with
        | nil =>
          intro b _ hb hf
          simp only [foldE, Except.ok.injEq] at hf
          exact hf ▸ hb
        | cons vm c ih =>
          intro b hmem hb hf
          simp only [foldE] at hf
          split at hf
          · rename_i b' hb'
            obtain ⟨x, m, rfl, hm⟩ := hc vm (hmem vm (List.mem_cons_self ..))
            exact ih b' (fun v hv => hmem v (List.mem_cons_of_mem _ hv)) (hb.apply hv hm hb') hf
          · cases hf
      exact key cached a0 (fun _ h => h) hi h1

/-- Receiving a message, without processing it. -/
theorem CauseInv.preprocess {s : Session P} {a a' : Accum P} (mt : sp.MetaTotal) (wf : EchoWellFormed s) (h : CauseInv V l s a)
    {y : sp.Id}
    {m : Message sp} {o : PreOutcome sp} (hd : s.preprocess a y m = .ok (a', o)) : CauseInv V (l ++ [⟨s, a, y, m⟩]) s a' ∧
      ∀ vm, o.ok? = some vm → vm = verifiedOf y m ∧ HasDelivery (l ++ [⟨s, a, y, m⟩]) y s.sessionId s.transition.id m := by
  obtain ⟨v, hrow, hpre⟩ := C02_outcome_determined mt s wf a y m
  rw [hpre] at hd
  have hmem : (⟨s, a, y, m⟩ : Delivery P) ∈ l ++ [⟨s, a, y, m⟩] := by simp
  have hm := h.mono ⟨s, a, y, m⟩
  cases v with
  | ignore =>
    simp only [Verdict.effect, Except.ok.injEq, Prod.mk.injEq] at hd
    obtain ⟨rfl, rfl⟩ := hd
    exact ⟨hm, by simp [PreOutcome.ok?]⟩
  | refuse e =>
    simp only [Verdict.effect, Except.ok.injEq, Prod.mk.injEq] at hd
    obtain ⟨rfl, rfl⟩ := hd
    refine ⟨?_, by simp [PreOutcome.ok?]⟩
    refine ⟨?_, hm.transcript, hm.processing, hm.cached⟩
    intro x r hx
    simp only [BMap.get?_insert] at hx
    split at hx
    · rename_i hxy
      subst hxy
      simp only [Option.some.injEq] at hx
      subst hx
      by_cases h1 : e = .alreadyProcessing
      · have hp : ForThisRound s a x m ∧ a.processing.contains x = true := by
          subst h1
          cases hrow with
          | duplicate g1 g2 => exact ⟨g1, g2⟩
        obtain ⟨m', ⟨d', q1, q2, q3⟩, q4⟩ := h.processing x hp.2
        refine .repeated (l₂ := []) rfl q1 rfl q2 hrow (.inl h1) ?_
        rw [q3]
        simp only
        rw [hp.1.2.2.1, hp.1.2.2.2]
        exact q4
      · by_cases h2 : e = .alreadyCached
        · have hp : ForOtherRound s a x m ∧ IsCached a x m.direct.metadata.roundId := by
            subst h2
            cases hrow with
            | cachedTwice g1 g2 => exact ⟨g1, g2⟩
          obtain ⟨e', vm, g1, g2⟩ := hp.2
          obtain ⟨m', -, ⟨d', q1, q2, q3⟩, q4⟩ := h.cached x e' _ vm g1 g2
          refine .repeated (l₂ := []) rfl q1 rfl q2 hrow (.inr h2) ?_
          rw [q3]
          simp only
          rw [hp.1.2.2.1]
          exact q4
        · exact .message hmem rfl hrow h1 h2
    · exact hm.accum x r hx
  | process =>
    simp only [Verdict.effect, Except.ok.injEq, Prod.mk.injEq] at hd
    obtain ⟨rfl, rfl⟩ := hd
    have hau : Authentic y s.sessionId s.transition.id m.direct m.echo m.normal := by
      cases hrow with
      | process _ _ h3 => exact h3
    have hdel : HasDelivery (l ++ [⟨s, a, y, m⟩]) y s.sessionId s.transition.id m := ⟨⟨_, hmem, rfl, rfl⟩, hau⟩
    refine ⟨?_, fun vm hvm => ?_⟩
    rotate_left
    · simp only [PreOutcome.ok?, Option.some.injEq] at hvm
      exact ⟨hvm.symm, hdel⟩
    refine ⟨hm.accum, hm.transcript, ?_, hm.cached⟩
    intro x hx
    simp only [BSet.contains_insert] at hx
    by_cases hxy : x = y
    · subst hxy
      exact ⟨m, hdel⟩
    · exact hm.processing x (by simpa [hxy] using hx)
  | keep =>
    simp only [Verdict.effect, Except.ok.injEq, Prod.mk.injEq] at hd
    obtain ⟨rfl, rfl⟩ := hd
    refine ⟨?_, by simp [PreOutcome.ok?]⟩
    refine ⟨hm.accum, hm.transcript, hm.processing, ?_⟩
    intro x e r vm hx hr
    simp only [BMap.get?_insert] at hx
    split at hx
    · rename_i hxy
      subst hxy
      simp only [Option.some.injEq] at hx
      subst hx
      rw [BMap.get?_insert] at hr
      split at hr
      · rename_i hrr
        simp only [Option.some.injEq] at hr
        subst hr
        rw [hrr]
        have hau : Authentic x s.sessionId m.direct.metadata.roundId m.direct m.echo m.normal := by
          cases hrow with
          | keep _ _ h3 => exact h3
        exact ⟨m, rfl, ⟨_, hmem, rfl, rfl⟩, hau⟩
      · cases hc : a.cached.get? x with
        | none => simp [hc] at hr
        | some c =>
          simp only [hc, Option.getD_some] at hr
          exact hm.cached x c r vm hc hr
    · exact hm.cached x e r vm hx hr

/-- Receiving a message. -/
theorem CauseInv.deliver {s : Session P} {a a' : Accum P} (mt : sp.MetaTotal) (wf : EchoWellFormed s) (h : CauseInv V l s a)
    (hv : V s) {y : sp.Id} {m : Message sp} (hd : Manul.deliver s a y m = .ok a') : CauseInv V (l ++ [⟨s, a, y, m⟩]) s a' := by
  unfold Manul.deliver at hd
  cases hp : s.preprocess a y m with
  | error e => simp [hp] at hd
  | ok q =>
    obtain ⟨b, o⟩ := q
    obtain ⟨h1, h2⟩ := h.preprocess mt wf hp
    simp only [hp] at hd
    cases ho : o.ok? with
    | none =>
      simp only [ho, Except.ok.injEq] at hd
      exact hd ▸ h1
    | some vm =>
      simp only [ho] at hd
      obtain ⟨rfl, h3⟩ := h2 vm ho
      exact h1.apply hv h3 hd

/-- The next round. -/
theorem CauseInv.next {s s' : Session P} {a : Accum P} (h : CauseInv V l s a) {rng : sp.Rng} {cached : List (VerifiedMessage sp)}
    (hf : s.finalizeRound rng a = .ok (.anotherRound s' cached)) :
    (∀ x r, s'.transcript.unprovable.get? x = some r → Cause V l x r) ∧
      ∀ vm ∈ cached, ∃ x m, vm = verifiedOf x m ∧ HasDelivery l x s'.sessionId s'.transition.id m := by
  obtain ⟨t, hu, hfin⟩ := finalizeRound_ok hf
  have ht : ∀ x r, t.unprovable.get? x = some r → Cause V l x r := by
    intro x r hx
    rw [hu.unprovable] at hx
    rcases Option.or_eq_some_iff.1 hx with hx | ⟨-, hx⟩
    · exact h.accum x r hx
    · exact h.transcript x r hx
  have hc : ∀ rid, ∀ vm ∈ Accum.filterMessages a.cached rid, ∃ x m, vm = verifiedOf x m ∧ HasDelivery l x s.sessionId rid m := by
    intro rid vm hvm
    obtain ⟨x, e, h1, h2⟩ := mem_filterMessages.1 hvm
    obtain ⟨m, h3⟩ := h.cached x e rid vm h1 h2
    exact ⟨x, m, h3⟩
  cases hfin with
  | toNext hei hr hch hns hrid =>
    refine ⟨by rw [hns.transcript]; exact ht, ?_⟩
    intro vm hvm
    have := hc _ vm (List.mem_filter.1 hvm).1
    rw [hns.sessionId, show s'.transition.id = s'.roundId from rfl, hrid]
    exact this
  | toEcho hei hr hget hns =>
    refine ⟨by rw [hns.transcript]; exact ht, ?_⟩
    rw [hns.sessionId]
    exact hc _

/-- The errors without proof in the report of a party. -/
theorem step_report_unprovable {s : Session P} {a : Accum P} {ev : Event sp} {rep : Report P} {out : List (Message sp)}
    (h : step (.running s a) ev = some (.done (.ok rep), out)) :
    ∃ t, Updated s.transcript s.roundId s.me s.echo a t ∧ rep.unprovable = t.unprovable := by
  have term : ∀ {o : Bool}, s.terminateInner a o = .ok rep →
      ∃ t, Updated s.transcript s.roundId s.me s.echo a t ∧ rep.unprovable = t.unprovable := by
    intro o ht
    unfold Session.terminateInner at ht
    cases hu : s.updatedTranscript a with
    | error e => simp [hu] at ht
    | ok t =>
      simp only [hu, Except.ok.injEq] at ht
      exact ⟨t, update_iff.1 hu, by rw [← ht]; rfl⟩
  unfold step at h
  cases hc : a.canFinalize with
  | yes =>
    cases ev with
    | tick rng =>
      simp only [hc, Option.some.injEq] at h
      unfold finishRound at h
      cases hf : s.finalizeRound (sp.fork rng 0) a with
      | error e => simp [hf] at h
      | ok o =>
        cases o with
        | finished r =>
          simp only [hf, Prod.mk.injEq, RunState.done.injEq, Except.ok.injEq] at h
          obtain ⟨rfl, -⟩ := h
          obtain ⟨t, hu, hfin⟩ := finalizeRound_ok hf
          cases hfin with
          | result _ _ => exact ⟨t, hu, rfl⟩
        | anotherRound s' cached' =>
          simp only [hf] at h
          rcases enter_cases h with ⟨e, he, -⟩ | ⟨a', he, -⟩ <;> simp at he
    | deliver _ _ => simp [hc] at h
    | cancel => simp [hc] at h
    | close => simp [hc] at h
  | never =>
    cases ev with
    | tick rng =>
      simp only [hc, Option.some.injEq, Prod.mk.injEq, RunState.done.injEq] at h
      exact term h.1
    | deliver _ _ => simp [hc] at h
    | cancel => simp [hc] at h
    | close => simp [hc] at h
  | notYet =>
    cases ev with
    | tick rng => simp [hc] at h
    | deliver x m =>
      simp only [hc] at h
      cases hd : Manul.deliver s a x m <;> simp [hd] at h
    | cancel =>
      simp only [hc, Option.some.injEq, Prod.mk.injEq, RunState.done.injEq] at h
      exact term h.1
    | close => simp [hc] at h

/-- The invariant holds in all runs. -/
theorem reachVia_cause (mt : sp.MetaTotal) (mi : MainIds P) {rng : sp.Rng} {sid : Bytes} {signer : sp.Signer} {ep : EntryPoint P}
    (h0 : Session.new rng sid signer ep = .ok s₀) {st : RunState P} (h : ReachVia s₀ l st) :
    (∀ s a, st = .running s a → CauseInv (InRun s₀) l s a) ∧
      ∀ rep, st = .done (.ok rep) → ∀ x r, rep.unprovable.get? x = some r → Cause (InRun s₀) l x r := by
  obtain ⟨hp0, -, -, ht0, hm0⟩ := new_proper h0
  have main : ∀ {l : List (Delivery P)} {st st' : RunState P} {ev : Event sp} {out : List (Message sp)}, Reach s₀ st →
      ((∀ s a, st = .running s a → CauseInv (InRun s₀) l s a) ∧
        ∀ rep, st = .done (.ok rep) → ∀ x r, rep.unprovable.get? x = some r → Cause (InRun s₀) l x r) →
      (∀ x m, ev ≠ .deliver x m) → step st ev = some (st', out) →
      ((∀ s a, st' = .running s a → CauseInv (InRun s₀) l s a) ∧
        ∀ rep, st' = .done (.ok rep) → ∀ x r, rep.unprovable.get? x = some r → Cause (InRun s₀) l x r) := by
    intro l st st' ev out hr hi hev hs
    cases st with
    | done r => simp [step] at hs
    | running s a =>
      have hinv := hi.1 s a rfl
      obtain ⟨trail, cached, rng', ml, hv, hseq⟩ := reach_running hr
      refine ⟨?_, ?_⟩
      · intro s1 a1 hst
        subst hst
        rcases step_full hs with ⟨-, r, hr⟩ | ⟨-, x, m, a', hd, -⟩ | ⟨rng1, rng2, s', cached', hy, hf, he⟩
        · cases hr
        · exact absurd hd (hev x m)
        · rcases enter_cases he with ⟨e, h1, -⟩ | ⟨a2, h1, h2⟩
          · cases h1
          · simp only [RunState.running.injEq] at h1
            obtain ⟨rfl, rfl⟩ := h1
            obtain ⟨i1, i2⟩ := hinv.next hf
            exact CauseInv.start ⟨_, _, .next hv hseq hy hf⟩ i1 i2 h2
      · intro rep hst x r hx
        subst hst
        obtain ⟨t, hu, he⟩ := step_report_unprovable hs
        rw [he, hu.unprovable] at hx
        rcases Option.or_eq_some_iff.1 hx with hx | ⟨-, hx⟩
        · exact hinv.accum x r hx
        · exact hinv.transcript x r hx
  induction h with
  | start rng' =>
    refine ⟨?_, ?_⟩
    · intro s a he
      have he' : enterRound s₀ rng' [] = (.running s a, (enterRound s₀ rng' []).2) := Prod.ext he rfl
      rcases enter_cases he' with ⟨e, h1, -⟩ | ⟨a2, h1, h2⟩
      · cases h1
      · simp only [RunState.running.injEq] at h1
        obtain ⟨rfl, rfl⟩ := h1
        refine CauseInv.start ⟨_, _, .first⟩ ?_ (by simp) h2
        intro x r hx
        rw [ht0] at hx
        simp [Transcript.new] at hx
    · intro rep he
      have he' : enterRound s₀ rng' [] = (.done (.ok rep), (enterRound s₀ rng' []).2) := Prod.ext he rfl
      rcases enter_cases he' with ⟨e, h1, -⟩ | ⟨a2, h1, -⟩ <;> cases h1
  | step hr hev hs ih => exact main hr.reach ih hev hs
  | @deliver l s a st' x m out hr hs ih =>
    have hinv := ih.1 s a rfl
    obtain ⟨trail, cached, rng', ml, hv, hseq⟩ := reach_running hr.reach
    have wf := proper_wellFormed mi (visits_inv hp0 hm0 hv).proper
    refine ⟨?_, ?_⟩
    · intro s1 a1 hst
      subst hst
      rcases step_full hs with ⟨-, r, hr⟩ | ⟨-, x', m', a', hd, h1, h2⟩ | ⟨rng1, rng2, s', cached', hy, hf, he⟩
      · cases hr
      · cases hd
        simp only [RunState.running.injEq] at h2
        obtain ⟨rfl, rfl⟩ := h2
        exact hinv.deliver mt wf ⟨_, _, hv⟩ h1
      · unfold step at hs
        simp [hy] at hs
    · intro rep hst y r hy
      subst hst
      obtain ⟨t, hu, he⟩ := step_report_unprovable hs
      rw [he, hu.unprovable] at hy
      rcases Option.or_eq_some_iff.1 hy with hy | ⟨-, hy⟩
      · exact (hinv.accum y r hy).mono _
      · exact (hinv.transcript y r hy).mono _

end Manul
