import Verif.Spec.Send
import Verif.Spec.Order
import Verif.Lemmas.Honest

/-!
# Sending messages one at a time
-/

namespace Manul

variable {sp : SP} {P : Proto sp}

theorem sendAll_snoc {s : Session P} {rng : sp.Rng} {d : sp.Id} {m : Message sp} {art : ProcessedArtifact P} {a' : Accum P} :
    ∀ {ds : List sp.Id} {i : Nat} {b a : Accum P} {ms : List (Message sp)}, sendAll s rng i b ds = .ok (a, ms) →
    s.makeMessage (sp.fork rng (i + ds.length)) d = .ok (m, art) → a.addArtifact art = .ok a' →
    sendAll s rng i b (ds ++ [d]) = .ok (a', ms ++ [m])
  | [], i, b, a, ms, h, hm, ha => by
    simp only [sendAll, Except.ok.injEq, Prod.mk.injEq] at h
    obtain ⟨rfl, rfl⟩ := h
    simp only [List.length_nil, Nat.add_zero] at hm
    simp [sendAll, hm, ha]
  | d0 :: ds, i, b, a, ms, h, hm, ha => by
    simp only [sendAll] at h
    cases h1 : s.makeMessage (sp.fork rng i) d0 with
    | error e => simp [h1] at h
    | ok p =>
      obtain ⟨m0, art0⟩ := p
      simp only [h1] at h
      cases h2 : b.addArtifact art0 with
      | error e => simp [h2] at h
      | ok b' =>
        simp only [h2] at h
        cases h3 : sendAll s rng (i + 1) b' ds with
        | error e => simp [h3] at h
        | ok q =>
          obtain ⟨a1, ms1⟩ := q
          simp only [h3, Except.ok.injEq, Prod.mk.injEq] at h
          obtain ⟨rfl, rfl⟩ := h
          have hl : i + 1 + ds.length = i + (d0 :: ds).length := by simp only [List.length_cons]; omega
          have := sendAll_snoc h3 (by rw [hl]; exact hm) ha
          simp [sendAll, h1, h2, this]

/-- A prefix that goes wrong. -/
theorem sendAll_error {s : Session P} {rng : sp.Rng} {d : sp.Id} {e : LErr} {ds' : List sp.Id} :
    ∀ {ds : List sp.Id} {i : Nat} {b a : Accum P} {ms : List (Message sp)}, sendAll s rng i b ds = .ok (a, ms) →
    (s.makeMessage (sp.fork rng (i + ds.length)) d = .error e ∨
      ∃ m art, s.makeMessage (sp.fork rng (i + ds.length)) d = .ok (m, art) ∧ a.addArtifact art = .error e) →
    sendAll s rng i b (ds ++ d :: ds') = .error e
  | [], i, b, a, ms, h, hm => by
    simp only [sendAll, Except.ok.injEq, Prod.mk.injEq] at h
    obtain ⟨rfl, rfl⟩ := h
    simp only [List.length_nil, Nat.add_zero] at hm
    rcases hm with hm | ⟨m, art, hm, ha⟩ <;> simp [sendAll, *]
  | d0 :: ds, i, b, a, ms, h, hm => by
    simp only [sendAll] at h
    cases h1 : s.makeMessage (sp.fork rng i) d0 with
    | error e => simp [h1] at h
    | ok p =>
      obtain ⟨m0, art0⟩ := p
      simp only [h1] at h
      cases h2 : b.addArtifact art0 with
      | error e => simp [h2] at h
      | ok b' =>
        simp only [h2] at h
        cases h3 : sendAll s rng (i + 1) b' ds with
        | error e => simp [h3] at h
        | ok q =>
          obtain ⟨a1, ms1⟩ := q
          simp only [h3, Except.ok.injEq, Prod.mk.injEq] at h
          obtain ⟨rfl, rfl⟩ := h
          have hl : i + 1 + ds.length = i + (d0 :: ds).length := by simp only [List.length_cons]; omega
          have := sendAll_error (ds' := ds') h3 (by rw [hl]; exact hm)
          simp [sendAll, h1, h2, this]

theorem foldE_append_error {ε σ α : Type} {f : σ → α → Except ε σ} {u v : σ} {l l' : List α} (h : foldE f u l = .ok v) :
    foldE f u (l ++ l') = foldE f v l' := by
  induction l generalizing u with
  | nil =>
    simp only [foldE, Except.ok.injEq] at h
    rw [h]
    rfl
  | cons x l ih =>
    simp only [foldE, List.cons_append] at h ⊢
    cases hx : f u x with
    | error e => simp [hx] at h
    | ok w =>
      simp only [hx] at h ⊢
      exact ih h

theorem makeMessage_key {s : Session P} {rng : sp.Rng} {d : sp.Id} {m : Message sp} {art : ProcessedArtifact P}
    (h : s.makeMessage rng d = .ok (m, art)) : m.key = (d, s.roundId) := by
  have hm := makeMessage_ok h
  obtain ⟨r, hs⟩ := hm.signed
  have h2 := (signed_part hs).2
  unfold Message.key
  rw [hm.destination, h2]
  rfl

theorem sendAll_keys {s : Session P} {rng : sp.Rng} :
    ∀ {ds : List sp.Id} {i : Nat} {b a : Accum P} {ms : List (Message sp)}, sendAll s rng i b ds = .ok (a, ms) →
    ms.map Message.key = ds.map (fun d => (d, s.roundId))
  | [], i, b, a, ms, h => by
    simp only [sendAll, Except.ok.injEq, Prod.mk.injEq] at h
    obtain ⟨rfl, rfl⟩ := h
    rfl
  | d0 :: ds, i, b, a, ms, h => by
    simp only [sendAll] at h
    cases h1 : s.makeMessage (sp.fork rng i) d0 with
    | error e => simp [h1] at h
    | ok p =>
      obtain ⟨m0, art0⟩ := p
      simp only [h1] at h
      cases h2 : b.addArtifact art0 with
      | error e => simp [h2] at h
      | ok b' =>
        simp only [h2] at h
        cases h3 : sendAll s rng (i + 1) b' ds with
        | error e => simp [h3] at h
        | ok q =>
          obtain ⟨a1, ms1⟩ := q
          simp only [h3, Except.ok.injEq, Prod.mk.injEq] at h
          obtain ⟨rfl, rfl⟩ := h
          simp [sendAll_keys h3, makeMessage_key h1]

theorem startRound_keys {s : Session P} {rng : sp.Rng} {cached : List (VerifiedMessage sp)} {a : Accum P} {out : List (Message sp)}
    (h : startRound s rng cached = .ok (a, out)) : out.map Message.key = s.toSend := by
  unfold startRound at h
  split at h
  · simp at h
  · rename_i a0 ms hs
    split at h
    · simp at h
    · simp only [Except.ok.injEq, Prod.mk.injEq] at h
      obtain ⟨-, rfl⟩ := h
      exact sendAll_keys hs

/-! ## Runs that send all messages of a round at once -/

theorem Run.reach {s₀ : Session P} {st : RunState P} {outs : List (Message sp)} (h : Run s₀ st outs) : Reach s₀ st := by
  induction h with
  | start rng => exact .start rng
  | step _ hs ih => exact .step ih hs

theorem Reach.run {s₀ : Session P} {st : RunState P} (h : Reach s₀ st) : ∃ outs, Run s₀ st outs := by
  induction h with
  | start rng => exact ⟨_, .start rng⟩
  | step _ hs ih =>
    obtain ⟨outs, ih⟩ := ih
    exact ⟨_, .step ih hs⟩

theorem enter_keys {s s' : Session P} {rng : sp.Rng} {cached : List (VerifiedMessage sp)} {a : Accum P}
    (h : (enterRound s rng cached).1 = .running s' a) : (enterRound s rng cached).2.map Message.key = s.toSend := by
  unfold enterRound at h ⊢
  split at h
  · simp at h
  · rename_i a' out hs
    simp only [hs]
    exact startRound_keys hs

theorem run_keys {s₀ : Session P} {st : RunState P} {outs : List (Message sp)} (h : Run s₀ st outs) :
    ∀ s a, st = .running s a → ∃ trail, InRound s₀ trail s a ∧
      outs.map Message.key = trail.flatMap (fun q => q.1.toSend) ++ s.toSend := by
  induction h with
  | start rng =>
    intro s a he
    have hk := enter_keys he
    obtain ⟨rfl, hs⟩ := enter_running he
    exact ⟨[], ⟨[], rng, [], .first, hs⟩, by simpa [start] using hk⟩
  | @step st st' outs out e hr hs ih =>
    intro s' a' he
    subst he
    cases st with
    | done r => simp [step] at hs
    | running s a =>
      obtain ⟨trail, hin, hk⟩ := ih s a rfl
      unfold step at hs
      cases hc : a.canFinalize with
      | yes =>
        cases e with
        | tick rng =>
          simp only [hc, Option.some.injEq] at hs
          unfold finishRound at hs
          cases hf : s.finalizeRound (sp.fork rng 0) a with
          | error e => simp [hf] at hs
          | ok o =>
            cases o with
            | finished r => simp [hf] at hs
            | anotherRound s1 cached' =>
              simp only [hf] at hs
              have he : (enterRound s1 (sp.fork rng 1) cached').1 = .running s' a' := by rw [hs]
              have hk' := enter_keys he
              rw [hs] at hk'
              obtain ⟨rfl, hseq⟩ := enter_running he
              obtain ⟨cached, rng0, l, hv, hseq0⟩ := hin
              refine ⟨trail ++ [(s, a)], ⟨_, _, _, .next hv hseq0 hc hf, hseq⟩, ?_⟩
              rw [List.map_append, hk, hk']
              simp
        | deliver _ _ => simp [hc] at hs
        | cancel => simp [hc] at hs
        | close => simp [hc] at hs
      | never => cases e <;> simp [hc] at hs
      | notYet =>
        cases e with
        | tick rng => simp [hc] at hs
        | deliver x m =>
          simp only [hc] at hs
          cases hd : deliver s a x m with
          | error e => simp [hd] at hs
          | ok a1 =>
            simp only [hd, Option.some.injEq, Prod.mk.injEq, RunState.running.injEq] at hs
            obtain ⟨⟨rfl, rfl⟩, rfl⟩ := hs
            obtain ⟨cached, rng0, l, hv, hseq0⟩ := hin
            exact ⟨trail, ⟨cached, rng0, _, hv, seqRound_snoc hseq0 hd⟩, by simpa using hk⟩
        | cancel => simp [hc] at hs
        | close => simp [hc] at hs

/-- A round is entered after these messages have been sent. -/
inductive EnteringAt (s₀ : Session P) : Session P → sp.Rng → List (VerifiedMessage sp) → List (Message sp) → Prop where
  | first (rng : sp.Rng) : EnteringAt s₀ s₀ rng [] []
  | next {s s' : Session P} {a : Accum P} {outs : List (Message sp)} {rng : sp.Rng} {cached : List (VerifiedMessage sp)} :
      Run s₀ (.running s a) outs → a.canFinalize = .yes → s.finalizeRound (sp.fork rng 0) a = .ok (.anotherRound s' cached) →
      EnteringAt s₀ s' (sp.fork rng 1) cached outs

theorem EnteringAt.run {s₀ s : Session P} {rng : sp.Rng} {cached : List (VerifiedMessage sp)} {outs : List (Message sp)}
    (h : EnteringAt s₀ s rng cached outs) : Run s₀ (enterRound s rng cached).1 (outs ++ (enterRound s rng cached).2) := by
  cases h with
  | first => exact Run.start rng
  | @next s1 _ a _ rng1 _ hr hc hf =>
    refine .step (e := .tick rng1) hr ?_
    simp only [step, hc, finishRound, hf]

theorem EnteringAt.visits {s₀ s : Session P} {rng : sp.Rng} {cached : List (VerifiedMessage sp)} {outs : List (Message sp)}
    (h : EnteringAt s₀ s rng cached outs) : ∃ trail, Visits s₀ trail s cached ∧
      outs.map Message.key = trail.flatMap (fun q => q.1.toSend) := by
  cases h with
  | first => exact ⟨[], .first, rfl⟩
  | @next s1 _ a _ _ _ hr hc hf =>
    obtain ⟨trail, ⟨cached, rng0, l, hv, hseq⟩, hk⟩ := run_keys hr s1 a rfl
    exact ⟨trail ++ [(s1, a)], .next hv hseq hc hf, by simp [hk]⟩

/-- What has been sent: the messages of the rounds visited before, and the first `k` of the round of `s`. -/
def SentUpTo (s₀ s : Session P) (k : Nat) (outs : List (MessageOut sp)) : Prop :=
  ∃ trail cached, Visits s₀ trail s cached ∧
    outs.map (fun o => o.message.key) = trail.flatMap (fun q => q.1.toSend) ++ s.toSend.take k

/-- The invariant of the driver that sends the messages one at a time. -/
def SendInv (s₀ : Session P) (outs : List (MessageOut sp)) : SendState P → Prop
  | .sending s a cached rng i ds => ∃ outs₀ pre ms, EnteringAt s₀ s rng cached outs₀ ∧ s.destinations.elems = pre ++ ds ∧
      i = pre.length ∧ sendAll s rng 0 s.makeAccum pre = .ok (a, ms) ∧ outs.map (·.message) = outs₀ ++ ms
  | .offering s a cached rng i ds m art => ∃ outs₀ pre ms, EnteringAt s₀ s rng cached outs₀ ∧ s.destinations.elems = pre ++ m.dest :: ds ∧
      i = pre.length ∧ sendAll s rng 0 s.makeAccum pre = .ok (a, ms) ∧ outs.map (·.message) = outs₀ ++ ms ∧
      s.makeMessage (sp.fork rng i) m.dest = .ok (m.message, art) ∧ m.sessionId = s.sessionId ∧ m.sender = s.me
  | .applying s a rest => ∃ outs₀ rng cached pre a0 ms, EnteringAt s₀ s rng cached outs₀ ∧ cached = pre ++ rest ∧
      sendAll s rng 0 s.makeAccum s.destinations.elems = .ok (a0, ms) ∧ foldE (applyVerified s) a0 pre = .ok a ∧
      outs.map (·.message) = outs₀ ++ ms
  | .looping s a => Run s₀ (.running s a) (outs.map (·.message))
  | .done (.ok r) => Run s₀ (.done (.ok r)) (outs.map (·.message)) ∧ ∃ s k, SentUpTo s₀ s k outs
  | .done (.error (.inner e)) => (∃ cs rest, Run s₀ (.done (.error e)) cs ∧ outs.map (·.message) = cs ++ rest) ∧ ∃ s k, SentUpTo s₀ s k outs
  | .done (.error .sendFailed) => ∃ s k, SentUpTo s₀ s k outs

theorem SendInv.sentUpTo {s₀ s : Session P} {outs : List (MessageOut sp)} {st : SendState P} (h : SendInv s₀ outs st)
    (hs : st.session? = some s) : ∃ k, SentUpTo s₀ s k outs := by
  have base : ∀ {rng : sp.Rng} {cached : List (VerifiedMessage sp)} {outs₀ ms : List (Message sp)} {pre ds : List sp.Id} {a : Accum P},
      EnteringAt s₀ s rng cached outs₀ → s.destinations.elems = pre ++ ds →
      sendAll s rng 0 s.makeAccum pre = .ok (a, ms) → outs.map (·.message) = outs₀ ++ ms → ∃ k, SentUpTo s₀ s k outs := by
    intro rng cached outs₀ ms pre ds a he hd hsend ho
    obtain ⟨trail, hv, hk⟩ := he.visits
    refine ⟨pre.length, trail, cached, hv, ?_⟩
    have hk' := sendAll_keys hsend
    have : outs.map (fun o => o.message.key) = (outs.map (·.message)).map Message.key := by simp
    rw [this, ho, List.map_append, hk, hk']
    unfold Session.toSend
    rw [hd, List.map_append, List.take_left' (by simp)]
  cases st with
  | sending s' a cached rng i ds =>
    cases hs
    obtain ⟨outs₀, pre, ms, h1, h2, h3, h4, h5⟩ := h
    exact base h1 h2 h4 h5
  | offering s' a cached rng i ds m art =>
    cases hs
    obtain ⟨outs₀, pre, ms, h1, h2, h3, h4, h5, -⟩ := h
    exact base h1 h2 h4 h5
  | applying s' a rest =>
    cases hs
    obtain ⟨outs₀, rng, cached, pre, a0, ms, h1, h2, h3, h4, h5⟩ := h
    exact base (ds := []) h1 (by simp) h3 h5
  | looping s' a =>
    cases hs
    obtain ⟨trail, ⟨cached, rng, l, hv, -⟩, hk⟩ := run_keys h s a rfl
    refine ⟨s.toSend.length, trail, cached, hv, ?_⟩
    rw [List.take_length, ← hk]
    simp
  | done r => cases hs

theorem step_enter {s₀ s : Session P} {outs : List (MessageOut sp)} {rng : sp.Rng} {cached : List (VerifiedMessage sp)}
    (h : EnteringAt s₀ s rng cached (outs.map (·.message))) : SendInv s₀ outs (.enter s rng cached) :=
  ⟨_, [], [], h, rfl, rfl, rfl, by simp⟩

theorem sendInv_step {s₀ : Session P} {st st' : SendState P} {outs out : List (MessageOut sp)} {e : SendEvent sp}
    (h : SendInv s₀ outs st) (hs : sendStep st e = some (st', out)) : SendInv s₀ (outs ++ out) st' := by
  have up := fun s => h.sentUpTo (s := s)
  have fails : ∀ {err : LErr} {s : Session P}, st.session? = some s → (∃ cs rest, Run s₀ (.done (.error err)) cs ∧
      outs.map (·.message) = cs ++ rest) → SendInv s₀ outs (.fail err) := fun h1 h2 => ⟨h2, _, up _ h1⟩
  have finishes : ∀ {r : Except LErr (Report P)} {s : Session P}, st.session? = some s →
      Run s₀ (.done r) (outs.map (·.message)) → SendInv s₀ outs (.ofReport r) := by
    intro r s h1 h2
    cases r with
    | ok r => exact ⟨h2, s, up _ h1⟩
    | error e => exact ⟨⟨_, [], h2, by simp⟩, s, up _ h1⟩
  cases st with
  | sending s a cached rng i ds =>
    obtain ⟨outs₀, pre, ms, h1, h2, h3, h4, h5⟩ := h
    cases e with
    | go =>
      cases ds with
      | nil =>
        simp only [sendStep, Option.some.injEq, Prod.mk.injEq] at hs
        obtain ⟨rfl, rfl⟩ := hs
        rw [List.append_nil] at h2 ⊢
        exact ⟨outs₀, rng, cached, [], a, ms, h1, rfl, h2 ▸ h4, rfl, h5⟩
      | cons d ds =>
        simp only [sendStep] at hs
        cases hm : s.makeMessage (sp.fork rng i) d with
        | error err =>
          simp only [hm, Option.some.injEq, Prod.mk.injEq] at hs
          obtain ⟨rfl, rfl⟩ := hs
          rw [List.append_nil]
          refine fails rfl ⟨outs₀, ms, ?_, h5⟩
          have hr := h1.run
          have he : enterRound s rng cached = (.done (.error err), []) := by
            unfold enterRound startRound
            rw [h2, sendAll_error h4 (Or.inl (by rw [Nat.zero_add, ← h3]; exact hm))]
          rw [he] at hr
          simpa using hr
        | ok p =>
          obtain ⟨m, art⟩ := p
          simp only [hm, Option.some.injEq, Prod.mk.injEq] at hs
          obtain ⟨rfl, rfl⟩ := hs
          rw [List.append_nil]
          exact ⟨outs₀, pre, ms, h1, h2, h3, h4, h5, hm, rfl, rfl⟩
    | accept => cases ds <;> cases hs
    | refuse => cases ds <;> cases hs
    | ev e => cases ds <;> cases hs
  | offering s a cached rng i ds m art =>
    obtain ⟨outs₀, pre, ms, h1, h2, h3, h4, h5, h6, h7, h8⟩ := h
    cases e with
    | accept =>
      simp only [sendStep] at hs
      cases ha : a.addArtifact art with
      | error err =>
        simp only [ha, Option.some.injEq, Prod.mk.injEq] at hs
        obtain ⟨rfl, rfl⟩ := hs
        have hr := h1.run
        have he : enterRound s rng cached = (.done (.error err), []) := by
          unfold enterRound startRound
          rw [h2, sendAll_error h4 (Or.inr ⟨_, _, by rw [Nat.zero_add, ← h3]; exact h6, ha⟩)]
        rw [he, List.append_nil] at hr
        refine ⟨⟨outs₀, ms ++ [m.message], hr, by simp [h5]⟩, s, pre.length + 1, ?_⟩
        obtain ⟨trail, hv, hk⟩ := h1.visits
        refine ⟨trail, cached, hv, ?_⟩
        have hk' := sendAll_keys h4
        have : (outs ++ [m]).map (fun o => o.message.key) = (outs.map (·.message)).map Message.key ++ [m.message.key] := by simp
        rw [this, h5, List.map_append, hk, hk', makeMessage_key h6]
        unfold Session.toSend
        have h2' : s.destinations.elems = (pre ++ [m.dest]) ++ ds := by simp [h2]
        rw [h2', List.map_append, List.take_left' (by simp)]
        simp
      | ok a' =>
        simp only [ha, Option.some.injEq, Prod.mk.injEq] at hs
        obtain ⟨rfl, rfl⟩ := hs
        refine ⟨outs₀, pre ++ [m.dest], ms ++ [m.message], h1, by simp [h2], by simp [h3], ?_, by simp [h5]⟩
        exact sendAll_snoc h4 (by rw [Nat.zero_add, ← h3]; exact h6) ha
    | refuse =>
      simp only [sendStep, Option.some.injEq, Prod.mk.injEq] at hs
      obtain ⟨rfl, rfl⟩ := hs
      rw [List.append_nil]
      exact ⟨s, up s rfl⟩
    | go => cases hs
    | ev e => cases hs
  | applying s a rest =>
    obtain ⟨outs₀, rng, cached, pre, a0, ms, h1, h2, h3, h4, h5⟩ := h
    have hr := h1.run
    cases e with
    | go =>
      cases rest with
      | nil =>
        simp only [sendStep, Option.some.injEq, Prod.mk.injEq] at hs
        obtain ⟨rfl, rfl⟩ := hs
        have he : enterRound s rng cached = (.running s a, ms) := by
          unfold enterRound startRound
          rw [List.append_nil] at h2
          simp only [h3, h2, h4]
        rw [he] at hr
        rw [List.append_nil]
        show Run s₀ _ _
        rw [h5]
        exact hr
      | cons vm rest =>
        simp only [sendStep] at hs
        cases hv : applyVerified s a vm with
        | error err =>
          simp only [hv, Option.some.injEq, Prod.mk.injEq] at hs
          obtain ⟨rfl, rfl⟩ := hs
          rw [List.append_nil]
          have he : enterRound s rng cached = (.done (.error err), []) := by
            unfold enterRound startRound
            have : foldE (applyVerified s) a0 cached = .error err := by
              rw [h2, foldE_append_error h4]
              simp [foldE, hv]
            simp only [h3, this]
          rw [he, List.append_nil] at hr
          exact fails rfl ⟨outs₀, ms, hr, h5⟩
        | ok a' =>
          simp only [hv, Option.some.injEq, Prod.mk.injEq] at hs
          obtain ⟨rfl, rfl⟩ := hs
          rw [List.append_nil]
          refine ⟨outs₀, rng, cached, pre ++ [vm], a0, ms, h1, by simp [h2], h3, ?_, h5⟩
          exact (foldE_append _ _ _ _ _).2 ⟨a, h4, by simp [foldE, hv]⟩
    | accept => cases rest <;> cases hs
    | refuse => cases rest <;> cases hs
    | ev e => cases rest <;> cases hs
  | looping s a =>
    have hr : Run s₀ (.running s a) (outs.map (·.message)) := h
    cases e with
    | ev e =>
      simp only [sendStep] at hs
      cases hc : a.canFinalize with
      | yes =>
        cases e with
        | tick rng =>
          simp only [hc] at hs
          cases hf : s.finalizeRound (sp.fork rng 0) a with
          | error err =>
            simp only [hf, Option.some.injEq, Prod.mk.injEq] at hs
            obtain ⟨rfl, rfl⟩ := hs
            rw [List.append_nil]
            refine finishes (r := .error err) rfl ?_
            have := Run.step (e := .tick rng) (st' := .done (.error err)) (out := []) hr (by simp [step, hc, finishRound, hf])
            simpa using this
          | ok o =>
            cases o with
            | finished r =>
              simp only [hf, Option.some.injEq, Prod.mk.injEq] at hs
              obtain ⟨rfl, rfl⟩ := hs
              rw [List.append_nil]
              refine finishes (r := .ok r) rfl ?_
              have := Run.step (e := .tick rng) (st' := .done (.ok r)) (out := []) hr (by simp [step, hc, finishRound, hf])
              simpa using this
            | anotherRound s' cached =>
              simp only [hf, Option.some.injEq, Prod.mk.injEq] at hs
              obtain ⟨rfl, rfl⟩ := hs
              rw [List.append_nil]
              exact step_enter (.next hr hc hf)
        | deliver _ _ => simp [hc] at hs
        | cancel => simp [hc] at hs
        | close => simp [hc] at hs
      | never =>
        cases e with
        | tick rng =>
          simp only [hc, Option.some.injEq, Prod.mk.injEq] at hs
          obtain ⟨rfl, rfl⟩ := hs
          rw [List.append_nil]
          refine finishes rfl ?_
          have := Run.step (e := .tick rng) (st' := .done (s.terminateDueToErrors a)) (out := []) hr (by simp [step, hc])
          simpa using this
        | deliver _ _ => simp [hc] at hs
        | cancel => simp [hc] at hs
        | close => simp [hc] at hs
      | notYet =>
        cases e with
        | tick rng => simp [hc] at hs
        | deliver x m =>
          simp only [hc] at hs
          cases hd : deliver s a x m with
          | error err =>
            simp only [hd, Option.some.injEq, Prod.mk.injEq] at hs
            obtain ⟨rfl, rfl⟩ := hs
            rw [List.append_nil]
            refine finishes (r := .error err) rfl ?_
            have := Run.step (e := .deliver x m) (st' := .done (.error err)) (out := []) hr (by simp [step, hc, hd])
            simpa using this
          | ok a' =>
            simp only [hd, Option.some.injEq, Prod.mk.injEq] at hs
            obtain ⟨rfl, rfl⟩ := hs
            rw [List.append_nil]
            have := Run.step (e := .deliver x m) (st' := .running s a') (out := []) hr (by simp [step, hc, hd])
            rw [List.append_nil] at this
            exact this
        | cancel =>
          simp only [hc, Option.some.injEq, Prod.mk.injEq] at hs
          obtain ⟨rfl, rfl⟩ := hs
          rw [List.append_nil]
          refine finishes rfl ?_
          have := Run.step (e := .cancel) (st' := .done (s.terminateDueToErrors a)) (out := []) hr (by simp [step, hc])
          simpa using this
        | close =>
          simp only [hc, Option.some.injEq, Prod.mk.injEq] at hs
          obtain ⟨rfl, rfl⟩ := hs
          rw [List.append_nil]
          refine finishes (r := .error .channelClosed) rfl ?_
          have := Run.step (e := .close) (st' := .done (.error .channelClosed)) (out := []) hr (by simp [step, hc])
          simpa using this
    | go => cases hs
    | accept => cases hs
    | refuse => cases hs
  | done r => cases r <;> cases hs

theorem sendRun_inv {s₀ : Session P} {st : SendState P} {outs : List (MessageOut sp)} (h : SendRun s₀ st outs) : SendInv s₀ outs st := by
  induction h with
  | start rng => exact step_enter (.first rng)
  | step _ hs ih => exact sendInv_step ih hs

/-! ## Every run is one that sends the messages one at a time -/

theorem send_all {s₀ s : Session P} {rng : sp.Rng} {cached : List (VerifiedMessage sp)} :
    ∀ {ds : List sp.Id} {i : Nat} {b a : Accum P} {ms : List (Message sp)} {outs : List (MessageOut sp)},
    SendRun s₀ (.sending s b cached rng i ds) outs → sendAll s rng i b ds = .ok (a, ms) →
    ∃ outs', outs'.map (·.message) = ms ∧ SendRun s₀ (.applying s a cached) (outs ++ outs')
  | [], i, b, a, ms, outs, hr, h => by
    simp only [sendAll, Except.ok.injEq, Prod.mk.injEq] at h
    obtain ⟨rfl, rfl⟩ := h
    exact ⟨[], rfl, .step (e := .go) hr rfl⟩
  | d :: ds, i, b, a, ms, outs, hr, h => by
    simp only [sendAll] at h
    cases h1 : s.makeMessage (sp.fork rng i) d with
    | error e => simp [h1] at h
    | ok p =>
      obtain ⟨m0, art0⟩ := p
      simp only [h1] at h
      cases h2 : b.addArtifact art0 with
      | error e => simp [h2] at h
      | ok b' =>
        simp only [h2] at h
        cases h3 : sendAll s rng (i + 1) b' ds with
        | error e => simp [h3] at h
        | ok q =>
          obtain ⟨a1, ms1⟩ := q
          simp only [h3, Except.ok.injEq, Prod.mk.injEq] at h
          obtain ⟨rfl, rfl⟩ := h
          have r1 := SendRun.step (e := .go) hr (by simp only [sendStep, h1]; rfl)
          have r2 := SendRun.step (e := .accept) r1 (by simp only [sendStep, h2]; rfl)
          obtain ⟨outs', e1, r3⟩ := send_all r2 h3
          exact ⟨⟨s.sessionId, s.me, d, m0⟩ :: outs', by simp [e1], by simpa using r3⟩

theorem send_error {s₀ s : Session P} {rng : sp.Rng} {cached : List (VerifiedMessage sp)} {err : LErr} :
    ∀ {ds : List sp.Id} {i : Nat} {b : Accum P} {outs : List (MessageOut sp)},
    SendRun s₀ (.sending s b cached rng i ds) outs → sendAll s rng i b ds = .error err →
    ∃ outs', SendRun s₀ (.fail err) (outs ++ outs')
  | [], i, b, outs, hr, h => by simp [sendAll] at h
  | d :: ds, i, b, outs, hr, h => by
    simp only [sendAll] at h
    cases h1 : s.makeMessage (sp.fork rng i) d with
    | error e =>
      simp only [h1, Except.error.injEq] at h
      subst h
      exact ⟨[], SendRun.step (e := .go) hr (by simp only [sendStep, h1])⟩
    | ok p =>
      obtain ⟨m0, art0⟩ := p
      simp only [h1] at h
      have r1 := SendRun.step (e := .go) hr (by simp only [sendStep, h1]; rfl)
      cases h2 : b.addArtifact art0 with
      | error e =>
        simp only [h2, Except.error.injEq] at h
        subst h
        have r2 := SendRun.step (e := .accept) r1 (by simp only [sendStep, h2]; rfl)
        exact ⟨[⟨s.sessionId, s.me, d, m0⟩], by simpa using r2⟩
      | ok b' =>
        simp only [h2] at h
        have r2 := SendRun.step (e := .accept) r1 (by simp only [sendStep, h2]; rfl)
        cases h3 : sendAll s rng (i + 1) b' ds with
        | error e =>
          simp only [h3, Except.error.injEq] at h
          subst h
          obtain ⟨outs', r3⟩ := send_error r2 h3
          exact ⟨⟨s.sessionId, s.me, d, m0⟩ :: outs', by simpa using r3⟩
        | ok q => simp [h3] at h

theorem send_apply {s₀ s : Session P} {outs : List (MessageOut sp)} :
    ∀ {cached : List (VerifiedMessage sp)} {b : Accum P}, SendRun s₀ (.applying s b cached) outs →
    match foldE (applyVerified s) b cached with
    | .ok a => SendRun s₀ (.looping s a) outs
    | .error e => SendRun s₀ (.fail e) outs
  | [], b, hr => by
    simp only [foldE]
    simpa using SendRun.step (e := .go) hr rfl
  | vm :: cached, b, hr => by
    simp only [foldE]
    cases h1 : applyVerified s b vm with
    | error e => simpa using SendRun.step (e := .go) (st' := .fail e) (out := []) hr (by simp only [sendStep, h1])
    | ok b' =>
      have r1 := SendRun.step (e := .go) (st' := .applying s b' cached) (out := []) hr (by simp only [sendStep, h1])
      rw [List.append_nil] at r1
      exact send_apply r1

theorem send_enter {s₀ s : Session P} {rng : sp.Rng} {cached : List (VerifiedMessage sp)} {outs : List (MessageOut sp)}
    (h : SendRun s₀ (.enter s rng cached) outs) : ∃ outs' rest, SendRun s₀ (enterRound s rng cached).1.send (outs ++ outs') ∧
      outs'.map (·.message) = (enterRound s rng cached).2 ++ rest ∧
      (rest ≠ [] → ∃ e, (enterRound s rng cached).1 = .done (.error e)) := by
  unfold enterRound startRound
  cases hsend : sendAll s rng 0 s.makeAccum s.destinations.elems with
  | error e =>
    obtain ⟨outs', r⟩ := send_error h hsend
    exact ⟨outs', outs'.map (·.message), r, rfl, fun _ => ⟨e, rfl⟩⟩
  | ok q =>
    obtain ⟨a, ms⟩ := q
    obtain ⟨outs', e1, r⟩ := send_all h hsend
    have r' := send_apply r
    cases hf : foldE (applyVerified s) a cached with
    | error e =>
      simp only [hf] at r' ⊢
      exact ⟨outs', ms, r', by simp [e1], fun _ => ⟨e, rfl⟩⟩
    | ok a' =>
      simp only [hf] at r' ⊢
      exact ⟨outs', [], r', by simp [e1], fun h => absurd rfl h⟩

end Manul
