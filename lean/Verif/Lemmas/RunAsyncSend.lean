import Verif.Spec.RunAsyncSend
import Verif.Lemmas.Send
import Verif.Lemmas.RunAsync

/-!
# `run_async` one message at a time simulates, and is simulated by, the coarser model
-/

namespace Manul

variable {sp : SP} {P : Proto sp}

/-! ## One party -/

theorem Completes.go {f f' : SendState P} {st : RunState P} {out : List (Message sp)} {o : List (MessageOut sp)}
    (h : Completes f st out) (hs : sendStep f .go = some (f', o)) : Completes f' st out := by
  cases h with
  | @sending s a a' a'' cached rng i ds ms h1 h2 =>
    cases ds with
    | nil =>
      simp only [sendStep, Option.some.injEq, Prod.mk.injEq] at hs
      obtain ⟨rfl, -⟩ := hs
      simp only [sendAll, Except.ok.injEq, Prod.mk.injEq] at h1
      obtain ⟨rfl, rfl⟩ := h1
      exact .applying h2
    | cons d ds =>
      simp only [sendAll] at h1
      simp only [sendStep] at hs
      cases hm : s.makeMessage (sp.fork rng i) d with
      | error e => simp [hm] at h1
      | ok p =>
        obtain ⟨m, art⟩ := p
        simp only [hm, Option.some.injEq, Prod.mk.injEq] at h1 hs
        obtain ⟨rfl, -⟩ := hs
        cases ha : a.addArtifact art with
        | error e => simp [ha] at h1
        | ok a1 =>
          simp only [ha] at h1
          cases hn : sendAll s rng (i + 1) a1 ds with
          | error e => simp [hn] at h1
          | ok q =>
            obtain ⟨a2, ms'⟩ := q
            simp only [hn, Except.ok.injEq, Prod.mk.injEq] at h1
            obtain ⟨rfl, rfl⟩ := h1
            have hk := congrArg Prod.fst (makeMessage_key hm)
            exact .offering (m := ⟨s.sessionId, s.me, d, m⟩) ha hn h2 rfl hk.symm
  | offering h1 h2 h3 h4 h5 => simp [sendStep] at hs
  | @applying s a a' cached h1 =>
    cases cached with
    | nil =>
      simp only [sendStep, Option.some.injEq, Prod.mk.injEq] at hs
      obtain ⟨rfl, -⟩ := hs
      simp only [foldE, Except.ok.injEq] at h1
      subst h1
      exact .looping
    | cons vm cached =>
      simp only [foldE] at h1
      simp only [sendStep] at hs
      cases hv : applyVerified s a vm with
      | error e => simp [hv] at h1
      | ok a1 =>
        simp only [hv, Option.some.injEq, Prod.mk.injEq] at h1 hs
        obtain ⟨rfl, -⟩ := hs
        exact .applying h1
  | looping => simp [sendStep] at hs
  | done => simp [sendStep] at hs

theorem Completes.accept {f f' : SendState P} {st : RunState P} {out : List (Message sp)} {o : List (MessageOut sp)}
    (h : Completes f st out) (hs : sendStep f .accept = some (f', o)) :
    ∃ s a m ms, st = .running s a ∧ out = m.message :: ms ∧ o = [m] ∧ m.sender = s.me ∧ m.dest = m.message.destination ∧
      Completes f' st ms := by
  cases h with
  | @sending s a a' a'' cached rng i ds ms h1 h2 => cases ds <;> simp [sendStep] at hs
  | @offering s a a1 a' a'' cached rng i ds ms m art h1 h2 h3 h4 h5 =>
    simp only [sendStep, h1, Option.some.injEq, Prod.mk.injEq] at hs
    obtain ⟨rfl, rfl⟩ := hs
    exact ⟨s, a'', m, ms, rfl, rfl, rfl, h4, h5, .sending h2 h3⟩
  | @applying s a a' cached h1 => cases cached <;> simp [sendStep] at hs
  | looping => simp [sendStep] at hs
  | done => simp [sendStep] at hs

theorem Completes.refuse {f f' : SendState P} {st : RunState P} {out : List (Message sp)} {o : List (MessageOut sp)}
    (h : Completes f st out) (hs : sendStep f .refuse = some (f', o)) : ∃ m ms, out = m :: ms := by
  cases h with
  | @sending s a a' a'' cached rng i ds ms h1 h2 => cases ds <;> simp [sendStep] at hs
  | @offering s a a1 a' a'' cached rng i ds ms m art h1 h2 h3 h4 h5 => exact ⟨_, _, rfl⟩
  | @applying s a a' cached h1 => cases cached <;> simp [sendStep] at hs
  | looping => simp [sendStep] at hs
  | done => simp [sendStep] at hs

/-- Not an error. -/
def Fine (st : RunState P) : Prop := ∀ e, st ≠ .done (.error e)

theorem completes_enter {s : Session P} {rng : sp.Rng} {cached : List (VerifiedMessage sp)}
    (h : Fine (enterRound s rng cached).1) :
    Completes (.enter s rng cached) (enterRound s rng cached).1 (enterRound s rng cached).2 := by
  unfold enterRound startRound at h ⊢
  cases h1 : sendAll s rng 0 s.makeAccum s.destinations.elems with
  | error e => exact absurd (by simp only [h1]) (h e)
  | ok p =>
    obtain ⟨a, ms⟩ := p
    cases h2 : foldE (applyVerified s) a cached with
    | error e => exact absurd (by simp only [h1, h2]) (h e)
    | ok a' =>
      simp only [h2]
      exact .sending h1 h2

/-- The two drivers do the same in the loop of a round. -/
theorem loop_step {s : Session P} {a : Accum P} {e : Event sp} :
    (∀ f' o, sendStep (.looping s a) (.ev e) = some (f', o) → o = [] ∧ ∃ st' out, step (.running s a) e = some (st', out) ∧
      (Fine st' → Completes f' st' out)) ∧
    (∀ st' out, step (.running s a) e = some (st', out) → ∃ f', sendStep (.looping s a) (.ev e) = some (f', []) ∧
      (Fine st' → Completes f' st' out)) := by
  have key : ∀ {f : SendState P} {st : RunState P} {out : List (Message sp)},
      sendStep (.looping s a) (.ev e) = some (f, []) → step (.running s a) e = some (st, out) → (Fine st → Completes f st out) →
      (∀ f' o, sendStep (.looping s a) (.ev e) = some (f', o) → o = [] ∧ ∃ st' out, step (.running s a) e = some (st', out) ∧
        (Fine st' → Completes f' st' out)) ∧
      (∀ st' out, step (.running s a) e = some (st', out) → ∃ f', sendStep (.looping s a) (.ev e) = some (f', []) ∧
        (Fine st' → Completes f' st' out)) := by
    intro f st out h1 h2 h3
    rw [h1, h2]
    refine ⟨?_, ?_⟩
    · rintro f' o ⟨⟩
      exact ⟨rfl, st, out, rfl, h3⟩
    · rintro st' out' ⟨⟩
      exact ⟨f, rfl, h3⟩
  have never : sendStep (.looping s a) (.ev e) = none → step (.running s a) e = none →
      (∀ f' o, sendStep (.looping s a) (.ev e) = some (f', o) → o = [] ∧ ∃ st' out, step (.running s a) e = some (st', out) ∧
        (Fine st' → Completes f' st' out)) ∧
      (∀ st' out, step (.running s a) e = some (st', out) → ∃ f', sendStep (.looping s a) (.ev e) = some (f', []) ∧
        (Fine st' → Completes f' st' out)) := by
    intro h1 h2
    rw [h1, h2]
    exact ⟨by rintro _ _ ⟨⟩, by rintro _ _ ⟨⟩⟩
  have report : ∀ r : Except LErr (Report P), Fine (.done r) → Completes (.ofReport r) (.done r) [] := by
    intro r hr
    cases r with
    | ok r => exact .done
    | error e => exact absurd rfl (hr e)
  cases hc : a.canFinalize with
  | yes =>
    cases e with
    | tick rng =>
      cases hf : s.finalizeRound (sp.fork rng 0) a with
      | error err =>
        refine key (f := .fail err) (st := .done (.error err)) (out := []) ?_ ?_ (fun h => absurd rfl (h err))
        · simp only [sendStep, hc, hf]
        · simp only [step, hc, finishRound, hf]
      | ok o =>
        cases o with
        | finished r =>
          refine key (f := .done (.ok r)) (st := .done (.ok r)) (out := []) ?_ ?_ (fun h => .done)
          · simp only [sendStep, hc, hf]
          · simp only [step, hc, finishRound, hf]
        | anotherRound s' cached =>
          refine key (f := .enter s' (sp.fork rng 1) cached) (st := (enterRound s' (sp.fork rng 1) cached).1)
            (out := (enterRound s' (sp.fork rng 1) cached).2) ?_ ?_ completes_enter
          · simp only [sendStep, hc, hf]
          · simp only [step, hc, finishRound, hf]
    | deliver _ _ => exact never (by simp only [sendStep, hc]) (by simp only [step, hc])
    | cancel => exact never (by simp only [sendStep, hc]) (by simp only [step, hc])
    | close => exact never (by simp only [sendStep, hc]) (by simp only [step, hc])
  | never =>
    cases e with
    | tick rng => exact key (f := .ofReport (s.terminateDueToErrors a)) (by simp only [sendStep, hc]) (by simp only [step, hc]) (report _)
    | deliver _ _ => exact never (by simp only [sendStep, hc]) (by simp only [step, hc])
    | cancel => exact never (by simp only [sendStep, hc]) (by simp only [step, hc])
    | close => exact never (by simp only [sendStep, hc]) (by simp only [step, hc])
  | notYet =>
    cases e with
    | tick rng => exact never (by simp only [sendStep, hc]) (by simp only [step, hc])
    | deliver x m =>
      cases hd : deliver s a x m with
      | error err =>
        refine key (f := .fail err) (st := .done (.error err)) (out := []) ?_ ?_ (fun h => absurd rfl (h err))
        · simp only [sendStep, hc, hd]
        · simp only [step, hc, hd]
      | ok a' =>
        refine key (f := .looping s a') (st := .running s a') (out := []) ?_ ?_ (fun _ => .looping)
        · simp only [sendStep, hc, hd]
        · simp only [step, hc, hd]
    | cancel => exact key (f := .ofReport (s.terminateDueToErrors a)) (by simp only [sendStep, hc]) (by simp only [step, hc]) (report _)
    | close =>
      refine key (f := .fail .channelClosed) (st := .done (.error .channelClosed)) (out := []) ?_ ?_
        (fun h => absurd rfl (h .channelClosed))
      · simp only [sendStep, hc]
      · simp only [step, hc]

theorem ev_looping {f f' : SendState P} {e : Event sp} {o : List (MessageOut sp)} (hs : sendStep f (.ev e) = some (f', o)) :
    ∃ s a, f = .looping s a := by
  cases f with
  | sending s a cached rng i ds => cases ds <;> simp [sendStep] at hs
  | offering s a cached rng i ds m art => simp [sendStep] at hs
  | applying s a cached => cases cached <;> simp [sendStep] at hs
  | looping s a => exact ⟨s, a, rfl⟩
  | done r => simp [sendStep] at hs

/-- Nothing is left to do at the beginning of the round, except to wait for the channel. -/
def AtRest (f : SendState P) : Prop := sendStep f .go = none

theorem Completes.settled {f : SendState P} {st : RunState P} {out : List (Message sp)} (h : Completes f st out) (hs : AtRest f) :
    (∃ s a cached rng i ds m art, f = .offering s a cached rng i ds m art) ∨ (∃ s a, f = .looping s a ∧ st = .running s a ∧ out = []) ∨
      (∃ r, f = .done (.ok r) ∧ st = .done (.ok r) ∧ out = []) := by
  unfold AtRest at hs
  cases h with
  | @sending s a a' a'' cached rng i ds ms h1 h2 =>
    cases ds with
    | nil => simp [sendStep] at hs
    | cons d ds =>
      simp only [sendStep] at hs
      split at hs <;> cases hs
  | offering h1 h2 h3 h4 h5 => exact .inl ⟨_, _, _, _, _, _, _, _, rfl⟩
  | @applying s a a' cached h1 =>
    cases cached with
    | nil => simp [sendStep] at hs
    | cons vm cached =>
      simp only [sendStep] at hs
      split at hs <;> cases hs
  | looping => exact .inr (.inl ⟨_, _, rfl, rfl, rfl⟩)
  | done => exact .inr (.inr ⟨_, rfl, rfl, rfl⟩)

theorem go_left {f f' : SendState P} {o : List (MessageOut sp)} (hs : sendStep f .go = some (f', o)) : f'.left < f.left := by
  cases f with
  | sending s a cached rng i ds =>
    cases ds with
    | nil =>
      simp only [sendStep, Option.some.injEq, Prod.mk.injEq] at hs
      obtain ⟨rfl, -⟩ := hs
      simp only [SendState.left, List.length_nil]; omega
    | cons d ds =>
      simp only [sendStep] at hs
      split at hs
      · simp only [Option.some.injEq, Prod.mk.injEq] at hs
        obtain ⟨rfl, -⟩ := hs
        simp only [SendState.left, SendState.fail]; omega
      · simp only [Option.some.injEq, Prod.mk.injEq] at hs
        obtain ⟨rfl, -⟩ := hs
        simp only [SendState.left, List.length_cons]; omega
  | offering s a cached rng i ds m art => simp [sendStep] at hs
  | applying s a cached =>
    cases cached with
    | nil =>
      simp only [sendStep, Option.some.injEq, Prod.mk.injEq] at hs
      obtain ⟨rfl, -⟩ := hs
      simp only [SendState.left]; omega
    | cons vm cached =>
      simp only [sendStep] at hs
      split at hs
      · simp only [Option.some.injEq, Prod.mk.injEq] at hs
        obtain ⟨rfl, -⟩ := hs
        simp only [SendState.left, SendState.fail]; omega
      · simp only [Option.some.injEq, Prod.mk.injEq] at hs
        obtain ⟨rfl, -⟩ := hs
        simp only [SendState.left, List.length_cons]; omega
  | looping s a => simp [sendStep] at hs
  | done r => simp [sendStep] at hs

/-! ## How many steps -/

/-- The number of messages kept for later. -/
def SendState.kept : SendState P → Nat
  | .sending _ a cached _ _ _ => a.cached.size + cached.length
  | .offering _ a cached _ _ _ _ _ => a.cached.size + cached.length
  | .applying _ a cached => a.cached.size + cached.length
  | .looping _ a => a.cached.size
  | .done _ => 0

/-- How far the beginning of the round has been done. -/
def SendState.stage : SendState P → Nat
  | .sending _ _ _ _ _ _ => 0
  | .offering _ _ _ _ _ _ _ _ => 1
  | .applying _ _ _ => 1
  | .looping _ _ => 2
  | .done _ => 0

theorem insertL_length {K V : Type} [LinearOrder K] (k : K) (v : V) (l : List (K × V)) :
    (BMap.insertL k v l).length ≤ l.length + 1 := by
  induction l with
  | nil => simp [BMap.insertL]
  | cons a l ih =>
    obtain ⟨k0, v0⟩ := a
    simp only [BMap.insertL]
    split
    · simp
    · split
      · simp
      · simp only [List.length_cons]; omega

theorem size_insert {K V : Type} [LinearOrder K] (m : BMap K V) (k : K) (v : V) : (m.insert k v).size ≤ m.size + 1 :=
  insertL_length k v m.toList

theorem addArtifact_cached {a a' : Accum P} {art : ProcessedArtifact P} (h : a.addArtifact art = .ok a') : a'.cached = a.cached := by
  unfold Accum.addArtifact at h
  split at h
  · cases h
  · cases h; rfl

theorem addProcessed_cached {t : Transcript sp} {a a' : Accum P} {p : Processed P} (h : a.addProcessed t p = .ok a') :
    a'.cached = a.cached := by
  unfold Accum.addProcessed Accum.registerProvable at h
  simp only at h
  repeat' split at h
  all_goals first | (cases h; rfl) | cases h

theorem applyVerified_cached {s : Session P} {a a' : Accum P} {vm : VerifiedMessage sp} (h : applyVerified s a vm = .ok a') :
    a'.cached = a.cached := addProcessed_cached h

theorem deliver_cached {s : Session P} {a a' : Accum P} {x : sp.Id} {m : Message sp} (h : deliver s a x m = .ok a') :
    a'.cached.size ≤ a.cached.size + 1 := by
  have reject : ∀ {a : Accum P} {x : sp.Id} {e : RErr} {r : Accum P × PreOutcome sp}, Session.reject a x e = .ok r →
      r.1.cached = a.cached := by
    intro a x e r h
    unfold Session.reject Accum.registerUnprovable at h
    split at h
    · cases h
    · rename_i h1
      split at h1
      · cases h1
      · cases h1; cases h; rfl
  have route : ∀ {a : Accum P} {x : sp.Id} {c : CheckedMessage} {b : Bool} {r : Accum P × PreOutcome sp},
      Session.verifyAndRoute a x c b = .ok r → r.1.cached.size ≤ a.cached.size + 1 := by
    intro a x c b r h
    unfold Session.verifyAndRoute at h
    split at h
    · rw [reject h]; omega
    · rw [reject h]; omega
    · cases h
    · split at h
      · split at h
        · cases h
        · rename_i h1
          unfold Accum.markProcessing at h1
          split at h1
          · cases h1
          · cases h1; cases h; simp
      · split at h
        · cases h
        · rename_i h1
          unfold Accum.cacheMessage at h1
          simp only at h1
          split at h1
          · cases h1
          · cases h1; cases h
            exact size_insert _ _ _
  unfold deliver at h
  cases hp : s.preprocess a x m with
  | error e => simp [hp] at h
  | ok r =>
    have hr : r.1.cached.size ≤ a.cached.size + 1 := by
      unfold Session.preprocess at hp
      repeat' split at hp
      all_goals first
        | (cases hp; done)
        | (cases hp; simp; done)
        | (rw [reject hp]; omega)
        | exact route hp
    obtain ⟨a1, o⟩ := r
    simp only [hp] at h
    split at h
    · rw [applyVerified_cached h]; exact hr
    · cases h; exact hr

theorem finalize_kept {s s' : Session P} {rng : sp.Rng} {a : Accum P} {cached : List (VerifiedMessage sp)}
    (h : s.finalizeRound rng a = .ok (.anotherRound s' cached)) : cached.length ≤ a.cached.size := by
  have hf : ∀ r, (Accum.filterMessages a.cached r).length ≤ a.cached.size := by
    intro r
    unfold Accum.filterMessages
    refine le_trans (List.length_filterMap_le _ _) ?_
    simp [BMap.values, BMap.size]
  obtain ⟨t, -, h2⟩ := finalizeRound_ok h
  generalize ho : RoundOutcome.anotherRound s' cached = o at h2
  cases h2 with
  | toEcho h1 h2 h3 h4 =>
    cases ho
    exact hf _
  | result h1 h2 => cases ho
  | toNext h1 h2 h3 h4 h5 =>
    cases ho
    exact le_trans (List.length_filter_le _ _) (hf _)

theorem makeAccum_kept (s : Session P) : s.makeAccum.cached.size = 0 := rfl

theorem go_count {f f' : SendState P} {o : List (MessageOut sp)} (hs : sendStep f .go = some (f', o)) (hok : ∀ r, f' ≠ .done r) :
    f'.kept + f.stage + 1 ≤ f.kept + f'.stage := by
  cases f with
  | sending s a cached rng i ds =>
    cases ds with
    | nil =>
      simp only [sendStep, Option.some.injEq, Prod.mk.injEq] at hs
      obtain ⟨rfl, -⟩ := hs
      simp [SendState.kept, SendState.stage]
    | cons d ds =>
      simp only [sendStep] at hs
      split at hs
      · simp only [Option.some.injEq, Prod.mk.injEq] at hs
        exact absurd hs.1.symm (hok _)
      · simp only [Option.some.injEq, Prod.mk.injEq] at hs
        obtain ⟨rfl, -⟩ := hs
        simp [SendState.kept, SendState.stage]
  | offering s a cached rng i ds m art => simp [sendStep] at hs
  | applying s a cached =>
    cases cached with
    | nil =>
      simp only [sendStep, Option.some.injEq, Prod.mk.injEq] at hs
      obtain ⟨rfl, -⟩ := hs
      simp [SendState.kept, SendState.stage]
    | cons vm cached =>
      simp only [sendStep] at hs
      split at hs
      · simp only [Option.some.injEq, Prod.mk.injEq] at hs
        exact absurd hs.1.symm (hok _)
      · rename_i a' ha
        simp only [Option.some.injEq, Prod.mk.injEq] at hs
        obtain ⟨rfl, -⟩ := hs
        simp only [SendState.kept, SendState.stage, applyVerified_cached ha, List.length_cons]; omega
  | looping s a => simp [sendStep] at hs
  | done r => simp [sendStep] at hs

theorem accept_count {f f' : SendState P} {o : List (MessageOut sp)} (hs : sendStep f .accept = some (f', o)) :
    f'.kept + f.stage ≤ f.kept + f'.stage + 1 := by
  cases f with
  | sending s a cached rng i ds => cases ds <;> simp [sendStep] at hs
  | offering s a cached rng i ds m art =>
    simp only [sendStep] at hs
    split at hs
    · simp only [Option.some.injEq, Prod.mk.injEq] at hs
      obtain ⟨rfl, -⟩ := hs
      simp [SendState.kept, SendState.stage, SendState.fail]
    · rename_i a' ha
      simp only [Option.some.injEq, Prod.mk.injEq] at hs
      obtain ⟨rfl, -⟩ := hs
      simp [SendState.kept, SendState.stage, addArtifact_cached ha]
  | applying s a cached => cases cached <;> simp [sendStep] at hs
  | looping s a => simp [sendStep] at hs
  | done r => simp [sendStep] at hs

theorem ev_count {f f' : SendState P} {e : Event sp} {o : List (MessageOut sp)} (hs : sendStep f (.ev e) = some (f', o)) :
    f'.kept + f.stage ≤ f.kept + f'.stage + 2 := by
  obtain ⟨s, a, rfl⟩ := ev_looping hs
  have quiet : ∀ r : Except LErr (Report P), (SendState.ofReport r).kept = 0 ∧ (SendState.ofReport r).stage = 0 := by
    intro r
    cases r <;> exact ⟨rfl, rfl⟩
  simp only [sendStep] at hs
  split at hs
  · split at hs
    · cases hs; simp [SendState.kept, SendState.stage, SendState.fail]
    · cases hs; simp [SendState.kept, SendState.stage]
    · rename_i hf
      cases hs
      have := finalize_kept hf
      simp only [SendState.enter, SendState.kept, SendState.stage, makeAccum_kept]
      omega
  · cases hs
    have := quiet (s.terminateDueToErrors a)
    simp only [this, SendState.stage]; omega
  · split at hs
    · cases hs; simp [SendState.kept, SendState.stage, SendState.fail]
    · rename_i hd
      cases hs
      have := deliver_cached hd
      simp only [SendState.kept, SendState.stage]; omega
  · cases hs
    have := quiet (s.terminateDueToErrors a)
    simp only [this, SendState.stage]; omega
  · cases hs; simp [SendState.kept, SendState.stage, SendState.fail]
  · cases hs

end Manul
