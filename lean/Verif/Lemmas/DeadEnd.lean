import Verif.Model.Driver

/-! # Rounds from which a protocol cannot go on -/

namespace Manul

variable {sp : SP} {P : Proto sp}

/-- The round of the protocol. -/
def SRound.base : SRound P → P.Rd
  | .main r => r
  | .echo e => e.main

/-- Finalizing the round gives no result, and no session is made of the next round. -/
def DeadEnd (r : P.Rd) : Prop :=
  ∀ rng ps as o, P.finalize r rng ps as = .ok o → ∃ r', o = .anotherRound r' ∧
    ∀ rng sid signer t s, Session.newForNextRound (sp := sp) rng sid signer (.main r') t ≠ .ok s

theorem newForNextRound_round {rng : sp.Rng} {sid : Bytes} {signer : sp.Signer} {round : SRound P} {t : Transcript sp}
    {s : Session P} (h : Session.newForNextRound rng sid signer round t = .ok s) : s.round = round := by
  simp only [Session.newForNextRound] at h
  repeat' first
    | (cases h; rfl)
    | split at h
    | cases h

theorem DeadEnd.finalize {r : P.Rd} (hr : DeadEnd r) {round : SRound P} (hb : round.base = r) {rng : sp.Rng}
    {ps : BMap sp.Id (Option P.Payload)} {as : BMap sp.Id (Option P.Artifact)} {o : Outcome P.Rd P.Result}
    (h : round.finalize rng ps as = .ok o) :
    ∃ r', o = .anotherRound r' ∧ ∀ rng sid signer t s, Session.newForNextRound (sp := sp) rng sid signer (.main r') t ≠ .ok s := by
  have main : ∀ {ps : BMap sp.Id (Option P.Payload)} {as : BMap sp.Id (Option P.Artifact)},
      SRound.finalizeMain r rng ps as = .ok o → ∃ r', o = .anotherRound r' ∧
        ∀ rng sid signer t s, Session.newForNextRound (sp := sp) rng sid signer (.main r') t ≠ .ok s := by
    intro ps as h
    unfold SRound.finalizeMain at h
    split at h
    · cases h
    · split at h
      · cases h
      · exact hr _ _ _ _ h
  cases round with
  | main r' =>
    cases hb
    exact main h
  | echo e =>
    cases hb
    exact main h

/-- A session in such a round, or in its echo round, only goes on to the echo round. -/
theorem DeadEnd.finalizeRound {r : P.Rd} (hr : DeadEnd r) {s : Session P} (hs : s.round.base = r) {rng : sp.Rng} {a : Accum P}
    {o : RoundOutcome P} (h : s.finalizeRound rng a = .ok o) : ∃ s' cached, o = .anotherRound s' cached ∧ s'.round.base = r := by
  unfold Session.finalizeRound at h
  split at h
  · cases h
  · rename_i t _
    have proper : ∀ {o}, s.finalizeProper rng a t = .ok o → False := by
      intro o h
      unfold Session.finalizeProper at h
      split at h
      · cases h
      · rename_i hf
        obtain ⟨r', h1, -⟩ := hr.finalize hs hf
        cases h1
      · rename_i r' hf
        obtain ⟨r'', h1, h2⟩ := hr.finalize hs hf
        cases h1
        simp only at h
        split at h
        · cases h
        · split at h
          · cases h
          · rename_i s' hn
            exact h2 _ _ _ _ _ hn
    split at h
    · rename_i info _
      split at h
      · rename_i r' hm
        unfold Session.startEcho at h
        split at h
        · cases h
        · simp only at h
          split at h
          · cases h
          · split at h
            · cases h
            · rename_i s' hn
              cases h
              refine ⟨_, _, rfl, ?_⟩
              rw [newForNextRound_round hn]
              rw [hm] at hs
              exact hs
      · cases h
    · exact (proper h).elim

/-- What is reachable from such a round. -/
def DeadEnd.Inv (r : P.Rd) : RunState P → Prop
  | .running s _ => s.round.base = r
  | .done (.ok rep) => ∀ v, rep.outcome ≠ .result v
  | .done (.error _) => True

theorem DeadEnd.enter {r : P.Rd} {s : Session P} (hs : s.round.base = r) {rng : sp.Rng} {cached : List (VerifiedMessage sp)} :
    DeadEnd.Inv r (enterRound s rng cached).1 := by
  unfold enterRound
  split
  · trivial
  · exact hs

theorem terminate_no_result {s : Session P} {a : Accum P} : DeadEnd.Inv r (.done (s.terminateDueToErrors a)) := by
  unfold Session.terminateDueToErrors Session.terminateInner
  split
  · trivial
  · intro v h
    cases h

theorem DeadEnd.finish {r : P.Rd} (hr : DeadEnd r) {s : Session P} (hs : s.round.base = r) {a : Accum P} {rng : sp.Rng} :
    DeadEnd.Inv r (finishRound s a rng).1 := by
  unfold finishRound
  split
  · trivial
  · rename_i hf
    obtain ⟨s', c', h1, -⟩ := hr.finalizeRound hs hf
    cases h1
  · rename_i hf
    obtain ⟨s', c', h1, h2⟩ := hr.finalizeRound hs hf
    cases h1
    exact DeadEnd.enter h2

/-- No result is reached from a session in such a round. -/
theorem DeadEnd.reach {r : P.Rd} (hr : DeadEnd r) {s₀ : Session P} (h₀ : s₀.round.base = r) {st : RunState P}
    (h : Reach s₀ st) : DeadEnd.Inv r st := by
  induction h with
  | start rng => exact DeadEnd.enter h₀
  | @step st st' ev out h hs ih =>
    cases st with
    | done x => simp [step] at hs
    | running s a =>
      have ih : s.round.base = r := ih
      cases hc : a.canFinalize <;> cases ev <;> simp only [step, hc, Option.some.injEq] at hs <;> try (cases hs; done)
      · rename_i rng
        have := DeadEnd.finish hr ih (a := a) (rng := rng)
        rw [hs] at this
        exact this
      · split at hs
        · cases hs
          trivial
        · cases hs
          exact ih
      · cases hs
        exact terminate_no_result
      · cases hs
        trivial
      · cases hs
        exact terminate_no_result

end Manul
