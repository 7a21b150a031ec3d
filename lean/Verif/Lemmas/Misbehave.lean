import Verif.Lemmas.ExtendNet
import Verif.Lemmas.DeviateSync
import Verif.Spec.Misbehave

/-!
# A party whose extensions change its direct messages
-/

namespace Manul

variable {sp : SP} {P : Proto sp} {Tag : Type} {tag : P.Rd → Tag}

/-- The protocol without extensions, as an overridden one. -/
abbrev Lift.se0 (tag : P.Rd → Tag) (s : Session P) : Session (extend P (fun r => some (tag r))) :=
  Lift.se tag (fun _ => none) (fun _ => none) s

theorem Lift.new0 (rng : sp.Rng) (sid : Bytes) (signer : sp.Signer) (ep : EntryPoint P) :
    Session.new rng sid signer (extendEntry (fun r => some (tag r)) ep (fun _ => none)) =
      (Session.new rng sid signer ep).map (Lift.se0 tag) :=
  Lift.new tag (fun _ => none) (fun _ => none) rng sid signer ep (fun _ _ => rfl)

theorem Lift.within (x : RunState P) :
    RunState.Within (P := overridden P tag (fun _ => none)) (Lift.Ag tag (fun _ => none) (fun _ => none)) x := by
  cases x with
  | done r => trivial
  | running s a => exact ⟨rfl, fun _ _ _ _ => rfl⟩

/-- What a session without extensions can reach. -/
theorem Lift.reach {s₀ : Session P} {x : RunState (extend P (fun r => some (tag r)))} (h : Reach (Lift.se0 tag s₀) x) :
    ∃ y : RunState P, Reach s₀ y ∧ x = Lift.st tag (fun _ => none) (fun _ => none) y := by
  induction h with
  | start rng =>
    refine ⟨_, .start rng, ?_⟩
    exact congrArg Prod.fst (Lift.enterRound tag (fun _ => none) (fun _ => none) s₀ rfl rng [])
  | @step st st' ev out _ hs ih =>
    obtain ⟨y, h1, rfl⟩ := ih
    rw [Lift.step tag (fun _ => none) (fun _ => none) y (Lift.within y)] at hs
    cases hy : Manul.step (P := P) y ev with
    | none =>
      rw [show Manul.step (P := overridden P tag (fun _ => none)) y ev = none from hy] at hs
      cases hs
    | some z =>
      rw [show Manul.step (P := overridden P tag (fun _ => none)) y ev = some z from hy] at hs
      refine ⟨z.1, .step (out := z.2) h1 hy, ?_⟩
      exact (congrArg Prod.fst (Option.some.inj hs)).symm

theorem MakesEvidence.lift {ch : Charge sp} {s : Session P} (h : MakesEvidence ch s) :
    MakesEvidence ch (Lift.se0 tag s) := by
  have hr : ∀ who m, (Lift.se0 tag s).round.receive who m = s.round.receive who m :=
    Lift.sr_receive tag (fun _ => none) (fun _ => none) s.round
  obtain ⟨h1, h2⟩ := h
  refine ⟨?_, ?_⟩
  · intro vm req ser g0 g1 g2 g3
    exact h1 vm req ser g0 g1 g2 ((hr _ _).symm.trans g3)
  · intro vm g0 g1 g2 g3
    exact h2 vm g0 g1 g2 ((hr _ _).symm.trans g3)

/-- The rounds of the party with extensions, and those it would have without. -/
def Extends (tag : P.Rd → Tag) (exts : Tag → Option (Ext P)) (inv : Nat → P.Rd → Prop) (k : Nat) (r r' : ExtRd P Tag) : Prop :=
  r.Plain ∧ r' = ⟨r.inner, exts (tag r.inner), exts⟩ ∧ inv k r.inner

/-- The party with extensions deviates. -/
theorem Misdirects.deviation {sc : Scheme P} {exts : Tag → Option (Ext P)} {t : sp.Id} {K : Nat} {ch : Charge sp}
    {inv : Nat → P.Rd → Prop} (md : Misdirects sc tag exts t K ch inv) :
    Deviation (sc.extended tag) (sc.g.extended tag (onlyAt t exts)) t K ch (Extends tag exts inv) where
  parties := rfl
  signer := rfl
  sid := rfl
  ep := by
    intro i hi
    simp only [Scheme.extended, Group.extended, onlyAt, if_neg hi]
  party := md.party
  stage := md.stage
  expected := md.expected
  start := by
    intro rng r hr
    simp only [Scheme.extended, Group.extended, extendEntry] at hr ⊢
    cases hm : (sc.g.ep t).makeRound rng sc.g.sid t with
    | error e => rw [hm] at hr; cases hr
    | ok r0 =>
      rw [hm] at hr
      cases hr
      refine ⟨⟨r0, exts (tag r0), exts⟩, ?_, ⟨rfl, rfl⟩, rfl, md.start rng r0 hm⟩
      simp only [onlyAt, if_true]
      rfl
  transition := by
    rintro k r r' ⟨-, rfl, -⟩
    rfl
  comm := by
    rintro k r r' ⟨-, rfl, -⟩
    rfl
  makeEcho := by
    rintro k ⟨inner, ext, exts0⟩ r' ⟨⟨h1, h2⟩, rfl, hi⟩ rng
    simp only at h1 h2
    subst h1 h2
    cases hx : exts (tag inner) with
    | none => simp only [extend, hx]
    | some x =>
      simp only [extend, hx]
      exact md.makeEcho hi hx rng
  makeNormal := by
    rintro k ⟨inner, ext, exts0⟩ r' ⟨⟨h1, h2⟩, rfl, hi⟩ rng
    simp only at h1 h2
    subst h1 h2
    cases hx : exts (tag inner) with
    | none => simp only [extend, hx]
    | some x =>
      simp only [extend, hx]
      exact md.makeNormal hi hx rng
  receive := by
    rintro k r r' ⟨-, rfl, -⟩ x m
    rfl
  makeDirect := by
    rintro k ⟨inner, ext, exts0⟩ r' ⟨⟨h1, h2⟩, rfl, hi⟩ rng j p art hd
    simp only at h1 h2
    subst h1 h2
    have hd' : P.makeDirect inner rng j = .ok (p, art) := hd
    cases hx : exts (tag inner) with
    | none => exact ⟨p, by simp only [extend, hx]; exact hd', fun _ => rfl⟩
    | some x =>
      obtain ⟨p', h1, h2⟩ := md.makeDirect hi hx rng j p art hd'
      exact ⟨p', by simp only [extend, hx]; exact h1, h2⟩
  finalize := by
    rintro k ⟨inner, ext, exts0⟩ r' ⟨⟨h1, h2⟩, rfl, hi⟩ rng ps as o ho
    simp only at h1 h2
    subst h1 h2
    have ho' : (match P.finalize inner rng ps as with
      | .error e => Except.error e
      | .ok o => wrapOutcome (fun r => some (tag r)) (fun _ => none) o) = .ok o := ho
    have hext : (extend P (fun r => some (tag r))).finalize ⟨inner, exts (tag inner), exts⟩ rng ps as =
        (match P.finalize inner rng ps as with
        | .error e => Except.error e
        | .ok o => wrapOutcome (fun r => some (tag r)) exts o) := by
      cases hx : exts (tag inner) with
      | none => rfl
      | some x =>
        have := md.finalize hi hx rng ps as
        simp only at this
        rw [← this]
        rfl
    cases hf : P.finalize inner rng ps as with
    | error e => rw [hf] at ho'; cases ho'
    | ok o0 =>
      rw [hf] at ho' hext
      cases o0 with
      | result v =>
        cases ho'
        exact ⟨_, hext, trivial⟩
      | anotherRound q =>
        cases ho'
        exact ⟨_, hext, ⟨rfl, rfl⟩, rfl, md.next hi rng ps as q hf⟩
  rejected := by
    intro G i ci ct r' rng p art hG hi hit h1 h2 hl hd
    obtain ⟨h3, -⟩ := Honest.inner hG
    obtain ⟨-, rfl, hi'⟩ := hl
    refine md.rejected (innerHistory tag G) i (ci.inner tag) (ct.inner tag) rng p art h3 hi hit (innerHistory_get h1)
      (innerHistory_get h2) hi' (Eq.trans ?_ hd)
    cases hx : exts (tag ct.rd.inner) with
    | none => simp only [extend, overridden, Cell.inner, hx]; rfl
    | some x => simp only [extend, overridden, Cell.inner, hx]; rfl
  evidence := by
    intro i hi hit rng s₀ h0 s a hr hid
    have h0' : Session.new rng sc.g.sid (sc.g.signer i) (extendEntry (fun r => some (tag r)) (sc.g.ep i) (fun _ => none)) =
        .ok s₀ := h0
    rw [Lift.new0] at h0'
    cases hs : Session.new rng sc.g.sid (sc.g.signer i) (sc.g.ep i) with
    | error e => rw [hs] at h0'; cases h0'
    | ok s1 =>
      rw [hs] at h0'
      simp only [Except.map, Except.ok.injEq] at h0'
      subst h0'
      obtain ⟨y, h1, h2⟩ := Lift.reach hr
      cases y with
      | done r => cases r <;> cases h2
      | running s2 a2 =>
        simp only [Lift.st, RunState.running.injEq] at h2
        obtain ⟨rfl, rfl⟩ := h2
        exact (md.evidence i hi hit rng s1 hs s2 a2 h1 hid).lift

end Manul
