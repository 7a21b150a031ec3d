import Verif.Lemmas.Extend
import Verif.Lemmas.Scenario

/-!
# Extended protocols

C40: `ExtendableEntryPoint` changes exactly what the registered extensions say.
-/

namespace Manul

variable {sp : SP} {P : Proto sp} {Tag : Type}

/-- **C40.**  For every protocol of typed rounds, every set of extensions and every sequence of events (messages with any
contents from anybody, cancellation, closing of the channel, any randomness), the session created through
`ExtendableEntryPoint` shows the same behaviour as a session of the overridden protocol: the same messages are sent, the
same messages are accepted, cached or refused, the same evidence and errors are recorded, and the same report or error is
returned. -/
theorem C40_extended_is_overridden (tag : P.Rd → Tag) (exts : Tag → Option (Ext P)) (ep : EntryPoint P) (sid : Bytes)
    (signer : sp.Signer) (rng rng' : sp.Rng) (evs : List (Event sp)) :
    behaviour (extendEntry (fun r => some (tag r)) ep exts) sid signer rng rng' evs =
      behaviour (overriddenEntry tag exts ep) sid signer rng rng' evs := by
  have hw : ∀ st : RunState (overridden P tag exts), st.Within (Lift.Ag tag exts exts) := by
    intro st
    cases st with
    | done r => trivial
    | running s a => exact ⟨rfl, fun _ _ _ _ => rfl⟩
  have hp : ∀ (evs : List (Event sp)) (st : RunState (overridden P tag exts)),
      PlaysWithin (Lift.Ag tag exts exts) st evs := by
    intro evs
    induction evs with
    | nil => exact fun st => hw st
    | cons ev evs ih =>
      intro st
      refine ⟨hw st, ?_⟩
      cases step st ev with
      | none => exact ih st
      | some y => exact ih y.1
  exact Lift.behaviour tag exts exts ep sid signer rng rng' evs ⟨fun _ _ => rfl, fun _ _ => hp evs _⟩

/-- **C40.**  Without extensions, the session created through `ExtendableEntryPoint` shows the same behaviour as a
session of the original protocol, for all executions. -/
theorem C40_no_extensions (tag : P.Rd → Tag) (ep : EntryPoint P) (sid : Bytes) (signer : sp.Signer) (rng rng' : sp.Rng)
    (evs : List (Event sp)) :
    behaviour (extendEntry (fun r => some (tag r)) ep (fun _ => none)) sid signer rng rng' evs =
      behaviour ep sid signer rng rng' evs :=
  C40_extended_is_overridden tag (fun _ => none) ep sid signer rng rng' evs

/-- **C40.**  Extensions that override no method change nothing either. -/
theorem C40_default_extensions (tag : P.Rd → Tag) (exts : Tag → Option (Ext P))
    (hd : ∀ t e, exts t = some e → e = Ext.default P) (ep : EntryPoint P) (sid : Bytes) (signer : sp.Signer)
    (rng rng' : sp.Rng) (evs : List (Event sp)) :
    behaviour (extendEntry (fun r => some (tag r)) ep exts) sid signer rng rng' evs =
      behaviour ep sid signer rng rng' evs := by
  have hag : ∀ r : P.Rd, Lift.Ag tag (fun _ => none) exts r := by
    intro r
    show (exts (tag r)).getD (Ext.default P) = Ext.default P
    cases he : exts (tag r) with
    | none => rfl
    | some e => exact hd _ e he
  have hw : ∀ st : RunState (overridden P tag (fun _ => none)), st.Within (Lift.Ag tag (fun _ => none) exts) := by
    intro st
    cases st with
    | done r => trivial
    | running s a => exact ⟨hag _, fun _ _ r _ => hag r⟩
  have hp : ∀ (evs : List (Event sp)) (st : RunState (overridden P tag (fun _ => none))),
      PlaysWithin (Lift.Ag tag (fun _ => none) exts) st evs := by
    intro evs
    induction evs with
    | nil => exact fun st => hw st
    | cons ev evs ih =>
      intro st
      refine ⟨hw st, ?_⟩
      cases step st ev with
      | none => exact ih st
      | some y => exact ih y.1
  exact Lift.behaviour tag (fun _ => none) exts ep sid signer rng rng' evs ⟨fun r _ => hag r, fun _ _ => hp evs _⟩

/-- **C40.**  Extensions affect only the rounds of the extended types: as long as an execution of the original protocol
stays in rounds without an extension, the session with extensions behaves exactly the same. -/
theorem C40_local (tag : P.Rd → Tag) (exts : Tag → Option (Ext P)) (ep : EntryPoint P) (sid : Bytes)
    (signer : sp.Signer) (rng rng' : sp.Rng) (evs : List (Event sp))
    (h : BehavesWithin (fun r => exts (tag r) = none) ep sid signer rng rng' evs) :
    behaviour (extendEntry (fun r => some (tag r)) ep exts) sid signer rng rng' evs =
      behaviour ep sid signer rng rng' evs := by
  have hag : ∀ r : P.Rd, exts (tag r) = none → Lift.Ag tag (fun _ => none) exts r := by
    intro r hr
    show (exts (tag r)).getD (Ext.default P) = Ext.default P
    rw [hr]; rfl
  have hw : ∀ st : RunState P, st.Within (fun r => exts (tag r) = none) →
      RunState.Within (P := overridden P tag (fun _ => none)) (Lift.Ag tag (fun _ => none) exts) st := by
    intro st hst
    cases st with
    | done r => trivial
    | running s a => exact ⟨hag _ hst.1, fun hc rng r hf => hag r (hst.2 hc rng r hf)⟩
  have hp : ∀ (evs : List (Event sp)) (st : RunState P), PlaysWithin (fun r => exts (tag r) = none) st evs →
      PlaysWithin (P := overridden P tag (fun _ => none)) (Lift.Ag tag (fun _ => none) exts) st evs := by
    intro evs
    induction evs with
    | nil => exact fun st h => hw st h
    | cons ev evs ih =>
      intro st h
      refine ⟨hw st h.1, ?_⟩
      have h2 := h.2
      show (match step st ev with | none => _ | some (st', _) => _)
      cases hs : step st ev with
      | none => rw [hs] at h2; exact ih st h2
      | some y => rw [hs] at h2; exact ih y.1 h2
  exact Lift.behaviour tag (fun _ => none) exts ep sid signer rng rng' evs
    ⟨fun r hr => hag r (h.1 r hr), fun s hs => hp evs _ (h.2 s hs)⟩

/-- **C40.**  Registering an extension for one round type changes the overridden protocol in the four methods of rounds
of that type only; transition and communication information, receiving and the verification of evidence are never
changed. -/
theorem C40_one_extension [DecidableEq Tag] (tag : P.Rd → Tag) (exts : Tag → Option (Ext P)) (t : Tag) (e : Ext P) :
    let old := overridden P tag exts
    let new := overridden P tag (addExt exts t e)
    (∀ r, new.transition r = old.transition r ∧ new.comm r = old.comm r ∧
      (∀ who m, new.receive r who m = old.receive r who m)) ∧
    (∀ rid, new.roundInfo rid = old.roundInfo rid) ∧
    (∀ r, tag r ≠ t → new.makeDirect r = old.makeDirect r ∧ new.makeEcho r = old.makeEcho r ∧
      new.makeNormal r = old.makeNormal r ∧ new.finalize r = old.finalize r) ∧
    (∀ r, tag r = t → new.makeDirect r = e.makeDirect r ∧ new.makeEcho r = e.makeEcho r ∧
      new.makeNormal r = e.makeNormal r ∧ new.finalize r = e.finalize r) := by
  refine ⟨fun r => ⟨rfl, rfl, fun _ _ => rfl⟩, fun _ => rfl, fun r hr => ?_, fun r hr => ?_⟩
  · have h : addExt exts t e (tag r) = exts (tag r) := if_neg hr
    simp only [overridden, h, and_self]
  · have h : addExt exts t e (tag r) = some e := if_pos hr
    simp only [overridden, h, Option.getD_some, and_self]

/-- **C40.**  Evidence is verified in the extended protocol exactly as in the original one. -/
theorem C40_evidence (tag : P.Rd → Tag) (ev : Evidence sp) (shared : P.Shared) :
    Evidence.verify (extend P (fun r => some (tag r))) shared ev = Evidence.verify P shared ev := by
  have hi : ∀ rid : RoundId, (extend P (fun r => some (tag r))).roundInfo rid = P.roundInfo rid := fun _ => rfl
  obtain ⟨guilty, body⟩ := ev
  cases body with
  | protocol e =>
    simp only [Evidence.verify, Evidence.verifyProtocol]
    repeat' split
    any_goals (simp_all [extend]; done)
    next i1 h1 _ i2 h2 =>
      cases Option.some.inj (h1.symm.trans h2)
      rfl
  | _ => rfl

/-- The restriction to typed rounds is needed: a round of a chained protocol is not typed, and wrapping it is a local
error, with or without extensions. -/
theorem C40_dynamic_violation (ty : P.Rd → Option Tag) (exts : Tag → Option (Ext P)) (ep : EntryPoint P) (sid : Bytes)
    (signer : sp.Signer) (rng rng' : sp.Rng) (evs : List (Event sp)) (r : P.Rd)
    (hr : ep.makeRound (sp.fork rng 0) sid (sp.verifyingKey signer) = .ok r) (hd : ty r = none) :
    behaviour (extendEntry ty ep exts) sid signer rng rng' evs = .error .dynamicAsTyped := by
  unfold behaviour Session.new
  simp only [extendEntry, hr, wrapRound, hd]

/-! ## Examples -/

section Examples

/-- The round type of the example protocol. -/
def demoTag (echo : Bool) (last : U8) (r : (demo echo last).wrap.Rd) : U8 := (demo echo last).tag r

/-- An extension of the example protocol sending the byte 77 in the echo broadcast. -/
def demoExt (echo : Bool) (last : U8) : Ext (demo echo last).wrap :=
  { Ext.default (demo echo last).wrap with makeEcho := fun _ _ => .ok ⟨some [77]⟩ }

/-- The events of a script. -/
def scriptEvents (l : List Act) : List (Event toy) := l.filterMap (fun a => match a.event with | .ok e => some e | _ => none)

/-- The result in the last observation of a behaviour. -/
def finalResult {sp : SP} {Pa Ar R : Type} : Except LErr ((List (Message sp) × Seen sp Pa Ar R) ×
    List (Option (List (Message sp) × Seen sp Pa Ar R))) → Option R
  | .error _ => none
  | .ok (_, l) =>
    match l.getLast? with
    | some (some (_, .report (.result r) _ _ _)) => some r
    | _ => none

/-- The echo broadcasts sent out at the beginning. -/
def firstEchos {sp : SP} {Pa Ar R : Type} : Except LErr ((List (Message sp) × Seen sp Pa Ar R) ×
    List (Option (List (Message sp) × Seen sp Pa Ar R))) → List (Option Bytes)
  | .error _ => []
  | .ok ((out, _), _) => out.map (fun m => m.echo.part.payload)

/-- A complete run of one round without an echo round. -/
def shortScript : List Act :=
  [.msg ⟨2, 2, [9], RoundId.new 1, 1, some [5], none, some [7]⟩,
   .msg ⟨3, 3, [9], RoundId.new 1, 1, some [5], none, some [7]⟩, .tick]

/-- The beginning of a run of two rounds, with an echo broadcast. -/
def openScript : List Act := [.msg ⟨2, 2, [9], RoundId.new 1, 1, some [5], some [6], some [7]⟩]

/-- The behaviours compared by `C40_no_extensions` are not trivial: here a session finishes with the result 24. -/
example :
    finalResult (behaviour (sp := toy) (extendEntry (fun r => some (demoTag false 1 r))
      (demoEntry false 1 (BSet.ofList [1, 2, 3])) (fun _ => none)) [9] (1 : U8) (0 : Nat) (0 : Nat)
      (scriptEvents shortScript)) = some (24 : Nat) ∧
    finalResult (behaviour (sp := toy) (demoEntry false 1 (BSet.ofList [1, 2, 3])) [9] (1 : U8) (0 : Nat) (0 : Nat)
      (scriptEvents shortScript)) = some (24 : Nat) := by
  refine ⟨?_, ?_⟩
  · rw [show behaviour (sp := toy) (extendEntry (fun r => some (demoTag false 1 r))
      (demoEntry false 1 (BSet.ofList [1, 2, 3])) (fun _ => none)) [9] (1 : U8) (0 : Nat) (0 : Nat)
      (scriptEvents shortScript) = _ from C40_no_extensions (demoTag false 1) _ _ _ _ _ _]
    exact (by decide +kernel : finalResult (R := Nat) (behaviour (sp := toy) (demoEntry false 1 (BSet.ofList [1, 2, 3])) [9] (1 : U8)
      (0 : Nat) (0 : Nat) (scriptEvents shortScript)) = some (24 : Nat))
  · exact (by decide +kernel : finalResult (R := Nat) (behaviour (sp := toy) (demoEntry false 1 (BSet.ofList [1, 2, 3])) [9] (1 : U8)
      (0 : Nat) (0 : Nat) (scriptEvents shortScript)) = some (24 : Nat))

/-- An extension of the first round changes what is sent. -/
example :
    firstEchos (behaviour (sp := toy) (extendEntry (fun r => some (demoTag true 2 r))
      (demoEntry true 2 (BSet.ofList [1, 2, 3])) (addExt (fun _ => none) (1 : U8) (demoExt true 2))) [9] (1 : U8) (0 : Nat)
      (0 : Nat) []) = [some [77], some [77]] ∧
    firstEchos (behaviour (sp := toy) (demoEntry true 2 (BSet.ofList [1, 2, 3])) [9] (1 : U8) (0 : Nat) (0 : Nat) []) =
      [some [1], some [1]] := by decide +kernel

/-- States that are running and cannot be finalized yet, with a test on the round. -/
def stayIn {P : Proto sp} (ok : P.Rd → Bool) : RunState P → List (Event sp) → Bool
  | .done _, _ => true
  | .running s a, [] => ok s.round.inner && (a.canFinalize == .notYet)
  | .running s a, ev :: evs => ok s.round.inner && (a.canFinalize == .notYet) &&
    match step (.running s a) ev with
    | none => stayIn ok (.running s a) evs
    | some (st', _) => stayIn ok st' evs

theorem stayIn_within {ok : P.Rd → Bool} : ∀ (evs : List (Event sp)) (st : RunState P), stayIn ok st evs = true →
    PlaysWithin (fun r => ok r = true) st evs := by
  have hw : ∀ (s : Session P) (a : Accum P), (ok s.round.inner && (a.canFinalize == .notYet)) = true →
      (RunState.running s a).Within (fun r => ok r = true) := by
    intro s a h
    simp only [Bool.and_eq_true, beq_iff_eq] at h
    exact ⟨h.1, fun hc => by rw [h.2] at hc; cases hc⟩
  have hd : ∀ (evs : List (Event sp)) (r : Except LErr (Report P)), PlaysWithin (fun r => ok r = true) (.done r) evs := by
    intro evs r
    induction evs with
    | nil => trivial
    | cons ev evs ih => exact ⟨trivial, ih⟩
  intro evs
  induction evs with
  | nil =>
    intro st h
    cases st with
    | done r => trivial
    | running s a => exact hw s a h
  | cons ev evs ih =>
    intro st h
    cases st with
    | done r => exact hd _ r
    | running s a =>
      simp only [stayIn, Bool.and_eq_true] at h
      refine ⟨hw s a (by simp only [Bool.and_eq_true]; exact h.1), ?_⟩
      cases hs : step (.running s a) ev with
      | none => rw [hs] at h; exact ih _ h.2
      | some y => rw [hs] at h; exact ih _ h.2

theorem PlaysWithin.mono {ok ok' : P.Rd → Prop} (hm : ∀ r, ok r → ok' r) : ∀ {evs : List (Event sp)} {st : RunState P},
    PlaysWithin ok st evs → PlaysWithin ok' st evs := by
  have hw : ∀ st : RunState P, st.Within ok → st.Within ok' := by
    intro st h
    cases st with
    | done r => trivial
    | running s a => exact ⟨hm _ h.1, fun hc rng r hf => hm _ (h.2 hc rng r hf)⟩
  intro evs
  induction evs with
  | nil => exact fun {st} h => hw st h
  | cons ev evs ih =>
    intro st h
    refine ⟨hw st h.1, ?_⟩
    have h2 := h.2
    cases hs : step st ev with
    | none => rw [hs] at h2; exact ih h2
    | some y => rw [hs] at h2; exact ih h2

/-- The hypothesis of `C40_local`: a run that receives a message in round 1 while only round 2 has an extension. -/
example : BehavesWithin (fun r => addExt (fun _ => none) (2 : U8) (demoExt true 2) (demoTag true 2 r) = none)
    (demoEntry true 2 (BSet.ofList [1, 2, 3])) [9] (1 : U8) (0 : Nat) (0 : Nat) (scriptEvents openScript) := by
  have hnone : ∀ r, (demoTag true 2 r != 2) = true →
      addExt (fun _ => none) (2 : U8) (demoExt true 2) (demoTag true 2 r) = none := by
    intro r hr
    exact if_neg (by simpa using hr)
  refine ⟨fun r hr => ?_, fun s hs => ?_⟩
  · cases hr
    exact hnone _ (by decide)
  · have h : onOk (Session.new (sp := toy) (0 : Nat) [9] (1 : U8) (demoEntry true 2 (BSet.ofList [1, 2, 3]))) (fun s =>
        stayIn (fun r => demoTag true 2 r != 2) (start s (0 : Nat)).1 (scriptEvents openScript)) = true := by
      decide +kernel
    obtain ⟨s', hs', h2⟩ := onOk_iff.1 h
    cases hs'.symm.trans hs
    exact (stayIn_within _ _ h2).mono hnone

end Examples

end Manul
