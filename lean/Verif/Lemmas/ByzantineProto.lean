import Verif.Spec.Byzantine
import Verif.Lemmas.Cooperative
import Verif.Lemmas.Simple
import Verif.Lemmas.Dining

/-! # Protocols that are robust against parties that do not follow them -/

namespace Manul

variable {sp : SP} {P : Proto sp}

/-- The stages recorded are those of parties that follow the protocol. -/
def CellsAmong (I : Nat → sp.Id → P.Rd → Prop) (H : sp.Id → Prop) (G : History P) : Prop :=
  ∀ i (k : Nat) c, (G i)[k]? = some c → H i ∧ I k i c.rd ∧ c.Made

/-- `I` holds for the first rounds and is kept when going to the next ones, whatever the payloads. -/
structure RoundInvAmong (g : Group P) (H : sp.Id → Prop) (I : Nat → sp.Id → P.Rd → Prop) : Prop where
  start : ∀ i rng r, H i → (g.ep i).makeRound rng g.sid i = .ok r → I 0 i r
  next : ∀ i k rd rng ps as r, H i → I k i rd → P.finalize rd rng ps as = .ok (.anotherRound r) → I (k + 1) i r

variable {g : Group P} {H : sp.Id → Prop} {I : Nat → sp.Id → P.Rd → Prop}

theorem RoundInvAmong.enters (hI : RoundInvAmong g H I) {G : History P} (hc : CellsAmong I H G) {i : sp.Id} {r : P.Rd}
    (hi : H i) (h : EnteringAmong g H G i r) : I (G i).length i r := by
  rcases h with ⟨h1, rng, h2⟩ | ⟨rng, k, c, ps, h1, h2, h3, h4⟩
  · rw [h1]
    exact hI.start i rng r hi h2
  · rw [h1]
    exact hI.next i k c.rd rng ps _ r hi (hc i k c h2).2.1 h4

theorem RoundInvAmong.cells (hI : RoundInvAmong g H I) {G : History P} (h : HonestAmong g H G) : CellsAmong I H G := by
  induction h with
  | nil => intro i k c h; simp at h
  | @enter G i c hG hi he hm ih =>
    intro j k d hd
    by_cases hj : j = i
    · subst hj
      rw [Function.update_self] at hd
      rcases Nat.lt_trichotomy k (G j).length with hl | hl | hl
      · rw [List.getElem?_append_left hl] at hd
        exact ih j k d hd
      · rw [List.getElem?_append_right (by omega)] at hd
        subst hl
        simp only [Nat.sub_self, List.getElem?_cons_zero, Option.some.injEq] at hd
        subst hd
        exact ⟨hi, hI.enters ih hi he, hm⟩
      · rw [List.getElem?_eq_none (by simp; omega)] at hd
        simp at hd
    · rw [Function.update_of_ne hj] at hd
      exact ih j k d hd

theorem RoundInvAmong.entering (hI : RoundInvAmong g H I) {G : History P} (h : HonestAmong g H G) {i : sp.Id} {r : P.Rd}
    (hi : H i) (he : EnteringAmong g H G i r) : I (G i).length i r :=
  hI.enters (hI.cells h) hi he

/-- The parts of a message in a cell of an honest party. -/
theorem Cell.Made.parts {c : Cell P} (hm : c.Made) {i : sp.Id} {p : Part .direct} {art : P.Artifact}
    (h : c.directs.get? i = some (p, art)) :
    (∃ rng, P.makeDirect c.rd rng i = .ok (p, art)) ∧ (∃ rng, P.makeEcho c.rd rng = .ok c.echo) ∧
      ∃ rng, P.makeNormal c.rd rng = .ok c.normal := by
  have hne : (P.comm c.rd).destinations.isEmpty = false :=
    BMap.isEmpty_eq_false.2 ⟨i, by rw [← hm.dests]; exact BMap.contains_iff.2 ⟨_, h⟩⟩
  exact ⟨hm.direct i _ h, hm.echo hne, hm.normal hne⟩

/-- A typed round that has echo broadcasts accepts no message without one. -/
theorem typed_insists (T : TypedProto sp) {s : T.St} {j : sp.Id} {m : DynMsg} {v : T.Payload}
    (hd : (T.de (T.tag s) .echo).isSome = true) (h : T.wrap.receive s j m = .ok v) : m.echo.payload.isSome = true := by
  change T.wrapReceive s j m = .ok v at h
  unfold TypedProto.wrapReceive at h
  split at h
  · cases h
  · split at h
    · cases h
    · rename_i e he
      unfold TypedProto.readPart at he
      obtain ⟨de, hde⟩ := Option.isSome_iff_exists.1 hd
      rw [hde] at he
      cases hp : m.echo.payload with
      | none => rw [hp] at he; simp at he
      | some b => rfl

/-! ### The example protocol -/

theorem demo_roundInvAmong (echo : Bool) (last : U8) (parties : BSet U8) (H : U8 → Prop) (hl : 0 < last.val) :
    RoundInvAmong (demoGroup echo last parties) H (DemoInv last parties) := by
  refine ⟨?_, ?_⟩
  · intro i rng r _ h
    simp only [demoGroup, demoEntry] at h
    cases h
    exact ⟨rfl, rfl, rfl, hl⟩
  · intro i k rd rng ps as r _ hrd h
    obtain ⟨h1, h2, h3, h4⟩ := hrd
    simp only [TypedProto.wrap, demo] at h
    split at h
    · simp at h
    · rename_i hn
      cases h
      have hlt : k + 1 < last.val := by
        rcases Nat.lt_or_ge (k + 1) last.val with h | h
        · exact h
        · exact absurd (Fin.ext (by omega)) hn
      refine ⟨h1, h2, ?_, hlt⟩
      have := last.isLt
      show (rd.n + 1).val = _
      rw [Fin.val_add]
      have e1 : (1 : U8).val = 1 := rfl
      rw [e1, h3]
      exact Nat.mod_eq_of_lt (by omega)

/-- The example protocol is robust: any parties follow it (other than 66 and 67), any number of rounds. -/
theorem demo_robust (echo : Bool) (last : U8) (parties : BSet U8) (H : U8 → Prop) (hl : 0 < last.val)
    (hH : ∀ i, H i → parties.contains i = true) (h66 : ¬ H 66) (h67 : ¬ H 67)
    (hc : echo = true → ∀ i, H i → (parties.erase i).isEmpty = false) :
    Robust (demoPlan echo last parties) H := by
  have hI := demo_roundInvAmong echo last parties H hl
  have hlt := last.isLt
  refine ⟨hH, hl, ?_, ?_, ?_, allToAll_pattern _ _ _ _, ?_, ?_, ?_, ?_, ?_, ?_, ?_⟩
  · intro k l hk hl' h
    simp only [demoPlan, Plan.allToAll, RoundId.new, RoundId.mk.injEq, and_true] at h hk hl'
    have := congrArg Fin.val h
    simp only [Fin.ofNat] at this
    rw [Nat.mod_eq_of_lt (by omega), Nat.mod_eq_of_lt (by omega)] at this
    omega
  · intro k _; rfl
  · intro k i _ he hi
    exact hc he i hi
  · intro G i r hG hi hr
    obtain ⟨h1, h2, h3, h4⟩ := hI.entering hG hi hr
    exact demo_transition_id echo last r h3
  · intro G i r hG hi hr
    obtain ⟨h1, h2, h3, h4⟩ := hI.entering hG hi hr
    exact h4
  · intro G i r hG hi hr hlen
    obtain ⟨h1, h2, h3, h4⟩ := hI.entering hG hi hr
    exact demo_child_contains echo last r h3 hlen
  · intro G i r hG hi hr
    obtain ⟨h1, h2, h3, h4⟩ := hI.entering hG hi hr
    show CommInfo.regular r.others = _
    rw [h2]
    rfl
  · intro G i r hG hi hr _ rng p h
    cases echo with
    | false => rw [← Except.ok.inj h]; rfl
    | true => rw [← Except.ok.inj h]; rfl
  · intro G i j k ci cj p art hG hi hj _ hci hcj hd
    obtain ⟨-, ⟨hme, -⟩, hm⟩ := hI.cells hG j k cj hcj
    obtain ⟨⟨r1, h1⟩, ⟨r2, h2⟩, ⟨r3, h3⟩⟩ := hm.parts hd
    have e1 : p = ⟨some [i]⟩ := (Prod.mk.inj (Except.ok.inj h1)).1.symm
    have e3 : cj.normal = ⟨some [cj.rd.n]⟩ := (Except.ok.inj h3).symm
    have e2 : cj.echo = if echo then ⟨some [j]⟩ else Part.none := by
      cases echo with
      | false => exact (Except.ok.inj h2).symm
      | true => rw [← hme]; exact (Except.ok.inj h2).symm
    rw [e1, e3]
    refine demo_receives echo last ci.rd j i cj.rd.n cj.echo ?_ ?_ e2
    · rintro rfl
      exact h66 hi
    · rintro rfl
      exact h67 hi
  · intro G i j k ci m v hG hi hci he h
    have he' : echo = true := he
    subst he'
    exact typed_insists (demo true last) rfl h

/-! ### The protocol `simple` -/

section

variable {fmt : SimpleFormat} {checks : Bool} {ids : BSet sp.Id} {signer : sp.Id → sp.Signer} {sid : Bytes} {H : sp.Id → Prop}

theorem simple_roundInvAmong :
    RoundInvAmong (simpleGroup sp fmt checks ids signer sid) H (SimpleShape ids) := by
  refine ⟨?_, ?_⟩
  · intro i rng r _ h
    exact Or.inl ⟨rfl, (Except.ok.inj h).symm⟩
  · intro i k rd rng ps as r _ hrd h
    rcases hrd with ⟨rfl, rfl⟩ | ⟨rfl, s, rfl⟩
    · simp only [TypedProto.wrap, simple, simpleBase] at h
      split at h
      · cases h
      · exact Or.inr ⟨rfl, _, (Outcome.anotherRound.inj (Except.ok.inj h)).symm⟩
    · simp only [TypedProto.wrap, simple, simpleBase] at h
      split at h
      · cases h
      · split at h
        · cases h
        · cases h

/-- The protocol is robust: the others can at most make it panic. -/
theorem simple_robust (hf : fmt.Lawful) (hH : ∀ i, H i → ids.contains i = true) :
    Robust (simplePlan sp fmt checks ids signer sid) H := by
  have hI := simple_roundInvAmong (fmt := fmt) (checks := checks) (ids := ids) (signer := signer) (sid := sid) (H := H)
  refine ⟨hH, Nat.succ_pos 1, ?_, fun _ _ => rfl, ?_, allToAll_pattern _ _ _ _, ?_, ?_, ?_, ?_, ?_, ?_, ?_⟩
  · intro k l hk hl h
    simp only [simplePlan, Plan.allToAll, RoundId.new, RoundId.mk.injEq, and_true] at h hk hl
    have := congrArg Fin.val h
    simp only [Fin.ofNat] at this
    omega
  · intro k i _ he hi
    simp only [simplePlan, Plan.allToAll, decide_eq_true_eq] at he
    exact (simple_others (hH i hi)).2 he.2
  · intro G i r hG hi hr
    rcases hI.entering hG hi hr with ⟨h, rfl⟩ | ⟨h, s, rfl⟩ <;> rw [h] <;> rfl
  · intro G i r hG hi hr
    rcases hI.entering hG hi hr with ⟨h, rfl⟩ | ⟨h, s, rfl⟩ <;> rw [h]
    · exact Nat.succ_pos 1
    · exact Nat.lt_succ_self 1
  · intro G i r hG hi hr hlen
    rcases hI.entering hG hi hr with ⟨h, rfl⟩ | ⟨h, s, rfl⟩
    · rw [h]
      rfl
    · rw [h] at hlen
      simp [simplePlan, Plan.allToAll] at hlen
  · intro G i r hG hi hr
    exact simple_comm (hI.entering hG hi hr)
  · intro G i r hG hi hr hne rng p hp
    have h2 := (simple_others (hH i hi)).1 hne
    rcases hI.entering hG hi hr with ⟨h, rfl⟩ | ⟨h, s, rfl⟩
    · obtain ⟨b1, s1, -⟩ := hf (.echo1 (posOf ids i))
      simp only [TypedProto.wrap, simple, simpleBase, show (simpleCtx ids i).id = i from rfl, simple_position (hH i hi),
          TypedProto.newPart, s1, Except.ok.injEq] at hp
      rw [h, ← hp]
      simp [simplePlan, Plan.allToAll, h2]
    · rw [h, ← Except.ok.inj hp]
      simp [simplePlan, Plan.allToAll, Part.none]
  · intro G i j k ci cj p art hG hi hj _ hci hcj hd
    obtain ⟨-, h1, -⟩ := hI.cells hG i k ci hci
    obtain ⟨-, h2, hm⟩ := hI.cells hG j k cj hcj
    obtain ⟨⟨r1, e1⟩, ⟨r2, e2⟩, ⟨r3, e3⟩⟩ := hm.parts hd
    exact ⟨_, simple_receives hf (hH i hi) (hH j hj) h1 h2 e2 e3 e1⟩
  · intro G i j k ci m v hG hi hci he h
    simp only [simplePlan, Plan.allToAll, decide_eq_true_eq] at he
    obtain ⟨-, h1, -⟩ := hI.cells hG i k ci hci
    rcases h1 with ⟨-, hr⟩ | ⟨hk, -⟩
    · rw [hr] at h
      exact typed_insists (simple sp fmt checks) rfl h
    · omega

end

/-! ### The dining cryptographers -/

section

variable {R : RandomSource} {H : U8 → Prop}

theorem dining_roundInvAmong {g : Group (dining R).wrap} (hg : DiningParty g) (hH : ∀ i, H i → diners.contains i = true) :
    RoundInvAmong g H DiningInv := by
  refine ⟨?_, ?_⟩
  · intro i rng r hi h
    obtain ⟨t, p, h'⟩ := hg.start i (hH i hi) rng
    rw [h] at h'
    exact Or.inl ⟨rfl, t, p, Except.ok.inj h'⟩
  · intro i k rd rng ps as r _ hrd h
    rcases hrd with ⟨rfl, t, p, rfl⟩ | ⟨rfl, t, n, p, rfl⟩
    · obtain ⟨n, l, -, h'⟩ := dining_next1 h
      exact Or.inr ⟨rfl, t, n, p, h'⟩
    · exact absurd h dining_next2

theorem dining_robust {g : Group (dining R).wrap} (hg : DiningParty g) (hH : ∀ i, H i → diners.contains i = true) :
    Robust (diningPlan g) H := by
  have hI := dining_roundInvAmong hg hH
  have hco := dining_cooperative hg
  refine ⟨fun i hi => by rw [show (diningPlan g).g.parties = diners from hg.parties]; exact hH i hi, hco.stages, hco.ids,
    hco.notEcho, ?_, hco.pattern, ?_, ?_, ?_, ?_, ?_, ?_, ?_⟩
  · intro k i _ he
    simp [diningPlan] at he
  · intro G i r hG hi hr
    rcases hI.entering hG hi hr with ⟨h, t, p, rfl⟩ | ⟨h, t, n, p, rfl⟩ <;> rw [h] <;> rfl
  · intro G i r hG hi hr
    rcases hI.entering hG hi hr with ⟨h, t, p, rfl⟩ | ⟨h, t, n, p, rfl⟩ <;> rw [h]
    · exact Nat.succ_pos 1
    · exact Nat.lt_succ_self 1
  · intro G i r hG hi hr hlen
    rcases hI.entering hG hi hr with ⟨h, t, p, rfl⟩ | ⟨h, t, n, p, rfl⟩
    · rw [h]
      rfl
    · rw [h] at hlen
      simp [diningPlan] at hlen
  · intro G i r hG hi hr
    exact dining_comm (hI.entering hG hi hr)
  · intro G i r hG hi hr hne rng p hp
    rcases hI.entering hG hi hr with ⟨h, t, p, rfl⟩ | ⟨h, t, n, p, rfl⟩ <;> (cases hp; rfl)
  · intro G i j k ci cj p art hG hi hj _ hci hcj hd
    obtain ⟨-, h1, -⟩ := hI.cells hG i k ci hci
    obtain ⟨-, h2, hm⟩ := hI.cells hG j k cj hcj
    obtain ⟨⟨r1, e1⟩, ⟨r2, e2⟩, ⟨r3, e3⟩⟩ := hm.parts hd
    obtain ⟨v, hv, -⟩ := dining_receives h1 h2 e2 e3 e1
    exact ⟨v, hv⟩
  · intro G i j k ci m v hG hi hci he
    simp [diningPlan] at he

end

end Manul
