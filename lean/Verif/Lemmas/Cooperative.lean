import Verif.Lemmas.Network

/-!
# Lemmas to show that a protocol is cooperative
-/

namespace Manul

variable {sp : SP} {P : Proto sp}

/-- All cells of a history were made by the parties in rounds satisfying `I`. -/
def CellsOk (I : Nat → sp.Id → P.Rd → Prop) (g : Group P) (G : History P) : Prop :=
  ∀ i (k : Nat) c, (G i)[k]? = some c → g.parties.contains i = true ∧ I k i c.rd ∧ c.Made

/-- `I` holds for the first rounds and is kept when going to the next ones. -/
structure RoundInv (g : Group P) (I : Nat → sp.Id → P.Rd → Prop) : Prop where
  start : ∀ i rng r, g.parties.contains i = true → (g.ep i).makeRound rng g.sid i = .ok r → I 0 i r
  next : ∀ (G : History P) i (k : Nat) c ps rng r, g.parties.contains i = true → CellsOk I g G → (G i).length = k + 1 →
    (G i)[k]? = some c → PayloadsOf G i k ps →
    P.finalize c.rd rng ps (c.directs.mapVal (fun _ x => x.2)) = .ok (.anotherRound r) → I (k + 1) i r

theorem RoundInv.enters {g : Group P} {I : Nat → sp.Id → P.Rd → Prop} (hI : RoundInv g I) {G : History P}
    (hc : CellsOk I g G) {i : sp.Id} {r : P.Rd} (hi : g.parties.contains i = true) (h : Entering g G i r) :
    I (G i).length i r := by
  rcases h with ⟨h1, rng, h2⟩ | ⟨rng, k, c, ps, h1, h2, h3, h4⟩
  · rw [h1]
    exact hI.start i rng r hi h2
  · rw [h1]
    exact hI.next G i k c ps rng r hi hc h1 h2 h3 h4

theorem RoundInv.cells {g : Group P} {I : Nat → sp.Id → P.Rd → Prop} (hI : RoundInv g I) {G : History P} (h : Honest g G) :
    CellsOk I g G := by
  induction h with
  | nil => intro i k c h; simp at h
  | @enter G i c hG hi he hm ih =>
    intro j k d hd
    by_cases hj : j = i
    · subst hj
      rw [Function.update_self] at hd
      rcases Nat.lt_trichotomy k (G j).length with hl | hl | hl
      · rw [List.getElem?_append_left hl] at hd
        exact ih j k d hd
      · rw [List.getElem?_append_right (by omega)] at hd
        subst hl
        simp only [Nat.sub_self, List.getElem?_cons_zero, Option.some.injEq] at hd
        subst hd
        exact ⟨hi, hI.enters ih hi he, hm⟩
      · rw [List.getElem?_eq_none (by simp; omega)] at hd
        simp at hd
    · rw [Function.update_of_ne hj] at hd
      exact ih j k d hd

theorem RoundInv.entering {g : Group P} {I : Nat → sp.Id → P.Rd → Prop} (hI : RoundInv g I) {G : History P} (h : Honest g G)
    {i : sp.Id} {r : P.Rd} (hi : g.parties.contains i = true) (he : Entering g G i r) : I (G i).length i r :=
  hI.enters (hI.cells h) hi he

/-- All-to-all communication is a proper pattern. -/
theorem allToAll_pattern (g : Group P) (rid : Nat → RoundId) (echoAt : Nat → Bool) (n : Nat) :
    Pattern (Plan.allToAll g rid echoAt n) := by
  refine ⟨?_, ?_, ?_, ?_, ?_, ?_⟩
  · intro k i j _ hi hj
    simp only [Plan.allToAll] at hi hj ⊢
    rw [Bool.eq_iff_iff, Plan.others_contains, Plan.others_contains]
    exact ⟨fun h => ⟨h.1.symm, hi⟩, fun h => ⟨h.1.symm, hj⟩⟩
  · intro k i j _ _ h; exact h
  · intro k i j _ _ h; exact h
  · intro k i _ _ _; rfl
  · intro k i _ _ _; rfl
  · intro k i j _ _ hi h
    exact h

/-! ### The example protocol is cooperative -/

/-- The parties of the example protocol. -/
def demoGroup (echo : Bool) (last : U8) (parties : BSet U8) : Group (demo echo last).wrap where
  parties := parties
  signer i := i
  ep _ := demoEntry echo last parties
  sid := [9]

/-- Its plan: rounds `1 … last`, everybody to everybody. -/
def demoPlan (echo : Bool) (last : U8) (parties : BSet U8) : Plan (demo echo last).wrap :=
  Plan.allToAll (demoGroup echo last parties) (fun k => RoundId.new (Fin.ofNat 256 (k + 1))) (fun _ => echo) last.val

/-- The rounds of the example protocol in an honest execution. -/
def DemoInv (last : U8) (parties : BSet U8) (k : Nat) (i : U8) (r : DemoSt) : Prop :=
  r.me = i ∧ r.others = parties.erase i ∧ r.n.val = k + 1 ∧ k < last.val

theorem demo_roundInv (echo : Bool) (last : U8) (parties : BSet U8) (hl : 0 < last.val) :
    RoundInv (demoGroup echo last parties) (DemoInv last parties) := by
  refine ⟨?_, ?_⟩
  · intro i rng r _ h
    simp only [demoGroup, demoEntry] at h
    cases h
    exact ⟨rfl, rfl, rfl, hl⟩
  · intro G i k c ps rng r hi hG _ hc _ h
    obtain ⟨-, ⟨h1, h2, h3, h4⟩, -⟩ := hG i k c hc
    simp only [TypedProto.wrap, demo] at h
    split at h
    · simp at h
    · rename_i hn
      cases h
      have hlt : k + 1 < last.val := by
        rcases Nat.lt_or_ge (k + 1) last.val with h | h
        · exact h
        · exfalso
          apply hn
          apply Fin.ext
          have := c.rd.n.isLt
          omega
      refine ⟨h1, h2, ?_, hlt⟩
      have := last.isLt
      show (c.rd.n + 1).val = _
      rw [Fin.val_add]
      have e1 : (1 : U8).val = 1 := rfl
      rw [e1, h3]
      exact Nat.mod_eq_of_lt (by omega)

theorem demo_child_contains (echo : Bool) (last : U8) (r : DemoSt) {k : Nat} (hn : r.n.val = k + 1) (hk : k + 1 < last.val) :
    ((demo echo last).transition r).children.contains (RoundId.new (Fin.ofNat 256 (k + 1 + 1))) = true := by
  have hlt := last.isLt
  have h1 : r.n ≠ last := by
    intro h
    have := congrArg Fin.val h
    omega
  have h2 : r.n.val ≠ 255 := by omega
  have h3 : Fin.ofNat 256 (k + 1 + 1) = r.n + 1 := by
    apply Fin.ext
    rw [Fin.val_add]
    have e1 : (1 : U8).val = 1 := rfl
    rw [e1, hn]
    rfl
  rw [h3]
  simp only [demo, h1, if_false, TransitionInfo.newLinear, h2]
  simp [BSet.ofList]

theorem demo_transition_id (echo : Bool) (last : U8) (r : DemoSt) {k : Nat} (hn : r.n.val = k + 1) :
    ((demo echo last).transition r).id = RoundId.new (Fin.ofNat 256 (k + 1)) := by
  have h3 : Fin.ofNat 256 (k + 1) = r.n := by
    apply Fin.ext
    have := r.n.isLt
    simp only [Fin.ofNat]
    rw [Nat.mod_eq_of_lt (by omega), hn]
  rw [h3]
  simp only [demo, TransitionInfo.newLinear]
  split
  · rfl
  · split
    · rename_i h
      split at h
      · simp at h
      · cases h; rfl
    · rfl

theorem demo_receives (echo : Bool) (last : U8) (r : DemoSt) (x i n : U8) (e : Part .echo) (h66 : i ≠ 66) (h67 : i ≠ 67)
    (he : e = if echo then ⟨some [x]⟩ else Part.none) :
    ∃ v, (demo echo last).wrap.receive r x ⟨e, ⟨some [n]⟩, ⟨some [i]⟩⟩ = .ok v := by
  subst he
  cases echo <;>
    simp [TypedProto.wrap, TypedProto.wrapReceive, TypedProto.readPart, demo, demoDe, Part.none, mapErr, h66, h67]

theorem demo_finalizes (echo : Bool) (last : U8) (r : DemoSt) (rng : Nat) (ps : BMap U8 Nat) (as : BMap U8 Unit) {k : Nat}
    (hn : r.n.val = k + 1) (hk : k < last.val) :
    ∃ o : Outcome DemoSt Nat, (demo echo last).finalize r rng ps as = .ok o ∧
      if k + 1 < last.val then ∃ r', o = .anotherRound r' else ∃ res, o = .result res := by
  by_cases h : r.n = last
  · refine ⟨.result (r.acc + (ps.toList.map (fun e => e.2)).sum), ?_, ?_⟩
    · simp [demo, h]; rfl
    · rw [if_neg (by rw [← h]; omega)]
      exact ⟨_, rfl⟩
  · refine ⟨.anotherRound { r with n := r.n + 1, acc := r.acc + (ps.toList.map (fun e => e.2)).sum }, ?_, ?_⟩
    · simp [demo, h]; rfl
    · rw [if_pos (by
        rcases Nat.lt_or_ge (k + 1) last.val with h' | h'
        · exact h'
        · exact absurd (Fin.ext (by omega)) h)]
      exact ⟨_, rfl⟩

/-- The example protocol is cooperative: any parties (other than 66 and 67, whose ids are not valid messages), any number of
rounds, with and without echo broadcasts. -/
theorem demo_cooperative (echo : Bool) (last : U8) (parties : BSet U8) (hl : 0 < last.val)
    (h66 : parties.contains 66 = false) (h67 : parties.contains 67 = false)
    (hc : echo = true → ∀ i, parties.contains i = true → (parties.erase i).isEmpty = false) :
    Cooperative (demoPlan echo last parties) := by
  have hI := demo_roundInv echo last parties hl
  have hlt := last.isLt
  refine ⟨hl, ?_, ?_, ?_, allToAll_pattern _ _ _ _, ?_, ?_, ?_, ?_, ?_, ?_, ?_, ?_, ?_⟩
  · intro k l hk hl' h
    simp only [demoPlan, Plan.allToAll, RoundId.new, RoundId.mk.injEq, and_true] at h hk hl'
    have := congrArg Fin.val h
    simp only [Fin.ofNat] at this
    rw [Nat.mod_eq_of_lt (by omega), Nat.mod_eq_of_lt (by omega)] at this
    omega
  · intro k _; rfl
  · intro k i _ he hi
    exact hc he i hi
  · intro i _ rng
    exact ⟨_, rfl⟩
  · intro G i r hG hi hr
    obtain ⟨h1, h2, h3, h4⟩ := hI.entering hG hi hr
    exact demo_transition_id echo last r h3
  · intro G i r hG hi hr hlen
    obtain ⟨h1, h2, h3, h4⟩ := hI.entering hG hi hr
    exact demo_child_contains echo last r h3 hlen
  · intro G i r hG hi hr
    obtain ⟨h1, h2, h3, h4⟩ := hI.entering hG hi hr
    show CommInfo.regular r.others = _
    rw [h2]
    rfl
  · intro G i r hG hi hr _ rng
    cases echo with
    | false => exact ⟨Part.none, rfl, rfl⟩
    | true => exact ⟨⟨some [r.me]⟩, rfl, rfl⟩
  · intro G i r hG hi hr _ rng
    exact ⟨⟨some [r.n]⟩, rfl⟩
  · intro G i r hG hi hr j _ rng
    exact ⟨(⟨some [j]⟩, ()), rfl⟩
  · intro G i j k ci cj p art hG hj hi hci hcj hd
    obtain ⟨-, ⟨hme, -⟩, hm⟩ := hI.cells hG j k cj hcj
    have hne : ((demo echo last).wrap.comm cj.rd).destinations.isEmpty = false :=
      BMap.isEmpty_eq_false.2 ⟨i, by rw [← hm.dests]; exact BMap.contains_iff.2 ⟨_, hd⟩⟩
    obtain ⟨r1, h1⟩ := hm.direct i _ hd
    obtain ⟨r2, h2⟩ := hm.echo hne
    obtain ⟨r3, h3⟩ := hm.normal hne
    have e1 : p = ⟨some [i]⟩ := (Prod.mk.inj (Except.ok.inj h1)).1.symm
    have e3 : cj.normal = ⟨some [cj.rd.n]⟩ := (Except.ok.inj h3).symm
    have e2 : cj.echo = if echo then ⟨some [j]⟩ else Part.none := by
      cases echo with
      | false => exact (Except.ok.inj h2).symm
      | true => rw [← hme]; exact (Except.ok.inj h2).symm
    rw [e1, e3]
    refine demo_receives echo last ci.rd j i cj.rd.n cj.echo ?_ ?_ e2
    · rintro rfl
      rw [show BMap.contains (demoPlan echo last parties).g.parties (66 : U8) = false from h66] at hi
      simp at hi
    · rintro rfl
      rw [show BMap.contains (demoPlan echo last parties).g.parties (67 : U8) = false from h67] at hi
      simp at hi
  · intro G i k c ps hG hi hlen hc' hps rng
    obtain ⟨-, ⟨h1, h2, h3, h4⟩, -⟩ := hI.cells hG i k c hc'
    exact demo_finalizes echo last c.rd rng ps (c.directs.mapVal (fun _ x => x.2)) h3 h4

end Manul
