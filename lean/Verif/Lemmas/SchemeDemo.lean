import Verif.Lemmas.SchemePlan
import Verif.Lemmas.Cooperative
import Verif.Lemmas.Toy
import Verif.Lemmas.NetRun

/-!
# The example protocol with an arbitrary pattern of communication
-/

namespace Manul

/-- Who communicates with whom: for each round number and party. -/
abbrev CommTable := U8 → U8 → CommInfo U8

/-- The example protocol, with echo broadcasts, following a table. -/
def demoWith (table : CommTable) (last : U8) : TypedProto toy := { demo true last with comm := fun s => table s.n s.me }

/-- Its parties. -/
def demoWithGroup (table : CommTable) (last : U8) (parties : BSet U8) : Group (demoWith table last).wrap where
  parties := parties
  signer i := i
  ep _ := { entryRoundId := RoundId.new 1, makeRound := fun _ _ me => .ok (⟨me, BMap.empty, 1, 0⟩ : DemoSt) }
  sid := [9]

/-- Its scheme. -/
def demoScheme (table : CommTable) (last : U8) (parties : BSet U8) : Scheme (demoWith table last).wrap where
  g := demoWithGroup table last parties
  rid k := RoundId.new (Fin.ofNat 256 (k + 1))
  echoAt _ := true
  n := last.val
  dests k i := (table (Fin.ofNat 256 (k + 1)) i).destinations
  expects k i := (table (Fin.ofNat 256 (k + 1)) i).expecting
  part k i := (table (Fin.ofNat 256 (k + 1)) i).participation

variable {table : CommTable} {last : U8} {parties : BSet U8}

/-- The rounds in an honest execution. -/
def DemoWithInv (last : U8) (k : Nat) (i : U8) (r : DemoSt) : Prop := r.me = i ∧ r.n.val = k + 1 ∧ k < last.val

theorem demoWith_roundInv (hl : 0 < last.val) : RoundInv (demoWithGroup table last parties) (DemoWithInv last) := by
  refine ⟨?_, ?_⟩
  · intro i rng r _ h
    simp only [demoWithGroup] at h
    cases h
    exact ⟨rfl, rfl, hl⟩
  · intro G i k c ps rng r hi hG _ hc _ h
    obtain ⟨-, ⟨h1, h3, h4⟩, -⟩ := hG i k c hc
    simp only [TypedProto.wrap, demoWith, demo] at h
    split at h
    · simp at h
    · rename_i hn
      cases h
      have hlt : k + 1 < last.val := by
        rcases Nat.lt_or_ge (k + 1) last.val with h | h
        · exact h
        · exfalso
          apply hn
          apply Fin.ext
          have := c.rd.n.isLt
          omega
      refine ⟨h1, ?_, hlt⟩
      have := last.isLt
      show (c.rd.n + 1).val = _
      rw [Fin.val_add]
      have e1 : (1 : U8).val = 1 := rfl
      rw [e1, h3]
      exact Nat.mod_eq_of_lt (by omega)

theorem demoWith_number {k : Nat} {r : DemoSt} (h : r.n.val = k + 1) : Fin.ofNat 256 (k + 1) = r.n := by
  apply Fin.ext
  have := r.n.isLt
  simp only [Fin.ofNat]
  rw [Nat.mod_eq_of_lt (by omega), h]

theorem demoWith_receives (r : DemoSt) (x i n : U8) (h66 : i ≠ 66) (h67 : i ≠ 67) :
    ∃ v, (demoWith table last).wrap.receive r x ⟨⟨some [x]⟩, ⟨some [n]⟩, ⟨some [i]⟩⟩ = .ok v := by
  simp [TypedProto.wrap, TypedProto.wrapReceive, TypedProto.readPart, demoWith, demo, demoDe, mapErr, h66, h67]

/-- The protocol is cooperative if the table is a pattern of communication. -/
theorem demoWith_cooperative (hl : 0 < last.val) (h66 : parties.contains 66 = false) (h67 : parties.contains 67 = false)
    (hp : (demoScheme table last parties).Pattern) : (demoScheme table last parties).Cooperative := by
  have hI : RoundInv (demoScheme table last parties).g (DemoWithInv last) := demoWith_roundInv hl
  have hlt := last.isLt
  refine ⟨hl, ?_, fun _ _ => rfl, hp, ?_, ?_, ?_, ?_, ?_, ?_, ?_, ?_, ?_⟩
  · intro k l hk hl' h
    simp only [demoScheme, RoundId.new, RoundId.mk.injEq, and_true] at h hk hl'
    have := congrArg Fin.val h
    simp only [Fin.ofNat] at this
    rw [Nat.mod_eq_of_lt (by omega), Nat.mod_eq_of_lt (by omega)] at this
    omega
  · intro i _ rng
    exact ⟨_, rfl⟩
  · intro G i r hG hi hr
    obtain ⟨h1, h3, h4⟩ := hI.entering hG hi hr
    exact demo_transition_id true last r h3
  · intro G i r hG hi hr hlen
    obtain ⟨h1, h3, h4⟩ := hI.entering hG hi hr
    exact demo_child_contains true last r h3 hlen
  · intro G i r hG hi hr
    obtain ⟨h1, h3, h4⟩ := hI.entering hG hi hr
    show table r.n r.me = _
    rw [h1, ← demoWith_number h3]
    rfl
  · intro G i r hG hi hr _ rng
    exact ⟨⟨some [r.me]⟩, rfl, rfl⟩
  · intro G i r hG hi hr _ rng
    exact ⟨⟨some [r.n]⟩, rfl⟩
  · intro G i r hG hi hr j _ rng
    exact ⟨(⟨some [j]⟩, ()), rfl⟩
  · intro G i j k ci cj p art hG hj hi hci hcj hd
    obtain ⟨-, ⟨hme, -⟩, hm⟩ := hI.cells hG j k cj hcj
    have hne : ((demoWith table last).wrap.comm cj.rd).destinations.isEmpty = false :=
      BMap.isEmpty_eq_false.2 ⟨i, by rw [← hm.dests]; exact BMap.contains_iff.2 ⟨_, hd⟩⟩
    obtain ⟨r1, h1⟩ := hm.direct i _ hd
    obtain ⟨r2, h2⟩ := hm.echo hne
    obtain ⟨r3, h3⟩ := hm.normal hne
    have e1 : p = ⟨some [i]⟩ := (Prod.mk.inj (Except.ok.inj h1)).1.symm
    have e3 : cj.normal = ⟨some [cj.rd.n]⟩ := (Except.ok.inj h3).symm
    have e2 : cj.echo = ⟨some [j]⟩ := by
      rw [← hme]
      exact (Except.ok.inj h2).symm
    rw [e1, e2, e3]
    exact demoWith_receives ci.rd j i cj.rd.n (by
      rintro rfl
      exact absurd (show parties.contains 66 = true from hi) (by rw [h66]; decide)) (by
      rintro rfl
      exact absurd (show parties.contains 67 = true from hi) (by rw [h67]; decide))
  · intro G i k c ps hG hi hlen hc hps rng
    obtain ⟨-, ⟨h1, h3, h4⟩, -⟩ := hI.cells hG i k c hc
    exact demo_finalizes true last c.rd rng ps (c.directs.mapVal (fun _ x => x.2)) h3 h4

theorem demoWith_ok (hl : 0 < last.val) (h66 : parties.contains 66 = false) (h67 : parties.contains 67 = false)
    (hp : (demoScheme table last parties).Pattern) : (demoScheme table last parties).Ok where
  env := toy_envOk
  sign := toy_signCorrect
  srt := toy_sigRoundTrip
  ert := toy_echoRoundTrip
  keys := fun _ _ => rfl
  coop := demoWith_cooperative hl h66 h67 hp

/-- What has to be checked of a table, in an order in which it can be decided. -/
def matchingCheck (table : CommTable) (last : U8) (parties : BSet U8) : Bool :=
  let sc := demoScheme table last parties
  let l : List U8 := parties.elems
  (List.range last.val).all (fun k => l.all (fun i =>
    (l.all (fun j => decide (BMap.contains (sc.dests k i) (j : U8) = BMap.contains (sc.expects k j) (i : U8)))) &&
    (BSet.elems (sc.dests k i)).all (fun j : U8 => BMap.contains (parties.erase i) j) &&
    (BSet.elems (sc.expects k i)).all (fun j : U8 => BMap.contains (parties.erase i) j) &&
    (!sc.runsEcho k i || (BSet.elems (sc.peers k i)).all (fun j : U8 => BMap.contains (parties.erase i) j && sc.runsEcho k j &&
      BMap.contains (sc.peers k j) i &&
      (List.range 256).all (fun x => decide (BMap.contains (sc.expects k j) (Fin.ofNat 256 x : U8) =
        (sc.compares k i (Fin.ofNat 256 x : U8) && !decide ((Fin.ofNat 256 x : U8) = j))))))))

/-- Likewise for the two other conditions. -/
def windowCheck (table : CommTable) (last : U8) (parties : BSet U8) : Bool :=
  let sc := demoScheme table last parties
  let l : List U8 := parties.elems
  (List.range last.val).all (fun k => l.all (fun i =>
    (decide (k = 0) || !sc.runsEcho k i || (BSet.elems (sc.peers k i)).all (fun j : U8 => BMap.contains (sc.expects k i) j)) &&
    (decide (last.val ≤ k + 1) || (BSet.elems (sc.dests (k + 1) i)).all (fun j : U8 =>
      if sc.runsEcho k j then sc.runsEcho k i && BMap.contains (sc.peers k i) j
      else decide (k = 0) || BMap.contains (sc.expects k i) j))))

theorem matching_of_check (h : matchingCheck table last parties = true) : (demoScheme table last parties).Matching := by
  unfold matchingCheck at h
  simp only [List.all_eq_true, List.mem_range, Bool.and_eq_true, Bool.or_eq_true, decide_eq_true_eq, Bool.not_eq_true'] at h
  refine ⟨?_, ?_, ?_, ?_, ?_, ?_⟩
  · intro k i j hk hi hj
    exact (h k hk i (BSet.mem_elems.2 hi)).1.1.1 j (BSet.mem_elems.2 hj)
  · intro k i j hk hi hj
    exact List.all_eq_true.1 (h k hk i (BSet.mem_elems.2 hi)).1.1.2 j (BSet.mem_elems.2 hj)
  · intro k i j hk hi hj
    exact List.all_eq_true.1 (h k hk i (BSet.mem_elems.2 hi)).1.2 j (BSet.mem_elems.2 hj)
  · intro k i _ _ _
    rfl
  · intro k i j hk hi hr hj
    rcases (h k hk i (BSet.mem_elems.2 hi)).2 with h1 | h1
    · rw [hr] at h1; simp at h1
    · have h2 := List.all_eq_true.1 h1 j (BSet.mem_elems.2 hj)
      simp only [Bool.and_eq_true] at h2
      exact ⟨h2.1.1.1, h2.1.1.2, h2.1.2⟩
  · intro k i j hk hi hr hj x
    rcases (h k hk i (BSet.mem_elems.2 hi)).2 with h1 | h1
    · rw [hr] at h1; simp at h1
    · have h2 := List.all_eq_true.1 h1 j (BSet.mem_elems.2 hj)
      simp only [Bool.and_eq_true, List.all_eq_true, List.mem_range, decide_eq_true_eq] at h2
      have h3 := h2.2 (Fin.val (n := 256) x) (Fin.isLt (n := 256) x)
      rwa [show Fin.ofNat 256 (Fin.val (n := 256) x) = x from Fin.ext (Nat.mod_eq_of_lt (Fin.isLt (n := 256) x))] at h3

theorem pattern_of_check (h : matchingCheck table last parties = true) (hw : windowCheck table last parties = true) :
    (demoScheme table last parties).Pattern := by
  unfold windowCheck at hw
  simp only [List.all_eq_true, List.mem_range, Bool.and_eq_true, Bool.or_eq_true, decide_eq_true_eq, Bool.not_eq_true'] at hw
  refine ⟨matching_of_check h, ?_, ?_⟩
  · intro k i j h0 hk hi hr hj
    rcases (hw k hk i (BSet.mem_elems.2 hi)).1 with (h1 | h1) | h1
    · omega
    · rw [hr] at h1; simp at h1
    · exact List.all_eq_true.1 h1 j (BSet.mem_elems.2 hj)
  · intro k i j hk hi hj
    have hk' : k + 1 < last.val := hk
    have h1 := (hw k (by omega) i (BSet.mem_elems.2 hi)).2
    rcases h1 with h1 | h1
    · omega
    replace h1 := List.all_eq_true.1 h1 j (BSet.mem_elems.2 hj)
    split at h1
    · rename_i hr
      rw [if_pos hr]
      simpa using h1
    · rename_i hr
      rw [if_neg hr]
      intro h0
      simp only [Bool.or_eq_true, decide_eq_true_eq] at h1
      rcases h1 with h1 | h1
      · omega
      · exact h1

end Manul
