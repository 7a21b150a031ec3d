import Verif.Spec.Bench
import Verif.Lemmas.Cooperative
import Verif.Lemmas.Codec

/-! # The protocols of the benchmarks are cooperative, if `EmptyRound` sends no echo broadcasts -/

namespace Manul

variable {sp : SP} {W : Type} [DecidableEq W] {b : BenchWork W} {checks plainEcho : Bool} {roundsNum : U8} {echo : Bool}
  {ids : BSet sp.Id} {signer : sp.Id → sp.Signer} {sid : Bytes}

/-- The rounds in an honest execution. -/
def BenchInv (roundsNum : U8) (echo : Bool) (ids : BSet sp.Id) (k : Nat) (i : sp.Id) (r : BenchSt sp.Id) : Prop :=
  r.withEcho = (echo && decide (k = 0)) ∧ r.counter.val = k + 1 ∧ k < roundsNum.val ∧ r.inputs = ⟨roundsNum, echo, ids.erase i⟩

theorem bench_finalize {r : BenchSt sp.Id} {rng : sp.Rng} {ps : BMap sp.Id Unit} {as : BMap sp.Id Unit} :
    (bench sp b checks plainEcho).wrap.finalize r rng ps as =
      if r.counter = r.inputs.roundsNum then .ok (.result ())
      else
        match addU8 checks r.counter 1 with
        | .error e => .error e
        | .ok c => .ok (.anotherRound (⟨false, c, r.inputs⟩ : BenchSt sp.Id)) := rfl

theorem addU8_one {c : U8} (h : c.val ≠ 255) : addU8 checks c 1 = .ok (c + 1) ∧ (c + 1).val = c.val + 1 := by
  have hc := c.isLt
  have e1 : (1 : U8).val = 1 := rfl
  refine ⟨?_, ?_⟩
  · unfold addU8
    rw [if_neg]
    rintro ⟨-, h2⟩
    omega
  · rw [Fin.val_add, e1]
    exact Nat.mod_eq_of_lt (by omega)

theorem bench_roundInv (hn : 0 < roundsNum.val) :
    RoundInv (benchGroup sp b checks plainEcho roundsNum echo ids signer sid) (BenchInv roundsNum echo ids) := by
  refine ⟨?_, ?_⟩
  · intro i rng r hi h
    cases h
    exact ⟨by simp, rfl, hn, rfl⟩
  · intro G i k c ps rng r hi hG _ hc _ h
    obtain ⟨-, ⟨h1, h2, h3, h4⟩, -⟩ := hG i k c hc
    replace h := bench_finalize.symm.trans h
    have hlt := roundsNum.isLt
    split at h
    · cases h
    · rename_i hne
      rw [h4] at hne
      have hk : k + 1 < roundsNum.val := by
        rcases Nat.lt_or_ge (k + 1) roundsNum.val with h | h
        · exact h
        · exact absurd (Fin.ext (by show c.rd.counter.val = roundsNum.val; omega)) hne
      obtain ⟨e1, e2⟩ := addU8_one (checks := checks) (c := c.rd.counter) (by omega)
      rw [e1] at h
      cases h
      exact ⟨by simp, by show (c.rd.counter + 1).val = _; omega, hk, h4⟩

theorem bench_id {r : BenchSt sp.Id} {k : Nat} (hr : r.counter.val = k + 1) :
    ((bench sp b checks plainEcho).wrap.transition r).id = RoundId.new (Fin.ofNat 256 (k + 1)) := by
  have h3 : Fin.ofNat 256 (k + 1) = r.counter := by
    apply Fin.ext
    have := r.counter.isLt
    simp only [Fin.ofNat]
    rw [Nat.mod_eq_of_lt (by omega), hr]
  rw [h3]
  show ((benchRounds sp b checks plainEcho).transition r).id = _
  simp only [benchRounds, TransitionInfo.newLinear]
  split
  · rfl
  · split
    · rename_i h
      split at h
      · simp at h
      · cases h; rfl
    · rfl

theorem bench_child {r : BenchSt sp.Id} {k : Nat} (hr : r.counter.val = k + 1) (hk : k + 1 < r.inputs.roundsNum.val) :
    ((bench sp b checks plainEcho).wrap.transition r).children.contains (RoundId.new (Fin.ofNat 256 (k + 1 + 1))) = true := by
  have hlt := r.inputs.roundsNum.isLt
  have h1 : r.inputs.roundsNum ≠ r.counter := by
    intro h
    have := congrArg Fin.val h
    omega
  have h2 : r.counter.val ≠ 255 := by omega
  have h3 : Fin.ofNat 256 (k + 1 + 1) = r.counter + 1 := by
    apply Fin.ext
    rw [Fin.val_add]
    have e1 : (1 : U8).val = 1 := rfl
    rw [e1, hr]
    rfl
  rw [h3]
  show ((benchRounds sp b checks plainEcho).transition r).children.contains _ = true
  simp only [benchRounds, h1, if_false, TransitionInfo.newLinear, h2]
  simp [BSet.ofList]

theorem bench_makeNormal {r : BenchSt sp.Id} {rng : sp.Rng} :
    (bench sp b checks plainEcho).wrap.makeNormal r rng = .ok Part.none := rfl

theorem bench_makeDirect (hf : b.Lawful) {r : BenchSt sp.Id} {rng : sp.Rng} {i : sp.Id} {w : W} (hw : b.work r.counter = .ok w) :
    ∃ x, b.deDirect x = some w ∧ (bench sp b checks plainEcho).wrap.makeDirect r rng i = .ok (⟨some x⟩, ()) := by
  obtain ⟨x, h1, h2⟩ := hf.direct w
  refine ⟨x, h2, ?_⟩
  simp [TypedProto.wrap, bench, TypedProto.withDefaults, benchRounds, hw, TypedProto.newPart, h1]

theorem bench_makeEcho (hf : b.Lawful) {r : BenchSt sp.Id} (hp : plainEcho = false ∨ r.withEcho = true) {rng : sp.Rng} :
    ∃ p, (bench sp b checks plainEcho).wrap.makeEcho r rng = .ok p ∧ p.payload.isSome = r.withEcho ∧
      ∀ x, p.payload = some x → b.deEcho x = some () := by
  obtain ⟨x, h1, h2⟩ := hf.echo
  cases hr : r.withEcho with
  | true =>
    refine ⟨⟨some x⟩, ?_, rfl, ?_⟩
    · simp [TypedProto.wrap, bench, TypedProto.withDefaults, benchRounds, hr, TypedProto.newPart, h1]
    · intro y hy
      cases hy
      exact h2
  | false =>
    have hp : plainEcho = false := by
      rcases hp with h | h
      · exact h
      · rw [hr] at h; cases h
    refine ⟨Part.none, ?_, rfl, by intro y hy; cases hy⟩
    simp [TypedProto.wrap, bench, TypedProto.withDefaults, benchRounds, hr, hp, TypedProto.newPart, TypedProto.defaultBroadcast,
      TypedProto.noMessage]

theorem bench_receive {r : BenchSt sp.Id} {w : W} {x : Bytes} {e : Part .echo} {j : sp.Id} (hw : b.work r.counter = .ok w)
    (hx : b.deDirect x = some w) (he : e.payload.isSome = r.withEcho) (hp : plainEcho = false ∨ r.withEcho = true)
    (hd : ∀ x, e.payload = some x → b.deEcho x = some ()) :
    (bench sp b checks plainEcho).wrap.receive r j ⟨e, Part.none, ⟨some x⟩⟩ = .ok () := by
  obtain ⟨e⟩ := e
  cases e with
  | some y =>
    have hr : r.withEcho = true := he.symm
    simp [TypedProto.wrap, TypedProto.wrapReceive, TypedProto.readPart, bench, TypedProto.withDefaults, benchRounds, Part.none, hx,
      hw, hr, hd y rfl, mapErr]
  | none =>
    have hr : r.withEcho = false := he.symm
    have hp : plainEcho = false := by
      rcases hp with h | h
      · exact h
      · rw [hr] at h; cases h
    simp [TypedProto.wrap, TypedProto.wrapReceive, TypedProto.readPart, bench, TypedProto.withDefaults, benchRounds, Part.none, hx,
      hw, hr, hp, mapErr]

theorem bench_cooperative (hf : b.Lawful) (hn : 0 < roundsNum.val) (hw : b.Works roundsNum)
    (hp : plainEcho = false ∨ echo = true ∧ roundsNum.val = 1)
    (hc : echo = true → ∀ i, ids.contains i = true → (ids.erase i).isEmpty = false) :
    Cooperative (benchPlan sp b checks plainEcho roundsNum echo ids signer sid) := by
  have hI : RoundInv (benchPlan sp b checks plainEcho roundsNum echo ids signer sid).g (BenchInv roundsNum echo ids) := bench_roundInv hn
  have hlt := roundsNum.isLt
  have hpe : ∀ {k i} {r : BenchSt sp.Id}, BenchInv roundsNum echo ids k i r → plainEcho = false ∨ r.withEcho = true := by
    rintro k i r ⟨h1, h2, h3, h4⟩
    rcases hp with h | ⟨h, h'⟩
    · exact Or.inl h
    · refine Or.inr (h1.trans ?_)
      rw [h]
      simp
      omega
  have hwork : ∀ {k i} {r : BenchSt sp.Id}, BenchInv roundsNum echo ids k i r → ∃ w, b.work r.counter = .ok w := by
    rintro k i r ⟨h1, h2, h3, h4⟩
    exact hw _ (by omega) (by omega)
  refine ⟨hn, ?_, ?_, ?_, allToAll_pattern _ _ _ _, ?_, ?_, ?_, ?_, ?_, ?_, ?_, ?_, ?_⟩
  · intro k l hk hl' h
    simp only [benchPlan, Plan.allToAll, RoundId.new, RoundId.mk.injEq, and_true] at h hk hl'
    have := congrArg Fin.val h
    simp only [Fin.ofNat] at this
    rw [Nat.mod_eq_of_lt (by omega), Nat.mod_eq_of_lt (by omega)] at this
    omega
  · intro k _; rfl
  · intro k i _ he hi
    simp only [benchPlan, Plan.allToAll, Bool.and_eq_true] at he
    exact hc he.1 i hi
  · intro i _ rng
    exact ⟨_, rfl⟩
  · intro G i r hG hi hr
    obtain ⟨h1, h2, h3, h4⟩ := hI.entering hG hi hr
    exact bench_id h2
  · intro G i r hG hi hr hlen
    obtain ⟨h1, h2, h3, h4⟩ := hI.entering hG hi hr
    exact bench_child h2 (by rw [h4]; exact hlen)
  · intro G i r hG hi hr
    obtain ⟨h1, h2, h3, h4⟩ := hI.entering hG hi hr
    show CommInfo.regular r.inputs.otherIds = _
    rw [h4]
    rfl
  · intro G i r hG hi hr _ rng
    have hinv := hI.entering hG hi hr
    obtain ⟨p, h1, h2, -⟩ := bench_makeEcho (checks := checks) hf (hpe hinv) (rng := rng)
    exact ⟨p, h1, h2.trans hinv.1⟩
  · intro G i r hG hi hr _ rng
    exact ⟨_, bench_makeNormal⟩
  · intro G i r hG hi hr j _ rng
    obtain ⟨w, hw⟩ := hwork (hI.entering hG hi hr)
    obtain ⟨x, -, h⟩ := bench_makeDirect (checks := checks) (plainEcho := plainEcho) hf (rng := rng) (i := j) hw
    exact ⟨_, h⟩
  · intro G i j k ci cj p art hG hj hi hci hcj hd
    obtain ⟨-, hinvi, -⟩ := hI.cells hG i k ci hci
    obtain ⟨-, hinvj, hm⟩ := hI.cells hG j k cj hcj
    have hne : ((bench sp b checks plainEcho).wrap.comm cj.rd).destinations.isEmpty = false :=
      BMap.isEmpty_eq_false.2 ⟨i, (hm.dests i).symm.trans (BMap.contains_iff.2 ⟨_, hd⟩)⟩
    obtain ⟨r1, e1⟩ := hm.direct i _ hd
    obtain ⟨r2, e2⟩ := hm.echo hne
    obtain ⟨r3, e3⟩ := hm.normal hne
    have e3' : cj.normal = Part.none := (Except.ok.inj e3).symm
    have hcc : cj.rd.counter = ci.rd.counter := Fin.ext (by rw [hinvi.2.1, hinvj.2.1])
    obtain ⟨w, hw'⟩ := hwork hinvi
    obtain ⟨x, hx, e4⟩ := bench_makeDirect (checks := checks) (plainEcho := plainEcho) hf (r := cj.rd) (rng := r1) (i := i)
      ((congrArg b.work hcc).trans hw')
    replace e1 := e4.symm.trans e1
    have e1' : p = ⟨some x⟩ := (Prod.mk.inj (Except.ok.inj e1)).1.symm
    obtain ⟨q, e5, e6, e7⟩ := bench_makeEcho (checks := checks) hf (hpe hinvj) (rng := r2)
    replace e2 := e5.symm.trans e2
    have e2' : cj.echo = q := (Except.ok.inj e2).symm
    rw [e1', e2', e3']
    exact ⟨(), bench_receive hw' hx (e6.trans (hinvj.1.trans hinvi.1.symm)) (hpe hinvi) e7⟩
  · intro G i k c ps hG hi hlen hc' hps rng
    obtain ⟨-, ⟨h1, h2, h3, h4⟩, -⟩ := hI.cells hG i k c hc'
    show ∃ o : Outcome (BenchSt sp.Id) Unit, _ ∧ if k + 1 < roundsNum.val then _ else _
    by_cases h : c.rd.counter = c.rd.inputs.roundsNum
    · refine ⟨.result (), bench_finalize.trans (by rw [if_pos h]; rfl), ?_⟩
      rw [h4] at h
      have h' : c.rd.counter.val = roundsNum.val := congrArg Fin.val h
      rw [if_neg (by omega)]
      exact ⟨_, rfl⟩
    · obtain ⟨e1, e2⟩ := addU8_one (checks := checks) (c := c.rd.counter) (by
        intro h5
        apply h
        rw [h4]
        apply Fin.ext
        show c.rd.counter.val = roundsNum.val
        omega)
      refine ⟨.anotherRound ⟨false, c.rd.counter + 1, c.rd.inputs⟩, bench_finalize.trans (by rw [if_neg h, e1]; rfl), ?_⟩
      rw [h4] at h
      rw [if_pos (by
        rcases Nat.lt_or_ge (k + 1) roundsNum.val with h' | h'
        · exact h'
        · exact absurd (Fin.ext (by show c.rd.counter.val = roundsNum.val; omega)) h)]
      exact ⟨_, rfl⟩

/-! ### The work of the second benchmark -/

theorem squareU128_ok {checks : Bool} {x : Nat} (h : x < 2 ^ 64) : squareU128 checks x = .ok (x * x) := by
  have h2 : x * x < 2 ^ 128 := by
    have : x * x < 2 ^ 64 * 2 ^ 64 := Nat.mul_lt_mul'' h h
    simpa using this
  unfold squareU128
  rw [if_neg (by omega), Nat.mod_eq_of_lt h2]

theorem workLoop_ok {checks : Bool} (n : Nat) {x : Nat} (h : x < 2 ^ 64) :
    workLoop checks n x = .ok ((fun y => y * y % (2 ^ 64 - 59))^[n] x) := by
  induction n generalizing x with
  | zero => rfl
  | succ n ih =>
    rw [workLoop, squareU128_ok h]
    have hlt : x * x % (2 ^ 64 - 59) < 2 ^ 64 := lt_of_lt_of_le (Nat.mod_lt _ (by omega)) (by omega)
    exact ih hlt

end Manul
