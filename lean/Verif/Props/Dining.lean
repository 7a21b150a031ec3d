import Verif.Lemmas.Dining
import Verif.Lemmas.TestParams
import Verif.Props.Network

/-!
# The dining cryptographers (C47)

The three diners execute `run_session` on the protocol of `examples/dining_cryptographers.rs` over an asynchronous network, with
the session parameters for tests.
-/

namespace Manul

variable {R : RandomSource}

theorem dining_ok {g : Group (dining R).wrap} (hg : DiningParty g) (hk : g.KeysMatch) : (diningPlan g).Ok where
  env := test_envOk R
  sc := test_signCorrect R
  srt := test_sigRoundTrip R
  ert := test_echoRoundTrip R
  keys := hk
  coop := dining_cooperative hg

/-- **C47.**  There are coins and payers, those of the entry points, such that every diner who finishes obtains the bits of the
three diners (the others in order, then their own), whose XOR is that of the three paid flags: whatever the coins, the flags
and the schedule. -/
theorem C47_result {g : Group (dining R).wrap} (hg : DiningParty g) (hk : g.KeysMatch) {n : Net (dining R).wrap}
    (h : NetReach g n) :
    ∃ toss paid : U8 → Bool, ∀ (i : U8) (rep : Report (dining R).wrap), diners.contains i = true →
      n.node i = some (.done (.ok rep)) →
      (∀ j : U8, diners.contains j = true → ∃ rng, (g.ep j).makeRound rng g.sid j = .ok (DinerSt.r1 j (toss j) (paid j))) ∧
      ∃ a b : U8, a < b ∧ (∀ j, diners.contains j = true ↔ j = a ∨ j = b ∨ j = i) ∧
        rep.outcome = .result (dinerBit toss paid a, dinerBit toss paid b, dinerBit toss paid i) ∧
        (dinerBit toss paid a ^^ dinerBit toss paid b ^^ dinerBit toss paid i) = (paid 0 ^^ paid 1 ^^ paid 2) := by
  obtain ⟨G, hG, hres⟩ := C41_results (dining_ok hg hk) h
  have hcells := (dining_roundInv hg).cells hG
  have hcoins := dining_coins hg hG
  let st (i : U8) : DinerSt := match (G i)[0]? with
    | some c => c.rd
    | none => .r1 i false false
  let toss (i : U8) : Bool := match st i with
    | .r1 _ t _ => t
    | .r2 _ t _ _ => t
  let paid (i : U8) : Bool := match st i with
    | .r1 _ _ p => p
    | .r2 _ _ _ p => p
  have hst : ∀ (i : U8) c t p, (G i)[0]? = some c → c.rd = DinerSt.r1 i t p → toss i = t ∧ paid i = p := by
    intro i c t p h1 h2
    have : st i = .r1 i t p := by
      simp only [st, h1]
      exact h2
    simp only [toss, paid, this, and_self]
  have hbit : ∀ (i : U8) c t m p, (G i)[1]? = some c → c.rd = DinerSt.r2 i t m p →
      ((t ^^ m) ^^ p) = dinerBit toss paid i := by
    intro i c t m p h1 h2
    obtain ⟨⟨c0, h3, h4⟩, c1, p', h5, h6⟩ := hcoins i c t m p h1 h2
    obtain ⟨e1, e2⟩ := hst i c0 t p h3 h4
    obtain ⟨e3, -⟩ := hst _ c1 m p' h5 h6
    simp only [dinerBit, e1, e2, e3]
  refine ⟨toss, paid, ?_⟩
  intro i rep hi hn
  obtain ⟨hlen, v, rng, hv, k, c, ps, h1, h2, h3, h4⟩ := hres i rep hn
  have hk1 : k = 1 := by
    simp only [diningPlan] at hlen
    omega
  subst hk1
  obtain ⟨hkeys, hvals⟩ := dining_payloads hcells h3
  obtain ⟨-, hci, -⟩ := hcells i 1 c h2
  rcases hci with ⟨h, -⟩ | ⟨-, t, m, p, hr⟩
  · omega
  obtain ⟨a, b, hab, ho⟩ := otherDiners_two hi
  obtain ⟨x, y, hx, hy, hxy⟩ := values_two hab (by rw [← ho]; exact hkeys)
  obtain ⟨ca, hca, -, hxa⟩ := hvals a x hx
  obtain ⟨cb, hcb, -, hyb⟩ := hvals b y hy
  have bit : ∀ (j : U8) cj (z : Bool), (G j)[1]? = some cj → (∀ t m p, cj.rd = DinerSt.r2 j t m p → z = ((t ^^ m) ^^ p)) →
      z = dinerBit toss paid j ∧ ∃ c0 t p, (G j)[0]? = some c0 ∧ c0.rd = DinerSt.r1 j t p := by
    intro j cj z h1 h2
    obtain ⟨-, hcj, -⟩ := hcells j 1 cj h1
    rcases hcj with ⟨h, -⟩ | ⟨-, t, m, p, hr⟩
    · omega
    · obtain ⟨⟨c0, h3, h4⟩, -⟩ := hcoins j cj t m p h1 hr
      exact ⟨(h2 t m p hr).trans (hbit j cj t m p h1 hr), c0, t, p, h3, h4⟩
  obtain ⟨ex, fa⟩ := bit a ca x hca hxa
  obtain ⟨ey, fb⟩ := bit b cb y hcb hyb
  obtain ⟨ez, fi⟩ := bit i c ((t ^^ m) ^^ p) h2 (by
    intro t' m' p' h'
    rw [hr] at h'
    cases h'
    rfl)
  have hall : ∀ j, diners.contains j = true ↔ j = a ∨ j = b ∨ j = i := by
    intro j
    have e1 : BMap.contains (otherDiners i) j = decide (j ∈ [a, b]) := by rw [ho, BSet.contains_ofList]
    have e2 : diners.contains j = (decide (j = i) || BMap.contains (otherDiners i) j) := by
      unfold diners otherDiners
      rw [BSet.contains_ofList, BSet.contains_ofList]
      by_cases hji : j = i
      · subst hji
        have := diner_cases hi
        simpa using this
      · simp [hji]
    rw [e2, e1]
    simp only [Bool.or_eq_true, decide_eq_true_eq, List.mem_cons, List.not_mem_nil, or_false]
    constructor
    · rintro (h | h | h)
      · exact Or.inr (Or.inr h)
      · exact Or.inl h
      · exact Or.inr (Or.inl h)
    · rintro (h | h | h)
      · exact Or.inr (Or.inl h)
      · exact Or.inr (Or.inr h)
      · exact Or.inl h
  refine ⟨?_, a, b, hab, hall, ?_, ?_⟩
  · intro j hj
    have : ∃ c0 t p, (G j)[0]? = some c0 ∧ c0.rd = DinerSt.r1 j t p := by
      rcases (hall j).1 hj with rfl | rfl | rfl
      · exact fa
      · exact fb
      · exact fi
    obtain ⟨c0, t0, p0, h5, h6⟩ := this
    obtain ⟨rng', h7⟩ := hG.first h5
    obtain ⟨e1, e2⟩ := hst j c0 t0 p0 h5 h6
    refine ⟨rng', h7.trans ?_⟩
    rw [h6, e1, e2]
  · rw [hr] at h4
    have h5 := dining_finalize2.symm.trans h4
    rw [hxy] at h5
    rw [hv, ← Outcome.result.inj (Except.ok.inj h5), ← ex, ← ey, ← ez]
    cases p <;> cases t <;> cases m <;> rfl
  · have hi' := diner_cases hi
    have ha' := diner_cases ((hall a).2 (Or.inl rfl))
    have hb' := diner_cases ((hall b).2 (Or.inr (Or.inl rfl)))
    have hne : ∀ j : U8, (j = 0 ∨ j = 1 ∨ j = 2) → j = a ∨ j = b ∨ j = i := by
      intro j hj
      refine (hall j).1 ?_
      rcases hj with rfl | rfl | rfl <;> decide
    have d0 := hne 0 (Or.inl rfl)
    have d1 := hne 1 (Or.inr (Or.inl rfl))
    have d2 := hne 2 (Or.inr (Or.inr rfl))
    have s0 : dinerAt 0 2 = 2 := by decide
    have s1 : dinerAt 1 2 = 0 := by decide
    have s2 : dinerAt 2 2 = 1 := by decide
    clear_value toss paid
    rcases hi' with rfl | rfl | rfl <;> rcases ha' with rfl | rfl | rfl <;> rcases hb' with rfl | rfl | rfl <;>
      first
        | (exfalso; revert d0 d1 d2; decide)
        | (simp only [dinerBit, s0, s1, s2]
           cases toss 0 <;> cases toss 1 <;> cases toss 2 <;> cases paid 0 <;> cases paid 1 <;> cases paid 2 <;> rfl)

/-- **C47.**  All diners come to the same conclusion. -/
theorem C47_agreement {g : Group (dining R).wrap} (hg : DiningParty g) (hk : g.KeysMatch) {n : Net (dining R).wrap}
    (h : NetReach g n) {i j : U8} {ri rj : Report (dining R).wrap} (hi : diners.contains i = true) (hj : diners.contains j = true)
    (hni : n.node i = some (.done (.ok ri))) (hnj : n.node j = some (.done (.ok rj))) :
    ∃ a b c a' b' c' : Bool, ri.outcome = .result (a, b, c) ∧ rj.outcome = .result (a', b', c') ∧
      (a ^^ b ^^ c) = (a' ^^ b' ^^ c') := by
  obtain ⟨toss, paid, hall⟩ := C47_result hg hk h
  obtain ⟨-, a, b, -, -, h1, h2⟩ := hall i ri hi hni
  obtain ⟨-, a', b', -, -, h3, h4⟩ := hall j rj hj hnj
  exact ⟨_, _, _, _, _, _, h1, h3, h2.trans h4.symm⟩

/-- **C47.**  Everybody finishes: when nothing more can happen in the network (it comes to that, by `C41_terminates`), all diners
have a result, and nothing is recorded against anybody. -/
theorem C47_finishes (rng : R.Rng) {g : Group (dining R).wrap} (hg : DiningParty g) (hk : g.KeysMatch) {n : Net (dining R).wrap}
    (h : NetReach g n) (hstuck : ∀ n', ¬ NetStep g n n') : AllFinished g n :=
  C41_finishes (pl := diningPlan g) rng (dining_ok hg hk) h hstuck

/-- The diners of the example, with the entry point of the code. -/
def diningGroup (R : RandomSource) (sid : Bytes) : Group (dining R).wrap where
  parties := diners
  signer i := i
  ep _ := diningEntry R
  sid := sid

theorem diningGroup_party (R : RandomSource) (sid : Bytes) : DiningParty (diningGroup R sid) := by
  refine ⟨rfl, ?_⟩
  intro i _ rng
  show ∃ toss paid, Except.ok (dinerStart rng i) = Except.ok (ε := LErr) (DinerSt.r1 i toss paid)
  unfold dinerStart
  split
  · exact ⟨_, _, rfl⟩
  · exact ⟨_, _, rfl⟩

theorem diningGroup_keys (R : RandomSource) (sid : Bytes) : (diningGroup R sid).KeysMatch := fun _ _ => rfl

/-- **C47.**  With the entry point of the code, in which only diner 0 may pay: the answer is whether diner 0 drew an even
number. -/
theorem C47_answer {sid : Bytes} {n : Net (dining R).wrap} (h : NetReach (diningGroup R sid) n) :
    ∃ paid₀ : Bool, ∀ (i : U8) (rep : Report (dining R).wrap), diners.contains i = true → n.node i = some (.done (.ok rep)) →
      (∃ rng : R.Rng, paid₀ = decide (R.u32 rng 0 % 2 = 0)) ∧
        ∃ a b c : Bool, rep.outcome = .result (a, b, c) ∧ (a ^^ b ^^ c) = paid₀ := by
  obtain ⟨toss, paid, hall⟩ := C47_result (diningGroup_party R sid) (diningGroup_keys R sid) h
  refine ⟨paid 0, ?_⟩
  intro i rep hi hn
  obtain ⟨hstart, a, b, -, -, h3, h4⟩ := hall i rep hi hn
  have key : ∀ j : U8, ∀ rng : R.Rng, dinerStart rng j = DinerSt.r1 j (toss j) (paid j) →
      paid j = if j = 0 then coin rng 0 else false := by
    intro j rng h
    unfold dinerStart at h
    split at h
    · rename_i hj
      rw [if_pos hj]
      exact (DinerSt.r1.inj h).2.2.symm
    · rename_i hj
      rw [if_neg hj]
      exact (DinerSt.r1.inj h).2.2.symm
  have get : ∀ j : U8, diners.contains j = true → ∃ rng : R.Rng, paid j = if j = 0 then coin rng 0 else false := by
    intro j hj
    obtain ⟨rng, hr⟩ := hstart j hj
    exact ⟨rng, key j rng (Except.ok.inj hr)⟩
  obtain ⟨rng, h0⟩ := get 0 (by decide)
  obtain ⟨_, h1⟩ := get 1 (by decide)
  obtain ⟨_, h2⟩ := get 2 (by decide)
  refine ⟨⟨rng, h0⟩, _, _, _, h3, h4.trans ?_⟩
  rw [h1, h2]
  simp

/-- **C47.**  The diner draws the two bits independently: if the source of numbers can give any two parities in a row, every
toss is possible together with every answer of diner 0. -/
theorem C47_free (hR : ∀ a b : Bool, ∃ rng : R.Rng, decide (R.u32 rng 0 % 2 = 0) = a ∧ decide (R.u32 rng 1 % 2 = 0) = b)
    (sid : Bytes) (i : U8) (toss paid : Bool) (hp : i ≠ 0 → paid = false) :
    ∃ rng : R.Rng, (diningEntry R).makeRound rng sid i = .ok (DinerSt.r1 i toss paid) := by
  by_cases hi : i = 0
  · obtain ⟨rng, h0, h1⟩ := hR paid toss
    refine ⟨rng, ?_⟩
    simp only [diningEntry, dinerStart, coin, if_pos hi, h0, h1]
  · obtain ⟨rng, h0, -⟩ := hR toss toss
    refine ⟨rng, ?_⟩
    simp only [diningEntry, dinerStart, coin, if_neg hi, h0, hp hi]

/-- A source of two numbers. -/
example (i : U8) (toss : Bool) : ∃ rng : Nat × Nat,
    (diningEntry ⟨Nat × Nat, fun r _ => r, fun r k => if k = 0 then r.1 else r.2, fun r => r.1⟩).makeRound rng [9] i =
      .ok (DinerSt.r1 i toss false) :=
  C47_free (R := ⟨Nat × Nat, fun r _ => r, fun r k => if k = 0 then r.1 else r.2, fun r => r.1⟩)
    (fun a b => ⟨(if a then 0 else 1, if b then 0 else 1), by cases a <;> rfl, by cases b <;> rfl⟩) [9] i toss false (fun _ => rfl)

/-- **C47.**  Nobody learns which of the others paid: if the other two had exchanged their flags, there are coins for which the
diner sees the same: the same two coins and the same three bits. -/
theorem C47_untraceable (toss paid : U8 → Bool) {i : U8} (hi : diners.contains i = true) :
    ∃ toss' : U8 → Bool, toss' i = toss i ∧ toss' (dinerAt i 2) = toss (dinerAt i 2) ∧
      ∀ j, diners.contains j = true →
        dinerBit toss' (fun k => if k = i then paid i else if k = dinerAt i 1 then paid (dinerAt i 2) else paid (dinerAt i 1)) j =
          dinerBit toss paid j := by
  refine ⟨fun k => if k = dinerAt i 1 then (toss k ^^ paid (dinerAt i 1) ^^ paid (dinerAt i 2)) else toss k, ?_⟩
  have s0 : dinerAt 0 2 = 2 := by decide
  have s1 : dinerAt 1 2 = 0 := by decide
  have s2 : dinerAt 2 2 = 1 := by decide
  have t0 : dinerAt 0 1 = 1 := by decide
  have t1 : dinerAt 1 1 = 2 := by decide
  have t2 : dinerAt 2 1 = 0 := by decide
  rcases diner_cases hi with rfl | rfl | rfl <;> refine ⟨by simp [t0, t1, t2], by simp [s0, s1, s2, t0, t1, t2], ?_⟩ <;>
    intro j hj <;> rcases diner_cases hj with rfl | rfl | rfl <;> simp only [dinerBit, s0, s1, s2, t0, t1, t2] <;>
    cases toss 0 <;> cases toss 1 <;> cases toss 2 <;> cases paid 0 <;> cases paid 1 <;> cases paid 2 <;> simp

/-! ### Examples -/

/-- A source of numbers: the states are numbers. -/
def countingSource : RandomSource := ⟨Nat, fun r i => r + i, fun r k => r / 2 ^ k, fun r => r⟩

/-- A complete execution: diner 0 pays (the first number drawn is even), and everybody finds out that one of the diners did. -/
example : ∃ n : Net (dining countingSource).wrap, NetReach (diningGroup countingSource [9]) n ∧
    netResultOf n (0 : U8) = some (false, false, true) ∧ netResultOf n (1 : U8) = some (true, false, false) ∧
      netResultOf n (2 : U8) = some (true, false, false) := by
  refine ⟨netRunWith (sp := testParams countingSource) (fun i : U8 => i) (fun i => (12 + 2 * i.val : Nat)) _
    ([.start 0, .start 1, .deliver 1, .deliver 0, .start 2] ++
      (List.replicate 5 [NetAct.deliver 2, .deliver 1, .deliver 0, .tick 0, .tick 1, .tick 2]).flatten) Net.init,
    netRunWith_reach _ _ _ .init, ?_⟩
  have h : ([0, 1, 2].map (fun i : U8 => netResultOf (netRunWith (sp := testParams countingSource) (fun i : U8 => i)
      (fun i => (12 + 2 * i.val : Nat)) (diningGroup countingSource [9])
    ([.start 0, .start 1, .deliver 1, .deliver 0, .start 2] ++
      (List.replicate 5 [NetAct.deliver 2, .deliver 1, .deliver 0, .tick 0, .tick 1, .tick 2]).flatten) Net.init) i) :
      List (Option (Bool × Bool × Bool))) =
        [some (false, false, true), some (true, false, false), some (true, false, false)] := by decide +kernel
  exact ⟨(List.cons.inj h).1, (List.cons.inj (List.cons.inj h).2).1, (List.cons.inj (List.cons.inj (List.cons.inj h).2).2).1⟩

end Manul
