import Verif.Spec.Dining
import Verif.Lemmas.Cooperative
import Verif.Lemmas.Codec

/-! # Lemmas about the protocol of the dining cryptographers -/

namespace Manul

variable {R : RandomSource}

theorem diner_cases {i : U8} (h : diners.contains i = true) : i = 0 ∨ i = 1 ∨ i = 2 := by
  rw [← BSet.mem_elems, show BSet.elems diners = [0, 1, 2] by decide] at h
  simpa using h

/-- The rounds in an honest execution. -/
def DiningInv (k : Nat) (i : U8) (r : DinerSt) : Prop :=
  (k = 0 ∧ ∃ t p, r = .r1 i t p) ∨ (k = 1 ∧ ∃ t n p, r = .r2 i t n p)

theorem dining_finalize1 {i : U8} {t p : Bool} {rng : R.Rng} {ps : BMap U8 Bool} {as : BMap U8 Unit} :
    (dining R).wrap.finalize (DinerSt.r1 i t p) rng ps as =
      match ps.values with
      | [] => .error (.user 0)
      | n :: _ => .ok (.anotherRound (DinerSt.r2 i t n p)) := rfl

theorem dining_finalize2 {i : U8} {t n p : Bool} {rng : R.Rng} {ps : BMap U8 Bool} {as : BMap U8 Unit} :
    (dining R).wrap.finalize (DinerSt.r2 i t n p) rng ps as =
      match ps.values with
      | b0 :: b1 :: _ => .ok (.result (b0, b1, (if p then !(t ^^ n) else t ^^ n)))
      | _ => .error .panicIndex := rfl

theorem dining_next1 {i : U8} {t p : Bool} {rng : R.Rng} {ps : BMap U8 Bool} {as : BMap U8 Unit} {r : DinerSt}
    (h : (dining R).wrap.finalize (DinerSt.r1 i t p) rng ps as = .ok (.anotherRound r)) :
    ∃ n l, ps.values = n :: l ∧ r = .r2 i t n p := by
  rw [dining_finalize1] at h
  split at h
  · cases h
  · rename_i n l hv
    cases h
    exact ⟨n, l, hv, rfl⟩

theorem dining_next2 {i : U8} {t n p : Bool} {rng : R.Rng} {ps : BMap U8 Bool} {as : BMap U8 Unit} {r : DinerSt} :
    (dining R).wrap.finalize (DinerSt.r2 i t n p) rng ps as ≠ .ok (.anotherRound r) := by
  rw [dining_finalize2]
  split <;> simp

theorem dining_roundInv {g : Group (dining R).wrap} (hg : DiningParty g) : RoundInv g DiningInv := by
  refine ⟨?_, ?_⟩
  · intro i rng r hi h
    rw [hg.parties] at hi
    obtain ⟨t, p, h'⟩ := hg.start i hi rng
    rw [h] at h'
    exact Or.inl ⟨rfl, t, p, Except.ok.inj h'⟩
  · intro G i k c ps rng r hi hG _ hc _ h
    obtain ⟨-, hci, -⟩ := hG i k c hc
    rcases hci with ⟨rfl, t, p, hr⟩ | ⟨rfl, t, n, p, hr⟩
    · rw [hr] at h
      obtain ⟨n, l, -, h'⟩ := dining_next1 h
      exact Or.inr ⟨rfl, t, n, p, h'⟩
    · rw [hr] at h
      exact absurd h dining_next2

theorem dining_comm {k : Nat} {i : U8} {r : DinerSt} {g : Group (dining R).wrap} (h : DiningInv k i r) :
    (dining R).wrap.comm r = ⟨(diningPlan g).dests k i, (diningPlan g).expects k i, .default⟩ := by
  rcases h with ⟨rfl, t, p, rfl⟩ | ⟨rfl, t, n, p, rfl⟩ <;> rfl

theorem dining_receive1 {i j : U8} {t p t' p' : Bool} {rng1 rng2 rng3 : R.Rng} {e : Part .echo} {n : Part .normal}
    {d : Part .direct} {art : Unit} (he : (dining R).wrap.makeEcho (DinerSt.r1 j t' p') rng1 = .ok e)
    (hn : (dining R).wrap.makeNormal (DinerSt.r1 j t' p') rng2 = .ok n)
    (hd : (dining R).wrap.makeDirect (DinerSt.r1 j t' p') rng3 i = .ok (d, art)) :
    (dining R).wrap.receive (DinerSt.r1 i t p) j ⟨e, n, d⟩ = .ok t' := by
  cases he
  cases hn
  cases hd
  cases t' <;> rfl

theorem dining_receive2 {i j : U8} {t m p t' m' p' : Bool} {rng1 rng2 rng3 : R.Rng} {e : Part .echo} {n : Part .normal}
    {d : Part .direct} {art : Unit} (he : (dining R).wrap.makeEcho (DinerSt.r2 j t' m' p') rng1 = .ok e)
    (hn : (dining R).wrap.makeNormal (DinerSt.r2 j t' m' p') rng2 = .ok n)
    (hd : (dining R).wrap.makeDirect (DinerSt.r2 j t' m' p') rng3 i = .ok (d, art)) :
    (dining R).wrap.receive (DinerSt.r2 i t m p) j ⟨e, n, d⟩ = .ok ((t' ^^ m') ^^ p') := by
  cases he
  cases hn
  cases hd
  cases t' <;> cases m' <;> cases p' <;> rfl

/-- What is made of the message of an honest diner. -/
theorem dining_receives {k : Nat} {i j : U8} {ri rj : DinerSt} (h1 : DiningInv k i ri) (h2 : DiningInv k j rj)
    {rng1 rng2 rng3 : R.Rng} {e : Part .echo} {n : Part .normal} {d : Part .direct} {art : Unit}
    (he : (dining R).wrap.makeEcho rj rng1 = .ok e) (hn : (dining R).wrap.makeNormal rj rng2 = .ok n)
    (hd : (dining R).wrap.makeDirect rj rng3 i = .ok (d, art)) :
    ∃ v, (dining R).wrap.receive ri j ⟨e, n, d⟩ = .ok v ∧ (∀ t p, rj = .r1 j t p → v = t) ∧
      (∀ t m p, rj = .r2 j t m p → v = ((t ^^ m) ^^ p)) := by
  rcases h1 with ⟨rfl, t, p, rfl⟩ | ⟨rfl, t, m, p, rfl⟩
  · rcases h2 with ⟨-, t', p', rfl⟩ | ⟨h, -⟩
    · exact ⟨t', dining_receive1 he hn hd, (by intro a b h; cases h; rfl), (by intro a b c h; cases h)⟩
    · omega
  · rcases h2 with ⟨h, -⟩ | ⟨-, t', m', p', rfl⟩
    · omega
    · exact ⟨_, dining_receive2 he hn hd, (by intro a b h; cases h), (by intro a b c h; cases h; rfl)⟩

/-- The payloads are the bits of the others. -/
theorem dining_payloads {g : Group (dining R).wrap} {G : History (dining R).wrap} (hG : CellsOk DiningInv g G) {i : U8} {k : Nat}
    {ps : BMap U8 Bool} (h : PayloadsOf (P := (dining R).wrap) G i k ps) :
    (∀ j, ps.contains j = BMap.contains ((diningPlan g).expects k i) j) ∧
    ∀ j v, ps.get? j = some v → ∃ cj, (G j)[k]? = some cj ∧ (∀ t p, cj.rd = DinerSt.r1 j t p → v = t) ∧
      (∀ t m p, cj.rd = DinerSt.r2 j t m p → v = ((t ^^ m) ^^ p)) := by
  obtain ⟨c, hc, hkeys⟩ := h.keys
  obtain ⟨-, hci, -⟩ := hG i k c hc
  refine ⟨fun j => (hkeys j).trans (by rw [dining_comm (g := g) hci]), ?_⟩
  intro j v hv
  obtain ⟨ci, cj, p, art, h1, h2, h3, h4⟩ := h.value j v hv
  rw [hc] at h1
  cases h1
  obtain ⟨hj, hcj, hm⟩ := hG j k cj h2
  have hne : ((dining R).wrap.comm cj.rd).destinations.isEmpty = false :=
    BMap.isEmpty_eq_false.2 ⟨i, (hm.dests i).symm.trans (BMap.contains_iff.2 ⟨_, h3⟩)⟩
  obtain ⟨r1, e1⟩ := hm.direct i _ h3
  obtain ⟨r2, e2⟩ := hm.echo hne
  obtain ⟨r3, e3⟩ := hm.normal hne
  obtain ⟨v', hv', h5, h6⟩ := dining_receives hci hcj e2 e3 e1
  rw [h4] at hv'
  cases hv'
  exact ⟨cj, h2, h5, h6⟩

/-- A map with one key. -/
theorem values_one {ps : BMap U8 Bool} {a : U8} (h : ∀ j, ps.contains j = BMap.contains (BSet.ofList [a] : BSet U8) j) :
    ∃ v, ps.get? a = some v ∧ ps.values = [v] := by
  have ha : ps.contains a = true := by rw [h, BSet.contains_ofList]; simp
  obtain ⟨v, hv⟩ := BMap.contains_iff.1 ha
  refine ⟨v, hv, ?_⟩
  have : ps = BMap.ofList [(a, v)] := by
    apply BMap.ext
    intro j
    by_cases hj : j = a
    · subst hj
      rw [hv]
      simp [BMap.ofList]
    · have h1 := h j
      rw [BSet.contains_ofList] at h1
      simp only [List.mem_singleton, hj, decide_false] at h1
      rw [BMap.contains_eq_false.1 h1]
      simp [BMap.ofList, hj]
  rw [this]
  rfl

/-- A map with two keys. -/
theorem values_two {ps : BMap U8 Bool} {a b : U8} (hab : a < b)
    (h : ∀ j, ps.contains j = BMap.contains (BSet.ofList [a, b] : BSet U8) j) :
    ∃ v w, ps.get? a = some v ∧ ps.get? b = some w ∧ ps.values = [v, w] := by
  have ha : ps.contains a = true := by rw [h, BSet.contains_ofList]; simp
  have hb : ps.contains b = true := by rw [h, BSet.contains_ofList]; simp
  obtain ⟨v, hv⟩ := BMap.contains_iff.1 ha
  obtain ⟨w, hw⟩ := BMap.contains_iff.1 hb
  refine ⟨v, w, hv, hw, ?_⟩
  have hne : b ≠ a := fun h => by subst h; exact lt_irrefl _ hab
  have : ps = ⟨[(a, v), (b, w)], by simpa using hab⟩ := by
    apply BMap.ext
    intro j
    by_cases hj : j = a
    · subst hj
      rw [hv]
      simp [BMap.get?, BMap.lookupL]
    · by_cases hj' : j = b
      · subst hj'
        rw [hw]
        simp [BMap.get?, BMap.lookupL, hne]
      · have h1 := h j
        rw [BSet.contains_ofList] at h1
        simp only [List.mem_cons, hj, hj', List.not_mem_nil, or_self, decide_false] at h1
        rw [BMap.contains_eq_false.1 h1]
        simp [BMap.get?, BMap.lookupL, hj, hj']
  rw [this]
  rfl

/-- Histories only grow. -/
theorem history_grows {sp : SP} {P : Proto sp} {G : History P} {i x : sp.Id} {c d : Cell P} {k : Nat}
    (h : (G x)[k]? = some d) : (Function.update G i (G i ++ [c]) x)[k]? = some d := by
  by_cases hx : x = i
  · subst hx
    rw [Function.update_self]
    have hk : k < (G x).length := by
      rcases Nat.lt_or_ge k (G x).length with h' | h'
      · exact h'
      · rw [List.getElem?_eq_none h'] at h; simp at h
    rw [List.getElem?_append_left hk]
    exact h
  · rw [Function.update_of_ne hx]
    exact h

/-- In the second round diners know their own coin and the one of their neighbour. -/
def CoinsKnown (G : History (dining R).wrap) : Prop :=
  ∀ (i : U8) c t n p, (G i)[1]? = some c → c.rd = DinerSt.r2 i t n p →
    (∃ c0, (G i)[0]? = some c0 ∧ c0.rd = DinerSt.r1 i t p) ∧
      ∃ c0 p', (G (dinerAt i 2))[0]? = some c0 ∧ c0.rd = DinerSt.r1 (dinerAt i 2) n p'

theorem dining_coins {g : Group (dining R).wrap} (hg : DiningParty g) {G : History (dining R).wrap} (h : Honest g G) :
    CoinsKnown G := by
  induction h with
  | nil => intro i c t n p h; simp at h
  | @enter G i c hG hi he hm ih =>
    have hcells := (dining_roundInv hg).cells hG
    intro j d t n p hd hr
    have old : (G j)[1]? = some d →
        (∃ c0, (Function.update G i (G i ++ [c]) j)[0]? = some c0 ∧ c0.rd = DinerSt.r1 j t p) ∧
        ∃ c0 p', (Function.update G i (G i ++ [c]) (dinerAt j 2))[0]? = some c0 ∧
          c0.rd = DinerSt.r1 (dinerAt j 2) n p' := by
      intro hd
      obtain ⟨⟨c0, h1, h2⟩, c1, p', h3, h4⟩ := ih j d t n p hd hr
      exact ⟨⟨c0, history_grows h1, h2⟩, c1, p', history_grows h3, h4⟩
    by_cases hj : j = i
    · rw [hj, Function.update_self] at hd
      rcases Nat.lt_or_ge 1 (G i).length with hl | hl
      · rw [List.getElem?_append_left hl] at hd
        exact old (by rw [hj]; exact hd)
      · rw [List.getElem?_append_right hl] at hd
        have hlen : (G i).length = 1 := by
          rcases Nat.lt_or_ge (G i).length 1 with h0 | h0
          · rw [show 1 - (G i).length = 1 by omega] at hd
            simp at hd
          · omega
        rw [hlen] at hd
        simp only [Nat.sub_self, List.getElem?_cons_zero, Option.some.injEq] at hd
        subst hd
        rcases he with ⟨h0, -⟩ | ⟨rng, k, c0, ps, h1, h2, h3, h4⟩
        · rw [h0] at hlen; simp at hlen
        · have hk : k = 0 := by omega
          subst hk
          obtain ⟨hkeys, hvals⟩ := dining_payloads hcells h3
          obtain ⟨-, hci, -⟩ := hcells i 0 c0 h2
          rcases hci with ⟨-, t0, p0, hr0⟩ | ⟨h, -⟩
          · rw [hr0, hr] at h4
            obtain ⟨n0, l, hv, hr'⟩ := dining_next1 h4
            cases hr'
            obtain ⟨v, hv1, hv2⟩ := values_one (a := dinerAt i 2) hkeys
            rw [hv2] at hv
            cases hv
            obtain ⟨cj, hcj, hv3, -⟩ := hvals _ _ hv1
            obtain ⟨-, hcji, -⟩ := hcells _ 0 cj hcj
            refine ⟨⟨c0, ?_, ?_⟩, cj, ?_⟩
            · exact history_grows (by rw [hj]; exact h2)
            · rw [hr0]
            · rcases hcji with ⟨-, t', p', hr2⟩ | ⟨h, -⟩
              · refine ⟨p', history_grows (by rw [hj]; exact hcj), ?_⟩
                rw [hv3 _ _ hr2]
                exact hr2
              · omega
          · omega
    · have e : Function.update G i (G i ++ [c]) j = G j := Function.update_of_ne hj _ _
      exact old ((congrArg (fun l : List (Cell (dining R).wrap) => l[1]?) e).symm.trans hd)

/-- The two other diners, in order. -/
theorem otherDiners_two {i : U8} (hi : diners.contains i = true) :
    ∃ a b, a < b ∧ otherDiners i = (BSet.ofList [a, b] : BSet U8) := by
  rcases diner_cases hi with rfl | rfl | rfl
  · exact ⟨1, 2, by decide, by decide⟩
  · exact ⟨0, 2, by decide, by decide⟩
  · exact ⟨0, 1, by decide, by decide⟩

theorem dining_matched (k i j : U8) (hk : k = 0 ∨ k = 1) (hi : i = 0 ∨ i = 1 ∨ i = 2) (hj : j = 0 ∨ j = 1 ∨ j = 2) :
    (diningDests k.val i).contains j = (diningExpects k.val j).contains i := by
  rcases hk with rfl | rfl <;> rcases hi with rfl | rfl | rfl <;> rcases hj with rfl | rfl | rfl <;> decide

theorem dining_to_others (k i j : U8) (hk : k = 0 ∨ k = 1) (hi : i = 0 ∨ i = 1 ∨ i = 2)
    (h : (diningDests k.val i).contains j = true ∨ (diningExpects k.val i).contains j = true) :
    (diners.erase i).contains j = true := by
  rw [← BSet.mem_elems, ← BSet.mem_elems] at h
  rcases hk with rfl | rfl <;> rcases hi with rfl | rfl | rfl <;>
    (first
      | rw [show BSet.elems (diningDests (0 : U8).val 0) = [1] by decide, show BSet.elems (diningExpects (0 : U8).val 0) = [2] by decide] at h
      | rw [show BSet.elems (diningDests (0 : U8).val 1) = [2] by decide, show BSet.elems (diningExpects (0 : U8).val 1) = [0] by decide] at h
      | rw [show BSet.elems (diningDests (0 : U8).val 2) = [0] by decide, show BSet.elems (diningExpects (0 : U8).val 2) = [1] by decide] at h
      | rw [show BSet.elems (diningDests (1 : U8).val 0) = [1, 2] by decide, show BSet.elems (diningExpects (1 : U8).val 0) = [1, 2] by decide] at h
      | rw [show BSet.elems (diningDests (1 : U8).val 1) = [0, 2] by decide, show BSet.elems (diningExpects (1 : U8).val 1) = [0, 2] by decide] at h
      | rw [show BSet.elems (diningDests (1 : U8).val 2) = [0, 1] by decide, show BSet.elems (diningExpects (1 : U8).val 2) = [0, 1] by decide] at h) <;>
    simp only [List.mem_cons, List.not_mem_nil, or_false] at h <;>
    rcases h with h | h <;>
    first
      | (subst h; decide)
      | (rcases h with h | h <;> subst h <;> decide)

/-- The protocol is cooperative. -/
theorem dining_cooperative {g : Group (dining R).wrap} (hg : DiningParty g) : Cooperative (diningPlan g) := by
  have hI := dining_roundInv hg
  refine ⟨Nat.succ_pos 1, ?_, fun _ _ => rfl, ?_, ?_, ?_, ?_, ?_, ?_, ?_, ?_, ?_, ?_, ?_⟩
  · intro k l hk hl h
    simp only [diningPlan, RoundId.new, RoundId.mk.injEq, and_true] at h hk hl
    have := congrArg Fin.val h
    simp only [Fin.ofNat] at this
    omega
  · intro k i _ he
    simp [diningPlan] at he
  · have hp : (diningPlan g).g.parties = diners := hg.parties
    have two : ∀ {k : Nat}, k < (diningPlan g).n → ∃ k' : U8, k'.val = k ∧ (k' = 0 ∨ k' = 1) := by
      intro k hk
      simp only [diningPlan] at hk
      rcases (by omega : k = 0 ∨ k = 1) with rfl | rfl
      · exact ⟨0, rfl, Or.inl rfl⟩
      · exact ⟨1, rfl, Or.inr rfl⟩
    refine ⟨?_, ?_, ?_, ?_, ?_, ?_⟩
    · intro k i j hk hi hj
      rw [hp] at hi hj
      obtain ⟨k', rfl, hk'⟩ := two hk
      exact dining_matched k' i j hk' (diner_cases hi) (diner_cases hj)
    · intro k i j hk hi hj
      show BMap.contains (BMap.erase g.parties i) j = true
      rw [hg.parties]
      rw [hp] at hi
      obtain ⟨k', rfl, hk'⟩ := two hk
      exact dining_to_others k' i j hk' (diner_cases hi) (Or.inl hj)
    · intro k i j hk hi hj
      show BMap.contains (BMap.erase g.parties i) j = true
      rw [hg.parties]
      rw [hp] at hi
      obtain ⟨k', rfl, hk'⟩ := two hk
      exact dining_to_others k' i j hk' (diner_cases hi) (Or.inr hj)
    · intro k i _ he
      simp [diningPlan] at he
    · intro k i _ he
      simp [diningPlan] at he
    · intro k i j h0 h1
      simp only [diningPlan] at h1
      omega
  · intro i hi rng
    obtain ⟨t, p, h⟩ := hg.start i (by rw [← hg.parties]; exact hi) rng
    exact ⟨_, h⟩
  · intro G i r hG hi hr
    rcases hI.entering hG hi hr with ⟨h, t, p, rfl⟩ | ⟨h, t, n, p, rfl⟩ <;> rw [h] <;> rfl
  · intro G i r hG hi hr hlen
    rcases hI.entering hG hi hr with ⟨h, t, p, rfl⟩ | ⟨h, t, n, p, rfl⟩
    · rw [h]
      rfl
    · rw [h] at hlen
      simp [diningPlan] at hlen
  · intro G i r hG hi hr
    exact dining_comm (hI.entering hG hi hr)
  · intro G i r hG hi hr hne rng
    rcases hI.entering hG hi hr with ⟨h, t, p, rfl⟩ | ⟨h, t, n, p, rfl⟩ <;> exact ⟨Part.none, rfl, rfl⟩
  · intro G i r hG hi hr hne rng
    rcases hI.entering hG hi hr with ⟨h, t, p, rfl⟩ | ⟨h, t, n, p, rfl⟩
    · exact ⟨Part.none, rfl⟩
    · exact ⟨⟨some (Codec.bool.enc (announce t n p))⟩, rfl⟩
  · intro G i r hG hi hr j hj rng
    rcases hI.entering hG hi hr with ⟨h, t, p, rfl⟩ | ⟨h, t, n, p, rfl⟩
    · exact ⟨(⟨some (Codec.bool.enc t)⟩, ()), rfl⟩
    · exact ⟨(Part.none, ()), rfl⟩
  · intro G i j k ci cj p art hG hj hi hci hcj hd
    obtain ⟨-, h1, -⟩ := hI.cells hG i k ci hci
    obtain ⟨-, h2, hm⟩ := hI.cells hG j k cj hcj
    have hne : ((dining R).wrap.comm cj.rd).destinations.isEmpty = false :=
      BMap.isEmpty_eq_false.2 ⟨i, (hm.dests i).symm.trans (BMap.contains_iff.2 ⟨_, hd⟩)⟩
    obtain ⟨r1, e1⟩ := hm.direct i _ hd
    obtain ⟨r2, e2⟩ := hm.echo hne
    obtain ⟨r3, e3⟩ := hm.normal hne
    obtain ⟨v, hv, -⟩ := dining_receives h1 h2 e2 e3 e1
    exact ⟨v, hv⟩
  · intro G i k c ps hG hi hlen hc hps rng
    obtain ⟨hkeys, -⟩ := dining_payloads (hI.cells hG) hps
    obtain ⟨-, hci, -⟩ := hI.cells hG i k c hc
    rcases hci with ⟨rfl, t, p, hr⟩ | ⟨rfl, t, n, p, hr⟩
    · rw [hr]
      obtain ⟨v, -, hv⟩ := values_one (a := dinerAt i 2) hkeys
      refine ⟨.anotherRound (DinerSt.r2 i t v p), ?_, _, rfl⟩
      exact dining_finalize1.trans (by rw [hv])
    · rw [hr]
      obtain ⟨a, b, hab, ho⟩ := otherDiners_two (show diners.contains i = true by rw [← hg.parties]; exact hi)
      obtain ⟨v, w, -, -, hv⟩ := values_two hab (by rw [← ho]; exact hkeys)
      exact ⟨.result (v, w, if p then !(t ^^ n) else t ^^ n), dining_finalize2.trans (by rw [hv]), _, rfl⟩

/-- The first rounds are made by the entry points. -/
theorem Honest.first {sp : SP} {P : Proto sp} {g : Group P} {G : History P} (h : Honest g G) {i : sp.Id} {c : Cell P}
    (hc : (G i)[0]? = some c) : ∃ rng, (g.ep i).makeRound rng g.sid i = .ok c.rd := by
  induction h with
  | nil => simp at hc
  | @enter G j d hG hj he hm ih =>
    by_cases hij : i = j
    · subst hij
      rw [Function.update_self] at hc
      cases hG0 : G i with
      | nil =>
        rw [hG0] at hc
        simp only [List.nil_append, List.getElem?_cons_zero, Option.some.injEq] at hc
        subst hc
        rcases he with ⟨-, h⟩ | ⟨rng, k, c, ps, h, -⟩
        · exact h
        · rw [hG0] at h; simp at h
      | cons a l =>
        rw [hG0] at hc
        exact ih (by rw [hG0]; exact hc)
    · rw [Function.update_of_ne hij] at hc
      exact ih hc

end Manul
