import Mathlib.Algebra.Order.BigOperators.Group.List
import Verif.Spec.Simple
import Verif.Lemmas.Cooperative
import Mathlib.Data.List.Perm.Basic

/-! # Lemmas about the example protocol `simple` -/

namespace Manul

variable {sp : SP}

theorem u8_ofNat_val (a : U8) : Fin.ofNat 256 a.val = a := by
  apply Fin.ext
  simp [Fin.ofNat, Nat.mod_eq_of_lt a.isLt]

theorem addU8_ok {checks : Bool} {a b : U8} (h : checks = false ∨ a.val + b.val < 256) :
    addU8 checks a b = .ok (Fin.ofNat 256 (a.val + b.val)) := by
  unfold addU8
  rw [if_neg]
  · congr 1
  · rcases h with h | h
    · simp [h]
    · rintro ⟨-, h'⟩; omega

theorem addU8_panics {a b : U8} (h : 256 ≤ a.val + b.val) : addU8 true a b = .error .panicOverflow := by
  simp [addU8, h]

theorem foldE_addU8_ok {checks : Bool} (l : List U8) (a : U8)
    (h : checks = false ∨ a.val + (l.map (·.val)).sum < 256) :
    foldE (addU8 checks) a l = .ok (Fin.ofNat 256 (a.val + (l.map (·.val)).sum)) := by
  induction l generalizing a with
  | nil => simp [foldE, u8_ofNat_val]
  | cons x l ih =>
    have h1 : checks = false ∨ a.val + x.val < 256 := by
      rcases h with h | h
      · exact Or.inl h
      · right; simp at h; omega
    simp only [foldE, addU8_ok h1]
    rw [ih]
    · congr 1
      apply Fin.ext
      simp only [Fin.ofNat, List.map_cons, List.sum_cons]
      omega
    · rcases h with h | h
      · exact Or.inl h
      · right
        simp only [Fin.ofNat, List.map_cons, List.sum_cons] at h ⊢
        omega

theorem foldE_addU8_panics (l : List U8) (a : U8) (h : 256 ≤ a.val + (l.map (·.val)).sum) :
    foldE (addU8 true) a l = .error .panicOverflow := by
  induction l generalizing a with
  | nil => simp at h; omega
  | cons x l ih =>
    by_cases h1 : a.val + x.val < 256
    · simp only [foldE, addU8_ok (checks := true) (Or.inr h1)]
      apply ih
      simp only [Fin.ofNat, List.map_cons, List.sum_cons] at h ⊢
      rw [Nat.mod_eq_of_lt h1]
      omega
    · simp only [foldE, addU8_panics (Nat.le_of_not_lt h1)]

theorem sumU8_ok {checks : Bool} (l : List U8) (h : checks = false ∨ (l.map (·.val)).sum < 256) :
    sumU8 checks l = .ok (Fin.ofNat 256 (l.map (·.val)).sum) := by
  unfold sumU8
  rw [foldE_addU8_ok]
  · simp
  · simpa using h

theorem sumU8_panics (l : List U8) (h : 256 ≤ (l.map (·.val)).sum) : sumU8 true l = .error .panicOverflow :=
  foldE_addU8_panics l 0 (by simpa using h)

/-! ### Positions -/

theorem positions_get? (ids : BSet sp.Id) (i : sp.Id) (v : U8) :
    (simplePositions ids).get? i = some v ↔ ∃ k : Nat, ids.elems[k]? = some i ∧ v = Fin.ofNat 256 k := by
  unfold simplePositions
  rw [BMap.get?_ofList_nodup]
  · simp only [List.mem_map, Prod.exists, Prod.mk.injEq, List.mem_zipIdx_iff_getElem?]
    constructor
    · rintro ⟨a, k, h, rfl, rfl⟩; exact ⟨k, h, rfl⟩
    · rintro ⟨k, h, rfl⟩; exact ⟨i, k, h, rfl, rfl⟩
  · rw [List.map_map, show (fun x : sp.Id × U8 => x.1) ∘ (fun e : sp.Id × Nat => (e.1, Fin.ofNat 256 e.2)) = Prod.fst from rfl,
      List.zipIdx_map_fst]
    exact BSet.elems_nodup ids

/-- The position of a party. -/
def posOf (ids : BSet sp.Id) (i : sp.Id) : U8 := ((simplePositions ids).get? i).getD 0

theorem posOf_get? {ids : BSet sp.Id} {i : sp.Id} (hi : ids.contains i = true) :
    (simplePositions ids).get? i = some (posOf ids i) := by
  obtain ⟨k, hk⟩ := List.getElem?_of_mem (BSet.mem_elems.2 hi)
  have := (positions_get? ids i _).2 ⟨k, hk, rfl⟩
  unfold posOf
  rw [this]
  rfl

theorem posOf_getElem? {ids : BSet sp.Id} {i : sp.Id} {k : Nat} (hk : ids.elems[k]? = some i) :
    posOf ids i = Fin.ofNat 256 k := by
  have := (positions_get? ids i _).2 ⟨k, hk, rfl⟩
  unfold posOf
  rw [this]
  rfl

theorem posOf_elems (ids : BSet sp.Id) :
    ids.elems.map (posOf ids) = (List.range (partyCount ids)).map (Fin.ofNat 256) := by
  apply List.ext_getElem?
  intro k
  rw [List.getElem?_map, List.getElem?_map]
  rcases Nat.lt_or_ge k ids.elems.length with h | h
  · rw [List.getElem?_eq_getElem h, List.getElem?_range (show k < partyCount ids from h)]
    simp only [Option.map_some]
    rw [posOf_getElem? (List.getElem?_eq_getElem h)]
  · rw [List.getElem?_eq_none h, List.getElem?_eq_none (by simpa [partyCount] using h)]
    rfl

/-- The sum of all positions. -/
def posTotal (ids : BSet sp.Id) : Nat := (ids.elems.map (fun i => (posOf ids i).val)).sum

theorem posTotal_eq (ids : BSet sp.Id) :
    posTotal ids = ((List.range (partyCount ids)).map (fun k => k % 256)).sum := by
  unfold posTotal
  rw [show (fun i => (posOf ids i).val) = (fun a : U8 => a.val) ∘ posOf ids from rfl, ← List.map_map, posOf_elems,
    List.map_map]
  rfl

theorem sum_mod_le (n : Nat) : ((List.range n).map (fun k => k % 256)).sum ≤ (List.range n).sum := by
  induction n with
  | zero => simp
  | succ n ih =>
    simp only [List.range_succ, List.map_append, List.sum_append, List.map_cons, List.map_nil, List.sum_cons, List.sum_nil]
    have := Nat.mod_le n 256
    omega

theorem sum_mod_mod (n : Nat) : ((List.range n).map (fun k => k % 256)).sum % 256 = (List.range n).sum % 256 := by
  induction n with
  | zero => simp
  | succ n ih =>
    simp only [List.range_succ, List.map_append, List.sum_append, List.map_cons, List.map_nil, List.sum_cons, List.sum_nil]
    omega

theorem sum_range_two (n : Nat) : 2 * (List.range n).sum = n * (n - 1) := by
  induction n with
  | zero => simp
  | succ n ih =>
    simp only [List.range_succ, List.sum_append, List.sum_cons, List.sum_nil, Nat.mul_add, ih]
    cases n with
    | zero => simp
    | succ n =>
      simp only [Nat.add_sub_cancel, Nat.mul_zero, Nat.add_zero]
      rw [Nat.mul_comm (n + 1) n, ← Nat.add_mul]

theorem posTotal_mod (ids : BSet sp.Id) :
    (2 * posTotal ids) % 256 = partyCount ids * (partyCount ids - 1) % 256 := by
  rw [← sum_range_two, Nat.mul_mod, posTotal_eq, sum_mod_mod, ← Nat.mul_mod]

theorem posTotal_le (ids : BSet sp.Id) : 2 * posTotal ids ≤ partyCount ids * (partyCount ids - 1) := by
  rw [← sum_range_two, posTotal_eq]
  exact Nat.mul_le_mul_left 2 (sum_mod_le _)

/-- Positions of more than sixteen parties: their double sum does not fit. -/
theorem posTotal_big {ids : BSet sp.Id} (h : 17 ≤ partyCount ids) : 256 ≤ 2 * posTotal ids := by
  have key : ∀ n, 272 ≤ 2 * ((List.range (17 + n)).map (fun k => k % 256)).sum := by
    intro n
    induction n with
    | zero => decide
    | succ n ih =>
      rw [← Nat.add_assoc]
      simp only [List.range_succ, List.map_append, List.sum_append, List.map_cons, List.map_nil, List.sum_cons,
        List.sum_nil]
      omega
  obtain ⟨n, hn⟩ := Nat.exists_eq_add_of_le h
  rw [posTotal_eq, hn]
  have := key n
  omega

/-- The payloads of the others and the own position add up to the sum of all positions. -/
theorem payloads_total {ids : BSet sp.Id} {i : sp.Id} (hi : ids.contains i = true) {ps : BMap sp.Id U8}
    (hk : ∀ j, ps.contains j = (ids.erase i).contains j) (hv : ∀ j v, ps.get? j = some v → v = posOf ids j) :
    (posOf ids i).val + (ps.values.map (·.val)).sum = posTotal ids := by
  have h1 : ps.values = (ps.toList.map (·.1)).map (posOf ids) := by
    unfold BMap.values
    rw [List.map_map]
    apply List.map_congr_left
    intro e he
    exact hv _ _ (BMap.mem_toList'.1 he)
  have h2 : (i :: ps.toList.map (·.1)).Perm ids.elems := by
    rw [List.perm_ext_iff_of_nodup]
    · intro j
      rw [BSet.mem_elems, List.mem_cons]
      have h3 : j ∈ ps.toList.map (·.1) ↔ ps.contains j = true := by
        rw [BMap.contains_iff]
        simp only [List.mem_map, Prod.exists, exists_and_right, exists_eq_right, BMap.mem_toList]
      rw [h3, hk, BMap.contains_erase]
      by_cases hj : j = i
      · subst hj; simp [hi]
      · simp [hj, Ne.symm hj]
    · rw [List.nodup_cons]
      refine ⟨?_, BMap.toList_nodupKeys ps⟩
      intro hm
      simp only [List.mem_map, Prod.exists, exists_and_right, exists_eq_right, BMap.mem_toList] at hm
      have := hk i
      rw [BMap.contains_iff.2 hm, BMap.contains_erase] at this
      simp at this
    · exact BSet.elems_nodup ids
  have h3 := (h2.map (fun j => (posOf ids j).val)).sum_eq
  rw [List.map_cons, List.sum_cons] at h3
  rw [h1, List.map_map]
  exact h3

/-! ### The rounds in honest executions -/

/-- The rounds of the protocol in an honest execution. -/
def SimpleInv (ids : BSet sp.Id) (k : Nat) (i : sp.Id) (r : SimpleSt sp) : Prop :=
  (k = 0 ∧ r = .r1 (simpleCtx ids i)) ∨ (k = 1 ∧ r = .r2 (Fin.ofNat 256 (posTotal ids)) (simpleCtx ids i))

/-- The rounds of the protocol of a party that follows it, whatever the others do. -/
def SimpleShape (ids : BSet sp.Id) (k : Nat) (i : sp.Id) (r : SimpleSt sp) : Prop :=
  (k = 0 ∧ r = .r1 (simpleCtx ids i)) ∨ (k = 1 ∧ ∃ sum, r = .r2 sum (simpleCtx ids i))

theorem SimpleInv.shape {ids : BSet sp.Id} {k : Nat} {i : sp.Id} {r : SimpleSt sp} (h : SimpleInv ids k i r) :
    SimpleShape ids k i r := by
  rcases h with ⟨h, h'⟩ | ⟨h, h'⟩
  · exact Or.inl ⟨h, h'⟩
  · exact Or.inr ⟨h, _, h'⟩

section

variable {fmt : SimpleFormat} {checks : Bool} {ids : BSet sp.Id} {signer : sp.Id → sp.Signer} {sid : Bytes}

theorem simple_position {i j : sp.Id} (hj : ids.contains j = true) : (simpleCtx ids i).position j = .ok (posOf ids j) := by
  simp only [SimpleCtx.position, simpleCtx, posOf_get? hj, okOr]

theorem simple_check {err : SimpleTag} {i : sp.Id} {my : U8} (hi : ids.contains i = true) :
    (simpleCtx ids i).check err my (posOf ids i) = .ok my := by
  unfold SimpleCtx.check
  rw [show (simpleCtx ids i).id = i from rfl, simple_position hi]
  simp

theorem simple_two {f : U8 → U8 → SimpleVal} {i j : sp.Id} (hi : ids.contains i = true) (hj : ids.contains j = true) :
    (simpleCtx ids i).two f j = .ok (f (posOf ids i) (posOf ids j), ()) := by
  unfold SimpleCtx.two
  rw [show (simpleCtx ids i).id = i from rfl, simple_position hi, simple_position hj]

theorem simple_sum {i : sp.Id} (hi : ids.contains i = true) {ps : BMap sp.Id U8}
    (hk : ∀ j, ps.contains j = (ids.erase i).contains j) (hv : ∀ j v, ps.get? j = some v → v = posOf ids j)
    (h : checks = false ∨ posTotal ids < 256) :
    simpleSum checks (simpleCtx ids i) ps = .ok (Fin.ofNat 256 (posTotal ids)) := by
  have ht := payloads_total hi hk hv
  unfold simpleSum
  rw [show (simpleCtx ids i).id = i from rfl, simple_position hi]
  simp only
  rw [sumU8_ok]
  · simp only
    rw [addU8_ok]
    · congr 1
      apply Fin.ext
      simp only [Fin.ofNat]
      omega
    · rcases h with h | h
      · exact Or.inl h
      · right
        simp only [Fin.ofNat]
        omega
  · rcases h with h | h
    · exact Or.inl h
    · right; omega

theorem simple_sum_panics {i : sp.Id} (hi : ids.contains i = true) {ps : BMap sp.Id U8}
    (hk : ∀ j, ps.contains j = (ids.erase i).contains j) (hv : ∀ j v, ps.get? j = some v → v = posOf ids j)
    (h : 256 ≤ posTotal ids) : simpleSum true (simpleCtx ids i) ps = .error .panicOverflow := by
  have ht := payloads_total hi hk hv
  unfold simpleSum
  rw [show (simpleCtx ids i).id = i from rfl, simple_position hi]
  simp only
  by_cases hs : (ps.values.map (·.val)).sum < 256
  · rw [sumU8_ok _ (Or.inr hs)]
    simp only
    rw [addU8_panics]
    simp only [Fin.ofNat]
    rw [Nat.mod_eq_of_lt hs]
    omega
  · rw [sumU8_panics _ (Nat.le_of_not_lt hs)]

/-- What is made of the message of an honest party. -/
theorem simple_receives (hf : fmt.Lawful) {k : Nat} {i j : sp.Id} {ri rj : SimpleSt sp} (hi : ids.contains i = true)
    (hj : ids.contains j = true) (h1 : SimpleShape ids k i ri) (h2 : SimpleShape ids k j rj) {rng1 rng2 rng3 : sp.Rng}
    {e : Part .echo} {n : Part .normal} {p : Part .direct} {art : Unit} (he : (simple sp fmt checks).wrap.makeEcho rj rng1 = .ok e)
    (hn : (simple sp fmt checks).wrap.makeNormal rj rng2 = .ok n)
    (hd : (simple sp fmt checks).wrap.makeDirect rj rng3 i = .ok (p, art)) :
    (simple sp fmt checks).wrap.receive ri j ⟨e, n, p⟩ = .ok (posOf ids j) := by
  have hidj : (simpleCtx ids j).id = j := rfl
  rcases h1 with ⟨rfl, rfl⟩ | ⟨rfl, si, rfl⟩
  · rcases h2 with ⟨-, rfl⟩ | ⟨h, -⟩
    · obtain ⟨b1, s1, d1⟩ := hf (.echo1 (posOf ids j))
      obtain ⟨b2, s2, d2⟩ := hf (.broadcast1 0 (posOf ids j))
      obtain ⟨b3, s3, d3⟩ := hf (.message1 (posOf ids j) (posOf ids i))
      simp only [TypedProto.wrap, simple, simpleBase, hidj, simple_position hj, TypedProto.newPart, s1, Except.ok.injEq] at he
      simp only [TypedProto.wrap, simple, simpleBase, hidj, simple_position hj, TypedProto.newPart, s2, Except.ok.injEq] at hn
      simp only [TypedProto.wrap, simple, simpleBase, simple_two hj hi, TypedProto.newPart, s3, Except.ok.injEq,
        Prod.mk.injEq] at hd
      obtain ⟨hd, -⟩ := hd
      subst he hn hd
      simp only [SimpleVal.ty] at d1 d2 d3
      simp only [TypedProto.wrap, TypedProto.wrapReceive, TypedProto.readPart, simple, simpleBase, d1, d2, d3,
        simple_check hi, mapErr]
    · omega
  · rcases h2 with ⟨h, -⟩ | ⟨-, sj, rfl⟩
    · omega
    · obtain ⟨b3, s3, d3⟩ := hf (.message2 (posOf ids j) (posOf ids i))
      simp only [TypedProto.wrap, simple, simpleBase, TypedProto.newPart, Except.ok.injEq] at he
      simp only [TypedProto.wrap, simple, simpleBase, TypedProto.newPart, Except.ok.injEq] at hn
      simp only [TypedProto.wrap, simple, simpleBase, simple_two hj hi, TypedProto.newPart, s3, Except.ok.injEq,
        Prod.mk.injEq] at hd
      obtain ⟨hd, -⟩ := hd
      subst he hn hd
      simp only [SimpleVal.ty] at d3
      simp only [TypedProto.wrap, TypedProto.wrapReceive, TypedProto.readPart, simple, simpleBase, d3, Part.none,
        simple_check hi, mapErr]

theorem simple_comm {k : Nat} {i : sp.Id} {r : SimpleSt sp} (h : SimpleShape ids k i r) :
    (simple sp fmt checks).wrap.comm r = CommInfo.regular (ids.erase i) := by
  rcases h with ⟨-, rfl⟩ | ⟨-, s, rfl⟩ <;> rfl

/-- The payloads are the positions of the others. -/
theorem simple_payloads (hf : fmt.Lawful) {G : History (simple sp fmt checks).wrap}
    (hG : CellsOk (SimpleInv ids) (simpleGroup sp fmt checks ids signer sid) G) {i : sp.Id} {k : Nat}
    (hi : ids.contains i = true) {ps : BMap sp.Id U8} (h : PayloadsOf (P := (simple sp fmt checks).wrap) G i k ps) :
    (∀ j, ps.contains j = (ids.erase i).contains j) ∧ ∀ j v, ps.get? j = some v → v = posOf ids j := by
  obtain ⟨c, hc, hkeys⟩ := h.keys
  obtain ⟨-, hci, -⟩ := hG i k c hc
  have hk : ∀ j, ps.contains j = (ids.erase i).contains j := by
    intro j
    exact (hkeys j).trans (by rw [simple_comm hci.shape]; rfl)
  refine ⟨hk, ?_⟩
  intro j v hv
  obtain ⟨ci, cj, p, art, h1, h2, h3, h4⟩ := h.value j v hv
  rw [hc] at h1
  cases h1
  obtain ⟨hj, hcj, hm⟩ := hG j k cj h2
  have hne : ((simple sp fmt checks).wrap.comm cj.rd).destinations.isEmpty = false :=
    BMap.isEmpty_eq_false.2 ⟨i, by rw [← hm.dests]; exact BMap.contains_iff.2 ⟨_, h3⟩⟩
  obtain ⟨r1, e1⟩ := hm.direct i _ h3
  obtain ⟨r2, e2⟩ := hm.echo hne
  obtain ⟨r3, e3⟩ := hm.normal hne
  have := simple_receives hf hi hj hci.shape hcj.shape e2 e3 e1
  rw [h4] at this
  exact Except.ok.inj this

theorem simple_finalize1 {i : sp.Id} {rng : sp.Rng} {ps : BMap sp.Id U8} {as : BMap sp.Id Unit} (hi : ids.contains i = true)
    (h1 : ∀ j, ps.contains j = (ids.erase i).contains j) (h2 : ∀ j v, ps.get? j = some v → v = posOf ids j)
    (hb : checks = false ∨ posTotal ids < 256) :
    (simple sp fmt checks).wrap.finalize (SimpleSt.r1 (simpleCtx ids i)) rng ps as =
      .ok (.anotherRound (SimpleSt.r2 (Fin.ofNat 256 (posTotal ids)) (simpleCtx ids i))) := by
  simp only [TypedProto.wrap, simple, simpleBase, simple_sum hi h1 h2 hb]

theorem simple_finalize1_panics {i : sp.Id} {rng : sp.Rng} {ps : BMap sp.Id U8} {as : BMap sp.Id Unit} {r : SimpleSt sp}
    (hi : ids.contains i = true)
    (h1 : ∀ j, ps.contains j = (ids.erase i).contains j) (h2 : ∀ j v, ps.get? j = some v → v = posOf ids j)
    (hb : 256 ≤ posTotal ids) :
    (simple sp fmt true).wrap.finalize (SimpleSt.r1 (simpleCtx ids i)) rng ps as ≠ .ok (.anotherRound r) := by
  simp only [TypedProto.wrap, simple, simpleBase, simple_sum_panics hi h1 h2 hb]
  simp

theorem simple_finalize2_panics {i : sp.Id} {rng : sp.Rng} {ps : BMap sp.Id U8} {as : BMap sp.Id Unit}
    (hi : ids.contains i = true)
    (h1 : ∀ j, ps.contains j = (ids.erase i).contains j) (h2 : ∀ j v, ps.get? j = some v → v = posOf ids j)
    (hb : 256 ≤ 2 * posTotal ids) :
    (simple sp fmt true).wrap.finalize (SimpleSt.r2 (Fin.ofNat 256 (posTotal ids)) (simpleCtx ids i)) rng ps as =
      .error .panicOverflow := by
  rcases Nat.lt_or_ge (posTotal ids) 256 with h | h
  · simp only [TypedProto.wrap, simple, simpleBase, simple_sum hi h1 h2 (checks := true) (Or.inr h)]
    rw [addU8_panics]
    simp only [Fin.ofNat, Nat.mod_eq_of_lt h]
    omega
  · simp only [TypedProto.wrap, simple, simpleBase, simple_sum_panics hi h1 h2 h]

theorem simple_finalize1_not {c : SimpleCtx sp} {rng : sp.Rng} {ps : BMap sp.Id U8} {as : BMap sp.Id Unit}
    {v : U8} : (simple sp fmt checks).wrap.finalize (SimpleSt.r1 c) rng ps as ≠ .ok (.result v) := by
  simp only [TypedProto.wrap, simple, simpleBase]
  split <;> simp

theorem simple_finalize2_not {c : SimpleCtx sp} {sum : U8} {rng : sp.Rng} {ps : BMap sp.Id U8} {as : BMap sp.Id Unit}
    {r : SimpleSt sp} : (simple sp fmt checks).wrap.finalize (SimpleSt.r2 sum c) rng ps as ≠ .ok (.anotherRound r) := by
  simp only [TypedProto.wrap, simple, simpleBase]
  split
  · simp
  · split <;> simp

theorem simple_roundInv (hf : fmt.Lawful) :
    RoundInv (simpleGroup sp fmt checks ids signer sid) (SimpleInv ids) := by
  refine ⟨?_, ?_⟩
  · intro i rng r _ h
    exact Or.inl ⟨rfl, (Except.ok.inj h).symm⟩
  · intro G i k c ps rng r hi hG _ hc hps h
    obtain ⟨h1, h2⟩ := simple_payloads hf hG hi hps
    obtain ⟨-, hci, -⟩ := hG i k c hc
    rcases hci with ⟨rfl, hr⟩ | ⟨rfl, hr⟩
    · rw [hr] at h
      have hb : checks = false ∨ posTotal ids < 256 := by
        cases hc : checks with
        | false => exact Or.inl rfl
        | true =>
          right
          subst hc
          rcases Nat.lt_or_ge (posTotal ids) 256 with hb | hb
          · exact hb
          · exact absurd h (simple_finalize1_panics hi h1 h2 hb)
      have h' := (simple_finalize1 hi h1 h2 hb).symm.trans h
      exact Or.inr ⟨rfl, (Outcome.anotherRound.inj (Except.ok.inj h')).symm⟩
    · rw [hr] at h
      exact absurd h simple_finalize2_not

theorem simple_finalize2 {i : sp.Id} {rng : sp.Rng} {ps : BMap sp.Id U8} {as : BMap sp.Id Unit} (hi : ids.contains i = true)
    (h1 : ∀ j, ps.contains j = (ids.erase i).contains j) (h2 : ∀ j v, ps.get? j = some v → v = posOf ids j)
    (hb : checks = false ∨ 2 * posTotal ids < 256) :
    (simple sp fmt checks).wrap.finalize (SimpleSt.r2 (Fin.ofNat 256 (posTotal ids)) (simpleCtx ids i)) rng ps as =
      .ok (.result (Fin.ofNat 256 (partyCount ids * (partyCount ids - 1)))) := by
  have hb' : checks = false ∨ posTotal ids < 256 := by
    rcases hb with h | h
    · exact Or.inl h
    · right; omega
  simp only [TypedProto.wrap, simple, simpleBase, simple_sum hi h1 h2 hb']
  rw [addU8_ok]
  · simp only
    congr 2
    apply Fin.ext
    simp only [Fin.ofNat]
    rw [← posTotal_mod]
    omega
  · rcases hb with h | h
    · exact Or.inl h
    · right; simp only [Fin.ofNat]; omega

theorem simple_others {i : sp.Id} (hi : ids.contains i = true) : (ids.erase i).isEmpty = false ↔ 2 ≤ partyCount ids := by
  have hnd := BSet.elems_nodup ids
  have hmem := BSet.mem_elems.2 hi
  rw [BMap.isEmpty_eq_false]
  constructor
  · rintro ⟨j, hj⟩
    rw [BMap.contains_erase] at hj
    simp only [Bool.and_eq_true, bne_iff_ne, ne_eq] at hj
    have hj' : j ∈ ids.elems := BSet.mem_elems.2 hj.2
    have hne : j ≠ i := by rintro rfl; simp at hj
    unfold partyCount
    have := (List.nodup_cons.2 ⟨by simpa using hne, List.nodup_singleton i⟩ : [j, i].Nodup).length_le_of_subset
      (show [j, i] ⊆ ids.elems by
        intro x hx
        simp at hx
        rcases hx with rfl | rfl
        · exact hj'
        · exact hmem)
    simpa using this
  · intro h
    by_contra hc
    have hall : ∀ j ∈ ids.elems, j = i := by
      intro j hj
      by_contra hne
      apply hc
      refine ⟨j, ?_⟩
      rw [BMap.contains_erase]
      rw [BSet.mem_elems] at hj
      simp [hne, hj]
    have := hnd.length_le_of_subset (l₂ := [i]) (by intro x hx; simpa using hall x hx)
    unfold partyCount at h
    simp at this
    omega

/-- The protocol is cooperative. -/
theorem simple_cooperative (hf : fmt.Lawful) (hb : checks = false ∨ 2 * posTotal ids < 256) :
    Cooperative (simplePlan sp fmt checks ids signer sid) := by
  have hb' : checks = false ∨ posTotal ids < 256 := by
    rcases hb with h | h
    · exact Or.inl h
    · right; omega
  have hI := simple_roundInv (checks := checks) (ids := ids) (signer := signer) (sid := sid) hf
  refine ⟨Nat.succ_pos 1, ?_, fun _ _ => rfl, ?_, allToAll_pattern _ _ _ _, ?_, ?_, ?_, ?_, ?_, ?_, ?_, ?_, ?_⟩
  · intro k l hk hl h
    simp only [simplePlan, Plan.allToAll, RoundId.new, RoundId.mk.injEq, and_true] at h hk hl
    have := congrArg Fin.val h
    simp only [Fin.ofNat] at this
    omega
  · intro k i _ he hi
    simp only [simplePlan, Plan.allToAll, decide_eq_true_eq] at he
    exact (simple_others hi).2 he.2
  · intro i _ rng
    exact ⟨_, rfl⟩
  · intro G i r hG hi hr
    rcases hI.entering hG hi hr with ⟨h, rfl⟩ | ⟨h, rfl⟩ <;> rw [h] <;> rfl
  · intro G i r hG hi hr hlen
    rcases hI.entering hG hi hr with ⟨h, rfl⟩ | ⟨h, rfl⟩
    · rw [h]
      rfl
    · rw [h] at hlen
      simp [simplePlan, Plan.allToAll] at hlen
  · intro G i r hG hi hr
    exact simple_comm (hI.entering hG hi hr).shape
  · intro G i r hG hi hr hne rng
    change ids.contains i = true at hi
    have h2 := (simple_others hi).1 hne
    rcases hI.entering hG hi hr with ⟨h, rfl⟩ | ⟨h, rfl⟩
    · obtain ⟨b1, s1, -⟩ := hf (.echo1 (posOf ids i))
      refine ⟨⟨some b1⟩, ?_, ?_⟩
      · simp only [TypedProto.wrap, simple, simpleBase, show (simpleCtx ids i).id = i from rfl, simple_position hi,
          TypedProto.newPart, s1]
      · rw [h]
        simp [simplePlan, Plan.allToAll, h2]
    · refine ⟨Part.none, rfl, ?_⟩
      rw [h]
      simp [simplePlan, Plan.allToAll, Part.none]
  · intro G i r hG hi hr hne rng
    change ids.contains i = true at hi
    rcases hI.entering hG hi hr with ⟨h, rfl⟩ | ⟨h, rfl⟩
    · obtain ⟨b1, s1, -⟩ := hf (.broadcast1 0 (posOf ids i))
      refine ⟨⟨some b1⟩, ?_⟩
      simp only [TypedProto.wrap, simple, simpleBase, show (simpleCtx ids i).id = i from rfl, simple_position hi,
          TypedProto.newPart, s1]
    · exact ⟨Part.none, rfl⟩
  · intro G i r hG hi hr j hj rng
    change ids.contains i = true at hi
    have hj' : ids.contains j = true := (Plan.others_contains.1 hj).2
    rcases hI.entering hG hi hr with ⟨h, rfl⟩ | ⟨h, rfl⟩
    · obtain ⟨b1, s1, -⟩ := hf (.message1 (posOf ids i) (posOf ids j))
      refine ⟨(⟨some b1⟩, ()), ?_⟩
      simp only [TypedProto.wrap, simple, simpleBase, simple_two hi hj', TypedProto.newPart, s1]
    · obtain ⟨b1, s1, -⟩ := hf (.message2 (posOf ids i) (posOf ids j))
      refine ⟨(⟨some b1⟩, ()), ?_⟩
      simp only [TypedProto.wrap, simple, simpleBase, simple_two hi hj', TypedProto.newPart, s1]
  · intro G i j k ci cj p art hG hj hi hci hcj hd
    obtain ⟨-, h1, -⟩ := hI.cells hG i k ci hci
    obtain ⟨hj', h2, hm⟩ := hI.cells hG j k cj hcj
    have hne : ((simple sp fmt checks).wrap.comm cj.rd).destinations.isEmpty = false :=
      BMap.isEmpty_eq_false.2 ⟨i, by rw [← hm.dests]; exact BMap.contains_iff.2 ⟨_, hd⟩⟩
    obtain ⟨r1, e1⟩ := hm.direct i _ hd
    obtain ⟨r2, e2⟩ := hm.echo hne
    obtain ⟨r3, e3⟩ := hm.normal hne
    exact ⟨_, simple_receives hf hi hj' h1.shape h2.shape e2 e3 e1⟩
  · intro G i k c ps hG hi hlen hc hps rng
    obtain ⟨h1, h2⟩ := simple_payloads hf (hI.cells hG) hi hps
    obtain ⟨-, hci, -⟩ := hI.cells hG i k c hc
    rcases hci with ⟨rfl, hr⟩ | ⟨rfl, hr⟩
    · rw [hr]
      exact ⟨_, simple_finalize1 hi h1 h2 hb', _, rfl⟩
    · rw [hr]
      exact ⟨_, simple_finalize2 hi h1 h2 hb, _, rfl⟩

end

end Manul
