import Verif.Spec.Untraceable
import Verif.Lemmas.ChainNet
import Verif.Props.Dining

/-!
# C94: no diner learns which of the others paid

The executions in which the other two diners have exchanged who paid correspond one-to-one, and the diner sees the same in both.
-/

namespace Manul

variable {R : RandomSource}

/-- The diner `i` in whose view nothing changes, and whether its right neighbour (`dinerAt i 1`) and its left one pay. -/
structure Exchange where
  i : U8
  pa : Bool
  pb : Bool

namespace Exchange

variable (x : Exchange)

/-- The two others. -/
def a : U8 := dinerAt x.i 1
def b : U8 := dinerAt x.i 2

/-- Whether the coin the two others share changes. -/
def d : Bool := x.pa ^^ x.pb

/-- Back. -/
def back : Exchange := ⟨x.i, x.pb, x.pa⟩

/-- The round of a diner. -/
def st (j : U8) (r : DinerSt) : DinerSt :=
  if j = x.a then
    match r with
    | .r1 id t _ => .r1 id (t ^^ x.d) x.pb
    | .r2 id t n _ => .r2 id (t ^^ x.d) n x.pb
  else if j = x.b then
    match r with
    | .r1 id t _ => .r1 id t x.pa
    | .r2 id t n _ => .r2 id t (n ^^ x.d) x.pa
  else r

/-- The message with a coin. -/
def tossPart (t : Bool) : Part .direct := ⟨some (Codec.bool.enc t)⟩

/-- The direct messages of a diner. -/
def directs (j : U8) (r : DinerSt) (m : BMap U8 (Part .direct × Unit)) : BMap U8 (Part .direct × Unit) :=
  if j = x.a then
    match r with
    | .r1 _ t _ => m.mapVal (fun _ _ => (tossPart (t ^^ x.d), ()))
    | .r2 _ _ _ _ => m
  else m

/-- What a diner does in a round. -/
def cell (j : U8) (c : Cell (dining R).wrap) : Cell (dining R).wrap where
  rd := x.st j c.rd
  echo := c.echo
  normal := c.normal
  directs := x.directs j c.rd c.directs

/-- The whole execution. -/
def history (G : History (dining R).wrap) : History (dining R).wrap := fun j => (G j).map (x.cell j)

end Exchange

/-- The three diners, seen from `i`. -/
theorem diners_around {i : U8} (hi : diners.contains i = true) :
    dinerAt i 1 ≠ i ∧ dinerAt i 2 ≠ i ∧ dinerAt i 1 ≠ dinerAt i 2 ∧ dinerAt (dinerAt i 1) 1 = dinerAt i 2 ∧
      dinerAt (dinerAt i 1) 2 = i ∧ dinerAt (dinerAt i 2) 2 = dinerAt i 1 ∧
      ∀ j : U8, diners.contains j = true → j = i ∨ j = dinerAt i 1 ∨ j = dinerAt i 2 := by
  rcases diner_cases hi with rfl | rfl | rfl <;> refine ⟨by decide, by decide, by decide, by decide, by decide, by decide, ?_⟩ <;>
    intro j hj <;> rcases diner_cases hj with rfl | rfl | rfl <;> decide

namespace Exchange

variable {x : Exchange}

theorem st_i (hi : diners.contains x.i = true) (r : DinerSt) : x.st x.i r = r := by
  obtain ⟨h1, h2, -⟩ := diners_around hi
  simp [st, a, b, h1.symm, h2.symm]

theorem cell_i (hi : diners.contains x.i = true) (c : Cell (dining R).wrap) : x.cell x.i c = c := by
  obtain ⟨h1, h2, -⟩ := diners_around hi
  cases c
  simp [cell, st, directs, a, b, h1.symm, h2.symm]

theorem inv {k : Nat} {j : U8} {r : DinerSt} (h : DiningInv k j r) : DiningInv k j (x.st j r) := by
  rcases h with ⟨rfl, t, p, rfl⟩ | ⟨rfl, t, n, p, rfl⟩
  · refine Or.inl ⟨rfl, ?_⟩
    unfold st
    split
    · exact ⟨_, _, rfl⟩
    · split
      · exact ⟨_, _, rfl⟩
      · exact ⟨_, _, rfl⟩
  · refine Or.inr ⟨rfl, ?_⟩
    unfold st
    split
    · exact ⟨_, _, _, rfl⟩
    · split
      · exact ⟨_, _, _, rfl⟩
      · exact ⟨_, _, _, rfl⟩

theorem comm {k : Nat} {j : U8} {r : DinerSt} (h : DiningInv k j r) :
    (dining R).wrap.comm (x.st j r) = (dining R).wrap.comm r := by
  rcases h with ⟨rfl, t, p, rfl⟩ | ⟨rfl, t, n, p, rfl⟩ <;> unfold st <;> split <;> first | rfl | (split <;> rfl)

theorem directs_contains (j l : U8) (r : DinerSt) (m : BMap U8 (Part .direct × Unit)) :
    (x.directs j r m).contains l = m.contains l := by
  unfold directs
  split
  · split <;> simp
  · rfl

theorem directs_get {j l : U8} {r : DinerSt} {m : BMap U8 (Part .direct × Unit)} {y : Part .direct × Unit}
    (h : (x.directs j r m).get? l = some y) :
    ∃ z, m.get? l = some z ∧ ((j = x.a ∧ ∃ id t p, r = .r1 id t p ∧ y = (tossPart (t ^^ x.d), ())) ∨
      (¬ (j = x.a ∧ ∃ id t p, r = .r1 id t p) ∧ y = z)) := by
  unfold directs at h
  by_cases hj : j = x.a
  · rw [if_pos hj] at h
    cases r with
    | r1 id t p =>
      simp only [BMap.get?_mapVal, Option.map_eq_some_iff] at h
      obtain ⟨z, hz, rfl⟩ := h
      exact ⟨z, hz, Or.inl ⟨hj, id, t, p, rfl, rfl⟩⟩
    | r2 id t n p => exact ⟨y, h, Or.inr ⟨fun hh => (by obtain ⟨-, _, _, _, hh⟩ := hh; cases hh), rfl⟩⟩
  · rw [if_neg hj] at h
    exact ⟨y, h, Or.inr ⟨fun hh => hj hh.1, rfl⟩⟩

/-- The paid flags that go with the exchange. -/
def Fits (x : Exchange) (j : U8) (r : DinerSt) : Prop := (j = x.a → r.hasPaid = x.pa) ∧ (j = x.b → r.hasPaid = x.pb)

theorem normal {j : U8} {k : Nat} {r : DinerSt} (h : DiningInv k j r) (hf : x.Fits j r) (rng : R.Rng) :
    (dining R).wrap.makeNormal (x.st j r) rng = (dining R).wrap.makeNormal r rng := by
  obtain ⟨ha, hb⟩ := hf
  rcases h with ⟨rfl, t, p, rfl⟩ | ⟨rfl, t, n, p, rfl⟩
  · unfold st
    split
    · rfl
    · split <;> rfl
  · unfold st
    split
    · rename_i hj
      have := ha hj
      simp only [DinerSt.hasPaid] at this
      subst this
      simp only [d]
      cases t <;> cases n <;> cases x.pa <;> cases x.pb <;> rfl
    · split
      · rename_i hj
        have := hb hj
        simp only [DinerSt.hasPaid] at this
        subst this
        simp only [d]
        cases t <;> cases n <;> cases x.pa <;> cases x.pb <;> rfl
      · rfl

theorem made {j : U8} {k : Nat} {c : Cell (dining R).wrap} (h : DiningInv k j c.rd) (hf : x.Fits j c.rd) (hm : c.Made) :
    (x.cell j c).Made := by
  have hcomm : (dining R).wrap.comm (x.cell j c).rd = (dining R).wrap.comm c.rd := comm h
  refine ⟨?_, ?_, ?_, ?_, ?_⟩
  · rw [hcomm]; exact hm.alone
  · rw [hcomm]
    intro hd
    obtain ⟨rng, e⟩ := hm.echo hd
    refine ⟨rng, ?_⟩
    rw [show (x.cell j c).echo = c.echo from rfl, ← e]
    show (dining R).wrap.makeEcho (x.st j c.rd) rng = _
    generalize c.rd = r at h
    rcases h with ⟨rfl, t, p, rfl⟩ | ⟨rfl, t, n, p, rfl⟩ <;> unfold st <;> split <;> first | rfl | (split <;> rfl)
  · rw [hcomm]
    intro hd
    obtain ⟨rng, e⟩ := hm.normal hd
    exact ⟨rng, (normal h hf rng).trans e⟩
  · rw [hcomm]
    intro l
    exact (directs_contains j l c.rd c.directs).trans (hm.dests l)
  · intro l y hy
    change (x.directs j c.rd c.directs).get? l = some y at hy
    show ∃ rng, (dining R).wrap.makeDirect (x.st j c.rd) rng l = .ok y
    obtain ⟨z, hz, hcase⟩ := directs_get hy
    obtain ⟨rng, e⟩ := hm.direct l z hz
    refine ⟨rng, ?_⟩
    rcases hcase with ⟨hj, id, t, p, hr, rfl⟩ | ⟨hno, rfl⟩
    · rw [hr]
      unfold st
      rw [if_pos hj]
      rfl
    · rw [← e]
      generalize c.rd = r at h hno
      rcases h with ⟨rfl, t, p, rfl⟩ | ⟨rfl, t, n, p, rfl⟩
      · unfold st
        rw [if_neg (fun hj => hno ⟨hj, _, _, _, rfl⟩)]
        split <;> rfl
      · unfold st
        split
        · rfl
        · split <;> rfl

theorem history_get (G : History (dining R).wrap) (j : U8) (k : Nat) :
    (x.history G j)[k]? = ((G j)[k]?).map (x.cell j) := by simp [history]

/-- All rounds go with the exchange. -/
def AllFit (x : Exchange) (G : History (dining R).wrap) : Prop := ∀ j, ∀ c ∈ G j, x.Fits j c.rd

theorem cells {g : Group (dining R).wrap} {G : History (dining R).wrap} (hG : CellsOk DiningInv g G) (hf : x.AllFit G) :
    CellsOk DiningInv g (x.history G) := by
  intro j k c' hc'
  obtain ⟨c, hc, rfl⟩ := Option.map_eq_some_iff.1 ((history_get (x := x) G j k).symm.trans hc')
  obtain ⟨h1, h2, h3⟩ := hG j k c hc
  exact ⟨h1, inv h2, made h2 (hf j c (List.mem_of_getElem? hc)) h3⟩

/-- The payloads of a diner. -/
def payloads (x : Exchange) (j : U8) (k : Nat) (ps : BMap U8 Bool) : BMap U8 Bool :=
  if j = x.b ∧ k = 0 then ps.mapVal (fun _ v => v ^^ x.d) else ps

theorem payloads_contains (j : U8) (k : Nat) (ps : BMap U8 Bool) (l : U8) :
    (x.payloads j k ps).contains l = ps.contains l := by
  unfold payloads
  split <;> simp

/-- What a diner gets of another one. -/
theorem payload_value {g : Group (dining R).wrap} (hi : diners.contains x.i = true) {j l : U8} {k : Nat} {r : DinerSt}
    (hj : diners.contains j = true) (hl : diners.contains l = true) (hr : DiningInv k l r) (hf : x.Fits l r)
    (he : BMap.contains ((diningPlan g).expects k j) l = true) {w v v' : Bool} {ps : BMap U8 Bool}
    (h5 : ∀ t p, x.st l r = .r1 l t p → w = t) (h6 : ∀ t m p, x.st l r = .r2 l t m p → w = ((t ^^ m) ^^ p))
    (h1 : ∀ t p, r = .r1 l t p → v = t) (h2 : ∀ t m p, r = .r2 l t m p → v = ((t ^^ m) ^^ p)) (hv : ps.get? l = some v)
    (hv' : (x.payloads j k ps).get? l = some v') : w = v' := by
  obtain ⟨n1, n2, n3, n4, n5, n6, hall⟩ := diners_around hi
  obtain ⟨ha, hb⟩ := hf
  have hab : x.a ≠ x.b := n3
  rcases hr with ⟨rfl, t, p, rfl⟩ | ⟨rfl, t, n, p, rfl⟩
  · have hlj : l = dinerAt j 2 := by
      change BMap.contains (BSet.ofList [dinerAt j 2] : BSet U8) l = true at he
      rw [BSet.contains_ofList] at he
      simpa using he
    obtain rfl := h1 t p rfl
    unfold payloads at hv'
    rcases hall j hj with rfl | rfl | rfl
    · have hlb : l = x.b := hlj
      rw [if_neg (fun h => n2 h.1.symm), hv] at hv'
      cases hv'
      exact h5 v x.pa (by unfold st; rw [if_neg (fun h => hab (h.symm.trans hlb)), if_pos hlb])
    · have hli : l = x.i := hlj.trans n5
      rw [if_neg (fun h => n3 h.1), hv] at hv'
      cases hv'
      refine h5 v p ?_
      rw [hli, st_i hi]
    · have hla : l = x.a := hlj.trans n6
      rw [if_pos ⟨rfl, rfl⟩, BMap.get?_mapVal, hv] at hv'
      cases hv'
      exact h5 _ x.pb (by unfold st; rw [if_pos hla])
  · obtain rfl := h2 t n p rfl
    unfold payloads at hv'
    rw [if_neg (fun h => by simp at h), hv] at hv'
    cases hv'
    by_cases h3 : l = x.a
    · have := ha h3
      simp only [DinerSt.hasPaid] at this
      subst this
      rw [h6 (t ^^ x.d) n x.pb (by unfold st; rw [if_pos h3])]
      simp only [d]
      cases t <;> cases n <;> cases x.pa <;> cases x.pb <;> rfl
    · by_cases h4 : l = x.b
      · have := hb h4
        simp only [DinerSt.hasPaid] at this
        subst this
        rw [h6 t (n ^^ x.d) x.pa (by unfold st; rw [if_neg h3, if_pos h4])]
        simp only [d]
        cases t <;> cases n <;> cases x.pa <;> cases x.pb <;> rfl
      · exact h6 t n p (by unfold st; rw [if_neg h3, if_neg h4])

theorem payloadsOf {g : Group (dining R).wrap} {G : History (dining R).wrap} (hi : diners.contains x.i = true)
    (hpar : g.parties = diners) (hG : CellsOk DiningInv g G) (hf : x.AllFit G) {j : U8} {k : Nat} {ps : BMap U8 Bool}
    (h : PayloadsOf (P := (dining R).wrap) G j k ps) :
    PayloadsOf (P := (dining R).wrap) (x.history G) j k (x.payloads j k ps) := by
  obtain ⟨c, hc, hkeys⟩ := h.keys
  obtain ⟨hj, hci, -⟩ := hG j k c hc
  obtain ⟨hd1, hd2⟩ := dining_payloads hG h
  have get : ∀ {j : U8} {c : Cell (dining R).wrap}, (G j)[k]? = some c → (x.history G j)[k]? = some (x.cell j c) :=
    fun {j c} hc => (history_get (x := x) G j k).trans (congrArg (Option.map (x.cell j)) hc)
  refine ⟨⟨x.cell j c, get hc, fun l => ?_⟩, ?_⟩
  · exact (payloads_contains j k ps l).trans ((hkeys l).trans
      (congrArg (fun y : CommInfo U8 => BMap.contains y.expecting l) (comm (R := R) (x := x) hci).symm))
  · intro l v' hv'
    have hcl : ps.contains l = true := (payloads_contains (x := x) j k ps l).symm.trans (BMap.contains_iff.2 ⟨_, hv'⟩)
    obtain ⟨v, hv⟩ := BMap.contains_iff.1 hcl
    obtain ⟨ci, cl, p, art, h1, h2, h3, h4⟩ := h.value l v hv
    rw [hc] at h1
    cases h1
    obtain ⟨cl', h2', hv1, hv2⟩ := hd2 l v hv
    rw [h2] at h2'
    cases h2'
    have hX := cells hG hf
    have g1 : (x.history G j)[k]? = some (x.cell j c) := get hc
    have g2 : (x.history G l)[k]? = some (x.cell l cl) := get h2
    have hcd : (x.cell l cl).directs.contains j = true :=
      (directs_contains l j cl.rd cl.directs).trans (BMap.contains_iff.2 ⟨_, h3⟩)
    obtain ⟨⟨p', art'⟩, h3'⟩ := BMap.contains_iff.1 hcd
    obtain ⟨-, hci', -⟩ := hX j k _ g1
    obtain ⟨-, hcl', hm⟩ := hX l k _ g2
    have hne : ((dining R).wrap.comm (x.cell l cl).rd).destinations.isEmpty = false :=
      BMap.isEmpty_eq_false.2 ⟨j, (hm.dests j).symm.trans hcd⟩
    obtain ⟨r1, e1⟩ := hm.direct j _ h3'
    obtain ⟨r2, e2⟩ := hm.echo hne
    obtain ⟨r3, e3⟩ := hm.normal hne
    obtain ⟨w, hw, h5, h6⟩ := dining_receives hci' hcl' e2 e3 e1
    refine ⟨_, _, p', art', g1, g2, h3', hw.trans (congrArg Except.ok ?_)⟩
    obtain ⟨hl, hil, -⟩ := hG l k cl h2
    have hfit := hf l cl (List.mem_of_getElem? h2)
    refine payload_value hi (hpar ▸ hj) (hpar ▸ hl) hil hfit ((hd1 l).symm.trans hcl) h5 h6 hv1 hv2 hv hv'

theorem values_mapVal (ps : BMap U8 Bool) (f : Bool → Bool) : (ps.mapVal (fun _ v => f v)).values = ps.values.map f := by
  simp [BMap.values, BMap.mapVal, Function.comp_def]

theorem finalize_next (hi : diners.contains x.i = true) {j : U8} {k : Nat} {r r' : DinerSt} (hr : DiningInv k j r) {rng : R.Rng}
    {ps : BMap U8 Bool} {as as' : BMap U8 Unit} (h : (dining R).wrap.finalize r rng ps as = .ok (.anotherRound r')) :
    (dining R).wrap.finalize (x.st j r) rng (x.payloads j k ps) as' = .ok (.anotherRound (x.st j r')) := by
  obtain ⟨-, -, n3, -⟩ := diners_around hi
  have hab : x.a ≠ x.b := n3
  rcases hr with ⟨rfl, t, p, rfl⟩ | ⟨rfl, t, n, p, rfl⟩
  · obtain ⟨n, l, hv, rfl⟩ := dining_next1 h
    by_cases h1 : j = x.a
    · have h2 : j ≠ x.b := fun h => hab (h1.symm.trans h)
      simp only [st, payloads, if_pos h1, h2, false_and, if_false]
      rw [dining_finalize1, hv]
    · by_cases h2 : j = x.b
      · have hp : x.payloads j 0 ps = ps.mapVal (fun _ v => v ^^ x.d) := by unfold payloads; rw [if_pos ⟨h2, rfl⟩]
        have hv' : (x.payloads j 0 ps).values = (n ^^ x.d) :: l.map (fun v => v ^^ x.d) := by
          rw [hp, values_mapVal (f := fun v => v ^^ x.d), hv]
          rfl
        simp only [st, if_neg h1, if_pos h2]
        rw [dining_finalize1, hv']
      · simp only [st, payloads, if_neg h1, if_neg h2, h2, false_and, if_false]
        rw [dining_finalize1, hv]
  · exact absurd h dining_next2

theorem finalize_result {j : U8} {k : Nat} {r : DinerSt} (hr : DiningInv k j r) (hf : x.Fits j r) {rng : R.Rng}
    {ps : BMap U8 Bool} {as as' : BMap U8 Unit} {v : Bool × Bool × Bool} (h : (dining R).wrap.finalize r rng ps as = .ok (.result v)) :
    (dining R).wrap.finalize (x.st j r) rng (x.payloads j k ps) as' = .ok (.result v) := by
  obtain ⟨ha, hb⟩ := hf
  rcases hr with ⟨rfl, t, p, rfl⟩ | ⟨rfl, t, n, p, rfl⟩
  · rw [dining_finalize1] at h
    split at h <;> cases h
  · have hp : x.payloads j 1 ps = ps := by simp [payloads]
    rw [hp]
    by_cases h1 : j = x.a
    · have := ha h1
      simp only [DinerSt.hasPaid] at this
      subst this
      simp only [st, if_pos h1]
      rw [dining_finalize2] at h ⊢
      rw [← h]
      simp only [d]
      cases t <;> cases n <;> cases x.pa <;> cases x.pb <;> rfl
    · by_cases h2 : j = x.b
      · have := hb h2
        simp only [DinerSt.hasPaid] at this
        subst this
        simp only [st, if_neg h1, if_pos h2]
        rw [dining_finalize2] at h ⊢
        rw [← h]
        simp only [d]
        cases t <;> cases n <;> cases x.pa <;> cases x.pb <;> rfl
      · simp only [st, if_neg h1, if_neg h2]
        rw [dining_finalize2] at h ⊢
        exact h

theorem finalizes {g : Group (dining R).wrap} {G : History (dining R).wrap} (hi : diners.contains x.i = true)
    (hpar : g.parties = diners) (hG : CellsOk DiningInv g G) (hf : x.AllFit G) {j : U8} {rng : R.Rng} :
    (∀ r : DinerSt, Finalizes (P := (dining R).wrap) G j rng (.anotherRound r) →
      Finalizes (P := (dining R).wrap) (x.history G) j rng (.anotherRound (x.st j r))) ∧
    (∀ v : Bool × Bool × Bool, Finalizes (P := (dining R).wrap) G j rng (.result v) →
      Finalizes (P := (dining R).wrap) (x.history G) j rng (.result v)) := by
  refine ⟨?_, ?_⟩
  · rintro r ⟨k, c, ps, h1, h2, h3, h4⟩
    refine ⟨k, x.cell j c, x.payloads j k ps, by simpa [history] using h1,
      (history_get (x := x) G j k).trans (congrArg (Option.map (x.cell j)) h2), payloadsOf hi hpar hG hf h3, ?_⟩
    exact finalize_next hi (hG j k c h2).2.1 h4
  · rintro r ⟨k, c, ps, h1, h2, h3, h4⟩
    refine ⟨k, x.cell j c, x.payloads j k ps, by simpa [history] using h1,
      (history_get (x := x) G j k).trans (congrArg (Option.map (x.cell j)) h2), payloadsOf hi hpar hG hf h3, ?_⟩
    exact finalize_result (hG j k c h2).2.1 (hf j c (List.mem_of_getElem? h2)) h4

/-- The exchanged execution is an execution. -/
theorem honest {g : Group (dining R).wrap} (hg : DiningParty g) (hany : AnyCoins g) {G : History (dining R).wrap}
    (hi : diners.contains x.i = true) (h : Honest g G) (hf : x.AllFit G) : Honest g (x.history G) := by
  induction h with
  | nil => exact .nil
  | @enter G j c hG hj he hm ih =>
    have hf' : x.AllFit G := by
      intro l d hd
      refine hf l d ?_
      by_cases hl : l = j
      · subst hl
        rw [Function.update_self]
        exact List.mem_append_left _ hd
      · rwa [Function.update_of_ne hl]
    have hfc : x.Fits j c.rd := hf j c (by rw [Function.update_self]; simp)
    have hcells := (dining_roundInv hg).cells hG
    have hinv := (dining_roundInv hg).enters hcells hj he
    have heq : x.history (Function.update G j (G j ++ [c])) =
        Function.update (x.history G) j (x.history G j ++ [x.cell j c]) := by
      funext l
      by_cases hl : l = j
      · subst hl
        simp [history]
      · simp [history, Function.update_of_ne hl]
    rw [heq]
    refine .enter (ih hf') hj ?_ (made hinv hfc hm)
    rcases he with ⟨h0, rng, h1⟩ | ⟨rng, h1⟩
    · refine Or.inl ⟨by simp [history, h0], ?_⟩
      rw [h0] at hinv
      rcases hinv with ⟨-, t, p, hr⟩ | ⟨h, -⟩
      · obtain ⟨t', p', hr'⟩ : ∃ t' p', x.st j c.rd = .r1 j t' p' := by
          rw [hr]
          unfold st
          split
          · exact ⟨_, _, rfl⟩
          · split
            · exact ⟨_, _, rfl⟩
            · exact ⟨_, _, rfl⟩
        rw [hg.parties] at hj
        obtain ⟨rng', e⟩ := hany j t' p' hj
        exact ⟨rng', e.trans (congrArg Except.ok hr'.symm)⟩
      · simp at h
    · exact Or.inr ⟨rng, (finalizes hi hg.parties hcells hf').1 _ h1⟩

theorem allFit {g : Group (dining R).wrap} {G : History (dining R).wrap} (ha : Pays G x.a x.pa) (hb : Pays G x.b x.pb) :
    x.AllFit G := by
  intro j c hc
  exact ⟨fun h => ha c (h ▸ hc), fun h => hb c (h ▸ hc)⟩

theorem directs_same {j : U8} {r : DinerSt} {m : BMap U8 (Part .direct × Unit)} (h : ¬ (j = x.a ∧ ∃ id t p, r = .r1 id t p)) :
    x.directs j r m = m := by
  unfold directs
  split
  · rename_i hj
    cases r with
    | r1 id t p => exact absurd ⟨hj, id, t, p, rfl⟩ h
    | r2 id t n p => rfl
  · rfl

/-- Diner `i` gets the same messages. -/
theorem directs_to_i (hi : diners.contains x.i = true) {j : U8} {k : Nat} {c : Cell (dining R).wrap} (h : DiningInv k j c.rd)
    (hm : c.Made) : (x.cell j c).directs.get? x.i = c.directs.get? x.i := by
  show (x.directs j c.rd c.directs).get? x.i = _
  by_cases hj : j = x.a
  · rcases h with ⟨rfl, t, p, hr⟩ | ⟨rfl, t, n, p, hr⟩
    · have hd : c.directs.contains x.i = false := by
        refine (hm.dests x.i).trans ?_
        rw [hr]
        show BMap.contains (BSet.ofList [dinerAt j 1] : BSet U8) x.i = false
        obtain ⟨-, n2, -, n4, -⟩ := diners_around hi
        rw [BSet.contains_ofList, decide_eq_false_iff_not, List.mem_singleton, hj, show dinerAt x.a 1 = dinerAt x.i 2 from n4]
        exact fun h => n2 h.symm
      have none_of : ∀ {m : BMap U8 (Part .direct × Unit)}, m.contains x.i = false → m.get? x.i = none := by
        intro m hm
        cases hg : m.get? x.i with
        | none => rfl
        | some v => rw [BMap.contains_iff.2 ⟨v, hg⟩] at hm; cases hm
      exact (none_of ((directs_contains j x.i c.rd c.directs).trans hd)).trans (none_of hd).symm
    · exact congrArg (fun m => BMap.get? m x.i) (directs_same (fun hh => by obtain ⟨-, _, _, _, hh⟩ := hh; rw [hr] at hh; cases hh))
  · exact congrArg (fun m => BMap.get? m x.i) (directs_same (fun hh => hj hh.1))

theorem paid_a (r : DinerSt) : (x.st x.a r).hasPaid = x.pb := by
  unfold st
  rw [if_pos rfl]
  cases r <;> rfl

theorem paid_b (hi : diners.contains x.i = true) (r : DinerSt) : (x.st x.b r).hasPaid = x.pa := by
  obtain ⟨-, -, n3, -⟩ := diners_around hi
  unfold st
  rw [if_neg (fun h => n3 h.symm), if_pos rfl]
  cases r <;> rfl

/-- Exchanging twice changes nothing. -/
theorem back_st (r : DinerSt) {j : U8} (hf : x.Fits j r) : x.back.st j (x.st j r) = r := by
  obtain ⟨ha, hb⟩ := hf
  have ea : x.back.a = x.a := rfl
  have eb : x.back.b = x.b := rfl
  have ed : x.back.d = x.d := by simp only [d, back]; cases x.pa <;> cases x.pb <;> rfl
  unfold st
  rw [ea, eb, ed]
  by_cases h1 : j = x.a
  · rw [if_pos h1, if_pos h1]
    have := ha h1
    cases r <;> simp only [DinerSt.hasPaid] at this <;> subst this <;> simp [back]
  · rw [if_neg h1, if_neg h1]
    by_cases h2 : j = x.b
    · rw [if_pos h2, if_pos h2]
      have := hb h2
      cases r <;> simp only [DinerSt.hasPaid] at this <;> subst this <;> simp [back]
    · rw [if_neg h2, if_neg h2]

theorem back_directs {j : U8} {k : Nat} {r : DinerSt} {m : BMap U8 (Part .direct × Unit)} (h : DiningInv k j r)
    (hm : ∀ l y, m.get? l = some y → ∃ rng, (dining R).wrap.makeDirect r rng l = .ok y) :
    x.back.directs j (x.st j r) (x.directs j r m) = m := by
  have ea : x.back.a = x.a := rfl
  have ed : x.back.d = x.d := by simp only [d, back]; cases x.pa <;> cases x.pb <;> rfl
  by_cases h1 : j = x.a
  · rcases h with ⟨rfl, t, p, rfl⟩ | ⟨rfl, t, n, p, rfl⟩
    · simp only [directs, st, ea, ed, if_pos h1]
      refine BMap.ext (fun l => ?_)
      cases hl : m.get? l with
      | none => simp [hl]
      | some y =>
        obtain ⟨rng, e⟩ := hm l y hl
        have : y = (tossPart t, ()) := (Except.ok.inj e).symm
        simp [hl, this]
    · simp only [directs, st, ea, if_pos h1]
  · simp only [directs, ea, if_neg h1]

theorem back_history {g : Group (dining R).wrap} {G : History (dining R).wrap} (hG : CellsOk DiningInv g G) (hf : x.AllFit G) :
    x.back.history (x.history G) = G := by
  funext j
  show ((G j).map (x.cell j)).map (x.back.cell j) = G j
  rw [List.map_map]
  refine (List.map_congr_left (g := id) (fun c hc => ?_)).trans (List.map_id _)
  obtain ⟨k, hk⟩ := List.mem_iff_getElem?.1 hc
  obtain ⟨-, h2, h3⟩ := hG j k c hk
  have e1 := back_st c.rd (hf j c hc)
  have e2 := back_directs (R := R) (x := x) h2 h3.direct
  cases c
  simp only [Function.comp, cell, id] at e1 e2 ⊢
  rw [e1, e2]

/-- Everything about the exchange. -/
theorem works {g : Group (dining R).wrap} (hg : DiningParty g) (hany : AnyCoins g) {G : History (dining R).wrap}
    (h : Honest g G) (hi : diners.contains x.i = true) (ha : Pays G x.a x.pa) (hb : Pays G x.b x.pb) :
    Honest g (x.history G) ∧ SameView x.i G (x.history G) ∧ Pays (x.history G) x.a x.pb ∧ Pays (x.history G) x.b x.pa ∧
      x.back.history (x.history G) = G := by
  have hfit : x.AllFit G := allFit (g := g) ha hb
  have hcells := (dining_roundInv hg).cells h
  refine ⟨honest hg hany hi h hfit, ⟨?_, ?_, ?_, ?_⟩, ?_, ?_, back_history hcells hfit⟩
  · show (G x.i).map (x.cell x.i) = G x.i
    rw [List.map_congr_left (g := id) (fun c _ => cell_i hi c), List.map_id]
  · intro j
    simp [history]
  · intro j k c c' hc hc'
    have := (history_get (x := x) G j k).symm.trans hc'
    rw [hc] at this
    cases this
    exact ⟨rfl, rfl⟩
  · intro j k c c' hc hc'
    have := (history_get (x := x) G j k).symm.trans hc'
    rw [hc] at this
    cases this
    obtain ⟨-, h2, h3⟩ := hcells j k c hc
    exact directs_to_i hi h2 h3
  · intro c' hc'
    obtain ⟨c, hc, rfl⟩ := List.mem_map.1 hc'
    exact paid_a c.rd
  · intro c' hc'
    obtain ⟨c, hc, rfl⟩ := List.mem_map.1 hc'
    exact paid_b hi c.rd

end Exchange

/-- **C94.**  No diner learns which of the others paid: whatever the diners have done so far, and whoever of the others paid, it is
also possible that the other two have exchanged who paid; the diner has then sent, received and computed the same, has seen
the same broadcasts, and everybody who has a result has the same one. -/
theorem C94_untraceable {g : Group (dining R).wrap} (hg : DiningParty g) (hany : AnyCoins g) {G : History (dining R).wrap}
    (h : Honest g G) {i : U8} (hi : diners.contains i = true) {pa pb : Bool} (ha : Pays G (dinerAt i 1) pa)
    (hb : Pays G (dinerAt i 2) pb) :
    ∃ G', Honest g G' ∧ SameView i G G' ∧ Pays G' (dinerAt i 1) pb ∧ Pays G' (dinerAt i 2) pa ∧
      ∀ (j : U8) (rng : R.Rng) (v : Bool × Bool × Bool), Finalizes (P := (dining R).wrap) G j rng (.result v) →
        Finalizes (P := (dining R).wrap) G' j rng (.result v) := by
  obtain ⟨h1, h2, h3, h4, -⟩ := Exchange.works (x := ⟨i, pa, pb⟩) hg hany h hi ha hb
  exact ⟨_, h1, h2, h3, h4, fun j rng v hv =>
    (Exchange.finalizes (x := ⟨i, pa, pb⟩) hi hg.parties ((dining_roundInv hg).cells h) (Exchange.allFit (x := ⟨i, pa, pb⟩) (g := g) ha hb)).2 v hv⟩

/-- **C94.**  The executions in which the diners on both sides of `i` pay as given, and those in which it is the other way round,
correspond one-to-one to each other, and diner `i` sees the same in both: there are equally many that go with what `i` sees. -/
theorem C94_one_to_one {g : Group (dining R).wrap} (hg : DiningParty g) (hany : AnyCoins g) {i : U8}
    (hi : diners.contains i = true) (pa pb : Bool) :
    ∃ f f' : History (dining R).wrap → History (dining R).wrap,
      (∀ G, Honest g G → Pays G (dinerAt i 1) pa → Pays G (dinerAt i 2) pb →
        Honest g (f G) ∧ SameView i G (f G) ∧ Pays (f G) (dinerAt i 1) pb ∧ Pays (f G) (dinerAt i 2) pa ∧ f' (f G) = G) ∧
      (∀ G, Honest g G → Pays G (dinerAt i 1) pb → Pays G (dinerAt i 2) pa →
        Honest g (f' G) ∧ SameView i G (f' G) ∧ Pays (f' G) (dinerAt i 1) pa ∧ Pays (f' G) (dinerAt i 2) pb ∧ f (f' G) = G) :=
  ⟨(⟨i, pa, pb⟩ : Exchange).history, (⟨i, pb, pa⟩ : Exchange).history,
    fun _ h ha hb => Exchange.works (x := ⟨i, pa, pb⟩) hg hany h hi ha hb,
    fun _ h ha hb => Exchange.works (x := ⟨i, pb, pa⟩) hg hany h hi ha hb⟩

/-- Who has paid does not change. -/
theorem pays_keeps {g : Group (dining R).wrap} (hg : DiningParty g) {G : History (dining R).wrap} (h : Honest g G)
    (j : (testParams R).Id) :
    (G j = [] ∨ ∃ rng r, (g.ep j).makeRound rng g.sid j = .ok r ∧ Pays G j (DinerSt.hasPaid r)) := by
  induction h with
  | nil => exact Or.inl rfl
  | @enter G l c hG hl he hm ih =>
    by_cases hjl : j = l
    · subst hjl
      right
      rcases he with ⟨h0, rng, h1⟩ | ⟨rng, k, c', ps, h1, h2, h3, h4⟩
      · refine ⟨rng, c.rd, h1, ?_⟩
        intro c' hc'
        rw [Function.update_self, h0] at hc'
        rw [List.mem_singleton.1 hc']
      · rcases ih with h0 | ⟨rng0, r0, e0, hp⟩
        · rw [h0] at h1
          simp at h1
        · refine ⟨rng0, r0, e0, ?_⟩
          intro c'' hc''
          rw [Function.update_self] at hc''
          rcases List.mem_append.1 hc'' with hc'' | hc''
          · exact hp c'' hc''
          · rw [List.mem_singleton.1 hc'']
            have hpaid := hp c' (List.mem_of_getElem? h2)
            obtain ⟨-, hci, -⟩ := (dining_roundInv hg).cells hG j k c' h2
            rcases hci with ⟨rfl, t, p, hr⟩ | ⟨rfl, t, n, p, hr⟩
            · rw [hr] at h4 hpaid
              obtain ⟨n, l, -, h'⟩ := dining_next1 h4
              rw [h']
              exact hpaid
            · rw [hr] at h4
              exact absurd h4 dining_next2
    · rcases ih with h0 | ⟨rng0, r0, e0, hp⟩
      · exact Or.inl (by rw [Function.update_of_ne hjl]; exact h0)
      · refine Or.inr ⟨rng0, r0, e0, ?_⟩
        intro c' hc'
        rw [Function.update_of_ne hjl] at hc'
        exact hp c' hc'

theorem pays_some {g : Group (dining R).wrap} (hg : DiningParty g) {G : History (dining R).wrap} (h : Honest g G)
    (j : (testParams R).Id) :
    ∃ p, Pays G j p := by
  rcases pays_keeps hg h j with h0 | ⟨-, r, -, hp⟩
  · exact ⟨false, fun c hc => by rw [h0] at hc; cases hc⟩
  · exact ⟨_, hp⟩

/-- **C94.**  The results in a network of diners using `run_session` go with executions that differ in which of the diners beside
`i` paid, and that are the same for `i`. -/
theorem C94_network {g : Group (dining R).wrap} (hg : DiningParty g) (hk : g.KeysMatch) (hany : AnyCoins g)
    {n : Net (dining R).wrap} (h : NetReach g n) {i : U8} (hi : diners.contains i = true) :
    ∃ (G G' : History (dining R).wrap) (pa pb : Bool), Honest g G ∧ Honest g G' ∧ SameView i G G' ∧
      (Pays G (dinerAt i 1) pa ∧ Pays G (dinerAt i 2) pb) ∧ (Pays G' (dinerAt i 1) pb ∧ Pays G' (dinerAt i 2) pa) ∧
      ∀ (j : U8) (rep : Report (dining R).wrap), n.node j = some (.done (.ok rep)) → ∃ (v : Bool × Bool × Bool) (rng : R.Rng),
        rep.outcome = .result v ∧ Finalizes (P := (dining R).wrap) G j rng (.result v) ∧
          Finalizes (P := (dining R).wrap) G' j rng (.result v) := by
  obtain ⟨G, hG, hres⟩ := C41_results (dining_ok hg hk) h
  obtain ⟨pa, ha⟩ := pays_some hg hG (dinerAt i 1)
  obtain ⟨pb, hb⟩ := pays_some hg hG (dinerAt i 2)
  obtain ⟨G', h1, h2, h3, h4, h5⟩ := C94_untraceable hg hany hG hi ha hb
  refine ⟨G, G', pa, pb, hG, h1, h2, ⟨ha, hb⟩, ⟨h3, h4⟩, ?_⟩
  intro j rep hn
  obtain ⟨-, v, rng, hv, hfin⟩ := hres j rep hn
  exact ⟨v, rng, hv, hfin, h5 j rng v hfin⟩

/-- **C94 (limit).**  With the entry point of the example it is known beforehand who pays, if anybody: only diner 0 does. -/
theorem C94_example {sid : Bytes} {G : History (dining R).wrap} (h : Honest (diningGroup R sid) G) {j : U8} (hj : j ≠ 0) :
    Pays G j false := by
  rcases pays_keeps (diningGroup_party R sid) h j with h0 | ⟨rng, r, e, hp⟩
  · exact fun c hc => by rw [h0] at hc; cases hc
  · have hr : dinerStart rng j = r := Except.ok.inj e
    unfold dinerStart at hr
    rw [if_neg hj] at hr
    rw [← hr] at hp
    exact hp

/-! ### Examples -/

/-- Diners who may all pay, with coins and payments drawn by a source of numbers. -/
def freeGroup (sid : Bytes) : Group (dining countingSource).wrap where
  parties := diners
  signer i := i
  ep _ := { entryRoundId := RoundId.new 1, makeRound := fun rng _ id => .ok (DinerSt.r1 id (coin rng 1) (coin rng 0)) }
  sid := sid

theorem freeGroup_party (sid : Bytes) : DiningParty (freeGroup sid) := ⟨rfl, fun _ _ _ => ⟨_, _, rfl⟩⟩

theorem freeGroup_any (sid : Bytes) : AnyCoins (freeGroup sid) := by
  intro i toss paid _
  refine ⟨(if paid then 0 else 1) + 2 * (if toss then 0 else 1 : Nat), ?_⟩
  cases toss <;> cases paid <;> rfl

/-- The hypotheses of `C94_network`, and with them those of the other theorems, can be met: one of the diners has paid, and everybody
knows that it was one of them. -/
example : DiningParty (freeGroup [9]) ∧ (freeGroup [9]).KeysMatch ∧ AnyCoins (freeGroup [9]) ∧
    ∃ n : Net (dining countingSource).wrap, NetReach (freeGroup [9]) n ∧ netResultOf n (0 : U8) = some (false, true, false) ∧
      netResultOf n (1 : U8) = some (false, true, false) ∧ netResultOf n (2 : U8) = some (false, false, true) := by
  refine ⟨freeGroup_party _, fun _ _ => rfl, freeGroup_any _,
    netRunWith (sp := testParams countingSource) (fun i : U8 => i) (fun i => (12 + i.val + i.val / 2 : Nat)) _
      ([.start 0, .start 1, .deliver 1, .deliver 0, .start 2] ++
        (List.replicate 5 [NetAct.deliver 2, .deliver 1, .deliver 0, .tick 0, .tick 1, .tick 2]).flatten) Net.init,
    netRunWith_reach _ _ _ .init, ?_⟩
  have h : ([0, 1, 2].map (fun i : U8 => netResultOf (netRunWith (sp := testParams countingSource) (fun i : U8 => i)
      (fun i => (12 + i.val + i.val / 2 : Nat)) (freeGroup [9])
    ([.start 0, .start 1, .deliver 1, .deliver 0, .start 2] ++
      (List.replicate 5 [NetAct.deliver 2, .deliver 1, .deliver 0, .tick 0, .tick 1, .tick 2]).flatten) Net.init) i) :
      List (Option (Bool × Bool × Bool))) =
        [some (false, true, false), some (false, true, false), some (false, false, true)] := by decide +kernel
  exact ⟨(List.cons.inj h).1, (List.cons.inj (List.cons.inj h).2).1, (List.cons.inj (List.cons.inj (List.cons.inj h).2).2).1⟩

theorem one_toss_contains (j : U8) : (BMap.ofList [((1 : U8), (Exchange.tossPart true, ()))]).contains j =
    BMap.contains (BSet.ofList [dinerAt 0 1] : BSet U8) j := by
  rw [BSet.contains_ofList]
  simp [BMap.ofList, BMap.contains_insert, show dinerAt 0 1 = 1 by decide]

theorem one_toss_get {j : U8} {y : Part .direct × Unit} (h : (BMap.ofList [((1 : U8), (Exchange.tossPart true, ()))]).get? j = some y) :
    y = (Exchange.tossPart true, ()) := by
  simp only [BMap.ofList, List.foldl] at h
  rw [BMap.get?_insert] at h
  split at h
  · exact (Option.some.inj h).symm
  · simp at h

/-- An execution in which the diner 1 sees the same, whichever of the others has paid. -/
example : ∃ G : History (dining countingSource).wrap, Honest (freeGroup [9]) G ∧ (G (0 : U8)).length = 1 ∧ Pays G (dinerAt 1 2) true ∧
    Pays G (dinerAt 1 1) false := by
  refine ⟨Function.update (fun _ => []) (0 : U8) ([] ++ [⟨DinerSt.r1 0 true true, Part.none, Part.none,
    BMap.ofList [((1 : U8), (Exchange.tossPart true, ()))]⟩]), .enter .nil rfl (Or.inl ⟨rfl, (0 : Nat), rfl⟩) ?_, rfl, ?_, ?_⟩
  · refine ⟨fun _ => ⟨rfl, rfl⟩, fun _ => ⟨(0 : Nat), rfl⟩, fun _ => ⟨(0 : Nat), rfl⟩, ?_, ?_⟩
    · exact one_toss_contains
    · intro j y hy
      exact ⟨(0 : Nat), congrArg Except.ok (one_toss_get hy).symm⟩
  · intro c hc
    change c ∈ [_] at hc
    rw [List.mem_singleton.1 hc]
    rfl
  · intro c hc
    change c ∈ [] at hc
    cases hc

end Manul
