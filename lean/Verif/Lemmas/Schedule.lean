import Verif.Spec.Schedule
import Verif.Lemmas.ChainNet

/-! # Honest executions of protocols that use no random numbers -/

namespace Manul

variable {sp : SP} {P : Proto sp} {g : Group P}

/-- How a party came to its stage. -/
theorem Honest.cell {G : History P} (hG : Honest g G) {i : sp.Id} {k : Nat} {c : Cell P} (h : (G i)[k]? = some c) :
    c.Made ∧ ((k = 0 ∧ ∃ rng, (g.ep i).makeRound rng g.sid i = .ok c.rd) ∨
      ∃ k' d ps rng, k = k' + 1 ∧ (G i)[k']? = some d ∧ PayloadsOf G i k' ps ∧
        P.finalize d.rd rng ps (d.directs.mapVal (fun _ x => x.2)) = .ok (.anotherRound c.rd)) := by
  induction hG with
  | nil => simp at h
  | @enter G j e hG hj he hm ih =>
    have hext := G.ext_snoc j e
    have lift : (G i)[k]? = some c → _ := fun h' => ih h'
    by_cases hij : i = j
    · subst hij
      rw [Function.update_self] at h
      by_cases hk : k < (G i).length
      · rw [List.getElem?_append_left hk] at h
        obtain ⟨h1, h2⟩ := ih h
        refine ⟨h1, ?_⟩
        rcases h2 with h2 | ⟨k', d, ps, rng, h3, h4, h5, h6⟩
        · exact Or.inl h2
        · exact Or.inr ⟨k', d, ps, rng, h3, hext _ _ _ h4, h5.ext hext, h6⟩
      · have hk2 : k = (G i).length := by
          have := (List.getElem?_eq_some_iff.1 h).1
          simp at this
          omega
        subst hk2
        simp at h
        subst h
        refine ⟨hm, ?_⟩
        rcases he with ⟨h1, h2⟩ | ⟨rng, k', d, ps, h1, h2, h3, h4⟩
        · exact Or.inl ⟨by rw [h1]; rfl, h2⟩
        · exact Or.inr ⟨k', d, ps, rng, h1, hext _ _ _ h2, h3.ext hext, h4⟩
    · rw [Function.update_of_ne hij] at h
      obtain ⟨h1, h2⟩ := ih h
      refine ⟨h1, ?_⟩
      rcases h2 with h2 | ⟨k', d, ps, rng, h3, h4, h5, h6⟩
      · exact Or.inl h2
      · exact Or.inr ⟨k', d, ps, rng, h3, hext _ _ _ h4, h5.ext hext, h6⟩

/-- What has been done in a stage, if it has been done in both executions, is the same. -/
def SameAt (G G' : History P) (k : Nat) : Prop :=
  ∀ i c c', (G i)[k]? = some c → (G' i)[k]? = some c' → c = c'

theorem PayloadsOf.same {G G' : History P} {k : Nat} (hs : SameAt G G' k) {i : sp.Id} {ps ps' : BMap sp.Id P.Payload}
    (h : PayloadsOf G i k ps) (h' : PayloadsOf G' i k ps') : ps = ps' := by
  obtain ⟨c, h1, h2⟩ := h.keys
  obtain ⟨c', h1', h2'⟩ := h'.keys
  have := hs i c c' h1 h1'
  subst this
  apply BMap.ext
  intro j
  cases hj : ps.get? j with
  | none =>
    have := h2 j
    rw [BMap.contains_eq_false.2 hj, ← h2' j] at this
    exact (BMap.contains_eq_false.1 this.symm).symm
  | some v =>
    have hc : ps'.contains j = true := by rw [h2' j, ← h2 j]; exact BMap.contains_iff.2 ⟨v, hj⟩
    obtain ⟨v', hv'⟩ := BMap.contains_iff.1 hc
    obtain ⟨ci, cj, p, art, e1, e2, e3, e4⟩ := h.value j v hj
    obtain ⟨ci', cj', p', art', e1', e2', e3', e4'⟩ := h'.value j v' hv'
    have a1 := hs _ _ _ e1 e1'
    have a2 := hs _ _ _ e2 e2'
    subst a1 a2
    rw [e3] at e3'
    cases e3'
    rw [e4] at e4'
    cases e4'
    rw [hv']

/-- Messages are determined by the round object. -/
theorem Cell.Made.same (det : g.Deterministic) {c c' : Cell P} (h : c.Made) (h' : c'.Made) (hr : c.rd = c'.rd) : c = c' := by
  obtain ⟨r, e, n, d⟩ := c
  obtain ⟨r', e', n', d'⟩ := c'
  simp only at hr
  subst hr
  have hd : d = d' := by
    apply BMap.ext
    intro j
    cases hj : d.get? j with
    | none =>
      have h1 := h.dests j
      rw [show BMap.contains d j = false from BMap.contains_eq_false.2 hj, ← h'.dests j] at h1
      exact (BMap.contains_eq_false.1 h1.symm).symm
    | some x =>
      have hc : d'.contains j = true := by
        have h1 := h.dests j
        have h2 := h'.dests j
        simp only at h1 h2
        rw [h2, ← h1]
        exact BMap.contains_iff.2 ⟨x, hj⟩
      obtain ⟨x', hx'⟩ := BMap.contains_iff.1 hc
      obtain ⟨rng, e1⟩ := h.direct j x hj
      obtain ⟨rng', e2⟩ := h'.direct j x' hx'
      simp only at e1 e2
      rw [det.direct _ rng rng', e2] at e1
      cases e1
      exact hx'.symm
  have he : e = e' ∧ n = n' := by
    cases hempty : (P.comm r).destinations.isEmpty with
    | true =>
      obtain ⟨a1, a2⟩ := h.alone hempty
      obtain ⟨b1, b2⟩ := h'.alone hempty
      simp only at a1 a2 b1 b2
      exact ⟨a1.trans b1.symm, a2.trans b2.symm⟩
    | false =>
      obtain ⟨r1, a1⟩ := h.echo hempty
      obtain ⟨r2, a2⟩ := h'.echo hempty
      obtain ⟨r3, b1⟩ := h.normal hempty
      obtain ⟨r4, b2⟩ := h'.normal hempty
      simp only at a1 a2 b1 b2
      rw [det.echo _ r1 r2, a2] at a1
      rw [det.normal _ r3 r4, b2] at b1
      exact ⟨(Except.ok.inj a1).symm, (Except.ok.inj b1).symm⟩
  obtain ⟨rfl, rfl⟩ := he
  subst hd
  rfl

/-- Executions differ only in how far the parties have come. -/
theorem Honest.same (det : g.Deterministic) {G G' : History P} (hG : Honest g G) (hG' : Honest g G') (k : Nat) :
    SameAt G G' k := by
  induction k with
  | zero =>
    intro i c c' h h'
    obtain ⟨hm, hc⟩ := hG.cell h
    obtain ⟨hm', hc'⟩ := hG'.cell h'
    refine hm.same det hm' ?_
    rcases hc with ⟨-, rng, hr⟩ | ⟨_, _, _, _, hk, -⟩
    · rcases hc' with ⟨-, rng', hr'⟩ | ⟨_, _, _, _, hk, -⟩
      · rw [det.start i rng rng', hr'] at hr
        exact (Except.ok.inj hr).symm
      · omega
    · omega
  | succ k ih =>
    intro i c c' h h'
    obtain ⟨hm, hc⟩ := hG.cell h
    obtain ⟨hm', hc'⟩ := hG'.cell h'
    refine hm.same det hm' ?_
    rcases hc with ⟨hk, -⟩ | ⟨k1, d, ps, rng, hk, h1, h2, h3⟩
    · omega
    · rcases hc' with ⟨hk', -⟩ | ⟨k1', d', ps', rng', hk', h1', h2', h3'⟩
      · omega
      · obtain rfl : k = k1 := by omega
        obtain rfl : k = k1' := by omega
        have := ih i d d' h1 h1'
        subst this
        have := h2.same ih h2'
        subst this
        rw [det.finalize _ rng rng', h3'] at h3
        exact (Outcome.anotherRound.inj (Except.ok.inj h3)).symm

theorem Finalizes.same (det : g.Deterministic) {G G' : History P} (hG : Honest g G) (hG' : Honest g G') {i : sp.Id}
    (hl : (G i).length = (G' i).length) {rng rng' : sp.Rng} {o o' : Outcome P.Rd P.Result} (h : Finalizes G i rng o)
    (h' : Finalizes G' i rng' o') : o = o' := by
  obtain ⟨k, c, ps, h1, h2, h3, h4⟩ := h
  obtain ⟨k', c', ps', h1', h2', h3', h4'⟩ := h'
  obtain rfl : k = k' := by omega
  have hs := hG.same det hG' k
  have := hs i c c' h2 h2'
  subst this
  have := h3.same hs h3'
  subst this
  rw [det.finalize _ rng rng', h4'] at h4
  exact (Except.ok.inj h4).symm

end Manul
