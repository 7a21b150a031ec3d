import Verif.Lemmas.SchemeInv

/-!
# Plans are schemes in which everybody takes part in the same way
-/

namespace Manul

variable {sp : SP} {P : Proto sp} {pl : Plan P}

theorem Plan.scheme_runsEcho {k : Nat} {i : sp.Id} (h : pl.scheme.runsEcho k i = true) : pl.echoAt k = true := by
  simp only [Scheme.runsEcho, Plan.scheme, Bool.and_eq_true] at h
  exact h.1

theorem Cooperative.scheme_pattern (c : Cooperative pl) : pl.scheme.Pattern := by
  have hruns : ∀ {k i}, k < pl.n → pl.g.parties.contains i = true → pl.echoAt k = true → pl.scheme.runsEcho k i = true := by
    intro k i hk hi he
    have := c.company k i hk he hi
    rw [← c.pattern.echoDests k i hk he hi] at this
    simp [Scheme.runsEcho, Plan.scheme, he, this]
  refine ⟨⟨c.pattern.matched, c.pattern.dests, c.pattern.expects, ?_, ?_, ?_⟩, ?_, ?_⟩
  · intro k i _ _ h
    exact Plan.scheme_runsEcho h
  · intro k i j hk hi hr hj
    have he := Plan.scheme_runsEcho hr
    simp only [Scheme.peers, Plan.scheme] at hj
    have ho := c.pattern.dests k i j hk hi hj
    obtain ⟨h1, h2⟩ := Plan.others_contains.1 ho
    refine ⟨ho, hruns hk h2 he, ?_⟩
    simp only [Scheme.peers, Plan.scheme]
    rw [c.pattern.echoDests k j hk he h2]
    exact Plan.others_contains.2 ⟨h1.symm, hi⟩
  · intro k i j hk hi hr hj x
    have he := Plan.scheme_runsEcho hr
    simp only [Scheme.peers, Plan.scheme] at hj
    obtain ⟨h1, h2⟩ := Plan.others_contains.1 (c.pattern.dests k i j hk hi hj)
    simp only [Scheme.compares, Plan.scheme]
    rw [c.pattern.echoExpects k j hk he h2, c.pattern.echoExpects k i hk he hi, Bool.eq_iff_iff, Plan.others_contains]
    simp only [Bool.and_eq_true, Bool.or_eq_true, decide_eq_true_eq, Plan.others_contains, Bool.not_eq_true',
      decide_eq_false_iff_not]
    constructor
    · rintro ⟨g1, g2⟩
      refine ⟨?_, g1⟩
      by_cases hx : x = i
      · exact Or.inl hx
      · exact Or.inr ⟨hx, g2⟩
    · rintro ⟨rfl | ⟨-, g2⟩, g1⟩
      · exact ⟨g1, hi⟩
      · exact ⟨g1, g2⟩
  · intro k i j _ hk hi hr hj
    have he := Plan.scheme_runsEcho hr
    simp only [Scheme.peers, Plan.scheme] at hj ⊢
    rw [c.pattern.echoExpects k i hk he hi, ← c.pattern.echoDests k i hk he hi]
    exact hj
  · intro k i j hk hi hj
    have hk' : k < pl.n := by
      have : k + 1 < pl.n := hk
      omega
    have ho := c.pattern.dests (k + 1) i j hk hi hj
    split
    · rename_i hr
      have he := Plan.scheme_runsEcho hr
      refine ⟨hruns hk' hi he, ?_⟩
      simp only [Scheme.peers, Plan.scheme]
      rw [c.pattern.echoDests k i hk' he hi]
      exact ho
    · intro h0
      exact c.pattern.window k i j h0 hk hi hj

theorem Cooperative.scheme (c : Cooperative pl) : pl.scheme.Cooperative :=
  ⟨c.stages, c.ids, c.notEcho, c.scheme_pattern, c.start, c.id, c.child, c.comm, c.makeEcho, c.makeNormal, c.makeDirect,
    c.receive, c.finalize⟩

theorem Plan.Ok.scheme (ok : pl.Ok) : pl.scheme.Ok :=
  ⟨ok.env, ok.sc, ok.srt, ok.ert, ok.keys, ok.coop.scheme⟩

end Manul
