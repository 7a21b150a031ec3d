import Verif.Lemmas.Extend
import Verif.Lemmas.Scheme
import Verif.Spec.Deviate

/-!
# Groups of parties using `ExtendableEntryPoint`
-/

namespace Manul

variable {sp : SP} {P : Proto sp} {Tag : Type} (tag : P.Rd → Tag)

/-- The round of a round. -/
def Cell.inner (c : Cell (extend P (fun r => some (tag r)))) : Cell P := ⟨c.rd.inner, c.echo, c.normal, c.directs⟩

/-- The rounds of the history. -/
def innerHistory (G : History (extend P (fun r => some (tag r)))) : History P := fun i => (G i).map (Cell.inner tag)

/-- There are no extensions. -/
def ExtRd.Plain (r : ExtRd P Tag) : Prop := r.ext = none ∧ r.exts = fun _ => none

theorem wrapRound_plain {r : P.Rd} {r' : ExtRd P Tag} (h : wrapRound (fun r => some (tag r)) (fun _ => none) r = .ok r') :
    r'.inner = r ∧ r'.Plain := by
  simp only [wrapRound, Except.ok.injEq] at h
  subst h
  exact ⟨rfl, rfl, rfl⟩

variable {tag}

theorem Cell.inner_made {c : Cell (extend P (fun r => some (tag r)))} (hp : c.rd.Plain) (h : c.Made) : (c.inner tag).Made := by
  obtain ⟨⟨inner, ext, exts⟩, echo, normal, directs⟩ := c
  obtain ⟨h1, h2⟩ := hp
  simp only at h1 h2
  subst h1 h2
  obtain ⟨h1, h2, h3, h4, h5⟩ := h
  exact ⟨h1, h2, h3, h4, h5⟩

theorem innerHistory_get {G : History (extend P (fun r => some (tag r)))} {i : sp.Id} {k : Nat} {c : Cell (extend P (fun r => some (tag r)))}
    (h : (G i)[k]? = some c) : (innerHistory tag G i)[k]? = some (c.inner tag) := by
  simp [innerHistory, h]

theorem innerHistory_get_inv {G : History (extend P (fun r => some (tag r)))} {i : sp.Id} {k : Nat} {c : Cell P}
    (h : (innerHistory tag G i)[k]? = some c) : ∃ c', (G i)[k]? = some c' ∧ c = c'.inner tag := by
  simp only [innerHistory, List.getElem?_map, Option.map_eq_some_iff] at h
  obtain ⟨c', h1, h2⟩ := h
  exact ⟨c', h1, h2.symm⟩

theorem PayloadsOf.inner {G : History (extend P (fun r => some (tag r)))} {i : sp.Id} {k : Nat} {ps : BMap sp.Id P.Payload}
    (h : PayloadsOf (P := extend P (fun r => some (tag r))) G i k ps) : PayloadsOf (innerHistory tag G) i k ps := by
  obtain ⟨⟨c, h1, h2⟩, h3⟩ := h
  refine ⟨⟨_, innerHistory_get h1, h2⟩, ?_⟩
  intro j v hv
  obtain ⟨ci, cj, p, art, k1, k2, k3, k4⟩ := h3 j v hv
  exact ⟨_, _, p, art, innerHistory_get k1, innerHistory_get k2, k3, k4⟩

/-- Every round of the history is without extensions. -/
def AllPlain (G : History (extend P (fun r => some (tag r)))) : Prop := ∀ i c, c ∈ G i → c.rd.Plain

theorem finalize_plain {r : ExtRd P Tag} (hp : r.Plain) (rng : sp.Rng) (ps : BMap sp.Id P.Payload) (as : BMap sp.Id P.Artifact) :
    (extend P (fun r => some (tag r))).finalize r rng ps as =
      match P.finalize r.inner rng ps as with
      | .error e => .error e
      | .ok o => wrapOutcome (fun r => some (tag r)) (fun _ => none) o := by
  obtain ⟨inner, ext, exts⟩ := r
  obtain ⟨h1, h2⟩ := hp
  simp only at h1 h2
  subst h1 h2
  rfl

theorem finalize_plain_next {r r' : ExtRd P Tag} (hp : r.Plain) {rng : sp.Rng} {ps : BMap sp.Id P.Payload}
    {as : BMap sp.Id P.Artifact} (h : (extend P (fun r => some (tag r))).finalize r rng ps as = .ok (.anotherRound r')) :
    P.finalize r.inner rng ps as = .ok (.anotherRound r'.inner) ∧ r'.Plain := by
  have h' := (finalize_plain (tag := tag) hp rng ps as).symm.trans h
  cases hf : P.finalize r.inner rng ps as with
  | error e => rw [hf] at h'; cases h'
  | ok o =>
    rw [hf] at h'
    cases o with
    | result v => cases h'
    | anotherRound r0 =>
      cases h'
      exact ⟨rfl, rfl, rfl⟩

theorem Entering.inner {g : Group P} {G : History (extend P (fun r => some (tag r)))} (hG : AllPlain G) {i : sp.Id} {r : ExtRd P Tag}
    (h : Entering (P := extend P (fun r => some (tag r))) (g.extended tag (fun _ _ => none)) G i r) :
    Entering g (innerHistory tag G) i r.inner ∧ r.Plain := by
  rcases h with ⟨h1, rng, h2⟩ | ⟨rng, k, c, ps, h1, h2, h3, h4⟩
  · simp only [Group.extended, extendEntry] at h2
    cases hm : (g.ep i).makeRound rng g.sid i with
    | error e => rw [hm] at h2; cases h2
    | ok r0 =>
      rw [hm] at h2
      obtain ⟨h5, h6⟩ := wrapRound_plain tag h2
      exact ⟨Or.inl ⟨by simp [innerHistory, h1], rng, by rw [hm, h5]⟩, h6⟩
  · have hp := hG i c (List.mem_of_getElem? h2)
    obtain ⟨h5, h6⟩ := finalize_plain_next (tag := tag) hp h4
    exact ⟨Or.inr ⟨rng, k, c.inner tag, ps, by simp [innerHistory, h1], innerHistory_get h2, h3.inner, h5⟩, h6⟩

theorem Honest.inner {g : Group P} {G : History (extend P (fun r => some (tag r)))}
    (h : Honest (g.extended tag (fun _ _ => none)) G) : Honest g (innerHistory tag G) ∧ AllPlain G := by
  induction h with
  | nil => exact ⟨.nil, fun i c h => by cases h⟩
  | enter hG hi he hm ih =>
    rename_i G i c
    obtain ⟨ih1, ih2⟩ := ih
    obtain ⟨h1, h2⟩ := he.inner ih2
    refine ⟨?_, ?_⟩
    · have : innerHistory tag (Function.update G i (G i ++ [c])) =
          Function.update (innerHistory tag G) i (innerHistory tag G i ++ [c.inner tag]) := by
        funext j
        by_cases hj : j = i
        · subst hj; simp [innerHistory]
        · simp [innerHistory, hj]
      rw [this]
      exact .enter ih1 hi h1 (Cell.inner_made h2 hm)
    · intro j c' hc'
      by_cases hj : j = i
      · subst hj
        rw [Function.update_self, List.mem_append, List.mem_singleton] at hc'
        rcases hc' with hc' | rfl
        · exact ih2 _ _ hc'
        · exact h2
      · rw [Function.update_of_ne hj] at hc'
        exact ih2 _ _ hc'

theorem Scheme.Ok.extended {sc : Scheme P} (ok : sc.Ok) (tag : P.Rd → Tag) : (sc.extended tag).Ok where
  env := ok.env
  sign := ok.sign
  srt := ok.srt
  ert := ok.ert
  keys := ok.keys
  coop := by
    have hlen : ∀ (G : History (extend P (fun r => some (tag r)))) i, (innerHistory tag G i).length = (G i).length := by
      intro G i; simp [innerHistory]
    have key : ∀ (G : History (extend P (fun r => some (tag r)))) i r, Honest (sc.extended tag).g G →
        Entering (sc.extended tag).g G i r → Honest sc.g (innerHistory tag G) ∧ Entering sc.g (innerHistory tag G) i r.inner ∧
          ExtRd.Plain r := by
      intro G i r hG he
      obtain ⟨h1, h2⟩ := Honest.inner hG
      obtain ⟨h3, h4⟩ := Entering.inner h2 he
      exact ⟨h1, h3, h4⟩
    exact {
      stages := ok.coop.stages
      ids := ok.coop.ids
      notEcho := ok.coop.notEcho
      pattern := ⟨⟨ok.coop.pattern.matched, ok.coop.pattern.dests, ok.coop.pattern.expects, ok.coop.pattern.echoStage,
        ok.coop.pattern.peers, ok.coop.pattern.compared⟩, ok.coop.pattern.windowEcho, ok.coop.pattern.windowNext⟩
      start := by
        intro i hi rng
        obtain ⟨r, hr⟩ := ok.coop.start i hi rng
        refine ⟨⟨r, none, fun _ => none⟩, ?_⟩
        simp only [Scheme.extended, Group.extended, extendEntry]
        rw [hr]
        rfl
      id := by
        intro G i r hG hi he
        obtain ⟨h1, h2, -⟩ := key G i r hG he
        have := ok.coop.id _ i _ h1 hi h2
        rw [hlen] at this
        exact this
      child := by
        intro G i r hG hi he hn
        obtain ⟨h1, h2, -⟩ := key G i r hG he
        have := ok.coop.child _ i _ h1 hi h2 (by rw [hlen]; exact hn)
        rw [hlen] at this
        exact this
      comm := by
        intro G i r hG hi he
        obtain ⟨h1, h2, -⟩ := key G i r hG he
        have := ok.coop.comm _ i _ h1 hi h2
        rw [hlen] at this
        exact this
      makeEcho := by
        intro G i r hG hi he hd rng
        obtain ⟨h1, h2, h3, -⟩ := key G i r hG he
        obtain ⟨p, h4, h5⟩ := ok.coop.makeEcho _ i _ h1 hi h2 (by rw [hlen]; exact hd) rng
        refine ⟨p, ?_, by rw [hlen] at h5; exact h5⟩
        rw [← h4]
        simp only [extend, h3]
      makeNormal := by
        intro G i r hG hi he hd rng
        obtain ⟨h1, h2, h3, -⟩ := key G i r hG he
        obtain ⟨p, h4⟩ := ok.coop.makeNormal _ i _ h1 hi h2 (by rw [hlen]; exact hd) rng
        refine ⟨p, ?_⟩
        rw [← h4]
        simp only [extend, h3]
      makeDirect := by
        intro G i r hG hi he j hj rng
        obtain ⟨h1, h2, h3, -⟩ := key G i r hG he
        obtain ⟨p, h4⟩ := ok.coop.makeDirect _ i _ h1 hi h2 j (by rw [hlen]; exact hj) rng
        refine ⟨p, Eq.trans ?_ h4⟩
        simp only [extend, h3]
      receive := by
        intro G i j k ci cj p art hG hx hi h1 h2 h3
        obtain ⟨h4, -⟩ := Honest.inner hG
        exact ok.coop.receive _ i j k _ _ p art h4 hx hi (innerHistory_get h1) (innerHistory_get h2) h3
      finalize := by
        intro G i k c ps hG hi hk hc hp rng
        obtain ⟨h1, h2⟩ := Honest.inner hG
        obtain ⟨o, h3, h4⟩ := ok.coop.finalize _ i k _ ps h1 hi (by rw [hlen]; exact hk) (innerHistory_get hc) hp.inner rng
        have hpl := h2 i c (List.mem_of_getElem? hc)
        have hfin := finalize_plain (tag := tag) hpl rng ps (c.directs.mapVal (fun _ x => x.2))
        have h3' : P.finalize c.rd.inner rng ps (c.directs.mapVal (fun _ x => x.2)) = .ok o := h3
        rw [h3'] at hfin
        split at h4
        · rename_i hn
          obtain ⟨r, rfl⟩ := h4
          refine ⟨_, hfin, ?_⟩
          have hn' : k + 1 < (sc.extended tag).n := hn
          simp only [hn', if_true]
          exact ⟨_, rfl⟩
        · rename_i hn
          obtain ⟨v, rfl⟩ := h4
          refine ⟨_, hfin, ?_⟩
          have hn' : ¬ k + 1 < (sc.extended tag).n := hn
          simp only [hn', if_false]
          exact ⟨_, rfl⟩ }

end Manul
