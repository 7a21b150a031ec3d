import Verif.Spec.ChainNet
import Verif.Lemmas.Chain
import Verif.Lemmas.Cooperative
import Verif.Props.RoundIds

/-! # Chained protocols over the network -/

namespace Manul

section general

variable {sp : SP} {P : Proto sp}

/-- Everything in the one history is in the other one. -/
def History.Ext (G G' : History P) : Prop := ∀ i (k : Nat) c, (G i)[k]? = some c → (G' i)[k]? = some c

theorem History.ext_snoc (G : History P) (i : sp.Id) (c : Cell P) : History.Ext G (Function.update G i (G i ++ [c])) := by
  intro j k d h
  by_cases hj : j = i
  · subst hj
    rw [Function.update_self, List.getElem?_append_left (List.getElem?_eq_some_iff.1 h).1]
    exact h
  · rw [Function.update_of_ne hj]
    exact h

theorem PayloadsOf.ext {G G' : History P} (hG : History.Ext G G') {i : sp.Id} {k : Nat} {ps : BMap sp.Id P.Payload}
    (h : PayloadsOf G i k ps) : PayloadsOf G' i k ps := by
  refine ⟨?_, ?_⟩
  · obtain ⟨c, h1, h2⟩ := h.keys
    exact ⟨c, hG _ _ _ h1, h2⟩
  · intro j v hv
    obtain ⟨ci, cj, p, art, h1, h2, h3, h4⟩ := h.value j v hv
    exact ⟨ci, cj, p, art, hG _ _ _ h1, hG _ _ _ h2, h3, h4⟩

theorem Finalizes.ext {G G' : History P} (hG : History.Ext G G') {i : sp.Id} (hi : G' i = G i) {rng : sp.Rng}
    {o : Outcome P.Rd P.Result} (h : Finalizes G i rng o) : Finalizes G' i rng o := by
  obtain ⟨k, c, ps, h1, h2, h3, h4⟩ := h
  exact ⟨k, c, ps, by rw [hi]; exact h1, by rw [hi]; exact h2, h3.ext hG, h4⟩

theorem Cooperative.next {pl : Plan P} (coop : Cooperative pl) {G : History P} (hG : Honest pl.g G) {i : sp.Id}
    (hi : pl.g.parties.contains i = true) {k : Nat} {c : Cell P} {ps : BMap sp.Id P.Payload} (h1 : (G i).length = k + 1)
    (h2 : (G i)[k]? = some c) (h3 : PayloadsOf G i k ps) {rng : sp.Rng} {r : P.Rd}
    (h4 : P.finalize c.rd rng ps (c.directs.mapVal (fun _ x => x.2)) = .ok (.anotherRound r)) : k + 1 < pl.n := by
  obtain ⟨o, ho, hc⟩ := coop.finalize G i k c ps hG hi h1 h2 h3 rng
  rw [h4] at ho
  by_contra hk
  rw [if_neg hk] at hc
  obtain ⟨res, rfl⟩ := hc
  simp at ho

theorem Cooperative.last {pl : Plan P} (coop : Cooperative pl) {G : History P} (hG : Honest pl.g G) {i : sp.Id}
    (hi : pl.g.parties.contains i = true) {k : Nat} {c : Cell P} {ps : BMap sp.Id P.Payload} (h1 : (G i).length = k + 1)
    (h2 : (G i)[k]? = some c) (h3 : PayloadsOf G i k ps) {rng : sp.Rng} {res : P.Result}
    (h4 : P.finalize c.rd rng ps (c.directs.mapVal (fun _ x => x.2)) = .ok (.result res)) : ¬ k + 1 < pl.n := by
  obtain ⟨o, ho, hc⟩ := coop.finalize G i k c ps hG hi h1 h2 h3 rng
  rw [h4] at ho
  intro hk
  rw [if_pos hk] at hc
  obtain ⟨r, rfl⟩ := hc
  simp at ho

theorem Cooperative.room {pl : Plan P} (coop : Cooperative pl) {G : History P} (hG : Honest pl.g G) {i : sp.Id}
    (hi : pl.g.parties.contains i = true) {r : P.Rd} (he : Entering pl.g G i r) : (G i).length < pl.n := by
  rcases he with ⟨h, -⟩ | ⟨rng, k, c, ps, h1, h2, h3, h4⟩
  · rw [h]
    exact coop.stages
  · rw [h1]
    exact coop.next hG hi h1 h2 h3 h4

theorem Cooperative.length_le {pl : Plan P} (coop : Cooperative pl) {G : History P} (hG : Honest pl.g G) (i : sp.Id) :
    (G i).length ≤ pl.n := by
  induction hG with
  | nil => simp
  | @enter G j c hG hj he hm ih =>
    by_cases hi : i = j
    · subst hi
      rw [Function.update_self, List.length_append]
      exact coop.room hG hj he
    · rw [Function.update_of_ne hi]
      exact ih

theorem Honest.party {g : Group P} {G : History P} (hG : Honest g G) {i : sp.Id} (h : G i ≠ []) :
    g.parties.contains i = true := by
  induction hG with
  | nil => simp at h
  | @enter G j c hG hj he hm ih =>
    by_cases hi : i = j
    · subst hi; exact hj
    · rw [Function.update_of_ne hi] at h
      exact ih h

theorem BMap.image {K A S : Type} [LinearOrder K] {inj : A → S} {m : BMap K S}
    (h : ∀ x w, m.get? x = some w → ∃ v, w = inj v) : ∃ m' : BMap K A, m = m'.mapVal (fun _ v => inj v) := by
  have key : ∀ l : List (K × S), (∀ e ∈ l, ∃ v, e.2 = inj v) → ∃ l' : List (K × A), l = l'.map (fun e => (e.1, inj e.2)) := by
    intro l
    induction l with
    | nil => exact fun _ => ⟨[], rfl⟩
    | cons e l ih =>
      intro hl
      obtain ⟨l', hl'⟩ := ih (fun x hx => hl x (List.mem_cons_of_mem _ hx))
      obtain ⟨v, hv⟩ := hl e (List.mem_cons_self ..)
      refine ⟨(e.1, v) :: l', ?_⟩
      rw [List.map_cons, ← hl', ← hv]
  obtain ⟨l', hl'⟩ := key m.toList (fun e he => h e.1 e.2 (BMap.mem_toList'.1 he))
  obtain ⟨l, hs⟩ := m
  simp only at hl'
  subst hl'
  exact ⟨⟨l', by rw [List.pairwise_map] at hs; exact hs⟩, rfl⟩

theorem BMap.mapVal_inj {K A S : Type} [LinearOrder K] {inj : A → S} (hinj : Function.Injective inj) {m m' : BMap K A}
    (h : m.mapVal (fun _ v => inj v) = m'.mapVal (fun _ v => inj v)) : m = m' := by
  apply BMap.ext
  intro k
  have := congrArg (fun x => x.get? k) h
  simp only [BMap.get?_mapVal] at this
  exact Option.map_injective hinj this

theorem BMap.mapVal_mapVal {K A B C : Type} [LinearOrder K] (m : BMap K A) (f : K → A → B) (g : K → B → C) :
    (m.mapVal f).mapVal g = m.mapVal (fun k a => g k (f k a)) := by
  apply BMap.ext
  intro k
  simp [Function.comp_def]

end general

namespace ChainPlan

variable {sp : SP} {P1 P2 : Proto sp} {J : ChainJoin P1 P2} {c : ChainPlan J}

/-- A stage of the first protocol as a stage of the chained one. -/
def emb1 (c : ChainPlan J) (i : sp.Id) (x : Cell P1) : Cell (chain P1 P2 J) :=
  ⟨.one i x.rd c.pl1.g.sid (c.data i), x.echo, x.normal, x.directs.mapVal (fun _ y => (y.1, .inl y.2))⟩

/-- A stage of the second protocol as a stage of the chained one. -/
def emb2 (x : Cell P2) : Cell (chain P1 P2 J) :=
  ⟨.two x.rd, x.echo, x.normal, x.directs.mapVal (fun _ y => (y.1, .inr y.2))⟩

theorem made1 {i : sp.Id} {x : Cell (chain P1 P2 J)} {r : P1.Rd} (hx : x.Made)
    (hr : x.rd = .one i r c.pl1.g.sid (c.data i)) : ∃ y, x = c.emb1 i y ∧ y.Made ∧ y.rd = r := by
  obtain ⟨m, hm⟩ := BMap.image (inj := fun y : Part .direct × P1.Artifact => ((y.1, .inl y.2) : Part .direct × (P1.Artifact ⊕ P2.Artifact)))
    (m := x.directs) (by
      intro j w hw
      obtain ⟨rng, h⟩ := hx.direct j w hw
      rw [hr] at h
      simp only [chain] at h
      split at h
      · simp at h
      · simp only [Except.ok.injEq] at h
        exact ⟨(_, _), h.symm⟩)
  refine ⟨⟨r, x.echo, x.normal, m⟩, ?_, ?_, rfl⟩
  · obtain ⟨a, b, d, e⟩ := x
    simp only at hr hm
    subst hr hm
    rfl
  · have hc : (chain P1 P2 J).comm x.rd = P1.comm r := by rw [hr]; rfl
    refine ⟨?_, ?_, ?_, ?_, ?_⟩
    · have := hx.alone
      rw [hc] at this
      exact this
    · have := hx.echo
      rw [hc, hr] at this
      exact this
    · have := hx.normal
      rw [hc, hr] at this
      exact this
    · intro j
      have := hx.dests j
      rw [hc, hm] at this
      exact (BMap.contains_mapVal m _ j).symm.trans this
    · intro j y hy
      obtain ⟨rng, h⟩ := hx.direct j (y.1, .inl y.2) (by
        rw [hm]
        exact (BMap.get?_mapVal m _ j).trans (by rw [show m.get? j = some y from hy]; rfl))
      rw [hr] at h
      simp only [chain] at h
      split at h
      · simp at h
      · rename_i p a hd
        simp only [Except.ok.injEq, Prod.mk.injEq, Sum.inl.injEq] at h
        exact ⟨rng, by rw [hd, h.1, h.2]⟩

theorem made2 {x : Cell (chain P1 P2 J)} {r : P2.Rd} (hx : x.Made) (hr : x.rd = .two r) :
    ∃ y, x = emb2 (J := J) y ∧ y.Made ∧ y.rd = r := by
  obtain ⟨m, hm⟩ := BMap.image (inj := fun y : Part .direct × P2.Artifact => ((y.1, .inr y.2) : Part .direct × (P1.Artifact ⊕ P2.Artifact)))
    (m := x.directs) (by
      intro j w hw
      obtain ⟨rng, h⟩ := hx.direct j w hw
      rw [hr] at h
      simp only [chain] at h
      split at h
      · simp at h
      · simp only [Except.ok.injEq] at h
        exact ⟨(_, _), h.symm⟩)
  refine ⟨⟨r, x.echo, x.normal, m⟩, ?_, ?_, rfl⟩
  · obtain ⟨a, b, d, e⟩ := x
    simp only at hr hm
    subst hr hm
    rfl
  · have hc : (chain P1 P2 J).comm x.rd = P2.comm r := by rw [hr]; rfl
    refine ⟨?_, ?_, ?_, ?_, ?_⟩
    · have := hx.alone
      rw [hc] at this
      exact this
    · have := hx.echo
      rw [hc, hr] at this
      exact this
    · have := hx.normal
      rw [hc, hr] at this
      exact this
    · intro j
      have := hx.dests j
      rw [hc, hm] at this
      exact (BMap.contains_mapVal m _ j).symm.trans this
    · intro j y hy
      obtain ⟨rng, h⟩ := hx.direct j (y.1, .inr y.2) (by
        rw [hm]
        exact (BMap.get?_mapVal m _ j).trans (by rw [show m.get? j = some y from hy]; rfl))
      rw [hr] at h
      simp only [chain] at h
      split at h
      · simp at h
      · rename_i p a hd
        simp only [Except.ok.injEq, Prod.mk.injEq, Sum.inr.injEq] at h
        exact ⟨rng, by rw [hd, h.1, h.2]⟩

/-- The history of the chained protocol consists of histories of the two protocols. -/
structure Splits (c : ChainPlan J) (H : History (chain P1 P2 J)) (G1 : History P1) (G2 : History P2)
    (res : sp.Id → P1.Result) : Prop where
  cells : ∀ i, H i = (G1 i).map (c.emb1 i) ++ (G2 i).map emb2
  first : Honest c.pl1.g G1
  done : c.Obtained G1 (fun i => G2 i ≠ []) res
  second : ∀ res', (∀ i, G2 i ≠ [] → res' i = res i) → Honest (c.group2 res') G2

namespace Splits

variable {H : History (chain P1 P2 J)} {G1 : History P1} {G2 : History P2} {res : sp.Id → P1.Result}

theorem get1 (h : c.Splits H G1 G2 res) {i : sp.Id} {k : Nat} {x : Cell P1} (hx : (G1 i)[k]? = some x) :
    (H i)[k]? = some (c.emb1 i x) := by
  rw [h.cells, List.getElem?_append_left (by simpa using (List.getElem?_eq_some_iff.1 hx).1), List.getElem?_map, hx]
  rfl

theorem get2 (h : c.Splits H G1 G2 res) {i : sp.Id} {k : Nat} {x : Cell P2} (hx : (G2 i)[k]? = some x) :
    (H i)[c.pl1.n + k]? = some (emb2 x) := by
  have hne : G2 i ≠ [] := by
    intro he
    simp [he] at hx
  have hl := (h.done i hne).2.1
  rw [h.cells, List.getElem?_append_right (by simp [hl]), List.getElem?_map]
  have : c.pl1.n + k - ((G1 i).map (c.emb1 i)).length = k := by simp [hl]
  rw [this, hx]
  rfl

/-- Below the end of the first protocol the cells are those of the first protocol. -/
theorem cases (h : c.Splits H G1 G2 res) (coop : Cooperative c.pl1) {i : sp.Id} {k : Nat} {x : Cell (chain P1 P2 J)}
    (hx : (H i)[k]? = some x) :
    (k < c.pl1.n ∧ ∃ y, (G1 i)[k]? = some y ∧ x = c.emb1 i y) ∨
      ∃ k2 y, k = c.pl1.n + k2 ∧ (G2 i)[k2]? = some y ∧ x = emb2 y := by
  have hlen := coop.length_le h.first i
  rw [h.cells] at hx
  by_cases hk : k < (G1 i).length
  · left
    rw [List.getElem?_append_left (by simpa using hk), List.getElem?_map, Option.map_eq_some_iff] at hx
    obtain ⟨y, h1, h2⟩ := hx
    exact ⟨by omega, y, h1, h2.symm⟩
  · right
    rw [List.getElem?_append_right (by simpa using hk), List.getElem?_map, Option.map_eq_some_iff] at hx
    obtain ⟨y, h1, h2⟩ := hx
    have hne : G2 i ≠ [] := by
      intro he
      simp [he] at h1
    have hl := (h.done i hne).2.1
    refine ⟨k - c.pl1.n, y, by omega, ?_, h2.symm⟩
    simpa [hl] using h1

theorem payloads1 (h : c.Splits H G1 G2 res) (coop : Cooperative c.pl1) {i : sp.Id} {k : Nat} (hk : k < c.pl1.n)
    {ps : BMap sp.Id (P1.Payload ⊕ P2.Payload)} (hp : PayloadsOf H i k ps) :
    ∃ ps1, ps = ps1.mapVal (fun _ v => .inl v) ∧ PayloadsOf G1 i k ps1 := by
  have hval : ∀ j w, ps.get? j = some w → ∃ v, w = .inl v ∧ ∃ yi yj p art, (G1 i)[k]? = some yi ∧ (G1 j)[k]? = some yj ∧
      yj.directs.get? i = some (p, art) ∧ P1.receive yi.rd j ⟨yj.echo, yj.normal, p⟩ = .ok v := by
    intro j w hw
    obtain ⟨ci, cj, p, art, h1, h2, h3, h4⟩ := hp.value j w hw
    rcases h.cases coop h1 with ⟨-, yi, g1, rfl⟩ | ⟨k2, y, hk2, -⟩
    · rcases h.cases coop h2 with ⟨-, yj, g2, rfl⟩ | ⟨k2, y, hk2, -⟩
      · simp only [emb1, BMap.get?_mapVal, Option.map_eq_some_iff] at h3
        obtain ⟨⟨p', a'⟩, h3, he⟩ := h3
        simp only [Prod.mk.injEq] at he
        obtain ⟨rfl, rfl⟩ := he
        simp only [emb1, chain] at h4
        split at h4
        · simp at h4
        · rename_i v hv
          simp only [Except.ok.injEq] at h4
          exact ⟨v, h4.symm, yi, yj, _, _, g1, g2, h3, hv⟩
      · omega
    · omega
  obtain ⟨ps1, rfl⟩ := BMap.image (fun j w hw => (hval j w hw).imp fun _ h => h.1)
  refine ⟨ps1, rfl, ?_, ?_⟩
  · obtain ⟨x, h1, h2⟩ := hp.keys
    rcases h.cases coop h1 with ⟨-, y, g1, rfl⟩ | ⟨k2, y, hk2, -⟩
    · exact ⟨y, g1, fun j => (BMap.contains_mapVal _ _ j).symm.trans (h2 j)⟩
    · omega
  · intro j v hv
    obtain ⟨v', he, hrest⟩ := hval j (.inl v) (by rw [BMap.get?_mapVal, hv]; rfl)
    simp only [Sum.inl.injEq] at he
    subst he
    exact hrest

theorem payloads2 (h : c.Splits H G1 G2 res) (coop : Cooperative c.pl1) {i : sp.Id} {k : Nat}
    {ps : BMap sp.Id (P1.Payload ⊕ P2.Payload)} (hp : PayloadsOf H i (c.pl1.n + k) ps) :
    ∃ ps2, ps = ps2.mapVal (fun _ v => .inr v) ∧ PayloadsOf G2 i k ps2 := by
  have hval : ∀ j w, ps.get? j = some w → ∃ v, w = .inr v ∧ ∃ yi yj p art, (G2 i)[k]? = some yi ∧ (G2 j)[k]? = some yj ∧
      yj.directs.get? i = some (p, art) ∧ P2.receive yi.rd j ⟨yj.echo, yj.normal, p⟩ = .ok v := by
    intro j w hw
    obtain ⟨ci, cj, p, art, h1, h2, h3, h4⟩ := hp.value j w hw
    rcases h.cases coop h1 with ⟨hlt, -⟩ | ⟨k2, yi, hk2, g1, rfl⟩
    · omega
    · rcases h.cases coop h2 with ⟨hlt, -⟩ | ⟨k3, yj, hk3, g2, rfl⟩
      · omega
      · obtain rfl : k2 = k := by omega
        obtain rfl : k3 = k2 := by omega
        simp only [emb2, BMap.get?_mapVal, Option.map_eq_some_iff] at h3
        obtain ⟨⟨p', a'⟩, h3, he⟩ := h3
        simp only [Prod.mk.injEq] at he
        obtain ⟨rfl, rfl⟩ := he
        simp only [emb2, chain] at h4
        split at h4
        · simp at h4
        · rename_i v hv
          simp only [Except.ok.injEq] at h4
          exact ⟨v, h4.symm, yi, yj, _, _, g1, g2, h3, hv⟩
  obtain ⟨ps2, rfl⟩ := BMap.image (fun j w hw => (hval j w hw).imp fun _ h => h.1)
  refine ⟨ps2, rfl, ?_, ?_⟩
  · obtain ⟨x, h1, h2⟩ := hp.keys
    rcases h.cases coop h1 with ⟨hlt, -⟩ | ⟨k2, y, hk2, g1, rfl⟩
    · omega
    · obtain rfl : k2 = k := by omega
      exact ⟨y, g1, fun j => (BMap.contains_mapVal _ _ j).symm.trans (h2 j)⟩
  · intro j v hv
    obtain ⟨v', he, hrest⟩ := hval j (.inr v) (by rw [BMap.get?_mapVal, hv]; rfl)
    simp only [Sum.inr.injEq] at he
    subst he
    exact hrest

/-- Finalizing a stage of the chained protocol is finalizing a stage of one of the two. -/
theorem finalizes (h : c.Splits H G1 G2 res) (coop : Cooperative c.pl1) {i : sp.Id} (hi : c.pl1.g.parties.contains i = true)
    {rng : sp.Rng} {o : Outcome (ChainRd J) P2.Result} (hf : Finalizes H i rng o) :
    (G2 i = [] ∧ (∃ r, Finalizes G1 i (sp.fork rng 0) (.anotherRound r) ∧ (G1 i).length < c.pl1.n ∧
        o = .anotherRound (.one i r c.pl1.g.sid (c.data i)))) ∨
      (G2 i = [] ∧ (G1 i).length = c.pl1.n ∧ ∃ v r, Finalizes G1 i (sp.fork rng 0) (.result v) ∧
        J.makeRound2 (c.data i) v (sp.fork rng 1) c.pl1.g.sid i = .ok r ∧ o = .anotherRound (.two r)) ∨
      (G2 i ≠ [] ∧ ((∃ r, Finalizes G2 i rng (.anotherRound r) ∧ o = .anotherRound (.two r)) ∨
        ∃ v, Finalizes G2 i rng (.result v) ∧ o = .result v)) := by
  obtain ⟨k, x, ps, h1, h2, h3, h4⟩ := hf
  have hlen : (H i).length = (G1 i).length + (G2 i).length := by rw [h.cells]; simp
  rcases h.cases coop h2 with ⟨hk, y, g1, rfl⟩ | ⟨k2, y, rfl, g2, rfl⟩
  · have hG2 : G2 i = [] := by
      by_contra hne
      have := (h.done i hne).2.1
      have : 0 < (G2 i).length := List.length_pos_iff.2 hne
      omega
    have hl : (G1 i).length = k + 1 := by rw [hG2] at hlen; simp at hlen; omega
    obtain ⟨ps1, rfl, hp1⟩ := h.payloads1 coop hk h3
    obtain ⟨ps', as', e1, e2, hor⟩ := one_finalize.1 h4
    obtain rfl := BMap.mapVal_inj Sum.inl_injective e1
    have e3 : (y.directs.mapVal (fun _ x => x.2)) = as' := by
      apply BMap.mapVal_inj (inj := (Sum.inl : P1.Artifact → P1.Artifact ⊕ P2.Artifact)) Sum.inl_injective
      rw [← e2]
      simp only [emb1, BMap.mapVal_mapVal]
      rfl
    subst e3
    rcases hor with ⟨r, hr, rfl⟩ | ⟨v, r, hr, hm, rfl⟩
    · exact Or.inl ⟨hG2, r, ⟨k, y, ps1, hl, g1, hp1, hr⟩, by rw [hl]; exact coop.next h.first hi hl g1 hp1 hr, rfl⟩
    · refine Or.inr (Or.inl ⟨hG2, ?_, v, r, ⟨k, y, ps1, hl, g1, hp1, hr⟩, hm, rfl⟩)
      have := coop.last h.first hi hl g1 hp1 hr
      have := coop.length_le h.first i
      omega
  · have hne : G2 i ≠ [] := by
      intro he
      simp [he] at g2
    have hl1 := (h.done i hne).2.1
    have hl : (G2 i).length = k2 + 1 := by omega
    obtain ⟨ps2, rfl, hp2⟩ := h.payloads2 coop h3
    obtain ⟨ps', as', e1, e2, hor⟩ := two_finalize.1 h4
    obtain rfl := BMap.mapVal_inj Sum.inr_injective e1
    have e3 : (y.directs.mapVal (fun _ x => x.2)) = as' := by
      apply BMap.mapVal_inj (inj := (Sum.inr : P2.Artifact → P1.Artifact ⊕ P2.Artifact)) Sum.inr_injective
      rw [← e2]
      simp only [emb2, BMap.mapVal_mapVal]
      rfl
    subst e3
    rcases hor with ⟨r, hr, rfl⟩ | ⟨v, hr, rfl⟩
    · exact Or.inr (Or.inr ⟨hne, Or.inl ⟨r, ⟨k2, y, ps2, hl, g2, hp2, hr⟩, rfl⟩⟩)
    · exact Or.inr (Or.inr ⟨hne, Or.inr ⟨v, ⟨k2, y, ps2, hl, g2, hp2, hr⟩, rfl⟩⟩)

/-- Entering a stage of the chained protocol is entering a stage of one of the two. -/
theorem entering (h : c.Splits H G1 G2 res) (coop : Cooperative c.pl1) {i : sp.Id} (hi : c.pl1.g.parties.contains i = true)
    {r : ChainRd J} (he : Entering c.group H i r) :
    (G2 i = [] ∧ ∃ r1, Entering c.pl1.g G1 i r1 ∧ r = .one i r1 c.pl1.g.sid (c.data i)) ∨
      ∃ res2 r2, r = .two r2 ∧ (∀ j, G2 j ≠ [] → res2 j = res j) ∧ c.Obtained G1 (fun j => G2 j ≠ [] ∨ j = i) res2 ∧
        ∀ res', (∀ j, G2 j ≠ [] ∨ j = i → res' j = res2 j) → Entering (c.group2 res') G2 i r2 := by
  rcases he with ⟨h1, rng, h2⟩ | ⟨rng, hf⟩
  · left
    have hlen : (H i).length = (G1 i).length + (G2 i).length := by rw [h.cells]; simp
    rw [h1] at hlen
    simp only [List.length_nil] at hlen
    refine ⟨List.length_eq_zero_iff.1 (by omega), ?_⟩
    simp only [group, chainEntry] at h2
    split at h2
    · simp at h2
    · rename_i r1 hr1
      exact ⟨r1, Or.inl ⟨List.length_eq_zero_iff.1 (by omega), rng, hr1⟩, (Except.ok.inj h2).symm⟩
  · rcases h.finalizes coop hi hf with ⟨h0, r1, h1, h2, h3⟩ | ⟨h0, hl, v, r2, h1, h2, h3⟩ | ⟨hne, h1⟩
    · left
      exact ⟨h0, r1, Or.inr ⟨_, h1⟩, Outcome.anotherRound.inj h3⟩
    · right
      refine ⟨Function.update res i v, r2, Outcome.anotherRound.inj h3, ?_, ?_, ?_⟩
      · intro j hj
        rw [Function.update_of_ne]
        rintro rfl
        exact hj h0
      · intro j hj
        by_cases hji : j = i
        · subst hji
          rw [Function.update_self]
          exact ⟨hi, hl, _, h1⟩
        · rw [Function.update_of_ne hji]
          rcases hj with hj | hj
          · exact h.done j hj
          · exact absurd hj hji
      · intro res' hres
        refine Or.inl ⟨h0, sp.fork rng 1, ?_⟩
        have := hres i (Or.inr rfl)
        rw [Function.update_self] at this
        simp only [group2, this]
        exact h2
    · right
      rcases h1 with ⟨r2, h1, h2⟩ | ⟨v, h1, h2⟩
      · refine ⟨res, r2, Outcome.anotherRound.inj h2, fun _ _ => rfl, ?_, ?_⟩
        · intro j hj
          rcases hj with hj | rfl
          · exact h.done j hj
          · exact h.done j hne
        · intro res' _
          exact Or.inr ⟨rng, h1⟩
      · simp at h2

end Splits

/-- Every history of the chained protocol splits. -/
theorem splits (coop : Cooperative c.pl1) (hne : Nonempty P1.Result) {H : History (chain P1 P2 J)}
    (hH : Honest c.group H) : ∃ G1 G2 res, c.Splits H G1 G2 res := by
  induction hH with
  | nil =>
    obtain ⟨v⟩ := hne
    exact ⟨fun _ => [], fun _ => [], fun _ => v, fun _ => rfl, .nil, fun i hi => absurd rfl hi, fun _ _ => .nil⟩
  | @enter H i x hH hi he hm ih =>
    obtain ⟨G1, G2, res, hs⟩ := ih
    rcases hs.entering coop hi he with ⟨h0, r1, h1, h2⟩ | ⟨res2, r2, h1, h2, h3, h4⟩
    · obtain ⟨y, rfl, hy, rfl⟩ := made1 hm h2
      refine ⟨Function.update G1 i (G1 i ++ [y]), G2, res, ?_, .enter hs.first hi h1 hy, ?_, hs.second⟩
      · intro j
        by_cases hj : j = i
        · subst hj
          rw [Function.update_self, Function.update_self, hs.cells, h0]
          simp
        · rw [Function.update_of_ne hj, Function.update_of_ne hj]
          exact hs.cells j
      · intro j hj
        have hji : j ≠ i := by
          rintro rfl
          exact hj h0
        obtain ⟨g1, g2, rng, g3⟩ := hs.done j hj
        refine ⟨g1, by rw [Function.update_of_ne hji]; exact g2, rng, ?_⟩
        exact g3.ext (History.ext_snoc _ _ _) (Function.update_of_ne hji _ _)
    · obtain ⟨y, rfl, hy, rfl⟩ := made2 hm h1
      refine ⟨G1, Function.update G2 i (G2 i ++ [y]), res2, ?_, hs.first, ?_, ?_⟩
      · intro j
        by_cases hj : j = i
        · subst hj
          rw [Function.update_self, Function.update_self, hs.cells]
          simp
        · rw [Function.update_of_ne hj, Function.update_of_ne hj]
          exact hs.cells j
      · intro j hj
        refine h3 j ?_
        by_cases hji : j = i
        · exact Or.inr hji
        · rw [Function.update_of_ne hji] at hj
          exact Or.inl hj
      · intro res' hres
        have hall : ∀ j, G2 j ≠ [] ∨ j = i → res' j = res2 j := by
          intro j hj
          apply hres
          by_cases hji : j = i
          · subst hji
            rw [Function.update_self]
            simp
          · rw [Function.update_of_ne hji]
            exact hj.resolve_right hji
        exact .enter (hs.second res' (fun j hj => (hall j (Or.inl hj)).trans (h2 j hj))) hi (h4 res' hall) hy

theorem both_lt {α : Type} {f1 f2 : Nat → α} {k : Nat} (h : k < c.pl1.n) : c.both f1 f2 k = f1 k := if_pos h

theorem both_add {α : Type} {f1 f2 : Nat → α} {k : Nat} : c.both f1 f2 (c.pl1.n + k) = f2 k := by
  unfold both
  rw [if_neg (by omega), Nat.add_sub_cancel_left]

/-- Entering a stage of the chained protocol. -/
theorem Cooperates.stage (hc : c.Cooperates) {H : History (chain P1 P2 J)} (hH : Honest c.group H) {i : sp.Id}
    (hi : c.pl1.g.parties.contains i = true) {r : ChainRd J} (he : Entering c.group H i r) :
    (∃ G1 r1, Honest c.pl1.g G1 ∧ Entering c.pl1.g G1 i r1 ∧ r = .one i r1 c.pl1.g.sid (c.data i) ∧
        (H i).length = (G1 i).length ∧ (G1 i).length < c.pl1.n) ∨
      ∃ res G2 r2, Cooperative (c.plan2 res) ∧ Honest (c.group2 res) G2 ∧ Entering (c.group2 res) G2 i r2 ∧ r = .two r2 ∧
        (H i).length = c.pl1.n + (G2 i).length := by
  obtain ⟨G1, G2, res, hs⟩ := splits hc.first hc.results hH
  have hlen : (H i).length = (G1 i).length + (G2 i).length := by rw [hs.cells]; simp
  rcases hs.entering hc.first hi he with ⟨h0, r1, h1, h2⟩ | ⟨res2, r2, h1, h2, h3, h4⟩
  · exact Or.inl ⟨G1, r1, hs.first, h1, h2, by rw [hlen, h0]; rfl, hc.first.room hs.first hi h1⟩
  · obtain ⟨res', h5, h6⟩ := hc.second G1 _ res2 hs.first h3
    exact Or.inr ⟨res', G2, r2, h6, hs.second res' (fun j hj => (h5 j (Or.inl hj)).trans (h2 j hj)), h4 res' h5, h1,
      by rw [hlen, (h3 i (Or.inr rfl)).2.1]⟩

/-- The pattern of communication of the chained protocol. -/
theorem Cooperates.pattern (hc : c.Cooperates) : Pattern c.plan := by
  obtain ⟨v⟩ := hc.results
  obtain ⟨res, -, c2⟩ := hc.second (fun _ => []) (fun _ => False) (fun _ => v) .nil (fun _ h => h.elim)
  have p1 := hc.first.pattern
  have p2 := c2.pattern
  have hcase : ∀ k, k < c.pl1.n + c.n2 → k < c.pl1.n ∨ ∃ l, k = c.pl1.n + l ∧ l < c.n2 := by
    intro k hk
    by_cases h : k < c.pl1.n
    · exact Or.inl h
    · exact Or.inr ⟨k - c.pl1.n, by omega, by omega⟩
  refine ⟨?_, ?_, ?_, ?_, ?_, ?_⟩
  · intro k i j hk hi hj
    simp only [plan] at hk ⊢
    rcases hcase k hk with h | ⟨l, rfl, h⟩
    · simp only [both_lt h]
      exact p1.matched k i j h hi hj
    · simp only [both_add]
      exact p2.matched l i j h hi hj
  · intro k i j hk hi
    simp only [plan] at hk ⊢
    rcases hcase k hk with h | ⟨l, rfl, h⟩
    · simp only [both_lt h]
      exact p1.dests k i j h hi
    · simp only [both_add]
      exact p2.dests l i j h hi
  · intro k i j hk hi
    simp only [plan] at hk ⊢
    rcases hcase k hk with h | ⟨l, rfl, h⟩
    · simp only [both_lt h]
      exact p1.expects k i j h hi
    · simp only [both_add]
      exact p2.expects l i j h hi
  · intro k i hk
    simp only [plan] at hk ⊢
    rcases hcase k hk with h | ⟨l, rfl, h⟩
    · simp only [both_lt h]
      exact p1.echoDests k i h
    · simp only [both_add]
      exact p2.echoDests l i h
  · intro k i hk
    simp only [plan] at hk ⊢
    rcases hcase k hk with h | ⟨l, rfl, h⟩
    · simp only [both_lt h]
      exact p1.echoExpects k i h
    · simp only [both_add]
      exact p2.echoExpects l i h
  · intro k i j hk hk1 hi
    simp only [plan] at hk1 ⊢
    rcases hcase k (by omega) with h | ⟨l, rfl, h⟩
    · rcases hcase (k + 1) hk1 with h' | ⟨l, hl, h'⟩
      · simp only [both_lt h, both_lt h']
        exact p1.window k i j hk h' hi
      · obtain rfl : l = 0 := by omega
        obtain rfl : k = c.pl1.n - 1 := by omega
        rw [hl, both_add, both_lt h]
        exact hc.windowJoin i j (by omega) hi
    · rw [Nat.add_assoc, both_add, both_add]
      rcases Nat.eq_zero_or_pos l with rfl | hl
      · exact hc.windowSecond i j (by omega) hi
      · exact p2.window l i j hl (by show l + 1 < c.n2; omega) hi

/-- The chained protocol is cooperative. -/
theorem Cooperates.cooperative (hc : c.Cooperates) : Cooperative c.plan := by
  obtain ⟨v⟩ := hc.results
  obtain ⟨res0, -, c2⟩ := hc.second (fun _ => []) (fun _ => False) (fun _ => v) .nil (fun _ h => h.elim)
  have c1 := hc.first
  have hn1 := c1.stages
  have hn2 : 0 < c.n2 := c2.stages
  have hcase : ∀ k, k < c.pl1.n + c.n2 → k < c.pl1.n ∨ ∃ l, k = c.pl1.n + l ∧ l < c.n2 := by
    intro k hk
    by_cases h : k < c.pl1.n
    · exact Or.inl h
    · exact Or.inr ⟨k - c.pl1.n, by omega, by omega⟩
  refine ⟨by show 0 < c.pl1.n + c.n2; omega, ?_, ?_, ?_, hc.pattern, ?_, ?_, ?_, ?_, ?_, ?_, ?_, ?_, ?_⟩
  · intro k l hk hl h
    simp only [plan] at hk hl h
    rcases hcase k hk with hk | ⟨k', rfl, hk'⟩ <;> rcases hcase l hl with hl | ⟨l', rfl, hl'⟩
    · rw [both_lt hk, both_lt hl] at h
      exact c1.ids k l hk hl (C33_group_injective _ _ _ _ h).1
    · rw [both_lt hk, both_add] at h
      exact absurd (C33_group_injective _ _ _ _ h).2 (by decide)
    · rw [both_lt hl, both_add] at h
      exact absurd (C33_group_injective _ _ _ _ h).2 (by decide)
    · rw [both_add, both_add] at h
      rw [c2.ids k' l' hk' hl' (C33_group_injective _ _ _ _ h).1]
  · intro k hk
    simp only [plan] at hk ⊢
    rcases hcase k hk with h | ⟨l, rfl, h⟩
    · rw [both_lt h]
      exact c1.notEcho k h
    · rw [both_add]
      exact c2.notEcho l h
  · intro k i hk
    simp only [plan] at hk ⊢
    rcases hcase k hk with h | ⟨l, rfl, h⟩
    · rw [both_lt h]
      exact c1.company k i h
    · rw [both_add]
      exact c2.company l i h
  · intro i hi rng
    obtain ⟨r, hr⟩ := c1.start i hi rng
    refine ⟨.one i r c.pl1.g.sid (c.data i), ?_⟩
    simp only [plan, group, chainEntry, hr]
  · intro H i r hH hi he
    rcases hc.stage hH hi he with ⟨G1, r1, h1, h2, rfl, h4, h5⟩ | ⟨res, G2, r2, h0, h1, h2, rfl, h4⟩
    · rw [chain_id_one, h4]
      simp only [plan]
      rw [both_lt h5, c1.id G1 i r1 h1 hi h2]
    · rw [chain_id_two, h4]
      simp only [plan]
      rw [both_add, h0.id G2 i r2 h1 hi h2]
      rfl
  · intro H i r hH hi he hl
    rcases hc.stage hH hi he with ⟨G1, r1, h1, h2, rfl, h4, h5⟩ | ⟨res, G2, r2, h0, h1, h2, rfl, h4⟩
    · rw [h4]
      simp only [plan]
      by_cases hlast : (G1 i).length + 1 < c.pl1.n
      · rw [both_lt hlast]
        have := c1.child G1 i r1 h1 hi h2 hlast
        have hmem : (((P1.transition r1).groupUnder 1).children).contains ((c.pl1.rid ((G1 i).length + 1)).groupUnder 1) = true := by
          simp only [TransitionInfo.groupUnder, TransitionInfo.mapSet]
          rw [BSet.contains_ofList, decide_eq_true_eq]
          exact List.mem_map.2 ⟨_, BSet.mem_elems.2 this, rfl⟩
        simp only [chain]
        split
        · rw [BSet.contains_insert]
          simp [hmem]
        · exact hmem
      · have hl1 : (G1 i).length + 1 = c.pl1.n := by omega
        have e : (G1 i).length + 1 = c.pl1.n + 0 := by omega
        rw [e, both_add]
        have hm := hc.mayResult G1 i r1 h1 hi h2 hl1
        have hm' : ((P1.transition r1).groupUnder 1).mayProduceResult = true := hm
        simp only [chain, hm', if_true]
        rw [BSet.contains_insert, hc.entry]
        simp
    · rw [h4]
      simp only [plan]
      rw [Nat.add_assoc, both_add]
      have := h0.child G2 i r2 h1 hi h2 (by
        simp only [plan] at hl
        show (G2 i).length + 1 < c.n2
        omega)
      simp only [chain, TransitionInfo.groupUnder, TransitionInfo.mapSet]
      rw [BSet.contains_ofList, decide_eq_true_eq]
      exact List.mem_map.2 ⟨_, BSet.mem_elems.2 this, rfl⟩
  · intro H i r hH hi he
    rcases hc.stage hH hi he with ⟨G1, r1, h1, h2, rfl, h4, h5⟩ | ⟨res, G2, r2, h0, h1, h2, rfl, h4⟩
    · rw [h4]
      simp only [plan, both_lt h5]
      exact c1.comm G1 i r1 h1 hi h2
    · rw [h4]
      simp only [plan, both_add]
      exact h0.comm G2 i r2 h1 hi h2
  · intro H i r hH hi he
    rcases hc.stage hH hi he with ⟨G1, r1, h1, h2, rfl, h4, h5⟩ | ⟨res, G2, r2, h0, h1, h2, rfl, h4⟩
    · rw [h4]
      simp only [plan, both_lt h5]
      exact c1.makeEcho G1 i r1 h1 hi h2
    · rw [h4]
      simp only [plan, both_add]
      exact h0.makeEcho G2 i r2 h1 hi h2
  · intro H i r hH hi he
    rcases hc.stage hH hi he with ⟨G1, r1, h1, h2, rfl, h4, h5⟩ | ⟨res, G2, r2, h0, h1, h2, rfl, h4⟩
    · rw [h4]
      simp only [plan, both_lt h5]
      exact c1.makeNormal G1 i r1 h1 hi h2
    · rw [h4]
      simp only [plan, both_add]
      exact h0.makeNormal G2 i r2 h1 hi h2
  · intro H i r hH hi he
    rcases hc.stage hH hi he with ⟨G1, r1, h1, h2, rfl, h4, h5⟩ | ⟨res, G2, r2, h0, h1, h2, rfl, h4⟩
    · rw [h4]
      simp only [plan, both_lt h5]
      intro j hj rng
      obtain ⟨⟨p, a⟩, hx⟩ := c1.makeDirect G1 i r1 h1 hi h2 j hj rng
      exact ⟨(p, .inl a), by simp only [chain, hx]⟩
    · rw [h4]
      simp only [plan, both_add]
      intro j hj rng
      obtain ⟨⟨p, a⟩, hx⟩ := h0.makeDirect G2 i r2 h1 hi h2 j hj rng
      exact ⟨(p, .inr a), by simp only [chain, hx]⟩
  · intro H i j k ci cj p art hH hexp hi h1 h2 h3
    obtain ⟨G1, G2, res, hs⟩ := splits c1 hc.results hH
    rcases hs.cases c1 h1 with ⟨hk, yi, g1, rfl⟩ | ⟨k2, yi, hk2, g1, rfl⟩
    · rcases hs.cases c1 h2 with ⟨-, yj, g2, rfl⟩ | ⟨k2, y, hk2, -⟩
      · simp only [emb1, BMap.get?_mapVal, Option.map_eq_some_iff] at h3
        obtain ⟨⟨p', a'⟩, h3, he⟩ := h3
        simp only [Prod.mk.injEq] at he
        obtain ⟨rfl, rfl⟩ := he
        simp only [plan, both_lt hk] at hexp
        obtain ⟨w, hw⟩ := c1.receive G1 i j k yi yj _ a' hs.first hexp hi g1 g2 h3
        exact ⟨.inl w, by simp only [emb1, chain, hw]⟩
      · omega
    · rcases hs.cases c1 h2 with ⟨hlt, -⟩ | ⟨k3, yj, hk3, g2, rfl⟩
      · omega
      · obtain rfl : k3 = k2 := by omega
        subst hk2
        simp only [emb2, BMap.get?_mapVal, Option.map_eq_some_iff] at h3
        obtain ⟨⟨p', a'⟩, h3, he⟩ := h3
        simp only [Prod.mk.injEq] at he
        obtain ⟨rfl, rfl⟩ := he
        simp only [plan, both_add] at hexp
        obtain ⟨res', h5, h6⟩ := hc.second G1 _ res hs.first hs.done
        obtain ⟨w, hw⟩ := h6.receive G2 i j k3 yi yj _ a' (hs.second res' h5) hexp hi g1 g2 h3
        exact ⟨.inr w, by simp only [emb2, chain, hw]⟩
  · intro H i k x ps hH hi hl hx hp rng
    obtain ⟨G1, G2, res, hs⟩ := splits c1 hc.results hH
    have hlen : (H i).length = (G1 i).length + (G2 i).length := by rw [hs.cells]; simp
    rcases hs.cases c1 hx with ⟨hk, y, g1, rfl⟩ | ⟨k2, y, rfl, g1, rfl⟩
    · have hG2 : G2 i = [] := by
        by_contra hne
        have := (hs.done i hne).2.1
        have : 0 < (G2 i).length := List.length_pos_iff.2 hne
        omega
      have hl1 : (G1 i).length = k + 1 := by rw [hG2] at hlen; simp at hlen; omega
      obtain ⟨ps1, rfl, hp1⟩ := hs.payloads1 c1 hk hp
      obtain ⟨o, ho, hres⟩ := c1.finalize G1 i k y ps1 hs.first hi hl1 g1 hp1 (sp.fork rng 0)
      have hart : (c.emb1 i y).directs.mapVal (fun _ x => x.2) = (y.directs.mapVal (fun _ x => x.2)).mapVal
          (fun _ a => (Sum.inl a : P1.Artifact ⊕ P2.Artifact)) := by
        simp only [emb1, BMap.mapVal_mapVal]
        rfl
      rw [hart]
      have hlt : k + 1 < c.plan.n := by show k + 1 < c.pl1.n + c.n2; omega
      simp only [hlt, if_true]
      by_cases hk1 : k + 1 < c.pl1.n
      · rw [if_pos hk1] at hres
        obtain ⟨r, rfl⟩ := hres
        exact ⟨_, one_finalize.2 ⟨ps1, _, rfl, rfl, Or.inl ⟨r, ho, rfl⟩⟩, _, rfl⟩
      · rw [if_neg hk1] at hres
        obtain ⟨w, rfl⟩ := hres
        have hob : c.Obtained G1 (fun j => G2 j ≠ [] ∨ j = i) (Function.update res i w) := by
          intro j hj
          by_cases hji : j = i
          · subst hji
            rw [Function.update_self]
            exact ⟨hi, by omega, _, k, y, ps1, hl1, g1, hp1, ho⟩
          · rw [Function.update_of_ne hji]
            exact hs.done j (hj.resolve_right hji)
        obtain ⟨res', h5, h6⟩ := hc.second G1 _ _ hs.first hob
        obtain ⟨r2, hr2⟩ := h6.start i hi (sp.fork rng 1)
        have e := h5 i (Or.inr rfl)
        rw [Function.update_self] at e
        simp only [plan2, group2, e] at hr2
        exact ⟨_, one_finalize.2 ⟨ps1, _, rfl, rfl, Or.inr ⟨w, r2, ho, hr2, rfl⟩⟩, _, rfl⟩
    · have hne : G2 i ≠ [] := by
        intro he
        simp [he] at g1
      have hl1 := (hs.done i hne).2.1
      have hl2 : (G2 i).length = k2 + 1 := by omega
      obtain ⟨ps2, rfl, hp2⟩ := hs.payloads2 c1 hp
      obtain ⟨res', h5, h6⟩ := hc.second G1 _ res hs.first hs.done
      obtain ⟨o, ho, hres⟩ := h6.finalize G2 i k2 y ps2 (hs.second res' h5) hi hl2 g1 hp2 rng
      have hart : (emb2 (J := J) y).directs.mapVal (fun _ x => x.2) = (y.directs.mapVal (fun _ x => x.2)).mapVal
          (fun _ a => (Sum.inr a : P1.Artifact ⊕ P2.Artifact)) := by
        simp only [emb2, BMap.mapVal_mapVal]
        rfl
      rw [hart]
      by_cases hk1 : k2 + 1 < c.n2
      · have hlt : c.pl1.n + k2 + 1 < c.plan.n := by show c.pl1.n + k2 + 1 < c.pl1.n + c.n2; omega
        simp only [hlt, if_true]
        rw [if_pos (show k2 + 1 < (c.plan2 res').n from hk1)] at hres
        obtain ⟨r, rfl⟩ := hres
        exact ⟨_, two_finalize.2 ⟨ps2, _, rfl, rfl, Or.inl ⟨r, ho, rfl⟩⟩, _, rfl⟩
      · have hlt : ¬ c.pl1.n + k2 + 1 < c.plan.n := by show ¬ c.pl1.n + k2 + 1 < c.pl1.n + c.n2; omega
        simp only [hlt, if_false]
        rw [if_neg (show ¬ k2 + 1 < (c.plan2 res').n from hk1)] at hres
        obtain ⟨w, rfl⟩ := hres
        exact ⟨_, two_finalize.2 ⟨ps2, _, rfl, rfl, Or.inr ⟨w, ho, rfl⟩⟩, _, rfl⟩

end ChainPlan

end Manul
