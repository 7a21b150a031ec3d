import Verif.Spec.Exec
import Verif.Model.Chain
import Verif.Lemmas.BMap
import Verif.Props.RoundIds

/-! # Chains: helper lemmas -/

namespace Manul

variable {sp : SP}

theorem mapE_cast {K A S : Type} {f : K × S → Except LErr (K × A)} {inj : A → S}
    (hf : ∀ k s k' a, f (k, s) = .ok (k', a) ↔ k = k' ∧ s = inj a) {l : List (K × S)} {l' : List (K × A)} :
    mapE f l = .ok l' ↔ l = l'.map (fun e => (e.1, inj e.2)) := by
  induction l generalizing l' with
  | nil => cases l' <;> simp [mapE]
  | cons e l ih =>
    obtain ⟨k, s⟩ := e
    cases l' with
    | nil =>
      simp only [mapE, List.map_nil, reduceCtorEq, iff_false]
      cases f (k, s) with
      | error e => simp
      | ok y => cases h : mapE f l <;> simp
    | cons e' l' =>
      obtain ⟨k', a⟩ := e'
      simp only [mapE, List.map_cons, List.cons.injEq, Prod.mk.injEq, ← hf, ← ih]
      cases f (k, s) with
      | error e => simp
      | ok y => cases h : mapE f l <;> simp

theorem mapE_ofList {K A S : Type} [LinearOrder K] {f : K × S → Except LErr (K × A)} {inj : A → S}
    (hf : ∀ k s k' a, f (k, s) = .ok (k', a) ↔ k = k' ∧ s = inj a) {m : BMap K S} {l : List (K × A)}
    (h : mapE f m.toList = .ok l) : m = (BMap.ofList l).mapVal (fun _ a => inj a) := by
  have hl := (mapE_cast hf).1 h
  have hnd : (l.map (·.1)).Nodup := by
    have := m.toList_nodupKeys
    rw [hl, List.map_map] at this
    exact this
  apply BMap.ext
  intro k
  rw [BMap.get?_mapVal]
  apply Option.ext
  intro v
  rw [← BMap.mem_toList, hl, List.mem_map, Option.map_eq_some_iff]
  constructor
  · rintro ⟨e, he, h2⟩
    simp only [Prod.mk.injEq] at h2
    exact ⟨e.2, (BMap.get?_ofList_nodup hnd _ _).2 (by rw [← h2.1]; exact he), h2.2⟩
  · rintro ⟨a, ha, rfl⟩
    exact ⟨(k, a), (BMap.get?_ofList_nodup hnd _ _).1 ha, rfl⟩

theorem cast_ok {K A S : Type} [LinearOrder K] (f : K × S → Except LErr (K × A)) {inj : A → S}
    (hf : ∀ k s k' a, f (k, s) = .ok (k', a) ↔ k = k' ∧ s = inj a) {m : BMap K S} {m' : BMap K A} :
    (match mapE f m.toList with
      | .error e => (Except.error e : Except LErr (BMap K A))
      | .ok l => Except.ok (BMap.ofList l)) = .ok m' ↔ m = m'.mapVal (fun _ a => inj a) := by
  constructor
  · intro h
    split at h
    · simp at h
    · rename_i l hl
      simp only [Except.ok.injEq] at h
      rw [← h]
      exact mapE_ofList hf hl
  · rintro rfl
    rw [(mapE_cast hf (l := (m'.mapVal (fun _ a => inj a)).toList) (l' := m'.toList)).2 rfl]
    simp only [BMap.ofList_toList]

theorem castLeft_ok {K A B : Type} [LinearOrder K] {m : BMap K (A ⊕ B)} {m' : BMap K A} :
    castLeft m = .ok m' ↔ m = m'.mapVal (fun _ a => .inl a) :=
  cast_ok (K := K) (A := A) (S := A ⊕ B) _ (by
    intro k s k' a
    cases s <;> simp)

theorem castRight_ok {K A B : Type} [LinearOrder K] {m : BMap K (A ⊕ B)} {m' : BMap K B} :
    castRight m = .ok m' ↔ m = m'.mapVal (fun _ a => .inr a) :=
  cast_ok (K := K) (A := B) (S := A ⊕ B) _ (by
    intro k s k' a
    cases s <;> simp)

theorem castLeft_inl {K A B : Type} [LinearOrder K] (m : BMap K A) :
    castLeft (m.mapVal (fun _ a => (Sum.inl a : A ⊕ B))) = .ok m := castLeft_ok.2 rfl

theorem castRight_inr {K A B : Type} [LinearOrder K] (m : BMap K B) :
    castRight (m.mapVal (fun _ b => (Sum.inr b : A ⊕ B))) = .ok m := castRight_ok.2 rfl

theorem mapE_all {K A S : Type} {f : K × S → Except LErr (K × A)} {l : List (K × S)}
    (h : ∀ e ∈ l, ∃ y, f e = .ok y) : ∃ l', mapE f l = .ok l' := by
  induction l with
  | nil => exact ⟨[], rfl⟩
  | cons e l ih =>
    obtain ⟨y, hy⟩ := h e (List.mem_cons_self ..)
    obtain ⟨l', hl'⟩ := ih (fun e he => h e (List.mem_cons_of_mem _ he))
    exact ⟨y :: l', by simp only [mapE, hy, hl']⟩

theorem allLeft {K A B : Type} [LinearOrder K] {m : BMap K (A ⊕ B)} (h : ∀ x w, m.get? x = some w → ∃ v, w = .inl v) :
    ∃ m' : BMap K A, m = m'.mapVal (fun _ v => .inl v) := by
  cases hc : castLeft m with
  | ok m' => exact ⟨m', castLeft_ok.1 hc⟩
  | error e =>
    exfalso
    unfold castLeft at hc
    split at hc
    · rename_i e' he
      obtain ⟨l', hl'⟩ := mapE_all (l := m.toList) (f := fun e : K × (A ⊕ B) =>
        match e.2 with
        | .inl a => Except.ok (e.1, a)
        | .inr _ => Except.error LErr.downcast) (by
          rintro ⟨k, w⟩ hm
          obtain ⟨v, rfl⟩ := h k w (BMap.mem_toList.1 hm)
          exact ⟨_, rfl⟩)
      cases hl'.symm.trans he
    · cases hc

theorem allRight {K A B : Type} [LinearOrder K] {m : BMap K (A ⊕ B)} (h : ∀ x w, m.get? x = some w → ∃ v, w = .inr v) :
    ∃ m' : BMap K B, m = m'.mapVal (fun _ v => .inr v) := by
  cases hc : castRight m with
  | ok m' => exact ⟨m', castRight_ok.1 hc⟩
  | error e =>
    exfalso
    unfold castRight at hc
    split at hc
    · rename_i e' he
      obtain ⟨l', hl'⟩ := mapE_all (l := m.toList) (f := fun e : K × (A ⊕ B) =>
        match e.2 with
        | .inr b => Except.ok (e.1, b)
        | .inl _ => Except.error LErr.downcast) (by
          rintro ⟨k, w⟩ hm
          obtain ⟨v, rfl⟩ := h k w (BMap.mem_toList.1 hm)
          exact ⟨_, rfl⟩)
      cases hl'.symm.trans he
    · cases hc

/-! ## Performing a round -/

variable {P1 P2 : Proto sp} {J : ChainJoin P1 P2}

theorem performs_one {id : sp.Id} {r : P1.Rd} {sr : Bytes} {d : J.Data} {c t : RoundTrace sp} {fk : sp.Rng → sp.Rng}
    (hs : SameRound 1 fk c t) {ps : BMap sp.Id P1.Payload} {as : BMap sp.Id P1.Artifact} :
    Performs (chain P1 P2 J) (.one id r sr d) c (ps.mapVal (fun _ v => .inl v)) (as.mapVal (fun _ v => .inl v)) ↔
      Performs P1 r t ps as := by
  constructor
  · intro h
    refine ⟨?_, ?_, ?_, ?_, ?_, ?_, ?_, ?_⟩
    · have h1 := h.id
      rw [hs.id] at h1
      have h2 : ((chain P1 P2 J).transition (.one id r sr d)).id = (P1.transition r).id.groupUnder 1 := by
        simp only [chain]
        split <;> rfl
      rw [h2] at h1
      exact (C33_group_injective _ _ _ _ h1).1
    · exact hs.comm.symm.trans h.comm
    · intro rng p hp
      exact h.echo rng p (hs.echo.trans hp)
    · intro rng p hp
      exact h.normal rng p (hs.normal.trans hp)
    · intro x rng p hp
      obtain ⟨a, h1, h2⟩ := h.directs x rng p (by rw [hs.directs]; exact hp)
      simp only [chain] at h1
      cases hm : P1.makeDirect r rng x with
      | error e => simp [hm] at h1
      | ok pa =>
        obtain ⟨p', a'⟩ := pa
        simp only [hm, Except.ok.injEq, Prod.mk.injEq] at h1
        obtain ⟨rfl, rfl⟩ := h1
        obtain ⟨a2, h3, h4⟩ := Option.map_eq_some_iff.1 ((BMap.get?_mapVal _ _ _).symm.trans h2)
        cases h4
        exact ⟨_, rfl, h3⟩
    · intro x hx
      have := h.noDirect x (by rw [hs.directs]; exact hx)
      exact Option.map_eq_none_iff.1 ((BMap.get?_mapVal _ _ _).symm.trans this)
    · intro x m hm
      obtain ⟨v, h1, h2⟩ := h.received x m (by rw [hs.received]; exact hm)
      simp only [chain] at h1
      cases hr : P1.receive r x m with
      | error e => simp [hr] at h1
      | ok v' =>
        simp only [hr] at h1
        cases h1
        obtain ⟨a2, h3, h4⟩ := Option.map_eq_some_iff.1 ((BMap.get?_mapVal _ _ _).symm.trans h2)
        cases h4
        exact ⟨_, rfl, h3⟩
    · intro x hx
      have := h.notReceived x (by rw [hs.received]; exact hx)
      exact Option.map_eq_none_iff.1 ((BMap.get?_mapVal _ _ _).symm.trans this)
  · intro h
    refine ⟨?_, ?_, ?_, ?_, ?_, ?_, ?_, ?_⟩
    · rw [hs.id, h.id]
      simp only [chain]
      split <;> rfl
    · exact hs.comm.trans h.comm
    · intro rng p hp
      exact h.echo rng p (hs.echo.symm.trans hp)
    · intro rng p hp
      exact h.normal rng p (hs.normal.symm.trans hp)
    · intro x rng p hp
      rw [hs.directs] at hp
      obtain ⟨a, h1, h2⟩ := h.directs x rng p hp
      exact ⟨.inl a, by simp only [chain, h1], (BMap.get?_mapVal _ _ _).trans (by rw [h2]; rfl)⟩
    · intro x hx
      rw [hs.directs] at hx
      exact (BMap.get?_mapVal _ _ _).trans (by rw [h.noDirect x hx]; rfl)
    · intro x m hm
      rw [hs.received] at hm
      obtain ⟨v, h1, h2⟩ := h.received x m hm
      exact ⟨.inl v, by simp only [chain, h1], (BMap.get?_mapVal _ _ _).trans (by rw [h2]; rfl)⟩
    · intro x hx
      rw [hs.received] at hx
      exact (BMap.get?_mapVal _ _ _).trans (by rw [h.notReceived x hx]; rfl)

theorem performs_two {r : P2.Rd} {c t : RoundTrace sp} {fk : sp.Rng → sp.Rng}
    (hs : SameRound 2 fk c t) {ps : BMap sp.Id P2.Payload} {as : BMap sp.Id P2.Artifact} :
    Performs (chain P1 P2 J) (.two r) c (ps.mapVal (fun _ v => .inr v)) (as.mapVal (fun _ v => .inr v)) ↔
      Performs P2 r t ps as := by
  constructor
  · intro h
    refine ⟨?_, ?_, ?_, ?_, ?_, ?_, ?_, ?_⟩
    · have h1 := h.id
      rw [hs.id] at h1
      exact (C33_group_injective _ _ _ _ h1).1
    · exact hs.comm.symm.trans h.comm
    · intro rng p hp
      exact h.echo rng p (hs.echo.trans hp)
    · intro rng p hp
      exact h.normal rng p (hs.normal.trans hp)
    · intro x rng p hp
      obtain ⟨a, h1, h2⟩ := h.directs x rng p (by rw [hs.directs]; exact hp)
      simp only [chain] at h1
      cases hm : P2.makeDirect r rng x with
      | error e => simp [hm] at h1
      | ok pa =>
        obtain ⟨p', a'⟩ := pa
        simp only [hm, Except.ok.injEq, Prod.mk.injEq] at h1
        obtain ⟨rfl, rfl⟩ := h1
        obtain ⟨a2, h3, h4⟩ := Option.map_eq_some_iff.1 ((BMap.get?_mapVal _ _ _).symm.trans h2)
        cases h4
        exact ⟨_, rfl, h3⟩
    · intro x hx
      have := h.noDirect x (by rw [hs.directs]; exact hx)
      exact Option.map_eq_none_iff.1 ((BMap.get?_mapVal _ _ _).symm.trans this)
    · intro x m hm
      obtain ⟨v, h1, h2⟩ := h.received x m (by rw [hs.received]; exact hm)
      simp only [chain] at h1
      cases hr : P2.receive r x m with
      | error e => simp [hr] at h1
      | ok v' =>
        simp only [hr] at h1
        cases h1
        obtain ⟨a2, h3, h4⟩ := Option.map_eq_some_iff.1 ((BMap.get?_mapVal _ _ _).symm.trans h2)
        cases h4
        exact ⟨_, rfl, h3⟩
    · intro x hx
      have := h.notReceived x (by rw [hs.received]; exact hx)
      exact Option.map_eq_none_iff.1 ((BMap.get?_mapVal _ _ _).symm.trans this)
  · intro h
    refine ⟨?_, ?_, ?_, ?_, ?_, ?_, ?_, ?_⟩
    · rw [hs.id, h.id]
      rfl
    · exact hs.comm.trans h.comm
    · intro rng p hp
      exact h.echo rng p (hs.echo.symm.trans hp)
    · intro rng p hp
      exact h.normal rng p (hs.normal.symm.trans hp)
    · intro x rng p hp
      rw [hs.directs] at hp
      obtain ⟨a, h1, h2⟩ := h.directs x rng p hp
      exact ⟨.inr a, by simp only [chain, h1], (BMap.get?_mapVal _ _ _).trans (by rw [h2]; rfl)⟩
    · intro x hx
      rw [hs.directs] at hx
      exact (BMap.get?_mapVal _ _ _).trans (by rw [h.noDirect x hx]; rfl)
    · intro x m hm
      rw [hs.received] at hm
      obtain ⟨v, h1, h2⟩ := h.received x m hm
      exact ⟨.inr v, by simp only [chain, h1], (BMap.get?_mapVal _ _ _).trans (by rw [h2]; rfl)⟩
    · intro x hx
      rw [hs.received] at hx
      exact (BMap.get?_mapVal _ _ _).trans (by rw [h.notReceived x hx]; rfl)

/-- The trace of a round of the sub-protocol, from that of the chain. -/
def RoundTrace.inner (fk : sp.Rng → sp.Rng) (id : RoundId) (c : RoundTrace sp) : RoundTrace sp :=
  { c with id := id, finRng := fk c.finRng }

theorem sameRound_inner {g : U8} {fk : sp.Rng → sp.Rng} {id : RoundId} {c : RoundTrace sp} (h : c.id = id.groupUnder g) :
    SameRound g fk c (c.inner fk id) := ⟨h, rfl, rfl, rfl, rfl, rfl, rfl⟩

theorem chain_id_one {id : sp.Id} {r : P1.Rd} {sr : Bytes} {d : J.Data} :
    ((chain P1 P2 J).transition (.one id r sr d)).id = (P1.transition r).id.groupUnder 1 := by
  simp only [chain]
  split <;> rfl

theorem chain_id_two {r : P2.Rd} :
    ((chain P1 P2 J).transition (.two r)).id = (P2.transition r).id.groupUnder 2 := rfl

/-! ## Finalization -/

theorem one_finalize {id : sp.Id} {r : P1.Rd} {sr : Bytes} {d : J.Data} {rng : sp.Rng}
    {ps : BMap sp.Id (P1.Payload ⊕ P2.Payload)} {as : BMap sp.Id (P1.Artifact ⊕ P2.Artifact)}
    {o : Outcome (ChainRd J) P2.Result} :
    (chain P1 P2 J).finalize (.one id r sr d) rng ps as = .ok o ↔
      ∃ ps' as', ps = ps'.mapVal (fun _ v => .inl v) ∧ as = as'.mapVal (fun _ v => .inl v) ∧
        ((∃ r', P1.finalize r (sp.fork rng 0) ps' as' = .ok (.anotherRound r') ∧ o = .anotherRound (.one id r' sr d)) ∨
          ∃ res r2, P1.finalize r (sp.fork rng 0) ps' as' = .ok (.result res) ∧
            J.makeRound2 d res (sp.fork rng 1) sr id = .ok r2 ∧ o = .anotherRound (.two r2)) := by
  constructor
  · intro h
    simp only [chain] at h
    cases h1 : castLeft ps with
    | error e => simp [h1] at h
    | ok ps' =>
      cases h2 : castLeft as with
      | error e => simp [h1, h2] at h
      | ok as' =>
        simp only [h1, h2] at h
        refine ⟨ps', as', castLeft_ok.1 h1, castLeft_ok.1 h2, ?_⟩
        cases h3 : P1.finalize r (sp.fork rng 0) ps' as' with
        | error e => simp [h3] at h
        | ok o1 =>
          cases o1 with
          | anotherRound r' =>
            simp only [h3, Except.ok.injEq] at h
            exact .inl ⟨r', rfl, h.symm⟩
          | result res =>
            simp only [h3] at h
            cases h4 : J.makeRound2 d res (sp.fork rng 1) sr id with
            | error e => simp [h4] at h
            | ok r2 =>
              simp only [h4, Except.ok.injEq] at h
              exact .inr ⟨res, r2, rfl, h4, h.symm⟩
  · rintro ⟨ps', as', rfl, rfl, ⟨r', h, rfl⟩ | ⟨res, r2, h, h2, rfl⟩⟩
    · simp only [chain, castLeft_inl, h]
    · simp only [chain, castLeft_inl, h, h2]

theorem two_finalize {r : P2.Rd} {rng : sp.Rng}
    {ps : BMap sp.Id (P1.Payload ⊕ P2.Payload)} {as : BMap sp.Id (P1.Artifact ⊕ P2.Artifact)}
    {o : Outcome (ChainRd J) P2.Result} :
    (chain P1 P2 J).finalize (.two r) rng ps as = .ok o ↔
      ∃ ps' as', ps = ps'.mapVal (fun _ v => .inr v) ∧ as = as'.mapVal (fun _ v => .inr v) ∧
        ((∃ r', P2.finalize r rng ps' as' = .ok (.anotherRound r') ∧ o = .anotherRound (.two r')) ∨
          ∃ res, P2.finalize r rng ps' as' = .ok (.result res) ∧ o = .result res) := by
  constructor
  · intro h
    simp only [chain] at h
    cases h1 : castRight ps with
    | error e => simp [h1] at h
    | ok ps' =>
      cases h2 : castRight as with
      | error e => simp [h1, h2] at h
      | ok as' =>
        simp only [h1, h2] at h
        refine ⟨ps', as', castRight_ok.1 h1, castRight_ok.1 h2, ?_⟩
        cases h3 : P2.finalize r rng ps' as' with
        | error e => simp [h3] at h
        | ok o1 =>
          cases o1 with
          | anotherRound r' =>
            simp only [h3, Except.ok.injEq] at h
            exact .inl ⟨r', rfl, h.symm⟩
          | result res =>
            simp only [h3, Except.ok.injEq] at h
            exact .inr ⟨res, rfl, h.symm⟩
  · rintro ⟨ps', as', rfl, rfl, ⟨r', h, rfl⟩ | ⟨res, h, rfl⟩⟩
    · simp only [chain, castRight_inr, h]
    · simp only [chain, castRight_inr, h]

/-! ## Executions -/

theorem exec_two_fwd {c : (chain P1 P2 J).Rd} {cs : List (RoundTrace sp)} {res : P2.Result}
    (h : Exec (chain P1 P2 J) c cs res) (r : P2.Rd) (hc : c = .two r) :
    ∃ ts, List.Forall₂ (SameRound 2 (fun rng => rng)) cs ts ∧ Exec P2 r ts res := by
  induction h generalizing r with
  | @last c t ps as res hp hf =>
    subst hc
    obtain ⟨ps', as', rfl, rfl, ⟨r', h, ho⟩ | ⟨res', h, ho⟩⟩ := two_finalize.1 hf
    · cases ho
    · cases ho
      have hs : SameRound 2 (fun rng => rng) t (t.inner (fun rng => rng) (P2.transition r).id) := sameRound_inner hp.id
      exact ⟨_, .cons hs .nil, .last ((performs_two hs).1 hp) h⟩
  | @step c c' t cs ps as res hp hf he ih =>
    subst hc
    obtain ⟨ps', as', rfl, rfl, ⟨r', h, ho⟩ | ⟨res', h, ho⟩⟩ := two_finalize.1 hf
    · cases ho
      have hs : SameRound 2 (fun rng => rng) t (t.inner (fun rng => rng) (P2.transition r).id) := sameRound_inner hp.id
      obtain ⟨ts, h1, h2⟩ := ih r' rfl
      exact ⟨_, .cons hs h1, .step ((performs_two hs).1 hp) h h2⟩
    · cases ho

theorem exec_two_bwd {r : P2.Rd} {cs ts : List (RoundTrace sp)} {res : P2.Result} (h : Exec P2 r ts res)
    (hs : List.Forall₂ (SameRound 2 (fun rng => rng)) cs ts) : Exec (chain P1 P2 J) (.two r) cs res := by
  induction h generalizing cs with
  | @last r t ps as res hp hf =>
    cases hs with
    | cons h1 h2 =>
      cases h2
      exact .last ((performs_two h1).2 hp) (two_finalize.2 ⟨ps, as, rfl, rfl, .inr ⟨res, by rw [← hf, h1.finRng], rfl⟩⟩)
  | @step r r' t ts ps as res hp hf he ih =>
    cases hs with
    | cons h1 h2 =>
      exact .step ((performs_two h1).2 hp)
        (two_finalize.2 ⟨ps, as, rfl, rfl, .inl ⟨r', by rw [← hf, h1.finRng], rfl⟩⟩) (ih h2)

theorem exec_one_fwd {c : (chain P1 P2 J).Rd} {cs : List (RoundTrace sp)} {res : P2.Result}
    (h : Exec (chain P1 P2 J) c cs res) (id : sp.Id) (r : P1.Rd) (sr : Bytes) (d : J.Data) (hc : c = .one id r sr d) :
    ∃ cs1 c cs2 ts1 ts2 res1 r2, cs = cs1 ++ c :: cs2 ∧
      List.Forall₂ (SameRound 1 (sp.fork · 0)) (cs1 ++ [c]) ts1 ∧ Exec P1 r ts1 res1 ∧
      J.makeRound2 d res1 (sp.fork c.finRng 1) sr id = .ok r2 ∧
      List.Forall₂ (SameRound 2 (fun rng => rng)) cs2 ts2 ∧ Exec P2 r2 ts2 res := by
  induction h generalizing r with
  | @last c t ps as res hp hf =>
    subst hc
    obtain ⟨ps', as', rfl, rfl, ⟨r', h, ho⟩ | ⟨res', r2, h, h2, ho⟩⟩ := one_finalize.1 hf
    · cases ho
    · cases ho
  | @step c c' t cs ps as res hp hf he ih =>
    subst hc
    have hid := hp.id
    rw [chain_id_one] at hid
    have hs : SameRound 1 (sp.fork · 0) t (t.inner (sp.fork · 0) (P1.transition r).id) := sameRound_inner hid
    obtain ⟨ps', as', rfl, rfl, ⟨r', h, ho⟩ | ⟨res', r2, h, h2, ho⟩⟩ := one_finalize.1 hf
    · cases ho
      obtain ⟨cs1, c, cs2, ts1, ts2, res1, r2, rfl, h1, h2, h3, h4, h5⟩ := ih r' rfl
      exact ⟨t :: cs1, c, cs2, _ :: ts1, ts2, res1, r2, rfl, .cons hs h1, .step ((performs_one hs).1 hp) h h2, h3, h4, h5⟩
    · cases ho
      obtain ⟨ts, h3, h4⟩ := exec_two_fwd he r2 rfl
      exact ⟨[], t, cs, _, ts, res', r2, rfl, .cons hs .nil, .last ((performs_one hs).1 hp) h, h2, h3, h4⟩

theorem exec_one_bwd {id : sp.Id} {r : P1.Rd} {sr : Bytes} {d : J.Data} {c : RoundTrace sp} {cs1 cs2 ts1 ts2 : List (RoundTrace sp)}
    {res1 : P1.Result} {r2 : P2.Rd} {res : P2.Result} (h1 : Exec P1 r ts1 res1)
    (hs1 : List.Forall₂ (SameRound 1 (sp.fork · 0)) (cs1 ++ [c]) ts1)
    (hj : J.makeRound2 d res1 (sp.fork c.finRng 1) sr id = .ok r2)
    (hs2 : List.Forall₂ (SameRound 2 (fun rng => rng)) cs2 ts2) (h2 : Exec P2 r2 ts2 res) :
    Exec (chain P1 P2 J) (.one id r sr d) (cs1 ++ c :: cs2) res := by
  induction h1 generalizing cs1 with
  | @last r t ps as res1 hp hf =>
    cases cs1 with
    | nil =>
      cases hs1 with
      | cons h3 h4 =>
        exact .step ((performs_one h3).2 hp) (one_finalize.2 ⟨ps, as, rfl, rfl, .inr ⟨res1, r2, by rw [← hf, h3.finRng], hj, rfl⟩⟩)
          (exec_two_bwd h2 hs2)
    | cons c1 cs1 =>
      cases hs1 with
      | cons h3 h4 =>
        have := h4.length_eq
        simp at this
  | @step r r' t ts ps as res1 hp hf he ih =>
    cases cs1 with
    | nil =>
      cases hs1 with
      | cons h3 h4 =>
        cases h4
        cases he
    | cons c1 cs1 =>
      cases hs1 with
      | cons h3 h4 =>
        exact .step ((performs_one h3).2 hp) (one_finalize.2 ⟨ps, as, rfl, rfl, .inl ⟨r', by rw [← hf, h3.finRng], rfl⟩⟩)
          (ih h4 hj)

/-! ## Arguments of finalization -/

theorem one_args {id : sp.Id} {r : P1.Rd} {sr : Bytes} {d : J.Data}
    {ps : BMap sp.Id (P1.Payload ⊕ P2.Payload)} {as : BMap sp.Id (P1.Artifact ⊕ P2.Artifact)} :
    FinalizeArgs (chain P1 P2 J) (.one id r sr d) ps as ↔
      ∃ ps' as', ps = ps'.mapVal (fun _ v => .inl v) ∧ as = as'.mapVal (fun _ v => .inl v) ∧ FinalizeArgs P1 r ps' as' := by
  constructor
  · intro h
    have hp : ∀ x w, ps.get? x = some w → ∃ v, w = .inl v ∧ ∃ m, P1.receive r x m = .ok v := by
      intro x w hx
      obtain ⟨m, hm⟩ := h.payload x w hx
      simp only [chain] at hm
      cases hr : P1.receive r x m with
      | error e => simp [hr] at hm
      | ok v =>
        simp only [hr] at hm
        cases hm
        exact ⟨v, rfl, m, hr⟩
    have ha : ∀ x w, as.get? x = some w → ∃ v, w = .inl v ∧ ∃ rng p, P1.makeDirect r rng x = .ok (p, v) := by
      intro x w hx
      obtain ⟨rng, p, hm⟩ := h.artifact x w hx
      simp only [chain] at hm
      cases hr : P1.makeDirect r rng x with
      | error e => simp [hr] at hm
      | ok v =>
        simp only [hr] at hm
        cases hm
        exact ⟨v.2, rfl, rng, v.1, hr⟩
    obtain ⟨ps', rfl⟩ : ∃ ps' : BMap sp.Id P1.Payload, ps = ps'.mapVal (fun _ v => .inl v) :=
      allLeft fun x w hx => by
        obtain ⟨v, hv, -⟩ := hp x w hx
        exact ⟨v, hv⟩
    obtain ⟨as', rfl⟩ : ∃ as' : BMap sp.Id P1.Artifact, as = as'.mapVal (fun _ v => .inl v) :=
      allLeft fun x w hx => by
        obtain ⟨v, hv, -⟩ := ha x w hx
        exact ⟨v, hv⟩
    refine ⟨ps', as', rfl, rfl, ?_, ?_, ?_, ?_⟩
    · intro x
      exact (BMap.contains_mapVal _ _ _).symm.trans (h.payloadKeys x)
    · intro x
      exact (BMap.contains_mapVal _ _ _).symm.trans (h.artifactKeys x)
    · intro x w hw
      obtain ⟨v, hv, hm⟩ := hp x (.inl w) ((BMap.get?_mapVal _ _ _).trans (by rw [hw]; rfl))
      cases hv
      exact hm
    · intro x w hw
      obtain ⟨v, hv, hm⟩ := ha x (.inl w) ((BMap.get?_mapVal _ _ _).trans (by rw [hw]; rfl))
      cases hv
      exact hm
  · rintro ⟨ps', as', rfl, rfl, h⟩
    refine ⟨?_, ?_, ?_, ?_⟩
    · intro x
      exact (BMap.contains_mapVal _ _ _).trans (h.payloadKeys x)
    · intro x
      exact (BMap.contains_mapVal _ _ _).trans (h.artifactKeys x)
    · intro x w hw
      obtain ⟨v, hv, rfl⟩ := Option.map_eq_some_iff.1 ((BMap.get?_mapVal _ _ _).symm.trans hw)
      obtain ⟨m, hm⟩ := h.payload x v hv
      exact ⟨m, by simp only [chain, hm]⟩
    · intro x w hw
      obtain ⟨v, hv, rfl⟩ := Option.map_eq_some_iff.1 ((BMap.get?_mapVal _ _ _).symm.trans hw)
      obtain ⟨rng, p, hm⟩ := h.artifact x v hv
      exact ⟨rng, p, by simp only [chain, hm]⟩

theorem two_args {r : P2.Rd} {ps : BMap sp.Id (P1.Payload ⊕ P2.Payload)} {as : BMap sp.Id (P1.Artifact ⊕ P2.Artifact)} :
    FinalizeArgs (chain P1 P2 J) (.two r) ps as ↔
      ∃ ps' as', ps = ps'.mapVal (fun _ v => .inr v) ∧ as = as'.mapVal (fun _ v => .inr v) ∧ FinalizeArgs P2 r ps' as' := by
  constructor
  · intro h
    have hp : ∀ x w, ps.get? x = some w → ∃ v, w = .inr v ∧ ∃ m, P2.receive r x m = .ok v := by
      intro x w hx
      obtain ⟨m, hm⟩ := h.payload x w hx
      simp only [chain] at hm
      cases hr : P2.receive r x m with
      | error e => simp [hr] at hm
      | ok v =>
        simp only [hr] at hm
        cases hm
        exact ⟨v, rfl, m, hr⟩
    have ha : ∀ x w, as.get? x = some w → ∃ v, w = .inr v ∧ ∃ rng p, P2.makeDirect r rng x = .ok (p, v) := by
      intro x w hx
      obtain ⟨rng, p, hm⟩ := h.artifact x w hx
      simp only [chain] at hm
      cases hr : P2.makeDirect r rng x with
      | error e => simp [hr] at hm
      | ok v =>
        simp only [hr] at hm
        cases hm
        exact ⟨v.2, rfl, rng, v.1, hr⟩
    obtain ⟨ps', rfl⟩ : ∃ ps' : BMap sp.Id P2.Payload, ps = ps'.mapVal (fun _ v => .inr v) :=
      allRight fun x w hx => by
        obtain ⟨v, hv, -⟩ := hp x w hx
        exact ⟨v, hv⟩
    obtain ⟨as', rfl⟩ : ∃ as' : BMap sp.Id P2.Artifact, as = as'.mapVal (fun _ v => .inr v) :=
      allRight fun x w hx => by
        obtain ⟨v, hv, -⟩ := ha x w hx
        exact ⟨v, hv⟩
    refine ⟨ps', as', rfl, rfl, ?_, ?_, ?_, ?_⟩
    · intro x
      exact (BMap.contains_mapVal _ _ _).symm.trans (h.payloadKeys x)
    · intro x
      exact (BMap.contains_mapVal _ _ _).symm.trans (h.artifactKeys x)
    · intro x w hw
      obtain ⟨v, hv, hm⟩ := hp x (.inr w) ((BMap.get?_mapVal _ _ _).trans (by rw [hw]; rfl))
      cases hv
      exact hm
    · intro x w hw
      obtain ⟨v, hv, hm⟩ := ha x (.inr w) ((BMap.get?_mapVal _ _ _).trans (by rw [hw]; rfl))
      cases hv
      exact hm
  · rintro ⟨ps', as', rfl, rfl, h⟩
    refine ⟨?_, ?_, ?_, ?_⟩
    · intro x
      exact (BMap.contains_mapVal _ _ _).trans (h.payloadKeys x)
    · intro x
      exact (BMap.contains_mapVal _ _ _).trans (h.artifactKeys x)
    · intro x w hw
      obtain ⟨v, hv, rfl⟩ := Option.map_eq_some_iff.1 ((BMap.get?_mapVal _ _ _).symm.trans hw)
      obtain ⟨m, hm⟩ := h.payload x v hv
      exact ⟨m, by simp only [chain, hm]⟩
    · intro x w hw
      obtain ⟨v, hv, rfl⟩ := Option.map_eq_some_iff.1 ((BMap.get?_mapVal _ _ _).symm.trans hw)
      obtain ⟨rng, p, hm⟩ := h.artifact x v hv
      exact ⟨rng, p, by simp only [chain, hm]⟩

end Manul
