import Verif.Spec.Erased
import Verif.Lemmas.Chain
import Verif.Lemmas.Reshape

/-!
# Lemmas on erased types
-/

namespace Manul

namespace Types

variable {U : Types}

theorem downcast_ok {t : U.Ty} {b : U.Any} {v : U.El t} : U.downcast t b = .ok v ↔ b = ⟨t, v⟩ := by
  obtain ⟨t', w⟩ := b
  unfold downcast
  by_cases h : t' = t
  · subst h
    simp
  · rw [dif_neg h]
    constructor
    · intro h'; cases h'
    · intro h'; cases h'; exact absurd rfl h

theorem downcast_error {t : U.Ty} {b : U.Any} {e : LErr} : U.downcast t b = .error e ↔ b.1 ≠ t ∧ e = .downcast := by
  obtain ⟨t', w⟩ := b
  unfold downcast
  by_cases h : t' = t
  · subst h
    simp
  · rw [dif_neg h]
    simp [h, eq_comm]

theorem downcastMap_ok {K : Type} [LinearOrder K] {t : U.Ty} {m : BMap K U.Any} {m' : BMap K (U.El t)} :
    U.downcastMap t m = .ok m' ↔ m = m'.mapVal (fun _ v => (⟨t, v⟩ : U.Any)) := by
  have hc := cast_ok (K := K) (A := U.El t) (S := U.Any) (inj := fun v => (⟨t, v⟩ : U.Any)) (m := m) (m' := m')
    (fun e : K × U.Any => (U.downcast t e.2).map (fun v => (e.1, v))) (by
      intro k s k' a
      cases h : U.downcast t s with
      | error e =>
        have h1 := downcast_error.1 h
        constructor
        · intro h'; cases h'
        · rintro ⟨-, rfl⟩; exact absurd rfl h1.1
      | ok v =>
        have h1 := downcast_ok.1 h
        subst h1
        simp only [Except.map, Except.ok.injEq, Prod.mk.injEq, Sigma.mk.injEq, heq_eq_eq, true_and])
  unfold downcastMap
  cases hm : mapE (fun e : K × U.Any => (U.downcast t e.2).map (fun v => (e.1, v))) m.toList with
  | error e => rw [hm] at hc; exact hc
  | ok l => rw [hm] at hc; exact hc

theorem downcastMap_all {K : Type} [LinearOrder K] {t : U.Ty} {m : BMap K U.Any} (h : ∀ x w, m.get? x = some w → w.1 = t) :
    ∃ m', U.downcastMap t m = .ok m' := by
  unfold downcastMap
  obtain ⟨l', hl'⟩ := mapE_all (l := m.toList) (f := fun e : K × U.Any => (U.downcast t e.2).map (fun v => (e.1, v))) (by
      rintro ⟨k, w⟩ hm
      have h1 := h k w (BMap.mem_toList.1 hm)
      obtain ⟨t', w⟩ := w
      cases h1
      exact ⟨(k, w), by simp only [downcast_ok.2 rfl, Except.map]⟩)
  rw [hl']
  exact ⟨_, rfl⟩

theorem noMessage_some {t : U.Ty} {v : U.El t} : U.noMessageIfEquals t = some v ↔ t = U.noMessage ∧ HEq v U.nothing := by
  unfold noMessageIfEquals
  by_cases h : U.noMessage = t
  · subst h
    simp [eq_comm]
  · rw [dif_neg h]
    simp [Ne.symm h]

theorem noMessage_none {t : U.Ty} : U.noMessageIfEquals t = none ↔ t ≠ U.noMessage := by
  unfold noMessageIfEquals
  by_cases h : U.noMessage = t
  · subst h
    simp
  · rw [dif_neg h]
    simp [Ne.symm h]

theorem isNoMessage_iff {t : U.Ty} : U.isNoMessage t = true ↔ t = U.noMessage := by
  simp [isNoMessage]

end Types

namespace Rounds

variable {sp : SP} {U : Types} {R : Rounds sp U}

theorem downcastRound_some {t : R.Tag} {r : R.Boxed} {st : R.St t} : R.downcastRound t r = some st ↔ r = ⟨t, st⟩ := by
  obtain ⟨t', w⟩ := r
  unfold downcastRound
  by_cases h : t' = t
  · subst h
    simp
  · rw [dif_neg h]
    constructor
    · intro h'; cases h'
    · intro h'; cases h'; exact absurd rfl h

theorem downcastRound_none {t : R.Tag} {r : R.Boxed} : R.downcastRound t r = none ↔ r.1 ≠ t := by
  obtain ⟨t', w⟩ := r
  unfold downcastRound
  by_cases h : t' = t
  · subst h
    simp
  · rw [dif_neg h]
    simp [h]

theorem readPart_some {k : PartKind} {t : R.Tag} {p : Part k} {v : U.El (R.msg t k)} :
    U.readPart (R.msg t k) p = some v ↔ R.Means t p v := by
  unfold Types.readPart Means
  cases h : U.noMessageIfEquals (R.msg t k) with
  | some w =>
    have h1 := Types.noMessage_some.1 h
    cases hp : p.payload with
    | none =>
      simp only [Option.isNone_none, if_true, Option.some.injEq]
      constructor
      · rintro rfl; exact .inl ⟨h1.1, h1.2, trivial⟩
      · rintro (⟨-, h2, -⟩ | ⟨h2, -⟩)
        · exact eq_of_heq (h1.2.trans h2.symm)
        · exact absurd h1.1 h2
    | some b =>
      simp [h1.1]
  | none =>
    have h1 := Types.noMessage_none.1 h
    cases hp : p.payload with
    | none => simp [h1]
    | some b => simp [h1]

/-! ## Arguments of `finalize` -/

theorem receive_type {r : R.Boxed} {x : sp.Id} {m : DynMsg} {w : U.Any} (h : R.wrap.receive r x m = .ok w) :
    ∃ v d e n, w = ⟨R.payload r.1, v⟩ ∧ R.Means r.1 m.direct d ∧ R.Means r.1 m.echo e ∧ R.Means r.1 m.normal n ∧
      R.receive r.1 r.2 x d e n = .ok v := by
  simp only [wrap, Types.wrapReceive] at h
  cases h1 : U.readPart (R.msg r.1 .direct) m.direct with
  | none => rw [h1] at h; cases h
  | some d =>
    cases h2 : U.readPart (R.msg r.1 .echo) m.echo with
    | none => rw [h1, h2] at h; cases h
    | some e =>
      cases h3 : U.readPart (R.msg r.1 .normal) m.normal with
      | none => rw [h1, h2, h3] at h; cases h
      | some n =>
        cases h4 : R.receive r.1 r.2 x d e n with
        | error err => simp only [h1, h2, h3, h4] at h; cases h
        | ok v =>
          simp only [h1, h2, h3, h4, Except.ok.injEq] at h
          exact ⟨v, d, e, n, h.symm, readPart_some.1 h1, readPart_some.1 h2, readPart_some.1 h3, h4⟩

theorem direct_type {t a : U.Ty} {made : Except LErr (U.El t × U.El a)} {p : Part .direct}
    {w : U.Any} (h : U.wrapDirect t a made = .ok (p, w)) : ∃ d v, made = .ok (d, v) ∧ w = ⟨a, v⟩ := by
  unfold Types.wrapDirect at h
  cases made with
  | error e => cases h
  | ok x =>
    obtain ⟨d, v⟩ := x
    simp only at h
    cases h2 : U.newPart .direct t d with
    | error e => rw [h2] at h; cases h
    | ok q =>
      rw [h2] at h
      cases h
      exact ⟨d, v, rfl, rfl⟩

/-- Boxed arguments made by the round and `make` are of the types of the round. -/
theorem typedArgs {t : R.Tag} {st : R.St t}
    {make : sp.Rng → sp.Id → Except LErr (U.El (R.msg t .direct) × U.El (R.artifact t))} {ps as : BMap sp.Id U.Any}
    (hpk : ∀ x, ps.contains x = (R.comm t st).expecting.contains x)
    (hak : ∀ x, as.contains x = (R.comm t st).destinations.contains x)
    (hp : ∀ x w, ps.get? x = some w → ∃ m, R.wrap.receive ⟨t, st⟩ x m = .ok w)
    (ha : ∀ x w, as.get? x = some w → ∃ rng p, U.wrapDirect (R.msg t .direct) (R.artifact t) (make rng x) = .ok (p, w)) :
    ∃ ps' as', R.TypedArgs t st make ps' as' ∧
      ∀ fin : BMap sp.Id (U.El (R.payload t)) → BMap sp.Id (U.El (R.artifact t)) → Except LErr (Outcome R.Boxed R.Result),
        U.wrapFinalize (R.payload t) (R.artifact t) fin ps as = fin ps' as' := by
  obtain ⟨ps', h1⟩ := U.downcastMap_all (t := R.payload t) (m := ps) (by
    intro x w hw
    obtain ⟨m, hm⟩ := hp x w hw
    obtain ⟨v, d, e, n, rfl, -⟩ := receive_type hm
    rfl)
  obtain ⟨as', h2⟩ := U.downcastMap_all (t := R.artifact t) (m := as) (by
    intro x w hw
    obtain ⟨rng, p, hm⟩ := ha x w hw
    obtain ⟨d, a, -, rfl⟩ := direct_type hm
    rfl)
  refine ⟨ps', as', ⟨?_, ?_, ?_, ?_⟩, ?_⟩
  · intro x
    rw [← hpk, Types.downcastMap_ok.1 h1, BMap.contains_mapVal]
  · intro x
    rw [← hak, Types.downcastMap_ok.1 h2, BMap.contains_mapVal]
  · intro x v hv
    obtain ⟨m, hm⟩ := hp x ⟨_, v⟩ (by rw [Types.downcastMap_ok.1 h1, BMap.get?_mapVal, hv]; rfl)
    obtain ⟨v', d, e, n, hv', h3, h4, h5, h6⟩ := receive_type hm
    cases hv'
    exact ⟨m, d, e, n, h3, h4, h5, h6⟩
  · intro x v hv
    obtain ⟨rng, p, hm⟩ := ha x ⟨_, v⟩ (by rw [Types.downcastMap_ok.1 h2, BMap.get?_mapVal, hv]; rfl)
    obtain ⟨d, a, h3, h4⟩ := direct_type hm
    cases h4
    exact ⟨rng, d, h3⟩
  · intro fin
    simp only [Types.wrapFinalize, h1, h2]

/-! ## Merged types -/

theorem typed_newPart {k : PartKind} {t : R.Tag} {v : U.El (R.msg t k)} :
    R.typed.newPart k t ⟨R.msg t k, v⟩ = U.newPart k (R.msg t k) v := by
  simp only [TypedProto.newPart, Types.newPart, typed]
  by_cases h : U.isNoMessage (R.msg t k) = true
  · simp only [h, if_true]
  · simp only [h, Bool.false_eq_true, if_false]
    cases U.ser (R.msg t k) v <;> rfl

theorem typed_readPart_none {k : PartKind} {t : R.Tag} {p : Part k} :
    R.typed.readPart (k := k) t p = none ↔ U.readPart (R.msg t k) p = none := by
  simp only [TypedProto.readPart, Types.readPart, typed]
  by_cases h : U.isNoMessage (R.msg t k) = true
  · have h1 := Types.isNoMessage_iff.1 h
    obtain ⟨v, hv⟩ : ∃ v, U.noMessageIfEquals (R.msg t k) = some v := by
      cases hn : U.noMessageIfEquals (R.msg t k) with
      | some v => exact ⟨v, rfl⟩
      | none => exact absurd h1 (Types.noMessage_none.1 hn)
    rw [hv]
    cases p.payload <;> simp [h]
  · rw [Types.noMessage_none.2 (fun h' => h (Types.isNoMessage_iff.2 h'))]
    simp only [h, Bool.false_eq_true, if_false]
    cases p.payload with
    | none => simp
    | some b =>
      simp only
      cases U.de (R.msg t k) b <;> simp

theorem typed_readPart_some {k : PartKind} {t : R.Tag} {p : Part k} {o : Option U.Any}
    (h : R.typed.readPart (k := k) t p = some o) :
    ∃ v, U.readPart (R.msg t k) p = some v ∧ R.unpack t k o = .ok v := by
  simp only [TypedProto.readPart, typed] at h
  by_cases hn : U.isNoMessage (R.msg t k) = true
  · have h1 := Types.isNoMessage_iff.1 hn
    obtain ⟨v, hv⟩ : ∃ v, U.noMessageIfEquals (R.msg t k) = some v := by
      cases hn : U.noMessageIfEquals (R.msg t k) with
      | some v => exact ⟨v, rfl⟩
      | none => exact absurd h1 (Types.noMessage_none.1 hn)
    simp only [hn, if_true] at h
    cases hp : p.payload with
    | some b => rw [hp] at h; cases h
    | none =>
      rw [hp] at h
      cases h
      exact ⟨v, by simp only [Types.readPart, hv, hp, Option.isNone_none, if_true], by simp only [unpack, hv, okOr]⟩
  · simp only [hn, Bool.false_eq_true, if_false] at h
    cases hp : p.payload with
    | none => rw [hp] at h; cases h
    | some b =>
      rw [hp] at h
      simp only at h
      cases hd : U.de (R.msg t k) b with
      | none => rw [hd] at h; cases h
      | some v =>
        rw [hd] at h
        cases h
        exact ⟨v, by simp only [Types.readPart, Types.noMessage_none.2 (fun h' => hn (Types.isNoMessage_iff.2 h')), hp, hd],
          Types.downcast_ok.2 rfl⟩

theorem typed_partInvalid {k : PartKind} {t : R.Tag} {p : Part k} :
    R.typed.partInvalid (k := k) t p = U.partInvalid (R.msg t k) p := by
  simp only [TypedProto.partInvalid, Types.partInvalid, typed]
  by_cases h : U.isNoMessage (R.msg t k) = true
  · simp only [h, if_true]
  · simp only [h, Bool.false_eq_true, if_false]
    cases p.payload with
    | none => rfl
    | some b =>
      simp only
      cases U.de (R.msg t k) b <;> rfl

theorem typed_infoOf {t : R.Tag} : R.typed.infoOf t = R.infoOf t := by
  unfold TypedProto.infoOf infoOf
  congr 1
  · funext p; exact typed_partInvalid
  · funext p; exact typed_partInvalid
  · funext p; exact typed_partInvalid
  · funext rid err guilty sid shared msg prev comb
    simp only [Types.wrapVerify, typed]
    cases U.de (R.error t) err <;> rfl

theorem typed_receive {r : R.Boxed} {x : sp.Id} {m : DynMsg} : R.typed.wrapReceive r x m = R.wrap.receive r x m := by
  show R.typed.wrapReceive r x m = U.wrapReceive (R.msg r.1 .direct) (R.msg r.1 .echo) (R.msg r.1 .normal) (R.payload r.1)
      (U.boxErr (R.error r.1) (fun e => R.required r.1 e (R.transition r.1 r.2).id)) (R.receive r.1 r.2 x) m
  unfold TypedProto.wrapReceive Types.wrapReceive
  rw [show R.typed.tag r = r.1 from rfl]
  cases h1 : R.typed.readPart r.1 m.direct with
  | none => rw [typed_readPart_none.1 h1]; rfl
  | some o1 =>
    obtain ⟨d, hd, hd'⟩ := typed_readPart_some h1
    cases h2 : R.typed.readPart r.1 m.echo with
    | none => simp only [hd, typed_readPart_none.1 h2]; rfl
    | some o2 =>
      obtain ⟨e, he, he'⟩ := typed_readPart_some h2
      cases h3 : R.typed.readPart r.1 m.normal with
      | none => simp only [hd, he, typed_readPart_none.1 h3]; rfl
      | some o3 =>
        obtain ⟨n, hn, hn'⟩ := typed_readPart_some h3
        simp only [hd, he, hn]
        simp only [typed, hd', he', hn']
        cases R.receive r.1 r.2 x d e n with
        | ok v => rfl
        | error err => cases err <;> rfl

theorem typed_wrap : R.typed.wrap = R.wrap := by
  have h1 : R.typed.wrap.makeDirect = R.wrap.makeDirect := by
    funext r rng d
    refine Eq.trans ?_ (show U.wrapDirect (R.msg r.1 .direct) (R.artifact r.1) (R.makeDirect r.1 r.2 rng d) =
      R.wrap.makeDirect r rng d from rfl)
    cases hm : R.makeDirect r.1 r.2 rng d with
    | error e =>
      have hm' : R.typed.makeDirect r rng d = .error e := by simp only [typed, hm]
      simp only [TypedProto.wrap, hm', Types.wrapDirect]
      rfl
    | ok v =>
      have hm' : R.typed.makeDirect r rng d = .ok (⟨R.msg r.1 .direct, v.1⟩, ⟨R.artifact r.1, v.2⟩) := by
        simp only [typed, hm]
      have hn : R.typed.newPart .direct (R.typed.tag r) ⟨R.msg r.1 .direct, v.1⟩ = U.newPart .direct (R.msg r.1 .direct) v.1 :=
        typed_newPart
      simp only [TypedProto.wrap, hm', Types.wrapDirect, hn]
      cases U.newPart .direct (R.msg r.1 .direct) v.1 <;> rfl
  have h2 : R.typed.wrap.makeEcho = R.wrap.makeEcho := by
    funext r rng
    refine Eq.trans ?_ (show U.wrapBroadcast .echo (R.msg r.1 .echo) (R.makeEcho r.1 r.2 rng) =
      R.wrap.makeEcho r rng from rfl)
    cases hm : R.makeEcho r.1 r.2 rng with
    | error e =>
      have hm' : R.typed.makeEcho r rng = .error e := by simp only [typed, hm]
      simp only [TypedProto.wrap, hm', Types.wrapBroadcast]
    | ok v =>
      have hm' : R.typed.makeEcho r rng = .ok ⟨R.msg r.1 .echo, v⟩ := by simp only [typed, hm]
      simp only [TypedProto.wrap, hm', Types.wrapBroadcast]
      exact typed_newPart
  have h3 : R.typed.wrap.makeNormal = R.wrap.makeNormal := by
    funext r rng
    refine Eq.trans ?_ (show U.wrapBroadcast .normal (R.msg r.1 .normal) (R.makeNormal r.1 r.2 rng) =
      R.wrap.makeNormal r rng from rfl)
    cases hm : R.makeNormal r.1 r.2 rng with
    | error e =>
      have hm' : R.typed.makeNormal r rng = .error e := by simp only [typed, hm]
      simp only [TypedProto.wrap, hm', Types.wrapBroadcast]
    | ok v =>
      have hm' : R.typed.makeNormal r rng = .ok ⟨R.msg r.1 .normal, v⟩ := by simp only [typed, hm]
      simp only [TypedProto.wrap, hm', Types.wrapBroadcast]
      exact typed_newPart
  have h4 : R.typed.wrap.receive = R.wrap.receive := by
    funext r x m
    exact typed_receive
  have h5 : R.typed.wrap.roundInfo = R.wrap.roundInfo := by
    funext rid
    show (R.roundTag rid).map R.typed.infoOf = (R.roundTag rid).map R.infoOf
    cases R.roundTag rid with
    | none => rfl
    | some t => exact congrArg some typed_infoOf
  exact congr (congrFun (congr (congr (congr (congr (rfl :
    Proto.mk (sp := sp) R.Boxed U.Any U.Any R.Result R.Shared R.wrap.transition R.wrap.comm = _) h1) h2) h3) h4) _) h5

/-! ## Extensions -/

theorem register_extMap (f : R.TypedExts) (t : R.Tag) (e : R.TypedExt t) :
    R.register (R.extMap f) t e =
      R.extMap (fun t' => letI := R.decTag; if h : t = t' then some (h ▸ e) else f t') := by
  let _ := R.decTag
  funext t'
  unfold register extMap
  by_cases h : t' = t
  · subst h
    simp
  · simp [h, Ne.symm h]

/-- The round object of a round: extended if there is an extension for its type. -/
def extOf (f : R.TypedExts) (r : R.Boxed) : R.ExtRound :=
  match f r.1 with
  | some e => .extended r.1 r.2 e (R.extMap f)
  | none => .passthrough r (R.extMap f)

theorem wrapRound_extMap (f : R.TypedExts) (r : R.Boxed) : R.wrapRound r (R.extMap f) = .ok (extOf f r) := by
  unfold wrapRound extOf
  cases h : f r.1 with
  | none =>
    rw [show R.extMap f r.1 = none from by simp only [extMap, h]]
  | some e =>
    rw [show R.extMap f r.1 = some ⟨r.1, e⟩ from by simp only [extMap, h]]
    simp only [extendRound, show R.downcastRound r.1 r = some r.2 from downcastRound_some.2 rfl, okOr]

theorem extOf_inner (f : R.TypedExts) (r : R.Boxed) : (extOf f r).inner = r := by
  unfold extOf
  cases f r.1 <;> rfl

/-- The round objects of the protocol run through `ExtendableEntryPoint`, as other round objects of the overridden
protocol. -/
def reshape (f : R.TypedExts) : Reshape (R.overridden f).wrap where
  Rd := R.ExtRound
  transition := R.extended.transition
  comm := R.extended.comm
  makeDirect := R.extended.makeDirect
  makeEcho := R.extended.makeEcho
  makeNormal := R.extended.makeNormal
  receive := R.extended.receive
  finalize := R.extended.finalize
  rd := extOf f

theorem wrapOutcome_extMap (f : R.TypedExts) (o : Outcome R.Boxed R.Result) :
    R.wrapOutcome (R.extMap f) o = .ok ((reshape f).oc o) := by
  cases o with
  | result r => rfl
  | anotherRound r => simp only [wrapOutcome, wrapRound_extMap]; rfl

theorem reshape_ok (f : R.TypedExts) : (reshape f).Ok where
  transition := fun r => congrArg R.wrap.transition (extOf_inner f r)
  comm := fun r => congrArg R.wrap.comm (extOf_inner f r)
  receive := fun r x m => congrArg (fun r => R.wrap.receive r x m) (extOf_inner f r)
  makeDirect := fun r rng d => by
    show R.extended.makeDirect (extOf f r) rng d =
      U.wrapDirect (R.msg r.1 .direct) (R.artifact r.1) ((R.overridden f).makeDirect r.1 r.2 rng d)
    unfold extOf overridden
    cases h : f r.1 <;> simp only [h] <;> rfl
  makeEcho := fun r rng => by
    show R.extended.makeEcho (extOf f r) rng =
      U.wrapBroadcast .echo (R.msg r.1 .echo) ((R.overridden f).makeEcho r.1 r.2 rng)
    unfold extOf overridden
    cases h : f r.1 <;> simp only [h] <;> rfl
  makeNormal := fun r rng => by
    show R.extended.makeNormal (extOf f r) rng =
      U.wrapBroadcast .normal (R.msg r.1 .normal) ((R.overridden f).makeNormal r.1 r.2 rng)
    unfold extOf overridden
    cases h : f r.1 <;> simp only [h] <;> rfl
  finalize := fun r rng ps as => by
    show R.extended.finalize (extOf f r) rng ps as =
      (U.wrapFinalize (R.payload r.1) (R.artifact r.1) ((R.overridden f).finalize r.1 r.2 rng) ps as).map (reshape f).oc
    unfold extOf overridden
    cases h : f r.1 with
    | none =>
      simp only [h]
      show (match U.wrapFinalize (R.payload r.1) (R.artifact r.1) (R.finalize r.1 r.2 rng) ps as with
        | .error err => _
        | .ok o => R.wrapOutcome (R.extMap f) o) = _
      cases U.wrapFinalize (R.payload r.1) (R.artifact r.1) (R.finalize r.1 r.2 rng) ps as with
      | error e => rfl
      | ok o => exact wrapOutcome_extMap f o
    | some e =>
      simp only [h]
      show (match U.wrapFinalize (R.payload r.1) (R.artifact r.1) (e.finalize r.2 rng) ps as with
        | .error err => _
        | .ok o => R.wrapOutcome (R.extMap f) o) = _
      cases U.wrapFinalize (R.payload r.1) (R.artifact r.1) (e.finalize r.2 rng) ps as with
      | error e => rfl
      | ok o => exact wrapOutcome_extMap f o

end Rounds

end Manul
