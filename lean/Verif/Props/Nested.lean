import Verif.Spec.Nested
import Verif.Props.Chain
import Verif.Props.Accused
import Verif.Props.ChainNet
import Verif.Lemmas.SimpleEvidence

/-!
# C75: what has been proved about networks applies to chained protocols
-/

namespace Manul

variable {sp : SP} {P P1 P2 : Proto sp} {J : ChainJoin P1 P2}

/-! ## Chains -/

theorem chain_children_two {r : P2.Rd} {k : RoundId} :
    ((chain P1 P2 J).transition (.two r)).children.contains k = true ↔
      ∃ c, (P2.transition r).children.contains c = true ∧ c.groupUnder 2 = k := by
  rw [show ((chain P1 P2 J).transition (.two r)).children =
    TransitionInfo.mapSet (·.groupUnder 2) (P2.transition r).children from rfl, contains_mapSet]

/-- How the rounds of a chain declare each other. -/
theorem chain_childOf {a b : RoundId} (h : ChildOf (chain P1 P2 J) a b) :
    (∃ a' b' : RoundId, a = a'.groupUnder 1 ∧ b = b'.groupUnder 1 ∧ ChildOf P1 a' b') ∨
      (∃ a' : RoundId, a = a'.groupUnder 1 ∧ b = J.entryRoundId.groupUnder 2) ∨
      (∃ a' b' : RoundId, a = a'.groupUnder 2 ∧ b = b'.groupUnder 2 ∧ ChildOf P2 a' b') := by
  obtain ⟨c, rfl, hb⟩ := h
  cases c with
  | one id r sr d =>
    rw [chain_id_one]
    rcases chain_children_one.1 hb with ⟨c, hc, rfl⟩ | ⟨-, rfl⟩
    · exact .inl ⟨_, _, rfl, rfl, r, rfl, hc⟩
    · exact .inr (.inl ⟨_, rfl, rfl⟩)
  | two r =>
    rw [chain_id_two]
    obtain ⟨c, hc, rfl⟩ := chain_children_two.1 hb
    exact .inr (.inr ⟨_, _, rfl, rfl, r, rfl, hc⟩)

theorem chain_path {a b : RoundId} (h : Relation.TransGen (ChildOf (chain P1 P2 J)) a b) :
    (∃ a' b' : RoundId, a = a'.groupUnder 1 ∧ b = b'.groupUnder 1 ∧ Relation.TransGen (ChildOf P1) a' b') ∨
      (∃ a' b' : RoundId, a = a'.groupUnder 1 ∧ b = b'.groupUnder 2) ∨
      (∃ a' b' : RoundId, a = a'.groupUnder 2 ∧ b = b'.groupUnder 2 ∧ Relation.TransGen (ChildOf P2) a' b') := by
  have h12 : (1 : U8) ≠ 2 := by decide
  induction h with
  | single h =>
    rcases chain_childOf h with ⟨a', b', h1, h2, h3⟩ | ⟨a', h1, h2⟩ | ⟨a', b', h1, h2, h3⟩
    · exact .inl ⟨a', b', h1, h2, .single h3⟩
    · exact .inr (.inl ⟨a', _, h1, h2⟩)
    · exact .inr (.inr ⟨a', b', h1, h2, .single h3⟩)
  | tail _ h ih =>
    rcases ih with ⟨a', b', h1, rfl, h3⟩ | ⟨a', b', h1, rfl⟩ | ⟨a', b', h1, rfl, h3⟩
    · rcases chain_childOf h with ⟨x, y, h4, h5, h6⟩ | ⟨x, h4, h5⟩ | ⟨x, y, h4, h5, h6⟩
      · obtain ⟨rfl, -⟩ := C33_group_injective _ _ _ _ h4
        exact .inl ⟨a', y, h1, h5, .tail h3 h6⟩
      · exact .inr (.inl ⟨a', _, h1, h5⟩)
      · exact absurd (C33_group_injective _ _ _ _ h4).2 h12
    · rcases chain_childOf h with ⟨x, y, h4, h5, h6⟩ | ⟨x, h4, h5⟩ | ⟨x, y, h4, h5, h6⟩
      · exact absurd (C33_group_injective _ _ _ _ h4).2.symm h12
      · exact absurd (C33_group_injective _ _ _ _ h4).2.symm h12
      · exact .inr (.inl ⟨a', y, h1, h5⟩)
    · rcases chain_childOf h with ⟨x, y, h4, h5, h6⟩ | ⟨x, h4, h5⟩ | ⟨x, y, h4, h5, h6⟩
      · exact absurd (C33_group_injective _ _ _ _ h4).2.symm h12
      · exact absurd (C33_group_injective _ _ _ _ h4).2.symm h12
      · obtain ⟨rfl, -⟩ := C33_group_injective _ _ _ _ h4
        exact .inr (.inr ⟨a', y, h1, h5, .tail h3 h6⟩)

/-- C75: a chain of two protocols whose round graphs have no cycles has none. -/
theorem C75_acyclic (h1 : Acyclic P1) (h2 : Acyclic P2) : Acyclic (chain P1 P2 J) := by
  intro a h
  rcases chain_path h with ⟨a', b', e1, e2, h3⟩ | ⟨a', b', e1, e2⟩ | ⟨a', b', e1, e2, h3⟩
  · obtain ⟨rfl, -⟩ := C33_group_injective _ _ _ _ (e1.symm.trans e2)
    exact h1 _ h3
  · exact absurd (C33_group_injective _ _ _ _ (e1.symm.trans e2)).2 (by decide)
  · obtain ⟨rfl, -⟩ := C33_group_injective _ _ _ _ (e1.symm.trans e2)
    exact h2 _ h3

/-- C75: a chain of two protocols that do not use the ids of echo rounds does not use them. -/
theorem C75_mainIds (h1 : MainIds P1) (h2 : MainIds P2) : MainIds (chain P1 P2 J) := by
  intro c
  cases c with
  | one id r sr d => rw [chain_id_one]; exact h1 r
  | two r => rw [chain_id_two]; exact h2 r

/-- C75: a chain of two protocols insisting on echo broadcasts insists on them. -/
theorem C75_strict (h1 : EchoStrict P1) (h2 : EchoStrict P2) : EchoStrict (chain P1 P2 J) := by
  intro c x m v hf hr
  cases c with
  | one id r sr d =>
    simp only [chain] at hr
    cases hrc : P1.receive r x m with
    | error e => simp [hrc] at hr
    | ok w => exact h1 r x m w hf hrc
  | two r =>
    simp only [chain] at hr
    cases hrc : P2.receive r x m with
    | error e => simp [hrc] at hr
    | ok w => exact h2 r x m w hf hrc

/-- C75: a chain of two protocols not returning the errors of echo rounds does not return them. -/
theorem C75_noEchoErr (h1 : NoEchoErr P1) (h2 : NoEchoErr P2) : NoEchoErr (chain P1 P2 J) := by
  intro c x m err h
  cases c with
  | one id r sr d =>
    simp only [chain] at h
    cases hrc : P1.receive r x m with
    | ok w => simp [hrc] at h
    | error e =>
      simp only [hrc, Except.error.injEq] at h
      cases e <;> simp only [RecvErr.groupUnder, reduceCtorEq] at h
      exact h1 r x m _ hrc
  | two r =>
    simp only [chain] at h
    cases hrc : P2.receive r x m with
    | ok w => simp [hrc] at h
    | error e =>
      simp only [hrc, Except.error.injEq] at h
      cases e <;> simp only [RecvErr.groupUnder, reduceCtorEq] at h
      exact h2 r x m _ hrc

theorem path_under {Q : Proto sp} {g : U8} (h : ∀ a b, ChildOf P a b → ChildOf Q (a.groupUnder g) (b.groupUnder g)) {a b : RoundId}
    (hp : Relation.TransGen (ChildOf P) a b) : Relation.TransGen (ChildOf Q) (a.groupUnder g) (b.groupUnder g) := by
  induction hp with
  | single h1 => exact .single (h _ _ h1)
  | tail _ h1 ih => exact .tail ih (h _ _ h1)

/-- C75: what the results about networks ask of a protocol holds of a chain exactly if it holds of both parts. -/
theorem C75_chain_iff [Nonempty sp.Id] [Nonempty J.Data] :
    NetReady (chain P1 P2 J) ↔ NetReady P1 ∧ NetReady P2 := by
  obtain ⟨i⟩ := ‹Nonempty sp.Id›
  obtain ⟨d⟩ := ‹Nonempty J.Data›
  refine ⟨fun h => ⟨⟨?_, ?_, ?_, ?_⟩, ⟨?_, ?_, ?_, ?_⟩⟩, fun ⟨h1, h2⟩ => ⟨C75_mainIds h1.mainIds h2.mainIds,
    C75_acyclic h1.acyclic h2.acyclic, C75_strict h1.strict h2.strict, C75_noEchoErr h1.noEchoErr h2.noEchoErr⟩⟩
  · intro r
    have := h.mainIds (.one i r [] d)
    rw [chain_id_one] at this
    exact this
  · intro a ha
    refine h.acyclic (a.groupUnder 1) (path_under ?_ ha)
    rintro _ b ⟨r, rfl, hb⟩
    exact ⟨.one i r [] d, chain_id_one, chain_children_one.2 (.inl ⟨b, hb, rfl⟩)⟩
  · intro r x m v hf hr
    exact h.strict (.one i r [] d) x m (.inl v) hf (by simp [chain, hr])
  · intro r x m err hr
    exact h.noEchoErr (.one i r [] d) x m err (by simp [chain, hr, RecvErr.groupUnder])
  · intro r
    exact h.mainIds (.two r)
  · intro a ha
    refine h.acyclic (a.groupUnder 2) (path_under ?_ ha)
    rintro _ b ⟨r, rfl, hb⟩
    exact ⟨.two r, chain_id_two, chain_children_two.2 ⟨b, hb, rfl⟩⟩
  · intro r x m v hf hr
    exact h.strict (.two r) x m (.inr v) hf (by simp [chain, hr])
  · intro r x m err hr
    exact h.noEchoErr (.two r) x m err (by simp [chain, hr, RecvErr.groupUnder])

/-- C75: to any depth. -/
theorem C75_nested {Base : Proto sp → Prop} (hb : ∀ Q, Base Q → NetReady Q) (h : Nested Base P) : NetReady P := by
  induction h with
  | base h => exact hb _ h
  | chain J _ _ ih1 ih2 =>
    exact ⟨C75_mainIds ih1.mainIds ih2.mainIds, C75_acyclic ih1.acyclic ih2.acyclic, C75_strict ih1.strict ih2.strict,
      C75_noEchoErr ih1.noEchoErr ih2.noEchoErr⟩

/-- C75: in a network controlled by somebody else, running a protocol made of others by chaining, the evidence in the report of a
party following the protocol does not accuse such a party on the word of one that follows it, and convinces everybody, as long as
messages of parties following the protocol are not refused. -/
theorem C75_network {Base : Proto sp → Prop} (hb : ∀ Q, Base Q → NetReady Q) (hP : Nested Base P) (rt : sp.EchoRoundTrip)
    (mt : sp.MetaTotal) {g : Group P} {H : sp.Id → Prop} (hkey : ∀ i, H i → sp.verifyingKey (g.signer i) = i) {n : Net P}
    (h : OpenSteps g H Net.init n) {i x : sp.Id} (hi : H i) (hx : H x) (hacc : ¬ Refused g i x) {rep : Report P}
    (hn : n.node i = some (.done (.ok rep))) {ev : Evidence sp} (hev : rep.provable.get? x = some ev) (shared : P.Shared) :
    ¬ H ev.guilty ∧ ev.verify P shared = .ok () := by
  have hr := C75_nested hb hP
  exact C72_no_blame rt mt hr.strict hr.mainIds hr.acyclic hkey h hi hx hacc hn hev shared

theorem simple_netReady {fmt : SimpleFormat} {checks : Bool} : NetReady (simple sp fmt checks).wrap :=
  ⟨simple_mainIds, simple_acyclic, simple_strict, typed_noEchoErr _⟩

/-- C75: the example protocol `simple_chain`, and chains of it. -/
theorem C75_simple_chain {fmt : SimpleFormat} {checks : Bool} : NetReady (doubleSimple sp fmt checks) :=
  C75_nested (Base := fun Q => Q = (simple sp fmt checks).wrap) (fun _ h => h ▸ simple_netReady)
    (.chain _ (.base rfl) (.base rfl))

/-! ## Extensions -/

variable {Tag : Type} {ty : P.Rd → Option Tag}

/-- C75: extended rounds have the ids, the children and the errors of the original ones. -/
theorem C75_extend : (MainIds (extend P ty) ↔ MainIds P) ∧ (Acyclic (extend P ty) ↔ Acyclic P) ∧
    (NoEchoErr (extend P ty) ↔ NoEchoErr P) := by
  have hc : ChildOf (extend P ty) = ChildOf P := by
    funext a b
    refine propext ⟨?_, ?_⟩
    · rintro ⟨r, h1, h2⟩
      exact ⟨r.inner, h1, h2⟩
    · rintro ⟨r, h1, h2⟩
      exact ⟨⟨r, none, fun _ => none⟩, h1, h2⟩
  refine ⟨⟨fun h r => h ⟨r, none, fun _ => none⟩, fun h r => h r.inner⟩, ?_,
    ⟨fun h r => h ⟨r, none, fun _ => none⟩, fun h r => h r.inner⟩⟩
  unfold Acyclic
  rw [hc]

/-- C75: a party running with extensions may send an echo broadcast in any round that allows one, and its session then starts an
echo round whatever the original round does.  So a protocol insists on echo broadcasts in spite of all extensions exactly if it
insists on them in all rounds whose messages may be echoed. -/
theorem C75_extend_strict_iff [Nonempty sp.Rng] : EchoStrict (extend P ty) ↔ EchoAlways P := by
  obtain ⟨rng⟩ := ‹Nonempty sp.Rng›
  refine ⟨?_, ?_⟩
  · intro h r x m v hp hr
    refine h ⟨r, some { Ext.default P with makeEcho := fun _ _ => .ok ⟨some []⟩ }, fun _ => none⟩ x m v ?_ hr
    rcases hp with hp | hp
    · exact .inr ⟨hp, rng, ⟨some []⟩, rfl, rfl⟩
    · exact .inl hp
  · intro h r x m v hf hr
    refine h r.inner x m v ?_ hr
    rcases hf with hf | ⟨hf, -⟩
    · exact .inr hf
    · exact .inl hf

/-- C75: the two differ: the example protocol without echo broadcasts insists on echo broadcasts where echo
rounds follow (nowhere), but not when run with extensions. -/
theorem C75_extend_not_strict : EchoStrict (demo false 2).wrap ∧ ∀ (Tag : Type) (ty : (demo false 2).wrap.Rd → Option Tag),
    ¬ EchoStrict (extend (demo false 2).wrap ty) := by
  refine ⟨demo_strict _ _, fun Tag ty h => ?_⟩
  have : Nonempty toy.Rng := ⟨(0 : Nat)⟩
  have h' := C75_extend_strict_iff.1 h (⟨1, BSet.ofList [2], 1, 0⟩ : DemoSt) (2 : U8) ⟨⟨none⟩, ⟨some [1]⟩, ⟨some [1]⟩⟩ (2 : Nat)
    (.inl rfl) (by rfl)
  simp [Part.isNone] at h'

/-! ### Examples -/

/-- A chain of the example protocol with echo broadcasts, the one without, and again the first, nested to the left and to the
right. -/
example (J : ChainJoin (demo true 2).wrap (demo false 1).wrap) (K : ChainJoin (chain _ _ J) (demo true 3).wrap)
    (L : ChainJoin (demo true 255).wrap (chain _ _ K)) : NetReady (chain _ _ L) :=
  C75_nested (Base := fun Q => ∃ e last, Q = (demo e last).wrap)
    (by
      rintro Q ⟨e, last, rfl⟩
      exact ⟨demo_mainIds e last, demo_acyclic e last, demo_strict e last, typed_noEchoErr _⟩)
    (.chain _ (.base ⟨_, _, rfl⟩) (.chain _ (.chain _ (.base ⟨_, _, rfl⟩) (.base ⟨_, _, rfl⟩)) (.base ⟨_, _, rfl⟩)))

end Manul
