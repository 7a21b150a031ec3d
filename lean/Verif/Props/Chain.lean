import Verif.Lemmas.Chain
import Verif.Spec.Chain
import Verif.Props.Crash
import Verif.Props.Exec

/-!
# Properties of the chain combinator

* C37: executing a chain is executing the first protocol and then the second.
* C38: ids of the two sub-protocols do not clash, and evidence is checked by the sub-protocol it belongs to.
* C39: a chain only takes declared transitions.
-/

namespace Manul

variable {sp : SP} {P1 P2 : Proto sp} {J : ChainJoin P1 P2}

/-! ## C37 -/

/-- C37: the executions of a chain are exactly those consisting of an execution of the first protocol and an execution of the
second from the round made out of the first result.  Round by round the messages made, received and expected are the same, and
the result of the chain is that of the second protocol. -/
theorem C37_chain_executions (id : sp.Id) (r : P1.Rd) (sr : Bytes) (d : J.Data) (cs : List (RoundTrace sp))
    (res : P2.Result) :
    Exec (chain P1 P2 J) (.one id r sr d) cs res ↔
      ∃ cs1 c cs2 ts1 ts2 res1 r2, cs = cs1 ++ c :: cs2 ∧
        List.Forall₂ (SameRound 1 (sp.fork · 0)) (cs1 ++ [c]) ts1 ∧ Exec P1 r ts1 res1 ∧
        J.makeRound2 d res1 (sp.fork c.finRng 1) sr id = .ok r2 ∧
        List.Forall₂ (SameRound 2 (fun rng => rng)) cs2 ts2 ∧ Exec P2 r2 ts2 res := by
  constructor
  · intro h
    exact exec_one_fwd h id r sr d rfl
  · rintro ⟨cs1, c, cs2, ts1, ts2, res1, r2, rfl, h1, h2, h3, h4, h5⟩
    exact exec_one_bwd h2 h1 h3 h4 h5

/-- C37: after the change to the second protocol the executions are those of the second protocol. -/
theorem C37_second_executions (r : P2.Rd) (cs : List (RoundTrace sp)) (res : P2.Result) :
    Exec (chain P1 P2 J) (.two r) cs res ↔
      ∃ ts, List.Forall₂ (SameRound 2 (fun rng => rng)) cs ts ∧ Exec P2 r ts res := by
  constructor
  · intro h
    exact exec_two_fwd h r rfl
  · rintro ⟨ts, h1, h2⟩
    exact exec_two_bwd h2 h1

/-- C37: a chain starts in the first round of the first protocol, and fails to start exactly if that does. -/
theorem C37_entry (ep : EntryPoint P1) (d : J.Data) (rng : sp.Rng) (sr : Bytes) (me : sp.Id) :
    (chainEntry (J := J) ep d).entryRoundId = ep.entryRoundId.groupUnder 1 ∧
      (∀ r, ep.makeRound rng sr me = .ok r → (chainEntry (J := J) ep d).makeRound rng sr me = .ok (.one me r sr d)) ∧
      ∀ e, ep.makeRound rng sr me = .error e → (chainEntry (J := J) ep d).makeRound rng sr me = .error e := by
  refine ⟨rfl, ?_, ?_⟩
  · intro r h
    simp only [chainEntry, h]
  · intro e h
    simp only [chainEntry, h]

/-- C37: also what fails in the chain is what fails in the sub-protocol: messages, and finalization of the first protocol's rounds,
where making the second protocol's first round can fail in addition. -/
theorem C37_first_failures (id : sp.Id) (r : P1.Rd) (sr : Bytes) (d : J.Data) (rng : sp.Rng) (e : LErr) :
    ((chain P1 P2 J).makeEcho (.one id r sr d) rng = .error e ↔ P1.makeEcho r rng = .error e) ∧
    ((chain P1 P2 J).makeNormal (.one id r sr d) rng = .error e ↔ P1.makeNormal r rng = .error e) ∧
    (∀ x, (chain P1 P2 J).makeDirect (.one id r sr d) rng x = .error e ↔ P1.makeDirect r rng x = .error e) ∧
    ∀ ps as, (chain P1 P2 J).finalize (.one id r sr d) rng (ps.mapVal fun _ v => .inl v) (as.mapVal fun _ v => .inl v) = .error e ↔
      P1.finalize r (sp.fork rng 0) ps as = .error e ∨
        ∃ res, P1.finalize r (sp.fork rng 0) ps as = .ok (.result res) ∧
          J.makeRound2 d res (sp.fork rng 1) sr id = .error e := by
  refine ⟨Iff.rfl, Iff.rfl, ?_, ?_⟩
  · intro x
    simp only [chain]
    cases P1.makeDirect r rng x <;> simp
  · intro ps as
    simp only [chain, castLeft_inl]
    cases h : P1.finalize r (sp.fork rng 0) ps as with
    | error e' => simp
    | ok o =>
      cases o with
      | anotherRound r' => simp
      | result res =>
        cases h2 : J.makeRound2 d res (sp.fork rng 1) sr id with
        | error e' => simp [h2]
        | ok r2 => simp [h2]

/-- C37: the same for the second protocol. -/
theorem C37_second_failures (r : P2.Rd) (rng : sp.Rng) (e : LErr) :
    ((chain P1 P2 J).makeEcho (.two r) rng = .error e ↔ P2.makeEcho r rng = .error e) ∧
    ((chain P1 P2 J).makeNormal (.two r) rng = .error e ↔ P2.makeNormal r rng = .error e) ∧
    (∀ x, (chain P1 P2 J).makeDirect (.two r) rng x = .error e ↔ P2.makeDirect r rng x = .error e) ∧
    ∀ ps as, (chain P1 P2 J).finalize (.two r) rng (ps.mapVal fun _ v => .inr v) (as.mapVal fun _ v => .inr v) = .error e ↔
      P2.finalize r rng ps as = .error e := by
  refine ⟨Iff.rfl, Iff.rfl, ?_, ?_⟩
  · intro x
    simp only [chain]
    cases P2.makeDirect r rng x <;> simp
  · intro ps as
    simp only [chain, castRight_inr]
    cases h : P2.finalize r rng ps as with
    | error e' => simp
    | ok o => cases o <;> simp

/-- C37: messages are refused for the reasons of the sub-protocol; the rounds a protocol error refers to get the group. -/
theorem C37_refusals (id : sp.Id) (r1 : P1.Rd) (r2 : P2.Rd) (sr : Bytes) (d : J.Data) (x : sp.Id) (m : DynMsg) (e : RecvErr sp) :
    ((chain P1 P2 J).receive (.one id r1 sr d) x m = .error e ↔ ∃ e', P1.receive r1 x m = .error e' ∧ e = e'.groupUnder 1) ∧
    ((chain P1 P2 J).receive (.two r2) x m = .error e ↔ ∃ e', P2.receive r2 x m = .error e' ∧ e = e'.groupUnder 2) := by
  constructor
  · simp only [chain]
    cases P1.receive r1 x m <;> simp [eq_comm]
  · simp only [chain]
    cases P2.receive r2 x m <;> simp [eq_comm]

/-- C37 for sessions: a session of a chain that reports a result has executed the first protocol from its entry point, and then
the second from the round made out of the first result, with this result. -/
theorem C37_session {rng : sp.Rng} {sid : Bytes} {signer : sp.Signer} {ep : EntryPoint P1} {d : J.Data}
    {s₀ : Session (chain P1 P2 J)} {rep : Report (chain P1 P2 J)} {res : P2.Result}
    (h0 : Session.new rng sid signer (chainEntry (J := J) ep d) = .ok s₀) (h : Reach s₀ (.done (.ok rep)))
    (hres : rep.outcome = .result res) :
    ∃ r1 ts1 res1 rng2 r2 ts2, ep.makeRound (sp.fork rng 0) sid (sp.verifyingKey signer) = .ok r1 ∧ Exec P1 r1 ts1 res1 ∧
      J.makeRound2 d res1 rng2 sid (sp.verifyingKey signer) = .ok r2 ∧ Exec P2 r2 ts2 res := by
  obtain ⟨c, cs, hc, hex, -⟩ := C49_result_is_execution h0 h hres
  cases hm : ep.makeRound (sp.fork rng 0) sid (sp.verifyingKey signer) with
  | error e => rw [(C37_entry ep d _ _ _).2.2 e hm] at hc; simp at hc
  | ok r =>
    rw [(C37_entry ep d _ _ _).2.1 r hm] at hc
    cases hc
    obtain ⟨cs1, c, cs2, ts1, ts2, res1, r2, -, -, h1, h2, -, h3⟩ := (C37_chain_executions _ _ _ _ _ _).1 hex
    exact ⟨r, ts1, res1, _, r2, ts2, rfl, h1, h2, h3⟩

/-- The example protocol with two rounds, followed by the same protocol with one round that goes on adding up. -/
def demoJoin : ChainJoin (demo false 2).wrap (demo false 1).wrap where
  Data := BSet U8
  entryRoundId := RoundId.new 1
  makeRound2 := fun parties res _ _ me => .ok (⟨me, parties.erase me, 1, res⟩ : DemoSt)

/-- A session of this chain meeting the hypotheses of `C37_session`. -/
example : ∃ (s₀ : Session (chain (demo false 2).wrap (demo false 1).wrap demoJoin)) (rep : Report (chain _ _ demoJoin)) (res : Nat),
    Session.new (sp := toy) (0 : Nat) [9] (1 : U8)
      (chainEntry (J := demoJoin) (demoEntry false 2 (BSet.ofList [1, 2, 3])) (BSet.ofList [1, 2, 3])) = .ok s₀ ∧
      Reach s₀ (.done (.ok rep)) ∧ rep.outcome = .result res ∧ res = 72 := by
  have h : onOk (scriptRun (chainEntry (J := demoJoin) (demoEntry false 2 (BSet.ofList [1, 2, 3])) (BSet.ofList [1, 2, 3])) 1
      [.msg ⟨2, 2, [9], ⟨1, [1], false⟩, 1, some [5], none, some [7]⟩,
      .msg ⟨3, 3, [9], ⟨1, [1], false⟩, 1, some [5], none, some [7]⟩, .tick,
      .msg ⟨3, 3, [9], ⟨2, [1], false⟩, 1, some [5], none, some [7]⟩,
      .msg ⟨3, 3, [9], ⟨1, [2], false⟩, 1, some [5], none, some [7]⟩,
      .msg ⟨2, 2, [9], ⟨2, [1], false⟩, 1, some [5], none, some [7]⟩, .tick,
      .msg ⟨2, 2, [9], ⟨1, [2], false⟩, 1, some [5], none, some [7]⟩, .tick])
      (fun r => r.2.isReport (fun rep => rep.outcome.resultIs (fun n : Nat => n == 72))) = true := by decide +kernel
  obtain ⟨s₀, st, h0, hr, hk⟩ := onOk_script h
  obtain ⟨rep, rfl, h1⟩ := isReport_iff.1 hk
  obtain ⟨res, h2, h3⟩ := resultIs_iff.1 h1
  exact ⟨s₀, rep, res, h0, hr, h2, beq_iff_eq.1 h3⟩

/-! ## C38 -/

/-- C38: rounds of the two sub-protocols never share an id, nor does an id of one appear among the parents, siblings or children
(other than the change to the second protocol) of the other. -/
theorem C38_disjoint (id : sp.Id) (r1 : P1.Rd) (r2 : P2.Rd) (sr : Bytes) (d : J.Data) :
    ((chain P1 P2 J).transition (.one id r1 sr d)).id ≠ ((chain P1 P2 J).transition (.two r2)).id := by
  rw [chain_id_one, chain_id_two]
  intro h
  exact absurd (C33_group_injective _ _ _ _ h).2 (by decide)

theorem under_groups (path : List U8) (r : RoundId) : (r.under path).groups = r.groups ++ path.reverse := by
  induction path with
  | nil => simp [RoundId.under]
  | cons g path ih =>
    have : (r.under (g :: path)).groups = (r.under path).groups ++ [g] := rfl
    rw [this, ih]
    simp

/-- C38, nested: if rounds at two paths share an id, one path continues the other. -/
theorem C38_nested_disjoint (p q : List U8) (r r' : RoundId) (h : r.under p = r'.under q) : p <+: q ∨ q <+: p := by
  induction p generalizing q with
  | nil => exact .inl (List.nil_prefix)
  | cons g p ih =>
    cases q with
    | nil => exact .inr (List.nil_prefix)
    | cons g' q =>
      have h' : (r.under p).groupUnder g = (r'.under q).groupUnder g' := h
      obtain ⟨h1, rfl⟩ := C33_group_injective _ _ _ _ h'
      rcases ih q h1 with h2 | h2
      · exact .inl (List.cons_prefix_cons.2 ⟨rfl, h2⟩)
      · exact .inr (List.cons_prefix_cons.2 ⟨rfl, h2⟩)

/-- C38, nested: rounds with different ids in a sub-protocol have different ids in the chain. -/
theorem C38_nested_injective (p : List U8) (r r' : RoundId) (h : r.under p = r'.under p) : r = r' := by
  induction p with
  | nil => exact h
  | cons g p ih => exact ih (C33_group_injective _ _ _ _ h).1

theorem ungroup_ok {g : U8} {r r' : RoundId} : ungroup g r = .ok r' ↔ r = r'.groupUnder g := by
  unfold ungroup
  constructor
  · intro h
    cases hs : r.splitGroup with
    | error e => simp [hs] at h
    | ok gr =>
      obtain ⟨g', r''⟩ := gr
      simp only [hs] at h
      split at h
      · simp at h
      · rename_i hg
        simp only [Except.ok.injEq] at h
        simp only [ne_eq, not_not] at hg
        subst hg h
        exact (C33_group_of_split _ _ _ hs).symm
  · rintro rfl
    simp [C33_split_of_group]

theorem mapE_inv {A B : Type} {f : A → Except LErr B} {inj : B → A} (hf : ∀ a b, f a = .ok b ↔ a = inj b)
    {l : List A} {l' : List B} : mapE f l = .ok l' ↔ l = l'.map inj := by
  induction l generalizing l' with
  | nil => cases l' <;> simp [mapE]
  | cons a l ih =>
    cases l' with
    | nil =>
      simp only [mapE, List.map_nil, reduceCtorEq, iff_false]
      cases f a with
      | error e => simp
      | ok y => cases h : mapE f l <;> simp
    | cons b l' =>
      simp only [mapE, List.map_cons, List.cons.injEq, ← hf, ← ih]
      cases f a with
      | error e => simp
      | ok y => cases h : mapE f l <;> simp

theorem ungroupMap_ok {V : Type} {g : U8} {m m' : BMap RoundId V} : ungroupMap g m = .ok m' ↔ Regrouped [g] m m' := by
  have hinv : ∀ (a b : RoundId × V), (match ungroup g a.1 with
      | .error err => Except.error err
      | .ok r => Except.ok (r, a.2)) = .ok b ↔ a = (b.1.groupUnder g, b.2) := by
    rintro ⟨k, v⟩ ⟨k', v'⟩
    cases h : ungroup g k with
    | error e =>
      simp only [reduceCtorEq, Prod.mk.injEq, false_iff, not_and]
      intro hk
      rw [ungroup_ok.2 hk] at h
      simp at h
    | ok r =>
      have := ungroup_ok.1 h
      simp only [Except.ok.injEq, Prod.mk.injEq, this]
      constructor
      · rintro ⟨rfl, rfl⟩
        exact ⟨rfl, rfl⟩
      · rintro ⟨h1, h2⟩
        exact ⟨(C33_group_injective _ _ _ _ h1).1, h2⟩
  have hfwd : ∀ {m'}, ungroupMap g m = .ok m' → Regrouped [g] m m' := by
    intro m' h
    unfold ungroupMap at h
    split at h
    · simp at h
    · rename_i l hl
      simp only [Except.ok.injEq] at h
      have hl' := (mapE_inv hinv).1 hl
      have hnd : (l.map (·.1)).Nodup := by
        have := m.toList_nodupKeys
        rw [hl', List.map_map] at this
        have h2 : ((l.map (·.1)).map (fun r : RoundId => r.groupUnder g)).Nodup := by
          rw [List.map_map]
          exact this
        exact List.Nodup.of_map _ h2
      constructor
      · intro r
        apply Option.ext
        intro v
        rw [← BMap.mem_toList, hl', ← h, BMap.get?_ofList_nodup hnd, List.mem_map]
        constructor
        · rintro ⟨e, he, h2⟩
          simp only [RoundId.under, List.foldr_cons, List.foldr_nil, Prod.mk.injEq] at h2
          rw [← (C33_group_injective _ _ _ _ h2.1).1, ← h2.2]
          exact he
        · intro he
          exact ⟨_, he, rfl⟩
      · intro k hk
        obtain ⟨v, hv⟩ := BMap.contains_iff.1 hk
        have := BMap.mem_toList.2 hv
        rw [hl', List.mem_map] at this
        obtain ⟨e, -, he⟩ := this
        simp only [Prod.mk.injEq] at he
        exact ⟨e.1, he.1.symm⟩
  refine ⟨hfwd, ?_⟩
  intro h
  cases hu : ungroupMap g m with
  | error e =>
    exfalso
    obtain ⟨l', hl'⟩ := mapE_all (l := m.toList) (f := fun e : RoundId × V =>
      match ungroup g e.1 with
      | .error err => Except.error err
      | .ok r => Except.ok (r, e.2)) (by
        rintro ⟨k, v⟩ hm
        obtain ⟨r, rfl⟩ := h.only k (BMap.contains_iff.2 ⟨v, BMap.mem_toList.1 hm⟩)
        have hr : ungroup g (r.under [g]) = .ok r := ungroup_ok.2 rfl
        exact ⟨(r, v), by simp only [hr]⟩)
    unfold ungroupMap at hu
    split at hu
    · rename_i e' he
      cases hl'.symm.trans he
    · cases hu
  | ok m'' =>
    have h2 := hfwd hu
    congr 1
    apply BMap.ext
    intro k
    rw [← h.same, ← h2.same]

theorem chainInfo_delegates {S S' : Type} (g : U8) (proj : S' → S) (i : RoundInfo sp S) :
    Delegates [g] proj (chainInfo g proj i) i := by
  refine ⟨rfl, rfl, rfl, ?_⟩
  intro rid err guilty sid shared msg prev comb prev' comb' hp hc
  have hr : ungroup g (rid.under [g]) = .ok rid := ungroup_ok.2 rfl
  simp only [chainInfo, hr, ungroupMap_ok.2 hp, ungroupMap_ok.2 hc]

theorem regrouped_cons {V : Type} {g : U8} {path : List U8} {m m' : BMap RoundId V} (h : Regrouped (g :: path) m m') :
    ∃ m1, Regrouped [g] m m1 ∧ Regrouped path m1 m' := by
  cases hu : ungroupMap g m with
  | error e =>
    exfalso
    obtain ⟨l', hl'⟩ := mapE_all (l := m.toList) (f := fun e : RoundId × V =>
      match ungroup g e.1 with
      | .error err => Except.error err
      | .ok r => Except.ok (r, e.2)) (by
        rintro ⟨k, v⟩ hm
        obtain ⟨r, rfl⟩ := h.only k (BMap.contains_iff.2 ⟨v, BMap.mem_toList.1 hm⟩)
        have hr : ungroup g (r.under (g :: path)) = .ok (r.under path) := ungroup_ok.2 rfl
        exact ⟨(r.under path, v), by simp only [hr]⟩)
    unfold ungroupMap at hu
    split at hu
    · rename_i e' he
      cases hl'.symm.trans he
    · cases hu
  | ok m1 =>
    have h1 := ungroupMap_ok.1 hu
    refine ⟨m1, h1, ?_, ?_⟩
    · intro r
      rw [← h1.same, ← h.same]
      rfl
    · intro k hk
      obtain ⟨v, hv⟩ := BMap.contains_iff.1 hk
      rw [← h1.same] at hv
      obtain ⟨r, hr⟩ := h.only _ (BMap.contains_iff.2 ⟨v, hv⟩)
      exact ⟨r, (C33_group_injective _ _ _ _ hr).1⟩

theorem delegates_trans {S S' S'' : Type} {g : U8} {path : List U8} {proj : S' → S} {proj' : S'' → S'} {i : RoundInfo sp S''}
    {j : RoundInfo sp S'} {k : RoundInfo sp S} (h : Delegates [g] proj' i j) (h' : Delegates path proj j k) :
    Delegates (g :: path) (fun d => proj (proj' d)) i k := by
  refine ⟨h.direct.trans h'.direct, h.echo.trans h'.echo, h.normal.trans h'.normal, ?_⟩
  intro rid err guilty sid shared msg prev comb prev' comb' hp hc
  obtain ⟨p1, hp1, hp2⟩ := regrouped_cons hp
  obtain ⟨c1, hc1, hc2⟩ := regrouped_cons hc
  rw [← h'.evidence _ _ _ _ _ _ _ _ _ _ hp2 hc2, ← h.evidence _ _ _ _ _ _ _ _ _ _ hp1 hc1]
  rfl

/-- C38: in arbitrarily nested chains, the round info of a round of a sub-protocol is there exactly if the sub-protocol has one for
the id without the groups, and it delegates everything to it: the checks of message parts, and the check of evidence with all ids
ungrouped and the sub-protocol's own part of the shared data. -/
theorem C38_delegation {P Q : Proto sp} {path : List U8} {proj : P.Shared → Q.Shared} (h : SubProto P path Q proj) (r : RoundId) :
    (Q.roundInfo r = none → P.roundInfo (r.under path) = none) ∧
      ∀ j, Q.roundInfo r = some j → ∃ i, P.roundInfo (r.under path) = some i ∧ Delegates path proj i j := by
  induction h with
  | self =>
    refine ⟨id, ?_⟩
    intro j hj
    refine ⟨j, hj, rfl, rfl, rfl, ?_⟩
    intro rid err guilty sid shared msg prev comb prev' comb' hp hc
    have e1 : prev = prev' := BMap.ext hp.same
    have e2 : comb = comb' := BMap.ext hc.same
    rw [e1, e2]
    rfl
  | @first P1 P2 Q J path proj h ih =>
    have he : (chain P1 P2 J).roundInfo (r.under (1 :: path)) = (P1.roundInfo (r.under path)).map (chainInfo 1 Prod.fst) := by
      have : (r.under (1 :: path)).splitGroup = .ok (1, r.under path) := C33_split_of_group _ _
      simp only [chain, this, if_true]
    constructor
    · intro hn
      rw [he, ih.1 hn]
      rfl
    · intro j hj
      obtain ⟨i, hi, hd⟩ := ih.2 j hj
      refine ⟨_, by rw [he, hi]; rfl, delegates_trans (chainInfo_delegates 1 Prod.fst i) hd⟩
  | @second P1 P2 Q J path proj h ih =>
    have he : (chain P1 P2 J).roundInfo (r.under (2 :: path)) = (P2.roundInfo (r.under path)).map (chainInfo 2 Prod.snd) := by
      have : (r.under (2 :: path)).splitGroup = .ok (2, r.under path) := C33_split_of_group _ _
      simp only [chain, this]
      rw [if_neg (by decide), if_pos trivial]
    constructor
    · intro hn
      rw [he, ih.1 hn]
      rfl
    · intro j hj
      obtain ⟨i, hi, hd⟩ := ih.2 j hj
      refine ⟨_, by rw [he, hi]; rfl, delegates_trans (chainInfo_delegates 2 Prod.snd i) hd⟩

/-- C38: a chain has no other rounds. -/
theorem C38_no_other (rid : RoundId) (i : RoundInfo sp (chain P1 P2 J).Shared) (h : (chain P1 P2 J).roundInfo rid = some i) :
    (∃ r j, rid = r.under [1] ∧ P1.roundInfo r = some j) ∨ ∃ r j, rid = r.under [2] ∧ P2.roundInfo r = some j := by
  simp only [chain] at h
  cases hs : rid.splitGroup with
  | error e => simp [hs] at h
  | ok gr =>
    obtain ⟨g, r⟩ := gr
    have hr := C33_group_of_split _ _ _ hs
    simp only [hs] at h
    split at h
    · rename_i hg
      subst hg
      obtain ⟨j, hj, -⟩ := Option.map_eq_some_iff.1 h
      exact .inl ⟨r, j, hr.symm, hj⟩
    · split at h
      · rename_i hg
        subst hg
        obtain ⟨j, hj, -⟩ := Option.map_eq_some_iff.1 h
        exact .inr ⟨r, j, hr.symm, hj⟩
      · simp at h

/-- C38: evidence for a round of a sub-protocol that comes with messages of rounds outside it is not accepted: the check ends with
a local error. -/
theorem C38_foreign (g : U8) (rid : RoundId) (i : RoundInfo sp (chain P1 P2 J).Shared)
    (h : (chain P1 P2 J).roundInfo (rid.under [g]) = some i) {err : Bytes} {guilty : sp.Id} {sid : Bytes}
    {shared : P1.Shared × P2.Shared} {msg : EvMsg} {prev : BMap RoundId EvMsg} {comb : BMap RoundId (BMap sp.Id (Part .echo))}
    {rid' k : RoundId} (hk : prev.contains k = true ∨ comb.contains k = true) (hg : ∀ r : RoundId, k ≠ r.under [g]) :
    ∃ e, i.verifyEvidence rid' err guilty sid shared msg prev comb = .error (.local e) := by
  have hsplit : (rid.under [g]).splitGroup = .ok (g, rid) := C33_split_of_group _ _
  have hbad : ∀ {S : Type} {proj : P1.Shared × P2.Shared → S} {j : RoundInfo sp S}, ∃ e,
      (chainInfo g proj j).verifyEvidence rid' err guilty sid shared msg prev comb = .error (.local e) := by
    intro S proj j
    simp only [chainInfo]
    cases ungroup g rid' with
    | error e => exact ⟨e, rfl⟩
    | ok r' =>
      simp only
      cases hp : ungroupMap g prev with
      | error e => exact ⟨e, rfl⟩
      | ok prev' =>
        simp only
        cases hc : ungroupMap g comb with
        | error e => exact ⟨e, rfl⟩
        | ok comb' =>
          exfalso
          rcases hk with hk | hk
          · obtain ⟨r, hr⟩ := (ungroupMap_ok.1 hp).only k hk
            exact hg r hr
          · obtain ⟨r, hr⟩ := (ungroupMap_ok.1 hc).only k hk
            exact hg r hr
  simp only [chain, hsplit] at h
  split at h
  · rename_i h1
    subst h1
    obtain ⟨j, -, rfl⟩ := Option.map_eq_some_iff.1 h
    exact hbad
  · split at h
    · rename_i h1
      subst h1
      obtain ⟨j, -, rfl⟩ := Option.map_eq_some_iff.1 h
      exact hbad
    · simp at h

theorem required_groupUnder (req : RequiredMessages) (g : U8) : RequiredMessages.Under [g] req (req.groupUnder g) where
  this := rfl
  previous := by
    intro rid rp
    cases hp : req.previous with
    | none => simp [RequiredMessages.AsksPrevious, RequiredMessages.groupUnder, hp]
    | some all =>
      have hnd : ((all.toList.map (fun e : RoundId × RequiredParts => (e.1.groupUnder g, e.2))).map (·.1)).Nodup := by
        rw [List.map_map, show (fun x : RoundId × RequiredParts => x.1) ∘ (fun e : RoundId × RequiredParts => (e.1.groupUnder g, e.2)) =
          (fun r : RoundId => r.groupUnder g) ∘ (fun x : RoundId × RequiredParts => x.1) from rfl, ← List.map_map]
        exact all.toList_nodupKeys.map (fun a b h => C38_nested_injective [g] a b h)
      simp only [RequiredMessages.AsksPrevious, RequiredMessages.groupUnder, hp, Option.map_some, Option.some.injEq,
        exists_eq_left']
      rw [BMap.get?_ofList_nodup hnd, List.mem_map]
      constructor
      · rintro ⟨⟨r, q⟩, hm, he⟩
        simp only [Prod.mk.injEq] at he
        exact ⟨r, he.1.symm, by rw [← he.2]; exact BMap.mem_toList.1 hm⟩
      · rintro ⟨r, rfl, hr⟩
        exact ⟨(r, rp), BMap.mem_toList.2 hr, rfl⟩
  combined := by
    intro rid
    cases hc : req.combined with
    | none => simp [RequiredMessages.AsksCombined, RequiredMessages.groupUnder, hc]
    | some all =>
      simp only [RequiredMessages.AsksCombined, RequiredMessages.groupUnder, hc, Option.map_some, Option.some.injEq,
        exists_eq_left']
      rw [contains_mapSet]
      constructor
      · rintro ⟨r, h1, h2⟩
        exact ⟨r, h2.symm, h1⟩
      · rintro ⟨r, h1, h2⟩
        exact ⟨r, h2, h1.symm⟩

theorem RequiredMessages.Under.cons {g : U8} {path : List U8} {a b c : RequiredMessages} (h1 : RequiredMessages.Under path a b)
    (h2 : RequiredMessages.Under [g] b c) : RequiredMessages.Under (g :: path) a c where
  this := h2.this.trans h1.this
  previous := by
    intro rid rp
    rw [h2.previous]
    constructor
    · rintro ⟨r, rfl, h⟩
      obtain ⟨r', rfl, h'⟩ := (h1.previous _ _).1 h
      exact ⟨r', rfl, h'⟩
    · rintro ⟨r, rfl, h⟩
      exact ⟨r.under path, rfl, (h1.previous _ _).2 ⟨r, rfl, h⟩⟩
  combined := by
    intro rid
    rw [h2.combined]
    constructor
    · rintro ⟨r, rfl, h⟩
      obtain ⟨r', rfl, h'⟩ := (h1.combined _).1 h
      exact ⟨r', rfl, h'⟩
    · rintro ⟨r, rfl, h⟩
      exact ⟨r.under path, rfl, (h1.combined _).2 ⟨r, rfl, h⟩⟩

/-- C38: a protocol error of a round of a sub-protocol is one of the chain's round, and asks for the same messages by their ids in
the chain. -/
theorem C38_required {P Q : Proto sp} {c : P.Rd} {path : List U8} {q : Q.Rd} (h : InnerRound P c path Q q) {x : sp.Id} {m : DynMsg}
    {inner : RequiredMessages} {ser : Except LErr Bytes} (he : Q.receive q x m = .error (.protocol inner ser)) :
    ∃ outer, P.receive c x m = .error (.protocol outer ser) ∧ RequiredMessages.Under path inner outer := by
  induction h with
  | self =>
    refine ⟨inner, he, rfl, fun rid rp => ?_, fun rid => ?_⟩
    · simp [RoundId.under]
    · simp [RoundId.under]
  | first id sr d _ ih =>
    obtain ⟨o, h1, h2⟩ := ih he
    refine ⟨o.groupUnder 1, ?_, h2.cons (required_groupUnder o 1)⟩
    simp only [chain, h1, RecvErr.groupUnder]
  | second _ ih =>
    obtain ⟨o, h1, h2⟩ := ih he
    refine ⟨o.groupUnder 2, ?_, h2.cons (required_groupUnder o 2)⟩
    simp only [chain, h1, RecvErr.groupUnder]

/-- C38: the only protocol errors of a chain's round are those of the round of the sub-protocol. -/
theorem C38_required_only {P Q : Proto sp} {c : P.Rd} {path : List U8} {q : Q.Rd} (h : InnerRound P c path Q q) {x : sp.Id}
    {m : DynMsg} {outer : RequiredMessages} {ser : Except LErr Bytes} (he : P.receive c x m = .error (.protocol outer ser)) :
    ∃ inner, Q.receive q x m = .error (.protocol inner ser) ∧ RequiredMessages.Under path inner outer := by
  have key : ∃ inner, Q.receive q x m = .error (.protocol inner ser) := by
    induction h generalizing outer with
    | self => exact ⟨outer, he⟩
    | @first P1 P2 Q J path r q id sr d _ ih =>
      simp only [chain] at he
      split at he
      · rename_i e hr
        cases e with
        | protocol o s =>
          simp only [RecvErr.groupUnder, Except.error.injEq, RecvErr.protocol.injEq] at he
          rw [he.2] at hr
          exact ih hr
        | _ => simp [RecvErr.groupUnder] at he
      · cases he
    | @second P1 P2 Q J path r q _ ih =>
      simp only [chain] at he
      split at he
      · rename_i e hr
        cases e with
        | protocol o s =>
          simp only [RecvErr.groupUnder, Except.error.injEq, RecvErr.protocol.injEq] at he
          rw [he.2] at hr
          exact ih hr
        | _ => simp [RecvErr.groupUnder] at he
      · cases he
  obtain ⟨inner, hi⟩ := key
  obtain ⟨o, h1, h2⟩ := C38_required h hi
  rw [h1] at he
  cases he
  exact ⟨inner, hi, h2⟩

/-- The three protocols of a nested chain: the evidence of a round of the second one, in group 2 of group 1. -/
example (A B C : Proto sp) (J : ChainJoin A B) (J' : ChainJoin (chain A B J) C) (r : RoundId) (j : RoundInfo sp B.Shared)
    (h : B.roundInfo r = some j) :
    ∃ i, (chain (chain A B J) C J').roundInfo ((r.groupUnder 2).groupUnder 1) = some i ∧
      Delegates [1, 2] (fun d => d.1.2) i j :=
  (C38_delegation (.first (.second .self)) r).2 j h

/-- A round that has an info in a nested chain. -/
example : ((chain (chain (demo false 2).wrap (demo false 1).wrap demoJoin) (demo true 1).wrap
    ⟨Unit, RoundId.new 1, fun _ _ _ _ _ => .error .downcast⟩).roundInfo ⟨1, [2, 1], false⟩).isSome = true := by decide +kernel

/-! ## C39 -/

theorem chain_children_one {id : sp.Id} {r : P1.Rd} {sr : Bytes} {d : J.Data} {k : RoundId} :
    ((chain P1 P2 J).transition (.one id r sr d)).children.contains k = true ↔
      (∃ c, (P1.transition r).children.contains c = true ∧ c.groupUnder 1 = k) ∨
        (P1.transition r).mayProduceResult = true ∧ k = J.entryRoundId.groupUnder 2 := by
  have hm : ((P1.transition r).groupUnder 1).mayProduceResult = (P1.transition r).mayProduceResult := rfl
  simp only [chain, hm]
  split
  · rename_i h
    rw [BSet.contains_insert, Bool.or_eq_true, decide_eq_true_eq]
    rw [show ((P1.transition r).groupUnder 1).children = TransitionInfo.mapSet (·.groupUnder 1) (P1.transition r).children from rfl,
      contains_mapSet]
    simp only [h, true_and]
    exact or_comm
  · rename_i h
    rw [show ((P1.transition r).groupUnder 1).children = TransitionInfo.mapSet (·.groupUnder 1) (P1.transition r).children from rfl,
      contains_mapSet]
    simp [h]

/-- C39: if the two protocols only take declared transitions, produce results only where declared, and the second one starts in its
entry round, then the chain only takes declared transitions. -/
theorem C39_declared (h1 : Declared P1) (h2 : Declared P2)
    (hj : ∀ d res rng sr id r2, J.makeRound2 d res rng sr id = .ok r2 → (P2.transition r2).id = J.entryRoundId) :
    Declared (chain P1 P2 J) := by
  constructor
  · intro c rng ps as c' ha hf
    cases c with
    | one id r sr d =>
      obtain ⟨ps', as', rfl, rfl, ha'⟩ := one_args.1 ha
      obtain ⟨ps2, as2, e1, e2, h⟩ := one_finalize.1 hf
      have e1' := (castLeft_inl ps').symm.trans ((congrArg castLeft e1).trans (castLeft_inl ps2))
      have e2' := (castLeft_inl as').symm.trans ((congrArg castLeft e2).trans (castLeft_inl as2))
      cases e1'
      cases e2'
      rw [chain_children_one]
      rcases h with ⟨r', h, ho⟩ | ⟨res, r2, h, h3, ho⟩
      · cases ho
        exact .inl ⟨_, h1.next _ _ _ _ _ ha' h, by rw [chain_id_one]⟩
      · cases ho
        exact .inr ⟨h1.result _ _ _ _ _ ha' h, by rw [chain_id_two, hj _ _ _ _ _ _ h3]⟩
    | two r =>
      obtain ⟨ps', as', rfl, rfl, ha'⟩ := two_args.1 ha
      obtain ⟨ps2, as2, e1, e2, h⟩ := two_finalize.1 hf
      have e1' := (castRight_inr ps').symm.trans ((congrArg castRight e1).trans (castRight_inr ps2))
      have e2' := (castRight_inr as').symm.trans ((congrArg castRight e2).trans (castRight_inr as2))
      cases e1'
      cases e2'
      rcases h with ⟨r', h, ho⟩ | ⟨res, h, ho⟩
      · cases ho
        exact (contains_mapSet _ _ _).2 ⟨_, h2.next _ _ _ _ _ ha' h, rfl⟩
      · cases ho
  · intro c rng ps as res ha hf
    cases c with
    | one id r sr d =>
      obtain ⟨ps2, as2, e1, e2, ⟨r', h, ho⟩ | ⟨res, r2, h, h3, ho⟩⟩ := one_finalize.1 hf
      · cases ho
      · cases ho
    | two r =>
      obtain ⟨ps', as', rfl, rfl, ha'⟩ := two_args.1 ha
      obtain ⟨ps2, as2, e1, e2, h⟩ := two_finalize.1 hf
      have e1' := (castRight_inr ps').symm.trans ((congrArg castRight e1).trans (castRight_inr ps2))
      have e2' := (castRight_inr as').symm.trans ((congrArg castRight e2).trans (castRight_inr as2))
      cases e1'
      cases e2'
      rcases h with ⟨r', h, ho⟩ | ⟨res, h, ho⟩
      · cases ho
      · exact h2.result _ _ _ _ _ ha' h

/-- C39: the chain declares no other results than those of the second protocol.  So in a chain of chains, the outer join is a
declared child of exactly the rounds that end the inner chain. -/
theorem C39_result_exact (id : sp.Id) (r : P1.Rd) (q : P2.Rd) (sr : Bytes) (d : J.Data) :
    ((chain P1 P2 J).transition (.one id r sr d)).mayProduceResult = false ∧
    ((chain P1 P2 J).transition (.two q)).mayProduceResult = (P2.transition q).mayProduceResult ∧
    ∀ {P3 : Proto sp} (J' : ChainJoin (chain P1 P2 J) P3) (c : (chain P1 P2 J).Rd) (d' : J'.Data) (q' : P3.Rd),
      (P3.transition q').id = J'.entryRoundId →
      (((chain (chain P1 P2 J) P3 J').transition (.one id c sr d')).children.contains
        ((chain (chain P1 P2 J) P3 J').transition (.two q')).id = true ↔
        ∃ q, c = .two q ∧ (P2.transition q).mayProduceResult = true) := by
  have h1 : ∀ id r sr d, ((chain P1 P2 J).transition (.one id r sr d)).mayProduceResult = false := by
    intro id r sr d
    simp only [chain]
    split
    · rfl
    · rename_i h
      simpa using h
  refine ⟨h1 id r sr d, rfl, ?_⟩
  intro P3 J' c d' q' hq
  rw [chain_children_one, chain_id_two, hq]
  constructor
  · rintro (⟨k, -, hk⟩ | ⟨hm, -⟩)
    · exact absurd (C33_group_injective _ _ _ _ hk).2 (by decide)
    · cases c with
      | one id r sr d => rw [h1] at hm; cases hm
      | two q => exact ⟨q, rfl, hm⟩
  · rintro ⟨q, rfl, hm⟩
    exact Or.inr ⟨hm, rfl⟩

/-- The second round of the first protocol ends it, but not the chain; the first round of the second one does. -/
example : ((demo false 2).wrap.transition (⟨1, BMap.empty, 2, 0⟩ : DemoSt)).mayProduceResult = true ∧
    ((chain (demo false 2).wrap (demo false 1).wrap demoJoin).transition
      (.one (1 : U8) (⟨1, BMap.empty, 2, 0⟩ : DemoSt) [] (BSet.ofList [1] : BSet U8))).mayProduceResult = false ∧
    ((chain (demo false 2).wrap (demo false 1).wrap demoJoin).transition
      (.two (⟨1, BMap.empty, 1, 0⟩ : DemoSt))).mayProduceResult = true := by
  decide +kernel

/-- C39: in a run of a session of a protocol that only takes declared transitions, whenever `finalize` returns another round, the
session finds it among the declared ones, so it does not fail with "Unexpected next round id". -/
theorem C39_session_expects {P : Proto sp} (hd : Declared P) (mi : MainIds P) {rng rng' : sp.Rng} {sid : Bytes}
    {signer : sp.Signer} {ep : EntryPoint P} {s₀ s : Session P} {a : Accum P} {r' : P.Rd}
    (h0 : Session.new rng sid signer ep = .ok s₀) (h : Reach s₀ (.running s a)) (hy : a.canFinalize = .yes)
    (hf : s.round.finalize rng' a.payloads a.artifacts = .ok (.anotherRound r')) :
    s.transition.children.contains (P.transition r').id = true := by
  obtain ⟨hp0, -, -, -, hmain⟩ := new_proper h0
  obtain ⟨trail, cached, rng'', l, hv, hseq⟩ := reach_running h
  have hi := visits_inv hp0 hmain hv
  obtain ⟨ps, as, hfin, -, hk⟩ := finalize_call h0 h hy
  rw [hfin] at hf
  have := hd.next _ _ _ _ _ hk hf
  cases hr : s.round with
  | main r =>
    rw [(roundId_main hi.proper hr).1]
    simpa [finalizing, hr] using this
  | echo e =>
    have htr := hi.proper.transition
    rw [hr] at htr
    simp only [SRound.transition, EchoRd.transition, TransitionInfo.echo, RoundId.echo, mi e.main] at htr
    simp only [Bool.false_eq_true, if_false, mapErr, Except.ok.injEq] at htr
    rw [← htr]
    simpa [finalizing, hr] using this

/-- C39: without the declarations of P1 it does fail: if a round of the first protocol produces a result without having declared it,
the next round is not among the declared ones. -/
theorem C39_undeclared (id : sp.Id) (r : P1.Rd) (sr : Bytes) (d : J.Data) (r2 : P2.Rd)
    (h : (P1.transition r).mayProduceResult = false) :
    ((chain P1 P2 J).transition (.one id r sr d)).children.contains ((chain P1 P2 J).transition (.two r2)).id = false := by
  rw [← Bool.not_eq_true, chain_children_one, chain_id_two]
  rintro (⟨c, -, hc⟩ | ⟨hm, -⟩)
  · exact absurd (C33_group_injective _ _ _ _ hc).2 (by decide)
  · simp [h] at hm

/-- C39: working local code stays working local code in a chain; so what has been proved about local errors (C08) applies to
chains. -/
theorem C39_local_ok {I1 : P1.Rd → Prop} {I2 : P2.Rd → Prop} (h1 : LocalOk P1 I1) (h2 : LocalOk P2 I2)
    (hr : ∀ r rng ps as res, I1 r → FinalizeArgs P1 r ps as → P1.finalize r rng ps as = .ok (.result res) →
      (P1.transition r).mayProduceResult = true)
    (hj : ∀ d res rng sr id, ∃ r2, J.makeRound2 d res rng sr id = .ok r2 ∧ (P2.transition r2).id = J.entryRoundId ∧ I2 r2) :
    LocalOk (chain P1 P2 J) (ChainRd.both I1 I2) where
  makeDirect := by
    intro c rng x hI hd
    cases c with
    | one id r sr d =>
      obtain ⟨y, hy⟩ := h1.makeDirect r rng x hI hd
      exact ⟨(y.1, .inl y.2), by simp only [chain, hy]⟩
    | two r =>
      obtain ⟨y, hy⟩ := h2.makeDirect r rng x hI hd
      exact ⟨(y.1, .inr y.2), by simp only [chain, hy]⟩
  makeEcho := by
    intro c rng hI
    cases c with
    | one id r sr d => exact h1.makeEcho r rng hI
    | two r => exact h2.makeEcho r rng hI
  makeNormal := by
    intro c rng hI
    cases c with
    | one id r sr d => exact h1.makeNormal r rng hI
    | two r => exact h2.makeNormal r rng hI
  receive := by
    intro c x m e hI hx h
    cases c with
    | one id r sr d =>
      simp only [chain] at h
      cases hrc : P1.receive r x m with
      | ok v => simp [hrc] at h
      | error e' =>
        simp only [hrc, Except.error.injEq] at h
        cases e' <;> simp only [RecvErr.groupUnder, reduceCtorEq] at h
        exact h1.receive r x m _ hI hx hrc
    | two r =>
      simp only [chain] at h
      cases hrc : P2.receive r x m with
      | ok v => simp [hrc] at h
      | error e' =>
        simp only [hrc, Except.error.injEq] at h
        cases e' <;> simp only [RecvErr.groupUnder, reduceCtorEq] at h
        exact h2.receive r x m _ hI hx hrc
  finalize := by
    intro c rng ps as hI ha
    cases c with
    | one id r sr d =>
      obtain ⟨ps', as', rfl, rfl, ha'⟩ := one_args.1 ha
      obtain ⟨o, ho, hc⟩ := h1.finalize r (sp.fork rng 0) ps' as' hI ha'
      cases o with
      | anotherRound r' =>
        refine ⟨.anotherRound (.one id r' sr d), one_finalize.2 ⟨ps', as', rfl, rfl, .inl ⟨r', ho, rfl⟩⟩, ?_⟩
        intro c' hc'
        cases hc'
        rw [chain_children_one]
        exact ⟨(hc r' rfl).1, .inl ⟨_, (hc r' rfl).2, by rw [chain_id_one]⟩⟩
      | result res =>
        obtain ⟨r2, h3, h4, h5⟩ := hj d res (sp.fork rng 1) sr id
        refine ⟨.anotherRound (.two r2), one_finalize.2 ⟨ps', as', rfl, rfl, .inr ⟨res, r2, ho, h3, rfl⟩⟩, ?_⟩
        intro c' hc'
        cases hc'
        rw [chain_children_one]
        exact ⟨h5, .inr ⟨hr _ _ _ _ _ hI ha' ho, by rw [chain_id_two, h4]⟩⟩
    | two r =>
      obtain ⟨ps', as', rfl, rfl, ha'⟩ := two_args.1 ha
      obtain ⟨o, ho, hc⟩ := h2.finalize r rng ps' as' hI ha'
      cases o with
      | anotherRound r' =>
        refine ⟨.anotherRound (.two r'), two_finalize.2 ⟨ps', as', rfl, rfl, .inl ⟨r', ho, rfl⟩⟩, ?_⟩
        intro c' hc'
        cases hc'
        exact ⟨(hc r' rfl).1, (contains_mapSet _ _ _).2 ⟨_, (hc r' rfl).2, rfl⟩⟩
      | result res =>
        exact ⟨.result res, two_finalize.2 ⟨ps', as', rfl, rfl, .inr ⟨res, ho, rfl⟩⟩, by simp⟩

theorem chain_parents_one {id : sp.Id} {r : P1.Rd} {sr : Bytes} {d : J.Data} {k : RoundId} :
    ((chain P1 P2 J).transition (.one id r sr d)).parents.contains k = true ↔
      ∃ c, (P1.transition r).parents.contains c = true ∧ c.groupUnder 1 = k := by
  have : ((chain P1 P2 J).transition (.one id r sr d)).parents =
      TransitionInfo.mapSet (·.groupUnder 1) (P1.transition r).parents := by
    simp only [chain]
    split <;> rfl
  rw [this, contains_mapSet]

/-- C39, partial: the relation of parents and children in a chain.  Within each of the sub-protocols it is that of the
sub-protocol, so it is consistent there if the sub-protocol is.  Missing: where the second protocol follows the first, the relation
is not consistent, see `C39_join_violation`. -/
theorem C39_relation_partial (id id' : sp.Id) (r r' : P1.Rd) (q q' : P2.Rd) (sr sr' : Bytes) (d d' : J.Data) :
    (((chain P1 P2 J).transition (.one id r sr d)).children.contains ((chain P1 P2 J).transition (.one id' r' sr' d')).id = true ↔
      (P1.transition r).children.contains (P1.transition r').id = true) ∧
    (((chain P1 P2 J).transition (.one id r sr d)).parents.contains ((chain P1 P2 J).transition (.one id' r' sr' d')).id = true ↔
      (P1.transition r).parents.contains (P1.transition r').id = true) ∧
    (((chain P1 P2 J).transition (.two q)).children.contains ((chain P1 P2 J).transition (.two q')).id = true ↔
      (P2.transition q).children.contains (P2.transition q').id = true) ∧
    (((chain P1 P2 J).transition (.two q)).parents.contains ((chain P1 P2 J).transition (.two q')).id = true ↔
      (P2.transition q).parents.contains (P2.transition q').id = true) ∧
    ((chain P1 P2 J).transition (.two q)).children.contains ((chain P1 P2 J).transition (.one id r sr d)).id = false ∧
    ((chain P1 P2 J).transition (.one id r sr d)).parents.contains ((chain P1 P2 J).transition (.two q)).id = false ∧
    (((chain P1 P2 J).transition (.one id r sr d)).children.contains ((chain P1 P2 J).transition (.two q)).id = true ↔
      (P1.transition r).mayProduceResult = true ∧ (P2.transition q).id = J.entryRoundId) ∧
    ((chain P1 P2 J).transition (.two q)).parents.contains ((chain P1 P2 J).transition (.one id r sr d)).id = false := by
  have h12 : ∀ a b : RoundId, a.groupUnder 1 ≠ b.groupUnder 2 := fun a b h =>
    absurd (C33_group_injective _ _ _ _ h).2 (by decide)
  have hin : ∀ (g : U8) (s : BSet RoundId) (k : RoundId), (∃ c, s.contains c = true ∧ c.groupUnder g = k.groupUnder g) ↔
      s.contains k = true := by
    intro g s k
    constructor
    · rintro ⟨c, hc, h⟩
      rw [← (C33_group_injective _ _ _ _ h).1]
      exact hc
    · intro h
      exact ⟨k, h, rfl⟩
  have hc2 : ∀ k, ((chain P1 P2 J).transition (.two q)).children.contains k = true ↔
      ∃ c, (P2.transition q).children.contains c = true ∧ c.groupUnder 2 = k := fun k => contains_mapSet _ _ _
  have hp2 : ∀ k, ((chain P1 P2 J).transition (.two q)).parents.contains k = true ↔
      ∃ c, (P2.transition q).parents.contains c = true ∧ c.groupUnder 2 = k := fun k => contains_mapSet _ _ _
  refine ⟨?_, ?_, ?_, ?_, ?_, ?_, ?_, ?_⟩
  · rw [chain_children_one, chain_id_one, hin]
    simp [h12]
  · rw [chain_parents_one, chain_id_one, hin]
  · rw [hc2, chain_id_two, hin]
  · rw [hp2, chain_id_two, hin]
  · rw [← Bool.not_eq_true, hc2, chain_id_one]
    rintro ⟨c, -, h⟩
    exact h12 _ _ h.symm
  · rw [← Bool.not_eq_true, chain_parents_one, chain_id_two]
    rintro ⟨c, -, h⟩
    exact h12 _ _ h
  · rw [chain_children_one, chain_id_two]
    constructor
    · rintro (⟨c, -, h⟩ | ⟨h1, h2⟩)
      · exact absurd h (h12 _ _)
      · exact ⟨h1, (C33_group_injective _ _ _ _ h2).1⟩
    · rintro ⟨h1, h2⟩
      exact .inr ⟨h1, by rw [h2]⟩
  · rw [← Bool.not_eq_true, hp2, chain_id_one]
    rintro ⟨c, -, h⟩
    exact h12 _ _ h.symm

/-- C39 as stated fails: as soon as a chain gets from its first protocol to its second by a declared transition, parents and children
do not agree: the first round of the second protocol does not declare the last round of the first as its parent. -/
theorem C39_join_violation {r₀ c : (chain P1 P2 J).Rd} {q : P2.Rd} (hc : Follows (chain P1 P2 J) r₀ c) {id : sp.Id} {r : P1.Rd}
    {sr : Bytes} {d : J.Data} (h1 : c = .one id r sr d) (hq : Follows (chain P1 P2 J) r₀ (.two q))
    (hm : (P1.transition r).mayProduceResult = true) (he : (P2.transition q).id = J.entryRoundId) :
    ¬ Consistent (chain P1 P2 J) r₀ := by
  subst h1
  intro h
  have h2 := C39_relation_partial (J := J) id id r r q q sr sr d d
  have h3 := (h _ _ hc hq).1 (h2.2.2.2.2.2.2.1.2 ⟨hm, he⟩)
  rw [h2.2.2.2.2.2.2.2] at h3
  simp at h3

theorem demo_result (echo : Bool) (r : DemoSt) (rng : Nat) (ps : BMap U8 Nat) (as : BMap U8 Unit) (res : Nat)
    (h : (demo echo 255).finalize r rng ps as = .ok (.result res)) :
    ((demo echo 255).transition r).mayProduceResult = true := by
  by_cases hn : r.n = 255
  · have : (demo echo 255).transition r = TransitionInfo.newLinearTerminating r.n := if_pos hn
    rw [this]
    rfl
  · have h2 : (demo echo 255).finalize r rng ps as =
        .ok (.anotherRound { r with n := r.n + 1, acc := r.acc + (ps.toList.map (fun e => e.2)).sum }) := if_neg hn
    cases h2.symm.trans h

/-- The example protocol with 255 rounds only takes declared transitions. -/
theorem demo_declared (echo : Bool) : Declared (demo echo 255).wrap where
  next := by
    intro r rng ps as r' ha hf
    obtain ⟨o, ho, hc⟩ := (demo_localOk echo).finalize r rng ps as trivial ha
    rw [hf] at ho
    cases ho
    exact (hc r' rfl).2
  result := by
    intro r rng ps as res _ hf
    exact demo_result echo r rng ps as res hf

/-- The example protocol followed by itself. -/
def demoJoin255 : ChainJoin (demo true 255).wrap (demo false 255).wrap where
  Data := BSet U8
  entryRoundId := RoundId.new 1
  makeRound2 := fun parties res _ _ me => .ok (⟨me, parties.erase me, 1, res⟩ : DemoSt)

/-- Protocols meeting the hypotheses of `C39_declared` and `C39_local_ok`. -/
example : Declared (chain (demo true 255).wrap (demo false 255).wrap demoJoin255) ∧
    LocalOk (chain (demo true 255).wrap (demo false 255).wrap demoJoin255) (ChainRd.both (fun _ => True) (fun _ => True)) := by
  have hid : ∀ d res rng sr id r2, demoJoin255.makeRound2 d res rng sr id = .ok r2 →
      ((demo false 255).wrap.transition r2).id = demoJoin255.entryRoundId := by
    intro d res rng sr id r2 h
    cases h
    rfl
  refine ⟨C39_declared (demo_declared true) (demo_declared false) hid, ?_⟩
  refine C39_local_ok (demo_localOk true) (demo_localOk false)
    (fun r rng ps as res _ => (demo_declared true).result r rng ps as res) ?_
  intro d res rng sr id
  exact ⟨_, rfl, rfl, trivial⟩

/-- An execution meeting the hypotheses of `C39_join_violation`, for protocols that are consistent themselves. -/
example : ∃ r₀, ¬ Consistent (chain (demo false 2).wrap (demo false 1).wrap demoJoin) r₀ := by
  let r : DemoSt := ⟨1, BSet.ofList [], 2, 7⟩
  let q : DemoSt := ⟨1, BMap.erase (BSet.ofList []) 1, 1, 7⟩
  refine ⟨.one (sp := toy) (J := demoJoin) (1 : U8) r [9] (BSet.ofList []), ?_⟩
  refine C39_join_violation (q := q) .refl rfl (.next .refl (ps := BMap.empty) (as := BMap.empty) (rng := (0 : Nat)) ?_ ?_) rfl rfl
  · refine one_args.2 ⟨BMap.empty, BMap.empty, rfl, rfl, ?_, ?_, ?_, ?_⟩
    · intro x
      rfl
    · intro x
      rfl
    · intro x w h
      simp at h
    · intro x w h
      simp at h
  · rfl

end Manul
