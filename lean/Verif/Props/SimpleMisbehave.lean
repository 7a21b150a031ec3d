import Verif.Props.Misbehave
import Verif.Props.SimpleEvidence
import Verif.Props.RunSyncExamples
import Verif.Model.SimpleTest

/-!
# Misbehaviour in the example protocol `simple` (C63)
-/

namespace Manul

section

variable {sp : SP} {fmt : SimpleFormat} {checks : Bool} {ids : BSet sp.Id} {signer : sp.Id → sp.Signer} {sid : Bytes}

theorem posOf_inj (hn : partyCount ids ≤ 256) {i j : sp.Id} (hi : ids.contains i = true) (hj : ids.contains j = true)
    (h : posOf ids i = posOf ids j) : i = j := by
  obtain ⟨k, hk⟩ := List.getElem?_of_mem (BSet.mem_elems.2 hi)
  obtain ⟨l, hl⟩ := List.getElem?_of_mem (BSet.mem_elems.2 hj)
  have hk' := (List.getElem?_eq_some_iff.1 hk).1
  have hl' := (List.getElem?_eq_some_iff.1 hl).1
  rw [posOf_getElem? hk, posOf_getElem? hl] at h
  have := congrArg Fin.val h
  unfold partyCount at hn
  simp only [Fin.ofNat] at this
  rw [Nat.mod_eq_of_lt (by omega), Nat.mod_eq_of_lt (by omega)] at this
  subst this
  rw [hk] at hl
  exact Option.some.inj hl

/-- The round type of a stage. -/
def simpleTagAt : Nat → SimpleTag
  | 0 => .r1
  | _ => .r2

/-- What the misbehaving party is charged with: evidence of a protocol error with its direct message of the round. -/
def wrongCharge (sp : SP) (rid : RoundId) : Charge sp where
  error err := ∃ req ser, err = .protocol req ser
  evidence ev := ∃ pe p, ev.body = .protocol pe ∧ pe.direct = some p ∧ p.metadata.roundId = rid

theorem simpleShape_tag {k K : Nat} {t : sp.Id} {r : SimpleSt sp} (hK : K < 2) (h : SimpleShape ids k t r)
    (ht : (simple sp fmt checks).tag r = simpleTagAt K) : k = K := by
  rcases h with ⟨rfl, rfl⟩ | ⟨rfl, s, rfl⟩
  · match K, hK with
    | 0, _ => rfl
    | 1, _ => cases ht
  · match K, hK with
    | 0, _ => cases ht
    | 1, _ => rfl

theorem wrong_ext {K : Nat} {t : SimpleTag} {x : Ext (simple sp fmt checks).wrap}
    (h : addExt (fun _ => none) (simpleTagAt K) (wrongPosition sp fmt checks) t = some x) :
    t = simpleTagAt K ∧ x = wrongPosition sp fmt checks := by
  unfold addExt at h
  by_cases hc : t = simpleTagAt K
  · simp only [hc, if_true, Option.some.injEq] at h
    exact ⟨hc, h.symm⟩
  · simp only [hc, if_false] at h
    cases h

theorem wrong_makeDirect (hf : fmt.Lawful) {k : Nat} {t : sp.Id} {r : SimpleSt sp} (ht : ids.contains t = true)
    (h : SimpleShape ids k t r) (rng : sp.Rng) (j : sp.Id) :
    ∃ b v, (wrongPosition sp fmt checks).makeDirect r rng j = .ok (⟨some b⟩, ()) ∧ fmt.ser v = .ok b ∧
      v = (if k = 0 then SimpleVal.message1 (posOf ids t) (posOf ids t) else .message2 (posOf ids t) (posOf ids t)) := by
  rcases h with ⟨rfl, rfl⟩ | ⟨rfl, s, rfl⟩
  · obtain ⟨b, h1, -⟩ := hf (.message1 (posOf ids t) (posOf ids t))
    refine ⟨b, _, ?_, h1, rfl⟩
    simp only [wrongPosition, show (simpleCtx ids t).id = t from rfl, simple_position ht, TypedProto.newPart, simple, simpleBase, h1]
  · obtain ⟨b, h1, -⟩ := hf (.message2 (posOf ids t) (posOf ids t))
    refine ⟨b, _, ?_, h1, rfl⟩
    simp only [wrongPosition, show (simpleCtx ids t).id = t from rfl, simple_position ht, TypedProto.newPart, simple, simpleBase, h1]

theorem wrong_check {err : SimpleTag} {i : sp.Id} {my your : U8} (hi : ids.contains i = true) (h : your ≠ posOf ids i) :
    (simpleCtx ids i).check err my your = .error (.protocol err) := by
  unfold SimpleCtx.check
  rw [show (simpleCtx ids i).id = i from rfl, simple_position hi]
  simp only
  rw [if_pos (Ne.symm h)]

/-- The message is rejected. -/
theorem wrong_receives (hf : fmt.Lawful) (hu : fmt.UnitReads) (hn : partyCount ids ≤ 256) {k : Nat} {i j : sp.Id} {ri rj : SimpleSt sp}
    (hi : ids.contains i = true) (hj : ids.contains j = true) (hij : i ≠ j) (h1 : SimpleShape ids k i ri) (h2 : SimpleShape ids k j rj)
    {rng1 rng2 rng3 : sp.Rng} {e : Part .echo} {n : Part .normal} {p : Part .direct} {art : Unit}
    (he : (simple sp fmt checks).wrap.makeEcho rj rng1 = .ok e) (hn' : (simple sp fmt checks).wrap.makeNormal rj rng2 = .ok n)
    (hd : (wrongPosition sp fmt checks).makeDirect rj rng3 i = .ok (p, art)) :
    ∃ req ser, (simple sp fmt checks).wrap.receive ri j ⟨e, n, p⟩ = .error (.protocol req (.ok ser)) := by
  have hidj : (simpleCtx ids j).id = j := rfl
  have hne : posOf ids j ≠ posOf ids i := fun h => hij (posOf_inj hn hj hi h).symm
  obtain ⟨b, v, h3, h4, h5⟩ := wrong_makeDirect (checks := checks) hf hj h2 rng3 i
  rw [h3] at hd
  cases hd
  obtain ⟨u, hu, -⟩ := hu
  rcases h1 with ⟨rfl, rfl⟩ | ⟨rfl, si, rfl⟩
  · rcases h2 with ⟨-, rfl⟩ | ⟨h, -⟩
    · obtain ⟨b1, s1, d1⟩ := hf (.echo1 (posOf ids j))
      obtain ⟨b2, s2, d2⟩ := hf (.broadcast1 0 (posOf ids j))
      obtain ⟨b3, s3, d3⟩ := hf v
      rw [h4] at s3
      cases s3
      simp only [if_true] at h5
      subst h5
      simp only [TypedProto.wrap, simple, simpleBase, hidj, simple_position hj, TypedProto.newPart, s1, Except.ok.injEq] at he
      simp only [TypedProto.wrap, simple, simpleBase, hidj, simple_position hj, TypedProto.newPart, s2, Except.ok.injEq] at hn'
      subst he hn'
      simp only [SimpleVal.ty] at d1 d2 d3
      refine ⟨(simple sp fmt checks).required SimpleTag.r1 (RoundId.new 1), u, ?_⟩
      simp only [TypedProto.wrap, TypedProto.wrapReceive, TypedProto.readPart, simple, simpleBase, d1, d2, d3,
        wrong_check hi hne, mapErr, TypedProto.boxErr, hu]
    · omega
  · rcases h2 with ⟨h, -⟩ | ⟨-, sj, rfl⟩
    · omega
    · obtain ⟨b3, s3, d3⟩ := hf v
      rw [h4] at s3
      cases s3
      simp only [Nat.one_ne_zero, if_false] at h5
      subst h5
      simp only [TypedProto.wrap, simple, simpleBase, TypedProto.newPart, Except.ok.injEq] at he
      simp only [TypedProto.wrap, simple, simpleBase, TypedProto.newPart, Except.ok.injEq] at hn'
      subst he hn'
      simp only [SimpleVal.ty] at d3
      refine ⟨(simple sp fmt checks).required SimpleTag.r2 (RoundId.new 2), u, ?_⟩
      simp only [TypedProto.wrap, TypedProto.wrapReceive, TypedProto.readPart, simple, simpleBase, d3, Part.none,
        wrong_check hi hne, mapErr, TypedProto.boxErr, hu]

/-- The sessions of the others can make evidence. -/
theorem simple_makesEvidence {sg : sp.Signer} {rng0 : sp.Rng} {s₀ s : Session (simple sp fmt checks).wrap}
    {a : Accum (simple sp fmt checks).wrap} (hu : fmt.UnitReads)
    (h0 : Session.new rng0 sid sg (simpleEntry sp fmt checks ids) = .ok s₀) (h : Reach s₀ (.running s a)) {rid : RoundId}
    (hrid : s.transition.id = rid) : MakesEvidence (wrongCharge sp rid) s := by
  refine ⟨?_, ?_⟩
  · intro vm req ser _ hx hau hrc
    obtain ⟨hp0, -, -, -, hm0⟩ := new_proper h0
    obtain ⟨trail, cached, rng, l, hv, -⟩ := reach_running h
    have hp := (visits_inv hp0 hm0 hv).proper
    cases hr : s.round with
    | echo e =>
      rw [hr] at hrc
      exact absurd (receive_echo_error hrc) echo_not_protocol
    | main r =>
      rw [hr] at hrc
      obtain ⟨tm, e, -, -, -, hrecv, hreq, hser⟩ := wrapReceive_protocol (receive_main_error hrc)
      have he := simple_receive_cases hrecv
      subst he
      obtain ⟨b, hb, -⟩ := hu
      rw [(roundId_main hp hr).2] at hx
      rw [hreq]
      obtain ⟨ev, hev⟩ := newProvableError_total simple_mainIds h0 hv (simple_obtained h0 hv hr hx) (b := ser) vm.echo vm.normal vm.direct
      refine ⟨ev, hev, ?_⟩
      obtain ⟨prev, comb, bytes, -, -, -, rfl⟩ := newProvableError_ok hev
      refine ⟨_, vm.direct, rfl, ?_, ?_⟩
      · cases r <;> rfl
      · rw [← hrid, hau.1.1]
  · rintro vm ⟨req, ser, h⟩
    cases h

/-- The party that sends wrong positions in one of the rounds. -/
theorem simple_misdirects (hf : fmt.Lawful) (hu : fmt.UnitReads) (hw : ParamsWork sp ids signer) (hn : partyCount ids ≤ 256) {t : sp.Id}
    (ht : ids.contains t = true) {K : Nat} (hK : K < 2) :
    Misdirects (Tag := SimpleTag) (simplePlan sp fmt checks ids signer sid).scheme (simple sp fmt checks).tag
      (addExt (fun _ => none) (simpleTagAt K) (wrongPosition sp fmt checks)) t K
      (wrongCharge sp (RoundId.new (Fin.ofNat 256 (K + 1)))) (fun k r => SimpleShape ids k t r) where
  party := ht
  stage := hK
  expected := by
    intro i hi hit
    show (ids.erase i).contains t = true
    rw [BMap.contains_erase]
    simp [ht, Ne.symm hit]
  start := by
    intro rng r hr
    exact Or.inl ⟨rfl, (Except.ok.inj hr).symm⟩
  next := by
    intro k r hr rng ps as q hq
    rcases hr with ⟨rfl, rfl⟩ | ⟨rfl, s, rfl⟩
    · simp only [TypedProto.wrap, simple, simpleBase] at hq
      split at hq
      · cases hq
      · cases hq
        exact Or.inr ⟨rfl, _, rfl⟩
    · exact absurd hq simple_finalize2_not
  makeEcho := by
    intro k r x hr hx rng
    rw [(wrong_ext hx).2]
    rfl
  makeNormal := by
    intro k r x hr hx rng
    rw [(wrong_ext hx).2]
    rfl
  finalize := by
    intro k r x hr hx rng ps as
    rw [(wrong_ext hx).2]
    rfl
  makeDirect := by
    intro k r x hr hx rng j p art _
    obtain ⟨h1, rfl⟩ := wrong_ext hx
    have hk := simpleShape_tag hK hr h1
    obtain ⟨b, v, h2, -⟩ := wrong_makeDirect (checks := checks) hf ht hr rng j
    exact ⟨_, h2, fun h => absurd h (by omega)⟩
  rejected := by
    intro G i ci ct rng p art hG hi hit hci hct hinv hd
    have hI := (simple_roundInv (checks := checks) (ids := ids) (signer := signer) (sid := sid) hf).cells hG
    obtain ⟨-, h1, -⟩ := hI i K ci hci
    obtain ⟨-, h2, hm⟩ := hI t K ct hct
    have hne : ((simple sp fmt checks).wrap.comm ct.rd).destinations.isEmpty = false := by
      rw [simple_comm h2.shape]
      refine BMap.isEmpty_eq_false.2 ⟨i, ?_⟩
      show (ids.erase t).contains i = true
      rw [BMap.contains_erase]
      have hi' : ids.contains i = true := hi
      simp [hi', hit]
    obtain ⟨r2, e2⟩ := hm.echo hne
    obtain ⟨r3, e3⟩ := hm.normal hne
    have hx : addExt (fun _ => none) (simpleTagAt K) (wrongPosition sp fmt checks) ((simple sp fmt checks).tag ct.rd) =
        some (wrongPosition sp fmt checks) := by
      have : (simple sp fmt checks).tag ct.rd = simpleTagAt K := by
        rcases h2 with ⟨rfl, hr⟩ | ⟨rfl, hr⟩ <;> rw [hr] <;> rfl
      rw [this]
      simp [addExt]
    have hd' : (wrongPosition sp fmt checks).makeDirect ct.rd rng i = .ok (p, art) := by
      simp only [overridden, hx] at hd
      exact hd
    obtain ⟨req, ser, h5⟩ := wrong_receives (checks := checks) hf hu hn hi ht hit h1.shape h2.shape e2 e3 hd'
    exact ⟨_, h5, trivial, req, .ok ser, rfl⟩
  evidence := by
    intro i hi hit rng s₀ h0 s a h hs
    exact simple_makesEvidence hu h0 h hs

/-- **C63.**  A party of `simple` that sends wrong positions in the first or in the second round is found out:
`check_evidence_with_extension` succeeds, whatever the order in which messages are delivered, for any number of parties from 2 to
256 (as long as the sums do not overflow).  This is what the two tests of `simple_test.rs` check, for three parties and one order. -/
theorem C63_simple (hf : fmt.Lawful) (hu : fmt.UnitReads) (hw : ParamsWork sp ids signer) (hb : SumsFit checks ids)
    (h2 : 2 ≤ partyCount ids) (hn : partyCount ids ≤ 256) {l : List sp.Id} {t : sp.Id} (hnd : (l ++ [t]).Nodup)
    (hids : ∀ i, i ∈ l ++ [t] ↔ ids.contains i = true) {K : Nat} (hK : K < 2) {described : Evidence sp → Bool}
    (hd : ∀ ev, (wrongCharge sp (RoundId.new (Fin.ofNat 256 (K + 1)))).evidence ev → described ev = true)
    {o : Except (MisErr sp) Unit}
    (h : CheckWithExtension (Tag := SimpleTag) (simple sp fmt checks).tag (simpleEntries sp fmt checks ids ((l ++ [t]).map signer)) ()
      (simpleTagAt K) (wrongPosition sp fmt checks) described o) : o = .ok () := by
  have ht : ids.contains t = true := (hids t).1 (by simp)
  rcases C63_detects (tag := (simple sp fmt checks).tag) (Tag := SimpleTag) (fun sid => (simplePlan sp fmt checks ids signer sid).scheme)
    (fun sid => (simple_ok hf hw hb).scheme) (fun sid => rfl) (fun sid => simple_misdirects hf hu hw hn ht hK)
    (l := l) (eps := simpleEntries sp fmt checks ids ((l ++ [t]).map signer))
    (fun sid => ⟨hnd, hids⟩) (fun sid => by
      simp only [simpleEntries, List.map_map]
      rfl) (f := fun x => x.withExtension (simpleTagAt K) (wrongPosition sp fmt checks)) (fun ep => rfl) hd
    (fun sid i rng s₀ rep ev h0 h1 hx _ hacc => C62_simple_verifies hw.sc hw.srt hf hu h0 h1 hx (by
      intro n k hk
      rcases hacc.2 with ⟨p, hp⟩ | ⟨pe, hp⟩ <;> rw [hp] at hk <;> cases hk)) h with h | ⟨-, sid, he⟩
  · exact h
  · have := he t ht
    have h3 := others_nonempty h2 ht
    exact absurd (this.symm.trans h3) (by simp)

/-- **C63.**  The check of `simple` with wrong positions returns. -/
theorem C63_simple_returns (rng : sp.Rng) (hf : fmt.Lawful) (hu : fmt.UnitReads) (hw : ParamsWork sp ids signer) (hb : SumsFit checks ids)
    (hn : partyCount ids ≤ 256) {l : List sp.Id} {t : sp.Id} (hnd : (l ++ [t]).Nodup)
    (hids : ∀ i, i ∈ l ++ [t] ↔ ids.contains i = true) {K : Nat} (hK : K < 2) (described : Evidence sp → Bool) :
    ∃ o, CheckWithExtension (Tag := SimpleTag) (simple sp fmt checks).tag (simpleEntries sp fmt checks ids ((l ++ [t]).map signer)) ()
      (simpleTagAt K) (wrongPosition sp fmt checks) described o := by
  have ht : ids.contains t = true := (hids t).1 (by simp)
  obtain ⟨o, ho⟩ := C63_detects_returns (tag := (simple sp fmt checks).tag) (Tag := SimpleTag)
    (simplePlan sp fmt checks ids signer []).scheme (simple_ok hf hw hb).scheme (simple_misdirects hf hu hw hn ht hK) rng (l := l)
    ⟨hnd, hids⟩ (f := fun x => x.withExtension (simpleTagAt K) (wrongPosition sp fmt checks)) (fun ep => rfl) () described
  refine ⟨o, ?_⟩
  have : simpleEntries sp fmt checks ids ((l ++ [t]).map signer) = (simplePlan sp fmt checks ids signer []).scheme.g.nodes (l ++ [t]) := by
    simp only [simpleEntries, List.map_map]
    rfl
  rw [this]
  exact ho

/-- **C63.**  Without misbehaviour the check fails. -/
theorem C63_simple_honest (rng : sp.Rng) (hf : fmt.Lawful) (hw : ParamsWork sp ids signer) (hb : SumsFit checks ids)
    {l : List sp.Id} {i t : sp.Id} (hnd : (i :: l ++ [t]).Nodup)
    (hids : ∀ j, j ∈ i :: l ++ [t] ↔ ids.contains j = true) {described : Evidence sp → Bool} {o : Except (MisErr sp) Unit}
    (h : CheckWithExtensions (Tag := SimpleTag) (simple sp fmt checks).tag
      (simpleEntries sp fmt checks ids ((i :: l ++ [t]).map signer)) () id described o) : o ≠ .ok () := by
  rcases C63_honest (tag := (simple sp fmt checks).tag) (Tag := SimpleTag) (fun sid => (simplePlan sp fmt checks ids signer sid).scheme)
    (fun sid => (simple_ok hf hw hb).scheme) (fun sid => rfl) rng (fun sid => ⟨hnd, hids⟩)
    (eps := simpleEntries sp fmt checks ids ((i :: l ++ [t]).map signer)) (fun sid => by
      simp only [simpleEntries, List.map_map]
      rfl) h with ⟨j, h⟩ | h <;> rw [h] <;> simp

end

/-! ### Examples -/

/-- The three parties of the tests. -/
def threeIds : BSet U8 := BSet.ofList [0, 1, 2]

theorem three_enum : ∀ i : U8, i ∈ ([0, 1] : List U8) ++ [2] ↔ BMap.contains threeIds i = true := by
  intro i
  show _ ↔ BMap.contains (BSet.ofList [0, 1, 2] : BSet U8) i = true
  rw [BSet.contains_ofList]
  simp

/-- The description tells the kind of error and the round. -/
def saysRound (n : U8) (ev : Evidence toy) : Bool :=
  match ev.body with
  | .protocol pe =>
    match pe.direct with
    | some p => decide (p.metadata.roundId = RoundId.new n)
    | none => false
  | _ => false

theorem saysRound_charge {n : U8} {ev : Evidence toy} (h : (wrongCharge toy (RoundId.new n)).evidence ev) : saysRound n ev = true := by
  obtain ⟨pe, p, h1, h2, h3⟩ := h
  simp [saysRound, h1, h2, h3]

/-- `round1_attributable_failure` (`simple_test.rs:33-63`): it always passes, and it does return. -/
example : ∃ o, CheckWithExtension (sp := toy) (Tag := SimpleTag) (simple toy simpleFmt true).tag
    (simpleEntries toy simpleFmt true threeIds [(0 : U8), (1 : U8), (2 : U8)]) () SimpleTag.r1 (wrongPosition toy simpleFmt true) (saysRound 1) o :=
  C63_simple_returns (sp := toy) (0 : Nat) simpleFmt_lawful simpleFmt_unit (toy_works threeIds) (Or.inr (by decide)) (by decide)
    (l := [(0 : U8), (1 : U8)]) (t := (2 : U8)) (by decide) three_enum (K := 0) (by decide) (saysRound 1)

example {o : Except (MisErr toy) Unit} (h : CheckWithExtension (sp := toy) (Tag := SimpleTag) (simple toy simpleFmt true).tag
    (simpleEntries toy simpleFmt true threeIds [(0 : U8), (1 : U8), (2 : U8)]) () SimpleTag.r1 (wrongPosition toy simpleFmt true) (saysRound 1) o) :
    o = .ok () :=
  C63_simple (sp := toy) simpleFmt_lawful simpleFmt_unit (toy_works threeIds) (Or.inr (by decide)) (by decide) (by decide)
    (l := [(0 : U8), (1 : U8)]) (t := (2 : U8)) (by decide) three_enum (K := 0) (by decide) (fun _ => saysRound_charge) h

/-- `round2_attributable_failure` (`simple_test.rs:66-96`). -/
example {o : Except (MisErr toy) Unit} (h : CheckWithExtension (sp := toy) (Tag := SimpleTag) (simple toy simpleFmt true).tag
    (simpleEntries toy simpleFmt true threeIds [(0 : U8), (1 : U8), (2 : U8)]) () SimpleTag.r2 (wrongPosition toy simpleFmt true) (saysRound 2) o) :
    o = .ok () :=
  C63_simple (sp := toy) simpleFmt_lawful simpleFmt_unit (toy_works threeIds) (Or.inr (by decide)) (by decide) (by decide)
    (l := [(0 : U8), (1 : U8)]) (t := (2 : U8)) (by decide) three_enum (K := 1) (by decide) (fun _ => saysRound_charge) h

/-- The network of the first test: whenever nothing more can happen in it, the other parties blame the third one. -/
example {n : Net (extend (simple toy simpleFmt true).wrap (fun r => some ((simple toy simpleFmt true).tag r : SimpleTag)))}
    (h : NetReach ((simpleGroup toy simpleFmt true threeIds (fun i => i) [9]).extended (Tag := SimpleTag) (simple toy simpleFmt true).tag
      (onlyAt (2 : U8) (addExt (fun _ => none) (simpleTagAt 0) (wrongPosition toy simpleFmt true)))) n)
    (hs : ∀ n', ¬ NetStep ((simpleGroup toy simpleFmt true threeIds (fun i => i) [9]).extended (Tag := SimpleTag)
      (simple toy simpleFmt true).tag (onlyAt (2 : U8) (addExt (fun _ => none) (simpleTagAt 0) (wrongPosition toy simpleFmt true)))) n n') :
    ∃ rep, n.node (1 : U8) = some (.done (.ok rep)) ∧ rep.Blames (wrongCharge toy (RoundId.new 1)) (2 : U8) :=
  C63_blamed (0 : Nat) (Scheme.Ok.extended (simple_ok (sp := toy) (sid := [9]) simpleFmt_lawful (toy_works threeIds)
    (Or.inr (by decide))).scheme _) (simple_misdirects (sp := toy) (sid := [9]) simpleFmt_lawful simpleFmt_unit (toy_works threeIds)
    (by decide) (t := (2 : U8)) rfl (K := 0) (by decide)).deviation h hs (i := (1 : U8)) rfl (show (1 : U8) ≠ 2 by decide)

end Manul
