import Verif.Lemmas.TypedEvidence
import Verif.Lemmas.Simple
import Verif.Props.Echo

/-!
# Lemmas: runs of the protocol `simple` with arbitrary other parties
-/

namespace Manul

variable {sp : SP} {fmt : SimpleFormat} {checks : Bool} {ids : BSet sp.Id}

theorem simple_tagConsistent : TagConsistent (simple sp fmt checks) := by
  intro st
  cases st <;> rfl

theorem simple_mainIds : MainIds (simple sp fmt checks).wrap := by
  intro st
  cases st <;> rfl

theorem simple_readable (hf : fmt.Lawful) : MessagesReadable (simple sp fmt checks) where
  direct := by
    intro st rng dest v a de b h1 h2 h3
    have key : ∀ (c : SimpleCtx sp) (f : U8 → U8 → SimpleVal), c.two f dest = .ok (v, a) → ∃ i j, v = f i j := by
      intro c f h
      unfold SimpleCtx.two at h
      split at h
      · cases h
      · split at h
        · cases h
        · cases h
          exact ⟨_, _, rfl⟩
    cases st with
    | r1 c =>
      obtain ⟨i, j, rfl⟩ := key c _ h1
      cases h2
      obtain ⟨b', hb, hd⟩ := hf (.message1 i j)
      cases hb.symm.trans h3
      exact ⟨_, hd⟩
    | r2 sum c =>
      obtain ⟨i, j, rfl⟩ := key c _ h1
      cases h2
      obtain ⟨b', hb, hd⟩ := hf (.message2 i j)
      cases hb.symm.trans h3
      exact ⟨_, hd⟩
  echo := by
    intro st rng v de b h1 h2 h3
    cases st with
    | r1 c =>
      simp only [simple, simpleBase] at h1
      split at h1
      · cases h1
      · rename_i my _
        cases h1
        cases h2
        obtain ⟨b', hb, hd⟩ := hf (.echo1 my)
        cases hb.symm.trans h3
        exact ⟨_, hd⟩
    | r2 sum c => cases h2
  normal := by
    intro st rng v de b h1 h2 h3
    cases st with
    | r1 c =>
      simp only [simple, simpleBase] at h1
      split at h1
      · cases h1
      · rename_i my _
        cases h1
        cases h2
        obtain ⟨b', hb, hd⟩ := hf (.broadcast1 0 my)
        cases hb.symm.trans h3
        exact ⟨_, hd⟩
    | r2 sum c => cases h2

/-- What a round does with a message: the direct message has to name the position of this party. -/
theorem simple_receive_cases {r : SimpleSt sp} {x : sp.Id} {m : TypedMsg SimpleVal} {e : SimpleTag}
    (h : (simple sp fmt checks).receive r x m = .error (.protocol e)) : e = (simple sp fmt checks).tag r := by
  have key : ∀ (c : SimpleCtx sp) (t : SimpleTag) (i j : U8), c.check t i j = .error (.protocol e) → e = t := by
    intro c t i j h
    unfold SimpleCtx.check at h
    split at h
    · cases h
    · split at h
      · cases h
        rfl
      · cases h
  cases r with
  | r1 c =>
    simp only [simple, simpleBase] at h
    split at h
    · exact key _ _ _ _ h
    · cases h
  | r2 sum c =>
    simp only [simple, simpleBase] at h
    split at h
    · exact key _ _ _ _ h
    · cases h

theorem simple_errors (hu : fmt.UnitReads) : ErrorsReadable (simple sp fmt checks) := by
  intro r x m e b h hb
  have he := simple_receive_cases h
  show ((fmt.deUnit b).map (fun _ => (simple sp fmt checks).tag r)) = some e
  obtain ⟨b', h1, h2⟩ := hu
  have hb' : fmt.serUnit = .ok b := hb
  rw [h1] at hb'
  cases hb'
  rw [h2, he]
  rfl

theorem simple_strict : EchoStrict (simple sp fmt checks).wrap := by
  refine C20_typed _ ?_
  intro s t h
  cases s <;> simp [simple, simpleBase, CommInfo.regular] at h

theorem simple_acyclic : Acyclic (simple sp fmt checks).wrap := by
  have child : ∀ {a b : RoundId}, ChildOf (simple sp fmt checks).wrap a b → a = RoundId.new 1 ∧ b = RoundId.new 2 := by
    rintro a b ⟨r, rfl, hb⟩
    cases r with
    | r1 c =>
      have hc : BMap.contains (BSet.ofList [RoundId.new 2]) b = true := hb
      rw [BSet.contains_ofList, decide_eq_true_eq, List.mem_singleton] at hc
      exact ⟨rfl, hc⟩
    | r2 sum c =>
      have hc : BMap.contains (BMap.empty : BSet RoundId) b = true := hb
      simp at hc
  have key : ∀ {a b : RoundId}, Relation.TransGen (ChildOf (simple sp fmt checks).wrap) a b →
      a = RoundId.new 1 ∧ b = RoundId.new 2 := by
    intro a b h
    induction h with
    | single h => exact child h
    | tail _ h ih => exact ⟨ih.1, (child h).2⟩
  intro a h
  obtain ⟨h1, h2⟩ := key h
  rw [h1] at h2
  exact absurd h2 (by decide)

theorem position_eq {i : sp.Id} {n : U8} (h : HasPosition ids i n) : ids.contains i = true ∧ n = posOf ids i := by
  obtain ⟨k, hk, rfl⟩ := h
  exact ⟨BSet.mem_elems.1 (List.mem_of_getElem? hk), (posOf_getElem? hk).symm⟩

theorem simple_receive_total (ht : fmt.Typed) {k : Nat} {i : sp.Id} (hi : ids.contains i = true) {r : SimpleSt sp}
    (hs : SimpleShape ids k i r) (x : sp.Id) (m : DynMsg) (e : LErr) :
    (simple sp fmt checks).wrap.receive r x m ≠ .error (.local e) := by
  intro h
  have hc : ∀ t my your, (simpleCtx ids i).check t my your ≠ .error (.local e) := by
    intro t my your h
    unfold SimpleCtx.check at h
    rw [show (simpleCtx ids i).id = i from rfl, simple_position hi] at h
    simp only at h
    split at h <;> cases h
  have rd : ∀ (ty : SimpleTy) (t : SimpleTag) (d : Option SimpleVal), (simple sp fmt checks).de t .direct = some (fmt.de ty) →
      (simple sp fmt checks).readPart t m.direct = some d → ∃ v, d = some v ∧ v.ty = ty := by
    intro ty t d h1 h2
    unfold TypedProto.readPart at h2
    rw [h1] at h2
    split at h2
    · rename_i h3 _; cases h3
    · rename_i h3 _; cases h3
    · cases h2
    · rename_i de b h3 h4
      cases h3
      split at h2
      · cases h2
      · rename_i v hv
        cases h2
        exact ⟨v, rfl, ht _ _ _ hv⟩
  have h' : (simple sp fmt checks).wrapReceive r x m = .error (.local e) := h
  unfold TypedProto.wrapReceive at h'
  split at h'
  · cases h'
  · rename_i d hd
    split at h'
    · cases h'
    · rename_i eb _
      split at h'
      · cases h'
      · rename_i nb _
        cases hrc : (simple sp fmt checks).receive r x ⟨d, eb, nb⟩ with
        | ok v =>
          rw [hrc] at h'
          cases h'
        | error er =>
          rw [hrc] at h'
          cases er with
          | protocol er => cases h'
          | unprovable er => cases h'
          | «local» er =>
            have he : er = e := by
              simpa [mapErr, TypedProto.boxErr] using h'
            subst he
            rcases hs with ⟨-, rfl⟩ | ⟨-, sum, rfl⟩
            · obtain ⟨v, rfl, hv⟩ := rd .message1 .r1 d rfl hd
              cases v <;> cases hv
              exact hc _ _ _ hrc
            · obtain ⟨v, rfl, hv⟩ := rd .message2 .r2 d rfl hd
              cases v <;> cases hv
              exact hc _ _ _ hrc

/-- The rounds in a run of a party, whatever the others do. -/
def SimpleVisit (ids : BSet sp.Id) (me : sp.Id)
    (trail : List (Session (simple sp fmt checks).wrap × Accum (simple sp fmt checks).wrap)) (s : Session (simple sp fmt checks).wrap) : Prop :=
  (s.round = .main (SimpleSt.r1 (simpleCtx ids me))) ∨
  (∃ e, s.round = .echo e ∧ e.main = SimpleSt.r1 (simpleCtx ids me) ∧ e.info.expecting = ids.erase me ∧
    ∃ q ∈ trail, q.1.round = .main (SimpleSt.r1 (simpleCtx ids me))) ∨
  (∃ sum, s.round = .main (SimpleSt.r2 sum (simpleCtx ids me)) ∧
    (∃ q ∈ trail, q.1.round = .main (SimpleSt.r1 (simpleCtx ids me))) ∧
    ((ids.erase me).isEmpty = false → ∃ q ∈ trail, ∃ e, q.1.round = .echo e ∧ e.main = SimpleSt.r1 (simpleCtx ids me) ∧
      e.info.expecting = ids.erase me))

theorem finalizeMain_ok {P : Proto sp} {r : P.Rd} {rng : sp.Rng} {ps : BMap sp.Id (Option P.Payload)}
    {as : BMap sp.Id (Option P.Artifact)} {o : Outcome P.Rd P.Result} (h : SRound.finalizeMain r rng ps as = .ok o) :
    ∃ ps' as', P.finalize r rng ps' as' = .ok o := by
  unfold SRound.finalizeMain at h
  split at h
  · cases h
  · split at h
    · cases h
    · exact ⟨_, _, h⟩

theorem simple_finalize1_next {c : SimpleCtx sp} {rng : sp.Rng} {ps : BMap sp.Id U8} {as : BMap sp.Id Unit} {r : SimpleSt sp}
    (h : (simple sp fmt checks).wrap.finalize (SimpleSt.r1 c) rng ps as = .ok (.anotherRound r)) : ∃ sum, r = .r2 sum c := by
  simp only [TypedProto.wrap, simple, simpleBase] at h
  split at h
  · cases h
  · cases h
    exact ⟨_, rfl⟩

theorem simple_visits {rng0 : sp.Rng} {sid : Bytes} {signer : sp.Signer} {s₀ s : Session (simple sp fmt checks).wrap}
    (h0 : Session.new rng0 sid signer (simpleEntry sp fmt checks ids) = .ok s₀)
    {trail : List (Session (simple sp fmt checks).wrap × Accum (simple sp fmt checks).wrap)} {cached : List (VerifiedMessage sp)}
    (hv : Visits s₀ trail s cached) : SimpleVisit ids (sp.verifyingKey signer) trail s := by
  obtain ⟨hp0, hsid0, hsig0, ht0, hm0⟩ := new_proper h0
  induction hv with
  | first =>
    left
    unfold Session.new at h0
    simp only [simpleEntry] at h0
    exact (newForNextRound_ok h0).round
  | @next trail s s' cached cached' rng rng' l a hv hseq hy hf ih =>
    have hpr := (visits_inv hp0 hm0 hv).proper
    have hme : s.me = sp.verifyingKey signer := by rw [hpr.me, (visits_inv hp0 hm0 hv).signer, hsig0]
    have hin : ∀ q ∈ trail, q ∈ trail ++ [(s, a)] := fun q hq => List.mem_append_left _ hq
    have hnow : (s, a) ∈ trail ++ [(s, a)] := List.mem_append_right _ (by simp)
    obtain ⟨t, hu, hfin⟩ := finalizeRound_ok hf
    cases hfin with
    | @toEcho info r _ ebs hi hr hget hns =>
      rcases ih with h | ⟨e, h, -⟩ | ⟨sum, h, -⟩
      · rw [h] at hr
        cases hr
        have hei := hpr.echoInfo
        rw [hi, (roundId_main hpr h).2] at hei
        refine Or.inr (Or.inl ⟨_, hns.round, rfl, ?_, (s, a), hnow, h⟩)
        show info.expecting = _
        unfold Session.makeEchoInfo at hei
        simp only [TypedProto.wrap, simple, simpleBase, CommInfo.regular] at hei
        split at hei
        · cases hei
          rfl
        · cases hei
      · rw [h] at hr
        cases hr
      · exfalso
        rw [h] at hr
        cases hr
        have hei := hpr.echoInfo
        have hne : s.echo.part.isNone = true := by
          obtain ⟨rng, hep⟩ := hpr.echoPart
          split at hep
          · rw [← Except.ok.inj hep]
            rfl
          · rw [h] at hep
            have : (Except.ok Part.none : Except LErr (Part .echo)) = .ok s.echo.part := hep
            rw [← Except.ok.inj this]
            rfl
        rw [hi, (roundId_main hpr h).2, hne] at hei
        unfold Session.makeEchoInfo at hei
        simp [TypedProto.wrap, simple, simpleBase, CommInfo.regular] at hei
    | @toNext r _ hi hr hc hns hrid =>
      rcases ih with h | ⟨e, h, hem, hee, q, hq, hq'⟩ | ⟨sum, h, -⟩
      · rw [h] at hr
        obtain ⟨ps', as', hr'⟩ := finalizeMain_ok hr
        obtain ⟨sum, rfl⟩ := simple_finalize1_next hr'
        refine Or.inr (Or.inr ⟨sum, hns.round, ⟨(s, a), hnow, h⟩, fun hne => ?_⟩)
        exfalso
        have hei := hpr.echoInfo
        have hcm := (roundId_main hpr h).2
        have hsome : s.echo.part.isNone = false := by
          obtain ⟨rng, hep⟩ := hpr.echoPart
          rw [hcm] at hep
          have hd : ((simple sp fmt checks).wrap.comm (SimpleSt.r1 (simpleCtx ids (sp.verifyingKey signer)))).destinations.isEmpty = false := hne
          rw [hd, h] at hep
          simp only [Bool.false_eq_true, if_false] at hep
          have hep' : (simple sp fmt checks).wrap.makeEcho (SimpleSt.r1 (simpleCtx ids (sp.verifyingKey signer))) rng = .ok s.echo.part := hep
          simp only [TypedProto.wrap, simple, simpleBase] at hep'
          split at hep'
          · cases hep'
          · rename_i v hv'
            unfold TypedProto.newPart at hep'
            simp only at hep'
            split at hep'
            · cases hep'
            · rename_i b hb
              have := Except.ok.inj hep'
              rw [← this]
              rfl
        rw [hi, hcm, hsome] at hei
        unfold Session.makeEchoInfo at hei
        simp [TypedProto.wrap, simple, simpleBase, CommInfo.regular] at hei
      · rw [h] at hr
        obtain ⟨ps', as', hr'⟩ := finalizeMain_ok hr
        rw [hem] at hr'
        obtain ⟨sum, rfl⟩ := simple_finalize1_next hr'
        exact Or.inr (Or.inr ⟨sum, hns.round, ⟨q, hin q hq, hq'⟩, fun _ => ⟨(s, a), hnow, e, h, hem, hee⟩⟩)
      · rw [h] at hr
        obtain ⟨ps', as', hr'⟩ := finalizeMain_ok hr
        exact absurd hr' simple_finalize2_not

end Manul
