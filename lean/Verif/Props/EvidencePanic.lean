import Verif.Props.EvidenceSound
import Verif.Spec.EvidencePanic
import Verif.Model.Chain
import Verif.Props.Dining
import Verif.Model.Simple

/-!
# Verifying evidence and panics: C50
-/

namespace Manul

variable {sp : SP} {P : Proto sp} {Q : LErr → Prop}

theorem LocalOnly.ok {α : Type} (a : α) : LocalOnly Q (.ok a : Except EvErr α) := fun _ h => by simp at h

theorem LocalOnly.invalid {α : Type} : LocalOnly Q (.error .invalid : Except EvErr α) := fun _ h => by simp at h

theorem LocalOnly.err {α β : Type} {r : Except EvErr α} {e : EvErr} (h : LocalOnly Q r) (he : r = .error e) :
    LocalOnly Q (.error e : Except EvErr β) := by
  intro x hx
  simp only [Except.error.injEq] at hx
  subst hx
  exact h x he

theorem verifySigned_local (hs : ∀ m e, sp.serMeta m = .error e → Q e) {who : sp.Id} {m : Metadata} {h sig : Bytes} {e : VErr}
    (hv : verifySigned sp who m h sig = .error e) : LocalOnly Q (.error e.toEvErr : Except EvErr α) := by
  intro x hx
  simp only [Except.error.injEq] at hx
  unfold verifySigned SP.messageDigest at hv
  cases hm : sp.serMeta m with
  | error y =>
    rw [hm] at hv
    simp only [Except.error.injEq] at hv
    subst hv
    simp only [VErr.toEvErr, EvErr.local.injEq] at hx
    subst hx
    exact hs m y hm
  | ok b =>
    rw [hm] at hv
    simp only at hv
    split at hv
    · simp only [Except.error.injEq] at hv
      subst hv
      simp [VErr.toEvErr] at hx
    · split at hv
      · simp at hv
      · simp only [Except.error.injEq] at hv
        subst hv
        simp [VErr.toEvErr] at hx

theorem foldE_local {σ α : Type} {f : σ → α → Except EvErr σ} (hf : ∀ s x, LocalOnly Q (f s x)) (s : σ) (l : List α) :
    LocalOnly Q (foldE f s l) := by
  induction l generalizing s with
  | nil => exact LocalOnly.ok _
  | cons x l ih =>
    unfold foldE
    split
    · exact ih _
    · rename_i e he
      exact (hf s x).err he

theorem verifyParts_local (hs : ∀ m e, sp.serMeta m = .error e → Q e) {k : PartKind} (who : sp.Id) (sid : Bytes)
    (m : BMap RoundId (SignedPart k)) : LocalOnly Q (Evidence.verifyParts who sid m) := by
  refine foldE_local ?_ _ _
  intro acc e
  split
  · rename_i he
    exact verifySigned_local hs he
  · split
    · exact .invalid
    · exact .ok _

theorem verifyPart_local (hs : ∀ m e, sp.serMeta m = .error e → Q e) {k : PartKind} (who : sp.Id) (sid : Bytes) (r : RoundId)
    (m : Option (SignedPart k)) : LocalOnly Q (Evidence.verifyPart who sid r m) := by
  unfold Evidence.verifyPart
  split
  · exact .ok _
  · split
    · exact .invalid
    · split
      · rename_i he
        exact verifySigned_local hs he
      · exact .ok _

theorem verifyEchoed_local (hs : ∀ m e, sp.serMeta m = .error e → Q e) (sid : Bytes) (r : RoundId)
    (att : BMap sp.Id (SignedPart .echo)) (acc : BMap sp.Id (Part .echo)) (e : sp.Id × SignedHash) :
    LocalOnly Q (Evidence.verifyEchoed sid r att acc e) := by
  unfold Evidence.verifyEchoed
  split
  · exact .invalid
  · split
    · rename_i he
      exact verifySigned_local hs he
    · split
      · exact .invalid
      · split
        · exact .invalid
        · split
          · exact .invalid
          · split
            · rename_i he
              exact verifySigned_local hs he
            · exact .ok _

theorem verifyCombined_local (hs : ∀ m e, sp.serMeta m = .error e → Q e) (who : sp.Id) (sid : Bytes)
    (other : BMap RoundId (BMap sp.Id (SignedPart .echo))) (acc : BMap RoundId (BMap sp.Id (Part .echo)))
    (e : RoundId × SignedPart .normal) : LocalOnly Q (Evidence.verifyCombined who sid other acc e) := by
  unfold Evidence.verifyCombined
  split
  · exact .invalid
  · split
    · exact .invalid
    · split
      · rename_i he
        exact verifySigned_local hs he
      · split
        · exact .invalid
        · split
          · exact .invalid
          · split
            · rename_i he
              exact (foldE_local (verifyEchoed_local hs _ _ _) _ _).err he
            · exact .ok _

theorem verifyInvalidPart_local (hs : ∀ m e, sp.serMeta m = .error e → Q e) {k : PartKind} {I : Type} (who : sp.Id)
    (m : SignedPart k) {info : RoundId → Option I} {ec : Part k → Except EvErr Unit} {mc : I → Part k → Except EvErr Unit}
    (h1 : ∀ p, LocalOnly Q (ec p)) (h2 : ∀ r i p, info r = some i → LocalOnly Q (mc i p)) :
    LocalOnly Q (Evidence.verifyInvalidPart sp who m info ec mc) := by
  unfold Evidence.verifyInvalidPart
  split
  · rename_i he
    exact verifySigned_local hs he
  · split
    · exact h1 _
    · split
      · exact .invalid
      · rename_i hi
        exact h2 _ _ _ hi

theorem verifyIsSome_local {k : PartKind} (p : Part k) : LocalOnly Q p.verifyIsSome := by
  unfold Part.verifyIsSome
  split
  · exact .ok _
  · exact .invalid

/-- **C50.**  Whatever the evidence: a local error while verifying it comes from serializing metadata or from the checks of the
protocol; the framework adds none of its own. -/
theorem C50_local_errors (hs : ∀ m e, sp.serMeta m = .error e → Q e) (hP : ChecksLocalOnly Q P) (shared : P.Shared)
    (ev : Evidence sp) : LocalOnly Q (ev.verify P shared) := by
  unfold Evidence.verify
  split
  · unfold Evidence.verifyProtocol
    split
    · exact .invalid
    · split
      · rename_i he
        exact (verifyPart_local hs _ _ _ _).err he
      · split
        · rename_i he
          exact (verifyPart_local hs _ _ _ _).err he
        · split
          · rename_i he
            exact (verifyPart_local hs _ _ _ _).err he
          · split
            · rename_i he
              exact (verifyParts_local hs _ _ _).err he
            · split
              · rename_i he
                exact (verifyParts_local hs _ _ _).err he
              · split
                · rename_i he
                  exact (verifyParts_local hs _ _ _).err he
                · split
                  · rename_i he
                    exact (foldE_local (verifyCombined_local hs _ _ _) _ _).err he
                  · split
                    · exact .invalid
                    · rename_i hi
                      exact (hP _ _ hi).2.2.2 _ _ _ _ _ _ _ _
  · exact verifyInvalidPart_local hs _ _ verifyIsSome_local (fun r i p hi => (hP r i hi).1 p)
  · exact verifyInvalidPart_local hs _ _ verifyIsSome_local (fun r i p hi => (hP r i hi).2.1 p)
  · refine verifyInvalidPart_local hs _ _ ?_ (fun r i p hi => (hP r i hi).2.2.1 p)
    intro p
    unfold Evidence.echoNormalInvalid
    split
    · exact .ok _
    · exact .invalid
  · unfold Evidence.verifyInvalidEcho
    split
    · rename_i he
      exact verifySigned_local hs he
    · split
      · exact .invalid
      · unfold Evidence.verifyInvalidEchoError
        split
        · exact .invalid
        · split
          · rename_i e he
            exact verifySigned_local (α := Unit) hs he
          · exact .ok _
          · exact .ok _
          · split
            · exact .ok _
            · exact .invalid
  · unfold Evidence.verifyMismatched
    split
    · rename_i he
      exact verifySigned_local hs he
    · split
      · rename_i he
        exact verifySigned_local hs he
      · split
        · exact .ok _
        · exact .invalid

/-- **C50.**  If metadata can be serialized and the checks of the protocol do not panic, verifying evidence does not, whoever
made it.  Missing: the checks of rounds that declare no protocol errors do panic, see `C50_no_errors_violation`. -/
theorem C50_no_panic_partial (hs : sp.MetaTotal) (hP : ChecksLocalOnly (fun e => e.isPanic = false) P) (shared : P.Shared)
    (ev : Evidence sp) : ¬ Panics (ev.verify P shared) := by
  rintro ⟨e, he, hp⟩
  have := C50_local_errors (Q := fun e => e.isPanic = false)
    (fun m e h => by obtain ⟨b, hb⟩ := hs m; rw [hb] at h; simp at h) hP shared ev e he
  rw [this] at hp
  simp at hp

theorem readEv_local (T : TypedProto sp) {k : PartKind} (t : T.Tag) (p : Part k) : LocalOnly Q (T.readEv t p) := by
  unfold TypedProto.readEv okOr
  split
  · exact .ok _
  · exact .invalid

theorem evPart_local (T : TypedProto sp) {k : PartKind} (t : T.Tag) (p : Option (Part k)) : LocalOnly Q (T.evPart t p) := by
  unfold TypedProto.evPart
  split
  · exact .invalid
  · exact readEv_local T _ _

theorem evCombined_local (T : TypedProto sp) (t : T.Tag) (comb : BMap RoundId (BMap sp.Id (Part .echo))) (n : U8) :
    LocalOnly Q (T.evCombined t comb n) := by
  have hmap : ∀ (l : List (sp.Id × Part .echo)), LocalOnly Q
      (mapE (fun e : sp.Id × Part .echo =>
        match T.readEv t e.2 with
        | .error err => Except.error err
        | .ok v => Except.ok (e.1, v)) l) := by
    intro l
    induction l with
    | nil => exact .ok _
    | cons x l ih =>
      unfold mapE
      cases hr : T.readEv t x.2 with
      | error e => exact (readEv_local T _ _).err hr
      | ok v =>
        simp only
        split
        · rename_i he
          exact ih.err he
        · exact .ok _
  unfold TypedProto.evCombined
  split
  · exact .invalid
  · split
    · rename_i he
      exact (hmap _).err he
    · exact .ok _

/-- **C50.**  Reading the messages in `verify_evidence` (the accessors of `EvidenceMessages`) never fails locally: a message
that is absent or malformed makes the evidence invalid. -/
theorem C50_accessors (T : TypedProto sp) (t : T.Tag) (prev : BMap RoundId EvMsg) (comb : BMap RoundId (BMap sp.Id (Part .echo)))
    (n : U8) {k : PartKind} (p : Option (Part k)) (e : LErr) :
    T.evPart t p ≠ .error (.local e) ∧ T.evPreviousEcho t prev n ≠ .error (.local e) ∧
      T.evPreviousNormal t prev n ≠ .error (.local e) ∧ T.evPreviousDirect t prev n ≠ .error (.local e) ∧
      T.evCombined t comb n ≠ .error (.local e) := by
  refine ⟨fun h => evPart_local (Q := fun _ => False) T t p e h, ?_, ?_, ?_,
    fun h => evCombined_local (Q := fun _ => False) T t comb n e h⟩
  · unfold TypedProto.evPreviousEcho
    split
    · simp
    · exact fun h => evPart_local (Q := fun _ => False) T t _ e h
  · unfold TypedProto.evPreviousNormal
    split
    · simp
    · exact fun h => evPart_local (Q := fun _ => False) T t _ e h
  · unfold TypedProto.evPreviousDirect
    split
    · simp
    · exact fun h => evPart_local (Q := fun _ => False) T t _ e h

/-- **C50.**  The checks of typed rounds fail locally only where `ProtocolError::verify_evidence` does. -/
theorem C50_typed {T : TypedProto sp}
    (h : ∀ t e rid guilty sid shared m prev comb, LocalOnly Q (T.verifyErr t e rid guilty sid shared m prev comb)) :
    ChecksLocalOnly Q T.wrap := by
  have hpart : ∀ {k : PartKind} (t : T.Tag) (p : Part k), LocalOnly Q (T.partInvalid t p) := by
    intro k t p
    unfold TypedProto.partInvalid
    split
    · exact verifyIsSome_local p
    · split
      · exact .ok _
      · split
        · exact .ok _
        · exact .invalid
  intro rid info hi
  change (T.roundTag rid).map T.infoOf = some info at hi
  obtain ⟨t, -, rfl⟩ := Option.map_eq_some_iff.1 hi
  refine ⟨hpart t, hpart t, hpart t, ?_⟩
  intro rid' err guilty sid shared m prev comb
  show LocalOnly Q (match T.deErr t err with
    | none => .error .invalid
    | some e => T.verifyErr t e rid' guilty sid shared m prev comb)
  split
  · exact .invalid
  · exact h _ _ _ _ _ _ _ _ _

/-- **C50.**  The checks of a chained protocol fail locally where those of its parts do, and for rounds that are not of the
group (these errors are not panics). -/
theorem C50_chain {P1 P2 : Proto sp} {J : ChainJoin P1 P2} (hq : Q .noGroup ∧ Q .wrongGroup) (h1 : ChecksLocalOnly Q P1)
    (h2 : ChecksLocalOnly Q P2) : ChecksLocalOnly Q (chain P1 P2 J) := by
  have hug : ∀ g r e, ungroup g r = .error e → Q e := by
    intro g r e h
    unfold ungroup RoundId.splitGroup at h
    cases hl : r.groups.getLast? with
    | none =>
      rw [hl] at h
      simp only [Except.error.injEq] at h
      exact h ▸ hq.1
    | some x =>
      rw [hl] at h
      simp only at h
      split at h
      · simp only [Except.error.injEq] at h
        exact h ▸ hq.2
      · simp at h
  have hmap : ∀ {V : Type} g (m : BMap RoundId V) e, ungroupMap g m = .error e → Q e := by
    intro V g m e h
    have hl : ∀ (l : List (RoundId × V)) e, mapE (fun e : RoundId × V =>
        match ungroup g e.1 with
        | .error err => Except.error err
        | .ok r => Except.ok (r, e.2)) l = .error e → Q e := by
      intro l
      induction l with
      | nil => intro e h; simp [mapE] at h
      | cons x l ih =>
        intro e h
        unfold mapE at h
        cases hu : ungroup g x.1 with
        | error y =>
          rw [hu] at h
          simp only [Except.error.injEq] at h
          exact h ▸ hug _ _ _ hu
        | ok r =>
          rw [hu] at h
          simp only at h
          split at h
          · rename_i y hy
            simp only [Except.error.injEq] at h
            exact h ▸ ih _ hy
          · simp at h
    unfold ungroupMap at h
    split at h
    · rename_i y hy
      simp only [Except.error.injEq] at h
      exact h ▸ hl _ _ hy
    · simp at h
  have hinfo : ∀ {S : Type} (g : U8) (proj : P1.Shared × P2.Shared → S) (i : RoundInfo sp S),
      ((∀ p, LocalOnly Q (i.directInvalid p)) ∧ (∀ p, LocalOnly Q (i.echoInvalid p)) ∧ (∀ p, LocalOnly Q (i.normalInvalid p)) ∧
        ∀ rid' err guilty sid shared m prev comb, LocalOnly Q (i.verifyEvidence rid' err guilty sid shared m prev comb)) →
      ∀ rid err guilty sid shared m prev comb, LocalOnly Q ((chainInfo g proj i).verifyEvidence rid err guilty sid shared m prev comb) := by
    intro S g proj i hi rid err guilty sid shared m prev comb
    simp only [chainInfo]
    split
    · rename_i e he
      intro x hx
      simp only [Except.error.injEq, EvErr.local.injEq] at hx
      exact hx ▸ hug _ _ _ he
    · split
      · rename_i e he
        intro x hx
        simp only [Except.error.injEq, EvErr.local.injEq] at hx
        exact hx ▸ hmap _ _ _ he
      · split
        · rename_i e he
          intro x hx
          simp only [Except.error.injEq, EvErr.local.injEq] at hx
          exact hx ▸ hmap _ _ _ he
        · exact hi.2.2.2 _ _ _ _ _ _ _ _
  intro rid info hi
  change (match rid.splitGroup with
    | .error _ => none
    | .ok (g, rid') =>
      if g = 1 then (P1.roundInfo rid').map (chainInfo 1 Prod.fst)
      else if g = 2 then (P2.roundInfo rid').map (chainInfo 2 Prod.snd)
      else none) = some info at hi
  split at hi
  · simp at hi
  · split at hi
    · obtain ⟨i, hr, rfl⟩ := Option.map_eq_some_iff.1 hi
      have := h1 _ _ hr
      exact ⟨this.1, this.2.1, this.2.2.1, hinfo 1 Prod.fst i this⟩
    · split at hi
      · obtain ⟨i, hr, rfl⟩ := Option.map_eq_some_iff.1 hi
        have := h2 _ _ hr
        exact ⟨this.1, this.2.1, this.2.2.1, hinfo 2 Prod.snd i this⟩
      · simp at hi

/-- **C50.**  The dining cryptographers declare `NoProtocolErrors`, which can be read from any bytes: from any message a party
has signed in this protocol anybody can make evidence whose verification panics. -/
theorem C50_no_errors_violation {R : RandomSource} (who : U8) (m : SignedPart .direct) (err : Bytes)
    (hm : SigValid (sp := testParams R) who m) (hr : m.metadata.roundId = RoundId.new 1 ∨ m.metadata.roundId = RoundId.new 2) :
    Panics (Evidence.verify (sp := testParams R) (dining R).wrap ()
      ⟨who, .protocol ⟨err, some m, none, none, BMap.empty, BMap.empty, BMap.empty, BMap.empty, BMap.empty⟩⟩) := by
  refine ⟨.panicNoErrors, ?_, rfl⟩
  have hv : m.verify (testParams R) who = .ok () := verifySigned_ok.2 hm
  have hinfo : ∃ t, (dining R).roundTag m.metadata.roundId = some t := by
    rcases hr with h | h <;> rw [h]
    · exact ⟨_, rfl⟩
    · exact ⟨_, rfl⟩
  obtain ⟨t, ht⟩ := hinfo
  have hi : (dining R).wrap.roundInfo m.metadata.roundId = some ((dining R).infoOf t) := by
    show ((dining R).roundTag m.metadata.roundId).map (dining R).infoOf = _
    rw [ht]
    rfl
  simp only [Evidence.verify, Evidence.verifyProtocol, Evidence.triggerMetadata, Evidence.verifyPart, ne_eq, not_true_eq_false,
    or_self, if_false, hv, Evidence.verifyParts, BMap.empty, foldE, hi]
  rfl

/-- **C50.**  In particular from every message an honest diner sends in the first round. -/
theorem C50_honest_violation {R : RandomSource} {rng : R.Rng} {sid : Bytes} {i : U8} {s : Session (dining R).wrap}
    (hs : Session.new (sp := testParams R) rng sid i (diningEntry R) = .ok s) {rng' : R.Rng} {dest : U8}
    {m : Message (testParams R)} {art : ProcessedArtifact (dining R).wrap}
    (hm : s.makeMessage (sp := testParams R) rng' dest = .ok (m, art)) (err : Bytes) :
    Panics (Evidence.verify (sp := testParams R) (dining R).wrap ()
      ⟨s.me, .protocol ⟨err, some m.direct, none, none, BMap.empty, BMap.empty, BMap.empty, BMap.empty, BMap.empty⟩⟩) := by
  have hp := (new_proper hs).1
  have ha := makeMessage_authentic (test_signCorrect R) (test_sigRoundTrip R) hp hm
  refine C50_no_errors_violation s.me m.direct err ha.1.2 (Or.inl ?_)
  rw [ha.1.1]
  have hn := newForNextRound_ok (P := (dining R).wrap) (round := .main (dinerStart ((testParams R).fork rng 0) i)) (s := s) hs
  have ht : Except.ok ((dining R).transition (dinerStart ((testParams R).fork rng 0) i)) = Except.ok (ε := LErr) s.transition := hn.transition
  rw [← Except.ok.inj ht]
  unfold dinerStart
  split <;> rfl

/-! ### Examples -/

/-- An honest diner and a message. -/
example : ∃ s, Session.new (sp := testParams countingSource) (4 : Nat) [9] (0 : U8) (diningEntry countingSource) = .ok s ∧
    ∃ m art, s.makeMessage (sp := testParams countingSource) (4 : Nat) (1 : U8) = .ok (m, art) := ⟨_, rfl, _, _, rfl⟩

/-- The example protocol with its own checks meets the hypotheses of `C50_no_panic_partial`. -/
example (fmt : SimpleFormat) (checks : Bool) : ChecksLocalOnly (fun e => e.isPanic = false) (simple sp fmt checks).wrap := by
  apply C50_typed
  intro t e rid guilty sid shared m prev comb
  show LocalOnly (fun e => e.isPanic = false) (match e with
    | SimpleTag.r1 =>
      match (simpleBase sp fmt checks).evPart (SimpleTag.r1) m.direct with
      | .error err => .error err
      | .ok _ => .ok ()
    | SimpleTag.r2 =>
      match (simpleBase sp fmt checks).evPart (SimpleTag.r2) m.direct with
      | .error err => .error err
      | .ok _ =>
        match (simpleBase sp fmt checks).evCombined (SimpleTag.r1) comb 1 with
        | .error err => .error err
        | .ok _ => .ok ())
  split
  · split
    · rename_i he
      exact (evPart_local _ _ _).err he
    · exact .ok _
  · split
    · rename_i he
      exact (evPart_local _ _ _).err he
    · split
      · rename_i he
        exact (evCombined_local _ _ _ _).err he
      · exact .ok _

end Manul
