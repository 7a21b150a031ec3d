import Verif.Lemmas.Describe
import Verif.Lemmas.AccumInv
import Verif.Props.EvidenceComplete

/-!
# C70: descriptions of evidence and printed reports
-/

namespace Manul

variable {sp : SP} {P : Proto sp}

/-! ## Descriptions -/

theorem txt_cons {s : String} {c : Char} (h : (txt s).head? = some c) (t : Text) :
    (txt s ++ t).head? = some c := by
  cases h1 : txt s with
  | nil => rw [h1] at h; cases h
  | cons a l => rw [h1] at h; simpa using h

theorem readOffence_head {t : Text} {c : Char} (h : t.head? = some c) : readOffence t = readOffence [c] := by
  cases t with
  | nil => cases h
  | cons a l =>
    obtain rfl : a = c := by simpa using h
    unfold readOffence
    split <;> simp_all

/-- The evidence that the model of `add_processed_message` records is the one described here, without its
description. -/
theorem C70_same_evidence (t : Transcript sp) (a : Accum P) (p : Processed P) (e : RecvErr sp) (text : Text)
    (he : p.result = .error e) (hp : a.payloads.contains p.message.sender = false)
    (hn : a.notSent.contains p.message.sender = true) (hb : a.provable.contains p.message.sender = false) :
    match DEvidence.ofError t p.message text e, a.addProcessed t p with
    | .ok (some d), .ok a' => a'.provable = a.provable.insert p.message.sender d.erase ∧ a'.unprovable = a.unprovable
    | .ok none, .ok a' => a'.provable = a.provable ∧ ∃ u, a'.unprovable = a.unprovable.insert p.message.sender u
    | .error x, .error y => x = y
    | _, _ => False := by
  obtain ⟨m, r⟩ := p
  simp only at he hp hn hb ⊢
  subst he
  unfold Accum.addProcessed
  simp only [hp, hn]
  cases e with
  | protocol required serialized =>
    simp only [DEvidence.ofError]
    cases Evidence.newProvableError m.sender m.echo m.normal m.direct required serialized t with
    | error x => simp
    | ok ev => simp [Accum.registerProvable, hb, DEvidence.erase]
  | echo e => cases e <;> simp [DEvidence.ofError, Accum.registerProvable, hb, DEvidence.erase, Evidence.newEchoRoundError]
  | unprovable u => simp [DEvidence.ofError]
  | «local» l => simp [DEvidence.ofError]
  | invalidDirect => simp [DEvidence.ofError, Accum.registerProvable, hb, DEvidence.erase]
  | invalidEcho => simp [DEvidence.ofError, Accum.registerProvable, hb, DEvidence.erase]
  | invalidNormal => simp [DEvidence.ofError, Accum.registerProvable, hb, DEvidence.erase]

/-- The description given to a piece of evidence tells which kind of offence the evidence proves. -/
theorem C70_kind (t : Transcript sp) (m : VerifiedMessage sp) (text : Text) (e : RecvErr sp) (d : DEvidence sp)
    (h : DEvidence.ofError t m text e = .ok (some d)) : readOffence d.description = some d.body.offence := by
  cases e with
  | protocol required serialized =>
    simp only [DEvidence.ofError] at h
    cases hn : Evidence.newProvableError m.sender m.echo m.normal m.direct required serialized t with
    | error x => rw [hn] at h; cases h
    | ok ev =>
      rw [hn] at h
      cases h
      have hb : ev.body.offence = .protocol := by
        unfold Evidence.newProvableError at hn
        split at hn
        · cases hn
        · split at hn
          · cases hn
          · split at hn
            · cases hn
            · cases hn; rfl
      rw [hb, readOffence_head (c := 'P')]
      · rfl
      · simp only [DEvidence.protocolText, List.append_assoc]
        exact txt_cons (by decide +kernel) _
  | echo e =>
    cases e with
    | invalidEcho s =>
      cases h
      rw [readOffence_head (c := 'I')]
      · rfl
      · simp only [DEvidence.echoText]; decide +kernel
    | mismatched g w x =>
      cases h
      rw [readOffence_head (c := 'T')]
      · rfl
      · simp only [DEvidence.echoText]; decide +kernel
  | unprovable u => cases h
  | «local» l => cases h
  | invalidDirect =>
    cases h
    rw [readOffence_head (c := 'D') (txt_cons (by decide +kernel) _)]
    rfl
  | invalidEcho =>
    cases h
    rw [readOffence_head (c := 'E') (txt_cons (by decide +kernel) _)]
    rfl
  | invalidNormal =>
    cases h
    rw [readOffence_head (c := 'N') (txt_cons (by decide +kernel) _)]
    rfl

/-- The description of a protocol error determines the round number and the text of the error. -/
theorem C70_protocol_text (n n' : U8) (t t' : Text)
    (h : DEvidence.protocolText n t = DEvidence.protocolText n' t') : n = n' ∧ t = t' := by
  unfold DEvidence.protocolText at h
  simp only [List.append_assoc] at h
  have h := List.append_cancel_left h
  have hs : txt "): " = [')', ':', ' '] := by decide +kernel
  rw [hs] at h
  obtain ⟨h1, h2⟩ := number_cut h
    (by intro c l e; simp at e; rw [← e.1]; decide) (by intro c l e; simp at e; rw [← e.1]; decide)
  exact ⟨h1, by simpa using h2⟩

/-- The description made for a protocol error consists of the number of the round the message was for and the text of the error. -/
theorem C70_protocol_round (t : Transcript sp) (m : VerifiedMessage sp) (text : Text) (required : RequiredMessages) (serialized : Except LErr Bytes)
    (d : DEvidence sp) (h : DEvidence.ofError t m text (.protocol required serialized) = .ok (some d)) :
    d.guilty = m.sender ∧ ∀ n text', d.description = DEvidence.protocolText n text' ↔
      n = m.echo.metadata.roundId.round ∧ text' = text := by
  simp only [DEvidence.ofError] at h
  cases hn : Evidence.newProvableError m.sender m.echo m.normal m.direct required serialized t with
  | error x => rw [hn] at h; cases h
  | ok ev =>
    rw [hn] at h
    cases h
    refine ⟨?_, fun n text' => ⟨fun h => ?_, ?_⟩⟩
    · unfold Evidence.newProvableError at hn
      repeat' split at hn
      all_goals first
        | (cases hn; done)
        | (cases hn; rfl)
    · obtain ⟨h1, h2⟩ := C70_protocol_text _ _ _ _ h
      exact ⟨h1.symm, h2.symm⟩
    · rintro ⟨rfl, rfl⟩
      rfl

/-- What it does *not* determine is the round: of the round id only the number is printed, so the same error in the two
stages of a chain, or in the two stages of a stage, has the same description. -/
theorem C70_round_violation :
    ¬ ∀ (r r' : RoundId) (t : Text), DEvidence.protocolText r.round t = DEvidence.protocolText r'.round t → r = r' := by
  intro h
  have := h ((RoundId.new 1).groupUnder 1) ((RoundId.new 1).groupUnder 2) [] rfl
  exact absurd this (by decide)

/-- The round is determined among those with the same group numbers that are not echo rounds. -/
theorem C70_round_partial (r r' : RoundId) (t t' : Text) (hg : r.groups = r'.groups) (he : r.isEcho = r'.isEcho)
    (h : DEvidence.protocolText r.round t = DEvidence.protocolText r'.round t') : r = r' := by
  obtain ⟨n, gs, e⟩ := r
  obtain ⟨n', gs', e'⟩ := r'
  obtain ⟨rfl, -⟩ := C70_protocol_text _ _ _ _ h
  simp only at hg he
  rw [hg, he]

/-- The description is not covered by the verification: evidence that verifies does so with any description, also one
that tells of another kind of offence. -/
theorem C70_unverified (shared : P.Shared) (d : DEvidence sp) (text : Text)
    (h : d.verify P shared = .ok ()) : ({ d with description := text } : DEvidence sp).verify P shared = .ok () := h

/-! ## Printed reports -/

theorem provableRows_isRow (idText : sp.Id → Text) {Res : Type} (r : TextReport sp Res) :
    ∀ t ∈ r.provableRows idText, IsRow t := by
  intro t ht
  obtain ⟨e, -, rfl⟩ := List.mem_map.1 ht
  simp only [IsRow, List.append_assoc]
  exact txt_cons (by decide +kernel) _

theorem unprovableRows_isRow (idText : sp.Id → Text) {Res : Type} (r : TextReport sp Res) :
    ∀ t ∈ r.unprovableRows idText, IsRow t := by
  intro t ht
  obtain ⟨e, -, rfl⟩ := List.mem_map.1 ht
  simp only [IsRow, List.append_assoc]
  exact txt_cons (by decide +kernel) _

theorem missingRows_isRow (idText : sp.Id → Text) {Res : Type} (r : TextReport sp Res) :
    ∀ t ∈ r.missingRows idText, IsRow t := by
  intro t ht
  obtain ⟨e, -, rfl⟩ := List.mem_map.1 ht
  simp only [IsRow, List.append_assoc]
  exact txt_cons (by decide +kernel) _

/-- The lines of a report, from its rows. -/
theorem reportLines_eq {Res : Type} (idText : sp.Id → Text) (resText : Res → Text) (r : TextReport sp Res) :
    reportLines idText resText r = (txt "Result: " ++ r.outcome.brief resText) ::
      (partLines (txt "Provable errors:") (r.provableRows idText) ++
        (partLines (txt "Unprovable errors:") (r.unprovableRows idText) ++
          partLines (txt "Missing messages:") (r.missingRows idText))) := by
  have hs : txt ": Remote error: " = txt ": " ++ txt "Remote error: " := by decide +kernel
  simp only [reportLines, partLines, TextReport.provableRows, TextReport.unprovableRows, TextReport.missingRows,
    List.isEmpty_map, hs, List.append_assoc, List.cons_append, List.nil_append]

/-- A report is printed as its lines: the outcome, and for each of the three kinds of trouble that occurred a title and
one line per party or round. -/
theorem C70_lines {Res : Type} (idText : sp.Id → Text) (resText : Res → Text) (r : TextReport sp Res) :
    r.brief idText resText = joinText (txt "\n") (reportLines idText resText r) := by
  rw [reportLines_eq]
  unfold TextReport.brief
  have h0 : txt "Result: " ++ r.outcome.brief resText =
      joinText (txt "\n") [txt "Result: " ++ r.outcome.brief resText] := rfl
  rw [h0, briefPart_lines _ (by simp), briefPart_lines _ (by simp), briefPart_lines _ (by simp)]
  simp only [List.append_assoc, List.cons_append, List.nil_append]
  rfl

theorem isRow_title {t : String} (h : (txt t).head? ≠ some ' ') : ¬ IsRow (txt t) := h

theorem reportLines_oneLine {Res : Type} {idText : sp.Id → Text} {resText : Res → Text} (hp : PlainIds idText)
    {r : TextReport sp Res} (h : r.OneLined resText) : ∀ t ∈ reportLines idText resText r, '\n' ∉ t := by
  have hid : ∀ i, '\n' ∉ idText i := fun i hc => (hp.plain i _ hc).2.2 rfl
  intro t ht
  rw [reportLines_eq] at ht
  rcases List.mem_cons.1 ht with rfl | ht
  · simp only [List.mem_append, not_or]
    refine ⟨by decide +kernel, ?_⟩
    cases ho : r.outcome with
    | result x =>
      simp only [SessionOutcome.brief, List.mem_append, not_or]
      exact ⟨⟨by decide +kernel, h.result x ho⟩, by decide +kernel⟩
    | notEnoughMessages => simp only [SessionOutcome.brief]; decide +kernel
    | terminated => simp only [SessionOutcome.brief]; decide +kernel
  have hpart : ∀ (title : Text) (rows : List Text), '\n' ∉ title → (∀ t ∈ rows, '\n' ∉ t) →
      ∀ t ∈ partLines title rows, '\n' ∉ t := by
    intro title rows h1 h2 t ht
    unfold partLines at ht
    split at ht
    · cases ht
    · rcases List.mem_cons.1 ht with rfl | ht
      · exact h1
      · exact h2 t ht
  rcases List.mem_append.1 ht with ht | ht
  · refine hpart _ _ (by decide +kernel) ?_ t ht
    intro t ht
    obtain ⟨⟨i, d⟩, he, rfl⟩ := List.mem_map.1 ht
    simp only [List.mem_append, not_or]
    exact ⟨⟨⟨by decide +kernel, hid i⟩, by decide +kernel⟩, h.provable i d (BMap.mem_toList.1 he)⟩
  · rcases List.mem_append.1 ht with ht | ht
    · refine hpart _ _ (by decide +kernel) ?_ t ht
      intro t ht
      obtain ⟨⟨i, d⟩, he, rfl⟩ := List.mem_map.1 ht
      simp only [List.mem_append, not_or]
      exact ⟨⟨⟨by decide +kernel, hid i⟩, by decide +kernel⟩, by decide +kernel,
        h.unprovable i d (BMap.mem_toList.1 he)⟩
    · refine hpart _ _ (by decide +kernel) ?_ t ht
      intro t ht
      obtain ⟨⟨i, d⟩, he, rfl⟩ := List.mem_map.1 ht
      simp only [List.mem_append, not_or]
      exact ⟨⟨⟨by decide +kernel, (display_plain i).2⟩, by decide +kernel⟩, debugSet_oneLine hp d⟩

/-- Two reports whose texts are in one line each and that are printed alike tell the same: the outcome, who is accused of
what, and who sent nothing in which round. -/
theorem C70_brief_partial {Res : Type} (idText : sp.Id → Text) (resText : Res → Text) (hp : PlainIds idText)
    (r r' : TextReport sp Res) (h1 : r.OneLined resText) (h2 : r'.OneLined resText)
    (h : r.brief idText resText = r'.brief idText resText) : SameNews resText r r' := by
  rw [C70_lines, C70_lines, show txt "\n" = ['\n'] by decide +kernel] at h
  have hl := joinText_inj (reportLines_oneLine hp h1) (reportLines_oneLine hp h2)
    (by rw [reportLines_eq]; simp) (by rw [reportLines_eq]; simp) h
  rw [reportLines_eq, reportLines_eq] at hl
  simp only [List.cons.injEq] at hl
  obtain ⟨ho, hl⟩ := hl
  have ho := outcome_inj (List.append_cancel_left ho)
  have hm : ∀ (rows : List Text) (t : Text) (l : List Text), partLines (txt "Missing messages:") rows = t :: l →
      ¬ IsRow t ∧ t ≠ txt "Provable errors:" ∧ t ≠ txt "Unprovable errors:" := by
    intro rows t l e
    rcases partLines_head (x := []) (by simpa using e) with rfl | ⟨-, e⟩
    · exact ⟨isRow_title (by decide +kernel), by decide +kernel, by decide +kernel⟩
    · cases e
  have hu : ∀ (rows rows' : List Text) (t : Text) (l : List Text),
      partLines (txt "Unprovable errors:") rows ++ partLines (txt "Missing messages:") rows' = t :: l →
      ¬ IsRow t ∧ t ≠ txt "Provable errors:" := by
    intro rows rows' t l e
    rcases partLines_head e with rfl | ⟨-, e⟩
    · exact ⟨isRow_title (by decide +kernel), by decide +kernel⟩
    · exact ⟨(hm _ _ _ e).1, (hm _ _ _ e).2.1⟩
  obtain ⟨hpr, hl⟩ := partLines_cut (provableRows_isRow idText r) (provableRows_isRow idText r')
    (hu _ _) (hu _ _) hl
  obtain ⟨hur, hl⟩ := partLines_cut (unprovableRows_isRow idText r) (unprovableRows_isRow idText r')
    (fun t l e => ⟨(hm _ t l e).1, (hm _ t l e).2.2⟩) (fun t l e => ⟨(hm _ t l e).1, (hm _ t l e).2.2⟩) hl
  obtain ⟨hmr, -⟩ := partLines_cut (x := []) (x' := []) (missingRows_isRow idText r) (missingRows_isRow idText r')
    (by simp) (by simp) (by simpa using hl)
  have hid : ∀ i, ':' ∉ idText i := fun i hc => (hp.plain i _ hc).1 rfl
  refine ⟨ho, ?_, ?_, ?_⟩
  · intro i
    apply get?_of_rows
    have hf : ∀ l : List (sp.Id × DEvidence sp), l.map (fun e => txt "  " ++ idText e.1 ++ txt ": " ++ e.2.description) =
        (l.map (fun e => (e.1, e.2.description))).map (fun e => txt "  " ++ idText e.1 ++ txt ": " ++ e.2) := by
      intro l; simp only [List.map_map]; rfl
    simp only [TextReport.provableRows] at hpr
    rw [hf, hf] at hpr
    refine map_inj_on ?_ hpr
    intro a _ b _ e
    obtain ⟨e1, e2⟩ := row_inj (hid _) (hid _) e
    exact Prod.ext (hp.inj _ _ e1) e2
  · intro i
    have : r.unprovable.toList = r'.unprovable.toList := by
      refine map_inj_on ?_ hur
      intro a _ b _ e
      obtain ⟨e1, e2⟩ := row_inj (hid _) (hid _) e
      exact Prod.ext (hp.inj _ _ e1) (List.append_cancel_left e2)
    unfold BMap.get?
    rw [this]
  · intro rd i
    have : r.missing.toList = r'.missing.toList := by
      refine map_inj_on ?_ hmr
      intro a _ b _ e
      obtain ⟨e1, e2⟩ := row_inj (display_plain _).1 (display_plain _).1 e
      exact Prod.ext (C34_display_injective _ _ e1) (debugSet_inj hp e2)
    have : r.missing.get? rd = r'.missing.get? rd := by unfold BMap.get?; rw [this]
    rw [this]

/-! ## Witnesses and examples -/

/-- Identifiers of the toy parameters, printed as numbers. -/
def u8Text (i : U8) : Text := RoundId.decimal i.val

theorem u8Text_plain : PlainIds u8Text where
  inj i j h := decimal_inj h
  nonempty := by decide +kernel
  plain := by
    intro i c hc
    have := decimal_chars i hc
    refine ⟨?_, ?_, ?_⟩ <;> rintro rfl <;> exact absurd this (by decide)

/-- A report in which party 2 is accused with a text of two lines. -/
def forgedReport : TextReport toy Unit where
  outcome := .terminated
  provable := BMap.empty
  unprovable := (BMap.empty : BMap U8 Text).insert 2 (txt "bad\n  3: Remote error: worse")
  missing := BMap.empty

/-- A report in which the parties 2 and 3 are accused. -/
def plainReport : TextReport toy Unit where
  outcome := .terminated
  provable := BMap.empty
  unprovable := ((BMap.empty : BMap U8 Text).insert 2 (txt "bad")).insert 3 (txt "worse")
  missing := BMap.empty

/-- A printed report does not in general tell who is accused: a text with a line break forges an accusation of somebody
else. -/
theorem C70_brief_violation :
    ¬ ∀ r r' : TextReport toy Unit, r.brief u8Text (fun _ => []) = r'.brief u8Text (fun _ => []) →
      SameNews (fun _ => []) r r' := by
  intro h
  have hb : forgedReport.brief u8Text (fun _ => []) = plainReport.brief u8Text (fun _ => []) := by decide +kernel
  have := (h _ _ hb).unprovable (3 : U8)
  exact absurd this (by decide +kernel)

/-- Evidence of a malformed direct message verifies while its description tells of a protocol error. -/
theorem C70_description_violation :
    ¬ ∀ (d : DEvidence toy) (sh : (demo true 255).wrap.Shared), d.verify (demo true 255).wrap sh = .ok () →
      readOffence d.description = some d.body.offence := by
  intro hall
  have h : onOk (demoRun true 255 [.msg ⟨2, 2, [9], RoundId.new 1, 1, some [5, 6], some [2], some [7]⟩, .cancel])
      (fun r => r.2.isReport (fun rep => hasEvidence rep 2 (fun ev => decide (ev.body.offence = .direct) &&
        (match ev.verify (demo true 255).wrap () with | .ok _ => true | .error _ => false)))) = true := by decide +kernel
  obtain ⟨s, st, h0, hr, hk⟩ := onOk_run h
  obtain ⟨rep, rfl, hk⟩ := isReport_iff.1 hk
  obtain ⟨ev, h1, h2⟩ := hasEvidence_iff.1 hk
  rw [Bool.and_eq_true, decide_eq_true_eq] at h2
  have hv : ev.verify (demo true 255).wrap () = .ok () := by
    have := h2.2
    split at this
    · assumption
    · cases this
  have := hall ⟨ev.guilty, ['P'], ev.body⟩ () hv
  rw [show (⟨ev.guilty, ['P'], ev.body⟩ : DEvidence toy).body.offence = _ from h2.1] at this
  cases this

/-- The report of a session in which two parties misbehaved and one sent nothing. -/
def troubled : TextReport toy U8 where
  outcome := .result 7
  provable := (BMap.empty : BMap U8 (DEvidence toy)).insert 2
    ⟨(2 : U8), DEvidence.protocolText 1 (txt "wrong position"), .protocol ⟨[], none, none, none, BMap.empty, BMap.empty, BMap.empty,
      BMap.empty, BMap.empty⟩⟩
  unprovable := (BMap.empty : BMap U8 Text).insert 4 (txt "Unexpected round")
  missing := (BMap.empty : BMap RoundId (BSet U8)).insert ⟨1, [2], true⟩ (BSet.ofList [3, 5])

example : troubled.brief u8Text u8Text = txt ("Result: Success (7)\nProvable errors:\n" ++
    "  2: Protocol error (Round 1): wrong position\nUnprovable errors:\n  4: Remote error: Unexpected round\n" ++
    "Missing messages:\n  Round 2-1 (echo): {3, 5}") := by decide +kernel

theorem single_get {K V : Type} [LinearOrder K] {k i : K} {v d : V}
    (h : ((BMap.empty : BMap K V).insert k v).get? i = some d) : d = v := by
  rw [BMap.get?_insert] at h
  split at h
  · cases h; rfl
  · cases h

/-- The report above meets the assumptions of `C70_brief_partial`. -/
example : troubled.OneLined u8Text := by
  refine ⟨?_, ?_, ?_⟩
  · intro x h
    cases h
    exact (by decide +kernel : '\n' ∉ u8Text 7)
  · intro i d h
    rw [single_get h]
    exact (by decide +kernel : '\n' ∉ DEvidence.protocolText 1 (txt "wrong position"))
  · intro i d h
    rw [single_get h]
    exact (by decide +kernel : '\n' ∉ txt "Unexpected round")

example (m : VerifiedMessage toy) (t : Transcript toy) : ∃ d, DEvidence.ofError t m (txt "no data") .invalidDirect =
    .ok (some d) ∧ d.description = txt "Direct message error: no data" :=
  ⟨_, rfl, (by decide +kernel : txt "Direct message error: " ++ txt "no data" = txt "Direct message error: no data")⟩

/-- The hypothesis of `C70_protocol_round` can be met. -/
example (m : VerifiedMessage toy) : ∃ d, DEvidence.ofError Transcript.new m (txt "wrong position")
    (.protocol ⟨⟨false, false, true⟩, none, none⟩ (.ok [])) = .ok (some d) :=
  ⟨_, rfl⟩

end Manul
