import Verif.Spec.Describe
import Verif.Props.RoundIds

/-! # Lemmas about joined texts -/

namespace Manul

/-- Cutting at the first separator. -/
theorem cut_at {c : Char} {a b : Text} {r s : Text} (ha : c ∉ a) (hb : c ∉ b) (h : a ++ c :: r = b ++ c :: s) :
    a = b ∧ r = s := by
  induction a generalizing b with
  | nil =>
    cases b with
    | nil => simpa using h
    | cons x b =>
      simp only [List.nil_append, List.cons_append, List.cons.injEq] at h
      exact absurd (h.1 ▸ List.mem_cons_self ..) hb
  | cons x a ih =>
    cases b with
    | nil =>
      simp only [List.nil_append, List.cons_append, List.cons.injEq] at h
      exact absurd (h.1 ▸ List.mem_cons_self ..) ha
    | cons y b =>
      simp only [List.cons_append, List.cons.injEq] at h
      have := ih (fun hc => ha (List.mem_cons_of_mem _ hc)) (fun hc => hb (List.mem_cons_of_mem _ hc)) h.2
      exact ⟨by rw [h.1, this.1], this.2⟩

theorem joinText_cons {sep a b : Text} {l : List Text} :
    joinText sep (a :: b :: l) = a ++ sep ++ joinText sep (b :: l) := rfl

/-- Texts without the first character of the separator can be read back from the joined text. -/
theorem joinText_inj {c : Char} {sep : Text} {l l' : List Text} (hl : ∀ t ∈ l, c ∉ t) (hl' : ∀ t ∈ l', c ∉ t)
    (hn : l ≠ []) (hn' : l' ≠ []) (h : joinText (c :: sep) l = joinText (c :: sep) l') : l = l' := by
  induction l generalizing l' with
  | nil => exact absurd rfl hn
  | cons a l ih =>
    cases l' with
    | nil => exact absurd rfl hn'
    | cons a' l' =>
      have ha := hl a (List.mem_cons_self ..)
      have ha' := hl' a' (List.mem_cons_self ..)
      cases l with
      | nil =>
        cases l' with
        | nil => simpa [joinText] using h
        | cons b' l' =>
          rw [joinText_cons] at h
          simp only [joinText, List.append_assoc, List.cons_append] at h
          exact absurd (h ▸ by simp) ha
      | cons b l =>
        cases l' with
        | nil =>
          rw [joinText_cons] at h
          simp only [joinText, List.append_assoc, List.cons_append] at h
          exact absurd (h.symm ▸ by simp) ha'
        | cons b' l' =>
          rw [joinText_cons, joinText_cons] at h
          simp only [List.append_assoc, List.cons_append] at h
          obtain ⟨rfl, h2⟩ := cut_at ha ha' h
          rw [ih (fun t ht => hl t (List.mem_cons_of_mem _ ht)) (fun t ht => hl' t (List.mem_cons_of_mem _ ht))
            (by simp) (by simp) (List.append_cancel_left h2)]

theorem joinText_append {sep a : Text} {l : List Text} (h : l ≠ []) :
    a ++ (sep ++ joinText sep l) = joinText sep (a :: l) := by
  cases l with
  | nil => exact absurd rfl h
  | cons b l => simp [joinText]

theorem joinText_append_list {sep : Text} {l l' : List Text} (h : l ≠ []) (h' : l' ≠ []) :
    joinText sep l ++ (sep ++ joinText sep l') = joinText sep (l ++ l') := by
  induction l with
  | nil => exact absurd rfl h
  | cons a l ih =>
    cases l with
    | nil => exact joinText_append h'
    | cons b l =>
      rw [joinText_cons, List.append_assoc, ih (by simp)]
      simp [joinText]

/-- The lines of one part of a report. -/
def partLines (title : Text) (rows : List Text) : List Text := if rows.isEmpty then [] else title :: rows

theorem briefPart_lines (l : List Text) (h : l ≠ []) (title : Text) (rows : List Text) :
    joinText (txt "\n") l ++ briefPart title rows = joinText (txt "\n") (l ++ partLines title rows) := by
  unfold briefPart partLines
  split
  · simp
  · rename_i hr
    rw [← joinText_append_list h (by simp), ← joinText_append (l := rows) (by simpa using hr)]
    simp

/-- Splitting after the entries that satisfy a condition. -/
theorem split_rows {p : Text → Prop} {r r' x x' : List Text} (hr : ∀ t ∈ r, p t) (hr' : ∀ t ∈ r', p t)
    (hx : ∀ t l, x = t :: l → ¬ p t) (hx' : ∀ t l, x' = t :: l → ¬ p t) (h : r ++ x = r' ++ x') : r = r' ∧ x = x' := by
  induction r generalizing r' with
  | nil =>
    cases r' with
    | nil => exact ⟨rfl, h⟩
    | cons a r' => exact absurd (hr' a (List.mem_cons_self ..)) (hx a (r' ++ x') h)
  | cons a r ih =>
    cases r' with
    | nil => exact absurd (hr a (List.mem_cons_self ..)) (hx' a (r ++ x) h.symm)
    | cons b r' =>
      simp only [List.cons_append, List.cons.injEq] at h
      have := ih (fun t ht => hr t (List.mem_cons_of_mem _ ht)) (fun t ht => hr' t (List.mem_cons_of_mem _ ht)) h.2
      exact ⟨by rw [h.1, this.1], this.2⟩

/-- A row of a report begins with a space. -/
def IsRow (t : Text) : Prop := t.head? = some ' '

theorem partLines_cut {title : Text} {r r' x x' : List Text} (hr : ∀ t ∈ r, IsRow t) (hr' : ∀ t ∈ r', IsRow t)
    (hx : ∀ t l, x = t :: l → ¬ IsRow t ∧ t ≠ title) (hx' : ∀ t l, x' = t :: l → ¬ IsRow t ∧ t ≠ title)
    (h : partLines title r ++ x = partLines title r' ++ x') : r = r' ∧ x = x' := by
  unfold partLines at h
  cases r with
  | nil =>
    cases r' with
    | nil => simpa using h
    | cons b r' => exact absurd rfl (hx _ _ (by simpa using h)).2
  | cons a r =>
    cases r' with
    | nil => exact absurd rfl (hx' _ _ (by simpa using h.symm)).2
    | cons b r' =>
      simp only [List.isEmpty_cons, Bool.false_eq_true, if_false, List.cons_append, List.cons.injEq, true_and] at h
      exact split_rows hr hr' (fun t l e => (hx t l e).1) (fun t l e => (hx' t l e).1)
        (by simpa using h)

theorem partLines_head {title t : Text} {r l x : List Text} (h : partLines title r ++ x = t :: l) :
    t = title ∨ (r = [] ∧ x = t :: l) := by
  unfold partLines at h
  cases r with
  | nil => exact .inr ⟨rfl, by simpa using h⟩
  | cons a r =>
    simp only [List.isEmpty_cons, Bool.false_eq_true, if_false, List.cons_append, List.cons.injEq] at h
    exact .inl h.1.symm

theorem decimal_chars (n : U8) {c : Char} (h : c ∈ RoundId.decimal n.val) : c.isDigit = true :=
  (List.all_eq_true.1 (decimal_digits n)) c h

/-- The characters of a printed round id. -/
theorem display_chars (r : RoundId) {c : Char} (h : c ∈ r.display) :
    c.isDigit = true ∨ c ∈ ['R', 'o', 'u', 'n', 'd', ' ', '-', '(', 'e', 'c', 'h', ')'] := by
  unfold RoundId.display at h
  simp only [List.mem_append, List.mem_flatten, List.mem_map, List.mem_reverse] at h
  rcases h with ((h | ⟨_, ⟨g, -, rfl⟩, h⟩) | h) | h
  · right; simp only [List.mem_cons, List.not_mem_nil] at h ⊢; tauto
  · rcases List.mem_append.1 h with h | h
    · exact .inl (decimal_chars g h)
    · right; simp only [List.mem_cons, List.not_mem_nil] at h ⊢; tauto
  · exact .inl (decimal_chars _ h)
  · split at h
    · right; simp only [List.mem_cons, List.not_mem_nil] at h ⊢; tauto
    · cases h

theorem display_plain (r : RoundId) : ':' ∉ r.display ∧ '\n' ∉ r.display := by
  constructor <;> intro h <;> rcases display_chars r h with h | h <;> revert h <;> decide

/-- Rows with the same text have the same parts. -/
theorem row_inj {a b t t' : Text} (ha : ':' ∉ a) (hb : ':' ∉ b)
    (h : txt "  " ++ a ++ txt ": " ++ t = txt "  " ++ b ++ txt ": " ++ t') : a = b ∧ t = t' := by
  simp only [List.append_assoc] at h
  have h := List.append_cancel_left h
  rw [show txt ": " = [':', ' '] by decide +kernel] at h
  change a ++ ':' :: (' ' :: t) = b ++ ':' :: (' ' :: t') at h
  obtain ⟨h1, h2⟩ := cut_at ha hb h
  exact ⟨h1, by simpa using h2⟩

theorem map_inj_on {α β : Type} {f : α → β} {l l' : List α} (hf : ∀ a ∈ l, ∀ b ∈ l', f a = f b → a = b)
    (h : l.map f = l'.map f) : l = l' := by
  induction l generalizing l' with
  | nil => cases l' with | nil => rfl | cons b l' => simp at h
  | cons a l ih =>
    cases l' with
    | nil => simp at h
    | cons b l' =>
      simp only [List.map_cons, List.cons.injEq] at h
      rw [hf a (List.mem_cons_self ..) b (List.mem_cons_self ..) h.1,
        ih (fun x hx y hy => hf x (List.mem_cons_of_mem _ hx) y (List.mem_cons_of_mem _ hy)) h.2]

/-- Printed sets of parties can be read back. -/
theorem debugSet_inj {Id : Type} [LinearOrder Id] {idText : Id → Text} (hp : PlainIds idText) {s s' : BSet Id}
    (h : debugSet idText s = debugSet idText s') : s = s' := by
  have h : joinText (txt ", ") (s.elems.map idText) = joinText (txt ", ") (s'.elems.map idText) := by
    unfold debugSet at h
    have := List.append_cancel_right h
    exact List.append_cancel_left this
  have hc : ∀ s : BSet Id, ∀ t ∈ s.elems.map idText, ',' ∉ t := by
    intro s t ht hm
    obtain ⟨i, -, rfl⟩ := List.mem_map.1 ht
    exact (hp.plain i _ hm).2.1 rfl
  have key : s.elems.map idText = s'.elems.map idText := by
    have hne : ∀ s : BSet Id, s.elems.map idText ≠ [] → joinText (txt ", ") (s.elems.map idText) ≠ [] := by
      intro s hs he
      cases hl : s.elems with
      | nil => simp [hl] at hs
      | cons a l =>
        rw [hl] at he
        cases l with
        | nil => exact hp.nonempty a (by simpa [joinText] using he)
        | cons b l => simp [joinText, show txt ", " = [',', ' '] by decide +kernel] at he
    by_cases h1 : s.elems.map idText = []
    · by_cases h2 : s'.elems.map idText = []
      · rw [h1, h2]
      · exact absurd (by rw [← h, h1]; rfl) (hne s' h2)
    · by_cases h2 : s'.elems.map idText = []
      · exact absurd (by rw [h, h2]; rfl) (hne s h1)
      · rw [show txt ", " = [',', ' '] by decide +kernel] at h
        exact joinText_inj (hc s) (hc s') h1 h2 h
  have hel : s.elems = s'.elems := map_inj_on (fun a _ b _ e => hp.inj a b e) key
  cases s with | mk l hs => cases s' with | mk l' hs' =>
  have : l = l' := map_inj_on (f := fun e : Id × Unit => e.1) (fun a _ b _ e => Prod.ext e rfl) hel
  subst this
  rfl

theorem debugSet_oneLine {Id : Type} [LinearOrder Id] {idText : Id → Text} (hp : PlainIds idText) (s : BSet Id) :
    '\n' ∉ debugSet idText s := by
  have hj : ∀ l : List Id, '\n' ∉ joinText (txt ", ") (l.map idText) := by
    intro l
    induction l with
    | nil => simp [joinText]
    | cons a l ih =>
      cases l with
      | nil => exact fun h => (hp.plain a _ h).2.2 rfl
      | cons b l =>
        rw [List.map_cons, List.map_cons, joinText_cons]
        simp only [List.mem_append, not_or]
        exact ⟨⟨fun h => (hp.plain a _ h).2.2 rfl, by decide +kernel⟩, by simpa using ih⟩
  unfold debugSet
  simp only [List.mem_append, not_or]
  exact ⟨⟨by decide +kernel, hj _⟩, by decide +kernel⟩

/-- Maps with the same entries give the same answers. -/
theorem get?_of_rows {K V W : Type} [LinearOrder K] {m m' : BMap K V} {f : V → W}
    (h : m.toList.map (fun e => (e.1, f e.2)) = m'.toList.map (fun e => (e.1, f e.2))) (k : K) :
    (m.get? k).map f = (m'.get? k).map f := by
  have key : ∀ {m m' : BMap K V}, m.toList.map (fun e => (e.1, f e.2)) = m'.toList.map (fun e => (e.1, f e.2)) →
      ∀ w, (m.get? k).map f = some w → (m'.get? k).map f = some w := by
    intro m m' h w hw
    obtain ⟨v, hv, rfl⟩ := Option.map_eq_some_iff.1 hw
    have h1 : (k, f v) ∈ m.toList.map (fun e => (e.1, f e.2)) := List.mem_map.2 ⟨(k, v), BMap.mem_toList.2 hv, rfl⟩
    rw [h] at h1
    obtain ⟨⟨k', v'⟩, h2, h3⟩ := List.mem_map.1 h1
    simp only [Prod.mk.injEq] at h3
    obtain ⟨rfl, h3⟩ := h3
    rw [BMap.mem_toList.1 h2, Option.map_some, h3]
  cases h1 : (m.get? k).map f with
  | some w => exact (key h w h1).symm
  | none =>
    cases h2 : (m'.get? k).map f with
    | none => rfl
    | some w => rw [key h.symm w h2] at h1; cases h1

/-- The first letter of an outcome. -/
def outcomeLetter {Res : Type} : SessionOutcome Res → Char
  | .result _ => 'S'
  | .notEnoughMessages => 'N'
  | .terminated => 'T'

theorem brief_head {Res : Type} (resText : Res → Text) (o : SessionOutcome Res) :
    (o.brief resText).head? = some (outcomeLetter o) := by
  cases o with
  | result x =>
    have : txt "Success (" = 'S' :: txt "uccess (" := by decide +kernel
    simp only [SessionOutcome.brief, outcomeLetter, this, List.cons_append, List.head?_cons]
  | notEnoughMessages =>
    have : (txt "Not enough messages to finalize, terminated").head? = some 'N' := by decide +kernel
    simpa only [SessionOutcome.brief, outcomeLetter] using this
  | terminated =>
    have : (txt "Terminated by the user").head? = some 'T' := by decide +kernel
    simpa only [SessionOutcome.brief, outcomeLetter] using this

theorem outcome_inj {Res : Type} {resText : Res → Text} {o o' : SessionOutcome Res}
    (h : o.brief resText = o'.brief resText) :
    (∃ x y, o = .result x ∧ o' = .result y ∧ resText x = resText y) ∨
    (o = .notEnoughMessages ∧ o' = .notEnoughMessages) ∨ (o = .terminated ∧ o' = .terminated) := by
  have hl : outcomeLetter o = outcomeLetter o' := by
    have := congrArg List.head? h
    rw [brief_head, brief_head] at this
    exact Option.some.inj this
  match o, o', hl, h with
  | .result x, .result y, _, h =>
    exact .inl ⟨x, y, rfl, rfl, List.append_cancel_left (List.append_cancel_right h)⟩
  | .notEnoughMessages, .notEnoughMessages, _, _ => exact .inr (.inl ⟨rfl, rfl⟩)
  | .terminated, .terminated, _, _ => exact .inr (.inr ⟨rfl, rfl⟩)
  | .result _, .notEnoughMessages, hl, _ => exact absurd hl (show _ ≠ _ by simp only [outcomeLetter]; decide)
  | .result _, .terminated, hl, _ => exact absurd hl (show _ ≠ _ by simp only [outcomeLetter]; decide)
  | .notEnoughMessages, .result _, hl, _ => exact absurd hl (show _ ≠ _ by simp only [outcomeLetter]; decide)
  | .notEnoughMessages, .terminated, hl, _ => exact absurd hl (show _ ≠ _ by simp only [outcomeLetter]; decide)
  | .terminated, .result _, hl, _ => exact absurd hl (show _ ≠ _ by simp only [outcomeLetter]; decide)
  | .terminated, .notEnoughMessages, hl, _ => exact absurd hl (show _ ≠ _ by simp only [outcomeLetter]; decide)

end Manul
