import Verif.Lemmas.BMap
import Verif.Model.RoundId

/-!
# C33–C36: round ids and transition infos
-/

namespace Manul

/-! ## C33 -/

/-- Taking off the outermost group inverts adding it. -/
theorem C33_split_of_group (r : RoundId) (g : U8) : (r.groupUnder g).splitGroup = .ok (g, r) := by
  simp [RoundId.groupUnder, RoundId.splitGroup]

/-- Adding the group back inverts taking it off. -/
theorem C33_group_of_split (r r' : RoundId) (g : U8) (h : r.splitGroup = .ok (g, r')) : r'.groupUnder g = r := by
  unfold RoundId.splitGroup at h
  split at h
  · cases h
  · rename_i g' hg
    cases h
    obtain ⟨round, groups, e⟩ := r
    simp only [RoundId.groupUnder, RoundId.mk.injEq, true_and, and_true]
    exact List.dropLast_append_getLast? _ hg

/-- `split_group` fails exactly on ids without a group. -/
theorem C33_split_fails_iff (r : RoundId) : (∃ e, r.splitGroup = .error e) ↔ r.groups = [] := by
  unfold RoundId.splitGroup
  split
  · rename_i h
    simp [List.getLast?_eq_none_iff.1 h]
  · rename_i g h
    constructor
    · rintro ⟨e, he⟩
      cases he
    · intro hn
      simp [hn] at h

/-- Grouping is injective, and ids in different groups differ. -/
theorem C33_group_injective (r r' : RoundId) (g g' : U8) (h : r.groupUnder g = r'.groupUnder g') :
    r = r' ∧ g = g' := by
  have := congrArg RoundId.splitGroup h
  rw [C33_split_of_group, C33_split_of_group] at this
  simp only [Except.ok.injEq, Prod.mk.injEq] at this
  exact ⟨this.2, this.1⟩

/-- Grouping keeps the echo flag and the number. -/
theorem C33_group_keeps (r : RoundId) (g : U8) :
    (r.groupUnder g).isEcho = r.isEcho ∧ (r.groupUnder g).round = r.round := ⟨rfl, rfl⟩

/-- The echo id of a main round is an echo id, is a different id, and gives the main round back; there is no echo id of
an echo id. -/
theorem C33_echo (r : RoundId) :
    (r.isEcho = false → ∃ e, r.echo = .ok e ∧ e.isEcho = true ∧ e ≠ r ∧ e.nonEcho = .ok r) ∧
      (r.isEcho = true → r.echo = .error .echoOfEcho) := by
  obtain ⟨n, gs, e⟩ := r
  cases e <;> simp [RoundId.echo, RoundId.nonEcho]

/-- The main round of an echo id is a main id and has it as its echo id; there is no main round of a main id. -/
theorem C33_non_echo (r : RoundId) :
    (r.isEcho = true → ∃ m, r.nonEcho = .ok m ∧ m.isEcho = false ∧ m.echo = .ok r) ∧
      (r.isEcho = false → r.nonEcho = .error .nonEchoOfMain) := by
  obtain ⟨n, gs, e⟩ := r
  cases e <;> simp [RoundId.echo, RoundId.nonEcho]

/-- Echo ids of different rounds differ. -/
theorem C33_echo_injective (r r' e : RoundId) (h : r.echo = .ok e) (h' : r'.echo = .ok e) : r = r' := by
  obtain ⟨n, gs, b⟩ := r
  obtain ⟨n', gs', b'⟩ := r'
  cases b <;> cases b' <;> simp [RoundId.echo] at h h'
  subst h'
  simpa using h

/-- Grouping commutes with taking the echo id. -/
theorem C33_group_echo (r e : RoundId) (g : U8) (h : r.echo = .ok e) : (r.groupUnder g).echo = .ok (e.groupUnder g) := by
  obtain ⟨n, gs, b⟩ := r
  cases b <;> simp [RoundId.echo] at h
  subst h
  simp [RoundId.echo, RoundId.groupUnder]

example : (((RoundId.new 3).groupUnder 1).groupUnder 2).splitGroup = .ok (2, (RoundId.new 3).groupUnder 1) ∧
    (RoundId.new 3).splitGroup = .error .noGroup := by decide

/-! ## C34 -/

/-- A decimal digit. -/
def isDig (c : Char) : Bool := c.isDigit

/-- Reading a decimal number. -/
def readDec (l : List Char) : Nat := l.foldl (fun n c => 10 * n + (c.toNat - 48)) 0

theorem decimal_read : ∀ n : U8, readDec (RoundId.decimal n.val) = n.val := by decide +kernel

theorem decimal_digits : ∀ n : U8, (RoundId.decimal n.val).all isDig = true := by decide +kernel

theorem decimal_inj {a b : U8} (h : RoundId.decimal a.val = RoundId.decimal b.val) : a = b := by
  have := congrArg readDec h
  rw [decimal_read, decimal_read] at this
  exact Fin.ext this

theorem takeDigits {l : List Char} (h : l.all isDig = true) (rest : List Char)
    (hr : ∀ c l, rest = c :: l → isDig c = false) : (l ++ rest).takeWhile isDig = l := by
  induction l with
  | nil =>
    cases rest with
    | nil => rfl
    | cons c l => simp [hr c l rfl]
  | cons c l ih =>
    simp only [List.all_cons, Bool.and_eq_true] at h
    simp [h.1, ih h.2]

theorem number_cut {a b : U8} {r s : List Char} (h : RoundId.decimal a.val ++ r = RoundId.decimal b.val ++ s)
    (hr : ∀ c l, r = c :: l → isDig c = false) (hs : ∀ c l, s = c :: l → isDig c = false) : a = b ∧ r = s := by
  have h1 := congrArg (List.takeWhile isDig) h
  rw [takeDigits (decimal_digits a) r hr, takeDigits (decimal_digits b) s hs] at h1
  obtain rfl := decimal_inj h1
  exact ⟨rfl, by simpa using h⟩

/-- The rendering after the word "Round ". -/
def body (gs : List U8) (n : U8) (e : Bool) : List Char :=
  (gs.map (fun g => RoundId.decimal g.val ++ ['-'])).flatten ++ RoundId.decimal n.val
    ++ (if e then [' ', '(', 'e', 'c', 'h', 'o', ')'] else [])

theorem suffix_not_digit (e : Bool) :
    ∀ c l, (if e then [' ', '(', 'e', 'c', 'h', 'o', ')'] else []) = c :: l → isDig c = false := by
  intro c l h
  cases e
  · simp at h
  · simp at h
    rw [← h.1]
    decide

theorem dash_not_digit (t : List Char) : ∀ c l, '-' :: t = c :: l → isDig c = false := by
  intro c l h
  simp at h
  rw [← h.1]
  decide

theorem body_inj (gs gs' : List U8) (n n' : U8) (e e' : Bool) (h : body gs n e = body gs' n' e') :
    gs = gs' ∧ n = n' ∧ e = e' := by
  induction gs generalizing gs' with
  | nil =>
    cases gs' with
    | nil =>
      simp only [body, List.map_nil, List.flatten_nil, List.nil_append] at h
      obtain ⟨rfl, h2⟩ := number_cut h (suffix_not_digit e) (suffix_not_digit e')
      refine ⟨rfl, rfl, ?_⟩
      cases e <;> cases e' <;> simp at h2 ⊢
    | cons g gs' =>
      simp only [body, List.map_nil, List.flatten_nil, List.nil_append, List.map_cons, List.flatten_cons,
        List.append_assoc, List.cons_append] at h
      obtain ⟨-, h2⟩ := number_cut h (suffix_not_digit e) (dash_not_digit _)
      cases e <;> simp at h2
  | cons g gs ih =>
    cases gs' with
    | nil =>
      simp only [body, List.map_nil, List.flatten_nil, List.nil_append, List.map_cons, List.flatten_cons,
        List.append_assoc, List.cons_append] at h
      obtain ⟨-, h2⟩ := number_cut h (dash_not_digit _) (suffix_not_digit e')
      cases e' <;> simp at h2
    | cons g' gs' =>
      simp only [body, List.map_cons, List.flatten_cons, List.append_assoc, List.cons_append, List.nil_append] at h
      obtain ⟨rfl, h2⟩ := number_cut h (dash_not_digit _) (dash_not_digit _)
      have := ih gs' (by simpa [body, List.append_assoc] using h2)
      exact ⟨by rw [this.1], this.2⟩

/-- Distinct round ids are rendered differently. -/
theorem C34_display_injective (r r' : RoundId) (h : r.display = r'.display) : r = r' := by
  obtain ⟨n, gs, e⟩ := r
  obtain ⟨n', gs', e'⟩ := r'
  have := body_inj gs.reverse gs'.reverse n n' e e'
    (by simpa [RoundId.display, body, List.append_assoc] using h)
  simp only [List.reverse_inj] at this
  obtain ⟨rfl, rfl, rfl⟩ := this
  rfl

example : (⟨12, [3, 1], true⟩ : RoundId).display = "Round 1-3-12 (echo)".toList := by decide +kernel

/-! ## C35 -/

/-- The id of a round given by a number is that of a main round outside of all groups, and different for different numbers. -/
theorem C35_new (n : U8) : (RoundId.new n).round = n ∧ (RoundId.new n).groups = [] ∧ (RoundId.new n).isEcho = false ∧
    ∀ m, RoundId.new m = RoundId.new n → m = n :=
  ⟨rfl, rfl, rfl, fun _ h => congrArg RoundId.round h⟩

/-- A linear round declares the next number as its only child; its parents are the previous number if it is above 1. -/
theorem C35_linear (n : U8) (h : n.val < 255) :
    ∃ t, TransitionInfo.newLinear n = .ok t ∧ t.id = RoundId.new n ∧ t.mayProduceResult = false ∧
      (∀ r, t.children.contains r = true ↔ ∃ m : U8, m.val = n.val + 1 ∧ r = RoundId.new m) ∧
      (∀ r, t.parents.contains r = true ↔ ∃ m : U8, 1 ≤ m.val ∧ m.val + 1 = n.val ∧ r = RoundId.new m) ∧
      (∀ r, t.siblings.contains r = false) := by
  refine ⟨_, by rw [TransitionInfo.newLinear, if_neg (by omega)], rfl, rfl, ?_, ?_, fun _ => rfl⟩
  · intro r
    simp only [BSet.contains_ofList, List.mem_singleton, decide_eq_true_eq]
    have hv : (n + 1 : U8).val = n.val + 1 := by
      rw [Fin.val_add]
      show (n.val + 1) % 256 = n.val + 1
      omega
    constructor
    · rintro rfl
      exact ⟨n + 1, hv, rfl⟩
    · rintro ⟨m, hm, rfl⟩
      rw [show m = n + 1 from Fin.ext (by rw [hm, hv])]
  · intro r
    simp only [TransitionInfo.linearParents]
    split
    · rename_i h1
      simp only [BSet.contains_ofList, List.mem_singleton, decide_eq_true_eq]
      have hv : (n - 1 : U8).val = n.val - 1 := by
        rw [Fin.sub_def]
        show (256 - 1 + n.val) % 256 = n.val - 1
        omega
      constructor
      · rintro rfl
        exact ⟨n - 1, by omega, by omega, rfl⟩
      · rintro ⟨m, hm, hm', rfl⟩
        rw [show m = n - 1 from Fin.ext (by omega)]
    · rename_i h1
      simp only [BMap.contains_empty, Bool.false_eq_true, false_iff]
      rintro ⟨m, hm, hm', -⟩
      omega

/-- A terminating linear round declares no children and may produce the result; parents as above. -/
theorem C35_linear_terminating (n : U8) :
    (TransitionInfo.newLinearTerminating n).id = RoundId.new n ∧
      (TransitionInfo.newLinearTerminating n).mayProduceResult = true ∧
      (∀ r, (TransitionInfo.newLinearTerminating n).children.contains r = false) ∧
      (∀ r, (TransitionInfo.newLinearTerminating n).siblings.contains r = false) ∧
      (∀ r, (TransitionInfo.newLinearTerminating n).parents.contains r = true ↔
        ∃ m : U8, 1 ≤ m.val ∧ m.val + 1 = n.val ∧ r = RoundId.new m) := by
  refine ⟨rfl, rfl, fun _ => rfl, fun _ => rfl, ?_⟩
  intro r
  simp only [TransitionInfo.newLinearTerminating, TransitionInfo.linearParents]
  split
  · rename_i h1
    simp only [BSet.contains_ofList, List.mem_singleton, decide_eq_true_eq]
    have hv : (n - 1 : U8).val = n.val - 1 := by
      rw [Fin.sub_def]
      show (256 - 1 + n.val) % 256 = n.val - 1
      omega
    constructor
    · rintro rfl
      exact ⟨n - 1, by omega, by omega, rfl⟩
    · rintro ⟨m, hm, hm', rfl⟩
      rw [show m = n - 1 from Fin.ext (by omega)]
  · simp only [BMap.contains_empty, Bool.false_eq_true, false_iff]
    rintro ⟨m, hm, hm', -⟩
    omega

/-- Consecutive linear rounds, numbered from 1, name each other as parent and child. -/
theorem C35_consecutive (n m : U8) (h1 : 1 ≤ n.val) (hm : m.val = n.val + 1) (t : TransitionInfo)
    (ht : TransitionInfo.newLinear n = .ok t) :
    t.children.contains (RoundId.new m) = true ∧
      (TransitionInfo.newLinearTerminating m).parents.contains (RoundId.new n) = true ∧
      ∀ t', TransitionInfo.newLinear m = .ok t' → t'.parents.contains (RoundId.new n) = true := by
  have hn : n.val < 255 := by have := m.isLt; omega
  obtain ⟨u, hu, -, -, hc, -⟩ := C35_linear n hn
  rw [ht] at hu
  cases hu
  refine ⟨(hc _).2 ⟨m, hm, rfl⟩, ((C35_linear_terminating m).2.2.2.2 _).2 ⟨n, h1, hm.symm, rfl⟩, ?_⟩
  intro t' ht'
  have hm' : m.val < 255 := by
    unfold TransitionInfo.newLinear at ht'
    split at ht'
    · cases ht'
    · have := m.isLt; omega
  obtain ⟨u, hu, -, -, -, hp, -⟩ := C35_linear m hm'
  rw [ht'] at hu
  cases hu
  exact (hp _).2 ⟨n, h1, hm.symm, rfl⟩

/-- The last round number cannot be made a non-terminating linear round: the constructor overflows (a panic in debug
builds). -/
theorem C35_overflow_violation : TransitionInfo.newLinear 255 = .error .panicOverflow := rfl

/-- `with_children` adds the given rounds to the children and changes nothing else. -/
theorem C35_with_children (t : TransitionInfo) (ns : BSet U8) :
    (t.withChildren ns).id = t.id ∧ (t.withChildren ns).parents = t.parents ∧
      (t.withChildren ns).siblings = t.siblings ∧ (t.withChildren ns).mayProduceResult = t.mayProduceResult ∧
      ∀ r, (t.withChildren ns).children.contains r = true ↔
        t.children.contains r = true ∨ ∃ n, ns.contains n = true ∧ r = RoundId.new n := by
  refine ⟨rfl, rfl, rfl, rfl, ?_⟩
  intro r
  simp only [TransitionInfo.withChildren, BSet.contains_extend, Bool.or_eq_true, decide_eq_true_eq, List.mem_map,
    BSet.mem_elems]
  constructor
  · rintro (⟨n, hn, rfl⟩ | h)
    · exact .inr ⟨n, hn, rfl⟩
    · exact .inl h
  · rintro (h | ⟨n, hn, rfl⟩)
    · exact .inr h
    · exact .inl ⟨n, hn, rfl⟩

/-- `with_siblings` adds the given rounds to the siblings and changes nothing else. -/
theorem C35_with_siblings (t : TransitionInfo) (ns : BSet U8) :
    (t.withSiblings ns).id = t.id ∧ (t.withSiblings ns).parents = t.parents ∧
      (t.withSiblings ns).children = t.children ∧ (t.withSiblings ns).mayProduceResult = t.mayProduceResult ∧
      ∀ r, (t.withSiblings ns).siblings.contains r = true ↔
        t.siblings.contains r = true ∨ ∃ n, ns.contains n = true ∧ r = RoundId.new n := by
  refine ⟨rfl, rfl, rfl, rfl, ?_⟩
  intro r
  simp only [TransitionInfo.withSiblings, BSet.contains_extend, Bool.or_eq_true, decide_eq_true_eq, List.mem_map,
    BSet.mem_elems]
  constructor
  · rintro (⟨n, hn, rfl⟩ | h)
    · exact .inr ⟨n, hn, rfl⟩
    · exact .inl h
  · rintro (h | ⟨n, hn, rfl⟩)
    · exact .inr h
    · exact .inl ⟨n, hn, rfl⟩

example : ∃ t, TransitionInfo.newLinear 254 = .ok t ∧ t.children.contains (RoundId.new 255) = true :=
  ⟨_, rfl, by decide⟩

/-! ## C36 -/

/-- Which rounds are acceptable: the echo round if one follows and otherwise the parents, and the siblings and
children; it only fails for an echo round followed by an echo round. -/
theorem C36_simultaneous (t : TransitionInfo) (echo : Bool) :
    (∀ s, t.simultaneousRounds echo = .ok s → ∀ r, s.contains r = true ↔
      (if echo then t.id.echo = .ok r else t.parents.contains r = true) ∨
        t.siblings.contains r = true ∨ t.children.contains r = true) ∧
    ((∃ e, t.simultaneousRounds echo = .error e) ↔ echo = true ∧ t.id.isEcho = true) := by
  obtain ⟨⟨n, gs, b⟩, parents, siblings, children, may⟩ := t
  cases echo
  · refine ⟨?_, by simp [TransitionInfo.simultaneousRounds]⟩
    intro s hs r
    simp only [TransitionInfo.simultaneousRounds, Bool.false_eq_true, if_false, Except.ok.injEq] at hs
    subst hs
    simp only [BSet.contains_extend, BSet.mem_elems]
    simp
    tauto
  · cases b
    · refine ⟨?_, by simp [TransitionInfo.simultaneousRounds, RoundId.echo]⟩
      intro s hs r
      simp only [TransitionInfo.simultaneousRounds, if_true, RoundId.echo, Bool.false_eq_true, if_false,
        Except.ok.injEq] at hs
      subst hs
      simp only [BSet.contains_extend, BSet.contains_ofList, BSet.mem_elems]
      simp only [List.mem_singleton, Bool.or_eq_true, decide_eq_true_eq, RoundId.echo, Bool.false_eq_true, if_false,
        Except.ok.injEq]
      rw [eq_comm (a := r)]
      tauto
    · refine ⟨?_, by simp [TransitionInfo.simultaneousRounds, RoundId.echo]⟩
      intro s hs
      simp [TransitionInfo.simultaneousRounds, RoundId.echo] at hs

theorem contains_mapSet (f : RoundId → RoundId) (s : BSet RoundId) (r : RoundId) :
    (TransitionInfo.mapSet f s).contains r = true ↔ ∃ x, s.contains x = true ∧ f x = r := by
  simp [TransitionInfo.mapSet, BSet.contains_ofList, BSet.mem_elems]

/-- Grouping a transition info groups the acceptable rounds, one by one. -/
theorem C36_commutes_with_grouping (t : TransitionInfo) (g : U8) (echo : Bool) (s : BSet RoundId)
    (h : t.simultaneousRounds echo = .ok s) :
    ∃ s', (t.groupUnder g).simultaneousRounds echo = .ok s' ∧
      ∀ r, s'.contains r = true ↔ ∃ x, s.contains x = true ∧ r = x.groupUnder g := by
  have hne : ¬ ∃ e, (t.groupUnder g).simultaneousRounds echo = .error e := by
    rw [(C36_simultaneous _ _).2]
    have : ¬ ∃ e, t.simultaneousRounds echo = .error e := by rw [h]; rintro ⟨e, he⟩; cases he
    rwa [(C36_simultaneous _ _).2] at this
  cases hs : (t.groupUnder g).simultaneousRounds echo with
  | error e => exact absurd ⟨e, hs⟩ hne
  | ok s' =>
    refine ⟨s', rfl, ?_⟩
    intro r
    rw [(C36_simultaneous _ _).1 _ hs]
    simp only [(C36_simultaneous _ _).1 _ h]
    cases echo
    · simp only [TransitionInfo.groupUnder, contains_mapSet, Bool.false_eq_true, if_false]
      constructor
      · rintro (⟨x, hx, rfl⟩ | ⟨x, hx, rfl⟩ | ⟨x, hx, rfl⟩)
        · exact ⟨x, .inl hx, rfl⟩
        · exact ⟨x, .inr (.inl hx), rfl⟩
        · exact ⟨x, .inr (.inr hx), rfl⟩
      · rintro ⟨x, hx | hx | hx, rfl⟩
        · exact .inl ⟨x, hx, rfl⟩
        · exact .inr (.inl ⟨x, hx, rfl⟩)
        · exact .inr (.inr ⟨x, hx, rfl⟩)
    · simp only [TransitionInfo.groupUnder, contains_mapSet, if_true]
      constructor
      · rintro (h1 | ⟨x, hx, rfl⟩ | ⟨x, hx, rfl⟩)
        · have hm : t.id.isEcho = false := by
            cases hb : t.id.isEcho
            · rfl
            · obtain ⟨e, he⟩ := (C36_simultaneous t true).2.2 ⟨rfl, hb⟩
              rw [h] at he
              cases he
          obtain ⟨e, he, -⟩ := (C33_echo t.id).1 hm
          rw [C33_group_echo _ _ g he] at h1
          cases h1
          exact ⟨e, .inl he, rfl⟩
        · exact ⟨x, .inr (.inl hx), rfl⟩
        · exact ⟨x, .inr (.inr hx), rfl⟩
      · rintro ⟨x, hx | hx | hx, rfl⟩
        · exact .inl (C33_group_echo _ _ g hx)
        · exact .inr (.inl ⟨x, hx, rfl⟩)
        · exact .inr (.inr ⟨x, hx, rfl⟩)

/-- The echo round of a main round keeps its children and its ability to produce the result; its only parent is the main
round; it has no siblings. -/
theorem C36_echo_transition (t e : TransitionInfo) (h : t.echo = .ok e) :
    t.id.echo = .ok e.id ∧ e.children = t.children ∧ e.mayProduceResult = t.mayProduceResult ∧
      (∀ r, e.parents.contains r = true ↔ r = t.id) ∧ ∀ r, e.siblings.contains r = false := by
  unfold TransitionInfo.echo at h
  split at h
  · cases h
  · rename_i e' he
    cases h
    exact ⟨he, rfl, rfl, by simp [BSet.contains_ofList], fun _ => rfl⟩

example : ∃ t s, TransitionInfo.newLinear 2 = .ok t ∧ t.simultaneousRounds true = .ok s ∧
    s.contains ⟨2, [], true⟩ = true ∧ s.contains (RoundId.new 3) = true ∧ s.contains (RoundId.new 1) = false :=
  ⟨_, _, rfl, rfl, by decide, by decide, by decide⟩

end Manul
