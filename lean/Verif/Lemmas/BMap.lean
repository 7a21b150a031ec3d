import Verif.Model.BMap
import Mathlib.Data.List.Nodup

/-! # Lemmas about ordered maps and sets -/

namespace Manul

variable {K V W : Type} [LinearOrder K]

namespace BMap

theorem lookupL_insertL (k k' : K) (v : V) (l : List (K × V)) :
    lookupL k' (insertL k v l) = if k' = k then some v else lookupL k' l := by
  induction l with
  | nil => simp [insertL, lookupL]
  | cons a l ih =>
    obtain ⟨k₀, v₀⟩ := a
    simp only [insertL]
    split
    · simp [lookupL]
    · split
      · rename_i h; subst h
        simp only [lookupL]
        split <;> simp_all
      · simp only [lookupL, ih]
        split_ifs <;> simp_all

@[simp] theorem get?_empty (k : K) : (empty : BMap K V).get? k = none := rfl

@[simp] theorem get?_insert (m : BMap K V) (k k' : K) (v : V) :
    (m.insert k v).get? k' = if k' = k then some v else m.get? k' := lookupL_insertL ..

theorem lookupL_eq_some_of_mem {l : List (K × V)} (h : l.Pairwise (fun a b => a.1 < b.1)) {k : K} {v : V}
    (hm : (k, v) ∈ l) : lookupL k l = some v := by
  induction l with
  | nil => cases hm
  | cons a l ih =>
    obtain ⟨k₀, v₀⟩ := a
    rw [List.pairwise_cons] at h
    rcases List.mem_cons.1 hm with h' | h'
    · cases h'; simp [lookupL]
    · have : k₀ < k := h.1 _ h'
      simp [lookupL, ne_of_gt this, ih h.2 h']

theorem mem_of_lookupL {l : List (K × V)} {k : K} {v : V} (h : lookupL k l = some v) : (k, v) ∈ l := by
  induction l with
  | nil => simp [lookupL] at h
  | cons a l ih =>
    obtain ⟨k₀, v₀⟩ := a
    simp only [lookupL] at h
    split at h
    · rename_i hk; cases h; subst hk; exact List.mem_cons_self ..
    · exact List.mem_cons_of_mem _ (ih h)

theorem mem_toList {m : BMap K V} {k : K} {v : V} : (k, v) ∈ m.toList ↔ m.get? k = some v :=
  ⟨lookupL_eq_some_of_mem m.sorted, mem_of_lookupL⟩

theorem mem_toList' {m : BMap K V} {e : K × V} : e ∈ m.toList ↔ m.get? e.1 = some e.2 := mem_toList

theorem toList_nodupKeys (m : BMap K V) : (m.toList.map (·.1)).Nodup := by
  rw [List.Nodup, List.pairwise_map]
  exact m.sorted.imp (fun h => ne_of_lt h)

theorem toList_nodup (m : BMap K V) : m.toList.Nodup := List.Nodup.of_map _ m.toList_nodupKeys

theorem sorted_ext {l l' : List (K × V)} (h : l.Pairwise (fun a b => a.1 < b.1))
    (h' : l'.Pairwise (fun a b => a.1 < b.1)) (heq : ∀ k, lookupL k l = lookupL k l') : l = l' := by
  induction l generalizing l' with
  | nil =>
    cases l' with
    | nil => rfl
    | cons a l' =>
      obtain ⟨k, v⟩ := a
      have := heq k
      simp [lookupL] at this
  | cons a l ih =>
    obtain ⟨k, v⟩ := a
    cases l' with
    | nil =>
      have := heq k
      simp [lookupL] at this
    | cons a' l' =>
      obtain ⟨k', v'⟩ := a'
      have hh := List.pairwise_cons.1 h
      have hh' := List.pairwise_cons.1 h'
      have hk : k = k' := by
        rcases lt_trichotomy k k' with hlt | heq' | hgt
        · have h1 := heq k
          simp only [lookupL, if_true] at h1
          have h2 := mem_of_lookupL (l := (k', v') :: l') h1.symm
          rcases List.mem_cons.1 h2 with h2 | h2
          · cases h2; rfl
          · exact absurd (hh'.1 _ h2) (not_lt.2 hlt.le)
        · exact heq'
        · have h1 := heq k'
          simp only [lookupL, if_true] at h1
          have h2 := mem_of_lookupL (l := (k, v) :: l) h1
          rcases List.mem_cons.1 h2 with h2 | h2
          · cases h2; rfl
          · exact absurd (hh.1 _ h2) (not_lt.2 hgt.le)
      subst hk
      have hv : v = v' := by
        have := heq k
        simpa [lookupL] using this
      subst hv
      congr 1
      refine ih hh.2 hh'.2 ?_
      intro x
      have hx := heq x
      simp only [lookupL] at hx
      by_cases hxk : x = k
      · subst hxk
        have e1 : lookupL x l = none := by
          cases hc : lookupL x l with
          | none => rfl
          | some w => exact absurd (hh.1 _ (mem_of_lookupL hc)) (lt_irrefl _)
        have e2 : lookupL x l' = none := by
          cases hc : lookupL x l' with
          | none => rfl
          | some w => exact absurd (hh'.1 _ (mem_of_lookupL hc)) (lt_irrefl _)
        rw [e1, e2]
      · simpa [hxk] using hx

@[ext] theorem ext {m m' : BMap K V} (h : ∀ k, m.get? k = m'.get? k) : m = m' := by
  cases m; cases m'
  congr
  exact sorted_ext (by assumption) (by assumption) h

theorem get?_filter (m : BMap K V) (p : K → V → Bool) (k : K) :
    (m.filter p).get? k = (m.get? k).filter (p k) := by
  cases hm : m.get? k with
  | none =>
    cases hf : (m.filter p).get? k with
    | none => rfl
    | some w =>
      have := mem_toList.2 hf
      simp only [filter, List.mem_filter] at this
      rw [mem_toList.1 this.1] at hm; cases hm
  | some v =>
    have hmem := mem_toList.2 hm
    cases hp : p k v with
    | true =>
      have : (k, v) ∈ (m.filter p).toList := by
        simp [filter, List.mem_filter, hmem, hp]
      rw [mem_toList.1 this]; simp [Option.filter, hp]
    | false =>
      cases hf : (m.filter p).get? k with
      | none => simp [Option.filter, hp]
      | some w =>
        have := mem_toList.2 hf
        simp only [filter, List.mem_filter] at this
        have h2 := mem_toList.1 this.1
        rw [h2] at hm; cases hm
        simp [hp] at this

@[simp] theorem get?_erase (m : BMap K V) (k k' : K) :
    (m.erase k).get? k' = if k' = k then none else m.get? k' := by
  rw [erase, get?_filter]
  by_cases h : k' = k
  · subst h; cases m.get? k' <;> simp
  · cases m.get? k' <;> simp [h]

@[simp] theorem get?_mapVal (m : BMap K V) (f : K → V → W) (k : K) :
    (m.mapVal f).get? k = (m.get? k).map (f k) := by
  cases hm : m.get? k with
  | none =>
    cases hf : (m.mapVal f).get? k with
    | none => rfl
    | some w =>
      have := mem_toList.2 hf
      simp only [mapVal, List.mem_map] at this
      obtain ⟨e, he, heq⟩ := this
      cases heq
      rw [mem_toList'.1 he] at hm; cases hm
  | some v =>
    have hmem := mem_toList.2 hm
    have : (k, f k v) ∈ (m.mapVal f).toList := List.mem_map.2 ⟨_, hmem, rfl⟩
    rw [mem_toList.1 this]; rfl

theorem contains_iff {m : BMap K V} {k : K} : m.contains k = true ↔ ∃ v, m.get? k = some v := by
  simp [contains, Option.isSome_iff_exists]

theorem contains_eq_false {m : BMap K V} {k : K} : m.contains k = false ↔ m.get? k = none := by
  simp [contains]

@[simp] theorem contains_empty (k : K) : (empty : BMap K V).contains k = false := rfl

@[simp] theorem contains_insert (m : BMap K V) (k k' : K) (v : V) :
    (m.insert k v).contains k' = (decide (k' = k) || m.contains k') := by
  by_cases h : k' = k <;> simp [contains, h]

@[simp] theorem contains_erase (m : BMap K V) (k k' : K) :
    (m.erase k).contains k' = (decide (k' ≠ k) && m.contains k') := by
  by_cases h : k' = k <;> simp [contains, h]

@[simp] theorem contains_mapVal (m : BMap K V) (f : K → V → W) (k : K) :
    (m.mapVal f).contains k = m.contains k := by
  simp [contains]

@[simp] theorem contains_keys (m : BMap K V) (k : K) : m.keys.contains k = m.contains k := by
  simp [keys]

theorem isEmpty_iff {m : BMap K V} : m.isEmpty = true ↔ ∀ k, m.get? k = none := by
  constructor
  · intro h k
    have : m.toList = [] := List.isEmpty_iff.1 h
    simp [get?, this, lookupL]
  · intro h
    rw [isEmpty, List.isEmpty_iff]
    cases hl : m.toList with
    | nil => rfl
    | cons a l =>
      have : a ∈ m.toList := by rw [hl]; exact List.mem_cons_self ..
      rw [mem_toList'] at this
      rw [h a.1] at this; cases this

theorem isEmpty_iff_contains {m : BMap K V} : m.isEmpty = true ↔ ∀ k, m.contains k = false := by
  rw [isEmpty_iff]; simp [contains_eq_false]

theorem eq_empty_iff {m : BMap K V} : m = empty ↔ ∀ k, m.get? k = none :=
  ⟨fun h k => by rw [h]; rfl, fun h => BMap.ext (by simpa using h)⟩

theorem isEmpty_iff_eq {m : BMap K V} : m.isEmpty = true ↔ m = empty := by
  rw [isEmpty_iff, eq_empty_iff]

theorem isEmpty_eq_false {m : BMap K V} : m.isEmpty = false ↔ ∃ k, m.contains k = true := by
  constructor
  · intro h
    by_contra hc
    have : m.isEmpty = true := isEmpty_iff_contains.2 (by simpa using hc)
    rw [h] at this; cases this
  · rintro ⟨k, hk⟩
    cases h : m.isEmpty with
    | false => rfl
    | true => rw [isEmpty_iff_contains.1 h k] at hk; cases hk

theorem get?_foldl_insert (l : List (K × V)) (m : BMap K V) (k : K) :
    (l.foldl (fun m e => m.insert e.1 e.2) m).get? k =
      (lookupL k l.reverse).or (m.get? k) := by
  induction l generalizing m with
  | nil => simp [lookupL]
  | cons a l ih =>
    have happ : ∀ (l₁ l₂ : List (K × V)), lookupL k (l₁ ++ l₂) = (lookupL k l₁).or (lookupL k l₂) := by
      intro l₁ l₂
      induction l₁ with
      | nil => simp [lookupL]
      | cons b l₁ ih => simp only [List.cons_append, lookupL]; split <;> simp [ih]
    rw [List.foldl_cons, ih, List.reverse_cons, happ, get?_insert]
    obtain ⟨k₀, v₀⟩ := a
    cases h : lookupL k l.reverse with
    | some w => simp
    | none =>
      simp only [Option.none_or, lookupL]
      split <;> simp

/-- The last entry for a key wins. -/
theorem get?_ofList (l : List (K × V)) (k : K) : (ofList l).get? k = lookupL k l.reverse := by
  rw [ofList, get?_foldl_insert]; simp

theorem lookupL_of_mem_nodup {l : List (K × V)} (h : (l.map (·.1)).Nodup) {k : K} {v : V}
    (hm : (k, v) ∈ l) : lookupL k l = some v := by
  induction l with
  | nil => cases hm
  | cons a l ih =>
    obtain ⟨k₀, v₀⟩ := a
    simp only [List.map_cons, List.nodup_cons] at h
    rcases List.mem_cons.1 hm with h' | h'
    · cases h'; simp [lookupL]
    · have hne : k ≠ k₀ := by
        rintro rfl
        exact h.1 (List.mem_map.2 ⟨_, h', rfl⟩)
      simp [lookupL, hne, ih h.2 h']

theorem get?_ofList_nodup {l : List (K × V)} (h : (l.map (·.1)).Nodup) (k : K) (v : V) :
    (ofList l).get? k = some v ↔ (k, v) ∈ l := by
  rw [get?_ofList]
  constructor
  · intro hh; exact List.mem_reverse.1 (mem_of_lookupL hh)
  · intro hh
    apply lookupL_of_mem_nodup
    · rw [List.map_reverse]; exact (List.nodup_reverse).2 h
    · exact List.mem_reverse.2 hh

theorem ofList_toList (m : BMap K V) : ofList m.toList = m := by
  apply BMap.ext
  intro k
  apply Option.ext
  intro v
  rw [get?_ofList_nodup m.toList_nodupKeys, mem_toList]

theorem contains_ofList (l : List (K × V)) (k : K) :
    (ofList l).contains k = true ↔ k ∈ l.map (·.1) := by
  rw [contains_iff]
  constructor
  · rintro ⟨v, hv⟩
    rw [get?_ofList] at hv
    have := List.mem_reverse.1 (mem_of_lookupL hv)
    exact List.mem_map.2 ⟨_, this, rfl⟩
  · intro h
    rw [get?_ofList]
    have : k ∈ l.reverse.map (·.1) := by rw [List.map_reverse]; exact List.mem_reverse.2 h
    generalize l.reverse = l' at this
    induction l' with
    | nil => simp at this
    | cons a l' ih =>
      obtain ⟨k₀, v₀⟩ := a
      simp only [lookupL]
      by_cases hk : k = k₀
      · exact ⟨v₀, by simp [hk]⟩
      · simp only [hk, if_false]
        apply ih
        simpa [hk] using this

theorem mem_values {m : BMap K V} {v : V} : v ∈ m.values ↔ ∃ k, m.get? k = some v := by
  simp only [values, List.mem_map]
  constructor
  · rintro ⟨⟨k, v'⟩, he, rfl⟩; exact ⟨k, mem_toList.1 he⟩
  · rintro ⟨k, hk⟩; exact ⟨(k, v), mem_toList.2 hk, rfl⟩

end BMap

namespace BSet

theorem mem_elems {s : BSet K} {k : K} : k ∈ s.elems ↔ s.contains k = true := by
  simp only [elems, List.mem_map, BMap.contains_iff]
  constructor
  · rintro ⟨⟨k', u⟩, he, rfl⟩; exact ⟨u, BMap.mem_toList.1 he⟩
  · rintro ⟨v, hv⟩; exact ⟨(k, v), BMap.mem_toList.2 hv, rfl⟩

theorem elems_nodup (s : BSet K) : s.elems.Nodup := BMap.toList_nodupKeys s

theorem ext_contains {s t : BSet K} (h : ∀ k, s.contains k = t.contains k) : s = t := by
  apply BMap.ext
  intro k
  have := h k
  simp only [BMap.contains] at this
  cases hs : s.get? k <;> cases ht : t.get? k <;> simp_all

@[simp] theorem contains_insert (s : BSet K) (k k' : K) :
    (BSet.insert s k).contains k' = (decide (k' = k) || s.contains k') := BMap.contains_insert ..

theorem contains_extend (s : BSet K) (l : List K) (k : K) :
    (extend s l).contains k = (decide (k ∈ l) || s.contains k) := by
  induction l generalizing s with
  | nil => simp [extend]
  | cons a l ih =>
    have : extend s (a :: l) = extend (insert s a) l := rfl
    rw [this, ih, contains_insert]
    by_cases h1 : k = a <;> by_cases h2 : k ∈ l <;> simp [h1, h2]

theorem contains_ofList (l : List K) (k : K) : (ofList l).contains k = decide (k ∈ l) := by
  have : ofList l = extend BMap.empty l := rfl
  rw [this, contains_extend]; simp

theorem contains_diff (s t : BSet K) (k : K) :
    (diff s t).contains k = (s.contains k && !t.contains k) := by
  simp only [diff, BMap.contains, BMap.get?_filter]
  cases s.get? k <;> cases t.get? k <;> simp

theorem ofList_elems (s : BSet K) : ofList s.elems = s := by
  apply ext_contains; intro k
  rw [contains_ofList]
  have := @mem_elems _ _ s k
  cases h : s.contains k <;> simp_all

end BSet

end Manul
