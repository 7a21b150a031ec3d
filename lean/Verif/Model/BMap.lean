import Mathlib.Order.Defs.LinearOrder
import Mathlib.Order.Basic
import Mathlib.Tactic.Common

/-!
# Ordered maps and sets

Model of `alloc::collections::{BTreeMap, BTreeSet}` (used throughout `/repo/manul/src`): a list of
key/value pairs with strictly increasing keys.  Iteration order is the order of the list, and two
maps are equal iff they have the same entries, as in Rust.

Simplification: memory layout and complexity are not modelled.
-/

namespace Manul

variable {K V W : Type} [LinearOrder K]

/-- `BTreeMap<K, V>`. -/
structure BMap (K V : Type) [LinearOrder K] where
  toList : List (K × V)
  sorted : toList.Pairwise (fun a b => a.1 < b.1)

namespace BMap

/-- Lookup in an association list. -/
def lookupL (k : K) : List (K × V) → Option V
  | [] => none
  | (k', v) :: l => if k = k' then some v else lookupL k l

/-- Ordered insertion, replacing the value of an equal key. -/
def insertL (k : K) (v : V) : List (K × V) → List (K × V)
  | [] => [(k, v)]
  | (k', v') :: l =>
    if k < k' then (k, v) :: (k', v') :: l
    else if k = k' then (k, v) :: l
    else (k', v') :: insertL k v l

theorem mem_insertL {k : K} {v : V} {l : List (K × V)} {e : K × V}
    (h : e ∈ insertL k v l) : e = (k, v) ∨ e ∈ l := by
  induction l with
  | nil => simp [insertL] at h; exact Or.inl h
  | cons a l ih =>
    obtain ⟨k', v'⟩ := a
    simp only [insertL] at h
    split at h
    · simpa using h
    · split at h
      · rcases List.mem_cons.1 h with h | h
        · exact Or.inl h
        · exact Or.inr (List.mem_cons_of_mem _ h)
      · rcases List.mem_cons.1 h with h | h
        · exact Or.inr (h ▸ List.mem_cons_self ..)
        · rcases ih h with h | h
          · exact Or.inl h
          · exact Or.inr (List.mem_cons_of_mem _ h)

theorem sorted_insertL (k : K) (v : V) {l : List (K × V)}
    (h : l.Pairwise (fun a b => a.1 < b.1)) : (insertL k v l).Pairwise (fun a b => a.1 < b.1) := by
  induction l with
  | nil => simp [insertL]
  | cons a l ih =>
    obtain ⟨k', v'⟩ := a
    simp only [insertL]
    rw [List.pairwise_cons] at h
    split
    · rename_i hlt
      rw [List.pairwise_cons]
      refine ⟨?_, List.pairwise_cons.2 h⟩
      intro e he
      rcases List.mem_cons.1 he with rfl | he
      · exact hlt
      · exact lt_trans hlt (h.1 e he)
    · split
      · rename_i heq
        subst heq
        exact List.pairwise_cons.2 ⟨fun e he => h.1 e he, h.2⟩
      · rename_i h1 h2
        rw [List.pairwise_cons]
        refine ⟨?_, ih h.2⟩
        intro e he
        rcases mem_insertL he with rfl | he
        · exact lt_of_le_of_ne (not_lt.1 h1) (Ne.symm h2)
        · exact h.1 e he

/-- `BTreeMap::new()`. -/
def empty : BMap K V := ⟨[], List.Pairwise.nil⟩

/-- `BTreeMap::get` (cloned). -/
def get? (m : BMap K V) (k : K) : Option V := lookupL k m.toList

/-- `BTreeMap::contains_key`. -/
def contains (m : BMap K V) (k : K) : Bool := (m.get? k).isSome

/-- `BTreeMap::insert` (the returned old value is `m.get? k`). -/
def insert (m : BMap K V) (k : K) (v : V) : BMap K V := ⟨insertL k v m.toList, sorted_insertL k v m.sorted⟩

/-- `BTreeMap::retain` / filtering an iterator and collecting. -/
def filter (m : BMap K V) (p : K → V → Bool) : BMap K V :=
  ⟨m.toList.filter (fun e => p e.1 e.2), m.sorted.filter _⟩

/-- `BTreeMap::remove` (the returned old value is `m.get? k`). -/
def erase (m : BMap K V) (k : K) : BMap K V := m.filter (fun k' _ => decide (k' ≠ k))

/-- `BTreeMap::is_empty`. -/
def isEmpty (m : BMap K V) : Bool := m.toList.isEmpty

/-- `BTreeMap::len`. -/
def size (m : BMap K V) : Nat := m.toList.length

/-- Mapping the values, keeping the keys (`utils/traits.rs:28-48`, `MapValues`/`MapValuesRef`). -/
def mapVal (m : BMap K V) (f : K → V → W) : BMap K W :=
  ⟨m.toList.map (fun e => (e.1, f e.1 e.2)), by
    rw [List.pairwise_map]; exact m.sorted⟩

/-- `iter().collect::<BTreeMap<_, _>>()`: later entries override earlier ones. -/
def ofList (l : List (K × V)) : BMap K V := l.foldl (fun m e => m.insert e.1 e.2) empty

/-- The set of keys, `BTreeMap::keys().collect::<BTreeSet<_>>()`. -/
def keys (m : BMap K V) : BMap K Unit := m.mapVal (fun _ _ => ())

/-- `BTreeMap::values()` in key order. -/
def values (m : BMap K V) : List V := m.toList.map (·.2)

instance [DecidableEq V] : DecidableEq (BMap K V) := fun a b =>
  match decEq a.toList b.toList with
  | isTrue h => isTrue (by cases a; cases b; cases h; rfl)
  | isFalse h => isFalse (fun e => h (e ▸ rfl))

end BMap

/-- `BTreeSet<K>`. -/
abbrev BSet (K : Type) [LinearOrder K] := BMap K Unit

namespace BSet

/-- `BTreeSet::insert`. -/
def insert (s : BSet K) (k : K) : BSet K := BMap.insert s k ()

/-- The elements in increasing order. -/
def elems (s : BSet K) : List K := s.toList.map (·.1)

/-- `iter().collect::<BTreeSet<_>>()`. -/
def ofList (l : List K) : BSet K := l.foldl (fun m k => insert m k) BMap.empty

/-- `BTreeSet::extend` from an iterator. -/
def extend (s : BSet K) (l : List K) : BSet K := l.foldl (fun m k => insert m k) s

/-- `BTreeSet::difference`. -/
def diff (s t : BSet K) : BSet K := BMap.filter s (fun k _ => !t.contains k)

end BSet

end Manul
