import Verif.Spec.RunSync
import Verif.Lemmas.BMap
import Verif.Lemmas.Run
import Mathlib.Data.List.Perm.Basic
import Mathlib.Data.List.Dedup
import Mathlib.Data.List.Perm.Lattice

/-! # Lemmas about the queue of `run_sync` and its nodes -/

namespace Manul

variable {sp : SP} {P : Proto sp}

theorem toList_perm_erase {K V : Type} [LinearOrder K] {m : BMap K V} {k : K} {v : V} (h : m.get? k = some v) :
    m.toList.Perm ((k, v) :: (m.erase k).toList) := by
  refine (List.perm_ext_iff_of_nodup m.toList_nodup ?_).2 ?_
  · refine List.nodup_cons.2 ⟨?_, (m.erase k).toList_nodup⟩
    rw [BMap.mem_toList, BMap.get?_erase]
    simp
  · rintro ⟨k', v'⟩
    rw [List.mem_cons, BMap.mem_toList, BMap.mem_toList, BMap.get?_erase]
    by_cases hk : k' = k
    · subst hk
      simp [h, eq_comm]
    · simp [hk]

theorem erase_insert {K V : Type} [LinearOrder K] (m : BMap K V) (k : K) (v : V) : (m.insert k v).erase k = m.erase k := by
  apply BMap.ext
  intro k'
  rw [BMap.get?_erase, BMap.get?_erase, BMap.get?_insert]
  split <;> simp_all

theorem toList_perm_insert {K V : Type} [LinearOrder K] (m : BMap K V) (k : K) (v : V) :
    (m.insert k v).toList.Perm ((k, v) :: (m.erase k).toList) := by
  rw [← erase_insert m k v]
  exact toList_perm_erase (by simp [BMap.get?_insert])

theorem erase_none {K V : Type} [LinearOrder K] {m : BMap K V} {k : K} (h : m.get? k = none) : m.erase k = m := by
  apply BMap.ext
  intro k'
  rw [BMap.get?_erase]
  split
  · simp_all
  · rfl

namespace Queue

/-- The messages in the queue. -/
def contents : Queue sp → List (RoundMsg sp)
  | .ordered m => m.toList.flatMap (·.2)
  | .unordered l => l

/-- What every queue satisfies. -/
def Ok : Queue sp → Prop
  | .ordered m => ∀ k l, m.get? k = some l → l ≠ [] ∧ ∀ x ∈ l, x.src = k
  | .unordered _ => True

/-- What is queued from a sender, in the order in which it comes out. -/
def next (x : sp.Id) : Queue sp → List (RoundMsg sp)
  | .ordered m => (m.get? x).getD []
  | .unordered _ => []

/-- In ordered mode. -/
def IsOrdered : Queue sp → Bool
  | .ordered _ => true
  | .unordered _ => false

theorem new_ok (b : Bool) : (Queue.new sp b).Ok ∧ (Queue.new sp b).contents = [] ∧ (Queue.new sp b).IsOrdered = b := by
  cases b
  · exact ⟨trivial, rfl, rfl⟩
  · refine ⟨?_, rfl, rfl⟩
    intro k l h
    simp at h

theorem push_ok {q : Queue sp} (h : q.Ok) (x : RoundMsg sp) :
    (q.push x).Ok ∧ (q.push x).contents.Perm (x :: q.contents) ∧ (q.push x).IsOrdered = q.IsOrdered := by
  cases q with
  | unordered l => exact ⟨trivial, List.perm_append_singleton x l, rfl⟩
  | ordered m =>
    refine ⟨?_, ?_, rfl⟩
    · intro k l hk
      rw [BMap.get?_insert] at hk
      split at hk
      · rename_i e
        subst e
        simp only [Option.some.injEq] at hk
        subst hk
        refine ⟨by simp, ?_⟩
        intro y hy
        rcases List.mem_append.1 hy with hy | hy
        · cases hm : m.get? x.src with
          | none => simp [hm] at hy
          | some l' =>
            rw [hm] at hy
            exact (h _ _ hm).2 y hy
        · rw [List.mem_singleton.1 hy]
      · exact h k l hk
    · show ((m.insert x.src ((m.get? x.src).getD [] ++ [x])).toList.flatMap (·.2)).Perm _
      refine ((toList_perm_insert m x.src _).flatMap_right (·.2)).trans ?_
      rw [List.flatMap_cons, List.append_assoc]
      show ((m.get? x.src).getD [] ++ ([x] ++ (m.erase x.src).toList.flatMap (·.2))).Perm _
      refine List.perm_middle.trans ?_
      refine List.Perm.cons x ?_
      cases hm : m.get? x.src with
      | none => simp [erase_none hm, contents]
      | some l' =>
        have := (toList_perm_erase hm).flatMap_right (·.2)
        rw [List.flatMap_cons] at this
        exact this.symm

theorem push_next {q : Queue sp} (ho : q.IsOrdered = true) (x : RoundMsg sp) (k : sp.Id) :
    (q.push x).next k = q.next k ++ (if x.src = k then [x] else []) := by
  cases q with
  | unordered l => cases ho
  | ordered m =>
    simp only [push, next, BMap.get?_insert]
    by_cases e : x.src = k
    · subst e; simp
    · simp [e, Ne.symm e]

theorem swapRemove_perm {α : Type} {l l' : List α} {i : Nat} {x : α} (h : swapRemove l i = some (x, l')) :
    l.Perm (x :: l') := by
  unfold swapRemove at h
  split at h
  · rename_i x' y hx hy
    simp only [Option.some.injEq, Prod.mk.injEq] at h
    obtain ⟨rfl, rfl⟩ := h
    obtain ⟨l0, rfl⟩ : ∃ l0, l = l0 ++ [y] := ⟨l.dropLast, (List.dropLast_append_getLast? y hy).symm⟩
    by_cases hi : i < l0.length
    · rw [List.set_append_left _ _ hi, List.dropLast_concat]
      rw [List.getElem?_append_left hi] at hx
      refine (List.perm_append_singleton y l0).trans ?_
      obtain ⟨hi', rfl⟩ := List.getElem?_eq_some_iff.1 hx
      refine ((List.getElem_cons_eraseIdx_perm hi').symm.cons y).trans ?_
      refine (List.Perm.swap _ _ _).trans ?_
      exact (List.set_perm_cons_eraseIdx hi' y).symm.cons _
    · have hi2 : i = l0.length := by
        have := (List.getElem?_eq_some_iff.1 hx).1
        simp at this
        omega
      subst hi2
      simp at hx
      subst hx
      simp
  · simp at h

theorem swapRemove_none {α : Type} {l : List α} {i : Nat} : swapRemove l (i % l.length) = none ↔ l = [] := by
  constructor
  · intro h
    by_contra hl
    have hpos : 0 < l.length := List.length_pos_iff.2 hl
    unfold swapRemove at h
    rw [List.getElem?_eq_getElem (Nat.mod_lt i hpos), List.getLast?_eq_some_getLast hl] at h
    simp at h
  · rintro rfl
    rfl

theorem isEmpty_iff {q : Queue sp} (h : q.Ok) : q.isEmpty = true ↔ q.contents = [] := by
  cases q with
  | unordered l => simp [isEmpty, contents]
  | ordered m =>
    simp only [isEmpty, contents]
    rw [List.flatMap_eq_nil_iff, BMap.isEmpty_iff]
    constructor
    · rintro he ⟨k, l⟩ hkl
      rw [BMap.mem_toList, he k] at hkl
      cases hkl
    · intro he k
      cases hk : m.get? k with
      | none => rfl
      | some l => exact absurd (he (k, l) (BMap.mem_toList.2 hk)) (h k l hk).1

theorem keys_elems {K V : Type} [LinearOrder K] (m : BMap K V) : BSet.elems m.keys = m.toList.map (·.1) := by
  simp [BSet.elems, BMap.keys, BMap.mapVal]

theorem pop_none {q : Queue sp} (h : q.Ok) {c : Nat} : q.pop c = none ↔ q.isEmpty = true := by
  cases q with
  | unordered l =>
    simp only [pop, isEmpty, List.isEmpty_iff]
    rw [← swapRemove_none (l := l) (i := c)]
    cases swapRemove l (c % l.length) <;> simp
  | ordered m =>
    simp only [pop, isEmpty, keys_elems, BMap.isEmpty, List.isEmpty_iff, BMap.size]
    constructor
    · intro hn
      by_contra hl
      have hpos : 0 < m.toList.length := List.length_pos_iff.2 hl
      have hlt := Nat.mod_lt c hpos
      rw [List.getElem?_eq_getElem (by simpa using hlt)] at hn
      simp only [List.getElem_map] at hn
      have hg := BMap.mem_toList'.1 (List.getElem_mem hlt)
      rw [hg] at hn
      have hne := (h _ _ hg).1
      revert hn hne
      cases (m.toList[c % m.toList.length]).2 <;> simp
    · intro he
      simp [he]

/-- What `pop` does. -/
theorem pop_ok {q q' : Queue sp} (h : q.Ok) {c : Nat} {x : RoundMsg sp} (hp : q.pop c = some (x, q')) :
    q'.Ok ∧ q.contents.Perm (x :: q'.contents) ∧ q'.IsOrdered = q.IsOrdered ∧
      (q.IsOrdered = true → ∀ k, q.next k = (if x.src = k then [x] else []) ++ q'.next k) := by
  cases q with
  | unordered l =>
    simp only [pop] at hp
    split at hp
    · simp at hp
    · rename_i x' l' hs
      simp only [Option.some.injEq, Prod.mk.injEq] at hp
      obtain ⟨rfl, rfl⟩ := hp
      exact ⟨trivial, swapRemove_perm hs, rfl, by intro hc; cases hc⟩
  | ordered m =>
    simp only [pop] at hp
    split at hp
    · simp at hp
    · rename_i k hk
      split at hp
      · rename_i x' rest hg
        simp only [Option.some.injEq, Prod.mk.injEq] at hp
        obtain ⟨rfl, rfl⟩ := hp
        have hok := h _ _ hg
        have hsrc : x'.src = k := hok.2 _ (List.mem_cons_self ..)
        have hget : ∀ k', (if rest.isEmpty then m.erase k else m.insert k rest).get? k' =
            if k' = k then (if rest.isEmpty then none else some rest) else m.get? k' := by
          intro k'
          split <;> rename_i hr
          · rw [BMap.get?_erase]
          · rw [BMap.get?_insert]
        refine ⟨?_, ?_, rfl, ?_⟩
        · intro k' l' h'
          rw [hget] at h'
          split at h'
          · rename_i e
            subst e
            split at h'
            · simp at h'
            · rename_i hr
              simp only [Option.some.injEq] at h'
              subst h'
              exact ⟨by simpa using hr, fun y hy => hok.2 y (List.mem_cons_of_mem _ hy)⟩
          · exact h k' l' h'
        · have h1 := (toList_perm_erase hg).flatMap_right (·.2)
          rw [List.flatMap_cons] at h1
          refine h1.trans ?_
          rw [List.cons_append]
          refine List.Perm.cons x' ?_
          show (rest ++ (m.erase k).toList.flatMap (·.2)).Perm ((if rest.isEmpty then m.erase k else m.insert k rest).toList.flatMap (·.2))
          split
          · rename_i hr
            rw [List.isEmpty_iff.1 hr, List.nil_append]
          · have h2 := (toList_perm_insert m k rest).flatMap_right (·.2)
            rw [List.flatMap_cons] at h2
            exact h2.symm
        · intro _ k'
          show (m.get? k').getD [] = _ ++ ((if rest.isEmpty then m.erase k else m.insert k rest).get? k').getD []
          rw [hget]
          by_cases e : k' = k
          · subst e
            rw [hg, if_pos hsrc, if_pos rfl]
            split
            · rename_i hr
              rw [List.isEmpty_iff.1 hr]
              rfl
            · rfl
          · rw [if_neg e, if_neg (by rw [hsrc]; exact Ne.symm e), List.nil_append]
      · simp at hp

/-- Any sender with queued messages may be served next; without order, any message. -/
theorem pop_any {q : Queue sp} (h : q.Ok) {x : RoundMsg sp} {rest : List (RoundMsg sp)}
    (hx : (q.IsOrdered = true ∧ q.next x.src = x :: rest) ∨ (q.IsOrdered = false ∧ x ∈ q.contents)) :
    ∃ c q', q.pop c = some (x, q') := by
  cases q with
  | unordered l =>
    rcases hx with ⟨hc, -⟩ | ⟨-, hx⟩
    · cases hc
    · change x ∈ l at hx
      obtain ⟨i, hi, rfl⟩ := List.getElem_of_mem hx
      refine ⟨i, .unordered ((l.set i (l.getLast (by rintro rfl; simp at hi))).dropLast), ?_⟩
      simp only [pop, Nat.mod_eq_of_lt hi, swapRemove, List.getElem?_eq_getElem hi]
      rw [List.getLast?_eq_some_getLast (by rintro rfl; simp at hi)]
  | ordered m =>
    rcases hx with ⟨-, hx⟩ | ⟨hc, -⟩
    · simp only [next] at hx
      cases hg : m.get? x.src with
      | none => simp [hg] at hx
      | some l =>
        simp only [hg, Option.getD_some] at hx
        subst hx
        obtain ⟨i, hi, hie⟩ := List.getElem_of_mem (BMap.mem_toList.2 hg)
        refine ⟨i, .ordered (if rest.isEmpty then m.erase x.src else m.insert x.src rest), ?_⟩
        simp only [pop, keys_elems, BMap.size, Nat.mod_eq_of_lt hi]
        rw [List.getElem?_eq_getElem (by simpa using hi)]
        simp only [List.getElem_map, hie, hg]
    · cases hc

/-- The invariant of histories. -/
theorem run_ok {q q' : Queue sp} (h : q.Ok) {ops : List (QOp sp)} {out : List (RoundMsg sp)} (hr : q.run ops = some (out, q')) :
    q'.Ok ∧ (q.contents ++ pushed ops).Perm (out ++ q'.contents) ∧ q'.IsOrdered = q.IsOrdered ∧
      (q.IsOrdered = true → ∀ k, q.next k ++ bySender k (pushed ops) = bySender k out ++ q'.next k) := by
  induction ops generalizing q out with
  | nil =>
    simp only [run, Option.some.injEq, Prod.mk.injEq] at hr
    obtain ⟨rfl, rfl⟩ := hr
    exact ⟨h, by simp [pushed], rfl, by intro _ k; simp [pushed, bySender]⟩
  | cons o ops ih =>
    cases o with
    | push x =>
      obtain ⟨h1, h2, h3⟩ := push_ok h x
      obtain ⟨k1, k2, k3, k4⟩ := ih h1 hr
      refine ⟨k1, ?_, k3.trans h3, ?_⟩
      · refine List.Perm.trans ?_ k2
        refine List.perm_middle.trans ?_
        exact (h2.symm.append_right _)
      · intro ho k
        rw [← k4 (h3.trans ho) k, push_next ho]
        by_cases e : x.src = k <;> simp [pushed, bySender, e]
    | pop c =>
      simp only [run] at hr
      split at hr
      · simp at hr
      · rename_i x q1 hpop
        split at hr
        · simp at hr
        · rename_i out' q2 hrun
          simp only [Option.some.injEq, Prod.mk.injEq] at hr
          obtain ⟨rfl, rfl⟩ := hr
          obtain ⟨h1, h2, h3, h4⟩ := pop_ok h hpop
          obtain ⟨k1, k2, k3, k4⟩ := ih h1 hrun
          refine ⟨k1, ?_, k3.trans h3, ?_⟩
          · exact (h2.append_right _).trans (k2.cons x)
          · intro ho k
            have := k4 (h3.trans ho) k
            rw [h4 ho k, List.append_assoc]
            show _ ++ (q1.next k ++ bySender k (pushed ops)) = _
            rw [this]
            by_cases e : x.src = k <;> simp [bySender, e]

theorem run_append {q : Queue sp} (l l' : List (QOp sp)) :
    q.run (l ++ l') = match q.run l with
      | none => none
      | some (out, q') => match q'.run l' with
        | none => none
        | some (out', q'') => some (out ++ out', q'') := by
  induction l generalizing q with
  | nil =>
    simp only [List.nil_append, run]
    cases q.run l' with
    | none => rfl
    | some y => rfl
  | cons o l ih =>
    cases o with
    | push x => simp only [List.cons_append, run, ih]
    | pop c =>
      simp only [List.cons_append, run]
      cases hp : q.pop c with
      | none => rfl
      | some y =>
        obtain ⟨x, q1⟩ := y
        simp only [ih]
        cases q1.run l with
        | none => rfl
        | some y =>
          obtain ⟨out, q2⟩ := y
          simp only
          cases q2.run l' with
          | none => rfl
          | some z => rfl

/-- A queue can always be emptied, with as many `pop`s as it contains messages. -/
theorem drain {q : Queue sp} (h : q.Ok) (cs : List Nat) (hl : cs.length = q.contents.length) :
    ∃ out q', q.run (cs.map .pop) = some (out, q') ∧ q'.isEmpty = true := by
  induction cs generalizing q with
  | nil => exact ⟨[], q, rfl, (isEmpty_iff h).2 (List.length_eq_zero_iff.1 hl.symm)⟩
  | cons c cs ih =>
    cases hp : q.pop c with
    | none =>
      rw [pop_none h, isEmpty_iff h] at hp
      rw [hp] at hl
      simp at hl
    | some y =>
      obtain ⟨x, q1⟩ := y
      obtain ⟨h1, h2, -, -⟩ := pop_ok h hp
      have := h2.length_eq
      simp only [List.length_cons] at this hl
      obtain ⟨out, q', e1, e2⟩ := ih h1 (by omega)
      exact ⟨x :: out, q', by simp [run, hp, e1], e2⟩

theorem extend_ok {q : Queue sp} (h : q.Ok) (l : List (RoundMsg sp)) :
    (q.extend l).Ok ∧ (q.extend l).contents.Perm (q.contents ++ l) := by
  induction l generalizing q with
  | nil => exact ⟨h, by simp [extend]⟩
  | cons x l ih =>
    obtain ⟨h1, h2, -⟩ := push_ok h x
    obtain ⟨k1, k2⟩ := ih h1
    refine ⟨k1, k2.trans ?_⟩
    exact (h2.append_right l).trans List.perm_middle.symm

theorem pushed_append (l l' : List (QOp sp)) : pushed (l ++ l') = pushed l ++ pushed l' := by
  induction l with
  | nil => rfl
  | cons o l ih => cases o <;> simp [pushed, ih]

theorem pushed_pops (cs : List Nat) : pushed (cs.map (QOp.pop (sp := sp))) = [] := by
  induction cs with
  | nil => rfl
  | cons c cs ih => simpa [pushed] using ih

end Queue

/-! ### Nodes -/

/-- The accumulator with other artifacts. -/
def withArts (a : Accum P) (x : BMap sp.Id (Option P.Artifact)) : Accum P := { a with artifacts := x }

theorem sendAll_arts {s : Session P} {rng : sp.Rng} {ds : List sp.Id} :
    ∀ {i : Nat} {a a' : Accum P} {ms : List (Message sp)}, sendAll s rng i a ds = .ok (a', ms) →
      a' = withArts a a'.artifacts ∧
      ∀ b : Accum P, b.artifacts = a.artifacts → sendAll s rng i b ds = .ok (withArts b a'.artifacts, ms) := by
  induction ds with
  | nil =>
    intro i a a' ms h
    simp only [sendAll, Except.ok.injEq, Prod.mk.injEq] at h
    obtain ⟨rfl, rfl⟩ := h
    refine ⟨rfl, ?_⟩
    intro b hb
    simp only [sendAll, ← hb, withArts]
  | cons d ds ih =>
    intro i a a' ms h
    simp only [sendAll] at h
    cases hm : s.makeMessage (sp.fork rng i) d with
    | error e => simp [hm] at h
    | ok y =>
      obtain ⟨m, art⟩ := y
      simp only [hm, Accum.addArtifact] at h
      by_cases hc : a.artifacts.contains art.destination = true
      · simp [hc] at h
      · simp only [hc, Bool.false_eq_true, if_false] at h
        cases hs : sendAll s rng (i + 1) { a with artifacts := a.artifacts.insert art.destination art.artifact } ds with
        | error e => simp [hs] at h
        | ok y =>
          obtain ⟨a2, ms2⟩ := y
          simp only [hs] at h
          simp only [Except.ok.injEq, Prod.mk.injEq] at h
          obtain ⟨rfl, rfl⟩ := h
          obtain ⟨e1, e2⟩ := ih hs
          refine ⟨e1, ?_⟩
          intro b hb
          have := e2 { b with artifacts := b.artifacts.insert art.destination art.artifact } (by simp [hb])
          simp only [sendAll, hm, Accum.addArtifact, hb, hc, Bool.false_eq_true, if_false]
          rw [hb] at this
          rw [this]
          rfl

theorem applyVerified_arts (s : Session P) (a : Accum P) (m : VerifiedMessage sp) (x : BMap sp.Id (Option P.Artifact)) :
    applyVerified s (withArts a x) m = (applyVerified s a m).map (fun b => withArts b x) := by
  unfold applyVerified Session.addProcessed Accum.addProcessed withArts Accum.registerProvable
  generalize s.process m = p
  by_cases h1 : a.payloads.contains p.message.sender = true
  · simp only [h1, if_true]; rfl
  by_cases h2 : BMap.contains a.notSent p.message.sender = false
  · simp only [h1, h2, if_true]; rfl
  simp only [h1, h2, if_false]
  cases p.result with
  | ok v => rfl
  | error e =>
    by_cases h3 : a.provable.contains p.message.sender = true
    · cases e with
      | protocol r ser =>
        simp only [h3, if_true]
        cases Evidence.newProvableError p.message.sender p.message.echo p.message.normal p.message.direct r ser s.transcript <;>
          rfl
      | _ => simp only [h3, if_true]; rfl
    · cases e with
      | protocol r ser =>
        simp only [h3, if_false]
        cases Evidence.newProvableError p.message.sender p.message.echo p.message.normal p.message.direct r ser s.transcript <;>
          rfl
      | _ => simp only [h3, if_false]; rfl

theorem foldE_arts (s : Session P) (x : BMap sp.Id (Option P.Artifact)) (l : List (VerifiedMessage sp)) (a : Accum P) :
    foldE (applyVerified s) (withArts a x) l = (foldE (applyVerified s) a l).map (fun b => withArts b x) := by
  induction l generalizing a with
  | nil => rfl
  | cons m l ih =>
    simp only [foldE, applyVerified_arts]
    cases applyVerified s a m with
    | error e => rfl
    | ok b => exact ih b

theorem foldE_keeps_arts {s : Session P} {l : List (VerifiedMessage sp)} {a b : Accum P}
    (h : foldE (applyVerified s) a l = .ok b) : b.artifacts = a.artifacts := by
  have := foldE_arts s a.artifacts l a
  rw [show withArts a a.artifacts = a from rfl, h] at this
  simp only [Except.map, Except.ok.injEq] at this
  rw [this]
  rfl

/-- Applying the cached messages before making the messages of the round has the same effect. -/
theorem start_swapped {s : Session P} {rng : sp.Rng} {cached : List (VerifiedMessage sp)} {a1 a2 : Accum P}
    {ms : List (Message sp)} (h1 : foldE (applyVerified s) s.makeAccum cached = .ok a1)
    (h2 : sendAll s rng 0 a1 s.destinations.elems = .ok (a2, ms)) : startRound s rng cached = .ok (a2, ms) := by
  obtain ⟨e1, e2⟩ := sendAll_arts h2
  have e3 := e2 s.makeAccum (foldE_keeps_arts h1).symm
  unfold startRound
  rw [e3]
  simp only [foldE_arts, h1, Except.map]
  rw [← e1]

theorem Reach.rng {s₀ : Session P} {st : RunState P} (h : Reach s₀ st) : Nonempty sp.Rng := by
  induction h with
  | start rng => exact ⟨rng⟩
  | step _ _ ih => exact ih

/-- The session of `propagate` runs like that of `run_session`. -/
theorem Propagate.reach {s₀ s : Session P} {a : Accum P} {o : Except LErr (NodeState P × List (RoundMsg sp))}
    (h : Propagate s a o) (hr : Reach s₀ (.running s a)) :
    match o with
    | .ok (st, _) => Reach s₀ st.toRun ∧ ∀ s a, st = .inProgress s a → a.canFinalize = .notYet
    | .error _ => ∃ s' a', Reach s₀ (.running s' a') := by
  induction h with
  | notYet hc =>
    refine ⟨hr, ?_⟩
    rintro _ _ ⟨⟩
    exact hc
  | @never s a r hc ht =>
    refine ⟨?_, by rintro _ _ ⟨⟩⟩
    obtain ⟨rng⟩ := hr.rng
    refine hr.step (ev := .tick rng) (out := []) ?_
    simp [Manul.step, hc, ht]
    rfl
  | neverErr hc ht => exact ⟨_, _, hr⟩
  | @finished s a rng r hc hf =>
    refine ⟨?_, by rintro _ _ ⟨⟩⟩
    refine hr.step (ev := .tick rng) (out := []) ?_
    simp [Manul.step, hc, finishRound, hf]
    rfl
  | finalizeErr hc hf => exact ⟨_, _, hr⟩
  | cachedErr hc hf _ => exact ⟨_, _, hr⟩
  | sendErr hc hf _ _ => exact ⟨_, _, hr⟩
  | @next s s' a a1 a2 rng cached ms st rest hc hf h1 h2 _ ih =>
    refine ih (hr.step (ev := .tick rng) (out := ms) ?_)
    simp [Manul.step, hc, finishRound, hf, enterRound, start_swapped h1 h2]
  | nextErr hc hf _ _ _ => exact ⟨_, _, hr⟩

end Manul
