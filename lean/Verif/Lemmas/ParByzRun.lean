import Verif.Lemmas.ByzRun
import Verif.Lemmas.BMap
import Verif.Spec.ParByzantine

/-!
# Executing schedules of the network of `Spec/ParByzantine.lean`

Used in the examples.
-/

namespace Manul

/-- A step of a schedule. -/
inductive PByzAct (sp : SP) where
  | start (i : sp.Id)
  | tick (i : sp.Id)
  | complete (i : sp.Id) (k : Nat)
  | send (i : sp.Id) (k : Nat)
  | deliver (k : Nat)
  | inject (p : Packet sp)

/-- Party `i` receives the result of a task. -/
def pbyzTask {sp : SP} {P : Proto sp} (i : sp.Id) (o : ParOp sp) (ok : ParSt P → Bool) (n : PNet P) : PNet P :=
  match n.node i with
  | some (.running s st) =>
    if ok st then
      match parStep (.running s st) (.op o) with
      | none => n
      | some st' => n.put i st' (parOut st (.op o))
    else n
  | _ => n

/-- Executing a schedule; steps that are not possible are left out. -/
def pbyzRun {sp : SP} {P : Proto sp} (rng : sp.Rng) (g : Group P) (H : sp.Id → Bool) : List (PByzAct sp) → PNet P → PNet P
  | [], n => n
  | .start i :: l, n =>
    pbyzRun rng g H l <| if H i = true ∧ (n.node i).isNone = true then n.put i (g.startPar i rng rng) [] else n
  | .tick i :: l, n =>
    pbyzRun rng g H l <| match n.node i with
      | some (.running s st) =>
        match parStep (.running s st) (.tick rng) with
        | none => n
        | some st' => n.put i st' (parOut st (.tick rng))
      | _ => n
  | .complete i k :: l, n => pbyzRun rng g H l <| pbyzTask i (.complete k) (fun st => decide (k < st.tasks.length)) n
  | .send i k :: l, n =>
    pbyzRun rng g H l <| pbyzTask i (.send k) (fun st => match st.outgoing[k]? with
      | none => false
      | some o => (taskMessage o).isSome) n
  | .deliver k :: l, n =>
    pbyzRun rng g H l <| match n.wire.drop k with
      | [] => n
      | p :: w' =>
        match n.node p.dest with
        | some (.running s st) =>
          match parStep (.running s st) (.op (.deliver p.src p.message)) with
          | none => n
          | some st' => PNet.put ⟨n.node, n.wire.take k ++ w'⟩ p.dest st' []
        | _ => n
  | .inject p :: l, n => pbyzRun rng g H l <| if H p.src then n else ⟨n.node, n.wire ++ [p]⟩

theorem pbyzTask_reach {sp : SP} {P : Proto sp} {g : Group P} {H : sp.Id → Prop} {adv : Packet sp → Prop} {i : sp.Id} {o : ParOp sp}
    {ok : ParSt P → Bool} (ho : ∀ st, ok st = true → o.Enabled st) {n : PNet P} (h : PByzReach g H adv n) :
    PByzReach g H adv (pbyzTask i o ok n) := by
  unfold pbyzTask
  split
  · rename_i s st hn
    split
    · rename_i hc
      cases hs : parStep (.running s st) (.op o) with
      | none => exact h
      | some st' => exact h.step (.task hn (ho st hc) hs)
    · exact h
  · exact h

theorem pbyzRun_reach {sp : SP} {P : Proto sp} (rng : sp.Rng) {g : Group P} {H : sp.Id → Bool} {adv : Packet sp → Prop}
    (l : List (PByzAct sp)) (hl : ∀ p, .inject p ∈ l → adv p) {n : PNet P} (h : PByzReach g (fun i => H i = true) adv n) :
    PByzReach g (fun i => H i = true) adv (pbyzRun rng g H l n) := by
  induction l generalizing n with
  | nil => exact h
  | cons a l ih =>
    have ih' := @ih (fun p hp => hl p (List.mem_cons_of_mem _ hp))
    cases a with
    | start i =>
      simp only [pbyzRun]
      apply ih'
      split
      · rename_i hc
        refine h.step (.start _ _ hc.1 ?_)
        simpa using hc.2
      · exact h
    | tick i =>
      simp only [pbyzRun]
      apply ih'
      split
      · rename_i s st hn
        cases hs : parStep (.running s st) (.tick rng) with
        | none => exact h
        | some st' => exact h.step (.tick hn hs)
      · exact h
    | complete i k =>
      simp only [pbyzRun]
      apply ih'
      exact pbyzTask_reach (fun st hst => by simpa [ParOp.Enabled] using hst) h
    | send i k =>
      simp only [pbyzRun]
      apply ih'
      refine pbyzTask_reach (fun st hst => ?_) h
      split at hst
      · simp at hst
      · rename_i o ho
        obtain ⟨m, hm⟩ := Option.isSome_iff_exists.1 hst
        exact ⟨o, m, ho, hm⟩
    | deliver k =>
      simp only [pbyzRun]
      apply ih'
      cases hw : n.wire.drop k with
      | nil => exact h
      | cons p w' =>
        simp only
        split
        · rename_i s st hn
          cases hs : parStep (.running s st) (.op (.deliver p.src p.message)) with
          | none => exact h
          | some st' =>
            refine h.step (.deliver (p := p) (w := n.wire.take k) (w' := w') ?_ hn hs)
            rw [← hw, List.take_append_drop]
        · exact h
    | inject p =>
      simp only [pbyzRun]
      apply ih'
      split
      · exact h
      · rename_i hp
        exact h.step (.inject hp (hl p List.mem_cons_self))

/-- The packets of a schedule of the other network. -/
def asPar {sp : SP} : List (ByzAct sp) → List (PByzAct sp) := List.filterMap fun
  | .inject p => some (.inject p)
  | _ => none

/-- Putting messages of the example protocol on the wire. -/
def pinjectDemo (signer dest : U8) (rid : RoundId) (direct echo normal : Option Bytes) : List (PByzAct toy) :=
  asPar (injectDemo signer dest rid direct echo normal)

/-- Whether a party has recorded an error of another one, at the moment. -/
def pbyzBlames {P : Proto toy} (n : PNet P) (i j : U8) : Bool :=
  match n.node (i : toy.Id) with
  | some (.running _ st) => st.accum.unprovable.contains (j : toy.Id) || st.accum.provable.contains (j : toy.Id)
  | _ => false

theorem pbyzBlames_ok {P : Proto toy} {n : PNet P} {i j : U8} (h : pbyzBlames n i j = true) :
    ∃ s st, n.node (i : toy.Id) = some (.running s st) ∧ HasError s st.accum (j : toy.Id) := by
  unfold pbyzBlames at h
  split at h
  · rename_i s st hn
    refine ⟨s, st, hn, ?_⟩
    rw [Bool.or_eq_true] at h
    rcases h with h | h
    · obtain ⟨x, hx⟩ := BMap.contains_iff.1 h
      exact Or.inr (Or.inr (Or.inr ⟨x, hx⟩))
    · obtain ⟨x, hx⟩ := BMap.contains_iff.1 h
      exact Or.inr (Or.inr (Or.inl ⟨x, hx⟩))
  · simp at h

/-- The packets with this echo broadcast. -/
def pallEchoes (p : Packet toy → Bool) : List (PByzAct toy) → Bool
  | [] => true
  | .inject q :: l => p q && pallEchoes p l
  | _ :: l => pallEchoes p l

theorem pallEchoes_mem {p : Packet toy → Bool} {l : List (PByzAct toy)} (h : pallEchoes p l = true) :
    ∀ q, PByzAct.inject q ∈ l → p q = true := by
  induction l with
  | nil => intro q hq; simp at hq
  | cons a l ih =>
    intro q hq
    cases a with
    | inject r =>
      simp only [pallEchoes, Bool.and_eq_true] at h
      rcases List.mem_cons.1 hq with hq | hq
      · cases hq
        exact h.1
      · exact ih h.2 q hq
    | start i => exact ih h q (by simpa using hq)
    | tick i => exact ih h q (by simpa using hq)
    | complete i k => exact ih h q (by simpa using hq)
    | send i k => exact ih h q (by simpa using hq)
    | deliver k => exact ih h q (by simpa using hq)

end Manul
