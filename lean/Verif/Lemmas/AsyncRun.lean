import Verif.Model.RunAsync
import Verif.Model.Toy
import Verif.Lemmas.RunAsync

/-!
# Executing schedules of `run_async`

For examples and witnesses.
-/

namespace Manul

/-- A schedule of `run_async`; the dispatcher takes the message with index `k` when it chooses. -/
inductive AsyncAct where
  | start (i : U8)
  | push (i : U8)
  | tick (i : U8)
  | recv (i : U8)
  | dispatch (k : Nat)

variable {P : Proto toy}

/-- What the dispatcher does. -/
def dispatchRun (g : Group P) (k : Nat) (x : Async P) : Async P :=
  match x.disp with
  | .waiting =>
    match x.chan with
    | p :: c => { x with disp := .draining [p], chan := c }
    | [] => if g.parties.elems.all (fun i => match x.node i with | some (.done _) => true | _ => false) then { x with disp := .returned } else x
  | .draining bag =>
    match x.chan with
    | p :: c => { x with disp := .draining (bag ++ [p]), chan := c }
    | [] => { x with disp := .picking bag }
  | .picking [] => { x with disp := .waiting }
  | .picking (q :: bag) =>
    match Queue.swapRemove (q :: bag) k with
    | some (p, bag') => { x with disp := .sending p bag' }
    | none => x
  | .sending p bag =>
    if g.parties.contains p.dest = true then
      match x.node p.dest with
      | some (.done _) => { x with disp := .failed }
      | _ => if (x.inbox p.dest).length < asyncCapacity then
          { x with disp := .polling bag, inbox := Function.update x.inbox p.dest (x.inbox p.dest ++ [p]) }
        else x
    else { x with disp := .failed }
  | .polling bag =>
    match x.chan with
    | p :: c => { x with disp := .picking (bag ++ [p]), chan := c }
    | [] => { x with disp := .picking bag }
  | _ => x

theorem dispatchRun_step (g : Group P) (k : Nat) (x : Async P) : dispatchRun g k x = x ∨ DispatchStep g x (dispatchRun g k x) := by
  unfold dispatchRun
  split
  · rename_i hd
    split
    · rename_i hc
      exact Or.inr (.recv hd hc)
    · rename_i hc
      split
      · rename_i ha
        refine Or.inr (.close hd hc ?_)
        intro i hi
        have := List.all_eq_true.1 ha i (BSet.mem_elems.2 hi)
        split at this
        · exact ⟨_, by assumption⟩
        · cases this
      · exact Or.inl rfl
  · rename_i hd
    split
    · rename_i hc
      exact Or.inr (.drain hd hc)
    · rename_i hc
      exact Or.inr (.drained hd hc)
  · rename_i hd
    exact Or.inr (.emptied hd)
  · rename_i hd
    split
    · rename_i hr
      exact Or.inr (.pick hd hr)
    · exact Or.inl rfl
  · rename_i hd
    split
    · rename_i hp
      split
      · rename_i hn
        exact Or.inr (.dropped hd hp hn)
      · rename_i hn
        split
        · rename_i hl
          exact Or.inr (.send hd hp (fun r hr => hn r hr) hl)
        · exact Or.inl rfl
    · rename_i hp
      exact Or.inr (.noChannel hd (by simpa using hp))
  · rename_i hd
    split
    · rename_i hc
      exact Or.inr (.poll hd hc)
    · rename_i hc
      exact Or.inr (.polled hd hc)
  · exact Or.inl rfl

/-- Whether a channel is not closed. -/
def dispatchGoes (x : Async P) : Bool :=
  match x.disp with
  | .returned => false
  | .failed => false
  | _ => true

/-- One action; actions that are not possible are left out. -/
def asyncAct (g : Group P) (x : Async P) : AsyncAct → Async P
  | .start i =>
    if g.parties.contains (i : toy.Id) = true ∧ (x.node (i : toy.Id)).isNone = true then
      x.put (i : toy.Id) (g.startNode (i : toy.Id) (0 : Nat) (0 : Nat)).1 (g.startNode (i : toy.Id) (0 : Nat) (0 : Nat)).2
    else x
  | .push i =>
    match x.outbox (i : toy.Id) with
    | m :: ms => if x.chan.length < asyncCapacity ∧ dispatchGoes x = true then
        { x with outbox := Function.update x.outbox (i : toy.Id) ms, chan := x.chan ++ [⟨(i : toy.Id), m.destination, m⟩] }
      else x
    | [] => x
  | .tick i =>
    match x.node (i : toy.Id), x.outbox (i : toy.Id) with
    | some st, [] =>
      match step st (.tick (0 : Nat)) with
      | some (st', out) => x.put (i : toy.Id) st' out
      | none => x
    | _, _ => x
  | .recv i =>
    match x.node (i : toy.Id), x.outbox (i : toy.Id), x.inbox (i : toy.Id) with
    | some st, [], p :: ps =>
      match step st (.deliver p.src p.message) with
      | some (st', out) => Async.put { x with inbox := Function.update x.inbox (i : toy.Id) ps } (i : toy.Id) st' out
      | none => x
    | _, _, _ => x
  | .dispatch k => dispatchRun g k x

theorem asyncAct_step (g : Group P) (x : Async P) (a : AsyncAct) : asyncAct g x a = x ∨ AsyncStep g x (asyncAct g x a) := by
  cases a with
  | start i =>
    simp only [asyncAct]
    split
    · rename_i h
      exact Or.inr (.start _ _ h.1 (by simpa using h.2))
    · exact Or.inl rfl
  | push i =>
    simp only [asyncAct]
    split
    · rename_i ho
      split
      · rename_i h
        refine Or.inr (.push ho h.1 ?_)
        have h2 := h.2
        unfold dispatchGoes at h2
        rintro (h | h) <;> simp [h] at h2
      · exact Or.inl rfl
    · exact Or.inl rfl
  | tick i =>
    simp only [asyncAct]
    split
    · rename_i hn ho
      split
      · rename_i hs
        exact Or.inr (.tick hn ho hs)
      · exact Or.inl rfl
    · exact Or.inl rfl
  | recv i =>
    simp only [asyncAct]
    split
    · rename_i hn ho hi
      split
      · rename_i hs
        exact Or.inr (.recv hn ho hi hs)
      · exact Or.inl rfl
    · exact Or.inl rfl
  | dispatch k =>
    rcases dispatchRun_step g k x with h | h
    · exact Or.inl h
    · exact Or.inr (.dispatch h)

/-- Executing a schedule. -/
def asyncRun (g : Group P) (l : List AsyncAct) (x : Async P) : Async P := l.foldl (asyncAct g) x

theorem asyncRun_takes {g : Group P} (l : List AsyncAct) {k : Nat} {x : Async P} (h : AsyncTakes g k x) :
    ∃ k', AsyncTakes g k' (asyncRun g l x) := by
  induction l generalizing k x with
  | nil => exact ⟨k, h⟩
  | cons a l ih =>
    rcases asyncAct_step g x a with h1 | h1
    · simp only [asyncRun, List.foldl_cons, h1]
      exact ih h
    · exact ih (h.step h1)

end Manul
