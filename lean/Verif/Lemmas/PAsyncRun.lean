import Verif.Model.RunAsyncPar
import Verif.Lemmas.AsyncRun
import Verif.Lemmas.RunAsyncParAny

/-!
# Executing schedules of `run_async` with `offload_processing`

For examples and witnesses.
-/

namespace Manul

/-- A schedule of `run_async`; the dispatcher takes the message with index `k` when it chooses. -/
inductive PAsyncAct where
  | start (i : U8)
  | push (i : U8)
  | complete (i : U8) (k : Nat)
  | send (i : U8) (k : Nat)
  | recv (i : U8)
  | join (i : U8)
  | tick (i : U8)
  | dispatch (k : Nat)

variable {P : Proto toy}

/-- Whether a channel is not closed. -/
def pdispatchGoes (x : PAsync P) : Bool :=
  match x.disp with
  | .returned => false
  | .failed => false
  | _ => true

/-- The host receives the result of a task. -/
def pasyncTask (x : PAsync P) (i : toy.Id) (o : ParOp toy) (ok : ParSt P → Bool) : PAsync P :=
  match x.node i, x.joined i, x.outbox i with
  | some (.running s st), false, [] =>
    if ok st then
      match parStep (.running s st) (.op o) with
      | some st' => x.put i st' false (parOut st (.op o))
      | none => x
    else x
  | _, _, _ => x

/-- One action; actions that are not possible are left out. -/
def pasyncAct (g : Group P) (x : PAsync P) : PAsyncAct → PAsync P
  | .start i =>
    if g.parties.contains (i : toy.Id) = true ∧ (x.node (i : toy.Id)).isNone = true then
      x.put (i : toy.Id) (g.startPar (i : toy.Id) (0 : Nat) (0 : Nat)) false []
    else x
  | .push i =>
    match x.outbox (i : toy.Id) with
    | m :: ms => if x.chan.length < asyncCapacity ∧ pdispatchGoes x = true then
        { x with outbox := Function.update x.outbox (i : toy.Id) ms, chan := x.chan ++ [⟨(i : toy.Id), m.destination, m⟩] }
      else x
    | [] => x
  | .complete i k => pasyncTask x (i : toy.Id) (.complete k) (fun st => k < st.tasks.length)
  | .send i k => pasyncTask x (i : toy.Id) (.send k) (fun st => ((st.outgoing[k]?).bind taskMessage).isSome)
  | .recv i =>
    match x.node (i : toy.Id), x.joined (i : toy.Id), x.outbox (i : toy.Id), x.inbox (i : toy.Id) with
    | some (.running s st), false, [], p :: ps =>
      match parStep (.running s st) (.op (.deliver p.src p.message)) with
      | some st' => PAsync.put { x with inbox := Function.update x.inbox (i : toy.Id) ps } (i : toy.Id) st' false []
      | none => x
    | _, _, _, _ => x
  | .join i =>
    match x.node (i : toy.Id), x.joined (i : toy.Id), x.outbox (i : toy.Id) with
    | some (.running s st), false, [] =>
      match st.accum.canFinalize with
      | .notYet => x
      | _ => if st.tasks.length ≤ channelCapacity ∧ (st.outgoing.filterMap taskMessage).length ≤ channelCapacity then
          x.put (i : toy.Id) (.running s st) true (parRest st)
        else x
    | _, _, _ => x
  | .tick i =>
    match x.node (i : toy.Id), x.joined (i : toy.Id), x.outbox (i : toy.Id) with
    | some st, true, [] =>
      match parStep st (.tick (0 : Nat)) with
      | some st' => x.put (i : toy.Id) st' false []
      | none => x
    | _, _, _ => x
  | .dispatch k =>
    let y := dispatchRun g k x.post
    { x with inbox := y.inbox, chan := y.chan, disp := y.disp }

theorem pasyncTask_step {g : Group P} {x : PAsync P} {i : toy.Id} {o : ParOp toy} {ok : ParSt P → Bool}
    (hok : ∀ st, ok st = true → o.Enabled st) : pasyncTask x i o ok = x ∨ PAsyncStep g x (pasyncTask x i o ok) := by
  unfold pasyncTask
  split
  · rename_i hn hj ho
    split
    · rename_i h
      split
      · rename_i hs
        exact Or.inr (.task hn hj ho (hok _ h) hs)
      · exact Or.inl rfl
    · exact Or.inl rfl
  · exact Or.inl rfl

theorem pasyncAct_step (g : Group P) (x : PAsync P) (a : PAsyncAct) : pasyncAct g x a = x ∨ PAsyncStep g x (pasyncAct g x a) := by
  cases a with
  | start i =>
    simp only [pasyncAct]
    split
    · rename_i h
      exact Or.inr (.start _ _ h.1 (by simpa using h.2))
    · exact Or.inl rfl
  | push i =>
    simp only [pasyncAct]
    split
    · rename_i ho
      split
      · rename_i h
        refine Or.inr (.push ho h.1 ?_)
        have h2 := h.2
        unfold pdispatchGoes at h2
        rintro (h | h) <;> simp [h] at h2
      · exact Or.inl rfl
    · exact Or.inl rfl
  | complete i k => exact pasyncTask_step (fun st h => by simpa [ParOp.Enabled] using h)
  | send i k =>
    refine pasyncTask_step (fun st h => ?_)
    rw [Option.isSome_iff_exists] at h
    obtain ⟨m, h⟩ := h
    rw [Option.bind_eq_some_iff] at h
    obtain ⟨o, h1, h2⟩ := h
    exact ⟨o, m, h1, h2⟩
  | recv i =>
    simp only [pasyncAct]
    split
    · rename_i hn hj ho hi
      split
      · rename_i hs
        exact Or.inr (.recv hn hj ho hi hs)
      · exact Or.inl rfl
    · exact Or.inl rfl
  | join i =>
    simp only [pasyncAct]
    split
    · rename_i hn hj ho
      split
      · exact Or.inl rfl
      · rename_i hc
        split
        · rename_i hf
          exact Or.inr (.join hn hj ho hc hf)
        · exact Or.inl rfl
    · exact Or.inl rfl
  | tick i =>
    simp only [pasyncAct]
    split
    · rename_i hn hj ho
      split
      · rename_i hs
        exact Or.inr (.tick hn hj ho hs)
      · exact Or.inl rfl
    · exact Or.inl rfl
  | dispatch k =>
    simp only [pasyncAct]
    rcases dispatchRun_step g k x.post with h | h
    · rw [h]
      exact Or.inl rfl
    · exact Or.inr (.dispatch h)

/-- Executing a schedule. -/
def pasyncRun (g : Group P) (l : List PAsyncAct) (x : PAsync P) : PAsync P := l.foldl (pasyncAct g) x

theorem pasyncRun_takes {g : Group P} (l : List PAsyncAct) {k : Nat} {x : PAsync P} (h : PAsyncTakes g k x) :
    ∃ k', PAsyncTakes g k' (pasyncRun g l x) := by
  induction l generalizing k x with
  | nil => exact ⟨k, h⟩
  | cons a l ih =>
    rcases pasyncAct_step g x a with h1 | h1
    · simp only [pasyncRun, List.foldl_cons, h1]
      exact ih h
    · exact ih (h.step h1)

end Manul
