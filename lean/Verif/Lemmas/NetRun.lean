import Verif.Model.Network
import Verif.Model.Toy

/-!
# Executing schedules of the network

For examples and witnesses.
-/

namespace Manul

/-- A schedule of the network. -/
inductive NetAct where
  | start (i : U8)
  | tick (i : U8)
  | deliver (k : Nat)

/-- Executing a schedule; steps that are not possible are left out. -/
def netRunWith {sp : SP} {P : Proto sp} (id : U8 → sp.Id) (rng : U8 → sp.Rng) (g : Group P) : List NetAct → Net P → Net P
  | [], n => n
  | .start i :: l, n =>
    netRunWith id rng g l <| if g.parties.contains (id i) = true ∧ (n.node (id i)).isNone = true then
      n.put (id i) (g.startNode (id i) (rng i) (rng i)).1 (g.startNode (id i) (rng i) (rng i)).2
    else n
  | .tick i :: l, n =>
    netRunWith id rng g l <| match n.node (id i) with
      | none => n
      | some st =>
        match step st (.tick (rng i)) with
        | none => n
        | some (st', out) => n.put (id i) st' out
  | .deliver k :: l, n =>
    netRunWith id rng g l <| match n.wire.drop k with
      | [] => n
      | p :: w' =>
        match n.node p.dest with
        | none => n
        | some st =>
          match step st (.deliver p.src p.message) with
          | none => n
          | some (st', out) => Net.put ⟨n.node, n.wire.take k ++ w'⟩ p.dest st' out

theorem netRunWith_reach {sp : SP} {P : Proto sp} (id : U8 → sp.Id) (rng : U8 → sp.Rng) {g : Group P} (l : List NetAct)
    {n : Net P} (h : NetReach g n) : NetReach g (netRunWith id rng g l n) := by
  induction l generalizing n with
  | nil => exact h
  | cons a l ih =>
    cases a with
    | start i =>
      simp only [netRunWith]
      apply ih
      split
      · rename_i hc
        refine h.step (.start _ _ hc.1 ?_)
        simpa using hc.2
      · exact h
    | tick i =>
      simp only [netRunWith]
      apply ih
      cases hn : n.node (id i) with
      | none => exact h
      | some st =>
        cases hs : step st (.tick (rng i)) with
        | none => simp only [hs]; exact h
        | some x => simp only [hs]; exact h.step (.tick hn hs)
    | deliver k =>
      simp only [netRunWith]
      apply ih
      cases hw : n.wire.drop k with
      | nil => exact h
      | cons p w' =>
        cases hn : n.node p.dest with
        | none => simp only [hn]; exact h
        | some st =>
          cases hs : step st (.deliver p.src p.message) with
          | none => simp only [hn, hs]; exact h
          | some x =>
            simp only [hn, hs]
            refine h.step (.deliver (p := p) (w := n.wire.take k) (w' := w') ?_ hn hs)
            rw [← hw, List.take_append_drop]

/-- Executing a schedule with the ideal session parameters. -/
def netRun {P : Proto toy} (g : Group P) : List NetAct → Net P → Net P := netRunWith (sp := toy) (fun i : U8 => i) (fun _ => (0 : Nat)) g

theorem netRun_reach {P : Proto toy} {g : Group P} (l : List NetAct) {n : Net P} (h : NetReach g n) : NetReach g (netRun g l n) :=
  netRunWith_reach _ _ l h

/-- The result of a party that has finished. -/
def netResultOf {sp : SP} {P : Proto sp} (n : Net P) (i : sp.Id) : Option P.Result :=
  match n.node i with
  | some (.done (.ok rep)) =>
    match rep.outcome with
    | .result v => some v
    | _ => none
  | _ => none

/-- The result of a party that has finished. -/
def netResult {P : Proto toy} (n : Net P) (i : U8) : Option P.Result := netResultOf (sp := toy) n i

end Manul
