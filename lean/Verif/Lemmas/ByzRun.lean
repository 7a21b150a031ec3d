import Verif.Spec.Byzantine
import Verif.Lemmas.NetRun
import Verif.Model.Demo

/-!
# Executing schedules of the network with parties that do not follow the protocol

For examples and witnesses.
-/

namespace Manul

/-- A schedule: what the network does, and the packets put on the wire by others. -/
inductive ByzAct (sp : SP) where
  | start (i : sp.Id)
  | tick (i : sp.Id)
  | deliver (k : Nat)
  | inject (p : Packet sp)

/-- Executing a schedule; steps that are not possible are left out. -/
def byzRun {sp : SP} {P : Proto sp} (rng : sp.Rng) (g : Group P) (H : sp.Id → Bool) : List (ByzAct sp) → Net P → Net P
  | [], n => n
  | .start i :: l, n =>
    byzRun rng g H l <| if H i = true ∧ (n.node i).isNone = true then
      n.put i (g.startNode i rng rng).1 (g.startNode i rng rng).2
    else n
  | .tick i :: l, n =>
    byzRun rng g H l <| match n.node i with
      | none => n
      | some st =>
        match step st (.tick rng) with
        | none => n
        | some (st', out) => n.put i st' out
  | .deliver k :: l, n =>
    byzRun rng g H l <| match n.wire.drop k with
      | [] => n
      | p :: w' =>
        match n.node p.dest with
        | none => n
        | some st =>
          match step st (.deliver p.src p.message) with
          | none => n
          | some (st', out) => Net.put ⟨n.node, n.wire.take k ++ w'⟩ p.dest st' out
  | .inject p :: l, n => byzRun rng g H l <| if H p.src then n else ⟨n.node, n.wire ++ [p]⟩

theorem byzRun_reach {sp : SP} {P : Proto sp} (rng : sp.Rng) {g : Group P} {H : sp.Id → Bool} {adv : Packet sp → Prop}
    (l : List (ByzAct sp)) (hl : ∀ p, .inject p ∈ l → adv p) {n : Net P} (h : ByzReach g (fun i => H i = true) adv n) :
    ByzReach g (fun i => H i = true) adv (byzRun rng g H l n) := by
  induction l generalizing n with
  | nil => exact h
  | cons a l ih =>
    have ih' := @ih (fun p hp => hl p (List.mem_cons_of_mem _ hp))
    cases a with
    | start i =>
      simp only [byzRun]
      apply ih'
      split
      · rename_i hc
        refine h.step (.start _ _ hc.1 ?_)
        simpa using hc.2
      · exact h
    | tick i =>
      simp only [byzRun]
      apply ih'
      cases hn : n.node i with
      | none => exact h
      | some st =>
        cases hs : step st (.tick rng) with
        | none => simp only [hs]; exact h
        | some x => simp only [hs]; exact h.step (.tick hn hs)
    | deliver k =>
      simp only [byzRun]
      apply ih'
      cases hw : n.wire.drop k with
      | nil => exact h
      | cons p w' =>
        cases hn : n.node p.dest with
        | none => simp only [hn]; exact h
        | some st =>
          cases hs : step st (.deliver p.src p.message) with
          | none => simp only [hn, hs]; exact h
          | some x =>
            simp only [hn, hs]
            refine h.step (.deliver (p := p) (w := n.wire.take k) (w' := w') ?_ hn hs)
            rw [← hw, List.take_append_drop]
    | inject p =>
      simp only [byzRun]
      apply ih'
      split
      · exact h
      · rename_i hp
        exact h.step (.inject hp (hl p List.mem_cons_self))

/-- Putting messages of the example protocol on the wire. -/
def injectDemo (signer dest : U8) (rid : RoundId) (direct echo normal : Option Bytes) : List (ByzAct toy) :=
  match demoMsg signer [9] rid dest direct echo normal with
  | .ok m => [.inject ⟨signer, dest, m⟩]
  | .error _ => []

/-- Whether a party has recorded an error of another one, at the moment. -/
def byzBlames {P : Proto toy} (n : Net P) (i j : U8) : Bool :=
  match n.node (i : toy.Id) with
  | some (.running _ a) => a.unprovable.contains (j : toy.Id) || a.provable.contains (j : toy.Id)
  | _ => false

end Manul
