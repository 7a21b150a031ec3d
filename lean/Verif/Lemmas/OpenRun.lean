import Verif.Spec.Open
import Verif.Lemmas.Preprocess
import Verif.Lemmas.ByzRun

/-!
# Executing schedules of the network controlled by an adversary

For examples and witnesses.
-/

namespace Manul

/-- A schedule. -/
inductive OpenAct (sp : SP) where
  | start (i : sp.Id)
  | tick (i : sp.Id)
  /-- give the `k`-th packet ever sent to party `i`, in the name of `y` -/
  | forward (k : Nat) (i y : sp.Id)
  /-- give a message to party `i`, in the name of `y` -/
  | inject (i y : sp.Id) (m : Message sp)

/-- The part is not a forgery. -/
def partUnforged {sp : SP} {k : PartKind} (sid : Bytes) (sent : List (Packet sp)) (get : Message sp → SignedPart k) (x : sp.Id)
    (p : SignedPart k) : Bool :=
  match p.verify sp x with
  | .ok _ => !decide (p.metadata.sessionId = sid) ||
      sent.any fun q => decide (q.src = x) && decide ((get q.message).metadata = p.metadata) && decide ((get q.message).part = p.part)
  | .error _ => true

theorem partUnforged_spec {sp : SP} {k : PartKind} {sid : Bytes} {sent : List (Packet sp)} {get : Message sp → SignedPart k}
    {x : sp.Id} {p : SignedPart k} (h : partUnforged sid sent get x p = true) (hv : SigValid x p)
    (hs : p.metadata.sessionId = sid) :
    ∃ q ∈ sent, q.src = x ∧ (get q.message).metadata = p.metadata ∧ (get q.message).part = p.part := by
  unfold partUnforged at h
  rw [(verifySigned_ok (u := ())).2 hv] at h
  simp only [hs, decide_true, Bool.not_true, Bool.false_or, List.any_eq_true, Bool.and_eq_true, decide_eq_true_eq] at h
  obtain ⟨q, hq, ⟨h1, h2⟩, h3⟩ := h
  exact ⟨q, hq, h1, h2, h3⟩

/-- The message is not a forgery of the given parties. -/
def unforged {sp : SP} (H : List sp.Id) (sid : Bytes) (sent : List (Packet sp)) (m : Message sp) : Bool :=
  H.all fun x => partUnforged sid sent (fun m => m.direct) x m.direct && partUnforged sid sent (fun m => m.echo) x m.echo &&
    partUnforged sid sent (fun m => m.normal) x m.normal

theorem unforged_spec {sp : SP} {H : List sp.Id} {sid : Bytes} {sent : List (Packet sp)} {m : Message sp}
    (h : unforged H sid sent m = true) : Unforged (fun i => i ∈ H) sid sent m.direct m.echo m.normal := by
  unfold unforged at h
  simp only [List.all_eq_true, Bool.and_eq_true] at h
  exact ⟨fun x hx => partUnforged_spec (h x hx).1.1, fun x hx => partUnforged_spec (h x hx).1.2,
    fun x hx => partUnforged_spec (h x hx).2⟩

/-- Party `i` is given a message; nothing happens if it is a forgery. -/
def openGive {sp : SP} {P : Proto sp} (g : Group P) (H : List sp.Id) (n : Net P) (i y : sp.Id) (m : Message sp) : Net P :=
  if unforged H g.sid n.wire m = true then
    match n.node i with
    | none => n
    | some st =>
      match step st (.deliver y m) with
      | none => n
      | some (st', out) => n.put i st' out
  else n

/-- Executing a schedule; steps that are not possible are left out. -/
def openRun {sp : SP} {P : Proto sp} (rng : sp.Rng) (g : Group P) (H : List sp.Id) : List (OpenAct sp) → Net P → Net P
  | [], n => n
  | .start i :: l, n =>
    openRun rng g H l <| if decide (i ∈ H) = true ∧ (n.node i).isNone = true then
      n.put i (g.startNode i rng rng).1 (g.startNode i rng rng).2
    else n
  | .tick i :: l, n =>
    openRun rng g H l <| match n.node i with
      | none => n
      | some st =>
        match step st (.tick rng) with
        | none => n
        | some (st', out) => n.put i st' out
  | .forward k i y :: l, n =>
    openRun rng g H l <| match n.wire[k]? with
      | none => n
      | some p => openGive g H n i y p.message
  | .inject i y m :: l, n => openRun rng g H l (openGive g H n i y m)

theorem openGive_steps {sp : SP} {P : Proto sp} {g : Group P} {H : List sp.Id} {n₀ n : Net P}
    (h : OpenSteps g (fun i => i ∈ H) n₀ n) (i y : sp.Id) (m : Message sp) :
    OpenSteps g (fun i => i ∈ H) n₀ (openGive g H n i y m) := by
  unfold openGive
  split
  · rename_i hu
    cases hn : n.node i with
    | none => exact h
    | some st =>
      cases hs : step st (.deliver y m) with
      | none => simp only [hs]; exact h
      | some x =>
        simp only [hs]
        refine h.step (.act hn ?_ hs)
        intro y' m' he
        simp only [Event.deliver.injEq] at he
        obtain ⟨-, rfl⟩ := he
        exact unforged_spec hu
  · exact h

theorem openRun_steps {sp : SP} {P : Proto sp} (rng : sp.Rng) {g : Group P} {H : List sp.Id} (l : List (OpenAct sp))
    {n₀ n : Net P} (h : OpenSteps g (fun i => i ∈ H) n₀ n) : OpenSteps g (fun i => i ∈ H) n₀ (openRun rng g H l n) := by
  induction l generalizing n with
  | nil => exact h
  | cons a l ih =>
    cases a with
    | start i =>
      simp only [openRun]
      apply ih
      split
      · rename_i hc
        refine h.step (.start _ _ (by simpa using hc.1) ?_)
        simpa using hc.2
      · exact h
    | tick i =>
      simp only [openRun]
      apply ih
      cases hn : n.node i with
      | none => exact h
      | some st =>
        cases hs : step st (.tick rng) with
        | none => simp only [hs]; exact h
        | some x => simp only [hs]; exact h.step (.act hn (by simp) hs)
    | forward k i y =>
      simp only [openRun]
      apply ih
      split
      · exact h
      · exact openGive_steps h _ _ _
    | inject i y m =>
      simp only [openRun]
      exact ih (openGive_steps h _ _ _)

/-- Giving messages of the example protocol to a party. -/
def openDemo (signer dest : U8) (rid : RoundId) (direct echo normal : Option Bytes) : List (OpenAct toy) :=
  match demoMsg signer [9] rid dest direct echo normal with
  | .ok m => [.inject dest signer m]
  | .error _ => []

end Manul
