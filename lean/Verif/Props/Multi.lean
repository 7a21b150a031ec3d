import Verif.Spec.Multi
import Verif.Props.Accused
import Verif.Props.Open
import Verif.Props.Equivocation
import Verif.Lemmas.OpenRun

/-!
# C76: sessions executed at the same time do not interfere
-/

namespace Manul

variable {sp : SP} {P : Proto sp} {K : Type} [DecidableEq K] {S : Sessions sp K} {H : sp.Id → Prop}

/-- The steps of a session are those of an open network. -/
theorem openStep_iff {g : Group P} {n n' : Net P} :
    OpenStep g H n n' ↔ StepIf (fun m => Unforged H g.sid n.wire m.direct m.echo m.normal) g H n n' := by
  refine ⟨?_, ?_⟩
  · intro h
    cases h with
    | start rng rng' h1 h2 => exact .start rng rng' h1 h2
    | act h1 h2 h3 => exact .act h1 h2 h3
    | startFails rng rng' h1 h2 h3 h4 h5 => exact .startFails rng rng' h1 h2 h3 h4 h5
    | enterFails rng rng' h1 h2 h3 h4 h5 => exact .enterFails rng rng' h1 h2 h3 h4 h5
  · intro h
    cases h with
    | start rng rng' h1 h2 => exact .start rng rng' h1 h2
    | act h1 h2 h3 => exact .act h1 h2 h3
    | startFails rng rng' h1 h2 h3 h4 h5 => exact .startFails rng rng' h1 h2 h3 h4 h5
    | enterFails rng rng' h1 h2 h3 h4 h5 => exact .enterFails rng rng' h1 h2 h3 h4 h5

theorem StepIf.mono {may may' : Message sp → Prop} {g : Group P} {n n' : Net P} (h : StepIf may g H n n')
    (hm : ∀ m, may m → may' m) : StepIf may' g H n n' := by
  cases h with
  | start rng rng' h1 h2 => exact .start rng rng' h1 h2
  | act h1 h2 h3 => exact .act h1 (fun y m he => hm m (h2 y m he)) h3
  | startFails rng rng' h1 h2 h3 h4 h5 => exact .startFails rng rng' h1 h2 h3 h4 h5
  | enterFails rng rng' h1 h2 h3 h4 h5 => exact .enterFails rng rng' h1 h2 h3 h4 h5

/-- What has been sent in a session has its id in all parts. -/
theorem wire_sid {g : Group P} {n : Net P} (h : OpenSteps g H Net.init n) {q : Packet sp} (hq : q ∈ n.wire) :
    q.message.direct.metadata.sessionId = g.sid ∧ q.message.echo.metadata.sessionId = g.sid ∧
      q.message.normal.metadata.sessionId = g.sid := by
  obtain ⟨V, -, hi⟩ := (OpenInv.init g H).steps h
  obtain ⟨s, -, -, -, -, -, -, h1, h2, h3⟩ := hi.own hq
  rw [h1, h2, h3]
  exact ⟨rfl, rfl, rfl⟩

/-- C76: in executions of any number of sessions with different ids, by parties using the same keys in all of them, every session
by itself goes through an execution of the network in which it is the only one: whatever the adversary does with what is sent in
the others it could have done without them. -/
theorem C76_independent (hd : S.Distinct) {n : Nets S} (h : MultiReach S H n) (k : K) :
    OpenSteps (S.group k) H Net.init (n k) := by
  induction h generalizing k with
  | init => exact .refl
  | @step n n' _ hs ih =>
    cases hs with
    | step k' hs' =>
      by_cases hk : k = k'
      · subst hk
        rw [Function.update_self]
        refine (ih k).step (openStep_iff.2 (hs'.mono ?_))
        intro m hm
        refine ⟨?_, ?_, ?_⟩
        · intro x hx hv he
          obtain ⟨k', q, hq, h1, h2, h3⟩ := hm.direct x k hx hv he
          obtain rfl := hd k' k (by rw [← he, ← h2]; exact (wire_sid (ih k') hq).1.symm)
          exact ⟨q, hq, h1, h2, h3⟩
        · intro x hx hv he
          obtain ⟨k', q, hq, h1, h2, h3⟩ := hm.echo x k hx hv he
          obtain rfl := hd k' k (by rw [← he, ← h2]; exact (wire_sid (ih k') hq).2.1.symm)
          exact ⟨q, hq, h1, h2, h3⟩
        · intro x hx hv he
          obtain ⟨k', q, hq, h1, h2, h3⟩ := hm.normal x k hx hv he
          obtain rfl := hd k' k (by rw [← he, ← h2]; exact (wire_sid (ih k') hq).2.2.symm)
          exact ⟨q, hq, h1, h2, h3⟩
      · rw [Function.update_of_ne hk]
        exact ih k

/-- C76: so what a session has accepted from a party following the protocol, that party has sent in the same session. -/
theorem C76_integrity (hd : S.Distinct) {n : Nets S} (h : MultiReach S H n) {k : K} {i x : sp.Id} {s : Session (S.proto k)}
    {a : Accum (S.proto k)} (hn : (n k).node i = some (.running s a)) (hx : H x) {v : Option (S.proto k).Payload}
    (hv : a.payloads.get? x = some v) :
    ∃ m, SentIn (S.group k) (n k).wire x s.transition.id m ∧ s.round.receive x m = .ok v :=
  C56_integrity (C76_independent hd h k) hn hx hv

/-- C76: and an accusation of a party following the protocol rests on what it has done in the same session. -/
theorem C76_accused (hd : S.Distinct) {n : Nets S} (h : MultiReach S H n) {k : K} (rt : sp.EchoRoundTrip) (mt : sp.MetaTotal)
    (hr : EchoStrict (S.proto k) ∧ MainIds (S.proto k) ∧ Acyclic (S.proto k) ∧ NoEchoErr (S.proto k))
    (hkey : ∀ i, H i → sp.verifyingKey ((S.group k).signer i) = i) {i x : sp.Id} (hi : H i) {rep : Report (S.proto k)}
    (hn : (n k).node i = some (.done (.ok rep))) {ev : Evidence sp} (hev : rep.provable.get? x = some ev) (hg : H ev.guilty) :
    (x = ev.guilty ∧ Refused (S.group k) i x) ∨ (¬ H x ∧ ∃ s w, Misquoted (S.group k) ev.guilty s w ev) :=
  C73_accused rt mt hr.1 hr.2.1 hr.2.2.1 hr.2.2.2 hkey (C76_independent hd h k) hi hn hev hg

/-! ### Executing schedules of two sessions -/

/-- A schedule. -/
inductive MultiAct (sp : SP) where
  | start (k : Bool) (i : sp.Id)
  | tick (k : Bool) (i : sp.Id)
  /-- give the `j`-th packet ever sent in session `k'` to party `i` in session `k`, in the name of `y` -/
  | forward (k' : Bool) (j : Nat) (k : Bool) (i y : sp.Id)
  /-- give a message to party `i` in session `k`, in the name of `y` -/
  | inject (k : Bool) (i y : sp.Id) (m : Message sp)

/-- What has been sent. -/
def sentInBoth {S : Sessions sp Bool} (n : Nets S) : List (Packet sp) := (n false).wire ++ (n true).wire

/-- Party `i` is given a message in session `k`; nothing happens if it is a forgery. -/
def multiGive (S : Sessions sp Bool) (H : List sp.Id) (n : Nets S) (k : Bool) (i y : sp.Id) (m : Message sp) : Nets S :=
  if unforged H (S.group false).sid (sentInBoth n) m = true ∧ unforged H (S.group true).sid (sentInBoth n) m = true then
    match (n k).node i with
    | none => n
    | some st =>
      match step st (.deliver y m) with
      | none => n
      | some (st', out) => Function.update n k ((n k).put i st' out)
  else n

/-- Executing a schedule; steps that are not possible are left out. -/
def multiRun (rng : sp.Rng) (S : Sessions sp Bool) (H : List sp.Id) : List (MultiAct sp) → Nets S → Nets S
  | [], n => n
  | .start k i :: l, n =>
    multiRun rng S H l <| if decide (i ∈ H) = true ∧ ((n k).node i).isNone = true then
      Function.update n k ((n k).put i ((S.group k).startNode i rng rng).1 ((S.group k).startNode i rng rng).2)
    else n
  | .tick k i :: l, n =>
    multiRun rng S H l <| match (n k).node i with
      | none => n
      | some st =>
        match step st (.tick rng) with
        | none => n
        | some (st', out) => Function.update n k ((n k).put i st' out)
  | .forward k' j k i y :: l, n =>
    multiRun rng S H l <| match (n k').wire[j]? with
      | none => n
      | some p => multiGive S H n k i y p.message
  | .inject k i y m :: l, n => multiRun rng S H l (multiGive S H n k i y m)

theorem unforgedAll_of {S : Sessions sp Bool} {H : List sp.Id} {n : Nets S} {m : Message sp}
    (h : ∀ k, unforged H (S.group k).sid (sentInBoth n) m = true) : UnforgedAll S (fun i => i ∈ H) n m := by
  have find : ∀ {Q : Packet sp → Prop}, (∃ q ∈ sentInBoth n, Q q) → ∃ k', ∃ q ∈ (n k').wire, Q q := by
    rintro Q ⟨q, hq, h⟩
    rcases List.mem_append.1 hq with hq | hq
    · exact ⟨false, q, hq, h⟩
    · exact ⟨true, q, hq, h⟩
  exact ⟨fun x k hx hv he => find ((unforged_spec (h k)).direct x hx hv he),
    fun x k hx hv he => find ((unforged_spec (h k)).echo x hx hv he),
    fun x k hx hv he => find ((unforged_spec (h k)).normal x hx hv he)⟩

theorem multiGive_reach {S : Sessions sp Bool} {H : List sp.Id} {n : Nets S} (h : MultiReach S (fun i => i ∈ H) n) (k : Bool)
    (i y : sp.Id) (m : Message sp) : MultiReach S (fun i => i ∈ H) (multiGive S H n k i y m) := by
  unfold multiGive
  split
  · rename_i hu
    split
    · exact h
    · rename_i st hn
      split
      · exact h
      · rename_i st' out hs
        refine h.step (.step k (.act hn ?_ hs))
        intro y' m' he
        cases he
        refine unforgedAll_of ?_
        intro k
        cases k
        · exact hu.1
        · exact hu.2
  · exact h

theorem multiRun_reach (rng : sp.Rng) {S : Sessions sp Bool} {H : List sp.Id} (l : List (MultiAct sp)) {n : Nets S}
    (h : MultiReach S (fun i => i ∈ H) n) : MultiReach S (fun i => i ∈ H) (multiRun rng S H l n) := by
  induction l generalizing n with
  | nil => exact h
  | cons a l ih =>
    cases a with
    | start k i =>
      simp only [multiRun]
      refine ih ?_
      split
      · rename_i hc
        exact h.step (.step k (.start rng rng (by simpa using hc.1) (by simpa using hc.2)))
      · exact h
    | tick k i =>
      simp only [multiRun]
      refine ih ?_
      split
      · exact h
      · rename_i st hn
        split
        · exact h
        · rename_i st' out hs
          exact h.step (.step k (.act hn (by intro y m he; cases he) hs))
    | forward k' j k i y =>
      simp only [multiRun]
      refine ih ?_
      split
      · exact h
      · rename_i p hp
        exact multiGive_reach h k i y p.message
    | inject k i y m =>
      simp only [multiRun]
      exact ih (multiGive_reach h k i y m)

/-- Two sessions of the example protocol with the given ids. -/
def twoSessions (sid sid' : Bytes) : Sessions toy Bool where
  proto := fun _ => (demo true 2).wrap
  group := fun k => { demoGroup true 2 (BSet.ofList [1, 2, 3]) with sid := cond k sid' sid }

/-- The party has a payload of the other one in the session. -/
def hasPayload {sid sid' : Bytes} (n : Nets (twoSessions sid sid')) (k : Bool) (i x : U8) : Bool :=
  match (n k).node i with
  | some (.running _ a) => a.payloads.contains x
  | _ => false

/-- The party has recorded an error of the other one in the session. -/
def hasBanned {sid sid' : Bytes} (n : Nets (twoSessions sid sid')) (k : Bool) (i x : U8) : Bool :=
  match (n k).node i with
  | some (.running _ a) => a.isBanned x
  | _ => false

/-- Party 2 starts in one session, party 1 in both, and what party 2 sends party 1 in the first one is given to party 1 in both. -/
def replay : List (MultiAct toy) :=
  [.start false (2 : U8), .start false (1 : U8), .start true (1 : U8), .forward false 0 false (1 : U8) (2 : U8),
    .forward false 0 true (1 : U8) (2 : U8)]

/-- C76: the ids have to be different: with the same id in two sessions, a session accepts as a message of party 2 one it has
sent in the other session, although it has not even started in this one. -/
theorem C76_distinct_needed : ∃ n : Nets (twoSessions [9] [9]),
    MultiReach (twoSessions [9] [9]) (fun i : U8 => i ∈ ([1, 2] : List U8)) n ∧ (n true).node (2 : U8) = none ∧
      ∃ s a v, (n true).node (1 : U8) = some (.running s a) ∧ a.payloads.get? (2 : U8) = some v := by
  have h : (hasPayload (multiRun (sp := toy) (0 : Nat) (twoSessions [9] [9]) ([1, 2] : List U8) replay (fun _ => Net.init)) true 1 2 &&
      ((multiRun (sp := toy) (0 : Nat) (twoSessions [9] [9]) ([1, 2] : List U8) replay (fun _ => Net.init)) true |>.node
        (2 : U8)).isNone) = true := by
    decide +kernel
  rw [Bool.and_eq_true] at h
  refine ⟨_, multiRun_reach (sp := toy) (0 : Nat) (H := ([1, 2] : List U8)) replay .init, by simpa using h.2, ?_⟩
  have h1 := h.1
  unfold hasPayload at h1
  split at h1
  · rename_i s a hn
    obtain ⟨v, hv⟩ := BMap.contains_iff.1 h1
    exact ⟨s, a, v, hn, hv⟩
  · cases h1

/-! ### Examples -/

/-- With different ids the first session accepts the message and the second one does not. -/
example : (twoSessions [9] [8]).Distinct ∧ ∃ n : Nets (twoSessions [9] [8]),
    MultiReach (twoSessions [9] [8]) (fun i : U8 => i ∈ ([1, 2] : List U8)) n ∧ hasPayload n false 1 2 = true ∧
      hasPayload n true 1 2 = false ∧ hasBanned n true 1 2 = true := by
  refine ⟨?_, _, multiRun_reach (sp := toy) (0 : Nat) (H := ([1, 2] : List U8)) replay .init, ?_, ?_, ?_⟩
  · intro k k' h
    cases k <;> cases k' <;> first | rfl | (exact absurd h (by decide))
  · decide +kernel
  · decide +kernel
  · decide +kernel

theorem isTwo_spec {g : U8} (h : isTwo g = true) : g = 2 := of_decide_eq_true h

/-- A schedule of one session as one of two. -/
def OpenAct.inFirst : OpenAct toy → MultiAct toy
  | .start i => .start false i
  | .tick i => .tick false i
  | .forward k i y => .forward false k false i y
  | .inject i y m => .inject false i y m

/-- The hypotheses of `C76_accused` can be met: two sessions are under way, and in one of them party 3 has misquoted party 2. -/
example : ∃ (n : Nets (twoSessions [9] [8])) (rep : Report ((twoSessions [9] [8]).proto false)) (ev : Evidence toy),
    MultiReach (twoSessions [9] [8]) (fun i : U8 => i ∈ ([1, 2] : List U8)) n ∧
      (∃ st, (n true).node (1 : U8) = some st) ∧ (n false).node (1 : U8) = some (.done (.ok rep)) ∧
      rep.provable.get? (3 : U8) = some ev ∧ ev.guilty = (2 : U8) := by
  have h : (framed (P := (demo true 2).wrap) () (multiRun (sp := toy) (0 : Nat) (twoSessions [9] [8]) ([1, 2] : List U8)
      (.start true (1 : U8) :: openFraming.map OpenAct.inFirst) (fun _ => Net.init) false) &&
      ((multiRun (sp := toy) (0 : Nat) (twoSessions [9] [8]) ([1, 2] : List U8)
      (.start true (1 : U8) :: openFraming.map OpenAct.inFirst) (fun _ => Net.init) true).node (1 : U8)).isSome) = true := by
    decide +kernel
  have hr := multiRun_reach (sp := toy) (0 : Nat) (S := twoSessions [9] [8]) (H := ([1, 2] : List U8))
    (.start true (1 : U8) :: openFraming.map OpenAct.inFirst) .init
  generalize multiRun (sp := toy) (0 : Nat) (twoSessions [9] [8]) ([1, 2] : List U8)
      (.start true (1 : U8) :: openFraming.map OpenAct.inFirst) (fun _ => Net.init) = n at h hr
  rw [Bool.and_eq_true] at h
  obtain ⟨h1, h2⟩ := h
  unfold framed at h1
  split at h1
  · rename_i rep q hn hq
    split at h1
    · rename_i g g' w hh hev
      simp only [Bool.and_eq_true] at h1
      refine ⟨n, rep, _, hr, Option.isSome_iff_exists.1 h2, hn, hev, ?_⟩
      exact isTwo_spec h1.1.1.1.1.2
    · cases h1
  · cases h1

end Manul
