import Verif.Lemmas.AccumInv
import Verif.Model.Demo
import Verif.Spec.Run

/-!
# Running concrete scenarios

Helpers turning an evaluated scenario of the example protocol into an existential statement.
-/

namespace Manul

/-- A script step: a message attributed to `sender`, signed by `signer`. -/
structure Sent where
  sender : U8
  signer : U8
  sid : Bytes := [9]
  rid : RoundId := RoundId.new 1
  dest : U8 := 1
  direct : Option Bytes := some [5]
  echo : Option Bytes := some [2]
  normal : Option Bytes := some [7]

/-- The message of a script step. -/
def Sent.message (x : Sent) : Except LErr (U8 × Message toy) :=
  match demoMsg x.signer x.sid x.rid x.dest x.direct x.echo x.normal with
  | .ok m => .ok (x.sender, m)
  | .error e => .error e

/-- The first session of party 1 of three, and the accumulator after the deliveries. -/
def demoDeliver (echo : Bool) (last : U8) (l : List Sent) :
    Except LErr (Session (demo echo last).wrap × Accum (demo echo last).wrap) :=
  match demoSession echo last [1, 2, 3] 1 with
  | .error e => .error e
  | .ok s =>
    match mapE Sent.message l with
    | .error e => .error e
    | .ok ms =>
      match foldE (fun a x => deliver s a x.1 x.2) s.makeAccum ms with
      | .error e => .error e
      | .ok a => .ok (s, a)

/-- The payload of a party, as a number. -/
def payloadOf {echo : Bool} {last : U8} (a : Accum (demo echo last).wrap) (x : U8) : Option (Option Nat) := a.payloads.get? x

/-- The sender, as a byte. -/
def senderOf (vm : VerifiedMessage toy) : U8 := vm.sender

/-- The two bytes differ. -/
def differs (x y : U8) : Bool := decide (x ≠ y)

theorem differs_ne {x y : U8} (h : differs x y = true) : x ≠ y := of_decide_eq_true h

/-- Evaluate a test on the result of a scenario. -/
def onOk {α : Type} (r : Except LErr α) (k : α → Bool) : Bool :=
  match r with
  | .ok x => k x
  | .error _ => false

theorem onOk_iff {α : Type} {r : Except LErr α} {k : α → Bool} : onOk r k = true ↔ ∃ x, r = .ok x ∧ k x = true := by
  unfold onOk
  cases r with
  | error e => simp
  | ok x => simp

theorem onOk_demo {echo : Bool} {last : U8} {l : List Sent}
    {k : Session (demo echo last).wrap × Accum (demo echo last).wrap → Bool}
    (h : onOk (demoDeliver echo last l) k = true) :
    ∃ s a ms, demoSession echo last [1, 2, 3] 1 = .ok s ∧ Deliveries s s.makeAccum ms a ∧ AccReach s a ∧
      k (s, a) = true := by
  obtain ⟨⟨s, a⟩, h1, h2⟩ := onOk_iff.1 h
  unfold demoDeliver at h1
  cases hs : demoSession echo last [1, 2, 3] 1 with
  | error e => simp [hs] at h1
  | ok s' =>
    cases hm : mapE Sent.message l with
    | error e => simp [hs, hm] at h1
    | ok ms =>
      cases hf : foldE (fun a x => deliver s' a x.1 x.2) s'.makeAccum ms with
      | error e => simp [hs, hm, hf] at h1
      | ok a' =>
        simp only [hs, hm, hf, Except.ok.injEq, Prod.mk.injEq] at h1
        obtain ⟨rfl, rfl⟩ := h1
        exact ⟨s', a', ms, rfl, hf, deliveries_hist hf, h2⟩

/-! ## Whole runs -/

/-- A script step of a run of party 1. -/
inductive Act where
  | tick
  | msg (x : Sent)
  | cancel
  | close

/-- The event of a script step. -/
def Act.event : Act → Except LErr (Event toy)
  | .tick => .ok (.tick (0 : Nat))
  | .cancel => .ok .cancel
  | .close => .ok .close
  | .msg x =>
    match x.message with
    | .ok (y, m) => .ok (.deliver (y : U8) m)
    | .error e => .error e

/-- The serialized echo pack with the hashes of echo broadcasts `b`, each signed by its party for the round. -/
def demoPack (rid : RoundId) (l : List (U8 × Bytes)) : Bytes :=
  let entries := l.filterMap (fun e =>
    match SignedPart.new toy (0 : Nat) e.1 [9] rid (⟨some e.2⟩ : Part .echo) with
    | .ok p => some ((e.1, p.toSignedHash toy) : U8 × SignedHash)
    | .error _ => none)
  (Codec.list (Codec.prod Codec.u8 Codec.signedHash)).enc entries

/-- Run the events; an event that cannot happen is an error. -/
def runEvents {sp : SP} {P : Proto sp} (st : RunState P) (evs : List (Event sp)) : Except LErr (RunState P) :=
  foldE (fun st ev => match step st ev with | some (st', _) => .ok st' | none => .error (.user 1)) st evs

theorem runEvents_reach {sp : SP} {P : Proto sp} {s₀ : Session P} {st st' : RunState P} {evs : List (Event sp)}
    (h0 : Reach s₀ st) (h : runEvents st evs = .ok st') : Reach s₀ st' := by
  unfold runEvents at h
  induction evs generalizing st with
  | nil =>
    simp only [foldE, Except.ok.injEq] at h
    exact h ▸ h0
  | cons ev evs ih =>
    simp only [foldE] at h
    cases hs : step st ev with
    | none => simp [hs] at h
    | some r =>
      obtain ⟨st1, out⟩ := r
      simp only [hs] at h
      exact ih (.step h0 hs) h

theorem runEvents_steps {sp : SP} {P : Proto sp} {st st' : RunState P} {evs : List (Event sp)}
    (h : runEvents st evs = .ok st') : Steps st st' := by
  have key : ∀ (evs : List (Event sp)) (st1 : RunState P), Steps st st1 → runEvents st1 evs = .ok st' → Steps st st' := by
    intro evs
    induction evs with
    | nil =>
      intro st1 h1 h
      simp only [runEvents, foldE, Except.ok.injEq] at h
      exact h ▸ h1
    | cons ev evs ih =>
      intro st1 h1 h
      simp only [runEvents, foldE] at h
      cases hs : step st1 ev with
      | none => simp [hs] at h
      | some r =>
        obtain ⟨st2, out⟩ := r
        simp only [hs] at h
        exact ih st2 (.step h1 hs) h
  exact key evs st .refl h

/-- Run a script from the start of a party's session among three parties. -/
def demoRunAs (me : U8) (echo : Bool) (last : U8) (l : List Act) :
    Except LErr (Session (demo echo last).wrap × RunState (demo echo last).wrap) :=
  match demoSession echo last [1, 2, 3] me with
  | .error e => .error e
  | .ok s =>
    match mapE Act.event l with
    | .error e => .error e
    | .ok evs =>
      match runEvents (start s (0 : Nat)).1 evs with
      | .error e => .error e
      | .ok st => .ok (s, st)

theorem demoRunAs_ok {me : U8} {echo : Bool} {last : U8} {l : List Act} {s : Session (demo echo last).wrap}
    {st : RunState (demo echo last).wrap} (h1 : demoRunAs me echo last l = .ok (s, st)) :
    demoSession echo last [1, 2, 3] me = .ok s ∧ Reach s st := by
  unfold demoRunAs at h1
  cases hs : demoSession echo last [1, 2, 3] me with
  | error e => simp [hs] at h1
  | ok s' =>
    cases hm : mapE Act.event l with
    | error e => simp [hs, hm] at h1
    | ok evs =>
      cases hf : runEvents (start s' (0 : Nat)).1 evs with
      | error e => simp [hs, hm, hf] at h1
      | ok st' =>
        simp only [hs, hm, hf, Except.ok.injEq, Prod.mk.injEq] at h1
        obtain ⟨rfl, rfl⟩ := h1
        exact ⟨rfl, runEvents_reach (.start _) hf⟩

theorem onOk_runAs {me : U8} {echo : Bool} {last : U8} {l : List Act}
    {k : Session (demo echo last).wrap × RunState (demo echo last).wrap → Bool}
    (h : onOk (demoRunAs me echo last l) k = true) :
    ∃ s st, demoSession echo last [1, 2, 3] me = .ok s ∧ Reach s st ∧ k (s, st) = true := by
  obtain ⟨⟨s, st⟩, h1, h2⟩ := onOk_iff.1 h
  exact ⟨s, st, (demoRunAs_ok h1).1, (demoRunAs_ok h1).2, h2⟩

/-- Run a script from the start of party 1's session among three parties. -/
def demoRun (echo : Bool) (last : U8) (l : List Act) :
    Except LErr (Session (demo echo last).wrap × RunState (demo echo last).wrap) := demoRunAs 1 echo last l

theorem onOk_run {echo : Bool} {last : U8} {l : List Act}
    {k : Session (demo echo last).wrap × RunState (demo echo last).wrap → Bool}
    (h : onOk (demoRun echo last l) k = true) :
    ∃ s st, demoSession echo last [1, 2, 3] 1 = .ok s ∧ Reach s st ∧ k (s, st) = true := onOk_runAs h

/-- Run a script from the start of a party's session of any protocol over the ideal parameters. -/
def scriptRun {P : Proto toy} (ep : EntryPoint P) (me : U8) (l : List Act) : Except LErr (Session P × RunState P) :=
  match Session.new (sp := toy) (0 : Nat) [9] (me : U8) ep with
  | .error e => .error e
  | .ok s =>
    match mapE Act.event l with
    | .error e => .error e
    | .ok evs =>
      match runEvents (start s (0 : Nat)).1 evs with
      | .error e => .error e
      | .ok st => .ok (s, st)

theorem onOk_script {P : Proto toy} {ep : EntryPoint P} {me : U8} {l : List Act} {k : Session P × RunState P → Bool}
    (h : onOk (scriptRun ep me l) k = true) :
    ∃ s st, Session.new (sp := toy) (0 : Nat) [9] (me : U8) ep = .ok s ∧ Reach s st ∧ k (s, st) = true := by
  obtain ⟨⟨s, st⟩, h1, h2⟩ := onOk_iff.1 h
  unfold scriptRun at h1
  cases hs : Session.new (sp := toy) (0 : Nat) [9] (me : U8) ep with
  | error e => simp [hs] at h1
  | ok s' =>
    cases hm : mapE Act.event l with
    | error e => simp [hs, hm] at h1
    | ok evs =>
      cases hf : runEvents (start s' (0 : Nat)).1 evs with
      | error e => simp [hs, hm, hf] at h1
      | ok st' =>
        simp only [hs, hm, hf, Except.ok.injEq, Prod.mk.injEq] at h1
        obtain ⟨rfl, rfl⟩ := h1
        exact ⟨s', st', rfl, runEvents_reach (.start _) hf, h2⟩

/-- A test on a running state. -/
def RunState.isRunning {sp : SP} {P : Proto sp} (st : RunState P) (k : Session P → Accum P → Bool) : Bool :=
  match st with
  | .running s a => k s a
  | .done _ => false

/-- A test on a state that has returned a report. -/
def RunState.isReport {sp : SP} {P : Proto sp} (st : RunState P) (k : Report P → Bool) : Bool :=
  match st with
  | .done (.ok r) => k r
  | _ => false

/-- A test on a state that has failed. -/
def RunState.isFailed {sp : SP} {P : Proto sp} (st : RunState P) (k : LErr → Bool) : Bool :=
  match st with
  | .done (.error e) => k e
  | _ => false

theorem isRunning_iff {sp : SP} {P : Proto sp} {st : RunState P} {k : Session P → Accum P → Bool} :
    st.isRunning k = true ↔ ∃ s a, st = .running s a ∧ k s a = true := by
  cases st <;> simp [RunState.isRunning]

theorem isReport_iff {sp : SP} {P : Proto sp} {st : RunState P} {k : Report P → Bool} :
    st.isReport k = true ↔ ∃ r, st = .done (.ok r) ∧ k r = true := by
  cases st with
  | running s a => simp [RunState.isReport]
  | done r => cases r <;> simp [RunState.isReport]

theorem isFailed_iff {sp : SP} {P : Proto sp} {st : RunState P} {k : LErr → Bool} :
    st.isFailed k = true ↔ ∃ e, st = .done (.error e) ∧ k e = true := by
  cases st with
  | running s a => simp [RunState.isFailed]
  | done r => cases r <;> simp [RunState.isFailed]

end Manul
