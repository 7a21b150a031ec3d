import Verif.Lemmas.ParRun
import Verif.Props.Exec
import Verif.Props.Transcript

/-!
# Runs of the parallel driver

* C60: what C10, C11 and C49 say about `run_session` holds for `par_run_session` in an orderly environment.
-/

namespace Manul

variable {sp : SP} {P : Proto sp}

/-- C60: a report of `par_run_session` is the report of a run through the rounds of the sequential driver, with the same
meaning of its outcome. -/
theorem C60_report {rng : sp.Rng} {sid : Bytes} {signer : sp.Signer} {ep : EntryPoint P} {s₀ : Session P} {r : Report P}
    (h0 : Session.new rng sid signer ep = .ok s₀) (h : ParReach s₀ (.done (.ok r))) :
    ∃ trail s a k, Ends s₀ trail s a r k ∧ (∀ res, r.outcome = .result res ↔ k = .result res) ∧
      (k = .cancelled → r.outcome = .terminated) := by
  obtain ⟨hp, -, -, -, hm⟩ := new_proper h0
  obtain ⟨trail, s, a, k, he⟩ := parReach_done hp hm h
  exact ⟨trail, s, a, k, he, ends_outcome he⟩

/-- C60: the report contains exactly the errors recorded in the rounds of the run and the parties not heard in them. -/
theorem C60_exact {rng : sp.Rng} {sid : Bytes} {signer : sp.Signer} {ep : EntryPoint P} {s₀ : Session P} {r : Report P}
    (h0 : Session.new rng sid signer ep = .ok s₀) (h : ParReach s₀ (.done (.ok r))) :
    ∃ trail s a k, Ends s₀ trail s a r k ∧ Exact (trail ++ [(s, a)]) r.provable r.unprovable r.missing := by
  obtain ⟨trail, s, a, k, he, -⟩ := C60_report h0 h
  exact ⟨trail, s, a, k, he, C11_report_exact h0 he⟩

/-- C60: a run of `par_run_session` that reports a result has executed the protocol from the round made by the entry point to
this result. -/
theorem C60_execution {rng : sp.Rng} {sid : Bytes} {signer : sp.Signer} {ep : EntryPoint P} {s₀ : Session P}
    {rep : Report P} {res : P.Result} (h0 : Session.new rng sid signer ep = .ok s₀) (h : ParReach s₀ (.done (.ok rep)))
    (hres : rep.outcome = .result res) :
    ∃ r₀ ts, ep.makeRound (sp.fork rng 0) sid (sp.verifyingKey signer) = .ok r₀ ∧ Exec P r₀ ts res ∧
      ∀ t ∈ ts, InSession sid t := by
  obtain ⟨hp, hsid, -, -, -⟩ := new_proper h0
  obtain ⟨r₀, hmk, hr₀⟩ : ∃ r₀, ep.makeRound (sp.fork rng 0) sid (sp.verifyingKey signer) = .ok r₀ ∧ s₀.round = .main r₀ := by
    unfold Session.new at h0
    split at h0
    · simp at h0
    · rename_i r hr
      exact ⟨r, hr, (newForNextRound_ok h0).round⟩
  obtain ⟨trail, s, a, k, he, hk, -⟩ := C60_report h0 h
  rw [(hk res).1 hres] at he
  obtain ⟨ts, h1, h2, -⟩ := ends_exec hp hr₀ he
  rw [hsid] at h2
  exact ⟨r₀, ts, hmk, h1, h2⟩

/-- C60: while `par_run_session` is in a round, it has gone through the rounds before as the sequential driver does, and once
the outstanding messages have been processed and the tasks are joined, the accumulator is that of the sequential driver. -/
theorem C60_running {rng : sp.Rng} {sid : Bytes} {signer : sp.Signer} {ep : EntryPoint P} {s₀ s : Session P} {st : ParSt P}
    (h0 : Session.new rng sid signer ep = .ok s₀) (h : ParReach s₀ (.running s st)) :
    ∃ trail cached, Visits s₀ trail s cached ∧
      ∀ b, st.tasks = [] → parJoin st = .ok b → ∃ rng l, SeqRound s rng cached l b := by
  obtain ⟨hp, -, -, -, hm⟩ := new_proper h0
  rcases parReach_cases hp hm h with ⟨trail, s', st', cached, rng', l, he, hv, hs, -⟩ | ⟨_, _, _, _, _, he, -⟩ | ⟨_, he⟩
  · simp only [ParState.running.injEq] at he
    obtain ⟨rfl, rfl⟩ := he
    exact ⟨trail, cached, hv, fun b h1 h2 => ⟨rng', l, sim_join hs h1 h2⟩⟩
  · simp at he
  · simp at he

/-! ## An orderly run -/

/-- A check of `OrderlyEvent`. -/
def orderlyCheck (s : Session P) (st : ParSt P) : ParEvent sp → Bool
  | .op (.deliver x m) =>
    st.tasks.all (fun vm => decide (vm.sender ≠ x) || (s.process vm).result.toOption.isSome) &&
      (match s.preprocess st.accum x m with
        | .ok (_, .toProcess _) => st.accum.notSent.contains x && st.tasks.all (fun vm => decide (vm.sender ≠ x))
        | _ => true)
  | .op _ => true
  | .tick _ => st.tasks.all (fun vm => s.comm.expecting.contains vm.sender)
  | .cancel => st.tasks.isEmpty
  | .close => true

theorem orderlyCheck_sound {s : Session P} {st : ParSt P} {ev : ParEvent sp} (h : orderlyCheck s st ev = true) :
    OrderlyEvent s st ev := by
  cases ev with
  | op o =>
    cases o with
    | deliver x m =>
      simp only [orderlyCheck, Bool.and_eq_true] at h
      obtain ⟨h1, h2⟩ := h
      refine ⟨fun vm hvm hx => ?_, fun a vm hp => ?_⟩
      · have := List.all_eq_true.1 h1 vm hvm
        simp only [Bool.or_eq_true, decide_eq_true_eq] at this
        rcases this with h3 | h3
        · exact absurd hx h3
        · cases hr : (s.process vm).result with
          | error e => simp [hr, Except.toOption] at h3
          | ok v => exact ⟨v, rfl⟩
      · simp only [hp, Bool.and_eq_true] at h2
        exact ⟨h2.1, fun vm' hvm' => by simpa using List.all_eq_true.1 h2.2 vm' hvm'⟩
    | complete i => trivial
    | send i => trivial
  | tick rng =>
    simp only [orderlyCheck] at h
    exact fun vm hvm => List.all_eq_true.1 h vm hvm
  | cancel =>
    simp only [orderlyCheck] at h
    exact List.isEmpty_iff.1 h
  | close => trivial

/-- Run a list of events, checking that they are orderly. -/
def parEvents (st : ParState P) : List (ParEvent sp) → Except LErr (ParState P)
  | [] => .ok st
  | ev :: l =>
    match st with
    | .done _ => .error (.user 0)
    | .running s u =>
      if orderlyCheck s u ev then
        match parStep (.running s u) ev with
        | some st' => parEvents st' l
        | none => .error (.user 1)
      else .error (.user 2)

theorem parEvents_reach {s₀ : Session P} {st st' : ParState P} {l : List (ParEvent sp)} (h : ParReach s₀ st)
    (hl : parEvents st l = .ok st') : ParReach s₀ st' := by
  induction l generalizing st with
  | nil =>
    simp only [parEvents, Except.ok.injEq] at hl
    exact hl ▸ h
  | cons ev l ih =>
    cases st with
    | done r => simp [parEvents] at hl
    | running s u =>
      simp only [parEvents] at hl
      split at hl
      · rename_i ho
        split at hl
        · rename_i st1 hs
          exact ih (.step h (orderlyCheck_sound ho) hs) hl
        · simp at hl
      · simp at hl

/-- The messages of the run: those of parties 2 and 3 for the rounds 1 and 2. -/
def c60Message (x : U8) (r : U8) : Except LErr (U8 × Message toy) :=
  Sent.message ⟨x, x, [9], RoundId.new r, 1, some [5], none, some [7]⟩

/-- The run: the message of party 2 for the next round arrives while its message for this round is being processed; the
results arrive in the opposite order; some messages are sent only when the tasks are joined. -/
def c60Run : Except LErr (Session (demo false 2).wrap × ParState (demo false 2).wrap) :=
  match demoSession false 2 [1, 2, 3] 1, c60Message 2 1, c60Message 3 1, c60Message 2 2, c60Message 3 2 with
  | .ok s, .ok (_, a), .ok (_, b), .ok (_, c), .ok (_, d) =>
    match parEvents (.running s (ParSt.begin s (0 : Nat) []))
        [.op (.deliver (2 : U8) a), .op (.deliver (2 : U8) c), .op (.send 1), .op (.deliver (3 : U8) b), .op (.complete 1),
          .op (.complete 0), .tick (1 : Nat), .op (.deliver (3 : U8) d), .op (.send 0), .op (.complete 1), .op (.send 0),
          .op (.complete 0), .tick (2 : Nat)] with
    | .ok st => .ok (s, st)
    | .error e => .error e
  | _, _, _, _, _ => .error (.user 3)

/-- The hypotheses of the theorems are met by this run. -/
example : ∃ (s₀ : Session (demo false 2).wrap) (rep : Report (demo false 2).wrap) (res : Nat),
    Session.new (sp := toy) (0 : Nat) [9] (1 : U8) (demoEntry false 2 (BSet.ofList [1, 2, 3])) = .ok s₀ ∧
      ParReach s₀ (.done (.ok rep)) ∧ rep.outcome = .result res ∧ res = 48 := by
  have h : onOk c60Run (fun r => r.2.isReport (fun rep => rep.outcome.resultIs (fun n : Nat => n == 48))) = true := by
    decide +kernel
  obtain ⟨⟨s₀, st⟩, h0, h1⟩ := onOk_iff.1 h
  have key : demoSession false 2 [1, 2, 3] 1 = .ok s₀ ∧ ParReach s₀ st := by
    unfold c60Run at h0
    split at h0
    · rename_i s _ a _ b _ c _ d hs _ _ _ _
      split at h0
      · rename_i st' he
        simp only [Except.ok.injEq, Prod.mk.injEq] at h0
        obtain ⟨rfl, rfl⟩ := h0
        exact ⟨hs, parEvents_reach (.start _) he⟩
      · simp at h0
    · simp at h0
  cases st with
  | running s u => simp [ParState.isReport] at h1
  | done r =>
    cases r with
    | error e => simp [ParState.isReport] at h1
    | ok rep =>
      obtain ⟨res, h2, h3⟩ := resultIs_iff.1 h1
      exact ⟨s₀, rep, res, key.1, key.2, h2, beq_iff_eq.1 h3⟩

end Manul
