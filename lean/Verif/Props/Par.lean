import Verif.Lemmas.Par
import Verif.Lemmas.Scenario

/-!
# The parallel driver: C15, C42, C43
-/

namespace Manul

variable {sp : SP} {P : Proto sp}

/-! ## C15 -/

/-- The messages of a round (those cached earlier and those arriving now) come from distinct senders. -/
def DistinctSenders (cached : List (VerifiedMessage sp)) (l : List (sp.Id × Message sp)) : Prop :=
  (cached.map (fun m => m.sender) ++ l.map Prod.fst).Nodup

/-- C15: whatever the interleaving of arrivals, processing results and created messages, once every message has been processed
and the tasks are joined, the accumulator is the one of the sequential driver receiving the same messages. -/
theorem C15_parallel_equals_sequential {s : Session P} {rng : sp.Rng} {cached : List (VerifiedMessage sp)}
    {ops : List (ParOp sp)} {st : ParSt P} {b : Accum P} (hd : DistinctSenders cached (parDeliveries ops))
    (hrun : ParRound s rng cached ops st) (hdone : st.tasks = []) (hjoin : parJoin st = .ok b) :
    SeqRound s rng cached (parDeliveries ops) b := by
  have hi := inv_run (l := []) (inv_begin (rng := rng) (List.nodup_append.1 hd).1) (by simpa [DistinctSenders] using hd) hrun
  rw [List.nil_append] at hi
  rw [seqRound_loc]
  obtain ⟨h1, h2⟩ := parJoin_loc.1 hjoin
  refine ⟨h1.trans hi.expecting, fun x => ?_⟩
  rw [← hi.same]
  refine ⟨st.accum.loc x, ?_, h2 x⟩
  rw [hdone]
  rfl

/-- C15, the other direction: if the sequential driver gets through the messages, then the parallel driver does under every
interleaving, and with the same result once every message has been processed. -/
theorem C15_sequential_equals_parallel {s : Session P} {rng : sp.Rng} {cached : List (VerifiedMessage sp)}
    {ops : List (ParOp sp)} {b : Accum P} (hd : DistinctSenders cached (parDeliveries ops))
    (hseq : SeqRound s rng cached (parDeliveries ops) b) :
    ∃ st, ParRound s rng cached ops st ∧ (st.tasks = [] → parJoin st = .ok b) := by
  have h0 : ParInv s rng cached [] (ParSt.begin s rng cached) := inv_begin (List.nodup_append.1 hd).1
  rw [seqRound_loc] at hseq
  obtain ⟨st, hst⟩ := run_succeeds (ops := ops) h0 (by simpa [DistinctSenders] using hd) (fun x => ⟨b.loc x, by simpa using hseq.2 x⟩)
  refine ⟨st, hst, fun hdone => ?_⟩
  have hi := inv_run h0 (by simpa [DistinctSenders] using hd) hst
  rw [List.nil_append] at hi
  rw [parJoin_loc]
  refine ⟨hseq.1.trans hi.expecting.symm, fun x => ?_⟩
  obtain ⟨u, hu, hr⟩ := (hi.same x (b.loc x)).2 (hseq.2 x)
  rw [hdone] at hu
  simp only [List.filter_nil, foldE, Except.ok.injEq] at hu
  subst hu
  exact hr

/-- C15: a schedule can always be completed: appending the completion of every outstanding task leaves none.  (So the
hypothesis `tasks = []` can be met from every state the schedule has reached.) -/
theorem C15_completion {s : Session P} {rng : sp.Rng} {cached : List (VerifiedMessage sp)}
    {ops : List (ParOp sp)} {b : Accum P} (hd : DistinctSenders cached (parDeliveries ops))
    (hseq : SeqRound s rng cached (parDeliveries ops) b) :
    ∃ n st, ParRound s rng cached (ops ++ List.replicate n (.complete 0)) st ∧ st.tasks = [] ∧ parJoin st = .ok b := by
  obtain ⟨st0, h0, -⟩ := C15_sequential_equals_parallel hd hseq
  have hpd : ∀ n, parDeliveries (ops ++ List.replicate n (.complete 0 : ParOp sp)) = parDeliveries ops := by
    intro n
    rw [parDeliveries_append]
    have : parDeliveries (List.replicate n (.complete 0 : ParOp sp)) = [] := by
      induction n with
      | zero => rfl
      | succ n ih => simpa [List.replicate_succ, parDeliveries] using ih
    simp [this]
  obtain ⟨st, hst, hj⟩ := C15_sequential_equals_parallel (ops := ops ++ List.replicate st0.tasks.length (.complete 0))
    (by rw [hpd]; exact hd) (by rw [hpd]; exact hseq)
  have hempty : st.tasks = [] := by
    have key : ∀ (n : Nat) (u v : ParSt P), foldE (parOp s) u (List.replicate n (.complete 0)) = .ok v →
        u.tasks.length = n → v.tasks = [] := by
      intro n
      induction n with
      | zero =>
        intro u v h hl
        simp only [List.replicate_zero, foldE, Except.ok.injEq] at h
        subst h
        exact List.length_eq_zero_iff.1 hl
      | succ n ih =>
        intro u v h hl
        simp only [List.replicate_succ, foldE] at h
        cases ho : parOp s u (.complete 0) with
        | error e => simp [ho] at h
        | ok u1 =>
          simp only [ho] at h
          refine ih u1 v h ?_
          simp only [parOp] at ho
          cases ht : u.tasks with
          | nil => simp [ht] at hl
          | cons t ts =>
            simp only [ht, List.getElem?_cons_zero] at ho
            cases ha : s.addProcessed u.accum (s.process t) with
            | error e => simp [ha] at ho
            | ok a =>
              simp only [ha, Except.ok.injEq] at ho
              subst ho
              simp only [List.eraseIdx_cons_zero]
              simpa [ht] using hl
    unfold ParRound at hst h0
    obtain ⟨u, h1, h2⟩ := (foldE_append _ _ _ _ _).1 hst
    rw [h0] at h1
    simp only [Except.ok.injEq] at h1
    subst h1
    exact key _ _ _ h2 rfl
  exact ⟨_, st, hst, hempty, hj hempty⟩

/-- A schedule in which the results arrive in the opposite order of the messages. -/
def c15Ops : Except LErr (Session (demo true 3).wrap × List (ParOp toy)) :=
  match demoSession true 3 [1, 2, 3] 1, Sent.message { sender := 2, signer := 2 }, Sent.message { sender := 3, signer := 3 } with
  | .ok s, .ok (_, m2), .ok (_, m3) =>
    .ok (s, [.deliver (2 : U8) m2, .send 1, .deliver (3 : U8) m3, .complete 1, .complete 0])
  | _, _, _ => .error (.user 0)

/-- The hypotheses of C15 are met by such a schedule, and it leads to `Yes`. -/
example : ∃ (s : Session (demo true 3).wrap) (ops : List (ParOp toy)) (st : ParSt (demo true 3).wrap)
    (b : Accum (demo true 3).wrap), ParRound s (0 : Nat) [] ops st ∧ st.tasks = [] ∧ parJoin st = .ok b ∧
      b.canFinalize = .yes ∧ (parDeliveries ops).map Prod.fst = [(2 : U8), (3 : U8)] := by
  have h : onOk c15Ops (fun r => onOk (foldE (parOp r.1) (ParSt.begin r.1 (0 : Nat) []) r.2) (fun st =>
      st.tasks.isEmpty && (onOk (parJoin st) (fun b => b.canFinalize == .yes)) &&
        decide (((parDeliveries r.2).map Prod.fst : List U8) = [(2 : U8), (3 : U8)]))) = true := by decide +kernel
  obtain ⟨⟨s, ops⟩, -, h1⟩ := onOk_iff.1 h
  obtain ⟨st, h2, h3⟩ := onOk_iff.1 h1
  simp only [Bool.and_eq_true, List.isEmpty_iff, decide_eq_true_eq] at h3
  obtain ⟨b, h4, h5⟩ := onOk_iff.1 h3.1.2
  exact ⟨s, ops, st, b, h2, h3.1.1, h4, by simpa using h5, h3.2⟩

/-! ## C42 -/

/-- No task and no host can make a move. -/
def JStuck (a : JoinSt) : Prop := ∀ b, ¬ JStep a b

/-- The host is waiting for tasks. -/
def Joining (a : JoinSt) : Prop := a.phase = .joinCreation ∨ a.phase = .joinProcessing

theorem JSteps.trans {a b c : JoinSt} (h : JSteps a b) (h' : JSteps b c) : JSteps a c := by
  induction h' with
  | refl => exact h
  | step _ hs ih => exact .step ih hs

/-- Moves of the tasks filling a channel. -/
theorem fill_out (n : Nat) {c o p q : Nat} {ph : JoinPhase} (h : o + n ≤ channelCapacity) :
    JSteps ⟨c + n, o, p, q, ph⟩ ⟨c, o + n, p, q, ph⟩ := by
  induction n generalizing o with
  | zero => exact .refl
  | succ n ih =>
    have h1 : JStep ⟨c + n + 1, o, p, q, ph⟩ ⟨c + n, o + 1, p, q, ph⟩ := .putOut (by omega)
    have h2 := ih (o := o + 1) (by omega)
    have e : o + 1 + n = o + (n + 1) := by omega
    rw [e] at h2
    exact JSteps.trans (.step .refl h1) h2

theorem fill_proc (n : Nat) {c o p q : Nat} {ph : JoinPhase} (h : q + n ≤ channelCapacity) :
    JSteps ⟨c, o, p + n, q, ph⟩ ⟨c, o, p, q + n, ph⟩ := by
  induction n generalizing q with
  | zero => exact .refl
  | succ n ih =>
    have h1 : JStep ⟨c, o, p + n + 1, q, ph⟩ ⟨c, o, p + n, q + 1, ph⟩ := .putProc (by omega)
    have h2 := ih (q := q + 1) (by omega)
    have e : q + 1 + n = q + (n + 1) := by omega
    rw [e] at h2
    exact JSteps.trans (.step .refl h1) h2

theorem channelCapacity_eq : channelCapacity = 100 := rfl

/-- C42 as stated fails: with more than 100 destinations the host can be stuck in the join for good. -/
theorem C42_deadlock_destinations_violation (n cached : Nat) (h : 100 < n) (hc : cached ≤ 100) :
    ∃ a, JSteps (.init n cached) a ∧ Joining a ∧ JStuck a := by
  have hcap := channelCapacity_eq
  refine ⟨⟨n - 100, 100, 0, cached, .joinCreation⟩, ?_, Or.inl rfl, ?_⟩
  · have h1 : JSteps (.init n cached) ⟨n, 0, cached, 0, .joinCreation⟩ := .step .refl .exit
    have h2 := fill_out 100 (c := n - 100) (o := 0) (p := cached) (q := 0)
      (ph := .joinCreation) (by omega)
    have e : n - 100 + 100 = n := by omega
    rw [e, Nat.zero_add] at h2
    have h3 := fill_proc cached (c := n - 100) (o := 100) (p := 0) (q := 0)
      (ph := .joinCreation) (by omega)
    rw [Nat.zero_add] at h3
    exact (h1.trans h2).trans h3
  · intro b hb
    generalize hx : (⟨n - 100, 100, 0, cached, .joinCreation⟩ : JoinSt) = x at hb
    cases hb <;> simp only [JoinSt.mk.injEq] at hx <;> first | omega | simp_all

/-- C42 as stated fails: with more than 100 outstanding processing tasks the host can be stuck in the join, however few
destinations there are. -/
theorem C42_deadlock_processing_violation (destinations n : Nat) (h : 100 < n)
    (hd : destinations ≤ 100) :
    ∃ a, JSteps (.init destinations n) a ∧ Joining a ∧ JStuck a := by
  have hcap := channelCapacity_eq
  refine ⟨⟨0, destinations, n - 100, 100, .joinProcessing⟩, ?_, Or.inr rfl, ?_⟩
  · have h1 : JSteps (.init destinations n) ⟨destinations, 0, n, 0, .joinCreation⟩ := .step .refl .exit
    have h2 := fill_out destinations (c := 0) (o := 0) (p := n) (q := 0) (ph := .joinCreation) (by omega)
    simp only [Nat.zero_add] at h2
    have h4 : JSteps ⟨0, destinations, n, 0, .joinCreation⟩ ⟨0, destinations, n, 0, .joinProcessing⟩ :=
      .step .refl .joinCreation
    have h3 := fill_proc 100 (c := 0) (o := destinations) (p := n - 100) (q := 0)
      (ph := .joinProcessing) (by omega)
    have e : n - 100 + 100 = n := by omega
    rw [e, Nat.zero_add] at h3
    exact ((h1.trans h2).trans h4).trans h3
  · intro b hb
    generalize hx : (⟨0, destinations, n - 100, 100, .joinProcessing⟩ : JoinSt) = x at hb
    cases hb <;> simp only [JoinSt.mk.injEq] at hx <;> first | omega | simp_all

/-- A bound on the number of moves left in the join. -/
def JoinSt.measure (a : JoinSt) : Nat :=
  a.creating + a.processing +
    match a.phase with
    | .loop => 3
    | .joinCreation => 2
    | .joinProcessing => 1
    | .joined => 0

/-- C42, the part that holds: when, at the end of the loop, at most 100 messages to send and at most 100 messages to process are
outstanding (in tasks and channels together), the join cannot get stuck and every move brings it closer to its end.  (Missing:
larger numbers, for which the statement fails.) -/
theorem C42_join_completes_partial {a b : JoinSt} (hj : Joining a) (hout : a.creating + a.outQ ≤ 100)
    (hproc : a.processing + a.procQ ≤ 100) (h : JSteps a b) :
    (b.phase = .joined ∨ Joining b ∧ ∃ c, JStep b c) ∧
      (∀ c, JStep b c → c.measure < b.measure) := by
  have hcap := channelCapacity_eq
  have inv : (b.phase = .joined ∨ Joining b) ∧ b.creating + b.outQ ≤ 100 ∧
      b.processing + b.procQ ≤ 100 := by
    induction h with
    | refl => exact ⟨Or.inr hj, hout, hproc⟩
    | step _ hs ih =>
      obtain ⟨h1, h2, h3⟩ := ih
      cases hs <;> simp_all [Joining] <;> omega
  obtain ⟨h1, h2, h3⟩ := inv
  constructor
  · rcases h1 with h1 | h1
    · exact Or.inl h1
    · right
      refine ⟨h1, ?_⟩
      obtain ⟨c, o, p, q, ph⟩ := b
      simp only [Joining] at h1
      simp only at h2 h3
      rcases h1 with rfl | rfl
      · cases c with
        | zero => exact ⟨_, .joinCreation⟩
        | succ c => exact ⟨_, .putOut (by omega)⟩
      · cases p with
        | zero => exact ⟨_, .joinProcessing⟩
        | succ p => exact ⟨_, .putProc (by omega)⟩
  · intro c hc
    have hl : b.phase ≠ .loop := by
      rcases h1 with h1 | h1 | h1 <;> rw [h1] <;> simp
    cases hc <;> simp_all [JoinSt.measure] <;> omega

/-- C42: the bound is exact.  A state of the join can reach its end if and only if the outstanding messages fit into the
channels. -/
theorem C42_exact {a : JoinSt} (hj : Joining a) (hc : a.phase = .joinProcessing → a.creating = 0)
    (ho : a.outQ ≤ 100) (hq : a.procQ ≤ 100) :
    (∃ b, JSteps a b ∧ b.phase = .joined) ↔
      a.creating + a.outQ ≤ 100 ∧ a.processing + a.procQ ≤ 100 := by
  have hcap := channelCapacity_eq
  constructor
  · rintro ⟨b, hs, hb⟩
    have inv : b.phase ≠ .loop ∧ b.creating + b.outQ = a.creating + a.outQ ∧
        b.processing + b.procQ = a.processing + a.procQ ∧ b.outQ ≤ 100 ∧ b.procQ ≤ 100 ∧
        (b.phase ≠ .joinCreation → b.creating = 0) ∧ (b.phase = .joined → b.processing = 0) := by
      clear hb
      induction hs with
      | refl =>
        refine ⟨?_, rfl, rfl, ho, hq, ?_, ?_⟩ <;> rcases hj with h | h <;> simp_all
      | step _ hs ih =>
        obtain ⟨h1, h2, h3, h4, h5, h6, h7⟩ := ih
        cases hs <;> simp_all <;> first | omega | (refine ⟨?_, ?_⟩ <;> first | omega | (intro h; simp_all))
    obtain ⟨-, h2, h3, h4, h5, h6, h7⟩ := inv
    have := h6 (by simp [hb])
    have := h7 hb
    omega
  · rintro ⟨h1, h2⟩
    obtain ⟨c, o, p, q, ph⟩ := a
    simp only at h1 h2 hc
    have f1 := fill_out c (c := 0) (o := o) (p := p) (q := q) (ph := ph) (by omega)
    have f2 := fill_proc p (c := 0) (o := o + c) (p := 0) (q := q) (ph := ph) (by omega)
    simp only [Nat.zero_add] at f1 f2
    have f3 := f1.trans f2
    rcases hj with rfl | rfl
    · exact ⟨_, .step (.step f3 .joinCreation) .joinProcessing, rfl⟩
    · exact ⟨_, .step f3 .joinProcessing, rfl⟩

/-- The join of a round with 3 destinations and 5 messages in processing completes. -/
example : ∃ a b, JSteps (.init 3 5) a ∧ Joining a ∧ JSteps a b ∧ b.phase = .joined := by
  have h1 : JSteps (.init 3 5) ⟨3, 0, 5, 0, .joinCreation⟩ := .step .refl .exit
  obtain ⟨b, hb⟩ := (C42_exact (a := ⟨3, 0, 5, 0, .joinCreation⟩) (Or.inl rfl) (by simp) (by simp) (by simp)).2
    (by simp)
  exact ⟨_, b, h1, Or.inl rfl, hb⟩

end Manul
