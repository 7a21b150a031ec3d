import Verif.Lemmas.MixNet
import Verif.Props.ParNet

/-!
# Honest executions of parties using either driver (C90)

Every party follows a cooperative protocol (`Scheme.Cooperative`) and uses `run_session` or `par_run_session` as it likes.
-/

namespace Manul

variable {sp : SP} {P : Proto sp} {sc : Scheme P} {par : sp.Id → Bool}

/-- Nothing is recorded against anybody, and the run has not failed. -/
def MixClean : MixState P → Prop
  | .seq (.running s b) => (∀ x, ¬ HasError s b x) ∧ s.transcript.missing.isEmpty = true
  | .par (.running s st) => (∀ x, ¬ HasError s st.accum x) ∧ s.transcript.missing.isEmpty = true
  | .seq (.done r) | .par (.done r) => ∃ rep v, r = .ok rep ∧ rep.outcome = .result v ∧ rep.provable.isEmpty = true ∧
      rep.unprovable.isEmpty = true ∧ rep.missing.isEmpty = true

private theorem embed_report {m : MixNet P} {i : sp.Id} {r : Except LErr (Report P)} :
    m.embed.node i = some (.done r) ↔ ∃ st, m.node i = some st ∧ st.report = some r := by
  simp only [MixNet.embed, Option.map_eq_some_iff]
  constructor
  · rintro ⟨st, h1, h2⟩
    refine ⟨st, h1, ?_⟩
    rcases st with (⟨s, b⟩ | r') | (⟨s, st'⟩ | r') <;> simp_all [MixState.embed, MixState.report]
  · rintro ⟨st, h1, h2⟩
    refine ⟨st, h1, ?_⟩
    rcases st with (⟨s, b⟩ | r') | (⟨s, st'⟩ | r') <;> simp_all [MixState.embed, MixState.report]

/-- **C90.**  Nobody ever records an error, misses a message or fails. -/
theorem C90_no_errors (ok : sc.Ok) {k : Nat} {m : MixNet P} (h : MixTakes sc.g par k m) {i : sp.Id} {st : MixState P}
    (hn : m.node i = some st) : MixClean st := by
  obtain ⟨L, e, f, n, hpn⟩ := ParNet.mix ok h
  have h1 := hpn.clean (i := i) (st := st.embed) (by simp [MixNet.embed, hn])
  rcases st with (⟨s, b⟩ | r') | (⟨s, st'⟩ | r') <;> exact h1

/-- **C90.**  If nothing more can happen, everybody has returned a result. -/
theorem C90_finishes (rng : sp.Rng) (ok : sc.Ok) {k : Nat} {m : MixNet P} (h : MixTakes sc.g par k m)
    (hstuck : ∀ m', ¬ MixStep sc.g par m m') {i : sp.Id} (hi : sc.g.parties.contains i = true) :
    ∃ st rep v, m.node i = some st ∧ st.report = some (.ok rep) ∧ rep.outcome = .result v ∧ rep.provable.isEmpty = true ∧
      rep.unprovable.isEmpty = true ∧ rep.missing.isEmpty = true := by
  obtain ⟨L, e, f, n, hpn⟩ := ParNet.mix ok h
  obtain ⟨r, hr⟩ := hpn.stuck rng ok (mix_stuck hstuck) hi
  obtain ⟨rep, v, rfl, h1⟩ := hpn.inv.clean hr
  have hsim := hpn.node i
  rw [hr] at hsim
  generalize hz : m.embed.node i = z at hsim
  cases hsim
  obtain ⟨st, h2, h3⟩ := embed_report.1 hz
  exact ⟨st, rep, v, h2, h3, h1⟩

/-- **C90.**  The network comes to an end: there is a bound for the number of steps, those of the tasks included. -/
theorem C90_terminates (ok : sc.Ok) {k : Nat} {m : MixNet P} (h : MixTakes sc.g par k m) :
    k ≤ sc.g.parties.elems.length * ((4 * sc.g.parties.elems.length + 1) * (4 * sc.n)) := by
  obtain ⟨L, e, f, n, hpn⟩ := ParNet.mix ok h
  have := hpn.steps
  have h1 : sc.size = sc.g.parties.elems.length := rfl
  rw [h1] at this
  omega

/-- **C90.**  The results are those of an execution of the protocol in which everybody follows it. -/
theorem C90_results (ok : sc.Ok) {k : Nat} {m : MixNet P} (h : MixTakes sc.g par k m) :
    ∃ G : History P, Honest sc.g G ∧ ∀ i st rep, m.node i = some st → st.report = some (.ok rep) →
      (G i).length = sc.n ∧ ∃ v rng, rep.outcome = .result v ∧ Finalizes G i rng (.result v) := by
  obtain ⟨L, e, f, n, hpn⟩ := ParNet.mix ok h
  refine ⟨L.history, hpn.inv.ledger.honest, ?_⟩
  intro i st rep hn hrep
  have hsim := hpn.node i
  rw [embed_report.2 ⟨st, hn, hrep⟩] at hsim
  generalize hn' : n.node i = z at hsim
  cases hsim
  obtain ⟨-, -, ⟨rep', v, h1, h2, -, -, -, rng, h3⟩, h4⟩ := hpn.inv.done i _ hn'
  simp only [Except.ok.injEq] at h1
  subst h1
  exact ⟨by simp [Ledger.history, h4], v, rng, h2, h3⟩

/-- **C90.**  Every partial execution can be continued until everybody has finished. -/
theorem C90_completes (rng : sp.Rng) (ok : sc.Ok) {k : Nat} {m : MixNet P} (h : MixTakes sc.g par k m) :
    ∃ k' m', MixTakes sc.g par k' m' ∧ Relation.ReflTransGen (MixStep sc.g par) m m' ∧ ∀ i, sc.g.parties.contains i = true →
      ∃ st rep v, m'.node i = some st ∧ st.report = some (.ok rep) ∧ rep.outcome = .result v := by
  have hb := C90_terminates ok h
  generalize hq : sc.g.parties.elems.length * ((4 * sc.g.parties.elems.length + 1) * (4 * sc.n)) - k = q
  induction q generalizing k m with
  | zero =>
    refine ⟨k, m, h, .refl, fun i hi => ?_⟩
    obtain ⟨st, rep, v, h1, h2, h3, -⟩ := C90_finishes rng ok h (fun m' hm => by
      have := C90_terminates ok (.step h hm)
      omega) hi
    exact ⟨st, rep, v, h1, h2, h3⟩
  | succ q ih =>
    by_cases hs : ∃ m', MixStep sc.g par m m'
    · obtain ⟨m', hm⟩ := hs
      obtain ⟨k'', m'', h0, h1, h2⟩ := ih (.step h hm) (C90_terminates ok (.step h hm)) (by omega)
      exact ⟨k'', m'', h0, .head hm h1, h2⟩
    · refine ⟨k, m, h, .refl, fun i hi => ?_⟩
      obtain ⟨st, rep, v, h1, h2, h3, -⟩ := C90_finishes rng ok h (fun m' hm => hs ⟨m', hm⟩) hi
      exact ⟨st, rep, v, h1, h2, h3⟩

/-- **C90.**  Only members of the group take part, and each uses the driver it has chosen. -/
theorem C90_driver {g : Group P} {k : Nat} {m : MixNet P} (h : MixTakes g par k m) (i : sp.Id) :
    (∀ st, m.node i = some (.seq st) → g.parties.contains i = true ∧ par i = false) ∧
      ∀ st, m.node i = some (.par st) → g.parties.contains i = true ∧ par i = true := by
  classical
  induction h generalizing i with
  | init => simp [MixNet.init]
  | @step k n n' _ hs hold =>
    have ih := hold i
    have key : ∀ {w : List (Packet sp)} {j : sp.Id} {z : MixState P} {out : List (Message sp)},
        ((∀ st, z = .seq st → g.parties.contains j = true ∧ par j = false) ∧
          ∀ st, z = .par st → g.parties.contains j = true ∧ par j = true) →
        (∀ st, (MixNet.put ⟨n.node, w⟩ j z out).node i = some (.seq st) → g.parties.contains i = true ∧ par i = false) ∧
          ∀ st, (MixNet.put ⟨n.node, w⟩ j z out).node i = some (.par st) → g.parties.contains i = true ∧ par i = true := by
      intro w j z out hz
      by_cases hj : i = j
      · subst hj
        simp only [MixNet.put, Function.update_self, Option.some.injEq]
        exact hz
      · simp only [MixNet.put, Function.update_of_ne hj]
        exact ih
    cases hs with
    | startSeq rng rng' hi hp hn => exact key ⟨fun _ _ => ⟨hi, hp⟩, fun _ h => by cases h⟩
    | tickSeq hn hst => exact key ⟨fun _ _ => hold _ |>.1 _ hn, fun _ h => by cases h⟩
    | deliverSeq hw hn hst => exact key ⟨fun _ _ => hold _ |>.1 _ hn, fun _ h => by cases h⟩
    | startPar rng rng' hi hp hn => exact key ⟨fun _ h => (by cases h), fun _ _ => ⟨hi, hp⟩⟩
    | tickPar hn hst => exact key ⟨fun _ h => (by cases h), fun _ _ => hold _ |>.2 _ hn⟩
    | task hn ho hst => exact key ⟨fun _ h => (by cases h), fun _ _ => hold _ |>.2 _ hn⟩
    | deliverPar hw hn hst => exact key ⟨fun _ h => (by cases h), fun _ _ => hold _ |>.2 _ hn⟩

theorem seq_put (n : Net P) (i : sp.Id) (st : RunState P) (out : List (Message sp)) :
    (⟨fun j => ((n.put i st out).node j).map .seq, (n.put i st out).wire⟩ : MixNet P) =
      MixNet.put ⟨fun j => (n.node j).map .seq, n.wire⟩ i (.seq st) out := by
  unfold MixNet.put Net.put
  congr 1
  funext j
  by_cases hj : j = i
  · subst hj
    simp
  · simp [Function.update_of_ne hj]

theorem par_put (n : PNet P) (i : sp.Id) (st : ParState P) (out : List (Message sp)) :
    (⟨fun j => ((n.put i st out).node j).map .par, (n.put i st out).wire⟩ : MixNet P) =
      MixNet.put ⟨fun j => (n.node j).map .par, n.wire⟩ i (.par st) out := by
  unfold MixNet.put PNet.put
  congr 1
  funext j
  by_cases hj : j = i
  · subst hj
    simp
  · simp [Function.update_of_ne hj]

/-- **C90.**  If nobody uses `par_run_session`, this is the network of C41. -/
theorem C90_sequential (g : Group P) (k : Nat) (m : MixNet P) :
    MixTakes g (fun _ => false) k m ↔ ∃ n, NetTakes g k n ∧ m = ⟨fun i => (n.node i).map .seq, n.wire⟩ := by
  constructor
  · intro h
    induction h with
    | init => exact ⟨_, .init, rfl⟩
    | @step k m m' _ hs ih =>
      obtain ⟨n, hn, rfl⟩ := ih
      cases hs with
      | startSeq rng rng' hi hp h1 => exact ⟨_, .step hn (.start rng rng' hi (by simpa using h1)), (seq_put ..).symm⟩
      | tickSeq h1 hst => exact ⟨_, .step hn (.tick (by simpa using h1) hst), (seq_put ..).symm⟩
      | @deliverSeq st st' p w w' out hw h1 hst =>
        exact ⟨_, .step hn (.deliver hw (by simpa using h1) hst), (seq_put ⟨n.node, w ++ w'⟩ ..).symm⟩
      | startPar rng rng' hi hp h1 => cases hp
      | tickPar h1 hst => simp at h1
      | task h1 ho hst => simp at h1
      | deliverPar hw h1 hst => simp at h1
  · rintro ⟨n, h, rfl⟩
    induction h with
    | init => exact .init
    | @step k n n' _ hs ih =>
      cases hs with
      | start rng rng' hi h1 =>
        rw [seq_put]
        exact ih.step (.startSeq rng rng' hi rfl (by simp [h1]))
      | tick h1 hst =>
        rw [seq_put]
        exact ih.step (.tickSeq (by simp [h1]) hst)
      | @deliver st st' p w w' out hw h1 hst =>
        rw [seq_put]
        exact ih.step (.deliverSeq hw (by simp [h1]) hst)

/-- **C90.**  If everybody uses `par_run_session`, this is the network of C61. -/
theorem C90_parallel (g : Group P) (k : Nat) (m : MixNet P) :
    MixTakes g (fun _ => true) k m ↔ ∃ n, PNetTakes g k n ∧ m = ⟨fun i => (n.node i).map .par, n.wire⟩ := by
  constructor
  · intro h
    induction h with
    | init => exact ⟨_, .init, rfl⟩
    | @step k m m' _ hs ih =>
      obtain ⟨n, hn, rfl⟩ := ih
      cases hs with
      | startPar rng rng' hi hp h1 => exact ⟨_, .step hn (.start rng rng' hi (by simpa using h1)), (par_put ..).symm⟩
      | tickPar h1 hst => exact ⟨_, .step hn (.tick (by simpa using h1) hst), (par_put ..).symm⟩
      | task h1 ho hst => exact ⟨_, .step hn (.task (by simpa using h1) ho hst), (par_put ..).symm⟩
      | @deliverPar s st st' p w w' hw h1 hst =>
        exact ⟨_, .step hn (.deliver hw (by simpa using h1) hst), (par_put ⟨n.node, w ++ w'⟩ ..).symm⟩
      | startSeq rng rng' hi hp h1 => cases hp
      | tickSeq h1 hst => simp at h1
      | deliverSeq hw h1 hst => simp at h1
  · rintro ⟨n, h, rfl⟩
    induction h with
    | init => exact .init
    | @step k n n' _ hs ih =>
      cases hs with
      | start rng rng' hi h1 =>
        rw [par_put]
        exact ih.step (.startPar rng rng' hi rfl (by simp [h1]))
      | tick h1 hst =>
        rw [par_put]
        exact ih.step (.tickPar (by simp [h1]) hst)
      | task h1 ho hst =>
        rw [par_put]
        exact ih.step (.task (by simp [h1]) ho hst)
      | @deliver s st st' p w w' hw h1 hst =>
        rw [par_put]
        exact ih.step (.deliverPar hw (by simp [h1]) hst)

/-! ### Example -/

/-- Three parties executing seven rounds with echo broadcasts, one of them using `par_run_session`, can come to an end, and do. -/
example : ∃ (k : Nat) (m : MixNet (demo true 7).wrap),
    MixTakes (demoPlan true 7 (BSet.ofList [1, 2, 3])).g (fun i => (show U8 from i) == 2) k m ∧
    ∀ i, (BSet.ofList [1, 2, 3] : BSet U8).contains i = true →
      ∃ st rep v, m.node i = some st ∧ st.report = some (.ok rep) ∧ rep.outcome = .result v := by
  obtain ⟨k, m, h1, -, h2⟩ := C90_completes (par := fun i => (show U8 from i) == 2) (0 : Nat) (demo_ok true 7 (by decide)).scheme .init
  exact ⟨k, m, h1, h2⟩

end Manul
