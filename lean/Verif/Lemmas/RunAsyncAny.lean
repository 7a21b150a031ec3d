import Verif.Lemmas.RunAsync

/-! # `run_async` of an arbitrary group of parties, as long as the dispatcher has not failed -/

namespace Manul

variable {sp : SP} {P : Proto sp} {g : Group P}

/-- The state of `run_async` and the state of the network. -/
structure AsyncAny (g : Group P) (x : Async P) (n : Net P) : Prop where
  reach : NetReach g n
  node : x.node = n.node
  wire : n.wire.Perm (x.flight g)
  party : ∀ i st, x.node i = some st → g.parties.contains i = true
  sends : ∀ i, x.outbox i ≠ [] → ∃ s a, x.node i = some (.running s a)
  inbox : ∀ i p, p ∈ x.inbox i → p.dest = i
  ended : x.disp = .returned → x.AllDone g ∧ x.chan = []

theorem AsyncAny.init : AsyncAny g Async.init Net.init where
  reach := .init
  node := rfl
  wire := by simp [Net.init, Async.init, Async.flight, Async.outgoing, Async.incoming, Dispatcher.held]
  party := by simp [Async.init]
  sends := by simp [Async.init]
  inbox := by simp [Async.init]
  ended := by simp [Async.init]

theorem DispatchStep.returns {x y : Async P} (hs : DispatchStep g x y) (hy : y.disp = .returned) : y.chan = [] := by
  cases hs with
  | close _ hc _ => exact hc
  | recv => simp at hy
  | noChannel => simp at hy
  | dropped => simp at hy
  | drain => simp at hy
  | drained => simp at hy
  | emptied => simp at hy
  | pick => simp at hy
  | send => simp at hy
  | poll => simp at hy
  | polled => simp at hy

/-- A dispatcher that has ended makes no step. -/
theorem DispatchStep.going {x y : Async P} (hs : DispatchStep g x y) : ¬ x.Ended := by
  unfold Async.Ended
  cases hs with
  | close h => rw [h]; simp
  | recv h => rw [h]; simp
  | noChannel h => rw [h]; simp
  | dropped h => rw [h]; simp
  | drain h => rw [h]; simp
  | drained h => rw [h]; simp
  | emptied h => rw [h]; simp
  | pick h => rw [h]; simp
  | send h => rw [h]; simp
  | poll h => rw [h]; simp
  | polled h => rw [h]; simp

theorem AsyncAny.dispatch {x x' : Async P} {n : Net P} (h : AsyncAny g x n) (hs : DispatchStep g x x') (hf : x'.disp ≠ .failed) :
    AsyncAny g x' n := by
  obtain ⟨e1, e2, -, e4, e5, e6, -⟩ := hs.effect_of hf
  refine ⟨h.reach, by rw [e1]; exact h.node, h.wire.trans e4.symm, by rw [e1]; exact h.party, by rw [e1, e2]; exact h.sends, ?_, ?_⟩
  · intro i p hp
    rcases e5 i p hp with h1 | h1
    · exact h.inbox i p h1
    · exact h1
  · intro hr
    have := e6 hr
    unfold Async.AllDone at this ⊢
    rw [e1]
    exact ⟨this, hs.returns hr⟩

theorem AsyncAny.act {x : Async P} {n : Net P} (h : AsyncAny g x n) {i : sp.Id} (hi : g.parties.contains i = true)
    (hout : x.outbox i = []) {st : RunState P} {out : List (Message sp)} (hnd : ∀ r, x.node i ≠ some (.done r))
    (hst : out ≠ [] → ∃ s a, st = .running s a) (hs : NetStep g n (n.put i st out)) :
    AsyncAny g (x.put i st out) (n.put i st out) := by
  classical
  obtain ⟨h1, h2, h3, hp, h4, h5, h7⟩ := h
  obtain ⟨rest, e1, e2⟩ := x.outgoing_split g hi
  have e3 := e2 (x.put i st out) out rfl
  rw [hout] at e1
  refine ⟨.step h1 hs, by simp [Async.put, Net.put, h2], ?_, ?_, ?_, h5, ?_⟩
  · rw [List.perm_iff_count]
    intro a
    have h9 := h3.count_eq a
    have h10 := e1.count_eq a
    have h11 := e3.count_eq a
    rw [show packetOf i = (fun m : Message sp => (⟨i, m.destination, m⟩ : Packet sp)) from rfl] at h11
    simp only [Async.flight, Net.put, Async.put, List.map_nil, List.nil_append, List.count_append, Async.incoming] at h9 h10 h11 ⊢
    omega
  · intro j st' hj
    by_cases hji : j = i
    · subst hji
      exact hi
    · simp only [Async.put, Function.update_of_ne hji] at hj
      exact hp j st' hj
  · intro j hj
    by_cases hji : j = i
    · subst hji
      simp only [Async.put, Function.update_self] at hj ⊢
      obtain ⟨s, a, rfl⟩ := hst hj
      exact ⟨s, a, rfl⟩
    · simp only [Async.put, Function.update_of_ne hji] at hj ⊢
      exact h4 j hj
  · intro hr
    obtain ⟨r, hr⟩ := (h7 hr).1 i hi
    exact absurd hr (hnd r)

theorem AsyncAny.take {x : Async P} {n : Net P} (h : AsyncAny g x n) {i : sp.Id} {p : Packet sp} {ps : List (Packet sp)}
    (hin : x.inbox i = p :: ps) (hout : x.outbox i = []) {st st' : RunState P} (hn : x.node i = some st)
    (hs : Manul.step st (.deliver p.src p.message) = some (st', [])) :
    ∃ n', AsyncAny g (Async.put { x with inbox := Function.update x.inbox i ps } i st' []) n' := by
  classical
  have hi := h.party _ _ hn
  obtain ⟨h1, h2, h3, hpt, h4, h5, h7⟩ := h
  have hd : p.dest = i := h5 i p (by rw [hin]; simp)
  obtain ⟨rest, e1, e2⟩ := x.incoming_split g hi
  have e3 := e2 (Async.put { x with inbox := Function.update x.inbox i ps } i st' []) ps rfl
  obtain ⟨rest', g1, g2⟩ := x.outgoing_split g hi
  have g3 := g2 (Async.put { x with inbox := Function.update x.inbox i ps } i st' []) [] rfl
  rw [hin] at e1
  rw [hout] at g1
  have hp : p ∈ n.wire := by
    rw [h3.mem_iff]
    simp only [Async.flight, List.mem_append]
    right
    rw [e1.mem_iff]
    simp
  obtain ⟨w, w', hw⟩ := List.append_of_mem hp
  subst hd
  refine ⟨Net.put ⟨n.node, w ++ w'⟩ p.dest st' [], .step h1 (.deliver hw (by rw [← h2]; exact hn) hs), by simp [Async.put, Net.put, h2],
    ?_, ?_, ?_, ?_, ?_⟩
  · rw [List.perm_iff_count]
    intro a
    have h9 := h3.count_eq a
    have h10 := e1.count_eq a
    have h11 := e3.count_eq a
    have h12 := g1.count_eq a
    have h13 := g3.count_eq a
    rw [hw] at h9
    simp only [Async.flight, Net.put, Async.put, List.map_nil, List.nil_append, List.append_nil, List.cons_append, List.count_append,
      List.count_cons] at h9 h10 h11 h12 h13 ⊢
    omega
  · intro j st'' hj
    by_cases hji : j = p.dest
    · subst hji
      exact hi
    · simp only [Async.put, Function.update_of_ne hji] at hj
      exact hpt j st'' hj
  · intro j hj
    by_cases hji : j = p.dest
    · subst hji
      simp [Async.put] at hj
    · simp only [Async.put, Function.update_of_ne hji] at hj ⊢
      exact h4 j hj
  · intro j q hq
    by_cases hji : j = p.dest
    · subst hji
      simp only [Async.put, Function.update_self] at hq
      exact h5 _ _ (by rw [hin]; exact List.mem_cons_of_mem _ hq)
    · simp only [Async.put, Function.update_of_ne hji] at hq
      exact h5 _ _ hq
  · intro hr
    obtain ⟨r, hr⟩ := (h7 hr).1 _ hi
    rw [hn] at hr
    exact absurd (Option.some.inj hr) (step_running' hs r)

theorem AsyncAny.not_ended {x : Async P} {n : Net P} (h : AsyncAny g x n) (hf : x.disp ≠ .failed) {i : sp.Id}
    {s : Session P} {a : Accum P} (hn : x.node i = some (.running s a)) : ¬ x.Ended := by
  rintro (he | he)
  · obtain ⟨r, hr⟩ := (h.ended he).1 i (h.party _ _ hn)
    rw [hn] at hr
    cases hr
  · exact hf he

/-- As long as the dispatcher does not fail, a step of `run_async` is a step of the network, or does not show there. -/
theorem AsyncAny.step {x x' : Async P} {n : Net P} (h : AsyncAny g x n) (hf : x.disp ≠ .failed) (hs : AsyncStep g x x')
    (hf' : x'.disp ≠ .failed) : ∃ n', AsyncAny g x' n' := by
  classical
  cases hs with
  | @start i rng rng' hi hn =>
    have hout : x.outbox i = [] := by
      by_contra hc
      obtain ⟨s, a, h1⟩ := h.sends i hc
      rw [hn] at h1
      cases h1
    exact ⟨_, h.act hi hout (by rw [hn]; simp) startNode_out (.start rng rng' hi (by rw [← h.node]; exact hn))⟩
  | @push i m ms hout hlen hne =>
    obtain ⟨s, a, hn⟩ := h.sends i (by rw [hout]; simp)
    have hi := h.party _ _ hn
    obtain ⟨rest, e1, e2⟩ := x.outgoing_split g hi
    have e3 := e2 { x with outbox := Function.update x.outbox i ms, chan := x.chan ++ [⟨i, m.destination, m⟩] } ms rfl
    rw [hout] at e1
    obtain ⟨h1, h2, h3, hp, h4, h5, h7⟩ := h
    refine ⟨n, h1, h2, ?_, hp, ?_, h5, ?_⟩
    · rw [List.perm_iff_count]
      intro a
      have h9 := h3.count_eq a
      have h10 := e1.count_eq a
      have h11 := e3.count_eq a
      simp only [Async.flight, packetOf, List.map_cons, List.cons_append, List.count_append, List.count_cons, List.count_nil,
        Async.incoming] at h9 h10 h11 ⊢
      omega
    · intro j hj
      by_cases hji : j = i
      · subst hji
        exact ⟨s, a, hn⟩
      · simp only [Function.update_of_ne hji] at hj
        exact h4 j hj
    · intro hr
      exact absurd (Or.inl hr) hne
  | @pushErr i m ms hout he =>
    obtain ⟨s, a, hn⟩ := h.sends i (by rw [hout]; simp)
    exact (h.not_ended hf hn he).elim
  | @tick i st st' rng out hn hout hst =>
    exact ⟨_, h.act (h.party _ _ hn) hout (by rw [hn]; intro r hr; exact step_running' hst r (Option.some.inj hr)) (step_out hst)
      (.tick (by rw [← h.node]; exact hn) hst)⟩
  | @recv i st st' p ps out hn hout hin hst =>
    cases step_deliver_out hst
    exact h.take hin hout hn hst
  | @closed i st st' out hn hout hin he hst =>
    cases st with
    | done r => exact absurd rfl (step_running' hst r)
    | running s a => exact (h.not_ended hf hn he).elim
  | dispatch hd => exact ⟨_, h.dispatch hd hf'⟩

/-- The dispatcher fails for good. -/
theorem AsyncStep.stays_failed {x x' : Async P} (hs : AsyncStep g x x') (hf : x.disp = .failed) : x'.disp = .failed := by
  cases hs with
  | dispatch hd => exact absurd (Or.inr hf) hd.going
  | start => exact hf
  | push => exact hf
  | pushErr => exact hf
  | tick => exact hf
  | recv => exact hf
  | closed => exact hf

theorem AsyncAny.of {k : Nat} {x : Async P} (h : AsyncTakes g k x) (hf : x.disp ≠ .failed) : ∃ n, AsyncAny g x n := by
  induction h with
  | init => exact ⟨_, AsyncAny.init⟩
  | step _ hs ih =>
    have hf0 := fun h0 => hf (hs.stays_failed h0)
    obtain ⟨n, h⟩ := ih hf0
    exact h.step hf0 hs hf

/-- Whether a party has returned stays so. -/
theorem AsyncStep.stays_done {x x' : Async P} (hs : AsyncStep g x x') {i : sp.Id} (hi : ∃ r, x.node i = some (.done r)) :
    ∃ r, x'.node i = some (.done r) := by
  obtain ⟨r, hi⟩ := hi
  have hput : ∀ {y : Async P} {j : sp.Id} {st : RunState P} {out : List (Message sp)}, y.node i = some (.done r) →
      (j = i → ∃ r, st = .done r) → ∃ r, (y.put j st out).node i = some (.done r) := by
    intro y j st out hy hj
    by_cases hji : i = j
    · subst hji
      obtain ⟨r', rfl⟩ := hj rfl
      exact ⟨r', by simp [Async.put]⟩
    · exact ⟨r, by simp [Async.put, Function.update_of_ne hji, hy]⟩
  cases hs with
  | start _ _ _ hn => exact hput hi (by rintro rfl; rw [hi] at hn; cases hn)
  | push => exact ⟨r, hi⟩
  | pushErr => exact hput hi (fun _ => ⟨_, rfl⟩)
  | tick hn _ hst =>
    exact hput hi (by rintro rfl; rw [hi] at hn; cases hn; exact absurd rfl (step_running' hst r))
  | @recv j st st' p ps out hn _ _ hst =>
    exact hput (y := { x with inbox := Function.update x.inbox j ps }) hi
      (by rintro rfl; rw [hi] at hn; cases hn; exact absurd rfl (step_running' hst r))
  | closed hn _ _ _ hst =>
    exact hput hi (by rintro rfl; rw [hi] at hn; cases hn; exact absurd rfl (step_running' hst r))
  | dispatch hd => cases hd <;> exact ⟨r, hi⟩

end Manul
