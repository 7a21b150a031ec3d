import Verif.Lemmas.RunAsyncAny
import Verif.Spec.RunAsyncAny
import Verif.Props.RunAsync
import Verif.Lemmas.AsyncRun

/-!
# `run_async` of arbitrary parties (C87)

Nothing is assumed here of the protocol or of the parties: they may misbehave, return early or send to strangers.
-/

namespace Manul

variable {sp : SP} {P : Proto sp} {g : Group P}

theorem holds_iff {p : Packet sp} {d : Dispatcher sp} : d.Holds p ↔ p ∈ d.held := by
  cases d <;> simp [Dispatcher.Holds, Dispatcher.held]

theorem AsyncLeads.takes {k : Nat} {x y : Async P} (h : AsyncTakes g k x) (hy : AsyncLeads g x y) : ∃ k', AsyncTakes g k' y := by
  induction hy with
  | refl => exact ⟨k, h⟩
  | step _ hs ih =>
    obtain ⟨k', h'⟩ := ih
    exact ⟨k' + 1, h'.step hs⟩

/-- **C87.**  As long as the dispatcher has not failed, the parties are in states they can be in over an asynchronous network
that loses, duplicates and makes up nothing. -/
theorem C87_refines {k : Nat} {x : Async P} (h : AsyncTakes g k x) (hf : x.disp ≠ .failed) :
    ∃ n, NetReach g n ∧ x.node = n.node ∧ n.wire.Perm (x.flight g) := by
  obtain ⟨n, hn⟩ := AsyncAny.of h hf
  exact ⟨n, hn.reach, hn.node, hn.wire⟩

/-- **C87.**  If the dispatcher fails, then in some state of the network a message is in transit to a party that has returned, or
to nobody. -/
theorem C87_fails {k : Nat} {x : Async P} (h : AsyncTakes g k x) (hf : x.disp = .failed) :
    ∃ n p, NetReach g n ∧ p ∈ n.wire ∧ Undeliverable g n.node p := by
  induction h with
  | init => simp [Async.init] at hf
  | @step k x x' hx hs ih =>
    by_cases h0 : x.disp = .failed
    · exact ih h0
    · obtain ⟨n, hn⟩ := AsyncAny.of hx h0
      cases hs with
      | dispatch hd =>
        obtain ⟨p, hp, h1⟩ := hd.fails hf
        refine ⟨n, p, hn.reach, ?_, by rw [← hn.node]; exact h1⟩
        rw [hn.wire.mem_iff]
        simp [Async.flight, hp]
      | start => exact absurd hf h0
      | push => exact absurd hf h0
      | pushErr => exact absurd hf h0
      | tick => exact absurd hf h0
      | recv => exact absurd hf h0
      | closed => exact absurd hf h0

/-- **C87.**  When the dispatcher returns, all messages that were ever made have reached the channels of their destinations, and all
parties have returned. -/
theorem C87_settled {k : Nat} {x : Async P} (h : AsyncTakes g k x) (hr : x.disp = .returned) :
    (∀ p, ¬ x.Underway p) ∧ ∀ i, g.parties.contains i = true → ∃ r, x.node i = some (.done r) := by
  obtain ⟨n, hn⟩ := AsyncAny.of h (by rw [hr]; simp)
  obtain ⟨h1, h2⟩ := hn.ended hr
  refine ⟨?_, h1⟩
  rintro p (⟨m, hm, -⟩ | hp | hp)
  · obtain ⟨s, a, h3⟩ := hn.sends p.src (List.ne_nil_of_mem hm)
    obtain ⟨r, h4⟩ := h1 _ (hn.party _ _ h3)
    rw [h3] at h4
    cases h4
  · rw [h2] at hp
    cases hp
  · rw [hr] at hp
    exact hp

theorem Dispatch_late {x y : Async P} (hs : DispatchStep g x y) {p : Packet sp} (hp : x.Underway p)
    (hu : Undeliverable g x.node p) : y.disp = .failed ∨ (y.node = x.node ∧ y.Underway p) := by
  cases hs with
  | @recv q c hd hc =>
    refine Or.inr ⟨rfl, ?_⟩
    rcases hp with hp | hp | hp
    · exact Or.inl hp
    · rw [hc, List.mem_cons] at hp
      rcases hp with hp | hp
      · exact Or.inr (Or.inr (by simp [Dispatcher.Holds, hp]))
      · exact Or.inr (Or.inl hp)
    · rw [hd] at hp
      exact hp.elim
  | close hd hc hall =>
    rcases hp with ⟨m, hm, hp⟩ | hp | hp
    · exact Or.inr ⟨rfl, Or.inl ⟨m, hm, hp⟩⟩
    · rw [hc] at hp
      cases hp
    · rw [hd] at hp
      exact hp.elim
  | @drain q bag c hd hc =>
    refine Or.inr ⟨rfl, ?_⟩
    rcases hp with hp | hp | hp
    · exact Or.inl hp
    · rw [hc, List.mem_cons] at hp
      rcases hp with hp | hp
      · exact Or.inr (Or.inr (by simp [Dispatcher.Holds, hp]))
      · exact Or.inr (Or.inl hp)
    · rw [hd] at hp
      exact Or.inr (Or.inr (List.mem_append_left _ hp))
  | @drained bag hd hc =>
    refine Or.inr ⟨rfl, ?_⟩
    rw [Async.Underway, hd] at hp
    exact hp
  | emptied hd =>
    refine Or.inr ⟨rfl, ?_⟩
    rcases hp with hp | hp | hp
    · exact Or.inl hp
    · exact Or.inr (Or.inl hp)
    · rw [hd] at hp
      cases hp
  | @pick bag bag' j q hd hr =>
    refine Or.inr ⟨rfl, ?_⟩
    rcases hp with hp | hp | hp
    · exact Or.inl hp
    · exact Or.inr (Or.inl hp)
    · rw [hd] at hp
      have := (Queue.swapRemove_perm hr).mem_iff.1 hp
      rw [List.mem_cons] at this
      exact Or.inr (Or.inr this)
  | noChannel => exact Or.inl rfl
  | dropped => exact Or.inl rfl
  | @send q bag hd hq hn hlen =>
    refine Or.inr ⟨rfl, ?_⟩
    rcases hp with hp | hp | hp
    · exact Or.inl hp
    · exact Or.inr (Or.inl hp)
    · rw [hd] at hp
      rcases hp with rfl | hp
      · rcases hu with hu | ⟨r, hu⟩
        · rw [hq] at hu
          cases hu
        · exact absurd hu (hn r)
      · exact Or.inr (Or.inr hp)
  | @poll q bag c hd hc =>
    refine Or.inr ⟨rfl, ?_⟩
    rcases hp with hp | hp | hp
    · exact Or.inl hp
    · rw [hc, List.mem_cons] at hp
      rcases hp with hp | hp
      · exact Or.inr (Or.inr (by simp [Dispatcher.Holds, hp]))
      · exact Or.inr (Or.inl hp)
    · rw [hd] at hp
      exact Or.inr (Or.inr (List.mem_append_left _ hp))
  | @polled bag hd hc =>
    refine Or.inr ⟨rfl, ?_⟩
    rw [Async.Underway, hd] at hp
    exact hp

/-- A message that cannot be passed on stays on the way until the dispatcher fails. -/
theorem step_late {k : Nat} {x y : Async P} (hx : AsyncTakes g k x) (hs : AsyncStep g x y) {p : Packet sp}
    (h : x.disp = .failed ∨ (x.Underway p ∧ Undeliverable g x.node p)) :
    y.disp = .failed ∨ (y.Underway p ∧ Undeliverable g y.node p) := by
  rcases h with h | ⟨hp, hu⟩
  · exact Or.inl (hs.stays_failed h)
  by_cases hf : x.disp = .failed
  · exact Or.inl (hs.stays_failed hf)
  have hu' : Undeliverable g y.node p := by
    rcases hu with hu | hu
    · exact Or.inl hu
    · exact Or.inr (hs.stays_done hu)
  have hput : ∀ {z : Async P} {j : sp.Id} {st : RunState P} {out : List (Message sp)}, z.Underway p → z.outbox j = [] →
      (z.put j st out).Underway p := by
    intro z j st out hz hj
    rcases hz with ⟨m, hm, hz⟩ | hz | hz
    · refine Or.inl ⟨m, ?_, hz⟩
      have : p.src ≠ j := by
        rintro rfl
        rw [hj] at hm
        cases hm
      simpa [Async.put, Function.update_of_ne this] using hm
    · exact Or.inr (Or.inl hz)
    · exact Or.inr (Or.inr hz)
  obtain ⟨n, hn⟩ := AsyncAny.of hx hf
  cases hs with
  | @start i rng rng' hi hni =>
    refine Or.inr ⟨hput hp ?_, hu'⟩
    by_contra hc
    obtain ⟨s, a, h1⟩ := hn.sends i hc
    rw [hni] at h1
    cases h1
  | @push i m ms hout hlen hne =>
    refine Or.inr ⟨?_, hu'⟩
    rcases hp with ⟨m', hm, hp⟩ | hp | hp
    · by_cases hi : p.src = i
      · rw [hi, hout, List.mem_cons] at hm
        rcases hm with rfl | hm
        · exact Or.inr (Or.inl (by rw [hp, hi]; simp))
        · exact Or.inl ⟨m', by rw [hi]; simpa using hm, hp⟩
      · exact Or.inl ⟨m', by simpa [Function.update_of_ne hi] using hm, hp⟩
    · exact Or.inr (Or.inl (List.mem_append_left _ hp))
    · exact Or.inr (Or.inr hp)
  | @pushErr i m ms hout he =>
    obtain ⟨s, a, h1⟩ := hn.sends i (by rw [hout]; simp)
    exact (hn.not_ended hf h1 he).elim
  | tick _ hout _ => exact Or.inr ⟨hput hp hout, hu'⟩
  | @recv i st st' q qs out _ hout _ _ =>
    exact Or.inr ⟨hput (z := { x with inbox := Function.update x.inbox i qs }) hp hout, hu'⟩
  | closed _ hout _ _ _ => exact Or.inr ⟨hput hp hout, hu'⟩
  | dispatch hd =>
    rcases Dispatch_late hd hp hu with h1 | ⟨-, h1⟩
    · exact Or.inl h1
    · exact Or.inr ⟨h1, hu'⟩

/-- **C87.**  Once a message is on the way to a party that has returned, or to nobody, `run_async` does not return reports any more,
whatever happens. -/
theorem C87_late {k : Nat} {x y : Async P} (hx : AsyncTakes g k x) {p : Packet sp} (hp : x.Underway p)
    (hu : Undeliverable g x.node p) (hy : AsyncLeads g x y) (reports : BMap sp.Id (Report P)) : ¬ y.Returns g reports := by
  have key : y.disp = .failed ∨ (y.Underway p ∧ Undeliverable g y.node p) := by
    induction hy with
    | refl => exact Or.inr ⟨hp, hu⟩
    | step h1 hs ih =>
      obtain ⟨k', h'⟩ := h1.takes hx
      exact step_late h' hs ih
  obtain ⟨k', h'⟩ := hy.takes hx
  rintro ⟨hr, -⟩
  rcases key with h1 | ⟨h1, -⟩
  · rw [hr] at h1
    cases h1
  · exact (C87_settled h' hr).1 p h1

/-- **C87.**  The reports `run_async` returns are those of an execution over an asynchronous network in which all parties have
returned without an error. -/
theorem C87_reports {k : Nat} {x : Async P} (h : AsyncTakes g k x) {reports : BMap sp.Id (Report P)} (hr : x.Returns g reports) :
    ∃ n, NetReach g n ∧ ∀ i, g.parties.contains i = true → ∃ r, reports.get? i = some r ∧ n.node i = some (.done (.ok r)) := by
  obtain ⟨h1, h2, h3⟩ := hr
  obtain ⟨n, hn, hnode, -⟩ := C87_refines h (by rw [h1]; simp)
  refine ⟨n, hn, ?_⟩
  intro i hi
  rw [← h2 i] at hi
  obtain ⟨r, hr⟩ := BMap.contains_iff.1 hi
  exact ⟨r, hr, by rw [← hnode]; exact h3 i r hr⟩

/-! ### Parties that wait for nobody -/

theorem pair_returns {x : Async P} {a b : sp.Id} {r1 r2 : Report P} (hg : ∀ i, g.parties.contains i = (decide (i = b) || decide (i = a)))
    (hd : x.disp = .returned) (h1 : x.node a = some (.done (.ok r1))) (h2 : x.node b = some (.done (.ok r2))) :
    x.Returns g ((BMap.empty.insert a r1).insert b r2) := by
  refine ⟨hd, ?_, ?_⟩
  · intro i
    rw [BMap.contains_insert, BMap.contains_insert, hg i]
    simp
  · intro i r hr
    rw [BMap.get?_insert, BMap.get?_insert] at hr
    split at hr
    · rename_i hi
      rw [hi, ← Option.some.inj hr]
      exact h2
    · split at hr
      · rename_i hi
        rw [hi, ← Option.some.inj hr]
        exact h1
      · simp at hr

/-- A protocol of one round in which everybody sends to the others and waits for nobody. -/
def demoHasty : TypedProto toy := { demo false 1 with comm := fun s => ⟨s.others, BMap.empty, .default⟩ }

/-- Two parties of it. -/
def hastyGroup : Group demoHasty.wrap where
  parties := (BSet.ofList [1, 2] : BSet U8)
  signer i := i
  ep _ := { entryRoundId := RoundId.new 1, makeRound := fun _ _ me => .ok (⟨me, (BSet.ofList [1, 2] : BSet U8).erase me, 1, 0⟩ : DemoSt) }
  sid := [9]

/-- Whether the results of both parties are there. -/
def hastyReturns (x : Async demoHasty.wrap) : Bool :=
  match x.disp, x.node (1 : U8), x.node (2 : U8) with
  | .returned, some (.done (.ok _)), some (.done (.ok _)) => true
  | _, _, _ => false

/-- Whether party 1 has returned with a result while a message for it is in the channel and the dispatcher has others. -/
def hastyLate (x : Async demoHasty.wrap) : Bool :=
  match x.disp, x.chan, x.node (1 : U8), x.node (2 : U8) with
  | .draining _, p :: _, some (.done (.ok _)), some (.running _ _) => (show U8 from p.dest) == 1
  | _, _, _, _ => false

theorem hasty_parties : ∀ i : U8, BMap.contains (BSet.ofList [1, 2] : BSet U8) i = true → i = 1 ∨ i = 2 := by decide +kernel

/-- A schedule in which the messages are passed on before the parties return. -/
def hastyGood : List AsyncAct :=
  [.start 1, .start 2, .push 1, .push 2] ++ List.replicate 12 (.dispatch 0) ++ [.tick 1, .tick 2, .dispatch 0]

/-- A schedule in which party 1 returns first. -/
def hastyBad : List AsyncAct := [.start 1, .start 2, .push 1, .dispatch 0, .push 2, .tick 1]

/-- **C87.**  Although both parties follow the protocol and have results, whether `run_async`
returns them depends on the schedule. -/
theorem C87_hasty :
    (∃ k x reports, AsyncTakes hastyGroup k x ∧ x.Returns hastyGroup reports) ∧
    ∃ k x, AsyncTakes hastyGroup k x ∧ x.disp ≠ .failed ∧ (∀ i st, x.node i = some st → ∀ e, st ≠ .done (.error e)) ∧
      ∀ y, AsyncLeads hastyGroup x y → ∀ reports, ¬ y.Returns hastyGroup reports := by
  constructor
  · obtain ⟨k, hk⟩ := asyncRun_takes (g := hastyGroup) hastyGood .init
    have h : hastyReturns (asyncRun hastyGroup hastyGood Async.init) = true := by decide +kernel
    generalize asyncRun hastyGroup hastyGood Async.init = x at hk h
    unfold hastyReturns at h
    split at h
    · rename_i r1 r2 hd h1 h2
      refine ⟨k, x, _, hk, pair_returns ?_ hd h1 h2⟩
      have : ∀ i : U8, BMap.contains (BSet.ofList [1, 2] : BSet U8) i = (decide (i = 2) || decide (i = 1)) := by
        decide +kernel
      exact this
    · cases h
  · obtain ⟨k, hk⟩ := asyncRun_takes (g := hastyGroup) hastyBad .init
    have h : hastyLate (asyncRun hastyGroup hastyBad Async.init) = true := by decide +kernel
    generalize asyncRun hastyGroup hastyBad Async.init = x at hk h
    unfold hastyLate at h
    split at h
    · rename_i bag p c r s a hd hc h1 h2
      have hf : x.disp ≠ .failed := by rw [hd]; simp
      refine ⟨k, x, hk, hf, ?_, ?_⟩
      · intro i st hi e
        obtain ⟨n, hn⟩ := AsyncAny.of hk hf
        rcases hasty_parties i (hn.party i st hi) with rfl | rfl
        · rw [h1] at hi
          cases hi
          simp
        · rw [h2] at hi
          cases hi
          simp
      · intro y hy
        have hp : p.dest = (1 : U8) := beq_iff_eq (α := U8).1 h
        exact C87_late hk (p := p) (Or.inr (Or.inl (by rw [hc]; simp))) (Or.inr ⟨_, by rw [hp]; exact h1⟩) hy
    · cases h

end Manul
