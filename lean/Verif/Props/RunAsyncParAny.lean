import Verif.Lemmas.RunAsyncParAny
import Verif.Lemmas.PAsyncRun
import Verif.Spec.RunAsyncParAny
import Verif.Props.RunAsyncAny

/-!
# `run_async` with `offload_processing` of arbitrary parties (C89)

Nothing is assumed here of the protocol or of the parties: they may misbehave, return early or send to strangers.
-/

namespace Manul

variable {sp : SP} {P : Proto sp} {g : Group P}

theorem PAsyncLeads.takes {k : Nat} {x y : PAsync P} (h : PAsyncTakes g k x) (hy : PAsyncLeads g x y) : ∃ k', PAsyncTakes g k' y := by
  induction hy with
  | refl => exact ⟨k, h⟩
  | step _ hs ih =>
    obtain ⟨k', h'⟩ := ih
    exact ⟨k' + 1, h'.step hs⟩

/-- **C89.**  As long as the dispatcher has not failed, the parties are in states they can be in over an asynchronous network
that loses, duplicates and makes up nothing: those in a round as they are, and those past the join of a round as they are after
that round, whatever random numbers they use for it. -/
theorem C89_refines {k : Nat} {x : PAsync P} (h : PAsyncTakes g k x) (hf : x.disp ≠ .failed) (ρ : sp.Id → sp.Rng) :
    ∃ kn c, PNetTakes g kn c ∧ c.wire.Perm (x.post.flight g) ∧ (∀ i, x.joined i = false → c.node i = x.node i) ∧
      ∀ i, x.joined i = true → ∃ s st st', x.node i = some (.running s st) ∧ parStep (.running s st) (.tick (ρ i)) = some st' ∧
        c.node i = some st' := by
  obtain ⟨c, hc⟩ := PAsyncAny.of h hf ρ
  obtain ⟨kn, hk⟩ := hc.takes
  refine ⟨kn, c, hk, hc.wire, fun i hi => hc.node_eq hi, ?_⟩
  intro i hi
  obtain ⟨s, st, h1, h2⟩ := hc.joined i hi
  obtain ⟨st', h3⟩ := parStep_tick (s := s) h2 (ρ i)
  refine ⟨s, st, st', h1, h3, ?_⟩
  rw [hc.node i]
  simp [PAsync.view, hi, h1, h3]

/-- **C89.**  If the dispatcher fails, then in some state of the network a message is in transit to a party that has returned, or
to nobody. -/
theorem C89_fails (rng : sp.Rng) {k : Nat} {x : PAsync P} (h : PAsyncTakes g k x) (hf : x.disp = .failed) :
    ∃ kn c p, PNetTakes g kn c ∧ p ∈ c.wire ∧ ParUndeliverable g c.node p := by
  induction h with
  | init => simp [PAsync.init] at hf
  | @step k x x' hx hs ih =>
    by_cases h0 : x.disp = .failed
    · exact ih h0
    · obtain ⟨c, hc⟩ := PAsyncAny.of hx h0 (fun _ => rng)
      obtain ⟨kn, hk⟩ := hc.takes
      cases hs with
      | dispatch hd =>
        obtain ⟨p, hp, h1⟩ := hd.fails hf
        refine ⟨kn, c, p, hk, hc.held hp, ?_⟩
        rcases h1 with h1 | ⟨r, h1⟩
        · exact Or.inl h1
        · exact Or.inr ⟨r, hc.done (of_post_done h1)⟩
      | start => exact absurd hf h0
      | push => exact absurd hf h0
      | pushErr => exact absurd hf h0
      | task => exact absurd hf h0
      | recv => exact absurd hf h0
      | closed => exact absurd hf h0
      | join => exact absurd hf h0
      | tick => exact absurd hf h0

/-- **C89.**  When the dispatcher returns, all messages the hosts have received from their tasks have reached the channels of their
destinations, and all parties have returned. -/
theorem C89_settled (rng : sp.Rng) {k : Nat} {x : PAsync P} (h : PAsyncTakes g k x) (hr : x.disp = .returned) :
    (∀ p, ¬ x.Underway p) ∧ ∀ i, g.parties.contains i = true → ∃ r, x.node i = some (.done r) := by
  obtain ⟨c, hc⟩ := PAsyncAny.of h (by rw [hr]; simp) (fun _ => rng)
  obtain ⟨h1, h2⟩ := hc.ended hr
  refine ⟨?_, h1⟩
  rintro p (⟨m, hm, -⟩ | hp | hp)
  · obtain ⟨s, a, h3⟩ := hc.sends p.src (List.ne_nil_of_mem hm)
    obtain ⟨r, h4⟩ := h1 _ (hc.party _ _ h3)
    rw [h3] at h4
    cases h4
  · rw [h2] at hp
    cases hp
  · rw [hr] at hp
    exact hp

/-- A message that cannot be passed on stays on the way until the dispatcher fails. -/
theorem pstep_late (rng : sp.Rng) {k : Nat} {x y : PAsync P} (hx : PAsyncTakes g k x) (hs : PAsyncStep g x y) {p : Packet sp}
    (h : x.disp = .failed ∨ (x.Underway p ∧ ParUndeliverable g x.node p)) :
    y.disp = .failed ∨ (y.Underway p ∧ ParUndeliverable g y.node p) := by
  rcases h with h | ⟨hp, hu⟩
  · exact Or.inl (hs.stays_failed h)
  by_cases hf : x.disp = .failed
  · exact Or.inl (hs.stays_failed hf)
  have hu' : ParUndeliverable g y.node p := by
    rcases hu with hu | hu
    · exact Or.inl hu
    · exact Or.inr (hs.stays_done hu)
  have hput : ∀ {z : PAsync P} {j : sp.Id} {st : ParState P} {b : Bool} {out : List (Message sp)}, z.Underway p → z.outbox j = [] →
      (z.put j st b out).Underway p := by
    intro z j st b out hz hj
    rcases hz with ⟨m, hm, hz⟩ | hz | hz
    · refine Or.inl ⟨m, ?_, hz⟩
      have : p.src ≠ j := by
        rintro rfl
        rw [hj] at hm
        cases hm
      simpa [PAsync.put, Function.update_of_ne this] using hm
    · exact Or.inr (Or.inl hz)
    · exact Or.inr (Or.inr hz)
  obtain ⟨c, hc⟩ := PAsyncAny.of hx hf (fun _ => rng)
  cases hs with
  | @start i rng rng' hi hni =>
    refine Or.inr ⟨hput hp ?_, hu'⟩
    by_contra h0
    obtain ⟨s, a, h1⟩ := hc.sends i h0
    rw [hni] at h1
    cases h1
  | @push i m ms hout hlen hne =>
    refine Or.inr ⟨?_, hu'⟩
    rcases hp with ⟨m', hm, hp⟩ | hp | hp
    · by_cases hi : p.src = i
      · rw [hi, hout, List.mem_cons] at hm
        rcases hm with rfl | hm
        · exact Or.inr (Or.inl (by rw [hp, hi]; simp))
        · exact Or.inl ⟨m', by rw [hi]; simpa using hm, hp⟩
      · exact Or.inl ⟨m', by simpa [Function.update_of_ne hi] using hm, hp⟩
    · exact Or.inr (Or.inl (List.mem_append_left _ hp))
    · exact Or.inr (Or.inr hp)
  | @pushErr i m ms hout he =>
    obtain ⟨s, a, h1⟩ := hc.sends i (by rw [hout]; simp)
    exact (hc.not_ended hf h1 he).elim
  | task _ _ hout _ _ => exact Or.inr ⟨hput hp hout, hu'⟩
  | @recv i s st st' q qs _ _ hout _ _ =>
    exact Or.inr ⟨hput (z := { x with inbox := Function.update x.inbox i qs }) hp hout, hu'⟩
  | closed _ _ hout _ _ _ => exact Or.inr ⟨hput hp hout, hu'⟩
  | join _ _ hout _ _ => exact Or.inr ⟨hput hp hout, hu'⟩
  | tick _ _ hout _ => exact Or.inr ⟨hput hp hout, hu'⟩
  | dispatch hd =>
    have hu2 : Undeliverable g x.post.node p := by
      rcases hu with hu | ⟨r, hu⟩
      · exact Or.inl hu
      · exact Or.inr ⟨r, to_post_done hu⟩
    rcases Dispatch_late hd (p := p) hp hu2 with h1 | ⟨-, h1⟩
    · exact Or.inl h1
    · rw [← hd.post] at h1
      exact Or.inr ⟨h1, hu'⟩

/-- **C89.**  Once a message is on the way to a party that has returned, or to nobody, `run_async` does not return reports any more,
whatever happens. -/
theorem C89_late (rng : sp.Rng) {k : Nat} {x y : PAsync P} (hx : PAsyncTakes g k x) {p : Packet sp} (hp : x.Underway p)
    (hu : ParUndeliverable g x.node p) (hy : PAsyncLeads g x y) (reports : BMap sp.Id (Report P)) : ¬ y.Returns g reports := by
  have key : y.disp = .failed ∨ (y.Underway p ∧ ParUndeliverable g y.node p) := by
    induction hy with
    | refl => exact Or.inr ⟨hp, hu⟩
    | step h1 hs ih =>
      obtain ⟨k', h'⟩ := h1.takes hx
      exact pstep_late rng h' hs ih
  obtain ⟨k', h'⟩ := hy.takes hx
  rintro ⟨hr, -⟩
  rcases key with h1 | ⟨h1, -⟩
  · rw [hr] at h1
    cases h1
  · exact (C89_settled rng h' hr).1 p h1

/-- **C89.**  The reports `run_async` returns are those of an execution over an asynchronous network in which all parties have
returned without an error. -/
theorem C89_reports (rng : sp.Rng) {k : Nat} {x : PAsync P} (h : PAsyncTakes g k x) {reports : BMap sp.Id (Report P)}
    (hr : x.Returns g reports) :
    ∃ kn c, PNetTakes g kn c ∧ ∀ i, g.parties.contains i = true → ∃ r, reports.get? i = some r ∧ c.node i = some (.done (.ok r)) := by
  obtain ⟨h1, h2, h3⟩ := hr
  obtain ⟨c, hc⟩ := PAsyncAny.of h (by rw [h1]; simp) (fun _ => rng)
  obtain ⟨kn, hk⟩ := hc.takes
  refine ⟨kn, c, hk, ?_⟩
  intro i hi
  rw [← h2 i] at hi
  obtain ⟨r, hr⟩ := BMap.contains_iff.1 hi
  exact ⟨r, hr, hc.done (h3 i r hr)⟩

/-- **C89.**  In `par_run_session` adding the artifact of a message never fails, whatever the others send. -/
theorem C89_artifacts {k : Nat} {c : PNet P} (h : PNetTakes g k c) {i : sp.Id} {s : Session P} {st : ParSt P}
    (hn : c.node i = some (.running s st)) (o : sp.Id × Except LErr (Message sp × ProcessedArtifact P)) (ho : o ∈ st.outgoing)
    {m : Message sp} {art : ProcessedArtifact P} (hm : o.2 = .ok (m, art)) : ∃ a, st.accum.addArtifact art = .ok a := by
  have hok := h.outOk hn
  have h1 := hok.fresh o ho
  rw [← hok.dest o ho m art hm] at h1
  exact ⟨{ st.accum with artifacts := st.accum.artifacts.insert art.destination art.artifact }, by simp [Accum.addArtifact, h1]⟩

/-! ### Parties that wait for nobody -/

theorem pair_preturns {x : PAsync P} {a b : sp.Id} {r1 r2 : Report P} (hg : ∀ i, g.parties.contains i = (decide (i = b) || decide (i = a)))
    (hd : x.disp = .returned) (h1 : x.node a = some (.done (.ok r1))) (h2 : x.node b = some (.done (.ok r2))) :
    x.Returns g ((BMap.empty.insert a r1).insert b r2) := by
  refine ⟨hd, ?_, ?_⟩
  · intro i
    rw [BMap.contains_insert, BMap.contains_insert, hg i]
    simp
  · intro i r hr
    rw [BMap.get?_insert, BMap.get?_insert] at hr
    split at hr
    · rename_i hi
      rw [hi, ← Option.some.inj hr]
      exact h2
    · split at hr
      · rename_i hi
        rw [hi, ← Option.some.inj hr]
        exact h1
      · simp at hr

/-- Whether the results of both parties are there. -/
def phastyReturns (x : PAsync demoHasty.wrap) : Bool :=
  match x.disp, x.node (1 : U8), x.node (2 : U8) with
  | .returned, some (.done (.ok _)), some (.done (.ok _)) => true
  | _, _, _ => false

/-- Whether party 1 has returned with a result while a message for it is in the channel. -/
def phastyLate (x : PAsync demoHasty.wrap) : Bool :=
  match x.disp, x.chan, x.node (1 : U8), x.node (2 : U8) with
  | .draining _, p :: _, some (.done (.ok _)), some (.running _ _) => (show U8 from p.dest) == 1
  | _, _, _, _ => false

/-- A schedule in which the messages are passed on before the parties return. -/
def phastyGood : List PAsyncAct :=
  [.start 1, .start 2, .join 1, .join 2, .push 1, .push 2] ++ List.replicate 12 (.dispatch 0) ++ [.tick 1, .tick 2, .dispatch 0]

/-- A schedule in which party 1 returns first. -/
def phastyBad : List PAsyncAct := [.start 1, .start 2, .join 1, .join 2, .push 1, .dispatch 0, .push 2, .tick 1]

/-- **C89.**  Although both parties follow the protocol and have results, whether `run_async`
returns them depends on the schedule. -/
theorem C89_hasty :
    (∃ k x reports, PAsyncTakes hastyGroup k x ∧ x.Returns hastyGroup reports) ∧
    ∃ k x, PAsyncTakes hastyGroup k x ∧ x.disp ≠ .failed ∧ (∀ i st, x.node i = some st → ∀ e, st ≠ .done (.error e)) ∧
      ∀ y, PAsyncLeads hastyGroup x y → ∀ reports, ¬ y.Returns hastyGroup reports := by
  constructor
  · obtain ⟨k, hk⟩ := pasyncRun_takes (g := hastyGroup) phastyGood .init
    have h : phastyReturns (pasyncRun hastyGroup phastyGood PAsync.init) = true := by decide +kernel
    generalize pasyncRun hastyGroup phastyGood PAsync.init = x at hk h
    unfold phastyReturns at h
    split at h
    · rename_i r1 r2 hd h1 h2
      refine ⟨k, x, _, hk, pair_preturns ?_ hd h1 h2⟩
      have : ∀ i : U8, BMap.contains (BSet.ofList [1, 2] : BSet U8) i = (decide (i = 2) || decide (i = 1)) := by
        decide +kernel
      exact this
    · cases h
  · obtain ⟨k, hk⟩ := pasyncRun_takes (g := hastyGroup) phastyBad .init
    have h : phastyLate (pasyncRun hastyGroup phastyBad PAsync.init) = true := by decide +kernel
    generalize pasyncRun hastyGroup phastyBad PAsync.init = x at hk h
    unfold phastyLate at h
    split at h
    · rename_i bag p c r s a hd hc h1 h2
      have hf : x.disp ≠ .failed := by rw [hd]; simp
      refine ⟨k, x, hk, hf, ?_, ?_⟩
      · intro i st hi e
        obtain ⟨n, hn⟩ := PAsyncAny.of hk hf (fun _ => (0 : Nat))
        rcases hasty_parties i (hn.party i st hi) with rfl | rfl
        · rw [h1] at hi
          cases hi
          simp
        · rw [h2] at hi
          cases hi
          simp
      · intro y hy
        have hp : p.dest = (1 : U8) := beq_iff_eq (α := U8).1 h
        exact C89_late (0 : Nat) hk (p := p) (Or.inr (Or.inl (by rw [hc]; simp))) (Or.inr ⟨_, by rw [hp]; exact h1⟩) hy
    · cases h

end Manul
