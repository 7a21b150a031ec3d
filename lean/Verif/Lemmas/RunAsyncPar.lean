import Verif.Model.RunAsyncPar
import Verif.Props.ParNet

/-! # `run_async` with `offload_processing` is a schedule of the network -/

namespace Manul

variable {sp : SP} {P : Proto sp} {sc : Scheme P}

/-! ### Facts about the network -/

theorem PNetTakes.party (ok : sc.Ok) {k : Nat} {c : PNet P} (h : PNetTakes sc.g k c) {i : sp.Id} {st : ParState P}
    (hn : c.node i = some st) : sc.g.parties.contains i = true := by
  obtain ⟨L, e, f, n, hpn⟩ := ParNet.takes ok h
  have hsim := hpn.node i
  rw [hn] at hsim
  generalize hn' : n.node i = z at hsim
  cases hsim <;> exact hpn.inv.party i _ hn'

/-- Messages in transit are for parties that have not finished. -/
theorem PNetTakes.wire (ok : sc.Ok) {k : Nat} {c : PNet P} (h : PNetTakes sc.g k c) {p : Packet sp} (hp : p ∈ c.wire) :
    sc.g.parties.contains p.dest = true ∧ ∀ r, c.node p.dest ≠ some (.done r) := by
  obtain ⟨L, e, f, n, hpn⟩ := ParNet.takes ok h
  have hw : p ∈ n.wire := by
    rw [hpn.wire.mem_iff]
    simp [hp]
  refine ⟨(hpn.inv.wire p hw).1, ?_⟩
  intro r hr
  have hsim := hpn.node p.dest
  rw [hr] at hsim
  generalize hn' : n.node p.dest = z at hsim
  cases hsim
  exact hpn.inv.wire_done hw hn'

/-- At most two messages of each other party are in transit to a party. -/
theorem PNetTakes.wire_count (ok : sc.Ok) {k : Nat} {c : PNet P} (h : PNetTakes sc.g k c) (i : sp.Id) :
    (c.wire.filter (fun p => decide (p.dest = i))).length ≤ 2 * (sc.g.others i).elems.length := by
  obtain ⟨L, e, f, n, hpn⟩ := ParNet.takes ok h
  have h1 := hpn.inv.wire_count ok i
  have h2 := (hpn.wire.filter (fun p => decide (p.dest = i))).length_eq
  rw [List.filter_append, List.length_append] at h2
  omega

theorem PNetTakes.bound (ok : sc.Ok) {k : Nat} {c : PNet P} (h : PNetTakes sc.g k c) :
    k + c.wire.length ≤ sc.g.parties.elems.length * ((4 * sc.g.parties.elems.length + 1) * (4 * sc.n)) := by
  obtain ⟨L, e, f, n, hpn⟩ := ParNet.takes ok h
  have h1 := hpn.steps
  have h2 := hpn.wire.length_eq
  rw [List.length_append] at h2
  have h3 : sc.size = sc.g.parties.elems.length := rfl
  rw [h3] at h1
  omega

theorem parOut_tick (st : ParSt P) (rng : sp.Rng) : parOut st (.tick rng) = parRest st := by
  unfold parOut parRest
  rfl

theorem parStep_running {st : ParState P} {ev : ParEvent sp} {st' : ParState P} (h : parStep st ev = some st')
    (r : Except LErr (Report P)) : st ≠ .done r := by
  rintro rfl
  simp [parStep] at h

/-- A round can be finished if the loop has ended. -/
theorem parStep_tick {s : Session P} {st : ParSt P} (hc : st.accum.canFinalize ≠ .notYet) (rng : sp.Rng) :
    ∃ st', parStep (.running s st) (.tick rng) = some st' := by
  cases h : st.accum.canFinalize with
  | notYet => exact absurd h hc
  | yes => exact ⟨_, by simp only [parStep, h]; rfl⟩
  | never => exact ⟨_, by simp only [parStep, h]; rfl⟩

theorem parStep_tick_ready {s : Session P} {st : ParSt P} {rng : sp.Rng} {st' : ParState P}
    (h : parStep (.running s st) (.tick rng) = some st') : st.accum.canFinalize ≠ .notYet := by
  intro hc
  simp [parStep, hc] at h

theorem parStep_op {s : Session P} {st : ParSt P} (hc : st.accum.canFinalize = .notYet) (o : ParOp sp) :
    ∃ st', parStep (.running s st) (.op o) = some st' := by
  cases h : parOp s st o with
  | error e => exact ⟨_, by simp only [parStep, hc, h]; rfl⟩
  | ok st1 => exact ⟨_, by simp only [parStep, hc, h]; rfl⟩

theorem parStep_op_ready {s : Session P} {st : ParSt P} {o : ParOp sp} {st' : ParState P}
    (h : parStep (.running s st) (.op o) = some st') : st.accum.canFinalize = .notYet := by
  cases hc : st.accum.canFinalize with
  | notYet => rfl
  | yes => simp [parStep, hc] at h
  | never => simp [parStep, hc] at h

/-- Receiving something ends the run only if it fails. -/
theorem parStep_op_clean {s : Session P} {st : ParSt P} {o : ParOp sp} {st' : ParState P}
    (h : parStep (.running s st) (.op o) = some st') (hc : ParClean st') : ∃ st1, st' = .running s st1 := by
  have hy := parStep_op_ready h
  cases hp : parOp s st o with
  | error e =>
    simp only [parStep, hy, hp, Option.some.injEq] at h
    subst h
    obtain ⟨rep, v, h1, -⟩ := hc
    cases h1
  | ok st1 =>
    simp only [parStep, hy, hp, Option.some.injEq] at h
    exact ⟨st1, h.symm⟩

/-! ### The invariant -/

/-- The state of a party after the round it is about to finalize. -/
def PAsync.view (ρ : sp.Id → sp.Rng) (x : PAsync P) (i : sp.Id) : Option (ParState P) :=
  if x.joined i then (x.node i).bind (fun st => parStep st (.tick (ρ i))) else x.node i

/-- The number of parties about to finalize. -/
def PAsync.joins (g : Group P) (x : PAsync P) : Nat :=
  (g.parties.elems.flatMap (fun i => if x.joined i then [()] else [])).length

theorem PAsync.joins_split (g : Group P) (x : PAsync P) {i : sp.Id} (hi : g.parties.contains i = true) :
    ∃ rest, x.joins g = (if x.joined i then 1 else 0) + rest ∧
      ∀ (y : PAsync P) b, y.joined = Function.update x.joined i b → y.joins g = (if b then 1 else 0) + rest := by
  obtain ⟨rest, h1, h2⟩ := flatMap_split (BSet.elems_nodup g.parties) (BSet.mem_elems.2 hi)
    (fun i => if x.joined i then [()] else [])
  refine ⟨rest.length, ?_, ?_⟩
  · unfold PAsync.joins
    rw [h1.length_eq, List.length_append]
    split <;> rfl
  · intro y b hy
    have h3 := (h2 (if b then [()] else [])).length_eq
    rw [List.length_append] at h3
    have h4 : (if b then [()] else []).length = if b then 1 else 0 := by cases b <;> rfl
    rw [h4] at h3
    rw [← h3]
    unfold PAsync.joins
    congr 2
    funext j
    rw [hy]
    by_cases h : j = i
    · subst h; simp
    · simp [Function.update_of_ne h]

/-- The state of `run_async` and the state of the network, in which the parties about to finalize have done so with the random
numbers `ρ`. -/
structure PAsyncNet (sc : Scheme P) (ρ : sp.Id → sp.Rng) (k : Nat) (x : PAsync P) (kn : Nat) (c : PNet P) : Prop where
  takes : PNetTakes sc.g kn c
  node : ∀ i, c.node i = x.view ρ i
  wire : c.wire.Perm (x.post.flight sc.g)
  sends : ∀ i, x.outbox i ≠ [] → ∃ s st, x.node i = some (.running s st)
  joined : ∀ i, x.joined i = true → ∃ s st, x.node i = some (.running s st) ∧ st.accum.canFinalize ≠ .notYet ∧
    ParClean (.running s st)
  inbox : ∀ i p, p ∈ x.inbox i → p.dest = i
  fine : x.disp ≠ .failed
  ended : x.disp = .returned → x.AllDone sc.g
  steps : k + x.post.rank sc.g + x.joins sc.g ≤ 1 + 9 * kn + 7 * c.wire.length

theorem PAsyncNet.init (ρ : sp.Id → sp.Rng) : PAsyncNet sc ρ 0 PAsync.init 0 PNet.init where
  takes := .init
  node := fun _ => rfl
  wire := by simp [PNet.init, PAsync.init, PAsync.post, Async.flight, Async.outgoing, Async.incoming, Dispatcher.held]
  sends := by simp [PAsync.init]
  joined := by simp [PAsync.init]
  inbox := by simp [PAsync.init]
  fine := by simp [PAsync.init]
  ended := by simp [PAsync.init]
  steps := by simp [PAsync.init, PAsync.post, Async.rank, Async.outgoing, Dispatcher.rank, PAsync.joins]

namespace PAsyncNet

variable {ρ : sp.Id → sp.Rng} {k kn : Nat} {x : PAsync P} {c : PNet P}

theorem not_joined (h : PAsyncNet sc ρ k x kn c) {i : sp.Id} (hn : ∀ s st, x.node i ≠ some (.running s st)) : x.joined i = false := by
  by_contra hj
  obtain ⟨s, st, h1, -⟩ := h.joined i (by simpa using hj)
  exact hn s st h1

theorem node_eq (h : PAsyncNet sc ρ k x kn c) {i : sp.Id} (hj : x.joined i = false) : c.node i = x.node i := by
  rw [h.node i]
  simp [PAsync.view, hj]

theorem party (ok : sc.Ok) (h : PAsyncNet sc ρ k x kn c) {i : sp.Id} {st : ParState P} (hn : x.node i = some st) :
    sc.g.parties.contains i = true := by
  by_cases hj : x.joined i = true
  · obtain ⟨s, st', h1, h2, -⟩ := h.joined i hj
    obtain ⟨st'', h3⟩ := parStep_tick (s := s) h2 (ρ i)
    refine h.takes.party ok (i := i) (st := st'') ?_
    rw [h.node i]
    simp [PAsync.view, hj, h1, h3]
  · exact h.takes.party ok (i := i) (st := st) (by rw [h.node_eq (by simpa using hj)]; exact hn)

theorem held (h : PAsyncNet sc ρ k x kn c) {p : Packet sp} (hp : p ∈ x.disp.held) : p ∈ c.wire := by
  rw [h.wire.mem_iff]
  simp [Async.flight, PAsync.post, hp]

/-- Nobody has returned in the network before a message for them is received. -/
theorem not_done (ok : sc.Ok) (h : PAsyncNet sc ρ k x kn c) {p : Packet sp} (hp : p ∈ c.wire) (r : Except LErr (Report P)) :
    x.node p.dest ≠ some (.done r) := by
  intro hr
  refine (h.takes.wire ok hp).2 r ?_
  rw [h.node_eq (h.not_joined (by rw [hr]; simp)), hr]

/-- The dispatcher does not fail, and its steps do not show in the network. -/
theorem dispatch (ok : sc.Ok) (h : PAsyncNet sc ρ k x kn c) {y : Async P} (hs : DispatchStep sc.g x.post y) :
    PAsyncNet sc ρ (k + 1) { x with inbox := y.inbox, chan := y.chan, disp := y.disp } kn c := by
  have hret : ∀ i r, x.post.node i = some (.done r) → x.node i = some (.done r) := by
    intro i r hr
    simp only [PAsync.post, PAsync.returned] at hr
    split at hr
    · rename_i h1
      simp only [Option.some.injEq, RunState.done.injEq] at hr
      rw [h1, hr]
    · cases hr
  obtain ⟨e1, e2, e3, e4, e5, e6, e7⟩ := hs.effect (fun p hp => (h.takes.wire ok (h.held hp)).1)
    (fun p hp r hr => h.not_done ok (h.held hp) r (hret _ _ hr))
  have hpost : PAsync.post { x with inbox := y.inbox, chan := y.chan, disp := y.disp } = y := by
    cases y
    simp only at e1 e2
    subst e1 e2
    rfl
  refine ⟨h.takes, h.node, ?_, h.sends, h.joined, ?_, e3, ?_, ?_⟩
  · rw [hpost]
    exact h.wire.trans e4.symm
  · intro i p hp
    rcases e5 i p hp with h1 | h1
    · exact h.inbox i p h1
    · exact h1
  · intro hr i hi
    obtain ⟨r, h1⟩ := e6 hr i hi
    exact ⟨r, hret i r h1⟩
  · rw [hpost]
    have h1 := h.steps
    have h2 : PAsync.joins sc.g { x with inbox := y.inbox, chan := y.chan, disp := y.disp } = x.joins sc.g := rfl
    omega

/-- A party makes a step of the network. -/
theorem act (h : PAsyncNet sc ρ k x kn c) {i : sp.Id} (hi : sc.g.parties.contains i = true) (hout : x.outbox i = [])
    (hj : x.joined i = false) {st st' : ParState P} {b : Bool} {out : List (Message sp)} (hnd : ∀ r, x.node i ≠ some (.done r))
    (hst : out ≠ [] → ∃ s a, st = .running s a) (hview : (if b then parStep st (.tick (ρ i)) else some st) = some st')
    (hb : b = true → ∃ s a, st = .running s a ∧ a.accum.canFinalize ≠ .notYet ∧ ParClean (.running s a))
    (hs : PNetStep sc.g c (c.put i st' out)) : PAsyncNet sc ρ (k + 1) (x.put i st b out) (kn + 1) (c.put i st' out) := by
  classical
  obtain ⟨h1, h2, h3, h4, h0, h5, h6, h7, h8⟩ := h
  obtain ⟨rest, e1, e2⟩ := x.post.outgoing_split sc.g hi
  have e3 := e2 (x.put i st b out).post out rfl
  obtain ⟨rj, j1, j2⟩ := x.joins_split sc.g hi
  have j3 := j2 (x.put i st b out) b rfl
  rw [show x.post.outbox i = [] from hout] at e1
  refine ⟨.step h1 hs, ?_, ?_, ?_, ?_, h5, h6, ?_, ?_⟩
  · intro j
    by_cases hji : j = i
    · subst hji
      simp only [PNet.put, PAsync.view, PAsync.put, Function.update_self, Option.bind_some]
      exact hview.symm
    · simp only [PNet.put, PAsync.view, PAsync.put, Function.update_of_ne hji]
      exact h2 j
  · rw [List.perm_iff_count]
    intro a
    have h9 := h3.count_eq a
    have h10 := e1.count_eq a
    have h11 := e3.count_eq a
    rw [show packetOf i = (fun m : Message sp => (⟨i, m.destination, m⟩ : Packet sp)) from rfl] at h11
    simp only [Async.flight, PNet.put, PAsync.put, PAsync.post, List.map_nil, List.nil_append, List.count_append, Async.incoming]
      at h9 h10 h11 ⊢
    omega
  · intro j hjo
    by_cases hji : j = i
    · subst hji
      simp only [PAsync.put, Function.update_self] at hjo ⊢
      obtain ⟨s, a, rfl⟩ := hst hjo
      exact ⟨s, a, rfl⟩
    · simp only [PAsync.put, Function.update_of_ne hji] at hjo ⊢
      exact h4 j hjo
  · intro j hjo
    by_cases hji : j = i
    · subst hji
      simp only [PAsync.put, Function.update_self] at hjo ⊢
      obtain ⟨s, a, rfl, h⟩ := hb hjo
      exact ⟨s, a, rfl, h⟩
    · simp only [PAsync.put, Function.update_of_ne hji] at hjo ⊢
      exact h0 j hjo
  · intro hr
    obtain ⟨r, hr⟩ := h7 hr i hi
    exact absurd hr (hnd r)
  · have h9 := e1.length_eq
    have h10 := e3.length_eq
    rw [hj] at j1
    have hb1 : (if b = true then 1 else 0) ≤ 1 := by split <;> omega
    simp only [Async.rank, PAsync.put, PAsync.post, PNet.put, List.map_nil, List.nil_append, List.length_append, List.length_map,
      Bool.false_eq_true, if_false] at h8 h9 h10 j1 j3 ⊢
    omega

/-- A party receives a message from its channel. -/
theorem take (h : PAsyncNet sc ρ k x kn c) {i : sp.Id} (hi : sc.g.parties.contains i = true) {p : Packet sp} {ps : List (Packet sp)}
    (hin : x.inbox i = p :: ps) (hout : x.outbox i = []) (hj : x.joined i = false) {s : Session P} {st : ParSt P} {st' : ParState P}
    (hn : x.node i = some (.running s st)) (hs : parStep (.running s st) (.op (.deliver p.src p.message)) = some st') :
    ∃ c', PAsyncNet sc ρ (k + 1) (PAsync.put { x with inbox := Function.update x.inbox i ps } i st' false []) (kn + 1) c' := by
  classical
  have hcn := h.node_eq hj
  obtain ⟨h1, h2, h3, h4, h0, h5, h6, h7, h8⟩ := h
  have hd : p.dest = i := h5 i p (by rw [hin]; simp)
  obtain ⟨rest, e1, e2⟩ := x.post.incoming_split sc.g hi
  have e3 := e2 (PAsync.put { x with inbox := Function.update x.inbox i ps } i st' false []).post ps rfl
  obtain ⟨rest', g1, g2⟩ := x.post.outgoing_split sc.g hi
  have g3 := g2 (PAsync.put { x with inbox := Function.update x.inbox i ps } i st' false []).post [] rfl
  obtain ⟨rj, j1, j2⟩ := x.joins_split sc.g hi
  have j3 := j2 (PAsync.put { x with inbox := Function.update x.inbox i ps } i st' false []) false rfl
  rw [show x.post.inbox i = p :: ps from hin] at e1
  rw [show x.post.outbox i = [] from hout] at g1
  have hp : p ∈ c.wire := by
    rw [h3.mem_iff]
    simp only [Async.flight, List.mem_append]
    right
    rw [e1.mem_iff]
    simp
  obtain ⟨w, w', hw⟩ := List.append_of_mem hp
  subst hd
  refine ⟨PNet.put ⟨c.node, w ++ w'⟩ p.dest st' [], .step h1 (.deliver hw (by rw [hcn]; exact hn) hs), ?_, ?_, ?_, ?_, ?_, h6, ?_, ?_⟩
  · intro j
    by_cases hji : j = p.dest
    · subst hji
      simp [PNet.put, PAsync.view, PAsync.put]
    · simp only [PNet.put, PAsync.view, PAsync.put, Function.update_of_ne hji]
      exact h2 j
  · rw [List.perm_iff_count]
    intro a
    have h9 := h3.count_eq a
    have h10 := e1.count_eq a
    have h11 := e3.count_eq a
    have h12 := g1.count_eq a
    have h13 := g3.count_eq a
    rw [hw] at h9
    simp only [Async.flight, PNet.put, PAsync.put, PAsync.post, List.map_nil, List.nil_append, List.append_nil, List.cons_append,
      List.count_append, List.count_cons, List.count_nil] at h9 h10 h11 h12 h13 ⊢
    omega
  · intro j hjo
    by_cases hji : j = p.dest
    · subst hji
      simp [PAsync.put] at hjo
    · simp only [PAsync.put, Function.update_of_ne hji] at hjo ⊢
      exact h4 j hjo
  · intro j hjo
    by_cases hji : j = p.dest
    · subst hji
      simp [PAsync.put] at hjo
    · simp only [PAsync.put, Function.update_of_ne hji] at hjo ⊢
      exact h0 j hjo
  · intro j q hq
    by_cases hji : j = p.dest
    · subst hji
      simp only [PAsync.put, Function.update_self] at hq
      exact h5 _ _ (by rw [hin]; exact List.mem_cons_of_mem _ hq)
    · simp only [PAsync.put, Function.update_of_ne hji] at hq
      exact h5 _ _ hq
  · intro hr
    obtain ⟨r, hr⟩ := h7 hr _ hi
    rw [hn] at hr
    cases hr
  · have h9 := g1.length_eq
    have h10 := g3.length_eq
    rw [hj] at j1
    rw [hw] at h8
    simp only [Async.rank, PAsync.put, PAsync.post, PNet.put, List.map_nil, List.nil_append, List.append_nil, List.length_append,
      List.length_map, List.length_cons, Bool.false_eq_true, if_false] at h8 h9 h10 j1 j3 ⊢
    omega

/-- The channels are not closed before everybody has returned. -/
theorem not_ended (h : PAsyncNet sc ρ k x kn c) {i : sp.Id} (hi : sc.g.parties.contains i = true) {s : Session P} {st : ParSt P}
    (hn : x.node i = some (.running s st)) : ¬ x.Ended := by
  rintro (he | he)
  · obtain ⟨r, hr⟩ := h.ended he i hi
    rw [hn] at hr
    cases hr
  · exact h.fine he

/-- A round is finalized. -/
theorem finalize (ok : sc.Ok) {i : sp.Id} {rng : sp.Rng} (h : PAsyncNet sc (Function.update ρ i rng) k x kn c) {st st' : ParState P}
    (hn : x.node i = some st) (hj : x.joined i = true) (hout : x.outbox i = []) (hs : parStep st (.tick rng) = some st') :
    PAsyncNet sc ρ (k + 1) (x.put i st' false []) kn c := by
  classical
  have hi := h.party ok hn
  obtain ⟨h1, h2, h3, h4, h0, h5, h6, h7, h8⟩ := h
  obtain ⟨rest, e1, e2⟩ := x.post.outgoing_split sc.g hi
  have e3 := e2 (x.put i st' false []).post [] rfl
  obtain ⟨rj, j1, j2⟩ := x.joins_split sc.g hi
  have j3 := j2 (x.put i st' false []) false rfl
  rw [show x.post.outbox i = [] from hout] at e1
  refine ⟨h1, ?_, ?_, ?_, ?_, h5, h6, ?_, ?_⟩
  · intro j
    rw [h2 j]
    by_cases hji : j = i
    · subst hji
      simp [PAsync.view, PAsync.put, hj, hn, hs]
    · simp only [PAsync.view, PAsync.put, Function.update_of_ne hji]
  · rw [List.perm_iff_count]
    intro a
    have h9 := h3.count_eq a
    have h10 := e1.count_eq a
    have h11 := e3.count_eq a
    simp only [Async.flight, PAsync.put, PAsync.post, List.map_nil, List.nil_append, List.count_append, Async.incoming] at h9 h10 h11 ⊢
    omega
  · intro j hjo
    by_cases hji : j = i
    · subst hji
      simp [PAsync.put] at hjo
    · simp only [PAsync.put, Function.update_of_ne hji] at hjo ⊢
      exact h4 j hjo
  · intro j hjo
    by_cases hji : j = i
    · subst hji
      simp [PAsync.put] at hjo
    · simp only [PAsync.put, Function.update_of_ne hji] at hjo ⊢
      exact h0 j hjo
  · intro hr
    obtain ⟨r, hr⟩ := h7 hr i hi
    rw [hn] at hr
    cases hr
    simp [parStep] at hs
  · have h9 := e1.length_eq
    have h10 := e3.length_eq
    rw [hj] at j1
    simp only [Async.rank, PAsync.put, PAsync.post, List.map_nil, List.nil_append, List.length_append, List.length_map,
      Bool.false_eq_true, if_false, if_true] at h8 h9 h10 j1 j3 ⊢
    omega

/-- Every step of `run_async` is a step of the network, or does not show there. -/
theorem step (ok : sc.Ok) {x' : PAsync P} (h : ∀ ρ, ∃ kn c, PAsyncNet sc ρ k x kn c) (hs : PAsyncStep sc.g x x')
    (ρ : sp.Id → sp.Rng) : ∃ kn c, PAsyncNet sc ρ (k + 1) x' kn c := by
  classical
  obtain ⟨kn, c, h0⟩ := h ρ
  cases hs with
  | @start i rng rng' hi hn =>
    have hout : x.outbox i = [] := by
      by_contra hc
      obtain ⟨s, a, h1⟩ := h0.sends i hc
      rw [hn] at h1
      cases h1
    have hj := h0.not_joined (i := i) (by rw [hn]; simp)
    exact ⟨_, _, h0.act hi hout hj (by rw [hn]; simp) (by simp) (by simp) (by simp)
      (.start rng rng' hi (by rw [h0.node_eq hj]; exact hn))⟩
  | @push i m ms hout hlen hne =>
    obtain ⟨s, a, hn⟩ := h0.sends i (by rw [hout]; simp)
    have hi := h0.party ok hn
    obtain ⟨rest, e1, e2⟩ := x.post.outgoing_split sc.g hi
    have e3 := e2 (PAsync.post { x with outbox := Function.update x.outbox i ms, chan := x.chan ++ [⟨i, m.destination, m⟩] }) ms rfl
    rw [show x.post.outbox i = m :: ms from hout] at e1
    obtain ⟨h1, h2, h3, h4, h0, h5, h6, h7, h8⟩ := h0
    refine ⟨kn, c, h1, h2, ?_, ?_, h0, h5, h6, h7, ?_⟩
    · rw [List.perm_iff_count]
      intro a
      have h9 := h3.count_eq a
      have h10 := e1.count_eq a
      have h11 := e3.count_eq a
      rw [show (⟨i, m.destination, m⟩ : Packet sp) = packetOf i m from rfl] at h11 ⊢
      simp only [Async.flight, PAsync.post, Async.incoming, List.map_cons, List.cons_append, List.count_append, List.count_cons,
        List.count_nil] at h9 h10 h11 ⊢
      omega
    · intro j hjo
      by_cases hji : j = i
      · subst hji
        exact ⟨s, a, hn⟩
      · simp only [Function.update_of_ne hji] at hjo
        exact h4 j hjo
    · have h9 := e1.length_eq
      have h10 := e3.length_eq
      simp only [Async.rank, PAsync.post, PAsync.joins, List.map_cons, List.cons_append, List.length_append, List.length_cons,
        List.length_map, List.length_nil] at h8 h9 h10 ⊢
      omega
  | @pushErr i m ms hout he =>
    obtain ⟨s, a, hn⟩ := h0.sends i (by rw [hout]; simp)
    exact (h0.not_ended (h0.party ok hn) hn he).elim
  | @task i s st st' o hn hj hout ho hst =>
    have hi := h0.party ok hn
    have hp : PNetStep sc.g c (c.put i st' (parOut st (.op o))) := .task (by rw [h0.node_eq hj]; exact hn) ho hst
    obtain ⟨st1, h1⟩ := parStep_op_clean hst (C61_no_errors ok (.step h0.takes hp) (i := i) (by simp [PNet.put]))
    exact ⟨_, _, h0.act hi hout hj (by rw [hn]; simp) (fun _ => ⟨_, _, h1⟩) (by simp) (by simp) hp⟩
  | @recv i s st st' p ps hn hj hout hin hst =>
    obtain ⟨c', h'⟩ := h0.take (h0.party ok hn) hin hout hj hn hst
    exact ⟨_, c', h'⟩
  | @closed i s st st' hn hj hout hin he hst => exact (h0.not_ended (h0.party ok hn) hn he).elim
  | @join i s st hn hj hout hc hf =>
    have hi := h0.party ok hn
    have hcn : c.node i = some (.running s st) := by rw [h0.node_eq hj]; exact hn
    obtain ⟨st', hst⟩ := parStep_tick (s := s) hc (ρ i)
    have hp := PNetStep.tick (g := sc.g) hcn hst
    rw [parOut_tick] at hp
    exact ⟨_, _, h0.act hi hout hj (by rw [hn]; simp) (fun _ => ⟨s, st, rfl⟩) (by simpa using hst)
      (fun _ => ⟨s, st, rfl, hc, C61_no_errors ok h0.takes hcn⟩) hp⟩
  | @tick i st st' rng hn hj hout hst =>
    obtain ⟨kn', c', h1⟩ := h (Function.update ρ i rng)
    exact ⟨kn', c', h1.finalize ok hn hj hout hst⟩
  | dispatch hd => exact ⟨_, _, h0.dispatch ok hd⟩

theorem reach (ok : sc.Ok) (h : PAsyncTakes sc.g k x) (ρ : sp.Id → sp.Rng) : ∃ kn c, PAsyncNet sc ρ k x kn c := by
  induction h generalizing ρ with
  | init => exact ⟨_, _, PAsyncNet.init ρ⟩
  | step _ hs ih => exact PAsyncNet.step ok ih hs ρ

/-- The number of messages in the channel of a party. -/
theorem room (ok : sc.Ok) (h : PAsyncNet sc ρ k x kn c) {p : Packet sp} {bag : List (Packet sp)} (hd : x.disp = .sending p bag) :
    (x.inbox p.dest).length < 2 * (sc.g.others p.dest).elems.length := by
  have hp := (h.takes.wire ok (h.held (p := p) (by rw [hd]; simp [Dispatcher.held]))).1
  have h1 := h.takes.wire_count ok p.dest
  have h2 := (h.wire.filter (fun q => decide (q.dest = p.dest))).length_eq
  obtain ⟨rest, e1, -⟩ := x.post.incoming_split sc.g hp
  have h3 := (e1.filter (fun q => decide (q.dest = p.dest))).length_eq
  have h4 : (x.inbox p.dest).filter (fun q => decide (q.dest = p.dest)) = x.inbox p.dest := by
    rw [List.filter_eq_self]
    intro q hq
    simpa using h.inbox _ _ hq
  rw [show x.post.inbox p.dest = x.inbox p.dest from rfl] at h3
  simp only [List.filter_append, List.length_append, h4] at h3
  simp only [Async.flight, show x.post.disp = x.disp from rfl, hd, Dispatcher.held, List.filter_append, List.length_append,
    List.filter_cons, decide_true, if_true, List.length_cons] at h2
  omega

/-- If no task can make a step, then the dispatcher waits for messages or has returned. -/
theorem idle (ok : sc.Ok) (h : PAsyncNet sc ρ k x kn c)
    (hcap : ∀ i, sc.g.parties.contains i = true → 2 * (sc.g.others i).elems.length ≤ asyncCapacity)
    (hstuck : ∀ x', ¬ PAsyncStep sc.g x x') : (x.disp = .waiting ∧ x.chan = []) ∨ x.disp = .returned := by
  cases hd : x.disp with
  | waiting =>
    cases hc : x.chan with
    | nil => exact Or.inl ⟨rfl, rfl⟩
    | cons p c => exact (hstuck _ (.dispatch (.recv hd hc))).elim
  | draining bag =>
    cases hc : x.chan with
    | nil => exact (hstuck _ (.dispatch (.drained hd hc))).elim
    | cons p c => exact (hstuck _ (.dispatch (.drain hd hc))).elim
  | picking bag =>
    cases bag with
    | nil => exact (hstuck _ (.dispatch (.emptied hd))).elim
    | cons p bag =>
      cases hr : Queue.swapRemove (p :: bag) 0 with
      | none => simp [Queue.swapRemove, List.getLast?_cons] at hr
      | some y => exact (hstuck _ (.dispatch (.pick hd hr))).elim
  | sending p bag =>
    have hw := h.held (p := p) (by rw [hd]; simp [Dispatcher.held])
    have hp := (h.takes.wire ok hw).1
    have h1 := h.room ok hd
    have h2 := hcap _ hp
    refine (hstuck _ (.dispatch (.send hd hp ?_ (show (x.inbox p.dest).length < _ by omega)))).elim
    intro r hr
    simp only [PAsync.post, PAsync.returned] at hr
    split at hr
    · rename_i h3
      exact h.not_done ok hw _ h3
    · cases hr
  | polling bag =>
    cases hc : x.chan with
    | nil => exact (hstuck _ (.dispatch (.polled hd hc))).elim
    | cons p c => exact (hstuck _ (.dispatch (.poll hd hc))).elim
  | returned => exact Or.inr rfl
  | failed => exact absurd hd h.fine

/-- If no task can make a step, then the network cannot either. -/
theorem stuck (ok : sc.Ok) (h : PAsyncNet sc ρ k x kn c)
    (hcap : ∀ i, sc.g.parties.contains i = true → 2 * (sc.g.others i).elems.length ≤ asyncCapacity)
    (hstuck : ∀ x', ¬ PAsyncStep sc.g x x') : (∀ i, x.joined i = false) ∧ ∀ c', ¬ PNetStep sc.g c c' := by
  have hdisp := h.idle ok hcap hstuck
  have hout : ∀ i, x.outbox i = [] := by
    intro i
    by_contra hc
    obtain ⟨s, a, hn⟩ := h.sends i hc
    have hne := h.not_ended (h.party ok hn) hn
    rcases hdisp with ⟨-, hch⟩ | hr
    · obtain ⟨m, ms, hm⟩ := List.exists_cons_of_ne_nil hc
      exact hstuck _ (.push hm (by rw [hch]; exact Nat.zero_lt_succ 99) hne)
    · exact hne (Or.inl hr)
  have hj : ∀ i, x.joined i = false := by
    intro i
    by_contra hc
    have hc : x.joined i = true := by simpa using hc
    obtain ⟨s, st, h1, h2, -⟩ := h.joined i hc
    obtain ⟨st', h3⟩ := parStep_tick (s := s) h2 (ρ i)
    exact hstuck _ (.tick h1 hc (hout i) h3)
  refine ⟨hj, ?_⟩
  have hnode : ∀ i, c.node i = x.node i := fun i => h.node_eq (hj i)
  have hchan : ∀ {s : Session P} {a : ParSt P} {i : sp.Id}, x.node i = some (.running s a) → x.chan = [] ∧ x.disp.held = [] := by
    intro s a i hn
    rcases hdisp with ⟨hd, hch⟩ | hr
    · exact ⟨hch, by rw [hd]; rfl⟩
    · exact (h.not_ended (h.party ok hn) hn (Or.inl hr)).elim
  intro c' hs
  cases hs with
  | @start i rng rng' hi hn => exact hstuck _ (.start rng rng' hi (by rw [← hnode]; exact hn))
  | @tick i s st st' rng hn hst =>
    have hc := parStep_tick_ready hst
    obtain ⟨h1, h2, -⟩ := C61_join ok h.takes hn hc
    have h3 := hcap i (h.takes.party ok hn)
    have h4 := List.length_filterMap_le taskMessage st.outgoing
    have h5 : asyncCapacity = 100 := rfl
    have h6 : channelCapacity = 100 := rfl
    exact hstuck _ (.join (by rw [← hnode]; exact hn) (hj i) (hout i) hc ⟨by rw [h1]; exact Nat.zero_le _, by omega⟩)
  | @task i s st st' o hn ho hst => exact hstuck _ (.task (by rw [← hnode]; exact hn) (hj i) (hout i) ho hst)
  | @deliver s st st' p w w' hw hn hst =>
    have hn' : x.node p.dest = some (.running s st) := by rw [← hnode]; exact hn
    obtain ⟨hch, hheld⟩ := hchan hn'
    have hp : p ∈ x.post.flight sc.g := by
      rw [← h.wire.mem_iff, hw]
      simp
    have hog : x.post.outgoing sc.g = [] := by simp [Async.outgoing, PAsync.post, hout]
    rw [Async.flight, hog, show x.post.chan = x.chan from rfl, show x.post.disp = x.disp from rfl, hch, hheld] at hp
    simp only [List.append_nil, List.nil_append, Async.incoming, List.mem_flatMap] at hp
    obtain ⟨i, -, hp⟩ := hp
    have hp : p ∈ x.inbox i := hp
    have hd := h.inbox i p hp
    subst hd
    obtain ⟨q, qs, hq⟩ := List.exists_cons_of_ne_nil (List.ne_nil_of_mem hp)
    obtain ⟨st'', hst2⟩ := parStep_op (s := s) (parStep_op_ready hst) (.deliver q.src q.message)
    exact hstuck _ (.recv hn' (hj _) (hout _) hq hst2)

end PAsyncNet

end Manul
