import Verif.Lemmas.RunSync
import Verif.Lemmas.SchemePlan
import Verif.Spec.RunSyncNet

/-! # `run_sync` of a group of parties is one schedule of the network -/

namespace Manul

variable {sp : SP} {P : Proto sp} {sc : Scheme P}

/-- A message of the queue in transit. -/
def RoundMsg.packet (m : RoundMsg sp) : Packet sp := ⟨m.src, m.dest, m.message⟩

/-- The number of steps the network can make. -/
def Scheme.steps (sc : Scheme P) : Nat := sc.g.parties.elems.length * ((sc.g.parties.elems.length + 1) * (4 * sc.n))

theorem NetTakes.reach {g : Group P} {k : Nat} {n : Net P} (h : NetTakes g k n) : NetReach g n := by
  induction h with
  | init => exact .init
  | step _ hs ih => exact .step ih hs

theorem NetReach.takes {g : Group P} {n : Net P} (h : NetReach g n) : ∃ k, NetTakes g k n := by
  induction h with
  | init => exact ⟨0, .init⟩
  | step _ hs ih =>
    obtain ⟨k, hk⟩ := ih
    exact ⟨k + 1, .step hk hs⟩

theorem NetTakes.bound (ok : sc.Ok) {k : Nat} {n : Net P} (h : NetTakes sc.g k n) : k + n.wire.length ≤ sc.steps := by
  obtain ⟨L, e, f, -, hk⟩ := Scheme.NetInv.takes ok h
  unfold Scheme.left at hk
  unfold Scheme.steps
  omega

theorem NetTakes.no_failure (ok : sc.Ok) {k : Nat} {n : Net P} (h : NetTakes sc.g k n) {i : sp.Id} {e : LErr}
    (hn : n.node i = some (.done (.error e))) : False := by
  obtain ⟨L, e, f, hinv⟩ := Scheme.NetInv.reach ok h.reach
  obtain ⟨rep, v, h1, -⟩ := hinv.clean hn
  cases h1

theorem NetTakes.me (ok : sc.Ok) {k : Nat} {n : Net P} (h : NetTakes sc.g k n) {i : sp.Id} {s : Session P} {a : Accum P}
    (hn : n.node i = some (.running s a)) : s.me = i := by
  obtain ⟨L, e, f, hinv⟩ := Scheme.NetInv.reach ok h.reach
  obtain ⟨-, hs, -⟩ := hinv.running i s a hn
  rw [hs.proper.me, hs.signer, ok.keys i (hinv.party i _ hn)]

/-- What `run_sync` needs to know of a group: no party fails to start or stops with a local error, there are at most `B` steps, and
party `i` starts with `d i` messages. -/
structure Group.Regular (g : Group P) (B : Nat) (d : sp.Id → Nat) : Prop where
  keys : g.KeysMatch
  bound : ∀ {k : Nat} {n : Net P}, NetTakes g k n → k + n.wire.length ≤ B
  no_failure : ∀ {k : Nat} {n : Net P}, NetTakes g k n → ∀ {i : sp.Id} {e : LErr}, n.node i ≠ some (.done (.error e))
  me : ∀ {k : Nat} {n : Net P}, NetTakes g k n → ∀ {i : sp.Id} {s : Session P} {a : Accum P},
    n.node i = some (.running s a) → s.me = i
  starts : ∀ {k : Nat} {n : Net P}, NetTakes g k n → ∀ {i : sp.Id}, g.parties.contains i = true → n.node i = none →
    ∀ rng rng', ∃ s a out, g.startNode i rng rng' = (.running s a, out) ∧ out.length = d i
  packet : ∀ {k : Nat} {n : Net P}, NetTakes g k n → ∀ {p : Packet sp}, p ∈ n.wire →
    g.parties.contains p.dest = true ∧ ∃ st, n.node p.src = some st

theorem Scheme.Ok.regular (ok : sc.Ok) : sc.g.Regular sc.steps (fun i => (sc.dests 0 i).elems.length) where
  keys := ok.keys
  bound := fun h => h.bound ok
  no_failure := fun h _ _ hn => h.no_failure ok hn
  me := fun h _ _ _ hn => h.me ok hn
  starts := by
    intro k n h i hi hn rng rng'
    obtain ⟨L, e, f, hinv, -⟩ := Scheme.NetInv.takes ok h
    obtain ⟨L', s, a, out, h1, h2, -, -⟩ := hinv.starts ok hi hn rng rng'
    rw [Scheme.dAt_main (k := 0) rfl] at h2
    exact ⟨s, a, out, h1, h2⟩
  packet := by
    intro k n h p hp
    obtain ⟨L, e, f, hinv⟩ := Scheme.NetInv.reach ok h.reach
    obtain ⟨h1, t, ht, -⟩ := hinv.wire p hp
    refine ⟨h1, ?_⟩
    cases hn : n.node p.src with
    | none => rw [(hinv.idle _ hn).1] at ht; omega
    | some st => exact ⟨st, rfl⟩

variable {g : Group P} {B : Nat} {d : sp.Id → Nat}

theorem startRound_swapped_error {s : Session P} {rng : sp.Rng} {cached : List (VerifiedMessage sp)} {e : LErr}
    (h : foldE (applyVerified s) s.makeAccum cached = .error e) : ∃ e', startRound s rng cached = .error e' := by
  unfold startRound
  cases h2 : sendAll s rng 0 s.makeAccum s.destinations.elems with
  | error e' => exact ⟨e', rfl⟩
  | ok y =>
    obtain ⟨a, ms⟩ := y
    obtain ⟨e1, -⟩ := sendAll_arts h2
    rw [e1]
    simp only [foldE_arts, h, Except.map]
    exact ⟨e, rfl⟩

theorem startRound_send_error {s : Session P} {rng : sp.Rng} {cached : List (VerifiedMessage sp)} {a1 : Accum P} {e : LErr}
    (h1 : foldE (applyVerified s) s.makeAccum cached = .ok a1) (h2 : sendAll s rng 0 a1 s.destinations.elems = .error e) :
    ∃ e', startRound s rng cached = .error e' := by
  unfold startRound
  cases h3 : sendAll s rng 0 s.makeAccum s.destinations.elems with
  | error e' => exact ⟨e', rfl⟩
  | ok y =>
    obtain ⟨a, ms⟩ := y
    obtain ⟨-, e2⟩ := sendAll_arts h3
    rw [e2 a1 (foldE_keeps_arts h1)] at h2
    cases h2

/-- A step of a party on its own. -/
theorem NetTakes.tick {k : Nat} {n : Net P} (h : NetTakes g k n) {i : sp.Id} {s : Session P} {a : Accum P}
    (hn : n.node i = some (.running s a)) {rng : sp.Rng} {st' : RunState P} {out : List (Message sp)}
    (hs : Manul.step (.running s a) (.tick rng) = some (st', out)) : NetTakes g (k + 1) (n.put i st' out) :=
  h.step (.tick hn hs)

theorem put_node (n : Net P) (i : sp.Id) (st : RunState P) (out : List (Message sp)) : (n.put i st out).node i = some st := by
  simp [Net.put]

theorem NetTakes.rng {k : Nat} {n : Net P} (h : NetTakes g k n) (hn : ∃ i st, n.node i = some st) : Nonempty sp.Rng := by
  induction h with
  | init => obtain ⟨i, st, h⟩ := hn; cases h
  | step _ hs ih =>
    cases hs with
    | start rng _ _ _ => exact ⟨rng⟩
    | tick h _ => exact ih ⟨_, _, h⟩
    | deliver _ h _ => exact ih ⟨_, _, h⟩

/-- `propagate` makes steps of the network, and does not fail. -/
theorem Propagate.net (rg : g.Regular B d) {s : Session P} {a : Accum P} {o : Except LErr (NodeState P × List (RoundMsg sp))}
    (h : Propagate s a o) {k : Nat} {n : Net P} {i : sp.Id} (ht : NetTakes g k n) (hn : n.node i = some (.running s a)) :
    ∃ st rest k' n', o = .ok (st, rest) ∧ k ≤ k' ∧ NetTakes g k' n' ∧
      n'.node = Function.update n.node i (some st.toRun) ∧ n'.wire = n.wire ++ rest.map RoundMsg.packet ∧
      ∀ s a, st = .inProgress s a → a.canFinalize = .notYet := by
  obtain ⟨rng₀⟩ := ht.rng ⟨_, _, hn⟩
  induction h generalizing k n with
  | @notYet s a hc =>
    refine ⟨_, _, k, n, rfl, le_refl _, ht, ?_, by simp, ?_⟩
    · rw [show (NodeState.inProgress s a).toRun = .running s a from rfl, ← hn, Function.update_eq_self]
    · rintro _ _ ⟨⟩
      exact hc
  | @never s a r hc hr =>
    refine ⟨_, _, k + 1, n.put i (.done (.ok r)) [], rfl, by omega, ht.tick hn (rng := rng₀) ?_, rfl, by simp [Net.put], ?_⟩
    · simp [Manul.step, hc, hr]
    · rintro _ _ ⟨⟩
  | @neverErr s a e hc hr =>
    exact (rg.no_failure (ht.tick hn (rng := rng₀) (st' := .done (.error e)) (out := []) (by simp [Manul.step, hc, hr]))
      (put_node ..)).elim
  | @finished s a rng r hc hf =>
    refine ⟨_, _, k + 1, n.put i (.done (.ok r)) [], rfl, by omega, ht.tick hn (rng := rng) ?_, rfl, by simp [Net.put], ?_⟩
    · simp [Manul.step, hc, finishRound, hf]
    · rintro _ _ ⟨⟩
  | @finalizeErr s a rng e hc hf =>
    exact (rg.no_failure (ht.tick hn (rng := rng) (st' := .done (.error e)) (out := [])
      (by simp [Manul.step, hc, finishRound, hf])) (put_node ..)).elim
  | @cachedErr s s' a rng cached e hc hf h1 =>
    obtain ⟨e', he⟩ := startRound_swapped_error (rng := sp.fork rng 1) h1
    exact (rg.no_failure (ht.tick hn (rng := rng) (st' := .done (.error e')) (out := [])
      (by simp [Manul.step, hc, finishRound, hf, enterRound, he])) (put_node ..)).elim
  | @sendErr s s' a a1 rng cached e hc hf h1 h2 =>
    obtain ⟨e', he⟩ := startRound_send_error h1 h2
    exact (rg.no_failure (ht.tick hn (rng := rng) (st' := .done (.error e')) (out := [])
      (by simp [Manul.step, hc, finishRound, hf, enterRound, he])) (put_node ..)).elim
  | @next s s' a a1 a2 rng cached ms st rest hc hf h1 h2 _ ih =>
    have ht' := ht.tick hn (rng := rng) (st' := .running s' a2) (out := ms)
      (by simp [Manul.step, hc, finishRound, hf, enterRound, start_swapped h1 h2])
    obtain ⟨st', rest', k', n', he, hk, ht2, hnode, hwire, hw⟩ := ih ht' (put_node ..)
    cases he
    refine ⟨st, _, k', n', rfl, by omega, ht2, ?_, ?_, hw⟩
    · rw [hnode]
      simp [Net.put]
    · rw [hwire]
      have hme := rg.me ht' (put_node ..)
      simp [Net.put, addressed, RoundMsg.packet, hme, Function.comp_def]
  | @nextErr s s' a a1 a2 rng cached ms e hc hf h1 h2 _ ih =>
    have ht' := ht.tick hn (rng := rng) (st' := .running s' a2) (out := ms)
      (by simp [Manul.step, hc, finishRound, hf, enterRound, start_swapped h1 h2])
    obtain ⟨st', rest', k', n', he, -⟩ := ih ht' (put_node ..)
    cases he

/-- `propagate` returns. -/
theorem Propagate.exists (rg : g.Regular B d) (rng : sp.Rng) (m : Nat) : ∀ {s : Session P} {a : Accum P} {k : Nat} {n : Net P} {i : sp.Id},
    NetTakes g k n → n.node i = some (.running s a) → B < k + m → ∃ st rest, Propagate s a (.ok (st, rest)) := by
  induction m with
  | zero =>
    intro s a k n i ht hn hm
    have := rg.bound ht
    omega
  | succ m ih =>
    intro s a k n i ht hn hm
    have key : ∀ o, Propagate s a o → ∃ st rest, Propagate s a (.ok (st, rest)) := by
      intro o ho
      obtain ⟨st, rest, _, _, rfl, -⟩ := ho.net rg ht hn
      exact ⟨st, rest, ho⟩
    cases hc : a.canFinalize with
    | notYet => exact ⟨_, _, .notYet hc⟩
    | never =>
      cases hr : s.terminateDueToErrors a with
      | ok r => exact ⟨_, _, .never hc hr⟩
      | error e => exact key _ (.neverErr hc hr)
    | yes =>
      cases hf : s.finalizeRound (sp.fork rng 0) a with
      | error e => exact key _ (.finalizeErr hc hf)
      | ok o =>
        cases o with
        | finished r => exact ⟨_, _, .finished hc hf⟩
        | anotherRound s' cached =>
          cases h1 : foldE (applyVerified s') s'.makeAccum cached with
          | error e => exact key _ (.cachedErr hc hf h1)
          | ok a1 =>
            cases h2 : sendAll s' (sp.fork rng 1) 0 a1 s'.destinations.elems with
            | error e => exact key _ (.sendErr hc hf h1 h2)
            | ok y =>
              obtain ⟨a2, ms⟩ := y
              have ht' := ht.tick hn (rng := rng) (st' := .running s' a2) (out := ms)
                (by simp [Manul.step, hc, finishRound, hf, enterRound, start_swapped h1 h2])
              obtain ⟨st, rest, hp⟩ := ih ht' (put_node ..) (by omega)
              exact ⟨_, _, .next hc hf h1 h2 hp⟩

/-- The state of `run_sync` and the state of the network; `dead` are the messages dropped because their destination has
finished, which in the network remain in transit. -/
structure SyncNet (g : Group P) (k : Nat) (x : SyncState P) (n : Net P) (dead : List (Packet sp)) : Prop where
  takes : NetTakes g k n
  queue : x.queue.Ok
  node : ∀ i, n.node i = (x.states.get? i).map NodeState.toRun
  wire : n.wire.Perm (x.queue.contents.map RoundMsg.packet ++ dead)
  dead : ∀ p ∈ dead, ∃ r, n.node p.dest = some (.done r)
  waits : ∀ i s a, x.states.get? i = some (.inProgress s a) → a.canFinalize = .notYet

theorem SyncNet.init : SyncNet g 0 ⟨Queue.new sp true, BMap.empty⟩ Net.init [] where
  takes := .init
  queue := (Queue.new_ok true).1
  node := fun i => by simp [Net.init]
  wire := by simp [Net.init, (Queue.new_ok (sp := sp) true).2.1]
  dead := by simp
  waits := by simp

/-- The first stage of a party. -/
theorem SyncNet.start (rg : g.Regular B d) {k : Nat} {x : SyncState P} {n : Net P} {dead : List (Packet sp)}
    (h : SyncNet g k x n dead) {i : sp.Id} (hi : g.parties.contains i = true) (hx : x.states.get? i = none)
    (rng rng' : sp.Rng) :
    ∃ s a ms, Session.new rng g.sid (g.signer i) (g.ep i) = .ok s ∧
      sendAll s rng' 0 s.makeAccum s.destinations.elems = .ok (a, ms) ∧
      ms.length = d i ∧ NetTakes g (k + 1) (n.put i (.running s a) ms) := by
  have hn : n.node i = none := by rw [h.node, hx]; rfl
  obtain ⟨s, a, out, h1, h2⟩ := rg.starts h.takes hi hn rng rng'
  have ht := h.takes.step (.start rng rng' hi hn)
  rw [h1] at ht
  unfold Group.startNode at h1
  cases hs : Session.new rng g.sid (g.signer i) (g.ep i) with
  | error e => rw [hs] at h1; simp at h1
  | ok s' =>
    rw [hs] at h1
    simp only [Manul.start, enterRound, startRound] at h1
    cases hsend : sendAll s' rng' 0 s'.makeAccum s'.destinations.elems with
    | error e => rw [hsend] at h1; simp at h1
    | ok y =>
      obtain ⟨a', ms⟩ := y
      rw [hsend] at h1
      simp only [foldE, Prod.mk.injEq, RunState.running.injEq] at h1
      obtain ⟨⟨rfl, rfl⟩, rfl⟩ := h1
      exact ⟨_, _, _, rfl, hsend, h2, ht⟩

theorem perm_extend {q : Queue sp} (hq : q.Ok) (l : List (RoundMsg sp)) {w dead : List (Packet sp)}
    (h : w.Perm (q.contents.map RoundMsg.packet ++ dead)) :
    (w ++ l.map RoundMsg.packet).Perm ((q.extend l).contents.map RoundMsg.packet ++ dead) := by
  have h1 := ((Queue.extend_ok hq l).2).map RoundMsg.packet
  rw [List.map_append] at h1
  refine (h.append_right _).trans ((?_ : List.Perm _ _).trans (h1.symm.append_right dead))
  rw [List.append_assoc, List.append_assoc]
  exact List.perm_append_comm.append_left _

theorem SyncNet.addNode (rg : g.Regular B d) {k : Nat} {x : SyncState P} {n : Net P}
    (h : SyncNet g k x n []) {i : sp.Id} (hi : g.parties.contains i = true) (hx : x.states.get? i = none)
    {o : Except LErr (SyncState P)} (ha : AddNode g.sid (g.signer i) (g.ep i) x o) :
    ∃ x' k' n', o = .ok x' ∧ k ≤ k' ∧ SyncNet g k' x' n' [] ∧
      (∀ j, x'.states.contains j = (decide (j = i) || x.states.contains j)) ∧
      x.queue.contents.length + d i ≤ x'.queue.contents.length := by
  cases ha with
  | @newErr rng e hs =>
    obtain ⟨s, a, ms, h1, -⟩ := h.start rg hi hx rng rng
    rw [h1] at hs
    cases hs
  | @sendErr rng rng' s e hs hm =>
    obtain ⟨s', a, ms, h1, h2, -⟩ := h.start rg hi hx rng rng'
    rw [h1] at hs
    cases hs
    rw [h2] at hm
    cases hm
  | @propagateErr rng rng' s a ms e hs hm hp =>
    obtain ⟨s', a, ms, h1, h2, -, h3⟩ := h.start rg hi hx rng rng'
    rw [h1] at hs
    cases hs
    rw [h2] at hm
    cases hm
    obtain ⟨_, _, _, _, he, -⟩ := hp.net rg h3 (put_node ..)
    cases he
  | @ok rng rng' s a ms st rest hs hm hp =>
    obtain ⟨s', a, ms, h1, h2, hlen, h3⟩ := h.start rg hi hx rng rng'
    rw [h1] at hs
    cases hs
    rw [h2] at hm
    cases hm
    obtain ⟨st, rest, k', n', he, hk, ht, hnode, hwire, hw⟩ := hp.net rg h3 (put_node ..)
    cases he
    have hme := rg.me h3 (put_node ..)
    have hq1 := Queue.extend_ok h.queue (addressed s ms)
    have hq2 := Queue.extend_ok hq1.1 rest
    refine ⟨_, k', n', rfl, by omega, ⟨ht, hq2.1, ?_, ?_, by simp, ?_⟩, ?_, ?_⟩
    · intro j
      rw [hnode, rg.keys i hi]
      simp only [Net.put, Function.update_idem, BMap.get?_insert]
      by_cases hj : j = i
      · subst hj; simp
      · simp [Function.update_of_ne hj, hj, h.node]
    · rw [hwire]
      refine perm_extend hq1.1 rest ?_
      have := perm_extend h.queue (addressed s ms) h.wire
      simpa [Net.put, addressed, RoundMsg.packet, hme, Function.comp_def] using this
    · intro j s1 a1 hj
      rw [BMap.get?_insert] at hj
      split at hj
      · exact hw _ _ (Option.some.inj hj)
      · exact h.waits _ _ _ hj
    · intro j
      rw [rg.keys i hi, BMap.contains_insert]
    · have l1 := hq1.2.length_eq
      have l2 := hq2.2.length_eq
      simp only [List.length_append, addressed, List.length_map] at l1 l2
      simp only [addressed]
      omega

theorem SyncNet.addNode_exists (rg : g.Regular B d) (rng : sp.Rng) {k : Nat} {x : SyncState P} {n : Net P}
    (h : SyncNet g k x n []) {i : sp.Id} (hi : g.parties.contains i = true) (hx : x.states.get? i = none) :
    ∃ o, AddNode g.sid (g.signer i) (g.ep i) x o := by
  obtain ⟨s, a, ms, h1, h2, -, h3⟩ := h.start rg hi hx rng rng
  obtain ⟨st, rest, hp⟩ := Propagate.exists rg rng (B + 1) h3 (put_node ..) (by omega)
  exact ⟨_, .ok h1 h2 hp⟩

theorem absent {x x' : SyncState P} {i j : sp.Id}
    (hc : ∀ j, x'.states.contains j = (decide (j = i) || x.states.contains j)) (hj : x.states.get? j = none) (hne : j ≠ i) :
    x'.states.get? j = none := by
  have := hc j
  simp only [BMap.contains, hj, hne, decide_false, Option.isSome_none, Bool.or_false] at this
  simpa using this

/-- All parties get their sessions. -/
theorem SyncNet.setup (rg : g.Regular B d) {l : List sp.Id} : ∀ {k : Nat} {x : SyncState P} {n : Net P}, SyncNet g k x n [] →
    l.Nodup → (∀ i ∈ l, g.parties.contains i = true ∧ x.states.get? i = none) →
    ∀ {o : Except LErr (SyncState P)}, Setup g.sid x (g.nodes l) o →
    ∃ x' k' n', o = .ok x' ∧ SyncNet g k' x' n' [] ∧ (∀ j, x'.states.contains j = (decide (j ∈ l) || x.states.contains j)) ∧
      x.queue.contents.length ≤ x'.queue.contents.length ∧
      ∀ i ∈ l, d i ≤ x'.queue.contents.length := by
  induction l with
  | nil =>
    intro k x n h _ _ o hs
    cases hs
    exact ⟨x, k, n, rfl, h, by simp, le_refl _, by simp⟩
  | cons i l ih =>
    intro k x n h hnd hl o hs
    rw [List.nodup_cons] at hnd
    obtain ⟨hi, hx⟩ := hl i (List.mem_cons_self ..)
    cases hs with
    | err ha =>
      obtain ⟨_, _, _, he, -⟩ := h.addNode rg hi hx ha
      cases he
    | cons ha hs =>
      obtain ⟨x1, k1, n1, he, hk, h1, hc, hlen⟩ := h.addNode rg hi hx ha
      cases he
      obtain ⟨x', k', n', he, h', hc', hlen', hd⟩ := ih h1 hnd.2 (by
        intro j hj
        obtain ⟨hj1, hj2⟩ := hl j (List.mem_cons_of_mem _ hj)
        refine ⟨hj1, ?_⟩
        exact absent hc hj2 (by rintro rfl; exact hnd.1 hj)) hs
      subst he
      refine ⟨x', k', n', rfl, h', ?_, by omega, ?_⟩
      · intro j
        rw [hc', hc]
        by_cases h1 : j = i <;> by_cases h2 : j ∈ l <;> simp [h1, h2]
      · intro j hj
        rcases List.mem_cons.1 hj with rfl | hj
        · omega
        · exact hd j hj

theorem SyncNet.setup_exists (rg : g.Regular B d) (rng : sp.Rng) {l : List sp.Id} : ∀ {k : Nat} {x : SyncState P} {n : Net P},
    SyncNet g k x n [] → l.Nodup → (∀ i ∈ l, g.parties.contains i = true ∧ x.states.get? i = none) →
    ∃ o, Setup g.sid x (g.nodes l) o := by
  induction l with
  | nil => intro k x n _ _ _; exact ⟨_, .nil⟩
  | cons i l ih =>
    intro k x n h hnd hl
    rw [List.nodup_cons] at hnd
    obtain ⟨hi, hx⟩ := hl i (List.mem_cons_self ..)
    obtain ⟨o, ha⟩ := h.addNode_exists rg rng hi hx
    obtain ⟨x1, k1, n1, he, hk, h1, hc, hlen⟩ := h.addNode rg hi hx ha
    subst he
    obtain ⟨o, hs⟩ := ih h1 hnd.2 (by
      intro j hj
      obtain ⟨hj1, hj2⟩ := hl j (List.mem_cons_of_mem _ hj)
      refine ⟨hj1, ?_⟩
      exact absent hc hj2 (by rintro rfl; exact hnd.1 hj))
    exact ⟨o, .cons ha hs⟩

/-- Nobody is missing. -/
def SyncState.Full (x : SyncState P) (g : Group P) : Prop := ∀ i, g.parties.contains i = true → x.states.contains i = true

/-- A delivery does not fail, and makes a step of the network or drops a message. -/
theorem SyncNet.deliver (rg : g.Regular B d) {k : Nat} {x : SyncState P} {n : Net P} {dead : List (Packet sp)}
    (h : SyncNet g k x n dead) (hf : x.Full g) (hq : x.queue.isEmpty = false) {o : Except SyncErr (SyncState P)}
    (hd : DeliverOne x o) :
    ∃ x' k' n' dead', o = .ok x' ∧ SyncNet g k' x' n' dead' ∧ x'.Full g ∧ k + dead.length < k' + dead'.length := by
  have hpop : ∀ {choice : Nat} {m : RoundMsg sp} {q : Queue sp}, x.queue.pop choice = some (m, q) →
      ∃ w w', n.wire = w ++ m.packet :: w' ∧ (w ++ w').Perm (q.contents.map RoundMsg.packet ++ dead) ∧
        g.parties.contains m.dest = true := by
    intro choice m q hp
    have h1 := (Queue.pop_ok h.queue hp).2.1.map RoundMsg.packet
    have h2 := h.wire.trans (h1.append_right dead)
    have hm : m.packet ∈ n.wire := h2.symm.subset (by simp)
    obtain ⟨w, w', hw⟩ := List.append_of_mem hm
    refine ⟨w, w', hw, ?_, ?_⟩
    · rw [hw] at h2
      exact (List.perm_cons m.packet).1 (List.perm_middle.symm.trans h2)
    · exact (rg.packet h.takes hm).1
  cases hd with
  | empty hp =>
    rw [(Queue.pop_none h.queue).1 hp] at hq
    cases hq
  | noSession hp hs =>
    obtain ⟨_, _, -, -, hm⟩ := hpop hp
    have := hf _ hm
    simp [BMap.contains, hs] at this
  | @ignored choice m q r hp hs =>
    obtain ⟨w, w', hw, hperm, -⟩ := hpop hp
    refine ⟨_, k, n, m.packet :: dead, rfl, ⟨h.takes, (Queue.pop_ok h.queue hp).1, h.node, ?_, ?_, h.waits⟩, hf, by simp⟩
    · rw [hw]
      exact List.perm_middle.trans ((hperm.cons _).trans List.perm_middle.symm)
    · intro p hpm
      rcases List.mem_cons.1 hpm with rfl | hpm
      · exact ⟨.ok r, by rw [show m.packet.dest = m.dest from rfl, h.node, hs]; rfl⟩
      · exact h.dead p hpm
  | @deliverErr choice m q s a e hp hs hdl =>
    obtain ⟨w, w', hw, hperm, -⟩ := hpop hp
    have hn : n.node m.packet.dest = some (.running s a) := by
      rw [show m.packet.dest = m.dest from rfl, h.node, hs]; rfl
    have ht := h.takes.step (.deliver hw hn (st' := .done (.error e)) (out := [])
      (by simp [Manul.step, h.waits _ _ _ hs, RoundMsg.packet, hdl]))
    exact (rg.no_failure ht (put_node ..)).elim
  | @propagateErr choice m q s a a' e hp hs hdl hpr =>
    obtain ⟨w, w', hw, hperm, -⟩ := hpop hp
    have hn : n.node m.packet.dest = some (.running s a) := by
      rw [show m.packet.dest = m.dest from rfl, h.node, hs]; rfl
    have ht := h.takes.step (.deliver hw hn (st' := .running s a') (out := [])
      (by simp [Manul.step, h.waits _ _ _ hs, RoundMsg.packet, hdl]))
    obtain ⟨_, _, _, _, he, -⟩ := hpr.net rg ht (put_node ..)
    cases he
  | @ok choice m q s a a' st rest hp hs hdl hpr =>
    obtain ⟨w, w', hw, hperm, -⟩ := hpop hp
    have hn : n.node m.packet.dest = some (.running s a) := by
      rw [show m.packet.dest = m.dest from rfl, h.node, hs]; rfl
    have ht := h.takes.step (.deliver hw hn (st' := .running s a') (out := [])
      (by simp [Manul.step, h.waits _ _ _ hs, RoundMsg.packet, hdl]))
    obtain ⟨st, rest, k', n', he, hk, ht', hnode, hwire, hwait⟩ := hpr.net rg ht (put_node ..)
    cases he
    have hqo := (Queue.pop_ok h.queue hp).1
    refine ⟨_, k', n', dead, rfl, ⟨ht', (Queue.extend_ok hqo rest).1, ?_, ?_, ?_, ?_⟩, ?_, by omega⟩
    · intro j
      rw [hnode]
      simp only [Net.put, Function.update_idem, BMap.get?_insert]
      by_cases hj : j = m.dest
      · subst hj; simp [RoundMsg.packet]
      · simp [RoundMsg.packet, Function.update_of_ne hj, hj, h.node]
    · rw [hwire]
      refine perm_extend hqo rest ?_
      simpa [Net.put] using hperm
    · intro p hpm
      obtain ⟨r, hr⟩ := h.dead p hpm
      rw [hnode]
      simp only [Net.put, Function.update_idem]
      by_cases hj : p.dest = m.packet.dest
      · rw [hj, hn] at hr
        cases hr
      · exact ⟨r, by rw [Function.update_of_ne hj]; exact hr⟩
    · intro j s1 a1 hj
      rw [BMap.get?_insert] at hj
      split at hj
      · exact hwait _ _ (Option.some.inj hj)
      · exact h.waits _ _ _ hj
    · intro j hj
      rw [BMap.contains_insert, hf j hj]
      simp

theorem SyncNet.deliver_exists (rg : g.Regular B d) (rng : sp.Rng) {k : Nat} {x : SyncState P} {n : Net P} {dead : List (Packet sp)}
    (h : SyncNet g k x n dead) (choice : Nat) : ∃ o, DeliverOne x o := by
  cases hp : x.queue.pop choice with
  | none => exact ⟨_, .empty hp⟩
  | some y =>
    obtain ⟨m, q⟩ := y
    cases hs : x.states.get? m.dest with
    | none => exact ⟨_, .noSession hp hs⟩
    | some st =>
      cases st with
      | finished r => exact ⟨_, .ignored hp hs⟩
      | inProgress s a =>
        cases hd : Manul.deliver s a m.src m.message with
        | error e => exact ⟨_, .deliverErr hp hs hd⟩
        | ok a' =>
          have h1 := (Queue.pop_ok h.queue hp).2.1.map RoundMsg.packet
          have h2 := h.wire.trans (h1.append_right dead)
          obtain ⟨w, w', hw⟩ := List.append_of_mem (h2.symm.subset (by simp) : m.packet ∈ n.wire)
          have hn : n.node m.packet.dest = some (.running s a) := by
            rw [show m.packet.dest = m.dest from rfl, h.node, hs]; rfl
          have ht := h.takes.step (.deliver hw hn (st' := .running s a') (out := [])
            (by simp [Manul.step, h.waits _ _ _ hs, RoundMsg.packet, hd]))
          obtain ⟨st, rest, hpr⟩ := Propagate.exists rg rng (B + 1) ht (put_node ..) (by omega)
          exact ⟨_, .ok hp hs hd hpr⟩

theorem SyncNet.bound (rg : g.Regular B d) {k : Nat} {x : SyncState P} {n : Net P} {dead : List (Packet sp)}
    (h : SyncNet g k x n dead) : k + dead.length ≤ B := by
  have h1 := rg.bound h.takes
  have h2 := h.wire.length_eq
  rw [List.length_append] at h2
  omega

/-- The loop does not fail, and leaves nothing in the queue. -/
theorem SyncNet.loop (rg : g.Regular B d) {x : SyncState P} {o : Except SyncErr (SyncState P)} (hl : DeliveryLoop x o) :
    ∀ {k : Nat} {n : Net P} {dead : List (Packet sp)}, SyncNet g k x n dead → x.Full g → x.queue.isEmpty = false →
    ∃ x' k' n' dead', o = .ok x' ∧ SyncNet g k' x' n' dead' ∧ x'.Full g ∧ x'.queue.isEmpty = true := by
  induction hl with
  | err hd =>
    intro k n dead h hf hq
    obtain ⟨_, _, _, _, he, -⟩ := h.deliver rg hf hq hd
    cases he
  | last hd he =>
    intro k n dead h hf hq
    obtain ⟨x', k', n', dead', he', h', hf', -⟩ := h.deliver rg hf hq hd
    cases he'
    exact ⟨_, k', n', dead', rfl, h', hf', he⟩
  | more hd hne _ ih =>
    intro k n dead h hf hq
    obtain ⟨x', k', n', dead', he', h', hf', -⟩ := h.deliver rg hf hq hd
    cases he'
    exact ih h' hf' hne

theorem SyncNet.loop_exists (rg : g.Regular B d) (rng : sp.Rng) (m : Nat) : ∀ {x : SyncState P} {k : Nat} {n : Net P}
    {dead : List (Packet sp)}, SyncNet g k x n dead → x.Full g → x.queue.isEmpty = false →
    B < k + dead.length + m → ∃ o, DeliveryLoop x o := by
  induction m with
  | zero =>
    intro x k n dead h _ _ hm
    have := h.bound rg
    omega
  | succ m ih =>
    intro x k n dead h hf hq hm
    obtain ⟨o, hd⟩ := h.deliver_exists rg rng 0
    obtain ⟨x', k', n', dead', rfl, h', hf', hlt⟩ := h.deliver rg hf hq hd
    cases he : x'.queue.isEmpty with
    | true => exact ⟨_, .last hd he⟩
    | false =>
      obtain ⟨o, ho⟩ := ih h' hf' he (by omega)
      exact ⟨o, .more hd he ho⟩

theorem SyncNet.rng (rg : g.Regular B d) {k : Nat} {x : SyncState P} {n : Net P} {dead : List (Packet sp)}
    (h : SyncNet g k x n dead) (hq : x.queue.isEmpty = false) : Nonempty sp.Rng := by
  cases hc : x.queue.contents with
  | nil => rw [(Queue.isEmpty_iff h.queue).2 hc] at hq; cases hq
  | cons m l =>
    have hm : m.packet ∈ n.wire := h.wire.symm.subset (by rw [hc]; simp)
    exact h.takes.rng ⟨m.packet.src, (rg.packet h.takes hm).2⟩

/-- Without messages the loop panics. -/
theorem loop_empty {x : SyncState P} (hok : x.queue.Ok) (hq : x.queue.isEmpty = true) {o : Except SyncErr (SyncState P)}
    (hd : DeliveryLoop x o) : o = .error .emptyRange := by
  have hp : ∀ c, x.queue.pop c = none := fun c => (Queue.pop_none hok).2 hq
  have hone : ∀ o, DeliverOne x o → o = .error .emptyRange := by
    intro o ho
    cases ho with
    | empty _ => rfl
    | noSession h _ => rw [hp] at h; cases h
    | ignored h _ => rw [hp] at h; cases h
    | deliverErr h _ _ => rw [hp] at h; cases h
    | propagateErr h _ _ _ => rw [hp] at h; cases h
    | ok h _ _ _ => rw [hp] at h; cases h
  cases hd with
  | err h => cases hone _ h; rfl
  | last h _ => cases hone _ h
  | more h _ _ => cases hone _ h

/-- The state after all parties have got their sessions. -/
theorem SyncNet.ready (rg : g.Regular B d) {l : List sp.Id} (hl : g.Enum l) {o : Except LErr (SyncState P)}
    (ho : Setup g.sid ⟨Queue.new sp true, BMap.empty⟩ (g.nodes l) o) :
    ∃ x k n, o = .ok x ∧ SyncNet g k x n [] ∧ x.Full g ∧
      (x.queue.isEmpty = true → ∀ i, g.parties.contains i = true → d i = 0) := by
  obtain ⟨x, k, n, h1, h2, h3, -, h4⟩ := SyncNet.init.setup rg hl.1 (fun i hi => ⟨(hl.2 i).1 hi, rfl⟩) ho
  refine ⟨x, k, n, h1, h2, ?_, ?_⟩
  · intro i hi
    rw [h3, decide_eq_true ((hl.2 i).2 hi)]
    rfl
  · intro he i hi
    have := h4 i ((hl.2 i).2 hi)
    rw [(Queue.isEmpty_iff h2.queue).1 he] at this
    simpa using this

theorem no_dests {b : BSet sp.Id} (h : b.elems.length = 0) : b.isEmpty = true := by
  rw [BMap.isEmpty_iff_contains]
  intro j
  by_contra hj
  have := List.length_pos_of_mem (BSet.mem_elems.2 (by simpa using hj))
  omega

/-- At the end nothing more can happen in the network. -/
theorem SyncNet.stuck {k : Nat} {x : SyncState P} {n : Net P} {dead : List (Packet sp)}
    (h : SyncNet g k x n dead) (hf : x.Full g) (hq : x.queue.isEmpty = true) : ∀ n', ¬ NetStep g n n' := by
  have hwire := h.wire
  rw [(Queue.isEmpty_iff h.queue).1 hq] at hwire
  intro n' hs
  have hrun : ∀ i s a, n.node i = some (.running s a) → a.canFinalize = .notYet := by
    intro i s a hn
    rw [h.node] at hn
    cases hst : x.states.get? i with
    | none => rw [hst] at hn; cases hn
    | some st =>
      rw [hst] at hn
      cases st with
      | finished r => cases hn
      | inProgress s' a' =>
        cases hn
        exact h.waits _ _ _ hst
  cases hs with
  | @start i _ _ hi hn =>
    obtain ⟨st, hst⟩ := BMap.contains_iff.1 (hf i hi)
    rw [h.node, hst] at hn
    cases hn
  | @tick i st st' rng out hn hs =>
    cases st with
    | done r => simp [Manul.step] at hs
    | running s a => simp [Manul.step, hrun _ _ _ hn] at hs
  | @deliver st st' p w w' out hw hn hs =>
    obtain ⟨r, hr⟩ := h.dead p (by
      have : p ∈ n.wire := by rw [hw]; simp
      simpa using hwire.subset this)
    rw [hr] at hn
    cases hn
    simp [Manul.step] at hs

/-- The end of `run_sync` of a regular group: nothing more can happen in the network. -/
theorem RunSync.net (rg : g.Regular B d) {l : List sp.Id} (hl : g.Enum l) {o : Except SyncErr (BMap sp.Id (Report P))}
    (h : RunSync g.sid (g.nodes l) o) :
    (∃ (y : SyncState P) (k : Nat) (n : Net P) (dead : List (Packet sp)), SyncNet g k y n dead ∧ y.Full g ∧
      y.queue.isEmpty = true ∧ Nonempty sp.Rng ∧
      ((∃ e, reportsOf y.states = .error e ∧ o = .error (.local e)) ∨ ∃ r, reportsOf y.states = .ok r ∧ o = .ok r)) ∨
    (o = .error .emptyRange ∧ ∀ i, g.parties.contains i = true → d i = 0) := by
  have hend : ∀ (x y : SyncState P) k n, SyncNet g k x n [] → x.Full g → x.queue.isEmpty = false → DeliveryLoop x (.ok y) →
      ∃ (k : Nat) (n : Net P) (dead : List (Packet sp)), SyncNet g k y n dead ∧ y.Full g ∧ y.queue.isEmpty = true ∧ Nonempty sp.Rng := by
    intro x y k n hx hf hq hd
    obtain ⟨x', k', n', dead', he, hx', hf', hq'⟩ := SyncNet.loop rg hd hx hf hq
    cases he
    exact ⟨k', n', dead', hx', hf', hq', hx.rng rg hq⟩
  cases h with
  | setupErr hs =>
    obtain ⟨x, k, n, he, -⟩ := SyncNet.ready rg hl hs
    cases he
  | @loopErr x e hs hd =>
    obtain ⟨x', k, n, he, hx, hf, hdl⟩ := SyncNet.ready rg hl hs
    cases he
    cases hq : x.queue.isEmpty with
    | false =>
      obtain ⟨_, _, _, _, he, -⟩ := SyncNet.loop rg hd hx hf hq
      cases he
    | true =>
      refine Or.inr ⟨?_, hdl hq⟩
      cases loop_empty hx.queue hq hd
      rfl
  | @reportErr x y e hs hd hr =>
    obtain ⟨x', k, n, he, hx, hf, -⟩ := SyncNet.ready rg hl hs
    cases he
    cases hq : x.queue.isEmpty with
    | false =>
      obtain ⟨k, n, dead, h1, h2, h3, h4⟩ := hend x y k n hx hf hq hd
      exact Or.inl ⟨y, k, n, dead, h1, h2, h3, h4, Or.inl ⟨e, hr, rfl⟩⟩
    | true => cases loop_empty hx.queue hq hd
  | @ok x y r hs hd hr =>
    obtain ⟨x', k, n, he, hx, hf, -⟩ := SyncNet.ready rg hl hs
    cases he
    cases hq : x.queue.isEmpty with
    | false =>
      obtain ⟨k, n, dead, h1, h2, h3, h4⟩ := hend x y k n hx hf hq hd
      exact Or.inl ⟨y, k, n, dead, h1, h2, h3, h4, Or.inr ⟨r, hr, rfl⟩⟩
    | true => cases loop_empty hx.queue hq hd

/-- `run_sync` of a regular group can run to its end. -/
theorem RunSync.exists (rg : g.Regular B d) (rng : sp.Rng) {l : List sp.Id} (hl : g.Enum l) :
    ∃ o, RunSync g.sid (g.nodes l) o := by
  obtain ⟨o, hs⟩ := SyncNet.init.setup_exists rg rng hl.1 (fun i hi => ⟨(hl.2 i).1 hi, rfl⟩)
  obtain ⟨x, k, n, he, hx, hf, -⟩ := SyncNet.ready rg hl hs
  subst he
  cases hq : x.queue.isEmpty with
  | true =>
    have hp : x.queue.pop 0 = none := (Queue.pop_none hx.queue).2 hq
    exact ⟨_, .loopErr hs (.err (.empty hp))⟩
  | false =>
    obtain ⟨o, hd⟩ := hx.loop_exists rg rng (B + 1) hf hq (by omega)
    cases o with
    | error e => exact ⟨_, .loopErr hs hd⟩
    | ok y =>
      cases hr : reportsOf y.states with
      | error e => exact ⟨_, .reportErr hs hd hr⟩
      | ok r => exact ⟨_, .ok hs hd hr⟩

end Manul
