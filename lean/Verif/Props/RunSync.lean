import Verif.Lemmas.RunSync
import Verif.Props.Exec

/-!
# The synchronous runner

* C44: its queue returns every message exactly once, and in ordered mode keeps the order of each sender.  Popping from an
  empty queue panics, which `run_sync` does if the parties start without sending anything.
-/

namespace Manul

variable {sp : SP} {P : Proto sp}

/-- **C44.** When the queue is empty, it has returned exactly the messages pushed, each once. -/
theorem C44_exactly_once (isOrdered : Bool) (ops : List (QOp sp)) (out : List (RoundMsg sp)) (q : Queue sp)
    (h : (Queue.new sp isOrdered).run ops = some (out, q)) (he : q.isEmpty = true) : out.Perm (pushed ops) := by
  obtain ⟨h1, h2, -⟩ := Queue.new_ok (sp := sp) isOrdered
  obtain ⟨k1, k2, -, -⟩ := Queue.run_ok h1 h
  rw [h2, (Queue.isEmpty_iff k1).1 he] at k2
  simpa using k2.symm

/-- **C44.** Nothing gets lost: after any history, as many `pop`s as there are messages not yet returned, with any choices,
return these and leave the queue empty. -/
theorem C44_drains (isOrdered : Bool) (ops : List (QOp sp)) (out : List (RoundMsg sp)) (q : Queue sp)
    (h : (Queue.new sp isOrdered).run ops = some (out, q)) :
    out.length ≤ (pushed ops).length ∧
    ∀ choices : List Nat, out.length + choices.length = (pushed ops).length →
      ∃ out' q', q.run (choices.map .pop) = some (out', q') ∧ q'.isEmpty = true ∧ (out ++ out').Perm (pushed ops) := by
  obtain ⟨h1, h2, -⟩ := Queue.new_ok (sp := sp) isOrdered
  obtain ⟨k1, k2, -, -⟩ := Queue.run_ok h1 h
  rw [h2] at k2
  have hlen := k2.length_eq
  simp only [List.nil_append, List.length_append] at hlen
  refine ⟨by omega, ?_⟩
  intro choices hc
  obtain ⟨out', q', e1, e2⟩ := Queue.drain k1 choices (by omega)
  refine ⟨out', q', e1, e2, ?_⟩
  have hall : (Queue.new sp isOrdered).run (ops ++ choices.map .pop) = some (out ++ out', q') := by
    rw [Queue.run_append, h]
    simp only [e1]
  have := C44_exactly_once isOrdered _ _ _ hall e2
  rwa [Queue.pushed_append, Queue.pushed_pops, List.append_nil] at this

/-- **C44.** In ordered mode the messages of each sender come out in the order in which they were pushed. -/
theorem C44_sender_order (ops : List (QOp sp)) (out : List (RoundMsg sp)) (q : Queue sp)
    (h : (Queue.new sp true).run ops = some (out, q)) (x : sp.Id) : bySender x out <+: bySender x (pushed ops) := by
  obtain ⟨h1, h2, h3⟩ := Queue.new_ok (sp := sp) true
  obtain ⟨-, -, -, k4⟩ := Queue.run_ok h1 h
  have := k4 h3 x
  refine ⟨q.next x, ?_⟩
  rw [← this]
  simp [Queue.new, Queue.next]

/-- **C44.** `pop` panics exactly on the empty queue, that is, when everything pushed has been returned. -/
theorem C44_pop_panics (isOrdered : Bool) (ops : List (QOp sp)) (out : List (RoundMsg sp)) (q : Queue sp)
    (h : (Queue.new sp isOrdered).run ops = some (out, q)) (choice : Nat) :
    (q.pop choice = none ↔ q.isEmpty = true) ∧ (q.isEmpty = true ↔ out.length = (pushed ops).length) := by
  obtain ⟨h1, h2, -⟩ := Queue.new_ok (sp := sp) isOrdered
  obtain ⟨k1, k2, -, -⟩ := Queue.run_ok h1 h
  rw [h2] at k2
  have hlen := k2.length_eq
  simp only [List.nil_append, List.length_append] at hlen
  refine ⟨Queue.pop_none k1, ?_⟩
  rw [Queue.isEmpty_iff k1, ← List.length_eq_zero_iff]
  omega

/-- **C44.** The random choice can bring out any message allowed: without order, every message not yet returned; in ordered
mode, the next message of every sender. -/
theorem C44_any_next (isOrdered : Bool) (ops : List (QOp sp)) (out : List (RoundMsg sp)) (q : Queue sp)
    (h : (Queue.new sp isOrdered).run ops = some (out, q)) (x : RoundMsg sp) (rest : List (RoundMsg sp))
    (hx : (isOrdered = true ∧ bySender x.src (pushed ops) = bySender x.src out ++ x :: rest) ∨
      (isOrdered = false ∧ (pushed ops).Perm (out ++ x :: rest))) :
    ∃ choice q', q.pop choice = some (x, q') := by
  obtain ⟨h1, h2, h3⟩ := Queue.new_ok (sp := sp) isOrdered
  obtain ⟨k1, k2, k3, k4⟩ := Queue.run_ok h1 h
  refine Queue.pop_any (rest := rest) k1 ?_
  rcases hx with ⟨rfl, hx⟩ | ⟨rfl, hx⟩
  · left
    refine ⟨k3.trans h3, ?_⟩
    have := k4 h3 x.src
    rw [hx, show (Queue.new sp true).next x.src = [] from rfl, List.nil_append] at this
    exact (List.append_cancel_left this).symm
  · right
    refine ⟨k3.trans h3, ?_⟩
    rw [h2, List.nil_append] at k2
    exact (List.perm_append_left_iff out).1 (hx.symm.trans k2) |>.mem_iff.1 (List.mem_cons_self ..)

/-- **C44.** What `len` counts: without order the messages not yet returned; in ordered mode the senders that have some left, not
the messages. -/
theorem C44_len (isOrdered : Bool) (ops : List (QOp sp)) (out : List (RoundMsg sp)) (q : Queue sp)
    (h : (Queue.new sp isOrdered).run ops = some (out, q)) :
    (isOrdered = false → out.length + q.len = (pushed ops).length) ∧
    (isOrdered = true → ∀ ids : List sp.Id, ids.Nodup → (∀ x, x ∈ ids ↔ bySender x out ≠ bySender x (pushed ops)) →
      q.len = ids.length) := by
  obtain ⟨h1, h2, h3⟩ := Queue.new_ok (sp := sp) isOrdered
  obtain ⟨k1, k2, k3, k4⟩ := Queue.run_ok h1 h
  rw [h3] at k3 k4
  constructor
  · rintro rfl
    cases q with
    | ordered m => cases k3
    | unordered l =>
      have := k2.length_eq
      rw [h2] at this
      simp only [List.nil_append, List.length_append, Queue.contents] at this
      simp only [Queue.len]
      omega
  · rintro rfl ids hn hids
    cases q with
    | unordered l => cases k3
    | ordered m =>
      have hp : (m.toList.map (·.1)).Perm ids := by
        refine (List.perm_ext_iff_of_nodup m.toList_nodupKeys hn).2 (fun x => ?_)
        rw [hids]
        have hx := k4 rfl x
        rw [show (Queue.new sp true).next x = [] from rfl, List.nil_append,
          show (Queue.ordered m).next x = (m.get? x).getD [] from rfl] at hx
        rw [hx, Ne, List.self_eq_append_right]
        constructor
        · intro hm
          obtain ⟨e, he, rfl⟩ := List.mem_map.1 hm
          have hg := BMap.mem_toList'.1 he
          rw [hg]
          exact (k1 _ _ hg).1
        · intro hne
          cases hg : m.get? x with
          | none => simp [hg] at hne
          | some l => exact List.mem_map.2 ⟨(x, l), BMap.mem_toList.2 hg, rfl⟩
      rw [← hp.length_eq]
      simp [Queue.len, BMap.size]

/-! ### `run_sync` -/

/-- A node of `run_sync`. -/
def GoodNode (sid : Bytes) (nodes : List (sp.Signer × EntryPoint P)) (id : sp.Id) (st : NodeState P) : Prop :=
  RunsTo sid nodes id st.toRun ∧ ∀ s a, st = .inProgress s a → a.canFinalize = .notYet

/-- The invariant of `run_sync`. -/
def SyncInv (sid : Bytes) (nodes : List (sp.Signer × EntryPoint P)) (x : SyncState P) : Prop :=
  x.queue.Ok ∧ ∀ id st, x.states.get? id = some st → GoodNode sid nodes id st

theorem RunsTo.propagate {sid : Bytes} {nodes : List (sp.Signer × EntryPoint P)} {id : sp.Id} {s : Session P} {a : Accum P}
    {st : NodeState P} {rest : List (RoundMsg sp)} (h : RunsTo sid nodes id (.running s a))
    (hp : Propagate s a (.ok (st, rest))) : GoodNode sid nodes id st := by
  obtain ⟨signer, ep, rng, s₀, h1, h2, h3, h4⟩ := h
  have := hp.reach h4
  exact ⟨⟨signer, ep, rng, s₀, h1, h2, h3, this.1⟩, this.2⟩

theorem addNode_inv {sid : Bytes} {nodes : List (sp.Signer × EntryPoint P)} {signer : sp.Signer} {ep : EntryPoint P}
    {x x' : SyncState P} (hm : (signer, ep) ∈ nodes) (h : AddNode sid signer ep x (.ok x')) (hi : SyncInv sid nodes x) :
    SyncInv sid nodes x' ∧ ∀ id, x'.states.contains id = (decide (id = sp.verifyingKey signer) || x.states.contains id) := by
  cases h with
  | @ok rng rng' s a ms st rest hn hs hp =>
    refine ⟨⟨(Queue.extend_ok (Queue.extend_ok hi.1 _).1 _).1, ?_⟩, ?_⟩
    · intro id st' hst
      rw [BMap.get?_insert] at hst
      split at hst
      · rename_i e
        simp only [Option.some.injEq] at hst
        subst hst
        refine RunsTo.propagate ⟨signer, ep, rng, s, hm, e.symm, hn, ?_⟩ hp
        have := Reach.start (s₀ := s) rng'
        simpa [start, enterRound, startRound, hs, foldE] using this
      · exact hi.2 id st' hst
    · intro id
      rw [BMap.contains_insert]

theorem setup_inv {sid : Bytes} {nodes l : List (sp.Signer × EntryPoint P)} {x : SyncState P}
    {o : Except LErr (SyncState P)} (h : Setup sid x l o) (hl : ∀ e ∈ l, e ∈ nodes) (hi : SyncInv sid nodes x) :
    ∀ x', o = .ok x' → SyncInv sid nodes x' ∧
      ∀ id, x'.states.contains id = true ↔ (x.states.contains id = true ∨ ∃ e ∈ l, sp.verifyingKey e.1 = id) := by
  induction h with
  | nil =>
    rintro x' ⟨⟩
    exact ⟨hi, by simp⟩
  | @cons x y signer ep l o ha _ ih =>
    intro x' hx'
    obtain ⟨i1, i2⟩ := addNode_inv (hl _ (List.mem_cons_self ..)) ha hi
    obtain ⟨j1, j2⟩ := ih (fun e he => hl e (List.mem_cons_of_mem _ he)) i1 x' hx'
    refine ⟨j1, ?_⟩
    intro id
    rw [j2 id, i2 id]
    simp only [Bool.or_eq_true, decide_eq_true_eq, List.mem_cons, exists_eq_or_imp]
    constructor
    · rintro ((e | h) | h)
      · exact .inr (.inl e.symm)
      · exact .inl h
      · exact .inr (.inr h)
    · rintro (h | (e | h))
      · exact .inl (.inr h)
      · exact .inl (.inl e.symm)
      · exact .inr h
  | err _ =>
    rintro x' ⟨⟩

theorem deliverOne_inv {sid : Bytes} {nodes : List (sp.Signer × EntryPoint P)} {x x' : SyncState P}
    (h : DeliverOne x (.ok x')) (hi : SyncInv sid nodes x) :
    SyncInv sid nodes x' ∧ ∀ id, x'.states.contains id = x.states.contains id := by
  cases h with
  | ignored hp hs => exact ⟨⟨(Queue.pop_ok hi.1 hp).1, hi.2⟩, fun _ => rfl⟩
  | @ok choice m q s a a' st rest hp hs hd hpr =>
    refine ⟨⟨(Queue.extend_ok (Queue.pop_ok hi.1 hp).1 _).1, ?_⟩, ?_⟩
    · intro id st' hst
      rw [BMap.get?_insert] at hst
      split at hst
      · rename_i e
        subst e
        simp only [Option.some.injEq] at hst
        subst hst
        obtain ⟨⟨signer, ep, rng, s₀, h1, h2, h3, h4⟩, hc⟩ := hi.2 _ _ hs
        refine RunsTo.propagate ⟨signer, ep, rng, s₀, h1, h2, h3, ?_⟩ hpr
        refine Reach.step (ev := .deliver m.src m.message) (out := []) h4 ?_
        simp [NodeState.toRun, step, hc _ _ rfl, hd]
      · exact hi.2 id st' hst
    · intro id
      rw [BMap.contains_insert]
      by_cases e : id = m.dest
      · subst e
        simp [BMap.contains, hs]
      · simp [e]

theorem loop_inv {sid : Bytes} {nodes : List (sp.Signer × EntryPoint P)} {x : SyncState P}
    {o : Except SyncErr (SyncState P)} (h : DeliveryLoop x o) (hi : SyncInv sid nodes x) :
    ∀ x', o = .ok x' → SyncInv sid nodes x' ∧ (∀ id, x'.states.contains id = x.states.contains id) ∧
      x'.queue.isEmpty = true := by
  induction h with
  | err _ => rintro x' ⟨⟩
  | last hd he =>
    rintro x' ⟨⟩
    obtain ⟨i1, i2⟩ := deliverOne_inv hd hi
    exact ⟨i1, i2, he⟩
  | more hd _ _ ih =>
    intro x' hx'
    obtain ⟨i1, i2⟩ := deliverOne_inv hd hi
    obtain ⟨j1, j2, j3⟩ := ih i1 x' hx'
    exact ⟨j1, fun id => (j2 id).trans (i2 id), j3⟩

/-- The delivery loop fails on an empty queue only at its first delivery. -/
theorem loop_panic {sid : Bytes} {nodes : List (sp.Signer × EntryPoint P)} {x : SyncState P}
    {o : Except SyncErr (SyncState P)} (h : DeliveryLoop x o) (hi : SyncInv sid nodes x) (ho : o = .error .emptyRange) :
    x.queue.isEmpty = true := by
  induction h with
  | @err x e hd =>
    simp only [Except.error.injEq] at ho
    subst ho
    cases hd with
    | empty hp => exact (Queue.pop_none hi.1).1 hp
  | last hd he => cases ho
  | @more x x' o hd hne _ ih =>
    rw [ih (deliverOne_inv hd hi).1 ho] at hne
    cases hne

theorem init_inv (sid : Bytes) (nodes : List (sp.Signer × EntryPoint P)) :
    SyncInv sid nodes ⟨Queue.new sp true, BMap.empty⟩ := by
  refine ⟨(Queue.new_ok true).1, ?_⟩
  intro id st h
  simp at h

theorem mapE_keys {K A B : Type} {f : A → Except LErr B} {g : K × A → Except LErr (K × B)}
    (hg : ∀ k a, g (k, a) = match f a with | .error err => .error err | .ok r => .ok (k, r)) :
    ∀ {l : List (K × A)} {l' : List (K × B)}, mapE g l = .ok l' →
      l'.map (·.1) = l.map (·.1) ∧ ∀ k b, (k, b) ∈ l' → ∃ a, (k, a) ∈ l ∧ f a = .ok b := by
  intro l
  induction l with
  | nil =>
    intro l' h
    simp only [mapE, Except.ok.injEq] at h
    subst h
    exact ⟨rfl, by simp⟩
  | cons e l ih =>
    intro l' h
    obtain ⟨k, a⟩ := e
    simp only [mapE, hg] at h
    cases hf : f a with
    | error err => simp [hf] at h
    | ok b =>
      simp only [hf] at h
      split at h
      · simp at h
      · rename_i l2 hl2
        simp only [Except.ok.injEq] at h
        subst h
        obtain ⟨i1, i2⟩ := ih hl2
        refine ⟨by simp [i1], ?_⟩
        intro k' b' hm
        rcases List.mem_cons.1 hm with hm | hm
        · cases hm
          exact ⟨a, List.mem_cons_self .., hf⟩
        · obtain ⟨a', h1, h2⟩ := i2 k' b' hm
          exact ⟨a', List.mem_cons_of_mem _ h1, h2⟩

/-- **C44.** `run_sync` reports for exactly the given nodes, and each report is one that `run_session` of that node can
return. -/
theorem C44_reports (sid : Bytes) (nodes : List (sp.Signer × EntryPoint P)) (reports : BMap sp.Id (Report P))
    (h : RunSync sid nodes (.ok reports)) :
    (∀ id, reports.contains id = true ↔ ∃ e ∈ nodes, sp.verifyingKey e.1 = id) ∧
    ∀ id r, reports.get? id = some r → RunsTo sid nodes id (.done (.ok r)) := by
  cases h with
  | @ok x y _ hs hl hr =>
    obtain ⟨i1, i2⟩ := setup_inv hs (fun e he => he) (init_inv sid nodes) x rfl
    obtain ⟨j1, j2, -⟩ := loop_inv hl i1 y rfl
    unfold reportsOf at hr
    split at hr
    · simp at hr
    · rename_i l hm
      simp only [Except.ok.injEq] at hr
      subst hr
      obtain ⟨k1, k2⟩ := mapE_keys (f := NodeState.report) (fun _ a => by cases h : a.report <;> simp [h]) hm
      constructor
      · intro id
        rw [BMap.contains_ofList, k1]
        have := i2 id
        rw [← j2 id, BMap.contains_iff] at this
        simp only [BMap.contains_empty, Bool.false_eq_true, false_or] at this
        rw [← this, List.mem_map]
        constructor
        · rintro ⟨⟨k, st⟩, h1, rfl⟩
          exact ⟨st, BMap.mem_toList.1 h1⟩
        · rintro ⟨st, h1⟩
          exact ⟨(id, st), BMap.mem_toList.2 h1, rfl⟩
      · intro id r hget
        rw [BMap.get?_ofList_nodup (by rw [k1]; exact y.states.toList_nodupKeys)] at hget
        obtain ⟨st, h1, h2⟩ := k2 _ _ hget
        obtain ⟨⟨signer, ep, rng, s₀, e1, e2, e3, e4⟩, hc⟩ := j1.2 _ _ (BMap.mem_toList.1 h1)
        refine ⟨signer, ep, rng, s₀, e1, e2, e3, ?_⟩
        cases st with
        | finished r' =>
          simp only [NodeState.report, Except.ok.injEq] at h2
          subst h2
          exact e4
        | inProgress s a =>
          refine Reach.step (ev := .cancel) (out := []) e4 ?_
          have h2' : s.terminateDueToErrors a = .ok r := h2
          simp [NodeState.toRun, step, hc _ _ rfl, h2']

/-- **C44 (partial).** `run_sync` panics on an empty queue only if no node has sent anything at the start.  Missing: that this
cannot happen; it does, see `C44_no_messages_violation`. -/
theorem C44_run_sync_panic_partial (sid : Bytes) (nodes : List (sp.Signer × EntryPoint P))
    (h : RunSync sid nodes (.error .emptyRange)) :
    ∃ x, Setup sid ⟨Queue.new sp true, BMap.empty⟩ nodes (.ok x) ∧ x.queue.isEmpty = true := by
  cases h with
  | @loopErr x _ hs hl =>
    exact ⟨x, hs, loop_panic hl (setup_inv hs (fun e he => he) (init_inv sid nodes) x rfl).1 rfl⟩

/-- Nodes starting without sending anything make `run_sync` panic. -/
theorem run_sync_panics {sid : Bytes} {nodes : List (sp.Signer × EntryPoint P)} {x : SyncState P}
    (hs : Setup sid ⟨Queue.new sp true, BMap.empty⟩ nodes (.ok x)) (he : x.queue.isEmpty = true) :
    RunSync sid nodes (.error .emptyRange) := by
  refine .loopErr hs (.err (.empty (choice := 0) ?_))
  exact (Queue.pop_none (setup_inv hs (fun e he => he) (init_inv sid nodes) x rfl).1.1).2 he

/-- **C44.** So the panic is possible exactly if the first parts of the nodes can end without a message in the queue. -/
theorem C44_panic_exact (sid : Bytes) (nodes : List (sp.Signer × EntryPoint P)) :
    RunSync sid nodes (.error .emptyRange) ↔ ∃ x, Setup sid ⟨Queue.new sp true, BMap.empty⟩ nodes (.ok x) ∧ x.queue.isEmpty = true :=
  ⟨C44_run_sync_panic_partial sid nodes, fun ⟨_, hs, he⟩ => run_sync_panics hs he⟩

/-- **C44 violated.** `run_sync` without nodes panics, whatever the protocol, instead of returning an empty map. -/
theorem C44_no_messages_violation (sid : Bytes) : RunSync sid ([] : List (sp.Signer × EntryPoint P)) (.error .emptyRange) :=
  run_sync_panics .nil rfl

/-! ### Examples -/

/-- `propagate`, executed with a fixed RNG; `none` if it fails or runs out of fuel. -/
def propagateExec (rng : sp.Rng) : Nat → Session P → Accum P → Option (NodeState P × List (RoundMsg sp))
  | 0, _, _ => none
  | n + 1, s, a =>
    match a.canFinalize with
    | .notYet => some (.inProgress s a, [])
    | .never => match s.terminateDueToErrors a with
      | .ok r => some (.finished r, [])
      | .error _ => none
    | .yes => match s.finalizeRound (sp.fork rng 0) a with
      | .error _ => none
      | .ok (.finished r) => some (.finished r, [])
      | .ok (.anotherRound s' cached) => match foldE (applyVerified s') s'.makeAccum cached with
        | .error _ => none
        | .ok a1 => match sendAll s' (sp.fork rng 1) 0 a1 s'.destinations.elems with
          | .error _ => none
          | .ok (a2, ms) => match propagateExec rng n s' a2 with
            | none => none
            | some (st, rest) => some (st, addressed s' ms ++ rest)

theorem propagateExec_sound {rng : sp.Rng} {n : Nat} {s : Session P} {a : Accum P} {y : NodeState P × List (RoundMsg sp)}
    (h : propagateExec rng n s a = some y) : Propagate s a (.ok y) := by
  induction n generalizing s a y with
  | zero => simp [propagateExec] at h
  | succ n ih =>
    simp only [propagateExec] at h
    cases hc : a.canFinalize with
    | notYet =>
      simp only [hc, Option.some.injEq] at h
      subst h
      exact .notYet hc
    | never =>
      simp only [hc] at h
      cases ht : s.terminateDueToErrors a with
      | error e => simp [ht] at h
      | ok r =>
        simp only [ht, Option.some.injEq] at h
        subst h
        exact .never hc ht
    | yes =>
      simp only [hc] at h
      cases hf : s.finalizeRound (sp.fork rng 0) a with
      | error e => simp [hf] at h
      | ok o =>
        cases o with
        | finished r =>
          simp only [hf, Option.some.injEq] at h
          subst h
          exact .finished hc hf
        | anotherRound s' cached =>
          simp only [hf] at h
          cases h1 : foldE (applyVerified s') s'.makeAccum cached with
          | error e => simp [h1] at h
          | ok a1 =>
            simp only [h1] at h
            cases h2 : sendAll s' (sp.fork rng 1) 0 a1 s'.destinations.elems with
            | error e => simp [h2] at h
            | ok y2 =>
              obtain ⟨a2, ms⟩ := y2
              simp only [h2] at h
              cases h3 : propagateExec rng n s' a2 with
              | none => simp [h3] at h
              | some z =>
                obtain ⟨st, rest⟩ := z
                simp only [h3, Option.some.injEq] at h
                subst h
                exact .next hc hf h1 h2 (ih h3)

/-- The loop over the entry points, executed. -/
def setupExec (rng : sp.Rng) (n : Nat) (sid : Bytes) : SyncState P → List (sp.Signer × EntryPoint P) → Option (SyncState P)
  | x, [] => some x
  | x, (signer, ep) :: l =>
    match Session.new rng sid signer ep with
    | .error _ => none
    | .ok s => match sendAll s rng 0 s.makeAccum s.destinations.elems with
      | .error _ => none
      | .ok (a, ms) => match propagateExec rng n s a with
        | none => none
        | some (st, rest) =>
          setupExec rng n sid ⟨(x.queue.extend (addressed s ms)).extend rest, x.states.insert (sp.verifyingKey signer) st⟩ l

theorem setupExec_sound {rng : sp.Rng} {n : Nat} {sid : Bytes} {l : List (sp.Signer × EntryPoint P)} {x x' : SyncState P}
    (h : setupExec rng n sid x l = some x') : Setup sid x l (.ok x') := by
  induction l generalizing x with
  | nil =>
    simp only [setupExec, Option.some.injEq] at h
    subst h
    exact .nil
  | cons e l ih =>
    obtain ⟨signer, ep⟩ := e
    simp only [setupExec] at h
    cases h1 : Session.new rng sid signer ep with
    | error e => simp [h1] at h
    | ok s =>
      simp only [h1] at h
      cases h2 : sendAll s rng 0 s.makeAccum s.destinations.elems with
      | error e => simp [h2] at h
      | ok y =>
        obtain ⟨a, ms⟩ := y
        simp only [h2] at h
        cases h3 : propagateExec rng n s a with
        | none => simp [h3] at h
        | some z =>
          obtain ⟨st, rest⟩ := z
          simp only [h3] at h
          exact .cons (.ok h1 h2 (propagateExec_sound h3)) (ih h)

/-- The delivery loop, executed with the given random choices. -/
def loopExec (rng : sp.Rng) (n : Nat) : List Nat → SyncState P → Option (SyncState P)
  | [], _ => none
  | c :: cs, x =>
    match x.queue.pop c with
    | none => none
    | some (m, q) => match x.states.get? m.dest with
      | none => none
      | some (.finished _) => if q.isEmpty then some ⟨q, x.states⟩ else loopExec rng n cs ⟨q, x.states⟩
      | some (.inProgress s a) => match deliver s a m.src m.message with
        | .error _ => none
        | .ok a' => match propagateExec rng n s a' with
          | none => none
          | some (st, rest) =>
            if (q.extend rest).isEmpty then some ⟨q.extend rest, x.states.insert m.dest st⟩
            else loopExec rng n cs ⟨q.extend rest, x.states.insert m.dest st⟩

theorem loopExec_sound {rng : sp.Rng} {n : Nat} {cs : List Nat} {x x' : SyncState P} (h : loopExec rng n cs x = some x') :
    DeliveryLoop x (.ok x') := by
  induction cs generalizing x with
  | nil => simp [loopExec] at h
  | cons c cs ih =>
    simp only [loopExec] at h
    cases h1 : x.queue.pop c with
    | none => simp [h1] at h
    | some y =>
      obtain ⟨m, q⟩ := y
      simp only [h1] at h
      cases h2 : x.states.get? m.dest with
      | none => simp [h2] at h
      | some st =>
        cases st with
        | finished r =>
          simp only [h2] at h
          split at h
          · rename_i he
            simp only [Option.some.injEq] at h
            subst h
            exact .last (.ignored h1 h2) he
          · rename_i he
            exact .more (.ignored h1 h2) (by simpa using he) (ih h)
        | inProgress s a =>
          simp only [h2] at h
          cases h3 : deliver s a m.src m.message with
          | error e => simp [h3] at h
          | ok a' =>
            simp only [h3] at h
            cases h4 : propagateExec rng n s a' with
            | none => simp [h4] at h
            | some z =>
              obtain ⟨st, rest⟩ := z
              simp only [h4] at h
              split at h
              · rename_i he
                simp only [Option.some.injEq] at h
                subst h
                exact .last (.ok h1 h2 h3 (propagateExec_sound h4)) he
              · rename_i he
                exact .more (.ok h1 h2 h3 (propagateExec_sound h4)) (by simpa using he) (ih h)

/-- Nodes of the example protocol. -/
def syncNodes (echo : Bool) (last : U8) (parties : List U8) : List (toy.Signer × EntryPoint (demo echo last).wrap) :=
  parties.map (fun x => (x, demoEntry echo last (BSet.ofList parties)))

/-- A single node without destinations finishes at once, and `run_sync` panics. -/
example : RunSync (sp := toy) [9] (syncNodes false 1 [1]) (.error .emptyRange) := by
  have h : (match setupExec (sp := toy) (0 : Nat) 9 [9] ⟨Queue.new toy true, BMap.empty⟩ (syncNodes false 1 [1]) with
    | none => false
    | some x => x.queue.isEmpty) = true := by decide +kernel
  split at h
  · cases h
  · rename_i x hx
    exact run_sync_panics (setupExec_sound hx) h

/-- Two nodes with an echo round, under a choice of the delivery order: both have a result. -/
example : ∃ reports, RunSync (sp := toy) [9] (syncNodes true 1 [1, 2]) (.ok reports) ∧
    ∃ v, executionResults reports = .ok v := by
  have h : (match setupExec (sp := toy) (0 : Nat) 9 [9] ⟨Queue.new toy true, BMap.empty⟩ (syncNodes true 1 [1, 2]) with
    | none => false
    | some x => match loopExec (sp := toy) (0 : Nat) 9 [1, 0, 1, 0, 1, 0] x with
      | none => false
      | some y => match reportsOf y.states with
        | .error _ => false
        | .ok r => match executionResults r with
          | .ok _ => true
          | .error _ => false) = true := by decide +kernel
  split at h
  · cases h
  · rename_i x hx
    split at h
    · cases h
    · rename_i y hy
      split at h
      · cases h
      · rename_i r hr
        split at h
        · rename_i v hv
          exact ⟨r, .ok (setupExec_sound hx) (loopExec_sound hy) hr, v, hv⟩
        · cases h

/-- A history in ordered mode: two senders, interleaved. -/
example : ∃ (x y z : RoundMsg toy) (out : List (RoundMsg toy)) (q : Queue toy), x.src ≠ y.src ∧ x.src = z.src ∧
    (Queue.new toy true).run [.push x, .push y, .push z, .pop 1, .pop 0, .pop 7] = some (out, q) ∧ q.isEmpty = true ∧
    out = [y, x, z] := by
  have h : onOk (demoMsg 1 [9] (RoundId.new 1) 2 (some [5]) none none) (fun _ => true) = true := by decide +kernel
  obtain ⟨m, -, -⟩ := onOk_iff.1 h
  exact ⟨⟨(1 : U8), (2 : U8), m⟩, ⟨(2 : U8), (1 : U8), m⟩, ⟨(1 : U8), (3 : U8), m⟩, _,
    .ordered BMap.empty, differs_ne (x := 1) (y := 2) rfl, rfl, by with_unfolding_all rfl, rfl, rfl⟩

/-- Three messages of two senders: the length is 2 in ordered mode, 3 otherwise. -/
example : ∃ (x y z : RoundMsg toy) (q q' : Queue toy), (Queue.new toy true).run [.push x, .push y, .push z] = some ([], q) ∧
    (Queue.new toy false).run [.push x, .push y, .push z] = some ([], q') ∧ q.len = 2 ∧ q'.len = 3 := by
  have h : onOk (demoMsg 1 [9] (RoundId.new 1) 2 (some [5]) none none) (fun _ => true) = true := by decide +kernel
  obtain ⟨m, -, -⟩ := onOk_iff.1 h
  exact ⟨⟨(1 : U8), (2 : U8), m⟩, ⟨(2 : U8), (1 : U8), m⟩, ⟨(1 : U8), (3 : U8), m⟩, _, _, by with_unfolding_all rfl,
    by with_unfolding_all rfl, by with_unfolding_all rfl, by with_unfolding_all rfl⟩

end Manul
