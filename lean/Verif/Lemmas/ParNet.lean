import Verif.Model.ParNet
import Verif.Lemmas.ParRun
import Verif.Lemmas.RunAsync

/-! # A network of parties using `par_run_session` simulates one of parties using `run_session` -/

namespace Manul

variable {sp : SP} {P : Proto sp} {sc : Scheme P}

/-! ### A round -/

/-- What remains to be done leads to the accumulator of the sequential driver. -/
theorem sim_pending {s : Session P} {rng : sp.Rng} {cached : List (VerifiedMessage sp)} {l : List (sp.Id × Message sp)}
    {st : ParSt P} {b : Accum P} (hi : ParSim s rng cached l st) (hb : SeqRound s rng cached l b) (x : sp.Id) :
    Pending s st x (b.loc x) := (hi.same x _).2 ((seqRound_loc.1 hb).2 x)

/-- Joining the tasks gives the accumulator of the sequential driver. -/
theorem sim_joins {s : Session P} {rng : sp.Rng} {cached : List (VerifiedMessage sp)} {l : List (sp.Id × Message sp)}
    {st : ParSt P} {b : Accum P} (hi : ParSim s rng cached l st) (hb : SeqRound s rng cached l b) (hdone : st.tasks = []) :
    parJoin st = .ok b := by
  rw [parJoin_loc]
  refine ⟨(seqRound_loc.1 hb).1.trans hi.expecting.symm, fun x => ?_⟩
  obtain ⟨u, hu, hr⟩ := sim_pending hi hb x
  rw [hdone] at hu
  simp only [List.filter_nil, foldE, Except.ok.injEq] at hu
  subst hu
  exact hr

theorem outs_withArt {os : List (OutTask P)} {u l : Loc P} (h : foldE outLoc u os = .ok l) : ∃ v, l = u.withArt v := by
  induction os generalizing u with
  | nil =>
    simp only [foldE, Except.ok.injEq] at h
    exact ⟨u.artifact, h.symm⟩
  | cons o os ih =>
    simp only [foldE] at h
    cases ho : outLoc u o with
    | error e => simp [ho] at h
    | ok w =>
      simp only [ho] at h
      obtain ⟨m, art, -, -, rfl⟩ := outLoc_ok.1 ho
      obtain ⟨v, rfl⟩ := ih h
      exact ⟨v, rfl⟩

/-- If the sequential driver has no error of a party, the message of the party that is being processed is its first one and
is processed without an error. -/
theorem sim_task {s : Session P} {rng : sp.Rng} {cached : List (VerifiedMessage sp)} {l : List (sp.Id × Message sp)}
    {st : ParSt P} {b : Accum P} (hi : ParSim s rng cached l st) (hb : SeqRound s rng cached l b) {vm : VerifiedMessage sp}
    (hvm : vm ∈ st.tasks) (h1 : b.provable.get? vm.sender = none) (h2 : b.unprovable.get? vm.sender = none) :
    ∃ v w, (s.process vm).result = .ok v ∧ (st.accum.loc vm.sender).payload = none ∧ (st.accum.loc vm.sender).notSent = true ∧
      b.loc vm.sender = ((st.accum.loc vm.sender).withPayload (s.process vm) v).withArt w := by
  obtain ⟨u, hu, hr⟩ := sim_pending hi hb vm.sender
  obtain ⟨i, hi'⟩ := List.getElem?_of_mem hvm
  obtain ⟨h3, -, -⟩ := filter_nodup_idx (fun m : VerifiedMessage sp => m.sender) hi.tasks hi'
  rw [h3] at hu
  obtain ⟨w, hw⟩ := outs_withArt hr
  have ha : Loc.add s.transcript (s.process vm) (st.accum.loc vm.sender) = .ok u := by
    simp only [foldE] at hu
    cases ha : Loc.add s.transcript (s.process vm) (st.accum.loc vm.sender) with
    | error e => simp [ha] at hu
    | ok u' => simpa [ha] using hu
  have e1 : u.provable = none := by
    have : (b.loc vm.sender).provable = u.provable := by rw [hw]; rfl
    rw [← this]; exact h1
  have e2 : u.unprovable = none := by
    have : (b.loc vm.sender).unprovable = u.unprovable := by rw [hw]; rfl
    rw [← this]; exact h2
  obtain ⟨h4, h5, h6⟩ := add_ok ha
  have hres : ∃ v, (s.process vm).result = .ok v := by
    cases h6 with
    | payload h7 => exact ⟨_, h7⟩
    | provable _ h7 => simp at e1
    | unprovable h7 => simp at e2
  obtain ⟨v, hv⟩ := hres
  obtain ⟨-, -, rfl⟩ := (add_payload hv).1 ha
  exact ⟨v, w, hv, h4, h5, hw⟩

/-- If the sequential driver can go on with a message of a party that has made no error, so can the parallel one. -/
theorem sim_deliver {s : Session P} {rng : sp.Rng} {cached : List (VerifiedMessage sp)} {l : List (sp.Id × Message sp)}
    {st : ParSt P} {b b' : Accum P} {x : sp.Id} {m : Message sp} (hi : ParSim s rng cached l st)
    (hb : SeqRound s rng cached l b) (h1 : b.provable.get? x = none) (h2 : b.unprovable.get? x = none)
    (hd : deliver s b x m = .ok b') : Apart s st (.deliver x m) ∧ ∃ st', parOp s st (.deliver x m) = .ok st' := by
  have hl : ∃ r, Loc.deliver s x m (b.loc x) = .ok r := by
    rw [deliver_loc] at hd
    cases hr : Loc.deliver s x m (b.loc x) with
    | error e => simp [hr, liftLoc] at hd
    | ok r => exact ⟨r, rfl⟩
  obtain ⟨r, hr⟩ := hl
  have key : ∃ l1 o, Loc.pre s x m (st.accum.loc x) = .ok (l1, o) ∧ ((∃ vm ∈ st.tasks, vm.sender = x) → o.ok? = none) := by
    by_cases hex : ∃ vm ∈ st.tasks, vm.sender = x
    · obtain ⟨vm, hvm, rfl⟩ := hex
      obtain ⟨v, w, hv, h3, h4, h5⟩ := sim_task hi hb hvm h1 h2
      have h6 : b.loc vm.sender =
          ((st.accum.loc vm.sender).graft ((st.accum.loc vm.sender).withPayload (s.process vm) v)).withArt w := h5
      rw [h6] at hr
      unfold Loc.deliver at hr
      rw [pre_withArt, pre_graft] at hr
      cases hp : Loc.pre s vm.sender m (st.accum.loc vm.sender) with
      | error e => simp [hp] at hr
      | ok q =>
        obtain ⟨l1, o⟩ := q
        refine ⟨l1, o, rfl, fun _ => ?_⟩
        simp only [hp] at hr
        cases ho : o.ok? with
        | none => rfl
        | some vm' =>
          simp only [ho] at hr
          have := (add_ok hr).1
          simp [Loc.withArt, Loc.graft, Loc.withPayload] at this
    · obtain ⟨u, hu, hp⟩ := sim_pending hi hb x
      have hnt : st.tasks.filter (fun m => m.sender = x) = [] := by
        rw [List.filter_eq_nil_iff]
        intro t ht hts
        exact hex ⟨t, ht, by simpa using hts⟩
      rw [hnt] at hu
      simp only [foldE, Except.ok.injEq] at hu
      subst hu
      obtain ⟨w, hw⟩ := outs_withArt hp
      rw [hw] at hr
      unfold Loc.deliver at hr
      rw [pre_withArt] at hr
      cases hq : Loc.pre s x m (st.accum.loc x) with
      | error e => simp [hq] at hr
      | ok q =>
        obtain ⟨l1, o⟩ := q
        exact ⟨l1, o, rfl, fun h => absurd h hex⟩
  obtain ⟨l1, o, hp, ho⟩ := key
  have hpre : s.preprocess st.accum x m = .ok (st.accum.setLoc x l1, o) := by
    rw [preprocess_loc, hp]
    rfl
  refine ⟨⟨?_, ?_⟩, ?_⟩
  · rintro vm hvm rfl
    obtain ⟨v, w, hv, -⟩ := sim_task hi hb hvm h1 h2
    exact ⟨v, hv⟩
  · intro a vm' hp' vm hvm hx
    rw [hpre] at hp'
    simp only [Except.ok.injEq, Prod.mk.injEq] at hp'
    have := ho ⟨vm, hvm, hx⟩
    rw [hp'.2] at this
    simp [PreOutcome.ok?] at this
  · simp only [parOp, hpre]
    cases o.ok? with
    | none => exact ⟨_, rfl⟩
    | some vm => exact ⟨_, rfl⟩

/-- The result of a processing task can be received. -/
theorem sim_complete {s : Session P} {rng : sp.Rng} {cached : List (VerifiedMessage sp)} {l : List (sp.Id × Message sp)}
    {st : ParSt P} {b : Accum P} (hi : ParSim s rng cached l st) (hb : SeqRound s rng cached l b) {i : Nat}
    (hlt : i < st.tasks.length) :
    ∃ a, parOp s st (.complete i) = .ok { st with accum := a, tasks := st.tasks.eraseIdx i } := by
  have ht : st.tasks[i]? = some st.tasks[i] := List.getElem?_eq_getElem hlt
  simp only [parOp, ht]
  obtain ⟨h1, -, -⟩ := filter_nodup_idx (fun m : VerifiedMessage sp => m.sender) hi.tasks ht
  obtain ⟨u, h2, -⟩ := sim_pending hi hb (st.tasks[i]).sender
  rw [h1] at h2
  simp only [foldE] at h2
  simp only [Session.addProcessed]
  rw [addProcessed_loc]
  have hsx : (s.process st.tasks[i]).message.sender = (st.tasks[i]).sender := rfl
  rw [hsx]
  cases ha : Loc.add s.transcript (s.process st.tasks[i]) (st.accum.loc (st.tasks[i]).sender) with
  | error e => simp [ha] at h2
  | ok l1 => exact ⟨_, rfl⟩

/-- The result of a creation task can be received. -/
theorem sim_send {s : Session P} {rng : sp.Rng} {cached : List (VerifiedMessage sp)} {l : List (sp.Id × Message sp)}
    {st : ParSt P} {b : Accum P} (hi : ParSim s rng cached l st) (hb : SeqRound s rng cached l b) {i : Nat} {o : OutTask P}
    {m : Message sp} (ho : st.outgoing[i]? = some o) (hm : taskMessage o = some m) :
    ∃ a, parOp s st (.send i) = .ok { st with accum := a, outgoing := st.outgoing.eraseIdx i } := by
  obtain ⟨d, res⟩ := o
  cases res with
  | error e => simp [taskMessage] at hm
  | ok res =>
    obtain ⟨m', art⟩ := res
    obtain ⟨h1, -, -⟩ := filter_nodup_idx outParty hi.outs ho
    have hpty : outParty ((d, .ok (m', art)) : OutTask P) = art.destination := rfl
    rw [hpty] at h1
    have hr := sim_pending hi hb art.destination
    unfold Pending at hr
    rw [← outs_comm (add_artFree' s _), h1] at hr
    obtain ⟨u, h2, -⟩ := hr
    simp only [foldE, outLoc] at h2
    simp only [parOp, ho]
    rw [addArtifact_loc]
    cases ha : Loc.art art (st.accum.loc art.destination) with
    | error e => simp [ha] at h2
    | ok l1 => exact ⟨_, rfl⟩

/-- The messages the tasks create are those the sequential driver sends. -/
theorem creation_out {s : Session P} {rng : sp.Rng} {i : Nat} {a a' : Accum P} {ds : List sp.Id} {out : List (Message sp)}
    (h : sendAll s rng i a ds = .ok (a', out)) :
    (creationTasks s rng i ds).filterMap taskMessage = out ∧ ∀ o ∈ creationTasks s rng i ds, ∃ m, taskMessage o = some m := by
  induction ds generalizing i a out with
  | nil =>
    simp only [sendAll, Except.ok.injEq, Prod.mk.injEq] at h
    simp [creationTasks, ← h.2]
  | cons d ds ih =>
    simp only [sendAll] at h
    cases hm : s.makeMessage (sp.fork rng i) d with
    | error e => simp [hm] at h
    | ok r =>
      obtain ⟨m, art⟩ := r
      simp only [hm] at h
      cases ha : a.addArtifact art with
      | error e => simp [ha] at h
      | ok a1 =>
        simp only [ha] at h
        cases hs : sendAll s rng (i + 1) a1 ds with
        | error e => simp [hs] at h
        | ok r =>
          obtain ⟨a2, ms⟩ := r
          simp only [hs, Except.ok.injEq, Prod.mk.injEq] at h
          obtain ⟨rfl, rfl⟩ := h
          obtain ⟨h1, h2⟩ := ih hs
          constructor
          · simp [creationTasks, hm, taskMessage, h1]
          · intro o ho
            simp only [creationTasks, List.mem_cons] at ho
            rcases ho with rfl | ho
            · exact ⟨m, by simp [taskMessage, hm]⟩
            · exact h2 o ho

theorem creation_length (s : Session P) (rng : sp.Rng) (i : Nat) (ds : List sp.Id) :
    (creationTasks s rng i ds).length = ds.length := by
  induction ds generalizing i with
  | nil => rfl
  | cons d ds ih => simp [creationTasks, ih]

/-- The beginning of a round. -/
theorem sim_enter {s : Session P} {rng : sp.Rng} {cached : List (VerifiedMessage sp)} {s' : Session P} {a : Accum P}
    {out : List (Message sp)} (h : enterRound s rng cached = (.running s' a, out)) :
    s' = s ∧ SeqRound s rng cached [] a ∧ (ParSt.begin s rng cached).outgoing.filterMap taskMessage = out ∧
      ∀ o ∈ (ParSt.begin s rng cached).outgoing, ∃ m, taskMessage o = some m := by
  unfold enterRound at h
  cases hs : startRound s rng cached with
  | error e => simp [hs] at h
  | ok r =>
    obtain ⟨a1, out1⟩ := r
    simp only [hs, Prod.mk.injEq, RunState.running.injEq] at h
    obtain ⟨⟨rfl, rfl⟩, rfl⟩ := h
    refine ⟨rfl, ⟨a1, out1, hs, rfl⟩, ?_⟩
    unfold startRound at hs
    cases hq : sendAll s rng 0 s.makeAccum s.destinations.elems with
    | error e => simp [hq] at hs
    | ok r =>
      obtain ⟨a2, ms⟩ := r
      simp only [hq] at hs
      split at hs
      · simp at hs
      · simp only [Except.ok.injEq, Prod.mk.injEq] at hs
        obtain ⟨-, rfl⟩ := hs
        exact creation_out hq

/-! ### The network -/

/-- The state of a party and the state of one using `run_session`. -/
inductive NodeSim : Option (ParState P) → Option (RunState P) → Prop where
  | idle : NodeSim none none
  | done {r : Except LErr (Report P)} : NodeSim (some (.done r)) (some (.done r))
  | running {s : Session P} {st : ParSt P} {b : Accum P} {rng : sp.Rng} {cached : List (VerifiedMessage sp)}
      {l : List (sp.Id × Message sp)} : SeqRound s rng cached l b → ParSim s rng cached l st →
      (∀ o ∈ st.outgoing, ∃ m, taskMessage o = some m) → st.outgoing.length ≤ s.destinations.elems.length → NodeSim (some (.running s st)) (some (.running s b))

/-- The messages a party has still to send. -/
def unsentOf (i : sp.Id) : Option (ParState P) → List (Packet sp)
  | some (.running _ st) => (st.outgoing.filterMap taskMessage).map (packetOf i)
  | _ => []

/-- The messages a party is processing. -/
def tasksOf : Option (ParState P) → List (VerifiedMessage sp)
  | some (.running _ st) => st.tasks
  | _ => []

/-- The messages that have still to be sent. -/
def PNet.unsent (g : Group P) (c : PNet P) : List (Packet sp) := g.parties.elems.flatMap (fun i => unsentOf i (c.node i))

/-- The messages that are being processed. -/
def PNet.pending (g : Group P) (c : PNet P) : List (VerifiedMessage sp) := g.parties.elems.flatMap (fun i => tasksOf (c.node i))

/-- A party changes its state. -/
theorem PNet.unsent_split (g : Group P) (c : PNet P) {i : sp.Id} (hi : g.parties.contains i = true) :
    ∃ rest, (c.unsent g).Perm (unsentOf i (c.node i) ++ rest) ∧
      ∀ (w : List (Packet sp)) st out, ((PNet.put ⟨c.node, w⟩ i st out).unsent g).Perm (unsentOf i (some st) ++ rest) := by
  obtain ⟨rest, h1, h2⟩ := flatMap_split (BSet.elems_nodup g.parties) (BSet.mem_elems.2 hi) (fun i => unsentOf i (c.node i))
  refine ⟨rest, h1, fun w st out => ?_⟩
  refine List.Perm.trans (List.Perm.of_eq ?_) (h2 (unsentOf i (some st)))
  unfold PNet.unsent PNet.put
  congr 1
  funext j
  by_cases h : j = i
  · subst h; simp
  · simp [Function.update_of_ne h]

theorem PNet.pending_split (g : Group P) (c : PNet P) {i : sp.Id} (hi : g.parties.contains i = true) :
    ∃ rest, (c.pending g).length = (tasksOf (c.node i)).length + rest ∧
      ∀ (w : List (Packet sp)) st out, ((PNet.put ⟨c.node, w⟩ i st out).pending g).length = (tasksOf (some st)).length + rest := by
  obtain ⟨rest, h1, h2⟩ := flatMap_split (BSet.elems_nodup g.parties) (BSet.mem_elems.2 hi) (fun i => tasksOf (c.node i))
  refine ⟨rest.length, by rw [PNet.pending, h1.length_eq, List.length_append], fun w st out => ?_⟩
  have := (h2 (tasksOf (some st))).length_eq
  rw [List.length_append] at this
  rw [← this]
  unfold PNet.pending PNet.put
  congr 2
  funext j
  by_cases h : j = i
  · subst h; simp
  · simp [Function.update_of_ne h]

namespace Scheme

/-- The number of parties. -/
abbrev size (sc : Scheme P) : Nat := sc.g.parties.elems.length

/-- What is left to do, apart from the messages. -/
def ahead (sc : Scheme P) (e f : sp.Id → Nat) : Nat :=
  (sc.g.parties.elems.map (fun i => (4 * sc.size + 1) * (4 * sc.n - (e i + f i)))).sum

theorem ahead_step {e f : sp.Id → Nat} {i : sp.Id} (hi : sc.g.parties.contains i = true) {e' f' : Nat}
    (h : e i + f i < e' + f') (hb : e' + f' ≤ 4 * sc.n) :
    sc.ahead (Function.update e i e') (Function.update f i f') + (4 * sc.size + 1) ≤ sc.ahead e f := by
  unfold ahead
  refine Plan.sum_update (BSet.elems_nodup sc.g.parties) (BSet.mem_elems.2 hi) (fun x hx => ?_) ?_
  · simp [Function.update_of_ne hx]
  · simp only [Function.update_self]
    rw [← Nat.mul_succ]
    apply Nat.mul_le_mul_left
    omega

end Scheme

/-- The state of the network and the state of one with parties using `run_session`. -/
structure ParNet (sc : Scheme P) (k : Nat) (c : PNet P) (L : Ledger P) (e f : sp.Id → Nat) (n : Net P) : Prop where
  inv : sc.NetInv L e f n
  node : ∀ i, NodeSim (c.node i) (n.node i)
  wire : n.wire.Perm (c.wire ++ c.unsent sc.g)
  steps : k + sc.ahead e f + 2 * n.wire.length + (c.unsent sc.g).length + (c.pending sc.g).length ≤
    sc.size * ((4 * sc.size + 1) * (4 * sc.n))

theorem ParNet.init : ParNet sc 0 PNet.init (fun _ => []) (fun _ => 0) (fun _ => 0) Net.init where
  inv := Scheme.NetInv.init
  node := fun _ => .idle
  wire := by simp [Net.init, PNet.init, PNet.unsent, unsentOf]
  steps := by simp [Net.init, PNet.init, PNet.unsent, unsentOf, PNet.pending, tasksOf, Scheme.ahead]

theorem NodeSim.put {c : PNet P} {n : Net P} (h : ∀ i, NodeSim (c.node i) (n.node i)) {i : sp.Id} {st : ParState P}
    {rs : RunState P} (hs : NodeSim (some st) (some rs)) (w w' : List (Packet sp)) (out out' : List (Message sp)) (j : sp.Id) :
    NodeSim ((PNet.put ⟨c.node, w⟩ i st out).node j) ((Net.put ⟨n.node, w'⟩ i rs out').node j) := by
  simp only [PNet.put, Net.put]
  by_cases hj : j = i
  · subst hj
    simpa using hs
  · rw [Function.update_of_ne hj, Function.update_of_ne hj]
    exact h j

/-- Cached messages come from different parties. -/
theorem cached_few (ok : sc.Ok) {L : Ledger P} {e f : sp.Id → Nat} {n : Net P} (h : sc.NetInv L e f n) {i : sp.Id}
    {s s' : Session P} {b : Accum P} (hn : n.node i = some (.running s b)) {rng : sp.Rng} {cached : List (VerifiedMessage sp)}
    (hf : s.finalizeRound rng b = .ok (.anotherRound s' cached)) :
    (cached.map (fun m => m.sender)).Nodup ∧ cached.length ≤ sc.size := by
  have hi := h.party i _ hn
  obtain ⟨-, -, ha⟩ := h.running i s b hn
  have hsub : ∃ rid, cached.Sublist (Accum.filterMessages b.cached rid) := by
    obtain ⟨t, -, hfin⟩ := finalizeRound_ok hf
    cases hfin with
    | toEcho _ _ _ _ => exact ⟨_, List.Sublist.refl _⟩
    | toNext _ _ _ _ _ => exact ⟨_, List.filter_sublist⟩
  obtain ⟨rid, hsub⟩ := hsub
  have hsend : ∀ x m, b.cached.get? x = some m → ∀ r vm, m.get? r = some vm → vm.sender = x := by
    intro x m hx r vm hvm
    obtain ⟨-, -, -, m', rfl, -⟩ := ha.cached x m r vm hx hvm
    rfl
  have hnd := (filterMessages_nodup (rid := rid) hsend).sublist (hsub.map _)
  refine ⟨hnd, ?_⟩
  rw [← List.length_map (f := fun m : VerifiedMessage sp => m.sender)]
  refine (List.subperm_of_subset hnd ?_).length_le
  intro x hx
  obtain ⟨vm, hvm, rfl⟩ := List.mem_map.1 hx
  obtain ⟨x, en, hx, hr⟩ := mem_filterMessages.1 (hsub.subset hvm)
  obtain ⟨h1, -, h3, m, rfl, h4⟩ := ha.cached x en _ vm hx hr
  exact BSet.mem_elems.2 (Scheme.others_contains.1 (ok.coop.pattern.others_at (h.entered h3) hi (Or.inr h1))).2

/-- A party that can finalize has nothing left to process; none gives up. -/
theorem sim_ready {L : Ledger P} {e f : sp.Id → Nat} {n : Net P} (h : sc.NetInv L e f n) {i : sp.Id}
    {s : Session P} {b : Accum P} (hn : n.node i = some (.running s b)) {rng : sp.Rng} {cached : List (VerifiedMessage sp)}
    {l : List (sp.Id × Message sp)} {st : ParSt P} (hi : ParSim s rng cached l st) (hb : SeqRound s rng cached l b)
    (hc : st.accum.canFinalize ≠ .notYet) :
    st.tasks = [] ∧ parJoin st = .ok b ∧ st.accum.canFinalize = .yes ∧ b.canFinalize = .yes := by
  obtain ⟨-, -, ha⟩ := h.running i s b hn
  have hdone : st.tasks = [] := by
    by_contra hne
    obtain ⟨vm, hvm⟩ := List.exists_mem_of_ne_nil _ hne
    obtain ⟨v, w, -, h1, h2, h3⟩ := sim_task hi hb hvm (ha.provable _) (ha.unprovable _)
    have hpay : b.payloads.contains vm.sender = true := by
      rw [contains_isSome]
      have : (b.loc vm.sender).payload = some v := by rw [h3]; rfl
      simp only [Accum.loc] at this
      rw [this]
      rfl
    have hexp : s.comm.expecting.contains vm.sender = true := by
      rw [← (seqRound_loc.1 hb).1, ha.expecting]
      exact (ha.payKeys _ hpay).1
    refine hc ?_
    unfold Accum.canFinalize
    rw [if_neg, if_pos]
    · cases hemp : st.accum.notSent.isEmpty with
      | false => rfl
      | true =>
        have := BMap.isEmpty_iff.1 hemp vm.sender
        simp only [Accum.loc] at h2
        rw [BMap.contains_eq_false.2 this] at h2
        simp at h2
    · intro hall
      have := List.all_eq_true.1 hall vm.sender (BSet.mem_elems.2 (by rw [hi.expecting]; exact hexp))
      simp only [Accum.loc] at h1
      rw [contains_isSome, h1] at this
      simp at this
  have hj := sim_joins hi hb hdone
  have hk := join_keeps hj
  refine ⟨hdone, hj, ?_⟩
  rcases ha.canFinalize with ⟨hy, -⟩ | ⟨hy, -⟩
  · exact ⟨by rw [← hk, hy], hy⟩
  · rw [hk] at hy
    exact absurd hy hc

theorem filterMap_eraseIdx {α β : Type} {l : List α} {i : Nat} {a : α} {f : α → Option β} {b : β} (h : l[i]? = some a)
    (hf : f a = some b) : (l.filterMap f).Perm (b :: (l.eraseIdx i).filterMap f) := by
  induction l generalizing i with
  | nil => simp at h
  | cons c l ih =>
    cases i with
    | zero =>
      simp only [List.getElem?_cons_zero, Option.some.injEq] at h
      subst h
      simp [hf]
    | succ i =>
      simp only [List.getElem?_cons_succ] at h
      have := ih h
      rw [List.eraseIdx_cons_succ, List.filterMap_cons, List.filterMap_cons]
      cases f c with
      | none => exact this
      | some d => exact (this.cons d).trans (List.Perm.swap _ _ _)

/-- A party enters a round. -/
theorem ParNet.enter (ok : sc.Ok) {k : Nat} {c : PNet P} {L L' : Ledger P} {e f : sp.Id → Nat} {n : Net P} (h : ParNet sc k c L e f n)
    {i : sp.Id} (hi : sc.g.parties.contains i = true) {s : Session P} {a : Accum P} {out out₀ : List (Message sp)} {rng : sp.Rng}
    {cached : List (VerifiedMessage sp)} {q : Nat} (hent : enterRound s rng cached = (.running s a, out))
    (hnd : (cached.map (fun m => m.sender)).Nodup) (hlen : cached.length ≤ sc.size)
    (hout : out.length = (sc.dAt q i).elems.length)
    (hinv : sc.NetInv L' (Function.update e i (q + 1)) (Function.update f i q) (n.put i (.running s a) out)) (hf : f i ≤ q)
    (he : e i ≤ q) (ht : tasksOf (c.node i) = []) (ho : unsentOf i (c.node i) = out₀.map (packetOf i)) :
    ParNet sc (k + 1) (c.put i (.running s (ParSt.begin s rng cached)) out₀) L' (Function.update e i (q + 1))
      (Function.update f i q) (n.put i (.running s a) out) := by
  classical
  obtain ⟨-, h1, h2, h3⟩ := sim_enter hent
  obtain ⟨rest, hu, hu'⟩ := c.unsent_split sc.g hi
  obtain ⟨more, hp, hp'⟩ := c.pending_split sc.g hi
  have hb := hinv.bound i
  simp only [Function.update_self] at hb
  have hah := Scheme.ahead_step (sc := sc) (e := e) (f := f) hi (e' := q + 1) (f' := q) (by omega) (by omega)
  have hl := Scheme.dests_length ok hi (hinv.entered (j := i) (t := q) (by simp))
  have hnew : unsentOf i (some (.running s (ParSt.begin s rng cached))) = out.map (packetOf i) := by
    simp only [unsentOf, h2]
  refine ⟨hinv, NodeSim.put h.node (.running h1 (sim_begin hnd) h3 (creation_length s rng 0 _).le) c.wire n.wire out₀ out, ?_, ?_⟩
  · rw [List.perm_iff_count]
    intro p
    have e1 := h.wire.count_eq p
    have e2 := hu.count_eq p
    have e3 := (hu' c.wire (.running s (ParSt.begin s rng cached)) out₀).count_eq p
    rw [hnew] at e3
    rw [ho] at e2
    simp only [List.count_append] at e1 e2 e3 ⊢
    simp only [Net.put, PNet.put, List.count_append] at e3 ⊢
    have e4 : List.count p (out.map (fun m => (⟨i, m.destination, m⟩ : Packet sp))) = List.count p (out.map (packetOf i)) := rfl
    have e5 : List.count p (out₀.map (fun m => (⟨i, m.destination, m⟩ : Packet sp))) = List.count p (out₀.map (packetOf i)) := rfl
    rw [e4, e5]
    omega
  · have e1 := h.steps
    have e2 := hu.length_eq
    have e3 := (hu' c.wire (.running s (ParSt.begin s rng cached)) out₀).length_eq
    have e4 := hp' c.wire (.running s (ParSt.begin s rng cached)) out₀
    rw [hnew] at e3
    rw [ho] at e2
    rw [ht] at hp
    have e5 : (tasksOf (some (.running s (ParSt.begin s rng cached)))).length = cached.length := rfl
    have e6 : (PNet.put ⟨c.node, c.wire⟩ i (.running s (ParSt.begin s rng cached)) out₀) =
        c.put i (.running s (ParSt.begin s rng cached)) out₀ := rfl
    rw [e6] at e3 e4
    rw [e5] at e4
    simp only [List.length_append, List.length_map, List.length_nil] at e2 e3 hp
    have e7 : (n.put i (.running s a) out).wire.length = n.wire.length + out.length := by simp [Net.put]
    have e8 : sc.size = sc.g.parties.elems.length := rfl
    rw [e3, e4, e7]
    omega

/-- A step of the network. -/
theorem ParNet.step (ok : sc.Ok) {k : Nat} {c c' : PNet P} {L : Ledger P} {e f : sp.Id → Nat} {n : Net P}
    (h : ParNet sc k c L e f n) (hs : PNetStep sc.g c c') : ∃ L' e' f' n', ParNet sc (k + 1) c' L' e' f' n' := by
  classical
  cases hs with
  | @start i rng rng' hi hn =>
    have hn' : n.node i = none := by
      have := h.node i
      rw [hn] at this
      generalize n.node i = z at this
      cases this
      rfl
    obtain ⟨L', s, a, out, h1, h2, -, h4⟩ := h.inv.starts ok hi hn' rng rng'
    obtain ⟨he, hf, -⟩ := h.inv.idle i hn'
    unfold Group.startNode at h1
    cases hnew : Session.new rng sc.g.sid (sc.g.signer i) (sc.g.ep i) with
    | error err => simp [hnew] at h1
    | ok s₀ =>
      simp only [hnew, start] at h1
      obtain ⟨rfl, -⟩ := sim_enter h1
      have hp : sc.g.startPar i rng rng' = .running s (ParSt.begin s rng' []) := by
        simp only [Group.startPar, hnew]
      rw [hp]
      exact ⟨_, _, _, _, h.enter ok hi h1 (by simp) (by simp) h2 h4 (by omega) (by omega) (by rw [hn]; rfl) (by rw [hn]; rfl)⟩
  | @tick i s st st' rng hn hs =>
    have hsim := h.node i
    rw [hn] at hsim
    generalize hn' : n.node i = z at hsim
    cases hsim with
    | @running _ _ b rng₀ cached l hb hi hm hlen =>
      have hne : st.accum.canFinalize ≠ .notYet := by
        intro hc
        simp [parStep, hc] at hs
      obtain ⟨ht, hj, hy, hby⟩ := sim_ready h.inv hn' hi hb hne
      simp only [parStep, hy, Option.some.injEq] at hs
      subst hs
      have hpty := h.inv.party i _ hn'
      obtain ⟨hef, -, -⟩ := h.inv.running i s b hn'
      have hlt := Scheme.lt_nxt (sc := sc) (f i) i
      have hout : parOut st (.tick rng) = st.outgoing.filterMap taskMessage := by simp only [parOut, hj]
      rw [hout]
      have ht' : tasksOf (c.node i) = [] := by rw [hn]; exact ht
      have ho' : unsentOf i (c.node i) = (st.outgoing.filterMap taskMessage).map (packetOf i) := by rw [hn]; rfl
      rcases h.inv.ticks ok hn' rng hby with ⟨L', s', a', out, h1, h2, -, h4⟩ | ⟨r, h1, hend, h4⟩
      · unfold finishRound at h1
        cases hfz : s.finalizeRound (sp.fork rng 0) b with
        | error err => simp [hfz] at h1
        | ok o =>
          cases o with
          | finished r => simp [hfz] at h1
          | anotherRound s₁ cached' =>
            simp only [hfz] at h1
            obtain ⟨rfl, -⟩ := sim_enter h1
            obtain ⟨h5, h6⟩ := cached_few ok h.inv hn' hfz
            have hp : parFinish s st rng = .running s' (ParSt.begin s' (sp.fork rng 1) cached') := by
              simp only [parFinish, hj, hfz]
            rw [hp]
            exact ⟨_, _, _, _, h.enter ok hpty h1 h5 h6 h2 h4 (by omega) (by omega) ht' ho'⟩
      · have hp : parFinish s st rng = .done r := by
          obtain ⟨-, -, ⟨rep, v, hr, -⟩, -⟩ := h4.done i r (by simp [Net.put])
          unfold finishRound at h1
          unfold parFinish
          simp only [hj]
          cases hfz : s.finalizeRound (sp.fork rng 0) b with
          | error err =>
            simp only [hfz, Prod.mk.injEq, RunState.done.injEq, and_true] at h1
            subst h1
            rfl
          | ok o =>
            cases o with
            | finished r' =>
              simp only [hfz, Prod.mk.injEq, RunState.done.injEq, and_true] at h1
              subst h1
              rfl
            | anotherRound s₁ cached' =>
              simp only [hfz, enterRound] at h1
              split at h1
              · simp only [Prod.mk.injEq, RunState.done.injEq, and_true] at h1
                rw [hr] at h1
                simp at h1
              · simp at h1
        rw [hp]
        obtain ⟨rest, hu, hu'⟩ := c.unsent_split sc.g hpty
        obtain ⟨more, hpe, hpe'⟩ := c.pending_split sc.g hpty
        have hah := Scheme.ahead_step (sc := sc) (e := e) (f := f) hpty (e' := 2 * sc.n) (f' := 2 * sc.n) (by omega) (by omega)
        have hu1 := hu' c.wire (.done r) (st.outgoing.filterMap taskMessage)
        have hp1 := hpe' c.wire (.done r) (st.outgoing.filterMap taskMessage)
        have e6 : (PNet.put ⟨c.node, c.wire⟩ i (.done r) (st.outgoing.filterMap taskMessage)) =
          c.put i (.done r) (st.outgoing.filterMap taskMessage) := rfl
        rw [e6] at hu1 hp1
        have e7 : unsentOf i (some (ParState.done r : ParState P)) = [] := rfl
        have e8 : tasksOf (some (ParState.done r : ParState P)) = [] := rfl
        rw [e7, List.nil_append] at hu1
        rw [e8, List.length_nil, Nat.zero_add] at hp1
        rw [ho'] at hu
        refine ⟨_, _, _, _, h4, NodeSim.put h.node .done c.wire n.wire _ [], ?_, ?_⟩
        · rw [List.perm_iff_count]
          intro p
          have e1 := h.wire.count_eq p
          have e2 := hu.count_eq p
          have e3 := hu1.count_eq p
          simp only [List.count_append] at e1 e2 e3 ⊢
          have e9 : (n.put i (.done r) []).wire = n.wire := by simp [Net.put]
          have e10 : (c.put i (.done r) (st.outgoing.filterMap taskMessage)).wire =
            c.wire ++ (st.outgoing.filterMap taskMessage).map (packetOf i) := rfl
          rw [e9, e10, List.count_append]
          omega
        · have e1 := h.steps
          have e2 := hu.length_eq
          have e3 := hu1.length_eq
          rw [ht'] at hpe
          simp only [List.length_append, List.length_map, List.length_nil] at e2 hpe
          have e9 : (n.put i (.done r) []).wire = n.wire := by simp [Net.put]
          rw [e3, hp1, e9]
          omega
  | @task i s st st' o hn hen hs =>
    have hsim := h.node i
    rw [hn] at hsim
    generalize hn' : n.node i = z at hsim
    cases hsim with
    | @running _ _ b rng₀ cached l hb hi hm hlen =>
      have hpty := h.inv.party i _ hn'
      have hc : st.accum.canFinalize = .notYet := by
        cases hc : st.accum.canFinalize with
        | notYet => rfl
        | yes => simp [parStep, hc] at hs
        | never => simp [parStep, hc] at hs
      simp only [parStep, hc] at hs
      obtain ⟨rest, hu, hu'⟩ := c.unsent_split sc.g hpty
      obtain ⟨more, hpe, hpe'⟩ := c.pending_split sc.g hpty
      rw [hn] at hu hpe
      have hnode : ∀ (st1 : ParSt P) (out : List (Message sp)), ParSim s rng₀ cached l st1 →
          (∀ o ∈ st1.outgoing, ∃ m, taskMessage o = some m) → st1.outgoing.length ≤ s.destinations.elems.length →
          ∀ j, NodeSim ((c.put i (.running s st1) out).node j) (n.node j) := by
        intro st1 out h1 h2 h3 j
        have := NodeSim.put h.node (i := i) (.running hb h1 h2 h3) c.wire n.wire out [] j
        simp only [Net.put] at this
        by_cases hj : j = i
        · subst hj
          simpa [hn'] using this
        · simpa [Function.update_of_ne hj] using this
      cases o with
      | deliver x m => exact hen.elim
      | complete j =>
        obtain ⟨a, ha⟩ := sim_complete hi hb (i := j) hen
        have hi' := sim_step (op := .complete j) hi trivial ha
        simp only [parDeliveries, List.append_nil] at hi'
        rw [ha] at hs
        simp only [Option.some.injEq] at hs
        subst hs
        have hu1 := hu' c.wire (.running s { st with accum := a, tasks := st.tasks.eraseIdx j }) []
        have hp1 := hpe' c.wire (.running s { st with accum := a, tasks := st.tasks.eraseIdx j }) []
        have hlen' : (st.tasks.eraseIdx j).length + 1 = st.tasks.length := by
          have hen' : j < st.tasks.length := hen
          rw [List.length_eraseIdx_of_lt hen']
          omega
        refine ⟨L, e, f, n, h.inv, hnode _ _ hi' hm hlen, ?_, ?_⟩
        · refine h.wire.trans ?_
          simp only [parOut, PNet.put, List.map_nil, List.append_nil]
          exact (hu.trans hu1.symm).append_left _
        · have e1 := h.steps
          have e2 := (hu.trans hu1.symm).length_eq
          have e3 : (c.put i (.running s { st with accum := a, tasks := st.tasks.eraseIdx j }) (parOut st (.op (.complete j)))) =
            PNet.put ⟨c.node, c.wire⟩ i (.running s { st with accum := a, tasks := st.tasks.eraseIdx j }) [] := rfl
          rw [e3, ← e2, hp1]
          simp only [tasksOf] at hpe ⊢
          omega
      | send j =>
        obtain ⟨o, m, ho, hmo⟩ := hen
        obtain ⟨a, ha⟩ := sim_send hi hb ho hmo
        have hi' := sim_step (op := .send j) hi trivial ha
        simp only [parDeliveries, List.append_nil] at hi'
        rw [ha] at hs
        simp only [Option.some.injEq] at hs
        subst hs
        have hout : parOut st (.op (.send j)) = [m] := by simp [parOut, ho, hmo]
        rw [hout]
        have hu1 := hu' c.wire (.running s { st with accum := a, outgoing := st.outgoing.eraseIdx j }) [m]
        have hp1 := hpe' c.wire (.running s { st with accum := a, outgoing := st.outgoing.eraseIdx j }) [m]
        have hperm := (filterMap_eraseIdx ho hmo).map (packetOf i)
        simp only [List.map_cons] at hperm
        refine ⟨L, e, f, n, h.inv, hnode _ _ hi' (fun o ho => hm o (List.mem_of_mem_eraseIdx ho))
          ((List.eraseIdx_sublist _ _).length_le.trans hlen), ?_, ?_⟩
        · rw [List.perm_iff_count]
          intro p
          have e1 := h.wire.count_eq p
          have e2 := hu.count_eq p
          have e3 := hu1.count_eq p
          have e4 := hperm.count_eq p
          have e5 : (c.put i (.running s { st with accum := a, outgoing := st.outgoing.eraseIdx j }) [m]).wire =
            c.wire ++ [packetOf i m] := rfl
          have e6 : (c.put i (.running s { st with accum := a, outgoing := st.outgoing.eraseIdx j }) [m]) =
            PNet.put ⟨c.node, c.wire⟩ i (.running s { st with accum := a, outgoing := st.outgoing.eraseIdx j }) [m] := rfl
          rw [e5, e6]
          simp only [List.count_append, List.count_cons, List.count_nil, unsentOf] at e1 e2 e3 e4 ⊢
          omega
        · have e1 := h.steps
          have e2 := hu.length_eq
          have e3 := hu1.length_eq
          have e4 := hperm.length_eq
          have e6 : (c.put i (.running s { st with accum := a, outgoing := st.outgoing.eraseIdx j }) [m]) =
            PNet.put ⟨c.node, c.wire⟩ i (.running s { st with accum := a, outgoing := st.outgoing.eraseIdx j }) [m] := rfl
          rw [e6, hp1, e3]
          simp only [List.length_append, List.length_cons, unsentOf, tasksOf] at e2 e4 hpe ⊢
          omega
  | @deliver s st st' p w w' hw hn hs =>
    have hsim := h.node p.dest
    rw [hn] at hsim
    generalize hn' : n.node p.dest = z at hsim
    cases hsim with
    | @running _ _ b rng₀ cached l hb hi hm hlen =>
      have hpty := h.inv.party p.dest _ hn'
      have hc : st.accum.canFinalize = .notYet := by
        cases hc : st.accum.canFinalize with
        | notYet => rfl
        | yes => simp [parStep, hc] at hs
        | never => simp [parStep, hc] at hs
      simp only [parStep, hc] at hs
      obtain ⟨rest, hu, hu'⟩ := c.unsent_split sc.g hpty
      obtain ⟨more, hpe, hpe'⟩ := c.pending_split sc.g hpty
      rw [hn] at hu hpe
      have hmem : p ∈ n.wire := by
        rw [h.wire.mem_iff, hw]
        simp
      obtain ⟨v, v', hv⟩ := List.append_of_mem hmem
      obtain ⟨b', hd, hinv⟩ := h.inv.receive ok hv hn'
      obtain ⟨-, -, hacc⟩ := h.inv.running _ s b hn'
      obtain ⟨hap, st1, ha⟩ := sim_deliver hi hb (hacc.provable _) (hacc.unprovable _) hd
      have hi' := sim_step hi hap ha
      simp only [parDeliveries] at hi'
      have hb' := seqRound_snoc hb hd
      rw [ha] at hs
      simp only [Option.some.injEq] at hs
      subst hs
      have hst : st1.outgoing = st.outgoing ∧ st1.tasks.length ≤ st.tasks.length + 1 := by
        simp only [parOp] at ha
        split at ha
        · simp at ha
        · split at ha
          · simp only [Except.ok.injEq] at ha
            subst ha
            simp
          · simp only [Except.ok.injEq] at ha
            subst ha
            simp
      have hu1 := hu' (w ++ w') (.running s st1) []
      have hp1 := hpe' (w ++ w') (.running s st1) []
      have e0 : unsentOf p.dest (some (ParState.running s st1)) = unsentOf p.dest (some (ParState.running s st)) := by
        simp only [unsentOf, hst.1]
      rw [e0] at hu1
      refine ⟨L, e, f, _, hinv, NodeSim.put h.node (.running hb' hi' (by rw [hst.1]; exact hm) (by rw [hst.1]; exact hlen)) (w ++ w') (v ++ v') [] [], ?_, ?_⟩
      · rw [List.perm_iff_count]
        intro q
        have e1 := h.wire.count_eq q
        have e2 := (hu.trans hu1.symm).count_eq q
        rw [hv, hw] at e1
        simp only [List.count_append, List.count_cons] at e1 ⊢
        simp only [Net.put, List.map_nil, List.append_nil, List.count_append]
        have e3 : (PNet.put ⟨c.node, w ++ w'⟩ p.dest (.running s st1) []).wire = w ++ w' := by simp [PNet.put]
        rw [e3, ← e2, List.count_append]
        omega
      · have e1 := h.steps
        have e2 := (hu.trans hu1.symm).length_eq
        rw [hv] at e1
        have e3 : (Net.put ⟨n.node, v ++ v'⟩ p.dest (.running s b') []).wire = v ++ v' := by simp [Net.put]
        rw [e3, ← e2, hp1]
        simp only [List.length_append, List.length_cons, tasksOf] at e1 hpe ⊢
        omega

/-- All states are simulated. -/
theorem ParNet.takes (ok : sc.Ok) {k : Nat} {c : PNet P} (h : PNetTakes sc.g k c) : ∃ L e f n, ParNet sc k c L e f n := by
  induction h with
  | init => exact ⟨_, _, _, _, ParNet.init⟩
  | step _ hs ih =>
    obtain ⟨L, e, f, n, h⟩ := ih
    exact h.step ok hs

/-- If nothing can happen, then everybody has finished. -/
theorem ParNet.stuck (rng : sp.Rng) (ok : sc.Ok) {k : Nat} {c : PNet P} {L : Ledger P} {e f : sp.Id → Nat} {n : Net P}
    (h : ParNet sc k c L e f n) (hstuck : ∀ c', ¬ PNetStep sc.g c c') {i : sp.Id} (hi : sc.g.parties.contains i = true) :
    ∃ r, n.node i = some (.done r) := by
  have hwait : ∀ j s b, n.node j = some (.running s b) →
      ∃ st, c.node j = some (.running s st) ∧ st.accum.canFinalize = .notYet ∧ b.canFinalize = .notYet ∧ st.outgoing = [] := by
    intro j s b hj
    have hsim := h.node j
    rw [hj] at hsim
    generalize hn : c.node j = z at hsim
    cases hsim with
    | @running _ st _ rng₀ cached l hb hsi hm hlen =>
      have hc : st.accum.canFinalize = .notYet := by
        cases hc : st.accum.canFinalize with
        | notYet => rfl
        | yes => exact absurd (PNetStep.tick (rng := rng) hn (by simp only [parStep, hc]; rfl)) (hstuck _)
        | never => exact absurd (PNetStep.tick (rng := rng) hn (by simp only [parStep, hc]; rfl)) (hstuck _)
      have htask : ∀ o : ParOp sp, ¬ o.Enabled st := by
        intro o ho
        cases hp : parOp s st o with
        | error err => exact hstuck _ (PNetStep.task hn ho (by simp only [parStep, hc, hp]; rfl))
        | ok st1 => exact hstuck _ (PNetStep.task hn ho (by simp only [parStep, hc, hp]; rfl))
      have ht : st.tasks = [] := by
        by_contra hne
        exact htask (.complete 0) (List.length_pos_iff.2 hne)
      have ho : st.outgoing = [] := by
        cases ho : st.outgoing with
        | nil => rfl
        | cons o os =>
          obtain ⟨m, hmo⟩ := hm o (by rw [ho]; simp)
          exact (htask (.send 0) ⟨o, m, by rw [ho]; rfl, hmo⟩).elim
      refine ⟨st, rfl, hc, ?_, ho⟩
      rw [join_keeps (sim_joins hsi hb ht), hc]
  have hun : c.unsent sc.g = [] := by
    unfold PNet.unsent
    rw [List.flatMap_eq_nil_iff]
    intro j hj
    have hsim := h.node j
    cases hn : n.node j with
    | none =>
      rw [hn] at hsim
      generalize c.node j = z at hsim
      cases hsim
      rfl
    | some rs =>
      cases rs with
      | done r =>
        rw [hn] at hsim
        generalize c.node j = z at hsim
        cases hsim
        rfl
      | running s b =>
        obtain ⟨st, h1, -, -, h4⟩ := hwait j s b hn
        rw [h1]
        simp [unsentOf, h4]
  refine h.inv.stuck rng ok ?_ hi
  intro n' hs
  cases hs with
  | @start j rng₁ rng₂ hj hn =>
    have hsim := h.node j
    rw [hn] at hsim
    generalize hcn : c.node j = z at hsim
    cases hsim
    exact hstuck _ (.start rng₁ rng₂ hj hcn)
  | @tick j st st' rng₁ out hn hs =>
    cases st with
    | done r => simp [Manul.step] at hs
    | running s b =>
      obtain ⟨-, -, -, h3, -⟩ := hwait j s b hn
      simp [Manul.step, h3] at hs
  | @deliver st st' p w w' out hw hn hs =>
    cases st with
    | done r => simp [Manul.step] at hs
    | running s b =>
      obtain ⟨st, h1, h2, -, -⟩ := hwait p.dest s b hn
      have hmem : p ∈ c.wire := by
        have : p ∈ n.wire := by rw [hw]; simp
        rw [h.wire.mem_iff, hun, List.append_nil] at this
        exact this
      obtain ⟨v, v', hv⟩ := List.append_of_mem hmem
      cases hp : parOp s st (.deliver p.src p.message) with
      | error err => exact hstuck _ (PNetStep.deliver hv h1 (by simp only [parStep, h2, hp]; rfl))
      | ok st1 => exact hstuck _ (PNetStep.deliver hv h1 (by simp only [parStep, h2, hp]; rfl))

/-- The errors recorded by the parallel driver have been recorded by the sequential one. -/
theorem sim_clean {s : Session P} {rng : sp.Rng} {cached : List (VerifiedMessage sp)} {l : List (sp.Id × Message sp)}
    {st : ParSt P} {b : Accum P} (hi : ParSim s rng cached l st) (hb : SeqRound s rng cached l b) (x : sp.Id)
    (h1 : b.provable.get? x = none) (h2 : b.unprovable.get? x = none) :
    st.accum.provable.get? x = none ∧ st.accum.unprovable.get? x = none := by
  have h1 : (b.loc x).provable = none := h1
  have h2 : (b.loc x).unprovable = none := h2
  suffices (st.accum.loc x).provable = (b.loc x).provable ∧ (st.accum.loc x).unprovable = (b.loc x).unprovable by
    rw [h1, h2] at this
    exact this
  by_cases hex : ∃ vm ∈ st.tasks, vm.sender = x
  · obtain ⟨vm, hvm, rfl⟩ := hex
    obtain ⟨v, w, -, -, -, h3⟩ := sim_task hi hb hvm h1 h2
    rw [h3]
    exact ⟨rfl, rfl⟩
  · obtain ⟨u, hu, hp⟩ := sim_pending hi hb x
    have hnt : st.tasks.filter (fun m => m.sender = x) = [] := by
      rw [List.filter_eq_nil_iff]
      intro t ht hts
      exact hex ⟨t, ht, by simpa using hts⟩
    rw [hnt] at hu
    simp only [foldE, Except.ok.injEq] at hu
    subst hu
    obtain ⟨w, hw⟩ := outs_withArt hp
    rw [hw]
    exact ⟨rfl, rfl⟩

end Manul
