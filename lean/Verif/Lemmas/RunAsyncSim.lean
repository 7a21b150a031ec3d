import Verif.Lemmas.RunAsyncPar

/-! # Every schedule of `run_async` is also possible with `offload_processing` -/

namespace Manul

variable {sp : SP} {P : Proto sp} {sc : Scheme P}

/-- What `run_async` with `offload_processing` can reach. -/
def PAsyncReach (g : Group P) (y : PAsync P) : Prop := ∃ k, PAsyncTakes g k y

theorem PAsyncReach.step {g : Group P} {y y' : PAsync P} (h : PAsyncReach g y) (hs : PAsyncStep g y y') : PAsyncReach g y' := by
  obtain ⟨k, h⟩ := h
  exact ⟨_, .step h hs⟩

/-- A party with `offload_processing` that behaves like one without: it holds the first of the messages it has to send, and does
not process messages before all of its own are sent. -/
inductive NodeOff : Option (RunState P) → List (Message sp) → Option (ParState P) → Bool → List (Message sp) → Prop where
  | idle : NodeOff none [] none false []
  | done {r : Except LErr (Report P)} : NodeOff (some (.done r)) [] (some (.done r)) false []
  | loop {s : Session P} {st : ParSt P} {b : Accum P} {rng : sp.Rng} {cached : List (VerifiedMessage sp)}
      {l : List (sp.Id × Message sp)} {o : List (Message sp)} : SeqRound s rng cached l b → ParSim s rng cached l st →
      (∀ o ∈ st.outgoing, ∃ m, taskMessage o = some m) → st.accum.canFinalize = .notYet → o.length ≤ 1 →
      (o = [] → st.outgoing = [] ∧ st.tasks = []) →
      NodeOff (some (.running s b)) (o ++ st.outgoing.filterMap taskMessage) (some (.running s st)) false o
  | join {s : Session P} {st : ParSt P} {b : Accum P} {rng : sp.Rng} {cached : List (VerifiedMessage sp)}
      {l : List (sp.Id × Message sp)} {o : List (Message sp)} : SeqRound s rng cached l b → ParSim s rng cached l st →
      st.tasks = [] → st.accum.canFinalize ≠ .notYet → NodeOff (some (.running s b)) o (some (.running s st)) true o

/-- Only one party differs. -/
structure Besides (i : sp.Id) (y y' : PAsync P) : Prop where
  inbox : y'.inbox = y.inbox
  chan : y'.chan = y.chan
  disp : y'.disp = y.disp
  node : ∀ j, j ≠ i → y'.node j = y.node j
  joined : ∀ j, j ≠ i → y'.joined j = y.joined j
  outbox : ∀ j, j ≠ i → y'.outbox j = y.outbox j

theorem Besides.trans {i : sp.Id} {y y' y'' : PAsync P} (h : Besides i y y') (h' : Besides i y' y'') : Besides i y y'' where
  inbox := h'.inbox.trans h.inbox
  chan := h'.chan.trans h.chan
  disp := h'.disp.trans h.disp
  node := fun j hj => (h'.node j hj).trans (h.node j hj)
  joined := fun j hj => (h'.joined j hj).trans (h.joined j hj)
  outbox := fun j hj => (h'.outbox j hj).trans (h.outbox j hj)

theorem Besides.refl (i : sp.Id) (y : PAsync P) : Besides i y y := ⟨rfl, rfl, rfl, fun _ _ => rfl, fun _ _ => rfl, fun _ _ => rfl⟩

theorem Besides.put (y : PAsync P) (i : sp.Id) (st : ParState P) (j : Bool) (out : List (Message sp)) : Besides i y (y.put i st j out) where
  inbox := rfl
  chan := rfl
  disp := rfl
  node := fun j hj => by simp [PAsync.put, Function.update_of_ne hj]
  joined := fun j hj => by simp [PAsync.put, Function.update_of_ne hj]
  outbox := fun j hj => by simp [PAsync.put, Function.update_of_ne hj]

theorem addArtifact_canFinalize {a a' : Accum P} {art : ProcessedArtifact P} (h : a.addArtifact art = .ok a') :
    a'.canFinalize = a.canFinalize := by
  unfold Accum.addArtifact at h
  split at h
  · cases h
  · cases h
    rfl

/-- A party in the loop goes on until it has a message to send, waits for one, or has ended the loop. -/
theorem settle (ok : sc.Ok) {L : Ledger P} {e f : sp.Id → Nat} {n : Net P} (hinv : sc.NetInv L e f n) {i : sp.Id} {s : Session P}
    {b : Accum P} (hn : n.node i = some (.running s b)) {rng : sp.Rng} {cached : List (VerifiedMessage sp)}
    {l : List (sp.Id × Message sp)} (hb : SeqRound s rng cached l b) (len : Nat) :
    ∀ {y : PAsync P} {st : ParSt P}, st.tasks.length = len → PAsyncReach sc.g y → y.node i = some (.running s st) →
      y.joined i = false → y.outbox i = [] → ParSim s rng cached l st → (∀ o ∈ st.outgoing, ∃ m, taskMessage o = some m) →
      (st.accum.canFinalize ≠ .notYet → st.outgoing.length ≤ 100) →
      ∃ y', PAsyncReach sc.g y' ∧ Besides i y y' ∧
        NodeOff (some (.running s b)) (st.outgoing.filterMap taskMessage) (y'.node i) (y'.joined i) (y'.outbox i) := by
  induction len with
  | zero =>
    intro y st hlen hy hyn hj ho hi hm hfit
    by_cases hc : st.accum.canFinalize = .notYet
    · cases hout : st.outgoing with
      | nil =>
        refine ⟨y, hy, .refl i y, ?_⟩
        rw [hyn, hj, ho]
        have h1 := NodeOff.loop (o := []) hb hi hm hc (by simp) (fun _ => ⟨hout, List.length_eq_zero_iff.1 hlen⟩)
        rw [hout] at h1
        exact h1
      | cons o os =>
        obtain ⟨m, hmo⟩ := hm o (by rw [hout]; simp)
        have h0 : st.outgoing[0]? = some o := by rw [hout]; rfl
        obtain ⟨a, ha⟩ := sim_send hi hb h0 hmo
        have hi' := sim_step (op := .send 0) hi trivial ha
        simp only [parDeliveries, List.append_nil] at hi'
        have hac : a.canFinalize = .notYet := by
          rw [← hc]
          simp only [parOp, hout, List.getElem?_cons_zero] at ha
          obtain ⟨d, res⟩ := o
          cases res with
          | error e => simp [taskMessage] at hmo
          | ok res =>
            simp only at ha
            split at ha
            · cases ha
            · rename_i a1 h1
              have h2 := congrArg ParSt.accum (Except.ok.inj ha)
              simp only at h2
              subst h2
              exact addArtifact_canFinalize h1
        have hst : parStep (.running s st) (.op (.send 0)) = some (.running s { st with accum := a, outgoing := st.outgoing.eraseIdx 0 }) := by
          simp only [parStep, hc, ha]
        have hpo : parOut st (.op (.send 0)) = [m] := by simp [parOut, h0, hmo]
        have hs := PAsyncStep.task (g := sc.g) (o := .send 0) hyn hj ho ⟨o, m, h0, hmo⟩ hst
        rw [hpo] at hs
        refine ⟨_, hy.step hs, .put _ _ _ _ _, ?_⟩
        simp only [PAsync.put, Function.update_self]
        have h1 := NodeOff.loop (o := [m]) hb hi' (fun o ho => hm o (List.mem_of_mem_eraseIdx ho)) hac (by simp) (by simp)
        have h2 : [m] ++ (st.outgoing.eraseIdx 0).filterMap taskMessage = (o :: os).filterMap taskMessage := by
          rw [hout]
          simp [hmo]
        simp only at h1
        rw [h2] at h1
        exact h1
    · obtain ⟨ht, hj2, -, -⟩ := sim_ready hinv hn hi hb hc
      have h4 := List.length_filterMap_le taskMessage st.outgoing
      have h5 := hfit hc
      have hs := PAsyncStep.join (g := sc.g) hyn hj ho hc ⟨by rw [ht]; exact Nat.zero_le _, by unfold channelCapacity; omega⟩
      refine ⟨_, hy.step hs, .put _ _ _ _ _, ?_⟩
      simp only [PAsync.put, Function.update_self]
      have h6 : parRest st = st.outgoing.filterMap taskMessage := by simp only [parRest, hj2]
      rw [h6]
      exact .join hb hi ht hc
  | succ len ih =>
    intro y st hlen hy hyn hj ho hi hm hfit
    by_cases hc : st.accum.canFinalize = .notYet
    · cases hout : st.outgoing with
      | nil =>
        obtain ⟨a, ha⟩ := sim_complete hi hb (i := 0) (by omega)
        have hi' := sim_step (op := .complete 0) hi trivial ha
        simp only [parDeliveries, List.append_nil] at hi'
        have hst : parStep (.running s st) (.op (.complete 0)) = some (.running s { st with accum := a, tasks := st.tasks.eraseIdx 0 }) := by
          simp only [parStep, hc, ha]
        have hs := PAsyncStep.task (g := sc.g) hyn hj ho (o := .complete 0) (show 0 < st.tasks.length by omega) hst
        have hpo : parOut st (.op (.complete 0)) = [] := rfl
        rw [hpo] at hs
        obtain ⟨y', h1, h2, h3⟩ := ih (y := y.put i (.running s { st with accum := a, tasks := st.tasks.eraseIdx 0 }) false [])
          (st := { st with accum := a, tasks := st.tasks.eraseIdx 0 })
          (by rw [List.length_eraseIdx_of_lt (by omega)]; omega) (hy.step hs) (by simp [PAsync.put]) (by simp [PAsync.put])
          (by simp [PAsync.put]) hi' hm (by intro _; rw [hout]; simp)
        simp only [hout] at h3
        exact ⟨y', h1, (Besides.put _ _ _ _ _).trans h2, h3⟩
      | cons o os =>
        obtain ⟨m, hmo⟩ := hm o (by rw [hout]; simp)
        have h0 : st.outgoing[0]? = some o := by rw [hout]; rfl
        obtain ⟨a, ha⟩ := sim_send hi hb h0 hmo
        have hi' := sim_step (op := .send 0) hi trivial ha
        simp only [parDeliveries, List.append_nil] at hi'
        have hac : a.canFinalize = .notYet := by
          rw [← hc]
          simp only [parOp, hout, List.getElem?_cons_zero] at ha
          obtain ⟨d, res⟩ := o
          cases res with
          | error e => simp [taskMessage] at hmo
          | ok res =>
            simp only at ha
            split at ha
            · cases ha
            · rename_i a1 h1
              have h2 := congrArg ParSt.accum (Except.ok.inj ha)
              simp only at h2
              subst h2
              exact addArtifact_canFinalize h1
        have hst : parStep (.running s st) (.op (.send 0)) = some (.running s { st with accum := a, outgoing := st.outgoing.eraseIdx 0 }) := by
          simp only [parStep, hc, ha]
        have hpo : parOut st (.op (.send 0)) = [m] := by simp [parOut, h0, hmo]
        have hs := PAsyncStep.task (g := sc.g) (o := .send 0) hyn hj ho ⟨o, m, h0, hmo⟩ hst
        rw [hpo] at hs
        refine ⟨_, hy.step hs, .put _ _ _ _ _, ?_⟩
        simp only [PAsync.put, Function.update_self]
        have h1 := NodeOff.loop (o := [m]) hb hi' (fun o ho => hm o (List.mem_of_mem_eraseIdx ho)) hac (by simp) (by simp)
        have h2 : [m] ++ (st.outgoing.eraseIdx 0).filterMap taskMessage = (o :: os).filterMap taskMessage := by
          rw [hout]
          simp [hmo]
        simp only at h1
        rw [h2] at h1
        exact h1
    · obtain ⟨ht, -⟩ := sim_ready hinv hn hi hb hc
      rw [ht] at hlen
      simp at hlen

/-- The creation tasks of a round fit into the channel if the loop ends at once. -/
theorem begin_fits (hlisten : ∀ k i, k < sc.n → sc.g.parties.contains i = true → 100 < (sc.dests k i).elems.length →
      (sc.expects k i).isEmpty = false) {L : Ledger P} {e f : sp.Id → Nat} {n : Net P} (hinv : sc.NetInv L e f n) {i : sp.Id}
    {s : Session P} {b : Accum P} (hn : n.node i = some (.running s b)) {rng : sp.Rng} {cached : List (VerifiedMessage sp)}
    (hc : (ParSt.begin s rng cached).accum.canFinalize ≠ .notYet) : (ParSt.begin s rng cached).outgoing.length ≤ 100 := by
  have hi := hinv.party i _ hn
  obtain ⟨-, hs, -⟩ := hinv.running i s b hn
  by_contra hlen
  rw [ParSt.begin, creation_length] at hlen
  simp only [Session.destinations, hs.comm] at hlen
  have hex : (sc.xAt (f i) i).isEmpty = false := by
    cases hq : spot (f i) with
    | mk k q =>
      have hst := hs.stage
      rw [hq] at hst
      cases q with
      | false =>
        rw [Scheme.dAt_main hq] at hlen
        rw [Scheme.xAt_main hq]
        exact hlisten k i hst hi (by omega)
      | true =>
        have hr := hs.active k hq
        rw [Scheme.dAt_echo hq hr] at hlen
        rw [Scheme.xAt_echo hq hr]
        cases hemp : (sc.peers k i).isEmpty with
        | false => rfl
        | true =>
          have : (sc.peers k i).elems = [] := by
            rw [List.eq_nil_iff_forall_not_mem]
            intro x hx
            rw [BSet.mem_elems] at hx
            have := BMap.isEmpty_iff.1 hemp x
            rw [BMap.contains_eq_false.2 this] at hx
            cases hx
          rw [this] at hlen
          simp at hlen
  apply hc
  have hex' : s.comm.expecting.isEmpty = false := by rw [hs.comm]; exact hex
  have hacc : (ParSt.begin s rng cached).accum = Accum.new s.comm.expecting := rfl
  rw [hacc]
  unfold Accum.canFinalize
  rw [if_neg, if_pos]
  · exact hex'
  · intro hall
    have hall : s.comm.expecting.elems.all (fun k => (Accum.new (P := P) s.comm.expecting).payloads.contains k) = true := hall
    rw [List.all_eq_true] at hall
    have : s.comm.expecting.isEmpty = true := by
      rw [BMap.isEmpty_iff]
      intro x
      by_contra hne
      obtain ⟨u, hu⟩ := Option.ne_none_iff_exists'.1 hne
      have := hall x (BSet.mem_elems.2 (BMap.contains_iff.2 ⟨u, hu⟩))
      simp [Accum.new] at this
    rw [this] at hex'
    cases hex'

/-- The states of both ways of running the parties. -/
structure Offl (x : Async P) (y : PAsync P) : Prop where
  inbox : y.inbox = x.inbox
  chan : y.chan = x.chan
  disp : y.disp = x.disp
  node : ∀ i, NodeOff (x.node i) (x.outbox i) (y.node i) (y.joined i) (y.outbox i)

theorem NodeOff.done_iff {a : Option (RunState P)} {out : List (Message sp)} {c : Option (ParState P)} {j : Bool}
    {o : List (Message sp)} (h : NodeOff a out c j o) (r : Except LErr (Report P)) : a = some (.done r) ↔ c = some (.done r) := by
  cases h <;> simp

theorem NodeOff.running_iff {a : Option (RunState P)} {out : List (Message sp)} {c : Option (ParState P)} {j : Bool}
    {o : List (Message sp)} (h : NodeOff a out c j o) (s : Session P) : (∃ b, a = some (.running s b)) ↔ ∃ st, c = some (.running s st) := by
  cases h <;> simp

/-- A party changes. -/
theorem Offl.change {x x' : Async P} {y y' : PAsync P} (h : Offl x y) {i : sp.Id} (hb : Besides i y y')
    (h1 : x'.inbox = x.inbox) (h2 : x'.chan = x.chan) (h3 : x'.disp = x.disp) (h4 : ∀ j, j ≠ i → x'.node j = x.node j)
    (h5 : ∀ j, j ≠ i → x'.outbox j = x.outbox j)
    (h6 : NodeOff (x'.node i) (x'.outbox i) (y'.node i) (y'.joined i) (y'.outbox i)) : Offl x' y' where
  inbox := by rw [hb.inbox, h.inbox, h1]
  chan := by rw [hb.chan, h.chan, h2]
  disp := by rw [hb.disp, h.disp, h3]
  node := by
    intro j
    by_cases hj : j = i
    · subst hj; exact h6
    · rw [h4 j hj, h5 j hj, hb.node j hj, hb.joined j hj, hb.outbox j hj]
      exact h.node j

/-- The dispatcher sees only who has returned. -/
theorem DispatchStep.transport {g : Group P} {x z x' : Async P} (hs : DispatchStep g x x') (h1 : z.inbox = x.inbox)
    (h2 : z.chan = x.chan) (h3 : z.disp = x.disp) (h4 : ∀ i r, x.node i = some (.done r) ↔ z.node i = some (.done r)) :
    DispatchStep g z { z with inbox := x'.inbox, chan := x'.chan, disp := x'.disp } := by
  obtain ⟨zn, zo, zi, zc, zd⟩ := z
  simp only at h1 h2 h3 h4
  subst h1 h2 h3
  cases hs with
  | recv hd hc => exact .recv hd hc
  | close hd hc hall =>
    refine .close hd hc ?_
    intro i hi
    obtain ⟨r, hr⟩ := hall i hi
    exact ⟨r, (h4 i r).1 hr⟩
  | drain hd hc => exact .drain hd hc
  | drained hd hc => exact .drained hd hc
  | emptied hd => exact .emptied hd
  | pick hd hr => exact .pick hd hr
  | noChannel hd hp => exact .noChannel hd hp
  | dropped hd hp hn => exact .dropped hd hp ((h4 _ _).1 hn)
  | send hd hp hn hlen => exact .send hd hp (fun r hr => hn r ((h4 _ _).2 hr)) hlen
  | poll hd hc => exact .poll hd hc
  | polled hd hc => exact .polled hd hc

theorem post_done (y : PAsync P) (i : sp.Id) (r : Except LErr (Report P)) :
    y.post.node i = some (.done r) ↔ y.node i = some (.done r) := by
  simp only [PAsync.post, PAsync.returned]
  split
  · rename_i h
    rw [h]
    simp
  · rename_i h
    simp only [reduceCtorEq, false_iff]
    exact h r

/-- A step without `offload_processing` is matched by steps with it. -/
theorem Offl.step (ok : sc.Ok) (hlisten : ∀ k i, k < sc.n → sc.g.parties.contains i = true → 100 < (sc.dests k i).elems.length →
      (sc.expects k i).isEmpty = false) {k : Nat} {x x' : Async P} {y : PAsync P} (hx : AsyncTakes sc.g k x) (h : Offl x y)
    (hy : PAsyncReach sc.g y) (hs : AsyncStep sc.g x x') : ∃ y', PAsyncReach sc.g y' ∧ Offl x' y' := by
  classical
  obtain ⟨kn, n, hnet⟩ := AsyncNet.reach ok hx
  obtain ⟨L, e, f, hinv⟩ := Scheme.NetInv.reach ok hnet.takes.reach
  cases hs with
  | @start i rng rng' hi hn =>
    have hoff := h.node i
    rw [hn] at hoff
    generalize x.outbox i = out₀ at hoff
    generalize hyn : y.node i = c at hoff
    generalize y.joined i = j at hoff
    generalize y.outbox i = o at hoff
    cases hoff
    obtain ⟨L', s, a, out, h1, h2, -, h4⟩ := hinv.starts ok hi (by rw [← hnet.node]; exact hn) rng rng'
    have h1' := h1
    unfold Group.startNode at h1
    cases hnew : Session.new rng sc.g.sid (sc.g.signer i) (sc.g.ep i) with
    | error err => simp [hnew] at h1
    | ok s₀ =>
      simp only [hnew, start] at h1
      obtain ⟨rfl, hb, ho, hm⟩ := sim_enter h1
      have hp : sc.g.startPar i rng rng' = .running s (ParSt.begin s rng' []) := by
        simp only [Group.startPar, hnew]
      have hst := PAsyncStep.start (g := sc.g) (x := y) rng rng' hi hyn
      rw [hp] at hst
      have hnn : (n.put i (.running s a) out).node i = some (.running s a) := by simp [Net.put]
      obtain ⟨y', g1, g2, g3⟩ := settle ok h4 hnn hb _ rfl (hy.step hst) (by simp [PAsync.put]) (by simp [PAsync.put]) (by simp [PAsync.put])
        (sim_begin (by simp)) hm (begin_fits hlisten h4 hnn)
      rw [ho] at g3
      rw [h1']
      exact ⟨y', g1, h.change ((Besides.put _ _ _ _ _).trans g2) rfl rfl rfl (fun j hj => by simp [Async.put, Function.update_of_ne hj])
        (fun j hj => by simp [Async.put, Function.update_of_ne hj]) (by simpa [Async.put] using g3)⟩
  | @push i m ms hout hlen hne =>
    obtain ⟨s, b, hn⟩ := hnet.sends i (by rw [hout]; simp)
    have hoff := h.node i
    rw [hn, hout] at hoff
    generalize hoo : m :: ms = out at hoff
    generalize hyn : y.node i = c at hoff
    generalize hyj : y.joined i = j at hoff
    generalize hyo : y.outbox i = o at hoff
    have hend : ¬ y.Ended := by
      unfold PAsync.Ended
      rw [h.disp]
      exact hne
    have hroom : y.chan.length < asyncCapacity := by rw [h.chan]; exact hlen
    cases hoff with
    | @loop _ st _ rng cached l _ hb hi hm hc hl1 hnil =>
      obtain ⟨rfl⟩ : o = [m] := by
        cases o with
        | nil =>
          obtain ⟨h1, -⟩ := hnil rfl
          rw [h1] at hoo
          simp at hoo
        | cons m' o' =>
          cases o' with
          | nil =>
            simp only [List.cons_append, List.cons.injEq] at hoo
            rw [hoo.1]
          | cons => simp at hl1
      have hms : ms = st.outgoing.filterMap taskMessage := by simpa using hoo
      have hst := PAsyncStep.push (g := sc.g) hyo hroom hend
      obtain ⟨y', g1, g2, g3⟩ := settle ok hinv (by rw [← hnet.node]; exact hn) hb _ rfl (hy.step hst) hyn hyj (by simp) hi hm
        (fun hc' => absurd hc hc')
      refine ⟨y', g1, ?_⟩
      rw [← hms] at g3
      refine ⟨by rw [g2.inbox]; exact h.inbox, ?_, by rw [g2.disp]; exact h.disp, ?_⟩
      · rw [g2.chan]
        simp only [h.chan]
      · intro j
        by_cases hj : j = i
        · subst hj
          simpa [hn] using g3
        · rw [g2.node j hj, g2.joined j hj, g2.outbox j hj]
          simp only [Function.update_of_ne hj]
          exact h.node j
    | @join _ st _ rng cached l _ hb hi ht hc =>
      subst hoo
      have hst := PAsyncStep.push (g := sc.g) hyo hroom hend
      refine ⟨_, hy.step hst, h.inbox, by simp only [h.chan], h.disp, ?_⟩
      intro j
      by_cases hj : j = i
      · subst hj
        simp only [hn, hyn, hyj, Function.update_self]
        exact .join hb hi ht hc
      · simp only [Function.update_of_ne hj]
        exact h.node j
  | @pushErr i m ms hout he =>
    obtain ⟨s, a, hn⟩ := hnet.sends i (by rw [hout]; simp)
    exact (hnet.not_ended (hnet.party ok hn) hn he).elim
  | @tick i rs rs' rng out hn hout hst =>
    cases rs with
    | done r => exact absurd rfl (step_running' hst r)
    | running s b =>
      have hpty := hnet.party ok hn
      have hnn : n.node i = some (.running s b) := by rw [← hnet.node]; exact hn
      have hoff := h.node i
      rw [hn, hout] at hoff
      generalize hoo : ([] : List (Message sp)) = out₀ at hoff
      generalize hyn : y.node i = c at hoff
      generalize hyj : y.joined i = j at hoff
      generalize hyo : y.outbox i = o at hoff
      cases hoff with
      | @loop _ st _ rng₀ cached l _ hb hi hm hc hl1 hnil =>
        have ho : o = [] := (List.append_eq_nil_iff.1 hoo.symm).1
        have hb' := join_keeps (sim_joins hi hb (hnil ho).2)
        rw [hc] at hb'
        simp [Manul.step, hb'] at hst
      | @join _ st _ rng₀ cached l _ hb hi ht hc =>
        subst hoo
        obtain ⟨-, hj, hy1, hby⟩ := sim_ready hinv hnn hi hb hc
        simp only [Manul.step, hby, Option.some.injEq] at hst
        have hpt : parStep (.running s st) (.tick rng) = some (parFinish s st rng) := by simp only [parStep, hy1]
        have hys := PAsyncStep.tick (g := sc.g) hyn hyj hyo hpt
        rcases hinv.ticks ok hnn rng hby with ⟨L', s', a', out', h1, h2, -, h4⟩ | ⟨r, h1, hend, h4⟩
        · rw [h1] at hst
          cases hst
          unfold finishRound at h1
          cases hfz : s.finalizeRound (sp.fork rng 0) b with
          | error err => simp [hfz] at h1
          | ok fo =>
            cases fo with
            | finished r => simp [hfz] at h1
            | anotherRound s₁ cached' =>
              simp only [hfz] at h1
              obtain ⟨rfl, hb2, ho2, hm2⟩ := sim_enter h1
              obtain ⟨h5, h6⟩ := cached_few ok hinv hnn hfz
              have hp : parFinish s st rng = .running s' (ParSt.begin s' (sp.fork rng 1) cached') := by
                simp only [parFinish, hj, hfz]
              rw [hp] at hys
              have hn2 : (n.put i (.running s' a') out).node i = some (.running s' a') := by simp [Net.put]
              obtain ⟨y', g1, g2, g3⟩ := settle ok h4 hn2 hb2 _ rfl (hy.step hys) (by simp [PAsync.put]) (by simp [PAsync.put])
                (by simp [PAsync.put]) (sim_begin h5) hm2 (begin_fits hlisten h4 hn2)
              rw [ho2] at g3
              exact ⟨y', g1, h.change ((Besides.put _ _ _ _ _).trans g2) rfl rfl rfl
                (fun j hj => by simp [Async.put, Function.update_of_ne hj])
                (fun j hj => by simp [Async.put, Function.update_of_ne hj]) (by simpa [Async.put] using g3)⟩
        · rw [h1] at hst
          cases hst
          have hp : parFinish s st rng = .done r := by
            obtain ⟨-, -, ⟨rep, v, hr, -⟩, -⟩ := h4.done i r (by simp [Net.put])
            unfold finishRound at h1
            unfold parFinish
            simp only [hj]
            cases hfz : s.finalizeRound (sp.fork rng 0) b with
            | error err =>
              simp only [hfz, Prod.mk.injEq, RunState.done.injEq, and_true] at h1
              subst h1
              rfl
            | ok o =>
              cases o with
              | finished r' =>
                simp only [hfz, Prod.mk.injEq, RunState.done.injEq, and_true] at h1
                subst h1
                rfl
              | anotherRound s₁ cached' =>
                simp only [hfz, enterRound] at h1
                split at h1
                · simp only [Prod.mk.injEq, RunState.done.injEq, and_true] at h1
                  rw [hr] at h1
                  simp at h1
                · simp at h1
          rw [hp] at hys
          refine ⟨_, hy.step hys, h.change (Besides.put _ _ _ _ _) rfl rfl rfl
                (fun j hj => by simp [Async.put, Function.update_of_ne hj])
                (fun j hj => by simp [Async.put, Function.update_of_ne hj]) ?_⟩
          simp only [Async.put, PAsync.put, Function.update_self]
          exact .done
  | @recv i rs rs' p ps out hn hout hin hst =>
    cases step_deliver_out hst
    cases rs with
    | done r => exact absurd rfl (step_running' hst r)
    | running s b =>
      have hpty := hnet.party ok hn
      have hnn : n.node i = some (.running s b) := by rw [← hnet.node]; exact hn
      have hd : p.dest = i := hnet.inbox i p (by rw [hin]; simp)
      have hpw : p ∈ n.wire := by
        rw [hnet.wire.mem_iff, Async.flight]
        simp only [List.mem_append]
        right
        rw [Async.incoming, List.mem_flatMap]
        exact ⟨i, BSet.mem_elems.2 hpty, by rw [hin]; simp⟩
      obtain ⟨v, v', hv⟩ := List.append_of_mem hpw
      subst hd
      obtain ⟨b', hdl, hinv'⟩ := hinv.receive ok hv hnn
      have hoff := h.node p.dest
      rw [hn, hout] at hoff
      generalize hoo : ([] : List (Message sp)) = out₀ at hoff
      generalize hyn : y.node p.dest = c at hoff
      generalize hyj : y.joined p.dest = j at hoff
      generalize hyo : y.outbox p.dest = o at hoff
      cases hoff with
      | @loop _ st _ rng₀ cached l _ hb hi hm hc hl1 hnil =>
        have ho : o = [] := (List.append_eq_nil_iff.1 hoo.symm).1
        subst ho
        obtain ⟨hog, htk⟩ := hnil rfl
        have hbc := join_keeps (sim_joins hi hb htk)
        rw [hc] at hbc
        simp only [Manul.step, hbc, hdl, Option.some.injEq, Prod.mk.injEq, and_true] at hst
        subst hst
        obtain ⟨-, -, hacc⟩ := hinv.running _ s b hnn
        obtain ⟨hap, st1, ha⟩ := sim_deliver hi hb (hacc.provable _) (hacc.unprovable _) hdl
        have hi' := sim_step hi hap ha
        simp only [parDeliveries] at hi'
        have hb' := seqRound_snoc hb hdl
        have ho1 : st1.outgoing = [] := by
          rw [← hog]
          simp only [parOp] at ha
          split at ha
          · simp at ha
          · split at ha
            · simp only [Except.ok.injEq] at ha
              subst ha
              rfl
            · simp only [Except.ok.injEq] at ha
              subst ha
              rfl
        have hpt : parStep (.running s st) (.op (.deliver p.src p.message)) = some (.running s st1) := by simp only [parStep, hc, ha]
        have hys := PAsyncStep.recv (g := sc.g) hyn hyj hyo (by rw [h.inbox]; exact hin) hpt
        have hn2 : (Net.put ⟨n.node, v ++ v'⟩ p.dest (.running s b') []).node p.dest = some (.running s b') := by simp [Net.put]
        obtain ⟨y', g1, g2, g3⟩ := settle ok hinv' hn2 hb' _ rfl (hy.step hys) (by simp [PAsync.put]) (by simp [PAsync.put])
          (by simp [PAsync.put]) hi' (by rw [ho1]; simp) (by rw [ho1]; simp)
        rw [ho1] at g3
        refine ⟨y', g1, ?_, ?_, ?_, ?_⟩
        · rw [g2.inbox]
          simp only [PAsync.put, Async.put, h.inbox]
        · rw [g2.chan]
          exact h.chan
        · rw [g2.disp]
          exact h.disp
        · intro q
          by_cases hq : q = p.dest
          · subst hq
            simpa [Async.put, hog] using g3
          · rw [g2.node q hq, g2.joined q hq, g2.outbox q hq]
            simp only [Async.put, PAsync.put, Function.update_of_ne hq]
            exact h.node q
      | @join _ st _ rng₀ cached l _ hb hi ht hc =>
        obtain ⟨-, -, -, hby⟩ := sim_ready hinv hnn hi hb hc
        simp [Manul.step, hby] at hst
  | @closed i rs rs' out hn hout hin he hst =>
    cases rs with
    | done r => exact absurd rfl (step_running' hst r)
    | running s a => exact (hnet.not_ended (hnet.party ok hn) hn he).elim
  | dispatch hd =>
    have hds := hd.transport (z := y.post) h.inbox h.chan h.disp (fun i r => ((h.node i).done_iff r).trans (post_done y i r).symm)
    obtain ⟨e1, e2, -⟩ := hd.effect (fun p hp => NetReach.wire_party ok hnet.takes.reach (hnet.held hp))
      (fun p hp r hr => NetReach.wire_done ok hnet.takes.reach (hnet.held hp) (by rw [← hnet.node]; exact hr))
    refine ⟨_, hy.step (.dispatch hds), rfl, rfl, rfl, ?_⟩
    intro i
    rw [e1, e2]
    exact h.node i

theorem Offl.reach (ok : sc.Ok) (hlisten : ∀ k i, k < sc.n → sc.g.parties.contains i = true → 100 < (sc.dests k i).elems.length →
      (sc.expects k i).isEmpty = false) {k : Nat} {x : Async P} (hx : AsyncTakes sc.g k x) :
    ∃ y, PAsyncReach sc.g y ∧ Offl x y := by
  induction hx with
  | init => exact ⟨_, ⟨0, .init⟩, rfl, rfl, rfl, fun _ => .idle⟩
  | step hx hs ih =>
    obtain ⟨y, h1, h2⟩ := ih
    exact Offl.step ok hlisten hx h2 h1 hs

/-- If nothing can happen without `offload_processing`, then nothing can happen in the matching state with it. -/
theorem Offl.stuck {g : Group P} {x : Async P} {y : PAsync P} (h : Offl x y) (hstuck : ∀ x', ¬ AsyncStep g x x') (y' : PAsync P) :
    ¬ PAsyncStep g y y' := by
  have hend : y.Ended → x.Ended := by
    unfold PAsync.Ended Async.Ended
    rw [h.disp]
    exact id
  intro hs
  cases hs with
  | @start i rng rng' hi hn =>
    have hoff := h.node i
    rw [hn] at hoff
    generalize hxn : x.node i = c at hoff
    generalize x.outbox i = out at hoff
    generalize y.joined i = j at hoff
    generalize y.outbox i = o at hoff
    cases hoff
    exact hstuck _ (.start rng rng' hi hxn)
  | @push i m ms hout hlen hne =>
    have hxo : ∃ ms', x.outbox i = m :: ms' := by
      have hoff := h.node i
      rw [hout] at hoff
      generalize hms : m :: ms = o at hoff
      generalize x.node i = c at hoff
      generalize x.outbox i = out at hoff
      generalize y.node i = d at hoff
      generalize y.joined i = j at hoff
      cases hoff with
      | idle => cases hms
      | done => cases hms
      | loop => subst hms; exact ⟨_, rfl⟩
      | join => subst hms; exact ⟨_, rfl⟩
    obtain ⟨ms', hxo⟩ := hxo
    exact hstuck _ (.push hxo (by rw [← h.chan]; exact hlen) (by
      intro he
      apply hne
      unfold PAsync.Ended
      rw [h.disp]
      exact he))
  | @pushErr i m ms hout he =>
    have hxo : ∃ ms', x.outbox i = m :: ms' := by
      have hoff := h.node i
      rw [hout] at hoff
      generalize hms : m :: ms = o at hoff
      generalize x.node i = c at hoff
      generalize x.outbox i = out at hoff
      generalize y.node i = d at hoff
      generalize y.joined i = j at hoff
      cases hoff with
      | idle => cases hms
      | done => cases hms
      | loop => subst hms; exact ⟨_, rfl⟩
      | join => subst hms; exact ⟨_, rfl⟩
    obtain ⟨ms', hxo⟩ := hxo
    exact hstuck _ (.pushErr hxo (hend he))
  | @task i s st st' o hn hj hout ho hst =>
    have hoff := h.node i
    rw [hn, hj, hout] at hoff
    generalize x.node i = c at hoff
    generalize x.outbox i = out at hoff
    cases hoff with
    | loop _ _ _ _ _ hnil =>
      obtain ⟨h1, h2⟩ := hnil rfl
      cases o with
      | deliver => exact ho
      | complete k =>
        have : k < st.tasks.length := ho
        rw [h2] at this
        simp at this
      | send k =>
        obtain ⟨o, m, h3, -⟩ := ho
        rw [h1] at h3
        simp at h3
  | @recv i s st st' p ps hn hj hout hin hst =>
    have hoff := h.node i
    rw [hn, hj, hout] at hoff
    generalize hxn : x.node i = c at hoff
    generalize hxo : x.outbox i = out at hoff
    cases hoff with
    | @loop _ _ b _ _ _ _ hb hi hm hc _ hnil =>
      obtain ⟨h1, h2⟩ := hnil rfl
      have hbc := join_keeps (sim_joins hi hb h2)
      rw [hc] at hbc
      have hxo' : x.outbox i = [] := by rw [hxo, h1]; rfl
      cases hst2 : Manul.step (.running s b) (.deliver p.src p.message) with
      | none =>
        simp only [Manul.step, hbc] at hst2
        split at hst2 <;> cases hst2
      | some z => exact hstuck _ (.recv hxn hxo' (by rw [← h.inbox]; exact hin) hst2)
  | @closed i s st st' hn hj hout hin he hst =>
    have hoff := h.node i
    rw [hn, hj, hout] at hoff
    generalize hxn : x.node i = c at hoff
    generalize hxo : x.outbox i = out at hoff
    cases hoff with
    | @loop _ _ b _ _ _ _ hb hi hm hc _ hnil =>
      obtain ⟨h1, h2⟩ := hnil rfl
      have hbc := join_keeps (sim_joins hi hb h2)
      rw [hc] at hbc
      have hxo' : x.outbox i = [] := by rw [hxo, h1]; rfl
      exact hstuck _ (.closed hxn hxo' (by rw [← h.inbox]; exact hin) (hend he) (by simp only [Manul.step, hbc]; rfl))
  | @join i s st hn hj hout hc hf =>
    have hoff := h.node i
    rw [hn, hj, hout] at hoff
    generalize x.node i = c at hoff
    generalize x.outbox i = out at hoff
    cases hoff with
    | loop _ _ _ hc' => exact hc hc'
  | @tick i rs st' rng hn hj hout hst =>
    have hoff := h.node i
    rw [hn, hj, hout] at hoff
    generalize hxn : x.node i = c at hoff
    generalize hxo : x.outbox i = out at hoff
    cases hoff with
    | @join s st b _ _ _ _ hb hi ht hc =>
      have hbc := join_keeps (sim_joins hi hb ht)
      cases hb' : b.canFinalize with
      | notYet => exact hc (by rw [← hbc, hb'])
      | yes => exact hstuck _ (.tick (rng := rng) hxn hxo (by simp only [Manul.step, hb']; rfl))
      | never => exact hstuck _ (.tick (rng := rng) hxn hxo (by simp only [Manul.step, hb']; rfl))
  | @dispatch z hd =>
    exact hstuck _ (.dispatch (hd.transport (z := x) h.inbox.symm h.chan.symm h.disp.symm
      (fun i r => (post_done y i r).trans ((h.node i).done_iff r).symm)))

end Manul
