import Verif.Lemmas.RunAsyncSend
import Verif.Props.RunAsync

/-!
# `run_async` one message at a time: all parties
-/

namespace Manul

variable {sp : SP} {P : Proto sp} {sc : Scheme P}

/-! ## The coarser model -/

theorem AsyncTakes.party (ok : sc.Ok) {k : Nat} {x : Async P} (h : AsyncTakes sc.g k x) {i : sp.Id} {st : RunState P}
    (hi : x.node i = some st) : sc.g.parties.contains i = true := by
  obtain ⟨kn, n, hn⟩ := AsyncNet.reach ok h
  exact hn.party ok hi

theorem AsyncTakes.fine (ok : sc.Ok) {k : Nat} {x : Async P} (h : AsyncTakes sc.g k x) {i : sp.Id} {st : RunState P}
    (hi : x.node i = some st) : Fine st := by
  rintro e rfl
  obtain ⟨rep, v, h1, -⟩ := (C58_no_failure ok h).2 i _ hi
  cases h1

theorem AsyncTakes.me (ok : sc.Ok) {k : Nat} {x : Async P} (h : AsyncTakes sc.g k x) {i : sp.Id} {s : Session P} {a : Accum P}
    (hi : x.node i = some (.running s a)) : s.me = i := by
  obtain ⟨kn, n, hn⟩ := AsyncNet.reach ok h
  exact hn.takes.me ok (by rw [← hn.node]; exact hi)

theorem AsyncTakes.not_ended (ok : sc.Ok) {k : Nat} {x : Async P} (h : AsyncTakes sc.g k x) {i : sp.Id} {s : Session P}
    {a : Accum P} (hi : x.node i = some (.running s a)) : ¬ x.Ended := by
  obtain ⟨kn, n, hn⟩ := AsyncNet.reach ok h
  exact hn.not_ended (hn.party ok hi) hi

theorem AsyncTakes.idle (ok : sc.Ok) {k : Nat} {x : Async P} (h : AsyncTakes sc.g k x) {i : sp.Id}
    (ho : x.outbox i ≠ []) : ∃ s a, x.node i = some (.running s a) := by
  obtain ⟨kn, n, hn⟩ := AsyncNet.reach ok h
  exact hn.sends i ho

/-- The dispatcher sees the channels, and which parties have returned. -/
theorem DispatchStep.carry {g : Group P} {v v' x : Async P} (h : DispatchStep g v v') (hi : x.inbox = v.inbox)
    (hc : x.chan = v.chan) (hd : x.disp = v.disp)
    (hn : ∀ i, (∃ r, v.node i = some (.done r)) ↔ ∃ r, x.node i = some (.done r)) :
    DispatchStep g x { x with inbox := v'.inbox, chan := v'.chan, disp := v'.disp } := by
  obtain ⟨node, outbox, inbox, chan, disp⟩ := x
  simp only at hi hc hd hn
  subst hi hc hd
  cases h with
  | recv h1 h2 => exact .recv h1 h2
  | close h1 h2 h3 => exact .close h1 h2 (fun i hi => (hn i).1 (h3 i hi))
  | drain h1 h2 => exact .drain h1 h2
  | drained h1 h2 => exact .drained h1 h2
  | emptied h1 => exact .emptied h1
  | pick h1 h2 => exact .pick h1 h2
  | noChannel h1 h2 => exact .noChannel h1 h2
  | dropped h1 h2 h3 =>
    obtain ⟨r, hr⟩ := (hn _).1 ⟨_, h3⟩
    exact .dropped h1 h2 hr
  | send h1 h2 h3 h4 =>
    refine .send h1 h2 ?_ h4
    intro r hr
    obtain ⟨r', hr'⟩ := (hn _).2 ⟨r, hr⟩
    exact h3 r' hr'
  | poll h1 h2 => exact .poll h1 h2
  | polled h1 h2 => exact .polled h1 h2

/-- The dispatcher does not act on the parties. -/
theorem DispatchStep.same {g : Group P} {v v' : Async P} (h : DispatchStep g v v') : v'.node = v.node ∧ v'.outbox = v.outbox := by
  cases h <;> exact ⟨rfl, rfl⟩

/-! ## The simulation -/

theorem SAsync.put_self (y : SAsync P) (i : sp.Id) (f : SendState P) : (y.put i f).node i = some f := by simp [SAsync.put]

theorem SAsync.Sim.init : SAsync.Sim (SAsync.init : SAsync P) Async.init where
  inbox := rfl
  chan := rfl
  disp := rfl
  none := fun _ => ⟨fun _ => rfl, fun _ => rfl⟩
  node := by intro i f st h; cases h

theorem SAsync.Sim.get {y : SAsync P} {x : Async P} (h : y.Sim x) {i : sp.Id} {f : SendState P} (hf : y.node i = some f) :
    ∃ st, x.node i = some st ∧ Completes f st (x.outbox i) := by
  cases hx : x.node i with
  | none => rw [(h.none i).2 hx] at hf; cases hf
  | some st => exact ⟨st, rfl, h.node i f st hf hx⟩

theorem SAsync.Sim.get' {y : SAsync P} {x : Async P} (h : y.Sim x) {i : sp.Id} {st : RunState P} (hf : x.node i = some st) :
    ∃ f, y.node i = some f ∧ Completes f st (x.outbox i) := by
  cases hx : y.node i with
  | none => rw [(h.none i).1 hx] at hf; cases hf
  | some f => exact ⟨f, rfl, h.node i f st hx hf⟩

theorem SAsync.Sim.ended {y : SAsync P} {x : Async P} (h : y.Sim x) : x.Ended ↔ y.Ended := by
  unfold Async.Ended SAsync.Ended
  rw [h.disp]

/-- The parties that have returned. -/
theorem SAsync.Sim.done {y : SAsync P} {x : Async P} (h : y.Sim x) (i : sp.Id) :
    (∃ r, y.view.node i = some (.done r)) ↔ ∃ r, x.node i = some (.done r) := by
  cases hy : y.node i with
  | none =>
    have hv : y.view.node i = Option.none := by simp only [SAsync.view, hy]
    simp [(h.none i).1 hy, hv]
  | some f =>
    obtain ⟨st, hst, hc⟩ := h.get hy
    rw [hst]
    generalize x.outbox i = out at hc
    cases hc <;> simp [SAsync.view, hy]

/-- A party changes, in both. -/
theorem SAsync.Sim.put {y : SAsync P} {x : Async P} (h : y.Sim x) {i : sp.Id} {f : SendState P} {st : RunState P}
    {out : List (Message sp)} (hc : Completes f st out) : (y.put i f).Sim (x.put i st out) where
  inbox := h.inbox
  chan := h.chan
  disp := h.disp
  none := by
    intro j
    simp only [SAsync.put, Async.put]
    by_cases hj : j = i
    · subst hj; simp
    · simp only [Function.update_of_ne hj]; exact h.none j
  node := by
    intro j f' st' h1 h2
    simp only [SAsync.put, Async.put] at h1 h2 ⊢
    by_cases hj : j = i
    · subst hj
      simp only [Function.update_self, Option.some.injEq] at h1 h2 ⊢
      subst h1 h2
      exact hc
    · simp only [Function.update_of_ne hj] at h1 h2 ⊢
      exact h.node j f' st' h1 h2

/-- A party changes in the finer model only. -/
theorem SAsync.Sim.stay {y : SAsync P} {x : Async P} (h : y.Sim x) {i : sp.Id} {f : SendState P} {st : RunState P}
    (hx : x.node i = some st) (hc : Completes f st (x.outbox i)) : (y.put i f).Sim x where
  inbox := h.inbox
  chan := h.chan
  disp := h.disp
  none := by
    intro j
    simp only [SAsync.put]
    by_cases hj : j = i
    · subst hj; simp [hx]
    · simp only [Function.update_of_ne hj]; exact h.none j
  node := by
    intro j f' st' h1 h2
    simp only [SAsync.put] at h1
    by_cases hj : j = i
    · subst hj
      simp only [Function.update_self, Option.some.injEq] at h1
      subst h1
      rw [hx] at h2
      cases h2
      exact hc
    · simp only [Function.update_of_ne hj] at h1
      exact h.node j f' st' h1 h2

/-- The channels change in the same way. -/
theorem SAsync.Sim.channels {y : SAsync P} {x : Async P} (h : y.Sim x) (inbox : sp.Id → List (Packet sp)) (chan : List (Packet sp))
    (disp : Dispatcher sp) : SAsync.Sim { y with inbox := inbox, chan := chan, disp := disp }
      { x with inbox := inbox, chan := chan, disp := disp } where
  inbox := rfl
  chan := rfl
  disp := rfl
  none := h.none
  node := h.node

theorem SAsync.Sim.pushed {y : SAsync P} {x : Async P} (h : y.Sim x) {i : sp.Id} {f : SendState P} {st : RunState P}
    {ms : List (Message sp)} {c : List (Packet sp)} (hx : x.node i = some st) (hc : Completes f st ms) :
    (SAsync.put { y with chan := c } i f).Sim { x with outbox := Function.update x.outbox i ms, chan := c } := by
  have h1 := (h.channels y.inbox c y.disp).put (i := i) hc
  have h2 : Function.update x.node i (some st) = x.node := by rw [← hx]; exact Function.update_eq_self i x.node
  have h3 : Async.put { x with inbox := y.inbox, chan := c, disp := y.disp } i st ms =
      { x with outbox := Function.update x.outbox i ms, chan := c } := by
    unfold Async.put
    rw [h2, ← h.inbox, ← h.disp]
  rw [h3] at h1
  exact h1

theorem startSend_completes {g : Group P} {i : sp.Id} {rng rng' : sp.Rng} (h : Fine (g.startNode i rng rng').1) :
    Completes (g.startSend i rng rng') (g.startNode i rng rng').1 (g.startNode i rng rng').2 := by
  unfold Group.startNode at h ⊢
  unfold Group.startSend
  cases hs : Session.new rng g.sid (g.signer i) (g.ep i) with
  | error e =>
    rw [hs] at h
    exact absurd rfl (h e)
  | ok s =>
    rw [hs] at h
    exact completes_enter h

/-- The weight of the steps of a party that do not show. -/
def weigh : Option (SendState P) → Nat × Nat
  | none => (0, 0)
  | some f => (f.kept, f.stage)

/-- Every step of the finer model is one of the coarser, or one that does not show there. -/
theorem SAsync.Sim.step (ok : sc.Ok) {k : Nat} {y y' : SAsync P} {x : Async P} (hx : AsyncTakes sc.g k x) (h : y.Sim x)
    (hs : SAsyncStep sc.g y y') :
    (y'.Sim x ∧ ∃ i f f' o, y.node i = some f ∧ sendStep f .go = some (f', o) ∧ y'.node = Function.update y.node i (some f')) ∨
    (∃ x', AsyncStep sc.g x x' ∧ y'.Sim x' ∧ (y'.node = y.node ∨ ∃ i f', sc.g.parties.contains i = true ∧
      y'.node = Function.update y.node i (some f') ∧
      (weigh (some f')).1 + (weigh (y.node i)).2 ≤ (weigh (y.node i)).1 + (weigh (some f')).2 + 2)) := by
  cases hs with
  | @start i rng rng' hi hn =>
    right
    have hstep : AsyncStep sc.g x (x.put i (sc.g.startNode i rng rng').1 (sc.g.startNode i rng rng').2) :=
      .start rng rng' hi ((h.none i).1 hn)
    have hfine : Fine (sc.g.startNode i rng rng').1 :=
      (AsyncTakes.step hx hstep).fine ok (i := i) (by simp [Async.put])
    refine ⟨_, hstep, h.put (startSend_completes hfine), .inr ⟨i, _, hi, rfl, ?_⟩⟩
    have hk : (sc.g.startSend i rng rng').kept = 0 := by
      unfold Group.startSend
      split
      · rfl
      · rfl
    rw [hn]
    simp only [weigh, hk]
    omega
  | @go i f f' o hf hgo =>
    left
    obtain ⟨st, hst, hc⟩ := h.get hf
    exact ⟨h.stay hst (hc.go hgo), i, f, f', o, hf, hgo, rfl⟩
  | @push i f f' m hf hac hcap hend =>
    right
    obtain ⟨st, hst, hc⟩ := h.get hf
    obtain ⟨s, a, m', ms, rfl, hout, hm, hsrc, hdest, hc'⟩ := hc.accept hac
    cases hm
    have hme := hx.me ok hst
    have hstep := AsyncStep.push (g := sc.g) (x := x) (i := i) hout (by rw [h.chan]; exact hcap) (by rw [h.ended]; exact hend)
    refine ⟨_, hstep, ?_, .inr ⟨i, f', hx.party ok hst, rfl, ?_⟩⟩
    · rw [hsrc, hme, hdest, h.chan]
      exact h.pushed hst hc'
    · rw [hf]
      have := accept_count hac
      simp only [weigh]; omega
  | @pushErr i f f' o hf hre hend =>
    exfalso
    obtain ⟨st, hst, hc⟩ := h.get hf
    obtain ⟨m, ms, hout⟩ := hc.refuse hre
    obtain ⟨s, a, hr⟩ := hx.idle ok (i := i) (by rw [hout]; simp)
    exact hx.not_ended ok hr (h.ended.2 hend)
  | @tick i f f' rng o hf hev =>
    right
    obtain ⟨st, hst, hc⟩ := h.get hf
    obtain ⟨s, a, rfl⟩ := ev_looping hev
    generalize hout : x.outbox i = out at hc
    cases hc
    obtain ⟨rfl, st', out', h1, h2⟩ := loop_step.1 f' o hev
    have hstep := AsyncStep.tick (g := sc.g) hst hout h1
    have hfine := (AsyncTakes.step hx hstep).fine ok (i := i) (st := st') (by simp [Async.put])
    refine ⟨_, hstep, h.put (h2 hfine), .inr ⟨i, f', hx.party ok hst, rfl, ?_⟩⟩
    rw [hf]
    exact ev_count hev
  | @recv i f f' p ps o hf hin hev =>
    right
    obtain ⟨st, hst, hc⟩ := h.get hf
    obtain ⟨s, a, rfl⟩ := ev_looping hev
    generalize hout : x.outbox i = out at hc
    cases hc
    obtain ⟨rfl, st', out', h1, h2⟩ := loop_step.1 f' o hev
    have hstep := AsyncStep.recv (g := sc.g) hst hout (by rw [h.inbox]; exact hin) h1
    have hfine := (AsyncTakes.step hx hstep).fine ok (i := i) (st := st') (by simp [Async.put])
    refine ⟨_, hstep, ?_, .inr ⟨i, f', hx.party ok hst, rfl, ?_⟩⟩
    · have h3 := (h.channels (Function.update y.inbox i ps) y.chan y.disp).put (i := i) (h2 hfine)
      have h4 : ({ x with inbox := Function.update y.inbox i ps, chan := y.chan, disp := y.disp } : Async P) =
          { x with inbox := Function.update x.inbox i ps } := by rw [h.inbox, ← h.chan, ← h.disp]
      rw [h4] at h3
      exact h3
    · rw [hf]
      exact ev_count hev
  | @closed i f f' o hf hin hend hev =>
    exfalso
    obtain ⟨st, hst, hc⟩ := h.get hf
    obtain ⟨s, a, rfl⟩ := ev_looping hev
    generalize hout : x.outbox i = out at hc
    cases hc
    exact hx.not_ended ok hst (h.ended.2 hend)
  | @dispatch v hd =>
    right
    exact ⟨_, .dispatch (hd.carry (x := x) h.inbox h.chan h.disp h.done), h.channels _ _ _, .inl rfl⟩

/-! ## Counting the steps -/

theorem sum_update {α : Type} [DecidableEq α] (F : α → Nat) (i : α) (v : Nat) (l : List α) (hl : l.Nodup) (hi : i ∈ l) :
    (l.map (Function.update F i v)).sum + F i = (l.map F).sum + v := by
  induction l with
  | nil => cases hi
  | cons b l ih =>
    rw [List.nodup_cons] at hl
    by_cases hb : b = i
    · subst hb
      have : l.map (Function.update F b v) = l.map F := by
        refine List.map_congr_left ?_
        intro c hc
        have hne : c ≠ b := by
          rintro rfl
          exact hl.1 hc
        exact Function.update_of_ne hne _ _
      simp only [List.map_cons, List.sum_cons, this, Function.update_self]
      omega
    · have hi' : i ∈ l := by
        rcases List.mem_cons.1 hi with h | h
        · exact absurd h.symm hb
        · exact h
      have := ih hl.2 hi'
      simp only [List.map_cons, List.sum_cons, Function.update_of_ne hb]
      omega

/-- The sums over all parties. -/
def SAsync.total (g : Group P) (y : SAsync P) (w : Option (SendState P) → Nat) : Nat := (g.parties.elems.map (fun i => w (y.node i))).sum

theorem SAsync.total_update {g : Group P} {y y' : SAsync P} {i : sp.Id} {f : SendState P} (hi : g.parties.contains i = true)
    (h : y'.node = Function.update y.node i (some f)) (w : Option (SendState P) → Nat) :
    y'.total g w + w (y.node i) = y.total g w + w (some f) := by
  unfold SAsync.total
  have : (fun j => w (y'.node j)) = Function.update (fun j => w (y.node j)) i (w (some f)) := by
    funext j
    rw [h]
    by_cases hj : j = i
    · subst hj; simp
    · simp [Function.update_of_ne hj]
  rw [this]
  exact sum_update _ i _ _ (BSet.elems_nodup _) (BSet.mem_elems.2 hi)

theorem SAsync.total_stage (g : Group P) (y : SAsync P) : y.total g (fun o => (weigh o).2) ≤ 2 * g.parties.elems.length := by
  simp only [SAsync.total]
  induction g.parties.elems with
  | nil => simp
  | cons i l ih =>
    have : (weigh (y.node i)).2 ≤ 2 := by
      cases y.node i with
      | none => simp [weigh]
      | some f => cases f <;> simp [weigh, SendState.stage]
    simp only [List.map_cons, List.sum_cons, List.length_cons]
    omega

theorem Completes.open {f f' : SendState P} {st : RunState P} {out : List (Message sp)} {o : List (MessageOut sp)}
    (h : Completes f st out) (hs : sendStep f .go = some (f', o)) : ∀ r, f' ≠ .done r := by
  rintro r rfl
  have h1 := h.go hs
  cases h1
  cases h
  simp [sendStep] at hs

/-- Every execution of the finer model is one of the coarser, with steps that do not show. -/
theorem SAsync.Sim.reach (ok : sc.Ok) {k : Nat} {y : SAsync P} (h : SAsyncTakes sc.g k y) :
    ∃ kc x, AsyncTakes sc.g kc x ∧ y.Sim x ∧
      k + y.total sc.g (fun o => (weigh o).1) ≤ 3 * kc + y.total sc.g (fun o => (weigh o).2) := by
  induction h with
  | init =>
    refine ⟨0, Async.init, .init, .init, ?_⟩
    simp [SAsync.total, SAsync.init, weigh]
  | @step k y y' _ hs ih =>
    obtain ⟨kc, x, hx, hsim, hcount⟩ := ih
    rcases hsim.step ok hx hs with ⟨h1, i, f, f', o, hf, hgo, hnode⟩ | ⟨x', hstep, h1, h2⟩
    · refine ⟨kc, x, hx, h1, ?_⟩
      obtain ⟨st, hst, hc⟩ := hsim.get hf
      have hi := hx.party ok hst
      have h3 := SAsync.total_update hi hnode (fun o => (weigh o).1)
      have h4 := SAsync.total_update hi hnode (fun o => (weigh o).2)
      have h5 := go_count hgo (hc.open hgo)
      rw [hf] at h3 h4
      simp only [weigh] at h3 h4 hcount ⊢
      omega
    · refine ⟨kc + 1, x', hx.step hstep, h1, ?_⟩
      rcases h2 with h2 | ⟨i, f', hi, hnode, h5⟩
      · have h3 : ∀ w, y'.total sc.g w = y.total sc.g w := by intro w; unfold SAsync.total; rw [h2]
        rw [h3, h3]
        omega
      · have h3 := SAsync.total_update hi hnode (fun o => (weigh o).1)
        have h4 := SAsync.total_update hi hnode (fun o => (weigh o).2)
        omega

/-! ## The other direction -/

/-- Everybody has made and processed all that can be. -/
def SAsync.AtRest (y : SAsync P) : Prop := ∀ i f, y.node i = some f → Manul.AtRest f

/-- Every step of the coarser model is one of the finer once everybody has settled. -/
theorem SAsync.Sim.back (ok : sc.Ok) {k : Nat} {y : SAsync P} {x x' : Async P} (hx : AsyncTakes sc.g k x) (h : y.Sim x)
    (hset : y.AtRest) (hs : AsyncStep sc.g x x') : ∃ y', SAsyncStep sc.g y y' ∧ y'.Sim x' := by
  have hx' := AsyncTakes.step hx hs
  cases hs with
  | @start i rng rng' hi hn =>
    have hfine : Fine (sc.g.startNode i rng rng').1 := hx'.fine ok (i := i) (by simp [Async.put])
    exact ⟨_, .start rng rng' hi ((h.none i).2 hn), h.put (startSend_completes hfine)⟩
  | @push i m ms hout hcap hend =>
    obtain ⟨s, a, hst⟩ := hx.idle ok (i := i) (by rw [hout]; simp)
    have hme := hx.me ok hst
    obtain ⟨f, hf, hc⟩ := h.get' hst
    rcases hc.settled (hset i f hf) with ⟨s', a', cached, rng, i', ds, m', art, rfl⟩ | ⟨_, _, -, -, h1⟩ | ⟨_, -, -, h1⟩
    · have hac : ∃ f', sendStep (.offering s' a' cached rng i' ds m' art) .accept = some (f', [m']) := by
        simp only [sendStep]
        split
        · exact ⟨_, rfl⟩
        · exact ⟨_, rfl⟩
      obtain ⟨f', hac⟩ := hac
      obtain ⟨s1, a1, m1, ms1, h1, hout1, hm, hsrc, hdest, hc'⟩ := hc.accept hac
      cases hm
      cases h1
      rw [hout] at hout1
      cases hout1
      refine ⟨_, .push hf hac (by rw [← h.chan]; exact hcap) (by rw [← h.ended]; exact hend), ?_⟩
      rw [hsrc, hme, hdest, h.chan]
      exact h.pushed hst hc'
    · rw [hout] at h1; cases h1
    · rw [hout] at h1; cases h1
  | @pushErr i m ms hout hend =>
    exact absurd rfl (hx'.fine ok (i := i) (st := .done (.error .channelClosed)) (by simp [Async.put]) _)
  | @tick i st st' rng out hst hout hev =>
    obtain ⟨f, hf, hc⟩ := h.get' hst
    rcases hc.settled (hset i f hf) with ⟨s', a', cached, rng, i', ds, m', art, rfl⟩ | ⟨s, a, rfl, rfl, -⟩ | ⟨r, -, rfl, -⟩
    · rw [hout] at hc; cases hc
    · obtain ⟨f', h1, h2⟩ := loop_step.2 st' out hev
      exact ⟨_, .tick hf h1, h.put (h2 (hx'.fine ok (i := i) (by simp [Async.put])))⟩
    · simp [Manul.step] at hev
  | @recv i st st' p ps out hst hout hin hev =>
    obtain ⟨f, hf, hc⟩ := h.get' hst
    rcases hc.settled (hset i f hf) with ⟨s', a', cached, rng, i', ds, m', art, rfl⟩ | ⟨s, a, rfl, rfl, -⟩ | ⟨r, -, rfl, -⟩
    · rw [hout] at hc; cases hc
    · obtain ⟨f', h1, h2⟩ := loop_step.2 st' out hev
      refine ⟨_, .recv hf (by rw [← h.inbox]; exact hin) h1, ?_⟩
      have h3 := (h.channels (Function.update y.inbox i ps) y.chan y.disp).put (i := i)
        (h2 (hx'.fine ok (i := i) (by simp [Async.put])))
      have h4 : ({ x with inbox := Function.update y.inbox i ps, chan := y.chan, disp := y.disp } : Async P) =
          { x with inbox := Function.update x.inbox i ps } := by rw [h.inbox, ← h.chan, ← h.disp]
      rw [h4] at h3
      exact h3
    · simp [Manul.step] at hev
  | @closed i st st' out hst hout hin hend hev =>
    obtain ⟨f, hf, hc⟩ := h.get' hst
    rcases hc.settled (hset i f hf) with ⟨s', a', cached, rng, i', ds, m', art, rfl⟩ | ⟨s, a, rfl, rfl, -⟩ | ⟨r, -, rfl, -⟩
    · rw [hout] at hc; cases hc
    · exact absurd hend (hx.not_ended ok hst)
    · simp [Manul.step] at hev
  | dispatch hd =>
    have h1 := hd.carry (x := y.view) h.inbox.symm h.chan.symm h.disp.symm (fun i => (h.done i).symm)
    refine ⟨_, .dispatch h1, ?_⟩
    have h2 := hd.same
    have h3 := h.channels x'.inbox x'.chan x'.disp
    have h4 : ({ x with inbox := x'.inbox, chan := x'.chan, disp := x'.disp } : Async P) = x' := by rw [← h2.1, ← h2.2]
    rw [h4] at h3
    exact h3

/-- A party can settle. -/
theorem SAsync.Sim.settle_one {n k : Nat} {y : SAsync P} {x : Async P} {g : Group P} (hy : SAsyncTakes g k y) (h : y.Sim x)
    {i : sp.Id} {f : SendState P} (hf : y.node i = some f) (hn : f.left ≤ n) :
    ∃ k' y', SAsyncTakes g k' y' ∧ y'.Sim x ∧ (∀ f', y'.node i = some f' → Manul.AtRest f') ∧
      ∀ j, j ≠ i → y'.node j = y.node j := by
  induction n generalizing k y f with
  | zero =>
    refine ⟨k, y, hy, h, ?_, fun _ _ => rfl⟩
    intro f' hf'
    rw [hf] at hf'
    cases hf'
    by_contra hc
    cases hg : sendStep f .go with
    | none => exact hc hg
    | some r =>
      obtain ⟨f1, o⟩ := r
      have := go_left hg
      omega
  | succ n ih =>
    cases hg : sendStep f .go with
    | none =>
      refine ⟨k, y, hy, h, ?_, fun _ _ => rfl⟩
      intro f' hf'
      rw [hf] at hf'
      cases hf'
      exact hg
    | some r =>
      obtain ⟨f1, o⟩ := r
      obtain ⟨st, hst, hc⟩ := h.get hf
      have h1 := go_left hg
      obtain ⟨k', y', h2, h3, h4, h5⟩ := ih (SAsyncTakes.step hy (.go hf hg)) (h.stay hst (hc.go hg)) (f := f1)
        (by simp [SAsync.put]) (by omega)
      refine ⟨k', y', h2, h3, h4, ?_⟩
      intro j hj
      rw [h5 j hj]
      simp [SAsync.put, Function.update_of_ne hj]

/-- Everybody can settle. -/
theorem SAsync.Sim.settle (ok : sc.Ok) {k kc : Nat} {y : SAsync P} {x : Async P} (hx : AsyncTakes sc.g kc x)
    (hy : SAsyncTakes sc.g k y) (h : y.Sim x) : ∃ k' y', SAsyncTakes sc.g k' y' ∧ y'.Sim x ∧ y'.AtRest := by
  have key : ∀ l : List sp.Id, ∃ k' y', SAsyncTakes sc.g k' y' ∧ y'.Sim x ∧
      ∀ i, i ∈ l → ∀ f, y'.node i = some f → Manul.AtRest f := by
    intro l
    induction l with
    | nil => exact ⟨k, y, hy, h, by simp⟩
    | cons i l ih =>
      obtain ⟨k', y', h1, h2, h3⟩ := ih
      cases hf : y'.node i with
      | none =>
        refine ⟨k', y', h1, h2, ?_⟩
        intro j hj f hf'
        rcases List.mem_cons.1 hj with rfl | hj
        · rw [hf] at hf'; cases hf'
        · exact h3 j hj f hf'
      | some f =>
        obtain ⟨k2, y2, h4, h5, h6, h7⟩ := SAsync.Sim.settle_one h1 h2 hf (le_refl _)
        refine ⟨k2, y2, h4, h5, ?_⟩
        intro j hj f' hf'
        by_cases hji : j = i
        · subst hji; exact h6 f' hf'
        · rw [h7 j hji] at hf'
          rcases List.mem_cons.1 hj with rfl | hj
          · exact absurd rfl hji
          · exact h3 j hj f' hf'
  obtain ⟨k', y', h1, h2, h3⟩ := key sc.g.parties.elems
  refine ⟨k', y', h1, h2, ?_⟩
  intro i f hf
  obtain ⟨st, hst, -⟩ := h2.get hf
  exact h3 i (BSet.mem_elems.2 (hx.party ok hst)) f hf

/-- Every execution of the coarser model is one of the finer. -/
theorem SAsync.Sim.all (ok : sc.Ok) {k : Nat} {x : Async P} (h : AsyncTakes sc.g k x) :
    ∃ k' y, SAsyncTakes sc.g k' y ∧ y.Sim x ∧ y.AtRest := by
  induction h with
  | init => exact ⟨0, _, .init, .init, by intro i f hf; cases hf⟩
  | @step k x x' hx hs ih =>
    obtain ⟨k', y, h1, h2, h3⟩ := ih
    obtain ⟨y', h4, h5⟩ := h2.back ok hx h3 hs
    exact h5.settle ok (hx.step hs) (h1.step h4)

/-- If nothing moves in the coarser model, nothing moves in the finer once everybody has settled. -/
theorem SAsync.Sim.stuck (ok : sc.Ok) {k : Nat} {y : SAsync P} {x : Async P} (hx : AsyncTakes sc.g k x) (h : y.Sim x)
    (hset : y.AtRest) (hstuck : ∀ x', ¬ AsyncStep sc.g x x') (y' : SAsync P) : ¬ SAsyncStep sc.g y y' := by
  intro hs
  rcases h.step ok hx hs with ⟨-, i, f, f', o, hf, hgo, -⟩ | ⟨x', hstep, -⟩
  · have := hset i f hf
    unfold Manul.AtRest at this
    rw [hgo] at this
    cases this
  · exact hstuck _ hstep

/-- And if nothing moves in the finer, nothing moves in the coarser. -/
theorem SAsync.Sim.unstuck (ok : sc.Ok) {k : Nat} {y : SAsync P} {x : Async P} (hx : AsyncTakes sc.g k x) (h : y.Sim x)
    (hstuck : ∀ y', ¬ SAsyncStep sc.g y y') (x' : Async P) : ¬ AsyncStep sc.g x x' := by
  intro hs
  have hset : y.AtRest := by
    intro i f hf
    cases hg : sendStep f .go with
    | none => exact hg
    | some r => exact (hstuck _ (.go hf hg)).elim
  obtain ⟨y', h1, -⟩ := h.back ok hx hset hs
  exact hstuck y' h1

end Manul
