import Verif.Model.RunAsync
import Verif.Lemmas.RunSyncNet

/-! # `run_async` of a group of parties is a schedule of the network -/

namespace Manul

variable {sp : SP} {P : Proto sp} {sc : Scheme P}

/-! ### Facts about the network -/

/-- Nobody is more than one position ahead of what has been finished. -/
theorem Scheme.NetInv.entered_le {L : Ledger P} {e f : sp.Id → Nat} {net : Net P} (h : sc.NetInv L e f net) (x : sp.Id) :
    e x ≤ f x + 1 := by
  cases hns : net.node x with
  | none => have := (h.idle _ hns).1; omega
  | some st =>
    cases st with
    | running s' a' => have := (h.running _ _ _ hns).1; omega
    | done r => have := (h.done _ _ hns).1; omega

/-- A message in transit is for the position of its destination, or for the next. -/
theorem Scheme.NetInv.near (ok : sc.Ok) {L : Ledger P} {e f : sp.Id → Nat} {net : Net P} (h : sc.NetInv L e f net) {p : Packet sp}
    (hp : p ∈ net.wire) : (sc.g.others p.dest).contains p.src = true ∧
      (p.message.direct.metadata.roundId = sc.idAt (f p.dest) ∨
        p.message.direct.metadata.roundId = sc.idAt (sc.nxt (f p.dest) p.dest)) := by
  obtain ⟨hd, t, ht, hsrc, hm, hnr⟩ := h.wire p hp
  have coop := ok.coop
  have hst0 := h.entered ht
  have hoth := coop.pattern.others_at hst0 hd (Or.inr hsrc)
  obtain ⟨hsd, hsp⟩ := Scheme.others_contains.1 hoth
  refine ⟨hoth, ?_⟩
  rw [hm.roundId]
  have hlow : f p.dest ≤ t := by
    by_contra hc
    exact hnr (Or.inl (by omega))
  have hact := Scheme.active_of_expects hsrc
  have hact0 : sc.Active (f p.dest) p.dest := by
    cases hns : net.node p.dest with
    | none =>
      rw [(h.idle _ hns).2.1]
      intro k hk
      simp [spot] at hk
    | some st =>
      cases st with
      | running s a => exact (h.running _ _ _ hns).2.1.active
      | done r =>
        intro k hk
        have h1 := (h.done _ _ hns).2.1
        have h2 := spot_echo.1 hk
        omega
  have hhigh : t ≤ sc.nxt (f p.dest) p.dest := by
    by_contra hc
    obtain ⟨q, hq1, hq2, hq3⟩ := Scheme.prev_of hact0 hact (show f p.dest < t by
      have := Scheme.lt_nxt (sc := sc) (f p.dest) p.dest
      omega)
    have hne : q ≠ f p.dest := by
      rintro rfl
      omega
    have hback := coop.pattern.heard hst0 hsp (by
      rw [coop.pattern.matched_at hst0 hsp hd]
      exact hsrc) hq1 hq2 (by omega)
    have h3 := h.entered_le p.src
    have h6 := Scheme.lt_nxt (sc := sc) q p.dest
    have h4 := h.sync p.src p.dest q hsp hback (by omega)
    have h5 := h.entered_le p.dest
    omega
  have : t = f p.dest ∨ t = sc.nxt (f p.dest) p.dest := by
    rcases Nat.eq_or_lt_of_le hlow with h1 | h1
    · exact Or.inl h1.symm
    · have := Scheme.nxt_le hact h1
      exact Or.inr (by omega)
  rcases this with rfl | h1
  · exact Or.inl rfl
  · exact Or.inr (by rw [h1])

/-- No message is in transit to a party that has finished. -/
theorem Scheme.NetInv.wire_done {L : Ledger P} {e f : sp.Id → Nat} {n : Net P} (hinv : sc.NetInv L e f n) {p : Packet sp}
    (hp : p ∈ n.wire) {r : Except LErr (Report P)} (hn : n.node p.dest = some (.done r)) : False := by
  obtain ⟨-, t, ht, -, -, hnr⟩ := hinv.wire p hp
  obtain ⟨-, h2, -⟩ := hinv.done _ _ hn
  refine hnr (Or.inl ?_)
  have := hinv.entered ht
  rw [spot_lt] at this
  omega

/-- At most two messages of each other party are in transit to a party. -/
theorem Scheme.NetInv.wire_count (ok : sc.Ok) {L : Ledger P} {e f : sp.Id → Nat} {n : Net P} (hinv : sc.NetInv L e f n)
    (i : sp.Id) : (n.wire.filter (fun p => decide (p.dest = i))).length ≤ 2 * (sc.g.others i).elems.length := by
  have hnd : ((n.wire.filter (fun p => decide (p.dest = i))).map
      (fun p => (p.src, p.message.direct.metadata.roundId))).Nodup := by
    have h1 := (hinv.nodup.sublist ((List.filter_sublist (l := n.wire) (p := fun p => decide (p.dest = i))).map _))
    rw [List.Nodup, List.pairwise_map] at h1 ⊢
    refine h1.imp_of_mem ?_
    intro p q hp hq hne heq
    simp only [List.mem_filter, decide_eq_true_eq] at hp hq
    simp only [Prod.mk.injEq] at heq
    exact hne (by rw [heq.1, heq.2, hp.2, hq.2])
  rw [← List.length_map (f := fun p : Packet sp => (p.src, p.message.direct.metadata.roundId))]
  have hsub : (n.wire.filter (fun p => decide (p.dest = i))).map (fun p => (p.src, p.message.direct.metadata.roundId)) ⊆
      (sc.g.others i).elems.map (fun x => (x, sc.idAt (f i))) ++ (sc.g.others i).elems.map (fun x => (x, sc.idAt (sc.nxt (f i) i))) := by
    intro y hy
    obtain ⟨p, hp, rfl⟩ := List.mem_map.1 hy
    simp only [List.mem_filter, decide_eq_true_eq] at hp
    obtain ⟨hp, rfl⟩ := hp
    obtain ⟨h1, h2⟩ := hinv.near ok hp
    rw [← BSet.mem_elems] at h1
    rw [List.mem_append, List.mem_map, List.mem_map]
    rcases h2 with h2 | h2
    · exact Or.inl ⟨_, h1, by rw [h2]⟩
    · exact Or.inr ⟨_, h1, by rw [h2]⟩
  have := (List.subperm_of_subset hnd hsub).length_le
  simp only [List.length_append, List.length_map] at this
  simp only [List.length_map]
  omega

/-- Messages in transit are for parties. -/
theorem NetReach.wire_party (ok : sc.Ok) {n : Net P} (h : NetReach sc.g n) {p : Packet sp} (hp : p ∈ n.wire) :
    sc.g.parties.contains p.dest = true := by
  obtain ⟨L, e, f, hinv⟩ := Scheme.NetInv.reach ok h
  exact (hinv.wire p hp).1

theorem NetReach.wire_done (ok : sc.Ok) {n : Net P} (h : NetReach sc.g n) {p : Packet sp} (hp : p ∈ n.wire)
    {r : Except LErr (Report P)} (hn : n.node p.dest = some (.done r)) : False := by
  obtain ⟨L, e, f, hinv⟩ := Scheme.NetInv.reach ok h
  exact hinv.wire_done hp hn

theorem NetReach.wire_count (ok : sc.Ok) {n : Net P} (h : NetReach sc.g n) (i : sp.Id) :
    (n.wire.filter (fun p => decide (p.dest = i))).length ≤ 2 * (sc.g.others i).elems.length := by
  obtain ⟨L, e, f, hinv⟩ := Scheme.NetInv.reach ok h
  exact hinv.wire_count ok i

/-! ### Messages in flight -/

/-- A message made by a party. -/
def packetOf (i : sp.Id) (m : Message sp) : Packet sp := ⟨i, m.destination, m⟩

/-- The messages the dispatcher holds. -/
def Dispatcher.held : Dispatcher sp → List (Packet sp)
  | .waiting => []
  | .draining bag => bag
  | .picking bag => bag
  | .sending p bag => p :: bag
  | .polling bag => bag
  | .returned => []
  | .failed => []

/-- What the parties have still to send. -/
def Async.outgoing (g : Group P) (x : Async P) : List (Packet sp) :=
  g.parties.elems.flatMap (fun i => (x.outbox i).map (packetOf i))

/-- The contents of the channels of the parties. -/
def Async.incoming (g : Group P) (x : Async P) : List (Packet sp) := g.parties.elems.flatMap x.inbox

/-- All messages that have not been received. -/
def Async.flight (g : Group P) (x : Async P) : List (Packet sp) :=
  x.outgoing g ++ x.chan ++ x.disp.held ++ x.incoming g

theorem flatMap_split {α β : Type} [DecidableEq α] {l : List α} (hl : l.Nodup) {i : α} (hi : i ∈ l) (F : α → List β) :
    ∃ rest, (l.flatMap F).Perm (F i ++ rest) ∧ ∀ v, (l.flatMap (Function.update F i v)).Perm (v ++ rest) := by
  induction l with
  | nil => simp at hi
  | cons y l ih =>
    rw [List.nodup_cons] at hl
    by_cases hy : y = i
    · subst hy
      refine ⟨l.flatMap F, by simp, ?_⟩
      intro v
      have : l.flatMap (Function.update F y v) = l.flatMap F := by
        apply List.flatMap_congr
        intro x hx
        rw [Function.update_of_ne]
        rintro rfl
        exact hl.1 hx
      simp [this]
    · obtain ⟨rest, h1, h2⟩ := ih hl.2 (by
        rcases List.mem_cons.1 hi with h | h
        · exact absurd h.symm hy
        · exact h)
      refine ⟨F y ++ rest, ?_, ?_⟩
      · rw [List.flatMap_cons]
        refine (h1.append_left _).trans ?_
        rw [← List.append_assoc, ← List.append_assoc]
        exact List.perm_append_comm.append_right _
      · intro v
        rw [List.flatMap_cons, Function.update_of_ne hy]
        refine ((h2 v).append_left _).trans ?_
        rw [← List.append_assoc, ← List.append_assoc]
        exact List.perm_append_comm.append_right _

/-- A party changes what it has to send. -/
theorem Async.outgoing_split (g : Group P) (x : Async P) {i : sp.Id} (hi : g.parties.contains i = true) :
    ∃ rest, (x.outgoing g).Perm ((x.outbox i).map (packetOf i) ++ rest) ∧
      ∀ (y : Async P) out, y.outbox = Function.update x.outbox i out → (y.outgoing g).Perm (out.map (packetOf i) ++ rest) := by
  obtain ⟨rest, h1, h2⟩ := flatMap_split (BSet.elems_nodup g.parties) (BSet.mem_elems.2 hi) (fun i => (x.outbox i).map (packetOf i))
  refine ⟨rest, h1, ?_⟩
  intro y out hy
  refine List.Perm.trans (List.Perm.of_eq ?_) (h2 (out.map (packetOf i)))
  unfold Async.outgoing
  congr 1
  funext j
  rw [hy]
  by_cases h : j = i
  · subst h; simp
  · simp [Function.update_of_ne h]

/-- The channel of a party changes. -/
theorem Async.incoming_split (g : Group P) (x : Async P) {i : sp.Id} (hi : g.parties.contains i = true) :
    ∃ rest, (x.incoming g).Perm (x.inbox i ++ rest) ∧
      ∀ (y : Async P) ps, y.inbox = Function.update x.inbox i ps → (y.incoming g).Perm (ps ++ rest) := by
  obtain ⟨rest, h1, h2⟩ := flatMap_split (BSet.elems_nodup g.parties) (BSet.mem_elems.2 hi) x.inbox
  refine ⟨rest, h1, ?_⟩
  intro y out hy
  unfold Async.incoming
  rw [hy]
  exact h2 out

/-! ### The invariant -/

/-- A number for the control state of the dispatcher. -/
def Dispatcher.rank : Dispatcher sp → Nat
  | .waiting => 1
  | .draining bag => 3 + 3 * bag.length
  | .picking bag => 2 + 3 * bag.length
  | .sending _ bag => 4 + 3 * bag.length
  | .polling bag => 3 + 3 * bag.length
  | .returned => 0
  | .failed => 0

/-- What is left to do for the tasks before messages are received. -/
def Async.rank (g : Group P) (x : Async P) : Nat := 7 * (x.outgoing g).length + 6 * x.chan.length + x.disp.rank

/-- A step of the dispatcher that does not fail moves messages on. -/
theorem DispatchStep.effect_of {g : Group P} {x y : Async P} (hs : DispatchStep g x y) (hy : y.disp ≠ .failed) :
    y.node = x.node ∧ y.outbox = x.outbox ∧ y.disp ≠ .failed ∧ (y.flight g).Perm (x.flight g) ∧
      (∀ i p, p ∈ y.inbox i → p ∈ x.inbox i ∨ p.dest = i) ∧ (y.disp = .returned → x.AllDone g) ∧ y.rank g + 1 ≤ x.rank g := by
  classical
  cases hs with
  | @recv p c hd hc =>
    refine ⟨rfl, rfl, by simp, ?_, fun _ _ => Or.inl, by simp, ?_⟩
    · rw [List.perm_iff_count]
      intro a
      simp only [Async.flight, Async.outgoing, Async.incoming, hd, hc, Dispatcher.held, List.count_append, List.count_cons, List.count_nil]
      omega
    · simp only [Async.rank, Async.outgoing, Dispatcher.rank, hd, hc, List.length_cons, List.length_nil]
      omega
  | close hd hc hall =>
    refine ⟨rfl, rfl, by simp, ?_, fun _ _ => Or.inl, fun _ => hall, ?_⟩
    · simp only [Async.flight, Async.outgoing, Async.incoming, hd, hc, Dispatcher.held]
      exact .refl _
    · simp only [Async.rank, Async.outgoing, Dispatcher.rank, hd, hc]
      omega
  | @drain p bag c hd hc =>
    refine ⟨rfl, rfl, by simp, ?_, fun _ _ => Or.inl, by simp, ?_⟩
    · rw [List.perm_iff_count]
      intro a
      simp only [Async.flight, Async.outgoing, Async.incoming, hd, hc, Dispatcher.held, List.count_append, List.count_cons, List.count_nil]
      omega
    · simp only [Async.rank, Async.outgoing, Dispatcher.rank, hd, hc, List.length_append, List.length_cons, List.length_nil]
      omega
  | @drained bag hd hc =>
    refine ⟨rfl, rfl, by simp, ?_, fun _ _ => Or.inl, by simp, ?_⟩
    · simp only [Async.flight, Async.outgoing, Async.incoming, hd, hc, Dispatcher.held]
      exact .refl _
    · simp only [Async.rank, Async.outgoing, Dispatcher.rank, hd, hc]
      omega
  | emptied hd =>
    refine ⟨rfl, rfl, by simp, ?_, fun _ _ => Or.inl, by simp, ?_⟩
    · simp only [Async.flight, Async.outgoing, Async.incoming, hd, Dispatcher.held]
      exact .refl _
    · simp only [Async.rank, Async.outgoing, Dispatcher.rank, hd]
      omega
  | @pick bag bag' j p hd hr =>
    have hp := Queue.swapRemove_perm hr
    refine ⟨rfl, rfl, by simp, ?_, fun _ _ => Or.inl, by simp, ?_⟩
    · rw [List.perm_iff_count]
      intro a
      have hc := hp.count_eq a
      simp only [Async.flight, Async.outgoing, Async.incoming, hd, Dispatcher.held, List.count_append] at hc ⊢
      omega
    · have := hp.length_eq
      simp only [Async.rank, Async.outgoing, Dispatcher.rank, hd, List.length_cons] at this ⊢
      omega
  | noChannel => exact absurd rfl hy
  | dropped => exact absurd rfl hy
  | @send p bag hd hp hn hlen =>
    obtain ⟨rest, e1, e2⟩ := x.incoming_split g hp
    refine ⟨rfl, rfl, by simp, ?_, ?_, by simp, ?_⟩
    · rw [List.perm_iff_count]
      intro a
      have e3 := (e2 { x with disp := .polling bag, inbox := Function.update x.inbox p.dest (x.inbox p.dest ++ [p]) } _ rfl).count_eq a
      have e4 := e1.count_eq a
      simp only [Async.flight, Async.outgoing, hd, Dispatcher.held, List.count_append, List.count_cons, List.count_nil] at e3 e4 ⊢
      omega
    · intro i q hq
      by_cases hi : i = p.dest
      · subst hi
        simp only [Function.update_self, List.mem_append, List.mem_singleton] at hq
        rcases hq with hq | rfl
        · exact Or.inl hq
        · exact Or.inr rfl
      · simp only [Function.update_of_ne hi] at hq
        exact Or.inl hq
    · simp only [Async.rank, Async.outgoing, Dispatcher.rank, hd]
      omega
  | @poll p bag c hd hc =>
    refine ⟨rfl, rfl, by simp, ?_, fun _ _ => Or.inl, by simp, ?_⟩
    · rw [List.perm_iff_count]
      intro a
      simp only [Async.flight, Async.outgoing, Async.incoming, hd, hc, Dispatcher.held, List.count_append, List.count_cons, List.count_nil]
      omega
    · simp only [Async.rank, Async.outgoing, Dispatcher.rank, hd, hc, List.length_append, List.length_cons, List.length_nil]
      omega
  | @polled bag hd hc =>
    refine ⟨rfl, rfl, by simp, ?_, fun _ _ => Or.inl, by simp, ?_⟩
    · simp only [Async.flight, Async.outgoing, Async.incoming, hd, hc, Dispatcher.held]
      exact .refl _
    · simp only [Async.rank, Async.outgoing, Dispatcher.rank, hd, hc]
      omega

/-- The dispatcher fails only if it holds a message for nobody or for a party that has returned. -/
theorem DispatchStep.fails {g : Group P} {x y : Async P} (hs : DispatchStep g x y) (hy : y.disp = .failed) :
    ∃ p ∈ x.disp.held, g.parties.contains p.dest = false ∨ ∃ r, x.node p.dest = some (.done r) := by
  cases hs with
  | @noChannel p bag hd hp => exact ⟨p, by rw [hd]; simp [Dispatcher.held], Or.inl hp⟩
  | @dropped p bag r hd _ hn => exact ⟨p, by rw [hd]; simp [Dispatcher.held], Or.inr ⟨r, hn⟩⟩
  | recv => simp at hy
  | close => simp at hy
  | drain => simp at hy
  | drained => simp at hy
  | emptied => simp at hy
  | pick => simp at hy
  | send => simp at hy
  | poll => simp at hy
  | polled => simp at hy

/-- A step of the dispatcher moves messages on, and it fails only if it holds a message for nobody or for a party that has
returned. -/
theorem DispatchStep.effect {g : Group P} {x y : Async P} (hs : DispatchStep g x y)
    (hparty : ∀ p ∈ x.disp.held, g.parties.contains p.dest = true)
    (hdone : ∀ p ∈ x.disp.held, ∀ r, x.node p.dest ≠ some (.done r)) :
    y.node = x.node ∧ y.outbox = x.outbox ∧ y.disp ≠ .failed ∧ (y.flight g).Perm (x.flight g) ∧
      (∀ i p, p ∈ y.inbox i → p ∈ x.inbox i ∨ p.dest = i) ∧ (y.disp = .returned → x.AllDone g) ∧ y.rank g + 1 ≤ x.rank g := by
  refine hs.effect_of ?_
  intro hy
  obtain ⟨p, hp, h | ⟨r, h⟩⟩ := hs.fails hy
  · rw [hparty p hp] at h
    cases h
  · exact hdone p hp r h

/-- The state of `run_async` and the state of the network. -/
structure AsyncNet (sc : Scheme P) (k : Nat) (x : Async P) (kn : Nat) (n : Net P) : Prop where
  takes : NetTakes sc.g kn n
  node : x.node = n.node
  wire : n.wire.Perm (x.flight sc.g)
  sends : ∀ i, x.outbox i ≠ [] → ∃ s a, x.node i = some (.running s a)
  inbox : ∀ i p, p ∈ x.inbox i → p.dest = i
  fine : x.disp ≠ .failed
  ended : x.disp = .returned → x.AllDone sc.g
  steps : k + x.rank sc.g ≤ 1 + 8 * kn + 7 * n.wire.length

theorem AsyncNet.init : AsyncNet sc 0 Async.init 0 Net.init where
  takes := .init
  node := rfl
  wire := by simp [Net.init, Async.init, Async.flight, Async.outgoing, Async.incoming, Dispatcher.held]
  sends := by simp [Async.init]
  inbox := by simp [Async.init]
  fine := by simp [Async.init]
  ended := by simp [Async.init]
  steps := by simp [Async.init, Async.rank, Async.outgoing, Dispatcher.rank]

theorem AsyncNet.party (ok : sc.Ok) {k kn : Nat} {x : Async P} {n : Net P} (h : AsyncNet sc k x kn n) {i : sp.Id}
    {st : RunState P} (hi : x.node i = some st) : sc.g.parties.contains i = true := by
  obtain ⟨L, e, f, hinv⟩ := Scheme.NetInv.reach ok h.takes.reach
  exact hinv.party i st (by rw [← h.node]; exact hi)

/-- What the dispatcher holds is in transit. -/
theorem AsyncNet.held {k kn : Nat} {x : Async P} {n : Net P} (h : AsyncNet sc k x kn n) {p : Packet sp} (hp : p ∈ x.disp.held) :
    p ∈ n.wire := by
  rw [h.wire.mem_iff]
  simp [Async.flight, hp]

/-- The dispatcher does not fail, and its steps do not show in the network. -/
theorem AsyncNet.dispatch (ok : sc.Ok) {k kn : Nat} {x x' : Async P} {n : Net P} (h : AsyncNet sc k x kn n)
    (hs : DispatchStep sc.g x x') : AsyncNet sc (k + 1) x' kn n := by
  obtain ⟨e1, e2, e3, e4, e5, e6, e7⟩ := hs.effect (fun p hp => NetReach.wire_party ok h.takes.reach (h.held hp))
    (fun p hp r hr => NetReach.wire_done ok h.takes.reach (h.held hp) (by rw [← h.node]; exact hr))
  refine ⟨h.takes, by rw [e1]; exact h.node, h.wire.trans e4.symm, by rw [e1, e2]; exact h.sends, ?_, e3, ?_, ?_⟩
  · intro i p hp
    rcases e5 i p hp with h1 | h1
    · exact h.inbox i p h1
    · exact h1
  · intro hr
    have := e6 hr
    unfold Async.AllDone at this ⊢
    rw [e1]
    exact this
  · have := h.steps
    omega

/-- A party makes a step of the network. -/
theorem AsyncNet.act (ok : sc.Ok) {k kn : Nat} {x : Async P} {n : Net P} (h : AsyncNet sc k x kn n) {i : sp.Id}
    (hi : sc.g.parties.contains i = true) (hout : x.outbox i = []) {st : RunState P} {out : List (Message sp)}
    (hnd : ∀ r, x.node i ≠ some (.done r)) (hst : out ≠ [] → ∃ s a, st = .running s a)
    (hs : NetStep sc.g n (n.put i st out)) : AsyncNet sc (k + 1) (x.put i st out) (kn + 1) (n.put i st out) := by
  classical
  obtain ⟨h1, h2, h3, h4, h5, h6, h7, h8⟩ := h
  obtain ⟨rest, e1, e2⟩ := x.outgoing_split sc.g hi
  have e3 := e2 (x.put i st out) out rfl
  rw [hout] at e1
  refine ⟨.step h1 hs, by simp [Async.put, Net.put, h2], ?_, ?_, h5, h6, ?_, ?_⟩
  · rw [List.perm_iff_count]
    intro a
    have h9 := h3.count_eq a
    have h10 := e1.count_eq a
    have h11 := e3.count_eq a
    rw [show packetOf i = (fun m : Message sp => (⟨i, m.destination, m⟩ : Packet sp)) from rfl] at h11
    simp only [Async.flight, Net.put, Async.put, List.map_nil, List.nil_append, List.count_append, Async.incoming] at h9 h10 h11 ⊢
    omega
  · intro j hj
    by_cases hji : j = i
    · subst hji
      simp only [Async.put, Function.update_self] at hj ⊢
      obtain ⟨s, a, rfl⟩ := hst hj
      exact ⟨s, a, rfl⟩
    · simp only [Async.put, Function.update_of_ne hji] at hj ⊢
      exact h4 j hj
  · intro hr
    obtain ⟨r, hr⟩ := h7 hr i hi
    exact absurd hr (hnd r)
  · have h9 := e1.length_eq
    have h10 := e3.length_eq
    simp only [Async.rank, Async.put, Net.put, List.map_nil, List.nil_append, List.length_append, List.length_map] at h8 h9 h10 ⊢
    omega

/-- A party receives a message from its channel. -/
theorem AsyncNet.take {k kn : Nat} {x : Async P} {n : Net P} (h : AsyncNet sc k x kn n) {i : sp.Id}
    (hi : sc.g.parties.contains i = true) {p : Packet sp} {ps : List (Packet sp)} (hin : x.inbox i = p :: ps) (hout : x.outbox i = [])
    (hnd : ∀ r, x.node i ≠ some (.done r)) {st st' : RunState P} (hn : x.node i = some st)
    (hs : Manul.step st (.deliver p.src p.message) = some (st', [])) :
    ∃ n', AsyncNet sc (k + 1) (Async.put { x with inbox := Function.update x.inbox i ps } i st' []) (kn + 1) n' := by
  classical
  obtain ⟨h1, h2, h3, h4, h5, h6, h7, h8⟩ := h
  have hd : p.dest = i := h5 i p (by rw [hin]; simp)
  obtain ⟨rest, e1, e2⟩ := x.incoming_split sc.g hi
  have e3 := e2 (Async.put { x with inbox := Function.update x.inbox i ps } i st' []) ps rfl
  obtain ⟨rest', g1, g2⟩ := x.outgoing_split sc.g hi
  have g3 := g2 (Async.put { x with inbox := Function.update x.inbox i ps } i st' []) [] rfl
  rw [hin] at e1
  rw [hout] at g1
  have hp : p ∈ n.wire := by
    rw [h3.mem_iff]
    simp only [Async.flight, List.mem_append]
    right
    rw [e1.mem_iff]
    simp
  obtain ⟨w, w', hw⟩ := List.append_of_mem hp
  subst hd
  refine ⟨Net.put ⟨n.node, w ++ w'⟩ p.dest st' [], .step h1 (.deliver hw (by rw [← h2]; exact hn) hs), by simp [Async.put, Net.put, h2],
    ?_, ?_, ?_, h6, ?_, ?_⟩
  · rw [List.perm_iff_count]
    intro a
    have h9 := h3.count_eq a
    have h10 := e1.count_eq a
    have h11 := e3.count_eq a
    have h12 := g1.count_eq a
    have h13 := g3.count_eq a
    rw [hw] at h9
    simp only [Async.flight, Net.put, Async.put, List.map_nil, List.nil_append, List.append_nil, List.cons_append, List.count_append,
      List.count_cons, List.count_nil] at h9 h10 h11 h12 h13 ⊢
    omega
  · intro j hj
    by_cases hji : j = p.dest
    · subst hji
      simp [Async.put] at hj
    · simp only [Async.put, Function.update_of_ne hji] at hj ⊢
      exact h4 j hj
  · intro j q hq
    by_cases hji : j = p.dest
    · subst hji
      simp only [Async.put, Function.update_self] at hq
      exact h5 _ _ (by rw [hin]; exact List.mem_cons_of_mem _ hq)
    · simp only [Async.put, Function.update_of_ne hji] at hq
      exact h5 _ _ hq
  · intro hr
    obtain ⟨r, hr⟩ := h7 hr _ hi
    exact absurd hr (hnd r)
  · have h9 := g1.length_eq
    have h10 := g3.length_eq
    rw [hw] at h8
    simp only [Async.rank, Async.put, Net.put, List.map_nil, List.nil_append, List.append_nil, List.length_append, List.length_map,
      List.length_cons] at h8 h9 h10 ⊢
    omega

/-- Messages are sent only by parties that go on. -/
theorem enterRound_out {s : Session P} {rng : sp.Rng} {cached : List (VerifiedMessage sp)}
    (ho : (enterRound s rng cached).2 ≠ []) : ∃ s' a, (enterRound s rng cached).1 = .running s' a := by
  unfold enterRound at ho ⊢
  split at ho
  · simp at ho
  · exact ⟨_, _, rfl⟩

theorem step_out {st st' : RunState P} {ev : Event sp} {out : List (Message sp)} (h : Manul.step st ev = some (st', out))
    (ho : out ≠ []) : ∃ s a, st' = .running s a := by
  unfold Manul.step at h
  split at h
  · cases h
  · split at h
    · rename_i s a _ rng _
      have h := Option.some.inj h
      unfold finishRound at h
      split at h
      · cases h; exact absurd rfl ho
      · cases h; exact absurd rfl ho
      · rename_i s' cached _
        have := enterRound_out (s := s') (rng := sp.fork rng 1) (cached := cached) (by rw [h]; exact ho)
        rw [h] at this
        exact this
    · cases h; exact absurd rfl ho
    · split at h <;> (cases h; exact absurd rfl ho)
    · cases h; exact absurd rfl ho
    · cases h; exact absurd rfl ho
    · cases h

theorem startNode_out {g : Group P} {i : sp.Id} {rng rng' : sp.Rng} (ho : (g.startNode i rng rng').2 ≠ []) :
    ∃ s a, (g.startNode i rng rng').1 = .running s a := by
  unfold Group.startNode at ho ⊢
  split at ho
  · exact absurd rfl ho
  · exact enterRound_out ho

/-- Receiving a message sends none. -/
theorem step_deliver_out {st st' : RunState P} {src : sp.Id} {m : Message sp} {out : List (Message sp)}
    (h : Manul.step st (.deliver src m) = some (st', out)) : out = [] := by
  unfold Manul.step at h
  split at h
  · cases h
  · split at h
    · rename_i he; cases he
    · rename_i he; cases he
    · split at h <;> (cases h; rfl)
    · rename_i he; cases he
    · rename_i he; cases he
    · cases h

theorem step_running' {st : RunState P} {ev : Event sp} {y : RunState P × List (Message sp)} (h : Manul.step st ev = some y)
    (r : Except LErr (Report P)) : st ≠ .done r := by
  rintro rfl
  simp [Manul.step] at h

/-- The channels are not closed before everybody has returned. -/
theorem AsyncNet.not_ended {k kn : Nat} {x : Async P} {n : Net P} (h : AsyncNet sc k x kn n) {i : sp.Id}
    (hi : sc.g.parties.contains i = true) {s : Session P} {a : Accum P} (hn : x.node i = some (.running s a)) : ¬ x.Ended := by
  rintro (he | he)
  · obtain ⟨r, hr⟩ := h.ended he i hi
    rw [hn] at hr
    cases hr
  · exact h.fine he

/-- Every step of `run_async` is a step of the network, or does not show there. -/
theorem AsyncNet.step (ok : sc.Ok) {k kn : Nat} {x x' : Async P} {n : Net P} (h : AsyncNet sc k x kn n)
    (hs : AsyncStep sc.g x x') : ∃ kn' n', AsyncNet sc (k + 1) x' kn' n' := by
  classical
  cases hs with
  | @start i rng rng' hi hn =>
    have hout : x.outbox i = [] := by
      by_contra hc
      obtain ⟨s, a, h1⟩ := h.sends i hc
      rw [hn] at h1
      cases h1
    exact ⟨_, _, h.act ok hi hout (by rw [hn]; simp) startNode_out (.start rng rng' hi (by rw [← h.node]; exact hn))⟩
  | @push i m ms hout hlen hne =>
    obtain ⟨s, a, hn⟩ := h.sends i (by rw [hout]; simp)
    have hi := h.party ok hn
    obtain ⟨rest, e1, e2⟩ := x.outgoing_split sc.g hi
    have e3 := e2 { x with outbox := Function.update x.outbox i ms, chan := x.chan ++ [⟨i, m.destination, m⟩] } ms rfl
    rw [hout] at e1
    obtain ⟨h1, h2, h3, h4, h5, h6, h7, h8⟩ := h
    refine ⟨kn, n, h1, h2, ?_, ?_, h5, h6, h7, ?_⟩
    · rw [List.perm_iff_count]
      intro a
      have h9 := h3.count_eq a
      have h10 := e1.count_eq a
      have h11 := e3.count_eq a
      rw [show (⟨i, m.destination, m⟩ : Packet sp) = packetOf i m from rfl] at h11 ⊢
      simp only [Async.flight, Async.incoming, List.map_cons, List.cons_append, List.count_append, List.count_cons,
        List.count_nil] at h9 h10 h11 ⊢
      omega
    · intro j hj
      by_cases hji : j = i
      · subst hji
        exact ⟨s, a, hn⟩
      · simp only [Function.update_of_ne hji] at hj
        exact h4 j hj
    · have h9 := e1.length_eq
      have h10 := e3.length_eq
      simp only [Async.rank, List.map_cons, List.cons_append, List.length_append, List.length_cons, List.length_map,
        List.length_nil] at h8 h9 h10 ⊢
      omega
  | @pushErr i m ms hout he =>
    obtain ⟨s, a, hn⟩ := h.sends i (by rw [hout]; simp)
    exact (h.not_ended (h.party ok hn) hn he).elim
  | @tick i st st' rng out hn hout hst =>
    have hi := h.party ok hn
    exact ⟨_, _, h.act ok hi hout (by rw [hn]; intro r hr; exact step_running' hst r (Option.some.inj hr)) (step_out hst)
      (.tick (by rw [← h.node]; exact hn) hst)⟩
  | @recv i st st' p ps out hn hout hin hst =>
    have hi := h.party ok hn
    cases step_deliver_out hst
    obtain ⟨n', h'⟩ := h.take hi hin hout (by rw [hn]; intro r hr; exact step_running' hst r (Option.some.inj hr)) hn hst
    exact ⟨_, n', h'⟩
  | @closed i st st' out hn hout hin he hst =>
    cases st with
    | done r => exact absurd rfl (step_running' hst r)
    | running s a => exact (h.not_ended (h.party ok hn) hn he).elim
  | dispatch hd => exact ⟨_, _, h.dispatch ok hd⟩

theorem AsyncNet.reach (ok : sc.Ok) {k : Nat} {x : Async P} (h : AsyncTakes sc.g k x) : ∃ kn n, AsyncNet sc k x kn n := by
  induction h with
  | init => exact ⟨_, _, AsyncNet.init⟩
  | step _ hs ih =>
    obtain ⟨kn, n, h⟩ := ih
    exact h.step ok hs

/-- The number of messages in the channel of a party. -/
theorem AsyncNet.room (ok : sc.Ok) {k kn : Nat} {x : Async P} {n : Net P} (h : AsyncNet sc k x kn n) {p : Packet sp}
    {bag : List (Packet sp)} (hd : x.disp = .sending p bag) :
    (x.inbox p.dest).length < 2 * (sc.g.others p.dest).elems.length := by
  have hp := NetReach.wire_party ok h.takes.reach (h.held (p := p) (by rw [hd]; simp [Dispatcher.held]))
  have h1 := NetReach.wire_count ok h.takes.reach p.dest
  have h2 := (h.wire.filter (fun q => decide (q.dest = p.dest))).length_eq
  obtain ⟨rest, e1, -⟩ := x.incoming_split sc.g hp
  have h3 := (e1.filter (fun q => decide (q.dest = p.dest))).length_eq
  have h4 : (x.inbox p.dest).filter (fun q => decide (q.dest = p.dest)) = x.inbox p.dest := by
    rw [List.filter_eq_self]
    intro q hq
    simpa using h.inbox _ _ hq
  simp only [List.filter_append, List.length_append, h4] at h3
  simp only [Async.flight, hd, Dispatcher.held, List.filter_append, List.length_append, List.filter_cons, decide_true, if_true,
    List.length_cons] at h2
  omega

/-- If no task can make a step, then the dispatcher waits for messages or has returned. -/
theorem AsyncNet.idle (ok : sc.Ok) {k kn : Nat} {x : Async P} {n : Net P} (h : AsyncNet sc k x kn n)
    (hcap : ∀ i, sc.g.parties.contains i = true → 2 * (sc.g.others i).elems.length ≤ asyncCapacity)
    (hstuck : ∀ x', ¬ AsyncStep sc.g x x') : (x.disp = .waiting ∧ x.chan = []) ∨ x.disp = .returned := by
  cases hd : x.disp with
  | waiting =>
    cases hc : x.chan with
    | nil => exact Or.inl ⟨rfl, rfl⟩
    | cons p c => exact (hstuck _ (.dispatch (.recv hd hc))).elim
  | draining bag =>
    cases hc : x.chan with
    | nil => exact (hstuck _ (.dispatch (.drained hd hc))).elim
    | cons p c => exact (hstuck _ (.dispatch (.drain hd hc))).elim
  | picking bag =>
    cases bag with
    | nil => exact (hstuck _ (.dispatch (.emptied hd))).elim
    | cons p bag =>
      cases hr : Queue.swapRemove (p :: bag) 0 with
      | none => simp [Queue.swapRemove, List.getLast?_cons] at hr
      | some y => exact (hstuck _ (.dispatch (.pick hd hr))).elim
  | sending p bag =>
    have hw := h.held (p := p) (by rw [hd]; simp [Dispatcher.held])
    have hp := NetReach.wire_party ok h.takes.reach hw
    have h1 := h.room ok hd
    have h2 := hcap _ hp
    refine (hstuck _ (.dispatch (.send hd hp ?_ (by omega)))).elim
    intro r hr
    exact NetReach.wire_done ok h.takes.reach hw (by rw [← h.node]; exact hr)
  | polling bag =>
    cases hc : x.chan with
    | nil => exact (hstuck _ (.dispatch (.polled hd hc))).elim
    | cons p c => exact (hstuck _ (.dispatch (.poll hd hc))).elim
  | returned => exact Or.inr rfl
  | failed => exact absurd hd h.fine

/-- If no task can make a step, then the network cannot either. -/
theorem AsyncNet.stuck (ok : sc.Ok) {k kn : Nat} {x : Async P} {n : Net P} (h : AsyncNet sc k x kn n)
    (hcap : ∀ i, sc.g.parties.contains i = true → 2 * (sc.g.others i).elems.length ≤ asyncCapacity)
    (hstuck : ∀ x', ¬ AsyncStep sc.g x x') (n' : Net P) : ¬ NetStep sc.g n n' := by
  have hdisp := h.idle ok hcap hstuck
  have hout : ∀ i, x.outbox i = [] := by
    intro i
    by_contra hc
    obtain ⟨s, a, hn⟩ := h.sends i hc
    have hne := h.not_ended (h.party ok hn) hn
    rcases hdisp with ⟨-, hch⟩ | hr
    · obtain ⟨m, ms, hm⟩ := List.exists_cons_of_ne_nil hc
      exact hstuck _ (.push hm (by rw [hch]; exact Nat.zero_lt_succ 99) hne)
    · exact hne (Or.inl hr)
  have hchan : ∀ {s : Session P} {a : Accum P} {i : sp.Id}, x.node i = some (.running s a) → x.chan = [] ∧ x.disp.held = [] := by
    intro s a i hn
    rcases hdisp with ⟨hd, hch⟩ | hr
    · exact ⟨hch, by rw [hd]; rfl⟩
    · exact (h.not_ended (h.party ok hn) hn (Or.inl hr)).elim
  intro hs
  cases hs with
  | @start i rng rng' hi hn => exact hstuck _ (.start rng rng' hi (by rw [h.node]; exact hn))
  | @tick i st st' rng out hn hst => exact hstuck _ (.tick (by rw [h.node]; exact hn) (hout i) hst)
  | @deliver st st' p w w' out hw hn hst =>
    cases st with
    | done r => exact absurd rfl (step_running' hst r)
    | running s a =>
      have hn' : x.node p.dest = some (.running s a) := by rw [h.node]; exact hn
      obtain ⟨hch, hheld⟩ := hchan hn'
      have hp : p ∈ x.flight sc.g := by
        rw [← h.wire.mem_iff, hw]
        simp
      have hog : x.outgoing sc.g = [] := by simp [Async.outgoing, hout]
      rw [Async.flight, hog, hch, hheld] at hp
      simp only [List.append_nil, List.nil_append, Async.incoming, List.mem_flatMap] at hp
      obtain ⟨i, -, hp⟩ := hp
      have hd := h.inbox i p hp
      subst hd
      obtain ⟨q, qs, hq⟩ := List.exists_cons_of_ne_nil (List.ne_nil_of_mem hp)
      have hqd : q.dest = p.dest := h.inbox _ _ (by rw [hq]; simp)
      have hqw : q ∈ n.wire := by
        rw [h.wire.mem_iff, Async.flight]
        simp only [List.mem_append]
        right
        rw [Async.incoming, List.mem_flatMap]
        exact ⟨p.dest, BSet.mem_elems.2 (h.party ok hn'), by rw [hq]; simp⟩
      -- the party waits for a message
      have hcf : a.canFinalize = .notYet := by
        unfold Manul.step at hst
        simp only at hst
        split at hst <;> simp_all
      cases hst2 : Manul.step (.running s a) (.deliver q.src q.message) with
      | none =>
        simp only [Manul.step, hcf] at hst2
        split at hst2 <;> cases hst2
      | some y => exact hstuck _ (.recv hn' (hout _) hq hst2)

end Manul
