import Verif.Lemmas.RunAsyncDeadlock

/-! # `run_async` with 52 or more parties: a schedule after which nothing moves

One party, `a`, has sent all its messages but the last one, which is for `d`.  Everybody else has received everything sent so
far, and all but `d` have gone on to the next round and have sent their first message to `a`. -/

namespace Manul

variable {sp : SP} {P : Proto sp} {sc : Scheme P}

/-- A party is in the first round. -/
def Async.AtStart (sc : Scheme P) (x : Async P) (i : sp.Id) : Prop :=
  ∃ s a, x.node i = some (.running s a) ∧ s.transition.id = sc.idAt 0

/-- In terms of the invariant of the network. -/
theorem Scheme.NetInv.atStart (ok : sc.Ok) {L : Ledger P} {e f : sp.Id → Nat} {n : Net P} (h : sc.NetInv L e f n) {i : sp.Id}
    {s : Session P} {a : Accum P} (hn : n.node i = some (.running s a)) (hid : s.transition.id = sc.idAt 0) : f i = 0 ∧ e i = 1 := by
  obtain ⟨h1, h2, -⟩ := h.running i s a hn
  have h3 : sc.idAt (f i) = sc.idAt 0 := by rw [← h2.rid, hid]
  have h4 := spot_inj (posId_inj ok.coop.ids ok.coop.notEcho h2.stage (q' := spot 0) (show (spot 0).1 < sc.n from ok.coop.stages) h3)
  omega

/-- A party that starts is in the first round. -/
theorem NetReach.starts_at (ok : sc.Ok) {n : Net P} (h : NetReach sc.g n) {i : sp.Id} (hi : sc.g.parties.contains i = true)
    (hn : n.node i = none) (rng rng' : sp.Rng) {s : Session P} {a : Accum P} {out : List (Message sp)}
    (hs : sc.g.startNode i rng rng' = (.running s a, out)) : s.transition.id = sc.idAt 0 := by
  obtain ⟨L, e, f, hinv⟩ := Scheme.NetInv.reach ok h
  obtain ⟨L', s', a', out', h1, -, -, h4⟩ := hinv.starts ok hi hn rng rng'
  rw [hs] at h1
  cases h1
  obtain ⟨-, h5, -⟩ := h4.running i s a (by simp [Net.put])
  rw [h5.rid]
  simp

/-- Everybody has started, and nobody has sent anything. -/
theorem AsyncTakes.begins (ok : sc.Ok) (rng : sp.Rng) (l : List sp.Id) (hl : l.Nodup) (hp : ∀ i ∈ l, sc.g.parties.contains i = true) :
    ∃ k x, AsyncTakes sc.g k x ∧ Fresh sc l x ∧ ∀ i ∈ l, x.AtStart sc i := by
  induction l with
  | nil => exact ⟨0, _, .init, ⟨by simp, fun _ _ => rfl, fun _ => rfl, rfl, rfl⟩, by simp⟩
  | cons i l ih =>
    rw [List.nodup_cons] at hl
    obtain ⟨k, x, hx, hf, hat⟩ := ih hl.2 (fun j hj => hp j (List.mem_cons_of_mem _ hj))
    obtain ⟨kn, n, hn⟩ := AsyncNet.reach ok hx
    have hi := hp i (List.mem_cons_self ..)
    have hni := hf.idle i hl.1
    have hnn : n.node i = none := by rw [← hn.node]; exact hni
    obtain ⟨s, a, out, h1, h2⟩ := NetReach.starts ok hn.takes.reach hi hnn rng rng
    have h3 := NetReach.starts_at ok hn.takes.reach hi hnn rng rng h1
    refine ⟨k + 1, _, hx.step (.start rng rng hi hni), ?_⟩
    rw [h1]
    refine ⟨⟨?_, ?_, hf.inbox, hf.chan, hf.disp⟩, ?_⟩
    · intro j hj
      by_cases hji : j = i
      · subst hji
        simp only [Async.put, Function.update_self]
        exact ⟨⟨s, a, rfl⟩, h2⟩
      · simp only [Async.put, Function.update_of_ne hji]
        exact hf.started j (List.mem_of_ne_of_mem hji hj)
    · intro j hj
      rw [List.mem_cons, not_or] at hj
      simp only [Async.put, Function.update_of_ne hj.1]
      exact hf.idle j hj.2
    · intro j hj
      by_cases hji : j = i
      · subst hji
        exact ⟨s, a, by simp [Async.put], h3⟩
      · obtain ⟨s', a', h4, h5⟩ := hat j (List.mem_of_ne_of_mem hji hj)
        exact ⟨s', a', by simp only [Async.put, Function.update_of_ne hji]; exact h4, h5⟩

/-! ### Moves -/

/-- A party sends a message, and the dispatcher takes it. -/
theorem AsyncTakes.hand {k : Nat} {x : Async P} (hx : AsyncTakes sc.g k x) (hd : x.disp = .waiting) (hc : x.chan = []) {i : sp.Id}
    {m : Message sp} {ms : List (Message sp)} (ho : x.outbox i = m :: ms) :
    AsyncTakes sc.g (k + 4) { x with outbox := Function.update x.outbox i ms, chan := [], disp := .sending (packetOf i m) [] } := by
  have h1 := hx.step (.push ho (by rw [hc]; exact Nat.zero_lt_succ 99) (by rintro (h | h) <;> rw [hd] at h <;> cases h))
  have h2 := h1.step (.dispatch (.recv (p := packetOf i m) (c := []) hd (by simp [hc, packetOf])))
  have h3 := h2.step (.dispatch (.drained (bag := [packetOf i m]) rfl rfl))
  exact h3.step (.dispatch (.pick (bag := [packetOf i m]) (bag' := []) (k := 0) (p := packetOf i m) rfl rfl))

/-- A party sends a message, and the dispatcher passes it on at once. -/
theorem AsyncTakes.relay {k : Nat} {x : Async P} (hx : AsyncTakes sc.g k x) (hd : x.disp = .waiting) (hc : x.chan = []) {i : sp.Id}
    {m : Message sp} {ms : List (Message sp)} (ho : x.outbox i = m :: ms) (hp : sc.g.parties.contains m.destination = true)
    {s : Session P} {b : Accum P} (hn : x.node m.destination = some (.running s b)) (hr : (x.inbox m.destination).length < asyncCapacity) :
    AsyncTakes sc.g (k + 7) { x with
      outbox := Function.update x.outbox i ms,
      inbox := Function.update x.inbox m.destination (x.inbox m.destination ++ [packetOf i m]) } := by
  have h4 := hx.hand hd hc ho
  have h5 := h4.step (.dispatch (.send (p := packetOf i m) (bag := []) rfl hp (by intro r h; exact nomatch hn.symm.trans h) hr))
  have h6 := h5.step (.dispatch (.polled (bag := []) rfl rfl))
  have h7 := h6.step (.dispatch (.emptied rfl))
  rw [hc, hd]
  exact h7

/-- A party sends some of its messages, and the dispatcher passes them on. -/
theorem AsyncTakes.flush {i : sp.Id} (ms ms' : List (Message sp)) (hnd : (ms.map (fun m => m.destination)).Nodup) {k : Nat}
    {x : Async P} (hx : AsyncTakes sc.g k x) (hd : x.disp = .waiting) (hc : x.chan = []) (ho : x.outbox i = ms ++ ms')
    (hp : ∀ m ∈ ms, sc.g.parties.contains m.destination = true ∧ (∃ s b, x.node m.destination = some (.running s b)) ∧
      (x.inbox m.destination).length < asyncCapacity) :
    ∃ k' x', AsyncTakes sc.g k' x' ∧ x'.disp = .waiting ∧ x'.chan = [] ∧ x'.node = x.node ∧
      x'.outbox = Function.update x.outbox i ms' ∧
      ∀ j, (x'.inbox j).length = (x.inbox j).length + if j ∈ ms.map (fun m => m.destination) then 1 else 0 := by
  induction ms generalizing k x with
  | nil =>
    refine ⟨k, x, hx, hd, hc, rfl, ?_, by simp⟩
    rw [← show x.outbox i = ms' from ho, Function.update_eq_self]
  | cons m ms ih =>
    rw [List.map_cons, List.nodup_cons] at hnd
    obtain ⟨h1, ⟨s, b, h2⟩, h3⟩ := hp m (List.mem_cons_self ..)
    have h4 := hx.relay hd hc (show x.outbox i = m :: (ms ++ ms') from ho) h1 h2 h3
    obtain ⟨k', x', g1, g2, g3, g4, g5, g6⟩ := ih hnd.2 h4 hd hc (by simp) (by
      intro m' hm'
      obtain ⟨e1, e2, e3⟩ := hp m' (List.mem_cons_of_mem _ hm')
      refine ⟨e1, e2, ?_⟩
      have hne : m'.destination ≠ m.destination := by
        intro hc
        exact hnd.1 (hc ▸ List.mem_map_of_mem hm')
      simp only [Function.update_of_ne hne]
      exact e3)
    refine ⟨k', x', g1, g2, g3, g4, by rw [g5, Function.update_idem], ?_⟩
    intro j
    rw [g6 j]
    by_cases hj : j = m.destination
    · subst hj
      rw [if_neg hnd.1]
      simp
    · simp only [Function.update_of_ne hj, List.map_cons, List.mem_cons, hj, false_or]

/-- A party in the first round, everybody else being there as well, receives what is in its channel. -/
theorem AsyncTakes.drain (ok : sc.Ok) {i : sp.Id} (hi : sc.g.parties.contains i = true) (m : Nat) {k : Nat} {x : Async P}
    (hx : AsyncTakes sc.g k x) (hm : (x.inbox i).length = m) (hall : ∀ j, sc.g.parties.contains j = true → x.AtStart sc j)
    (ho : x.outbox i = []) :
    ∃ k' x', AsyncTakes sc.g k' x' ∧ x'.disp = x.disp ∧ x'.chan = x.chan ∧ x'.outbox = x.outbox ∧
      (∀ j, j ≠ i → x'.node j = x.node j) ∧ x'.inbox = Function.update x.inbox i [] ∧
      ∀ j, sc.g.parties.contains j = true → x'.AtStart sc j := by
  induction m generalizing k x with
  | zero =>
    have he : x.inbox i = [] := List.eq_nil_of_length_eq_zero hm
    exact ⟨k, x, hx, rfl, rfl, rfl, fun _ _ => rfl, by rw [← he, Function.update_eq_self], hall⟩
  | succ m ih =>
    obtain ⟨p, ps, hps⟩ := List.exists_cons_of_length_pos (l := x.inbox i) (by omega)
    obtain ⟨s, b, hn, hid⟩ := hall i hi
    obtain ⟨kn, n, hnet⟩ := AsyncNet.reach ok hx
    obtain ⟨L, e, f, hinv⟩ := Scheme.NetInv.reach ok hnet.takes.reach
    have hnn : n.node i = some (.running s b) := by rw [← hnet.node]; exact hn
    have hpd : p.dest = i := hnet.inbox i p (by rw [hps]; simp)
    have hpw : p ∈ n.wire := by
      rw [hnet.wire.mem_iff, Async.flight]
      simp only [List.mem_append]
      right
      rw [Async.incoming, List.mem_flatMap]
      exact ⟨i, BSet.mem_elems.2 hi, by rw [hps]; simp⟩
    obtain ⟨hfi, hei⟩ := hinv.atStart ok hnn hid
    -- the party waits for this message
    have hcf : b.canFinalize = .notYet := by
      obtain ⟨-, t, ht, hxt, -, hnr⟩ := hinv.wire p hpw
      rw [hpd] at hxt hnr
      have hsrc : sc.g.parties.contains p.src = true := by
        cases hsn : n.node p.src with
        | none => have := (hinv.idle _ hsn).1; omega
        | some st => exact hinv.party _ _ hsn
      obtain ⟨s', b', hn', hid'⟩ := hall _ hsrc
      have hes := (hinv.atStart ok (by rw [← hnet.node]; exact hn') hid').2
      have ht0 : t = 0 := by omega
      subst ht0
      have ha := (hinv.running i s b hnn).2.2
      rcases ha.canFinalize with ⟨-, h1⟩ | ⟨h1, -⟩
      · exfalso
        refine hnr (Or.inr ⟨s, b, hnn, Or.inl ⟨hfi.symm, ?_⟩⟩)
        rw [h1, hfi]
        exact hxt
      · exact h1
    obtain ⟨w, w', hw⟩ := List.append_of_mem hpw
    obtain ⟨b', hdel, -⟩ := hinv.receive ok hw (by rw [hpd]; exact hnn)
    have hstep := hx.step (.recv (st' := .running s b') (out := []) hn ho hps (by simp only [Manul.step, hcf, hdel]))
    obtain ⟨k', x', g1, g2, g3, g4, g5, g6, g7⟩ := ih hstep (by
        simp only [Async.put, Function.update_self]
        rw [hps] at hm
        simpa using hm) (by
        intro j hj
        by_cases hji : j = i
        · subst hji
          exact ⟨s, b', by simp [Async.put], hid⟩
        · obtain ⟨s1, b1, e1, e2⟩ := hall j hj
          exact ⟨s1, b1, by simp only [Async.put, Function.update_of_ne hji]; exact e1, e2⟩) (by simp [Async.put])
    refine ⟨k', x', g1, g2, g3, ?_, ?_, ?_, g7⟩
    · rw [g4]
      simp only [Async.put]
      rw [← ho, Function.update_eq_self]
    · intro j hj
      rw [g5 j hj]
      simp only [Async.put, Function.update_of_ne hj]
    · rw [g6]
      simp only [Async.put, Function.update_idem]

/-- What the next round of a party is like. -/
theorem NetReach.ticks (ok : sc.Ok) {n : Net P} (h : NetReach sc.g n) {i : sp.Id} {s : Session P} {a : Accum P}
    (hn : n.node i = some (.running s a)) (hid : s.transition.id = sc.idAt 0) (hnext : sc.nxt 0 i < 2 * sc.n)
    (hc : a.canFinalize = .yes) (rng : sp.Rng) :
    ∃ s' a' out, finishRound s a rng = (.running s' a', out) ∧
      out.map (fun m => m.destination) = (sc.dAt (sc.nxt 0 i) i).elems := by
  obtain ⟨L, e, f, hinv⟩ := Scheme.NetInv.reach ok h
  obtain ⟨hf, -⟩ := hinv.atStart ok hn hid
  rcases hinv.ticks ok hn rng hc with ⟨L', s', a', out, h1, -, -, h4⟩ | ⟨r, -, h2, -⟩
  · refine ⟨s', a', out, h1, ?_⟩
    obtain ⟨-, hs, -⟩ := h4.running i s' a' (by simp [Net.put])
    have hcomm := hs.comm
    simp only [Function.update_self, hf] at hcomm
    unfold finishRound at h1
    cases hfr : s.finalizeRound (sp.fork rng 0) a with
    | error err => rw [hfr] at h1; cases h1
    | ok y =>
      rw [hfr] at h1
      cases y with
      | finished r => cases h1
      | anotherRound s1 cached =>
        simp only [enterRound, startRound] at h1
        cases hsend : sendAll s1 (sp.fork rng 1) 0 s1.makeAccum s1.destinations.elems with
        | error err => rw [hsend] at h1; cases h1
        | ok z =>
          obtain ⟨a1, ms⟩ := z
          rw [hsend] at h1
          simp only at h1
          cases hfold : foldE (applyVerified s1) a1 cached with
          | error err => rw [hfold] at h1; cases h1
          | ok a2 =>
            rw [hfold] at h1
            simp only [Prod.mk.injEq, RunState.running.injEq] at h1
            obtain ⟨⟨rfl, rfl⟩, rfl⟩ := h1
            rw [sendAll_dests hsend, Session.destinations, hcomm]
  · rw [hf] at h2
    omega

/-! ### The schedule -/

/-- Some parties have sent their messages, `a` all but the last. -/
structure Sending (sc : Scheme P) (a d : sp.Id) (sent : List sp.Id) (x : Async P) : Prop where
  start : ∀ i, sc.g.parties.contains i = true → x.AtStart sc i
  first : ∃ m, x.outbox a = [m] ∧ m.destination = d
  finished : ∀ i ∈ sent, i ≠ a → x.outbox i = []
  untouched : ∀ i, sc.g.parties.contains i = true → i ∉ sent → (x.outbox i).map (fun m => m.destination) = (sc.dests 0 i).elems
  inbox : ∀ j, (x.inbox j).length ≤ (sent.filter (fun i => decide (i ≠ j))).length
  target : (x.inbox a).length = (sent.filter (fun i => decide (i ≠ a))).length
  chan : x.chan = []
  disp : x.disp = .waiting

theorem filter_ne_room {l parties : List sp.Id} (hl : l.Nodup) (hsub : ∀ i ∈ l, i ∈ parties) {i j : sp.Id} (hi : i ∈ parties)
    (hj : j ∈ parties) (hij : i ≠ j) (hil : i ∉ l) : (l.filter (fun y => decide (y ≠ j))).length + 2 ≤ parties.length := by
  have hnd : (i :: j :: l.filter (fun y => decide (y ≠ j))).Nodup := by
    rw [List.nodup_cons, List.nodup_cons]
    refine ⟨?_, ?_, hl.filter _⟩
    · simp [hij, hil]
    · simp
  have hle := (List.subperm_of_subset hnd (l₂ := parties) (by
    intro y hy
    simp only [List.mem_cons, List.mem_filter] at hy
    rcases hy with rfl | rfl | hy
    · exact hi
    · exact hj
    · exact hsub _ hy.1)).length_le
  simpa using hle

/-- Another party sends all its messages. -/
theorem AsyncTakes.sendsAll {a d : sp.Id} {sent : List sp.Id} (hnd : sent.Nodup)
    (hsub : ∀ i ∈ sent, sc.g.parties.contains i = true) (hsize : sc.g.parties.elems.length ≤ asyncCapacity + 1) {k : Nat} {x : Async P}
    (hx : AsyncTakes sc.g k x) (hs : Sending sc a d sent x) {i : sp.Id} (hi : sc.g.parties.contains i = true) (his : i ∉ sent)
    (hia : i ≠ a) (ha : sc.g.parties.contains a = true) (hd : sc.dests 0 i = sc.g.others i) :
    ∃ k' x', AsyncTakes sc.g k' x' ∧ Sending sc a d (i :: sent) x' := by
  have hu := hs.untouched i hi his
  rw [hd] at hu
  have hmem : ∀ j, j ∈ (x.outbox i).map (fun m => m.destination) ↔ j ≠ i ∧ sc.g.parties.contains j = true := by
    intro j
    rw [hu, BSet.mem_elems, Scheme.others_contains]
  obtain ⟨k', x', g1, g2, g3, g4, g5, g6⟩ := hx.flush (i := i) (x.outbox i) [] (by rw [hu]; exact BSet.elems_nodup _) hs.disp hs.chan
    (by simp) (by
      intro m hm
      obtain ⟨h1, h2⟩ := (hmem m.destination).1 (List.mem_map_of_mem hm)
      obtain ⟨s, b, h3, -⟩ := hs.start _ h2
      refine ⟨h2, ⟨s, b, h3⟩, ?_⟩
      have h4 := hs.inbox m.destination
      have h5 := filter_ne_room hnd (fun y hy => BSet.mem_elems.2 (hsub y hy)) (BSet.mem_elems.2 hi) (BSet.mem_elems.2 h2) (Ne.symm h1) his
      omega)
  have hcount : ∀ j, ((i :: sent).filter (fun y => decide (y ≠ j))).length =
      (sent.filter (fun y => decide (y ≠ j))).length + if j = i then 0 else 1 := by
    intro j
    by_cases hj : j = i
    · subst hj; simp
    · simp [hj, Ne.symm hj]
  refine ⟨k', x', g1, ?_, ?_, ?_, ?_, ?_, ?_, g3, g2⟩
  · intro j hj
    obtain ⟨s, b, h1, h2⟩ := hs.start j hj
    exact ⟨s, b, by rw [g4]; exact h1, h2⟩
  · rw [g5, Function.update_of_ne (Ne.symm hia)]
    exact hs.first
  · intro j hj hja
    rw [g5]
    by_cases hji : j = i
    · subst hji; simp
    · rw [Function.update_of_ne hji]
      exact hs.finished j (List.mem_of_ne_of_mem hji hj) hja
  · intro j hj hjs
    rw [List.mem_cons, not_or] at hjs
    rw [g5, Function.update_of_ne hjs.1]
    exact hs.untouched j hj hjs.2
  · intro j
    rw [g6, hcount]
    have := hs.inbox j
    by_cases hj : j = i
    · rw [if_neg (by rw [hmem]; simp [hj]), if_pos hj]
      omega
    · rw [if_neg hj]
      split <;> omega
  · rw [g6, hcount, if_pos ((hmem a).2 ⟨Ne.symm hia, ha⟩), if_neg (Ne.symm hia), hs.target]

theorem AsyncTakes.sendsEach {a d : sp.Id} (ha : sc.g.parties.contains a = true) (hsize : sc.g.parties.elems.length ≤ asyncCapacity + 1)
    (hd : ∀ i, sc.g.parties.contains i = true → sc.dests 0 i = sc.g.others i) {k : Nat} {x : Async P}
    (hx : AsyncTakes sc.g k x) (hs : Sending sc a d [a] x) (l : List sp.Id) (hl : (a :: l).Nodup)
    (hsub : ∀ i ∈ l, sc.g.parties.contains i = true) :
    ∃ k' x' sent, AsyncTakes sc.g k' x' ∧ Sending sc a d sent x' ∧ sent.Perm (a :: l) := by
  induction l with
  | nil => exact ⟨k, x, [a], hx, hs, List.Perm.refl _⟩
  | cons i l ih =>
    have hl' : (a :: l).Nodup := hl.sublist (by simp)
    obtain ⟨k', x', sent, h1, h2, h3⟩ := ih hl' (fun j hj => hsub j (List.mem_cons_of_mem _ hj))
    simp only [List.nodup_cons, List.mem_cons, not_or] at hl
    have hi := hsub i (List.mem_cons_self ..)
    obtain ⟨k'', x'', g1, g2⟩ := h1.sendsAll (h3.nodup_iff.2 hl') (by
      intro j hj
      rw [h3.mem_iff, List.mem_cons] at hj
      rcases hj with rfl | hj
      · exact ha
      · exact hsub j (List.mem_cons_of_mem _ hj)) hsize h2 hi (by
        rw [h3.mem_iff, List.mem_cons, not_or]
        exact ⟨Ne.symm hl.1.1, hl.2.1⟩) (Ne.symm hl.1.1) ha (hd i hi)
    exact ⟨k'', x'', i :: sent, g1, g2, ((h3.cons i).trans (List.Perm.swap ..))⟩

/-- Everybody is in the first round; all messages have been sent but one, and all have been received but those to `a`. -/
structure Settled (sc : Scheme P) (a d : sp.Id) (todo : List sp.Id) (x : Async P) : Prop where
  start : ∀ i, sc.g.parties.contains i = true → x.AtStart sc i
  first : ∃ m, x.outbox a = [m] ∧ m.destination = d
  finished : ∀ i, sc.g.parties.contains i = true → i ≠ a → x.outbox i = []
  received : ∀ i, sc.g.parties.contains i = true → i ≠ a → i ∉ todo → x.inbox i = []
  target : (x.inbox a).length + 1 = sc.g.parties.elems.length
  chan : x.chan = []
  disp : x.disp = .waiting

theorem AsyncTakes.settle (ok : sc.Ok) {a d : sp.Id} (l : List sp.Id) {k : Nat} {x : Async P} (hx : AsyncTakes sc.g k x)
    (hs : Settled sc a d l x) (hl : ∀ i ∈ l, i ≠ a ∧ sc.g.parties.contains i = true) :
    ∃ k' x', AsyncTakes sc.g k' x' ∧ Settled sc a d [] x' := by
  induction l generalizing k x with
  | nil => exact ⟨k, x, hx, hs⟩
  | cons i l ih =>
    obtain ⟨hia, hi⟩ := hl i (List.mem_cons_self ..)
    obtain ⟨k', x', g1, g2, g3, g4, g5, g6, g7⟩ := hx.drain ok hi _ rfl hs.start (hs.finished i hi hia)
    refine ih g1 ⟨g7, by rw [g4]; exact hs.first, by rw [g4]; exact hs.finished, ?_, ?_, by rw [g3]; exact hs.chan,
      by rw [g2]; exact hs.disp⟩ (fun j hj => hl j (List.mem_cons_of_mem _ hj))
    · intro j hj hja hjl
      rw [g6]
      by_cases hji : j = i
      · subst hji; simp
      · rw [Function.update_of_ne hji]
        exact hs.received j hj hja (by simp [hji, hjl])
    · rw [g6, Function.update_of_ne (Ne.symm hia)]
      exact hs.target

/-- What is in flight then. -/
theorem Settled.flight {a d : sp.Id} (ha : sc.g.parties.contains a = true) {x : Async P} (hs : Settled sc a d [] x) {p : Packet sp}
    (hin : ∀ i p, p ∈ x.inbox i → p.dest = i) : p ∈ x.flight sc.g → p.dest = a ∨ p.dest = d := by
  intro hp
  obtain ⟨m, hm, hmd⟩ := hs.first
  simp only [Async.flight, hs.chan, hs.disp, Dispatcher.held, List.append_nil, List.mem_append, Async.outgoing, Async.incoming,
    List.mem_flatMap, List.mem_map, BSet.mem_elems] at hp
  rcases hp with ⟨i, hi, m', hm', rfl⟩ | ⟨i, hi, hp⟩
  · by_cases hia : i = a
    · subst hia
      rw [hm] at hm'
      simp only [List.mem_singleton] at hm'
      subst hm'
      exact Or.inr hmd
    · rw [hs.finished i hi hia] at hm'
      cases hm'
  · by_cases hia : i = a
    · subst hia
      exact Or.inl (hin i p hp)
    · rw [hs.received i hi hia (by simp)] at hp
      cases hp

/-- All but `a` and `d` can go on. -/
theorem Settled.ready (ok : sc.Ok) {a d : sp.Id} (ha : sc.g.parties.contains a = true) {k : Nat} {x : Async P} (hx : AsyncTakes sc.g k x)
    (hs : Settled sc a d [] x) {i : sp.Id} (hi : sc.g.parties.contains i = true) (hia : i ≠ a) (hid : i ≠ d) :
    ∃ s b, x.node i = some (.running s b) ∧ s.transition.id = sc.idAt 0 ∧ b.canFinalize = .yes := by
  obtain ⟨s, b, hn, hr⟩ := hs.start i hi
  refine ⟨s, b, hn, hr, ?_⟩
  obtain ⟨kn, n, hnet⟩ := AsyncNet.reach ok hx
  obtain ⟨L, e, f, hinv⟩ := Scheme.NetInv.reach ok hnet.takes.reach
  have hnn : n.node i = some (.running s b) := by rw [← hnet.node]; exact hn
  obtain ⟨hf, -⟩ := hinv.atStart ok hnn hr
  obtain ⟨-, hse, hac⟩ := hinv.running i s b hnn
  rcases hac.canFinalize with ⟨h1, -⟩ | ⟨-, y, hy, hyp⟩
  · exact h1
  · exfalso
    rw [hf] at hy
    have hyp' := (Scheme.others_contains.1 (ok.coop.pattern.others_at (t := 0) (show (spot 0).1 < sc.n from ok.coop.stages) hi (Or.inr hy))).2
    obtain ⟨s', b', hn', hr'⟩ := hs.start y hyp'
    have hey := (hinv.atStart ok (by rw [← hnet.node]; exact hn') hr').2
    obtain ⟨p, hpw, -, hpd, -⟩ := hinv.sent i y 0 hi hy (by omega) (by
      rintro (h1 | ⟨s1, b1, h1, h2⟩)
      · omega
      · rw [hnn] at h1
        simp only [Option.some.injEq, RunState.running.injEq] at h1
        obtain ⟨rfl, rfl⟩ := h1
        rcases h2 with ⟨-, h2⟩ | ⟨h2, -⟩
        · rw [hyp] at h2; cases h2
        · have := Scheme.lt_nxt (sc := sc) (f i) i
          omega)
    rcases hs.flight ha hnet.inbox (hnet.wire.mem_iff.1 hpw) with h1 | h1
    · exact hia (hpd.symm.trans h1)
    · exact hid (hpd.symm.trans h1)

/-- `d` cannot go on. -/
theorem Settled.waits (ok : sc.Ok) {a d : sp.Id} (ha : sc.g.parties.contains a = true) (hd : sc.g.parties.contains d = true)
    {k : Nat} {x : Async P} (hx : AsyncTakes sc.g k x) (hs : Settled sc a d [] x) :
    ∃ s b, x.node d = some (.running s b) ∧ b.canFinalize = .notYet := by
  obtain ⟨s, b, hn, hr⟩ := hs.start d hd
  refine ⟨s, b, hn, ?_⟩
  obtain ⟨kn, n, hnet⟩ := AsyncNet.reach ok hx
  obtain ⟨L, e, f, hinv⟩ := Scheme.NetInv.reach ok hnet.takes.reach
  have hnn : n.node d = some (.running s b) := by rw [← hnet.node]; exact hn
  obtain ⟨hf, -⟩ := hinv.atStart ok hnn hr
  obtain ⟨m, hm, hmd⟩ := hs.first
  have hpw : packetOf a m ∈ n.wire := by
    rw [hnet.wire.mem_iff]
    simp only [Async.flight, List.mem_append]
    left; left; left
    rw [Async.outgoing, List.mem_flatMap]
    exact ⟨a, BSet.mem_elems.2 ha, by rw [hm]; simp⟩
  obtain ⟨-, t, ht, hxt, -, hnr⟩ := hinv.wire _ hpw
  obtain ⟨s', b', hn', hr'⟩ := hs.start a ha
  have hea := (hinv.atStart ok (by rw [← hnet.node]; exact hn') hr').2
  have hpd : (packetOf a m).dest = d := hmd
  rw [hpd] at hxt hnr
  have ht0 : t = 0 := by
    have : t < e a := ht
    omega
  subst ht0
  rcases ((hinv.running d s b hnn).2.2).canFinalize with ⟨-, h1⟩ | ⟨h1, -⟩
  · exfalso
    refine hnr (Or.inr ⟨s, b, hnn, Or.inl ⟨hf.symm, ?_⟩⟩)
    rw [h1, hf]
    exact hxt
  · exact h1

/-- Some parties have gone on to the next round, the others (`todo`) can. -/
structure Going (sc : Scheme P) (a d : sp.Id) (todo : List sp.Id) (x : Async P) : Prop where
  running : ∀ i, sc.g.parties.contains i = true → ∃ s b, x.node i = some (.running s b)
  ready : ∀ i ∈ todo, ∃ s b, x.node i = some (.running s b) ∧ s.transition.id = sc.idAt 0 ∧ b.canFinalize = .yes
  idle : ∀ i ∈ todo, x.outbox i = []
  gone : ∀ i, sc.g.parties.contains i = true → i ≠ a → i ≠ d → i ∉ todo →
    (x.outbox i).map (fun m => m.destination) = (sc.g.others i).elems
  first : x.outbox a ≠ []
  last : ∃ s b, x.node d = some (.running s b) ∧ b.canFinalize = .notYet
  received : x.inbox d = []
  silent : x.outbox d = []
  target : (x.inbox a).length + 1 = sc.g.parties.elems.length
  chan : x.chan = []
  disp : x.disp = .waiting

theorem AsyncTakes.goesOn (ok : sc.Ok) (rng : sp.Rng) {a d : sp.Id} (l : List sp.Id) (hnd : l.Nodup)
    (hl : ∀ i ∈ l, i ≠ a ∧ i ≠ d ∧ sc.g.parties.contains i = true)
    (hnext : ∀ i, sc.g.parties.contains i = true → sc.nxt 0 i < 2 * sc.n ∧ sc.dAt (sc.nxt 0 i) i = sc.g.others i)
    {k : Nat} {x : Async P} (hx : AsyncTakes sc.g k x) (hg : Going sc a d l x) :
    ∃ k' x', AsyncTakes sc.g k' x' ∧ Going sc a d [] x' := by
  induction l generalizing k x with
  | nil => exact ⟨k, x, hx, hg⟩
  | cons i l ih =>
    rw [List.nodup_cons] at hnd
    obtain ⟨hia, hid, hi⟩ := hl i (List.mem_cons_self ..)
    obtain ⟨s, b, hn, hr, hc⟩ := hg.ready i (List.mem_cons_self ..)
    obtain ⟨kn, n, hnet⟩ := AsyncNet.reach ok hx
    obtain ⟨s', b', out, h1, h2⟩ := NetReach.ticks ok hnet.takes.reach (by rw [← hnet.node]; exact hn) hr (hnext i hi).1 hc rng
    rw [(hnext i hi).2] at h2
    have hstep := hx.step (.tick (rng := rng) (st' := .running s' b') (out := out) hn (hg.idle i (List.mem_cons_self ..))
      (by simp only [Manul.step, hc, h1]))
    refine ih hnd.2 (fun j hj => hl j (List.mem_cons_of_mem _ hj)) hstep ⟨?_, ?_, ?_, ?_, ?_, ?_, hg.received, ?_, hg.target, hg.chan, hg.disp⟩
    · intro j hj
      by_cases hji : j = i
      · subst hji
        exact ⟨s', b', by simp [Async.put]⟩
      · simp only [Async.put, Function.update_of_ne hji]
        exact hg.running j hj
    · intro j hj
      have hji : j ≠ i := by rintro rfl; exact hnd.1 hj
      simp only [Async.put, Function.update_of_ne hji]
      exact hg.ready j (List.mem_cons_of_mem _ hj)
    · intro j hj
      have hji : j ≠ i := by rintro rfl; exact hnd.1 hj
      simp only [Async.put, Function.update_of_ne hji]
      exact hg.idle j (List.mem_cons_of_mem _ hj)
    · intro j hj hja hjd hjl
      by_cases hji : j = i
      · subst hji
        simp only [Async.put, Function.update_self]
        exact h2
      · simp only [Async.put, Function.update_of_ne hji]
        exact hg.gone j hj hja hjd (by simp [hji, hjl])
    · simp only [Async.put, Function.update_of_ne (Ne.symm hia)]
      exact hg.first
    · simp only [Async.put, Function.update_of_ne (Ne.symm hid)]
      exact hg.last
    · simp only [Async.put, Function.update_of_ne (Ne.symm hid)]
      exact hg.silent

/-- Parties send their first message of the next round, which is for `a`. -/
theorem AsyncTakes.fillUp {a d : sp.Id} (ha : sc.g.parties.contains a = true) (l : List sp.Id) (hnd : l.Nodup)
    {k : Nat} {x : Async P} (hx : AsyncTakes sc.g k x) (hrun : ∀ i, sc.g.parties.contains i = true → ∃ s b, x.node i = some (.running s b))
    (hl : ∀ i ∈ l, i ≠ a ∧ i ≠ d ∧ ∃ m ms, x.outbox i = m :: ms ∧ m.destination = a)
    (hc : x.chan = []) (hd : x.disp = .waiting) (hroom : (x.inbox a).length + l.length ≤ asyncCapacity) (had : a ≠ d) :
    ∃ k' x', AsyncTakes sc.g k' x' ∧ x'.node = x.node ∧ x'.chan = [] ∧ x'.disp = .waiting ∧ x'.inbox d = x.inbox d ∧
      (x'.inbox a).length = (x.inbox a).length + l.length ∧ (∀ i ∉ l, x'.outbox i = x.outbox i) ∧
      ∀ i ∈ l, (x'.outbox i).length + 1 = (x.outbox i).length := by
  induction l generalizing k x with
  | nil => exact ⟨k, x, hx, rfl, hc, hd, rfl, rfl, fun _ _ => rfl, by simp⟩
  | cons i l ih =>
    rw [List.nodup_cons] at hnd
    rw [List.length_cons] at hroom
    obtain ⟨hia, hid, m, ms, ho, hm⟩ := hl i (List.mem_cons_self ..)
    obtain ⟨s, b, hn⟩ := hrun a ha
    have h1 := hx.relay hd hc ho (by rw [hm]; exact ha) (by rw [hm]; exact hn) (by rw [hm]; omega)
    obtain ⟨k', x', g1, g2, g3, g4, g5, g6, g7, g8⟩ := ih hnd.2 h1 hrun (by
      intro j hj
      have hji : j ≠ i := by rintro rfl; exact hnd.1 hj
      simp only [Function.update_of_ne hji]
      exact hl j (List.mem_cons_of_mem _ hj)) hc hd (by simp [hm]; omega)
    refine ⟨k', x', g1, g2, g3, g4, ?_, ?_, ?_, ?_⟩
    · rw [g5, hm]
      simp [Function.update_of_ne (Ne.symm had)]
    · rw [g6, hm]
      simp only [Function.update_self, List.length_append, List.length_cons, List.length_nil]
      omega
    · intro j hj
      rw [List.mem_cons, not_or] at hj
      rw [g7 j hj.2]
      simp [Function.update_of_ne hj.1]
    · intro j hj
      by_cases hji : j = i
      · subst hji
        rw [g7 j hnd.1, ho]
        simp
      · rw [g8 j (List.mem_of_ne_of_mem hji hj)]
        simp [Function.update_of_ne hji]

/-- 52 to 101 parties all sending messages to all others in the first two rounds (or in the first round and its echo round) can
come to a standstill. -/
theorem AsyncTakes.standstill (ok : sc.Ok) (rng : sp.Rng) (hd : ∀ i, sc.g.parties.contains i = true → sc.dests 0 i = sc.g.others i)
    (hnext : ∀ i, sc.g.parties.contains i = true → sc.nxt 0 i < 2 * sc.n ∧ sc.dAt (sc.nxt 0 i) i = sc.g.others i)
    (hmin : 52 ≤ sc.g.parties.elems.length) (hmax : sc.g.parties.elems.length ≤ asyncCapacity + 1) :
    ∃ k x, AsyncTakes sc.g k x ∧ (∀ x', ¬ AsyncStep sc.g x x') ∧
      ∀ i, sc.g.parties.contains i = true → ∃ s a, x.node i = some (.running s a) := by
  have h100 : asyncCapacity = 100 := rfl
  obtain ⟨a, l0, hel0⟩ := List.exists_cons_of_length_pos (l := sc.g.parties.elems) (by omega)
  rcases List.eq_nil_or_concat l0 with rfl | ⟨l, d, rfl⟩
  · rw [hel0] at hmin; simp at hmin
  have hel : sc.g.parties.elems = a :: (l ++ [d]) := by rw [hel0, List.concat_eq_append]
  clear hel0
  have hnd := BSet.elems_nodup sc.g.parties
  have hlen : sc.g.parties.elems.length = l.length + 2 := by rw [hel]; simp
  rw [hel] at hnd
  simp only [List.nodup_cons, List.mem_append, List.mem_singleton, not_or, List.nodup_append, List.nodup_singleton, true_and,
    List.not_mem_nil, not_false_eq_true, List.nodup_nil, and_true] at hnd
  obtain ⟨⟨hal, had⟩, hlnd, hld⟩ := hnd
  have hdl : ∀ i ∈ l, i ≠ d := fun i hi => hld i hi d rfl
  have hmem : ∀ i, sc.g.parties.contains i = true ↔ i = a ∨ i ∈ l ∨ i = d := by
    intro i
    rw [← BSet.mem_elems, hel]
    simp
  have ha : sc.g.parties.contains a = true := (hmem a).2 (Or.inl rfl)
  have hdp : sc.g.parties.contains d = true := (hmem d).2 (Or.inr (Or.inr rfl))
  have hlp : ∀ i ∈ l, sc.g.parties.contains i = true := fun i hi => (hmem i).2 (Or.inr (Or.inl hi))
  have hother : ∀ i, sc.g.parties.contains i = true → (sc.g.others i).elems.length = l.length + 1 := by
    intro i hi
    have := elems_erase_length hi
    simp only [Group.others]
    omega
  have hfirst : ∀ i, i ≠ a → ∃ ds, (sc.g.others i).elems = a :: ds := fun i hi => elems_erase_head hel hi
  -- everybody starts
  obtain ⟨k, x, hx, hf, hat⟩ := AsyncTakes.begins ok rng sc.g.parties.elems (BSet.elems_nodup _) (fun i hi => BSet.mem_elems.1 hi)
  -- `a` sends all but the last message
  have hoa := (hf.started a (BSet.mem_elems.2 ha)).2
  have hoa' : (sc.dests 0 a).elems = l ++ [d] := by
    rw [hd a ha]
    have h : (sc.g.others a).elems = sc.g.parties.elems.filter (fun k => decide (k ≠ a)) := by
      simp only [Group.others, BSet.elems, BMap.erase, BMap.filter, List.filter_map]
      rfl
    rw [h, hel, List.filter_cons, if_neg (by simp), List.filter_eq_self]
    intro i hi
    rw [List.mem_append, List.mem_singleton] at hi
    rcases hi with hi | rfl
    · simpa using fun hc : i = a => hal (hc ▸ hi)
    · simpa using Ne.symm had
  rw [hoa', List.map_eq_append_iff] at hoa
  obtain ⟨ms, ms', ho, hms, hms'⟩ := hoa
  obtain ⟨m, hm, hmd⟩ : ∃ m, ms' = [m] ∧ m.destination = d := by
    rcases ms' with - | ⟨m, - | ⟨m2, ms2⟩⟩
    · cases hms'
    · simp only [List.map_cons, List.map_nil, List.cons.injEq, and_true] at hms'
      exact ⟨m, rfl, hms'⟩
    · cases hms'
  subst hm
  obtain ⟨k, x1, hx1, g2, g3, g4, g5, g6⟩ := hx.flush ms [m] (by rw [hms]; exact hlnd) hf.disp hf.chan ho (by
    intro m' hm'
    have h1 : m'.destination ∈ l := by rw [← hms]; exact List.mem_map_of_mem hm'
    exact ⟨hlp _ h1, (hf.started _ (BSet.mem_elems.2 (hlp _ h1))).1, by rw [hf.inbox]; exact Nat.zero_lt_succ 99⟩)
  have hs0 : Sending sc a d [a] x1 := by
    refine ⟨?_, ⟨m, by rw [g5]; simp, hmd⟩, ?_, ?_, ?_, ?_, g3, g2⟩
    · intro i hi
      obtain ⟨s, b, h1, h2⟩ := hat i (BSet.mem_elems.2 hi)
      exact ⟨s, b, by rw [g4]; exact h1, h2⟩
    · intro i hi hia
      simp only [List.mem_singleton] at hi
      exact absurd hi hia
    · intro i hi hia
      simp only [List.mem_singleton] at hia
      rw [g5, Function.update_of_ne hia]
      exact (hf.started i (BSet.mem_elems.2 hi)).2
    · intro j
      rw [g6, hf.inbox, hms]
      by_cases hj : j ∈ l
      · have : a ≠ j := by rintro rfl; exact hal hj
        simp [hj, this]
      · simp [hj]
    · rw [g6, hf.inbox, hms]
      simp [hal]
  -- everybody else sends everything
  obtain ⟨k, x2, sent, hx2, hs2, hperm⟩ := hx1.sendsEach ha hmax hd hs0 (l ++ [d]) (by rw [← hel]; exact BSet.elems_nodup _) (by
    intro i hi
    rw [List.mem_append, List.mem_singleton] at hi
    rcases hi with hi | rfl
    · exact hlp i hi
    · exact hdp)
  have hset : Settled sc a d (l ++ [d]) x2 := by
    refine ⟨hs2.start, hs2.first, ?_, ?_, ?_, hs2.chan, hs2.disp⟩
    · intro i hi hia
      refine hs2.finished i ?_ hia
      rw [hperm.mem_iff, ← hel, BSet.mem_elems]
      exact hi
    · intro i hi hia hil
      exfalso
      rw [hmem] at hi
      simp only [List.mem_append, List.mem_singleton, not_or] at hil
      rcases hi with hi | hi | hi
      · exact hia hi
      · exact hil.1 hi
      · exact hil.2 hi
    · rw [hs2.target, (hperm.filter _).length_eq, List.filter_cons, if_neg (by simp), List.filter_eq_self.2, hlen]
      · simp
      · intro i hi
        rw [List.mem_append, List.mem_singleton] at hi
        rcases hi with hi | rfl
        · simpa using fun hc : i = a => hal (hc ▸ hi)
        · simpa using Ne.symm had
  -- everybody but `a` receives everything
  obtain ⟨k, x3, hx3, hs3⟩ := hx2.settle ok (l ++ [d]) hset (by
    intro i hi
    rw [List.mem_append, List.mem_singleton] at hi
    rcases hi with hi | rfl
    · exact ⟨by rintro rfl; exact hal hi, hlp i hi⟩
    · exact ⟨Ne.symm had, hdp⟩)
  have hgo : Going sc a d l x3 := by
    refine ⟨?_, ?_, ?_, ?_, ?_, hs3.waits ok ha hdp hx3, hs3.received d hdp (Ne.symm had) (by simp),
      hs3.finished d hdp (Ne.symm had), hs3.target, hs3.chan, hs3.disp⟩
    · intro i hi
      obtain ⟨s, b, h1, -⟩ := hs3.start i hi
      exact ⟨s, b, h1⟩
    · intro i hi
      exact hs3.ready ok ha hx3 (hlp i hi) (by rintro rfl; exact hal hi) (hdl i hi)
    · intro i hi
      exact hs3.finished i (hlp i hi) (by rintro rfl; exact hal hi)
    · intro i hi hia hid hil
      rw [hmem] at hi
      rcases hi with hi | hi | hi
      · exact absurd hi hia
      · exact absurd hi hil
      · exact absurd hi hid
    · obtain ⟨m, hm, -⟩ := hs3.first
      rw [hm]
      simp
  -- all but `a` and `d` go on
  obtain ⟨k, x4, hx4, hg4⟩ := hx3.goesOn ok rng l hlnd (fun i hi => ⟨by rintro rfl; exact hal hi, hdl i hi, hlp i hi⟩) hnext hgo
  have hout4 : ∀ i ∈ l, (x4.outbox i).length = l.length + 1 ∧ ∃ m ms, x4.outbox i = m :: ms ∧ m.destination = a := by
    intro i hi
    have hia : i ≠ a := by rintro rfl; exact hal hi
    have h1 := hg4.gone i (hlp i hi) hia (hdl i hi) (by simp)
    have h2 := hother i (hlp i hi)
    rw [← h1, List.length_map] at h2
    refine ⟨h2, ?_⟩
    obtain ⟨ds, h3⟩ := hfirst i hia
    rw [h3] at h1
    cases ho : x4.outbox i with
    | nil => rw [ho] at h1; cases h1
    | cons m ms =>
      rw [ho] at h1
      simp only [List.map_cons, List.cons.injEq] at h1
      exact ⟨m, ms, rfl, h1.1⟩
  -- the channel of `a` fills up
  have ht4 := hg4.target
  obtain ⟨k, x5, hx5, e1, e2, e3, e4, e5, e6, e7⟩ := hx4.fillUp (d := d) ha (l.take (99 - l.length))
    (hlnd.sublist (List.take_sublist ..)) hg4.running (by
      intro i hi
      have hi := List.mem_of_mem_take hi
      exact ⟨by rintro rfl; exact hal hi, hdl i hi, (hout4 i hi).2⟩) hg4.chan hg4.disp (by rw [List.length_take]; omega) had
  rw [List.length_take] at e5
  -- one more message for `a`
  have hlt : 99 - l.length < l.length := by omega
  have hz : l[99 - l.length] ∈ l := List.getElem_mem hlt
  generalize hzdef : l[99 - l.length] = z at hz
  have hznt : z ∉ l.take (99 - l.length) := by
    intro hc
    obtain ⟨j, hj, he⟩ := List.mem_iff_getElem.1 hc
    simp only [List.length_take] at hj
    rw [List.getElem_take, ← hzdef] at he
    have := (List.Nodup.getElem_inj_iff hlnd).1 he
    omega
  obtain ⟨hz1, mz, msz, hz2, hz3⟩ := hout4 z hz
  have hx6 := hx5.hand e3 e2 ((e6 z hznt).trans hz2)
  generalize hx6def : ({ x5 with
    outbox := Function.update x5.outbox z msz, chan := [], disp := .sending (packetOf z mz) [] } : Async P) = x6 at hx6
  have d1 : x6.node = x4.node := by rw [← hx6def]; exact e1
  have d2 : x6.disp = .sending (packetOf z mz) [] := by rw [← hx6def]
  have d3 : x6.chan = [] := by rw [← hx6def]
  have d4 : x6.inbox = x5.inbox := by rw [← hx6def]
  have d5 : ∀ i, i ∉ l → x6.outbox i = x4.outbox i := by
    intro i hi
    rw [← hx6def]
    simp only [Function.update_of_ne (show i ≠ z by rintro rfl; exact hi hz)]
    exact e6 i (fun h => hi (List.mem_of_mem_take h))
  have d6 : ∀ i ∈ l, 50 ≤ (x6.outbox i).length := by
    intro i hi
    rw [← hx6def]
    by_cases hiz : i = z
    · subst hiz
      simp only [Function.update_self]
      rw [hz2, List.length_cons] at hz1
      omega
    · simp only [Function.update_of_ne hiz]
      have h1 := (hout4 i hi).1
      by_cases hit : i ∈ l.take (99 - l.length)
      · have := e7 i hit
        omega
      · rw [e6 i hit]
        omega
  clear hx6def
  -- the channel of the dispatcher fills up
  have h0 : l[0] ∈ l := List.getElem_mem (by omega)
  have h1 : l[1] ∈ l := List.getElem_mem (by omega)
  have h2 : l[2] ∈ l := List.getElem_mem (by omega)
  have h01 : l[1] ≠ l[0] := by
    intro hc
    have := (List.Nodup.getElem_inj_iff hlnd).1 hc
    omega
  have h02 : l[2] ≠ l[0] := by
    intro hc
    have := (List.Nodup.getElem_inj_iff hlnd).1 hc
    omega
  have h12 : l[2] ≠ l[1] := by
    intro hc
    have := (List.Nodup.getElem_inj_iff hlnd).1 hc
    omega
  generalize l[0] = u0 at h0 h01 h02
  generalize l[1] = u1 at h1 h01 h12
  generalize l[2] = u2 at h2 h02 h12
  have w0 := d6 u0 h0
  have w1 := d6 u1 h1
  have w2 := d6 u2 h2
  obtain ⟨k, x7, hx7, a1, a2, a3, a4, a5, a6⟩ := hx6.pushes (a := u0) 34 d2 (by rw [d3, h100]; simp) (by omega)
  have w3 := a6 u1 h01
  have w4 := a6 u2 h02
  rw [d3, List.length_nil] at a2
  obtain ⟨k, x8, hx8, b1, b2, b3, b4, b5, b6⟩ := hx7.pushes (a := u1) 33 a1 (by omega) (by rw [w3]; omega)
  have w5 := b6 u2 h12
  obtain ⟨k, x9, hx9, c1, c2, c3, c4, c5, c6⟩ := hx8.pushes (a := u2) 33 b1 (by omega) (by rw [w5, w4]; omega)
  have hnode : x9.node = x4.node := by rw [c3, b3, a3, d1]
  have hinbox : x9.inbox = x5.inbox := by rw [c4, b4, a4, d4]
  have hrest : ∀ i, i ∉ l → x9.outbox i = x4.outbox i := by
    intro i hi
    rw [c6 i (by rintro rfl; exact hi h2), b6 i (by rintro rfl; exact hi h1), a6 i (by rintro rfl; exact hi h0), d5 i hi]
  have hbusy : ∀ i ∈ l, x9.outbox i ≠ [] := by
    intro i hi hc
    have w6 := d6 i hi
    by_cases i2 : i = u2
    · subst i2
      rw [hc, List.length_nil, w5, w4] at c5
      omega
    · rw [c6 i i2] at hc
      by_cases i1 : i = u1
      · subst i1
        rw [hc, List.length_nil, w3] at b5
        omega
      · rw [b6 i i1] at hc
        by_cases i0 : i = u0
        · subst i0
          rw [hc, List.length_nil] at a5
          omega
        · rw [a6 i i0] at hc
          rw [hc] at w6
          simp at w6
  -- nothing moves
  have hrun : ∀ i, sc.g.parties.contains i = true → ∃ s b, x9.node i = some (.running s b) := by
    intro i hi
    rw [hnode]
    exact hg4.running i hi
  obtain ⟨sd, bd, hnd, hcd⟩ := hg4.last
  rw [← hnode] at hnd
  have hout : ∀ i, sc.g.parties.contains i = true → x9.outbox i = [] → i = d := by
    intro i hi hc
    rw [hmem] at hi
    rcases hi with rfl | hi | hi
    · rw [hrest i hal] at hc
      exact absurd hc hg4.first
    · exact absurd hc (hbusy i hi)
    · exact hi
  have hind : x9.inbox d = [] := by rw [hinbox, e4]; exact hg4.received
  have hfull : x9.chan.length = asyncCapacity := by omega
  have hne : ¬ x9.Ended := by rintro (h | h) <;> rw [c1] at h <;> cases h
  obtain ⟨kn, n, hnet⟩ := AsyncNet.reach ok hx9
  refine ⟨k, x9, hx9, ?_, hrun⟩
  intro x' hs
  cases hs with
  | @start i _ _ hi hni =>
    obtain ⟨s, b, h⟩ := hrun i hi
    rw [hni] at h
    cases h
  | push _ hlt' _ => omega
  | pushErr _ he => exact hne he
  | @tick i st st' rng' out hni hno hst =>
    cases hout i (hnet.party ok hni) hno
    rw [hnd] at hni
    cases hni
    simp [Manul.step, hcd] at hst
  | @recv i st st' p ps out hni hno hin _ =>
    cases hout i (hnet.party ok hni) hno
    rw [hind] at hin
    cases hin
  | closed _ _ _ he _ => exact hne he
  | dispatch hds =>
    cases hds with
    | recv hc _ => rw [c1] at hc; cases hc
    | close hc _ _ => rw [c1] at hc; cases hc
    | drain hc _ => rw [c1] at hc; cases hc
    | drained hc _ => rw [c1] at hc; cases hc
    | emptied hc => rw [c1] at hc; cases hc
    | pick hc _ => rw [c1] at hc; cases hc
    | noChannel hc hcp =>
      rw [c1] at hc
      cases hc
      rw [show (packetOf z mz).dest = a from hz3, ha] at hcp
      cases hcp
    | dropped hc _ hcn =>
      rw [c1] at hc
      cases hc
      obtain ⟨s, b, h⟩ := hrun a ha
      rw [show (packetOf z mz).dest = a from hz3, h] at hcn
      cases hcn
    | send hc _ _ hlt' =>
      rw [c1] at hc
      cases hc
      rw [show (packetOf z mz).dest = a from hz3, hinbox, e5] at hlt'
      omega
    | poll hc _ => rw [c1] at hc; cases hc
    | polled hc _ => rw [c1] at hc; cases hc

end Manul
