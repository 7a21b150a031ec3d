import Verif.Lemmas.RunAsync

/-! # `run_async` with many parties: a schedule after which nothing moves -/

namespace Manul

variable {sp : SP} {P : Proto sp} {sc : Scheme P}

theorem sendAll_dests {s : Session P} {rng : sp.Rng} {j : Nat} {a a' : Accum P} {ds : List sp.Id} {ms : List (Message sp)}
    (h : sendAll s rng j a ds = .ok (a', ms)) : ms.map (fun m => m.destination) = ds := by
  induction ds generalizing j a a' ms with
  | nil => simp only [sendAll, Except.ok.injEq, Prod.mk.injEq] at h; simp [← h.2]
  | cons d ds ih =>
    simp only [sendAll] at h
    split at h
    · cases h
    · rename_i m art hm
      split at h
      · cases h
      · split at h
        · cases h
        · rename_i a'' ms' h3
          simp only [Except.ok.injEq, Prod.mk.injEq] at h
          obtain ⟨-, rfl⟩ := h
          rw [List.map_cons, ih h3]
          congr 1
          exact (makeMessage_ok hm).destination

/-- A party starts: it has messages for its destinations, in order. -/
theorem NetReach.starts (ok : sc.Ok) {n : Net P} (h : NetReach sc.g n) {i : sp.Id} (hi : sc.g.parties.contains i = true)
    (hn : n.node i = none) (rng rng' : sp.Rng) :
    ∃ s a out, sc.g.startNode i rng rng' = (.running s a, out) ∧ out.map (fun m => m.destination) = (sc.dests 0 i).elems := by
  obtain ⟨L, e, f, hinv⟩ := Scheme.NetInv.reach ok h
  obtain ⟨he, hf, -⟩ := hinv.idle i hn
  obtain ⟨L', s, a, out, h1, -, -, h4⟩ := hinv.starts ok hi hn rng rng'
  refine ⟨s, a, out, h1, ?_⟩
  obtain ⟨-, hs, -⟩ := h4.running i s a (by simp [Net.put])
  have hc := hs.comm
  simp only [Function.update_self, he] at hc
  unfold Group.startNode at h1
  cases hn : Session.new rng sc.g.sid (sc.g.signer i) (sc.g.ep i) with
  | error err => rw [hn] at h1; cases h1
  | ok s0 =>
    rw [hn] at h1
    simp only [Manul.start, enterRound, startRound] at h1
    cases hsend : sendAll s0 rng' 0 s0.makeAccum s0.destinations.elems with
    | error err => rw [hsend] at h1; cases h1
    | ok y =>
      obtain ⟨a1, ms⟩ := y
      rw [hsend] at h1
      simp only [foldE, Prod.mk.injEq, RunState.running.injEq] at h1
      obtain ⟨⟨rfl, rfl⟩, rfl⟩ := h1
      rw [sendAll_dests hsend, Session.destinations, hc]
      rfl

/-- Some parties have started, and nobody has sent anything. -/
structure Fresh (sc : Scheme P) (l : List sp.Id) (x : Async P) : Prop where
  started : ∀ i ∈ l, (∃ s a, x.node i = some (.running s a)) ∧
    (x.outbox i).map (fun m => m.destination) = (sc.dests 0 i).elems
  idle : ∀ i, i ∉ l → x.node i = none
  inbox : ∀ i, x.inbox i = []
  chan : x.chan = []
  disp : x.disp = .waiting

theorem AsyncTakes.fresh (ok : sc.Ok) (rng : sp.Rng) (l : List sp.Id) (hl : l.Nodup) (hp : ∀ i ∈ l, sc.g.parties.contains i = true) :
    ∃ k x, AsyncTakes sc.g k x ∧ Fresh sc l x := by
  induction l with
  | nil => exact ⟨0, _, .init, ⟨by simp, fun _ _ => rfl, fun _ => rfl, rfl, rfl⟩⟩
  | cons i l ih =>
    rw [List.nodup_cons] at hl
    obtain ⟨k, x, hx, hf⟩ := ih hl.2 (fun j hj => hp j (List.mem_cons_of_mem _ hj))
    obtain ⟨kn, n, hn⟩ := AsyncNet.reach ok hx
    have hi := hp i (List.mem_cons_self ..)
    have hni := hf.idle i hl.1
    obtain ⟨s, a, out, h1, h2⟩ := NetReach.starts ok hn.takes.reach hi (by rw [← hn.node]; exact hni) rng rng
    refine ⟨k + 1, _, hx.step (.start rng rng hi hni), ?_⟩
    rw [h1]
    refine ⟨?_, ?_, hf.inbox, hf.chan, hf.disp⟩
    · intro j hj
      by_cases hji : j = i
      · subst hji
        simp only [Async.put, Function.update_self]
        exact ⟨⟨s, a, rfl⟩, h2⟩
      · simp only [Async.put, Function.update_of_ne hji]
        exact hf.started j (List.mem_of_ne_of_mem hji hj)
    · intro j hj
      rw [List.mem_cons, not_or] at hj
      simp only [Async.put, Function.update_of_ne hj.1]
      exact hf.idle j hj.2

/-- Some parties have sent a message to `a`; the others have sent nothing. -/
structure Filling (sc : Scheme P) (a : sp.Id) (sent : List sp.Id) (x : Async P) : Prop where
  running : ∀ i, sc.g.parties.contains i = true → ∃ s b, x.node i = some (.running s b)
  left : ∀ i ∈ sent, (x.outbox i).length + 1 = (sc.dests 0 i).elems.length
  untouched : ∀ i, sc.g.parties.contains i = true → i ∉ sent → (x.outbox i).map (fun m => m.destination) = (sc.dests 0 i).elems
  inbox : (x.inbox a).length = sent.length
  chan : x.chan = []
  disp : x.disp = .waiting

/-- A party sends its first message, which is for `a`, and the dispatcher takes it. -/
theorem AsyncTakes.offer {k : Nat} {x : Async P} (hx : AsyncTakes sc.g k x) {a : sp.Id} {sent : List sp.Id}
    (hf : Filling sc a sent x) {i : sp.Id} (hi : sc.g.parties.contains i = true) (his : i ∉ sent) {ds : List sp.Id}
    (hd : (sc.dests 0 i).elems = a :: ds) :
    ∃ k' x' p, AsyncTakes sc.g k' x' ∧ p.dest = a ∧ x'.disp = .sending p [] ∧ x'.chan = [] ∧ x'.node = x.node ∧
      x'.inbox = x.inbox ∧ (x'.outbox i).length = ds.length ∧ ∀ j, j ≠ i → x'.outbox j = x.outbox j := by
  have hu := hf.untouched i hi his
  rw [hd] at hu
  cases ho : x.outbox i with
  | nil => rw [ho] at hu; cases hu
  | cons m ms =>
    rw [ho] at hu
    simp only [List.map_cons, List.cons.injEq] at hu
    have h1 := hx.step (.push ho (by rw [hf.chan]; exact Nat.zero_lt_succ 99) (by
      rintro (h | h) <;> rw [hf.disp] at h <;> cases h))
    have h2 := h1.step (.dispatch (.recv (p := ⟨i, m.destination, m⟩) (c := []) hf.disp (by simp [hf.chan])))
    have h3 := h2.step (.dispatch (.drained (bag := [⟨i, m.destination, m⟩]) rfl rfl))
    have h4 := h3.step (.dispatch (.pick (bag := [⟨i, m.destination, m⟩]) (bag' := []) (k := 0) (p := ⟨i, m.destination, m⟩) rfl rfl))
    refine ⟨_, _, _, h4, hu.1, rfl, rfl, rfl, rfl, ?_, ?_⟩
    · simp only [Function.update_self]
      rw [← hu.2, List.length_map]
    · intro j hj
      simp only [Function.update_of_ne hj]

/-- The channel of `a` fills up. -/
theorem AsyncTakes.fill {a : sp.Id} (ha : sc.g.parties.contains a = true) {k : Nat} {x : Async P} (hx : AsyncTakes sc.g k x)
    (hf : Filling sc a [] x) (l : List sp.Id) (hl : l.Nodup) (hlen : l.length ≤ asyncCapacity)
    (hp : ∀ i ∈ l, sc.g.parties.contains i = true ∧ ∃ ds, (sc.dests 0 i).elems = a :: ds) :
    ∃ k x, AsyncTakes sc.g k x ∧ Filling sc a l x := by
  induction l with
  | nil => exact ⟨k, x, hx, hf⟩
  | cons i l ih =>
    rw [List.nodup_cons] at hl
    rw [List.length_cons] at hlen
    obtain ⟨k, x, hx, hf⟩ := ih hl.2 (by omega) (fun j hj => hp j (List.mem_cons_of_mem _ hj))
    obtain ⟨hi, ds, hd⟩ := hp i (List.mem_cons_self ..)
    obtain ⟨k', x', p, h1, h2, h3, h4, h5, h6, h7, h8⟩ := hx.offer hf hi hl.1 hd
    subst h2
    obtain ⟨s, b, hr⟩ := hf.running _ ha
    have g1 := h1.step (.dispatch (.send h3 ha (by rw [h5, hr]; intro r hc; cases hc) (by rw [h6, hf.inbox]; omega)))
    have g2 := g1.step (.dispatch (.polled (bag := []) rfl h4))
    have g3 := g2.step (.dispatch (.emptied rfl))
    refine ⟨_, _, g3, ?_⟩
    refine ⟨?_, ?_, ?_, ?_, h4, rfl⟩
    · intro j hj
      rw [show _ = x.node from h5]
      exact hf.running j hj
    · intro j hj
      by_cases hji : j = i
      · subst hji
        simp [h7, hd]
      · simp only
        rw [h8 j hji]
        exact hf.left j (List.mem_of_ne_of_mem hji hj)
    · intro j hj hjl
      rw [List.mem_cons, not_or] at hjl
      simp only
      rw [h8 j hjl.1]
      exact hf.untouched j hj hjl.2
    · simp [h6, hf.inbox]

/-- A party puts messages into the channel of the dispatcher, which is not reading it. -/
theorem AsyncTakes.pushes {a : sp.Id} {p : Packet sp} {bag : List (Packet sp)} (m : Nat) {k : Nat} {x : Async P}
    (hx : AsyncTakes sc.g k x) (hd : x.disp = .sending p bag) (hc : x.chan.length + m ≤ asyncCapacity) (hm : m ≤ (x.outbox a).length) :
    ∃ k' x', AsyncTakes sc.g k' x' ∧ x'.disp = .sending p bag ∧ x'.chan.length = x.chan.length + m ∧ x'.node = x.node ∧
      x'.inbox = x.inbox ∧ (x'.outbox a).length + m = (x.outbox a).length ∧ ∀ j, j ≠ a → x'.outbox j = x.outbox j := by
  induction m with
  | zero => exact ⟨k, x, hx, hd, rfl, rfl, rfl, rfl, fun _ _ => rfl⟩
  | succ m ih =>
    obtain ⟨k', x', h1, h2, h3, h4, h5, h6, h7⟩ := ih (by omega) (by omega)
    cases ho : x'.outbox a with
    | nil => rw [ho] at h6; simp at h6; omega
    | cons y ys =>
      have g := h1.step (.push ho (by omega) (by rintro (h | h) <;> rw [h2] at h <;> cases h))
      refine ⟨_, _, g, h2, ?_, h4, h5, ?_, ?_⟩
      · simp only [List.length_append, List.length_cons, List.length_nil]
        omega
      · simp only [Function.update_self]
        rw [ho] at h6
        simp only [List.length_cons] at h6
        omega
      · intro j hj
        simp only [Function.update_of_ne hj]
        exact h7 j hj

theorem elems_erase_head {s : BSet sp.Id} {a i : sp.Id} {l : List sp.Id} (hs : s.elems = a :: l) (hi : i ≠ a) :
    ∃ ds, BSet.elems (BMap.erase s i : BSet sp.Id) = a :: ds := by
  have h : BSet.elems (BMap.erase s i : BSet sp.Id) = s.elems.filter (fun k => decide (k ≠ i)) := by
    simp only [BSet.elems, BMap.erase, BMap.filter, List.filter_map]
    rfl
  rw [h, hs, List.filter_cons]
  simp [Ne.symm hi]

theorem elems_erase_length {s : BSet sp.Id} {i : sp.Id} (hi : s.contains i = true) :
    (BSet.elems (BMap.erase s i : BSet sp.Id)).length + 1 = s.elems.length := by
  have h : BSet.elems (BMap.erase s i : BSet sp.Id) = s.elems.filter (fun k => decide (k ≠ i)) := by
    simp only [BSet.elems, BMap.erase, BMap.filter, List.filter_map]
    rfl
  have h2 : s.elems.filter (fun k => decide (k ≠ i)) = s.elems.erase i := by
    rw [(BSet.elems_nodup s).erase_eq_filter]
    congr 1
    funext k
    by_cases hk : k = i <;> simp [hk]
  rw [h, h2]
  have := List.length_erase_of_mem (BSet.mem_elems.2 hi)
  have := List.length_pos_of_mem (BSet.mem_elems.2 hi)
  omega

/-- The schedule: all but one party send a message to the first one, whose channel is full then; the first party fills the
channel of the dispatcher. -/
theorem AsyncTakes.deadlock (ok : sc.Ok) (rng : sp.Rng) (hd : ∀ i, sc.g.parties.contains i = true → sc.dests 0 i = sc.g.others i)
    (hn : asyncCapacity + 2 ≤ sc.g.parties.elems.length) :
    ∃ k x, AsyncTakes sc.g k x ∧ (∀ x', ¬ AsyncStep sc.g x x') ∧
      ∀ i, sc.g.parties.contains i = true → ∃ s a, x.node i = some (.running s a) := by
  cases hel : sc.g.parties.elems with
  | nil => rw [hel] at hn; simp at hn
  | cons a l =>
    have hnd := BSet.elems_nodup sc.g.parties
    rw [hel] at hnd hn
    rw [List.nodup_cons] at hnd
    simp only [List.length_cons] at hn
    have hmem : ∀ i, i ∈ a :: l ↔ sc.g.parties.contains i = true := fun i => by rw [← hel, BSet.mem_elems]
    have ha : sc.g.parties.contains a = true := (hmem a).1 (List.mem_cons_self ..)
    obtain ⟨k, x, hx, hf⟩ := AsyncTakes.fresh ok rng sc.g.parties.elems (BSet.elems_nodup _) (fun i hi => BSet.mem_elems.1 hi)
    have hf0 : Filling sc a [] x :=
      ⟨fun i hi => (hf.started i (BSet.mem_elems.2 hi)).1, by simp, fun i hi _ => (hf.started i (BSet.mem_elems.2 hi)).2,
        by simp [hf.inbox], hf.chan, hf.disp⟩
    have hsub : ∀ i ∈ l, sc.g.parties.contains i = true ∧ ∃ ds, (sc.dests 0 i).elems = a :: ds := by
      intro i hi
      have hip := (hmem i).1 (List.mem_cons_of_mem _ hi)
      refine ⟨hip, ?_⟩
      rw [hd i hip]
      exact elems_erase_head hel (by rintro rfl; exact hnd.1 hi)
    obtain ⟨k, x, hx, hf⟩ := hx.fill ha hf0 (l.take asyncCapacity) (hnd.2.sublist (List.take_sublist ..)) (by simp)
      (fun i hi => hsub i (List.mem_of_mem_take hi))
    have hlt : asyncCapacity < l.length := by omega
    have hz : l[asyncCapacity] ∈ l := List.getElem_mem hlt
    have hznt : l[asyncCapacity] ∉ l.take asyncCapacity := by
      intro hc
      obtain ⟨j, hj, he⟩ := List.mem_iff_getElem.1 hc
      simp only [List.length_take] at hj
      rw [List.getElem_take] at he
      have := (List.Nodup.getElem_inj_iff hnd.2).1 he
      omega
    obtain ⟨hzp, ds, hzd⟩ := hsub _ hz
    have hlen : ∀ i, sc.g.parties.contains i = true → (sc.dests 0 i).elems.length = l.length := by
      intro i hi
      rw [hd i hi]
      have := elems_erase_length hi
      rw [hel] at this
      simpa [Group.others] using this
    obtain ⟨k, y, p, hy, hp, h3, h4, h5, h6, h7, h8⟩ := hx.offer hf hzp hznt hzd
    have haz : a ≠ l[asyncCapacity] := by
      intro hc
      exact hnd.1 (hc ▸ hz)
    have hat : a ∉ l.take asyncCapacity := fun hc => hnd.1 (List.mem_of_mem_take hc)
    have hao : (y.outbox a).length = l.length := by
      rw [h8 a haz, ← hlen a ha, ← hf.untouched a ha hat, List.length_map]
    obtain ⟨k, z, hz', g2, g3, g4, g5, g6, g7⟩ := hy.pushes (a := a) asyncCapacity h3 (by simp [h4]) (by omega)
    have hrun : ∀ i, sc.g.parties.contains i = true → ∃ s b, z.node i = some (.running s b) := by
      intro i hi
      rw [g4, h5]
      exact hf.running i hi
    have hout : ∀ i, sc.g.parties.contains i = true → z.outbox i ≠ [] := by
      intro i hi hc
      have h9 := hlen i hi
      by_cases hia : i = a
      · subst hia
        rw [hc] at g6
        simp at g6
        omega
      · rw [g7 i hia] at hc
        by_cases hiz : i = l[asyncCapacity]
        · subst hiz
          rw [hc] at h7
          rw [hzd] at h9
          simp only [List.length_cons, List.length_nil] at h7 h9
          have : asyncCapacity = 100 := rfl
          omega
        · rw [h8 i hiz] at hc
          by_cases hit : i ∈ l.take asyncCapacity
          · have := hf.left i hit
            rw [hc, h9] at this
            have h100 : asyncCapacity = 100 := rfl
            simp only [List.length_nil] at this
            omega
          · have := hf.untouched i hi hit
            rw [hc] at this
            rw [← this] at h9
            simp only [List.map_nil, List.length_nil] at h9
            omega
    obtain ⟨kn, n, hnet⟩ := AsyncNet.reach ok hz'
    refine ⟨k, z, hz', ?_, hrun⟩
    intro x' hs
    have hne : ¬ z.Ended := by rintro (h | h) <;> rw [g2] at h <;> cases h
    have hfull : z.chan.length = asyncCapacity := by rw [g3, h4]; simp
    cases hs with
    | @start i _ _ hi hni =>
      obtain ⟨s, b, h⟩ := hrun i hi
      rw [hni] at h
      cases h
    | push _ hlt' _ => omega
    | pushErr _ he => exact hne he
    | tick hni hno _ => exact hout _ (hnet.party ok hni) hno
    | recv hni hno _ _ => exact hout _ (hnet.party ok hni) hno
    | closed _ _ _ he _ => exact hne he
    | dispatch hds =>
      cases hds with
      | recv hc _ => rw [g2] at hc; cases hc
      | close hc _ _ => rw [g2] at hc; cases hc
      | drain hc _ => rw [g2] at hc; cases hc
      | drained hc _ => rw [g2] at hc; cases hc
      | emptied hc => rw [g2] at hc; cases hc
      | pick hc _ => rw [g2] at hc; cases hc
      | noChannel hc hcp =>
        rw [g2] at hc
        cases hc
        rw [hp, ha] at hcp
        cases hcp
      | dropped hc _ hcn =>
        rw [g2] at hc
        cases hc
        obtain ⟨s, b, h⟩ := hrun a ha
        rw [hp, h] at hcn
        cases hcn
      | send hc _ _ hlt' =>
        rw [g2] at hc
        cases hc
        rw [hp, g5, h6, hf.inbox, List.length_take] at hlt'
        omega
      | poll hc _ => rw [g2] at hc; cases hc
      | polled hc _ => rw [g2] at hc; cases hc

end Manul
