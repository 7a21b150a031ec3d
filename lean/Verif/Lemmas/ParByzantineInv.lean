import Verif.Lemmas.ParByzantine

/-! # Parties using the parallel driver among parties that do not follow the protocol: the network looks like one with parties
using the sequential driver -/

namespace Manul

variable {sp : SP} {P : Proto sp}

namespace Byz

variable {z : Byz P}

open Classical in
/-- The packets of parties following the protocol. -/
noncomputable def hon (z : Byz P) (l : List (Packet sp)) : Multiset (Packet sp) := ↑(l.filter (fun p => decide (z.H p.src)))

theorem hon_nil : z.hon [] = 0 := rfl

theorem hon_append (l l' : List (Packet sp)) : z.hon (l ++ l') = z.hon l + z.hon l' := by
  simp [hon, List.filter_append]

theorem hon_cons (p : Packet sp) (l : List (Packet sp)) : z.hon (p :: l) = z.hon [p] + z.hon l := hon_append [p] l

theorem hon_one {p : Packet sp} (h : z.H p.src) : z.hon [p] = {p} := by simp [hon, h]

theorem hon_other {p : Packet sp} (h : ¬ z.H p.src) : z.hon [p] = 0 := by simp [hon, h]

theorem hon_perm {l l' : List (Packet sp)} (h : l.Perm l') : z.hon l = z.hon l' := by
  unfold hon
  exact Multiset.coe_eq_coe.2 (h.filter _)

theorem hon_all {l : List (Packet sp)} (h : ∀ p ∈ l, z.H p.src) : z.hon l = ↑l := by
  unfold hon
  rw [List.filter_eq_self.2 (fun p hp => by simpa using h p hp)]

theorem mem_hon {l : List (Packet sp)} {p : Packet sp} : p ∈ z.hon l ↔ p ∈ l ∧ z.H p.src := by simp [hon]

/-- The packet a processing task comes from. -/
def taskPacket (i : sp.Id) (vm : VerifiedMessage sp) : Packet sp := ⟨vm.sender, i, ⟨i, vm.direct, vm.echo, vm.normal⟩⟩

/-- The messages a party has to send, and those it is processing. -/
noncomputable def held (z : Byz P) (i : sp.Id) : Option (ParState P) → Multiset (Packet sp)
  | some (.running _ st) => ↑((st.outgoing.filterMap taskMessage).map (packetOf i)) + z.hon (st.tasks.map (taskPacket i))
  | _ => 0

/-- The same for all parties. -/
noncomputable def own (z : Byz P) (node : sp.Id → Option (ParState P)) : Multiset (Packet sp) :=
  (z.pl.g.parties.elems.map (fun i => z.held i (node i))).sum

theorem sum_update {α M : Type} [DecidableEq α] [AddCommMonoid M] {l : List α} (hl : l.Nodup) {i : α} (hi : i ∈ l) {σ : Type}
    (f : α → σ → M) (node : α → σ) :
    ∃ R, (l.map (fun j => f j (node j))).sum = f i (node i) + R ∧
      ∀ x, (l.map (fun j => f j (Function.update node i x j))).sum = f i x + R := by
  induction l with
  | nil => simp at hi
  | cons j l ih =>
    rw [List.nodup_cons] at hl
    by_cases hij : i = j
    · subst hij
      refine ⟨(l.map (fun j => f j (node j))).sum, by simp, ?_⟩
      intro x
      simp only [List.map_cons, List.sum_cons, Function.update_self]
      congr 2
      apply List.map_congr_left
      intro k hk
      have : k ≠ i := by rintro rfl; exact hl.1 hk
      simp [Function.update_of_ne this]
    · have hi' : i ∈ l := by
        rcases List.mem_cons.1 hi with h | h
        · exact absurd h hij
        · exact h
      obtain ⟨R, h1, h2⟩ := ih hl.2 hi'
      refine ⟨f j (node j) + R, ?_, ?_⟩
      · simp only [List.map_cons, List.sum_cons, h1]
        rw [← add_assoc, ← add_assoc, add_comm (f j (node j))]
      · intro x
        simp only [List.map_cons, List.sum_cons, h2 x, Function.update_of_ne (Ne.symm hij)]
        rw [← add_assoc, ← add_assoc, add_comm (f j (node j))]

theorem own_split {i : sp.Id} (hi : z.pl.g.parties.contains i = true) (node : sp.Id → Option (ParState P)) :
    ∃ R, z.own node = z.held i (node i) + R ∧ ∀ x, z.own (Function.update node i x) = z.held i x + R :=
  sum_update (BSet.elems_nodup _) (BSet.mem_elems.2 hi) (fun i x => z.held i x) node

/-- What a running party holds, and what it would hold if it had sent everything and processed nothing that is being processed. -/
structure NodeOk (z : Byz P) (s : Session P) (st : ParSt P) (a : Accum P) : Prop where
  acc : a = { st.accum with artifacts := a.artifacts, processing := a.processing }
  joins : Joins st.accum.artifacts st.outgoing a.artifacts
  tasks : ∀ vm ∈ st.tasks, ∃ m, vm = verifiedOf vm.sender m ∧
    Authentic vm.sender z.pl.g.sid s.roundId m.direct m.echo m.normal ∧ (¬ z.H vm.sender → z.Fair vm.sender m)
  processing : ∀ x, z.H x → st.accum.processing.contains x = true →
    st.accum.payloads.contains x = true ∨ ∃ vm ∈ st.tasks, vm.sender = x

/-- The states of a party. -/
inductive NodeRel (z : Byz P) : Option (ParState P) → Option (RunState P) → Prop where
  | idle : NodeRel z none none
  | done {r : Except LErr (Report P)} : NodeRel z (some (.done r)) (some (.done r))
  | running {s : Session P} {st : ParSt P} {a : Accum P} : z.NodeOk s st a → NodeRel z (some (.running s st)) (some (.running s a))

/-- The two networks.  What is being processed is still on the wire, what has still to be sent is already on it. -/
structure PSim (z : Byz P) (c : PNet P) (n : Net P) : Prop where
  node : ∀ i, z.NodeRel (c.node i) (n.node i)
  wire : ∃ gh, (n.wire : Multiset (Packet sp)) = z.hon c.wire + z.own c.node + gh ∧
    (gh ≠ 0 → ∃ i r, c.node i = some (.done (.error r)))
  fair : ∀ p ∈ c.wire, ¬ z.H p.src → z.Fair p.src p.message

theorem PSim.init : z.PSim PNet.init Net.init := by
  refine ⟨fun _ => .idle, ⟨0, ?_, by simp⟩, by simp [PNet.init]⟩
  have : z.own (PNet.init : PNet P).node = 0 := by
    unfold own
    apply List.sum_eq_zero
    intro x hx
    obtain ⟨i, -, rfl⟩ := List.mem_map.1 hx
    rfl
  rw [this]
  simp [PNet.init, Net.init, hon]

/-- One party changes its state. -/
theorem PSim.set {c : PNet P} {n : Net P} (h : z.PSim c n) {i : sp.Id} (hi : z.pl.g.parties.contains i = true)
    (hnd : ∀ r, c.node i ≠ some (.done r)) {st : ParState P} {r : RunState P} (hrel : z.NodeRel (some st) (some r))
    {w : List (Packet sp)} {w' : List (Packet sp)} {gx : Multiset (Packet sp)}
    (hbal : (w' : Multiset (Packet sp)) + z.hon c.wire + z.held i (c.node i) = n.wire + z.hon w + z.held i (some st) + gx)
    (hgx : gx ≠ 0 → ∃ e, st = .done (.error e)) (hf : ∀ p ∈ w, ¬ z.H p.src → z.Fair p.src p.message) :
    z.PSim ⟨Function.update c.node i (some st), w⟩ ⟨Function.update n.node i (some r), w'⟩ := by
  classical
  refine ⟨?_, ?_, hf⟩
  · intro j
    by_cases hj : j = i
    · subst hj; simpa using hrel
    · simpa [Function.update_of_ne hj] using h.node j
  · obtain ⟨gh, hw, hg⟩ := h.wire
    obtain ⟨R, h1, h2⟩ := own_split hi c.node
    refine ⟨gh + gx, ?_, ?_⟩
    · ext p
      have e1 := congrArg (Multiset.count p) hbal
      have e2 := congrArg (Multiset.count p) hw
      rw [h1] at e2
      simp only [h2, Multiset.count_add] at e1 e2 ⊢
      omega
    · intro hne
      by_cases hgh : gh = 0
      · have : gx ≠ 0 := by
          rintro rfl
          exact hne (by rw [hgh, add_zero])
        obtain ⟨e, rfl⟩ := hgx this
        exact ⟨i, e, by simp⟩
      · obtain ⟨j, e, hj⟩ := hg hgh
        refine ⟨j, e, ?_⟩
        by_cases hji : j = i
        · subst hji; exact absurd hj (hnd _)
        · simpa [Function.update_of_ne hji] using hj

/-- A party that runs in one network runs in the other. -/
theorem PSim.running {c : PNet P} {n : Net P} (h : z.PSim c n) {i : sp.Id} {s : Session P} {st : ParSt P}
    (hn : c.node i = some (.running s st)) : ∃ a, n.node i = some (.running s a) ∧ z.NodeOk s st a := by
  have := h.node i
  rw [hn] at this
  generalize n.node i = o at this
  cases this with
  | running ok => exact ⟨_, rfl, ok⟩

/-- Sublists with given elements. -/
theorem exists_sublist {α : Type} {l : List α} {D R : Multiset α} (h : (l : Multiset α) = D + R) :
    ∃ w : List α, w.Sublist l ∧ (w : Multiset α) = R := by
  induction R using Quotient.inductionOn with
  | h r =>
    have : (r : Multiset α) ≤ l := by
      rw [h]
      exact Multiset.le_add_left _ _
    obtain ⟨w, h1, h2⟩ := Multiset.coe_le.1 this
    exact ⟨w, h2, Multiset.coe_eq_coe.2 h1⟩

/-- A party ends. -/
theorem PSim.ends {c : PNet P} {n : Net P} (ok : z.Ok) (h : z.PSim c n) {G : History P} {e : sp.Id → Nat} (hi : z.NetInv G e n)
    {i : sp.Id} {s : Session P} {st : ParSt P} (hn : c.node i = some (.running s st)) {r : Except LErr (Report P)}
    (hr : ∀ rep, r = .ok rep → z.DoneOk G e i rep) {w : List (Packet sp)} {gp gx : Multiset (Packet sp)}
    (hbal : z.hon c.wire + ↑((st.outgoing.filterMap taskMessage).map (packetOf i)) = z.hon w + gp + gx)
    (hgp : ∀ p ∈ gp, p.dest = i) (hgx : gx ≠ 0 → ∃ e, r = .error e) (hf : ∀ p ∈ w, ¬ z.H p.src → z.Fair p.src p.message) :
    ∃ n', z.NetInv G e n' ∧ z.PSim ⟨Function.update c.node i (some (.done r)), w⟩ n' := by
  classical
  obtain ⟨a, hna, -⟩ := h.running hn
  have hiH := hi.who i _ hna
  have hip := ok.rob.members i hiH
  obtain ⟨gh, hw, hg⟩ := h.wire
  obtain ⟨R, h1, h2⟩ := own_split hip c.node
  have hdec : (n.wire : Multiset (Packet sp)) =
      (z.hon (st.tasks.map (taskPacket i)) + gp) + (z.hon w + gx + R + gh) := by
    ext p
    have e1 := congrArg (Multiset.count p) hbal
    have e2 := congrArg (Multiset.count p) hw
    rw [h1, hn] at e2
    simp only [held, Multiset.count_add] at e1 e2 ⊢
    omega
  obtain ⟨w', hsub, hw'⟩ := exists_sublist hdec
  refine ⟨⟨Function.update n.node i (some (.done r)), w'⟩, ?_, ?_⟩
  · have := hi.halts hiH hsub (fun p hp hd => ?_) hr
    · simpa [Net.put] using this
    · have hp' : p ∈ (n.wire : Multiset (Packet sp)) := hp
      rw [hdec, Multiset.mem_add, Multiset.mem_add] at hp'
      rcases hp' with (hp' | hp') | hp'
      · obtain ⟨hp', -⟩ := mem_hon.1 hp'
        obtain ⟨vm, -, rfl⟩ := List.mem_map.1 hp'
        exact absurd rfl hd
      · exact absurd (hgp p hp') hd
      · rw [← hw'] at hp'
        exact hp'
  · refine h.set hip (by simp [hn]) .done (gx := gx) ?_ ?_ hf
    · ext p
      have e1 := congrArg (Multiset.count p) hbal
      have e2 := congrArg (Multiset.count p) hw
      rw [h1, hn] at e2
      rw [hn, hw']
      simp only [held, Multiset.count_add, Multiset.count_zero] at e1 e2 ⊢
      omega
    · intro hne
      obtain ⟨er, rfl⟩ := hgx hne
      exact ⟨er, rfl⟩

/-- A party begins a round. -/
theorem NodeOk.begins {s : Session P} {rng : sp.Rng} {a : Accum P} {out : List (Message sp)} (hst : startRound s rng [] = .ok (a, out))
    {cs : List (VerifiedMessage sp)} (hcs : ∀ vm ∈ cs, ∃ m, vm = verifiedOf vm.sender m ∧
      Authentic vm.sender z.pl.g.sid s.roundId m.direct m.echo m.normal ∧ (¬ z.H vm.sender → z.Fair vm.sender m)) (i : sp.Id) :
    z.NodeOk s (ParSt.begin s rng cs) a ∧
      z.held i (some (.running s (ParSt.begin s rng cs))) = ↑(out.map (packetOf i)) + z.hon (cs.map (taskPacket i)) := by
  have hsend : sendAll s rng 0 s.makeAccum s.destinations.elems = .ok (a, out) := by
    unfold startRound at hst
    cases hs : sendAll s rng 0 s.makeAccum s.destinations.elems with
    | error er => simp [hs] at hst
    | ok ro =>
      obtain ⟨a1, out1⟩ := ro
      simpa [hs, foldE] using hst
  obtain ⟨B, hB, hj⟩ := Joins.of (sendAll_iff.1 ⟨out, hsend⟩)
  refine ⟨⟨?_, ?_, hcs, ?_⟩, ?_⟩
  · rw [hB]; rfl
  · have : a.artifacts = B := by rw [hB]
    rw [this]
    exact hj
  · intro x _ hx
    simp [ParSt.begin, Session.makeAccum, Accum.new] at hx
  · simp only [held, ParSt.begin, (creation_out hsend).1]

end Byz

end Manul
