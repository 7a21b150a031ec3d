import Verif.Model.MixNet
import Verif.Lemmas.ParNet

/-! # A network of parties using either driver simulates one of parties using `run_session` -/

namespace Manul

variable {sp : SP} {P : Proto sp} {sc : Scheme P} {par : sp.Id → Bool}

/-- A party using `run_session`, seen as one using `par_run_session` that has nothing left to do. -/
def MixState.embed : MixState P → ParState P
  | .seq (.running s b) => .running s ⟨b, [], []⟩
  | .seq (.done r) => .done r
  | .par st => st

/-- The network, seen as one of parties using `par_run_session`. -/
def MixNet.embed (m : MixNet P) : PNet P := ⟨fun i => (m.node i).map MixState.embed, m.wire⟩

theorem MixNet.embed_put (m : MixNet P) (i : sp.Id) (st : MixState P) (out : List (Message sp)) :
    (m.put i st out).embed = m.embed.put i st.embed out := by
  unfold MixNet.embed MixNet.put PNet.put
  congr 1
  funext j
  by_cases hj : j = i
  · subst hj
    simp
  · simp [Function.update_of_ne hj]

theorem MixNet.embed_put' (m : MixNet P) (w : List (Packet sp)) (i : sp.Id) (st : MixState P) (out : List (Message sp)) :
    (MixNet.put ⟨m.node, w⟩ i st out).embed = PNet.put ⟨m.embed.node, w⟩ i st.embed out :=
  MixNet.embed_put ⟨m.node, w⟩ i st out

/-- A sequential round is one of the parallel driver with nothing left to do. -/
theorem sim_full {s : Session P} {rng : sp.Rng} {cached : List (VerifiedMessage sp)} {l : List (sp.Id × Message sp)} {b : Accum P}
    (h : SeqRound s rng cached l b) : ParSim s rng cached l ⟨b, [], []⟩ := by
  obtain ⟨h1, h2⟩ := seqRound_loc.1 h
  refine ⟨h1, by simp, by simp, ?_⟩
  intro x r
  have h3 := h2 x
  unfold Pending
  unfold SeqLoc at h3 ⊢
  rw [h3]
  simp only [List.filter_nil, foldE]
  constructor
  · rintro ⟨u, h4, h5⟩
    rw [h4]
    exact h5
  · intro h4
    exact ⟨_, rfl, h4⟩

theorem sim_full_node {s : Session P} {rng : sp.Rng} {cached : List (VerifiedMessage sp)} {l : List (sp.Id × Message sp)} {b : Accum P}
    (h : SeqRound s rng cached l b) : NodeSim (some (.running s ⟨b, [], []⟩)) (some (.running s b)) :=
  .running h (sim_full h) (by simp) (by simp)

/-- A party using `run_session` is in the same state in the network simulated. -/
theorem node_full {s : Session P} {b : Accum P} {z : Option (RunState P)} (h : NodeSim (some (.running s ⟨b, [], []⟩)) z) :
    z = some (.running s b) ∧ ∃ rng cached l, SeqRound s rng cached l b := by
  cases h with
  | @running _ _ b' rng cached l hb hi hm hlen =>
    have h1 := sim_joins hi hb rfl
    simp only [parJoin, mapE, foldE, Except.ok.injEq] at h1
    subst h1
    exact ⟨rfl, rng, cached, l, hb⟩

/-- A party using `run_session` changes its state. -/
theorem ParNet.put_seq {k : Nat} {c : PNet P} {L L' : Ledger P} {e f e' f' : sp.Id → Nat} {n : Net P} (h : ParNet sc k c L e f n)
    {i : sp.Id} (hi : sc.g.parties.contains i = true) {st : ParState P} {rs : RunState P} {out : List (Message sp)}
    {w v : List (Packet sp)} {q : List (Packet sp)} (hu0 : unsentOf i (c.node i) = []) (ht0 : tasksOf (c.node i) = [])
    (hu1 : unsentOf i (some st) = []) (ht1 : tasksOf (some st) = []) (hsim : NodeSim (some st) (some rs))
    (hw : c.wire.Perm (q ++ w)) (hv : n.wire.Perm (q ++ v))
    (hinv : sc.NetInv L' e' f' (Net.put ⟨n.node, v⟩ i rs out))
    (hah : 1 + sc.ahead e' f' + 2 * out.length ≤ sc.ahead e f + 2 * q.length) :
    ParNet sc (k + 1) (PNet.put ⟨c.node, w⟩ i st out) L' e' f' (Net.put ⟨n.node, v⟩ i rs out) := by
  classical
  obtain ⟨rest, hu, hu'⟩ := c.unsent_split sc.g hi
  obtain ⟨more, hp, hp'⟩ := c.pending_split sc.g hi
  have hu2 := hu' w st out
  have hp2 := hp' w st out
  rw [hu0, List.nil_append] at hu
  rw [hu1, List.nil_append] at hu2
  rw [ht0] at hp
  rw [ht1] at hp2
  refine ⟨hinv, NodeSim.put h.node hsim w v out out, ?_, ?_⟩
  · rw [List.perm_iff_count]
    intro p
    have e1 := h.wire.count_eq p
    have e2 := hu.count_eq p
    have e3 := hu2.count_eq p
    have e4 := hw.count_eq p
    have e5 := hv.count_eq p
    simp only [List.count_append] at e1 e4 e5 ⊢
    rw [e3]
    simp only [Net.put, PNet.put, List.count_append]
    omega
  · have e1 := h.steps
    have e2 := hu.length_eq
    have e3 := hu2.length_eq
    have e4 := hw.length_eq
    have e5 := hv.length_eq
    simp only [List.length_append, List.length_nil] at e4 e5 hp hp2
    rw [e3, hp2]
    simp only [Net.put, List.length_append, List.length_map]
    omega

/-- All states are simulated. -/
theorem ParNet.mix_step (ok : sc.Ok) {k : Nat} {m m' : MixNet P} {L : Ledger P} {e f : sp.Id → Nat} {n : Net P}
    (h : ParNet sc k m.embed L e f n) (hs : MixStep sc.g par m m') : ∃ L' e' f' n', ParNet sc (k + 1) m'.embed L' e' f' n' := by
  classical
  cases hs with
  | @startSeq i rng rng' hi hpar hn =>
    have hc : m.embed.node i = none := by simp [MixNet.embed, hn]
    have hn' : n.node i = none := by
      have := h.node i
      rw [hc] at this
      generalize n.node i = z at this
      cases this
      rfl
    obtain ⟨L', s, a, out, h1, h2, -, h4⟩ := h.inv.starts ok hi hn' rng rng'
    obtain ⟨he, hf, -⟩ := h.inv.idle i hn'
    rw [h1, MixNet.embed_put]
    have hb := h4.bound i
    simp only [Function.update_self] at hb
    have hah := Scheme.ahead_step (sc := sc) (e := e) (f := f) hi (e' := 0 + 1) (f' := 0) (by omega) (by omega)
    have hl := Scheme.dests_length ok hi (h4.entered (j := i) (t := 0) (by simp))
    have e8 : sc.size = sc.g.parties.elems.length := rfl
    have hsr : ∃ rng₀ cached, SeqRound s rng₀ cached [] a := by
      unfold Group.startNode at h1
      cases hnew : Session.new rng sc.g.sid (sc.g.signer i) (sc.g.ep i) with
      | error err => simp [hnew] at h1
      | ok s₀ =>
        simp only [hnew, start] at h1
        obtain ⟨rfl, h5, -⟩ := sim_enter h1
        exact ⟨_, _, h5⟩
    obtain ⟨rng₀, cached, hsr⟩ := hsr
    exact ⟨_, _, _, _, h.put_seq (q := []) hi (by rw [hc]; rfl) (by rw [hc]; rfl) rfl rfl (sim_full_node hsr) (List.Perm.refl _)
      (List.Perm.refl _) h4 (by simp only [List.length_nil]; simp only [Nat.zero_add] at hah; omega)⟩
  | @tickSeq i st st' rng out hn hst =>
    cases st with
    | done r => simp [Manul.step] at hst
    | running s b =>
      have hc : m.embed.node i = some (.running s ⟨b, [], []⟩) := by simp [MixNet.embed, hn, MixState.embed]
      have hsim := h.node i
      rw [hc] at hsim
      obtain ⟨hn', rng₀, cached, l, hb⟩ := node_full hsim
      have hi := h.inv.party i _ hn'
      obtain ⟨hef, -, ha⟩ := h.inv.running i s b hn'
      have hlt := Scheme.lt_nxt (sc := sc) (f i) i
      have hcf : b.canFinalize = .yes := by
        rcases ha.canFinalize with ⟨hy, -⟩ | ⟨hy, -⟩
        · exact hy
        · simp [Manul.step, hy] at hst
      simp only [Manul.step, hcf, Option.some.injEq] at hst
      rw [MixNet.embed_put]
      rcases h.inv.ticks ok hn' rng hcf with ⟨L', s', a', out', h1, h2, -, h4⟩ | ⟨r, h1, hend, h4⟩
      · rw [h1] at hst
        cases hst
        have hsr : ∃ rng₀ cached, SeqRound s' rng₀ cached [] a' := by
          unfold finishRound at h1
          cases hfz : s.finalizeRound (sp.fork rng 0) b with
          | error err => simp [hfz] at h1
          | ok o =>
            cases o with
            | finished r => simp [hfz] at h1
            | anotherRound s₁ cached' =>
              simp only [hfz] at h1
              obtain ⟨rfl, h5, -⟩ := sim_enter h1
              exact ⟨_, _, h5⟩
        obtain ⟨rng₁, cached₁, hsr⟩ := hsr
        have hbd := h4.bound i
        simp only [Function.update_self] at hbd
        have hah := Scheme.ahead_step (sc := sc) (e := e) (f := f) hi (e' := sc.nxt (f i) i + 1) (f' := sc.nxt (f i) i) (by omega) (by omega)
        have hl := Scheme.dests_length ok hi (h4.entered (j := i) (t := sc.nxt (f i) i) (by simp))
        have e8 : sc.size = sc.g.parties.elems.length := rfl
        exact ⟨_, _, _, _, h.put_seq (q := []) hi (by rw [hc]; rfl) (by rw [hc]; rfl) rfl rfl (sim_full_node hsr) (List.Perm.refl _)
          (List.Perm.refl _) h4 (by simp only [List.length_nil]; omega)⟩
      · rw [h1] at hst
        cases hst
        have hah := Scheme.ahead_step (sc := sc) (e := e) (f := f) hi (e' := 2 * sc.n) (f' := 2 * sc.n) (by omega) (by omega)
        exact ⟨_, _, _, _, h.put_seq (q := []) hi (by rw [hc]; rfl) (by rw [hc]; rfl) rfl rfl .done (List.Perm.refl _)
          (List.Perm.refl _) h4 (by simp only [List.length_nil]; omega)⟩
  | @deliverSeq st st' p w w' out hw hn hst =>
    cases st with
    | done r => simp [Manul.step] at hst
    | running s b =>
      have hc : m.embed.node p.dest = some (.running s ⟨b, [], []⟩) := by simp [MixNet.embed, hn, MixState.embed]
      have hsim := h.node p.dest
      rw [hc] at hsim
      obtain ⟨hn', rng₀, cached, l, hb⟩ := node_full hsim
      have hi := h.inv.party _ _ hn'
      have hmem : p ∈ n.wire := by
        rw [h.wire.mem_iff]
        simp [MixNet.embed, hw]
      obtain ⟨v, v', hv⟩ := List.append_of_mem hmem
      obtain ⟨b', hd, hinv⟩ := h.inv.receive ok hv hn'
      have hst' : st' = .running s b' ∧ out = [] := by
        simp only [Manul.step] at hst
        split at hst <;> simp_all
      obtain ⟨rfl, rfl⟩ := hst'
      rw [MixNet.embed_put']
      refine ⟨_, _, _, _, h.put_seq (q := [p]) hi (by rw [hc]; rfl) (by rw [hc]; rfl) rfl rfl (sim_full_node (seqRound_snoc hb hd)) ?_ ?_ hinv
        (by simp only [List.length_nil, List.length_cons]; omega)⟩
      · show m.wire.Perm _
        rw [hw]
        exact List.perm_middle
      · rw [hv]
        exact List.perm_middle
  | @startPar i rng rng' hi hpar hn =>
    rw [MixNet.embed_put]
    exact h.step ok (.start rng rng' hi (by simp [MixNet.embed, hn]))
  | @tickPar i s st st' rng hn hst =>
    rw [MixNet.embed_put]
    exact h.step ok (.tick (by simp [MixNet.embed, hn, MixState.embed]) hst)
  | @task i s st st' o hn ho hst =>
    rw [MixNet.embed_put]
    exact h.step ok (.task (by simp [MixNet.embed, hn, MixState.embed]) ho hst)
  | @deliverPar s st st' p w w' hw hn hst =>
    rw [MixNet.embed_put']
    exact h.step ok (.deliver hw (by simp [MixNet.embed, hn, MixState.embed]) hst)

theorem ParNet.mix (ok : sc.Ok) {k : Nat} {m : MixNet P} (h : MixTakes sc.g par k m) : ∃ L e f n, ParNet sc k m.embed L e f n := by
  induction h with
  | init => exact ⟨_, _, _, _, ParNet.init⟩
  | step _ hs ih =>
    obtain ⟨L, e, f, n, h⟩ := ih
    exact h.mix_step ok hs

/-- If nothing can happen in the network, nothing can happen in the one it is seen as. -/
theorem mix_stuck {g : Group P} {m : MixNet P} (hstuck : ∀ m', ¬ MixStep g par m m') (c' : PNet P) : ¬ PNetStep g m.embed c' := by
  intro hs
  have hnode : ∀ {i s st}, m.embed.node i = some (.running s st) →
      m.node i = some (.par (.running s st)) ∨ ∃ b, m.node i = some (.seq (.running s b)) ∧ st = ⟨b, [], []⟩ := by
    intro i s st hi
    simp only [MixNet.embed, Option.map_eq_some_iff] at hi
    obtain ⟨st0, h1, h2⟩ := hi
    rcases st0 with (⟨s0, b⟩ | r) | st0
    · simp only [MixState.embed, ParState.running.injEq] at h2
      obtain ⟨rfl, rfl⟩ := h2
      exact Or.inr ⟨b, h1, rfl⟩
    · simp [MixState.embed] at h2
    · simp only [MixState.embed] at h2
      subst h2
      exact Or.inl h1
  cases hs with
  | @start i rng₁ rng₂ hi hn =>
    have hn' : m.node i = none := by simpa [MixNet.embed] using hn
    cases hp : par i with
    | false => exact hstuck _ (.startSeq rng₁ rng₂ hi hp hn')
    | true => exact hstuck _ (.startPar rng₁ rng₂ hi hp hn')
  | @tick i s st st' rng₁ hn hst =>
    rcases hnode hn with h1 | ⟨b, h1, rfl⟩
    · exact hstuck _ (.tickPar h1 hst)
    · cases hc : b.canFinalize with
      | notYet => simp [parStep, hc] at hst
      | yes => exact hstuck _ (.tickSeq (rng := rng₁) (st' := (finishRound s b rng₁).1) (out := (finishRound s b rng₁).2) h1 (by simp only [step, hc]))
      | never => exact hstuck _ (.tickSeq (rng := rng₁) h1 (by simp only [step, hc]; rfl))
  | @task i s st st' o hn ho hst =>
    rcases hnode hn with h1 | ⟨b, h1, rfl⟩
    · exact hstuck _ (.task h1 ho hst)
    · cases o with
      | deliver => exact ho
      | complete j => simp [ParOp.Enabled] at ho
      | send j => simp [ParOp.Enabled] at ho
  | @deliver s st st' p w w' hw hn hst =>
    rcases hnode hn with h1 | ⟨b, h1, rfl⟩
    · exact hstuck _ (.deliverPar hw h1 hst)
    · cases hc : b.canFinalize with
      | notYet =>
        cases hd : deliver s b p.src p.message with
        | error er => exact hstuck _ (.deliverSeq hw h1 (by simp only [step, hc, hd]; rfl))
        | ok b' => exact hstuck _ (.deliverSeq hw h1 (by simp only [step, hc, hd]; rfl))
      | yes => simp [parStep, hc] at hst
      | never => simp [parStep, hc] at hst

end Manul
