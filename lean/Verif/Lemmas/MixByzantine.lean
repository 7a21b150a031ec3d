import Verif.Spec.MixByzantine
import Verif.Lemmas.MixNet
import Verif.Lemmas.ParByzantineStall

/-! # Parties using either driver among parties that do not follow the protocol -/

namespace Manul

variable {sp : SP} {P : Proto sp} {par : sp.Id → Bool}

namespace Byz

variable {z : Byz P}

/-- All messages of a round are sent. -/
theorem PSim.flush (ok : z.Ok) {c : PNet P} {n : Net P} (h : z.PSim c n) {G : History P} {e : sp.Id → Nat} (hi : z.NetInv G e n)
    {i : sp.Id} {s : Session P} {st : ParSt P} (hn : c.node i = some (.running s st)) {a : Accum P}
    (hf : foldE outApply st.accum st.outgoing = .ok a) :
    z.PSim ⟨Function.update c.node i (some (.running s ⟨a, st.tasks, []⟩)),
      c.wire ++ (st.outgoing.filterMap taskMessage).map (packetOf i)⟩ n := by
  obtain ⟨a', hna, hok⟩ := h.running hn
  have hH := hi.who i _ hna
  have hip := ok.rob.members i hH
  have hj := hok.joins st.accum rfl
  rw [hf] at hj
  simp only [Except.ok.injEq] at hj
  subst hj
  rw [← net_self hna]
  refine h.set (st := .running s ⟨{ st.accum with artifacts := a'.artifacts }, st.tasks, []⟩) (r := .running s a') hip (by simp [hn]) (.running ⟨?_, ?_, hok.tasks, hok.processing⟩) (gx := 0) ?_ (by simp) ?_
  · exact hok.acc
  · intro d hd
    simp only [foldE]
    rw [← hd]
  · rw [hn]
    simp only [held, hon_append, hon_packets hH, List.filterMap_nil, List.map_nil]
    simp only [Multiset.coe_nil]
    abel
  · intro p hp hps
    rcases List.mem_append.1 hp with hp | hp
    · exact h.fair p hp hps
    · obtain ⟨m, -, rfl⟩ := List.mem_map.1 hp
      exact absurd hH hps

/-- All messages received are processed. -/
theorem PSim.drain (ok : z.Ok) {c : PNet P} {n : Net P} (h : z.PSim c n) {G : History P} {e : sp.Id → Nat} (hi : z.NetInv G e n)
    {i : sp.Id} {s : Session P} {a a' : Accum P} {cs : List (VerifiedMessage sp)} (hn : c.node i = some (.running s ⟨a, cs, []⟩))
    (hf : foldE (applyVerified s) a cs = .ok a') :
    ∃ n', z.NetInv G e n' ∧ z.PSim ⟨Function.update c.node i (some (.running s ⟨a', [], []⟩)), c.wire⟩ n' := by
  induction cs generalizing c n a with
  | nil =>
    simp only [foldE, Except.ok.injEq] at hf
    subst hf
    refine ⟨n, hi, ?_⟩
    rw [← hn, Function.update_eq_self]
    exact h
  | cons vm cs ih =>
    simp only [foldE] at hf
    cases hv : applyVerified s a vm with
    | error er => simp [hv] at hf
    | ok a1 =>
      simp only [hv] at hf
      obtain ⟨n1, h1, h2⟩ := h.completes ok hi hn (k := 0) (vm := vm) rfl hv
      obtain ⟨n2, h3, h4⟩ := ih h2 h1 (a := a1) (by simp) hf
      refine ⟨n2, h3, ?_⟩
      simpa [Function.update_idem] using h4

/-- A party that has spawned its tasks does what the sequential driver does. -/
theorem PSim.enters (ok : z.Ok) {c : PNet P} {n : Net P} (h : z.PSim c n) {G : History P} {e : sp.Id → Nat} (hi : z.NetInv G e n)
    {i : sp.Id} {s : Session P} {rng : sp.Rng} {cs : List (VerifiedMessage sp)} (hn : c.node i = some (.running s (ParSt.begin s rng cs))) :
    ∃ n', z.NetInv G e n' ∧ z.PSim ⟨Function.update c.node i (some (MixState.seq (enterRound s rng cs).1).embed),
      c.wire ++ (enterRound s rng cs).2.map (packetOf i)⟩ n' := by
  have hfail : ∀ er, ∃ n', z.NetInv G e n' ∧ z.PSim ⟨Function.update c.node i (some (.done (.error er))), c.wire ++ [].map (packetOf i)⟩ n' := by
    intro er
    exact h.ends ok hi hn (by simp) (gp := 0)
      (gx := ↑(((ParSt.begin s rng cs).outgoing.filterMap taskMessage).map (packetOf i))) (by simp) (by simp)
      (fun _ => ⟨er, rfl⟩) (by simpa using h.fair)
  unfold enterRound startRound
  cases hs : sendAll s rng 0 s.makeAccum s.destinations.elems with
  | error er => exact hfail er
  | ok ro =>
    obtain ⟨a, out⟩ := ro
    simp only
    cases hf : foldE (applyVerified s) a cs with
    | error er => exact hfail er
    | ok a' =>
      have h1 := h.flush ok hi hn (a := a) (sendAll_iff.1 ⟨out, hs⟩)
      obtain ⟨n2, h3, h4⟩ := h1.drain ok hi (a := a) (cs := cs) (i := i) (s := s) (by simp [ParSt.begin]) hf
      refine ⟨n2, h3, ?_⟩
      have ho : (ParSt.begin s rng cs).outgoing.filterMap taskMessage = out := (creation_out hs).1
      simp only [Function.update_idem, ho] at h4
      exact h4

/-- A party using `run_session` starts. -/
theorem PSim.seqStarts (ok : z.Ok) (env : sp.EnvOk) (dm : DirectsMade z.pl z.H) {c : PNet P} {n : Net P} (h : z.PSim c n)
    {G : History P} {e : sp.Id → Nat} (hi : z.NetInv G e n) {i : sp.Id} (hH : z.H i) (hn : c.node i = Option.none) (rng rng' : sp.Rng) :
    ∃ G' e' n', z.NetInv G' e' n' ∧
      z.PSim (c.put i (MixState.seq (z.pl.g.startNode i rng rng').1).embed (z.pl.g.startNode i rng rng').2) n' ∧ Moves e e' n' i := by
  obtain ⟨G', e', n', h1, h2, hm⟩ := h.starts ok env dm hi hH hn rng rng'
  unfold Group.startPar at h2
  unfold Group.startNode
  cases hnew : Session.new rng z.pl.g.sid (z.pl.g.signer i) (z.pl.g.ep i) with
  | error er =>
    simp only [hnew] at h2
    exact ⟨G', e', n', h1, h2, hm⟩
  | ok s =>
    simp only [hnew] at h2
    obtain ⟨n2, h3, h4⟩ := h2.enters ok h1 (i := i) (s := s) (rng := rng') (cs := []) (by simp [PNet.put])
    have he : (⟨Function.update (c.put i (.running s (ParSt.begin s rng' [])) []).node i (some (MixState.seq (enterRound s rng' []).1).embed),
        (c.put i (.running s (ParSt.begin s rng' [])) []).wire ++ (enterRound s rng' []).2.map (packetOf i)⟩ : PNet P) =
        c.put i (MixState.seq (start s rng').1).embed (start s rng').2 := by
      simp only [PNet.put, Function.update_idem, List.map_nil, List.append_nil]
      rfl
    rw [he] at h4
    refine ⟨G', e', n2, h3, h4, hm.1, ?_⟩
    have hnode := h4.node i
    simp only [PNet.put, Function.update_self] at hnode
    generalize hz : n2.node i = o at hnode
    generalize hy : (MixState.seq (start s rng').1).embed = y at hnode
    cases hnode with
    | done => exact Or.inl ⟨_, rfl⟩
    | @running s1 st1 a1 hok =>
      refine Or.inr ⟨s1, a1, rfl, ?_⟩
      rcases hm.2 with ⟨r, hr⟩ | ⟨_, _, -, g⟩
      · have := h2.done.2 hr
        simp [PNet.put] at this
      · exact g

/-- A party using `run_session` ends its round. -/
theorem PSim.seqTicks (ok : z.Ok) (env : sp.EnvOk) (dm : DirectsMade z.pl z.H) {c : PNet P} {n : Net P} (h : z.PSim c n)
    {G : History P} {e : sp.Id → Nat} (hi : z.NetInv G e n) {i : sp.Id} {s : Session P} {b : Accum P} {st' : RunState P} {rng : sp.Rng}
    {out : List (Message sp)} (hn : c.node i = some (.running s ⟨b, [], []⟩))
    (hst : Manul.step (.running s b) (.tick rng) = some (st', out)) :
    ∃ G' e' n', z.NetInv G' e' n' ∧ z.PSim (c.put i (MixState.seq st').embed out) n' ∧ Moves e e' n' i := by
  have hp : ∀ rng, parOut (⟨b, [], []⟩ : ParSt P) (.tick rng) = [] := fun _ => rfl
  cases hc : b.canFinalize with
  | notYet => simp [Manul.step, hc] at hst
  | never =>
    simp only [Manul.step, hc, Option.some.injEq, Prod.mk.injEq] at hst
    obtain ⟨rfl, rfl⟩ := hst
    have := h.ticks ok env dm hi (rng := rng) hn (by simp only [parStep, hc]; rfl)
    exact this
  | yes =>
    simp only [Manul.step, hc, Option.some.injEq, finishRound] at hst
    have hps : parStep (.running s ⟨b, [], []⟩) (.tick rng) = some (parFinish s ⟨b, [], []⟩ rng) := by simp only [parStep, hc]
    obtain ⟨G', e', n', h1, h2, hm⟩ := h.ticks ok env dm hi hn hps
    rw [hp] at h2
    unfold parFinish at h2
    have hj : parJoin (⟨b, [], []⟩ : ParSt P) = .ok b := rfl
    simp only [hj] at h2
    cases hf : s.finalizeRound (sp.fork rng 0) b with
    | error er =>
      simp only [hf, Prod.mk.injEq] at hst h2
      obtain ⟨rfl, rfl⟩ := hst
      exact ⟨G', e', n', h1, h2, hm⟩
    | ok o =>
      cases o with
      | finished r =>
        simp only [hf, Prod.mk.injEq] at hst h2
        obtain ⟨rfl, rfl⟩ := hst
        exact ⟨G', e', n', h1, h2, hm⟩
      | anotherRound s1 cs =>
        simp only [hf] at hst h2
        obtain ⟨n2, h3, h4⟩ := h2.enters ok h1 (i := i) (s := s1) (rng := sp.fork rng 1) (cs := cs) (by simp [PNet.put])
        have he : (⟨Function.update (c.put i (.running s1 (ParSt.begin s1 (sp.fork rng 1) cs)) []).node i
            (some (MixState.seq (enterRound s1 (sp.fork rng 1) cs).1).embed),
            (c.put i (.running s1 (ParSt.begin s1 (sp.fork rng 1) cs)) []).wire ++
              (enterRound s1 (sp.fork rng 1) cs).2.map (packetOf i)⟩ : PNet P) =
            c.put i (MixState.seq st').embed out := by
          rw [hst]
          simp only [PNet.put, Function.update_idem, List.map_nil, List.append_nil]
          rfl
        rw [he] at h4
        refine ⟨G', e', n2, h3, h4, hm.1, ?_⟩
        have hnode := h4.node i
        simp only [PNet.put, Function.update_self] at hnode
        generalize hz : n2.node i = o at hnode
        generalize hy : (MixState.seq st').embed = y at hnode
        cases hnode with
        | done => exact Or.inl ⟨_, rfl⟩
        | @running s1 st1 a1 hok =>
          refine Or.inr ⟨s1, a1, rfl, ?_⟩
          rcases hm.2 with ⟨r, hr⟩ | ⟨_, _, -, g⟩
          · have := h2.done.2 hr
            simp [PNet.put] at this
          · exact g

/-- A party using `run_session` receives a message. -/
theorem PSim.seqDelivers (ok : z.Ok) {c : PNet P} {n : Net P} (h : z.PSim c n) {G : History P} {e : sp.Id → Nat} (hi : z.NetInv G e n)
    {p : Packet sp} {w w' : List (Packet sp)} (hw : c.wire = w ++ p :: w') {s : Session P} {b : Accum P} {st' : RunState P}
    {out : List (Message sp)} (hn : c.node p.dest = some (.running s ⟨b, [], []⟩))
    (hst : Manul.step (.running s b) (.deliver p.src p.message) = some (st', out)) :
    (∃ n', z.NetInv G e n' ∧ z.PSim (PNet.put ⟨c.node, w ++ w'⟩ p.dest (MixState.seq st').embed out) n') ∧ out = [] ∧
      ((∃ r, st' = .done r) ∨ ∃ b', st' = .running s b') := by
  cases hc : b.canFinalize with
  | yes => simp [Manul.step, hc] at hst
  | never => simp [Manul.step, hc] at hst
  | notYet =>
    simp only [Manul.step, hc, deliver] at hst
    have hpar : ∀ x, parOp s ⟨b, [], []⟩ (.deliver p.src p.message) = x →
        parStep (.running s ⟨b, [], []⟩) (.op (.deliver p.src p.message)) = some (match x with
          | .error er => .done (.error er)
          | .ok st1 => .running s st1) := by
      intro x hx
      simp only [parStep, hc, hx]
      cases x <;> rfl
    cases hpre : s.preprocess b p.src p.message with
    | error er =>
      simp only [hpre, Option.some.injEq, Prod.mk.injEq] at hst
      obtain ⟨rfl, rfl⟩ := hst
      exact ⟨h.delivers ok hi hw hn (hpar (.error er) (by simp only [parOp, hpre])), rfl, Or.inl ⟨_, rfl⟩⟩
    | ok ro =>
      obtain ⟨a1, o⟩ := ro
      simp only [hpre] at hst
      cases ho : o.ok? with
      | none =>
        simp only [ho, Option.some.injEq, Prod.mk.injEq] at hst
        obtain ⟨rfl, rfl⟩ := hst
        exact ⟨h.delivers ok hi hw hn (hpar (.ok ⟨a1, [], []⟩) (by simp only [parOp, hpre, ho])), rfl, Or.inr ⟨_, rfl⟩⟩
      | some vm =>
        simp only [ho] at hst
        obtain ⟨n1, h1, h2⟩ := h.delivers ok hi hw hn (hpar (.ok ⟨a1, [vm], []⟩) (by simp [parOp, hpre, ho]))
        cases hv : applyVerified s a1 vm with
        | error er =>
          simp only [hv, Option.some.injEq, Prod.mk.injEq] at hst
          obtain ⟨rfl, rfl⟩ := hst
          refine ⟨?_, rfl, Or.inl ⟨_, rfl⟩⟩
          obtain ⟨n2, h3, h4⟩ := h2.ends ok h1 (i := p.dest) (s := s) (st := ⟨a1, [vm], []⟩) (by simp [PNet.put]) (r := .error er) (by simp)
            (w := (PNet.put ⟨c.node, w ++ w'⟩ p.dest (.running s ⟨a1, [vm], []⟩) []).wire) (gp := 0) (gx := 0) (by simp) (by simp) (by simp) h2.fair
          exact ⟨n2, h3, by simpa [PNet.put, Function.update_idem, MixState.embed] using h4⟩
        | ok a2 =>
          simp only [hv, Option.some.injEq, Prod.mk.injEq] at hst
          obtain ⟨rfl, rfl⟩ := hst
          refine ⟨?_, rfl, Or.inr ⟨_, rfl⟩⟩
          obtain ⟨n2, h3, h4⟩ := h2.completes ok h1 (i := p.dest) (s := s) (st := ⟨a1, [vm], []⟩) (by simp [PNet.put]) (k := 0) (vm := vm) rfl hv
          exact ⟨n2, h3, by simpa [PNet.put, Function.update_idem, MixState.embed] using h4⟩

/-- Every step the parties following the protocol make has a counterpart and brings them closer to the end. -/
theorem PSim.mix_less (ok : z.Ok) (env : sp.EnvOk) (dm : DirectsMade z.pl z.H) {m m' : MixNet P} {n : Net P} (h : z.PSim m.embed n)
    {G : History P} {e : sp.Id → Nat} (hi : z.NetInv G e n) (hst : MixByzStep z.pl.g z.H par (fun _ => False) m m') :
    ∃ G' e' n', z.NetInv G' e' n' ∧ z.PSim m'.embed n' ∧
      Prod.Lex (· < ·) (· < ·) (z.allLeft e' m'.embed, z.allLoad m'.embed) (z.allLeft e m.embed, z.allLoad m.embed) := by
  have henter : ∀ {i : sp.Id} {st' : ParState P} {out : List (Message sp)} {G' : History P} {e' : sp.Id → Nat} {n' : Net P}, z.H i →
      (∀ r, m.embed.node i ≠ some (.done r)) → z.NetInv G' e' n' → z.PSim (m.embed.put i st' out) n' → Moves e e' n' i →
      ∃ G' e' n', z.NetInv G' e' n' ∧ z.PSim (m.embed.put i st' out) n' ∧
        Prod.Lex (· < ·) (· < ·) (z.allLeft e' (m.embed.put i st' out), z.allLoad (m.embed.put i st' out))
          (z.allLeft e m.embed, z.allLoad m.embed) := by
    intro i st' out G' e' n' hH hn h1 h2 hm
    refine ⟨G', e', n', h1, h2, Prod.Lex.left _ _ (allLeft_less ok hH hn hm.1 (hi.bound i) ?_)⟩
    rcases hm.2 with ⟨r, hr⟩ | ⟨_, _, -, h4⟩
    · have := h2.done.2 hr
      simp only [PNet.put, Function.update_self, Option.some.injEq] at this
      exact Or.inl ⟨r, this⟩
    · exact Or.inr h4
  cases hst with
  | @startSeq i rng rng' hH hp hn =>
    have hc : m.embed.node i = Option.none := by simp [MixNet.embed, hn]
    rw [MixNet.embed_put]
    obtain ⟨G', e', n', h1, h2, hm⟩ := h.seqStarts ok env dm hi hH hc rng rng'
    exact henter hH (by simp [hc]) h1 h2 hm
  | @tickSeq i st st' rng out hn hs =>
    cases st with
    | done r => simp [Manul.step] at hs
    | running s b =>
      have hc : m.embed.node i = some (.running s ⟨b, [], []⟩) := by simp [MixNet.embed, hn, MixState.embed]
      obtain ⟨a, hna, -⟩ := h.running hc
      rw [MixNet.embed_put]
      obtain ⟨G', e', n', h1, h2, hm⟩ := h.seqTicks ok env dm hi hc hs
      exact henter (hi.who _ _ hna) (by simp [hc]) h1 h2 hm
  | @deliverSeq st st' p w w' out hw hn hs =>
    cases st with
    | done r => simp [Manul.step] at hs
    | running s b =>
      have hc : m.embed.node p.dest = some (.running s ⟨b, [], []⟩) := by simp [MixNet.embed, hn, MixState.embed]
      obtain ⟨a, hna, -⟩ := h.running hc
      have hH := hi.who _ _ hna
      rw [MixNet.embed_put']
      obtain ⟨⟨n', h1, h2⟩, rfl, hcase⟩ := h.seqDelivers ok hi (w := w) (w' := w') hw hc hs
      refine ⟨G, e, n', h1, h2, ?_⟩
      rcases hcase with ⟨r, rfl⟩ | ⟨b', rfl⟩
      · exact Prod.Lex.left _ _ (allLeft_less ok hH (by simp [hc]) (fun _ _ => rfl) (hi.bound _) (Or.inl ⟨r, rfl⟩))
      · obtain ⟨g1, g2⟩ := allLoad_less (e := e) (st1 := ⟨b', [], []⟩) (w := w ++ w' ++ []) ok hH hc (by
          have : m.embed.wire = w ++ p :: w' := hw
          rw [this]
          simp)
        exact lex_right g1 g2
  | @startPar i rng rng' hH hp hn =>
    rw [MixNet.embed_put]
    exact h.less ok env dm hi (.start rng rng' hH (by simp [MixNet.embed, hn]))
  | @tickPar i s st st' rng hn hs =>
    rw [MixNet.embed_put]
    exact h.less ok env dm hi (.tick (by simp [MixNet.embed, hn, MixState.embed]) hs)
  | @task i s st st' o hn ho hs =>
    rw [MixNet.embed_put]
    exact h.less ok env dm hi (.task (by simp [MixNet.embed, hn, MixState.embed]) ho hs)
  | @deliverPar s st st' p w w' hw hn hs =>
    rw [MixNet.embed_put']
    exact h.less ok env dm hi (.deliver hw (by simp [MixNet.embed, hn, MixState.embed]) hs)
  | inject _ hf => exact absurd hf id

end Byz

/-- A step is one of the parties following the protocol or one of the others. -/
theorem MixByzStep.own_or {g : Group P} {H : sp.Id → Prop} {adv : Packet sp → Prop} {m m' : MixNet P} (h : MixByzStep g H par adv m m') :
    MixByzStep g H par (fun _ => False) m m' ∨ ∃ p, ¬ H p.src ∧ adv p ∧ m' = ⟨m.node, m.wire ++ [p]⟩ := by
  cases h with
  | startSeq rng rng' h1 h2 h3 => exact Or.inl (.startSeq rng rng' h1 h2 h3)
  | tickSeq h1 h2 => exact Or.inl (.tickSeq h1 h2)
  | deliverSeq h1 h2 h3 => exact Or.inl (.deliverSeq h1 h2 h3)
  | startPar rng rng' h1 h2 h3 => exact Or.inl (.startPar rng rng' h1 h2 h3)
  | tickPar h1 h2 => exact Or.inl (.tickPar h1 h2)
  | task h1 h2 h3 => exact Or.inl (.task h1 h2 h3)
  | deliverPar h1 h2 h3 => exact Or.inl (.deliverPar h1 h2 h3)
  | inject h1 h2 => exact Or.inr ⟨_, h1, h2, rfl⟩

theorem MixByzStep.mono {g : Group P} {H : sp.Id → Prop} {adv adv' : Packet sp → Prop} (h : ∀ p, adv p → adv' p) {m m' : MixNet P}
    (hs : MixByzStep g H par adv m m') : MixByzStep g H par adv' m m' := by
  cases hs with
  | startSeq rng rng' h1 h2 h3 => exact .startSeq rng rng' h1 h2 h3
  | tickSeq h1 h2 => exact .tickSeq h1 h2
  | deliverSeq h1 h2 h3 => exact .deliverSeq h1 h2 h3
  | startPar rng rng' h1 h2 h3 => exact .startPar rng rng' h1 h2 h3
  | tickPar h1 h2 => exact .tickPar h1 h2
  | task h1 h2 h3 => exact .task h1 h2 h3
  | deliverPar h1 h2 h3 => exact .deliverPar h1 h2 h3
  | inject h1 h2 => exact .inject h1 (h _ h2)

theorem MixByzReach.steps {g : Group P} {H : sp.Id → Prop} {adv : Packet sp → Prop} {m m' : MixNet P} (h : MixByzReach g H par adv m)
    (hs : Relation.ReflTransGen (MixByzStep g H par (fun _ => False)) m m') : MixByzReach g H par adv m' := by
  induction hs with
  | refl => exact h
  | tail _ hs ih => exact .step ih (hs.mono (fun _ hf => absurd hf id))

namespace Byz

variable {z : Byz P}

theorem PSim.mix (ok : z.Ok) (env : sp.EnvOk) (dm : DirectsMade z.pl z.H) {adv : Packet sp → Prop}
    (hadv : ∀ p, ¬ z.H p.src → adv p → z.Fair p.src p.message) {m : MixNet P} (h : MixByzReach z.pl.g z.H par adv m) :
    ∃ G e n, z.NetInv G e n ∧ z.PSim m.embed n := by
  induction h with
  | init => exact ⟨_, _, _, NetInv.init, PSim.init⟩
  | step _ hs ih =>
    obtain ⟨G, e, n, h1, h2⟩ := ih
    rcases hs.own_or with hs | ⟨p, hp, ha, rfl⟩
    · obtain ⟨G', e', n', g1, g2, -⟩ := h2.mix_less ok env dm h1 hs
      exact ⟨G', e', n', g1, g2⟩
    · exact h2.step ok env dm hadv h1 (.inject hp ha)

/-- They cannot go on forever by themselves. -/
theorem PSim.mix_acc (ok : z.Ok) (env : sp.EnvOk) (dm : DirectsMade z.pl z.H) {m : MixNet P} {n : Net P} (h : z.PSim m.embed n)
    {G : History P} {e : sp.Id → Nat} (hi : z.NetInv G e n) :
    Acc (fun m' m => MixByzStep z.pl.g z.H par (fun _ => False) m m') m := by
  have wf : WellFounded (Prod.Lex (· < ·) (· < ·) : Nat × Nat → Nat × Nat → Prop) :=
    WellFounded.prod_lex Nat.lt_wfRel.wf Nat.lt_wfRel.wf
  generalize hw : (z.allLeft e m.embed, z.allLoad m.embed) = w
  induction w using wf.induction generalizing G e n m with
  | _ w ih =>
    refine Acc.intro _ (fun m' hm => ?_)
    obtain ⟨G', e', n', h1, h2, hl⟩ := h.mix_less ok env dm hi hm
    exact ih _ (hw ▸ hl) h2 h1 rfl

end Byz

end Manul
